import Verif.Reach.LiveCase

/-! C136: what `C136_live_partial` asks of the connections is needed. -/

namespace Verif.Reach

open Verif.Await Verif.Client Verif.Server Verif.Http
open Verif.Ask (asking plain_of)

/-- Both pings are handled; the connection for the answer to the first fails. -/
def lostTrip : List (Op Empty Nat) :=
  heedTrip ++ [.wire (.begin 2), .wire (.serve 1 0 [] demoSays true true []), .wire (.failEarly ⟨none, true, true⟩ 1), .go 0]

def lostRun (t : Nat) : Op Empty Nat :=
  match lostTrip[t]? with
  | some op => op
  | none => liveTurn (pickFrom (t / 7)) (t % 7)

theorem lostRun_late {t : Nat} (h : 29 ≤ t) : lostRun t = liveTurn (pickFrom (t / 7)) (t % 7) := by
  have : lostTrip[t]? = none := List.getElem?_eq_none_iff.2 (show lostTrip.length ≤ t from h)
  unfold lostRun
  rw [this]

theorem lostRun_turn (j r u : Nat) (hr : r < 7) : ∃ v, u ≤ v ∧ lostRun v = liveTurn j r := by
  obtain ⟨n, h1, h2⟩ := pickFrom_all j (u + 29)
  refine ⟨7 * n + r, by omega, ?_⟩
  rw [lostRun_late (by omega), show (7 * n + r) / 7 = n by omega, show (7 * n + r) % 7 = r by omega, h2]

abbrev lostAt (t : Nat) : World Empty Nat := states demoCfg (World.init startedSelf readyCli) lostRun t

/-- The transports have nothing left to do. -/
def quiet (w : World Empty Nat) : Bool :=
  liveOpen w && allDone w && w.link.ht.posts.all notQueued && w.link.flights.all (fun fl => fl.reply.isSome)

/-- The first call waits for a future that holds nothing. -/
def stuck (w : World Empty Nat) : Bool :=
  (match w.server.calls[0]? with | some x => (match x.st with | .wait m _ => decide (m = 0) | _ => false) | none => false) && (match w.server.cells[0]? with | some none => true | _ => false) &&
    (match w.slots[0]? with | some t => (future w.link t).isNone | none => false)

theorem quiet_step {w : World Empty Nat} (h : quiet w = true) (j r : Nat) (hr : r < 5) :
    ∃ did, w.step demoCfg (liveTurn j r) = { w with link := { w.link with srvDid := w.link.srvDid ++ did } } ∧ (did = [] ∨ did = [.advance 0] ∨ did = [.pump 0 true]) := by
  simp only [quiet, allDone, Bool.and_eq_true, decide_eq_true_eq] at h
  obtain ⟨⟨⟨-, ⟨⟨⟨⟨hopen, hfin⟩, hq⟩, hev⟩, htk⟩⟩, hposts⟩, hfl⟩ := h
  have hst : w.link.hs.streams = [0] := by
    simp only [openBoth, Bool.and_eq_true, decide_eq_true_eq] at hopen
    exact hopen.1.2
  have same : ∀ op : LinkOp Empty, w.link.step demoCfg op = w.link → w.step demoCfg (.wire op) = { w with link := { w.link with srvDid := w.link.srvDid ++ [] } } := by
    intro op ho
    show (if isEvent op || (ofClient op && w.dead) then w else { w with link := w.link.step demoCfg op }) = _
    rw [ho, List.append_nil]
    split <;> rfl
  match r, hr with
  | 0, _ =>
    refine ⟨[.advance 0], ?_, .inr (.inl rfl)⟩
    have : w.link.hs.advance 0 = w.link.hs := by
      unfold isFinished at hfin
      split at hfin
      · rename_i hs; unfold Hs.advance; rw [hs]
      · cases hfin
    show ({ w with link := { w.link with hs := w.link.hs.advance 0, srvDid := _ } } : World Empty Nat) = _
    rw [this]
  | 1, _ =>
    refine ⟨[.pump 0 true], ?_, .inr (.inr rfl)⟩
    have : w.link.hs.pump 0 true = w.link.hs := by
      obtain ⟨x, hx, hx0⟩ := Option.map_eq_some_iff.1 hq
      unfold Hs.pump
      rw [show w.link.hs.streams[0]? = some 0 by rw [hst]; rfl]
      dsimp only
      rw [hx]
      dsimp only
      rw [hx0]
      split <;> rfl
    show ({ w with link := { w.link with hs := w.link.hs.pump 0 true, srvDid := _ } } : World Empty Nat) = _
    rw [this]
  | 2, _ =>
    refine ⟨[], ?_, .inl rfl⟩
    have hn : heard w.link j = none := by
      unfold heard
      split
      · rename_i k i p ok hj
        have hlt := (List.getElem?_eq_some_iff.1 hj).1
        rw [if_neg]
        rintro ⟨-, h2, -⟩
        rw [htk] at h2
        apply h2
        rw [hev] at hlt
        match j, hlt with
        | 0, _ => simp
        | 1, _ => simp
      · rfl
    show (if w.dead then w else w.heed demoCfg j echoCli true true) = _
    rw [List.append_nil]
    split
    · rfl
    · unfold World.heed; rw [hn]
  | 3, _ =>
    refine ⟨[], same (.begin j) ?_, .inl rfl⟩
    show w.link.begin demoCfg j = w.link
    unfold Http.Link.begin
    split
    · rename_i p body _ hp
      have := List.all_eq_true.1 hposts _ (List.mem_of_getElem? hp)
      cases this
    · rfl
  | 4, _ =>
    refine ⟨[], same (.serve j 0 [] demoSays true true []) ?_, .inl rfl⟩
    show w.link.serve demoCfg j 0 [] demoSays true true [] = w.link
    unfold Http.Link.serve
    split
    · rename_i k p s hp
      have := List.all_eq_true.1 hfl _ (List.mem_of_getElem? hp)
      cases this
    · rfl

theorem lost_step {w : World Empty Nat} (hs : w.link.hs = Hs.init.run w.link.srvDid) (h : quiet w = true) (h' : stuck w = true) (j r : Nat) :
    quiet (w.step demoCfg (liveTurn j r)) = true ∧ stuck (w.step demoCfg (liveTurn j r)) = true := by
  by_cases hr : r < 5
  · obtain ⟨did, he, hd⟩ := quiet_step h j r hr
    rw [he]
    refine ⟨h, ?_⟩
    have hn : named Hs.init (w.link.srvDid ++ did) = named Hs.init w.link.srvDid := by
      rcases hd with rfl | rfl | rfl
      · rw [List.append_nil]
      · rw [named_snoc, ← hs]
        simp only [quiet, allDone, Bool.and_eq_true] at h
        have hfin := h.1.1.2.1.1.1.2
        unfold isFinished at hfin
        split at hfin
        · rename_i h0
          simp only [namedBy, h0]
          exact List.append_nil _
        · cases hfin
      · rw [named_snoc]
        exact List.append_nil _
    have hf : ∀ t, future { w.link with srvDid := w.link.srvDid ++ did } t = future w.link t := by
      intro t
      unfold future
      rw [hn]
    unfold stuck at h' ⊢
    simp only [hf]
    exact h'
  · have : w.step demoCfg (liveTurn j r) = w := by
      simp only [stuck, Bool.and_eq_true] at h'
      obtain ⟨⟨h1, h2⟩, h3⟩ := h'
      match r, hr with
      | 5, _ =>
        show w.deliver 0 = w
        unfold World.deliver
        split at h3
        · rename_i t ht
          rw [ht]
          dsimp only
          rw [Option.isNone_iff_eq_none.1 h3]
        · cases h3
      | r + 6, _ =>
        show w.go demoCfg 0 = w
        split at h1
        · rename_i x hx
          split at h1
          · rename_i m k hk
            have hm := of_decide_eq_true h1
            subst hm
            have hask : asking w.server 0 = none := by unfold asking; rw [hx]; dsimp only; rw [hk]
            have hgo : w.server.step (.go 0) = w.server := by
              unfold Sys.step
              split
              · rfl
              · dsimp only
                rw [hx]
                dsimp only
                unfold Sys.go
                rw [hk]
                dsimp only
                split at h2
                · rename_i hc; rw [hc]
                · cases h2
            unfold World.go
            rw [hask]
            dsimp only
            rw [hgo]
          · cases h1
        · cases h1
    rw [this]; exact ⟨h, h'⟩

theorem lostAt_done (n : Nat) : quiet (lostAt (29 + n)) = true ∧ stuck (lostAt (29 + n)) = true := by
  induction n with
  | zero => exact ⟨by decide +kernel, by decide +kernel⟩
  | succ n ih =>
    show quiet ((lostAt (29 + n)).step demoCfg (lostRun (29 + n))) = true ∧ stuck ((lostAt (29 + n)).step demoCfg (lostRun (29 + n))) = true
    rw [lostRun_late (by omega)]
    exact lost_step (states_sides demoCfg startedSelf readyCli lostRun _).hs ih.1 ih.2 _ _

theorem lostAt_open (u : Nat) (h : 19 ≤ u) : liveOpen (lostAt u) = true := by
  by_cases hu : u < 29
  · have key : ∀ n < 10, liveOpen (lostAt (19 + n)) = true := by decide +kernel
    obtain ⟨n, rfl⟩ := Nat.le.dest h
    exact key n (by omega)
  · obtain ⟨n, rfl⟩ := Nat.le.dest (show 29 ≤ u by omega)
    have := (lostAt_done n).1
    simp only [quiet, Bool.and_eq_true] at this
    exact this.1.1.1

theorem lostAt_waits (u : Nat) (h : 19 ≤ u) : waitsFor (lostAt u) 0 0 = true := by
  by_cases hu : u < 29
  · have key : ∀ n < 10, waitsFor (lostAt (19 + n)) 0 0 = true := by decide +kernel
    obtain ⟨n, rfl⟩ := Nat.le.dest h
    exact key n (by omega)
  · obtain ⟨n, rfl⟩ := Nat.le.dest (show 29 ≤ u by omega)
    have := (lostAt_done n).2
    simp only [stuck, Bool.and_eq_true] at this
    have h1 := this.1.1
    unfold waitsFor
    split at h1
    · rename_i x hx
      rw [hx]
      dsimp only
      split at h1
      · rename_i m k hk
        rw [hk]; exact h1
      · cases h1
    · cases h1

def tamePost : Op Empty Nat → Bool
  | .wire (.serve _ now a _ _ _ _) => decide (now = 0) && decide (a = [])
  | _ => true

theorem lostRun_tame (v : Nat) : tamePost (lostRun v) = true := by
  by_cases hv : v < 29
  · have key : ∀ v < 29, tamePost (lostRun v) = true := by decide +kernel
    exact key v hv
  · rw [lostRun_late (by omega)]
    unfold liveTurn
    split <;> rfl

theorem lostRun_admitted : Admitted demoCfg lostRun (lit "s1") := by
  intro v i now a g n e d hv body
  have := lostRun_tame v
  rw [hv] at this
  simp only [tamePost, Bool.and_eq_true, decide_eq_true_eq] at this
  obtain ⟨rfl, rfl⟩ := this
  exact ⟨none, by decide, rfl, ⟨show demoCfg.client.endpointPath ≠ _ from by decide +kernel, show demoCfg.client.endpointPath ≠ _ from by decide +kernel⟩,
      show localHeaders demoCfg.loopback demoCfg.server.address demoCfg.host [] = none from by decide +kernel, .inl ⟨rfl, rfl⟩⟩

def failsAt : Op Empty Nat → Bool
  | .wire (.failEarly _ _) => true
  | _ => false

theorem lostRun_fails {v : Nat} {h : HtHandlers Empty} {p : Nat} (hv : lostRun v = .wire (.failEarly h p)) : v = 27 := by
  by_cases hlt : v < 29
  · have key : ∀ v < 29, failsAt (lostRun v) = true → v = 27 := by decide +kernel
    exact key v hlt (by rw [hv]; rfl)
  · have : failsAt (lostRun v) = false := by
      rw [lostRun_late (by omega)]
      unfold liveTurn
      split <;> rfl
    rw [hv] at this
    cases this

theorem lost_facts {u : Nat} (hu : 19 ≤ u) : (lostAt u).link.hs.running = true ∧ (lostAt u).dead = false ∧ (lostAt u).link.ht.sse = true ∧ (lostAt u).link.ht.connected = true ∧
    ((lostAt u).link.hs.objs[0]?).map (·.closed) = some false ∧ (lostAt u).link.hs.streams = [0] ∧ (lostAt u).link.mine = [0] ∧ (lostAt u).link.ht.io = .running ∧
    (lostAt u).link.ht.session = lit "s1" ∧ (lostAt u).link.hs.lookup (lit "s1") = some 0 ∧ ((lostAt u).link.hs.objs[0]?).map (·.version) = some (lit "2025-11-25") := by
  have := lostAt_open u hu
  simp only [liveOpen, openBoth, Bool.and_eq_true, decide_eq_true_eq, Bool.not_eq_true'] at this
  obtain ⟨⟨⟨⟨⟨⟨⟨⟨⟨⟨⟨h0, h1⟩, h2⟩, h3⟩, h4⟩, h5⟩, h6⟩, h7⟩, h8⟩, h9⟩, h10⟩, h11⟩ := this
  exact ⟨h1, h2, h3, h4, h5, h6, h7, h8, h9, h10, h11⟩

/-- C136 (counterexample), one failed connection: there is an execution that meets all that `C136_live_partial` asks but one thing: everybody has their turn again and again, the session stays open on both
sides, no write fails, the client listens and answers and its posts are admitted. Once, at one step, a connection for an answer fails. The client does not try again (src/mcp/HTTPTransport.cpp 483 posts each answer
once), and the call waits for ever. -/
theorem C136_lost_counterexample : ∃ (c : LinkCfg) (s0 : SSelf Empty) (cli : Cli Empty Nat) (f : Nat → Op Empty Nat) (T once : Nat) (sid : Bytes) (t : Nat × Request Empty),
    ((states c (World.init s0 cli) f T).slots[0]? = some t ∧ (states c (World.init s0 cli) f T).link.hs.sends[t.1]? = some (.found 0 (.request t.2)) ∧ InMemory.PlainReq t.2) ∧
    (Turns f 0 0 ∧ Streams f t.1 0 ∧ Heeds c (World.init s0 cli) f ∧ Writes c (World.init s0 cli) f 0 T ∧ (∀ p, Posts f p)) ∧
    ((states c (World.init s0 cli) f T).link.hs.streams[0]? = some 0 ∧ (∀ u, T ≤ u → (states c (World.init s0 cli) f u).link.hs.running = true) ∧
      (∀ u x, T ≤ u → (states c (World.init s0 cli) f u).link.hs.objs[0]? = some x → x.closed = false)) ∧
    (c.client.endpointPath ≠ [] ∧ sid ≠ [] ∧ Listens c (World.init s0 cli) f 0 T ∧ Holds c (World.init s0 cli) f sid 0 T ∧ Admitted c f sid) ∧
    (∀ v j env n e q, T ≤ v → f v = .heed j env n e → heard (states c (World.init s0 cli) f v).link j = some (serRequest q) → SentAs t.2 q →
      ∃ r, (onRequest env (states c (World.init s0 cli) f v).cli q).1 = .answer r ∧ PlainAnswer (.resp r)) ∧
    (∀ v h p, f v = .wire (.failEarly h p) → v = once) ∧
    ∀ u, T ≤ u → ∃ (x : SCall Empty) (b : Client.Outcome Empty → SBody Empty), (states c (World.init s0 cli) f u).server.calls[0]? = some x ∧ (x.st = .check 0 b ∨ x.st = .wait 0 b) := by
  have hs : slotFound (lostAt 19) = true := by decide +kernel
  unfold slotFound at hs
  split at hs
  · rename_i t r hslot
    split at hs
    · rename_i o r' hf
      simp only [Bool.and_eq_true, decide_eq_true_eq, Option.isNone_iff_eq_none] at hs
      obtain ⟨⟨⟨rfl, rfl, h1, h2, h3, h4⟩, h5⟩, h6⟩ := hs
      have hrr : r' = r := by
        obtain ⟨id, me, pa⟩ := r
        obtain ⟨id', me', pa'⟩ := r'
        cases h1; cases h2; cases h3; cases h4; cases h5; cases h6
        rfl
      subst hrr
      refine ⟨demoCfg, startedSelf, readyCli, lostRun, 19, 27, lit "s1", (0, r'), ⟨hslot, foundAt_sound hf, ?_, ?_, ?_, ?_⟩,
        ⟨⟨fun u => lostRun_turn 0 5 u (by decide), fun u => lostRun_turn 0 6 u (by decide)⟩, ⟨fun u => lostRun_turn 0 0 u (by decide), fun u => ?_⟩, ?_, ?_, fun p =>
          ⟨fun u => lostRun_turn p 3 u (by decide), fun i u => ?_⟩⟩,
        ⟨?_, fun u hu => (lost_facts hu).1, fun u x hu hx => ?_⟩, ⟨by decide, by decide, fun u hu => ?_, fun u hu => ?_, lostRun_admitted⟩, ?_, fun v h p hv => lostRun_fails hv,
        fun u hu => waitsFor_sound (lostAt_waits u hu)⟩
      · show IdPlain r'.id
        rw [h2]; exact fun c hc => (nomatch hc)
      · show PlainText r'.method
        rw [h1]; exact plain_of (by decide +kernel)
      · show r'.method ≠ []
        rw [h1]; decide
      · intro v hv
        have hv' : r'.params = some v := hv
        rw [h5] at hv'; cases hv'
      · obtain ⟨v, g1, g2⟩ := lostRun_turn 0 1 u (by decide)
        exact ⟨v, true, g1, g2⟩
      · intro u j _ _ _
        obtain ⟨v, g1, g2⟩ := lostRun_turn j 2 u (by decide)
        exact ⟨v, echoCli, true, true, g1, g2⟩
      · refine writes_of fun u hu => ?_
        have := lostAt_open u hu
        simp only [liveOpen, Bool.and_eq_true] at this
        exact this.1.1.1.1
      · obtain ⟨v, g1, g2⟩ := lostRun_turn i 4 u (by decide)
        exact ⟨v, 0, [], demoSays, true, true, [], g1, g2⟩
      · show (lostAt 19).link.hs.streams[0]? = some 0
        rw [(lost_facts (Nat.le_refl 19)).2.2.2.2.2.1]; rfl
      · have := (lost_facts hu).2.2.2.2.1
        have hx' : (lostAt u).link.hs.objs[0]? = some x := hx
        rw [hx'] at this
        exact Option.some.inj this
      · obtain ⟨-, g2, g3, g4, -, g6, g7, -⟩ := lost_facts hu
        refine ⟨g2, g3, g4, fun k hk => ?_⟩
        have hk' : (lostAt u).link.hs.streams[k]? = some 0 := hk
        rw [g6] at hk'
        have : k < 1 := (List.getElem?_eq_some_iff.1 hk').1
        have hk0 : k = 0 := by omega
        show k ∈ (lostAt u).link.mine
        rw [g7, hk0]; exact List.mem_singleton.2 rfl
      · obtain ⟨-, g2, -, -, -, -, -, g8, g9, g10, g11⟩ := lost_facts hu
        refine ⟨g2, g8, g9, g10, fun y hy => ?_⟩
        have hy' : (lostAt u).link.hs.objs[0]? = some y := hy
        rw [hy'] at g11
        exact Option.some.inj g11
      · intro v j env n e q _ _ _ hq
        exact ⟨_, ping_said env _ (hq.1.trans h1), plain_pong _⟩
    · cases hs
  · cases hs

end Verif.Reach
