import Verif.Reach.LiveProps
import Verif.Reach.HeedCase
import Verif.Reach.AnswerCase

/-! A concrete execution without end that meets the hypotheses of `C136_live_partial` and `C136_returned_partial`: two pings are sent, the second is queued first, and both answers are posted. -/

namespace Verif.Reach

open Verif.Await Verif.Client Verif.Server Verif.Http
open Verif.Ask (asking plain_of)

/-- Both pings are handled, both answers are posted and served, and the first call ends. -/
def liveTrip : List (Op Empty Nat) := heedTrip ++ (post 1 ++ post 2).map .wire ++ [.deliver 0, .go 0, .go 0, .go 0, .go 0]

/-- One turn after the other; `j` goes through all numbers again and again. -/
def liveTurn (j : Nat) : Nat → Op Empty Nat
  | 0 => .wire (.world (.advance 0))
  | 1 => .wire (.world (.pump 0 true))
  | 2 => .heed j echoCli true true
  | 3 => .wire (.begin j)
  | 4 => .wire (.serve j 0 [] demoSays true true [])
  | 5 => .deliver 0
  | _ => .go 0

def liveRun (t : Nat) : Op Empty Nat :=
  match liveTrip[t]? with
  | some op => op
  | none => liveTurn (pickFrom (t / 7)) (t % 7)

theorem liveRun_late {t : Nat} (h : 34 ≤ t) : liveRun t = liveTurn (pickFrom (t / 7)) (t % 7) := by
  have : liveTrip[t]? = none := List.getElem?_eq_none_iff.2 (show liveTrip.length ≤ t from h)
  unfold liveRun
  rw [this]

theorem liveRun_turn (j r u : Nat) (hr : r < 7) : ∃ v, u ≤ v ∧ liveRun v = liveTurn j r := by
  obtain ⟨n, h1, h2⟩ := pickFrom_all j (u + 34)
  refine ⟨7 * n + r, by omega, ?_⟩
  rw [liveRun_late (by omega), show (7 * n + r) / 7 = n by omega, show (7 * n + r) % 7 = r by omega, h2]

abbrev liveAt (t : Nat) : World Empty Nat := states demoCfg (World.init startedSelf readyCli) liveRun t

/-- Both sides are open, the only stream is the client's, and the client has the session. -/
def liveOpen (w : World Empty Nat) : Bool :=
  openBoth w && decide (w.link.ht.io = .running) && decide (w.link.ht.session = lit "s1") && decide (w.link.hs.lookup (lit "s1") = some 0) &&
    decide ((w.link.hs.objs[0]?).map (·.version) = some (lit "2025-11-25"))

def isOver (s : SSys Empty) : Bool :=
  match s.calls[0]? with
  | some x => match x.st with | .over _ => true | _ => false
  | none => false

def notQueued : PostStage → Bool
  | .queued _ _ => false
  | _ => true

/-- Nothing is left to do. -/
def liveDone (w : World Empty Nat) : Bool :=
  liveOpen w && allDone w && w.link.ht.posts.all notQueued && w.link.flights.all (fun fl => fl.reply.isSome) && isOver w.server

theorem liveDone_same {w w' : World Empty Nat} (h1 : w'.link.hs = w.link.hs) (h2 : w'.link.ht = w.link.ht) (h3 : w'.link.mine = w.link.mine) (h4 : w'.link.taken = w.link.taken)
    (h5 : w'.dead = w.dead) (h6 : w'.link.flights = w.link.flights) (h7 : w'.server.calls = w.server.calls) (h : liveDone w = true) : liveDone w' = true := by
  unfold liveDone liveOpen allDone openBoth isOver at h ⊢
  rw [h1, h2, h3, h4, h5, h6, h7]; exact h

theorem liveDone_wire {w : World Empty Nat} (h : liveDone w = true) {o : LinkOp Empty} (ho : w.link.step demoCfg o = w.link) : liveDone (w.step demoCfg (.wire o)) = true := by
  show liveDone (if isEvent o || (ofClient o && w.dead) then w else { w with link := w.link.step demoCfg o }) = true
  rw [ho]
  split <;> exact h

theorem liveDone_step {w : World Empty Nat} (h : liveDone w = true) (j r : Nat) : liveDone (w.step demoCfg (liveTurn j r)) = true := by
  have h' := h
  simp only [liveDone, allDone, Bool.and_eq_true, decide_eq_true_eq] at h'
  obtain ⟨⟨⟨⟨-, ⟨⟨⟨⟨hopen, hfin⟩, hq⟩, hev⟩, htk⟩⟩, hposts⟩, hfl⟩, hover⟩ := h'
  have hst : w.link.hs.streams = [0] := by
    simp only [openBoth, Bool.and_eq_true, decide_eq_true_eq] at hopen
    exact hopen.1.2
  match r with
  | 0 =>
    refine liveDone_same (w := w) ?_ rfl rfl rfl rfl rfl rfl h
    show w.link.hs.advance 0 = _
    unfold isFinished at hfin
    split at hfin
    · rename_i hs; unfold Hs.advance; rw [hs]
    · cases hfin
  | 1 =>
    refine liveDone_same (w := w) ?_ rfl rfl rfl rfl rfl rfl h
    show w.link.hs.pump 0 true = _
    obtain ⟨x, hx, hx0⟩ := Option.map_eq_some_iff.1 hq
    unfold Hs.pump
    rw [show w.link.hs.streams[0]? = some 0 by rw [hst]; rfl]
    dsimp only
    rw [hx]
    dsimp only
    rw [hx0]
    split <;> rfl
  | 2 =>
    have hn : heard w.link j = none := by
      unfold heard
      split
      · rename_i k i p ok hj
        have hlt := (List.getElem?_eq_some_iff.1 hj).1
        rw [if_neg]
        rintro ⟨-, h2, -⟩
        rw [htk] at h2
        apply h2
        rw [hev] at hlt
        match j, hlt with
        | 0, _ => simp
        | 1, _ => simp
      · rfl
    have : w.step demoCfg (.heed j echoCli true true) = w := by
      show (if w.dead then w else w.heed demoCfg j echoCli true true) = w
      split
      · rfl
      · unfold World.heed; rw [hn]
    show liveDone (w.step demoCfg (.heed j echoCli true true)) = true
    rw [this]; exact h
  | 3 =>
    have hb : w.link.begin demoCfg j = w.link := by
      unfold Http.Link.begin
      split
      · rename_i p body _ hp
        have := List.all_eq_true.1 hposts _ (List.mem_of_getElem? hp)
        cases this
      · rfl
    exact liveDone_wire h (o := .begin j) hb
  | 4 =>
    have hb : w.link.serve demoCfg j 0 [] demoSays true true [] = w.link := by
      unfold Http.Link.serve
      split
      · rename_i k p s hp
        have := List.all_eq_true.1 hfl _ (List.mem_of_getElem? hp)
        cases this
      · rfl
    exact liveDone_wire h (o := .serve j 0 [] demoSays true true []) hb
  | 5 =>
    show liveDone (w.deliver 0) = true
    unfold World.deliver
    split
    · split
      · refine liveDone_same (w := w) rfl rfl rfl rfl rfl rfl ?_ h
        dsimp only
        unfold Sys.step
        split
        · rfl
        · dsimp only
          split <;> rfl
      · exact h
    · exact h
  | r + 6 =>
    show liveDone (w.go demoCfg 0) = true
    unfold isOver at hover
    split at hover
    · rename_i x hx
      split at hover
      · rename_i a ha
        have hask : asking w.server 0 = none := by unfold asking; rw [hx]; dsimp only; rw [ha]
        unfold World.go
        rw [hask]
        refine liveDone_same (w := w) rfl rfl rfl rfl rfl rfl ?_ h
        dsimp only
        unfold Sys.step
        split
        · rfl
        · dsimp only
          rw [hx]
          dsimp only
          unfold Sys.go
          rw [ha]
      · cases hover
    · cases hover

theorem liveAt_done (n : Nat) : liveDone (liveAt (34 + n)) = true := by
  induction n with
  | zero => decide +kernel
  | succ n ih =>
    show liveDone ((liveAt (34 + n)).step demoCfg (liveRun (34 + n))) = true
    rw [liveRun_late (by omega)]
    exact liveDone_step ih _ _

theorem liveAt_open (u : Nat) (h : 19 ≤ u) : liveOpen (liveAt u) = true := by
  by_cases hu : u < 34
  · have key : ∀ n < 15, liveOpen (liveAt (19 + n)) = true := by decide +kernel
    obtain ⟨n, rfl⟩ := Nat.le.dest h
    exact key n (by omega)
  · obtain ⟨n, rfl⟩ := Nat.le.dest (show 34 ≤ u by omega)
    have := liveAt_done n
    unfold liveDone at this
    simp only [Bool.and_eq_true] at this
    exact this.1.1.1.1

/-- The steps in which no connection fails and no token is shown. -/
def tameOp : Op Empty Nat → Bool
  | .wire (.failEarly _ _) => false
  | .wire (.serve _ now a _ _ _ _) => decide (now = 0) && decide (a = [])
  | _ => true

theorem liveRun_tame (v : Nat) : tameOp (liveRun v) = true := by
  by_cases hv : v < 34
  · have key : ∀ v < 34, tameOp (liveRun v) = true := by decide +kernel
    exact key v hv
  · rw [liveRun_late (by omega)]
    unfold liveTurn
    split <;> rfl

theorem liveRun_admitted : Admitted demoCfg liveRun (lit "s1") := by
  intro v i now a g n e d hv body
  have := liveRun_tame v
  rw [hv] at this
  simp only [tameOp, Bool.and_eq_true, decide_eq_true_eq] at this
  obtain ⟨rfl, rfl⟩ := this
  exact ⟨none, by decide, rfl, ⟨show demoCfg.client.endpointPath ≠ _ from by decide +kernel, show demoCfg.client.endpointPath ≠ _ from by decide +kernel⟩,
      show localHeaders demoCfg.loopback demoCfg.server.address demoCfg.host [] = none from by decide +kernel, .inl ⟨rfl, rfl⟩⟩

theorem liveRun_connects (p : Nat) : Connects liveRun p := by
  intro v hd hv
  have := liveRun_tame v
  rw [hv] at this
  cases this

theorem liveRun_posts (p : Nat) : Posts liveRun p :=
  ⟨fun u => liveRun_turn p 3 u (by decide), fun i u => by
    obtain ⟨v, h1, h2⟩ := liveRun_turn i 4 u (by decide)
    exact ⟨v, 0, [], demoSays, true, true, [], h1, h2⟩⟩

theorem live_facts {u : Nat} (hu : 19 ≤ u) : (liveAt u).link.hs.running = true ∧ (liveAt u).dead = false ∧ (liveAt u).link.ht.sse = true ∧ (liveAt u).link.ht.connected = true ∧
    ((liveAt u).link.hs.objs[0]?).map (·.closed) = some false ∧ (liveAt u).link.hs.streams = [0] ∧ (liveAt u).link.mine = [0] ∧ (liveAt u).link.ht.io = .running ∧
    (liveAt u).link.ht.session = lit "s1" ∧ (liveAt u).link.hs.lookup (lit "s1") = some 0 ∧ ((liveAt u).link.hs.objs[0]?).map (·.version) = some (lit "2025-11-25") := by
  have := liveAt_open u hu
  simp only [liveOpen, openBoth, Bool.and_eq_true, decide_eq_true_eq, Bool.not_eq_true'] at this
  obtain ⟨⟨⟨⟨⟨⟨⟨⟨⟨⟨⟨h0, h1⟩, h2⟩, h3⟩, h4⟩, h5⟩, h6⟩, h7⟩, h8⟩, h9⟩, h10⟩, h11⟩ := this
  exact ⟨h1, h2, h3, h4, h5, h6, h7, h8, h9, h10, h11⟩

theorem live_holds : Holds demoCfg (World.init startedSelf readyCli) liveRun (lit "s1") 0 19 := by
  intro u hu
  obtain ⟨-, h2, -, -, -, -, -, h8, h9, h10, h11⟩ := live_facts hu
  refine ⟨h2, h8, h9, h10, fun y hy => ?_⟩
  have hy' : (liveAt u).link.hs.objs[0]? = some y := hy
  rw [hy'] at h11
  exact Option.some.inj h11

theorem live_listens : Listens demoCfg (World.init startedSelf readyCli) liveRun 0 19 := by
  intro u hu
  obtain ⟨-, h2, h3, h4, -, h6, h7, -⟩ := live_facts hu
  refine ⟨h2, h3, h4, fun k hk => ?_⟩
  have hk' : (liveAt u).link.hs.streams[k]? = some 0 := hk
  rw [h6] at hk'
  have : k < 1 := (List.getElem?_eq_some_iff.1 hk').1
  have hk0 : k = 0 := by omega
  show k ∈ (liveAt u).link.mine
  rw [h7, hk0]; exact List.mem_singleton.2 rfl

theorem plain_pong (id : RpcId) : PlainAnswer (.resp (⟨id, some (.obj []), none⟩ : Response Empty)) :=
  Whole.fineOut_sound (o := .answer ⟨id, some (.obj []), none⟩) rfl rfl

theorem live_writes : Writes demoCfg (World.init startedSelf readyCli) liveRun 0 19 := by
  refine writes_of fun u hu => ?_
  have := liveAt_open u hu
  simp only [liveOpen, Bool.and_eq_true] at this
  exact this.1.1.1.1

/-- The slot of the first call and its send hold the same ping. -/
def slotFound (w : World Empty Nat) : Bool :=
  match w.slots[0]? with
  | some (t, r) => match foundAt w.link.hs 0 with
    | some (o, r') => decide (t = 0 ∧ o = 0 ∧ r.method = lit "ping" ∧ r.id = .str [] ∧ r'.method = lit "ping" ∧ r'.id = .str []) && r.params.isNone && r'.params.isNone
    | none => false
  | none => false

example : (∃ (x : SCall Empty) (b : Client.Outcome Empty → SBody Empty), (liveAt 19).server.calls[0]? = some x ∧ (x.st = .check 0 b ∨ x.st = .wait 0 b)) ∧
    (∃ t : Nat × Request Empty, (liveAt 19).slots[0]? = some t ∧ (liveAt 19).link.hs.sends[t.1]? = some (.found 0 (.request t.2)) ∧ InMemory.PlainReq t.2 ∧ Streams liveRun t.1 0 ∧
      ∀ v j env n e q, 19 ≤ v → liveRun v = .heed j env n e → heard (liveAt v).link j = some (serRequest q) → SentAs t.2 q →
        ∃ r, (onRequest env (liveAt v).cli q).1 = .answer r ∧ PlainAnswer (.resp r)) ∧
    Turns liveRun 0 0 ∧ Heeds demoCfg (World.init startedSelf readyCli) liveRun ∧ Writes demoCfg (World.init startedSelf readyCli) liveRun 0 19 ∧ (∀ p, Posts liveRun p) ∧ (liveAt 19).link.hs.streams[0]? = some 0 ∧ (∀ u, 19 ≤ u → (liveAt u).link.hs.running = true) ∧
    (∀ u x, 19 ≤ u → (liveAt u).link.hs.objs[0]? = some x → x.closed = false) ∧ demoCfg.client.endpointPath ≠ [] ∧ lit "s1" ≠ [] ∧
    Listens demoCfg (World.init startedSelf readyCli) liveRun 0 19 ∧ Holds demoCfg (World.init startedSelf readyCli) liveRun (lit "s1") 0 19 ∧ (∀ p, Connects liveRun p) ∧
    Admitted demoCfg liveRun (lit "s1") := by
  refine ⟨waitsFor_sound (by decide +kernel), ?_, ⟨fun u => liveRun_turn 0 5 u (by decide), fun u => liveRun_turn 0 6 u (by decide)⟩, ?_, live_writes, liveRun_posts, ?_, fun u hu => (live_facts hu).1,
    fun u x hu hx => ?_, by decide, by decide, live_listens, live_holds, liveRun_connects, liveRun_admitted⟩
  · have hs : slotFound (liveAt 19) = true := by decide +kernel
    unfold slotFound at hs
    split at hs
    · rename_i t r hslot
      split at hs
      · rename_i o r' hf
        simp only [Bool.and_eq_true, decide_eq_true_eq, Option.isNone_iff_eq_none] at hs
        obtain ⟨⟨⟨rfl, rfl, h1, h2, h3, h4⟩, h5⟩, h6⟩ := hs
        have hrr : r' = r := by
          obtain ⟨id, me, pa⟩ := r
          obtain ⟨id', me', pa'⟩ := r'
          cases h1; cases h2; cases h3; cases h4; cases h5; cases h6
          rfl
        subst hrr
        refine ⟨(0, r'), hslot, foundAt_sound hf, ⟨?_, ?_, ?_, ?_⟩, ⟨fun u => liveRun_turn 0 0 u (by decide), fun u => ?_⟩, ?_⟩
        · show IdPlain r'.id
          rw [h2]; exact fun c hc => (nomatch hc)
        · show PlainText r'.method
          rw [h1]; exact plain_of (by decide +kernel)
        · show r'.method ≠ []
          rw [h1]; decide
        · intro v hv
          have hv' : r'.params = some v := hv
          rw [h5] at hv'; cases hv'
        · obtain ⟨v, g1, g2⟩ := liveRun_turn 0 1 u (by decide)
          exact ⟨v, true, g1, g2⟩
        · intro v j env n e q _ _ _ hq
          exact ⟨_, ping_said env _ (hq.1.trans h1), plain_pong _⟩
      · cases hs
    · cases hs
  · intro u j _ _ _
    obtain ⟨v, g1, g2⟩ := liveRun_turn j 2 u (by decide)
    exact ⟨v, echoCli, true, true, g1, g2⟩
  · rw [(live_facts (Nat.le_refl 19)).2.2.2.2.2.1]; rfl
  · have := (live_facts hu).2.2.2.2.1
    rw [hx] at this
    exact Option.some.inj this

/-- The promise of the first ping and the answer that is queued for it. -/
def pongQueued (w : World Empty Nat) : Bool :=
  match (named Hs.init w.link.srvDid)[1]? with
  | some m => decide (m.ticket = 0 ∧ m.obj = 0 ∧ m.req.method = lit "ping") && m.req.params.isNone &&
      (match m.req.id with | .str s => s.all (fun c => c != '"' && c != '\\') | _ => false) &&
      decide (w.link.ht.posts[1]? = some (.queued .answer (serResponse (replyFor m.req (.resp ⟨m.req.id, some (.obj []), none⟩)))))
  | none => false

/-- After the second event was handled the answer to the first ping is queued. -/
example : ∃ (m : Named Empty) (r : Response Empty), m ∈ named Hs.init (liveAt 25).link.srvDid ∧ m.obj = 0 ∧ InMemory.PlainReq m.req ∧ PlainAnswer (.resp r) ∧
    (∃ p, (liveAt 25).link.ht.posts[p]? = some (.queued .answer (serResponse (replyFor m.req (.resp r)))) ∧ Posts liveRun p ∧ Connects liveRun p) ∧
    Admitted demoCfg liveRun (lit "s1") ∧ Holds demoCfg (World.init startedSelf readyCli) liveRun (lit "s1") 0 25 := by
  have hp : pongQueued (liveAt 25) = true := by decide +kernel
  unfold pongQueued at hp
  split at hp
  · rename_i m hm
    simp only [Bool.and_eq_true, decide_eq_true_eq, Option.isNone_iff_eq_none] at hp
    obtain ⟨⟨⟨⟨-, h2, h3⟩, h4⟩, h5⟩, h6⟩ := hp
    refine ⟨m, _, List.mem_of_getElem? hm, h2, ⟨?_, ?_, ?_, ?_⟩, plain_pong m.req.id, ⟨1, h6, liveRun_posts 1, liveRun_connects 1⟩, liveRun_admitted, fun u hu => live_holds u (by omega)⟩
    · split at h5
      · rename_i s hs
        rw [hs]; exact plain_of h5
      · cases h5
    · rw [h3]; exact plain_of (by decide +kernel)
    · rw [h3]; decide
    · intro v hv; rw [h4] at hv; cases hv
  · cases hp

end Verif.Reach
