import Verif.Reach.HeedProps
import Verif.Reach.StreamCase

/-! A concrete execution without end that meets the hypotheses of `C136_heeded_partial`: two pings are sent to a session that stays open, the second is queued first, and the client handles both. -/

namespace Verif.Reach

open Verif.Await Verif.Client Verif.Server Verif.Http

/-- Both pings are written and handled. -/
def heedTrip : List (Op Empty Nat) :=
  openTrip ++ [.wire (.world (.advance 0)), .wire (.world (.advance 0)), .wire (.world (.pump 0 true)), .wire (.world (.pump 0 true)), .heed 1 echoCli true true, .heed 0 echoCli true true]

/-- A sequence that leads through every number again and again. -/
def pickFrom (n : Nat) : Nat := n - 2 ^ n.log2

theorem pickFrom_all (j u : Nat) : ∃ n, u ≤ n ∧ pickFrom n = j := by
  have h1 : j + u < 2 ^ (j + u) := Nat.lt_two_pow_self
  refine ⟨2 ^ (j + u) + j, by omega, ?_⟩
  have h2 : (2 ^ (j + u) + j).log2 = j + u := by
    rw [Nat.log2_eq_iff (by omega)]
    refine ⟨by omega, ?_⟩
    rw [Nat.pow_succ]; omega
  unfold pickFrom
  rw [h2]; omega

/-- After that the first goes on, the stream writes and the client looks at every event, for ever. -/
def heedRun (t : Nat) : Op Empty Nat :=
  match heedTrip[t]? with
  | some op => op
  | none => if t % 3 = 0 then .wire (.world (.advance 0)) else if t % 3 = 1 then .wire (.world (.pump 0 true)) else .heed (pickFrom (t / 3)) echoCli true true

theorem heedRun_late {t : Nat} (h : 25 ≤ t) :
    heedRun t = if t % 3 = 0 then .wire (.world (.advance 0)) else if t % 3 = 1 then .wire (.world (.pump 0 true)) else .heed (pickFrom (t / 3)) echoCli true true := by
  have : heedTrip[t]? = none := List.getElem?_eq_none_iff.2 (show heedTrip.length ≤ t from h)
  unfold heedRun
  rw [this]

theorem heedRun_streams : Streams heedRun 0 0 := by
  constructor
  · intro t
    refine ⟨3 * (t + 25), by omega, ?_⟩
    rw [heedRun_late (by omega), if_pos (by omega)]
  · intro t
    refine ⟨3 * (t + 25) + 1, true, by omega, ?_⟩
    rw [heedRun_late (by omega), if_neg (by omega), if_pos (by omega)]

theorem heedRun_heeds : Heeds demoCfg (World.init startedSelf readyCli) heedRun := by
  intro u j _ _ _
  obtain ⟨n, h1, h2⟩ := pickFrom_all j (u + 25)
  refine ⟨3 * n + 2, echoCli, true, true, by omega, ?_⟩
  rw [heedRun_late (by omega), if_neg (by omega), if_neg (by omega), show (3 * n + 2) / 3 = n by omega, h2]

abbrev heedAt (t : Nat) : World Empty Nat := states demoCfg (World.init startedSelf readyCli) heedRun t

/-- No write has failed, both sides are open and the only stream is the client's. -/
def openBoth (w : World Empty Nat) : Bool :=
  w.link.hs.events.all (fun e => e.2.2) && w.link.hs.running && !w.dead && w.link.ht.sse && w.link.ht.connected && decide ((w.link.hs.objs[0]?).map (·.closed) = some false) && decide (w.link.hs.streams = [0]) && decide (w.link.mine = [0])

def isFinished (s : Hs Empty) : Bool := match s.sends[0]? with | some SendStage.finished => true | _ => false

/-- Nothing is left to do. -/
def allDone (w : World Empty Nat) : Bool :=
  openBoth w && isFinished w.link.hs && decide ((w.link.hs.objs[0]?).map (·.queue) = some []) && decide (w.link.hs.events.length = 2) && decide (w.link.taken = [1, 0])

/-- What `openBoth` and `allDone` look at. -/
theorem done_same {w w' : World Empty Nat} (h1 : w'.link.hs = w.link.hs) (h2 : w'.link.ht = w.link.ht) (h3 : w'.link.mine = w.link.mine) (h4 : w'.link.taken = w.link.taken) (h5 : w'.dead = w.dead)
    (h : allDone w = true) : allDone w' = true := by
  unfold allDone openBoth at h ⊢
  rw [h1, h2, h3, h4, h5]; exact h

theorem done_step {w : World Empty Nat} (h : allDone w = true) (j : Nat) :
    allDone (w.step demoCfg (.wire (.world (.advance 0)))) = true ∧ allDone (w.step demoCfg (.wire (.world (.pump 0 true)))) = true ∧ allDone (w.step demoCfg (.heed j echoCli true true)) = true := by
  have h' := h
  simp only [allDone, openBoth, Bool.and_eq_true, decide_eq_true_eq] at h'
  obtain ⟨⟨⟨⟨⟨⟨⟨⟨⟨⟨⟨hall, hrun⟩, hdead⟩, hsse⟩, hcon⟩, hcl⟩, hst⟩, hmine⟩, hfin⟩, hq⟩, hev⟩, htk⟩ := h'
  refine ⟨?_, ?_, ?_⟩
  · refine done_same (w := w) ?_ rfl rfl rfl rfl h
    show w.link.hs.advance 0 = _
    unfold isFinished at hfin
    split at hfin
    · rename_i hs; unfold Hs.advance; rw [hs]
    · cases hfin
  · refine done_same (w := w) ?_ rfl rfl rfl rfl h
    show w.link.hs.pump 0 true = _
    obtain ⟨x, hx, hx0⟩ := Option.map_eq_some_iff.1 hq
    unfold Hs.pump
    rw [show w.link.hs.streams[0]? = some 0 by rw [hst]; rfl]
    dsimp only
    rw [hx]
    dsimp only
    rw [hx0]
    split <;> rfl
  · have hn : heard w.link j = none := by
      unfold heard
      split
      · rename_i k i p ok hj
        have hlt := (List.getElem?_eq_some_iff.1 hj).1
        rw [if_neg]
        rintro ⟨-, h2, -⟩
        rw [htk] at h2
        apply h2
        rw [hev] at hlt
        match j, hlt with
        | 0, _ => simp
        | 1, _ => simp
      · rfl
    have : w.step demoCfg (.heed j echoCli true true) = w := by
      show (if w.dead then w else w.heed demoCfg j echoCli true true) = w
      split
      · rfl
      · unfold World.heed; rw [hn]
    rw [this]; exact h

theorem heedAt_done (n : Nat) : allDone (heedAt (25 + n)) = true := by
  induction n with
  | zero => decide +kernel
  | succ n ih =>
    have hl := heedRun_late (show 25 ≤ 25 + n by omega)
    show allDone ((heedAt (25 + n)).step demoCfg (heedRun (25 + n))) = true
    rw [hl]
    split
    · exact (done_step ih 0).1
    · split
      · exact (done_step ih 0).2.1
      · exact (done_step ih _).2.2

theorem heedAt_open (u : Nat) (h : 19 ≤ u) : openBoth (heedAt u) = true := by
  by_cases hu : u < 25
  · have key : ∀ n < 6, openBoth (heedAt (19 + n)) = true := by decide +kernel
    obtain ⟨n, rfl⟩ := Nat.le.dest h
    exact key n (by omega)
  · obtain ⟨n, rfl⟩ := Nat.le.dest (show 25 ≤ u by omega)
    have := heedAt_done n
    unfold allDone at this
    simp only [Bool.and_eq_true] at this
    exact this.1.1.1.1

/-- The request of the first ping is one the wire carries. -/
def pingOf (w : World Empty Nat) : Bool :=
  match foundAt w.link.hs 0 with
  | some (o, r) => decide (o = 0 ∧ r.method = lit "ping" ∧ r.id = .str []) && r.params.isNone
  | none => false

/-- No write has failed. -/
theorem all_written {w : World Empty Nat} (h : w.link.hs.events.all (fun e => e.2.2) = true) {j k : Nat} {ev : Nat × Bytes} {ok : Bool} (hj : w.link.hs.events[j]? = some (k, ev, ok)) : ok = true :=
  List.all_eq_true.1 h _ (List.mem_of_getElem? hj)

/-- Events do not go away. -/
theorem writes_of {f : Nat → Op Empty Nat} {T : Nat} (h : ∀ u, T ≤ u → openBoth (states demoCfg (World.init startedSelf readyCli) f u) = true) :
    Writes demoCfg (World.init startedSelf readyCli) f 0 T := by
  intro u j k ev ok hj hu _
  rcases Nat.le_total T u with hT | hT
  · have := h u hT
    simp only [openBoth, Bool.and_eq_true] at this
    exact all_written this.1.1.1.1.1.1.1 hu
  · obtain ⟨more, hm⟩ := hs_between demoCfg startedSelf readyCli f hT
    have h1 := (events_grow_run (states demoCfg (World.init startedSelf readyCli) f u).link.hs more).length_le
    rw [← hm] at h1
    have h2 := (List.getElem?_eq_some_iff.1 hu).1
    omega

example : Streams heedRun 0 0 ∧ Heeds demoCfg (World.init startedSelf readyCli) heedRun ∧ Writes demoCfg (World.init startedSelf readyCli) heedRun 0 19 ∧ Listens demoCfg (World.init startedSelf readyCli) heedRun 0 19 ∧
    ∃ r : Request Empty, InMemory.PlainReq r ∧ (heedAt 19).link.hs.sends[0]? = some (.found 0 (.request r)) ∧ (heedAt 19).link.hs.streams[0]? = some 0 ∧
      (∀ u, 19 ≤ u → (heedAt u).link.hs.running = true) ∧ (∀ u x, 19 ≤ u → (heedAt u).link.hs.objs[0]? = some x → x.closed = false) ∧
      (∀ v j env n e q, 19 ≤ v → heedRun v = .heed j env n e → heard (heedAt v).link j = some (serRequest q) → SentAs r q → ∃ a, (onRequest env (heedAt v).cli q).1 = .answer a) := by
  have hopen : ∀ u, 19 ≤ u → (heedAt u).link.hs.running = true ∧ (heedAt u).dead = false ∧ (heedAt u).link.ht.sse = true ∧ (heedAt u).link.ht.connected = true ∧
      ((heedAt u).link.hs.objs[0]?).map (·.closed) = some false ∧ (heedAt u).link.hs.streams = [0] ∧ (heedAt u).link.mine = [0] := by
    intro u hu
    have := heedAt_open u hu
    simp only [openBoth, Bool.and_eq_true, decide_eq_true_eq, Bool.not_eq_true'] at this
    obtain ⟨⟨⟨⟨⟨⟨⟨h0, h1⟩, h2⟩, h3⟩, h4⟩, h5⟩, h6⟩, h7⟩ := this
    exact ⟨h1, h2, h3, h4, h5, h6, h7⟩
  refine ⟨heedRun_streams, heedRun_heeds, writes_of heedAt_open, fun u hu => ?_, ?_⟩
  · obtain ⟨-, h2, h3, h4, -, h6, h7⟩ := hopen u hu
    refine ⟨h2, h3, h4, fun k hk => ?_⟩
    have hk' : (heedAt u).link.hs.streams[k]? = some 0 := hk
    rw [h6] at hk'
    have : k < 1 := (List.getElem?_eq_some_iff.1 hk').1
    have hk0 : k = 0 := by omega
    show k ∈ (heedAt u).link.mine
    rw [h7, hk0]; exact List.mem_singleton.2 rfl
  · have hp : pingOf (heedAt 19) = true := by decide +kernel
    unfold pingOf at hp
    split at hp
    · rename_i o r hr
      simp only [Bool.and_eq_true, decide_eq_true_eq, Option.isNone_iff_eq_none] at hp
      obtain ⟨⟨rfl, hm, hid⟩, hpar⟩ := hp
      refine ⟨r, ⟨?_, ?_, ?_, ?_⟩, foundAt_sound hr, ?_, fun u hu => (hopen u hu).1, fun u x hu hx => ?_, fun v j env n e q _ _ _ hs => ?_⟩
      · rw [hid]; exact fun c hc => (nomatch hc)
      · rw [hm]; exact Ask.plain_of (by decide +kernel)
      · rw [hm]; decide
      · intro v hv; rw [hpar] at hv; cases hv
      · rw [(hopen 19 (Nat.le_refl _)).2.2.2.2.2.1]; rfl
      · have := (hopen u hu).2.2.2.2.1
        rw [hx] at this
        exact Option.some.inj this
      · have hq : q.method = lit "ping" := hs.1.trans hm
        unfold onRequest
        rw [if_pos hq]
        exact ⟨_, rfl⟩
    · cases hp

end Verif.Reach
