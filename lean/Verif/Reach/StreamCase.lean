import Verif.Reach.StreamProps
import Verif.Reach.SettleCase

/-! A concrete execution without end that meets the hypotheses of `C136_streamed_partial`: two pings are sent to a session that stays open, and the second is the first to be queued. -/

namespace Verif.Reach

open Verif.Await Verif.Client Verif.Server Verif.Http

/-- Two pings have found their session; the text of the second is queued. -/
def openTrip : List (Op Empty Nat) :=
  opening.map .wire ++ [.call .ping, .go 0, .go 0, .go 0, .go 0, .call .ping, .go 1, .go 1, .go 1, .go 1, .wire (.world (.advance 1)), .wire (.world (.advance 1))]

/-- After that the first goes on and the stream writes, for ever. -/
def openRun (t : Nat) : Op Empty Nat :=
  match openTrip[t]? with
  | some op => op
  | none => if t % 2 = 0 then .wire (.world (.advance 0)) else .wire (.world (.pump 0 true))

theorem openRun_late {t : Nat} (h : 19 ≤ t) : openRun t = if t % 2 = 0 then .wire (.world (.advance 0)) else .wire (.world (.pump 0 true)) := by
  have : openTrip[t]? = none := List.getElem?_eq_none_iff.2 (show openTrip.length ≤ t from h)
  unfold openRun
  rw [this]

theorem openRun_streams : Streams openRun 0 0 := by
  constructor
  · intro t
    refine ⟨2 * (t + 19), by omega, ?_⟩
    rw [openRun_late (by omega), if_pos (by omega)]
  · intro t
    refine ⟨2 * (t + 19) + 1, true, by omega, ?_⟩
    rw [openRun_late (by omega), if_neg (by omega)]

abbrev openAt (t : Nat) : World Empty Nat := states demoCfg (World.init startedSelf readyCli) openRun t

/-- Nothing stops the transport or closes session object 0. -/
def StaysOpen (s : Hs Empty) : Prop := s.running = true ∧ ∀ x, s.objs[0]? = some x → x.closed = false

theorem advance_running (s : Hs Empty) (c : Nat) : (s.step (.advance c)).running = s.running := by
  simp only [Hs.step, Hs.advance]
  repeat' split
  all_goals rfl

theorem pump_running (s : Hs Empty) (k : Nat) (ok : Bool) : (s.step (.pump k ok)).running = s.running := by
  simp only [Hs.step, Hs.pump]
  repeat' split
  all_goals rfl

theorem objs_back (s : Hs Empty) {op : HsOp Empty} (hop : (∃ c, op = .advance c) ∨ ∃ k ok, op = .pump k ok) {x : Sess Empty} (h : (s.step op).objs[0]? = some x) : ∃ y, s.objs[0]? = some y := by
  cases hy : s.objs[0]? with
  | some y => exact ⟨y, rfl⟩
  | none =>
    exfalso
    have hl : (s.step op).objs.length = s.objs.length := by
      rcases hop with ⟨c, rfl⟩ | ⟨k, ok, rfl⟩
      · simp only [Hs.step, Hs.advance]
        repeat' split
        all_goals first | rfl | simp
      · simp only [Hs.step, Hs.pump]
        repeat' split
        all_goals first | rfl | simp
    have h1 := (List.getElem?_eq_some_iff.1 h).1
    have h2 := List.getElem?_eq_none_iff.1 hy
    omega

theorem stays_step (s : Hs Empty) {op : HsOp Empty} (hop : (∃ c, op = .advance c) ∨ ∃ k ok, op = .pump k ok) (h : StaysOpen s) : StaysOpen (s.step op) := by
  refine ⟨?_, fun x hx => ?_⟩
  · rcases hop with ⟨c, rfl⟩ | ⟨k, ok, rfl⟩
    · rw [advance_running]; exact h.1
    · rw [pump_running]; exact h.1
  · obtain ⟨y, hy⟩ := objs_back s hop hx
    have hc := h.2 y hy
    have hx' := step_obj s op 0 y hy
    have he : x = objEffect s op 0 y := Option.some.inj (hx.symm.trans hx')
    rw [he]
    rcases hop with ⟨c, rfl⟩ | ⟨k, ok, rfl⟩
    · simp only [objEffect]
      repeat' split
      all_goals exact hc
    · simp only [objEffect]
      split <;> exact hc

theorem openAt_stays (n : Nat) : StaysOpen (openAt (19 + n)).link.hs := by
  induction n with
  | zero =>
    refine ⟨by decide +kernel, fun x hx => ?_⟩
    have h : ((openAt 19).link.hs.objs[0]?).map (·.closed) = some false := by decide +kernel
    have hx' : (openAt 19).link.hs.objs[0]? = some x := hx
    rw [hx'] at h
    exact Option.some.inj h
  | succ n ih =>
    have hl := openRun_late (show 19 ≤ 19 + n by omega)
    by_cases hp : (19 + n) % 2 = 0
    · rw [if_pos hp] at hl
      show StaysOpen (states demoCfg (World.init startedSelf readyCli) openRun (19 + n + 1)).link.hs
      rw [hs_next demoCfg _ openRun hl]
      exact stays_step _ (.inl ⟨_, rfl⟩) ih
    · rw [if_neg hp] at hl
      show StaysOpen (states demoCfg (World.init startedSelf readyCli) openRun (19 + n + 1)).link.hs
      rw [hs_next demoCfg _ openRun hl]
      exact stays_step _ (.inr ⟨_, _, rfl⟩) ih

def foundAt (s : Hs Empty) (t : Nat) : Option (Nat × Request Empty) :=
  match s.sends[t]? with
  | some (.found o (.request r)) => some (o, r)
  | _ => none

theorem foundAt_sound {s : Hs Empty} {t o : Nat} {r : Request Empty} (h : foundAt s t = some (o, r)) : s.sends[t]? = some (.found o (.request r)) := by
  unfold foundAt at h
  split at h
  · rename_i o' r' he
    injection h with h
    injection h with h1 h2
    rw [he, h1, h2]
  · cases h

/-- What a slot and its send have in common. -/
def agrees (w : World Empty Nat) : Bool :=
  match w.slots[0]?, foundAt w.link.hs 0 with
  | some (t, r), some (o, r') => decide (t = 0 ∧ o = 0) && decide (serRequest r = serRequest r')
  | _, _ => false

/-- The first ping has found its session, one event is before it, and it is written in the end. -/
example : Streams openRun 0 0 ∧ agrees (openAt 19) = true ∧ ((openAt 19).link.hs.objs[0]?).map (·.queue.length) = some 1 ∧
    ∃ r, (openAt 19).link.hs.sends[0]? = some (.found 0 (.request r)) ∧ (openAt 19).link.hs.streams[0]? = some 0 ∧ (∀ u, 19 ≤ u → (openAt u).link.hs.running = true) ∧
      (∀ u x, 19 ≤ u → (openAt u).link.hs.objs[0]? = some x → x.closed = false) ∧ ∃ U, ∀ u, U ≤ u → Written r 0 (openAt 19).link.hs.events.length (openAt u).link.hs := by
  refine ⟨openRun_streams, by decide +kernel, by decide +kernel, ?_⟩
  have hr : (foundAt (openAt 19).link.hs 0).map (·.1) = some 0 := by decide +kernel
  obtain ⟨⟨o, r⟩, hr, ho⟩ := Option.map_eq_some_iff.1 hr
  have ho : o = 0 := ho
  subst ho
  have hk : (openAt 19).link.hs.streams[0]? = some 0 := by decide +kernel
  have h1 : ∀ u, 19 ≤ u → StaysOpen (openAt u).link.hs := by
    intro u hu
    obtain ⟨n, rfl⟩ := Nat.le.dest hu
    exact openAt_stays n
  refine ⟨r, foundAt_sound hr, hk, fun u hu => (h1 u hu).1, fun u x hu hx => (h1 u hu).2 x hx, ?_⟩
  exact C136_streamed_partial demoCfg startedSelf readyCli openRun (T := 19) (t := (0, r)) openRun_streams (foundAt_sound hr) hk (fun u hu => (h1 u hu).1) (fun u x hu hx => (h1 u hu).2 x hx)

end Verif.Reach
