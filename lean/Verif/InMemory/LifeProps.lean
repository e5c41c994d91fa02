import Verif.InMemory.Life
import Verif.Base.Fair

/-!
C119: an in-memory transport can be started, closed, started again and destroyed.
-/

namespace Verif.InMemory

/-! ### Steps that are not of the caller -/

/-- Where thread `i` is. -/
def Ml.posAt (s : Ml) (i : Nat) : Option MlAt := (s.works[i]?).map MlWork.pos

/-- Whether thread `i` was told to stop. -/
def Ml.stopAt (s : Ml) (i : Nat) : Option Bool := (s.works[i]?).map MlWork.stop

structure MlAside (s t : Ml) : Prop where
  th : t.th = s.th
  call : t.call = s.call
  connected : t.connected = s.connected
  gone : t.gone = s.gone
  failed : t.failed = s.failed
  len : t.works.length = s.works.length
  ended : ∀ i : Nat, s.posAt i = some MlAt.ended → t.posAt i = some MlAt.ended
  stop : ∀ i : Nat, t.stopAt i = s.stopAt i
  fifo : s.taken ++ s.queue = s.sent → t.taken ++ t.queue = t.sent

theorem MlAside.refl (s : Ml) : MlAside s s := ⟨rfl, rfl, rfl, rfl, rfl, rfl, fun _ h => h, fun _ => rfl, id⟩

/-- Steps that leave the threads alone. -/
theorem MlAside.keep {s t : Ml} (h1 : t.th = s.th) (h2 : t.call = s.call) (h3 : t.connected = s.connected) (h4 : t.gone = s.gone) (h5 : t.failed = s.failed) (h6 : t.works = s.works)
    (h7 : s.taken ++ s.queue = s.sent → t.taken ++ t.queue = t.sent) : MlAside s t :=
  ⟨h1, h2, h3, h4, h5, by rw [h6], fun i h => by unfold Ml.posAt at *; rw [h6]; exact h, fun i => by unfold Ml.stopAt; rw [h6], h7⟩

/-- A thread that has not ended goes on. -/
theorem MlAside.set {s t : Ml} {j : Nat} {p q : MlAt} {st : Bool} (hj : s.works[j]? = some ⟨p, st⟩) (hp : p ≠ .ended) (h1 : t.th = s.th) (h2 : t.call = s.call) (h3 : t.connected = s.connected)
    (h4 : t.gone = s.gone) (h5 : t.failed = s.failed) (h6 : t.works = s.works.set j ⟨q, st⟩) (h7 : s.taken ++ s.queue = s.sent → t.taken ++ t.queue = t.sent) : MlAside s t := by
  have hlt := (List.getElem?_eq_some_iff.mp hj).1
  refine ⟨h1, h2, h3, h4, h5, by rw [h6, List.length_set], fun i h => ?_, fun i => ?_, h7⟩
  · unfold Ml.posAt at *
    rw [h6, List.getElem?_set]
    split
    · rename_i e
      subst e
      rw [hj] at h
      exact absurd (Option.some.inj h) hp
    · exact h
  · unfold Ml.stopAt
    rw [h6, List.getElem?_set]
    split
    · rename_i e
      subst e
      first
        | rw [if_pos hlt, hj]; rfl
        | rw [hj]; rfl
    · rfl

theorem woken_stop (w : MlWork) : w.woken.stop = w.stop := by unfold MlWork.woken; split <;> rfl

theorem woken_ended {w : MlWork} (h : w.pos = .ended) : w.woken.pos = .ended := by unfold MlWork.woken; rw [if_neg (by rw [h]; exact (nomatch ·))]; exact h

theorem mlAside_work (s : Ml) (j : Nat) (k : MlKind) : MlAside s (s.goWork j k) := by
  unfold Ml.goWork
  cases hj : s.works[j]? with
  | none => exact .refl s
  | some w =>
    obtain ⟨p, st⟩ := w
    cases p with
    | test => exact .set hj (nomatch ·) rfl rfl rfl rfl rfl rfl id
    | look => dsimp only; split; exact .refl s; exact .set hj (nomatch ·) rfl rfl rfl rfl rfl rfl id
    | decided => exact .set hj (nomatch ·) rfl rfl rfl rfl rfl rfl id
    | asleep => exact .refl s
    | drain =>
      dsimp only
      split
      · exact .refl s
      · split
        · rename_i m q hq
          split
          · exact .set hj (nomatch ·) rfl rfl rfl rfl rfl rfl (fun h => by show (s.taken ++ [m]) ++ q = s.sent; rw [← h, hq]; simp)
          · exact .set hj (nomatch ·) rfl rfl rfl rfl rfl rfl id
        · exact .set hj (nomatch ·) rfl rfl rfl rfl rfl rfl id
    | took m => cases k <;> exact .set hj (nomatch ·) rfl rfl rfl rfl rfl rfl id
    | busy => exact .refl s
    | ended => exact .refl s

/-- The steps that are not of the caller. -/
def MlOp.aside : MlOp → Bool
  | .start | .close | .destroy | .caller => false
  | _ => true

theorem mlAside_step (s : Ml) (op : MlOp) (ha : op.aside = true) : MlAside s (s.step op) := by
  unfold Ml.step
  split
  · exact .refl s
  · cases op with
    | work j k =>
      dsimp only
      split
      · exact .keep rfl rfl rfl rfl rfl rfl id
      · exact mlAside_work s j k
    | handled j =>
      dsimp only
      split
      · rename_i hj; exact .set hj (nomatch ·) rfl rfl rfl rfl rfl rfl id
      · exact .refl s
    | answered h =>
      dsimp only
      split
      · split <;> exact .keep rfl rfl rfl rfl rfl rfl id
      · exact .refl s
    | deliver m i =>
      dsimp only
      split
      · exact .refl s
      · split
        · exact .keep rfl rfl rfl rfl rfl rfl id
        · split
          · exact .refl s
          · refine ⟨rfl, rfl, rfl, rfl, rfl, ?_, ?_, ?_, fun h => by show s.taken ++ (s.queue ++ [m]) = s.sent ++ [m]; rw [← h, List.append_assoc]⟩
            · dsimp only; split <;> simp
            · intro i' h
              unfold Ml.posAt at *
              dsimp only
              split
              · rw [List.getElem?_modify]
                cases hw : s.works[i']? with
                | none => rw [hw] at h; cases h
                | some w =>
                  rw [hw] at h
                  have hp : w.pos = .ended := Option.some.inj h
                  show some (if _ then _ else _ : MlWork).pos = _
                  split
                  · rw [woken_ended hp]
                  · rw [hp]
              · exact h
            · intro i'
              unfold Ml.stopAt
              dsimp only
              split
              · rw [List.getElem?_modify]
                cases hw : s.works[i']? with
                | none => rfl
                | some w =>
                  show some (if _ then _ else _ : MlWork).stop = some w.stop
                  split
                  · rw [woken_stop]
                  · rfl
              · rfl
    | send r =>
      dsimp only
      split
      · exact .refl s
      · split <;> exact .keep rfl rfl rfl rfl rfl rfl id
    | peerDies => exact .keep rfl rfl rfl rfl rfl rfl id
    | _ => cases ha

/-! ### What holds in every state -/

/-- `Start` waits for the thread of the one before. -/
def MlCall.swapping : MlCall → Bool
  | .swap | .swapJoin => true
  | _ => false

/-- The destructor. -/
def MlCall.dying : MlCall → Bool
  | .dNotify | .dStop | .dJoin | .destroyed => true
  | _ => false

structure MlInv (s : Ml) : Prop where
  last : s.call.swapping = false → ∀ j, s.th = some j → j + 1 = s.works.length
  lastButOne : s.call.swapping = true → ∃ j, s.th = some j ∧ j + 2 = s.works.length
  others : ∀ i, i < s.works.length → s.posAt i = some MlAt.ended ∨ s.th = some i ∨ (s.call.swapping = true ∧ i + 1 = s.works.length)
  stops : ∀ i, s.stopAt i = some true → s.posAt i = some MlAt.ended ∨ ((s.call = .swapJoin ∨ s.call = .dJoin) ∧ s.th = some i)
  off : s.call.dying = true → s.connected = false
  gone : s.gone = true ↔ s.call = .destroyed
  away : s.call = .destroyed → s.th = none
  join : s.call = .dJoin → s.th ≠ none
  fifo : s.taken ++ s.queue = s.sent

theorem mlInv_init : MlInv .init :=
  ⟨fun _ _ h => (nomatch h), (nomatch ·), fun _ h => absurd h (Nat.not_lt_zero _), fun _ h => (nomatch h), (nomatch ·), ⟨(nomatch ·), (nomatch ·)⟩, fun _ => rfl, (nomatch ·), rfl⟩

theorem MlInv.aside {s t : Ml} (h : MlInv s) (a : MlAside s t) : MlInv t where
  last := by rw [a.call, a.th, a.len]; exact h.last
  lastButOne := by rw [a.call, a.th, a.len]; exact h.lastButOne
  others i hi := by
    rw [a.len] at hi
    rw [a.call, a.th, a.len]
    exact (h.others i hi).imp_left (a.ended i)
  stops i hi := by
    rw [a.stop] at hi
    rw [a.call, a.th]
    exact (h.stops i hi).imp_left (a.ended i)
  off := by rw [a.call, a.connected]; exact h.off
  gone := by rw [a.gone, a.call]; exact h.gone
  away := by rw [a.call, a.th]; exact h.away
  join := by rw [a.call, a.th]; exact h.join
  fifo := a.fifo h.fifo

theorem wakeAll_pos {s : Ml} {i : Nat} (h : s.posAt i = some MlAt.ended) : s.wakeAll.posAt i = some MlAt.ended := by
  unfold Ml.posAt at *
  show ((s.works.map MlWork.woken)[i]?).map _ = _
  rw [List.getElem?_map]
  cases hw : s.works[i]? with
  | none => rw [hw] at h; cases h
  | some w => rw [hw] at h; exact congrArg some (woken_ended (Option.some.inj h))

theorem wakeAll_stop (s : Ml) (i : Nat) : s.wakeAll.stopAt i = s.stopAt i := by
  unfold Ml.stopAt
  show ((s.works.map MlWork.woken)[i]?).map _ = _
  rw [List.getElem?_map]
  cases s.works[i]? with
  | none => rfl
  | some w => exact congrArg some (woken_stop w)

theorem askStop_pos (s : Ml) (j i : Nat) : (s.askStop j).posAt i = s.posAt i := by
  unfold Ml.posAt Ml.askStop
  dsimp only
  rw [List.getElem?_modify]
  cases s.works[i]? with
  | none => rfl
  | some w => show some (if _ then _ else _ : MlWork).pos = some w.pos; split <;> rfl

theorem askStop_stop {s : Ml} {j i : Nat} (h : (s.askStop j).stopAt i = some true) : s.stopAt i = some true ∨ i = j := by
  unfold Ml.stopAt Ml.askStop at *
  dsimp only at h
  rw [List.getElem?_modify] at h
  by_cases e : j = i
  · exact .inr e.symm
  · left
    cases hw : s.works[i]? with
    | none => rw [hw] at h; cases h
    | some w =>
      rw [hw] at h
      have h' : some (if j = i then _ else w : MlWork).stop = some true := h
      rw [if_neg e] at h'
      exact h'

theorem any_ended {s : Ml} {j : Nat} (h : (s.works[j]?).any (fun w => decide (w.pos = .ended)) = true) : s.posAt j = some MlAt.ended := by
  unfold Ml.posAt
  cases hw : s.works[j]? with
  | none => rw [hw] at h; cases h
  | some w => rw [hw] at h; exact congrArg some (by simpa using h)

theorem mlInv_caller {s : Ml} (h : MlInv s) : MlInv s.goCaller := by
  unfold Ml.goCaller
  cases hc : s.call with
  | idle => exact h
  | destroyed => exact h
  | notify =>
    refine ⟨fun _ => ?_, (nomatch ·), fun i hi => ?_, fun i hi => ?_, (nomatch ·), ⟨fun e => ?_, (nomatch ·)⟩, (nomatch ·), (nomatch ·), h.fifo⟩
    · have := h.last (by rw [hc]; rfl); intro j hj; show j + 1 = (s.works.map _).length; rw [List.length_map]; exact this j hj
    · have hi' : i < s.works.length := by have : i < (s.works.map MlWork.woken).length := hi; simpa using this
      rcases h.others i hi' with e | e | ⟨e, -⟩
      · exact .inl (wakeAll_pos e)
      · exact .inr (.inl e)
      · rw [hc] at e; cases e
    · have hi' : s.wakeAll.stopAt i = some true := hi
      rw [wakeAll_stop] at hi'
      rcases h.stops i hi' with e | ⟨e | e, -⟩
      · exact .inl (wakeAll_pos e)
      · rw [hc] at e; cases e
      · rw [hc] at e; cases e
    · have := h.gone.mp e; rw [hc] at this; cases this
  | fail =>
    have h1 := h.last (by rw [hc]; rfl)
    refine ⟨fun _ => h1, (nomatch ·), fun i hi => ?_, fun i hi => ?_, (nomatch ·), ⟨fun e => ?_, (nomatch ·)⟩, (nomatch ·), (nomatch ·), h.fifo⟩
    · rcases h.others i hi with e | e | ⟨e, -⟩
      · exact .inl e
      · exact .inr (.inl e)
      · rw [hc] at e; cases e
    · rcases h.stops i hi with e | ⟨e | e, -⟩
      · exact .inl e
      · rw [hc] at e; cases e
      · rw [hc] at e; cases e
    · have := h.gone.mp e; rw [hc] at this; cases this
  | dNotify =>
    have ho := h.off (by rw [hc]; rfl)
    refine ⟨fun _ => ?_, (nomatch ·), fun i hi => ?_, fun i hi => ?_, fun _ => ho, ⟨fun e => ?_, (nomatch ·)⟩, (nomatch ·), (nomatch ·), h.fifo⟩
    · have := h.last (by rw [hc]; rfl); intro j hj; show j + 1 = (s.works.map _).length; rw [List.length_map]; exact this j hj
    · have hi' : i < s.works.length := by have : i < (s.works.map MlWork.woken).length := hi; simpa using this
      rcases h.others i hi' with e | e | ⟨e, -⟩
      · exact .inl (wakeAll_pos e)
      · exact .inr (.inl e)
      · rw [hc] at e; cases e
    · have hi' : s.wakeAll.stopAt i = some true := hi
      rw [wakeAll_stop] at hi'
      rcases h.stops i hi' with e | ⟨e | e, -⟩
      · exact .inl (wakeAll_pos e)
      · rw [hc] at e; cases e
      · rw [hc] at e; cases e
    · have := h.gone.mp e; rw [hc] at this; cases this
  | swap =>
    obtain ⟨j, hj, hlen⟩ := h.lastButOne (by rw [hc]; rfl)
    dsimp only
    rw [hj]
    dsimp only
    have hl : (s.askStop j).works.length = s.works.length := by unfold Ml.askStop; simp
    refine ⟨(nomatch ·), fun _ => ⟨j, hj, by show j + 2 = (s.askStop j).works.length; rw [hl]; exact hlen⟩, fun i hi => ?_, fun i hi => ?_, (nomatch ·), ⟨fun e => ?_, (nomatch ·)⟩, (nomatch ·), (nomatch ·), h.fifo⟩
    · have hi' : i < s.works.length := hl ▸ hi
      rcases h.others i hi' with e | e | ⟨-, e⟩
      · exact .inl ((askStop_pos s j i).trans e)
      · exact .inr (.inl e)
      · exact .inr (.inr ⟨rfl, by show i + 1 = (s.askStop j).works.length; rw [hl]; exact e⟩)
    · rcases askStop_stop hi with e | e
      · rcases h.stops i e with e | ⟨e | e, -⟩
        · exact .inl ((askStop_pos s j i).trans e)
        · rw [hc] at e; cases e
        · rw [hc] at e; cases e
      · exact .inr ⟨.inl rfl, by rw [e]; exact hj⟩
    · have := h.gone.mp e; rw [hc] at this; cases this
  | swapJoin =>
    obtain ⟨j, hj, hlen⟩ := h.lastButOne (by rw [hc]; rfl)
    dsimp only
    rw [hj]
    dsimp only
    split
    · rename_i hend
      have he := any_ended hend
      refine ⟨fun _ i e => (by cases e; show s.works.length - 1 + 1 = s.works.length; omega), (nomatch ·), fun i hi => ?_, fun i hi => ?_, (nomatch ·), ⟨fun e => ?_, (nomatch ·)⟩, (nomatch ·), (nomatch ·), h.fifo⟩
      · rcases h.others i hi with e | e | ⟨-, e⟩
        · exact .inl e
        · rw [hj] at e; cases e; exact .inl he
        · exact .inr (.inl (congrArg some (by omega)))
      · rcases h.stops i hi with e | ⟨-, e⟩
        · exact .inl e
        · rw [hj] at e; cases e; exact .inl he
      · have := h.gone.mp e; rw [hc] at this; cases this
    · exact h
  | dStop =>
    have ho := h.off (by rw [hc]; rfl)
    have hlast := h.last (by rw [hc]; rfl)
    dsimp only
    cases hj : s.th with
    | none =>
      refine ⟨fun _ i e => (nomatch e), (nomatch ·), fun i hi => ?_, fun i hi => ?_, fun _ => ho, ⟨fun _ => rfl, fun _ => rfl⟩, fun _ => rfl, (nomatch ·), h.fifo⟩
      · rcases h.others i hi with e | e | ⟨e, -⟩
        · exact .inl e
        · rw [hj] at e; cases e
        · rw [hc] at e; cases e
      · rcases h.stops i hi with e | ⟨e | e, -⟩
        · exact .inl e
        · rw [hc] at e; cases e
        · rw [hc] at e; cases e
    | some j =>
      have hl : (s.askStop j).works.length = s.works.length := by unfold Ml.askStop; simp
      refine ⟨fun _ i e => ?_, (nomatch ·), fun i hi => ?_, fun i hi => ?_, fun _ => ho, ⟨fun e => ?_, (nomatch ·)⟩, (nomatch ·), fun _ => ?_, h.fifo⟩
      · show i + 1 = (s.askStop j).works.length
        rw [hl]
        exact hlast i e
      · have hi' : i < s.works.length := hl ▸ hi
        rcases h.others i hi' with e | e | ⟨e, -⟩
        · exact .inl ((askStop_pos s j i).trans e)
        · exact .inr (.inl e)
        · rw [hc] at e; cases e
      · rcases askStop_stop hi with e | e
        · rcases h.stops i e with e | ⟨e | e, -⟩
          · exact .inl ((askStop_pos s j i).trans e)
          · rw [hc] at e; cases e
          · rw [hc] at e; cases e
        · exact .inr ⟨.inr rfl, by rw [e]; exact hj⟩
      · have := h.gone.mp e; rw [hc] at this; cases this
      · show s.th ≠ none
        rw [hj]; exact (nomatch ·)
  | dJoin =>
    have ho := h.off (by rw [hc]; rfl)
    dsimp only
    cases hj : s.th with
    | none => exact h
    | some j =>
      dsimp only
      split
      · rename_i hend
        have he := any_ended hend
        refine ⟨fun _ i e => (by cases e), (nomatch ·), fun i hi => ?_, fun i hi => ?_, fun _ => ho, ⟨fun _ => rfl, fun _ => rfl⟩, fun _ => rfl, (nomatch ·), h.fifo⟩
        · rcases h.others i hi with e | e | ⟨e, -⟩
          · exact .inl e
          · rw [hj] at e; cases e; exact .inl he
          · rw [hc] at e; cases e
        · rcases h.stops i hi with e | ⟨-, e⟩
          · exact .inl e
          · rw [hj] at e; cases e; exact .inl he
      · exact h

theorem mlInv_step {s : Ml} (h : MlInv s) (op : MlOp) : MlInv (s.step op) := by
  by_cases ha : op.aside = true
  · exact h.aside (mlAside_step s op ha)
  · unfold Ml.step
    split
    · exact h
    · cases op with
      | start =>
        dsimp only
        split
        · rename_i hc
          have hg : s.gone = true → False := fun e => by have := h.gone.mp e; rw [hc] at this; cases this
          have hlast := h.last (by rw [hc]; rfl)
          have hpos : ∀ i, s.posAt i = some MlAt.ended → (({ s with works := s.works ++ [⟨.test, false⟩] } : Ml)).posAt i = some MlAt.ended := by
            intro i e
            unfold Ml.posAt at *
            show ((s.works ++ _)[i]?).map _ = _
            cases hw : s.works[i]? with
            | none => rw [hw] at e; cases e
            | some w => rw [List.getElem?_append_left (List.getElem?_eq_some_iff.mp hw).1, hw]; rw [hw] at e; exact e
          have hstop : ∀ i, (({ s with works := s.works ++ [⟨.test, false⟩] } : Ml)).stopAt i = some true → s.stopAt i = some true := by
            intro i e
            unfold Ml.stopAt at *
            have e' : ((s.works ++ [⟨MlAt.test, false⟩])[i]?).map MlWork.stop = some true := e
            rcases Nat.lt_or_ge i s.works.length with lt | ge
            · rw [List.getElem?_append_left lt] at e'; exact e'
            · rw [List.getElem?_append_right ge] at e'
              cases hk : i - s.works.length with
              | zero => rw [hk] at e'; cases e'
              | succ n => rw [hk] at e'; cases e'
          unfold Ml.start
          dsimp only
          cases hth : s.th with
          | none =>
            dsimp only
            refine ⟨fun _ j e => (by cases e; show _ = (s.works ++ [_]).length; simp), fun e => ?_, fun i hi => ?_, fun i hi => ?_, fun e => ?_, ⟨fun (e : s.gone = true) => (hg e).elim, fun e => ?_⟩, fun e => ?_, fun e => ?_, h.fifo⟩
            · have e' : s.call.swapping = true := e; rw [hc] at e'; cases e'
            · have hi' : i < (s.works ++ [(⟨MlAt.test, false⟩ : MlWork)]).length := hi
              rw [List.length_append, List.length_singleton] at hi'
              rcases Nat.lt_or_ge i s.works.length with lt | ge
              · rcases h.others i lt with e | e | ⟨e, -⟩
                · exact .inl (hpos i e)
                · rw [hth] at e; cases e
                · rw [hc] at e; cases e
              · exact .inr (.inl (congrArg some (by omega)))
            · rcases h.stops i (hstop i hi) with e | ⟨e | e, -⟩
              · exact .inl (hpos i e)
              · rw [hc] at e; cases e
              · rw [hc] at e; cases e
            · have e' : s.call.dying = true := e; rw [hc] at e'; cases e'
            · have e' : s.call = .destroyed := e; rw [hc] at e'; cases e'
            · have e' : s.call = .destroyed := e; rw [hc] at e'; cases e'
            · have e' : s.call = .dJoin := e; rw [hc] at e'; cases e'
          | some j =>
            have hj := hlast j hth
            dsimp only
            refine ⟨(nomatch ·), fun _ => ⟨j, rfl, (by show _ = (s.works ++ [_]).length; simp; omega)⟩, fun i hi => ?_, fun i hi => ?_, (nomatch ·), ⟨fun (e : s.gone = true) => (hg e).elim, (nomatch ·)⟩, (nomatch ·), (nomatch ·), h.fifo⟩
            · have hi' : i < (s.works ++ [(⟨MlAt.test, false⟩ : MlWork)]).length := hi
              rw [List.length_append, List.length_singleton] at hi'
              rcases Nat.lt_or_ge i s.works.length with lt | ge
              · rcases h.others i lt with e | e | ⟨e, -⟩
                · exact .inl (hpos i e)
                · exact .inr (.inl (hth.symm.trans e))
                · rw [hc] at e; cases e
              · exact .inr (.inr ⟨rfl, by show _ = (s.works ++ [_]).length; simp; omega⟩)
            · rcases h.stops i (hstop i hi) with e | ⟨e | e, -⟩
              · exact .inl (hpos i e)
              · rw [hc] at e; cases e
              · rw [hc] at e; cases e
        · exact h
      | close =>
        dsimp only
        split
        · rename_i hc
          refine ⟨fun _ => h.last (by rw [hc]; rfl), (nomatch ·), fun i hi => ?_, fun i hi => ?_, (nomatch ·), ⟨fun e => ?_, (nomatch ·)⟩, (nomatch ·), (nomatch ·), h.fifo⟩
          · rcases h.others i hi with e | e | ⟨e, -⟩
            · exact .inl e
            · exact .inr (.inl e)
            · rw [hc] at e; cases e
          · rcases h.stops i hi with e | ⟨e | e, -⟩
            · exact .inl e
            · rw [hc] at e; cases e
            · rw [hc] at e; cases e
          · have := h.gone.mp e; rw [hc] at this; cases this
        · exact h
      | destroy =>
        dsimp only
        split
        · rename_i hc
          refine ⟨fun _ => h.last (by rw [hc]; rfl), (nomatch ·), fun i hi => ?_, fun i hi => ?_, fun _ => rfl, ⟨fun e => ?_, (nomatch ·)⟩, (nomatch ·), (nomatch ·), h.fifo⟩
          · rcases h.others i hi with e | e | ⟨e, -⟩
            · exact .inl e
            · exact .inr (.inl e)
            · rw [hc] at e; cases e
          · rcases h.stops i hi with e | ⟨e | e, -⟩
            · exact .inl e
            · rw [hc] at e; cases e
            · rw [hc] at e; cases e
          · have := h.gone.mp e; rw [hc] at this; cases this
        · exact h
      | caller => exact mlInv_caller h
      | _ => exact absurd rfl ha

theorem ml_run_inv {P : Ml → Prop} {s : Ml} {ops : List MlOp} (h : P s) (hstep : ∀ t op, op ∈ ops → P t → P (t.step op)) : P (s.run ops) := by
  induction ops generalizing s with
  | nil => exact h
  | cons op l ih => exact ih (hstep s op (by simp) h) (fun t o ho => hstep t o (by simp [ho]))

theorem ml_run_append (s : Ml) (a b : List MlOp) : s.run (a ++ b) = (s.run a).run b := by simp [Ml.run]

theorem mlInv_run (ops : List MlOp) : MlInv (Ml.init.run ops) := ml_run_inv mlInv_init fun _ op _ h => mlInv_step h op

/-! ### Safety -/

/-- C119. Between calls no thread of an earlier `Start` is left. -/
theorem C119_one_thread (ops : List MlOp) (hc : (Ml.init.run ops).call = .idle) (i : Nat) (hi : i + 1 < (Ml.init.run ops).works.length) :
    ((Ml.init.run ops).works[i]?).map MlWork.pos = some .ended := by
  have h := mlInv_run ops
  rcases h.others i (by omega) with e | e | ⟨e, -⟩
  · exact e
  · have := h.last (by rw [hc]; rfl) i e; omega
  · rw [hc] at e; cases e

/-- C119. When the destructor has returned no thread that takes messages is left. -/
theorem C119_destroyed (ops : List MlOp) (hc : (Ml.init.run ops).call = .destroyed) (w : MlWork) (hw : w ∈ (Ml.init.run ops).works) : w.pos = .ended := by
  have h := mlInv_run ops
  obtain ⟨i, hi, rfl⟩ := List.mem_iff_getElem.mp hw
  rcases h.others i hi with e | e | ⟨e, -⟩
  · unfold Ml.posAt at e; rw [List.getElem?_eq_getElem hi] at e; exact Option.some.inj e
  · rw [h.away hc] at e; cases e
  · rw [hc] at e; cases e

/-- C119. Over all its lives a transport takes the messages in the order in which they were put into its queue, each once. -/
theorem C119_in_order (ops : List MlOp) : (Ml.init.run ops).taken ++ (Ml.init.run ops).queue = (Ml.init.run ops).sent := (mlInv_run ops).fifo

/-- Two lives: in the first a notification and a request, in the second a notification; then the end. -/
def mlLife : List MlOp :=
  [.start, .deliver 1 0, .deliver 2 0, .work 0 .request, .work 0 .request, .work 0 .request, .work 0 .notification, .handled 0, .work 0 .request, .work 0 .request, .answered 0, .close, .caller,
   .work 0 .request, .work 0 .request, .caller, .start, .caller, .caller, .deliver 3 1, .work 1 .request, .work 1 .request, .work 1 .request, .work 1 .notification, .handled 1]

example : (Ml.init.run mlLife).call = .idle ∧ (Ml.init.run mlLife).log = [.started, .note 1, .closed, .started, .note 3] ∧ (Ml.init.run mlLife).taken = [1, 2, 3] ∧
    (Ml.init.run mlLife).works.length = 2 ∧ (Ml.init.run mlLife).ub = false := by decide +kernel

example : let ops := mlLife ++ [.destroy, .caller, .work 1 .request, .caller, .work 1 .request, .caller, .caller]
    (Ml.init.run ops).call = .destroyed ∧ (Ml.init.run ops).works = [⟨.ended, true⟩, ⟨.ended, true⟩] := by decide +kernel

/-- C119. A transport that is destroyed while no request is being handled, and to which the other one sends no more, is not used afterwards. Missing: requests that are being handled; messages of
the other transport. -/
theorem C119_destroyed_safe_partial (ops more : List MlOp) (hc : (Ml.init.run ops).call = .destroyed) (hub : (Ml.init.run ops).ub = false) (hh : ∀ h ∈ (Ml.init.run ops).handlers, h = false)
    (hd : ∀ m i, MlOp.deliver m i ∉ more) : (Ml.init.run (ops ++ more)).ub = false := by
  rw [ml_run_append]
  have h0 := mlInv_run ops
  have hends : ∀ w ∈ (Ml.init.run ops).works, w.pos = .ended := C119_destroyed ops hc
  generalize Ml.init.run ops = s at *
  have key : (s.run more).call = .destroyed ∧ (s.run more).ub = false ∧ (s.run more).gone = true ∧ (∀ h ∈ (s.run more).handlers, h = false) ∧ ∀ w ∈ (s.run more).works, w.pos = .ended := by
    refine ml_run_inv (P := fun t => t.call = .destroyed ∧ t.ub = false ∧ t.gone = true ∧ (∀ h ∈ t.handlers, h = false) ∧ ∀ w ∈ t.works, w.pos = .ended)
      ⟨hc, hub, h0.gone.mpr hc, hh, hends⟩ fun t op ho ⟨k1, k2, k3, k4, k5⟩ => ?_
    have hni : t.call ≠ .idle := by rw [k1]; exact (nomatch ·)
    unfold Ml.step
    rw [if_neg (by simp [k2])]
    cases op with
    | start => dsimp only; rw [if_neg hni]; exact ⟨k1, k2, k3, k4, k5⟩
    | close => dsimp only; rw [if_neg hni]; exact ⟨k1, k2, k3, k4, k5⟩
    | destroy => dsimp only; rw [if_neg hni]; exact ⟨k1, k2, k3, k4, k5⟩
    | caller => dsimp only; unfold Ml.goCaller; rw [k1]; exact ⟨k1, k2, k3, k4, k5⟩
    | work j k =>
      dsimp only
      cases hj : t.works[j]? with
      | none =>
        rw [if_neg (by simp)]
        unfold Ml.goWork
        rw [hj]
        exact ⟨k1, k2, k3, k4, k5⟩
      | some w =>
        have hw := k5 w (List.mem_of_getElem? hj)
        rw [if_neg (by simp [hw])]
        obtain ⟨p, st⟩ := w
        have hw' : p = .ended := hw
        subst hw'
        unfold Ml.goWork
        rw [hj]
        exact ⟨k1, k2, k3, k4, k5⟩
    | handled j =>
      dsimp only
      split
      · rename_i hj
        have := k5 _ (List.mem_of_getElem? hj)
        cases this
      · exact ⟨k1, k2, k3, k4, k5⟩
    | answered h =>
      dsimp only
      rw [if_neg]
      · exact ⟨k1, k2, k3, k4, k5⟩
      · intro e
        have := k4 _ (List.mem_of_getElem? e)
        cases this
    | deliver m i => exact absurd ho (hd m i)
    | send r => dsimp only; rw [if_pos k3]; exact ⟨k1, k2, k3, k4, k5⟩
    | peerDies => exact ⟨k1, k2, k3, k4, k5⟩
  exact key.2.1

example : let ops := mlLife ++ [.destroy, .caller, .work 1 .request, .caller, .work 1 .request, .caller, .caller]
    (Ml.init.run ops).ub = false ∧ (Ml.init.run ops).handlers = [false] := by decide +kernel

/-! ### What is false of the code -/

/-- C119 fails: a request that is being handled when the transport is destroyed uses it afterwards. -/
theorem C119_handler_counterexample :
    ∃ ops : List MlOp, (Ml.init.run ops).call = .destroyed ∧ (Ml.init.run ops).ub = false ∧ ((Ml.init.run ops).step (.answered 0)).ub = true :=
  ⟨[.start, .deliver 1 0, .work 0 .request, .work 0 .request, .work 0 .request, .work 0 .request, .close, .caller, .caller, .work 0 .request, .work 0 .request, .destroy, .caller, .caller, .caller],
    by decide +kernel⟩

/-- C119 fails: a transport whose other side is destroyed uses it when it sends, instead of failing the request. -/
theorem C119_peer_counterexample : ∃ ops : List MlOp, (Ml.init.run ops).call = .idle ∧ (Ml.init.run ops).ub = false ∧ ((Ml.init.run ops).step (.send 1)).ub = true :=
  ⟨[.start, .peerDies], by decide +kernel⟩

/-- C119 fails: after `Close` has returned the notification handler is called, with a message of before. -/
theorem C119_after_close_counterexample : ∃ ops : List MlOp, (Ml.init.run ops).call = .idle ∧ (Ml.init.run ops).log = [.started, .closed, .note 1] :=
  ⟨[.start, .deliver 1 0, .work 0 .request, .work 0 .request, .work 0 .request, .close, .caller, .caller, .work 0 .notification], by decide +kernel⟩

/-- C119 fails: a message of one life is handled in the next. -/
theorem C119_stale_counterexample :
    ∃ ops more : List MlOp, (Ml.init.run ops).log = [.started, .closed, .started] ∧ (∀ m i, MlOp.deliver m i ∉ more) ∧ ((Ml.init.run ops).run more).log = [.started, .closed, .started, .note 1] :=
  ⟨[.start, .deliver 1 0, .close, .caller, .caller, .work 0 .request, .start, .caller, .caller], [.work 1 .request, .work 1 .request, .work 1 .request, .work 1 .notification],
    by decide +kernel, by simp, by decide +kernel⟩

/-- C119 fails: while `Start` waits for the thread of the life before, which is in a handler, the new thread calls the handler too: two notifications are handled at the same time. -/
theorem C119_overlap_counterexample : ∃ ops : List MlOp, (Ml.init.run ops).works = [⟨.busy, true⟩, ⟨.busy, false⟩] :=
  ⟨[.start, .deliver 1 0, .deliver 2 0, .work 0 .request, .work 0 .request, .work 0 .request, .work 0 .notification, .close, .caller, .caller, .start, .caller, .work 1 .request, .work 1 .request,
    .work 1 .request, .work 1 .notification], by decide +kernel⟩

/-- The thread that `Start` waits for sleeps. -/
structure Stuck (j : Nat) (s : Ml) : Prop where
  call : s.call = .swap ∨ s.call = .swapJoin
  th : s.th = some j
  pos : s.posAt j = some MlAt.asleep

theorem stuck_step {j : Nat} {s : Ml} (h : Stuck j s) (op : MlOp) (hd : ∀ m i, op ≠ .deliver m i) : Stuck j (s.step op) := by
  have hw : ∃ st, s.works[j]? = some ⟨.asleep, st⟩ := by
    have := h.pos
    unfold Ml.posAt at this
    cases hx : s.works[j]? with
    | none => rw [hx] at this; cases this
    | some w => obtain ⟨p, st⟩ := w; rw [hx] at this; have e : p = .asleep := Option.some.inj this; subst e; exact ⟨st, rfl⟩
  obtain ⟨st, hst⟩ := hw
  have hset : ∀ (i : Nat) (p : MlAt) (b : Bool) (w : MlWork), s.works[i]? = some ⟨p, b⟩ → p ≠ .asleep → ((s.works.set i w)[j]?).map MlWork.pos = some MlAt.asleep := by
    intro i p b w hi hp
    rw [List.getElem?_set]
    split
    · rename_i e
      subst e
      rw [hst] at hi
      cases hi
      exact absurd rfl hp
    · rw [hst]; rfl
  have hni : s.call ≠ .idle := by rcases h.call with e | e <;> rw [e] <;> exact (nomatch ·)
  have aside : op.aside = true → (s.step op).posAt j = some MlAt.asleep → Stuck j (s.step op) := fun ha hp => by
    have a := mlAside_step s op ha
    exact ⟨by rw [a.call]; exact h.call, by rw [a.th]; exact h.th, hp⟩
  by_cases hu : s.ub = true
  · have : s.step op = s := by unfold Ml.step; rw [if_pos hu]
    rw [this]; exact h
  · cases op with
    | start => unfold Ml.step; rw [if_neg hu]; dsimp only; rw [if_neg hni]; exact h
    | close => unfold Ml.step; rw [if_neg hu]; dsimp only; rw [if_neg hni]; exact h
    | destroy => unfold Ml.step; rw [if_neg hu]; dsimp only; rw [if_neg hni]; exact h
    | caller =>
      unfold Ml.step
      rw [if_neg hu]
      dsimp only
      unfold Ml.goCaller
      rcases h.call with e | e
      · rw [e, h.th]
        exact ⟨.inr rfl, h.th, (askStop_pos s j j).trans h.pos⟩
      · rw [e, h.th]
        dsimp only
        rw [if_neg (by rw [hst]; simp)]
        exact h
    | work i k =>
      refine aside rfl ?_
      unfold Ml.step
      rw [if_neg hu]
      dsimp only
      split
      · exact h.pos
      · unfold Ml.goWork
        cases hi : s.works[i]? with
        | none => exact h.pos
        | some w =>
          obtain ⟨p, b⟩ := w
          cases p with
          | test => exact hset i _ _ _ hi (nomatch ·)
          | look => dsimp only; split; exact h.pos; exact hset i _ _ _ hi (nomatch ·)
          | decided => exact hset i _ _ _ hi (nomatch ·)
          | asleep => exact h.pos
          | drain =>
            dsimp only
            split
            · exact h.pos
            · split
              · split <;> exact hset i _ _ _ hi (nomatch ·)
              · exact hset i _ _ _ hi (nomatch ·)
          | took m => cases k <;> exact hset i _ _ _ hi (nomatch ·)
          | busy => exact h.pos
          | ended => exact h.pos
    | handled i =>
      refine aside rfl ?_
      unfold Ml.step
      rw [if_neg hu]
      dsimp only
      split
      · rename_i hi; exact hset i _ _ _ hi (nomatch ·)
      · exact h.pos
    | answered i =>
      refine aside rfl ?_
      unfold Ml.step
      rw [if_neg hu]
      dsimp only
      split
      · split <;> exact h.pos
      · exact h.pos
    | deliver m i => exact absurd rfl (hd m i)
    | send r =>
      refine aside rfl ?_
      unfold Ml.step
      rw [if_neg hu]
      dsimp only
      split
      · exact h.pos
      · split <;> exact h.pos
    | peerDies => refine aside rfl ?_; unfold Ml.step; rw [if_neg hu]; exact h.pos

theorem stuck_run {j : Nat} {s : Ml} (h : Stuck j s) (more : List MlOp) (hd : ∀ m i, MlOp.deliver m i ∉ more) : Stuck j (s.run more) :=
  ml_run_inv h fun _ op ho ht => stuck_step ht op fun m i e => hd m i (e ▸ ho)

/-- C119 fails: `Start` on a started transport does not return before a message comes. -/
theorem C119_twice_counterexample :
    ∃ ops : List MlOp, (Ml.init.run ops).call = .idle ∧ (Ml.init.run ops).log = [.started] ∧
      ∀ more, (∀ m i, MlOp.deliver m i ∉ more) → ((Ml.init.run ops).run (.start :: more)).log = [.started] ∨ ((Ml.init.run ops).run (.start :: more)).call ≠ .idle := by
  refine ⟨[.start, .work 0 .request, .work 0 .request, .work 0 .request], by decide +kernel, by decide +kernel, fun more hm => .inr ?_⟩
  have k : Stuck 0 ((Ml.init.run [.start, .work 0 .request, .work 0 .request, .work 0 .request]).step .start) := ⟨.inl (by decide +kernel), by decide +kernel, by decide +kernel⟩
  rcases (stuck_run k more hm).call with e | e <;> (intro e'; exact (nomatch (show _ = MlCall.idle from e.symm.trans e')))

/-- C119 fails: nor does `Start` right after `Close`: the thread of the first life, woken by `Close`, finds the transport connected again and sleeps. -/
theorem C119_restart_counterexample :
    ∃ ops : List MlOp, (Ml.init.run ops).log = [.started, .closed] ∧ (Ml.init.run ops).call = .swap ∧
      ∀ more, (∀ m i, MlOp.deliver m i ∉ more) → ((Ml.init.run ops).run more).call ≠ .idle := by
  refine ⟨[.start, .work 0 .request, .work 0 .request, .work 0 .request, .close, .caller, .caller, .start, .work 0 .request, .work 0 .request], by decide +kernel, by decide +kernel, fun more hm => ?_⟩
  have k : Stuck 0 (Ml.init.run [.start, .work 0 .request, .work 0 .request, .work 0 .request, .close, .caller, .caller, .start, .work 0 .request, .work 0 .request]) :=
    ⟨.inl (by decide +kernel), by decide +kernel, by decide +kernel⟩
  rcases (stuck_run k more hm).call with e | e <;> (intro e'; exact (nomatch (show _ = MlCall.idle from e.symm.trans e')))

end Verif.InMemory
