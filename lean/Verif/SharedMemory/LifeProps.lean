import Verif.SharedMemory.Life
import Verif.Base.Fair

/-!
C120: a shared-memory transport can be started, closed, started again and destroyed. This file: one transport, whatever its queues give it.
-/

namespace Verif.Shm

/-! ### Steps that are not of the caller -/

def Sm.posAt (s : Sm) (i : Nat) : Option SmAt := (s.works[i]?).map SmWork.pos

structure SmAside (s t : Sm) : Prop where
  create : t.create = s.create
  recv : t.recv = s.recv
  send : t.send = s.send
  gen : t.gen = s.gen
  th : t.th = s.th
  call : t.call = s.call
  self : t.self = s.self
  gone : t.gone = s.gone
  names : t.names = s.names
  log : t.log = s.log
  len : t.works.length = s.works.length
  down : s.connected = false → t.connected = false
  ended : ∀ i : Nat, s.posAt i = some SmAt.ended → t.posAt i = some SmAt.ended
  quiet : s.connected = false → s.pending = [] → t.pending = []

theorem SmAside.refl (s : Sm) : SmAside s s := ⟨rfl, rfl, rfl, rfl, rfl, rfl, rfl, rfl, rfl, rfl, rfl, id, fun _ h => h, fun _ h => h⟩

/-- A thread that has not ended goes on. -/
theorem SmAside.set {s t : Sm} {j : Nat} {p q : SmAt} {st : Bool} (hj : s.works[j]? = some ⟨p, st⟩) (hp : p ≠ .ended)
    (h : t.create = s.create ∧ t.recv = s.recv ∧ t.send = s.send ∧ t.gen = s.gen ∧ t.th = s.th ∧ t.call = s.call ∧ t.self = s.self ∧ t.gone = s.gone ∧ t.names = s.names ∧ t.log = s.log)
    (hw : t.works = s.works.set j ⟨q, st⟩) (hd : s.connected = false → t.connected = false) (hq : s.connected = false → s.pending = [] → t.pending = []) : SmAside s t := by
  obtain ⟨h1, h2, h3, h4, h5, h6, h7, h8, h9, h10⟩ := h
  refine ⟨h1, h2, h3, h4, h5, h6, h7, h8, h9, h10, by rw [hw, List.length_set], hd, fun i hi => ?_, hq⟩
  unfold Sm.posAt at *
  rw [hw, List.getElem?_set]
  split
  · rename_i e
    subst e
    rw [hj] at hi
    exact absurd (Option.some.inj hi) hp
  · exact hi

/-- The steps that are not of the caller. -/
def SmOp.aside : SmOp → Bool
  | .start _ | .close _ | .destroy | .caller => false
  | _ => true

theorem smAside_work (s : Sm) (j : Nat) (o : SmIn) : SmAside s (s.goWork j o) := by
  unfold Sm.goWork
  have R : ∀ {a b : Prop}, b → a → b := fun h _ => h
  cases hj : s.works[j]? with
  | none => exact .refl s
  | some w =>
    obtain ⟨p, st⟩ := w
    cases p with
    | test => exact .set hj (nomatch ·) ⟨rfl, rfl, rfl, rfl, rfl, rfl, rfl, rfl, rfl, rfl⟩ rfl id (fun _ => id)
    | recv g =>
      dsimp only
      split
      · exact ⟨rfl, rfl, rfl, rfl, rfl, rfl, rfl, rfl, rfl, rfl, rfl, id, fun _ h => h, fun _ h => h⟩
      · cases o with
        | timeout => exact .set hj (nomatch ·) ⟨rfl, rfl, rfl, rfl, rfl, rfl, rfl, rfl, rfl, rfl⟩ rfl id (fun _ => id)
        | throws => exact .set hj (nomatch ·) ⟨rfl, rfl, rfl, rfl, rfl, rfl, rfl, rfl, rfl, rfl⟩ rfl (fun _ => rfl) (fun _ => id)
        | got m =>
          cases m with
          | answer i => exact .set hj (nomatch ·) ⟨rfl, rfl, rfl, rfl, rfl, rfl, rfl, rfl, rfl, rfl⟩ rfl id (fun _ h => by show s.pending.eraseIdx i = []; rw [h]; rfl)
          | request => exact .set hj (nomatch ·) ⟨rfl, rfl, rfl, rfl, rfl, rfl, rfl, rfl, rfl, rfl⟩ rfl id (fun _ => id)
          | note => exact .set hj (nomatch ·) ⟨rfl, rfl, rfl, rfl, rfl, rfl, rfl, rfl, rfl, rfl⟩ rfl id (fun _ => id)
          | bye => exact .set hj (nomatch ·) ⟨rfl, rfl, rfl, rfl, rfl, rfl, rfl, rfl, rfl, rfl⟩ rfl (fun _ => rfl) (fun _ _ => rfl)
    | busy => exact .refl s
    | leave => exact .set hj (nomatch ·) ⟨rfl, rfl, rfl, rfl, rfl, rfl, rfl, rfl, rfl, rfl⟩ rfl (fun _ => rfl) (fun _ _ => rfl)
    | ended => exact .refl s

theorem smAside_step (s : Sm) (op : SmOp) (ha : op.aside = true) : SmAside s (s.step op) := by
  have same : ∀ t : Sm, t.create = s.create ∧ t.recv = s.recv ∧ t.send = s.send ∧ t.gen = s.gen ∧ t.th = s.th ∧ t.call = s.call ∧ t.self = s.self ∧ t.gone = s.gone ∧ t.names = s.names ∧ t.log = s.log →
      t.works = s.works → t.connected = s.connected → (s.connected = false → t.pending = s.pending) → SmAside s t := by
    intro t ⟨h1, h2, h3, h4, h5, h6, h7, h8, h9, h10⟩ hw hc hp
    exact ⟨h1, h2, h3, h4, h5, h6, h7, h8, h9, h10, by rw [hw], fun h => hc.trans h, fun i h => by unfold Sm.posAt at *; rw [hw]; exact h, fun hc h => (hp hc).trans h⟩
  unfold Sm.step
  split
  · exact .refl s
  · cases op with
    | work j o =>
      dsimp only
      split
      · exact same _ ⟨rfl, rfl, rfl, rfl, rfl, rfl, rfl, rfl, rfl, rfl⟩ rfl rfl fun _ => rfl
      · exact smAside_work s j o
    | handled j =>
      dsimp only
      split
      · rename_i hj
        split
        · exact .refl s
        · exact .set hj (nomatch ·) ⟨rfl, rfl, rfl, rfl, rfl, rfl, rfl, rfl, rfl, rfl⟩ rfl id (fun _ => id)
      · exact .refl s
    | answered h =>
      dsimp only
      split
      · split
        · exact same _ ⟨rfl, rfl, rfl, rfl, rfl, rfl, rfl, rfl, rfl, rfl⟩ rfl rfl fun _ => rfl
        · exact same _ ⟨rfl, rfl, rfl, rfl, rfl, rfl, rfl, rfl, rfl, rfl⟩ rfl rfl fun _ => rfl
      · exact .refl s
    | send r =>
      dsimp only
      split
      · rename_i hc
        exact same _ ⟨rfl, rfl, rfl, rfl, rfl, rfl, rfl, rfl, rfl, rfl⟩ rfl rfl fun e => by rw [hc.2] at e; cases e
      · exact .refl s
    | _ => cases ha

/-! ### What holds in every state -/

/-- `Start` waits for the thread of the one before. -/
def SmCall.swapping : SmCall → Bool
  | .swap | .swapJoin => true
  | _ => false

/-- `Close` or the destructor has said that the transport is not connected. -/
def SmCall.ending : SmCall → Bool
  | .cStop | .cJoin | .cRemove | .cFail | .dStop | .dJoin | .dRemove | .destroyed => true
  | _ => false

/-- The transport was not started, or closed since, and not on its own thread: what the caller can tell from the calls it has made. -/
def Sm.fresh (s : Sm) : Prop := (s.log.filter fun e => decide (e ≠ .refused)).getLast? = none ∨ (s.log.filter fun e => decide (e ≠ .refused)).getLast? = some (.closed false)

structure SmInv (s : Sm) : Prop where
  last : s.call.swapping = false → ∀ j, s.th = some j → j + 1 = s.works.length
  lastButOne : s.call.swapping = true → ∃ j, s.th = some j ∧ j + 2 = s.works.length
  others : ∀ i, i < s.works.length → s.posAt i = some SmAt.ended ∨ s.th = some i ∨ (s.call.swapping = true ∧ i + 1 = s.works.length)
  off : s.call.ending = true → s.connected = false
  loose : s.th = none → s.connected = false
  gone : s.gone = true ↔ s.call = .destroyed
  away : s.call = .destroyed ∨ s.call = .dRemove → s.th = none
  join : s.call = .cJoin ∨ s.call = .dJoin → s.th ≠ none
  clean : s.call = .cRemove ∨ s.call = .cFail → s.self = none → s.th = none
  fresh : s.fresh → s.th = none
  pend : s.call = .idle → s.th = none → s.pending = []

theorem smInv_init (c : Bool) : SmInv (.init c) :=
  ⟨fun _ _ h => (nomatch h), (nomatch ·), fun _ h => absurd h (Nat.not_lt_zero _), (nomatch ·), fun _ => rfl, ⟨(nomatch ·), (nomatch ·)⟩, fun _ => rfl, (fun h => by rcases h with h | h <;> cases h),
    fun _ _ => rfl, fun _ => rfl, fun _ _ => rfl⟩

theorem SmInv.aside {s t : Sm} (h : SmInv s) (a : SmAside s t) : SmInv t where
  last := by rw [a.call, a.th, a.len]; exact h.last
  lastButOne := by rw [a.call, a.th, a.len]; exact h.lastButOne
  others i hi := by
    rw [a.len] at hi
    rw [a.call, a.th, a.len]
    exact (h.others i hi).imp_left (a.ended i)
  off := by rw [a.call]; exact fun e => a.down (h.off e)
  loose := by rw [a.th]; exact fun e => a.down (h.loose e)
  gone := by rw [a.gone, a.call]; exact h.gone
  away := by rw [a.call, a.th]; exact h.away
  join := by rw [a.call, a.th]; exact h.join
  clean := by rw [a.call, a.th, a.self]; exact h.clean
  fresh := by unfold Sm.fresh; rw [a.log, a.th]; exact h.fresh
  pend := by rw [a.call, a.th]; exact fun e1 e2 => a.quiet (h.loose e2) (h.pend e1 e2)

theorem smStop_pos (s : Sm) (j i : Nat) : (s.askStop j).posAt i = s.posAt i := by
  unfold Sm.posAt Sm.askStop
  dsimp only
  rw [List.getElem?_modify]
  cases s.works[i]? with
  | none => rfl
  | some w => show some (if _ then _ else _ : SmWork).pos = some w.pos; split <;> rfl

theorem smStop_len (s : Sm) (j : Nat) : (s.askStop j).works.length = s.works.length := by unfold Sm.askStop; simp

theorem sm_over {s : Sm} {j : Nat} (h : s.over j = true) : s.posAt j = some SmAt.ended := by
  unfold Sm.over at h
  unfold Sm.posAt
  cases hw : s.works[j]? with
  | none => rw [hw] at h; cases h
  | some w => rw [hw] at h; exact congrArg some (by simpa using h)

/-- A step of the caller that leaves the threads where they are. -/
theorem SmInv.move {s t : Sm} (h : SmInv s) (hs : s.call.swapping = false) (hs' : t.call.swapping = false) (hlen : t.works.length = s.works.length) (hpos : ∀ i, t.posAt i = s.posAt i)
    (hth : t.th = s.th ∨ (t.th = none ∧ ∃ j, s.th = some j ∧ s.posAt j = some SmAt.ended)) (hoff : t.call.ending = true → t.connected = false) (hl : t.th = none → t.connected = false)
    (hg : t.gone = true ↔ t.call = .destroyed) (ha : t.call = .destroyed ∨ t.call = .dRemove → t.th = none) (hj : t.call = .cJoin ∨ t.call = .dJoin → t.th ≠ none)
    (hc : t.call = .cRemove ∨ t.call = .cFail → t.self = none → t.th = none) (hf : t.fresh → t.th = none) (hp : t.call = .idle → t.th = none → t.pending = []) : SmInv t where
  last := fun _ j e => by
    rcases hth with x | ⟨x, -⟩
    · rw [hlen]; rw [x] at e; exact h.last hs j e
    · rw [x] at e; cases e
  lastButOne := fun e => by rw [hs'] at e; cases e
  others i hi := by
    rw [hlen] at hi
    rw [hpos]
    rcases h.others i hi with e | e | ⟨e, -⟩
    · exact .inl e
    · rcases hth with x | ⟨-, j, x, y⟩
      · exact .inr (.inl (by rw [x]; exact e))
      · rw [x] at e; cases e; exact .inl y
    · rw [hs] at e; cases e
  off := hoff
  loose := hl
  gone := hg
  away := ha
  join := hj
  clean := hc
  fresh := hf
  pend := hp

theorem smInv_caller {s : Sm} (h : SmInv s) : SmInv s.goCaller := by
  have hng : s.call ≠ .destroyed → s.gone = true → False := fun hc e => hc (h.gone.mp e)
  unfold Sm.goCaller
  cases hc : s.call with
  | idle => exact h
  | destroyed => exact h
  | swap =>
    obtain ⟨j, hj, hlen⟩ := h.lastButOne (by rw [hc]; rfl)
    dsimp only
    rw [hj]
    dsimp only
    have hl := smStop_len s j
    refine ⟨(nomatch ·), fun _ => ⟨j, hj, by show j + 2 = (s.askStop j).works.length; rw [hl]; exact hlen⟩, fun i hi => ?_, (nomatch ·), h.loose, ⟨fun e => (hng (by rw [hc]; exact (nomatch ·)) e).elim, (nomatch ·)⟩,
      (fun e => by rcases e with e | e <;> cases e), (fun e => by rcases e with e | e <;> cases e), (fun e => by rcases e with e | e <;> cases e), h.fresh, (nomatch ·)⟩
    have hi' : i < s.works.length := hl ▸ hi
    rcases h.others i hi' with e | e | ⟨-, e⟩
    · exact .inl ((smStop_pos s j i).trans e)
    · exact .inr (.inl e)
    · exact .inr (.inr ⟨rfl, by show i + 1 = (s.askStop j).works.length; rw [hl]; exact e⟩)
  | swapJoin =>
    obtain ⟨j, hj, hlen⟩ := h.lastButOne (by rw [hc]; rfl)
    dsimp only
    rw [hj]
    dsimp only
    split
    · rename_i hend
      have he := sm_over hend
      refine ⟨fun _ i e => (by cases e; show s.works.length - 1 + 1 = s.works.length; omega), (nomatch ·), fun i hi => ?_, (nomatch ·), (nomatch ·), ⟨fun e => (hng (by rw [hc]; exact (nomatch ·)) e).elim, (nomatch ·)⟩,
        (fun e => by rcases e with e | e <;> cases e), (fun e => by rcases e with e | e <;> cases e), (fun e => by rcases e with e | e <;> cases e), fun e => ?_, fun _ => (nomatch ·)⟩
      · rcases h.others i hi with e | e | ⟨-, e⟩
        · exact .inl e
        · rw [hj] at e; cases e; exact .inl he
        · exact .inr (.inl (congrArg some (by omega)))
      · exfalso
        unfold Sm.fresh at e
        simp at e
    · exact h
  | cBye =>
    exact h.move (by rw [hc]; rfl) rfl rfl (fun _ => rfl) (.inl rfl) (nomatch ·) h.loose ⟨fun e => (hng (by rw [hc]; exact (nomatch ·)) e).elim, (nomatch ·)⟩ (fun e => by rcases e with e | e <;> cases e)
      (fun e => by rcases e with e | e <;> cases e) (fun e => by rcases e with e | e <;> cases e) h.fresh (nomatch ·)
  | cFlag =>
    exact h.move (by rw [hc]; rfl) rfl rfl (fun _ => rfl) (.inl rfl) (fun _ => rfl) (fun _ => rfl) ⟨fun e => (hng (by rw [hc]; exact (nomatch ·)) e).elim, (nomatch ·)⟩ (fun e => by rcases e with e | e <;> cases e)
      (fun e => by rcases e with e | e <;> cases e) (fun e => by rcases e with e | e <;> cases e) h.fresh (nomatch ·)
  | cStop =>
    have ho := h.off (by rw [hc]; rfl)
    dsimp only
    cases hj : s.th with
    | none =>
      exact h.move (by rw [hc]; rfl) rfl rfl (fun _ => rfl) (.inl hj.symm) (fun _ => ho) (fun _ => ho) ⟨fun e => (hng (by rw [hc]; exact (nomatch ·)) e).elim, (nomatch ·)⟩ (fun e => by rcases e with e | e <;> cases e)
        (fun e => by rcases e with e | e <;> cases e) (fun _ _ => rfl) (fun _ => rfl) (nomatch ·)
    | some j =>
      dsimp only
      have hnf : ¬ s.fresh := fun e => by rw [h.fresh e] at hj; cases hj
      by_cases hself : s.self = some j
      · rw [if_pos hself]
        exact h.move (by rw [hc]; rfl) rfl (smStop_len s j) (smStop_pos s j) (.inl rfl) (fun _ => ho) (fun _ => ho) ⟨fun e => (hng (by rw [hc]; exact (nomatch ·)) e).elim, (nomatch ·)⟩ (fun e => by rcases e with e | e <;> cases e)
          (fun e => by rcases e with e | e <;> cases e) (fun _ e => by have e' : s.self = none := e; rw [hself] at e'; cases e') (fun e => absurd e hnf) (nomatch ·)
      · rw [if_neg hself]
        exact h.move (by rw [hc]; rfl) rfl (smStop_len s j) (smStop_pos s j) (.inl rfl) (fun _ => ho) (fun _ => ho) ⟨fun e => (hng (by rw [hc]; exact (nomatch ·)) e).elim, (nomatch ·)⟩ (fun e => by rcases e with e | e <;> cases e)
          (fun _ e => by have e' : s.th = none := e; rw [hj] at e'; cases e') (fun e => by rcases e with e | e <;> cases e) (fun e => absurd e hnf) (nomatch ·)
  | cJoin =>
    have ho := h.off (by rw [hc]; rfl)
    dsimp only
    cases hj : s.th with
    | none => exact h
    | some j =>
      dsimp only
      split
      · rename_i hend
        exact h.move (by rw [hc]; rfl) rfl rfl (fun _ => rfl) (.inr ⟨rfl, j, hj, sm_over hend⟩) (fun _ => ho) (fun _ => ho) ⟨fun e => (hng (by rw [hc]; exact (nomatch ·)) e).elim, (nomatch ·)⟩ (fun _ => rfl)
          (fun e => by rcases e with e | e <;> cases e) (fun _ _ => rfl) (fun _ => rfl) (nomatch ·)
      · exact h
  | cRemove =>
    have ho := h.off (by rw [hc]; rfl)
    exact h.move (by rw [hc]; rfl) rfl rfl (fun _ => rfl) (.inl rfl) (fun _ => ho) (fun _ => ho) ⟨fun e => (hng (by rw [hc]; exact (nomatch ·)) e).elim, (nomatch ·)⟩ (fun e => by rcases e with e | e <;> cases e)
      (fun e => by rcases e with e | e <;> cases e) (fun _ e => h.clean (.inl hc) e) h.fresh (nomatch ·)
  | cFail =>
    have ho := h.off (by rw [hc]; rfl)
    refine h.move (by rw [hc]; rfl) rfl rfl (fun _ => rfl) (.inl rfl) (nomatch ·) (fun _ => ho) ⟨fun e => (hng (by rw [hc]; exact (nomatch ·)) e).elim, (nomatch ·)⟩ (fun e => by rcases e with e | e <;> cases e)
      (fun e => by rcases e with e | e <;> cases e) (fun e => by rcases e with e | e <;> cases e) (fun e => ?_) (fun _ _ => rfl)
    show s.th = none
    cases hs : s.self with
    | none => exact h.clean (.inr hc) hs
    | some j =>
      exfalso
      unfold Sm.fresh at e
      simp [hs] at e
  | dStop =>
    have ho := h.off (by rw [hc]; rfl)
    dsimp only
    cases hj : s.th with
    | none =>
      exact h.move (by rw [hc]; rfl) rfl rfl (fun _ => rfl) (.inl hj.symm) (fun _ => ho) (fun _ => ho) ⟨fun e => (hng (by rw [hc]; exact (nomatch ·)) e).elim, (nomatch ·)⟩ (fun _ => rfl)
        (fun e => by rcases e with e | e <;> cases e) (fun _ _ => rfl) (fun _ => rfl) (nomatch ·)
    | some j =>
      have hnf : ¬ s.fresh := fun e => by rw [h.fresh e] at hj; cases hj
      exact h.move (by rw [hc]; rfl) rfl (smStop_len s j) (smStop_pos s j) (.inl rfl) (fun _ => ho) (fun _ => ho) ⟨fun e => (hng (by rw [hc]; exact (nomatch ·)) e).elim, (nomatch ·)⟩ (fun e => by rcases e with e | e <;> cases e)
        (fun _ e => by have e' : s.th = none := e; rw [hj] at e'; cases e') (fun e => by rcases e with e | e <;> cases e) (fun e => absurd e hnf) (nomatch ·)
  | dJoin =>
    have ho := h.off (by rw [hc]; rfl)
    dsimp only
    cases hj : s.th with
    | none => exact h
    | some j =>
      dsimp only
      split
      · rename_i hend
        exact h.move (by rw [hc]; rfl) rfl rfl (fun _ => rfl) (.inr ⟨rfl, j, hj, sm_over hend⟩) (fun _ => ho) (fun _ => ho) ⟨fun e => (hng (by rw [hc]; exact (nomatch ·)) e).elim, (nomatch ·)⟩ (fun _ => rfl)
          (fun e => by rcases e with e | e <;> cases e) (fun _ _ => rfl) (fun _ => rfl) (nomatch ·)
      · exact h
  | dRemove =>
    have ho := h.off (by rw [hc]; rfl)
    have ha := h.away (.inr hc)
    exact h.move (by rw [hc]; rfl) rfl rfl (fun _ => rfl) (.inl rfl) (fun _ => ho) (fun _ => ho) ⟨fun _ => rfl, fun _ => rfl⟩ (fun _ => ha)
      (fun e => by rcases e with e | e <;> cases e) (fun _ _ => ha) (fun _ => ha) (nomatch ·)

theorem smInv_step {s : Sm} (h : SmInv s) (op : SmOp) : SmInv (s.step op) := by
  by_cases ha : op.aside = true
  · exact h.aside (smAside_step s op ha)
  · unfold Sm.step
    split
    · exact h
    · have hng : s.call = .idle → s.gone = true → False := fun hc e => by have := h.gone.mp e; rw [hc] at this; cases this
      cases op with
      | start r =>
        dsimp only
        split
        · rename_i hc
          have hfr : ∀ l, l = s.log ++ [SmEv.refused] → l.filter (fun e => decide (e ≠ .refused)) = s.log.filter (fun e => decide (e ≠ .refused)) := fun l e => by rw [e]; simp
          cases r with
          | none =>
            refine h.move (by rw [hc]; rfl) (by show s.call.swapping = false; rw [hc]; rfl) rfl (fun _ => rfl) (.inl rfl) h.off h.loose h.gone h.away h.join h.clean (fun e => h.fresh ?_) h.pend
            unfold Sm.fresh at *; rw [← hfr _ rfl]; exact e
          | first q =>
            refine h.move (by rw [hc]; rfl) (by show s.call.swapping = false; rw [hc]; rfl) rfl (fun _ => rfl) (.inl rfl) h.off h.loose h.gone h.away h.join h.clean (fun e => h.fresh ?_) h.pend
            unfold Sm.fresh at *; rw [← hfr _ rfl]; exact e
          | both q p =>
            have hlast := h.last (by rw [hc]; rfl)
            have hpos : ∀ i, s.posAt i = some SmAt.ended → (({ s with works := s.works ++ [⟨.test, false⟩] } : Sm)).posAt i = some SmAt.ended := by
              intro i e
              unfold Sm.posAt at *
              show ((s.works ++ _)[i]?).map _ = _
              cases hw : s.works[i]? with
              | none => rw [hw] at e; cases e
              | some w => rw [List.getElem?_append_left (List.getElem?_eq_some_iff.mp hw).1, hw]; rw [hw] at e; exact e
            unfold Sm.start
            dsimp only
            cases hth : s.th with
            | none =>
              dsimp only
              refine ⟨fun _ j e => (by cases e; show _ = (s.works ++ [_]).length; simp), fun e => ?_, fun i hi => ?_, fun e => ?_, (nomatch ·), ⟨fun (e : s.gone = true) => (hng hc e).elim, fun e => ?_⟩, fun e => ?_,
                fun e => ?_, fun e => ?_, fun e => ?_, fun _ => (nomatch ·)⟩
              · have e' : s.call.swapping = true := e; rw [hc] at e'; cases e'
              · have hi' : i < (s.works ++ [(⟨SmAt.test, false⟩ : SmWork)]).length := hi
                rw [List.length_append, List.length_singleton] at hi'
                rcases Nat.lt_or_ge i s.works.length with lt | ge
                · rcases h.others i lt with e | e | ⟨e, -⟩
                  · exact .inl (hpos i e)
                  · rw [hth] at e; cases e
                  · rw [hc] at e; cases e
                · exact .inr (.inl (congrArg some (by omega)))
              · have e' : s.call.ending = true := e; rw [hc] at e'; cases e'
              · have e' : s.call = .destroyed := e; rw [hc] at e'; cases e'
              · have e' : s.call = .destroyed ∨ s.call = .dRemove := e; rw [hc] at e'; rcases e' with e' | e' <;> cases e'
              · have e' : s.call = .cJoin ∨ s.call = .dJoin := e; rw [hc] at e'; rcases e' with e' | e' <;> cases e'
              · have e' : s.call = .cRemove ∨ s.call = .cFail := e; rw [hc] at e'; rcases e' with e' | e' <;> cases e'
              · exfalso; unfold Sm.fresh at e; simp at e
            | some j =>
              have hj := hlast j hth
              have hnf : ¬ s.fresh := fun e => by rw [h.fresh e] at hth; cases hth
              dsimp only
              refine ⟨(nomatch ·), fun _ => ⟨j, rfl, (by show _ = (s.works ++ [_]).length; simp; omega)⟩, fun i hi => ?_, (nomatch ·), (nomatch ·), ⟨fun (e : s.gone = true) => (hng hc e).elim, (nomatch ·)⟩,
                (fun e => by rcases e with e | e <;> cases e), (fun e => by rcases e with e | e <;> cases e), (fun e => by rcases e with e | e <;> cases e), fun e => absurd e hnf, (nomatch ·)⟩
              have hi' : i < (s.works ++ [(⟨SmAt.test, false⟩ : SmWork)]).length := hi
              rw [List.length_append, List.length_singleton] at hi'
              rcases Nat.lt_or_ge i s.works.length with lt | ge
              · rcases h.others i lt with e | e | ⟨e, -⟩
                · exact .inl (hpos i e)
                · exact .inr (.inl (hth.symm.trans e))
                · rw [hc] at e; cases e
              · exact .inr (.inr ⟨rfl, by show _ = (s.works ++ [_]).length; simp; omega⟩)
        · exact h
      | close self =>
        cases self with
        | none =>
          dsimp only
          split
          · rename_i hc
            exact h.move (by rw [hc]; rfl) rfl rfl (fun _ => rfl) (.inl rfl) (nomatch ·) h.loose ⟨fun e => (hng hc e).elim, (nomatch ·)⟩ (fun e => by rcases e with e | e <;> cases e) (fun e => by rcases e with e | e <;> cases e)
              (fun e => by rcases e with e | e <;> cases e) h.fresh (nomatch ·)
          · exact h
        | some j =>
          dsimp only
          split
          · rename_i hc
            have hc := hc.1
            exact h.move (by rw [hc]; rfl) rfl rfl (fun _ => rfl) (.inl rfl) (nomatch ·) h.loose ⟨fun e => (hng hc e).elim, (nomatch ·)⟩ (fun e => by rcases e with e | e <;> cases e) (fun e => by rcases e with e | e <;> cases e)
              (fun e => by rcases e with e | e <;> cases e) h.fresh (nomatch ·)
          · exact h
      | destroy =>
        dsimp only
        split
        · rename_i hc
          exact h.move (by rw [hc]; rfl) rfl rfl (fun _ => rfl) (.inl rfl) (fun _ => rfl) (fun _ => rfl) ⟨fun e => (hng hc e).elim, (nomatch ·)⟩ (fun e => by rcases e with e | e <;> cases e) (fun e => by rcases e with e | e <;> cases e)
            (fun e => by rcases e with e | e <;> cases e) h.fresh (nomatch ·)
        · exact h
      | caller => exact smInv_caller h
      | _ => exact absurd rfl ha

theorem sm_run_inv {P : Sm → Prop} {s : Sm} {ops : List SmOp} (h : P s) (hstep : ∀ t op, op ∈ ops → P t → P (t.step op)) : P (s.run ops) := by
  induction ops generalizing s with
  | nil => exact h
  | cons op l ih => exact ih (hstep s op (by simp) h) (fun t o ho => hstep t o (by simp [ho]))

theorem sm_run_append (s : Sm) (a b : List SmOp) : s.run (a ++ b) = (s.run a).run b := by simp [Sm.run]

theorem smInv_run (c : Bool) (ops : List SmOp) : SmInv ((Sm.init c).run ops) := sm_run_inv (smInv_init c) fun _ op _ h => smInv_step h op

/-! ### Safety -/

theorem last_kept {l : List SmEv} {b : Bool} (h : l.getLast? = some (.closed b)) : (l.filter fun e => decide (e ≠ .refused)).getLast? = some (.closed b) := by
  cases l with
  | nil => cases h
  | cons x xs =>
    have hne : x :: xs ≠ [] := (nomatch ·)
    have e := List.dropLast_concat_getLast hne
    rw [List.getLast?_eq_some_getLast hne] at h
    rw [← e, List.filter_append, Option.some.inj h]
    simp

/-- After `Close` the transport is not connected and nothing is pending. -/
theorem shut_run (c : Bool) (ops : List SmOp) : ((Sm.init c).run ops).call = .idle → ∀ b, ((Sm.init c).run ops).log.getLast? = some (.closed b) →
    ((Sm.init c).run ops).connected = false ∧ ((Sm.init c).run ops).pending = [] := by
  have key : SmInv ((Sm.init c).run ops) ∧ (((Sm.init c).run ops).call = .idle → ∀ b, ((Sm.init c).run ops).log.getLast? = some (.closed b) → ((Sm.init c).run ops).connected = false ∧ ((Sm.init c).run ops).pending = []) := by
    refine sm_run_inv (P := fun s => SmInv s ∧ (s.call = .idle → ∀ b, s.log.getLast? = some (.closed b) → s.connected = false ∧ s.pending = [])) ⟨smInv_init c, fun _ b e => by cases e⟩ fun s op _ ⟨hi, h⟩ => ⟨smInv_step hi op, ?_⟩
    by_cases ha : op.aside = true
    · have a := smAside_step s op ha
      rw [a.call, a.log]
      intro h1 b h2
      obtain ⟨h3, h4⟩ := h h1 b h2
      exact ⟨a.down h3, a.quiet h3 h4⟩
    · unfold Sm.step
      split
      · exact h
      · cases op with
        | start r =>
          dsimp only
          split
          · cases r with
            | none => intro _ b e; simp [Sm.start] at e
            | first q => intro _ b e; simp [Sm.start] at e
            | both q p =>
              unfold Sm.start
              dsimp only
              cases s.th with
              | none => intro _ b e; simp at e
              | some j => exact (nomatch ·)
          · exact h
        | close self =>
          cases self with
          | none => dsimp only; split; exact (nomatch ·); exact h
          | some j => dsimp only; split; exact (nomatch ·); exact h
        | destroy => dsimp only; split; exact (nomatch ·); exact h
        | caller =>
          dsimp only
          unfold Sm.goCaller
          cases hc : s.call with
          | idle => exact h
          | swap => dsimp only; cases s.th with
            | none => exact h
            | some j => exact (nomatch ·)
          | swapJoin => dsimp only; cases s.th with
            | none => exact h
            | some j => dsimp only; split; (intro _ b e; simp at e); exact h
          | cBye => exact (nomatch ·)
          | cFlag => exact (nomatch ·)
          | cStop => dsimp only; cases s.th with
            | none => exact (nomatch ·)
            | some j => dsimp only; split <;> exact (nomatch ·)
          | cJoin => dsimp only; cases s.th with
            | none => exact h
            | some j => dsimp only; split; exact (nomatch ·); exact h
          | cRemove => exact (nomatch ·)
          | cFail => intro _ _ _; exact ⟨hi.off (by rw [hc]; rfl), rfl⟩
          | dStop => dsimp only; cases s.th with
            | none => exact (nomatch ·)
            | some j => exact (nomatch ·)
          | dJoin => dsimp only; cases s.th with
            | none => exact h
            | some j => dsimp only; split; exact (nomatch ·); exact h
          | dRemove => exact (nomatch ·)
          | destroyed => exact h
        | _ => exact absurd rfl ha
  exact key.2

/-- C120. When `Close` has returned the transport is not connected and every request has got its answer; unless it was called on the thread of the transport, that thread has ended. -/
theorem C120_closed (c : Bool) (ops : List SmOp) (b : Bool) (hc : ((Sm.init c).run ops).call = .idle) (hl : ((Sm.init c).run ops).log.getLast? = some (.closed b)) :
    ((Sm.init c).run ops).connected = false ∧ ((Sm.init c).run ops).pending = [] ∧ (b = false → ∀ w ∈ ((Sm.init c).run ops).works, w.pos = .ended) := by
  obtain ⟨h1, h2⟩ := shut_run c ops hc b hl
  refine ⟨h1, h2, fun hb w hw => ?_⟩
  subst hb
  have h := smInv_run c ops
  have hth := h.fresh (.inr (last_kept hl))
  obtain ⟨i, hi, rfl⟩ := List.mem_iff_getElem.mp hw
  rcases h.others i hi with e | e | ⟨e, -⟩
  · unfold Sm.posAt at e; rw [List.getElem?_eq_getElem hi] at e; exact Option.some.inj e
  · rw [hth] at e; cases e
  · rw [hc] at e; cases e

/-- C120. When the destructor has returned no thread that takes messages is left. -/
theorem C120_destroyed (c : Bool) (ops : List SmOp) (hc : ((Sm.init c).run ops).call = .destroyed) (w : SmWork) (hw : w ∈ ((Sm.init c).run ops).works) : w.pos = .ended := by
  have h := smInv_run c ops
  obtain ⟨i, hi, rfl⟩ := List.mem_iff_getElem.mp hw
  rcases h.others i hi with e | e | ⟨e, -⟩
  · unfold Sm.posAt at e; rw [List.getElem?_eq_getElem hi] at e; exact Option.some.inj e
  · rw [h.away (.inl hc)] at e; cases e
  · rw [hc] at e; cases e

/-- Two lives, with a request, a notification and requests of its own, and the end. -/
def smLife : List SmOp :=
  [.start (.both 0 1), .send 7, .send 8, .work 0 .timeout, .work 0 (.got .request), .work 0 .timeout, .work 0 (.got (.answer 0)), .answered 0, .close none, .caller, .caller, .caller, .work 0 .timeout, .work 0 .timeout,
   .caller, .caller, .caller, .start (.both 2 3), .work 1 .timeout, .work 1 (.got .note), .handled 1]

example : let s := (Sm.init true).run (smLife.take 17)
    s.call = .idle ∧ s.log = [.started, .closed false] ∧ s.failed = [8] ∧ s.works = [⟨.ended, true⟩] := by decide +kernel

example : let s := (Sm.init true).run (smLife ++ [.destroy, .caller, .work 1 .timeout, .work 1 .timeout, .caller, .caller])
    s.call = .destroyed ∧ s.works = [⟨.ended, true⟩, ⟨.ended, true⟩] ∧ s.ub = false := by decide +kernel

/-- C120. A transport that is started only when it was not yet started or was closed since, and destroyed while no request is being handled, never uses a mapping or a transport that
is gone. Missing: `Start` on a transport that was not closed; requests that are being handled. -/
theorem C120_safe_partial (c : Bool) (ops : List SmOp) (hstart : ∀ a r b, ops = a ++ .start r :: b → ((Sm.init c).run a).fresh)
    (hdead : ∀ a b, ops = a ++ b → ((Sm.init c).run a).call = .destroyed → ∀ h ∈ ((Sm.init c).run a).handlers, h = false) : ((Sm.init c).run ops).ub = false := by
  have key : ∀ n, n ≤ ops.length → ((Sm.init c).run (ops.take n)).ub = false ∧ ∀ w ∈ ((Sm.init c).run (ops.take n)).works, ∀ g, w.pos = .recv g → g = ((Sm.init c).run (ops.take n)).gen := by
    intro n
    induction n with
    | zero => intro _; exact ⟨rfl, fun w hw => (nomatch hw)⟩
    | succ n ih =>
      intro hn
      obtain ⟨hu, hg⟩ := ih (by omega)
      have hsplit : ops = ops.take n ++ ops[n] :: ops.drop (n + 1) := by rw [List.getElem_cons_drop, List.take_append_drop]
      have htake : ops.take (n + 1) = ops.take n ++ [ops[n]] := by rw [List.take_append_getElem]
      have hst := hstart (ops.take n)
      have hdd := hdead (ops.take n) (ops.drop n) (List.take_append_drop n ops).symm
      have hinv := smInv_run c (ops.take n)
      rw [htake, sm_run_append]
      show ((((Sm.init c).run (ops.take n)).step ops[n])).ub = false ∧ ∀ w ∈ (((Sm.init c).run (ops.take n)).step ops[n]).works, ∀ g, w.pos = .recv g → g = (((Sm.init c).run (ops.take n)).step ops[n]).gen
      generalize hop : ops[n] = op at *
      generalize (Sm.init c).run (ops.take n) = s at *
      have hnone : s.th = none → s.call.swapping = false → ∀ w ∈ s.works, w.pos = .ended := by
        intro ht hs w hw
        obtain ⟨i, hi, rfl⟩ := List.mem_iff_getElem.mp hw
        rcases hinv.others i hi with e | e | ⟨e, -⟩
        · unfold Sm.posAt at e; rw [List.getElem?_eq_getElem hi] at e; exact Option.some.inj e
        · rw [ht] at e; cases e
        · rw [hs] at e; cases e
      have hset : ∀ (j : Nat) (q : SmAt) (st : Bool), (∀ g, q = .recv g → g = s.gen) → ∀ w ∈ s.works.set j ⟨q, st⟩, ∀ g, w.pos = .recv g → g = s.gen := by
        intro j q st hq w hw g e
        rcases List.mem_or_eq_of_mem_set hw with hw | rfl
        · exact hg w hw g e
        · exact hq g e
      have hask : ∀ j, ∀ w ∈ (s.askStop j).works, ∀ g, w.pos = .recv g → g = s.gen := by
        intro j w hw g e
        obtain ⟨i, hi, rfl⟩ := List.mem_iff_getElem.mp hw
        have := smStop_pos s j i
        unfold Sm.posAt at this
        rw [List.getElem?_eq_getElem hi] at this
        cases hv : s.works[i]? with
        | none => rw [hv] at this; cases this
        | some v => rw [hv] at this; exact hg v (List.mem_of_getElem? hv) g ((Option.some.inj this).symm.trans e)
      unfold Sm.step
      rw [if_neg (by simp [hu])]
      cases op with
      | start r =>
        have hf := hinv.fresh (hst r (ops.drop (n + 1)) hsplit)
        dsimp only
        split
        · rename_i hc
          have hend := hnone hf (by rw [hc]; rfl)
          cases r with
          | none => exact ⟨hu, hg⟩
          | first q => exact ⟨hu, fun w hw g e => by rw [hend w hw] at e; cases e⟩
          | both q p =>
            unfold Sm.start
            dsimp only
            rw [hf]
            refine ⟨hu, fun w hw g e => ?_⟩
            rcases List.mem_append.mp hw with hw | hw
            · rw [hend w hw] at e; cases e
            · rw [List.mem_singleton] at hw; subst hw; cases e
        · exact ⟨hu, hg⟩
      | close self =>
        cases self with
        | none => dsimp only; split <;> exact ⟨hu, hg⟩
        | some j => dsimp only; split <;> exact ⟨hu, hg⟩
      | destroy => dsimp only; split <;> exact ⟨hu, hg⟩
      | caller =>
        dsimp only
        unfold Sm.goCaller
        cases s.call with
        | swap => dsimp only; cases s.th with
          | none => exact ⟨hu, hg⟩
          | some j => exact ⟨hu, hask j⟩
        | swapJoin => dsimp only; cases s.th with
          | none => exact ⟨hu, hg⟩
          | some j => dsimp only; split <;> exact ⟨hu, hg⟩
        | cStop => dsimp only; cases s.th with
          | none => exact ⟨hu, hg⟩
          | some j => exact ⟨hu, hask j⟩
        | cJoin => dsimp only; cases s.th with
          | none => exact ⟨hu, hg⟩
          | some j => dsimp only; split <;> exact ⟨hu, hg⟩
        | dStop => dsimp only; cases s.th with
          | none => exact ⟨hu, hg⟩
          | some j => exact ⟨hu, hask j⟩
        | dJoin => dsimp only; cases s.th with
          | none => exact ⟨hu, hg⟩
          | some j => dsimp only; split <;> exact ⟨hu, hg⟩
        | _ => exact ⟨hu, hg⟩
      | work j o =>
        dsimp only
        rw [if_neg]
        · unfold Sm.goWork
          cases hj : s.works[j]? with
          | none => exact ⟨hu, hg⟩
          | some w =>
            obtain ⟨p, st⟩ := w
            cases p with
            | test => exact ⟨hu, hset j _ _ fun g e => by split at e <;> cases e; rfl⟩
            | recv g =>
              have := hg _ (List.mem_of_getElem? hj) g rfl
              dsimp only
              rw [if_neg (by simp [this])]
              cases o with
              | timeout => exact ⟨hu, hset j _ _ fun g e => nomatch e⟩
              | throws => exact ⟨hu, hset j _ _ fun g e => nomatch e⟩
              | got m => cases m <;> exact ⟨hu, hset j _ _ fun g e => nomatch e⟩
            | busy => exact ⟨hu, hg⟩
            | leave => exact ⟨hu, hset j _ _ fun g e => nomatch e⟩
            | ended => exact ⟨hu, hg⟩
        · rintro ⟨h1, h2⟩
          have hd := hinv.gone.mp h1
          cases hj : s.works[j]? with
          | none => rw [hj] at h2; cases h2
          | some w => rw [hj] at h2; simp [hnone (hinv.away (.inl hd)) (by rw [hd]; rfl) w (List.mem_of_getElem? hj)] at h2
      | handled j =>
        dsimp only
        split
        · split
          · exact ⟨hu, hg⟩
          · exact ⟨hu, hset j _ _ fun g e => nomatch e⟩
        · exact ⟨hu, hg⟩
      | answered h =>
        dsimp only
        split
        · rename_i hh
          rw [if_neg]
          · exact ⟨hu, hg⟩
          · intro e
            have := hdd (hinv.gone.mp e) true (List.mem_of_getElem? hh)
            cases this
        · exact ⟨hu, hg⟩
      | send r => dsimp only; split <;> exact ⟨hu, hg⟩
  have := (key ops.length (Nat.le_refl _)).1
  rw [List.take_length] at this
  exact this

/-- Both starts of the two lives above are of this kind. -/
example : ((Sm.init true).run []).fresh ∧ ((Sm.init true).run (smLife.take 17)).fresh ∧ ((Sm.init true).run smLife).handlers = [false] :=
  ⟨.inl (by decide +kernel), .inr (by decide +kernel), by decide +kernel⟩

/-! ### What is false of the code -/

/-- C120 fails: `Start` on a transport that is started takes the queue away from the thread that waits on it. -/
theorem C120_twice_counterexample :
    ∃ ops : List SmOp, ((Sm.init true).run ops).log = [.started] ∧ ((Sm.init true).run ops).call = .idle ∧ (((Sm.init true).run ops).run [.start (.both 2 3), .work 0 .timeout]).ub = true :=
  ⟨[.start (.both 0 1), .work 0 .timeout], by decide +kernel⟩

/-- C120 fails: even a `Start` that fails does so, when it fails at the second queue. -/
theorem C120_refused_counterexample :
    ∃ ops : List SmOp, ((Sm.init false).run ops).log = [.started, .refused] ∧ ((Sm.init false).run ops).ub = false ∧ (((Sm.init false).run ops).step (.work 0 .timeout)).ub = true :=
  ⟨[.start (.both 0 1), .work 0 .timeout, .start (.first 2)], by decide +kernel⟩

/-- C120 fails: a request that is being handled when the transport is destroyed uses it afterwards. -/
theorem C120_handler_counterexample :
    ∃ ops : List SmOp, ((Sm.init true).run ops).call = .destroyed ∧ ((Sm.init true).run ops).ub = false ∧ (((Sm.init true).run ops).step (.answered 0)).ub = true :=
  ⟨[.start (.both 0 1), .work 0 .timeout, .work 0 (.got .request), .close none, .caller, .caller, .caller, .work 0 .timeout, .work 0 .timeout, .caller, .caller, .caller, .destroy, .caller, .caller], by decide +kernel⟩

/-- Without `Start` a transport that is not connected stays so. -/
theorem down_run {s : Sm} (h : s.connected = false) (more : List SmOp) (hm : ∀ r, SmOp.start r ∉ more) : (s.run more).connected = false := by
  refine sm_run_inv (P := fun s => s.connected = false) h fun t op ho ht => ?_
  by_cases ha : op.aside = true
  · exact (smAside_step t op ha).down ht
  · unfold Sm.step
    split
    · exact ht
    · cases op with
      | start r => exact absurd ho (hm r)
      | close self =>
        cases self with
        | none => dsimp only; split <;> exact ht
        | some j => dsimp only; split <;> exact ht
      | destroy => dsimp only; split; rfl; exact ht
      | caller =>
        dsimp only
        unfold Sm.goCaller
        cases t.call with
        | cFlag => rfl
        | idle => exact ht
        | swap => dsimp only; split <;> exact ht
        | swapJoin => dsimp only; split <;> (try split) <;> exact ht
        | cBye => exact ht
        | cStop => dsimp only; split <;> exact ht
        | cJoin => dsimp only; split <;> (try split) <;> exact ht
        | cRemove => exact ht
        | cFail => exact ht
        | dStop => dsimp only; split <;> exact ht
        | dJoin => dsimp only; split <;> (try split) <;> exact ht
        | dRemove => exact ht
        | destroyed => exact ht
      | _ => exact absurd rfl ha

/-- C120 fails: a transport that was told that its peer is gone and is started again, as soon as it says that it is not connected, is ended by the thread of the life before: `Start` has succeeded and
the transport is not connected, and stays so. -/
theorem C120_reconnect_counterexample :
    ∃ a b : List SmOp, ((Sm.init false).run a).call = .idle ∧ ((Sm.init false).run a).connected = false ∧ ((Sm.init false).run (a ++ .start (.both 2 3) :: b)).log = [.started, .started] ∧
      ((Sm.init false).run (a ++ .start (.both 2 3) :: b)).call = .idle ∧ ((Sm.init false).run (a ++ .start (.both 2 3) :: b)).ub = false ∧
      ∀ more, (∀ r, SmOp.start r ∉ more) → (((Sm.init false).run (a ++ .start (.both 2 3) :: b)).run more).connected = false :=
  ⟨[.start (.both 0 1), .work 0 .timeout, .work 0 (.got .bye)], [.caller, .handled 0, .work 0 .timeout, .work 0 .timeout, .caller], by decide +kernel, by decide +kernel, by decide +kernel, by decide +kernel,
    by decide +kernel, fun more hm => down_run (by decide +kernel) more hm⟩

end Verif.Shm
