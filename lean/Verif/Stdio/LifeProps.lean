import Verif.Stdio.Life
import Verif.Base.Fair

/-!
C118: a stdio transport can be started, closed, started again and destroyed.
-/

namespace Verif.Stdio

/-! ### What the steps of the threads leave alone -/

theorem set_keeps {α : Type} {l : List α} {e p x : α} {i j : Nat} (h : l[j]? = some p) (hp : p ≠ e) (hi : l[i]? = some e) : (l.set j x)[i]? = some e := by
  rw [List.getElem?_set]
  split
  · rename_i hij
    subst hij
    rw [h] at hi
    exact absurd (Option.some.inj hi) hp
  · exact hi

theorem map_keeps {α : Type} {l : List α} {e : α} {g : α → α} {i : Nat} (hg : g e = e) (hi : l[i]? = some e) : (l.map g)[i]? = some e := by
  rw [List.getElem?_map, hi, Option.map_some, hg]

/-- A step of a thread of the transport. -/
structure Aside (s t : Sl) : Prop where
  rd : t.rd = s.rd
  wr : t.wr = s.wr
  tm : t.tm = s.tm
  call : t.call = s.call
  left : t.left = s.left
  dead : t.dead = s.dead
  gone : t.gone = s.gone
  log : t.log = s.log
  failed : t.failed = s.failed
  self : t.self = s.self
  readersLen : t.readers.length = s.readers.length
  writersLen : t.writers.length = s.writers.length
  timersLen : t.timers.length = s.timers.length
  readers : ∀ (i : Nat), s.readers[i]? = some SlRead.ended → t.readers[i]? = some SlRead.ended
  writers : ∀ (i : Nat), s.writers[i]? = some SlWrite.ended → t.writers[i]? = some SlWrite.ended
  timers : ∀ (i : Nat), s.timers[i]? = some SlTimer.ended → t.timers[i]? = some SlTimer.ended

theorem Aside.refl (s : Sl) : Aside s s :=
  ⟨rfl, rfl, rfl, rfl, rfl, rfl, rfl, rfl, rfl, rfl, rfl, rfl, rfl, fun _ h => h, fun _ h => h, fun _ h => h⟩

theorem aside_reader (s : Sl) (j : Nat) (o : SlIn) : Aside s (s.goReader j o) := by
  unfold Sl.goReader
  cases hp : s.readers[j]? with
  | none => exact .refl s
  | some p =>
    cases p with
    | test => exact ⟨rfl, rfl, rfl, rfl, rfl, rfl, rfl, rfl, rfl, rfl, by simp, rfl, rfl, fun _ h => set_keeps hp (nomatch ·) h, fun _ h => h, fun _ h => h⟩
    | wait => cases o <;> exact ⟨rfl, rfl, rfl, rfl, rfl, rfl, rfl, rfl, rfl, rfl, by simp, rfl, rfl, fun _ h => set_keeps hp (nomatch ·) h, fun _ h => h, fun _ h => h⟩
    | handle => exact .refl s
    | leaving => exact ⟨rfl, rfl, rfl, rfl, rfl, rfl, rfl, rfl, rfl, rfl, by simp, rfl, rfl, fun _ h => set_keeps hp (nomatch ·) h, fun _ h => h, fun _ h => h⟩
    | ended => exact .refl s

theorem aside_writer (s : Sl) (j : Nat) (o : Option Nat) : Aside s (s.goWriter j o) := by
  unfold Sl.goWriter
  cases hp : s.writers[j]? with
  | none => exact .refl s
  | some p =>
    cases p with
    | entry => exact ⟨rfl, rfl, rfl, rfl, rfl, rfl, rfl, rfl, rfl, rfl, rfl, by simp, rfl, fun _ h => h, fun _ h => set_keeps hp (nomatch ·) h, fun _ h => h⟩
    | test => dsimp only; split <;> exact ⟨rfl, rfl, rfl, rfl, rfl, rfl, rfl, rfl, rfl, rfl, rfl, by simp, rfl, fun _ h => h, fun _ h => set_keeps hp (nomatch ·) h, fun _ h => h⟩
    | look =>
      dsimp only
      split
      · exact ⟨rfl, rfl, rfl, rfl, rfl, rfl, rfl, rfl, rfl, rfl, rfl, by simp, rfl, fun _ h => h, fun _ h => set_keeps hp (nomatch ·) h, fun _ h => h⟩
      · split <;> exact ⟨rfl, rfl, rfl, rfl, rfl, rfl, rfl, rfl, rfl, rfl, rfl, by simp, rfl, fun _ h => h, fun _ h => set_keeps hp (nomatch ·) h, fun _ h => h⟩
    | decided => exact ⟨rfl, rfl, rfl, rfl, rfl, rfl, rfl, rfl, rfl, rfl, rfl, by simp, rfl, fun _ h => h, fun _ h => set_keeps hp (nomatch ·) h, fun _ h => h⟩
    | asleep => exact .refl s
    | write rest =>
      dsimp only
      split
      · exact ⟨rfl, rfl, rfl, rfl, rfl, rfl, rfl, rfl, rfl, rfl, rfl, by simp, rfl, fun _ h => h, fun _ h => set_keeps hp (nomatch ·) h, fun _ h => h⟩
      · cases o <;> exact ⟨rfl, rfl, rfl, rfl, rfl, rfl, rfl, rfl, rfl, rfl, rfl, by simp, rfl, fun _ h => h, fun _ h => set_keeps hp (nomatch ·) h, fun _ h => h⟩
    | ended => exact .refl s

theorem aside_timer (s : Sl) (j k : Nat) : Aside s (s.goTimer j k) := by
  unfold Sl.goTimer
  cases hp : s.timers[j]? with
  | none => exact .refl s
  | some p =>
    cases p with
    | test => exact ⟨rfl, rfl, rfl, rfl, rfl, rfl, rfl, rfl, rfl, rfl, rfl, rfl, by simp, fun _ h => h, fun _ h => h, fun _ h => set_keeps hp (nomatch ·) h⟩
    | decided => exact ⟨rfl, rfl, rfl, rfl, rfl, rfl, rfl, rfl, rfl, rfl, rfl, rfl, by simp, fun _ h => h, fun _ h => h, fun _ h => set_keeps hp (nomatch ·) h⟩
    | asleep => exact .refl s
    | dated => dsimp only; split <;> exact ⟨rfl, rfl, rfl, rfl, rfl, rfl, rfl, rfl, rfl, rfl, rfl, rfl, by simp, fun _ h => h, fun _ h => h, fun _ h => set_keeps hp (nomatch ·) h⟩
    | ended => exact .refl s

/-- The steps that are not of the caller. -/
def SlOp.aside : SlOp → Bool
  | .start => false
  | .destroy => false
  | .close _ => false
  | .caller => false
  | .giveUp => false
  | _ => true

theorem aside_step (s : Sl) (op : SlOp) (h : op.aside = true) : Aside s (s.step op) := by
  unfold Sl.step
  split
  · exact .refl s
  · cases op with
    | start => cases h
    | destroy => cases h
    | close => cases h
    | caller => cases h
    | giveUp => cases h
    | reader j o =>
      dsimp only
      split
      · exact ⟨rfl, rfl, rfl, rfl, rfl, rfl, rfl, rfl, rfl, rfl, rfl, rfl, rfl, fun _ h => h, fun _ h => h, fun _ h => h⟩
      · exact aside_reader s j o
    | handled j =>
      dsimp only
      split
      · rename_i hp
        exact ⟨rfl, rfl, rfl, rfl, rfl, rfl, rfl, rfl, rfl, rfl, by simp, rfl, rfl, fun _ h => set_keeps hp.1 (nomatch ·) h, fun _ h => h, fun _ h => h⟩
      · exact .refl s
    | writer j o =>
      dsimp only
      split
      · exact ⟨rfl, rfl, rfl, rfl, rfl, rfl, rfl, rfl, rfl, rfl, rfl, rfl, rfl, fun _ h => h, fun _ h => h, fun _ h => h⟩
      · exact aside_writer s j o
    | timer j k =>
      dsimp only
      split
      · exact ⟨rfl, rfl, rfl, rfl, rfl, rfl, rfl, rfl, rfl, rfl, rfl, rfl, rfl, fun _ h => h, fun _ h => h, fun _ h => h⟩
      · exact aside_timer s j k
    | send f =>
      dsimp only
      split
      · exact ⟨rfl, rfl, rfl, rfl, rfl, rfl, rfl, rfl, rfl, rfl, rfl, by simp [Sl.wakeWriters, Sl.wakeTimers], by simp [Sl.wakeWriters, Sl.wakeTimers], fun _ h => h,
          fun _ h => map_keeps rfl h, fun _ h => map_keeps rfl h⟩
      · exact .refl s
    | answer i =>
      dsimp only
      split
      · exact ⟨rfl, rfl, rfl, rfl, rfl, rfl, rfl, rfl, rfl, rfl, rfl, rfl, rfl, fun _ h => h, fun _ h => h, fun _ h => h⟩
      · exact .refl s

/-! ### What holds in every state -/

/-- Which of the three `std::thread` are joinable, by where the call stands. -/
def SlPhase (s : Sl) : Prop :=
  match s.call with
  | .idle | .flag | .notify | .rWait | .rJoin | .dRead | .dRJoin =>
    s.rd.isSome = s.tm.isSome ∧ s.wr.isSome = s.tm.isSome ∧ (s.tm.isSome = true ↔ s.log.getLast? = some .started)
  | .wNotify => s.rd = none ∧ s.wr.isSome = s.tm.isSome
  | .wWait | .wJoin => s.rd = none ∧ s.wr.isSome = true ∧ s.tm.isSome = true
  | .tJoin => s.rd = none ∧ s.wr = none
  | .fail => s.rd = none ∧ s.wr = none ∧ s.tm = none
  | .dTJoin => s.rd = none
  | .dMembers => s.rd = none ∧ s.tm = none
  | .destroyed => s.rd = none ∧ s.wr = none ∧ s.tm = none

structure SlInv (s : Sl) : Prop where
  rdLast : ∀ j, s.rd = some j → j + 1 = s.readers.length
  wrLast : ∀ j, s.wr = some j → j + 1 = s.writers.length
  tmLast : ∀ j, s.tm = some j → j + 1 = s.timers.length
  readers : ∀ j, j < s.readers.length → s.readers[j]? = some .ended ∨ s.rd = some j ∨ .reader j ∈ s.left
  writers : ∀ j, j < s.writers.length → s.writers[j]? = some .ended ∨ s.wr = some j ∨ .writer j ∈ s.left
  timers : ∀ j, j < s.timers.length → s.timers[j]? = some .ended ∨ s.tm = some j
  phase : SlPhase s

theorem slInv_init : SlInv .init :=
  ⟨fun _ h => (nomatch h), fun _ h => (nomatch h), fun _ h => (nomatch h), fun _ h => absurd h (Nat.not_lt_zero _), fun _ h => absurd h (Nat.not_lt_zero _), fun _ h => absurd h (Nat.not_lt_zero _),
    rfl, rfl, (nomatch ·), (nomatch ·)⟩

theorem SlInv.aside {s t : Sl} (h : SlInv s) (a : Aside s t) : SlInv t where
  rdLast j e := by rw [a.rd] at e; rw [a.readersLen]; exact h.rdLast j e
  wrLast j e := by rw [a.wr] at e; rw [a.writersLen]; exact h.wrLast j e
  tmLast j e := by rw [a.tm] at e; rw [a.timersLen]; exact h.tmLast j e
  readers j hj := by
    rw [a.readersLen] at hj
    rw [a.rd, a.left]
    exact (h.readers j hj).imp_left (a.readers j)
  writers j hj := by
    rw [a.writersLen] at hj
    rw [a.wr, a.left]
    exact (h.writers j hj).imp_left (a.writers j)
  timers j hj := by
    rw [a.timersLen] at hj
    rw [a.tm]
    exact (h.timers j hj).imp_left (a.timers j)
  phase := by
    have := h.phase
    unfold SlPhase at *
    rw [a.call, a.rd, a.wr, a.tm, a.log]
    exact this

/-- The last of a list of threads that are ended or joinable is let go or joined. -/
theorem SlInv.loseRd {s t : Sl} (h : SlInv s) (hw : t.wr = s.wr) (ht : t.tm = s.tm) (hr : t.readers = s.readers) (hws : t.writers = s.writers) (hts : t.timers = s.timers) (hn : t.rd = none)
    (hl : ∀ x, x ∈ s.left → x ∈ t.left) (hj : ∀ j, s.rd = some j → s.readers[j]? = some .ended ∨ .reader j ∈ t.left) (hp : SlPhase t) : SlInv t where
  rdLast j e := by rw [hn] at e; cases e
  wrLast j e := by rw [hw] at e; rw [hws]; exact h.wrLast j e
  tmLast j e := by rw [ht] at e; rw [hts]; exact h.tmLast j e
  readers j hlt := by
    rw [hr] at hlt ⊢
    rcases h.readers j hlt with e | e | e
    · exact .inl e
    · exact (hj j e).imp_right .inr
    · exact .inr (.inr (hl _ e))
  writers j hlt := by
    rw [hws] at hlt ⊢
    rw [hw]
    rcases h.writers j hlt with e | e | e
    · exact .inl e
    · exact .inr (.inl e)
    · exact .inr (.inr (hl _ e))
  timers j hlt := by rw [hts] at hlt ⊢; rw [ht]; exact h.timers j hlt
  phase := hp

theorem SlInv.loseWr {s t : Sl} (h : SlInv s) (hw : t.rd = s.rd) (ht : t.tm = s.tm) (hr : t.readers = s.readers) (hws : t.writers = s.writers) (hts : t.timers = s.timers) (hn : t.wr = none)
    (hl : ∀ x, x ∈ s.left → x ∈ t.left) (hj : ∀ j, s.wr = some j → s.writers[j]? = some .ended ∨ .writer j ∈ t.left) (hp : SlPhase t) : SlInv t where
  wrLast j e := by rw [hn] at e; cases e
  rdLast j e := by rw [hw] at e; rw [hr]; exact h.rdLast j e
  tmLast j e := by rw [ht] at e; rw [hts]; exact h.tmLast j e
  writers j hlt := by
    rw [hws] at hlt ⊢
    rcases h.writers j hlt with e | e | e
    · exact .inl e
    · exact (hj j e).imp_right .inr
    · exact .inr (.inr (hl _ e))
  readers j hlt := by
    rw [hr] at hlt ⊢
    rw [hw]
    rcases h.readers j hlt with e | e | e
    · exact .inl e
    · exact .inr (.inl e)
    · exact .inr (.inr (hl _ e))
  timers j hlt := by rw [hts] at hlt ⊢; rw [ht]; exact h.timers j hlt
  phase := hp

/-- Only the place of the call and other things change. -/
theorem SlInv.same {s t : Sl} (h : SlInv s) (hrd : t.rd = s.rd) (hw : t.wr = s.wr) (ht : t.tm = s.tm) (hr : t.readers = s.readers) (hws : t.writers = s.writers) (hts : t.timers = s.timers)
    (hl : t.left = s.left) (hp : SlPhase t) : SlInv t := by
  refine ⟨?_, ?_, ?_, ?_, ?_, ?_, hp⟩
  · rw [hrd, hr]; exact h.rdLast
  · rw [hw, hws]; exact h.wrLast
  · rw [ht, hts]; exact h.tmLast
  · rw [hrd, hr, hl]; exact h.readers
  · rw [hw, hws, hl]; exact h.writers
  · rw [ht, hts]; exact h.timers

theorem SlInv.loseTm {s t : Sl} (h : SlInv s) (hrd : t.rd = s.rd) (hw : t.wr = s.wr) (hr : t.readers = s.readers) (hws : t.writers = s.writers) (hts : t.timers = s.timers)
    (hl : t.left = s.left) (hn : t.tm = none) (hj : ∀ j, s.tm = some j → s.timers[j]? = some .ended) (hp : SlPhase t) : SlInv t := by
  refine ⟨?_, ?_, ?_, ?_, ?_, ?_, hp⟩
  · rw [hrd, hr]; exact h.rdLast
  · rw [hw, hws]; exact h.wrLast
  · rw [hn]; exact fun _ h => nomatch h
  · rw [hrd, hr, hl]; exact h.readers
  · rw [hw, hws, hl]; exact h.writers
  · intro j hlt
    rw [hts] at hlt ⊢
    rcases h.timers j hlt with e | e
    · exact .inl e
    · exact .inl (hj j e)

theorem slInv_caller {s : Sl} (h : SlInv s) : SlInv s.goCaller := by
  have hp := h.phase
  unfold SlPhase at hp
  unfold Sl.goCaller
  cases hc : s.call with
  | idle => exact h
  | flag => rw [hc] at hp; exact h.same rfl rfl rfl rfl rfl rfl rfl hp
  | notify =>
    rw [hc] at hp
    exact SlInv.aside (s := { s with call := .rWait }) (h.same rfl rfl rfl rfl rfl rfl rfl hp)
      ⟨rfl, rfl, rfl, rfl, rfl, rfl, rfl, rfl, rfl, rfl, rfl, rfl, by simp [Sl.wakeTimers], fun _ h => h, fun _ h => h, fun _ h => map_keeps rfl h⟩
  | rWait =>
    rw [hc] at hp
    dsimp only
    cases hr : s.rd with
    | none => exact h.same hr.symm rfl rfl rfl rfl rfl rfl ⟨rfl, hp.2.1⟩
    | some j =>
      dsimp only
      split
      · exact h.loseRd rfl rfl rfl rfl rfl rfl (fun _ hx => List.mem_append_left _ hx) (fun i hi => .inr (by rw [hr] at hi; cases hi; simp)) ⟨rfl, hp.2.1⟩
      · split
        · exact h.same hr.symm rfl rfl rfl rfl rfl rfl (by rw [hr] at hp; exact hp)
        · exact h
  | rJoin =>
    rw [hc] at hp
    dsimp only
    cases hr : s.rd with
    | none => exact h.same hr.symm rfl rfl rfl rfl rfl rfl ⟨rfl, hp.2.1⟩
    | some j =>
      dsimp only
      split
      · rename_i hj
        exact h.loseRd rfl rfl rfl rfl rfl rfl (fun _ hx => hx) (fun i hi => .inl (by rw [hr] at hi; cases hi; exact hj)) ⟨rfl, hp.2.1⟩
      · exact h
  | wNotify =>
    rw [hc] at hp
    dsimp only
    split
    · rename_i hw
      exact h.same rfl rfl rfl rfl rfl rfl rfl ⟨hp.1, hw⟩
    · rename_i hw
      have hw' : s.wr.isSome = true := by cases e : s.wr with | none => exact absurd e hw | some => rfl
      exact SlInv.aside (s := { s with call := .wWait }) (h.same rfl rfl rfl rfl rfl rfl rfl ⟨hp.1, hw', hp.2 ▸ hw'⟩)
        ⟨rfl, rfl, rfl, rfl, rfl, rfl, rfl, rfl, rfl, rfl, rfl, by simp [Sl.wakeWriters], rfl, fun _ h => h, fun _ h => map_keeps rfl h, fun _ h => h⟩
  | wWait =>
    rw [hc] at hp
    dsimp only
    split
    · exact h.same rfl rfl rfl rfl rfl rfl rfl hp
    · exact h
  | wJoin =>
    rw [hc] at hp
    dsimp only
    cases hr : s.wr with
    | none => exact h.same rfl hr.symm rfl rfl rfl rfl rfl ⟨hp.1, rfl⟩
    | some j =>
      dsimp only
      split
      · rename_i hj
        exact h.loseWr rfl rfl rfl rfl rfl rfl (fun _ hx => hx) (fun i hi => .inl (by rw [hr] at hi; cases hi; exact hj)) ⟨hp.1, rfl⟩
      · exact h
  | tJoin =>
    rw [hc] at hp
    dsimp only
    cases hr : s.tm with
    | none => exact h.same rfl rfl hr.symm rfl rfl rfl rfl ⟨hp.1, hp.2, rfl⟩
    | some j =>
      dsimp only
      split
      · rename_i hj
        exact h.loseTm rfl rfl rfl rfl rfl rfl rfl (fun i hi => by rw [hr] at hi; cases hi; exact hj) ⟨hp.1, hp.2, rfl⟩
      · exact h
  | fail =>
    rw [hc] at hp
    exact h.same rfl rfl rfl rfl rfl rfl rfl (by
      show s.rd.isSome = s.tm.isSome ∧ s.wr.isSome = s.tm.isSome ∧ (s.tm.isSome = true ↔ (s.log ++ [SlEv.closed]).getLast? = some .started)
      rw [hp.1, hp.2.1, hp.2.2]
      simp)
  | dRead =>
    rw [hc] at hp
    dsimp only
    cases hr : s.rd with
    | none => exact h.same hr.symm rfl rfl rfl rfl rfl rfl rfl
    | some j =>
      dsimp only
      split
      · exact h.same hr.symm rfl rfl rfl rfl rfl rfl (by rw [hr] at hp; exact hp)
      · exact h.loseRd rfl rfl rfl rfl rfl rfl (fun _ hx => List.mem_append_left _ hx) (fun i hi => .inr (by rw [hr] at hi; cases hi; simp)) rfl
  | dRJoin =>
    rw [hc] at hp
    dsimp only
    cases hr : s.rd with
    | none => exact h.same hr.symm rfl rfl rfl rfl rfl rfl rfl
    | some j =>
      dsimp only
      split
      · rename_i hj
        exact h.loseRd rfl rfl rfl rfl rfl rfl (fun _ hx => hx) (fun i hi => .inl (by rw [hr] at hi; cases hi; exact hj)) rfl
      · exact h
  | dTJoin =>
    rw [hc] at hp
    dsimp only
    cases hr : s.tm with
    | none => exact h.same rfl rfl hr.symm rfl rfl rfl rfl ⟨hp, rfl⟩
    | some j =>
      dsimp only
      split
      · rename_i hj
        exact h.loseTm rfl rfl rfl rfl rfl rfl rfl (fun i hi => by rw [hr] at hi; cases hi; exact hj) ⟨hp, rfl⟩
      · exact h.same rfl rfl hr.symm rfl rfl rfl rfl hp
  | dMembers =>
    rw [hc] at hp
    dsimp only
    split
    · rename_i hw
      exact h.same rfl rfl rfl rfl rfl rfl rfl ⟨hp.1, hw, hp.2⟩
    · exact h.same rfl rfl rfl rfl rfl rfl rfl hp
  | destroyed => exact h

theorem slInv_giveUp {s : Sl} (h : SlInv s) : SlInv s.giveUp := by
  have hp := h.phase
  unfold SlPhase at hp
  unfold Sl.giveUp
  cases hc : s.call with
  | rWait =>
    rw [hc] at hp
    dsimp only
    cases hr : s.rd with
    | none => exact h
    | some j =>
      dsimp only
      split
      · exact h
      · split
        · exact h.same hr.symm rfl rfl rfl rfl rfl rfl (by rw [hr] at hp; exact hp)
        · exact h.loseRd rfl rfl rfl rfl rfl rfl (fun _ hx => List.mem_append_left _ hx) (fun i hi => .inr (by rw [hr] at hi; cases hi; simp)) ⟨rfl, hp.2.1⟩
  | wWait =>
    rw [hc] at hp
    dsimp only
    cases hr : s.wr with
    | none => exact h
    | some j =>
      dsimp only
      split
      · exact h.same rfl hr.symm rfl rfl rfl rfl rfl (by rw [hr] at hp; exact hp)
      · exact h.loseWr rfl rfl rfl rfl rfl rfl (fun _ hx => List.mem_append_left _ hx) (fun i hi => .inr (by rw [hr] at hi; cases hi; simp)) ⟨hp.1, rfl⟩
  | _ => exact h

theorem slInv_step {s : Sl} (h : SlInv s) (op : SlOp) : SlInv (s.step op) := by
  by_cases ha : op.aside = true
  · exact h.aside (aside_step s op ha)
  · have hp := h.phase
    unfold Sl.step
    split
    · exact h
    · cases op with
      | start =>
        dsimp only
        split
        · rename_i hc
          unfold SlPhase at hp
          rw [hc] at hp
          unfold Sl.start
          split
          · rename_i hn
            refine ⟨?_, ?_, ?_, ?_, ?_, ?_, ?_⟩
            · intro j e; cases e; simp
            · intro j e; cases e; simp
            · intro j e; cases e; simp
            · intro j hlt
              have hlt' : j < s.readers.length + 1 := by simpa using hlt
              rcases Nat.lt_or_ge j s.readers.length with c | c
              · show (s.readers ++ [SlRead.test])[j]? = _ ∨ _
                rw [List.getElem?_append_left c]
                rcases h.readers j c with e | e | e
                · exact .inl e
                · rw [hn.1] at e; cases e
                · exact .inr (.inr e)
              · exact .inr (.inl (by show some _ = some _; congr; omega))
            · intro j hlt
              have hlt' : j < s.writers.length + 1 := by simpa using hlt
              rcases Nat.lt_or_ge j s.writers.length with c | c
              · show (s.writers ++ [SlWrite.entry])[j]? = _ ∨ _
                rw [List.getElem?_append_left c]
                rcases h.writers j c with e | e | e
                · exact .inl e
                · rw [hn.2.1] at e; cases e
                · exact .inr (.inr e)
              · exact .inr (.inl (by show some _ = some _; congr; omega))
            · intro j hlt
              have hlt' : j < s.timers.length + 1 := by simpa using hlt
              rcases Nat.lt_or_ge j s.timers.length with c | c
              · show (s.timers ++ [SlTimer.test])[j]? = _ ∨ _
                rw [List.getElem?_append_left c]
                rcases h.timers j c with e | e
                · exact .inl e
                · rw [hn.2.2] at e; cases e
              · exact .inr (by show some _ = some _; congr; omega)
            · unfold SlPhase
              simp [hc]
          · rename_i hn
            refine h.same rfl rfl rfl rfl rfl rfl rfl ?_
            unfold SlPhase
            rw [show ({ s with connected := true, dead := true, log := s.log ++ [SlEv.started] } : Sl).call = .idle from hc]
            refine ⟨hp.1, hp.2.1, fun _ => by simp, fun _ => ?_⟩
            show s.tm.isSome = true
            cases e : s.tm with
            | some => rfl
            | none =>
              exfalso
              apply hn
              rw [e] at hp
              refine ⟨?_, ?_, e⟩
              · cases e' : s.rd with | none => rfl | some => rw [e'] at hp; cases hp.1
              · cases e' : s.wr with | none => rfl | some => rw [e'] at hp; cases hp.2.1
        · exact h
      | destroy =>
        dsimp only
        split
        · rename_i hc
          unfold SlPhase at hp
          rw [hc] at hp
          exact h.same rfl rfl rfl rfl rfl rfl rfl hp
        · exact h
      | close self =>
        dsimp only
        split
        · rename_i hc
          unfold SlPhase at hp
          rw [hc] at hp
          cases self with
          | none => exact h.same rfl rfl rfl rfl rfl rfl rfl hp
          | some j =>
            dsimp only
            split
            · exact h.same rfl rfl rfl rfl rfl rfl rfl hp
            · exact h
        · exact h
      | caller => exact slInv_caller h
      | giveUp => exact slInv_giveUp h
      | _ => exact absurd rfl ha

theorem sl_run_inv {P : Sl → Prop} {s : Sl} {ops : List SlOp} (h : P s) (hstep : ∀ t op, op ∈ ops → P t → P (t.step op)) : P (s.run ops) := by
  induction ops generalizing s with
  | nil => exact h
  | cons op l ih => exact ih (hstep s op (by simp) h) (fun t o ho => hstep t o (by simp [ho]))

theorem sl_run_append (s : Sl) (a b : List SlOp) : s.run (a ++ b) = (s.run a).run b := by simp [Sl.run, List.foldl_append]

theorem slInv_run (ops : List SlOp) : SlInv (Sl.init.run ops) := sl_run_inv slInv_init fun _ op _ h => slInv_step h op

end Verif.Stdio
