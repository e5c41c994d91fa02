import Verif.Sync.Model

/-! C58: stopping a transport returns. -/

namespace Verif

open Sync

/-- **C58 fails.** There is a schedule after which the stopping call never returns, however the threads are scheduled from then on:
the flag is cleared and the notification sent between the waiting thread's test of the flag and its going to sleep. -/
theorem C58_lost_wakeup_counterexample :
    ∃ sched : List Step, ∀ more : List Step, ((St.init.run sched).run more).closer ≠ .returned := by
  refine ⟨[.waiter, .closer, .closer, .waiter], ?_⟩
  intro more
  have key : ∀ l : List Step, St.run ⟨false, .blocked, .joining⟩ l = ⟨false, .blocked, .joining⟩ := by
    intro l
    induction l with
    | nil => rfl
    | cons x l ih => cases x <;> exact ih
  have h : St.init.run [.waiter, .closer, .closer, .waiter] = ⟨false, .blocked, .joining⟩ := rfl
  rw [h, key]
  decide

/-- The schedule never notifies between the waiting thread's test and its sleep. -/
def NoRace : St → List Step → Prop
  | _, [] => True
  | s, .closer :: l => ¬ (s.waiter = .decided ∧ s.closer = .cleared) ∧ NoRace (s.step .closer) l
  | s, .waiter :: l => NoRace (s.step .waiter) l

/-- The states from which the stopping call returns under every fair schedule. -/
def Good (s : St) : Prop :=
  (s.closer = .entry → s.connected = true ∧ s.waiter ≠ .finished) ∧ (s.closer ≠ .entry → s.connected = false) ∧
  (s.closer = .joining → s.waiter = .testing ∨ s.waiter = .finished)

theorem good_step {s : St} (h : Good s) (x : Step) (hx : x = .closer → ¬ (s.waiter = .decided ∧ s.closer = .cleared)) :
    Good (s.step x) := by
  obtain ⟨c, w, k⟩ := s
  unfold Good at *
  cases x <;> cases w <;> cases k <;> cases c <;> simp_all [St.step]

theorem good_run {l : List Step} : ∀ {s : St}, Good s → NoRace s l → Good (s.run l) := by
  induction l with
  | nil => intro s h _; exact h
  | cons x l ih =>
    intro s h hn
    cases x with
    | waiter => exact ih (good_step h .waiter (by intro e; cases e)) hn
    | closer => exact ih (good_step h .closer (fun _ => hn.1)) hn.2

/-- **C58 (partial).** After every schedule in which the notification does not fall between the waiting thread's test and its going
to sleep, a few more steps of both threads make the stopping call return. Missing: the schedules of the counterexample. -/
theorem C58_stop_returns_partial (sched : List Step) (h : NoRace St.init sched)
    (hj : (St.init.run sched).closer = .joining) :
    ((St.init.run sched).run [.waiter, .closer]).closer = .returned := by
  have hg := good_run (s := St.init) (by simp [Good, St.init]) h
  revert hg hj
  generalize St.init.run sched = s
  obtain ⟨c, w, k⟩ := s
  intro hj hg
  simp only at hj; subst hj
  have h1 := hg.2.1 (by simp)
  simp only at h1; subst h1
  rcases hg.2.2 rfl with h2 | h2 <;> (simp only at h2; subst h2; rfl)

example : NoRace St.init [.waiter, .waiter, .closer, .closer] ∧ (St.init.run [.waiter, .waiter, .closer, .closer]).closer = .joining := by
  refine ⟨⟨by decide, by decide, trivial⟩, by decide⟩

end Verif
