import Verif.Server.BeatStopProps

/-!
C112, continued: switching keepalive off comes to an end; where the claims fail.
-/

namespace Verif
open Server

/-! ### The call returns -/

/-- The steps number `n` to `n + k - 1` of an endless execution. -/
def stretch {α : Type} (f : Nat → α) (n k : Nat) : List α := (List.range' n k).map f

theorem stretch_succ {α : Type} (f : Nat → α) (n k : Nat) : stretch f n (k + 1) = f n :: stretch f (n + 1) k := by
  simp [stretch, List.range'_succ]

/-- Everybody has their turn again and again, sends end and time goes on. -/
structure FairBeat (f : Nat → BeatOp) : Prop where
  thread : ∀ n, ∃ m, n ≤ m ∧ f m = .thread
  caller : ∀ n, ∃ m, n ≤ m ∧ f m = .caller
  tick : ∀ n, ∃ m, n ≤ m ∧ f m = .tick
  result : ∀ n, ∃ m, n ≤ m ∧ ∃ failed closes, f m = .result failed closes

/-- A measure no step raises, and in every state a kind of step that lowers it and stays the one to lower it until it does. -/
theorem beat_leads_if {f : Nat → BeatOp} (ok : BeatOp → Prop) (hok : ∀ n, ok (f n)) (P G : Beat → Prop) (μ : Beat → Nat × Nat) (helps : Beat → BeatOp → Prop)
    (fair : ∀ s, P s → ∀ n, ∃ m, n ≤ m ∧ helps s (f m))
    (any : ∀ s op, ok op → P s → G (s.step op) ∨ (P (s.step op) ∧ (Prod.Lex (· < ·) (· < ·) (μ (s.step op)) (μ s) ∨ (μ (s.step op) = μ s ∧ helps (s.step op) = helps s))))
    (good : ∀ s op, P s → helps s op → G (s.step op) ∨ Prod.Lex (· < ·) (· < ·) (μ (s.step op)) (μ s)) :
    ∀ (s : Beat) (n : Nat), P s → ∃ k, G (s.run (stretch f n k)) := by
  have wf : WellFounded (fun a b : Nat × Nat => Prod.Lex (· < ·) (· < ·) a b) := (Prod.lex Nat.lt_wfRel Nat.lt_wfRel).wf
  have outer : ∀ (x : Nat × Nat) (s : Beat) (n : Nat), μ s = x → P s → ∃ k, G (s.run (stretch f n k)) := by
    intro x
    induction x using wf.induction with
    | _ x ih =>
      have inner : ∀ (d : Nat) (s : Beat) (n : Nat), μ s = x → P s → helps s (f (n + d)) → ∃ k, G (s.run (stretch f n k)) := by
        intro d
        induction d with
        | zero =>
          intro s n hx hp hh
          rcases any s (f n) (hok n) hp with hg | ⟨hp', -⟩
          · exact ⟨1, by rw [stretch_succ]; exact hg⟩
          · rcases good s (f n) hp hh with hg | hl
            · exact ⟨1, by rw [stretch_succ]; exact hg⟩
            · rw [hx] at hl
              obtain ⟨k, hk⟩ := ih _ hl _ (n + 1) rfl hp'
              exact ⟨k + 1, by rw [stretch_succ]; exact hk⟩
        | succ d ihd =>
          intro s n hx hp hh
          rcases any s (f n) (hok n) hp with hg | ⟨hp', hl | ⟨hm, he⟩⟩
          · exact ⟨1, by rw [stretch_succ]; exact hg⟩
          · rw [hx] at hl
            obtain ⟨k, hk⟩ := ih _ hl _ (n + 1) rfl hp'
            exact ⟨k + 1, by rw [stretch_succ]; exact hk⟩
          · obtain ⟨k, hk⟩ := ihd (s.step (f n)) (n + 1) (hm.trans hx) hp' (by rw [he, show n + 1 + d = n + (d + 1) by omega]; exact hh)
            exact ⟨k + 1, by rw [stretch_succ]; exact hk⟩
      intro s n hx hp
      obtain ⟨m, hm, hh⟩ := fair s hp n
      exact inner (m - n) s n hx hp (by rw [show n + (m - n) = m by omega]; exact hh)
  exact fun s n => outer _ s n rfl

theorem beat_leads {f : Nat → BeatOp} (P G : Beat → Prop) (μ : Beat → Nat × Nat) (helps : Beat → BeatOp → Prop)
    (fair : ∀ s, P s → ∀ n, ∃ m, n ≤ m ∧ helps s (f m))
    (any : ∀ s op, P s → G (s.step op) ∨ (P (s.step op) ∧ (Prod.Lex (· < ·) (· < ·) (μ (s.step op)) (μ s) ∨ (μ (s.step op) = μ s ∧ helps (s.step op) = helps s))))
    (good : ∀ s op, P s → helps s op → G (s.step op) ∨ Prod.Lex (· < ·) (· < ·) (μ (s.step op)) (μ s)) :
    ∀ (s : Beat) (n : Nat), P s → ∃ k, G (s.run (stretch f n k)) :=
  beat_leads_if (fun _ => True) (fun _ => trivial) P G μ helps fair (fun s op _ => any s op) good

/-- How far the thread is from its end, once it is told to stop. -/
def Server.BeatTh.rank : BeatTh → Nat
  | .none => 0
  | .ended => 1
  | .top => 2
  | .left => 3
  | .test _ _ => 4
  | .blocked _ _ => 5
  | .decided _ _ => 6
  | .got _ => 7
  | .read => 8
  | .callback _ => 9
  | .sending => 10
  | .live => 11
  | .past => 12

def Server.BeatTh.rest (now : Nat) : BeatTh → Nat
  | .blocked _ u => u - now
  | _ => 0

def helpsBeat (s : Beat) (op : BeatOp) : Prop :=
  match s.th with
  | .ended => op = .caller
  | .sending => ∃ a b, op = .result a b
  | .blocked _ u => if s.now < u then op = .tick else op = .thread
  | _ => op = .thread

theorem lex_left {a b c d : Nat} (h : a < c) : Prod.Lex (· < ·) (· < ·) (a, b) (c, d) := Prod.Lex.left _ _ h
theorem lex_right {a b d : Nat} (h : b < d) : Prod.Lex (· < ·) (· < ·) (a, b) (a, d) := Prod.Lex.right _ h

/-- In the wait for the thread to end. -/
def Joining (s : Beat) : Prop := (∃ r, s.call = .join r) ∧ s.stop = true ∧ s.th ≠ .none

theorem joining_any (s : Beat) (op : BeatOp) (h : Joining s) : (s.step op).call = .idle ∨ (Joining (s.step op) ∧
    (Prod.Lex (· < ·) (· < ·) ((s.step op).th.rank, (s.step op).th.rest (s.step op).now) (s.th.rank, s.th.rest s.now) ∨
      (((s.step op).th.rank, (s.step op).th.rest (s.step op).now) = (s.th.rank, s.th.rest s.now) ∧ helpsBeat (s.step op) = helpsBeat s))) := by
  obtain ⟨now, interval, stop, th, call, connected, sent⟩ := s
  obtain ⟨⟨r, hr⟩, hs, ht⟩ := h
  dsimp only at hr hs ht
  subst hr hs
  cases op with
  | thread =>
    right
    cases th with
    | none => exact absurd rfl ht
    | blocked d u =>
      simp only [Beat.step, Beat.thread]
      split
      · exact ⟨⟨⟨r, rfl⟩, rfl, by simp⟩, .inl (lex_left (by simp [BeatTh.rank]))⟩
      · exact ⟨⟨⟨r, rfl⟩, rfl, by simp⟩, .inr ⟨rfl, rfl⟩⟩
    | live =>
      simp only [Beat.step, Beat.thread]
      split <;> exact ⟨⟨⟨r, rfl⟩, rfl, by simp⟩, .inl (lex_left (by simp [BeatTh.rank]))⟩
    | read =>
      simp only [Beat.step, Beat.thread]
      split <;> exact ⟨⟨⟨r, rfl⟩, rfl, by simp⟩, .inl (lex_left (by simp [BeatTh.rank]))⟩
    | past =>
      simp only [Beat.step, Beat.thread]
      split <;> exact ⟨⟨⟨r, rfl⟩, rfl, by simp⟩, .inl (lex_left (by simp [BeatTh.rank]))⟩
    | callback c =>
      simp only [Beat.step, Beat.thread]
      split <;> exact ⟨⟨⟨r, rfl⟩, rfl, by simp⟩, .inl (lex_left (by simp [BeatTh.rank]))⟩
    | sending => exact ⟨⟨⟨r, rfl⟩, rfl, by simp [Beat.step, Beat.thread]⟩, .inr ⟨rfl, rfl⟩⟩
    | ended => exact ⟨⟨⟨r, rfl⟩, rfl, by simp [Beat.step, Beat.thread]⟩, .inr ⟨rfl, rfl⟩⟩
    | _ => exact ⟨⟨⟨r, rfl⟩, rfl, by simp [Beat.step, Beat.thread]⟩, .inl (lex_left (by simp [Beat.step, Beat.thread, BeatTh.rank]))⟩
  | caller =>
    simp only [Beat.step, Beat.caller]
    split
    · exact .inl rfl
    · exact .inr ⟨⟨⟨r, rfl⟩, rfl, ht⟩, .inr ⟨rfl, rfl⟩⟩
  | spurious =>
    right
    cases th with
    | blocked d u => exact ⟨⟨⟨r, rfl⟩, rfl, by simp [Beat.step, BeatTh.woken]⟩, .inl (lex_left (by simp [Beat.step, BeatTh.woken, BeatTh.rank]))⟩
    | _ => exact ⟨⟨⟨r, rfl⟩, rfl, ht⟩, .inr ⟨rfl, rfl⟩⟩
  | result a b =>
    right
    simp only [Beat.step]
    split
    · rename_i h7
      subst h7
      cases a <;> exact ⟨⟨⟨r, rfl⟩, rfl, by simp⟩, .inl (lex_left (by simp [BeatTh.rank]))⟩
    · exact ⟨⟨⟨r, rfl⟩, rfl, ht⟩, .inr ⟨rfl, rfl⟩⟩
  | tick =>
    right
    cases th with
    | blocked d u =>
      refine ⟨⟨⟨r, rfl⟩, rfl, by simp [Beat.step]⟩, ?_⟩
      by_cases hu : now < u
      · exact .inl (lex_right (by simp only [Beat.step, BeatTh.rest]; omega))
      · refine .inr ⟨?_, ?_⟩
        · simp only [Beat.step, BeatTh.rest, BeatTh.rank, Prod.mk.injEq, true_and]; omega
        · funext op
          show (if now + 1 < u then op = .tick else op = .thread) = (if now < u then op = .tick else op = .thread)
          rw [if_neg hu, if_neg (by omega)]
    | _ => exact ⟨⟨⟨r, rfl⟩, rfl, ht⟩, .inr ⟨rfl, rfl⟩⟩
  | connect b => exact .inr ⟨⟨⟨r, rfl⟩, rfl, ht⟩, .inr ⟨rfl, rfl⟩⟩
  | _ =>
    right
    have e : ∀ s' : Beat, s' = ⟨now, interval, true, th, .join r, connected, sent⟩ → Joining s' ∧
        (Prod.Lex (· < ·) (· < ·) (s'.th.rank, s'.th.rest s'.now) (th.rank, th.rest now) ∨
          ((s'.th.rank, s'.th.rest s'.now) = (th.rank, th.rest now) ∧ helpsBeat s' = helpsBeat ⟨now, interval, true, th, .join r, connected, sent⟩)) := by
      rintro _ rfl
      exact ⟨⟨⟨r, rfl⟩, rfl, ht⟩, .inr ⟨rfl, rfl⟩⟩
    exact e _ (by simp [Beat.step])

theorem joining_good (s : Beat) (op : BeatOp) (h : Joining s) (hh : helpsBeat s op) : (s.step op).call = .idle ∨
    Prod.Lex (· < ·) (· < ·) ((s.step op).th.rank, (s.step op).th.rest (s.step op).now) (s.th.rank, s.th.rest s.now) := by
  obtain ⟨now, interval, stop, th, call, connected, sent⟩ := s
  obtain ⟨⟨r, hr⟩, hs, ht⟩ := h
  dsimp only at hr hs ht
  subst hr hs
  cases th with
  | none => exact absurd rfl ht
  | ended =>
    have : op = .caller := hh
    subst this
    left
    simp [Beat.step, Beat.caller]
  | sending =>
    obtain ⟨a, b, e⟩ : ∃ a b, op = .result a b := hh
    subst e
    right
    cases a <;> exact lex_left (by simp [Beat.step, BeatTh.rank])
  | blocked d u =>
    right
    simp only [helpsBeat] at hh
    split at hh
    · subst hh
      exact lex_right (by simp only [Beat.step, BeatTh.rest]; omega)
    · subst hh
      simp only [Beat.step, Beat.thread]
      rw [if_pos (by omega)]
      exact lex_left (by simp [BeatTh.rank])
  | live =>
    have : op = .thread := hh
    subst this
    right
    simp only [Beat.step, Beat.thread]
    split <;> exact lex_left (by simp [BeatTh.rank])
  | read =>
    have : op = .thread := hh
    subst this
    right
    simp only [Beat.step, Beat.thread]
    split <;> exact lex_left (by simp [BeatTh.rank])
  | past =>
    have : op = .thread := hh
    subst this
    right
    simp only [Beat.step, Beat.thread]
    split <;> exact lex_left (by simp [BeatTh.rank])
  | callback c =>
    have : op = .thread := hh
    subst this
    right
    simp only [Beat.step, Beat.thread]
    split <;> exact lex_left (by simp [BeatTh.rank])
  | _ =>
    have : op = .thread := hh
    subst this
    right
    exact lex_left (by simp [Beat.step, Beat.thread, BeatTh.rank])

/-- The call changes only by its own steps. -/
theorem calling_step (s : Beat) (op : BeatOp) (hc : s.call ≠ .idle) (hop : op ≠ .caller) : (s.step op).call = s.call := by
  cases op with
  | caller => exact absurd rfl hop
  | thread => simp only [Beat.step, Beat.thread]; split <;> (try split) <;> rfl
  | _ => simp [Beat.step, hc] <;> (try split) <;> rfl

theorem reach_join {f : Nat → BeatOp} (hf : FairBeat f) (s : Beat) (n : Nat) (r : Bool) (hc : s.call = .flag r ∨ s.call = .notify r) :
    ∃ k, (s.run (stretch f n k)).call = .join r := by
  refine beat_leads (f := f) (fun s => s.call = .flag r ∨ s.call = .notify r) (fun s => s.call = .join r)
    (fun s => (if s.call = .flag r then 1 else 0, 0)) (fun _ op => op = .caller) (fun _ _ n => hf.caller n) ?_ ?_ s n hc
  · intro s op h
    by_cases ho : op = .caller
    · subst ho
      rcases h with h | h
      · refine .inr ⟨.inr (by simp [Beat.step, Beat.caller, h]), .inl ?_⟩
        simp only [Beat.step, Beat.caller, h]
        exact lex_left (by simp)
      · exact .inl (by simp [Beat.step, Beat.caller, h])
    · have e := calling_step s op (by rcases h with h | h <;> rw [h] <;> simp) ho
      exact .inr ⟨by rw [e]; exact h, .inr ⟨by rw [e], rfl⟩⟩
  · intro s op h ho
    subst ho
    rcases h with h | h
    · right
      simp only [Beat.step, Beat.caller, h]
      exact lex_left (by simp)
    · exact .inl (by simp [Beat.step, Beat.caller, h])

theorem run_stretch {f : Nat → BeatOp} (s : Beat) (n a b : Nat) : (s.run (stretch f n a)).run (stretch f (n + a) b) = s.run (stretch f n (a + b)) := by
  induction a generalizing s n with
  | zero => simp [stretch, Beat.run]
  | succ a ih =>
    rw [show a + 1 + b = (a + b) + 1 by omega, stretch_succ, stretch_succ, show n + (a + 1) = n + 1 + a by omega]
    exact ih (s.step (f n)) (n + 1)

/-- **C112.** A call that switches keepalive off or stops the server returns, wherever the thread is and whatever it sends, if everybody has their turn again and again. -/
theorem C112_returns (ops : List BeatOp) {f : Nat → BeatOp} (hf : FairBeat f) (hc : (Beat.init.run ops).call ≠ .idle) :
    ∃ k, ((Beat.init.run ops).run (stretch f 0 k)).call = .idle := by
  have hi := beatInv_run _ ops beatInv_init
  have join : ∀ (s : Beat) (n : Nat) r, BeatInv s → s.call = .join r → ∃ k, (s.run (stretch f n k)).call = .idle := by
    intro s n r h hr
    refine beat_leads (f := f) Joining (fun s => s.call = .idle) (fun s => (s.th.rank, s.th.rest s.now)) helpsBeat ?_ joining_any joining_good s n
      ⟨⟨r, hr⟩, h.raised r (.inr hr), h.there r (.inr (.inr hr))⟩
    intro s hs n
    unfold helpsBeat
    cases hth : s.th with
    | ended => exact hf.caller n
    | sending => exact hf.result n
    | blocked d u =>
      dsimp only
      split
      · exact hf.tick n
      · exact hf.thread n
    | _ => exact hf.thread n
  cases hcl : (Beat.init.run ops).call with
  | idle => exact absurd hcl hc
  | on =>
    refine beat_leads (f := f) (fun s => s.call = .on) (fun s => s.call = .idle) (fun _ => (0, 0)) (fun _ op => op = .caller) (fun _ _ n => hf.caller n) ?_ ?_ _ 0 hcl
    · intro s op h
      by_cases ho : op = .caller
      · subst ho
        left
        simp only [Beat.step, Beat.caller, h]
        split <;> rfl
      · exact .inr ⟨(calling_step s op (by rw [h]; simp) ho).trans h, .inr ⟨rfl, rfl⟩⟩
    · intro s op h ho
      subst ho
      left
      simp only [Beat.step, Beat.caller, h]
      split <;> rfl
  | flag r =>
    obtain ⟨a, ha⟩ := reach_join hf _ 0 r (.inl hcl)
    obtain ⟨b, hb⟩ := join _ (0 + a) r (beatInv_run _ _ hi) ha
    exact ⟨a + b, by rw [← run_stretch]; exact hb⟩
  | notify r =>
    obtain ⟨a, ha⟩ := reach_join hf _ 0 r (.inr hcl)
    obtain ⟨b, hb⟩ := join _ (0 + a) r (beatInv_run _ _ hi) ha
    exact ⟨a + b, by rw [← run_stretch]; exact hb⟩
  | join r => exact join _ 0 r hi hcl

/-! ### Where the claims fail -/

/-- The thread has just looked at the flags, with the interval `d`. -/
def looked (d : Nat) : List BeatOp := [.setOn d, .caller, .thread, .thread, .thread, .thread]

/-- **C112, false for a thread that is about to fall asleep.** The stop flag is stored and the thread woken without the mutex of the wait. If this comes between the look
at the flags and the sleep, the thread sleeps on for the whole interval, and switching keepalive off takes as long: for every interval `d` there is an execution, without any
delay, at the end of which the call waits for the thread, and it is still waiting as long as less than `d` has passed, whatever happens. -/
theorem C112_lost_wakeup_counterexample (d : Nat) (hd : 0 < d) (op : BeatOp) (ho : op = .setOff ∨ op = .halt) :
    ∃ ops, Beat.init.Prompt (looked d ++ op :: ops) ∧ (Beat.init.run (looked d ++ op :: ops)).now = 0 ∧ (∀ o ∈ ops, ¬ FromOutside o) ∧
      ∀ more, .spurious ∉ more → (Beat.init.run (looked d ++ op :: ops ++ more)).now < d → ∃ r, (Beat.init.run (looked d ++ op :: ops ++ more)).call = .join r := by
  refine ⟨[.caller, .caller, .thread], ?_, ?_, by simp [FromOutside], ?_⟩
  · rcases ho with rfl | rfl <;> simp [Beat.Prompt, looked]
  · rcases ho with rfl | rfl <;> simp [Beat.run, looked, Beat.step, Beat.caller, Beat.thread, Beat.init, Beat.haltBy, hd, BeatTh.woken, Nat.ne_of_gt hd]
  · intro more hs ht
    obtain ⟨i, r, st, he⟩ : ∃ i r st, Beat.init.run (looked d ++ op :: [.caller, .caller, .thread]) = ⟨0, i, st, .blocked d d, .join r, true, []⟩ := by
      rcases ho with rfl | rfl
      · exact ⟨0, true, true, by simp [Beat.run, looked, Beat.step, Beat.caller, Beat.thread, Beat.init, Beat.haltBy, hd, BeatTh.woken, Nat.ne_of_gt hd]⟩
      · exact ⟨d, false, true, by simp [Beat.run, looked, Beat.step, Beat.caller, Beat.thread, Beat.init, Beat.haltBy, hd, BeatTh.woken, Nat.ne_of_gt hd]⟩
    have mono : ∀ (l : List BeatOp) (s : Beat), s.now ≤ (s.run l).now := by
      intro l
      induction l with
      | nil => intro s; exact Nat.le_refl _
      | cons op l ih =>
        intro s
        refine Nat.le_trans ?_ (ih (s.step op))
        cases op with
        | thread => simp only [Beat.step, Beat.thread]; split <;> (try split) <;> exact Nat.le_refl _
        | caller => simp only [Beat.step, Beat.caller]; split <;> (try split) <;> exact Nat.le_refl _
        | setOff => simp only [Beat.step, Beat.haltBy]; split <;> (try split) <;> exact Nat.le_refl _
        | halt => simp only [Beat.step, Beat.haltBy]; split <;> (try split) <;> exact Nat.le_refl _
        | tick => exact Nat.le_succ _
        | _ => simp only [Beat.step] <;> (try split) <;> exact Nat.le_refl _
    have key : ∀ (l : List BeatOp) (s : Beat), .spurious ∉ l → s.call = .join r → s.th = .blocked d d → (s.run l).now < d → (s.run l).call = .join r := by
      intro l
      induction l with
      | nil => intro s _ h _ _; exact h
      | cons op l ih =>
        intro s hs hc hth ht
        have hnow : s.now < d := Nat.lt_of_le_of_lt (mono (op :: l) s) ht
        refine ih (s.step op) (fun h => hs (by simp [h])) ?_ ?_ ht
        · by_cases hop : op = .caller
          · subst hop; simp [Beat.step, Beat.caller, hc, hth]
          · rw [calling_step s op (by rw [hc]; simp) hop, hc]
        · cases op with
          | spurious => simp at hs
          | thread => simp only [Beat.step, Beat.thread, hth]; rw [if_neg (by omega)]; exact hth
          | caller => simp [Beat.step, Beat.caller, hc, hth]
          | _ => simp [Beat.step, hc, hth, BeatTh.calling] <;> (try split) <;> exact hth
    rw [beat_append, he] at ht ⊢
    exact ⟨r, key more _ hs rfl rfl ht⟩

/-- Setting another interval and what the thread does then. -/
def changed (d : Nat) : List BeatOp :=
  [.setOn d, .caller, .thread, .thread, .thread, .thread, .result false false, .thread, .thread, .thread, .thread, .thread]

def changes (m : Nat) : Nat → List BeatOp
  | 0 => [.setOn m, .caller, .thread, .thread, .thread, .thread, .thread]
  | k + 1 => changes m k ++ changed (m + k + 1)

/-- **C112, false for an interval that is set anew**: the thread wakes up and sends a keepalive at once instead of waiting for the new interval (the comment at 3093 says
otherwise). However long all the intervals are, any number of keepalives is sent in no time when the interval is set that often. -/
theorem C112_change_counterexample (m k : Nat) (hm : 0 < m) :
    ∃ ops, Beat.init.Prompt ops ∧ .tick ∉ ops ∧ (∀ o ∈ ops, ∀ d, sets o = some d → m ≤ d) ∧ (Beat.init.run ops).sent = List.replicate k 0 := by
  refine ⟨changes m k, ?_⟩
  have ht : ∀ k, .tick ∉ changes m k := by
    intro k
    induction k with
    | zero => simp [changes]
    | succ k ih => simp only [changes, List.mem_append, not_or]; exact ⟨ih, by simp [changed]⟩
  have hp : ∀ (l : List BeatOp) (s : Beat), .tick ∉ l → s.Prompt l := by
    intro l
    induction l with
    | nil => intros; trivial
    | cons op l ih => intro s h; exact ⟨fun e => absurd (by simp [e]) h, ih _ (fun hm => h (by simp [hm]))⟩
  have hr : ∀ k, Beat.init.run (changes m k) = ⟨0, m + k, false, .blocked (m + k) (m + k), .idle, true, List.replicate k 0⟩ := by
    intro k
    induction k with
    | zero => simp [changes, Beat.run, Beat.step, Beat.caller, Beat.thread, Beat.init, hm, Nat.ne_of_gt hm]
    | succ k ih =>
      rw [changes, beat_append, ih]
      generalize hn : m + k = n at ih
      have h1 : m + (k + 1) = n + 1 := by omega
      rw [h1]
      simp [changed, Beat.run, Beat.step, Beat.caller, Beat.thread, BeatTh.woken, List.replicate_succ']
  refine ⟨hp _ _ (ht k), ht k, ?_, by rw [hr]⟩
  have : ∀ k, ∀ o ∈ changes m k, ∀ d, sets o = some d → m ≤ d := by
    intro k
    induction k with
    | zero => simp [changes, sets]
    | succ k ih =>
      intro o ho d hd
      rcases List.mem_append.1 ho with h | h
      · exact ih o h d hd
      · simp only [changed, List.mem_cons, List.not_mem_nil, or_false] at h
        rcases h with rfl | rfl | rfl | rfl | rfl | rfl | rfl | rfl | rfl | rfl | rfl | rfl <;> simp [sets] at hd
        omega
  exact this k

/-- **C112, false after keepalive was switched off in the error callback**: the thread cannot join itself and is never replaced. Keepalive may be switched on as often as one
likes afterwards, and time may pass: nothing is sent, unless it is switched off once more from outside. -/
theorem C112_callback_counterexample (d : Nat) (hd : 0 < d) :
    ∃ ops, (Beat.init.run ops).sent.length = 1 ∧ (Beat.init.run ops).interval = 0 ∧ ∀ more, (∀ o ∈ more, ¬ SwitchesOff o) →
      (Beat.init.run (ops ++ more)).sent = (Beat.init.run ops).sent := by
  refine ⟨looked d ++ [.thread] ++ List.replicate d .tick ++ [.thread, .thread, .thread, .thread, .result true false, .selfOff, .thread, .thread, .thread], ?_⟩
  have hticks : ∀ (n : Nat) (s : Beat), s.run (List.replicate n .tick) = { s with now := s.now + n } := by
    intro n
    induction n with
    | zero => intro s; rfl
    | succ n ih => intro s; rw [List.replicate_succ]; show (s.step .tick).run _ = _; rw [ih]; simp only [Beat.step, Beat.mk.injEq, and_true]; omega
  have he : Beat.init.run (looked d ++ [.thread] ++ List.replicate d .tick ++ [.thread, .thread, .thread, .thread, .result true false, .selfOff, .thread, .thread, .thread]) =
      ⟨d, 0, false, .ended, .idle, true, [d]⟩ := by
    rw [beat_append, beat_append, hticks]
    simp [looked, Beat.run, Beat.step, Beat.caller, Beat.thread, Beat.init, hd, Nat.ne_of_gt hd, BeatTh.calling]
  rw [he]
  refine ⟨rfl, rfl, fun more hn => ?_⟩
  rw [beat_append, he]
  have key : ∀ (l : List BeatOp) (s : Beat), (∀ o ∈ l, ¬ SwitchesOff o) → s.th = .ended → (s.call = .idle ∨ s.call = .on) → (s.run l).sent = s.sent := by
    intro l
    induction l with
    | nil => intros; rfl
    | cons op l ih =>
      intro s hl ht hc
      have h1 := hl op (by simp)
      have : (s.step op).th = .ended ∧ ((s.step op).call = .idle ∨ (s.step op).call = .on) ∧ (s.step op).sent = s.sent := by
        obtain ⟨now, interval, stop, th, call, connected, sent⟩ := s
        dsimp only at ht hc
        subst ht
        cases op with
        | setOff => exact absurd trivial h1
        | halt => exact absurd trivial h1
        | caller => rcases hc with rfl | rfl <;> simp [Beat.step, Beat.caller, BeatTh.woken]
        | thread => exact ⟨rfl, hc, rfl⟩
        | setOn e =>
          simp only [Beat.step]
          split
          · exact ⟨rfl, .inr rfl, rfl⟩
          · exact ⟨rfl, hc, rfl⟩
        | _ => simp [Beat.step, BeatTh.calling, BeatTh.woken, hc]
      exact (ih _ (fun o ho => hl o (by simp [ho])) this.1 this.2.1).trans this.2.2
  exact key more _ hn rfl (.inl rfl)

/-! ### The hypotheses can be met -/

/-- Switched on, a keepalive sent after 2 ms, the send over, asleep again. -/
def beatOps : List BeatOp :=
  looked 2 ++ [.thread, .tick, .tick, .thread, .thread, .thread, .thread]

example : (Beat.init.run beatOps).th = .sending ∧ (Beat.init.run beatOps).sent = [2] ∧ (Beat.init.run beatOps).call = .idle ∧
    (Beat.init.run beatOps).interval = 2 ∧ (Beat.init.run beatOps).stop = false ∧ (Beat.init.run beatOps).connected = true := by decide +kernel

/-- Two more intervals. -/
def beatMore : List BeatOp :=
  [.result false false, .thread, .thread, .thread, .thread, .thread, .tick, .spurious, .thread, .thread, .tick, .thread, .thread, .thread, .thread,
    .result false false, .thread, .thread, .thread, .thread, .thread, .tick, .tick, .thread, .thread, .thread, .thread]

example : (∀ op ∈ beatMore, Undisturbing op ∧ ¬ Resets op) ∧ (Beat.init.run beatOps).Prompt beatMore ∧ (Beat.init.run (beatOps ++ beatMore)).sent = [2, 4, 6] := by
  refine ⟨by simp [beatMore, Undisturbing, Resets], ?_, by decide +kernel⟩
  simp [beatMore, beatOps, looked, Beat.Prompt, Beat.run, Beat.step, Beat.caller, Beat.thread, Beat.init, Beat.threadRests, Beat.callRests, BeatTh.woken]

/-- Asleep when keepalive is switched off. -/
example : (Beat.init.run (looked 5 ++ [.thread])).th = .blocked 5 5 ∧ (Beat.init.run (looked 5 ++ [.thread])).call = .idle ∧
    (Beat.init.run (looked 5 ++ [.thread] ++ [.setOff, .caller, .caller, .thread, .thread])).call = .join true ∧
    (Beat.init.run (looked 5 ++ [.thread] ++ [.setOff, .caller, .caller, .thread, .thread, .caller])).th = .none := by decide +kernel

/-- An endless execution in which everybody has their turn. -/
example : FairBeat (fun n => match n % 4 with | 0 => .thread | 1 => .caller | 2 => .tick | _ => .result false false) := by
  constructor <;> intro n
  · exact ⟨4 * n, by omega, by simp [Nat.mul_mod_right]⟩
  · exact ⟨4 * n + 1, by omega, by simp [Nat.add_mod]⟩
  · exact ⟨4 * n + 2, by omega, by simp [Nat.add_mod]⟩
  · exact ⟨4 * n + 3, by omega, false, false, by simp [Nat.add_mod]⟩

end Verif
