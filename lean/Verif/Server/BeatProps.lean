import Verif.Server.Beat

/-!
C112: keepalives come one interval apart, and switching keepalive off silences it.
-/

namespace Verif
open Server

/-! ### Specification -/

/-- Each number is at least `d` more than the one before. -/
def Apart (d : Nat) : List Nat → Prop
  | a :: b :: l => a + d ≤ b ∧ Apart d (b :: l)
  | _ => True

/-- The call or callback changes the interval. -/
def Resets : BeatOp → Prop
  | .setOn _ => True
  | .setOff => True
  | .selfOn _ => True
  | .selfOff => True
  | _ => False

/-- It switches keepalive on. -/
def SwitchesOn : BeatOp → Prop
  | .setOn _ => True
  | .selfOn _ => True
  | _ => False

/-- It switches keepalive off or stops the server, from outside. -/
def SwitchesOff : BeatOp → Prop
  | .setOff => True
  | .halt => True
  | _ => False

/-- The times `a + d`, `a + 2 d`, … , `a + k d`. -/
def multiples (a d : Nat) : Nat → List Nat
  | 0 => []
  | k + 1 => multiples a d k ++ [a + (k + 1) * d]

/-! ### Lemmas -/

theorem beat_append (s : Beat) (a b : List BeatOp) : s.run (a ++ b) = (s.run a).run b := by simp [Beat.run, List.foldl_append]

theorem apart_snoc {d : Nat} : ∀ {l : List Nat} {a b : Nat}, Apart d (l ++ [a]) → a + d ≤ b → Apart d (l ++ [a, b])
  | [], _, _, _, h => ⟨h, trivial⟩
  | [x], a, b, h, hb => ⟨h.1, hb, trivial⟩
  | x :: y :: l, a, b, h, hb => ⟨h.1, apart_snoc (l := y :: l) h.2 hb⟩

theorem prompt_append (s : Beat) (a b : List BeatOp) : s.Prompt (a ++ b) ↔ s.Prompt a ∧ (s.run a).Prompt b := by
  induction a generalizing s with
  | nil => simp [Beat.Prompt, Beat.run]
  | cons op a ih => simp only [List.cons_append, Beat.Prompt, ih, Beat.run, List.foldl_cons, and_assoc]

/-- What holds in every execution. -/
structure BeatInv (s : Beat) : Prop where
  /-- the waits -/
  wait : ∀ d u, s.th = .test d u ∨ s.th = .decided d u ∨ s.th = .blocked d u → 0 < d ∧ u ≤ s.now + d
  got : ∀ d, s.th = .got d → 0 < d
  /-- the thread to be joined is there -/
  there : ∀ r, s.call = .flag r ∨ s.call = .notify r ∨ s.call = .join r → s.th ≠ .none
  raised : ∀ r, s.call = .notify r ∨ s.call = .join r → s.stop = true
  off : ∀ r, s.call = .flag r ∨ s.call = .notify r ∨ s.call = .join r → r = true → s.interval = 0
  /-- keepalive off and nobody about to join the thread: it is on its way out -/
  silent : s.call = .idle → s.interval = 0 → s.th = .none ∨ s.th = .ended ∨ s.th = .top ∨ s.th = .read ∨ s.th.calling = true
  halted : s.call = .idle ∨ s.call = .on → s.stop = true → s.th = .none ∨ s.th = .ended ∨ s.th = .top ∨ s.th.calling = true
  on : s.call = .on → 0 < s.interval
  past : ∀ t ∈ s.sent, t ≤ s.now
  /-- the last keepalive -/
  last : s.th = .sending ∨ s.th.calling = true → s.sent ≠ []

theorem beatInv_init : BeatInv Beat.init := by
  constructor <;> simp [Beat.init, BeatTh.calling]

theorem woken_eq (t : BeatTh) : (∃ d u, t = .blocked d u ∧ t.woken = .test d u) ∨ t.woken = t := by
  cases t <;> simp [BeatTh.woken]

theorem beatInv_thread (s : Beat) (h : BeatInv s) : BeatInv s.thread := by
  obtain ⟨now, interval, stop, th, call, connected, sent⟩ := s
  obtain ⟨h1, h2, h3, h4, h5, h6, h6', h7, h8, h9⟩ := h
  dsimp only at *
  cases th with
  | live =>
    simp only [Beat.thread]
    split
    · constructor
      case past =>
        intro t ht
        simp only [List.mem_append, List.mem_singleton] at ht
        rcases ht with ht | rfl
        · exact h8 t ht
        · exact Nat.le_refl _
      case last => simp
      case silent => intro a b; have := h6 a b; simp [BeatTh.calling] at this
      case halted => intro a b; have := h6' a b; simp [BeatTh.calling] at this
      all_goals grind
    · constructor <;> grind [BeatTh.calling]
  | _ => simp only [Beat.thread] <;> (try split) <;> (constructor <;> grind [BeatTh.calling])

theorem beatInv_caller (s : Beat) (h : BeatInv s) : BeatInv s.caller := by
  obtain ⟨now, interval, stop, th, call, connected, sent⟩ := s
  obtain ⟨h1, h2, h3, h4, h5, h6, h6', h7, h8, h9⟩ := h
  dsimp only at *
  cases call <;> simp only [Beat.caller]
  · constructor <;> grind [BeatTh.calling]
  · split <;> rcases woken_eq th with ⟨d, u, e, e'⟩ | e' <;> (constructor <;> grind [BeatTh.calling])
  · constructor <;> grind [BeatTh.calling]
  · rcases woken_eq th with ⟨d, u, e, e'⟩ | e' <;> (constructor <;> grind [BeatTh.calling])
  · split <;> (constructor <;> grind [BeatTh.calling])

theorem beatInv_step (s : Beat) (op : BeatOp) (h : BeatInv s) : BeatInv (s.step op) := by
  cases op with
  | thread => exact beatInv_thread s h
  | caller => exact beatInv_caller s h
  | _ =>
    obtain ⟨now, interval, stop, th, call, connected, sent⟩ := s
    obtain ⟨h1, h2, h3, h4, h5, h6, h6', h7, h8, h9⟩ := h
    dsimp only at *
    rcases woken_eq th with ⟨d, u, e, e'⟩ | e' <;> simp only [Beat.step, Beat.haltBy] <;> (try split) <;> (try split) <;> (constructor <;> grind [BeatTh.calling])

theorem beatInv_run (s : Beat) (ops : List BeatOp) (h : BeatInv s) : BeatInv (s.run ops) := by
  induction ops generalizing s with
  | nil => exact h
  | cons op ops ih => exact ih _ (beatInv_step s op h)

/-- Keepalives between which nobody changes the interval; `L` is the moment from which the first is counted, `l ++ [M]` are `L` and those sent since. -/
structure Spaced (pre : List Nat) (L d : Nat) (s : Beat) : Prop where
  sent : ∃ added l M, s.sent = pre ++ added ∧ L :: added = l ++ [M] ∧ Apart d (l ++ [M]) ∧ M ≤ s.now ∧
    (∀ e u, s.th = .test e u ∨ s.th = .decided e u ∨ s.th = .blocked e u → e = d ∧ M + d ≤ u) ∧
    (s.th = .left → M + d ≤ s.now ∨ s.stop = true) ∧ (s.th = .past ∨ s.th = .live → M + d ≤ s.now)
  got : ∀ e, s.th = .got e → e = d
  interval : s.interval = d

theorem spaced_step {pre : List Nat} {L d : Nat} (s : Beat) (op : BeatOp) (hn : ¬ Resets op) (h : Spaced pre L d s) : Spaced pre L d (s.step op) := by
  obtain ⟨now, interval, stop, th, call, connected, sent⟩ := s
  obtain ⟨⟨added, l, M, h1, h2, h3, h4, h5, h6, h7⟩, hg, hi⟩ := h
  dsimp only at *
  cases op with
  | setOn d => exact absurd trivial hn
  | setOff => exact absurd trivial hn
  | selfOn d => exact absurd trivial hn
  | selfOff => exact absurd trivial hn
  | thread =>
    cases th with
    | live =>
      simp only [Beat.step, Beat.thread]
      split
      · refine ⟨⟨added ++ [now], l ++ [M], now, ?_, ?_, ?_, ?_, ?_, ?_, ?_⟩, ?_, hi⟩
        · simp [h1]
        · rw [← h2]; simp
        · simp only [List.append_assoc, List.singleton_append]
          exact apart_snoc h3 (h7 (.inr rfl))
        all_goals simp
      · refine ⟨⟨added, l, M, h1, h2, h3, h4, ?_, ?_, ?_⟩, ?_, hi⟩ <;> simp
    | _ =>
      simp only [Beat.step, Beat.thread]
      (try split) <;> (refine ⟨⟨added, l, M, h1, h2, h3, ?_, ?_, ?_, ?_⟩, ?_, ?_⟩ <;> dsimp only <;> grind)
  | caller =>
    rcases woken_eq th with ⟨e, u, e1, e2⟩ | e2 <;> cases call <;> simp only [Beat.step, Beat.caller] <;>
      (try split) <;> (refine ⟨⟨added, l, M, h1, h2, h3, ?_, ?_, ?_, ?_⟩, ?_, ?_⟩ <;> dsimp only <;> grind)
  | _ =>
    rcases woken_eq th with ⟨e, u, e1, e2⟩ | e2 <;> simp only [Beat.step, Beat.haltBy] <;>
      (try split) <;> (try split) <;> (refine ⟨⟨added, l, M, h1, h2, h3, ?_, ?_, ?_, ?_⟩, ?_, ?_⟩ <;> dsimp only <;> grind)

theorem spaced_run {pre : List Nat} {L d : Nat} (s : Beat) (ops : List BeatOp) (hn : ∀ op ∈ ops, ¬ Resets op) (h : Spaced pre L d s) :
    Spaced pre L d (s.run ops) := by
  induction ops generalizing s with
  | nil => exact h
  | cons op ops ih => exact ih _ (fun o ho => hn o (by simp [ho])) (spaced_step s op (hn op (by simp)) h)

/-! ### Theorems -/

/-- **C112.** Between two keepalives at least the interval passes, as long as nobody sets it anew: from a keepalive at time `t` on, however the thread
is scheduled and whatever stops are asked for. -/
theorem C112_apart (ops more : List BeatOp) (hs : (Beat.init.run ops).th = .sending) (hn : ∀ op ∈ more, ¬ Resets op) :
    ∃ pre t added, (Beat.init.run ops).sent = pre ++ [t] ∧ (Beat.init.run (ops ++ more)).sent = pre ++ t :: added ∧
      Apart (Beat.init.run ops).interval (t :: added) := by
  have hi := beatInv_run _ ops beatInv_init
  obtain ⟨pre, t, hp⟩ : ∃ pre t, (Beat.init.run ops).sent = pre ++ [t] :=
    ⟨_, _, (List.dropLast_concat_getLast (hi.last (.inl hs))).symm⟩
  have h0 : Spaced (pre ++ [t]) t (Beat.init.run ops).interval (Beat.init.run ops) := by
    refine ⟨⟨[], [], t, by simp [hp], rfl, trivial, hi.past t (by simp [hp]), ?_, ?_, ?_⟩, ?_, rfl⟩ <;> simp [hs]
  obtain ⟨⟨added, l, M, h1, h2, h3, -⟩, -, -⟩ := spaced_run _ more hn h0
  exact ⟨pre, t, added, hp, by rw [beat_append, h1]; simp, by rw [h2]; exact h3⟩

/-- **C112.** The first keepalive comes an interval after keepalive was switched on. -/
theorem C112_first (ops more : List BeatOp) (hs : (Beat.init.run ops).th = .none) (hc : (Beat.init.run ops).call = .idle) (d : Nat) (hd : 0 < d)
    (hn : ∀ op ∈ more, ¬ Resets op) :
    ∃ added, (Beat.init.run (ops ++ .setOn d :: more)).sent = (Beat.init.run ops).sent ++ added ∧ Apart d ((Beat.init.run ops).now :: added) := by
  have h0 : Spaced (Beat.init.run ops).sent (Beat.init.run ops).now d ((Beat.init.run ops).step (.setOn d)) := by
    simp only [Beat.step]
    rw [if_pos ⟨hc, hd⟩]
    refine ⟨⟨[], [], (Beat.init.run ops).now, by simp, rfl, trivial, Nat.le_refl _, ?_, ?_, ?_⟩, ?_, rfl⟩ <;> simp [hs]
  obtain ⟨⟨added, l, M, h1, h2, h3, -⟩, -, -⟩ := spaced_run _ more hn h0
  exact ⟨added, by rw [beat_append]; exact h1, by rw [h2]; exact h3⟩

end Verif
