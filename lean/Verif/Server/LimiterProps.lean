import Verif.Server.Notify

/-!
C31: the rate limit on log messages.
-/

set_option linter.unusedSectionVars false

namespace Verif

open Server

/-! ### Specification -/

/-- `h` ends with a window that was opened at `t0` (the first one at time 0) and in which the events `w` have happened so far. -/
inductive Window : List LimEv → Nat → List LimEv → Prop
  | first : Window [] 0 []
  | rolled (h : List LimEv) (t : Nat) : Window (h ++ [.rolled t]) t []
  | reset (h : List LimEv) (t : Nat) : Window (h ++ [.reset t]) t []
  | free {h t0 w} : Window h t0 w → Window (h ++ [.free]) t0 (w ++ [.free])
  | sent {h t0 w} (l t : Nat) : Window h t0 w → Window (h ++ [.sent l t]) t0 (w ++ [.sent l t])
  | throttled {h t0 w} (l t : Nat) : Window h t0 w → Window (h ++ [.throttled l t]) t0 (w ++ [.throttled l t])

def isSent : LimEv → Bool
  | .sent _ _ => true
  | _ => false

/-- The number of messages the limiter let through. -/
def admitted (w : List LimEv) : Nat := (w.filter isSent).length

/-- The times of the messages the limiter let through. -/
def sentTimes (h : List LimEv) : List Nat := h.filterMap (fun e => match e with | .sent _ t => some t | _ => none)

/-- The times of a step, if it has one. -/
def timeOf : LimOp → Option Nat
  | .enter _ t => some t
  | .reset t => some t
  | _ => none

/-- The clock does not go back (it is read while the mutex is held). -/
def Ticking (ops : List LimOp) : Prop := (ops.filterMap timeOf).Pairwise (· ≤ ·)

/-! ### The invariant -/

/-- The counter counts the current window, and every decision so far was right. -/
structure LimOk (s : Limiter) : Prop where
  win : ∃ w, Window s.hist s.start w ∧ admitted w = s.count
  sent : ∀ pre l t post, s.hist = pre ++ .sent l t :: post → ∃ t0 w, Window pre t0 w ∧ admitted w < l ∧ t < t0 + second
  throttled : ∀ pre l t post, s.hist = pre ++ .throttled l t :: post → ∃ t0 w, Window pre t0 w ∧ l ≤ admitted w ∧ t < t0 + second
  rolled : ∀ pre t post, s.hist = pre ++ .rolled t :: post → ∃ t0 w, Window pre t0 w ∧ t0 + second ≤ t

theorem hist_last {A : Type} {h pre post : List A} {e x : A} (hx : h ++ [e] = pre ++ x :: post) :
    (pre = h ∧ x = e) ∨ ∃ post', h = pre ++ x :: post' := by
  rcases List.eq_nil_or_concat post with rfl | ⟨post', y, rfl⟩
  · obtain ⟨h0, hy⟩ := List.append_inj' (s₁ := h) (t₁ := [e]) (s₂ := pre) (t₂ := [x]) hx rfl
    simp only [List.cons.injEq, and_true] at hy
    exact .inl ⟨h0.symm, hy.symm⟩
  · have he' : h ++ [e] = (pre ++ x :: post') ++ [y] := by simpa using hx
    obtain ⟨h0, _⟩ := List.append_inj' he' rfl
    exact .inr ⟨post', h0⟩

theorem limOk_init : LimOk Limiter.init :=
  ⟨⟨[], .first, rfl⟩, fun _ _ _ _ h => absurd h (by simp [Limiter.init]), fun _ _ _ _ h => absurd h (by simp [Limiter.init]),
    fun _ _ _ h => absurd h (by simp [Limiter.init])⟩

theorem limOk_roll (s : Limiter) (now : Nat) (h : LimOk s) : LimOk (s.roll now) ∧ now < (s.roll now).start + second := by
  unfold Limiter.roll
  by_cases hc : s.start + second ≤ now
  · rw [if_pos hc]
    obtain ⟨⟨w, hw, hn⟩, h1, h2, h3⟩ := h
    refine ⟨⟨⟨[], .rolled _ _, rfl⟩, ?_, ?_, ?_⟩, by show now < now + second; unfold second; omega⟩
    · intro pre l t post hx
      rcases hist_last hx with ⟨_, he⟩ | ⟨post', he⟩
      · exact absurd he (by simp)
      · exact h1 _ _ _ _ he
    · intro pre l t post hx
      rcases hist_last hx with ⟨_, he⟩ | ⟨post', he⟩
      · exact absurd he (by simp)
      · exact h2 _ _ _ _ he
    · intro pre t post hx
      rcases hist_last hx with ⟨rfl, he⟩ | ⟨post', he⟩
      · simp only [LimEv.rolled.injEq] at he
        subst he
        exact ⟨s.start, w, hw, hc⟩
      · exact h3 _ _ _ he
  · rw [if_neg hc]
    exact ⟨h, by omega⟩

theorem limOk_admit (s : Limiter) (l now : Nat) (h : LimOk s) (ht : now < s.start + second) : LimOk (s.admit l now) := by
  unfold Limiter.admit
  obtain ⟨⟨w, hw, hn⟩, h1, h2, h3⟩ := h
  by_cases hc : l ≤ s.count
  · rw [if_pos hc]
    refine ⟨⟨w ++ [.throttled l now], hw.throttled l now, ?_⟩, ?_, ?_, ?_⟩
    · show admitted _ = s.count
      rw [← hn]; simp [admitted, isSent]
    · intro pre l' t post hx
      rcases hist_last hx with ⟨_, he⟩ | ⟨post', he⟩
      · exact absurd he (by simp)
      · exact h1 _ _ _ _ he
    · intro pre l' t post hx
      rcases hist_last hx with ⟨rfl, he⟩ | ⟨post', he⟩
      · simp only [LimEv.throttled.injEq] at he
        obtain ⟨rfl, rfl⟩ := he
        exact ⟨s.start, w, hw, by omega, ht⟩
      · exact h2 _ _ _ _ he
    · intro pre t post hx
      rcases hist_last hx with ⟨_, he⟩ | ⟨post', he⟩
      · exact absurd he (by simp)
      · exact h3 _ _ _ he
  · rw [if_neg hc]
    refine ⟨⟨w ++ [.sent l now], hw.sent l now, ?_⟩, ?_, ?_, ?_⟩
    · show admitted _ = s.count + 1
      rw [← hn]; simp [admitted, isSent, List.filter_cons]
    · intro pre l' t post hx
      rcases hist_last hx with ⟨rfl, he⟩ | ⟨post', he⟩
      · simp only [LimEv.sent.injEq] at he
        obtain ⟨rfl, rfl⟩ := he
        exact ⟨s.start, w, hw, by omega, ht⟩
      · exact h1 _ _ _ _ he
    · intro pre l' t post hx
      rcases hist_last hx with ⟨_, he⟩ | ⟨post', he⟩
      · exact absurd he (by simp)
      · exact h2 _ _ _ _ he
    · intro pre t post hx
      rcases hist_last hx with ⟨_, he⟩ | ⟨post', he⟩
      · exact absurd he (by simp)
      · exact h3 _ _ _ he

theorem limOk_step (s : Limiter) (op : LimOp) (h : LimOk s) : LimOk (s.step op) := by
  cases op with
  | load =>
    unfold Limiter.step
    by_cases hc : s.limit = 0
    · simp only [if_pos hc]
      obtain ⟨⟨w, hw, hn⟩, h1, h2, h3⟩ := h
      refine ⟨⟨w ++ [.free], hw.free, ?_⟩, ?_, ?_, ?_⟩
      · show admitted _ = s.count
        rw [← hn]; simp [admitted, isSent]
      · intro pre l' t post hx
        rcases hist_last hx with ⟨_, he⟩ | ⟨post', he⟩
        · exact absurd he (by simp)
        · exact h1 _ _ _ _ he
      · intro pre l' t post hx
        rcases hist_last hx with ⟨_, he⟩ | ⟨post', he⟩
        · exact absurd he (by simp)
        · exact h2 _ _ _ _ he
      · intro pre t post hx
        rcases hist_last hx with ⟨_, he⟩ | ⟨post', he⟩
        · exact absurd he (by simp)
        · exact h3 _ _ _ he
    · simp only [if_neg hc]
      exact ⟨h.win, h.sent, h.throttled, h.rolled⟩
  | enter k now =>
    cases hk : s.loaded[k]? with
    | none =>
      have : s.step (.enter k now) = s := by simp [Limiter.step, hk]
      rw [this]; exact h
    | some n =>
      have : s.step (.enter k now) = ({ s with loaded := s.loaded.eraseIdx k }.roll now).admit n now := by simp [Limiter.step, hk]
      rw [this]
      have h' : LimOk { s with loaded := s.loaded.eraseIdx k } := ⟨h.win, h.sent, h.throttled, h.rolled⟩
      obtain ⟨a, b⟩ := limOk_roll _ now h'
      exact limOk_admit _ n now a b
  | store n => exact ⟨h.win, h.sent, h.throttled, h.rolled⟩
  | reset now =>
    obtain ⟨_, h1, h2, h3⟩ := h
    refine ⟨⟨[], .reset _ _, rfl⟩, ?_, ?_, ?_⟩
    · intro pre l' t post hx
      rcases hist_last hx with ⟨_, he⟩ | ⟨post', he⟩
      · exact absurd he (by simp)
      · exact h1 _ _ _ _ he
    · intro pre l' t post hx
      rcases hist_last hx with ⟨_, he⟩ | ⟨post', he⟩
      · exact absurd he (by simp)
      · exact h2 _ _ _ _ he
    · intro pre t post hx
      rcases hist_last hx with ⟨_, he⟩ | ⟨post', he⟩
      · exact absurd he (by simp)
      · exact h3 _ _ _ he

theorem limOk_run (ops : List LimOp) (s : Limiter) (h : LimOk s) : LimOk (s.run ops) := by
  unfold Limiter.run
  induction ops generalizing s with
  | nil => exact h
  | cons o t ih => exact ih _ (limOk_step s o h)

/-- **C31.** Whatever the interleaving of log calls and limit changes: a message is let through only if fewer messages than its limit
have been let through in the current window, it is suppressed only if at least as many as its limit have been, and both happen within a
second of the start of that window; a window is given up by itself only when it is a second old. -/
theorem C31_decisions (ops : List LimOp) :
    (∀ pre l t post, (Limiter.init.run ops).hist = pre ++ .sent l t :: post →
      ∃ t0 w, Window pre t0 w ∧ admitted w < l ∧ t < t0 + second) ∧
    (∀ pre l t post, (Limiter.init.run ops).hist = pre ++ .throttled l t :: post →
      ∃ t0 w, Window pre t0 w ∧ l ≤ admitted w ∧ t < t0 + second) ∧
    (∀ pre t post, (Limiter.init.run ops).hist = pre ++ .rolled t :: post → ∃ t0 w, Window pre t0 w ∧ t0 + second ≤ t) :=
  let h := limOk_run ops _ limOk_init
  ⟨h.sent, h.throttled, h.rolled⟩

/-- Two messages in a second, limit one. -/
example : (Limiter.init.run [.store 1, .reset 5, .load, .load, .enter 1 7, .enter 0 8]).hist =
    [.reset 5, .sent 1 7, .throttled 1 8] := by decide +kernel

theorem window_prefix {h t0 w} (hw : Window h t0 w) : ∃ p, h = p ++ w := by
  induction hw with
  | first => exact ⟨[], rfl⟩
  | rolled h t => exact ⟨_, (List.append_nil _).symm⟩
  | reset h t => exact ⟨_, (List.append_nil _).symm⟩
  | free _ ih => obtain ⟨p, rfl⟩ := ih; exact ⟨p, by simp⟩
  | sent l t _ ih => obtain ⟨p, rfl⟩ := ih; exact ⟨p, by simp⟩
  | throttled l t _ ih => obtain ⟨p, rfl⟩ := ih; exact ⟨p, by simp⟩

theorem window_unique {h t0 w} (hw : Window h t0 w) : ∀ {t1 w'}, Window h t1 w' → t1 = t0 ∧ w' = w := by
  induction hw with
  | first =>
    intro t1 w' hv
    generalize hx : ([] : List LimEv) = x at hv
    cases hv with
    | first => exact ⟨rfl, rfl⟩
    | _ => exact absurd hx (by simp)
  | rolled h t =>
    intro t1 w' hv
    generalize hx : h ++ [LimEv.rolled t] = x at hv
    cases hv with
    | first => exact absurd hx (by simp)
    | rolled h' t' =>
      have := (List.append_inj' hx rfl).2
      simp only [List.cons.injEq, LimEv.rolled.injEq, and_true] at this
      exact ⟨this.symm, rfl⟩
    | reset h' t' => exact absurd (List.append_inj' hx rfl).2 (by simp)
    | free _ => exact absurd (List.append_inj' hx rfl).2 (by simp)
    | sent _ _ _ => exact absurd (List.append_inj' hx rfl).2 (by simp)
    | throttled _ _ _ => exact absurd (List.append_inj' hx rfl).2 (by simp)
  | reset h t =>
    intro t1 w' hv
    generalize hx : h ++ [LimEv.reset t] = x at hv
    cases hv with
    | first => exact absurd hx (by simp)
    | reset h' t' =>
      have := (List.append_inj' hx rfl).2
      simp only [List.cons.injEq, LimEv.reset.injEq, and_true] at this
      exact ⟨this.symm, rfl⟩
    | rolled h' t' => exact absurd (List.append_inj' hx rfl).2 (by simp)
    | free _ => exact absurd (List.append_inj' hx rfl).2 (by simp)
    | sent _ _ _ => exact absurd (List.append_inj' hx rfl).2 (by simp)
    | throttled _ _ _ => exact absurd (List.append_inj' hx rfl).2 (by simp)
  | free hw ih =>
    rename_i h0 a0 w0
    intro t1 w' hv
    generalize hx : h0 ++ [LimEv.free] = x at hv
    cases hv with
    | first => exact absurd hx (by simp)
    | free hv' =>
      obtain ⟨rfl, _⟩ := List.append_inj' hx rfl
      obtain ⟨rfl, rfl⟩ := ih hv'
      exact ⟨rfl, rfl⟩
    | rolled _ _ => exact absurd (List.append_inj' hx rfl).2 (by simp)
    | reset _ _ => exact absurd (List.append_inj' hx rfl).2 (by simp)
    | sent _ _ _ => exact absurd (List.append_inj' hx rfl).2 (by simp)
    | throttled _ _ _ => exact absurd (List.append_inj' hx rfl).2 (by simp)
  | sent l t hw ih =>
    rename_i h0 a0 w0
    intro t1 w' hv
    generalize hx : h0 ++ [LimEv.sent l t] = x at hv
    cases hv with
    | first => exact absurd hx (by simp)
    | sent l' t' hv' =>
      obtain ⟨rfl, hy⟩ := List.append_inj' hx rfl
      obtain ⟨rfl, rfl⟩ := ih hv'
      simp only [List.cons.injEq, LimEv.sent.injEq, and_true] at hy
      obtain ⟨rfl, rfl⟩ := hy
      exact ⟨rfl, rfl⟩
    | rolled _ _ => exact absurd (List.append_inj' hx rfl).2 (by simp)
    | reset _ _ => exact absurd (List.append_inj' hx rfl).2 (by simp)
    | free _ => exact absurd (List.append_inj' hx rfl).2 (by simp)
    | throttled _ _ _ => exact absurd (List.append_inj' hx rfl).2 (by simp)
  | throttled l t hw ih =>
    rename_i h0 a0 w0
    intro t1 w' hv
    generalize hx : h0 ++ [LimEv.throttled l t] = x at hv
    cases hv with
    | first => exact absurd hx (by simp)
    | throttled l' t' hv' =>
      obtain ⟨rfl, hy⟩ := List.append_inj' hx rfl
      obtain ⟨rfl, rfl⟩ := ih hv'
      simp only [List.cons.injEq, LimEv.throttled.injEq, and_true] at hy
      obtain ⟨rfl, rfl⟩ := hy
      exact ⟨rfl, rfl⟩
    | rolled _ _ => exact absurd (List.append_inj' hx rfl).2 (by simp)
    | reset _ _ => exact absurd (List.append_inj' hx rfl).2 (by simp)
    | free _ => exact absurd (List.append_inj' hx rfl).2 (by simp)
    | sent _ _ _ => exact absurd (List.append_inj' hx rfl).2 (by simp)

theorem window_admitted {h t0 w} (hw : Window h t0 w) (N : Nat)
    (hd : ∀ pre l t post, h = pre ++ .sent l t :: post → ∃ t0 w, Window pre t0 w ∧ admitted w < l ∧ t < t0 + second)
    (hN : ∀ l t, .sent l t ∈ w → l ≤ N) : admitted w ≤ N := by
  induction hw with
  | first => exact Nat.zero_le _
  | rolled h t => exact Nat.zero_le _
  | reset h t => exact Nat.zero_le _
  | free hw ih =>
    have := ih (fun pre l t post hx => hd pre l t (post ++ [.free]) (by simp [hx])) (fun l t hm => hN l t (by simp [hm]))
    simpa [admitted, isSent] using this
  | throttled l0 t0 hw ih =>
    have := ih (fun pre l t post hx => hd pre l t (post ++ [.throttled l0 t0]) (by simp [hx])) (fun l t hm => hN l t (by simp [hm]))
    simpa [admitted, isSent] using this
  | sent l0 t0 hw ih =>
    obtain ⟨t1, w1, hw1, hlt, _⟩ := hd _ l0 t0 [] rfl
    obtain ⟨_, rfl⟩ := window_unique hw hw1
    have := hN l0 t0 (by simp)
    have e : admitted (w1 ++ [LimEv.sent l0 t0]) = admitted w1 + 1 := by simp [admitted, isSent, List.filter_cons]
    rw [e]
    omega

/-- **C31.** At any moment: if all messages let through in the current window had a limit of at most `N`, there are at most `N` of
them. -/
theorem C31_window_bound (ops : List LimOp) (N t0 : Nat) (w : List LimEv) (hw : Window (Limiter.init.run ops).hist t0 w)
    (hN : ∀ l t, .sent l t ∈ w → l ≤ N) : admitted w ≤ N :=
  window_admitted hw N (C31_decisions ops).1 hN

example : Window (Limiter.init.run [.store 1, .reset 5, .load, .enter 0 7]).hist 5 [.sent 1 7] := by
  have : (Limiter.init.run [.store 1, .reset 5, .load, .enter 0 7]).hist = [LimEv.reset 5] ++ [.sent 1 7] := by decide +kernel
  rw [this]
  exact Window.sent 1 7 (Window.reset [] 5)

/-- The limit of the last `SetLoggingRateLimitPerSecond` (0 at first). -/
def InForce : List LimOp → Nat
  | [] => 0
  | op :: rest => if rest.any (fun o => match o with | .store _ => true | _ => false) then InForce rest else
      match op with | .store n => n | _ => InForce rest

theorem inForce_snoc (ops : List LimOp) (op : LimOp) : InForce (ops ++ [op]) = match op with | .store n => n | _ => InForce ops := by
  induction ops with
  | nil => cases op <;> rfl
  | cons o t ih =>
    show InForce (o :: (t ++ [op])) = _
    unfold InForce
    cases op with
    | store n => simp [ih]
    | load => simp [ih]
    | enter k t => simp [ih]
    | reset t => simp [ih]

theorem limit_run (ops : List LimOp) : (Limiter.init.run ops).limit = InForce ops := by
  induction h : ops.reverse generalizing ops with
  | nil =>
    have : ops = [] := by simpa using h
    subst this
    rfl
  | cons op t ih =>
    have ho : ops = t.reverse ++ [op] := by
      have := congrArg List.reverse h
      simpa using this
    subst ho
    have hi := ih t.reverse (by simp)
    rw [inForce_snoc]
    have hr : Limiter.init.run (t.reverse ++ [op]) = (Limiter.init.run t.reverse).step op := by simp [Limiter.run, List.foldl_append]
    rw [hr]
    cases op with
    | store n => rfl
    | reset now => exact hi
    | load =>
      rw [← hi]
      unfold Limiter.step
      simp only
      split <;> rfl
    | enter k now =>
      rw [← hi]
      unfold Limiter.step
      simp only
      cases (Limiter.init.run t.reverse).loaded[k]? with
      | none => rfl
      | some n =>
        simp only [Limiter.admit, Limiter.roll]
        split <;> split <;> rfl

/-- **C31.** A message is checked against the limit in force when it is logged; without a limit it is sent at once. -/
theorem C31_in_force (ops : List LimOp) :
    (InForce ops = 0 → (Limiter.init.run (ops ++ [.load])).hist = (Limiter.init.run ops).hist ++ [.free]) ∧
    (InForce ops ≠ 0 → ∀ now, ∃ k : Nat, (Limiter.init.run (ops ++ [.load, .enter k now])).hist ≠ (Limiter.init.run ops).hist ∧
      ∃ pre, (Limiter.init.run (ops ++ [.load, .enter k now])).hist = pre ++ [.sent (InForce ops) now] ∨
        (Limiter.init.run (ops ++ [.load, .enter k now])).hist = pre ++ [.throttled (InForce ops) now]) := by
  have hr : Limiter.init.run (ops ++ [.load]) = (Limiter.init.run ops).step .load := by simp [Limiter.run, List.foldl_append]
  rw [hr]
  have hl := limit_run ops
  constructor
  · intro h0
    unfold Limiter.step
    rw [if_pos (by rw [hl]; exact h0)]
  · intro h0 now
    have hs : (Limiter.init.run ops).step .load =
        { Limiter.init.run ops with loaded := (Limiter.init.run ops).loaded ++ [(Limiter.init.run ops).limit] } := by
      unfold Limiter.step
      rw [if_neg (by rw [hl]; exact h0)]
    have hr2 : ∀ k, Limiter.init.run (ops ++ [.load, .enter k now]) = ((Limiter.init.run ops).step .load).step (.enter k now) := by
      intro k
      simp [Limiter.run, List.foldl_append]
    refine ⟨(Limiter.init.run ops).loaded.length, ?_⟩
    rw [hr2, hs, ← hl]
    have hk : ((Limiter.init.run ops).loaded ++ [(Limiter.init.run ops).limit])[(Limiter.init.run ops).loaded.length]? =
        some (Limiter.init.run ops).limit := by simp
    generalize Limiter.init.run ops = s at hk ⊢
    simp only [Limiter.step, hk]
    generalize hq : ({ limit := s.limit, start := s.start, count := s.count, loaded := (s.loaded ++ [s.limit]).eraseIdx s.loaded.length, hist := s.hist } : Limiter) = q
    have hqh : q.hist = s.hist := by rw [← hq]
    have hroll : ∃ x, (q.roll now).hist = s.hist ++ x := by
      unfold Limiter.roll
      split
      · exact ⟨_, by rw [← hqh]⟩
      · exact ⟨[], by rw [hqh]; simp⟩
    obtain ⟨x, hx⟩ := hroll
    unfold Limiter.admit
    split
    · refine ⟨?_, _, .inr rfl⟩
      simp [hx]
    · refine ⟨?_, _, .inl rfl⟩
      simp [hx]

example : InForce [.store 3, .load, .store 2, .reset 7] = 2 := rfl

/-! ### At most twice the limit in any second -/

/-- Log calls only; the limit is left alone. -/
def CallsOnly (ops : List LimOp) : Prop := ∀ op ∈ ops, (∃ k t, op = .enter k t) ∨ op = .load

/-- Bookkeeping: messages with the number of their window. -/
structure Paced (N : Nat) (s : Limiter) (clock cur : Nat) (m : List (Nat × Nat)) : Prop where
  times : m.map (·.2) = sentTimes s.hist
  limit : s.limit = N
  loaded : ∀ l ∈ s.loaded, l = N
  count : s.count ≤ N
  start : s.start ≤ clock
  inTime : ∀ p ∈ m, p.2 ≤ clock
  before : ∀ p ∈ m, p.1 < cur → p.2 ≤ s.start
  long : ∀ p ∈ m, p.1 + 1 < cur → p.2 + second ≤ s.start
  upto : ∀ p ∈ m, p.1 ≤ cur
  here : (m.filter (fun p => p.1 = cur)).length = s.count
  each : ∀ j, (m.filter (fun p => p.1 = j)).length ≤ N
  apart : m.Pairwise (fun p q => p.1 ≤ q.1 ∧ (p.1 + 1 < q.1 → p.2 + second ≤ q.2))

theorem sentTimes_snoc (h : List LimEv) (e : LimEv) :
    sentTimes (h ++ [e]) = sentTimes h ++ (match e with | .sent _ t => [t] | _ => []) := by
  unfold sentTimes
  rw [List.filterMap_append]
  cases e <;> rfl

theorem paced_roll {N : Nat} {s : Limiter} {clock cur : Nat} {m : List (Nat × Nat)} (h : Paced N s clock cur m) (now : Nat)
    (hn : clock ≤ now) : ∃ cur', Paced N (s.roll now) now cur' m := by
  unfold Limiter.roll
  by_cases hc : s.start + second ≤ now
  · rw [if_pos hc]
    refine ⟨cur + 1, ?_, h.limit, h.loaded, Nat.zero_le _, Nat.le_refl _, fun p hp => Nat.le_trans (h.inTime p hp) hn,
      fun p hp _ => Nat.le_trans (h.inTime p hp) hn, fun p hp hlt => ?_, fun p hp => Nat.le_succ_of_le (h.upto p hp), ?_, h.each, h.apart⟩
    · show _ = sentTimes (s.hist ++ [.rolled now])
      rw [sentTimes_snoc, h.times]
      simp
    · show p.2 + second ≤ now
      have := h.before p hp (by omega)
      omega
    · show (m.filter (fun p => p.1 = cur + 1)).length = 0
      rw [List.length_eq_zero_iff, List.filter_eq_nil_iff]
      intro p hp
      have := h.upto p hp
      simp only [decide_eq_true_eq]
      omega
  · rw [if_neg hc]
    exact ⟨cur, h.times, h.limit, h.loaded, h.count, Nat.le_trans h.start hn, fun p hp => Nat.le_trans (h.inTime p hp) hn, h.before, h.long,
      h.upto, h.here, h.each, h.apart⟩

theorem paced_admit {N : Nat} {s : Limiter} {clock cur : Nat} {m : List (Nat × Nat)} (h : Paced N s clock cur m) :
    ∃ m', Paced N (s.admit N clock) clock cur m' := by
  unfold Limiter.admit
  by_cases hc : N ≤ s.count
  · rw [if_pos hc]
    refine ⟨m, ?_, h.limit, h.loaded, h.count, h.start, h.inTime, h.before, h.long, h.upto, h.here, h.each, h.apart⟩
    show _ = sentTimes (s.hist ++ [.throttled N clock])
    rw [sentTimes_snoc, h.times]
    simp
  · rw [if_neg hc]
    refine ⟨m ++ [(cur, clock)], ?_, h.limit, h.loaded, ?_, h.start, ?_, ?_, ?_, ?_, ?_, ?_, ?_⟩
    · show _ = sentTimes (s.hist ++ [.sent N clock])
      rw [sentTimes_snoc, List.map_append, h.times]
      rfl
    · show s.count + 1 ≤ N
      omega
    · intro p hp
      rcases List.mem_append.1 hp with hp | hp
      · exact h.inTime p hp
      · simp only [List.mem_singleton] at hp; subst hp; exact Nat.le_refl _
    · intro p hp hlt
      rcases List.mem_append.1 hp with hp | hp
      · exact h.before p hp hlt
      · simp only [List.mem_singleton] at hp; subst hp; exact absurd hlt (Nat.lt_irrefl _)
    · intro p hp hlt
      rcases List.mem_append.1 hp with hp | hp
      · exact h.long p hp hlt
      · simp only [List.mem_singleton] at hp; subst hp; simp only at hlt; omega
    · intro p hp
      rcases List.mem_append.1 hp with hp | hp
      · exact h.upto p hp
      · simp only [List.mem_singleton] at hp; subst hp; exact Nat.le_refl _
    · show ((m ++ [(cur, clock)]).filter (fun p => p.1 = cur)).length = s.count + 1
      rw [List.filter_append, List.length_append, h.here]
      simp
    · intro j
      rw [List.filter_append, List.length_append]
      by_cases hj : cur = j
      · subst hj
        rw [h.here]
        simp only [decide_true, List.filter_cons_of_pos, List.filter_nil, List.length_cons, List.length_nil]
        omega
      · have := h.each j
        simp [hj]
        exact this
    · rw [List.pairwise_append]
      refine ⟨h.apart, List.pairwise_singleton _ _, fun p hp q hq => ?_⟩
      simp only [List.mem_singleton] at hq
      subst hq
      refine ⟨h.upto p hp, fun hlt => ?_⟩
      have := h.long p hp hlt
      have := h.start
      show p.2 + second ≤ clock
      omega

theorem paced_run {N : Nat} (hN : 0 < N) (ops : List LimOp) :
    ∀ (s : Limiter) (clock cur : Nat) (m : List (Nat × Nat)), Paced N s clock cur m → CallsOnly ops → Ticking ops →
      (∀ t ∈ ops.filterMap timeOf, clock ≤ t) → ∃ clock' cur' m', Paced N (s.run ops) clock' cur' m' := by
  induction ops with
  | nil => exact fun s clock cur m h _ _ _ => ⟨clock, cur, m, h⟩
  | cons op rest ih =>
    intro s clock cur m h hc ht hge
    have hc' : CallsOnly rest := fun o ho => hc o (by simp [ho])
    rcases hc op (by simp) with ⟨k, now, rfl⟩ | rfl
    · have ht' : Ticking rest := by
        unfold Ticking at ht ⊢
        simp only [List.filterMap_cons, timeOf] at ht
        exact (List.pairwise_cons.1 ht).2
      have hnow : clock ≤ now := hge now (by simp [timeOf])
      have hge' : ∀ t ∈ rest.filterMap timeOf, now ≤ t := by
        unfold Ticking at ht
        simp only [List.filterMap_cons, timeOf] at ht
        exact (List.pairwise_cons.1 ht).1
      cases hk : s.loaded[k]? with
      | none =>
        have e : s.step (.enter k now) = s := by simp [Limiter.step, hk]
        show ∃ clock' cur' m', Paced N ((s.step (.enter k now)).run rest) clock' cur' m'
        rw [e]
        exact ih s now cur m ⟨h.times, h.limit, h.loaded, h.count, Nat.le_trans h.start hnow, fun p hp => Nat.le_trans (h.inTime p hp) hnow,
          h.before, h.long, h.upto, h.here, h.each, h.apart⟩ hc' ht' hge'
      | some n =>
        have hn : n = N := h.loaded n (List.mem_of_getElem? hk)
        subst hn
        have e : s.step (.enter k now) = ({ s with loaded := s.loaded.eraseIdx k }.roll now).admit n now := by simp [Limiter.step, hk]
        have h1 : Paced n { s with loaded := s.loaded.eraseIdx k } clock cur m :=
          ⟨h.times, h.limit, fun l hl => h.loaded l (List.mem_of_mem_eraseIdx hl), h.count, h.start, h.inTime, h.before, h.long, h.upto, h.here,
            h.each, h.apart⟩
        obtain ⟨cur', h2⟩ := paced_roll h1 now hnow
        obtain ⟨m', h3⟩ := paced_admit h2
        show ∃ clock' cur' m', Paced n ((s.step (.enter k now)).run rest) clock' cur' m'
        rw [e]
        exact ih _ now cur' m' h3 hc' ht' hge'
    · have e : s.step .load = { s with loaded := s.loaded ++ [s.limit] } := by
        have : s.limit ≠ 0 := by rw [h.limit]; omega
        simp [Limiter.step, this]
      show ∃ clock' cur' m', Paced N ((s.step .load).run rest) clock' cur' m'
      rw [e]
      refine ih _ clock cur m ⟨h.times, h.limit, fun l hl => ?_, h.count, h.start, h.inTime, h.before, h.long, h.upto, h.here, h.each, h.apart⟩ hc'
        ht hge
      rcases List.mem_append.1 hl with hl | hl
      · exact h.loaded l hl
      · simp only [List.mem_singleton] at hl; rw [hl]; exact h.limit

theorem two_windows {N : Nat} (m : List (Nat × Nat)) (he : ∀ j, (m.filter (fun p => p.1 = j)).length ≤ N)
    (hp : m.Pairwise (fun p q => p.1 ≤ q.1 ∧ (p.1 + 1 < q.1 → p.2 + second ≤ q.2))) (a : Nat) :
    (m.filter (fun p => a ≤ p.2 ∧ p.2 < a + second)).length ≤ 2 * N := by
  have hs : (m.filter (fun p => a ≤ p.2 ∧ p.2 < a + second)).Pairwise (fun p q => p.1 ≤ q.1 ∧ (p.1 + 1 < q.1 → p.2 + second ≤ q.2)) :=
    hp.sublist List.filter_sublist
  have hin : ∀ p ∈ m.filter (fun p => a ≤ p.2 ∧ p.2 < a + second), a ≤ p.2 ∧ p.2 < a + second := fun p hp => by
    have := (List.mem_filter.1 hp).2
    simpa using this
  have hsub : (m.filter (fun p => a ≤ p.2 ∧ p.2 < a + second)).Sublist m := List.filter_sublist
  generalize m.filter (fun p => a ≤ p.2 ∧ p.2 < a + second) = f at hs hin hsub
  cases f with
  | nil => simp
  | cons p rest =>
    have hall : ∀ q ∈ p :: rest, q.1 = p.1 ∨ q.1 = p.1 + 1 := by
      intro q hq
      rcases List.mem_cons.1 hq with rfl | hq
      · exact .inl rfl
      · obtain ⟨h1, h2⟩ := (List.pairwise_cons.1 hs).1 q hq
        have ha := hin p (by simp)
        have hb := hin q (by simp [hq])
        by_cases hx : p.1 + 1 < q.1
        · have := h2 hx; omega
        · omega
    have hlen : ∀ l : List (Nat × Nat), (∀ q ∈ l, q.1 = p.1 ∨ q.1 = p.1 + 1) →
        l.length = (l.filter (fun q => q.1 = p.1)).length + (l.filter (fun q => q.1 = p.1 + 1)).length := by
      intro l
      induction l with
      | nil => intro _; rfl
      | cons x t ih =>
        intro hl
        have := ih (fun q hq => hl q (by simp [hq]))
        rcases hl x (by simp) with hx | hx
        · simp [hx]; omega
        · simp [hx]; omega
    have h1 := (hsub.filter (fun q => q.1 = p.1)).length_le
    have h2 := (hsub.filter (fun q => q.1 = p.1 + 1)).length_le
    have h3 := he p.1
    have h4 := he (p.1 + 1)
    have h5 := hlen _ hall
    omega

/-- **C31.** After a limit of `N` was set at time `T`, in any second that follows at most `2 N` messages are let through, however the log
calls overlap. -/
theorem C31_twice (N T : Nat) (hN : 0 < N) (ops : List LimOp) (hc : CallsOnly ops) (ht : Ticking (.reset T :: ops)) (a : Nat) :
    ((sentTimes (Limiter.init.run ([.store N, .reset T] ++ ops)).hist).filter (fun t => a ≤ t ∧ t < a + second)).length ≤ 2 * N := by
  have h0 : Paced N (Limiter.init.run [.store N, .reset T]) T 0 [] :=
    ⟨rfl, rfl, by simp [Limiter.run, Limiter.step, Limiter.init], Nat.zero_le _, Nat.le_refl _, by simp, by simp, by simp, by simp, rfl,
      fun j => Nat.zero_le _, List.Pairwise.nil⟩
  have ht' : Ticking ops := by
    unfold Ticking at ht ⊢
    simp only [List.filterMap_cons, timeOf] at ht
    exact (List.pairwise_cons.1 ht).2
  have hge : ∀ t ∈ ops.filterMap timeOf, T ≤ t := by
    unfold Ticking at ht
    simp only [List.filterMap_cons, timeOf] at ht
    exact (List.pairwise_cons.1 ht).1
  obtain ⟨clock', cur', m', h⟩ := paced_run hN ops _ T 0 [] h0 hc ht' hge
  have hr : Limiter.init.run ([.store N, .reset T] ++ ops) = (Limiter.init.run [.store N, .reset T]).run ops := by
    simp [Limiter.run, List.foldl_append]
  rw [hr, ← h.times]
  have hf : ∀ l : List (Nat × Nat), ((l.map (·.2)).filter (fun t => a ≤ t ∧ t < a + second)).length =
      (l.filter (fun p => a ≤ p.2 ∧ p.2 < a + second)).length := by
    intro l
    rw [List.filter_map, List.length_map]
    rfl
  rw [hf]
  exact two_windows m' h.each h.apart a

example : CallsOnly [.load, .enter 0 7] ∧ Ticking (.reset 5 :: [.load, .enter 0 7]) :=
  ⟨fun op h => by
    simp only [List.mem_cons, List.not_mem_nil, or_false] at h
    rcases h with rfl | rfl
    · exact .inr rfl
    · exact .inl ⟨_, _, rfl⟩, by simp [Ticking, timeOf, List.filterMap_cons]⟩

/-- `n` log calls at time `t`, one after the other. -/
def burst (n t : Nat) : List LimOp := (List.replicate n [LimOp.load, LimOp.enter 0 t]).flatten

theorem burst_sent (n N t : Nat) (hN : 0 < N) : ∀ (s : Limiter), s.limit = N → s.loaded = [] → s.count + n ≤ N → t < s.start + second →
    sentTimes (s.run (burst n t)).hist = sentTimes s.hist ++ List.replicate n t ∧ (s.run (burst n t)).limit = N ∧
      (s.run (burst n t)).loaded = [] ∧ (s.run (burst n t)).start = s.start := by
  induction n with
  | zero => intro s h1 h2 _ _; exact ⟨by simp [burst, Limiter.run], h1, h2, rfl⟩
  | succ n ih =>
    intro s h1 h2 h3 h4
    have e : s.run (burst (n + 1) t) = ((s.step .load).step (.enter 0 t)).run (burst n t) := by
      simp [burst, Limiter.run, List.replicate_succ]
    have e1 : s.step .load = { s with loaded := [N] } := by
      have : N ≠ 0 := by omega
      simp [Limiter.step, this, h2, h1]
    have e2 : (s.step .load).step (.enter 0 t) = { s with loaded := [], count := s.count + 1, hist := s.hist ++ [.sent N t] } := by
      rw [e1]
      have hr : ¬ s.start + second ≤ t := by omega
      have ha : ¬ N ≤ s.count := by omega
      simp [Limiter.step, Limiter.roll, hr, Limiter.admit, ha]
    rw [e, e2]
    obtain ⟨a, b, c, d⟩ := ih { s with loaded := [], count := s.count + 1, hist := s.hist ++ [.sent N t] } h1 rfl (by show s.count + 1 + n ≤ N; omega) h4
    refine ⟨?_, b, c, d⟩
    rw [a, sentTimes_snoc]
    simp [List.replicate_succ]

/-- **C31: the limit is not a limit on every second.** For every `N` there is an execution in which `2 N` messages are let through
within one second (two nanoseconds, in fact) although the limit is `N` all the time. -/
theorem C31_burst_counterexample (N : Nat) (hN : 0 < N) : ∃ ops : List LimOp, CallsOnly ops ∧ Ticking (.reset 0 :: ops) ∧ ∃ a,
    ((sentTimes (Limiter.init.run ([.store N, .reset 0] ++ ops)).hist).filter (fun t => a ≤ t ∧ t < a + second)).length = 2 * N := by
  have hb : ∀ n t op, op ∈ burst n t → (op = .load ∨ op = .enter 0 t) := by
    intro n t op h
    unfold burst at h
    obtain ⟨l, hl, ho⟩ := List.mem_flatten.1 h
    rw [(List.mem_replicate.1 hl).2] at ho
    simpa using ho
  have htimes : ∀ n t, (burst n t).filterMap timeOf = List.replicate n t := by
    intro n t
    induction n with
    | zero => rfl
    | succ n ih =>
      have : burst (n + 1) t = [LimOp.load, LimOp.enter 0 t] ++ burst n t := by simp [burst, List.replicate_succ]
      rw [this, List.filterMap_append, ih]
      rfl
  refine ⟨burst N (second - 1) ++ burst N second, ?_, ?_, second - 1, ?_⟩
  · intro op hop
    rcases List.mem_append.1 hop with h | h
    · rcases hb _ _ _ h with rfl | rfl
      · exact .inr rfl
      · exact .inl ⟨_, _, rfl⟩
    · rcases hb _ _ _ h with rfl | rfl
      · exact .inr rfl
      · exact .inl ⟨_, _, rfl⟩
  · unfold Ticking
    simp only [List.filterMap_cons, timeOf, List.filterMap_append, htimes]
    rw [List.pairwise_cons]
    refine ⟨fun _ _ => Nat.zero_le _, ?_⟩
    rw [List.pairwise_append]
    refine ⟨List.pairwise_replicate.2 (.inr (Nat.le_refl _)), List.pairwise_replicate.2 (.inr (Nat.le_refl _)), fun x hx y hy => ?_⟩
    rw [(List.mem_replicate.1 hx).2, (List.mem_replicate.1 hy).2]
    omega
  · obtain ⟨a1, a2, a3, a4⟩ := burst_sent N N (second - 1) hN (Limiter.init.run [.store N, .reset 0]) rfl rfl (by simp [Limiter.run, Limiter.step])
      (by show second - 1 < 0 + second; unfold second; omega)
    have hr : Limiter.init.run ([.store N, .reset 0] ++ (burst N (second - 1) ++ burst N second)) =
        ((Limiter.init.run [.store N, .reset 0]).run (burst N (second - 1))).run (burst N second) := by
      simp [Limiter.run, List.foldl_append]
    rw [hr]
    generalize hs : (Limiter.init.run [.store N, .reset 0]).run (burst N (second - 1)) = s at a1 a2 a3 a4
    obtain ⟨M, rfl⟩ : ∃ M, N = M + 1 := ⟨N - 1, by omega⟩
    have e : s.run (burst (M + 1) second) = ((s.step .load).step (.enter 0 second)).run (burst M second) := by
      simp [burst, Limiter.run, List.replicate_succ]
    have hstart : s.start = 0 := a4
    have e1 : s.step .load = { s with loaded := [M + 1] } := by
      simp [Limiter.step, a2, a3]
    have e2 : (s.step .load).step (.enter 0 second) =
        { s with loaded := [], start := second, count := 1, hist := s.hist ++ [.rolled second] ++ [.sent (M + 1) second] } := by
      rw [e1]
      simp [Limiter.step, Limiter.roll, hstart, Limiter.admit]
    rw [e, e2]
    obtain ⟨b1, _⟩ := burst_sent M (M + 1) second hN
      { s with loaded := [], start := second, count := 1, hist := s.hist ++ [.rolled second] ++ [.sent (M + 1) second] } a2 rfl
      (by show 1 + M ≤ M + 1; omega) (by show second < second + second; unfold second; omega)
    rw [b1]
    have e3 : sentTimes (s.hist ++ [.rolled second] ++ [.sent (M + 1) second]) = List.replicate (M + 1) (second - 1) ++ [second] := by
      rw [sentTimes_snoc, sentTimes_snoc, a1]
      simp [sentTimes, Limiter.run, Limiter.step, Limiter.init]
    show ((sentTimes (s.hist ++ [.rolled second] ++ [.sent (M + 1) second]) ++ List.replicate M second).filter _).length = _
    rw [e3]
    have hf : ∀ x ∈ List.replicate (M + 1) (second - 1) ++ [second] ++ List.replicate M second,
        (decide (second - 1 ≤ x ∧ x < second - 1 + second)) = true := by
      intro x hx
      simp only [List.mem_append, List.mem_replicate, List.mem_singleton] at hx
      have : x = second - 1 ∨ x = second := by
        rcases hx with (hx | hx) | hx
        · exact .inl hx.2
        · exact .inr hx
        · exact .inr hx.2
      simp only [decide_eq_true_eq]
      unfold second at this ⊢
      omega
    rw [List.filter_eq_self.2 hf]
    simp
    omega

end Verif
