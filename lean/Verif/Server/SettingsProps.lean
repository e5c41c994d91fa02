import Verif.Server.Settings

/-!
C32 (keepalive closes the transport after the configured number of failures), C69 (keepalive keeps going while it is switched on) and C70
(the advertised settings are the ones in force).
-/

set_option linter.unusedSectionVars false

namespace Verif

open Server Caps

variable {D : Type}

/-! ### Specification -/

/-- The number of failures since the last success, newest event first. -/
def failRun : List KeepEv → Nat
  | [] => 0
  | .closed :: t => failRun t
  | .sent true :: _ => 0
  | .sent false :: t => failRun t + 1

/-- The number of consecutive failed sends at the end of the history. -/
def trailing (h : List KeepEv) : Nat := failRun h.reverse

/-- The threshold last asked for; 3 if none was, and never less than 1. -/
def wanted : List (KeepOp D) → Nat → Nat
  | [], t => t
  | .setThreshold (some n) :: rest, _ => wanted rest (max n 1)
  | _ :: rest, t => wanted rest t

def thresholdOf (ops : List (KeepOp D)) : Nat := wanted ops 3

/-- Thresholds are `unsigned int`s. -/
def Sized (ops : List (KeepOp D)) : Prop := ∀ op ∈ ops, ∀ n, op = .setThreshold (some n) → n < 2 ^ 32

/-! ### C32 -/

theorem keep_run_snoc (s : Keep D) (ops : List (KeepOp D)) (op : KeepOp D) : s.run (ops ++ [op]) = (s.run ops).step op := by
  simp [Keep.run, List.foldl_append]

theorem trailing_snoc (h : List KeepEv) (e : KeepEv) :
    trailing (h ++ [e]) = match e with | .closed => trailing h | .sent true => 0 | .sent false => trailing h + 1 := by
  unfold trailing
  rw [List.reverse_append]
  cases e with
  | closed => rfl
  | sent b => cases b <;> rfl

/-- The counter is the number of consecutive failures, cut off at the largest `unsigned int`. -/
structure KeepOk (s : Keep D) (t : Nat) : Prop where
  failures : s.failures = min (trailing s.hist) uintMax
  threshold : s.threshold = t
  pos : 1 ≤ t
  small : t ≤ uintMax

theorem halt_fields (s : Keep D) (b : Bool) : (s.halt b).failures = s.failures ∧ (s.halt b).hist = s.hist ∧ (s.halt b).threshold = s.threshold ∧
    (s.halt b).interval = s.interval ∧ (s.halt b).experimental = s.experimental ∧ (s.halt b).rate = s.rate ∧ (s.halt b).loop = s.loop := by
  unfold Keep.halt
  split <;> exact ⟨rfl, rfl, rfl, rfl, rfl, rfl, rfl⟩

theorem setInterval_fields (s : Keep D) (ms : Int) :
    (s.setInterval ms).failures = s.failures ∧ (s.setInterval ms).hist = s.hist ∧ (s.setInterval ms).threshold = s.threshold := by
  unfold Keep.setInterval
  split
  · obtain ⟨a, b, c, _⟩ := halt_fields { s with interval := -1, experimental := AMap.del s.experimental keepKey } true
    exact ⟨a, b, c⟩
  · simp only
    split <;> exact ⟨rfl, rfl, rfl⟩

theorem setRate_fields (s : Keep D) (n : Nat) : (s.setRate n).failures = s.failures ∧ (s.setRate n).hist = s.hist ∧
    (s.setRate n).threshold = s.threshold ∧ (s.setRate n).interval = s.interval ∧ (s.setRate n).loop = s.loop ∧
    (s.setRate n).stop = s.stop ∧ (s.setRate n).joining = s.joining := by
  unfold Keep.setRate
  split <;> exact ⟨rfl, rfl, rfl, rfl, rfl, rfl, rfl⟩

theorem wake_fields (s : Keep D) (c : Bool) : (s.wake c).failures = s.failures ∧ (s.wake c).hist = s.hist ∧
    (s.wake c).threshold = s.threshold ∧ (s.wake c).interval = s.interval ∧ (s.wake c).experimental = s.experimental ∧
    (s.wake c).rate = s.rate ∧ (s.wake c).stop = s.stop ∧ (s.wake c).joining = s.joining := by
  unfold Keep.wake
  split
  · split
    · exact ⟨rfl, rfl, rfl, rfl, rfl, rfl, rfl, rfl⟩
    · split <;> exact ⟨rfl, rfl, rfl, rfl, rfl, rfl, rfl, rfl⟩
  · exact ⟨rfl, rfl, rfl, rfl, rfl, rfl, rfl, rfl⟩

theorem joined_fields (s : Keep D) : (s.step .joined).failures = s.failures ∧ (s.step .joined).hist = s.hist ∧
    (s.step .joined).threshold = s.threshold ∧ (s.step .joined).interval = s.interval ∧ (s.step .joined).experimental = s.experimental ∧
    (s.step .joined).rate = s.rate := by
  unfold Keep.step
  cases s.joining with
  | none => exact ⟨rfl, rfl, rfl, rfl, rfl, rfl⟩
  | some r =>
    simp only
    split <;> exact ⟨rfl, rfl, rfl, rfl, rfl, rfl⟩

/-- How a send ends. -/
theorem afterSend_cases (s : Keep D) (failed : Bool) {t : Nat} (h : KeepOk s t) :
    (s.afterSend failed).hist = s.hist ++ [.sent !failed] ++
      (if failed = true ∧ t ≤ trailing (s.hist ++ [.sent !failed]) then [.closed] else []) ∧ KeepOk (s.afterSend failed) t ∧
    ((s.afterSend failed).loop = if failed = true ∧ t ≤ trailing (s.hist ++ [.sent !failed]) then .ended else .waiting) := by
  obtain ⟨hf, ht, hp, hs⟩ := h
  subst ht
  unfold Keep.afterSend
  cases failed with
  | false => exact ⟨by simp, ⟨by simp [trailing_snoc], rfl, hp, hs⟩, by simp⟩
  | true =>
    have hnext : bump s.failures = min (trailing (s.hist ++ [.sent false])) uintMax := by
      unfold bump
      rw [trailing_snoc, hf]
      simp only
      by_cases hm : min (trailing s.hist) uintMax = uintMax
      · rw [if_neg (by simpa using hm), hm]
        have : uintMax ≤ trailing s.hist := by omega
        omega
      · rw [if_pos hm]
        omega
    simp only [if_true, hnext, Bool.not_true, true_and]
    unfold Keep.fail
    by_cases hc : s.threshold ≤ min (trailing (s.hist ++ [.sent false])) uintMax
    · have hc' : s.threshold ≤ trailing (s.hist ++ [.sent false]) := by omega
      rw [if_pos hc, if_pos hc', if_pos hc']
      refine ⟨by simp, ⟨?_, rfl, hp, hs⟩, rfl⟩
      show min _ _ = min (trailing (s.hist ++ [.sent false, .closed])) uintMax
      have : s.hist ++ [KeepEv.sent false, .closed] = (s.hist ++ [.sent false]) ++ [.closed] := by simp
      rw [this, trailing_snoc (s.hist ++ [KeepEv.sent false]) .closed]
    · have hc' : ¬ s.threshold ≤ trailing (s.hist ++ [.sent false]) := by omega
      rw [if_neg hc, if_neg hc', if_neg hc']
      exact ⟨by simp, ⟨rfl, rfl, hp, hs⟩, rfl⟩

theorem wanted_snoc (ops : List (KeepOp D)) (op : KeepOp D) (t : Nat) :
    wanted (ops ++ [op]) t = match op with | .setThreshold (some n) => max n 1 | _ => wanted ops t := by
  induction ops generalizing t with
  | nil =>
    cases op with
    | setThreshold n => cases n <;> rfl
    | _ => rfl
  | cons o r ih =>
    show wanted (o :: (r ++ [op])) t = _
    cases o with
    | setThreshold n =>
      cases n with
      | some n => exact ih (max n 1)
      | none => exact ih t
    | _ => exact ih t

theorem keepOk_run (ops : List (KeepOp D)) (hz : Sized ops) : KeepOk ((Keep.init : Keep D).run ops) (thresholdOf ops) := by
  induction h : ops.reverse generalizing ops with
  | nil =>
    have : ops = [] := by simpa using h
    subst this
    exact ⟨rfl, rfl, show 1 ≤ 3 by decide, show 3 ≤ uintMax by decide⟩
  | cons op r ih =>
    have ho : ops = r.reverse ++ [op] := by
      have := congrArg List.reverse h
      simpa using this
    subst ho
    have hi := ih r.reverse (fun o hm n => hz o (by simp at hm ⊢; exact .inl hm) n) (by simp)
    rw [keep_run_snoc]
    unfold thresholdOf at hi ⊢
    rw [wanted_snoc]
    have keepIt : ∀ s' : Keep D, s'.failures = (Keep.init.run r.reverse).failures → s'.hist = (Keep.init.run r.reverse).hist →
        s'.threshold = ((Keep.init : Keep D).run r.reverse).threshold → KeepOk s' (wanted r.reverse 3) :=
      fun s' a b c => ⟨by rw [a, b]; exact hi.failures, by rw [c]; exact hi.threshold, hi.pos, hi.small⟩
    cases op with
    | wake c => obtain ⟨a, b, c, _⟩ := wake_fields ((Keep.init : Keep D).run r.reverse) c; exact keepIt _ a b c
    | sent f =>
      show KeepOk (if _ then _ else _) (wanted r.reverse 3)
      split
      · exact (afterSend_cases _ f hi).2.1
      · exact hi
    | joined => obtain ⟨a, b, c, _⟩ := joined_fields ((Keep.init : Keep D).run r.reverse); exact keepIt _ a b c
    | setInterval ms =>
      show KeepOk (if _ then _ else _) (wanted r.reverse 3)
      split
      · obtain ⟨a, b, c⟩ := setInterval_fields ((Keep.init : Keep D).run r.reverse) (ms.getD (-1)); exact keepIt _ a b c
      · exact hi
    | setThreshold n =>
      cases n with
      | none =>
        refine ⟨hi.failures, ?_, hi.pos, hi.small⟩
        show (if ((Keep.init : Keep D).run r.reverse).threshold < 1 then 1 else ((Keep.init : Keep D).run r.reverse).threshold) = wanted r.reverse 3
        rw [hi.threshold]
        have := hi.pos
        split <;> omega
      | some n =>
        have hn := hz (.setThreshold (some n)) (by simp) n rfl
        refine ⟨hi.failures, ?_, ?_, ?_⟩
        · show (if n < 1 then 1 else n) = max n 1
          split <;> omega
        · show 1 ≤ max n 1; omega
        · show max n 1 ≤ uintMax
          unfold uintMax; omega
    | setRate n => obtain ⟨a, b, c, _⟩ := setRate_fields ((Keep.init : Keep D).run r.reverse) (n.getD 0); exact keepIt _ a b c
    | setChunking n => exact keepIt _ rfl rfl rfl
    | setCapabilities e => exact keepIt _ rfl rfl rfl
    | stopServer =>
      show KeepOk (if _ then _ else _) (wanted r.reverse 3)
      split
      · obtain ⟨a, b, c, _⟩ := halt_fields ((Keep.init : Keep D).run r.reverse) false; exact keepIt _ a b c
      · exact hi

/-- **C32.** When a keepalive send ends, the transport is closed if and only if the send failed and the number of consecutive failures,
including this one, has reached the threshold last asked for. -/
theorem C32_closes_iff (ops : List (KeepOp D)) (hz : Sized ops) (hs : ((Keep.init : Keep D).run ops).loop = .sending) (failed : Bool) :
    ((Keep.init : Keep D).run (ops ++ [.sent failed])).hist = ((Keep.init : Keep D).run ops).hist ++ [.sent !failed] ++
      (if failed = true ∧ thresholdOf ops ≤ trailing (((Keep.init : Keep D).run ops).hist ++ [.sent !failed]) then [.closed] else []) := by
  rw [keep_run_snoc]
  show (if _ then _ else _ : Keep D).hist = _
  rw [if_pos hs]
  exact (afterSend_cases _ failed (keepOk_run ops hz)).1

/-- **C32.** Nothing but the end of a send closes the transport (through keepalive). -/
theorem C32_only_sends (s : Keep D) (op : KeepOp D) (h : ∀ f, op ≠ .sent f) : (s.step op).hist = s.hist := by
  cases op with
  | wake c => exact (wake_fields s c).2.1
  | sent f => exact absurd rfl (h f)
  | joined => exact (joined_fields s).2.1
  | setInterval ms =>
    show (if _ then _ else _ : Keep D).hist = _
    split
    · exact (setInterval_fields s _).2.1
    · rfl
  | setThreshold n => rfl
  | setRate n => exact (setRate_fields s _).2.1
  | setChunking n => rfl
  | setCapabilities e => rfl
  | stopServer =>
    show (if _ then _ else _ : Keep D).hist = _
    split
    · exact (halt_fields s false).2.1
    · rfl

/-- Keepalive on, threshold 2, two failures. -/
def twoFailures : List (KeepOp Empty) :=
  [.setThreshold (some 2), .setInterval (some 1000), .wake true, .sent true, .wake false, .wake true]

example : Sized twoFailures ∧ ((Keep.init : Keep Empty).run twoFailures).loop = .sending := by
  refine ⟨fun op h n hn => ?_, by decide +kernel⟩
  subst hn
  simp only [twoFailures, List.mem_cons, KeepOp.setThreshold.injEq, Option.some.injEq, reduceCtorEq, List.not_mem_nil, or_false] at h
  omega

example : ((Keep.init : Keep Empty).run (twoFailures ++ [.sent true])).hist = [.sent false, .sent false, .closed] := by decide +kernel

/-- While the loop has never closed anything, the failures so far stayed below the threshold of that time. -/
theorem below_run (ops : List (KeepOp D)) (hz : Sized ops) (hc : KeepEv.closed ∉ ((Keep.init : Keep D).run ops).hist) (B : Nat)
    (hB : ∀ p q, ops = p ++ q → thresholdOf p ≤ B) : trailing ((Keep.init : Keep D).run ops).hist < B := by
  induction h : ops.reverse generalizing ops with
  | nil =>
    have : ops = [] := by simpa using h
    subst this
    have := hB [] [] rfl
    show 0 < B
    unfold thresholdOf wanted at this
    omega
  | cons op r ih =>
    have ho : ops = r.reverse ++ [op] := by
      have := congrArg List.reverse h
      simpa using this
    subst ho
    have hz' : Sized r.reverse := fun o hm n => hz o (by simp at hm ⊢; exact .inl hm) n
    have hB' : ∀ p q, r.reverse = p ++ q → thresholdOf p ≤ B := fun p q hpq => hB p (q ++ [op]) (by rw [hpq]; simp)
    rw [keep_run_snoc] at hc ⊢
    by_cases hsent : ∃ f, op = .sent f
    · obtain ⟨f, rfl⟩ := hsent
      by_cases hl : ((Keep.init : Keep D).run r.reverse).loop = .sending
      · have hq := C32_closes_iff r.reverse hz' hl f
        rw [keep_run_snoc] at hq
        rw [hq] at hc ⊢
        have hc' : KeepEv.closed ∉ ((Keep.init : Keep D).run r.reverse).hist := fun hm => hc (by simp [hm])
        by_cases hcond : f = true ∧ thresholdOf r.reverse ≤ trailing (((Keep.init : Keep D).run r.reverse).hist ++ [.sent !f])
        · rw [if_pos hcond] at hc
          exact absurd (by simp) hc
        · rw [if_neg hcond, List.append_nil]
          have hpre := hB' r.reverse [] (by simp)
          cases f with
          | true =>
            simp only [true_and] at hcond
            omega
          | false =>
            rw [trailing_snoc]
            have := (keepOk_run r.reverse hz').pos
            show 0 < B
            omega
      · have e : ((Keep.init : Keep D).run r.reverse).step (.sent f) = (Keep.init : Keep D).run r.reverse := by
          show (if _ then _ else _) = _
          rw [if_neg hl]
        rw [e] at hc ⊢
        exact ih r.reverse hz' hc hB' (by simp)
    · have e := C32_only_sends ((Keep.init : Keep D).run r.reverse) op (fun f hf => hsent ⟨f, hf⟩)
      rw [e] at hc ⊢
      exact ih r.reverse hz' hc hB' (by simp)

/-- **C32.** As long as the loop has not closed anything yet and the threshold was not lowered, the closure comes after exactly the
configured number of consecutive failures. Missing: later closures (see the counterexample). -/
theorem C32_exact_partial (ops : List (KeepOp D)) (hz : Sized ops) (hs : ((Keep.init : Keep D).run ops).loop = .sending)
    (hc : KeepEv.closed ∉ ((Keep.init : Keep D).run ops).hist) (hl : ∀ p q, ops = p ++ q → thresholdOf p ≤ thresholdOf ops) (failed : Bool) :
    KeepEv.closed ∈ ((Keep.init : Keep D).run (ops ++ [.sent failed])).hist ↔
      failed = true ∧ trailing (((Keep.init : Keep D).run ops).hist ++ [.sent false]) = thresholdOf ops := by
  have hb := below_run ops hz hc (thresholdOf ops) hl
  rw [C32_closes_iff ops hz hs failed]
  have hadd : trailing (((Keep.init : Keep D).run ops).hist ++ [.sent false]) = trailing ((Keep.init : Keep D).run ops).hist + 1 :=
    trailing_snoc _ _
  cases failed with
  | false => simp [hc]
  | true =>
    simp only [Bool.not_true, true_and]
    by_cases hx : thresholdOf ops ≤ trailing (((Keep.init : Keep D).run ops).hist ++ [.sent false])
    · rw [if_pos hx]
      simp only [List.mem_append, List.mem_singleton, or_true, true_iff]
      omega
    · rw [if_neg hx]
      simp only [List.append_nil, List.mem_append, hc, List.mem_singleton, reduceCtorEq, or_self, false_iff]
      omega

example : KeepEv.closed ∉ ((Keep.init : Keep Empty).run twoFailures).hist := by decide +kernel

/-- **C32, false after a closure.** The count of failures survives the closure: switch keepalive off and on again, and a single failed
send closes the transport at once, though the threshold is 3. -/
theorem C32_restart_counterexample : ∃ ops ops' : List (KeepOp Empty),
    ((Keep.init : Keep Empty).run ops).hist = [.sent false, .sent false, .sent false, .closed] ∧
    ((Keep.init : Keep Empty).run (ops ++ ops')).hist = [.sent false, .sent false, .sent false, .closed, .sent false, .closed] ∧
    thresholdOf (ops ++ ops') = 3 :=
  ⟨[.setInterval (some 1000), .wake true, .sent true, .wake true, .sent true, .wake true, .sent true],
    [.setInterval none, .joined, .setInterval (some 1000), .wake true, .sent true], by decide +kernel, by decide +kernel, rfl⟩

/-! ### C69 -/

/-- The step switches keepalive off. -/
def Disables : KeepOp D → Prop
  | .setInterval none => True
  | .setInterval (some ms) => ms ≤ 0
  | _ => False

/-- The loop is alive whenever keepalive is on, the loop has closed nothing and the server was not stopped. -/
structure LoopOk (s : Keep D) : Prop where
  alive : 0 < s.interval → s.loop = .waiting ∨ s.loop = .sending
  on : 0 < s.interval → s.stop = false
  free : 0 < s.interval → s.joining = none
  off : s.interval ≤ 0 → s.joining = none → s.loop = .none

theorem loopOk_step (s : Keep D) (op : KeepOp D) (h : LoopOk s) (hs : op ≠ .stopServer) (hc : (s.step op).hist = s.hist ∨
    KeepEv.closed ∉ (s.step op).hist) : LoopOk (s.step op) := by
  obtain ⟨ha, ho, hf, hoff⟩ := h
  cases op with
  | stopServer => exact absurd rfl hs
  | wake c =>
    show LoopOk (s.wake c)
    unfold Keep.wake
    by_cases hw : s.loop = .waiting
    · rw [if_pos hw]
      by_cases hx : (s.stop || decide (s.interval ≤ 0)) = true
      · rw [if_pos hx]
        have hi : ¬ 0 < s.interval := fun hi => by
          simp only [ho hi, Bool.false_or, decide_eq_true_eq] at hx; omega
        exact ⟨fun h => absurd h hi, fun h => absurd h hi, fun h => absurd h hi, fun h hj => absurd (hoff h hj) (by rw [hw]; decide)⟩
      · rw [if_neg hx]
        by_cases hcn : c = true
        · rw [if_pos hcn]
          exact ⟨fun _ => .inr rfl, ho, hf, fun h hj => absurd (hoff h hj) (by rw [hw]; decide)⟩
        · rw [if_neg hcn]
          exact ⟨ha, ho, hf, hoff⟩
    · rw [if_neg hw]
      exact ⟨ha, ho, hf, hoff⟩
  | sent f =>
    by_cases hl : s.loop = .sending
    · have e : s.step (.sent f) = s.afterSend f := by show (if _ then _ else _) = _; rw [if_pos hl]
      rw [e] at hc ⊢
      have hoff' : ¬ (s.interval ≤ 0 ∧ s.joining = none) := fun ⟨h1, h2⟩ => absurd (hoff h1 h2) (by rw [hl]; decide)
      unfold Keep.afterSend at hc ⊢
      cases f with
      | false => exact ⟨fun _ => .inl rfl, ho, hf, fun h hj => absurd ⟨h, hj⟩ hoff'⟩
      | true =>
        rw [if_pos rfl] at hc ⊢
        unfold Keep.fail at hc ⊢
        by_cases hn : s.threshold ≤ bump s.failures
        · rw [if_pos hn] at hc
          rcases hc with hc | hc
          · exact absurd hc (by simp)
          · exact absurd (by simp) hc
        · rw [if_neg hn]
          exact ⟨fun _ => .inl rfl, ho, hf, fun h hj => absurd ⟨h, hj⟩ hoff'⟩
    · have e : s.step (.sent f) = s := by show (if _ then _ else _) = _; rw [if_neg hl]
      rw [e]
      exact ⟨ha, ho, hf, hoff⟩
  | joined =>
    unfold Keep.step
    cases hj : s.joining with
    | none => exact ⟨ha, ho, hf, hoff⟩
    | some r =>
      have hi : ¬ 0 < s.interval := fun hi => by rw [hf hi] at hj; exact absurd hj (by simp)
      simp only
      split
      · exact ⟨fun h => absurd h hi, fun h => absurd h hi, fun h => absurd h hi, fun _ _ => rfl⟩
      · exact ⟨ha, ho, hf, hoff⟩
  | setInterval ms =>
    by_cases hj : s.joining = none
    · have e : s.step (.setInterval ms) = s.setInterval (ms.getD (-1)) := by show (if _ then _ else _) = _; rw [if_pos hj]
      rw [e]
      unfold Keep.setInterval
      by_cases hm : ms.getD (-1) ≤ 0
      · rw [if_pos hm]
        unfold Keep.halt
        split
        · have : ∀ P : Prop, (0 : Int) < -1 → P := fun P h => absurd h (by omega)
          exact ⟨this _, this _, this _, fun _ h => absurd h (by simp)⟩
        · rename_i hjn
          have : ∀ P : Prop, (0 : Int) < -1 → P := fun P h => absurd h (by omega)
          refine ⟨this _, this _, this _, fun _ _ => ?_⟩
          show s.loop = .none
          cases hl : s.loop with
          | none => rfl
          | _ => rw [hl] at hjn; exact absurd rfl hjn
      · rw [if_neg hm]
        simp only
        split
        · rename_i hjn
          have hi : 0 < s.interval := by
            apply Decidable.byContradiction
            intro hx
            have := hoff (by omega) hj
            rw [this] at hjn
            exact absurd hjn (by decide)
          exact ⟨fun _ => ha hi, fun _ => ho hi, fun _ => hj, fun h => absurd h hm⟩
        · exact ⟨fun _ => .inl rfl, fun _ => rfl, fun _ => hj, fun h => absurd h hm⟩
    · have e : s.step (.setInterval ms) = s := by show (if _ then _ else _) = _; rw [if_neg hj]
      rw [e]
      exact ⟨ha, ho, hf, hoff⟩
  | setThreshold n => exact ⟨ha, ho, hf, hoff⟩
  | setRate n =>
    obtain ⟨_, _, _, e1, e2, e3, e4⟩ := setRate_fields s (n.getD 0)
    show LoopOk (s.setRate (n.getD 0))
    exact ⟨by rw [e1, e2]; exact ha, by rw [e1, e3]; exact ho, by rw [e1, e4]; exact hf, by rw [e1, e2, e4]; exact hoff⟩
  | setChunking n => exact ⟨ha, ho, hf, hoff⟩
  | setCapabilities e => exact ⟨ha, ho, hf, hoff⟩

theorem hist_grows (s : Keep D) (op : KeepOp D) : ∃ x, (s.step op).hist = s.hist ++ x := by
  by_cases hs : ∃ f, op = .sent f
  · obtain ⟨f, rfl⟩ := hs
    show ∃ x, (if s.loop = .sending then s.afterSend f else s).hist = s.hist ++ x
    split
    · unfold Keep.afterSend
      split
      · unfold Keep.fail
        split <;> exact ⟨_, rfl⟩
      · exact ⟨_, rfl⟩
    · exact ⟨[], by simp⟩
  · exact ⟨[], by rw [C32_only_sends s op (fun f hf => hs ⟨f, hf⟩)]; simp⟩

theorem loopOk_run (ops : List (KeepOp D)) (hs : KeepOp.stopServer ∉ ops) (hc : KeepEv.closed ∉ ((Keep.init : Keep D).run ops).hist) :
    LoopOk ((Keep.init : Keep D).run ops) := by
  induction h : ops.reverse generalizing ops with
  | nil =>
    have : ops = [] := by simpa using h
    subst this
    have : ∀ P : Prop, (0 : Int) < -1 → P := fun P h => absurd h (by omega)
    exact ⟨this _, this _, this _, fun _ _ => rfl⟩
  | cons op r ih =>
    have ho : ops = r.reverse ++ [op] := by
      have := congrArg List.reverse h
      simpa using this
    subst ho
    rw [keep_run_snoc] at hc ⊢
    obtain ⟨x, hx⟩ := hist_grows ((Keep.init : Keep D).run r.reverse) op
    refine loopOk_step _ op (ih r.reverse (fun hm => hs (by simp at hm ⊢; exact .inl hm)) ?_ (by simp)) (fun he => hs (by simp [he])) (.inr hc)
    intro hm
    rw [hx] at hc
    exact hc (by simp [hm])

/-- **C69.** As long as the loop has closed nothing and the server was not stopped, keepalive that is switched on works: the loop is alive
and, when it wakes up with the transport connected, sends. Missing: the times after a closure or a stop. -/
theorem C69_keeps_going_partial (ops : List (KeepOp D)) (hs : KeepOp.stopServer ∉ ops)
    (hc : KeepEv.closed ∉ ((Keep.init : Keep D).run ops).hist) (hi : 0 < ((Keep.init : Keep D).run ops).interval) :
    ((Keep.init : Keep D).run (ops ++ [.wake true])).loop = .sending := by
  obtain ⟨ha, ho, _, _⟩ := loopOk_run ops hs hc
  rw [keep_run_snoc]
  show (Keep.wake _ true).loop = _
  unfold Keep.wake
  rcases ha hi with hw | hw
  · rw [if_pos hw, if_neg (by rw [ho hi]; simp; exact hi), if_pos rfl]
  · rw [if_neg (by rw [hw]; decide)]
    exact hw

example : KeepOp.stopServer ∉ twoFailures ∧ 0 < ((Keep.init : Keep Empty).run twoFailures).interval :=
  ⟨by simp [twoFailures], by decide +kernel⟩

/-- The loop is over and stays over. -/
structure Stuck (s : Keep D) : Prop where
  loop : s.loop = .ended
  joining : s.joining = none

theorem stuck_step (s : Keep D) (op : KeepOp D) (h : Stuck s) (hd : ¬ Disables op) (hs : op ≠ .stopServer) :
    Stuck (s.step op) ∧ (s.step op).hist = s.hist := by
  obtain ⟨hl, hj⟩ := h
  cases op with
  | stopServer => exact absurd rfl hs
  | wake c =>
    have : s.wake c = s := by unfold Keep.wake; rw [if_neg (by rw [hl]; decide)]
    show Stuck (s.wake c) ∧ (s.wake c).hist = _
    rw [this]
    exact ⟨⟨hl, hj⟩, rfl⟩
  | sent f =>
    have e : s.step (.sent f) = s := by show (if _ then _ else _) = _; rw [if_neg (by rw [hl]; decide)]
    rw [e]
    exact ⟨⟨hl, hj⟩, rfl⟩
  | joined =>
    have e : s.step .joined = s := by unfold Keep.step; simp only [hj]
    rw [e]
    exact ⟨⟨hl, hj⟩, rfl⟩
  | setInterval ms =>
    have e : s.step (.setInterval ms) = s.setInterval (ms.getD (-1)) := by show (if _ then _ else _) = _; rw [if_pos hj]
    rw [e]
    refine ⟨?_, (setInterval_fields s _).2.1⟩
    unfold Keep.setInterval
    cases ms with
    | none => exact absurd trivial hd
    | some m =>
      have hm : ¬ m ≤ 0 := hd
      simp only [Option.getD_some, if_neg hm]
      rw [if_pos (by show s.loop.joinable = true; rw [hl]; rfl)]
      exact ⟨hl, hj⟩
  | setThreshold n => exact ⟨⟨hl, hj⟩, rfl⟩
  | setRate n =>
    obtain ⟨_, e0, _, _, e2, _, e4⟩ := setRate_fields s (n.getD 0)
    exact ⟨⟨e2.trans hl, e4.trans hj⟩, e0⟩
  | setChunking n => exact ⟨⟨hl, hj⟩, rfl⟩
  | setCapabilities e => exact ⟨⟨hl, hj⟩, rfl⟩

/-- **C69, false after a closure.** Once the loop has closed the transport, no keepalive is ever sent again, however often keepalive is
switched on (on a new, connected transport, say), unless it is switched off first. -/
theorem C69_no_resume_counterexample : ∃ ops : List (KeepOp D), ∀ more : List (KeepOp D),
    (∀ op ∈ more, ¬ Disables op ∧ op ≠ .stopServer) →
    ((Keep.init : Keep D).run (ops ++ more ++ [.setInterval (some 1000)])).interval = 1000 ∧
    ((Keep.init : Keep D).run (ops ++ more ++ [.setInterval (some 1000)])).hist = [.sent false, .closed] ∧
    ∀ c, ((Keep.init : Keep D).run (ops ++ more ++ [.setInterval (some 1000), .wake c])).loop = .ended := by
  refine ⟨[.setThreshold (some 1), .setInterval (some 1000), .wake true, .sent true], fun more hm => ?_⟩
  have h0 : Stuck ((Keep.init : Keep D).run [.setThreshold (some 1), .setInterval (some 1000), .wake true, .sent true]) ∧
      ((Keep.init : Keep D).run [.setThreshold (some 1), .setInterval (some 1000), .wake true, .sent true]).hist = [.sent false, .closed] :=
    ⟨⟨rfl, rfl⟩, rfl⟩
  have hrun : ∀ (l : List (KeepOp D)) (s : Keep D), (∀ op ∈ l, ¬ Disables op ∧ op ≠ .stopServer) → Stuck s → Stuck (s.run l) ∧ (s.run l).hist = s.hist := by
    intro l
    induction l with
    | nil => exact fun s _ h => ⟨h, rfl⟩
    | cons o t ih =>
      intro s hl hst
      obtain ⟨h1, h2⟩ := stuck_step s o hst (hl o (by simp)).1 (hl o (by simp)).2
      obtain ⟨h3, h4⟩ := ih (s.step o) (fun op ho => hl op (by simp [ho])) h1
      exact ⟨h3, h4.trans h2⟩
  have happ : ∀ (s : Keep D) (a b : List (KeepOp D)), s.run (a ++ b) = (s.run a).run b := fun s a b => by simp [Keep.run, List.foldl_append]
  have hne : ¬ Disables (KeepOp.setInterval (some 1000) : KeepOp D) := by show ¬ (1000 : Int) ≤ 0; omega
  have h2 := hrun (more ++ [.setInterval (some 1000)]) _ (fun op ho => by
    rcases List.mem_append.1 ho with ho | ho
    · exact hm op ho
    · simp only [List.mem_singleton] at ho; subst ho; exact ⟨hne, by simp⟩) h0.1
  have h1 := hrun more _ hm h0.1
  refine ⟨?_, ?_, fun c => ?_⟩
  · rw [List.append_assoc, happ, happ]
    show (Keep.step _ (.setInterval (some 1000))).interval = 1000
    show (if _ then _ else _ : Keep D).interval = 1000
    rw [if_pos h1.1.joining]
    unfold Keep.setInterval
    rw [if_neg (by decide)]
    simp only
    split <;> rfl
  · rw [List.append_assoc, happ]
    exact h2.2.trans h0.2
  · have h3 := hrun (more ++ [.setInterval (some 1000), .wake c]) _ (fun op ho => by
      rcases List.mem_append.1 ho with ho | ho
      · exact hm op ho
      · simp only [List.mem_cons, List.not_mem_nil, or_false] at ho
        rcases ho with rfl | rfl
        · exact ⟨hne, by simp⟩
        · exact ⟨fun h => h, by simp⟩) h0.1
    rw [List.append_assoc, happ]
    exact h3.1.loop

/-- **C69, false after a stop.** After `Stop()` keepalive stays switched on and advertised, but a server that is started again sends
none. -/
theorem C69_stop_counterexample : ∃ ops : List (KeepOp D),
    ((Keep.init : Keep D).run ops).interval = 1000 ∧ ((Keep.init : Keep D).run ops).loop = .none ∧
    AMap.get ((Keep.init : Keep D).run ops).experimental (lit "keepalive") = some (keepAdvert 1000 3) ∧
    ∀ c, ((Keep.init : Keep D).run ops).step (.wake c) = (Keep.init : Keep D).run ops :=
  ⟨[.setInterval (some 1000), .stopServer, .wake true, .joined], rfl, rfl, rfl, fun _ => rfl⟩

/-! ### C70 -/

/-- What `initialize` advertises about keepalive and the log rate limit is what is in force. -/
structure Advertised (s : Keep D) : Prop where
  keepOn : 0 < s.interval → AMap.get s.experimental (lit "keepalive") = some (.obj
    [(lit "enabled", .bool true), (lit "intervalMs", .int s.interval), (lit "failureThreshold", .int s.threshold)])
  keepOff : ¬ 0 < s.interval → AMap.get s.experimental (lit "keepalive") = none
  rateOn : 0 < s.rate → AMap.get s.experimental (lit "loggingRateLimit") = some (.obj
    [(lit "enabled", .bool true), (lit "perSecond", .int s.rate)])
  rateOff : s.rate = 0 → AMap.get s.experimental (lit "loggingRateLimit") = none

theorem advertised_same {s s' : Keep D} (h : Advertised s) (h1 : s'.interval = s.interval) (h2 : s'.threshold = s.threshold)
    (h3 : s'.rate = s.rate) (h4 : s'.experimental = s.experimental) : Advertised s' :=
  ⟨by rw [h1, h2, h4]; exact h.keepOn, by rw [h1, h4]; exact h.keepOff, by rw [h3, h4]; exact h.rateOn, by rw [h3, h4]; exact h.rateOff⟩

theorem advertised_step (s : Keep D) (op : KeepOp D) (h : Advertised s) (hc : ∀ e, op ≠ .setCapabilities e) : Advertised (s.step op) := by
  cases op with
  | wake c =>
    obtain ⟨_, _, a, b, c, d, _⟩ := wake_fields s c
    exact advertised_same h b a d c
  | sent f =>
    show Advertised (if _ then _ else _)
    split
    · unfold Keep.afterSend
      split
      · unfold Keep.fail
        split <;> exact advertised_same h rfl rfl rfl rfl
      · exact advertised_same h rfl rfl rfl rfl
    · exact h
  | joined =>
    obtain ⟨_, _, a, b, c, d⟩ := joined_fields s
    exact advertised_same h b a d c
  | stopServer =>
    show Advertised (if _ then _ else _)
    split
    · obtain ⟨_, _, a, b, c, d, _⟩ := halt_fields s false
      exact advertised_same h b a d c
    · exact h
  | setCapabilities e => exact absurd rfl (hc e)
  | setInterval ms =>
    show Advertised (if _ then _ else _)
    split
    · unfold Keep.setInterval
      by_cases hm : ms.getD (-1) ≤ 0
      · rw [if_pos hm]
        obtain ⟨_, _, a, b, c, d, _⟩ := halt_fields { s with interval := -1, experimental := AMap.del s.experimental keepKey } true
        refine ⟨?_, ?_, ?_, ?_⟩
        · rw [b]; exact fun hx => absurd hx (show ¬ (0 : Int) < -1 by decide)
        · rw [c]; exact fun _ => AMap.get_del_self _ _
        · rw [c, d]
          intro hx
          show AMap.get (AMap.del s.experimental keepKey) _ = _
          rw [AMap.get_del_ne _ (by decide)]
          exact h.rateOn hx
        · rw [c, d]
          intro hx
          show AMap.get (AMap.del s.experimental keepKey) _ = _
          rw [AMap.get_del_ne _ (by decide)]
          exact h.rateOff hx
      · rw [if_neg hm]
        have key : ∀ s' : Keep D, s'.interval = ms.getD (-1) → s'.threshold = s.threshold → s'.rate = s.rate →
            s'.experimental = AMap.put s.experimental keepKey (keepAdvert (ms.getD (-1)) s.threshold) → Advertised s' := by
          intro s' e1 e2 e3 e4
          refine ⟨?_, ?_, ?_, ?_⟩
          · intro _; rw [e4, e1, e2]; exact AMap.get_put_self _ _ _
          · intro hx; rw [e1] at hx; exact absurd (by omega) hx
          · rw [e3, e4, AMap.get_put_ne _ _ (by decide)]; exact h.rateOn
          · rw [e3, e4, AMap.get_put_ne _ _ (by decide)]; exact h.rateOff
        simp only
        split
        · exact key _ rfl rfl rfl rfl
        · exact key _ rfl rfl rfl rfl
    · exact h
  | setThreshold n =>
    show Advertised (s.setThreshold n)
    unfold Keep.setThreshold
    by_cases hi : 0 < s.interval
    · simp only [if_pos hi]
      refine ⟨fun _ => AMap.get_put_self _ _ _, fun hx => absurd hi hx, ?_, ?_⟩
      · intro hx
        show AMap.get (AMap.put _ _ _) _ = _
        rw [AMap.get_put_ne _ _ (by decide)]; exact h.rateOn hx
      · intro hx
        show AMap.get (AMap.put _ _ _) _ = _
        rw [AMap.get_put_ne _ _ (by decide)]; exact h.rateOff hx
    · simp only [if_neg hi]
      exact ⟨fun hx => absurd hx hi, h.keepOff, h.rateOn, h.rateOff⟩
  | setRate n =>
    show Advertised (s.setRate (n.getD 0))
    unfold Keep.setRate
    by_cases hn : n.getD 0 = 0
    · rw [if_pos hn]
      refine ⟨?_, ?_, fun hx => absurd hx (Nat.lt_irrefl 0), fun _ => AMap.get_del_self _ _⟩
      · intro hx
        show AMap.get (AMap.del _ _) _ = _
        rw [AMap.get_del_ne _ (by decide)]; exact h.keepOn hx
      · intro hx
        show AMap.get (AMap.del _ _) _ = _
        rw [AMap.get_del_ne _ (by decide)]; exact h.keepOff hx
    · rw [if_neg hn]
      refine ⟨?_, ?_, fun _ => AMap.get_put_self _ _ _, fun hx => absurd hx hn⟩
      · intro hx
        show AMap.get (AMap.put _ _ _) _ = _
        rw [AMap.get_put_ne _ _ (by decide)]; exact h.keepOn hx
      · intro hx
        show AMap.get (AMap.put _ _ _) _ = _
        rw [AMap.get_put_ne _ _ (by decide)]; exact h.keepOff hx
  | setChunking n =>
    show Advertised (s.setChunking n)
    unfold Keep.setChunking
    refine ⟨?_, ?_, ?_, ?_⟩ <;> intro hx <;> show AMap.get (AMap.put _ _ _) _ = _ <;> rw [AMap.get_put_ne _ _ (by decide)]
    · exact h.keepOn hx
    · exact h.keepOff hx
    · exact h.rateOn hx
    · exact h.rateOff hx

/-- **C70.** Unless the application replaces the capabilities wholesale, what is advertised about keepalive (interval, threshold) and
about the log rate limit is what is in force, after every history of the other settings. -/
theorem C70_advertised_partial (ops : List (KeepOp D)) (hc : ∀ e, KeepOp.setCapabilities e ∉ ops) : Advertised ((Keep.init : Keep D).run ops) := by
  unfold Keep.run
  suffices ∀ s : Keep D, Advertised s → Advertised (ops.foldl Keep.step s) from
    this _ ⟨fun hx => absurd hx (show ¬ (0 : Int) < -1 by decide), fun _ => rfl, fun hx => absurd hx (Nat.lt_irrefl 0), fun _ => rfl⟩
  induction ops with
  | nil => exact fun s h => h
  | cons o t ih =>
    intro s hs
    exact ih (fun e hm => hc e (by simp [hm])) _ (advertised_step s o hs (fun e he => hc e (by simp [he])))

example : ∀ e, KeepOp.setCapabilities e ∉ twoFailures := by simp [twoFailures]

/-- **C70.** The chunk size limit set last is the one advertised, whatever is set otherwise before, and setting it changes nothing else in
the chunking entry. -/
theorem C70_chunking (ops : List (KeepOp D)) (n : Option Nat) :
    ∃ o, AMap.get ((Keep.init : Keep D).run (ops ++ [.setChunking n])).experimental (lit "resourceReadChunking") = some (.obj o) ∧
      AMap.get o (lit "enabled") = some (.bool true) ∧
      AMap.get o (lit "maxChunkBytes") = (match n with | some (k + 1) => some (.int (k + 1)) | _ => none) ∧
      ∀ old k, AMap.get ((Keep.init : Keep D).run ops).experimental (lit "resourceReadChunking") = some (.obj old) → k ≠ lit "enabled" →
        k ≠ lit "maxChunkBytes" → AMap.get o k = AMap.get old k := by
  rw [keep_run_snoc]
  generalize (Keep.init : Keep D).run ops = s
  refine ⟨_, AMap.get_put_self _ _ _, ?_, ?_, ?_⟩
  · split
    · rw [AMap.get_put_ne _ _ (by decide)]; exact AMap.get_put_self _ _ _
    · rw [AMap.get_del_ne _ (by decide)]; exact AMap.get_put_self _ _ _
  · cases n with
    | none => simp only [Option.getD_none, Nat.lt_irrefl, if_false]; exact AMap.get_del_self _ _
    | some k =>
      cases k with
      | zero => simp only [Option.getD_some, Nat.lt_irrefl, if_false]; exact AMap.get_del_self _ _
      | succ k =>
        simp only [Option.getD_some, Nat.zero_lt_succ, if_true]
        exact AMap.get_put_self _ _ _
  · intro old k ho h1 h2
    have hc : chunkObj s.experimental = old := by unfold chunkObj chunkKey; rw [ho]
    rw [hc]
    split
    · rw [AMap.get_put_ne _ _ h2, AMap.get_put_ne _ _ h1]
    · rw [AMap.get_del_ne _ h2, AMap.get_put_ne _ _ h1]

/-- **C70, false in general.** `SetCapabilities` replaces the advertisement and leaves keepalive and the rate limit in force. -/
theorem C70_replaced_counterexample : ∃ ops : List (KeepOp D),
    ((Keep.init : Keep D).run ops).interval = 1000 ∧ ((Keep.init : Keep D).run ops).loop = .waiting ∧
    ((Keep.init : Keep D).run ops).rate = 5 ∧ ((Keep.init : Keep D).run ops).experimental = [] :=
  ⟨[.setInterval (some 1000), .setRate (some 5), .setCapabilities []], rfl, rfl, rfl, rfl⟩

end Verif
