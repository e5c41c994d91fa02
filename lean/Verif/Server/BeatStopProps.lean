import Verif.Server.BeatOffProps

/-!
C112, continued: how long switching keepalive off takes, and where the claims fail.
-/

namespace Verif
open Server

/-! ### The time it takes -/

/-- The interval a call sets. -/
def sets : BeatOp → Option Nat
  | .setOn d => some d
  | .selfOn d => some d
  | _ => none

/-- No interval the thread knows of is longer than `M`. -/
structure Within (M : Nat) (s : Beat) : Prop where
  interval : s.interval ≤ M
  got : ∀ d, s.th = .got d → d ≤ M
  wait : ∀ d u, s.th = .test d u ∨ s.th = .decided d u ∨ s.th = .blocked d u → d ≤ M

theorem within_step {M : Nat} (s : Beat) (op : BeatOp) (hm : ∀ d, sets op = some d → d ≤ M) (h : Within M s) : Within M (s.step op) := by
  obtain ⟨now, interval, stop, th, call, connected, sent⟩ := s
  obtain ⟨h1, h2, h3⟩ := h
  dsimp only at *
  cases op with
  | thread => cases th <;> simp only [Beat.step, Beat.thread] <;> (try split) <;> (constructor <;> grind)
  | caller =>
    rcases woken_eq th with ⟨e, u, e1, e2⟩ | e2 <;> cases call <;> simp only [Beat.step, Beat.caller] <;> (try split) <;> (constructor <;> grind)
  | _ =>
    rcases woken_eq th with ⟨e, u, e1, e2⟩ | e2 <;> simp only [Beat.step, Beat.haltBy] <;> (try split) <;> (try split) <;> (constructor <;> grind [sets])

theorem within_run {M : Nat} (s : Beat) (ops : List BeatOp) (hm : ∀ op ∈ ops, ∀ d, sets op = some d → d ≤ M) (h : Within M s) : Within M (s.run ops) := by
  induction ops generalizing s with
  | nil => exact h
  | cons op ops ih => exact ih _ (fun o ho => hm o (by simp [ho])) (within_step s op (hm op (by simp)) h)

/-- A call from outside. -/
def FromOutside : BeatOp → Prop
  | .setOn _ => True
  | .setOff => True
  | .halt => True
  | _ => False

/-- A call that stops the thread, begun at `t`, has not returned. -/
structure Halting (M t : Nat) (s : Beat) : Prop where
  within : Within M s
  there : s.th ≠ .none
  call : s.call = .flag true ∨ s.call = .notify true ∨ s.call = .join true ∨ s.call = .flag false ∨ s.call = .notify false ∨ s.call = .join false
  raised : ∀ r, s.call = .notify r ∨ s.call = .join r → s.stop = true
  early : ∀ r, s.call = .flag r ∨ s.call = .notify r → s.now = t
  after : t ≤ s.now ∧ s.now ≤ t + M
  wait : ∀ d u, s.th = .test d u ∨ s.th = .decided d u ∨ s.th = .blocked d u → u ≤ t + M
  place : s.now = t ∨ s.th = .left ∨ s.th = .ended ∨ ∃ d u, s.th = .test d u ∨ s.th = .decided d u ∨ s.th = .blocked d u

theorem halting_step {M t : Nat} (s : Beat) (op : BeatOp) (hn : ¬ FromOutside op) (hp : op = .tick → s.threadRests = true ∧ s.callRests = true)
    (h : Halting M t s) : Halting M t (s.step op) ∨ (s.step op).call = .idle := by
  have hsets : ∀ d, sets op = some d → (s.step op) = s := by
    intro d hd
    cases op with
    | setOn e => exact absurd trivial hn
    | selfOn e =>
      simp only [Beat.step]
      rw [if_neg]
      have := h.call
      rintro ⟨-, hc, -⟩
      rw [hc] at this
      simp at this
    | _ => simp [sets] at hd
  by_cases hse : ∃ d, sets op = some d
  · obtain ⟨d, hd⟩ := hse
    rw [hsets d hd]
    exact .inl h
  have hw := within_step (M := M) s op (fun d hd => absurd ⟨d, hd⟩ hse) h.within
  by_cases hr : (s.step op).call = .idle
  · exact .inr hr
  left
  obtain ⟨now, interval, stop, th, call, connected, sent⟩ := s
  obtain ⟨⟨h1, h2, h3⟩, hth, h4, h5, h6, h7, h8, h9⟩ := h
  dsimp only at *
  cases op with
  | setOn d => exact absurd trivial hn
  | setOff => exact absurd trivial hn
  | halt => exact absurd trivial hn
  | thread =>
    refine ⟨hw, ?_, ?_, ?_, ?_, ?_, ?_, ?_⟩ <;> cases th <;> simp only [Beat.step, Beat.thread] <;> (try split) <;> grind
  | caller =>
    rcases woken_eq th with ⟨e, u, e1, e2⟩ | e2 <;> refine ⟨hw, ?_, ?_, ?_, ?_, ?_, ?_, ?_⟩ <;> cases call <;> simp only [Beat.step, Beat.caller] at hr ⊢ <;> grind
  | tick =>
    obtain ⟨h10, h11⟩ := hp rfl
    refine ⟨hw, ?_, ?_, ?_, ?_, ?_, ?_, ?_⟩ <;> cases th <;> simp only [Beat.threadRests, Beat.callRests, Beat.step] at * <;> grind
  | _ =>
    rcases woken_eq th with ⟨e, u, e1, e2⟩ | e2 <;> refine ⟨hw, ?_, ?_, ?_, ?_, ?_, ?_, ?_⟩ <;> simp only [Beat.step] <;> grind [BeatTh.calling]

/-- A call that has returned stays returned. -/
theorem idle_run (ops : List BeatOp) : ∀ s : Beat, (∀ op ∈ ops, ¬ FromOutside op) → s.call = .idle → (s.run ops).call = .idle := by
  induction ops with
  | nil => intro s _ h; exact h
  | cons op ops ih =>
    intro s hn h
    refine ih _ (fun o ho => hn o (by simp [ho])) ?_
    have := hn op (by simp)
    cases op with
    | setOn d => exact absurd trivial this
    | setOff => exact absurd trivial this
    | halt => exact absurd trivial this
    | thread => simp only [Beat.step, Beat.thread]; split <;> (try split) <;> exact h
    | caller => simp only [Beat.step, Beat.caller]; rw [h]; exact h
    | _ => simp only [Beat.step] <;> (try split) <;> exact h

theorem halting_run {M t : Nat} (ops : List BeatOp) : ∀ s : Beat, (∀ op ∈ ops, ¬ FromOutside op) → s.Prompt ops → Halting M t s →
    Halting M t (s.run ops) ∨ (s.run ops).call = .idle := by
  induction ops with
  | nil => intro s _ _ h; exact .inl h
  | cons op ops ih =>
    intro s hn hp h
    rcases halting_step s op (hn op (by simp)) hp.1 h with h | h
    · exact ih _ (fun o ho => hn o (by simp [ho])) hp.2 h
    · exact .inr (idle_run ops _ (fun o ho => hn o (by simp [ho])) h)

/-- The state in which such a call finds the thread. -/
theorem halting_begin {M : Nat} (s : Beat) (op : BeatOp) (ho : op = .setOff ∨ op = .halt) (hi : BeatInv s) (hw : Within M s) (hc : s.call = .idle) :
    Halting M s.now (s.step op) ∨ (s.step op).call = .idle := by
  by_cases ht : s.th = .none
  · right
    rcases ho with rfl | rfl <;> simp [Beat.step, Beat.haltBy, hc, ht]
  · left
    obtain ⟨h1, h2, h3⟩ := hw
    have h4 := hi.wait
    rcases ho with rfl | rfl <;> simp only [Beat.step, Beat.haltBy, if_pos hc, if_neg ht] <;> constructor
    all_goals first
      | (constructor <;> grind)
      | grind

/-- **C112.** Switching keepalive off, `Stop` and the destructor take no longer than the longest interval that was ever set, if sends take no time and everybody goes on when
they can: as long as the call has not returned, no more time has passed. -/
theorem C112_bound (ops more : List BeatOp) (op : BeatOp) (ho : op = .setOff ∨ op = .halt) (hc : (Beat.init.run ops).call = .idle) (M : Nat)
    (hm : ∀ o ∈ ops, ∀ d, sets o = some d → d ≤ M) (hn : ∀ o ∈ more, ¬ FromOutside o) (hp : (Beat.init.run (ops ++ [op])).Prompt more)
    (hr : (Beat.init.run (ops ++ op :: more)).call ≠ .idle) :
    (Beat.init.run (ops ++ op :: more)).now ≤ (Beat.init.run ops).now + M := by
  have hw : Within M (Beat.init.run ops) := within_run _ ops hm (by constructor <;> simp [Beat.init])
  have e : Beat.init.run (ops ++ op :: more) = (Beat.init.run (ops ++ [op])).run more := by rw [← beat_append]; simp
  have e1 : Beat.init.run (ops ++ [op]) = (Beat.init.run ops).step op := by rw [beat_append]; rfl
  rw [e] at hr ⊢
  rw [e1] at hp hr ⊢
  rcases halting_begin _ op ho (beatInv_run _ ops beatInv_init) hw hc with h | h
  · rcases halting_run more _ hn hp h with h | h
    · exact h.after.2
    · exact absurd h hr
  · exact absurd (idle_run more _ hn h) hr

def _root_.Verif.Server.BeatTh.isTest : BeatTh → Bool
  | .test _ _ => true
  | _ => false

def _root_.Verif.Server.BeatTh.isBlocked : BeatTh → Bool
  | .blocked _ _ => true
  | _ => false

def _root_.Verif.Server.BeatCall.isEarly : BeatCall → Bool
  | .flag _ => true
  | .notify _ => true
  | _ => false

theorem woken_flags (t : BeatTh) : t.woken.isBlocked = false ∧ (t.isBlocked = true → t.woken.isTest = true) := by
  cases t <;> simp [BeatTh.woken, BeatTh.isBlocked, BeatTh.isTest]

/-- The thread was asleep when the call began at `t`, and nothing has kept it from waking up. -/
structure Swift (t : Nat) (s : Beat) : Prop where
  now : s.now = t
  call : s.call ≠ .on
  there : s.call ≠ .idle → s.th ≠ .none
  raised : ∀ r, s.call = .notify r ∨ s.call = .join r → s.stop = true
  pos : ∀ d u, s.th = .test d u ∨ s.th = .blocked d u → 0 < d
  before : ∀ d u, s.th = .blocked d u → s.interval = 0 ∨ s.now < u
  place : s.call = .idle ∨ s.th = .ended ∨
    ((s.interval = 0 ∨ s.stop = true) ∧ (s.th = .left ∨ (s.th = .past ∧ s.interval = 0) ∨ s.th.isTest = true)) ∨ s.th.isBlocked = true ∧ s.call.isEarly = true

theorem swift_step {t : Nat} (s : Beat) (op : BeatOp) (hn : ¬ FromOutside op) (hw : s.interval = 0 ∨ op ≠ .spurious)
    (hp : op = .tick → s.threadRests = true ∧ s.callRests = true) (hi : s.call ≠ .idle) (h : Swift t s) : Swift t (s.step op) ∧ (s.step op).interval = s.interval := by
  obtain ⟨now, interval, stop, th, call, connected, sent⟩ := s
  obtain ⟨h1, h2, h3, h4, h6, h7, h5⟩ := h
  dsimp only at *
  cases op with
  | setOn d => exact absurd trivial hn
  | setOff => exact absurd trivial hn
  | halt => exact absurd trivial hn
  | thread =>
    cases th <;> simp only [Beat.step, Beat.thread] <;> (try split) <;> (refine ⟨⟨?_, ?_, ?_, ?_, ?_, ?_, ?_⟩, ?_⟩ <;> grind [BeatTh.isTest, BeatTh.isBlocked, BeatCall.isEarly])
  | caller =>
    have hf := woken_flags th
    rcases woken_eq th with ⟨e, u, e1, e2⟩ | e2 <;> cases call <;> simp only [Beat.step, Beat.caller] <;> (try split) <;>
      (refine ⟨⟨?_, ?_, ?_, ?_, ?_, ?_, ?_⟩, ?_⟩ <;> grind [BeatTh.isTest, BeatTh.isBlocked, BeatCall.isEarly])
  | tick =>
    obtain ⟨h10, h11⟩ := hp rfl
    exfalso
    cases th <;> simp only [Beat.threadRests, Beat.callRests] at * <;> grind [BeatTh.isTest, BeatTh.isBlocked, BeatCall.isEarly]
  | _ =>
    rcases woken_eq th with ⟨e, u, e1, e2⟩ | e2 <;> simp only [Beat.step] <;> (try split) <;> (refine ⟨⟨?_, ?_, ?_, ?_, ?_, ?_, ?_⟩, ?_⟩ <;> grind [BeatTh.calling, BeatTh.isTest, BeatTh.isBlocked, BeatCall.isEarly])

theorem swift_run {t : Nat} (ops : List BeatOp) : ∀ s : Beat, (∀ op ∈ ops, ¬ FromOutside op) → (s.interval = 0 ∨ .spurious ∉ ops) → s.Prompt ops → Swift t s →
    (s.run ops).now = t ∨ (s.run ops).call = .idle := by
  induction ops with
  | nil => intro s _ _ _ h; exact .inl h.now
  | cons op ops ih =>
    intro s hn hw hp h
    by_cases hc : s.call = .idle
    · exact .inr (idle_run (op :: ops) s hn hc)
    · obtain ⟨h1, h2⟩ := swift_step s op (hn op (by simp)) (by rcases hw with h | h; exact .inl h; right; rintro rfl; simp at h) hp.1 hc h
      refine ih _ (fun o ho => hn o (by simp [ho])) ?_ hp.2 h1
      rcases hw with h | h
      · exact .inl (h2.trans h)
      · exact .inr (fun hm => h (by simp [hm]))

/-- **C112.** If the thread is asleep when the call begins, the call takes no time at all. Missing: a thread that has looked at the flags and is about to fall asleep (see the
counterexample); and, for `Stop`, wake-ups without cause, which may bring the thread there. -/
theorem C112_asleep_partial (ops more : List BeatOp) (op : BeatOp) (hc : (Beat.init.run ops).call = .idle) (d u : Nat)
    (hb : (Beat.init.run ops).th = .blocked d u) (ho : op = .setOff ∨ op = .halt ∧ (Beat.init.run ops).now < u ∧ .spurious ∉ more)
    (hn : ∀ o ∈ more, ¬ FromOutside o) (hp : (Beat.init.run (ops ++ [op])).Prompt more)
    (hr : (Beat.init.run (ops ++ op :: more)).call ≠ .idle) :
    (Beat.init.run (ops ++ op :: more)).now = (Beat.init.run ops).now := by
  have e : Beat.init.run (ops ++ op :: more) = (Beat.init.run (ops ++ [op])).run more := by rw [← beat_append]; simp
  have e1 : Beat.init.run (ops ++ [op]) = (Beat.init.run ops).step op := by rw [beat_append]; rfl
  have hi := (beatInv_run _ ops beatInv_init).wait d u (.inr (.inr hb))
  rw [e] at hr ⊢
  rw [e1] at hp hr ⊢
  have hne : (Beat.init.run ops).th ≠ .none := by rw [hb]; simp
  have h0 : Swift (Beat.init.run ops).now ((Beat.init.run ops).step op) ∧ (((Beat.init.run ops).step op).interval = 0 ∨ .spurious ∉ more) := by
    rcases ho with rfl | ⟨rfl, h1, h2⟩ <;> simp only [Beat.step, Beat.haltBy, if_pos hc, if_neg hne]
    · refine ⟨⟨rfl, ?_, ?_, ?_, ?_, ?_, ?_⟩, .inl trivial⟩ <;> grind [BeatTh.isTest, BeatTh.isBlocked, BeatCall.isEarly]
    · refine ⟨⟨rfl, ?_, ?_, ?_, ?_, ?_, ?_⟩, .inr h2⟩ <;> grind [BeatTh.isTest, BeatTh.isBlocked, BeatCall.isEarly]
  rcases swift_run more _ hn h0.2 hp h0.1 with h | h
  · exact h
  · exact absurd h hr

end Verif
