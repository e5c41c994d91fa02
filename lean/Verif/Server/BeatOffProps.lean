import Verif.Server.BeatProps

/-!
C112, continued: the rhythm of the keepalives, the silence after keepalive was switched off and how long switching it off takes.
-/

namespace Verif
open Server

/-! ### The rhythm -/

/-- Nothing but time, the thread and sends that succeed. -/
def Undisturbing : BeatOp → Prop
  | .thread => True
  | .caller => True
  | .spurious => True
  | .tick => True
  | .result failed _ => failed = false
  | _ => False

structure Rhythm (pre : List Nat) (t d k : Nat) (s : Beat) : Prop where
  sent : s.sent = pre ++ t :: multiples t d k
  interval : s.interval = d
  quiet : s.stop = false ∧ s.call = .idle ∧ s.connected = true
  place : match s.th with
    | .top => s.now = t + k * d
    | .read => s.now = t + k * d
    | .got e => e = d ∧ s.now = t + k * d
    | .sending => s.now = t + k * d
    | .test e u => e = d ∧ u = t + (k + 1) * d ∧ t + k * d ≤ s.now ∧ s.now ≤ u
    | .decided e u => e = d ∧ u = t + (k + 1) * d ∧ t + k * d ≤ s.now ∧ s.now ≤ u
    | .blocked e u => e = d ∧ u = t + (k + 1) * d ∧ t + k * d ≤ s.now ∧ s.now ≤ u
    | .left => s.now = t + (k + 1) * d
    | .past => s.now = t + (k + 1) * d
    | .live => s.now = t + (k + 1) * d
    | _ => False

theorem rhythm_step {pre : List Nat} {t d k : Nat} (hd : 0 < d) (s : Beat) (op : BeatOp) (hu : Undisturbing op)
    (hp : op = .tick → s.threadRests = true ∧ s.callRests = true) (h : Rhythm pre t d k s) : ∃ k, Rhythm pre t d k (s.step op) := by
  obtain ⟨now, interval, stop, th, call, connected, sent⟩ := s
  obtain ⟨h1, h2, ⟨h3, h4, h5⟩, h6⟩ := h
  dsimp only at *
  subst h3 h4 h5 h2
  have e : t + (k + 1) * interval = t + k * interval + interval := by rw [Nat.succ_mul]; omega
  cases op with
  | thread =>
    simp only [Beat.step, Beat.thread]
    cases th with
    | live =>
      refine ⟨k + 1, ?_, rfl, ⟨rfl, rfl, rfl⟩, h6⟩
      have h7 : now = t + (k + 1) * interval := h6
      show sent ++ [now] = _
      rw [h1, h7]
      simp [multiples]
    | blocked a u =>
      dsimp only at h6 ⊢
      split
      · exact ⟨k, h1, rfl, ⟨rfl, rfl, rfl⟩, by dsimp only; omega⟩
      · exact ⟨k, h1, rfl, ⟨rfl, rfl, rfl⟩, h6⟩
    | got a => exact ⟨k, h1, rfl, ⟨rfl, rfl, rfl⟩, by dsimp only at h6 ⊢; omega⟩
    | test a u =>
      dsimp only at h6 ⊢
      have : a = interval := h6.1
      refine ⟨k, h1, rfl, ⟨rfl, rfl, rfl⟩, ?_⟩
      simp only [this, Bool.false_or, ne_eq, not_true_eq_false, decide_false, Bool.false_eq_true, if_false]
      exact ⟨trivial, h6.2⟩
    | read => exact ⟨k, h1, rfl, ⟨rfl, rfl, rfl⟩, by dsimp only at h6 ⊢; rw [if_neg (by omega)]; exact ⟨rfl, h6⟩⟩
    | past => exact ⟨k, h1, rfl, ⟨rfl, rfl, rfl⟩, by dsimp only at h6 ⊢; rw [if_neg (by omega)]; exact h6⟩
    | callback c => exact absurd h6 id
    | _ => exact ⟨k, h1, rfl, ⟨rfl, rfl, rfl⟩, h6⟩
  | caller => exact ⟨k, h1, rfl, ⟨rfl, rfl, rfl⟩, h6⟩
  | spurious =>
    simp only [Beat.step]
    cases th <;> exact ⟨k, h1, rfl, ⟨rfl, rfl, rfl⟩, h6⟩
  | tick =>
    have h7 := hp rfl
    simp only [Beat.step]
    cases th with
    | blocked a u =>
      simp only [Beat.threadRests, decide_eq_true_eq] at h7
      exact ⟨k, h1, rfl, ⟨rfl, rfl, rfl⟩, by dsimp only at h6 ⊢; omega⟩
    | none => exact absurd h6 id
    | ended => exact absurd h6 id
    | _ => simp [Beat.threadRests] at h7
  | result f c =>
    have : f = false := hu
    subst this
    simp only [Beat.step]
    split
    · rename_i h7
      subst h7
      exact ⟨k, h1, rfl, ⟨rfl, rfl, rfl⟩, h6⟩
    · exact ⟨k, h1, rfl, ⟨rfl, rfl, rfl⟩, h6⟩
  | _ => exact absurd hu id

theorem rhythm_run {pre : List Nat} {t d : Nat} (hd : 0 < d) : ∀ (ops : List BeatOp) (k : Nat) (s : Beat), (∀ op ∈ ops, Undisturbing op) → s.Prompt ops →
    Rhythm pre t d k s → ∃ k, Rhythm pre t d k (s.run ops)
  | [], k, s, _, _, h => ⟨k, h⟩
  | op :: ops, k, s, hu, hp, h => by
    obtain ⟨k', h'⟩ := rhythm_step hd s op (hu op (by simp)) hp.1 h
    exact rhythm_run hd ops k' _ (fun o ho => hu o (by simp [ho])) hp.2 h'

/-- **C112.** While nobody interferes, sends succeed at once and the thread goes on when it can, keepalives come exactly an interval apart: those after the one at
time `t` at `t + d`, `t + 2 d` and so on, as many as fit into the time that has passed. -/
theorem C112_rhythm (ops more : List BeatOp) (pre : List Nat) (hs : (Beat.init.run ops).th = .sending) (hc : (Beat.init.run ops).call = .idle)
    (hcn : (Beat.init.run ops).connected = true) (ht : (Beat.init.run ops).sent = pre ++ [(Beat.init.run ops).now])
    (hd : 0 < (Beat.init.run ops).interval) (hst : (Beat.init.run ops).stop = false) (hu : ∀ op ∈ more, Undisturbing op) (hp : (Beat.init.run ops).Prompt more) :
    ∃ k, (Beat.init.run (ops ++ more)).sent = pre ++ (Beat.init.run ops).now :: multiples (Beat.init.run ops).now (Beat.init.run ops).interval k ∧
      (Beat.init.run ops).now + k * (Beat.init.run ops).interval ≤ (Beat.init.run (ops ++ more)).now ∧
      (Beat.init.run (ops ++ more)).now ≤ (Beat.init.run ops).now + (k + 1) * (Beat.init.run ops).interval := by
  have h0 : Rhythm pre (Beat.init.run ops).now (Beat.init.run ops).interval 0 (Beat.init.run ops) := by
    refine ⟨ht, rfl, ⟨hst, hc, hcn⟩, ?_⟩
    rw [hs]
    simp
  obtain ⟨k, h1, h2, -, h4⟩ := rhythm_run hd more 0 _ hu hp h0
  rw [beat_append]
  refine ⟨k, h1, ?_⟩
  have e : (Beat.init.run ops).now + (k + 1) * (Beat.init.run ops).interval = (Beat.init.run ops).now + k * (Beat.init.run ops).interval + (Beat.init.run ops).interval := by
    rw [Nat.succ_mul]; omega
  split at h4 <;> first | exact h4.elim | omega

/-! ### Silence -/

/-- The thread is on its way out, and nobody is about to start one. -/
structure Leaving (s : Beat) : Prop where
  call : s.call ≠ .on
  place : s.th = .none ∨ s.th = .ended ∨ (s.interval = 0 ∧ (s.th = .top ∨ s.th = .read ∨ s.th.calling = true)) ∨
    (s.stop = true ∧ (s.th = .top ∨ s.th.calling = true))

theorem leaving_step (s : Beat) (op : BeatOp) (hn : ¬ SwitchesOn op) (h : Leaving s) : Leaving (s.step op) ∧ (s.step op).sent = s.sent := by
  obtain ⟨now, interval, stop, th, call, connected, sent⟩ := s
  obtain ⟨h1, h2⟩ := h
  dsimp only at *
  cases op with
  | setOn d => exact absurd trivial hn
  | selfOn d => exact absurd trivial hn
  | thread =>
    cases th <;> simp only [Beat.step, Beat.thread] <;> (try split) <;> (refine ⟨⟨?_, ?_⟩, ?_⟩ <;> grind [BeatTh.calling])
  | caller =>
    rcases woken_eq th with ⟨e, u, e1, e2⟩ | e2 <;> cases call <;> simp only [Beat.step, Beat.caller] <;> (try split) <;> (refine ⟨⟨?_, ?_⟩, ?_⟩ <;> grind [BeatTh.calling])
  | _ =>
    rcases woken_eq th with ⟨e, u, e1, e2⟩ | e2 <;> simp only [Beat.step, Beat.haltBy] <;> (try split) <;> (try split) <;> (refine ⟨⟨?_, ?_⟩, ?_⟩ <;> grind [BeatTh.calling])

/-- **C112.** Once keepalive was switched off, or the server stopped, and the call has returned, no keepalive is sent until it is switched on again; the same when the
call was made by the error callback. -/
theorem C112_silent (ops more : List BeatOp) (hc : (Beat.init.run ops).call = .idle)
    (ho : (Beat.init.run ops).interval = 0 ∨ (Beat.init.run ops).stop = true) (hn : ∀ op ∈ more, ¬ SwitchesOn op) :
    (Beat.init.run (ops ++ more)).sent = (Beat.init.run ops).sent := by
  have hi := beatInv_run _ ops beatInv_init
  have h0 : Leaving (Beat.init.run ops) := by
    refine ⟨by rw [hc]; simp, ?_⟩
    rcases ho with h | h
    · have := hi.silent hc h; grind
    · have := hi.halted (.inl hc) h; grind
  have key : ∀ (l : List BeatOp) (s : Beat), (∀ op ∈ l, ¬ SwitchesOn op) → Leaving s → (s.run l).sent = s.sent := by
    intro l
    induction l with
    | nil => intros; rfl
    | cons op l ih =>
      intro s hl hs
      obtain ⟨a, b⟩ := leaving_step s op (hl op (by simp)) hs
      exact (ih _ (fun o ho => hl o (by simp [ho])) a).trans b
  rw [beat_append]
  exact key more _ hn h0

/-- Keepalive is off or the thread told to stop, and at most one keepalive has come since. -/
structure Fading (pre : List Nat) (s : Beat) : Prop where
  inv : BeatInv s
  call : s.call ≠ .on
  off : s.interval = 0 ∨ s.stop = true ∨ s.th = .none
  sent : s.sent = pre ∨ (∃ t, s.sent = pre ++ [t]) ∧ (s.th = .none ∨ s.th = .ended ∨ s.th = .sending ∨ s.th.calling = true ∨ s.th = .top ∨ (s.th = .read ∧ s.interval = 0))

theorem fading_step {pre : List Nat} (s : Beat) (op : BeatOp) (hn : ¬ SwitchesOn op) (h : Fading pre s) : Fading pre (s.step op) := by
  refine ⟨beatInv_step s op h.inv, ?_, ?_, ?_⟩
  all_goals
    obtain ⟨now, interval, stop, th, call, connected, sent⟩ := s
    obtain ⟨h0, h1, h2, h3⟩ := h
    have h5 := h0.off
    have h6 := h0.raised
    dsimp only at *
    cases op with
    | setOn d => exact absurd trivial hn
    | selfOn d => exact absurd trivial hn
    | thread =>
      cases th <;> simp only [Beat.step, Beat.thread] <;> (try split) <;> grind [BeatTh.calling]
    | caller =>
      rcases woken_eq th with ⟨e, u, e1, e2⟩ | e2 <;> cases call <;> simp only [Beat.step, Beat.caller] <;> (try split) <;> grind [BeatTh.calling]
    | _ =>
      rcases woken_eq th with ⟨e, u, e1, e2⟩ | e2 <;> simp only [Beat.step, Beat.haltBy] <;> (try split) <;> (try split) <;> grind [BeatTh.calling]

/-- **C112.** From the moment the interval is erased or the stop flag raised, at most one more keepalive is sent until keepalive is switched on again. -/
theorem C112_one_more (ops more : List BeatOp) (hc : (Beat.init.run ops).call ≠ .on)
    (ho : (Beat.init.run ops).interval = 0 ∨ (Beat.init.run ops).stop = true) (hn : ∀ op ∈ more, ¬ SwitchesOn op) :
    ∃ added, (Beat.init.run (ops ++ more)).sent = (Beat.init.run ops).sent ++ added ∧ added.length ≤ 1 := by
  have h0 : Fading (Beat.init.run ops).sent (Beat.init.run ops) := ⟨beatInv_run _ ops beatInv_init, hc, by grind, .inl rfl⟩
  have key : ∀ (l : List BeatOp) (s : Beat), (∀ op ∈ l, ¬ SwitchesOn op) → Fading (Beat.init.run ops).sent s → Fading (Beat.init.run ops).sent (s.run l) := by
    intro l
    induction l with
    | nil => intros; assumption
    | cons op l ih => intro s hl hs; exact ih _ (fun o ho => hl o (by simp [ho])) (fading_step s op (hl op (by simp)) hs)
  have := (key more _ hn h0).sent
  rw [beat_append]
  rcases this with h | ⟨⟨t, h⟩, -⟩
  · exact ⟨[], by simp [h], by simp⟩
  · exact ⟨[t], h, by simp⟩

end Verif
