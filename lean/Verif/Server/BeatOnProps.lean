import Verif.Server.BeatEndProps

/-!
C112, continued: the keepalive thread stays at work until it is told to stop or a send that failed closes the transport, and sends when there is a connection.
-/

namespace Verif
open Server

/-! ### Specification -/

/-- Somebody switches keepalive off or stops the server. -/
def PutsOut : BeatOp → Prop
  | .setOff => True
  | .halt => True
  | .selfOff => True
  | .selfHalt => True
  | _ => False

/-- A send fails and closes the transport. -/
def GivesUp : BeatOp → Prop
  | .result failed closes => failed = true ∧ closes = true
  | _ => False

/-- The thread runs, with an interval, and is not on its way out. -/
def AtWork (s : Beat) : Prop := s.th ≠ .none ∧ s.th ≠ .ended ∧ s.th ≠ .callback true ∧ s.interval ≠ 0 ∧ s.stop = false

/-! ### The thread stays -/

structure Lasting (s : Beat) : Prop where
  work : AtWork s
  call : s.call = .idle ∨ s.call = .on

theorem lasting_step (s : Beat) (op : BeatOp) (h1 : ¬ PutsOut op) (h2 : ¬ GivesUp op) (h : Lasting s) : Lasting (s.step op) := by
  obtain ⟨now, interval, stop, th, call, connected, sent⟩ := s
  obtain ⟨⟨g1, g2, g3, g4, g5⟩, g6⟩ := h
  dsimp only at *
  subst g5
  cases op with
  | thread =>
    cases th <;> simp only [Beat.step, Beat.thread] <;> (try split) <;> (constructor <;> grind [AtWork])
  | caller =>
    rcases g6 with rfl | rfl <;> simp only [Beat.step, Beat.caller] <;> (try split) <;> rcases woken_eq th with ⟨d, u, e, e'⟩ | e' <;>
      (constructor <;> grind [AtWork])
  | setOff => exact absurd trivial h1
  | halt => exact absurd trivial h1
  | selfOff => exact absurd trivial h1
  | selfHalt => exact absurd trivial h1
  | result failed closes =>
    simp only [GivesUp] at h2
    simp only [Beat.step]
    split
    · constructor <;> cases failed <;> cases closes <;> simp_all [AtWork]
    · exact ⟨⟨g1, g2, g3, g4, rfl⟩, g6⟩
  | _ =>
    rcases woken_eq th with ⟨d, u, e, e'⟩ | e' <;> simp only [Beat.step] <;> (try split) <;> (constructor <;> grind [AtWork])

/-- **C112.** Once keepalive is switched on and the call has returned, the thread stays at work, whatever the connection does, however sends end and whatever interval is
set, until somebody switches it off or stops the server or a failed send closes the transport. -/
theorem C112_lasts (ops more : List BeatOp) (d : Nat) (hd : 0 < d) (hs : (Beat.init.run ops).th = .none) (hc : (Beat.init.run ops).call = .idle)
    (hm : ∀ op ∈ more, ¬ PutsOut op ∧ ¬ GivesUp op) : AtWork ((Beat.init.run (ops ++ [.setOn d, .caller])).run more) := by
  have start : Lasting (Beat.init.run (ops ++ [.setOn d, .caller])) := by
    rw [beat_append]
    generalize Beat.init.run ops = s at hs hc
    obtain ⟨now, interval, stop, th, call, connected, sent⟩ := s
    dsimp only at hs hc
    subst hs hc
    simp only [Beat.run, List.foldl_cons, List.foldl_nil, Beat.step, true_and, if_pos hd, Beat.caller, if_true]
    exact ⟨⟨by simp, by simp, by simp, by simp; omega, rfl⟩, .inl rfl⟩
  have all : ∀ (more : List BeatOp) (s : Beat), (∀ op ∈ more, ¬ PutsOut op ∧ ¬ GivesUp op) → Lasting s → Lasting (s.run more) := by
    intro more
    induction more with
    | nil => exact fun s _ h => h
    | cons op l ih =>
      intro s hm h
      have h0 := hm op (List.mem_cons_self ..)
      exact ih _ (fun op h => hm op (List.mem_cons_of_mem _ h)) (lasting_step s op h0.1 h0.2 h)
  exact (all more _ hm start).work

/-- The connection comes and goes, a send fails, the interval changes. -/
example : ∀ op ∈ [BeatOp.thread, .connect false, .tick, .thread, .thread, .spurious, .result true false, .setOn 5, .caller, .connect true],
    ¬ PutsOut op ∧ ¬ GivesUp op := by
  intro op h
  simp only [List.mem_cons, List.not_mem_nil, or_false] at h
  rcases h with rfl | rfl | rfl | rfl | rfl | rfl | rfl | rfl | rfl | rfl <;> simp [PutsOut, GivesUp]

/-! ### It sends -/

/-- Nobody calls, the connection is not lost, and nothing wakes the thread without cause. -/
def Unbothered : BeatOp → Prop
  | .thread => True
  | .caller => True
  | .tick => True
  | .result failed closes => ¬ (failed = true ∧ closes = true)
  | .connect b => b = true
  | _ => False

/-- How far the thread is from its next keepalive. -/
def Server.BeatTh.ahead : BeatTh → Nat
  | .sending => 12
  | .callback _ => 11
  | .top => 10
  | .read => 9
  | .got _ => 8
  | .test _ _ => 7
  | .decided _ _ => 6
  | .blocked _ _ => 5
  | .left => 4
  | .past => 3
  | .live => 2
  | .none => 1
  | .ended => 0

structure Coming (L : Nat) (s : Beat) : Prop where
  work : AtWork s
  idle : s.call = .idle
  link : s.connected = true
  sent : s.sent.length = L

theorem coming_any {L : Nat} (s : Beat) (op : BeatOp) (hop : Unbothered op) (h : Coming L s) : L < (s.step op).sent.length ∨ (Coming L (s.step op) ∧
    (Prod.Lex (· < ·) (· < ·) ((s.step op).th.ahead, (s.step op).th.rest (s.step op).now) (s.th.ahead, s.th.rest s.now) ∨
      (((s.step op).th.ahead, (s.step op).th.rest (s.step op).now) = (s.th.ahead, s.th.rest s.now) ∧ helpsBeat (s.step op) = helpsBeat s))) := by
  obtain ⟨now, interval, stop, th, call, connected, sent⟩ := s
  obtain ⟨⟨g1, g2, g3, g4, g5⟩, g6, g7, g8⟩ := h
  dsimp only at *
  subst g5 g6 g7 g8
  cases op with
  | thread =>
    cases th with
    | none => exact absurd rfl g1
    | ended => exact absurd rfl g2
    | live => left; simp [Beat.step, Beat.thread]
    | blocked d u =>
      right
      simp only [Beat.step, Beat.thread]
      split
      · exact ⟨⟨⟨by simp, by simp, by simp, g4, rfl⟩, rfl, rfl, rfl⟩, .inl (lex_left (by simp [BeatTh.ahead]))⟩
      · exact ⟨⟨⟨by simp, by simp, by simp, g4, rfl⟩, rfl, rfl, rfl⟩, .inr ⟨rfl, rfl⟩⟩
    | sending => exact .inr ⟨⟨⟨by simp [Beat.step, Beat.thread], by simp [Beat.step, Beat.thread], by simp [Beat.step, Beat.thread], g4, rfl⟩, rfl, rfl, rfl⟩, .inr ⟨rfl, rfl⟩⟩
    | callback c =>
      cases c with
      | true => exact absurd rfl g3
      | false =>
        right
        simp only [Beat.step, Beat.thread]
        exact ⟨⟨⟨by simp, by simp, by simp, g4, rfl⟩, rfl, rfl, rfl⟩, .inl (lex_left (by simp [BeatTh.ahead]))⟩
    | test d u =>
      right
      simp only [Beat.step, Beat.thread]
      refine ⟨⟨⟨?_, ?_, ?_, g4, rfl⟩, rfl, rfl, rfl⟩, .inl (lex_left ?_)⟩ <;> split <;> simp [BeatTh.ahead]
    | _ =>
      right
      simp only [Beat.step, Beat.thread, g4, Bool.false_eq_true, if_false]
      exact ⟨⟨⟨by simp, by simp, by simp, g4, rfl⟩, rfl, rfl, rfl⟩, .inl (lex_left (by simp [BeatTh.ahead]))⟩
  | caller => exact .inr ⟨⟨⟨g1, g2, g3, g4, rfl⟩, rfl, rfl, rfl⟩, .inr ⟨rfl, rfl⟩⟩
  | tick =>
    right
    refine ⟨⟨⟨g1, g2, g3, g4, rfl⟩, rfl, rfl, rfl⟩, ?_⟩
    simp only [Beat.step]
    cases th with
    | blocked d u =>
      by_cases hlt : now < u
      · exact .inl (lex_right (by simp only [BeatTh.rest]; omega))
      · refine .inr ⟨by simp only [BeatTh.rest]; congr 1; omega, ?_⟩
        funext op
        simp only [helpsBeat]
        rw [if_neg hlt, if_neg (by omega)]
    | _ => exact .inr ⟨rfl, rfl⟩
  | result failed closes =>
    right
    simp only [Beat.step]
    split
    · rename_i hsend
      subst hsend
      cases failed <;> cases closes <;> simp only [Unbothered] at hop
      · exact ⟨⟨⟨by simp, by simp, by simp, g4, rfl⟩, rfl, rfl, rfl⟩, .inl (lex_left (by simp [BeatTh.ahead]))⟩
      · exact ⟨⟨⟨by simp, by simp, by simp, g4, rfl⟩, rfl, rfl, rfl⟩, .inl (lex_left (by simp [BeatTh.ahead]))⟩
      · exact ⟨⟨⟨by simp, by simp, by simp, g4, rfl⟩, rfl, rfl, rfl⟩, .inl (lex_left (by simp [BeatTh.ahead]))⟩
      · simp at hop
    · exact ⟨⟨⟨g1, g2, g3, g4, rfl⟩, rfl, rfl, rfl⟩, .inr ⟨rfl, rfl⟩⟩
  | connect b => cases hop; exact .inr ⟨⟨⟨g1, g2, g3, g4, rfl⟩, rfl, rfl, rfl⟩, .inr ⟨rfl, rfl⟩⟩
  | _ => exact hop.elim

theorem coming_good {L : Nat} (s : Beat) (op : BeatOp) (h : Coming L s) (hh : helpsBeat s op) : L < (s.step op).sent.length ∨
    Prod.Lex (· < ·) (· < ·) ((s.step op).th.ahead, (s.step op).th.rest (s.step op).now) (s.th.ahead, s.th.rest s.now) := by
  obtain ⟨now, interval, stop, th, call, connected, sent⟩ := s
  obtain ⟨⟨g1, g2, g3, g4, g5⟩, g6, g7, g8⟩ := h
  dsimp only at *
  subst g5 g6 g7 g8
  cases th with
  | none => exact absurd rfl g1
  | ended => exact absurd rfl g2
  | sending =>
    obtain ⟨a, b, rfl⟩ := hh
    right
    simp only [Beat.step, if_true]
    refine lex_left ?_
    split <;> simp [BeatTh.ahead]
  | blocked d u =>
    simp only [helpsBeat] at hh
    right
    split at hh
    · subst hh
      exact lex_right (by simp only [Beat.step, BeatTh.rest]; omega)
    · subst hh
      simp only [Beat.step, Beat.thread]
      rw [if_pos (by omega)]
      exact lex_left (by simp [BeatTh.ahead])
  | callback c =>
    cases c with
    | true => exact absurd rfl g3
    | false => cases hh; exact .inr (lex_left (by simp [Beat.step, Beat.thread, BeatTh.ahead]))
  | live => cases hh; left; simp [Beat.step, Beat.thread]
  | test d u =>
    cases hh
    right
    simp only [Beat.step, Beat.thread]
    refine lex_left ?_
    split <;> simp [BeatTh.ahead]
  | _ =>
    cases hh
    right
    simp only [Beat.step, Beat.thread, g4, Bool.false_eq_true, if_false]
    exact lex_left (by simp [BeatTh.ahead])

/-- C112, partial. While keepalive is on and the transport connected, another keepalive is sent, however the sends end that do not close the transport. Missing: wake-ups
of the thread without cause, which could go on for ever. -/
theorem C112_goes_on_partial (ops : List BeatOp) {f : Nat → BeatOp} (hf : FairBeat f) (hsteady : ∀ n, Unbothered (f n)) (hw : AtWork (Beat.init.run ops))
    (hc : (Beat.init.run ops).call = .idle) (hl : (Beat.init.run ops).connected = true) :
    ∃ k, (Beat.init.run ops).sent.length < ((Beat.init.run ops).run (stretch f 0 k)).sent.length := by
  refine beat_leads_if Unbothered hsteady (Coming (Beat.init.run ops).sent.length) (fun s => (Beat.init.run ops).sent.length < s.sent.length)
    (fun s => (s.th.ahead, s.th.rest s.now)) helpsBeat ?_ coming_any coming_good _ 0 ⟨hw, hc, hl, rfl⟩
  intro s hs n
  unfold helpsBeat
  cases hth : s.th with
  | ended => exact hf.caller n
  | sending => exact hf.result n
  | blocked d u =>
    dsimp only
    split
    · exact hf.tick n
    · exact hf.thread n
  | _ => exact hf.thread n

/-- One after the other. -/
def steadily (n : Nat) : BeatOp := match n % 4 with | 0 => .thread | 1 => .caller | 2 => .tick | _ => .result true false

/-- Keepalive on after the connection was lost and came back: the hypotheses of `C112_goes_on_partial`. -/
example : FairBeat steadily ∧ (∀ n, Unbothered (steadily n)) ∧ let s := Beat.init.run [.setOn 5, .caller, .connect false, .thread, .tick, .connect true]
    AtWork s ∧ s.call = .idle ∧ s.connected = true := by
  have key : ∀ n r, r < 4 → (4 * n + r) % 4 = r := by intro n r hr; omega
  refine ⟨⟨fun n => ⟨4 * n + 0, by omega, ?_⟩, fun n => ⟨4 * n + 1, by omega, ?_⟩, fun n => ⟨4 * n + 2, by omega, ?_⟩, fun n => ⟨4 * n + 3, by omega, true, false, ?_⟩⟩, ?_, ?_⟩
  · unfold steadily; rw [key n 0 (by decide)]; rfl
  · unfold steadily; rw [key n 1 (by decide)]; rfl
  · unfold steadily; rw [key n 2 (by decide)]; rfl
  · unfold steadily; rw [key n 3 (by decide)]; rfl
  · intro n; unfold steadily; split <;> simp [Unbothered]
  · simp only [AtWork]; decide

end Verif
