import Verif.Log.Model
import Verif.Stdio.WriteProps

/-! What a reader makes of a stream of frames with log text between them. -/

namespace Verif.Log
open Framer Stdio

/-- A stretch of standard output: the frame of a message, or log text. -/
inductive Seg where
  | msg (p : Bytes)
  | text (x : Bytes)

/-- Its bytes. -/
def Seg.bytes : Seg → Bytes
  | .msg p => encode p
  | .text x => x

/-- The message begins with a brace, as JSON-RPC messages do, and has no carriage return in it (JSON strings escape them). -/
def Braced (p : Bytes) : Prop := p.head? = some '{' ∧ '\r' ∉ p

/-- The stretch is the frame of such a message, or text without carriage returns. -/
def Seg.Ok : Seg → Prop
  | .msg p => Braced p
  | .text x => '\r' ∉ x

/-- What is left of an unusable header: not empty, no carriage return, and it does not begin like the name of the length field. -/
def Stale (b : Bytes) : Prop := '\r' ∉ b ∧ ∃ c, b.head? = some c ∧ lowerCh c ≠ 'c'

theorem splitSub_no_cr : ∀ {b : Bytes}, '\r' ∉ b → splitSub sep b = none
  | [], _ => by simp [splitSub, sep]
  | c :: b, h => by
    simp only [List.mem_cons, not_or] at h
    rw [splitSub, if_neg, splitSub_no_cr h.2]
    · rfl
    · simp only [sep, List.isPrefixOf]
      simp
      intro e; exact absurd e h.1

theorem splitSub_sep : ∀ {b r : Bytes}, '\r' ∉ b → splitSub sep (b ++ sep ++ r) = some (b, r)
  | [], r, _ => by
    show splitSub sep (sep ++ r) = _
    rw [show sep ++ r = '\r' :: ('\n' :: '\r' :: '\n' :: r) from rfl, splitSub, if_pos (by simp [sep, List.isPrefixOf])]
    rfl
  | c :: b, r, h => by
    simp only [List.mem_cons, not_or] at h
    rw [List.cons_append, List.cons_append, splitSub, if_neg, splitSub_sep h.2]
    · rfl
    · simp only [sep, List.isPrefixOf]
      simp
      intro e; exact absurd e h.1

/-- A line that does not begin with the letter c says nothing about the length. -/
theorem stale_other {b : Bytes} (x : Bytes) (h : Stale b) : clenValue (b ++ x) = none := by
  apply clenValue_other
  rintro v ⟨name, he, _, hl⟩
  obtain ⟨_, c, hc, hne⟩ := h
  cases b with
  | nil => simp at hc
  | cons d b =>
    simp only [List.head?_cons, Option.some.injEq] at hc
    subst hc
    cases name with
    | nil => exact absurd hl (by decide)
    | cons e name =>
      simp only [List.cons_append, List.cons.injEq] at he
      rw [← he.1] at hl
      have h2 : lit "content-length" = 'c' :: lit "ontent-length" := by decide
      rw [h2, List.map_cons, List.cons.injEq] at hl
      exact hne hl.1

theorem digits_no_cr (n : Nat) : '\r' ∉ natDec n := fun h => by
  have := (clen_line_plain n).2.1
  exact this (List.mem_append_right _ h)

/-- The frame of a message that follows stale text is refused, and its body is what is stale then. -/
theorem feed_msg {max : Nat} {stay : List Bytes → Bool} {r : Reader} {p : Bytes} (hc : r.connected = true) (hs : Stale r.buf)
    (hp : Braced p) : feed max stay r (encode p) = { r with buf := p } := by
  rw [feed, if_pos hc, drainAll_step, if_neg (by simp [hc])]
  simp only
  have e : r.buf ++ encode p = (r.buf ++ (lit "Content-Length: " ++ natDec p.length)) ++ sep ++ p := by
    simp [encode, List.append_assoc]
  have hcr : '\r' ∉ r.buf ++ (lit "Content-Length: " ++ natDec p.length) := by
    intro h
    rcases List.mem_append.1 h with h | h
    · exact hs.1 h
    · exact (clen_line_plain p.length).2.1 h
  have hd : tryDecodeEx max (r.buf ++ encode p) = .invalid ((r.buf ++ (lit "Content-Length: " ++ natDec p.length)).length + sep.length) := by
    rw [e, tryDecodeEx, splitSub_sep hcr]
    simp only
    rw [headerLines_single _ _ hcr, if_neg (by obtain ⟨_, c, h, _⟩ := hs; cases hb : r.buf <;> simp_all)]
    simp only [List.nil_append, scanLines, stale_other _ hs]
  rw [hd]
  simp only
  have hdrop : (r.buf ++ encode p).drop ((r.buf ++ (lit "Content-Length: " ++ natDec p.length)).length + sep.length) = p := by
    rw [e, ← List.length_append, List.drop_left]
  rw [hdrop, drainAll_step, if_neg (by simp [hc])]
  simp only
  rw [tryDecodeEx, splitSub_no_cr hp.2]

theorem feed_text {max : Nat} {stay : List Bytes → Bool} {r : Reader} {x : Bytes} (hc : r.connected = true) (hs : '\r' ∉ r.buf)
    (hx : '\r' ∉ x) : feed max stay r x = { r with buf := r.buf ++ x } := by
  rw [feed, if_pos hc, drainAll_step, if_neg (by simp [hc])]
  simp only
  rw [tryDecodeEx, splitSub_no_cr]
  intro h
  rcases List.mem_append.1 h with h | h
  · exact hs h
  · exact hx h

theorem stale_text {b x : Bytes} (h : Stale b) (hx : '\r' ∉ x) : Stale (b ++ x) := by
  obtain ⟨h1, c, h2, h3⟩ := h
  refine ⟨fun h => ?_, c, ?_, h3⟩
  · rcases List.mem_append.1 h with h | h
    · exact h1 h
    · exact hx h
  · cases b with
    | nil => simp at h2
    | cons d b => simpa using h2

theorem stale_msg {p : Bytes} (h : Braced p) : Stale p := ⟨h.2, '{', h.1, by decide⟩

theorem drainAll_delivered {max : Nat} {stay : List Bytes → Bool} : ∀ (n : Nat) (r : Reader), r.buf.length < n →
    r.delivered <+: (drainAll max stay r).delivered
  | 0, _, h => absurd h (Nat.not_lt_zero _)
  | n + 1, r, hn => by
    rw [drainAll_step]
    split
    · exact List.prefix_rfl
    · cases h : tryDecodeEx max r.buf with
      | incomplete => exact List.prefix_rfl
      | tooLarge k => exact List.prefix_rfl
      | ok p k =>
        have hk := tryDecodeEx_ok h
        refine (List.prefix_append _ [p]).trans (drainAll_delivered n
          { r with buf := r.buf.drop k, delivered := r.delivered ++ [p], connected := stay (r.delivered ++ [p]) } ?_)
        simp only [List.length_drop]; omega
      | invalid k =>
        have hk := tryDecodeEx_invalid h
        refine drainAll_delivered n { r with buf := r.buf.drop k } ?_
        simp only [List.length_drop]; omega

theorem feed_delivered {max : Nat} {stay : List Bytes → Bool} (r : Reader) (x : Bytes) :
    r.delivered <+: (feed max stay r x).delivered := by
  unfold feed
  split
  · exact drainAll_delivered _ { r with buf := r.buf ++ x } (Nat.lt_succ_self _)
  · exact List.prefix_rfl

/-- From stale text on, nothing is delivered any more. -/
theorem feed_stale {max : Nat} {stay : List Bytes → Bool} : ∀ (segs : List Seg) (r : Reader), Stale r.buf → (∀ s ∈ segs, s.Ok) →
    (feed max stay r (segs.map Seg.bytes).flatten).delivered = r.delivered
  | [], r, hs, _ => by
    by_cases hc : r.connected = true
    · rw [List.map_nil, List.flatten_nil, feed_text hc hs.1 (by simp)]
    · rw [feed, if_neg hc]
  | s :: segs, r, hs, h => by
    by_cases hc : r.connected = true
    · rw [List.map_cons, List.flatten_cons, (feed_append r _ _).1]
      have hss : s.Ok := h s (by simp)
      cases s with
      | msg p =>
        show (feed max stay (feed max stay r (encode p)) _).delivered = _
        rw [feed_msg hc hs hss, feed_stale segs { r with buf := p } (stale_msg (p := p) hss) (fun x hx => h x (by simp [hx]))]
      | text x =>
        show (feed max stay (feed max stay r x) _).delivered = _
        rw [feed_text hc hs.1 hss, feed_stale segs { r with buf := r.buf ++ x } (stale_text hs hss) (fun x hx => h x (by simp [hx]))]
    · rw [feed, if_neg hc]

/-- The frames of messages within the limit leave nothing in the buffer of a reader. -/
theorem feed_frames {max : Nat} {stay : List Bytes → Bool} : ∀ (ps : List Bytes) (r : Reader),
    (∀ p ∈ ps, p.length ≤ max ∧ (encode p).length ≤ sizeMax) → r.buf = [] →
    (feed max stay r (ps.map encode).flatten).connected = true → (feed max stay r (ps.map encode).flatten).buf = []
  | [], r, _, hb, hc => by
    by_cases hr : r.connected = true
    · rw [List.map_nil, List.flatten_nil, feed_text hr (by simp [hb]) (by simp)]; simp [hb]
    · rw [feed, if_neg hr] at hc; exact absurd hc hr
  | p :: ps, r, h, hb, hc => by
    rw [List.map_cons, List.flatten_cons] at hc ⊢
    have hsame := feed_append (max := max) (stay := stay) r (encode p) (ps.map encode).flatten
    rw [hsame.2.2.2 hc]
    rw [hsame.2.1] at hc
    by_cases hr : r.connected = true
    · have hp := h p (by simp)
      have hd := decode_encode hp.1 hp.2 []
      rw [List.append_nil] at hd
      have e : feed max stay r (encode p) =
          drainAll max stay { r with buf := [], delivered := r.delivered ++ [p], connected := stay (r.delivered ++ [p]) } := by
        rw [feed, if_pos hr, drainAll_step, if_neg (by simp [hr])]
        simp only [hb, List.nil_append]
        rw [hd]
        simp
      have e2 : feed max stay r (encode p) =
          { r with buf := [], delivered := r.delivered ++ [p], connected := stay (r.delivered ++ [p]) } := by
        rw [e, drainAll_step]
        split
        · rfl
        · rfl
      rw [e2] at hc ⊢
      exact feed_frames ps _ (fun x hx => h x (by simp [hx])) rfl hc
    · have e : ∀ z, feed max stay r z = r := fun z => by rw [feed, if_neg hr]
      rw [e, e] at hc
      exact absurd hc hr

/-! ### The process -/

theorem out_grows (s : W) (op : WOp) : s.out <+: (s.step op).out := by
  cases op with
  | enqueue p => simp only [W.step, W.enqueue]; split <;> exact List.prefix_rfl
  | dequeue => simp only [W.step, W.dequeue]; split <;> exact List.prefix_rfl
  | write k =>
    simp only [W.step, W.write]
    split
    · split
      · exact List.prefix_append _ _
      · exact List.prefix_rfl
    · exact List.prefix_rfl
  | writeFail => simp only [W.step, W.writeFail]; split <;> first | (split <;> exact List.prefix_rfl) | exact List.prefix_rfl
  | finish => simp only [W.step, W.finish]; split <;> first | (split <;> exact List.prefix_rfl) | exact List.prefix_rfl
  | disconnect => exact List.prefix_rfl
  | setMax n => exact List.prefix_rfl

/-- `LOG` steps touch neither the transport nor standard output. -/
theorem log_frame (p : Proc) (l : Lvl) (file : Bytes) (no : Nat) (msg : Bytes) :
    (p.log l file no msg).wire = p.wire ∧ (p.log l file no msg).w = p.w ∧ (p.log l file no msg).env = p.env ∧
      (p.log l file no msg).level = p.level := by
  unfold Proc.log Proc.put
  split
  · split <;> exact ⟨rfl, rfl, rfl, rfl⟩
  · split
    · split <;> exact ⟨rfl, rfl, rfl, rfl⟩
    · exact ⟨rfl, rfl, rfl, rfl⟩

theorem env_step (p : Proc) (op : POp) : (p.step op).env = p.env := by
  unfold Proc.step
  split
  · rfl
  · cases op with
    | log l file no msg => exact (log_frame ..).2.2.1
    | _ => rfl

theorem env_run : ∀ (ops : List POp) (p : Proc), (p.run ops).env = p.env
  | [], _ => rfl
  | op :: ops, p => (env_run ops (p.step op)).trans (env_step p op)

theorem run_append (p : Proc) (a b : List POp) : p.run (a ++ b) = (p.run a).run b := by
  simp [Proc.run, List.foldl_append]

end Verif.Log
