import Verif.Http.Stream
import Verif.Http.EventProps
import Verif.Http.SendProps
import Verif.Rpc.Envelope

/-!
C109: the thread that keeps the event stream of an HTTP client open asks again when the connection ends, and stops when `Close` says so.
-/

namespace Verif
open Http

/-! ### Specification -/

/-- The time that passes in a history. -/
def msPassed (ops : List StrmOp) : Nat := (ops.map (fun | .tick n => n | _ => 0)).sum

/-- The body bytes of a history, put together. -/
def bodyOf (ops : List StrmOp) : Bytes := (ops.map (fun | .piece a => a | _ => [])).flatten

/-- Nothing the server sent asks for a delay: neither what came with a head nor the bodies. -/
def NoDelay (ops : List StrmOp) : Prop := (∀ b, .head b ∈ ops → ¬ lit "retry:" <:+: b) ∧ ¬ lit "retry:" <:+: bodyOf ops

/-- The head the server of this library sends for a stream (src/mcp/HTTPServer.cpp 441-446). -/
def streamHead (sid : Bytes) : Bytes :=
  lit "HTTP/1.1 200 OK\r\nContent-Type: text/event-stream\r\nCache-Control: no-cache\r\nConnection: close\r\nMcp-Session-Id: " ++ sid ++ lit "\r\n\r\n"

/-- A session id as it can stand in a header. -/
structure HeaderText (sid : Bytes) : Prop where
  given : sid ≠ []
  line : '\n' ∉ sid
  space : sid.head? ≠ some ' '

/-! ### After `Close` -/

theorem strm_run_append (s : Strm) (a b : List StrmOp) : s.run (a ++ b) = (s.run a).run b := List.foldl_append

theorem strm_run_cons (s : Strm) (op : StrmOp) (l : List StrmOp) : s.run (op :: l) = (s.step op).run l := rfl
theorem strm_run_nil (s : Strm) : s.run [] = s := rfl
theorem strm_step_head (s : Strm) (b : Bytes) : s.step (.head b) = s.head b := rfl
theorem strm_step_broken (s : Strm) : s.step .broken = s.broken := rfl
theorem strm_step_tick (s : Strm) (n : Nat) : s.step (.tick n) = s.tick n := rfl

theorem sleep_off {s : Strm} (h : s.enabled = false) : s.sleep = { s with phase := .top } := by
  simp [Strm.sleep, Strm.on, h]

/-- Once disabled: nothing is handed on, no sleep begins, no connection is begun. -/
theorem off_step {s : Strm} (h : s.enabled = false) (op : StrmOp) :
    (s.step op).enabled = false ∧ (s.step op).messages = s.messages ∧
    (s.phase ≠ .dialing → (s.step op).phase ≠ .dialing ∧ (s.step op).gets = s.gets) ∧
    (s.step op).gets.length ≤ s.gets.length + 1 := by
  have hon : s.on = false := by simp [Strm.on, h]
  cases op with
  | check =>
    simp only [Strm.step, Strm.check]
    split
    · rename_i hp; simp [hon, h, Strm.messages, hp]
    · exact ⟨h, rfl, fun hn => ⟨hn, rfl⟩, Nat.le_succ _⟩
  | dial =>
    simp only [Strm.step, Strm.dial]
    split
    · rename_i hp
      split
      · simp [h, Strm.messages, hp]
      · simp [h, Strm.messages, hp]
    · exact ⟨h, rfl, fun hn => ⟨hn, rfl⟩, Nat.le_succ _⟩
  | head b =>
    simp only [Strm.step, Strm.head]
    split
    · rename_i hp
      split
      · rw [sleep_off h]; simp [h, Strm.messages, hp]
      · split
        · rw [if_neg (by rw [hon]; simp), sleep_off (by exact h)]
          simp [h, Strm.messages, hp]
        · split
          · simp [Strm.messages, hp]
          · rw [sleep_off h]; simp [h, Strm.messages, hp]
    · exact ⟨h, rfl, fun hn => ⟨hn, rfl⟩, Nat.le_succ _⟩
  | piece a =>
    simp only [Strm.step, Strm.piece]
    split
    · rename_i c hp
      rw [if_neg (by rw [hon]; simp)]
      split
      · unfold Strm.leave
        rw [sleep_off (by exact h)]
        simp [h, Strm.messages, hp]
      · simp [h, Strm.messages, hp]
    · exact ⟨h, rfl, fun hn => ⟨hn, rfl⟩, Nat.le_succ _⟩
  | broken =>
    simp only [Strm.step, Strm.broken]
    split
    · rename_i hp; rw [sleep_off h]; simp [h, Strm.messages, hp]
    · rename_i hp; rw [sleep_off h]; simp [h, Strm.messages, hp]
    · rename_i c hp
      unfold Strm.leave
      rw [sleep_off (by exact h)]
      simp [h, Strm.messages, hp]
    · exact ⟨h, rfl, fun hn => ⟨hn, rfl⟩, Nat.le_succ _⟩
  | tick n =>
    simp only [Strm.step, Strm.tick]
    split
    · rename_i l hp
      split <;> simp [h, Strm.messages, hp]
    · exact ⟨h, rfl, fun hn => ⟨hn, rfl⟩, Nat.le_succ _⟩
  | capture sid => exact ⟨h, rfl, fun hn => ⟨hn, rfl⟩, Nat.le_succ _⟩
  | close => exact ⟨rfl, rfl, fun hn => ⟨hn, rfl⟩, Nat.le_succ _⟩

theorem off_run (more : List StrmOp) : ∀ {s : Strm}, s.enabled = false →
    (s.run more).enabled = false ∧ (s.run more).messages = s.messages ∧ (s.phase ≠ .dialing → (s.run more).gets = s.gets) := by
  induction more with
  | nil => intro s h; exact ⟨h, rfl, fun _ => rfl⟩
  | cons op more ih =>
    intro s h
    obtain ⟨h1, h2, h3, -⟩ := off_step h op
    obtain ⟨h4, h5, h6⟩ := ih h1
    exact ⟨h4, h5.trans h2, fun hn => (h6 (h3 hn).1).trans (h3 hn).2⟩

/-- While dialing only `dial` asks for the stream, and then the thread dials no more. -/
theorem dialing_run (more : List StrmOp) : ∀ {s : Strm}, s.enabled = false → s.phase = .dialing → (s.run more).gets.length ≤ s.gets.length + 1 := by
  induction more with
  | nil => intro s _ _; exact Nat.le_succ _
  | cons op more ih =>
    intro s h hp
    have h1 := (off_step h op).1
    by_cases hd : (s.step op).phase = .dialing
    · have hg : (s.step op).gets = s.gets := by
        cases op with
        | dial => simp only [Strm.step, Strm.dial, hp] at hd; split at hd <;> simp at hd
        | check => simp only [Strm.step, Strm.check, hp]
        | head b => simp only [Strm.step, Strm.head, hp]
        | piece a => simp only [Strm.step, Strm.piece, hp]
        | broken => simp only [Strm.step, Strm.broken, hp, Strm.sleep]
        | tick n => simp only [Strm.step, Strm.tick, hp]
        | capture sid => rfl
        | close => rfl
      have := ih h1 hd
      rw [hg] at this
      exact this
    · have := (off_run more h1).2.2 hd
      show ((s.step op).run more).gets.length ≤ _
      rw [this]
      exact (off_step h op).2.2.2

/-- After `Close` has told the thread to stop, no message of the stream is handed on any more, and at most one more request for the stream is sent, the one for which the
connection is being made. In every state and whatever comes. -/
theorem C109_stops (s : Strm) (more : List StrmOp) :
    ((s.step .close).run more).messages = s.messages ∧ ((s.step .close).run more).gets.length ≤ s.gets.length + 1 ∧
    (s.phase ≠ .dialing → ((s.step .close).run more).gets = s.gets) := by
  have h : (s.step .close).enabled = false := rfl
  obtain ⟨-, h1, h2⟩ := off_run more h
  refine ⟨h1, ?_, h2⟩
  by_cases hp : s.phase = .dialing
  · exact dialing_run more h hp
  · rw [h2 hp]
    exact Nat.le_succ _

/-- A stream that is being read; a message comes before `Close` and another after it. -/
example : let s := (Strm.init 250 (lit "s")).run [.check, .dial, .head (streamHead (lit "s")), .piece (eventText (1, lit "A"))]
    s.messages = [lit "A"] ∧ s.gets = [lit "s"] ∧ ((s.step .close).run [.piece (eventText (2, lit "B")), .check]).phase = .ended ∧
    (s.run [.piece (eventText (2, lit "B"))]).messages = [lit "A", lit "B"] := by decide +kernel

/-! ### The sleep -/

theorem asleep_step {s : Strm} (h : s.enabled = false) (op : StrmOp) (l : Nat) (hp : (s.step op).phase = .asleep l) :
    s.phase = .asleep (l + msPassed [op]) := by
  have hon : s.on = false := by simp [Strm.on, h]
  cases op with
  | check =>
    simp only [Strm.step, Strm.check] at hp
    split at hp
    · simp [hon] at hp
    · simpa [msPassed] using hp
  | dial =>
    simp only [Strm.step, Strm.dial] at hp
    split at hp
    · split at hp <;> simp at hp
    · simpa [msPassed] using hp
  | head b =>
    simp only [Strm.step, Strm.head] at hp
    split at hp
    · split at hp
      · rw [sleep_off h] at hp; simp at hp
      · split at hp
        · rw [if_neg (by rw [hon]; simp), sleep_off (by exact h)] at hp
          simp at hp
        · split at hp
          · simp at hp
          · rw [sleep_off h] at hp; simp at hp
    · simpa [msPassed] using hp
  | piece a =>
    simp only [Strm.step, Strm.piece] at hp
    split at hp
    · rw [if_neg (by rw [hon]; simp)] at hp
      split at hp
      · unfold Strm.leave at hp
        rw [sleep_off (by exact h)] at hp
        simp at hp
      · simp at hp
    · simpa [msPassed] using hp
  | broken =>
    simp only [Strm.step, Strm.broken] at hp
    split at hp
    · rw [sleep_off h] at hp; simp at hp
    · rw [sleep_off h] at hp; simp at hp
    · unfold Strm.leave at hp
      rw [sleep_off (by exact h)] at hp
      simp at hp
    · simpa [msPassed] using hp
  | tick n =>
    simp only [Strm.step, Strm.tick] at hp
    split at hp
    · rename_i left hq
      dsimp only at hp
      split at hp
      · simp at hp
      · rename_i hn
        rw [hq]
        simp only [Phase.asleep.injEq] at hp
        simp [msPassed]
        omega
    · rename_i hq
      exact absurd hp (hq l)
  | capture sid => simpa [msPassed, Strm.step] using hp
  | close => simpa [msPassed, Strm.step] using hp

theorem asleep_run (more : List StrmOp) : ∀ {s : Strm}, s.enabled = false → ∀ l, (s.run more).phase = .asleep l → s.phase = .asleep (l + msPassed more) := by
  induction more with
  | nil => intro s _ l hp; simpa [msPassed, Strm.run] using hp
  | cons op more ih =>
    intro s h l hp
    have := asleep_step h op _ (ih (off_step h op).1 l hp)
    rw [this]
    simp [msPassed]
    omega

/-- A thread that has been told to stop and does not sleep ends when its connection ends. -/
theorem ends_of_awake {s : Strm} (h : s.enabled = false) (hp : ∀ l, s.phase ≠ .asleep l) : (s.run [.broken, .check]).phase = .ended := by
  have hon : s.on = false := by simp [Strm.on, h]
  show ((s.step .broken).step .check).phase = _
  cases e : s.phase with
  | top => simp [Strm.step, Strm.broken, Strm.check, e, hon]
  | dialing =>
    simp only [Strm.step, Strm.broken, e]
    rw [sleep_off h]
    simp [Strm.check, Strm.on, h]
  | asking =>
    simp only [Strm.step, Strm.broken, e]
    rw [sleep_off h]
    simp [Strm.check, Strm.on, h]
  | reading c =>
    simp only [Strm.step, Strm.broken, e, Strm.leave]
    rw [sleep_off (by exact h)]
    simp [Strm.check, Strm.on, h]
  | asleep l => exact absurd e (hp l)
  | ended => simp [Strm.step, Strm.broken, Strm.check, e]

/-- No line that does not begin with "retry:" changes the delay. -/
theorem line_retry (st : Sse) (l : Bytes) (h : ¬ lit "retry:" <+: l) : (st.line l).retry = st.retry := by
  unfold Sse.line Sse.field
  split
  · split <;> rfl
  · split
    · rfl
    · split
      · rename_i hr
        exfalso
        apply h
        have h1 : lit "retry:" <+: dropCr l := List.isPrefixOf_iff_prefix.1 hr
        have h2 : dropCr l <+: l := by
          unfold dropCr
          split
          · exact List.dropLast_prefix l
          · exact List.prefix_refl l
        exact h1.trans h2
      · rfl

theorem getlines_infix (b : Bytes) : ∀ l ∈ getlines b, l <:+: b := by
  suffices ∀ b : Bytes, (∀ l ∈ getlines b, l <:+: b) ∧ (∀ l r, getlines b = l :: r → l <+: b) from (this b).1
  intro b
  induction b with
  | nil => simp [getlines]
  | cons c s ih =>
    obtain ⟨ih1, ih2⟩ := ih
    unfold getlines
    split
    · refine ⟨fun l hl => ?_, fun l r e => ?_⟩
      · rcases List.mem_cons.1 hl with rfl | hl
        · exact ⟨[], c :: s, rfl⟩
        · exact (ih1 l hl).trans (List.suffix_cons c s).isInfix
      · cases e; exact List.nil_prefix
    · split
      · rename_i hg
        refine ⟨fun l hl => ?_, fun l r e => ?_⟩
        · rcases List.mem_singleton.1 hl with rfl
          exact ⟨[], s, rfl⟩
        · cases e; exact ⟨s, rfl⟩
      · rename_i l0 r0 hg
        have hp : c :: l0 <+: c :: s := (List.cons_prefix_cons).2 ⟨rfl, ih2 l0 r0 hg⟩
        refine ⟨fun l hl => ?_, fun l r e => ?_⟩
        · rcases List.mem_cons.1 hl with rfl | hl
          · exact hp.isInfix
          · exact (ih1 l (by rw [hg]; exact List.mem_cons_of_mem _ hl)).trans (List.suffix_cons c s).isInfix
        · cases e; exact hp

theorem lines_retry (ls : List Bytes) (h : ∀ l ∈ ls, ¬ lit "retry:" <+: l) : ∀ st : Sse, (ls.foldl Sse.line st).retry = st.retry := by
  induction ls with
  | nil => intro st; rfl
  | cons l ls ih =>
    intro st
    rw [List.foldl_cons, ih (fun x hx => h x (List.mem_cons_of_mem _ hx)), line_retry _ _ (h l (List.mem_cons_self ..))]

theorem headLoop_sub (sess : Bytes) (ls : List Bytes) : ∀ l ∈ (headLoop sess ls).2, l ∈ ls := by
  induction ls generalizing sess with
  | nil => simp [headLoop]
  | cons x ls ih =>
    unfold headLoop
    split
    · intro l hl; exact List.mem_cons_of_mem _ hl
    · intro l hl; exact List.mem_cons_of_mem _ (ih _ l hl)

/-- The delay in force stays the one of the options while the server asks for no other. -/
structure OwnDelay (d : Nat) (flow : Bytes) (s : Strm) : Prop where
  retry : s.retry = d
  conn : ∀ c, s.phase = .reading c → c.st.retry = d ∧ c.buf <:+ flow
  left : ∀ l, s.phase = .asleep l → l ≤ d

theorem own_sleep {d : Nat} {flow : Bytes} {s : Strm} (h : s.retry = d) : OwnDelay d flow s.sleep := by
  refine ⟨h, fun c hc => ?_, fun l hl => ?_⟩
  · simp only [Strm.sleep] at hc; split at hc <;> simp at hc
  · simp only [Strm.sleep] at hl
    split at hl
    · simp only [Phase.asleep.injEq] at hl; omega
    · simp at hl

theorem own_step {d : Nat} {flow : Bytes} {s : Strm} (h : OwnDelay d flow s) (op : StrmOp) (hh : ∀ b, op = .head b → ¬ lit "retry:" <:+: b)
    (hp : ¬ lit "retry:" <:+: flow ++ bodyOf [op]) : OwnDelay d (flow ++ bodyOf [op]) (s.step op) := by
  have keep : bodyOf [op] = [] → (s.step op).retry = s.retry → (s.step op).phase = s.phase → OwnDelay d (flow ++ bodyOf [op]) (s.step op) := by
    intro h1 h2 h3
    rw [h1, List.append_nil]
    exact ⟨h2.trans h.retry, by rw [h3]; exact h.conn, by rw [h3]; exact h.left⟩
  have plain : ∀ (s' : Strm) (f : Bytes), s'.retry = d → (∀ c, s'.phase ≠ .reading c) → (∀ l, s'.phase ≠ .asleep l) → OwnDelay d f s' :=
    fun s' f h1 h2 h3 => ⟨h1, fun c hc => absurd hc (h2 c), fun l hl => absurd hl (h3 l)⟩
  cases op with
  | check =>
    cases e : s.phase with
    | top => refine plain _ _ (by simp [Strm.step, Strm.check, e, h.retry]) ?_ ?_ <;> intro x <;> simp only [Strm.step, Strm.check, e] <;> split <;> simp
    | _ => exact keep rfl (by simp [Strm.step, Strm.check, e]) (by simp [Strm.step, Strm.check, e])
  | dial =>
    cases e : s.phase with
    | dialing =>
      refine plain _ _ ?_ ?_ ?_
      · simp only [Strm.step, Strm.dial, e]; split <;> exact h.retry
      all_goals intro x; simp only [Strm.step, Strm.dial, e]; split <;> simp
    | _ => exact keep rfl (by simp [Strm.step, Strm.dial, e]) (by simp [Strm.step, Strm.dial, e])
  | head b =>
    cases e : s.phase with
    | asking =>
      simp only [Strm.step, Strm.head, e]
      split
      · exact own_sleep h.retry
      · rename_i st ls hg
        split
        · split
          · refine ⟨h.retry, fun c hc => ?_, fun l hl => by simp at hl⟩
            simp only [Phase.reading.injEq] at hc
            subst hc
            refine ⟨?_, List.nil_suffix⟩
            rw [lines_retry _ (fun l hl hi => hh b rfl (hi.isInfix.trans (getlines_infix b l (by rw [hg]; exact List.mem_cons_of_mem _ (headLoop_sub _ _ l hl)))))]
            exact h.retry
          · exact own_sleep h.retry
        · split
          · exact plain _ _ h.retry (by simp) (by simp)
          · exact own_sleep h.retry
    | _ => exact keep rfl (by simp [Strm.step, Strm.head, e]) (by simp [Strm.step, Strm.head, e])
  | piece a =>
    have hflow : bodyOf [StrmOp.piece a] = a := by simp [bodyOf]
    rw [hflow] at hp ⊢
    cases e : s.phase with
    | reading c =>
      obtain ⟨hc1, hc2⟩ := h.conn c e
      have hsuf : c.buf ++ a <:+ flow ++ a := by
        obtain ⟨t, ht⟩ := hc2
        exact ⟨t, by rw [← ht, List.append_assoc]⟩
      simp only [Strm.step, Strm.piece, e]
      split
      · refine ⟨h.retry, fun c' hc => ?_, fun l hl => by simp at hl⟩
        simp only [Phase.reading.injEq] at hc
        subst hc
        unfold SseConn.recv
        split
        · refine ⟨?_, List.nil_suffix⟩
          show (c.st.parse (c.buf ++ a)).retry = d
          unfold Sse.parse
          rw [lines_retry _ (fun l hl hi => hp ((hi.isInfix.trans (getlines_infix _ l hl)).trans hsuf.isInfix))]
          exact hc1
        · exact ⟨hc1, hsuf⟩
      · split
        · unfold Strm.leave; exact own_sleep hc1
        · refine ⟨h.retry, fun c' hc => ?_, fun l hl => by simp at hl⟩
          simp only [Phase.reading.injEq] at hc
          subst hc
          exact ⟨hc1, hsuf⟩
    | asleep l =>
      exact ⟨by simp [Strm.step, Strm.piece, e, h.retry], by simp [Strm.step, Strm.piece, e], by simpa [Strm.step, Strm.piece, e] using h.left l e⟩
    | _ => exact plain _ _ (by simp [Strm.step, Strm.piece, e, h.retry]) (by simp [Strm.step, Strm.piece, e]) (by simp [Strm.step, Strm.piece, e])
  | broken =>
    cases e : s.phase with
    | dialing => simp only [Strm.step, Strm.broken, e]; exact own_sleep h.retry
    | asking => simp only [Strm.step, Strm.broken, e]; exact own_sleep h.retry
    | reading c => simp only [Strm.step, Strm.broken, e, Strm.leave]; exact own_sleep (h.conn c e).1
    | _ => exact keep rfl (by simp [Strm.step, Strm.broken, e]) (by simp [Strm.step, Strm.broken, e])
  | tick n =>
    cases e : s.phase with
    | asleep l =>
      have := h.left l e
      refine ⟨by simp [Strm.step, Strm.tick, e, h.retry], fun c hc => ?_, fun l' hl => ?_⟩
      · simp only [Strm.step, Strm.tick, e] at hc; split at hc <;> simp at hc
      · simp only [Strm.step, Strm.tick, e] at hl
        split at hl
        · simp at hl
        · simp only [Phase.asleep.injEq] at hl; omega
    | _ => exact keep rfl (by simp [Strm.step, Strm.tick, e]) (by simp [Strm.step, Strm.tick, e])
  | capture sid => exact keep rfl rfl rfl
  | close => exact keep rfl rfl rfl

theorem own_run {d : Nat} (ops : List StrmOp) : ∀ {flow : Bytes} {s : Strm}, OwnDelay d flow s → (∀ b, .head b ∈ ops → ¬ lit "retry:" <:+: b) →
    ¬ lit "retry:" <:+: flow ++ bodyOf ops → OwnDelay d (flow ++ bodyOf ops) (s.run ops) := by
  induction ops with
  | nil => intro flow s h _ _; simpa [bodyOf, Strm.run] using h
  | cons op ops ih =>
    intro flow s h h1 h2
    have hs : bodyOf (op :: ops) = bodyOf [op] ++ bodyOf ops := by simp [bodyOf]
    rw [hs, ← List.append_assoc] at h2 ⊢
    exact ih (own_step h op (fun b e => h1 b (by rw [e]; exact List.mem_cons_self ..)) (fun hi => h2 (hi.trans (List.prefix_append ..).isInfix)))
      (fun b hb => h1 b (List.mem_cons_of_mem _ hb)) h2

/-- When the server never asked for another delay, `Close` waits for the thread at most as long as the reconnect delay of the options: after that time the thread ends with its
connection.

Partial: with a delay of the server the wait is as long as the server likes, `C109_delay_counterexample`; how long the network keeps a read waiting is not modelled. -/
theorem C109_close_partial (delay : Nat) (sid : Bytes) (ops more : List StrmOp) (hno : NoDelay ops) (ht : delay ≤ msPassed more) :
    ((Strm.init delay sid).run (ops ++ .close :: more ++ [.tick 0, .broken, .check])).phase = .ended := by
  have h0 : OwnDelay delay [] (Strm.init delay sid) := ⟨rfl, by simp [Strm.init], by simp [Strm.init]⟩
  have h := own_run ops h0 hno.1 (by simpa using hno.2)
  rw [List.append_assoc, strm_run_append]
  generalize (Strm.init delay sid).run ops = s at h
  show ((s.step .close).run (more ++ [.tick 0, .broken, .check])).phase = _
  have hoff : (s.step .close).enabled = false := rfl
  rw [show more ++ [.tick 0, .broken, .check] = (more ++ [.tick 0]) ++ [StrmOp.broken, .check] by simp, strm_run_append]
  refine ends_of_awake (off_run _ hoff).1 (fun l hl => ?_)
  rw [strm_run_append] at hl
  have h1 := (off_run more hoff).1
  generalize hs' : (s.step .close).run more = s' at hl h1
  have hpos' : 0 < l := by
    have : (s'.step (.tick 0)).phase = .asleep l := hl
    simp only [Strm.step, Strm.tick] at this
    split at this
    · dsimp only at this
      split at this
      · simp at this
      · simp only [Phase.asleep.injEq] at this; omega
    · rename_i hq; exact absurd this (hq l)
  have h2 := asleep_step h1 (.tick 0) l hl
  rw [← hs'] at h2
  have h3 := h.left _ (asleep_run more hoff _ h2)
  have : msPassed [StrmOp.tick 0] = 0 := rfl
  omega

/-- The connection is lost, the thread sleeps, `Close` comes 100 ms later. -/
example : let ops : List StrmOp := [.check, .dial, .head (streamHead (lit "s")), .piece (eventText (1, lit "A")), .broken, .tick 100]
    NoDelay ops ∧ ((Strm.init 250 (lit "s")).run ops).phase = .asleep 150 ∧ ((Strm.init 250 (lit "s")).run (ops ++ [.close, .tick 100, .broken, .check])).phase = .asleep 50 := by
  refine ⟨⟨fun b hb => ?_, ?_⟩, by decide +kernel, by decide +kernel⟩
  · simp only [List.mem_cons, StrmOp.head.injEq, reduceCtorEq, List.not_mem_nil, or_false, false_or] at hb
    subst hb
    exact splitSub_eq_none (by decide +kernel)
  · exact splitSub_eq_none (by decide +kernel)

/-! ### The head of the response -/

theorem getlines_head (status : Bytes) (hs : '\n' ∉ status) (rest : Bytes) : getlines (status ++ '\n' :: rest) = status :: getlines rest := getlines_line _ _ hs

theorem dropCr_end (l : Bytes) : dropCr (l ++ ['\r']) = l := dropCr_cr l

theorem splitCh_name (name value : Bytes) (h : ':' ∉ name) : splitCh ':' (name ++ ':' :: value) = some (name, value) := by
  induction name with
  | nil => simp [splitCh]
  | cons c cs ih =>
    have h1 : c ≠ ':' := fun e => h (by rw [e]; exact List.mem_cons_self ..)
    have h2 : ':' ∉ cs := fun e => h (List.mem_cons_of_mem _ e)
    show splitCh ':' (c :: (cs ++ ':' :: value)) = _
    rw [splitCh, if_neg h1, ih h2]
    rfl

set_option maxRecDepth 4000 in
/-- A response of the server of this library begins a stream. -/
theorem head_server {s : Strm} (hp : s.phase = .asking) (hon : s.on = true) (sid : Bytes) (hsid : HeaderText sid) (rest : Bytes) :
    s.head (streamHead sid ++ rest) = { s with session := sid, phase := .reading (SseConn.start s.retry rest) } := by
  have e1 : streamHead sid ++ rest = lit "HTTP/1.1 200 OK\r" ++ '\n' :: (lit "Content-Type: text/event-stream\r" ++ '\n' :: (lit "Cache-Control: no-cache\r" ++
      '\n' :: (lit "Connection: close\r" ++ '\n' :: ((lit "Mcp-Session-Id: " ++ sid ++ ['\r']) ++ '\n' :: (['\r'] ++ '\n' :: rest))))) := by
    simp [streamHead, lit]
  have e2 : getlines (streamHead sid ++ rest) = lit "HTTP/1.1 200 OK\r" :: lit "Content-Type: text/event-stream\r" :: lit "Cache-Control: no-cache\r" ::
      lit "Connection: close\r" :: (lit "Mcp-Session-Id: " ++ sid ++ ['\r']) :: ['\r'] :: getlines rest := by
    rw [e1, getlines_line _ _ (by decide), getlines_line _ _ (by decide), getlines_line _ _ (by decide), getlines_line _ _ (by decide), getlines_line _ _ (by
      intro hm
      rcases List.mem_append.1 hm with hm | hm
      · rcases List.mem_append.1 hm with hm | hm
        · revert hm; decide
        · exact hsid.line hm
      · revert hm; decide), getlines_line _ _ (by decide)]
  have e3 : headLine s.session (lit "Mcp-Session-Id: " ++ sid ++ ['\r']) = sid := by
    unfold headLine
    rw [dropCr_end, show lit "Mcp-Session-Id: " ++ sid = lit "Mcp-Session-Id" ++ ':' :: (' ' :: sid) by simp [lit], splitCh_name _ _ (by decide)]
    show (if lit "Mcp-Session-Id" = lit "Mcp-Session-Id" then (' ' :: sid).dropWhile (· = ' ') else s.session) = sid
    rw [if_pos rfl, List.dropWhile_cons_of_pos (by simp)]
    cases sid with
    | nil => rfl
    | cons c cs => exact List.dropWhile_cons_of_neg (by simpa using hsid.space)
  have e4 : headLoop s.session (lit "Content-Type: text/event-stream\r" :: lit "Cache-Control: no-cache\r" ::
      lit "Connection: close\r" :: (lit "Mcp-Session-Id: " ++ sid ++ ['\r']) :: ['\r'] :: getlines rest) = (sid, getlines rest) := by
    have k : ∀ (sess l : Bytes) (r : List Bytes), l ≠ ['\r'] → headLoop sess (l :: r) = headLoop (headLine sess l) r := by
      intro sess l r hl
      rw [headLoop, if_neg hl]
    have a1 : headLine s.session (lit "Content-Type: text/event-stream\r") = s.session := by
      unfold headLine
      rw [show splitCh ':' (dropCr (lit "Content-Type: text/event-stream\r")) = some (lit "Content-Type", lit " text/event-stream") by decide +kernel]
      exact if_neg (by decide)
    have a2 : headLine s.session (lit "Cache-Control: no-cache\r") = s.session := by
      unfold headLine
      rw [show splitCh ':' (dropCr (lit "Cache-Control: no-cache\r")) = some (lit "Cache-Control", lit " no-cache") by decide +kernel]
      exact if_neg (by decide)
    have a3 : headLine s.session (lit "Connection: close\r") = s.session := by
      unfold headLine
      rw [show splitCh ':' (dropCr (lit "Connection: close\r")) = some (lit "Connection", lit " close") by decide +kernel]
      exact if_neg (by decide)
    rw [k _ _ _ (by decide), a1, k _ _ _ (by decide), a2, k _ _ _ (by decide), a3, k _ _ _ (by simp [lit]), e3, headLoop, if_pos rfl]
  unfold Strm.head
  rw [hp]
  dsimp only
  rw [e2]
  dsimp only
  rw [if_pos (by decide +kernel), e4, if_pos hon]
  rfl

/-- The server sends a delay with its stream and the connection ends: `Close` waits as long as the server said, up to 49 days, whatever happens meanwhile. -/
theorem C109_delay_counterexample (delay n : Nat) (hn : n < 2 ^ 32) (sid : Bytes) (hsid : HeaderText sid) (more : List StrmOp) (ht : msPassed more < n) :
    ((Strm.init delay sid).run ([.check, .dial, .head (streamHead sid ++ (lit "retry: " ++ natDec n ++ lit "\n")), .broken, .close] ++ more)).phase ≠ .ended := by
  have h1 : (Strm.init delay sid).run [.check, .dial] = ⟨.asking, delay, true, true, sid, [sid], []⟩ := by
    simp [Strm.run, Strm.step, Strm.check, Strm.dial, Strm.init, Strm.on, hsid.given]
  have h2 : (SseConn.start delay (lit "retry: " ++ natDec n ++ lit "\n")).st = ⟨[], n, []⟩ := by
    have := C45_retry_partial delay n hn [] (by simp)
    simpa using this
  have h3 : (Strm.init delay sid).run [.check, .dial, .head (streamHead sid ++ (lit "retry: " ++ natDec n ++ lit "\n")), .broken] =
      ⟨.asleep n, n, true, true, sid, [sid], []⟩ := by
    rw [show [StrmOp.check, .dial, .head (streamHead sid ++ (lit "retry: " ++ natDec n ++ lit "\n")), .broken] =
      [.check, .dial] ++ [.head (streamHead sid ++ (lit "retry: " ++ natDec n ++ lit "\n")), .broken] by rfl, strm_run_append, h1]
    rw [strm_run_cons, strm_run_cons, strm_run_nil, strm_step_head, strm_step_broken, head_server rfl rfl sid hsid]
    simp only [Strm.broken, Strm.leave, h2]
    simp [Strm.sleep, Strm.on]
  rw [show [StrmOp.check, .dial, .head (streamHead sid ++ (lit "retry: " ++ natDec n ++ lit "\n")), .broken, .close] ++ more =
    [.check, .dial, .head (streamHead sid ++ (lit "retry: " ++ natDec n ++ lit "\n")), .broken] ++ (.close :: more) by simp, strm_run_append, h3]
  show ((Strm.step _ .close).run more).phase ≠ _
  suffices ∀ (more : List StrmOp) (s : Strm) (n : Nat), s.phase = .asleep n → msPassed more < n → (s.run more).phase ≠ .ended from this more _ n rfl ht
  intro more
  induction more with
  | nil => intro s n hp _ e; rw [show (s.run []).phase = s.phase from rfl, hp] at e; cases e
  | cons op more ih =>
    intro s n hp ht
    have hs : msPassed (op :: more) = msPassed [op] + msPassed more := by simp [msPassed]
    refine ih (s.step op) (n - msPassed [op]) ?_ (by omega)
    cases op with
    | tick m =>
      have : msPassed [StrmOp.tick m] = m := by simp [msPassed]
      simp only [Strm.step, Strm.tick, hp]
      rw [if_neg (by omega), this]
    | check => simp [Strm.step, Strm.check, hp, msPassed]
    | dial => simp [Strm.step, Strm.dial, hp, msPassed]
    | head b => simp [Strm.step, Strm.head, hp, msPassed]
    | piece a => simp [Strm.step, Strm.piece, hp, msPassed]
    | broken => simp [Strm.step, Strm.broken, hp, msPassed]
    | capture sid => simp [Strm.step, hp, msPassed]
    | close => simp [Strm.step, hp, msPassed]

example : HeaderText (lit "sess-1") ∧ msPassed [.tick 4294967000, .broken, .check] < 4294967295 := ⟨⟨by decide, by decide, by decide⟩, by decide⟩

/-! ### Coming back -/

/-- The delay before the next connection, for a thread at work. -/
def inForce (s : Strm) : Nat := match s.phase with | .reading c => c.st.retry | _ => s.retry

/-- While the transport is connected, a connection that ends, or cannot be made, is followed by a new request for the stream when the delay is over; it carries the session id of
that moment. -/
theorem C109_again (s : Strm) (hon : s.on = true) (hs : s.session ≠ []) (hp : s.phase = .dialing ∨ s.phase = .asking ∨ ∃ c, s.phase = .reading c) (n : Nat) (hn : inForce s ≤ n) :
    let s' := s.run [.broken, .tick n, .check, .dial]
    s'.phase = .asking ∧ s'.gets = s.gets ++ [s.session] ∧ s'.messages = s.messages := by
  have hc : s.connected = true ∧ s.enabled = true := by simpa [Strm.on] using hon
  have key : ∀ (s0 : Strm), s0.on = true → s0.session ≠ [] → s0.retry ≤ n → let s' := ((s0.sleep.tick n).check).dial
      s'.phase = .asking ∧ s'.gets = s0.gets ++ [s0.session] ∧ s'.got = s0.got := by
    intro s0 h1 h2 h3
    have hc : s0.connected = true ∧ s0.enabled = true := by simpa [Strm.on] using h1
    simp [Strm.sleep, h1, Strm.tick, h3, Strm.check, Strm.dial, h2, Strm.on, hc.1, hc.2]
  show (((s.broken.tick n).check).dial).phase = _ ∧ (((s.broken.tick n).check).dial).gets = _ ∧ (((s.broken.tick n).check).dial).messages = _
  rcases hp with hp | hp | ⟨c, hp⟩
  · have hb : s.broken = s.sleep := by simp [Strm.broken, hp]
    obtain ⟨h1, h2, h3⟩ := key s hon hs (by simpa [inForce, hp] using hn)
    rw [hb]
    exact ⟨h1, h2, by simp [Strm.messages, h1, h3, hp]⟩
  · have hb : s.broken = s.sleep := by simp [Strm.broken, hp]
    obtain ⟨h1, h2, h3⟩ := key s hon hs (by simpa [inForce, hp] using hn)
    rw [hb]
    exact ⟨h1, h2, by simp [Strm.messages, h1, h3, hp]⟩
  · have hb : s.broken = ({ s with retry := c.st.retry, got := s.got ++ c.st.out } : Strm).sleep := by simp [Strm.broken, hp, Strm.leave]
    obtain ⟨h1, h2, h3⟩ := key { s with retry := c.st.retry, got := s.got ++ c.st.out } (by exact hon) hs (by simpa [inForce, hp] using hn)
    rw [hb]
    refine ⟨h1, h2, ?_⟩
    show Strm.messages _ = Strm.messages _
    unfold Strm.messages
    rw [h1, h3, hp]
    simp

/-- The session changed while the stream was read. -/
example : let s := (Strm.init 250 (lit "s")).run [.check, .dial, .head (streamHead (lit "s")), .capture (lit "t")]
    s.on = true ∧ s.session ≠ [] ∧ inForce s = 250 ∧ (s.run [.broken, .tick 250, .check, .dial]).gets = [lit "s", lit "t"] := by decide +kernel

/-- One connection of the server's: the events it wrote, the part of another it did not finish, how the bytes arrived, and the time before the next connection. -/
structure OneConn where
  evs : List (Nat × Bytes)
  rest : Bytes
  first : Bytes
  arr : List Bytes
  wait : Nat

def OneConn.Ok (c : OneConn) : Prop :=
  (∀ e ∈ c.evs, OneLine e.2) ∧ Written c.evs c.rest (c.first ++ c.arr.flatten) ∧ Whole c.first ∧ ∀ a ∈ c.arr, EndsLine a

def OneConn.ops (sid : Bytes) (c : OneConn) : List StrmOp :=
  [.check, .dial, .head (streamHead sid ++ c.first)] ++ c.arr.map .piece ++ [.broken, .tick c.wait]

theorem pieces_run (arr : List Bytes) : ∀ {s : Strm} {c : SseConn}, s.on = true → s.phase = .reading c →
    s.run (arr.map .piece) = { s with phase := .reading (c.recvAll arr) } := by
  induction arr with
  | nil => intro s c _ hp; cases s; simp only at hp; subst hp; rfl
  | cons a arr ih =>
    intro s c hon hp
    show (s.step (.piece a)).run (arr.map .piece) = _
    have : s.step (.piece a) = { s with phase := .reading (c.recv a) } := by simp [Strm.step, Strm.piece, hp, hon]
    rw [this, ih (by exact hon) rfl]
    rfl

theorem oneConn_out (retry : Nat) (c : OneConn) (h : c.Ok) : ((SseConn.start retry c.first).recvAll c.arr).st.out = c.evs.map (·.2) :=
  C45_messages_partial retry c.evs h.1 c.rest c.first c.arr h.2.1 h.2.2.1 h.2.2.2

/-- Events carry no retry field. -/
theorem oneConn_retry (retry : Nat) (c : OneConn) (h : c.Ok) : ((SseConn.start retry c.first).recvAll c.arr).st.retry = retry := by
  obtain ⟨hev, ⟨hs, e, he, hp, -⟩, h1, h2⟩ := h
  obtain ⟨q, hq, h3, -, h5⟩ := conn_reach (SseConn.start retry c.first) c.first h1 ⟨[], retry, []⟩ rfl (by simp [SseConn.start]) c.arr h2
  rw [h3]
  unfold Sse.parse
  have hpre : q <+: ((c.evs ++ [e]).map eventText).flatten := by
    have h6 : q <+: (c.evs.map eventText).flatten ++ c.rest := ⟨_, by rw [h5, ← hs]; simp [SseConn.start]⟩
    refine h6.trans ?_
    obtain ⟨t, ht⟩ := hp
    exact ⟨t, by simp [← ht]⟩
  obtain ⟨t, ht⟩ := hpre
  refine lines_retry _ (fun l hl hr => ?_) _
  have hmem : l ∈ getlines (((c.evs ++ [e]).map eventText).flatten) := by
    rw [← ht, getlines_append _ _ hq]
    exact List.mem_append_left _ hl
  have hall : ∀ evs : List (Nat × Bytes), (∀ e ∈ evs, OneLine e.2) → ∀ l ∈ getlines ((evs.map eventText).flatten), ¬ lit "retry:" <+: l := by
    intro evs
    induction evs with
    | nil => intro _ l hl; simp [getlines] at hl
    | cons x evs ih =>
      intro hx l hl
      rw [List.map_cons, List.flatten_cons, getlines_append _ _ (event_whole x), event_lines x (hx x (List.mem_cons_self ..))] at hl
      rcases List.mem_append.1 hl with hl | hl
      · simp only [List.mem_cons, List.not_mem_nil, or_false] at hl
        rcases hl with rfl | rfl | rfl <;> simp [lit]
      · exact ih (fun y hy => hx y (List.mem_cons_of_mem _ hy)) l hl
  refine hall _ (fun x hx => ?_) l hmem hr
  rcases List.mem_append.1 hx with hx | hx
  · exact hev x hx
  · rcases List.mem_singleton.1 hx with rfl
    exact he

/-- Over any number of connections with the server of this library, the client hands on what the server wrote, each event once, in order, over all the connections together; and
every connection is asked for with the session id.

Partial: pieces that end in the middle of a line lose and break messages (`C45_split_counterexample`), so they are left out, and the thread is given the time to
wake up before the next connection. -/
theorem C109_delivered_partial (delay : Nat) (sid : Bytes) (hsid : HeaderText sid) (cs : List OneConn) (hok : ∀ c ∈ cs, c.Ok) (hw : ∀ c ∈ cs, delay ≤ c.wait) :
    ((Strm.init delay sid).run (cs.map (OneConn.ops sid)).flatten).messages = (cs.map (fun c => c.evs.map (·.2))).flatten ∧
    ((Strm.init delay sid).run (cs.map (OneConn.ops sid)).flatten).gets = List.replicate cs.length sid := by
  suffices ∀ (cs : List OneConn), (∀ c ∈ cs, c.Ok) → (∀ c ∈ cs, delay ≤ c.wait) →
      ∀ (s : Strm), s.phase = .top → s.on = true → s.session = sid → s.retry = delay →
      (s.run (cs.map (OneConn.ops sid)).flatten).messages = s.got ++ (cs.map (fun c => c.evs.map (·.2))).flatten ∧
      (s.run (cs.map (OneConn.ops sid)).flatten).gets = s.gets ++ List.replicate cs.length sid by
    simpa [Strm.init] using this cs hok hw (Strm.init delay sid) rfl rfl rfl rfl
  intro cs
  induction cs with
  | nil =>
    intro _ _ s hp _ _ _
    simp [Strm.run, Strm.messages, hp]
  | cons c cs ih =>
    intro hok hw s hp hon hse hre
    have hc : s.connected = true ∧ s.enabled = true := by simpa [Strm.on] using hon
    have h1 : s.run [.check, .dial] = { s with phase := .asking, gets := s.gets ++ [sid] } := by
      simp [Strm.run, Strm.step, Strm.check, Strm.dial, hp, hon, hse, hsid.given]
    have h2 : s.run ([.check, .dial, .head (streamHead sid ++ c.first)] ++ c.arr.map .piece) =
        { s with session := sid, phase := .reading ((SseConn.start s.retry c.first).recvAll c.arr), gets := s.gets ++ [sid] } := by
      rw [strm_run_append, show [StrmOp.check, .dial, .head (streamHead sid ++ c.first)] = [.check, .dial] ++ [.head (streamHead sid ++ c.first)] from rfl, strm_run_append, h1]
      rw [strm_run_cons, strm_run_nil, strm_step_head, head_server rfl (by exact hon) sid hsid, pieces_run _ (by exact hon) rfl]
    have hout := oneConn_out s.retry c (hok c (List.mem_cons_self ..))
    have hret := oneConn_retry s.retry c (hok c (List.mem_cons_self ..))
    have hwait := hw c (List.mem_cons_self ..)
    have h3 : s.run (c.ops sid) = { s with session := sid, phase := .top, got := s.got ++ c.evs.map (·.2), gets := s.gets ++ [sid] } := by
      unfold OneConn.ops
      rw [strm_run_append, h2]
      rw [strm_run_cons, strm_run_cons, strm_run_nil, strm_step_broken, strm_step_tick]
      simp only [Strm.broken, Strm.leave, hout, hret]
      simp [Strm.sleep, Strm.on, hc.1, hc.2, Strm.tick, hre, hwait]
    rw [List.map_cons, List.flatten_cons, strm_run_append]
    obtain ⟨h4, h5⟩ := ih (fun x hx => hok x (List.mem_cons_of_mem _ hx)) (fun x hx => hw x (List.mem_cons_of_mem _ hx)) (s.run (c.ops sid))
      (by rw [h3]) (by rw [h3]; exact hon) (by rw [h3]) (by rw [h3]; exact hre)
    rw [h4, h5, h3]
    constructor
    · simp
    · rw [List.length_cons, List.replicate_succ]; simp

/-- Two connections; the second event of the first is cut off by the end of the connection. -/
example : HeaderText (lit "s") ∧ OneConn.Ok ⟨[(1, lit "A")], lit "id: 2\nda", [], [eventText (1, lit "A"), lit "id: 2\n", lit "da"], 250⟩ ∧
    OneConn.Ok ⟨[(3, lit "B")], [], eventText (3, lit "B"), [], 250⟩ := by
  refine ⟨⟨by decide, by decide, by decide⟩, ⟨?_, ⟨?_, (2, lit "B"), ⟨by decide, by decide, by decide⟩, by decide, by decide⟩, .inl rfl, ?_⟩,
    ⟨?_, ⟨by decide, (4, lit "B"), ⟨by decide, by decide, by decide⟩, List.nil_prefix, by decide⟩, .inr ⟨lit "id: 3\ndata: B\n", ?_⟩, by simp⟩⟩
  · intro e he; rcases List.mem_singleton.1 he with rfl; exact ⟨by decide, by decide, by decide⟩
  · decide
  · intro a ha
    simp only [List.mem_cons, List.not_mem_nil, or_false] at ha
    rcases ha with rfl | rfl | rfl
    · intro _; decide
    · intro _; decide
    · intro hm; revert hm; decide
  · intro e he; rcases List.mem_singleton.1 he with rfl; exact ⟨by decide, by decide, by decide⟩
  · decide

/-! ### What the status line decides -/

/-- The status line of a response. -/
def statusLine (code reason : Bytes) : Bytes := lit "HTTP/1.1 " ++ code ++ ' ' :: reason ++ ['\r']

/-- A status code of three digits found in a status line whose text has no digits. -/
theorem status_code (a b c : Char) (reason : Bytes) (hr : ∀ x ∈ reason, isDig x = false) (p q r : Char) (hp : p = '2' ∨ p = '4') (hq : isDig q = true) (hr' : isDig r = true) :
    containsSub [p, q, r] (statusLine [a, b, c] reason) = true ↔ [a, b, c] = [p, q, r] := by
  rw [containsSub_iff]
  have hpd : isDig p = true := by rcases hp with rfl | rfl <;> decide
  have hnd : ∀ x, isDig x = false → x ≠ p ∧ x ≠ q ∧ x ≠ r := by
    intro x hx
    refine ⟨fun e => ?_, fun e => ?_, fun e => ?_⟩
    · rw [e, hpd] at hx; cases hx
    · rw [e, hq] at hx; cases hx
    · rw [e, hr'] at hx; cases hx
  have htail : ¬ [p, q, r] <:+: ' ' :: reason ++ ['\r'] := by
    intro hi
    have hm : p ∈ ' ' :: reason ++ ['\r'] := hi.subset (by simp)
    have : isDig p = false := by
      simp only [List.cons_append, List.mem_cons, List.mem_append, List.not_mem_nil, or_false] at hm
      rcases hm with rfl | hm | rfl
      · decide
      · exact hr _ hm
      · decide
    rw [hpd] at this
    cases this
  have hsp := hnd ' ' (by decide)
  have skip : ∀ (x : Char) (l : Bytes), x ≠ p → ([p, q, r] <:+: x :: l ↔ [p, q, r] <:+: l) := by
    intro x l hx
    rw [List.infix_cons_iff]
    refine ⟨fun h => h.resolve_left (fun h => hx ?_), .inr⟩
    rw [List.cons_prefix_cons] at h
    exact h.1.symm
  have hnp : ∀ x : Char, x ≠ '2' → x ≠ '4' → x ≠ p := by rintro x h1 h2 rfl; rcases hp with e | e <;> contradiction
  have e0 : statusLine [a, b, c] reason = 'H' :: 'T' :: 'T' :: 'P' :: '/' :: '1' :: '.' :: '1' :: ' ' :: a :: b :: c :: (' ' :: reason ++ ['\r']) := by
    simp [statusLine, lit]
  rw [e0, skip _ _ (hnp _ (by decide) (by decide)), skip _ _ (hnp _ (by decide) (by decide)), skip _ _ (hnp _ (by decide) (by decide)),
    skip _ _ (hnp _ (by decide) (by decide)), skip _ _ (hnp _ (by decide) (by decide)), skip _ _ (hnp _ (by decide) (by decide)),
    skip _ _ (hnp _ (by decide) (by decide)), skip _ _ (hnp _ (by decide) (by decide)), skip _ _ (hnp _ (by decide) (by decide)),
    List.infix_cons_iff, List.infix_cons_iff, List.infix_cons_iff]
  constructor
  · rintro (h | h | h | h)
    · simp only [List.cons_prefix_cons] at h
      simp [h.1, h.2.1, h.2.2.1]
    · simp only [List.cons_append, List.cons_prefix_cons] at h
      exact absurd h.2.2.1.symm hsp.2.2
    · simp only [List.cons_append, List.cons_prefix_cons] at h
      exact absurd h.2.1.symm hsp.2.1
    · exact absurd h htail
  · intro h
    left
    simp only [List.cons.injEq, and_true] at h
    simp [h.1, h.2.1, h.2.2]

/-- The answer to the request for the stream decides what the thread does: 200 begins a stream, 405 ends the thread for good, and any other status means another try after the delay.

Partial: the text after the status code has no digits in it; see `C109_status_counterexample`. -/
theorem C109_status_partial (s : Strm) (hp : s.phase = .asking) (hon : s.on = true) (a b c : Char) (reason rest : Bytes)
    (hr : ∀ x ∈ reason, isDig x = false ∧ x ≠ '\n') (hc : a ≠ '\n' ∧ b ≠ '\n' ∧ c ≠ '\n') :
    let s' := s.head (statusLine [a, b, c] reason ++ '\n' :: rest)
    ([a, b, c] = lit "200" → ∃ conn, s'.phase = .reading conn) ∧ ([a, b, c] = lit "405" → s'.phase = .ended ∧ s'.enabled = false) ∧
    ([a, b, c] ≠ lit "200" → [a, b, c] ≠ lit "405" → s' = { s with phase := .asleep s.retry }) := by
  have hn : '\n' ∉ statusLine [a, b, c] reason := by
    intro hm
    simp only [statusLine, List.mem_append, List.mem_cons, List.not_mem_nil, or_false] at hm
    rcases hm with ((hm | hm | hm | hm) | hm | hm) | hm
    · revert hm; decide
    · exact hc.1 hm.symm
    · exact hc.2.1 hm.symm
    · exact hc.2.2 hm.symm
    · revert hm; decide
    · exact (hr _ hm).2 rfl
    · revert hm; decide
  have h2 := status_code a b c reason (fun x hx => (hr x hx).1) '2' '0' '0' (.inl rfl) (by decide) (by decide)
  have h4 := status_code a b c reason (fun x hx => (hr x hx).1) '4' '0' '5' (.inr rfl) (by decide) (by decide)
  have e : getlines (statusLine [a, b, c] reason ++ '\n' :: rest) = statusLine [a, b, c] reason :: getlines rest := getlines_line _ _ hn
  dsimp only
  unfold Strm.head
  rw [hp]
  dsimp only
  rw [e]
  dsimp only
  refine ⟨fun h => ?_, fun h => ?_, fun h h' => ?_⟩
  · rw [if_pos (by exact h2.2 h), if_pos hon]; exact ⟨_, rfl⟩
  · rw [if_neg (by rw [show lit "200" = ['2', '0', '0'] from rfl, h2, h]; decide), if_pos (by exact h4.2 h)]; exact ⟨rfl, rfl⟩
  · rw [if_neg (by rw [show lit "200" = ['2', '0', '0'] from rfl, h2]; exact h), if_neg (by rw [show lit "405" = ['4', '0', '5'] from rfl, h4]; exact h')]
    simp [Strm.sleep, hon]

example : let s := (Strm.init 250 (lit "s")).run [.check, .dial]
    s.phase = .asking ∧ s.on = true ∧ ∀ x ∈ lit "Service Unavailable", isDig x = false ∧ x ≠ '\n' := by decide +kernel

/-- A status line of an error whose text has "200" in it begins a stream, and the body of the error is read as events. -/
theorem C109_status_counterexample (code before after : Bytes) (hc : '\n' ∉ code) (hb : '\n' ∉ before) (ha : '\n' ∉ after) (delay : Nat) (sid : Bytes) (hs : sid ≠ []) (e : Nat × Bytes)
    (he : OneLine e.2) :
    ((Strm.init delay sid).run [.check, .dial, .head (statusLine code (before ++ lit "200" ++ after) ++ lit "\n\r\n" ++ eventText e)]).messages = [e.2] := by
  have h1 : (Strm.init delay sid).run [.check, .dial] = ⟨.asking, delay, true, true, sid, [sid], []⟩ := by
    simp [Strm.run, Strm.step, Strm.check, Strm.dial, Strm.init, Strm.on, hs]
  rw [show [StrmOp.check, .dial, .head (statusLine code (before ++ lit "200" ++ after) ++ lit "\n\r\n" ++ eventText e)] =
    [.check, .dial] ++ [.head (statusLine code (before ++ lit "200" ++ after) ++ lit "\n\r\n" ++ eventText e)] from rfl, strm_run_append, h1]
  have hn : '\n' ∉ statusLine code (before ++ lit "200" ++ after) := by
    intro hm
    simp only [statusLine, List.mem_append, List.mem_cons, List.not_mem_nil, or_false] at hm
    rcases hm with ((hm | hm) | hm | (hm | hm) | hm) | hm
    · revert hm; decide
    · exact hc hm
    · revert hm; decide
    · exact hb hm
    · revert hm; decide
    · exact ha hm
    · revert hm; decide
  have e1 : getlines (statusLine code (before ++ lit "200" ++ after) ++ lit "\n\r\n" ++ eventText e) =
      statusLine code (before ++ lit "200" ++ after) :: ['\r'] :: getlines (eventText e) := by
    rw [show statusLine code (before ++ lit "200" ++ after) ++ lit "\n\r\n" ++ eventText e =
      statusLine code (before ++ lit "200" ++ after) ++ '\n' :: (['\r'] ++ '\n' :: eventText e) by simp [lit], getlines_line _ _ hn, getlines_line _ _ (by decide)]
  have h2 : containsSub (lit "200") (statusLine code (before ++ lit "200" ++ after)) = true := by
    rw [containsSub_iff]
    exact ⟨lit "HTTP/1.1 " ++ code ++ ' ' :: before, after ++ ['\r'], by simp [statusLine]⟩
  rw [strm_run_cons, strm_run_nil, strm_step_head]
  unfold Strm.head
  dsimp only
  rw [e1]
  dsimp only
  rw [if_pos h2, headLoop, if_pos rfl, if_pos (by rfl)]
  show [] ++ (Sse.parse ⟨[], delay, []⟩ (eventText e)).out = _
  rw [parse_event _ rfl e he]
  rfl

example : OneLine (lit "{}") ∧ '\n' ∉ lit "503" ∧ '\n' ∉ lit "Back in " ∧ '\n' ∉ lit " s" ∧ (lit "sid") ≠ [] := ⟨⟨by decide, by decide, by decide⟩, by decide, by decide, by decide, by decide⟩

/-- A session the server no longer knows (404) is asked for again and again: the thread never gives up, and the session is not begun anew. -/
theorem C109_gone_counterexample (delay : Nat) (sid : Bytes) (hs : sid ≠ []) (n : Nat) :
    let round : List StrmOp := [.check, .dial, .head (lit "HTTP/1.1 404 Not Found\r\n\r\n"), .tick delay]
    ((Strm.init delay sid).run (List.replicate n round).flatten).gets = List.replicate n sid ∧
    ((Strm.init delay sid).run (List.replicate n round).flatten).phase = .top := by
  intro round
  have hr : ∀ g, (Strm.run ⟨.top, delay, true, true, sid, g, []⟩ round) = ⟨.top, delay, true, true, sid, g ++ [sid], []⟩ := by
    intro g
    have e : getlines (lit "HTTP/1.1 404 Not Found\r\n\r\n") = [lit "HTTP/1.1 404 Not Found\r", ['\r']] := by decide +kernel
    have c1 : containsSub (lit "200") (lit "HTTP/1.1 404 Not Found\r") = false := by decide +kernel
    have c2 : containsSub (lit "405") (lit "HTTP/1.1 404 Not Found\r") = false := by decide +kernel
    simp [round, Strm.run, Strm.step, Strm.check, Strm.dial, Strm.on, hs, Strm.head, e, c1, c2, Strm.sleep, Strm.tick]
  suffices ∀ n g, Strm.run ⟨.top, delay, true, true, sid, g, []⟩ (List.replicate n round).flatten = ⟨.top, delay, true, true, sid, g ++ List.replicate n sid, []⟩ by
    have h := this n []
    show (Strm.run ⟨.top, delay, true, true, sid, [], []⟩ _).gets = _ ∧ (Strm.run ⟨.top, delay, true, true, sid, [], []⟩ _).phase = _
    rw [h]
    simp
  intro n
  induction n with
  | zero => intro g; simp [Strm.run]
  | succ n ih =>
    intro g
    rw [List.replicate_succ, List.flatten_cons, strm_run_append, hr, ih, List.replicate_succ]
    simp

/-! ### The thread of the stream -/

section
variable {D : Type} [DblFmt D]

/-- The server never answers a request for the stream with an empty session id. -/
def NamesSession (ops : List (HtOp D)) : Prop := HtOp.opened (some []) ∉ ops

/-- `Start` is called once. -/
def StartsOnce (ops : List (HtOp D)) : Prop := ∀ a b, ops = a ++ HtOp.start :: b → HtOp.start ∉ a

/-- A thread that is there is at work, or no stream is ever begun again. -/
structure StreamOk (s : Ht D) : Prop where
  thread : s.sseThread = true → s.sse = true ∨ s.sseEnabled = false
  session : s.sse = true → s.session ≠ []
  fine : s.terminated = false

theorem streamOk_of_eq {s s' : Ht D} (h : StreamOk s) (h1 : s'.sseThread = s.sseThread) (h2 : s'.sse = s.sse) (h3 : s'.sseEnabled = s.sseEnabled)
    (h4 : s'.session = s.session ∨ s'.session ≠ []) (h6 : s'.terminated = s.terminated) : StreamOk s' :=
  ⟨by rw [h1, h2, h3]; exact h.thread, by
    rw [h2]
    intro hs
    rcases h4 with h4 | h4
    · rw [h4]; exact h.session hs
    · exact h4, by rw [h6]; exact h.fine⟩

theorem streamOk_startSse {s : Ht D} (h : StreamOk s) (o : HtOpts) : StreamOk (s.startSse o) := by
  unfold Ht.startSse
  split
  · rename_i hc
    simp only [Bool.and_eq_true, Bool.not_eq_true', List.isEmpty_eq_false_iff] at hc
    obtain ⟨⟨⟨⟨-, -⟩, he⟩, hs⟩, hr⟩ := hc
    refine ⟨fun _ => .inl rfl, fun _ => hs, ?_⟩
    have ht : s.sseThread = false := by
      cases e : s.sseThread with
      | false => rfl
      | true =>
        rcases h.thread e with h1 | h1
        · rw [hr] at h1; cases h1
        · rw [he] at h1; cases h1
    show (s.terminated || s.sseThread) = false
    rw [h.fine, ht]
    rfl
  · exact h

theorem streamOk_incoming {s : Ht D} (h : StreamOk s) (hd : HtHandlers D) (json fb : Bytes) : StreamOk (s.incoming hd json fb) := by
  obtain ⟨t, ht⟩ := incoming_eq hd s json fb
  rw [ht]
  exact streamOk_of_eq h rfl rfl rfl (.inl rfl) rfl

theorem streamOk_capture {s : Ht D} (h : StreamOk s) (sid : Bytes) : StreamOk (s.capture sid) := by
  unfold Ht.capture
  split
  · exact h
  · rename_i hn; exact streamOk_of_eq h rfl rfl rfl (.inr hn) rfl

theorem streamOk_completed {s : Ht D} (h : StreamOk s) (o : HtOpts) (hd : HtHandlers D) (p : PostFor) (body sid : Bytes) : StreamOk (s.completed o hd p body sid) := by
  cases p with
  | request key starts =>
    unfold Ht.completed
    have h1 : StreamOk (if starts && !sid.isEmpty then (s.capture sid).startSse o else s.capture sid) := by
      split
      · exact streamOk_startSse (streamOk_capture h sid) o
      · exact streamOk_capture h sid
    dsimp only
    split
    · exact streamOk_incoming h1 hd body key
    · exact streamOk_of_eq h1 rfl rfl rfl (.inl rfl) rfl
  | note => exact streamOk_capture h sid
  | answer => exact streamOk_capture h sid

theorem streamOk_step {s : Ht D} (h : StreamOk s) (o : HtOpts) (op : HtOp D) (h1 : op = .start → s.io ≠ .running) (h2 : op ≠ .opened (some [])) : StreamOk (s.step o op) := by
  cases op with
  | start =>
    simp only [Ht.step, Ht.start]
    split
    · exact streamOk_of_eq h rfl rfl rfl (.inl rfl) rfl
    · rename_i hr; exact absurd hr (h1 rfl)
    · exact streamOk_of_eq h rfl rfl rfl (.inl rfl) rfl
  | send r => simp only [Ht.step, Ht.send]; split <;> exact streamOk_of_eq h rfl rfl rfl (.inl rfl) rfl
  | file t =>
    simp only [Ht.step, Ht.file]
    split
    · exact streamOk_of_eq h rfl rfl rfl (.inl rfl) rfl
    · exact h
  | note n =>
    simp only [Ht.step, Ht.note]
    split
    · exact streamOk_of_eq h rfl rfl rfl (.inl rfl) rfl
    · exact h
  | begin k =>
    simp only [Ht.step, Ht.begin]
    split
    · exact streamOk_of_eq h rfl rfl rfl (.inl rfl) rfl
    · exact h
  | finish hd k body sid =>
    simp only [Ht.step, Ht.finish]
    split
    · refine streamOk_completed (s := { s with posts := s.posts.set k .over }) (streamOk_of_eq h rfl rfl rfl (.inl rfl) rfl) o hd _ body sid
    · exact h
  | failEarly hd k =>
    simp only [Ht.step, Ht.failEarly]
    split
    · refine streamOk_completed (s := { s with posts := s.posts.set k .over }) (streamOk_of_eq h rfl rfl rfl (.inl rfl) rfl) o hd _ [] []
    · exact h
  | event hd json =>
    simp only [Ht.step, Ht.event]
    split
    · exact streamOk_incoming h hd json []
    · exact h
  | opened header =>
    simp only [Ht.step, Ht.opened]
    split
    · refine streamOk_of_eq h rfl rfl rfl ?_ rfl
      cases header with
      | none => exact .inl rfl
      | some x => exact .inr (fun e => h2 (by rw [show x = [] from e]))
    · exact h
  | giveUp refused =>
    simp only [Ht.step, Ht.giveUp]
    split
    · rename_i hc
      simp only [Bool.and_eq_true, Bool.or_eq_true] at hc
      have hr : refused = true := by
        rcases hc.2 with hr | hr
        · exact hr
        · exact absurd (List.isEmpty_iff.1 hr) (h.session hc.1)
      subst hr
      exact ⟨fun _ => .inr (by simp), fun he => by simp at he, h.fine⟩
    · exact h
  | close =>
    simp only [Ht.step, Ht.close]
    split
    · exact streamOk_of_eq h rfl rfl rfl (.inl rfl) rfl
    · exact ⟨fun he => by simp at he, fun he => by simp at he, h.fine⟩

/-- The io thread runs only after `Start`. -/
theorem io_running (o : HtOpts) (ops : List (HtOp D)) : ∀ s : Ht D, s.io ≠ .running → HtOp.start ∉ ops → (s.run o ops).io ≠ .running := by
  induction ops with
  | nil => intro s h _; exact h
  | cons op ops ih =>
    intro s h hn
    refine ih (s.step o op) ?_ (fun hm => hn (List.mem_cons_of_mem _ hm))
    cases op with
    | start => exact absurd (List.mem_cons_self ..) hn
    | send r => simp only [Ht.step, Ht.send]; split <;> exact h
    | file t => simp only [Ht.step, Ht.file]; split <;> exact h
    | note n => simp only [Ht.step, Ht.note]; split <;> exact h
    | begin k => simp only [Ht.step, Ht.begin]; split <;> exact h
    | finish hd k body sid =>
      simp only [Ht.step, Ht.finish]
      split
      · rename_i hr _; exact absurd hr h
      · exact h
    | failEarly hd k =>
      simp only [Ht.step, Ht.failEarly]
      split
      · rename_i hr _; exact absurd hr h
      · exact h
    | event hd json =>
      simp only [Ht.step, Ht.event]
      split
      · obtain ⟨t, ht⟩ := incoming_eq hd s json []
        rw [ht]
        exact h
      · exact h
    | opened header => simp only [Ht.step, Ht.opened]; split <;> exact h
    | giveUp refused => simp only [Ht.step, Ht.giveUp]; split <;> exact h
    | close =>
      simp only [Ht.step, Ht.close]
      split
      · exact h
      · simp

/-- The client never ends the process over the threads of its streams, however often it initializes and whatever the streams do.

Partial: a response to the request for the stream that clears the session id is left out, see `C109_terminate_counterexample`; and so is a second `Start`. -/
theorem C109_alive_partial (o : HtOpts) (ops : List (HtOp D)) (hs : StartsOnce ops) (hn : NamesSession ops) : ((Ht.init : Ht D).run o ops).terminated = false := by
  suffices ∀ n, StreamOk ((Ht.init : Ht D).run o (ops.take n)) by
    have := (this ops.length).fine
    rwa [List.take_length] at this
  intro n
  induction n with
  | zero => exact ⟨fun h => by simp [Ht.run, Ht.init] at h, fun h => by simp [Ht.run, Ht.init] at h, rfl⟩
  | succ n ih =>
    by_cases hlt : n < ops.length
    · rw [List.take_succ_eq_append_getElem hlt, ht_run_concat]
      refine streamOk_step ih o _ (fun e => ?_) (fun e => hn (e ▸ List.getElem_mem hlt))
      refine io_running o _ _ (by simp [Ht.init]) (hs _ (ops.drop (n + 1)) ?_)
      rw [← e, ← List.drop_eq_getElem_cons hlt, List.take_append_drop]
    · rw [List.take_of_length_le (by omega)]
      rw [List.take_of_length_le (by omega)] at ih
      exact ih

end

/-- An initialize request and the exchange it makes. -/
def initOps (id : Int) (k : Nat) (sid : Bytes) : List (HtOp Empty) :=
  [.send ⟨.int id, lit "initialize", none⟩, .file k, .begin k, .finish noHandlers k (lit "{\"jsonrpc\":\"2.0\",\"id\":" ++ intDec id ++ lit ",\"result\":{}}") sid]

/-- Two sessions, a stream that comes and goes. -/
example : let ops : List (HtOp Empty) := [.start] ++ initOps 1 0 (lit "a") ++ [.opened (some (lit "b")), .giveUp false] ++ initOps 2 1 (lit "c") ++ [.giveUp true] ++ initOps 3 2 (lit "d")
    NamesSession ops ∧ StartsOnce ops ∧ ((Ht.init : Ht Empty).run streamHt ops).sseThread = true ∧ ((Ht.init : Ht Empty).run streamHt ops).session = lit "d" := by
  refine ⟨by simp [NamesSession, initOps, lit], ?_, by decide +kernel, by decide +kernel⟩
  intro a b e hm
  cases a with
  | nil => cases hm
  | cons x a =>
    have e2 := congrArg List.tail e
    have : HtOp.start ∈ a ++ HtOp.start :: b := by simp
    rw [show a ++ HtOp.start :: b = (x :: a ++ HtOp.start :: b).tail from rfl, ← e2] at this
    simp [initOps] at this

/-- The server answers the request for the stream with an empty Mcp-Session-Id header: the thread gives up for lack of a session id and nothing waits for it; the next initialize that
gets a session id begins a stream over it, which ends the process (`std::terminate`). -/
theorem C109_terminate_counterexample :
    ((Ht.init : Ht Empty).run streamHt ([.start] ++ initOps 1 0 (lit "a") ++ [.opened (some []), .giveUp false] ++ initOps 2 1 (lit "b"))).terminated = true := by
  decide +kernel

end Verif
