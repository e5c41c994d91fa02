import Verif.Http.Events
import Verif.Base.Lemmas
import Verif.Framer.Lemmas

/-!
C45: event streams. Whatever the server writes arrives, in order and intact, however the connection splits it, as long as no piece ends
inside a line after the end of another.
-/

namespace Verif

open Http

/-! ### Specification -/

/-- A text that fits on one line: not empty, no newline, no carriage return at its end. -/
structure OneLine (p : Bytes) : Prop where
  nonempty : p ≠ []
  line : '\n' ∉ p
  cr : p.getLast? ≠ some '\r'

/-- A piece that does not end inside a line it begins: if there is a newline in it, it ends with one. -/
def EndsLine (a : Bytes) : Prop := '\n' ∈ a → a.getLast? = some '\n'

/-- What a stream carries once all of `evs` are written and a part of the next event. -/
def Written (evs : List (Nat × Bytes)) (rest : Bytes) (s : Bytes) : Prop :=
  s = (evs.map eventText).flatten ++ rest ∧ ∃ e, OneLine e.2 ∧ rest <+: eventText e ∧ rest ≠ eventText e

/-! ### Lines -/

theorem getlines_line (l s : Bytes) (h : '\n' ∉ l) : getlines (l ++ '\n' :: s) = l :: getlines s := by
  induction l with
  | nil => simp [getlines]
  | cons c l ih =>
    simp only [List.mem_cons, not_or] at h
    simp only [List.cons_append, getlines, if_neg (Ne.symm h.1), ih h.2]

theorem getlines_last (l : Bytes) (h : '\n' ∉ l) : getlines l = if l = [] then [] else [l] := by
  induction l with
  | nil => rfl
  | cons c l ih =>
    simp only [List.mem_cons, not_or] at h
    simp only [getlines, if_neg (Ne.symm h.1), ih h.2]
    cases l <;> simp

/-- A text that is empty or ends with a newline. -/
def Whole (a : Bytes) : Prop := a = [] ∨ ∃ b, a = b ++ ['\n']

theorem whole_nil : Whole [] := .inl rfl

theorem whole_append {a b : Bytes} (ha : Whole a) (hb : Whole b) : Whole (a ++ b) := by
  rcases hb with rfl | ⟨b, rfl⟩
  · simpa using ha
  · exact .inr ⟨a ++ b, by simp⟩

theorem getlines_append (a s : Bytes) (h : Whole a) : getlines (a ++ s) = getlines a ++ getlines s := by
  rcases h with rfl | ⟨b, rfl⟩
  · rfl
  · induction b with
    | nil => simp [getlines]
    | cons c b ih =>
      by_cases hc : c = '\n'
      · simp only [List.cons_append, getlines, hc, if_true] at ih ⊢
        rw [ih]
      · simp only [List.cons_append, getlines, if_neg hc] at ih ⊢
        rw [ih]
        cases hb : getlines (b ++ ['\n']) with
        | nil =>
          cases b with
          | nil => simp [getlines] at hb
          | cons d b =>
            simp only [List.cons_append, getlines] at hb
            split at hb
            · cases hb
            · split at hb <;> cases hb
        | cons l r => rfl

theorem parse_append (st : Sse) (a s : Bytes) (h : Whole a) : st.parse (a ++ s) = (st.parse a).parse s := by
  unfold Sse.parse
  rw [getlines_append _ _ h, List.foldl_append]

theorem parse_line (st : Sse) (l s : Bytes) (h : '\n' ∉ l) : st.parse (l ++ '\n' :: s) = (st.line l).parse s := by
  unfold Sse.parse
  rw [getlines_line _ _ h]
  rfl

theorem parse_nil (st : Sse) : st.parse [] = st := rfl

/-! ### Reading -/

/-- What has been received is what was parsed, in whole lines, and the buffer. -/
theorem conn_reach (c0 : SseConn) (p : Bytes) (hp : Whole p) (st : Sse) (h0 : c0.st = st.parse p) (hb : '\n' ∉ c0.buf) (l : List Bytes)
    (hl : ∀ a ∈ l, EndsLine a) :
    ∃ q, Whole q ∧ (c0.recvAll l).st = st.parse q ∧ '\n' ∉ (c0.recvAll l).buf ∧ q ++ (c0.recvAll l).buf = p ++ c0.buf ++ l.flatten := by
  induction l generalizing c0 p with
  | nil => exact ⟨p, hp, h0, hb, by simp [SseConn.recvAll]⟩
  | cons a l ih =>
    have ha := hl a (List.mem_cons_self ..)
    have hl' : ∀ a ∈ l, EndsLine a := fun x hx => hl x (List.mem_cons_of_mem _ hx)
    by_cases hn : '\n' ∈ c0.buf ++ a
    · have hr : c0.recv a = ⟨[], c0.st.parse (c0.buf ++ a)⟩ := by unfold SseConn.recv; rw [if_pos hn]
      have hna : '\n' ∈ a := by
        rcases List.mem_append.1 hn with h | h
        · exact absurd h hb
        · exact h
      have hw : Whole (c0.buf ++ a) := by
        right
        obtain ⟨b, hb'⟩ := List.getLast?_eq_some_iff.1 (ha hna)
        exact ⟨c0.buf ++ b, by rw [hb', List.append_assoc]⟩
      obtain ⟨q, h1, h2, h3, h4⟩ := ih (c0.recv a) (p ++ (c0.buf ++ a)) (whole_append hp hw)
        (by rw [hr, parse_append _ _ _ hp, ← h0]) (by rw [hr]; simp) hl'
      refine ⟨q, h1, h2, h3, ?_⟩
      rw [show (c0.recvAll (a :: l)) = (c0.recv a).recvAll l from rfl, h4, hr]
      simp
    · have hr : c0.recv a = ⟨c0.buf ++ a, c0.st⟩ := by unfold SseConn.recv; rw [if_neg hn]
      obtain ⟨q, h1, h2, h3, h4⟩ := ih (c0.recv a) p hp (by rw [hr]; exact h0) (by rw [hr]; exact hn) hl'
      refine ⟨q, h1, h2, h3, ?_⟩
      rw [show (c0.recvAll (a :: l)) = (c0.recv a).recvAll l from rfl, h4, hr]
      simp

/-! ### Events -/

theorem noNewline_natDec (n : Nat) : '\n' ∉ natDec n := by
  intro h
  have := natDec_isDig h
  revert this; decide

theorem idLine_skipped (st : Sse) (n : Nat) : st.line (lit "id: " ++ natDec n) = st := by
  unfold Sse.line
  have hd : dropCr (lit "id: " ++ natDec n) = lit "id: " ++ natDec n := by
    unfold dropCr
    rw [if_neg]
    intro h
    have hm := List.mem_of_getLast? h
    rcases List.mem_append.1 hm with h | h
    · revert h; decide
    · have := natDec_isDig h
      revert this; decide
  rw [hd]
  rfl

theorem dataLine_taken (st : Sse) (p : Bytes) (h : OneLine p) (hs : st.data = []) : st.line (lit "data: " ++ p) = { st with data := p } := by
  unfold Sse.line
  have hd : dropCr (lit "data: " ++ p) = lit "data: " ++ p := by
    unfold dropCr
    rw [if_neg]
    rw [List.getLast?_append, Option.or_of_isSome (by
      rw [List.getLast?_isSome]
      exact h.nonempty)]
    exact h.cr
  rw [hd]
  show Sse.field st ('d' :: 'a' :: 't' :: 'a' :: ':' :: ' ' :: p) = _
  unfold Sse.field
  rw [if_neg (by simp), if_pos (by simp [lit, List.isPrefixOf]), if_pos hs]
  rfl

theorem event_lines (e : Nat × Bytes) (h : OneLine e.2) : getlines (eventText e) = [lit "id: " ++ natDec e.1, lit "data: " ++ e.2, []] := by
  have h1 : eventText e = (lit "id: " ++ natDec e.1) ++ '\n' :: ((lit "data: " ++ e.2) ++ '\n' :: ([] ++ '\n' :: [])) := by
    unfold eventText
    simp [lit]
  rw [h1, getlines_line _ _ (by
    intro hm
    rcases List.mem_append.1 hm with h | h
    · revert h; decide
    · exact noNewline_natDec _ h), getlines_line _ _ (by
    intro hm
    rcases List.mem_append.1 hm with h' | h'
    · revert h'; decide
    · exact h.line h'), getlines_line _ _ (by simp)]
  rfl

theorem event_whole (e : Nat × Bytes) : Whole (eventText e) :=
  .inr ⟨lit "id: " ++ natDec e.1 ++ lit "\ndata: " ++ e.2 ++ lit "\n", by simp [eventText, lit]⟩

theorem parse_event (st : Sse) (hs : st.data = []) (e : Nat × Bytes) (h : OneLine e.2) :
    st.parse (eventText e) = { st with out := st.out ++ [e.2] } := by
  unfold Sse.parse
  rw [event_lines e h]
  simp only [List.foldl_cons, List.foldl_nil, idLine_skipped, dataLine_taken _ _ h hs]
  show Sse.field _ [] = _
  unfold Sse.field
  rw [if_pos rfl, if_neg h.nonempty]
  simp [hs]

theorem parse_events (st : Sse) (hs : st.data = []) (evs : List (Nat × Bytes)) (h : ∀ e ∈ evs, OneLine e.2) :
    st.parse (evs.map eventText).flatten = { st with out := st.out ++ evs.map (·.2) } ∧ Whole (evs.map eventText).flatten := by
  induction evs generalizing st with
  | nil => exact ⟨by simp [Sse.parse, getlines], whole_nil⟩
  | cons e evs ih =>
    have ih := ih { st with out := st.out ++ [e.2] } hs (fun x hx => h x (List.mem_cons_of_mem _ hx))
    simp only [List.map_cons, List.flatten_cons]
    rw [parse_append _ _ _ (event_whole e), parse_event st hs e (h e (List.mem_cons_self ..)), ih.1]
    exact ⟨by simp, whole_append (event_whole e) ih.2⟩

/-- Lines of an event that is not complete deliver nothing. -/
theorem parse_part (st : Sse) (hs : st.data = []) (e : Nat × Bytes) (h : OneLine e.2) (q r : Bytes) (hq : Whole q) (hr : q ++ r = eventText e) (hne : r ≠ []) :
    (st.parse q).out = st.out := by
  have hl := event_lines e h
  rw [← hr, getlines_append _ _ hq] at hl
  have hnr : getlines r ≠ [] := by
    cases r with
    | nil => exact absurd rfl hne
    | cons c r =>
      unfold getlines
      split
      · simp
      · split <;> simp
  unfold Sse.parse
  match hg : getlines q, hl with
  | [], _ => rfl
  | [a], hl =>
    simp only [List.cons_append, List.nil_append, List.cons.injEq] at hl
    simp only [List.foldl_cons, List.foldl_nil, hl.1, idLine_skipped]
  | [a, b], hl =>
    simp only [List.cons_append, List.nil_append, List.cons.injEq] at hl
    simp only [List.foldl_cons, List.foldl_nil, hl.1, hl.2.1, idLine_skipped, dataLine_taken _ _ h hs]
  | a :: b :: c :: l, hl =>
    simp only [List.cons_append, List.cons.injEq] at hl
    have := hl.2.2.2
    simp only [List.append_eq_nil_iff] at this
    exact absurd this.2 hnr

/-- **C45**, in part: at every moment the messages handed over are exactly those whose events have been received, in order and intact,
whatever the pieces the stream arrived in. Missing: pieces that end inside a line after the end of another; see
`C45_split_counterexample`. -/
theorem C45_messages_partial (retry : Nat) (evs : List (Nat × Bytes)) (h : ∀ e ∈ evs, OneLine e.2) (rest first : Bytes) (arr : List Bytes)
    (hw : Written evs rest (first ++ arr.flatten)) (h1 : Whole first) (h2 : ∀ a ∈ arr, EndsLine a) :
    ((SseConn.start retry first).recvAll arr).st.out = evs.map (·.2) := by
  obtain ⟨hs, e, he, hp, hne⟩ := hw
  obtain ⟨q, hq, h3, h4, h5⟩ := conn_reach (SseConn.start retry first) first h1 ⟨[], retry, []⟩ rfl (by simp [SseConn.start]) arr h2
  rw [h3]
  have h6 : q ++ ((SseConn.start retry first).recvAll arr).buf = (evs.map eventText).flatten ++ rest := by
    rw [h5, ← hs]; simp [SseConn.start]
  generalize ((SseConn.start retry first).recvAll arr).buf = b at h4 h6
  obtain ⟨hpe, hwe⟩ := parse_events ⟨[], retry, []⟩ rfl evs h
  generalize (evs.map eventText).flatten = E at h6 hpe hwe
  -- the events received are part of what was parsed
  have hsplit : ∃ q', q = E ++ q' ∧ q' ++ b = rest := by
    rcases List.append_eq_append_iff.1 h6 with ⟨m, hm1, hm2⟩ | ⟨m, hm1, hm2⟩
    · rcases hwe with hE | ⟨E', hE⟩
      · subst hE
        have := List.append_eq_nil_iff.1 hm1.symm
        exact ⟨[], by rw [this.1]; rfl, by rw [hm2, this.2]; rfl⟩
      · cases hmm : m with
        | nil => exact ⟨[], by rw [hm1, hmm]; simp, by rw [hm2, hmm]; rfl⟩
        | cons x y =>
          exfalso
          apply h4
          rw [hm2]
          refine List.mem_append_left _ ?_
          have : (q ++ m).getLast? = some '\n' := by rw [← hm1, hE]; simp
          rw [List.getLast?_append, Option.or_of_isSome (by rw [hmm]; simp)] at this
          exact List.mem_of_getLast? this
    · exact ⟨m, hm1, hm2.symm⟩
  obtain ⟨q', rfl, hq'⟩ := hsplit
  rw [parse_append _ _ _ hwe, hpe]
  have hwq' : Whole q' := by
    rcases hq with hq | ⟨x, hx⟩
    · exact .inl (List.append_eq_nil_iff.1 hq).2
    · cases hc : q' with
      | nil => exact whole_nil
      | cons a l =>
        right
        have : (E ++ q').getLast? = some '\n' := by rw [hx]; simp
        rw [List.getLast?_append, Option.or_of_isSome (by rw [hc]; simp)] at this
        obtain ⟨z, hz⟩ := List.getLast?_eq_some_iff.1 this
        exact ⟨z, by rw [← hc, hz]⟩
  obtain ⟨t, ht⟩ := hp
  rw [parse_part _ rfl e he q' (b ++ t) hwq' (by rw [← List.append_assoc, hq', ht])]
  · simp
  · intro hnil
    have := List.append_eq_nil_iff.1 hnil
    apply hne
    rw [← ht, this.2, List.append_nil]

/-- An event with its data on several lines, as other servers write it. -/
def dataLines (l : List Bytes) : Bytes := (l.map (fun d => lit "data: " ++ d ++ lit "\n")).flatten ++ lit "\n"

theorem dataLine_more (st : Sse) (p : Bytes) (h : OneLine p) (hs : st.data ≠ []) : st.line (lit "data: " ++ p) = { st with data := st.data ++ '\n' :: p } := by
  unfold Sse.line
  have hd : dropCr (lit "data: " ++ p) = lit "data: " ++ p := by
    unfold dropCr
    rw [if_neg]
    rw [List.getLast?_append, Option.or_of_isSome (by
      rw [List.getLast?_isSome]
      exact h.nonempty)]
    exact h.cr
  rw [hd]
  show Sse.field st ('d' :: 'a' :: 't' :: 'a' :: ':' :: ' ' :: p) = _
  unfold Sse.field
  rw [if_neg (by simp), if_pos (by simp [lit, List.isPrefixOf]), if_neg hs]
  rfl

theorem parse_more (st : Sse) (hs : st.data ≠ []) (l : List Bytes) (h : ∀ d ∈ l, OneLine d) :
    st.parse (dataLines l) = ⟨[], st.retry, st.out ++ [st.data ++ (l.map (fun d => '\n' :: d)).flatten]⟩ := by
  induction l generalizing st with
  | nil =>
    show Sse.field st [] = _
    unfold Sse.field
    rw [if_pos rfl, if_neg hs]
    simp
  | cons d l ih =>
    have hd := h d (List.mem_cons_self ..)
    have : dataLines (d :: l) = (lit "data: " ++ d) ++ '\n' :: dataLines l := by simp [dataLines, lit]
    rw [this, parse_line _ _ _ (by
      intro hm
      rcases List.mem_append.1 hm with h' | h'
      · revert h'; decide
      · exact hd.line h'), dataLine_more _ _ hd hs, ih _ (by simp) (fun x hx => h x (List.mem_cons_of_mem _ hx))]
    simp

/-- **C45.** The data of an event on several lines is handed over once, its lines joined by newlines. -/
theorem C45_data_lines (retry : Nat) (d : Bytes) (l : List Bytes) (h : ∀ x ∈ d :: l, OneLine x) :
    ((SseConn.start retry []).recvAll [dataLines (d :: l)]).st.out = [d ++ (l.map (fun x => '\n' :: x)).flatten] := by
  have hd := h d (List.mem_cons_self ..)
  show ((SseConn.start retry []).recv (dataLines (d :: l))).st.out = _
  unfold SseConn.recv
  rw [if_pos (by simp [dataLines, lit, SseConn.start])]
  show (Sse.parse ⟨[], retry, []⟩ ([] ++ dataLines (d :: l))).out = _
  have : dataLines (d :: l) = (lit "data: " ++ d) ++ '\n' :: dataLines l := by simp [dataLines, lit]
  rw [List.nil_append, this, parse_line _ _ _ (by
      intro hm
      rcases List.mem_append.1 hm with h' | h'
      · revert h'; decide
      · exact hd.line h'), dataLine_taken _ _ hd rfl, parse_more _ hd.nonempty _ (fun x hx => h x (List.mem_cons_of_mem _ hx))]
  rfl

/-- An event with the other line end, as other servers write it. -/
def crlfEvent (e : Nat × Bytes) : Bytes := lit "id: " ++ natDec e.1 ++ lit "\r\ndata: " ++ e.2 ++ lit "\r\n\r\n"

theorem dropCr_cr (l : Bytes) : dropCr (l ++ ['\r']) = l := by
  unfold dropCr
  rw [if_pos (by simp), List.dropLast_concat]

theorem line_cr (st : Sse) (l : Bytes) (h : l.getLast? ≠ some '\r') : st.line (l ++ ['\r']) = st.line l := by
  unfold Sse.line
  rw [dropCr_cr]
  unfold dropCr
  rw [if_neg h]

theorem parse_crlf (st : Sse) (hs : st.data = []) (e : Nat × Bytes) (h : OneLine e.2) : st.parse (crlfEvent e) = { st with out := st.out ++ [e.2] } := by
  have h1 : crlfEvent e = (lit "id: " ++ natDec e.1 ++ ['\r']) ++ '\n' :: ((lit "data: " ++ e.2 ++ ['\r']) ++ '\n' :: (([] ++ ['\r']) ++ '\n' :: [])) := by
    unfold crlfEvent
    simp [lit]
  rw [h1, parse_line _ _ _ (by
    intro hm
    rcases List.mem_append.1 hm with h | h
    · rcases List.mem_append.1 h with h | h
      · revert h; decide
      · exact noNewline_natDec _ h
    · revert h; decide), parse_line _ _ _ (by
    intro hm
    rcases List.mem_append.1 hm with h' | h'
    · rcases List.mem_append.1 h' with h' | h'
      · revert h'; decide
      · exact h.line h'
    · revert h'; decide), parse_line _ _ _ (by decide), parse_nil]
  rw [line_cr _ (lit "id: " ++ natDec e.1) (by
    intro hm
    have hm := List.mem_of_getLast? hm
    rcases List.mem_append.1 hm with h | h
    · revert h; decide
    · have := natDec_isDig h
      revert this; decide), idLine_skipped, line_cr _ (lit "data: " ++ e.2) (by
    rw [List.getLast?_append, Option.or_of_isSome (by rw [List.getLast?_isSome]; exact h.nonempty)]
    exact h.cr), dataLine_taken _ _ h hs, line_cr _ [] (by simp)]
  show Sse.field _ [] = _
  unfold Sse.field
  rw [if_pos rfl, if_neg h.nonempty]
  simp [hs]

/-- **C45.** Events with lines ending in carriage return and newline are read the same. -/
theorem C45_crlf (retry : Nat) (evs : List (Nat × Bytes)) (h : ∀ e ∈ evs, OneLine e.2) :
    (SseConn.start retry (evs.map crlfEvent).flatten).st.out = evs.map (·.2) := by
  show (Sse.parse ⟨[], retry, []⟩ _).out = _
  suffices ∀ st : Sse, st.data = [] → (st.parse (evs.map crlfEvent).flatten).out = st.out ++ evs.map (·.2) by simpa using this ⟨[], retry, []⟩ rfl
  induction evs with
  | nil => intro st _; simp [Sse.parse, getlines]
  | cons e evs ih =>
    intro st hs
    rw [List.map_cons, List.flatten_cons, parse_append _ _ _ (.inr ⟨lit "id: " ++ natDec e.1 ++ lit "\r\ndata: " ++ e.2 ++ lit "\r\n\r", by simp [crlfEvent, lit]⟩),
      parse_crlf st hs e (h e (List.mem_cons_self ..)), ih (fun x hx => h x (List.mem_cons_of_mem _ hx)) { st with out := st.out ++ [e.2] } hs]
    simp

theorem retryLine_taken (st : Sse) (n : Nat) (hn : n < 2 ^ 64) : st.line (lit "retry: " ++ natDec n) = { st with retry := n % 2 ^ 32 } := by
  unfold Sse.line
  have hd : dropCr (lit "retry: " ++ natDec n) = lit "retry: " ++ natDec n := by
    unfold dropCr
    rw [if_neg]
    intro h
    have hm := List.mem_of_getLast? h
    rcases List.mem_append.1 hm with h | h
    · revert h; decide
    · have := natDec_isDig h
      revert this; decide
  rw [hd]
  show Sse.field st ('r' :: 'e' :: 't' :: 'r' :: 'y' :: ':' :: ' ' :: natDec n) = _
  unfold Sse.field
  rw [if_neg (by simp), if_neg (by simp [lit, List.isPrefixOf]), if_pos (by simp [lit, List.isPrefixOf])]
  show (match Framer.stoull (natDec n) with | some n => { st with retry := n % 2 ^ 32 } | none => st) = _
  rw [Framer.stoull_natDec n (by show n ≤ 18446744073709551615; omega)]

/-- **C45 (partial).** What a stream that asks for a delay leaves as the delay before the client connects again, and the events after. Missing: delays of 2^32
milliseconds and more. -/
theorem C45_retry_partial (retry n : Nat) (hn : n < 2 ^ 32) (evs : List (Nat × Bytes)) (h : ∀ e ∈ evs, OneLine e.2) :
    (SseConn.start retry (lit "retry: " ++ natDec n ++ lit "\n" ++ (evs.map eventText).flatten)).st = ⟨[], n, evs.map (·.2)⟩ := by
  show Sse.parse ⟨[], retry, []⟩ _ = _
  have : lit "retry: " ++ natDec n ++ lit "\n" ++ (evs.map eventText).flatten = (lit "retry: " ++ natDec n) ++ '\n' :: (evs.map eventText).flatten := by simp [lit]
  rw [this, parse_line _ _ _ (by
    intro hm
    rcases List.mem_append.1 hm with h | h
    · revert h; decide
    · exact noNewline_natDec _ h), retryLine_taken _ _ (by omega), (parse_events _ rfl evs h).1, Nat.mod_eq_of_lt hn]
  simp

/-- **C45 does not hold** of long delays: a delay of 2^32 milliseconds or more is cut to its low 32 bits: asked to wait for 49 days and some time, the client waits for that time only. -/
theorem C45_retry_counterexample (retry n : Nat) (hn : n < 2 ^ 32) :
    (SseConn.start retry (lit "retry: " ++ natDec (2 ^ 32 + n) ++ lit "\n")).st.retry = n := by
  show (Sse.parse ⟨[], retry, []⟩ _).retry = _
  have : lit "retry: " ++ natDec (2 ^ 32 + n) ++ lit "\n" = (lit "retry: " ++ natDec (2 ^ 32 + n)) ++ '\n' :: [] := by simp [lit]
  rw [this, parse_line _ _ _ (by
    intro hm
    rcases List.mem_append.1 hm with h | h
    · revert h; decide
    · exact noNewline_natDec _ h), retryLine_taken _ _ (by omega), parse_nil]
  show (2 ^ 32 + n) % 2 ^ 32 = n
  omega

/-- **C45** is false for a piece that ends inside a line: whatever the first message, and wherever the second is cut, the second message
handed over is only its beginning. -/
theorem C45_split_counterexample (retry n m : Nat) (p q1 q2 : Bytes) (hp : OneLine p) (h1 : OneLine q1) (h2 : OneLine q2)
    (hd : ¬ (lit "data:").isPrefixOf q2) :
    let a := eventText (n, p) ++ (lit "id: " ++ natDec m ++ lit "\ndata: " ++ q1)
    let b := q2 ++ lit "\n\n"
    a ++ b = eventText (n, p) ++ eventText (m, q1 ++ q2) ∧
    ((SseConn.start retry []).recvAll [a, b]).st.out = [p, q1] := by
  intro a b
  refine ⟨by simp [a, b, eventText, lit], ?_⟩
  have ha : '\n' ∈ a := by simp [a, eventText, lit]
  have hb : '\n' ∈ b := by simp [b, lit]
  have hid : '\n' ∉ lit "id: " ++ natDec m := by
    intro hm
    rcases List.mem_append.1 hm with h | h
    · revert h; decide
    · exact noNewline_natDec _ h
  have hdl : '\n' ∉ lit "data: " ++ q1 := by
    intro hm
    rcases List.mem_append.1 hm with h' | h'
    · revert h'; decide
    · exact h1.line h'
  have e1 : (SseConn.start retry []).recv a = ⟨[], ⟨q1, retry, [p]⟩⟩ := by
    unfold SseConn.recv
    rw [if_pos (by simpa [SseConn.start] using ha)]
    show SseConn.mk [] (Sse.parse ⟨[], retry, []⟩ ([] ++ a)) = _
    rw [List.nil_append, parse_append _ _ _ (event_whole _), parse_event _ rfl _ hp]
    rw [show lit "id: " ++ natDec m ++ lit "\ndata: " ++ q1 = (lit "id: " ++ natDec m) ++ '\n' :: (lit "data: " ++ q1) by simp [lit],
      parse_line _ _ _ hid, idLine_skipped]
    unfold Sse.parse
    rw [getlines_last _ hdl, if_neg (by simp [lit])]
    simp only [List.foldl_cons, List.foldl_nil, dataLine_taken _ _ h1]
    rfl
  have e2 : SseConn.recv ⟨[], ⟨q1, retry, [p]⟩⟩ b = ⟨[], (((⟨q1, retry, [p]⟩ : Sse).line q2).line [])⟩ := by
    unfold SseConn.recv
    rw [if_pos (by simpa using hb)]
    show SseConn.mk [] (Sse.parse _ ([] ++ (q2 ++ '\n' :: ([] ++ '\n' :: [])))) = _
    rw [List.nil_append, parse_line _ _ _ h2.line, parse_line _ _ _ (by simp), parse_nil]
  show (((SseConn.start retry []).recv a).recv b).st.out = _
  rw [e1, e2]
  have hq : ∃ r', (⟨q1, retry, [p]⟩ : Sse).line q2 = ⟨q1, r', [p]⟩ := by
    unfold Sse.line
    have : dropCr q2 = q2 := by unfold dropCr; rw [if_neg h2.cr]
    rw [this]
    unfold Sse.field
    rw [if_neg h2.nonempty, if_neg hd]
    split
    · split
      · exact ⟨_, rfl⟩
      · exact ⟨_, rfl⟩
    · exact ⟨_, rfl⟩
  obtain ⟨r', hq⟩ := hq
  rw [hq]
  show (Sse.field _ []).out = _
  unfold Sse.field
  rw [if_pos rfl, if_neg h1.nonempty]
  rfl

example : OneLine (lit "{\"jsonrpc\":\"2.0\",\"method\":\"a\"}") ∧ EndsLine (lit "id: 1\ndata: {}\n") ∧ EndsLine (lit "\n") ∧ EndsLine (lit "data: {") := by
  refine ⟨⟨?_, ?_, ?_⟩, ?_, ?_, ?_⟩ <;> first | decide | (unfold EndsLine; decide)
example : ((SseConn.start 250 (lit "id: 1\n")).recvAll [lit "data: {", lit "}\n", lit "\nid: 2\n", lit "data: 7\n\n"]).st.out = [lit "{}", lit "7"] := by decide +kernel
example : ¬ (lit "data:").isPrefixOf (lit "}") = true := by decide

end Verif
