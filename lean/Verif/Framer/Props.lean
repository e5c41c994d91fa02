import Verif.Framer.Spec

/-!
C08-C11: what a user of the stdio transport may rely on about framing. Specification vocabulary
(`PlainLine`, `joinLines`, `Declares`, `Other`, `Garbled`) is in `Lemmas.lean`/`Spec.lean` and speaks about
the bytes on the wire only.
-/

namespace Verif
open Framer

/-- C08. Decoding the frame of a payload within the limit, followed by any bytes, gives exactly that payload and
consumes exactly the frame. `sizeMax` is the largest `std::size_t`: no C++ string is longer. -/
theorem C08_encode_decode (max : Nat) (p rest : Bytes) (hmax : p.length ≤ max)
    (hsz : (encode p).length ≤ sizeMax) :
    tryDecodeEx max (encode p ++ rest) = .ok p (encode p).length ∧
      tryDecode max (encode p ++ rest) = (some p, rest) := by
  have h := decode_encode hmax hsz rest
  refine ⟨h, ?_⟩
  unfold tryDecode
  have hk := tryDecodeEx_ok h
  rw [h]
  simp only [if_pos hk.2]
  simp

example : tryDecodeEx 100 (encode (lit "{\"a\":1}") ++ lit "Content-Le") = .ok (lit "{\"a\":1}") 28 ∧
    (encode (lit "{\"a\":1}")).length = 28 := by decide +kernel

/-- C08, for frames written by other implementations: further header lines before and after, any case of the
name, any white space before the number. -/
theorem C08_foreign_header (max n : Nat) (pre post : List Bytes) (line body rest : Bytes)
    (hplain : ∀ l ∈ pre ++ line :: post, PlainLine l) (hpre : ∀ l ∈ pre, Other l) (hpost : ∀ l ∈ post, Other l)
    (hdecl : Declares line n) (hmax : n ≤ max) (hbody : body.length = n)
    (hsz : (joinLines (pre ++ line :: post) ++ sep ++ body).length ≤ sizeMax) :
    tryDecodeEx max (joinLines (pre ++ line :: post) ++ sep ++ body ++ rest) =
      .ok body (joinLines (pre ++ line :: post) ++ sep ++ body).length := by
  simp only [List.length_append, show sep.length = 4 from rfl] at hsz ⊢
  rw [List.append_assoc _ body rest, tryDecodeEx_lines max _ hplain]
  obtain ⟨v, hv, hs⟩ := declares_value hdecl
  have : scanLines max none (pre ++ line :: post) = .len (some n) := by
    rw [scanLines_others _ hpre, scanLines, hv]
    simp only [hs]
    rw [if_neg (by omega : ¬ n > sizeMax)]
    simp only
    rw [if_neg (by omega)]
    have := scanLines_others (max := max) (acc := some n) [] hpost
    rw [List.append_nil] at this
    rw [this]; rfl
  rw [this]
  simp only
  rw [if_neg (by omega), if_neg (by simp; omega)]
  simp [hbody]

example : PlainLine (lit "content-LENGTH:  2") ∧ Declares (lit "content-LENGTH:  2") 2 ∧
    PlainLine (lit "Content-Type: x") ∧ Other (lit "Content-Type: x") := by
  refine ⟨by unfold PlainLine; decide, ⟨lit "  ", lit "2", ⟨lit "content-LENGTH", rfl, by decide, by decide⟩, by decide, by decide, by decide, by decide⟩,
    by unfold PlainLine; decide, ?_⟩
  rintro value ⟨name, h, hn, hl⟩
  have h2 : splitCh ':' (lit "Content-Type: x") = some (name, value) := by rw [h]; exact splitCh_append _ hn
  have h3 : splitCh ':' (lit "Content-Type: x") = some (lit "Content-Type", lit " x") := by decide
  rw [h3] at h2
  simp only [Option.some.injEq, Prod.mk.injEq] at h2
  rw [← h2.1] at hl
  revert hl; decide

/-- C09. Two ways of cutting the same byte stream into reads deliver the same messages, leave the transport in the
same connection state, report the same errors and (while connected) keep the same bytes buffered, whatever the
application does in its handlers (`stay`). -/
theorem C09_chunk_independent (max : Nat) (stay : List Bytes → Bool) (cs ds : List Bytes)
    (h : cs.flatten = ds.flatten) :
    (feedAll max stay cs).delivered = (feedAll max stay ds).delivered ∧
    (feedAll max stay cs).connected = (feedAll max stay ds).connected ∧
    (feedAll max stay cs).errors = (feedAll max stay ds).errors ∧
    ((feedAll max stay cs).connected = true → (feedAll max stay cs).buf = (feedAll max stay ds).buf) := by
  have h1 := feedAll_flatten (max := max) (stay := stay) cs
  have h2 := feedAll_flatten (max := max) (stay := stay) ds
  rw [h] at h1
  exact h1.trans h2.symm

/-- C09. Every sequence of payloads within the limit, framed and concatenated, followed by an unfinished frame, and cut
into reads in any way, is delivered completely, in order, once each; exactly the unfinished part stays buffered. -/
theorem C09_frames_delivered (max : Nat) (ps : List Bytes) (q tail : Bytes) (cs : List Bytes)
    (hmax : ∀ p ∈ ps, p.length ≤ max ∧ (encode p).length ≤ sizeMax)
    (hq : q.length ≤ max ∧ (encode q).length ≤ sizeMax) (htail : tail <+: encode q ∧ tail ≠ encode q)
    (hcs : cs.flatten = (ps.map encode).flatten ++ tail) :
    feedAll max (fun _ => true) cs = { buf := tail, delivered := ps, connected := true, errors := 0 } := by
  have hinc : tryDecodeEx max tail = .incomplete := by
    apply Decidable.byContradiction
    intro hne
    obtain ⟨⟨t, ht⟩, hlt⟩ := htail
    have h1 := tryDecodeEx_append t hne
    have h2 := decode_encode hq.1 hq.2 []
    rw [List.append_nil] at h2
    rw [ht, h2] at h1
    have h3 := tryDecodeEx_ok h1.symm
    have h4 : t.length = 0 := by
      have := congrArg List.length ht
      simp only [List.length_append] at this
      omega
    have : t = [] := List.length_eq_zero_iff.1 h4
    subst this
    simp at ht
    exact hlt ht
  have key : ∀ (ps done : List Bytes), (∀ p ∈ ps, p.length ≤ max ∧ (encode p).length ≤ sizeMax) →
      drainAll max (fun _ => true)
        { buf := (ps.map encode).flatten ++ tail, delivered := done, connected := true, errors := 0 } =
      { buf := tail, delivered := done ++ ps, connected := true, errors := 0 } := by
    intro ps
    induction ps with
    | nil =>
      intro done _
      rw [drainAll_step]
      simp [hinc]
    | cons p ps ih =>
      intro done hp
      rw [drainAll_step]
      simp only [List.map_cons, List.flatten_cons, List.append_assoc]
      rw [decode_encode (hp p (by simp)).1 (hp p (by simp)).2]
      simp only [Bool.true_eq_false, if_false, List.drop_left]
      rw [ih (done ++ [p]) (fun x hx => hp x (by simp [hx]))]
      simp
  have h1 := feedAll_flatten (max := max) (stay := fun _ => true) cs
  have h2 : feed max (fun _ => true) Reader.init cs.flatten =
      { buf := tail, delivered := ps, connected := true, errors := 0 } := by
    rw [hcs]
    have := key ps [] hmax
    unfold feed
    rw [if_pos (show Reader.init.connected = true from rfl)]
    simpa [Reader.init] using this
  rw [h2] at h1
  obtain ⟨a1, a2, a3, a4⟩ := h1
  have a4 := a4 a2
  generalize feedAll max (fun _ => true) cs = r at *
  cases r
  simp_all

example : feedAll 50 (fun _ => true) [lit "Content-Length: 2\r", lit "\n\r\n{}Content-", lit "Length: 1\r\n\r\n5Con", lit "t"] =
    { buf := lit "Cont", delivered := [lit "{}", lit "5"], connected := true, errors := 0 } := by decide +kernel

/-- C10. Whatever bytes arrive in whatever pieces, no delivered message is longer than the configured maximum. -/
theorem C10_delivered_bounded (max : Nat) (stay : List Bytes → Bool) (cs : List Bytes) :
    ∀ m ∈ (feedAll max stay cs).delivered, m.length ≤ max := by
  have hd : ∀ (n : Nat) (r : Reader), (∀ m ∈ r.delivered, m.length ≤ max) →
      ∀ m ∈ (drain max stay n r).delivered, m.length ≤ max := by
    intro n
    induction n with
    | zero => intro r h; exact h
    | succ n ih =>
      intro r h
      rw [drain_succ]
      split
      · exact h
      · split
        · exact h
        · rename_i p k hk
          apply ih
          intro m hm
          simp only [List.mem_append, List.mem_singleton] at hm
          rcases hm with hm | rfl
          · exact h m hm
          · exact (tryDecodeEx_ok hk).1
        · exact ih _ h
        · exact h
  have hf : ∀ (cs : List Bytes) (r : Reader), (∀ m ∈ r.delivered, m.length ≤ max) →
      ∀ m ∈ (cs.foldl (feed max stay) r).delivered, m.length ≤ max := by
    intro cs
    induction cs with
    | nil => intro r h; exact h
    | cons c cs ih =>
      intro r h
      apply ih
      unfold feed
      split
      · exact hd _ _ h
      · exact h
  exact hf cs _ (by simp [Reader.init])

/-- C10. A frame that declares more than the maximum disconnects the transport and is reported once; what was delivered
before stays delivered, and nothing that follows is. -/
theorem C10_oversized_disconnects (max n : Nat) (stay : List Bytes → Bool) (pre post : List Bytes)
    (line more : Bytes) (cs : List Bytes)
    (hplain : ∀ l ∈ pre ++ line :: post, PlainLine l) (hpre : ∀ l ∈ pre, Other l)
    (hdecl : Declares line n) (hbig : max < n) (hrep : n ≤ sizeMax)
    (hcs : cs.flatten = joinLines (pre ++ line :: post) ++ sep ++ more) :
    (feedAll max stay cs).delivered = [] ∧ (feedAll max stay cs).connected = false ∧
      (feedAll max stay cs).errors = 1 := by
  have h1 := feedAll_flatten (max := max) (stay := stay) cs
  have hdec : tryDecodeEx max cs.flatten = .tooLarge ((joinLines (pre ++ line :: post)).length + 4) := by
    rw [hcs, tryDecodeEx_lines max _ hplain]
    obtain ⟨v, hv, hs⟩ := declares_value hdecl
    have : scanLines max none (pre ++ line :: post) = .tooLarge := by
      rw [scanLines_others _ hpre, scanLines, hv]
      simp only [hs]
      rw [if_neg (by omega : ¬ n > sizeMax)]
      simp only
      rw [if_pos (by omega)]
    rw [this]
  have h2 : feed max stay Reader.init cs.flatten = { buf := cs.flatten, delivered := [], connected := false, errors := 1 } := by
    unfold feed
    rw [if_pos (show Reader.init.connected = true from rfl), drainAll_step]
    simp only [Reader.init, List.nil_append, Bool.true_eq_false, if_false, hdec]
  rw [h2] at h1
  exact ⟨h1.1, h1.2.1, h1.2.2.1⟩

example : (feedAll 3 (fun _ => true) [lit "Content-Length: 4\r\n\r\nabcd" ++ encode (lit "{}")]).delivered = [] ∧
    Declares (lit "Content-Length: 4") 4 :=
  ⟨by decide +kernel, lit " ", lit "4", ⟨lit "Content-Length", rfl, by decide, by decide⟩, by decide, by decide, by decide, by decide⟩

/-- C10, limit of the claim: a length of 2^64 or more is a malformed header rather than an oversized frame, so the reader
goes on and takes what the peer wrote as the body for new frames. -/
theorem C10_huge_length_counterexample :
    Declares (lit "Content-Length: 18446744073709551616") (2 ^ 64) ∧
    (feedAll 1000 (fun _ => true)
      [lit "Content-Length: 18446744073709551616" ++ sep ++ encode (lit "{}")]).delivered = [lit "{}"] := by
  refine ⟨⟨lit " ", lit "18446744073709551616", ⟨lit "Content-Length", rfl, by decide, by decide⟩, by decide, by decide, by decide, by decide +kernel⟩, ?_⟩
  decide +kernel

/-- C11. The drain loop always finishes its work: it ends disconnected or with a buffer in which no further decision can
be made without more bytes (and, being a fuel-indexed function whose extra fuel does not matter, it terminates). -/
theorem C11_drain_complete (max : Nat) (stay : List Bytes → Bool) (r : Reader) :
    ((drainAll max stay r).connected = false ∨ tryDecodeEx max (drainAll max stay r).buf = .incomplete) ∧
      ∀ extra, drain max stay (r.buf.length + 1 + extra) r = drainAll max stay r := by
  refine ⟨?_, fun extra => drain_fuel _ _ _ (by omega) (by omega)⟩
  have : ∀ (n : Nat) (r : Reader), r.buf.length < n →
      (drainAll max stay r).connected = false ∨ tryDecodeEx max (drainAll max stay r).buf = .incomplete := by
    intro n
    induction n with
    | zero => intro r h; omega
    | succ n ih =>
      intro r h
      rw [drainAll_step]
      split
      · left; assumption
      · split
        · right; assumption
        · rename_i p k hk
          have := tryDecodeEx_ok hk
          exact ih _ (by simp only [List.length_drop]; omega)
        · rename_i k hk
          have := tryDecodeEx_invalid hk
          exact ih _ (by simp only [List.length_drop]; omega)
        · left; rfl
  exact this _ r (Nat.lt_succ_self _)

/-- C11. After a header block without usable length (no Content-Length line, or a first Content-Length line whose value is
not a number or is beyond 64 bits), exactly that block is discarded and the following well-formed frame is delivered,
whatever the chunking. -/
theorem C11_resync (max : Nat) (ls : List Bytes) (p tail : Bytes) (cs : List Bytes) (hplain : ∀ l ∈ ls, PlainLine l)
    (hbad : (∀ l ∈ ls, Other l) ∨
      ∃ pre line post, ls = pre ++ line :: post ∧ (∀ l ∈ pre, Other l) ∧
        (Garbled line ∨ ∃ n, n > sizeMax ∧ Declares line n))
    (hp : p.length ≤ max ∧ (encode p).length ≤ sizeMax)
    (htail : tail <+: encode p ∧ tail ≠ encode p)
    (hcs : cs.flatten = joinLines ls ++ sep ++ encode p ++ tail) :
    feedAll max (fun _ => true) cs = { buf := tail, delivered := [p], connected := true, errors := 0 } := by
  have hdec : ∀ b, tryDecodeEx max (joinLines ls ++ sep ++ b) = .invalid ((joinLines ls).length + 4) := by
    intro b
    rw [tryDecodeEx_lines max _ hplain]
    have : scanLines max none ls = .invalid ∨ scanLines max none ls = .len none := by
      rcases hbad with h | ⟨pre, line, post, rfl, hpre, h⟩
      · right
        have := scanLines_others (max := max) (acc := none) [] h
        rw [List.append_nil] at this
        rw [this]; rfl
      · left
        rw [scanLines_others _ hpre, scanLines]
        rcases h with h | ⟨n, hn, h⟩
        · obtain ⟨v, hv, hs⟩ := garbled_value h
          rw [hv]; simp only [hs]
        · obtain ⟨v, hv, hs⟩ := declares_value h
          rw [hv]; simp only [hs, if_pos hn]
    rcases this with h | h <;> rw [h]
  have h1 := feedAll_flatten (max := max) (stay := fun _ => true) cs
  have h2 : feed max (fun _ => true) Reader.init cs.flatten =
      drainAll max (fun _ => true) { Reader.init with buf := encode p ++ tail } := by
    unfold feed
    rw [if_pos (show Reader.init.connected = true from rfl), drainAll_step]
    simp only [Reader.init, List.nil_append, Bool.true_eq_false, if_false]
    rw [hcs, List.append_assoc, hdec]
    simp only
    have hd : (joinLines ls ++ sep ++ (encode p ++ tail)).drop ((joinLines ls).length + 4) = encode p ++ tail := by
      have : (joinLines ls).length + 4 = (joinLines ls ++ sep).length := by simp [sep]
      rw [this, List.drop_left]
    rw [hd]
  have h3 := C09_frames_delivered max [p] p tail [encode p ++ tail] (by simpa using hp) hp htail (by simp)
  have h4 := feedAll_flatten (max := max) (stay := fun _ => true) [encode p ++ tail]
  rw [h3] at h4
  have h5 : feed max (fun _ => true) Reader.init [encode p ++ tail].flatten =
      drainAll max (fun _ => true) { Reader.init with buf := encode p ++ tail } := by
    unfold feed
    rw [if_pos (show Reader.init.connected = true from rfl)]
    simp [Reader.init]
  rw [h2, ← h5] at h1
  have h6 := h1.trans h4.symm
  obtain ⟨a1, a2, a3, a4⟩ := h6
  have a4 := a4 a2
  generalize feedAll max (fun _ => true) cs = r at *
  cases r
  simp_all

example : Garbled (lit "Content-Length: abc") ∧
    feedAll 50 (fun _ => true) [lit "Content-Length: abc\r\n\r\n" ++ encode (lit "{}")] =
      { buf := [], delivered := [lit "{}"], connected := true, errors := 0 } :=
  ⟨⟨lit " ", lit "abc", ⟨lit "Content-Length", rfl, by decide, by decide⟩, by decide, by
    intro c hc; simp [lit] at hc; subst hc; decide⟩, by decide +kernel⟩

end Verif
