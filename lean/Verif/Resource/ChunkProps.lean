import Verif.Resource.ReadProps

/-! C25, C60: reading a whole resource in chunks. -/

namespace Verif

open Resource Validation Tasks Client

variable {D : Type}

/-- The server side over the course of a chunked read: configuration (clamp, mode) and registrations may change between requests. -/
structure Serving (D : Type) where
  cfg : Nat → ReadCfg D
  handlers : Nat → List (Bytes × Option (Ran D))
  templates : Nat → List (Bytes × Option (Vars → Ran D))
  id : Nat → RpcId

/-- The outcome of the `i`-th ranged read when the server answers it. -/
def Serving.answer (s : Serving D) (uri : Bytes) (i : Nat) (off len : Int) : Outcome D :=
  .resp (Reply.toResponse (s.id i) (handleRead (s.cfg i) (s.handlers i) (s.templates i) false (some (readParams uri (some off) (some len)))))

/-- The text stays the same throughout (its split into items and the clamp may vary). -/
def Serving.Steady (s : Serving D) (uri text : Bytes) : Prop :=
  ∀ i, (∃ contents, Serves (s.handlers i) (s.templates i) uri contents ∧ TextParts contents text) ∧ ∃ c, Clamp (s.cfg i).chunking c ∧ ∀ x ∈ c, x < 2 ^ 63

namespace Resource

theorem textLen_makeText (s : Bytes) : textLen (makeText s : JVal D) = s.length := rfl

theorem readResource_ok (strict : Bool) (id : RpcId) (items : List (JVal D)) (ui : Bool) (o : Option (JVal D)) (h : items.all isReadItem = true) :
    readResource strict (.resp (Reply.toResponse id (.ok (readResult items ui o)))) = some items := by
  have h1 : isErrorObject (readResult items ui o) = false := by
    have := readResult_other items ui o (k := lit "code") (by decide) (by decide)
    simp only [readResult, JVal.get?] at this
    simp only [isErrorObject, this]; rfl
  have h2 := readResult_valid items ui o
  have h3 := readResult_contents items ui o
  unfold readResource typedCall
  simp only [replyValue, Reply.toResponse, h1, h2, h, Bool.not_true, Bool.and_false, Bool.false_eq_true, if_false, parseRead, JVal.arrAt, h3]
  rfl

/-- One ranged read of the whole chain client – server – client. -/
theorem ask_eq {s : Serving D} {uri text : Bytes} (huri : uri ≠ []) (hs : s.Steady uri text) (strict : Bool) (i off len : Nat)
    (h1 : off < 2 ^ 63) (h2 : len < 2 ^ 63) (h3 : 0 < len) :
    (off < text.length → ∃ out, out ≠ [] ∧ SliceAt text off out.length out ∧ out.length ≤ len ∧
      readResource strict (s.answer uri i (toI64 off) (toI64 len)) = some [makeText out]) ∧
    (text.length ≤ off → readResource strict (s.answer uri i (toI64 off) (toI64 len)) = some []) := by
  obtain ⟨⟨contents, hsv, ht⟩, c, hc, hcr⟩ := hs i
  have e1 : toI64 off = off := by simp [toI64, h1]
  have e2 : toI64 len = len := by simp [toI64, h2]
  have hb : s.answer uri i (toI64 off) (toI64 len) = .resp (Reply.toResponse (s.id i)
      (.ok (readResult (rangeContents (s.cfg i).chunking text (some (off : Int)) (some (len : Int))) (s.cfg i).ui (metaOf contents)))) := by
    unfold Serving.answer
    rw [e1, e2, handleRead_serves huri hsv _ _ (by simp) (by simpa using h3), buildRead_range ht (by simp)]
    rfl
  rw [hb, readResource_ok _ _ _ _ _ (rangeContents_valid _ _ _ _)]
  have := rangeContents_spec hc hcr (text := text) (some (off : Int)) (some (len : Int)) (by simp; omega) (by simp; omega)
  simp only [Option.getD_some, Int.toNat_natCast] at this
  refine ⟨fun h => ?_, fun h => by rw [this.2 h]⟩
  obtain ⟨n, out, hL, hn, hsl, he⟩ := this.1 h
  have hlen : out.length = n := by obtain ⟨_, _, _, _, h⟩ := hsl; exact h
  refine ⟨out, ?_, by rwa [hlen], ?_, by rw [he]⟩
  · rintro rfl; simp at hlen; omega
  · have := hL.1.2.1 len rfl
    omega

theorem slice_take {text out : Bytes} {off : Nat} (h : SliceAt text off out.length out) : text.take off ++ out = text.take (off + out.length) ∧
    off + out.length ≤ text.length := by
  obtain ⟨pre, post, rfl, rfl, _⟩ := h
  constructor
  · rw [List.append_assoc, List.take_left' rfl, ← List.append_assoc, List.take_left' (by simp)]
  · simp

/-- The loop: whatever the stop token does, the text read is an initial part of the resource, and the whole if it is never stopped. -/
theorem loop_spec {text : Bytes} {ask : Nat → Int → Int → Option (List (JVal D))} {chunk : Nat} (hlen : text.length < 2 ^ 63)
    (ha : ∀ i off, off < 2 ^ 63 →
      (off < text.length → ∃ out, out ≠ [] ∧ SliceAt text off out.length out ∧ ask i (toI64 off) (toI64 chunk) = some [makeText out]) ∧
      (text.length ≤ off → ask i (toI64 off) (toI64 chunk) = some []))
    (stop : Nat → Bool) (fuel i off : Nat) (agg : List (JVal D)) (hoff : off ≤ text.length) (hagg : TextParts agg (text.take off))
    (hfuel : text.length - off < fuel) :
    ∃ agg' n, chunkLoop ask stop chunk fuel i off agg = some (some agg') ∧ TextParts agg' (text.take n) ∧ ((∀ i, stop i = false) → text.length ≤ n) := by
  induction fuel generalizing i off agg with
  | zero => omega
  | succ fuel ih =>
    unfold chunkLoop
    cases hst : stop i with
    | true =>
      rw [if_pos rfl]
      exact ⟨agg, off, rfl, hagg, fun h => by rw [h i] at hst; cases hst⟩
    | false =>
      simp only [Bool.false_eq_true, if_false]
      obtain ⟨h1, h2⟩ := ha i off (by omega)
      by_cases hlt : off < text.length
      · obtain ⟨out, hne, hsl, he⟩ := h1 hlt
        obtain ⟨ht, hle⟩ := slice_take hsl
        have hpos : 0 < out.length := List.length_pos_iff.2 hne
        rw [he]
        simp only [List.isEmpty_cons, Bool.false_eq_true, if_false, List.map_cons, List.map_nil, List.sum_cons, List.sum_nil, Nat.add_zero,
          textLen_makeText]
        have hm : out.length % 2 ^ 64 = out.length := Nat.mod_eq_of_lt (by omega)
        rw [hm, if_neg (by omega), Nat.mod_eq_of_lt (by omega)]
        refine ih (i + 1) (off + out.length) _ hle ?_ (by omega)
        rw [← ht]
        refine hagg.append ?_
        have h3 : TextParts [(makeText out : JVal D)] (out ++ []) := .cons rfl rfl .nil
        rwa [List.append_nil] at h3
      · rw [h2 (by omega)]
        simp only [List.isEmpty_nil, if_true]
        exact ⟨agg, off, rfl, hagg, fun _ => by omega⟩

theorem loop_mono {ask : Nat → Int → Int → Option (List (JVal D))} {stop : Nat → Bool} {chunk fuel i off : Nat} {agg : List (JVal D)}
    {r : Option (List (JVal D))} (h : chunkLoop ask stop chunk fuel i off agg = some r) (k : Nat) :
    chunkLoop ask stop chunk (fuel + k) i off agg = some r := by
  induction fuel generalizing i off agg with
  | zero => simp [chunkLoop] at h
  | succ fuel ih =>
    rw [show fuel + 1 + k = (fuel + k) + 1 by omega]
    unfold chunkLoop at h ⊢
    split
    · rename_i hs; rw [if_pos hs] at h; exact h
    · rename_i hs
      rw [if_neg hs] at h
      cases ha : ask i (toI64 off) (toI64 chunk) with
      | none => rw [ha] at h; exact h
      | some part =>
        rw [ha] at h
        simp only at h ⊢
        split
        · rename_i hp; rw [if_pos hp] at h; exact h
        · rename_i hp
          rw [if_neg hp] at h
          split
          · rename_i hz; rw [if_pos hz] at h; exact h
          · rename_i hz
            rw [if_neg hz] at h
            exact ih h

end Resource

/-! ### C25 -/

/-- **C25.** Reading in chunks yields exactly the text, for every chunk size below 2^63 and whatever (even varying) clamp and split into items the
server uses, after at most one request per byte and a final one. -/
theorem C25_chunked_read (s : Serving D) {uri text : Bytes} (huri : uri ≠ []) (hs : s.Steady uri text) (hlen : text.length < 2 ^ 63)
    (strict : Bool) {chunk : Nat} (h0 : 0 < chunk) (h1 : chunk < 2 ^ 63) :
    ∃ agg, (∀ fuel, text.length < fuel →
        readAll (fun i o l => readResource strict (s.answer uri i o l)) (fun _ => false) chunk fuel = some (some agg)) ∧ TextParts agg text := by
  have ha : ∀ i off, off < 2 ^ 63 → _ := fun i off ho => ask_eq huri hs strict i off chunk ho h1 h0
  obtain ⟨agg, n, hr, ht, hn⟩ := loop_spec (ask := fun i o l => readResource strict (s.answer uri i o l)) (chunk := chunk) hlen
    (fun i off ho => ⟨fun h => by obtain ⟨out, a, b, _, c⟩ := (ha i off ho).1 h; exact ⟨out, a, b, c⟩, (ha i off ho).2⟩)
    (fun _ => false) (text.length + 1) 0 0 [] (by omega) (by simpa using TextParts.nil) (by omega)
  refine ⟨agg, fun fuel hf => ?_, ?_⟩
  · unfold readAll
    rw [if_neg (by omega)]
    have := loop_mono hr (fuel - (text.length + 1))
    rwa [show text.length + 1 + (fuel - (text.length + 1)) = fuel by omega] at this
  · rwa [List.take_of_length_le (hn fun _ => rfl)] at ht

/-- **C25.** The clamp-aware overloads too. -/
theorem C25_clamp_aware (s : Serving D) {uri text : Bytes} (huri : uri ≠ []) (hs : s.Steady uri text) (hlen : text.length < 2 ^ 63)
    (strict : Bool) {preferred : Nat} (hint : Option Nat) (h0 : 0 < preferred) (h1 : preferred < 2 ^ 63) :
    effectiveChunk preferred hint ≤ preferred ∧ (∀ h ∈ hint, 0 < h → effectiveChunk preferred hint ≤ h) ∧
    ∃ agg, (∀ fuel, text.length < fuel →
        readAll (fun i o l => readResource strict (s.answer uri i o l)) (fun _ => false) (effectiveChunk preferred hint) fuel = some (some agg)) ∧
      TextParts agg text := by
  have h2 : effectiveChunk preferred hint ≤ preferred ∧ 0 < effectiveChunk preferred hint ∧ (∀ h ∈ hint, 0 < h → effectiveChunk preferred hint ≤ h) := by
    unfold effectiveChunk
    cases hint with
    | none => exact ⟨Nat.le_refl _, h0, by simp⟩
    | some h =>
      simp only
      split
      · refine ⟨Nat.min_le_left _ _, by omega, ?_⟩
        intro x hx _
        simp only [Option.mem_def, Option.some.injEq] at hx
        subst hx; exact Nat.min_le_right _ _
      · refine ⟨Nat.le_refl _, h0, ?_⟩
        intro x hx hx'
        simp only [Option.mem_def, Option.some.injEq] at hx
        omega
  exact ⟨h2.1, h2.2.2, C25_chunked_read s huri hs hlen strict h2.2.1 (by omega)⟩

/-- **C25.** A read cancelled at any point returns an initial part of the text. -/
theorem C25_cancelled_prefix (s : Serving D) {uri text : Bytes} (huri : uri ≠ []) (hs : s.Steady uri text) (hlen : text.length < 2 ^ 63)
    (strict : Bool) {chunk : Nat} (h0 : 0 < chunk) (h1 : chunk < 2 ^ 63) (stop : Nat → Bool) :
    ∃ agg part rest, (∀ fuel, text.length < fuel →
        readAll (fun i o l => readResource strict (s.answer uri i o l)) stop chunk fuel = some (some agg)) ∧ TextParts agg part ∧ text = part ++ rest := by
  have ha : ∀ i off, off < 2 ^ 63 → _ := fun i off ho => ask_eq huri hs strict i off chunk ho h1 h0
  obtain ⟨agg, n, hr, ht, hn⟩ := loop_spec (ask := fun i o l => readResource strict (s.answer uri i o l)) (chunk := chunk) hlen
    (fun i off ho => ⟨fun h => by obtain ⟨out, a, b, _, c⟩ := (ha i off ho).1 h; exact ⟨out, a, b, c⟩, (ha i off ho).2⟩)
    stop (text.length + 1) 0 0 [] (by omega) (by simpa using TextParts.nil) (by omega)
  refine ⟨agg, text.take n, text.drop n, fun fuel hf => ?_, ht, (List.take_append_drop _ _).symm⟩
  unfold readAll
  rw [if_neg (by omega)]
  have := loop_mono hr (fuel - (text.length + 1))
  rwa [show text.length + 1 + (fuel - (text.length + 1)) = fuel by omega] at this

/-- **C25 fails** for chunk sizes of 2^63 and more: the length is negative on the wire and the server refuses the first read. -/
theorem C25_huge_chunk_counterexample (s : Serving D) {uri : Bytes} (strict : Bool) (chunk : Nat) (h1 : 2 ^ 63 ≤ chunk) (h2 : chunk < 2 ^ 64) (fuel : Nat) :
    readAll (fun i o l => readResource strict (s.answer uri i o l)) (fun _ => false) chunk (fuel + 1) = some none := by
  unfold readAll
  rw [if_neg (by omega)]
  unfold chunkLoop
  have hc : toI64 chunk = (chunk : Int) - 2 ^ 64 := by unfold toI64; rw [if_neg (by omega)]
  obtain ⟨msg, hm⟩ := C24_bad_range_refused (s.cfg 0) (s.handlers 0) (s.templates 0) false uri (some (toI64 0)) (some (toI64 chunk))
    (.inr ⟨_, rfl, by rw [hc]; omega⟩)
  simp only [Bool.false_eq_true, if_false, Serving.answer, hm]
  rfl

/-- A case meeting the hypotheses: two items, a clamp of two bytes. -/
example : (⟨fun _ => ⟨some (.obj [(lit "maxChunkBytes", .int 2)]), false, true⟩,
    fun _ => [(lit "u", some (.ok [makeText (lit "ab"), makeText (lit "cde")]))], fun _ => [], fun _ => .null⟩ : Serving Empty).Steady (lit "u") (lit "abcde") := by
  intro i
  refine ⟨⟨_, .inl rfl, .cons (s := lit "ab") (t := lit "cde") rfl rfl (.cons (s := lit "cde") (t := []) rfl rfl .nil)⟩, some 2, ?_, by simp⟩
  intro j
  simp only [Option.some.injEq, exists_eq_left']
  constructor
  · rintro rfl; exact ⟨rfl, by omega⟩
  · rintro ⟨h, _⟩
    have h' : some (JVal.int 2) = some (JVal.int j : JVal Empty) := h
    simpa using h'

/-! ### C60: failures in the middle of a chunked read -/

/-- What can happen to a ranged read: answered by the server, the future throws or yields null, or an error response. -/
def Faulty (s : Serving D) (uri : Bytes) (outcome : Nat → Int → Int → Outcome D) : Prop :=
  ∀ i o l, outcome i o l = s.answer uri i o l ∨ outcome i o l = .threw ∨ outcome i o l = .nul ∨
    ∃ id c m d, outcome i o l = .resp ⟨id, none, some (mkErrorObj c m d)⟩

/-- **C60** (partial: only for clients in strict mode). Whatever requests fail, a chunked read that returns at all returns the whole text. -/
theorem C60_strict_never_truncates_partial (s : Serving D) {uri text : Bytes} (huri : uri ≠ []) (hs : s.Steady uri text) (hlen : text.length < 2 ^ 63)
    {chunk : Nat} (h0 : 0 < chunk) (h1 : chunk < 2 ^ 63) (outcome : Nat → Int → Int → Outcome D) (hf : Faulty s uri outcome)
    {fuel : Nat} {agg : List (JVal D)}
    (hr : readAll (fun i o l => readResource true (outcome i o l)) (fun _ => false) chunk fuel = some (some agg)) : TextParts agg text := by
  unfold readAll at hr
  rw [if_neg (by omega)] at hr
  have key : ∀ (fuel i off : Nat) (a : List (JVal D)), off ≤ text.length → TextParts a (text.take off) →
      chunkLoop (fun i o l => readResource true (outcome i o l)) (fun _ => false) chunk fuel i off a = some (some agg) → TextParts agg text := by
    intro fuel
    induction fuel with
    | zero => intro i off a _ _ h; simp [chunkLoop] at h
    | succ fuel ih =>
      intro i off a hoff ha h
      unfold chunkLoop at h
      simp only [Bool.false_eq_true, if_false] at h
      rcases hf i (toI64 off) (toI64 chunk) with he | he | he | ⟨id, c, m, d, he⟩
      · rw [he] at h
        obtain ⟨g1, g2⟩ := ask_eq huri hs true i off chunk (by omega) h1 h0
        by_cases hlt : off < text.length
        · obtain ⟨out, hne, hsl, _, he'⟩ := g1 hlt
          obtain ⟨ht, hle⟩ := slice_take hsl
          have hpos : 0 < out.length := List.length_pos_iff.2 hne
          rw [he'] at h
          simp only [List.isEmpty_cons, Bool.false_eq_true, if_false, List.map_cons, List.map_nil, List.sum_cons, List.sum_nil, Nat.add_zero,
            textLen_makeText] at h
          have hm : out.length % 2 ^ 64 = out.length := Nat.mod_eq_of_lt (by omega)
          rw [hm, if_neg (by omega), Nat.mod_eq_of_lt (by omega)] at h
          refine ih (i + 1) _ _ hle ?_ h
          rw [← ht]
          refine ha.append ?_
          have h3 : TextParts [(makeText out : JVal D)] (out ++ []) := .cons rfl rfl .nil
          rwa [List.append_nil] at h3
        · rw [g2 (by omega)] at h
          simp only [List.isEmpty_nil, if_true, Option.some.injEq] at h
          subst h
          rwa [List.take_of_length_le (by omega)] at ha
      · rw [he] at h; simp [readResource, typedCall, replyValue, isErrorObject, validateReadResourceResult] at h
      · rw [he] at h; simp [readResource, typedCall, replyValue, isErrorObject, validateReadResourceResult] at h
      · rw [he] at h
        have : readResource true (.resp ⟨id, none, some (mkErrorObj c m d)⟩ : Outcome D) = none := by
          cases d <;> rfl
        rw [this] at h; simp at h
  exact key fuel 0 0 [] (by omega) (by simpa using TextParts.nil) hr

/-- **C60 fails** in the default mode: if the second request dies with an exception, the read succeeds with just the first chunk — for every text longer
than a chunk. -/
theorem C60_truncated_counterexample (s : Serving D) {uri text : Bytes} (huri : uri ≠ []) (hs : s.Steady uri text) (hlen : text.length < 2 ^ 63)
    {chunk : Nat} (h0 : 0 < chunk) (h1 : chunk < text.length) :
    ∃ (outcome : Nat → Int → Int → Outcome D) (agg : List (JVal D)) (part : Bytes), Faulty s uri outcome ∧
      (∀ fuel, readAll (fun i o l => readResource false (outcome i o l)) (fun _ => false) chunk (fuel + 2) = some (some agg)) ∧
      TextParts agg part ∧ part.length ≤ chunk ∧ part.length < text.length := by
  obtain ⟨out, hne, hsl, hle, he⟩ := (ask_eq huri hs false 0 0 chunk (by omega) (by omega) h0).1 (by omega)
  have hpos : 0 < out.length := List.length_pos_iff.2 hne
  refine ⟨fun i o l => if i = 1 then .threw else s.answer uri i o l, [makeText out], out, ?_, ?_, ?_, hle, by omega⟩
  · intro i o l
    by_cases h : i = 1
    · simp [h]
    · simp [h]
  · intro fuel
    unfold readAll
    rw [if_neg (by omega)]
    unfold chunkLoop
    simp only [Bool.false_eq_true, if_false, Nat.zero_ne_one, he, List.isEmpty_cons, List.map_cons, List.map_nil, List.sum_cons, List.sum_nil,
      Nat.add_zero, textLen_makeText]
    rw [if_neg (by rw [Nat.mod_eq_of_lt (by omega)]; omega)]
    unfold chunkLoop
    rfl
  · have h3 : TextParts [(makeText out : JVal D)] (out ++ []) := .cons rfl rfl .nil
    rwa [List.append_nil] at h3

end Verif
