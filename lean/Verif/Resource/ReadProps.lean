import Verif.Resource.ReadModel
import Verif.Client.TypedModel
import Verif.Validation.Props

/-! C24, C25, C60: ranged and chunked reads. -/

set_option linter.unusedSimpArgs false

namespace Verif

open Resource Validation Tasks Client

variable {D : Type}

/-! ### Spec -/

/-- The items are text items whose texts, in order, make up `text`. -/
inductive TextParts : List (JVal D) → Bytes → Prop
  | nil : TextParts [] []
  | cons {v : JVal D} {vs : List (JVal D)} {s t : Bytes} (h1 : v.get? (lit "type") = some (.str (lit "text"))) (h2 : v.get? (lit "text") = some (.str s))
      (h3 : TextParts vs t) : TextParts (v :: vs) (s ++ t)

/-- `out` is the `n` bytes of `text` from `off`. -/
def SliceAt (text : Bytes) (off n : Nat) (out : Bytes) : Prop := ∃ pre post, text = pre ++ out ++ post ∧ pre.length = off ∧ out.length = n

/-- `n` is as large as the rest of the text, the requested length and the clamp allow. -/
def Largest (rest : Nat) (len : Option Int) (clamp : Option Int) (n : Nat) : Prop :=
  (n ≤ rest ∧ (∀ l ∈ len, (n : Int) ≤ l) ∧ ∀ c ∈ clamp, (n : Int) ≤ c) ∧ (n = rest ∨ (n : Int) ∈ len ∨ (n : Int) ∈ clamp)

/-- The clamp a server advertises: a positive `maxChunkBytes`. -/
def Clamp (chunking : Option (JVal D)) (c : Option Int) : Prop :=
  ∀ i, c = some i ↔ (∃ v, chunking = some v ∧ v.get? (lit "maxChunkBytes") = some (.int i)) ∧ 0 < i

/-- The URI resolves to a handler that returns these contents. -/
def Serves (handlers : List (Bytes × Option (Ran D))) (templates : List (Bytes × Option (Vars → Ran D))) (uri : Bytes) (contents : List (JVal D)) : Prop :=
  choose handlers templates uri = .direct (.ok contents) ∨ ∃ f vars, choose handlers templates uri = .template f vars ∧ f vars = .ok contents

/-! ### Lemmas -/

theorem TextParts.append {a b : List (JVal D)} {s t : Bytes} (h : TextParts a s) (h' : TextParts b t) : TextParts (a ++ b) (s ++ t) := by
  induction h with
  | nil => exact h'
  | cons h1 h2 _ ih => rw [List.cons_append, List.append_assoc]; exact .cons h1 h2 ih

namespace Resource

theorem strAt_some {v : JVal D} {k s : Bytes} : v.strAt k = some s ↔ v.get? k = some (.str s) := by
  unfold JVal.strAt
  cases v.get? k with
  | none => simp
  | some x => cases x <;> simp [JVal.asStr]

theorem flatten_iff {l : List (JVal D)} {t : Bytes} : flatten l = some t ↔ TextParts l t := by
  induction l generalizing t with
  | nil =>
    simp only [flatten, Option.some.injEq]
    constructor
    · rintro rfl; exact .nil
    · intro h; cases h; rfl
  | cons v vs ih =>
    constructor
    · intro h
      unfold flatten at h
      split at h
      · rename_i ty s h1 h2
        split at h
        · rename_i hty
          subst hty
          rw [Option.map_eq_some_iff] at h
          obtain ⟨t', h3, rfl⟩ := h
          exact .cons (strAt_some.1 h1) (strAt_some.1 h2) (ih.1 h3)
        · simp at h
      · simp at h
    · intro h
      cases h with
      | cons h1 h2 h3 =>
        unfold flatten
        rw [strAt_some.2 h1, strAt_some.2 h2]
        simp [ih.2 h3]

theorem get_metaField (ui : Bool) (o : Option (JVal D)) {k : Bytes} (h : lit "_meta" ≠ k) : AMap.get (metaField ui o) k = none := by
  unfold metaField
  split
  · rfl
  · split
    · simp [AMap.get, h]
    · split
      · rfl
      · simp [AMap.get, h]
  · simp [AMap.get, h]

/-- The result object of a read. -/
abbrev readResult (items : List (JVal D)) (ui : Bool) (o : Option (JVal D)) : JVal D :=
  .obj ([(lit "contents", .arr items)] ++ metaField ui o)

theorem readResult_contents (items : List (JVal D)) (ui : Bool) (o : Option (JVal D)) :
    (readResult items ui o).get? (lit "contents") = some (.arr items) := by
  simp [readResult, JVal.get?, AMap.get]

theorem readResult_other (items : List (JVal D)) (ui : Bool) (o : Option (JVal D)) {k : Bytes} (h1 : lit "contents" ≠ k) (h2 : lit "_meta" ≠ k) :
    (readResult items ui o).get? k = none := by
  simp only [readResult, JVal.get?, AMap.get_append]
  rw [get_metaField _ _ h2]
  simp [AMap.get, h1]

theorem readResult_valid (items : List (JVal D)) (ui : Bool) (o : Option (JVal D)) :
    validateReadResourceResult (readResult items ui o) = items.all isReadItem := by
  have := readResult_contents items ui o
  simp only [readResult, JVal.get?] at this
  simp only [validateReadResourceResult, need, this, isArrOf]

theorem rangeContents_valid (ch : Option (JVal D)) (text : Bytes) (o l : Option Int) : (rangeContents ch text o l).all isReadItem = true := by
  unfold rangeContents
  simp only
  split
  · rfl
  · rfl

theorem readParams_uri (uri : Bytes) (o l : Option Int) : (readParams uri o l : JVal D).strAt (lit "uri") = some uri := by
  cases o <;> cases l <;> rfl

theorem readParams_offset (uri : Bytes) (o l : Option Int) : (readParams uri o l : JVal D).intAt (lit "offset") = o := by
  cases o <;> cases l <;> rfl

theorem readParams_length (uri : Bytes) (o l : Option Int) : (readParams uri o l : JVal D).intAt (lit "length") = l := by
  cases o <;> cases l <;> rfl

/-- A read of a served resource with acceptable parameters is what `buildRead` makes of it. -/
theorem handleRead_serves {cfg : ReadCfg D} {hs : List (Bytes × Option (Ran D))} {ts : List (Bytes × Option (Vars → Ran D))} {uri : Bytes}
    {contents : List (JVal D)} (huri : uri ≠ []) (hsv : Serves hs ts uri contents) (o l : Option Int) (ho : ∀ x ∈ o, 0 ≤ x) (hl : ∀ x ∈ l, 0 < x) :
    handleRead cfg hs ts false (some (readParams uri o l)) =
      builtReply (buildRead cfg contents o l) := by
  have h1 : ¬ ∃ x ∈ o, x < 0 := by rintro ⟨x, hx, hx'⟩; have := ho x hx; omega
  have h2 : ¬ ∃ x ∈ l, x ≤ 0 := by rintro ⟨x, hx, hx'⟩; have := hl x hx; omega
  unfold handleRead
  simp only [Option.getD_some, readParams_uri, readParams_offset, readParams_length, huri, h1, h2, if_false]
  rcases hsv with h | ⟨f, vars, h, hf⟩
  · rw [h]; simp
  · rw [h]; simp [hf]

theorem buildRead_range {cfg : ReadCfg D} {contents : List (JVal D)} {text : Bytes} (ht : TextParts contents text) {o l : Option Int}
    (hol : ¬ (o = none ∧ l = none)) :
    buildRead cfg contents o l = .ok (readResult (rangeContents cfg.chunking text o l) cfg.ui (metaOf contents)) := by
  unfold buildRead
  have h : (o.isNone && l.isNone) = false := by cases o <;> cases l <;> simp_all
  simp only [h, flatten_iff.2 ht, Option.map_some, Bool.false_eq_true, if_false]
  rw [if_neg]
  rw [show validateReadResourceResult _ = _ from readResult_valid _ _ _, rangeContents_valid]
  simp

theorem clampBytes_spec {ch : Option (JVal D)} {c : Option Int} (hc : Clamp ch c) (hr : ∀ i ∈ c, i < 2 ^ 63) :
    clampBytes ch = (c.getD 0).toNat ∧ ∀ i ∈ c, 0 < i := by
  cases c with
  | none =>
    refine ⟨?_, by simp⟩
    unfold clampBytes
    cases ch with
    | none => rfl
    | some v =>
      simp only [JVal.intAt]
      cases hv : v.get? (lit "maxChunkBytes") with
      | none => rfl
      | some x =>
        cases x with
        | int i =>
          simp only [Option.bind_some, JVal.asInt]
          rw [if_neg]
          · rfl
          · intro hi
            have := (hc i).2 ⟨⟨v, rfl, hv⟩, hi⟩
            simp at this
        | _ => rfl
  | some i =>
    obtain ⟨⟨v, rfl, hv⟩, hi⟩ := (hc i).1 rfl
    have := hr i rfl
    refine ⟨?_, by simpa using hi⟩
    unfold clampBytes
    simp only [JVal.intAt, hv, Option.bind_some, JVal.asInt, Option.getD_some]
    rw [if_pos hi]
    unfold toSize; omega

theorem rangeContents_spec {ch : Option (JVal D)} {c : Option Int} (hc : Clamp ch c) (hr : ∀ i ∈ c, i < 2 ^ 63) {text : Bytes} (o l : Option Int)
    (ho : ∀ x ∈ o, 0 ≤ x ∧ x < 2 ^ 63) (hl : ∀ x ∈ l, 0 < x ∧ x < 2 ^ 63) :
    ((o.getD 0).toNat < text.length → ∃ n out, Largest (text.length - (o.getD 0).toNat) l c n ∧ 0 < n ∧ SliceAt text (o.getD 0).toNat n out ∧
      rangeContents ch text o l = [makeText out]) ∧
    (text.length ≤ (o.getD 0).toNat → rangeContents ch text o l = []) := by
  have hs : toSize (o.getD 0) = (o.getD 0).toNat := by
    cases o with
    | none => rfl
    | some x => have := ho x rfl; simp only [Option.getD_some]; unfold toSize; omega
  obtain ⟨hcb, hcp⟩ := clampBytes_spec hc hr
  unfold rangeContents
  simp only [hs, hcb]
  generalize hst : (o.getD 0).toNat = st
  constructor
  · intro hlt
    rw [if_pos hlt]
    generalize hn : takeLen (c.getD 0).toNat (text.length - st) l = n
    have hL : Largest (text.length - st) l c n ∧ 0 < n := by
      unfold Largest
      unfold takeLen at hn
      cases l with
      | none =>
        cases c with
        | none => simp at hn; simp; omega
        | some i =>
          have := hcp i rfl
          simp only [Option.getD_some, Nat.min_self] at hn
          simp only [Option.mem_def, Option.some.injEq, reduceCtorEq, false_implies, implies_true, true_and, forall_eq', false_or]
          split at hn <;> omega
      | some x =>
        have hx := hl x rfl
        have hxs : toSize x = x.toNat := by unfold toSize; omega
        cases c with
        | none =>
          simp only [hxs, Option.getD_none, Int.toNat_zero, gt_iff_lt, Nat.lt_irrefl, false_and, if_false] at hn
          simp only [Option.mem_def, Option.some.injEq, reduceCtorEq, false_implies, implies_true, and_true, forall_eq', or_false]
          omega
        | some i =>
          have := hcp i rfl
          simp only [hxs, Option.getD_some] at hn
          simp only [Option.mem_def, Option.some.injEq, forall_eq']
          split at hn <;> omega
    refine ⟨n, (text.drop st).take n, hL.1, hL.2, ⟨text.take st, (text.drop st).drop n, ?_, ?_, ?_⟩, rfl⟩
    · rw [List.append_assoc, List.take_append_drop, List.take_append_drop]
    · rw [List.length_take]; omega
    · have := hL.1.1.1
      rw [List.length_take, List.length_drop]; omega
  · intro hge
    rw [if_neg (by omega)]

end Resource

/-! ### C24 -/

/-- **C24.** A ranged read of a text resource, however its text is split into items, succeeds and returns one text item with the bytes from
`offset`, as many as the text, the requested length and the advertised clamp allow; at or past the end it returns no items. -/
theorem C24_ranged_read (cfg : ReadCfg D) {hs : List (Bytes × Option (Ran D))} {ts : List (Bytes × Option (Vars → Ran D))} {uri text : Bytes}
    {contents : List (JVal D)} (huri : uri ≠ []) (hsv : Serves hs ts uri contents) (ht : TextParts contents text) (o l : Option Int) (c : Option Int)
    (hol : ¬ (o = none ∧ l = none)) (ho : ∀ x ∈ o, 0 ≤ x ∧ x < 2 ^ 63) (hl : ∀ x ∈ l, 0 < x ∧ x < 2 ^ 63) (hc : Clamp cfg.chunking c)
    (hr : ∀ i ∈ c, i < 2 ^ 63) :
    ∃ v items, handleRead cfg hs ts false (some (readParams uri o l)) = .ok v ∧ v.get? (lit "contents") = some (.arr items) ∧
      ((o.getD 0).toNat < text.length → ∃ n out, Largest (text.length - (o.getD 0).toNat) l c n ∧ 0 < n ∧ SliceAt text (o.getD 0).toNat n out ∧
        items = [makeText out]) ∧
      (text.length ≤ (o.getD 0).toNat → items = []) := by
  refine ⟨_, rangeContents cfg.chunking text o l, ?_, readResult_contents _ cfg.ui (metaOf contents), rangeContents_spec hc hr o l ho hl⟩
  rw [handleRead_serves huri hsv o l (fun x hx => (ho x hx).1) (fun x hx => (hl x hx).1), buildRead_range ht hol]; rfl

/-- **C24.** Without offset and length the contents come back as they are (in strict mode, if they have the documented shape). -/
theorem C24_full_read (cfg : ReadCfg D) {hs : List (Bytes × Option (Ran D))} {ts : List (Bytes × Option (Vars → Ran D))} {uri : Bytes}
    {contents : List (JVal D)} (huri : uri ≠ []) (hsv : Serves hs ts uri contents)
    (hst : cfg.strict = true → ∀ v ∈ contents, Shape.TextContent v ∨ Shape.ResourceContents v) :
    ∃ v, handleRead cfg hs ts false (some (readParams uri none none)) = .ok v ∧ v.get? (lit "contents") = some (.arr contents) := by
  refine ⟨_, ?_, readResult_contents _ cfg.ui (metaOf contents)⟩
  rw [handleRead_serves huri hsv none none (by simp) (by simp)]
  unfold buildRead
  simp only [Option.isNone_none, Bool.and_self, if_true]
  rw [if_neg]
  · rfl
  rw [show validateReadResourceResult _ = _ from readResult_valid _ _ _]
  cases h : cfg.strict with
  | false => simp
  | true =>
    have : contents.all isReadItem = true := by
      rw [List.all_eq_true]; intro x hx
      rw [isReadItem_iff, or_cons, or_one]; exact hst h x hx
    simp [this]

/-- **C24.** A negative offset or a length that is not positive is refused with InvalidParams, before any handler runs. -/
theorem C24_bad_range_refused (cfg : ReadCfg D) (hs : List (Bytes × Option (Ran D))) (ts : List (Bytes × Option (Vars → Ran D))) (cancelled : Bool)
    (uri : Bytes) (o l : Option Int) (h : (∃ x ∈ o, x < 0) ∨ ∃ x ∈ l, x ≤ 0) :
    ∃ msg, handleRead cfg hs ts cancelled (some (readParams uri o l)) = .fail (-32602) msg := by
  unfold handleRead
  simp only [Option.getD_some, readParams_uri, readParams_offset, readParams_length]
  split
  · exact ⟨_, rfl⟩
  split
  · exact ⟨_, rfl⟩
  split
  · exact ⟨_, rfl⟩
  · rename_i h1 h2 h3
    rcases h with h | h
    · exact absurd h h2
    · exact absurd h h3

/-- **C24.** A ranged read of contents that are not all text is refused. -/
theorem C24_non_text_refused (cfg : ReadCfg D) {hs : List (Bytes × Option (Ran D))} {ts : List (Bytes × Option (Vars → Ran D))} {uri : Bytes}
    {contents : List (JVal D)} (huri : uri ≠ []) (hsv : Serves hs ts uri contents) (ht : ∀ text, ¬ TextParts contents text) (o l : Option Int)
    (hol : ¬ (o = none ∧ l = none)) (ho : ∀ x ∈ o, 0 ≤ x) (hl : ∀ x ∈ l, 0 < x) :
    handleRead cfg hs ts false (some (readParams uri o l)) = .fail (-32603) (lit "Chunking requires text content") := by
  rw [handleRead_serves huri hsv o l ho hl]
  have hf : flatten contents = none := by
    cases h : flatten contents with
    | none => rfl
    | some t => exact absurd (flatten_iff.1 h) (ht t)
  unfold buildRead
  have h : (o.isNone && l.isNone) = false := by cases o <;> cases l <;> simp_all
  simp [h, hf, Code.internalError, builtReply]

/-- **C24.** What `SetResourceReadChunkingMaxBytes` makes of the clamp: `n` itself for 0 < n < 2^63, none otherwise; and the client reads the
clamp the server applies. -/
theorem C24_clamp_setting (cur : Option (JVal D)) (n : Option Nat) (hb : ∀ k ∈ n, k < 2 ^ 64) :
    Clamp (some (setChunkMax cur n)) (match n with | some k => if 0 < k ∧ k < 2 ^ 63 then some (k : Int) else none | none => none) ∧
    (clampHint (some (setChunkMax cur n))).getD 0 = clampBytes (some (setChunkMax cur n)) := by
  cases n with
  | none =>
    have key : (setChunkMax cur none).get? (lit "maxChunkBytes") = none := by simp [setChunkMax, JVal.get?, AMap.get_del_self]
    refine ⟨fun i => ?_, ?_⟩
    · simp [key]
    · simp [clampHint, clampBytes, JVal.intAt, key]
  | some k =>
    have hk := hb k rfl
    by_cases h0 : 0 < k
    · have key : (setChunkMax cur (some k)).get? (lit "maxChunkBytes") = some (.int (if k < 2 ^ 63 then (k : Int) else (k : Int) - 2 ^ 64)) := by
        unfold setChunkMax
        simp only [gt_iff_lt, h0, if_true]
        simp [JVal.get?, AMap.get_put_self]
      by_cases h1 : k < 2 ^ 63
      · rw [if_pos h1] at key
        refine ⟨fun i => ?_, ?_⟩
        · simp only [h0, h1, and_self, if_true, Option.some.injEq, exists_eq_left', key, JVal.int.injEq]
          omega
        · simp only [clampHint, clampBytes, JVal.intAt, key, Option.bind_some, JVal.asInt]
          rw [if_neg (by omega), if_pos (by omega), Option.getD_some]
          unfold toSize; omega
      · rw [if_neg h1] at key
        refine ⟨fun i => ?_, ?_⟩
        · simp only [h1, and_false, if_false, Option.some.injEq, exists_eq_left', key, JVal.int.injEq, reduceCtorEq, false_iff]
          omega
        · simp only [clampHint, clampBytes, JVal.intAt, key, Option.bind_some, JVal.asInt]
          rw [if_pos (by omega), if_neg (by omega), Option.getD_none]
    · have key : (setChunkMax cur (some k)).get? (lit "maxChunkBytes") = none := by
        unfold setChunkMax
        simp only [gt_iff_lt, h0, if_false]
        simp [JVal.get?, AMap.get_del_self]
      refine ⟨fun i => ?_, ?_⟩
      · simp [key, h0]
      · simp [clampHint, clampBytes, JVal.intAt, key]

end Verif
