import Verif.Server.Listing
import Verif.Server.RegistryProps
import Verif.Server.ItemProps

/-!
C27: paged listings enumerate the registry exactly once. C28: UI resources stay hidden. C53: the list-all helpers collect every page.
C64: a listing that fails half way.
-/

set_option linter.unusedSectionVars false

namespace Verif.Server

open Items Validation Tasks Resource

variable {D H T : Type}

/-! ### Specification -/

/-- Asking for pages of `limit` entries from the cursor `c` on, following the cursors handed out, ends and yields the entries `all`. -/
inductive Walk (ask : Option (JVal D) → Reply D) (key : Bytes) (limit : Int) : Option Bytes → List (JVal D) → Prop
  | last {c m l} (h : ask (listRequest c (some limit)) = .ok (.obj m)) (hl : AMap.get m key = some (.arr l))
      (hc : AMap.get m (lit "nextCursor") = none) : Walk ask key limit c l
  | more {c m l c' rest} (h : ask (listRequest c (some limit)) = .ok (.obj m)) (hl : AMap.get m key = some (.arr l))
      (hc : AMap.get m (lit "nextCursor") = some (.str c')) (hr : Walk ask key limit (some c') rest) : Walk ask key limit c (l ++ rest)

/-- The byte order: a proper prefix comes first, otherwise the first difference decides. -/
inductive Before : Bytes → Bytes → Prop
  | short (c r) : Before [] (c :: r)
  | head {a b : Char} (r r') (h : a.toNat < b.toNat) : Before (a :: r) (b :: r')
  | tail (c) {r r' : Bytes} (h : Before r r') : Before (c :: r) (c :: r')

/-- Names strictly increasing (in the byte order), hence no name twice. -/
def Increasing (key : T → Bytes) (l : List T) : Prop := l.Pairwise (fun a b => Before (key a) (key b))

/-- The pages of a paged call, from the cursor `c` on: `Follow ask c all` if following the cursors ends and yields `all`. -/
inductive Follow (ask : Option Bytes → Option (List T × Option Bytes)) : Option Bytes → List T → Prop
  | last {c l} (h : ask c = some (l, none)) : Follow ask c l
  | more {c l c' rest} (h : ask c = some (l, some c')) (hr : Follow ask (some c') rest) : Follow ask c (l ++ rest)

/-- Following the cursors from `c` on reaches a page that raises an exception. -/
inductive Fails (ask : Option Bytes → Option (List T × Option Bytes)) : Option Bytes → Prop
  | here {c} (h : ask c = none) : Fails ask c
  | later {c l c'} (h : ask c = some (l, some c')) (hr : Fails ask (some c')) : Fails ask c

/-! ### Lemmas -/

theorem before_of_lt {a b : Bytes} (h : bytesLt a b = true) : Before a b := by
  induction a generalizing b with
  | nil =>
    cases b with
    | nil => cases h
    | cons c r => exact .short c r
  | cons x a ih =>
    cases b with
    | nil => cases h
    | cons y b =>
      simp only [bytesLt, Bool.or_eq_true, Bool.and_eq_true, decide_eq_true_eq] at h
      rcases h with h | ⟨e, h⟩
      · exact .head _ _ h
      · cases char_toNat_inj e; exact .tail _ (ih h)

theorem increasing_sortBy (key : T → Bytes) (l : List T) (hn : (l.map key).Nodup) : Increasing key (sortBy key l) :=
  (sortBy_strict key l hn).imp before_of_lt

/-- The cursor standing for position `k`. -/
def CurAt (k : Nat) (c : Option Bytes) : Prop := (c = none ∧ k = 0) ∨ c = some (natDec k)

theorem walk_unique {ask : Option (JVal D) → Reply D} {key : Bytes} {limit : Int} {c : Option Bytes} {a b : List (JVal D)}
    (ha : Walk ask key limit c a) (hb : Walk ask key limit c b) : a = b := by
  induction ha generalizing b with
  | last h hl hc =>
    cases hb with
    | last h' hl' hc' => rw [h] at h'; cases h'; rw [hl] at hl'; cases hl'; rfl
    | more h' hl' hc' _ => rw [h] at h'; cases h'; rw [hc] at hc'; cases hc'
  | more h hl hc _ ih =>
    cases hb with
    | last h' hl' hc' => rw [h] at h'; cases h'; rw [hc] at hc'; cases hc'
    | more h' hl' hc' hr =>
      rw [h] at h'; cases h'; rw [hl] at hl'; cases hl'; rw [hc] at hc'; cases hc'
      rw [ih hr]

theorem paging_request {k : Nat} {c : Option Bytes} (hc : CurAt k c) (hk : k < 2 ^ 63) {limit : Int} (h0 : 0 < limit) (h1 : limit < 2 ^ 63) :
    paging (listRequest (D := D) c (some limit)) = (k, some limit.toNat) := by
  have hl : toSize limit = limit.toNat := by unfold toSize; omega
  have e1 : ¬ (lit "limit" = lit "cursor") := by decide
  have e3 : ¬ (lit "cursor" = lit "limit") := by decide
  rcases hc with ⟨rfl, rfl⟩ | rfl
  · simp [listRequest, optField, h0, paging, AMap.get, e1, hl, startOf, limitOf]
  · simp [listRequest, optField, h0, paging, AMap.get, e3, hl, stoll_natDec hk, toSize_nat (show k < 2 ^ 64 by omega), startOf, limitOf]

theorem paging_request_none {limit : Option Int} (h : ∀ l ∈ limit, l ≤ 0) : paging (listRequest (D := D) none limit) = (0, none) := by
  cases limit with
  | none => rfl
  | some l =>
    have : ¬ (l > 0) := by have := h l rfl; omega
    simp [listRequest, optField, this, paging]

theorem get_pageKey (key : Bytes) (hk : key ≠ lit "nextCursor") (a : JVal D) (o : Option (JVal D)) :
    AMap.get ([(key, a)] ++ optField (lit "nextCursor") o) key = some a := by
  rw [AMap.get_append, get_single_self]; rfl

theorem get_pageCursor (key : Bytes) (hk : key ≠ lit "nextCursor") (a : JVal D) (o : Option (JVal D)) :
    AMap.get ([(key, a)] ++ optField (lit "nextCursor") o) (lit "nextCursor") = o := by
  rw [AMap.get_append, get_single_ne _ hk, get_optField_self, Option.none_or]

/-- A page is accepted by the validator if its entries are. -/
theorem valid_page (key : Bytes) (hk : key ≠ lit "nextCursor") (item : JVal D → Bool) (toJson : T → JVal D) (items : List T)
    (hv : ∀ t ∈ items, item (toJson t) = true) (p : Nat × Option Nat) :
    validateListing key item (pageJson key toJson items p) = true := by
  unfold validateListing pageJson
  simp only [need, may, get_pageKey key hk, get_pageCursor key hk, Bool.and_eq_true]
  constructor
  · simp only [isArrOf, List.all_eq_true]
    intro v h
    obtain ⟨t, ht, rfl⟩ := List.mem_map.1 h
    exact hv t (List.mem_of_mem_take (List.mem_of_mem_drop ht))
  · cases nextCursor (endOf items.length (clampStart items.length p.1) p.2) items.length p.2 <;> rfl

theorem strict_page (key : Bytes) (hk : key ≠ lit "nextCursor") (toJson : T → JVal D) (items : List T) (p : Nat × Option Nat) :
    strictListing key (pageJson key toJson items p) = true := by
  unfold strictListing pageJson
  simp only [get_pageKey key hk, get_pageCursor key hk]
  cases nextCursor (endOf items.length (clampStart items.length p.1) p.2) items.length p.2 <;> rfl

theorem listReply_ok (key : Bytes) (hk : key ≠ lit "nextCursor") (item : JVal D → Bool) (toJson : T → JVal D) (msg : Bytes) (strict : Bool)
    (items : List T) (hv : strict = true → ∀ t ∈ items, item (toJson t) = true) (params : Option (JVal D)) :
    listReply key toJson (validateListing key item) msg strict items params = .ok (pageJson key toJson items (paging params)) := by
  unfold listReply
  cases strict with
  | false => rfl
  | true =>
    simp only [valid_page key hk item toJson items (hv rfl), strict_page key hk]
    rfl

theorem nextCursor_some {n total : Nat} (l : Nat) : nextCursor n total (some l) = if n < total then some (natDec n) else none := by
  unfold nextCursor; simp

/-- Following the cursors from position `k` on yields the entries from `k` on. -/
theorem walk_exists (key : Bytes) (hk : key ≠ lit "nextCursor") (item : JVal D → Bool) (toJson : T → JVal D) (msg : Bytes) (strict : Bool)
    (items : List T) (hv : strict = true → ∀ t ∈ items, item (toJson t) = true) (hlen : items.length < 2 ^ 63) {limit : Int}
    (h0 : 0 < limit) (h1 : limit < 2 ^ 63) : ∀ (d k : Nat) (c : Option Bytes), items.length - k = d → k ≤ items.length → CurAt k c →
    Walk (listReply key toJson (validateListing key item) msg strict items) key limit c ((items.drop k).map toJson) := by
  intro d
  induction d using Nat.strongRecOn with
  | ind d ih =>
    intro k c hd hkl hc
    have hp := paging_request (D := D) hc (by omega) h0 h1
    have hr := listReply_ok key hk item toJson msg strict items hv (listRequest (D := D) c (some limit))
    rw [hp] at hr
    have hst : clampStart items.length k = k := by unfold clampStart; rw [if_neg (by omega)]
    have hend : endOf items.length k (some limit.toNat) = min items.length (k + limit.toNat) := by
      unfold endOf; simp only; omega
    unfold pageJson at hr
    simp only [hst, hend] at hr
    have hpos : 0 < limit.toNat := by omega
    by_cases hlast : k + limit.toNat < items.length
    · have hmin : min items.length (k + limit.toNat) = k + limit.toNat := by omega
      rw [hmin, nextCursor_some, if_pos hlast] at hr
      have hw := ih (items.length - (k + limit.toNat)) (by omega) (k + limit.toNat) (some (natDec (k + limit.toNat))) rfl (by omega) (.inr rfl)
      have hsplit : items.drop k = slice items k (k + limit.toNat) ++ items.drop (k + limit.toNat) := by
        unfold slice
        rw [show items.drop (k + limit.toNat) = (items.drop k).drop limit.toNat by rw [List.drop_drop],
          List.drop_take, Nat.add_sub_cancel_left, List.take_append_drop]
      rw [hsplit, List.map_append]
      exact .more hr (get_pageKey key hk _ _) (get_pageCursor key hk _ _) hw
    · have hmin : min items.length (k + limit.toNat) = items.length := by omega
      rw [hmin, nextCursor_some, if_neg (by omega)] at hr
      have hsl : items.drop k = slice items k items.length := by unfold slice; rw [List.take_length]
      rw [hsl]
      exact .last hr (get_pageKey key hk _ _) (get_pageCursor key hk _ _)

theorem walk_iff (key : Bytes) (hk : key ≠ lit "nextCursor") (item : JVal D → Bool) (toJson : T → JVal D) (msg : Bytes) (strict : Bool)
    (items : List T) (hv : strict = true → ∀ t ∈ items, item (toJson t) = true) (hlen : items.length < 2 ^ 63) {limit : Int}
    (h0 : 0 < limit) (h1 : limit < 2 ^ 63) (all : List (JVal D)) :
    Walk (listReply key toJson (validateListing key item) msg strict items) key limit none all ↔ all = items.map toJson := by
  have h := walk_exists key hk item toJson msg strict items hv hlen h0 h1 _ 0 none rfl (by omega) (.inl ⟨rfl, rfl⟩)
  rw [List.drop_zero] at h
  exact ⟨fun ha => walk_unique ha h, fun e => e ▸ h⟩

/-! ### The client -/

theorem follow_unique {ask : Option Bytes → Option (List T × Option Bytes)} {c : Option Bytes} {a b : List T} (ha : Follow ask c a)
    (hb : Follow ask c b) : a = b := by
  induction ha generalizing b with
  | last h => cases hb with
    | last h' => rw [h] at h'; cases h'; rfl
    | more h' _ => rw [h] at h'; cases h'
  | more h _ ih => cases hb with
    | last h' => rw [h] at h'; cases h'
    | more h' hr => rw [h] at h'; cases h'; rw [ih hr]

theorem listAll_follow {ask : Option Bytes → Option (List T × Option Bytes)} {c : Option Bytes} {a : List T} (ha : Follow ask c a) :
    ∃ n, ∀ fuel, n ≤ fuel → ∀ acc, listAll ask fuel c acc = some (some (acc ++ a)) := by
  induction ha with
  | last h =>
    refine ⟨1, fun fuel hf acc => ?_⟩
    cases fuel with
    | zero => omega
    | succ fuel => rw [listAll, h]
  | more h _ ih =>
    obtain ⟨n, ih⟩ := ih
    refine ⟨n + 1, fun fuel hf acc => ?_⟩
    cases fuel with
    | zero => omega
    | succ fuel => rw [listAll, h]; simp only; rw [ih fuel (by omega), List.append_assoc]

theorem listAll_fails {ask : Option Bytes → Option (List T × Option Bytes)} {c : Option Bytes} (ha : Fails ask c) :
    ∃ n, ∀ fuel, n ≤ fuel → ∀ acc, listAll ask fuel c acc = some none := by
  induction ha with
  | here h =>
    refine ⟨1, fun fuel hf acc => ?_⟩
    cases fuel with
    | zero => omega
    | succ fuel => rw [listAll, h]
  | later h _ ih =>
    obtain ⟨n, ih⟩ := ih
    refine ⟨n + 1, fun fuel hf acc => ?_⟩
    cases fuel with
    | zero => omega
    | succ fuel => rw [listAll, h]; exact ih fuel (by omega) _

theorem listAll_sound {ask : Option Bytes → Option (List T × Option Bytes)} : ∀ {fuel : Nat} {c : Option Bytes} {acc : List T} {r : Option (List T)},
    listAll ask fuel c acc = some r → match r with | some l => ∃ a, l = acc ++ a ∧ Follow ask c a | none => Fails ask c := by
  intro fuel
  induction fuel with
  | zero => intro c acc r h; cases h
  | succ fuel ih =>
    intro c acc r h
    rw [listAll] at h
    cases hc : ask c with
    | none => rw [hc] at h; cases h; exact .here hc
    | some p =>
      obtain ⟨items, n⟩ := p
      rw [hc] at h
      cases n with
      | none => cases h; exact ⟨items, rfl, .last hc⟩
      | some c' =>
        have := ih h
        cases r with
        | none => exact .later hc this
        | some l =>
          obtain ⟨a, rfl, hf⟩ := this
          exact ⟨items ++ a, by rw [List.append_assoc], .more hc hf⟩

theorem readItems_map (read : Obj D → T) (toJson : T → JVal D) (l : List T) (h : ∀ t ∈ l, ∃ m, toJson t = .obj m ∧ read m = t) :
    readItems read (l.map toJson) = l := by
  induction l with
  | nil => rfl
  | cons t l ih =>
    obtain ⟨m, h1, h2⟩ := h t (by simp)
    rw [List.map_cons, h1, readItems, h2, ih (fun t ht => h t (by simp [ht]))]

theorem readPage_page (key : Bytes) (hk : key ≠ lit "nextCursor") (read : Obj D → T) (l : List (JVal D)) (c : Option Bytes) :
    readPage key read (.obj ([(key, .arr l)] ++ optField (lit "nextCursor") (c.map .str))) = (readItems read l, c) := by
  unfold readPage
  simp only [get_pageKey key hk, get_pageCursor key hk]
  cases c <;> rfl

/-- The paged call of a client connected to a listing handler. -/
def askServer (handler : Option (JVal D) → Reply D) (key : Bytes) (read : Obj D → T) (valid : JVal D → Bool) (strict : Bool)
    (limit : Option Int) (c : Option Bytes) : Option (List T × Option Bytes) :=
  listPaged key read valid strict (delivered (handler (listRequest c limit)))

theorem ask_ok (key : Bytes) (hk : key ≠ lit "nextCursor") (item : JVal D → Bool) (toJson : T → JVal D) (read : Obj D → T) (msg : Bytes)
    (sStrict cStrict : Bool) (items : List T) (hv : sStrict = true ∨ cStrict = true → ∀ t ∈ items, item (toJson t) = true)
    (hr : ∀ t ∈ items, ∃ m, toJson t = .obj m ∧ read m = t) (limit : Option Int) (c : Option Bytes) :
    askServer (listReply key toJson (validateListing key item) msg sStrict items) key read (validateListing key item) cStrict limit c =
      let p := paging (listRequest (D := D) c limit)
      let st := clampStart items.length p.1
      let e := endOf items.length st p.2
      some (slice items st e, nextCursor e items.length p.2) := by
  unfold askServer
  rw [listReply_ok key hk item toJson msg sStrict items (fun h => hv (.inl h))]
  unfold delivered listPaged Reply.toResponse
  simp only
  rw [if_neg]
  · unfold pageJson
    simp only
    rw [readPage_page key hk, readItems_map read toJson]
    intro t ht
    exact hr t (List.mem_of_mem_take (List.mem_of_mem_drop ht))
  · cases cStrict with
    | false => simp
    | true => simp [valid_page key hk item toJson items (hv (.inr rfl))]

/-- All pages together. -/
theorem follow_ask (key : Bytes) (hk : key ≠ lit "nextCursor") (item : JVal D → Bool) (toJson : T → JVal D) (read : Obj D → T) (msg : Bytes)
    (sStrict cStrict : Bool) (items : List T) (hv : sStrict = true ∨ cStrict = true → ∀ t ∈ items, item (toJson t) = true)
    (hr : ∀ t ∈ items, ∃ m, toJson t = .obj m ∧ read m = t) (hlen : items.length < 2 ^ 63) (limit : Option Int)
    (h1 : ∀ l ∈ limit, l < 2 ^ 31) :
    Follow (askServer (listReply key toJson (validateListing key item) msg sStrict items) key read (validateListing key item) cStrict limit)
      none items := by
  by_cases hz : ∀ l ∈ limit, l ≤ 0
  · apply Follow.last
    rw [ask_ok key hk item toJson read msg sStrict cStrict items hv hr]
    simp only [paging_request_none hz]
    have : clampStart items.length 0 = 0 := by unfold clampStart; rw [if_neg (by omega)]
    rw [this]
    simp [endOf, slice, nextCursor]
  · cases limit with
    | none => exact absurd (fun l hl => by cases hl) hz
    | some limit =>
      have h1 := h1 limit rfl
      have h0 : 0 < limit := by
        apply Decidable.byContradiction
        intro h
        exact hz (fun l hl => by cases hl; omega)
      have key' : ∀ (d k : Nat) (c : Option Bytes), items.length - k = d → k ≤ items.length → CurAt k c →
          Follow (askServer (listReply key toJson (validateListing key item) msg sStrict items) key read (validateListing key item) cStrict
            (some limit)) c (items.drop k) := by
        intro d
        induction d using Nat.strongRecOn with
        | ind d ih =>
          intro k c hd hkl hc
          have hask := ask_ok key hk item toJson read msg sStrict cStrict items hv hr (some limit) c
          rw [paging_request hc (by omega) h0 (by omega)] at hask
          have hst : clampStart items.length k = k := by unfold clampStart; rw [if_neg (by omega)]
          have hend : endOf items.length k (some limit.toNat) = min items.length (k + limit.toNat) := by
            unfold endOf; simp only; omega
          simp only [hst, hend] at hask
          have hpos : 0 < limit.toNat := by omega
          by_cases hlast : k + limit.toNat < items.length
          · have hmin : min items.length (k + limit.toNat) = k + limit.toNat := by omega
            rw [hmin, nextCursor_some, if_pos hlast] at hask
            have hw := ih (items.length - (k + limit.toNat)) (by omega) (k + limit.toNat) (some (natDec (k + limit.toNat))) rfl (by omega) (.inr rfl)
            have hsplit : items.drop k = slice items k (k + limit.toNat) ++ items.drop (k + limit.toNat) := by
              unfold slice
              rw [show items.drop (k + limit.toNat) = (items.drop k).drop limit.toNat by rw [List.drop_drop],
                List.drop_take, Nat.add_sub_cancel_left, List.take_append_drop]
            rw [hsplit]
            exact .more hask hw
          · have hmin : min items.length (k + limit.toNat) = items.length := by omega
            rw [hmin, nextCursor_some, if_neg (by omega)] at hask
            have hsl : items.drop k = slice items k items.length := by unfold slice; rw [List.take_length]
            rw [hsl]
            exact .last hask
      have := key' _ 0 none rfl (by omega) (.inl ⟨rfl, rfl⟩)
      rwa [List.drop_zero] at this

end Verif.Server

namespace Verif

open Items Server Validation Resource Tasks

variable {D H T : Type}

/-- **C27.** Tools: following `nextCursor` with any positive limit ends, whatever the limit, with the registered tools, each exactly once, in
the order of their names. In strict mode this is for tools whose entries the validator accepts (otherwise the handler answers with an error,
see `C27_strict_refuses`). -/
theorem C27_tools (ops : List (Bool × RegOp D H)) (strict : Bool) (limit : Int) (h0 : 0 < limit) (h1 : limit < 2 ^ 63)
    (hlen : (Reg.init.run ops).tools.length < 2 ^ 63)
    (hv : strict = true → ∀ t ∈ (Reg.init.run ops).tools, isToolEntry (makeTool t) = true) :
    ∃ l : List (Tool D), l.Perm (Reg.init.run ops).tools ∧ Increasing (·.name) l ∧
      ∀ all, Walk (handleTools (Reg.init.run ops) strict) (lit "tools") limit none all ↔ all = l.map makeTool := by
  refine ⟨_, sortBy_perm _ _, increasing_sortBy _ _ (C33_listed_once ops).1, fun all => ?_⟩
  have hp := sortBy_perm (fun t : Tool D => t.name) (Reg.init.run ops).tools
  exact walk_iff (lit "tools") (by decide) isToolEntry makeTool _ strict _ (fun h t ht => hv h t (hp.subset ht))
    (by rw [hp.length_eq]; exact hlen) h0 h1 all

/-- **C27.** Resources, as far as the client may see them. -/
theorem C27_resources (ops : List (Bool × RegOp D H)) (ui strict : Bool) (limit : Int) (h0 : 0 < limit) (h1 : limit < 2 ^ 63)
    (hlen : ((Reg.init.run ops).visible ui).length < 2 ^ 63)
    (hv : strict = true → ∀ t ∈ (Reg.init.run ops).visible ui, isResourceEntry (makeResource t) = true) :
    ∃ l : List (Items.Resource D), l.Perm ((Reg.init.run ops).visible ui) ∧ Increasing (·.uri) l ∧
      ∀ all, Walk (handleResources (Reg.init.run ops) ui strict) (lit "resources") limit none all ↔ all = l.map makeResource := by
  refine ⟨_, sortBy_perm _ _, increasing_sortBy _ _ ((C33_listed_once ops).2.2.1 ui), fun all => ?_⟩
  have hp := sortBy_perm (fun t : Items.Resource D => t.uri) ((Reg.init.run ops).visible ui)
  exact walk_iff (lit "resources") (by decide) isResourceEntry makeResource _ strict _ (fun h t ht => hv h t (hp.subset ht))
    (by rw [hp.length_eq]; exact hlen) h0 h1 all

/-- **C27.** Resource templates. -/
theorem C27_templates (ops : List (Bool × RegOp D H)) (strict : Bool) (limit : Int) (h0 : 0 < limit) (h1 : limit < 2 ^ 63)
    (hlen : (Reg.init.run ops).templateList.length < 2 ^ 63)
    (hv : strict = true → ∀ t ∈ (Reg.init.run ops).templateList, isTemplateEntry (makeTemplate t) = true) :
    ∃ l : List (Template D), l.Perm (Reg.init.run ops).templateList ∧ Increasing (·.uriTemplate) l ∧
      ∀ all, Walk (handleTemplates (Reg.init.run ops) strict) (lit "resourceTemplates") limit none all ↔ all = l.map makeTemplate := by
  refine ⟨_, sortBy_perm _ _, increasing_sortBy _ _ (C33_listed_once ops).2.2.2, fun all => ?_⟩
  have hp := sortBy_perm (fun t : Template D => t.uriTemplate) (Reg.init.run ops).templateList
  exact walk_iff (lit "resourceTemplates") (by decide) isTemplateEntry makeTemplate _ strict _ (fun h t ht => hv h t (hp.subset ht))
    (by rw [hp.length_eq]; exact hlen) h0 h1 all

/-- **C27.** Prompts. -/
theorem C27_prompts (ops : List (Bool × RegOp D H)) (strict : Bool) (limit : Int) (h0 : 0 < limit) (h1 : limit < 2 ^ 63)
    (hlen : (Reg.init.run ops).prompts.length < 2 ^ 63)
    (hv : strict = true → ∀ t ∈ (Reg.init.run ops).prompts, isPromptEntry (makePrompt t) = true) :
    ∃ l : List (Prompt D), l.Perm (Reg.init.run ops).prompts ∧ Increasing (·.name) l ∧
      ∀ all, Walk (handlePrompts (Reg.init.run ops) strict) (lit "prompts") limit none all ↔ all = l.map makePrompt := by
  refine ⟨_, sortBy_perm _ _, increasing_sortBy _ _ (C33_listed_once ops).2.1, fun all => ?_⟩
  have hp := sortBy_perm (fun t : Prompt D => t.name) (Reg.init.run ops).prompts
  exact walk_iff (lit "prompts") (by decide) isPromptEntry makePrompt _ strict _ (fun h t ht => hv h t (hp.subset ht))
    (by rw [hp.length_eq]; exact hlen) h0 h1 all

example : (0 : Int) < 2 ∧ ((Reg.init.run [(false, .toolNamed (lit "b") 1), (false, .toolNamed (lit "a") 2)] : Reg Empty Nat).tools.map (·.name)) =
    [lit "b", lit "a"] := by decide

/-- **C27.** The order in which the hash maps are iterated plays no role. -/
theorem C27_order_fixed (ops : List (Bool × RegOp D H)) (items : List (Tool D)) (hp : items.Perm (Reg.init.run ops).tools) (strict : Bool)
    (params : Option (JVal D)) :
    listReply (lit "tools") makeTool validateToolsList (lit "Invalid tools/list result shape") strict (sortBy (·.name) items) params =
      handleTools (Reg.init.run ops) strict params := by
  unfold handleTools
  rw [sortBy_of_perm _ hp.symm (C33_listed_once ops).1]

theorem page_past (key : Bytes) (hk : key ≠ lit "nextCursor") (item : JVal D → Bool) (toJson : T → JVal D) (msg : Bytes) (strict : Bool)
    (items : List T) (hlen : items.length < 2 ^ 63) (i : Int) (h0 : i < 0 ∨ (items.length : Int) ≤ i) (h1 : -(2 ^ 63) ≤ i ∧ i < 2 ^ 63)
    (p : Obj D) (hp : AMap.get p (lit "cursor") = some (.str (intDec i)) ∨ AMap.get p (lit "cursor") = some (.int i))
    (hlim : ∀ l, AMap.get p (lit "limit") = some (.int l) → l < 2 ^ 63) :
    ∃ m, listReply key toJson (validateListing key item) msg strict items (some (.obj p)) = .ok (.obj m) ∧
      AMap.get m key = some (.arr []) ∧ AMap.get m (lit "nextCursor") = none := by
  have hs : startOf (AMap.get p (lit "cursor")) = toSize i := by
    rcases hp with e | e
    · rw [e]; simp only [startOf, stoll_intDec h1.1 h1.2]
    · rw [e]; rfl
  have hbig : items.length ≤ toSize i := by unfold toSize; omega
  have hc : clampStart items.length (toSize i) = items.length := by unfold clampStart; split <;> omega
  have hpg : pageJson key toJson items (paging (some (.obj p))) = pageJson key toJson [] (0, none) := by
    have he : endOf items.length items.length (limitOf (AMap.get p (lit "limit"))) ≤ items.length := by
      unfold endOf; split <;> omega
    have he' : items.length ≤ endOf items.length items.length (limitOf (AMap.get p (lit "limit"))) := by
      cases hl : limitOf (AMap.get p (lit "limit")) with
      | none => exact Nat.le_refl _
      | some l =>
        have hl' : l < 2 ^ 63 + 1 := by
          unfold limitOf at hl
          split at hl
          · split at hl
            · rename_i l e _
              have := hlim l e
              cases hl; unfold toSize; omega
            · cases hl
          · cases hl
        unfold endOf; simp only; omega
    have hE := Nat.le_antisymm he he'
    unfold pageJson
    simp only [paging, hs, hc, hE]
    have hn : nextCursor items.length items.length (limitOf (AMap.get p (lit "limit"))) = none := by
      unfold nextCursor; simp
    rw [hn]
    simp [slice, clampStart, endOf, nextCursor]
  refine ⟨[(key, .arr [])] ++ optField (lit "nextCursor") none, ?_, get_pageKey key hk _ _, get_pageCursor key hk _ _⟩
  unfold listReply
  rw [hpg]
  simp only [valid_page key hk item toJson [] (by intro t ht; cases ht), strict_page key hk, Bool.not_true, Bool.or_self, Bool.and_false, Bool.false_eq_true, if_false]
  rfl

/-- **C27.** A cursor that does not name an entry (past the end, or negative) gets an empty last page: it never starts the listing over. -/
theorem C27_past_end (s : Reg D H) (ui strict : Bool) (i : Int) (h1 : -(2 ^ 63) ≤ i ∧ i < 2 ^ 63) (p : Obj D)
    (hp : AMap.get p (lit "cursor") = some (.str (intDec i)) ∨ AMap.get p (lit "cursor") = some (.int i))
    (hlim : ∀ l, AMap.get p (lit "limit") = some (.int l) → l < 2 ^ 63) :
    (s.tools.length < 2 ^ 63 → (i < 0 ∨ (s.tools.length : Int) ≤ i) → ∃ m, handleTools s strict (some (.obj p)) = .ok (.obj m) ∧
      AMap.get m (lit "tools") = some (.arr []) ∧ AMap.get m (lit "nextCursor") = none) ∧
    ((s.visible ui).length < 2 ^ 63 → (i < 0 ∨ ((s.visible ui).length : Int) ≤ i) → ∃ m, handleResources s ui strict (some (.obj p)) = .ok (.obj m) ∧
      AMap.get m (lit "resources") = some (.arr []) ∧ AMap.get m (lit "nextCursor") = none) ∧
    (s.templateList.length < 2 ^ 63 → (i < 0 ∨ (s.templateList.length : Int) ≤ i) → ∃ m, handleTemplates s strict (some (.obj p)) = .ok (.obj m) ∧
      AMap.get m (lit "resourceTemplates") = some (.arr []) ∧ AMap.get m (lit "nextCursor") = none) ∧
    (s.prompts.length < 2 ^ 63 → (i < 0 ∨ (s.prompts.length : Int) ≤ i) → ∃ m, handlePrompts s strict (some (.obj p)) = .ok (.obj m) ∧
      AMap.get m (lit "prompts") = some (.arr []) ∧ AMap.get m (lit "nextCursor") = none) := by
  refine ⟨fun hl h0 => ?_, fun hl h0 => ?_, fun hl h0 => ?_, fun hl h0 => ?_⟩
  · have hp' := sortBy_perm (fun t : Tool D => t.name) s.tools
    exact page_past (lit "tools") (by decide) isToolEntry makeTool _ strict _ (by rw [hp'.length_eq]; exact hl) i (by rw [hp'.length_eq]; exact h0) h1 p hp hlim
  · have hp' := sortBy_perm (fun t : Items.Resource D => t.uri) (s.visible ui)
    exact page_past (lit "resources") (by decide) isResourceEntry makeResource _ strict _ (by rw [hp'.length_eq]; exact hl) i (by rw [hp'.length_eq]; exact h0) h1 p hp hlim
  · have hp' := sortBy_perm (fun t : Template D => t.uriTemplate) s.templateList
    exact page_past (lit "resourceTemplates") (by decide) isTemplateEntry makeTemplate _ strict _ (by rw [hp'.length_eq]; exact hl) i (by rw [hp'.length_eq]; exact h0) h1 p hp hlim
  · have hp' := sortBy_perm (fun t : Prompt D => t.name) s.prompts
    exact page_past (lit "prompts") (by decide) isPromptEntry makePrompt _ strict _ (by rw [hp'.length_eq]; exact hl) i (by rw [hp'.length_eq]; exact h0) h1 p hp hlim

/-- Two tools, cursor 5. -/
example : ((Reg.init.run [(false, .toolNamed (lit "b") 1), (false, .toolNamed (lit "a") 2)] : Reg Empty Nat).tools.length : Int) ≤ 5 := by decide

/-- **C28.** Without the UI extension no page of `resources/list` contains a `ui://` resource, whatever cursor and limit are asked for. -/
theorem C28_ui_hidden (ops : List (Bool × RegOp D H)) (strict : Bool) (params : Option (JVal D)) (m : List (Bytes × JVal D)) (l : List (JVal D))
    (h : handleResources (Reg.init.run ops) false strict params = .ok (.obj m)) (hl : AMap.get m (lit "resources") = some (.arr l)) :
    ∀ v ∈ l, ∃ uri, v.strAt (lit "uri") = some uri ∧ ¬ (lit "ui://" <+: uri) := by
  unfold handleResources listReply at h
  simp only at h
  split at h
  · cases h
  · injection h with h
    unfold pageJson at h
    injection h with h
    subst h
    rw [get_pageKey _ (by decide)] at hl
    cases hl
    intro v hv
    obtain ⟨r, hr, rfl⟩ := List.mem_map.1 hv
    have hr := (sortBy_perm _ _).subset (List.mem_of_mem_take (List.mem_of_mem_drop hr))
    refine ⟨r.uri, rfl, ?_⟩
    obtain ⟨u, _, hu⟩ := List.mem_filterMap.1 hr
    have hi : RInv (Reg.init.run ops) := rinv_run rinv_init
    cases hg : AMap.get (Reg.init.run ops).resMeta u with
    | none => rw [hg] at hu; cases hu
    | some r' =>
      rw [hg] at hu
      simp only at hu
      split at hu
      · simp at hu
      · rename_i hnu
        cases hu
        have : r.uri = u := hi.rk _ (AMap.get_some_mem hg)
        rw [this]
        intro hp
        exact hnu (List.isPrefixOf_iff_prefix.2 hp)

example : ∃ m l, handleResources (Reg.init.run [(false, .resourceNamed (lit "ui://a") 1), (false, .resourceNamed (lit "f:b") 2)] : Reg Empty Nat)
    false false none = .ok (.obj m) ∧ AMap.get m (lit "resources") = some (.arr l) ∧ l.length = 1 := ⟨_, _, rfl, rfl, by decide +kernel⟩

/-- **C28.** With the UI extension the listing, page after page, contains a resource exactly if the last call about its uri registered it;
together with `C27_resources`. The entry shown differs from the registered one at most in a MIME type filled in for a `ui://` resource. -/
theorem C28_ui_shown (ops : List (Bool × RegOp D H)) (r : Items.Resource D) :
    r ∈ (Reg.init.run ops).visible true ↔
      (∃ r' x, Last (OnResource r.uri) ops (.resource r' x) ∧ r = shown r') ∨
      (∃ x, Last (OnResource r.uri) ops (.resourceNamed r.uri x) ∧ r = shown (defaultResource r.uri)) := by
  have hi : RInv (Reg.init.run ops) := rinv_run rinv_init
  have h33 := C33_resources ops r.uri
  have hmem : r ∈ (Reg.init.run ops).visible true ↔ r ∈ (Reg.init.run ops).resourcesAt r.uri := by
    unfold Reg.resourcesAt
    simp
  rw [hmem]
  constructor
  · intro hr
    -- the last call about the uri
    have hex : Never (OnResource r.uri) ops ∨ ∃ o, Last (OnResource r.uri) ops o := by
      clear h33 hr hmem hi
      induction ops with
      | nil => exact .inl (fun p hp => by cases hp)
      | cons c ops ih =>
        rcases ih with h | ⟨o, pre, b, post, rfl, ho, hp⟩
        · by_cases hc : OnResource r.uri c.2
          · exact .inr ⟨c.2, [], c.1, ops, rfl, hc, h⟩
          · left
            intro p hp
            rcases List.mem_cons.1 hp with rfl | hp
            · exact hc
            · exact h p hp
        · exact .inr ⟨o, c :: pre, b, post, rfl, ho, hp⟩
    rcases hex with h | ⟨o, h⟩
    · rw [(h33.2.2 (.inr h)).1] at hr; cases hr
    · have ho := h.choose_spec.choose_spec.choose_spec.2.1
      cases o <;> simp only [OnResource] at ho
      case resourceNamed u x =>
        subst ho
        rw [(h33.2.1 x h).1] at hr
        exact .inr ⟨x, h, List.mem_singleton.1 hr⟩
      case resource t x =>
        rw [(h33.1 t x h).1] at hr
        exact .inl ⟨t, x, h, List.mem_singleton.1 hr⟩
      case dropResource u =>
        subst ho
        rw [(h33.2.2 (.inl h)).1] at hr
        cases hr
  · rintro (⟨r', x, h, e⟩ | ⟨x, h, e⟩)
    · rw [(h33.1 r' x h).1]; exact List.mem_singleton.2 e
    · rw [(h33.2.1 x h).1]; exact List.mem_singleton.2 e

example : Last (OnResource (lit "ui://a")) [(true, .resourceNamed (lit "ui://a") 1), (false, .dropResource (lit "b"))]
    (.resourceNamed (lit "ui://a") 1 : RegOp Empty Nat) :=
  ⟨[], true, _, rfl, rfl, fun p hp => by rw [List.mem_singleton.1 hp]; show ¬ _; simp only [OnResource]; decide⟩

/-- **C53.** For any server: `listAll` returns `all` for all large enough numbers of rounds exactly if following the cursors from the start
ends with the pages that concatenate to `all`; it fails exactly if a page call on the way throws. (A server whose cursors never end keeps it
running forever.) -/
theorem C53_listAll_concatenates (ask : Option Bytes → Option (List T × Option Bytes)) :
    (∀ all, (∃ n, ∀ fuel, n ≤ fuel → listAll ask fuel none [] = some (some all)) ↔ Follow ask none all) ∧
    ((∃ n, ∀ fuel, n ≤ fuel → listAll ask fuel none [] = some none) ↔ Fails ask none) := by
  constructor
  · intro all
    constructor
    · rintro ⟨n, h⟩
      obtain ⟨a, e, hf⟩ := listAll_sound (h n (Nat.le_refl _))
      rw [List.nil_append] at e
      exact e ▸ hf
    · intro h
      obtain ⟨n, hn⟩ := listAll_follow h
      exact ⟨n, fun fuel hf => by rw [hn fuel hf]; rfl⟩
  · constructor
    · rintro ⟨n, h⟩
      exact listAll_sound (h n (Nat.le_refl _))
    · intro h
      obtain ⟨n, hn⟩ := listAll_fails h
      exact ⟨n, fun fuel hf => hn fuel hf _⟩

/-- **C53.** Against this library's server `listAllTools` returns the registered tools, in the order of their names, whatever the page
limit (absent, not positive, or positive). In strict mode on either side the validator must accept the entries. -/
theorem C53_listAllTools (ops : List (Bool × RegOp D H)) (sStrict cStrict : Bool) (limit : Option Int) (h1 : ∀ l ∈ limit, l < 2 ^ 31)
    (hlen : (Reg.init.run ops).tools.length < 2 ^ 63) (hi : ∀ t ∈ (Reg.init.run ops).tools, IconsOK t.icons)
    (hv : sStrict = true ∨ cStrict = true → ∀ t ∈ (Reg.init.run ops).tools, isToolEntry (makeTool t) = true) :
    ∃ l : List (Tool D), l.Perm (Reg.init.run ops).tools ∧ Increasing (·.name) l ∧ ∃ n, ∀ fuel, n ≤ fuel →
      listAll (askServer (handleTools (Reg.init.run ops) sStrict) (lit "tools") readTool validateToolsList cStrict limit) fuel none [] =
        some (some l) := by
  refine ⟨_, sortBy_perm _ _, increasing_sortBy _ _ (C33_listed_once ops).1, ?_⟩
  have hp := sortBy_perm (fun t : Tool D => t.name) (Reg.init.run ops).tools
  obtain ⟨n, hn⟩ := listAll_follow (follow_ask (lit "tools") (by decide) isToolEntry makeTool readTool (lit "Invalid tools/list result shape") sStrict cStrict
    (sortBy (fun t : Tool D => t.name) (Reg.init.run ops).tools) (fun h t ht => hv h t (hp.subset ht))
    (fun t ht => C62_tool_roundtrip t (hi t (hp.subset ht))) (by rw [hp.length_eq]; exact hlen) limit h1)
  exact ⟨n, fun fuel hf => hn fuel hf []⟩

/-- **C53.** Resources. -/
theorem C53_listAllResources (ops : List (Bool × RegOp D H)) (ui sStrict cStrict : Bool) (limit : Option Int) (h1 : ∀ l ∈ limit, l < 2 ^ 31)
    (hlen : ((Reg.init.run ops).visible ui).length < 2 ^ 63) (hi : ∀ t ∈ (Reg.init.run ops).visible ui, IconsOK t.icons)
    (hv : sStrict = true ∨ cStrict = true → ∀ t ∈ (Reg.init.run ops).visible ui, isResourceEntry (makeResource t) = true) :
    ∃ l : List (Items.Resource D), l.Perm ((Reg.init.run ops).visible ui) ∧ Increasing (·.uri) l ∧ ∃ n, ∀ fuel, n ≤ fuel →
      listAll (askServer (handleResources (Reg.init.run ops) ui sStrict) (lit "resources") readResourceItem validateResourcesList cStrict limit)
        fuel none [] = some (some l) := by
  refine ⟨_, sortBy_perm _ _, increasing_sortBy _ _ ((C33_listed_once ops).2.2.1 ui), ?_⟩
  have hp := sortBy_perm (fun t : Items.Resource D => t.uri) ((Reg.init.run ops).visible ui)
  obtain ⟨n, hn⟩ := listAll_follow (follow_ask (lit "resources") (by decide) isResourceEntry makeResource readResourceItem
    (lit "Invalid resources/list result shape") sStrict cStrict
    (sortBy (fun t : Items.Resource D => t.uri) ((Reg.init.run ops).visible ui)) (fun h t ht => hv h t (hp.subset ht))
    (fun t ht => C62_resource_roundtrip t (hi t (hp.subset ht))) (by rw [hp.length_eq]; exact hlen) limit h1)
  exact ⟨n, fun fuel hf => hn fuel hf []⟩

/-- **C53.** Resource templates. -/
theorem C53_listAllTemplates (ops : List (Bool × RegOp D H)) (sStrict cStrict : Bool) (limit : Option Int) (h1 : ∀ l ∈ limit, l < 2 ^ 31)
    (hlen : (Reg.init.run ops).templateList.length < 2 ^ 63) (hi : ∀ t ∈ (Reg.init.run ops).templateList, IconsOK t.icons)
    (hv : sStrict = true ∨ cStrict = true → ∀ t ∈ (Reg.init.run ops).templateList, isTemplateEntry (makeTemplate t) = true) :
    ∃ l : List (Template D), l.Perm (Reg.init.run ops).templateList ∧ Increasing (·.uriTemplate) l ∧ ∃ n, ∀ fuel, n ≤ fuel →
      listAll (askServer (handleTemplates (Reg.init.run ops) sStrict) (lit "resourceTemplates") readTemplate validateTemplatesList cStrict limit)
        fuel none [] = some (some l) := by
  refine ⟨_, sortBy_perm _ _, increasing_sortBy _ _ (C33_listed_once ops).2.2.2, ?_⟩
  have hp := sortBy_perm (fun t : Template D => t.uriTemplate) (Reg.init.run ops).templateList
  obtain ⟨n, hn⟩ := listAll_follow (follow_ask (lit "resourceTemplates") (by decide) isTemplateEntry makeTemplate readTemplate
    (lit "Invalid resources/templates/list result shape") sStrict cStrict
    (sortBy (fun t : Template D => t.uriTemplate) (Reg.init.run ops).templateList) (fun h t ht => hv h t (hp.subset ht))
    (fun t ht => C62_template_roundtrip t (hi t (hp.subset ht))) (by rw [hp.length_eq]; exact hlen) limit h1)
  exact ⟨n, fun fuel hf => hn fuel hf []⟩

/-- **C53.** Prompts. -/
theorem C53_listAllPrompts (ops : List (Bool × RegOp D H)) (sStrict cStrict : Bool) (limit : Option Int) (h1 : ∀ l ∈ limit, l < 2 ^ 31)
    (hlen : (Reg.init.run ops).prompts.length < 2 ^ 63) (hi : ∀ t ∈ (Reg.init.run ops).prompts, IconsOK t.icons)
    (hv : sStrict = true ∨ cStrict = true → ∀ t ∈ (Reg.init.run ops).prompts, isPromptEntry (makePrompt t) = true) :
    ∃ l : List (Prompt D), l.Perm (Reg.init.run ops).prompts ∧ Increasing (·.name) l ∧ ∃ n, ∀ fuel, n ≤ fuel →
      listAll (askServer (handlePrompts (Reg.init.run ops) sStrict) (lit "prompts") readPrompt validatePromptsList cStrict limit)
        fuel none [] = some (some l) := by
  refine ⟨_, sortBy_perm _ _, increasing_sortBy _ _ (C33_listed_once ops).2.1, ?_⟩
  have hp := sortBy_perm (fun t : Prompt D => t.name) (Reg.init.run ops).prompts
  obtain ⟨n, hn⟩ := listAll_follow (follow_ask (lit "prompts") (by decide) isPromptEntry makePrompt readPrompt
    (lit "Invalid prompts/list result shape") sStrict cStrict
    (sortBy (fun t : Prompt D => t.name) (Reg.init.run ops).prompts) (fun h t ht => hv h t (hp.subset ht))
    (fun t ht => C62_prompt_roundtrip t (hi t (hp.subset ht))) (by rw [hp.length_eq]; exact hlen) limit h1)
  exact ⟨n, fun fuel hf => hn fuel hf []⟩

/-- **C27.** In strict mode a page with an entry the validator rejects is not sent; the request is answered with an internal error. -/
theorem C27_strict_refuses (s : Reg D H) (params : Option (JVal D)) :
    (∃ v, handleTools s true params = .ok v ∧ validateToolsList v = true) ∨
      handleTools s true params = .fail Code.internalError (lit "Invalid tools/list result shape") := by
  unfold handleTools listReply
  simp only [Bool.true_and]
  split
  · exact .inr rfl
  · rename_i h
    left
    refine ⟨_, rfl, ?_⟩
    revert h
    cases validateToolsList (pageJson (lit "tools") makeTool (sortBy (fun x : Tool D => x.name) s.tools) (paging params)) <;> simp

/-- A tool whose icon has an undocumented theme. -/
def badTool : Tool Empty := { (defaultTool (lit "b") : Tool Empty) with icons := some [⟨lit "a.png", none, none, some (lit "blue")⟩] }

/-- **C64.** `listAllTools` can return a part of the tools as if it were all of them: an error answer on a later page ends the loop
silently. Here the server is in strict mode and refuses to send the page with the tool `b`; the client, asking for pages of one entry, gets
`a` alone. -/
theorem C64_truncated_counterexample : ∃ ops : List (Bool × RegOp Empty Nat), (Reg.init.run ops).tools.length = 2 ∧
    ∀ fuel, 2 ≤ fuel → ∃ l, listAll (askServer (handleTools (Reg.init.run ops) true) (lit "tools") readTool validateToolsList false (some 1))
      fuel none [] = some (some l) ∧ l.length = 1 := by
  refine ⟨[(false, .toolNamed (lit "a") 1), (false, .tool badTool 2)], rfl, ?_⟩
  intro fuel hf
  generalize hask : askServer (handleTools (Reg.init.run [(false, .toolNamed (lit "a") 1), (false, .tool badTool 2)]) true) (lit "tools") readTool
      validateToolsList false (some 1) = ask
  have h1 : (ask none).map (fun p => (p.1.length, p.2)) = some (1, some (lit "1")) := by subst hask; decide +kernel
  have h2 : (ask (some (lit "1"))).map (fun p => (p.1.length, p.2)) = some (0, none) := by subst hask; decide +kernel
  obtain ⟨p1, e1, g1⟩ := Option.map_eq_some_iff.1 h1
  obtain ⟨p2, e2, g2⟩ := Option.map_eq_some_iff.1 h2
  obtain ⟨l1, c1⟩ := p1
  obtain ⟨l2, c2⟩ := p2
  simp only [Prod.mk.injEq] at g1 g2
  obtain ⟨hl1, rfl⟩ := g1
  obtain ⟨hl2, rfl⟩ := g2
  match fuel, hf with
  | fuel + 2, _ =>
    refine ⟨l1 ++ l2, ?_, by rw [List.length_append, hl1, hl2]⟩
    rw [listAll, e1]
    simp only
    rw [listAll, e2]
    rfl

/-- **C64.** It does not happen if no page is answered with an error or not at all: then the loop ends with all entries or with an exception. -/
theorem C64_complete_partial (handler : Option (JVal D) → Reply D) (key : Bytes) (read : List (Bytes × JVal D) → T) (valid : JVal D → Bool)
    (strict : Bool) (limit : Option Int) (hok : ∀ params, ∃ v, handler params = .ok v) (fuel : Nat) (l : List T)
    (h : listAll (askServer handler key read valid strict limit) fuel none [] = some (some l)) :
    Follow (fun c => match handler (listRequest c limit) with
      | .ok v => if strict && !valid v then none else some (readPage key read v)
      | .fail _ _ => none) none l := by
  obtain ⟨a, e, hf⟩ := listAll_sound h
  rw [List.nil_append] at e
  subst e
  have hfun : (askServer handler key read valid strict limit) = (fun c => match handler (listRequest c limit) with
      | .ok v => if strict && !valid v then none else some (readPage key read v)
      | .fail _ _ => none) := by
    funext c
    obtain ⟨v, hv⟩ := hok (listRequest c limit)
    unfold askServer
    rw [hv]
    rfl
  rw [hfun] at hf
  exact hf

end Verif
