import Verif.Server.Items

/-!
C37: icons round trip exactly when every theme is supported. C62: listed tools, resources, templates and prompts round trip.
-/

set_option linter.unusedSectionVars false

namespace Verif.Items

open Validation (Obj)

variable {D : Type}

/-! ### Specification -/

/-- The documented themes. -/
def ThemeOK (i : Icon) : Prop := i.theme = none ∨ i.theme = some (lit "light") ∨ i.theme = some (lit "dark")

instance (i : Icon) : Decidable (ThemeOK i) := inferInstanceAs (Decidable (_ ∨ _ ∨ _))

/-- An optional icon list with documented themes only. -/
def IconsOK (o : Option (List Icon)) : Prop := ∀ l ∈ o, ∀ i ∈ l, ThemeOK i

/-! ### Lemmas -/

theorem get_single_ne {k k' : Bytes} (v : JVal D) (h : k ≠ k') : AMap.get [(k, v)] k' = none := by
  simp [AMap.get, h]

theorem supportedTheme_iff (t : Bytes) : supportedTheme t = true ↔ t = lit "light" ∨ t = lit "dark" := by
  simp [supportedTheme]

theorem allStrs_map (l : List Bytes) : allStrs (l.map .str : List (JVal D)) = some l := by
  induction l with
  | nil => rfl
  | cons s l ih => simp [allStrs, ih]

theorem parse_serIcon (i : Icon) (m : Obj D) (hm : (serIcon i : JVal D) = .obj m) :
    parseIcon m = if ThemeOK i then some i else none := by
  unfold serIcon at hm
  injection hm with hm
  subst hm
  obtain ⟨src, mime, sizes, theme⟩ := i
  have n1 : ∀ k ∈ [lit "mimeType", lit "sizes", lit "theme"], lit "src" ≠ k := by decide
  have g1 : AMap.get ([(lit "src", JVal.str src)] ++ optField (lit "mimeType") (mime.map .str) ++
      optField (lit "sizes") (sizes.map (fun l => .arr (l.map .str))) ++ optField (lit "theme") (theme.map .str) : Obj D) (lit "src") =
      some (.str src) := rfl
  have g2 : strictStr ([(lit "src", JVal.str src)] ++ optField (lit "mimeType") (mime.map .str) ++
      optField (lit "sizes") (sizes.map (fun l => .arr (l.map .str))) ++ optField (lit "theme") (theme.map .str) : Obj D) (lit "mimeType") =
      some mime := by
    unfold strictStr
    rw [AMap.get_append, AMap.get_append, AMap.get_append, get_single_ne _ (by decide), get_optField_self,
      get_optField_ne _ (by decide), get_optField_ne _ (by decide)]
    cases mime <;> rfl
  have g3 : strictSizes ([(lit "src", JVal.str src)] ++ optField (lit "mimeType") (mime.map .str) ++
      optField (lit "sizes") (sizes.map (fun l => .arr (l.map .str))) ++ optField (lit "theme") (theme.map .str) : Obj D) =
      some sizes := by
    unfold strictSizes
    rw [AMap.get_append, AMap.get_append, AMap.get_append, get_single_ne _ (by decide), get_optField_self,
      get_optField_ne _ (by decide), get_optField_ne _ (by decide)]
    cases sizes with
    | none => rfl
    | some l => simp [allStrs_map]
  have g4 : strictTheme ([(lit "src", JVal.str src)] ++ optField (lit "mimeType") (mime.map .str) ++
      optField (lit "sizes") (sizes.map (fun l => .arr (l.map .str))) ++ optField (lit "theme") (theme.map .str) : Obj D) =
      match theme with | none => some none | some t => if supportedTheme t then some (some t) else none := by
    unfold strictTheme
    rw [AMap.get_append, AMap.get_append, AMap.get_append, get_single_ne _ (by decide), get_optField_self,
      get_optField_ne _ (by decide), get_optField_ne _ (by decide)]
    cases theme <;> rfl
  unfold parseIcon
  rw [g1]
  simp only
  rw [g2]
  simp only
  rw [g3]
  simp only
  rw [g4]
  cases theme with
  | none => simp [ThemeOK]
  | some t =>
    by_cases h : supportedTheme t = true
    · have := (supportedTheme_iff t).1 h
      simp [h, this, ThemeOK]
    · have h' := mt (supportedTheme_iff t).2 h
      simp only [not_or] at h'
      simp [h, h', ThemeOK]

theorem serIcon_obj (i : Icon) : ∃ m : Obj D, (serIcon i : JVal D) = .obj m := ⟨_, rfl⟩

theorem parseIconList_ser (l : List Icon) (h : ∀ i ∈ l, ThemeOK i) : parseIconList (l.map serIcon : List (JVal D)) = some l := by
  induction l with
  | nil => rfl
  | cons i l ih =>
    obtain ⟨m, hm⟩ := serIcon_obj (D := D) i
    have hi := parse_serIcon i m hm
    rw [if_pos (h i (by simp))] at hi
    rw [List.map_cons, hm]
    simp [parseIconList, hi, ih (fun j hj => h j (by simp [hj]))]

theorem parseIconList_bad (l : List Icon) (h : ∃ i ∈ l, ¬ ThemeOK i) : parseIconList (l.map serIcon : List (JVal D)) = none := by
  induction l with
  | nil => obtain ⟨i, hi, _⟩ := h; cases hi
  | cons i l ih =>
    obtain ⟨m, hm⟩ := serIcon_obj (D := D) i
    have hi := parse_serIcon i m hm
    rw [List.map_cons, hm]
    by_cases ht : ThemeOK i
    · rw [if_pos ht] at hi
      obtain ⟨j, hj, hb⟩ := h
      rcases List.mem_cons.1 hj with rfl | hj
      · exact absurd ht hb
      · simp [parseIconList, hi, ih ⟨j, hj, hb⟩]
    · rw [if_neg ht] at hi
      simp [parseIconList, hi]

theorem get_iconsField_ne {k : Bytes} (o : Option (List Icon)) (h : lit "icons" ≠ k) : AMap.get (iconsField o : Obj D) k = none :=
  get_optField_ne _ h

theorem parseIcons_of_get {m : Obj D} {o : Option (List Icon)} (h : AMap.get m (lit "icons") = o.map (fun l => .arr (l.map serIcon)))
    (ho : IconsOK o) : parseIcons m = o := by
  unfold parseIcons
  rw [h]
  cases o with
  | none => rfl
  | some l => exact parseIconList_ser l (ho l rfl)

theorem nonEmpty_getD (s : Bytes) : (nonEmpty s).getD [] = s := by
  unfold nonEmpty
  split
  · rename_i h; rw [h]; rfl
  · rfl

theorem bind_asStr_map (o : Option Bytes) : (o.map (.str : Bytes → JVal D)).bind JVal.asStr = o := by cases o <;> rfl
theorem bind_asInt_map (o : Option Int) : (o.map (.int : Int → JVal D)).bind JVal.asInt = o := by cases o <;> rfl

theorem get_single_self (k : Bytes) (v : JVal D) : AMap.get [(k, v)] k = some v := by simp [AMap.get]

theorem get_pair_cons_ne {k k' : Bytes} (v : JVal D) (p : Bytes × JVal D) (m : Obj D) (h : k ≠ k') :
    AMap.get ((k, v) :: p :: m) k' = AMap.get (p :: m) k' := by rw [AMap.get_cons, if_neg h]

theorem get_pair_cons_self (k : Bytes) (v : JVal D) (p : Bytes × JVal D) (m : Obj D) : AMap.get ((k, v) :: p :: m) k = some v := by
  rw [AMap.get_cons, if_pos rfl]

theorem get_iconsField_self (o : Option (List Icon)) : AMap.get (iconsField o : Obj D) (lit "icons") = o.map (fun l => .arr (l.map serIcon)) :=
  get_optField_self _ _

theorem read_makeTool_icons (t : Tool D) (m : Obj D) (hm : makeTool t = .obj m) : readTool m = { t with icons := parseIcons m } := by
  unfold makeTool at hm
  injection hm with hm
  unfold readTool
  subst hm
  obtain ⟨a, b, c, d, e, f, g, i, j⟩ := t
  simp (disch := decide) only [JVal.strAt, JVal.get?, AMap.get_append, get_optField_self, get_optField_ne, get_single_ne, get_single_self, get_iconsField_ne,
    Option.none_or, Option.or_none, bind_asStr_map, nonEmpty_getD, Option.getD_some, Option.bind_some, JVal.asStr]

theorem read_makeTool (t : Tool D) (h : IconsOK t.icons) (m : Obj D) (hm : makeTool t = .obj m) : readTool m = t := by
  rw [read_makeTool_icons t m hm]
  unfold makeTool at hm
  injection hm with hm
  have hi : parseIcons m = t.icons := by
    apply parseIcons_of_get _ h
    subst hm
    simp (disch := decide) only [AMap.get_append, get_optField_ne, get_single_ne, get_iconsField_self, Option.none_or, Option.or_none]
  rw [hi]

theorem read_makeResource_icons (t : Resource D) (m : Obj D) (hm : makeResource t = .obj m) : readResourceItem m = { t with icons := parseIcons m } := by
  unfold makeResource at hm
  injection hm with hm
  unfold readResourceItem
  subst hm
  obtain ⟨a, b, c, d, e, f, g, i, j⟩ := t
  simp (disch := decide) only [JVal.strAt, JVal.intAt, JVal.get?, AMap.get_append, get_optField_self, get_optField_ne, get_single_ne, get_single_self,
    get_pair_cons_ne, get_pair_cons_self, get_iconsField_ne,
    Option.none_or, Option.or_none, bind_asStr_map, bind_asInt_map, Option.getD_some, Option.bind_some, JVal.asStr, Option.some_or]

theorem read_makeResource (t : Resource D) (h : IconsOK t.icons) (m : Obj D) (hm : makeResource t = .obj m) : readResourceItem m = t := by
  rw [read_makeResource_icons t m hm]
  unfold makeResource at hm
  injection hm with hm
  have hi : parseIcons m = t.icons := by
    apply parseIcons_of_get _ h
    subst hm
    simp (disch := decide) only [AMap.get_append, get_optField_ne, get_single_ne, get_pair_cons_ne, get_iconsField_self, Option.none_or, Option.or_none]
  rw [hi]

theorem read_makeTemplate_icons (t : Template D) (m : Obj D) (hm : makeTemplate t = .obj m) : readTemplate m = { t with icons := parseIcons m } := by
  unfold makeTemplate at hm
  injection hm with hm
  unfold readTemplate
  subst hm
  obtain ⟨a, b, c, d, e, f, g, i⟩ := t
  simp (disch := decide) only [JVal.strAt, JVal.intAt, JVal.get?, AMap.get_append, get_optField_self, get_optField_ne, get_single_ne, get_single_self,
    get_pair_cons_ne, get_pair_cons_self, get_iconsField_ne,
    Option.none_or, Option.or_none, bind_asStr_map, bind_asInt_map, Option.getD_some, Option.bind_some, JVal.asStr, Option.some_or]

theorem read_makeTemplate (t : Template D) (h : IconsOK t.icons) (m : Obj D) (hm : makeTemplate t = .obj m) : readTemplate m = t := by
  rw [read_makeTemplate_icons t m hm]
  unfold makeTemplate at hm
  injection hm with hm
  have hi : parseIcons m = t.icons := by
    apply parseIcons_of_get _ h
    subst hm
    simp (disch := decide) only [AMap.get_append, get_optField_ne, get_single_ne, get_pair_cons_ne, get_iconsField_self, Option.none_or, Option.or_none]
  rw [hi]

theorem read_makePrompt_icons (t : Prompt D) (m : Obj D) (hm : makePrompt t = .obj m) : readPrompt m = { t with icons := parseIcons m } := by
  unfold makePrompt at hm
  injection hm with hm
  unfold readPrompt
  subst hm
  obtain ⟨a, b, c, d, e, f⟩ := t
  simp (disch := decide) only [JVal.strAt, JVal.get?, AMap.get_append, get_optField_self, get_optField_ne, get_single_ne, get_single_self, get_iconsField_ne,
    Option.none_or, Option.or_none, bind_asStr_map, nonEmpty_getD, Option.getD_some, Option.bind_some, JVal.asStr, Option.some_or]

theorem read_makePrompt (t : Prompt D) (h : IconsOK t.icons) (m : Obj D) (hm : makePrompt t = .obj m) : readPrompt m = t := by
  rw [read_makePrompt_icons t m hm]
  unfold makePrompt at hm
  injection hm with hm
  have hi : parseIcons m = t.icons := by
    apply parseIcons_of_get _ h
    subst hm
    simp (disch := decide) only [AMap.get_append, get_optField_ne, get_single_ne, get_iconsField_self, Option.none_or, Option.or_none]
  rw [hi]

/-- The parser of an icon against the validator of an icon. -/
theorem parseIcon_isSome (m : Obj D) : (parseIcon m).isSome = Validation.isIconObject (.obj m) := by
  have hs : ∀ l : List (JVal D), (allStrs l).isSome = l.all Validation.isStr := by
    intro l
    induction l with
    | nil => rfl
    | cons v l ih => cases v <;> simp [allStrs, Validation.isStr, ih]
  have e1 : (strictStr m (lit "mimeType")).isSome = Validation.isOptionalStringField m (lit "mimeType") := by
    unfold strictStr Validation.isOptionalStringField
    cases AMap.get m (lit "mimeType") with
    | none => rfl
    | some v => cases v <;> rfl
  have e2 : (strictSizes m).isSome = Validation.may Validation.isStringArray m (lit "sizes") := by
    unfold strictSizes Validation.may
    cases AMap.get m (lit "sizes") with
    | none => rfl
    | some v => cases v <;> simp [Validation.isStringArray, Validation.isArrOf, hs]
  have e3 : (strictTheme m).isSome = Validation.may Validation.isTheme m (lit "theme") := by
    unfold strictTheme Validation.may
    cases AMap.get m (lit "theme") with
    | none => rfl
    | some v => cases v <;> simp [Validation.isTheme, supportedTheme] <;> split <;> simp_all
  have e0 : Validation.isStringField m (lit "src") = ((AMap.get m (lit "src")).bind JVal.asStr).isSome := by
    unfold Validation.isStringField
    cases AMap.get m (lit "src") with
    | none => rfl
    | some v => cases v <;> rfl
  simp only [Validation.isIconObject, e0, ← e1, ← e2, ← e3]
  unfold parseIcon
  cases AMap.get m (lit "src") with
  | none => rfl
  | some v =>
    cases v <;> try rfl
    cases strictStr m (lit "mimeType") <;> try rfl
    cases strictSizes m <;> try rfl
    cases strictTheme m <;> rfl

theorem parseIconList_isSome (l : List (JVal D)) : (parseIconList l).isSome = l.all Validation.isIconObject := by
  induction l with
  | nil => rfl
  | cons v l ih =>
    cases v with
    | obj m =>
      have := parseIcon_isSome m
      cases hp : parseIcon m with
      | none => rw [hp] at this; simp [parseIconList, hp, ← this]
      | some i => rw [hp] at this; simp [parseIconList, hp, ← this, ih]
    | _ => simp [parseIconList, Validation.isIconObject]

end Verif.Items

namespace Verif

open Items

variable {D : Type}

/-- **C37.** An icon survives serialisation and parsing exactly when its theme is absent or a documented one; otherwise it is rejected. -/
theorem C37_icon_roundtrip (i : Icon) (m : List (Bytes × JVal D)) (hm : serIcon i = .obj m) :
    (ThemeOK i → parseIcon m = some i) ∧ (¬ ThemeOK i → parseIcon m = none) := by
  have := parse_serIcon i m hm
  exact ⟨fun h => by rw [this, if_pos h], fun h => by rw [this, if_neg h]⟩

/-- **C37.** A list of icons, written as the member `icons` of any object that has no other member of that name, is read back as it was if all
themes are documented; one bad icon rejects the list as a whole. -/
theorem C37_icons_roundtrip (o : Option (List Icon)) (before after : List (Bytes × JVal D)) (hb : lit "icons" ∉ AMap.keys before)
    (ha : lit "icons" ∉ AMap.keys after) :
    (IconsOK o → parseIcons (before ++ iconsField o ++ after) = o) ∧
    (¬ IconsOK o → parseIcons (before ++ iconsField o ++ after) = none) := by
  have hg : AMap.get (before ++ iconsField o ++ after) (lit "icons") = o.map (fun l => .arr (l.map serIcon)) := by
    rw [AMap.get_append, AMap.get_append, AMap.get_none_iff.2 hb, AMap.get_none_iff.2 ha, get_iconsField_self]
    simp
  refine ⟨fun h => parseIcons_of_get hg h, fun h => ?_⟩
  cases o with
  | none => exact absurd (fun l hl => by cases hl) h
  | some l =>
    unfold parseIcons
    rw [hg]
    apply parseIconList_bad
    apply Decidable.byContradiction
    intro hn
    apply h
    intro l' hl' i hi
    cases hl'
    apply Decidable.byContradiction
    intro hb
    exact hn ⟨i, hi, hb⟩

/-- **C37.** The client reads an icon list out of arbitrary JSON exactly when the strict validator accepts the list; nothing is kept of
a list with a bad entry. -/
theorem C37_reads_exactly_valid_icons (m : List (Bytes × JVal D)) (v : JVal D) (hv : AMap.get m (lit "icons") = some v) :
    (parseIcons m).isSome = Validation.isOptionalIconsField m (lit "icons") := by
  unfold parseIcons Validation.isOptionalIconsField Validation.may
  rw [hv]
  cases v with
  | arr l => exact parseIconList_isSome l
  | _ => rfl

example : ThemeOK ⟨lit "a.png", none, some [lit "48x48"], some (lit "dark")⟩ ∧ ¬ ThemeOK ⟨lit "a.png", none, none, some (lit "blue")⟩ := by
  decide

/-- **C62.** A tool written into a listing is read back by the client as it was registered. -/
theorem C62_tool_roundtrip (t : Tool D) (h : IconsOK t.icons) : ∃ m, makeTool t = .obj m ∧ readTool m = t :=
  ⟨_, rfl, read_makeTool t h _ rfl⟩

/-- **C62.** The same for resources, resource templates and prompts. -/
theorem C62_resource_roundtrip (r : Resource D) (h : IconsOK r.icons) : ∃ m, makeResource r = .obj m ∧ readResourceItem m = r :=
  ⟨_, rfl, read_makeResource r h _ rfl⟩

theorem C62_template_roundtrip (t : Template D) (h : IconsOK t.icons) : ∃ m, makeTemplate t = .obj m ∧ readTemplate m = t :=
  ⟨_, rfl, read_makeTemplate t h _ rfl⟩

theorem C62_prompt_roundtrip (p : Prompt D) (h : IconsOK p.icons) : ∃ m, makePrompt p = .obj m ∧ readPrompt m = p :=
  ⟨_, rfl, read_makePrompt p h _ rfl⟩

example : IconsOK (some [⟨lit "a.png", some (lit "image/png"), none, some (lit "light")⟩]) := by
  intro l hl i hi
  cases hl
  rcases List.mem_cons.1 hi with rfl | hi
  · decide
  · cases hi

/-- **C62.** In default mode an item whose icons carry an undocumented theme still arrives; the icons are dropped and nothing else. -/
theorem C62_bad_icons_dropped (t : Tool D) (h : ¬ IconsOK t.icons) :
    ∃ m, makeTool t = .obj m ∧ readTool m = { t with icons := none } := by
  refine ⟨_, rfl, ?_⟩
  rw [read_makeTool_icons t _ rfl]
  congr 1
  have := (C37_icons_roundtrip (D := D) t.icons ([(lit "name", .str t.name)] ++ optField (lit "title") (t.title.map .str) ++
    optField (lit "description") ((nonEmpty t.description).map .str))
    ([(lit "inputSchema", t.inputSchema)] ++ optField (lit "outputSchema") t.outputSchema ++ optField (lit "annotations") t.annotations ++
    optField (lit "execution") t.execution ++ optField (lit "_meta") t.meta_) ?_ ?_).2 h
  · rw [← this]; simp only [List.append_assoc]
  · rw [← AMap.get_none_iff]
    simp (disch := decide) only [AMap.get_append, get_optField_ne, get_single_ne, Option.none_or]
  · rw [← AMap.get_none_iff]
    simp (disch := decide) only [AMap.get_append, get_optField_ne, get_single_ne, Option.none_or]

example : ¬ IconsOK (some [⟨lit "a.png", none, none, some (lit "blue")⟩]) := by
  intro h
  exact absurd (h _ rfl _ (List.mem_singleton.2 rfl)) (by decide)

end Verif
