import Verif.Resource.TemplateModel
import Verif.Base.Lemmas

/-! C21-C23: resource templates. -/

namespace Verif

open Resource

/-! ### What a template means

A template text consists of ordinary characters (anything but an opening brace) and of variables `{name}` with a non-empty name
without a closing brace. -/

/-- `Expands t occ u`: giving the occurrences of variables in `t`, from left to right, the values listed in `occ` turns `t` into `u`. -/
inductive Expands : Bytes → List (Bytes × Bytes) → Bytes → Prop
  | nil : Expands [] [] []
  | ch {c : Char} {t : Bytes} {occ : List (Bytes × Bytes)} {u : Bytes} : c ≠ '{' → Expands t occ u → Expands (c :: t) occ (c :: u)
  | var {name val t : Bytes} {occ : List (Bytes × Bytes)} {u : Bytes} : name ≠ [] → '}' ∉ name → Expands t occ u →
      Expands ('{' :: (name ++ '}' :: t)) ((name, val) :: occ) (val ++ u)

namespace Resource

/-- The same on tokens. -/
inductive TokExp : List Tok → List (Bytes × Bytes) → Bytes → Prop
  | nil : TokExp [] [] []
  | text {s : Bytes} {ts : List Tok} {occ : List (Bytes × Bytes)} {u : Bytes} : TokExp ts occ u → TokExp (.text s :: ts) occ (s ++ u)
  | var {name val : Bytes} {ts : List Tok} {occ : List (Bytes × Bytes)} {u : Bytes} : TokExp ts occ u →
      TokExp (.var name :: ts) ((name, val) :: occ) (val ++ u)

theorem expands_text_iff {a : Bytes} (ha : '{' ∉ a) (t : Bytes) (occ : List (Bytes × Bytes)) (u : Bytes) :
    Expands (a ++ t) occ u ↔ ∃ u', u = a ++ u' ∧ Expands t occ u' := by
  induction a generalizing u with
  | nil => simp
  | cons c a ih =>
    simp only [List.mem_cons, not_or] at ha
    constructor
    · intro h
      rw [List.cons_append] at h
      generalize hx : c :: (a ++ t) = x at h
      cases h with
      | nil => cases hx
      | ch hc h =>
        cases hx
        obtain ⟨u', rfl, hu⟩ := (ih ha.2 _).1 h
        exact ⟨u', rfl, hu⟩
      | var => exact absurd (List.cons.inj hx).1.symm ha.1
    · rintro ⟨u', rfl, hu⟩
      exact .ch (fun e => ha.1 e.symm) ((ih ha.2 _).2 ⟨u', rfl, hu⟩)

theorem append_cons_inj {ch : Char} {a a' b b' : Bytes} (ha : ch ∉ a) (ha' : ch ∉ a') (h : a ++ ch :: b = a' ++ ch :: b') : a = a' ∧ b = b' := by
  have h1 := splitCh_append b ha
  rw [h, splitCh_append b' ha'] at h1
  cases h1; exact ⟨rfl, rfl⟩

theorem expands_var_iff {name : Bytes} (hn : '}' ∉ name) (hne : name ≠ []) (t : Bytes) (occ : List (Bytes × Bytes)) (u : Bytes) :
    Expands ('{' :: (name ++ '}' :: t)) occ u ↔ ∃ val occ' u', occ = (name, val) :: occ' ∧ u = val ++ u' ∧ Expands t occ' u' := by
  constructor
  · intro h
    generalize hx : '{' :: (name ++ '}' :: t) = x at h
    cases h with
    | nil => cases hx
    | ch hc _ => cases hx; exact absurd rfl hc
    | @var name' val t' occ' u' h1 h2 h3 =>
      have := List.cons.inj hx
      obtain ⟨rfl, rfl⟩ := append_cons_inj hn h2 this.2
      exact ⟨val, occ', u', rfl, rfl, h3⟩
  · rintro ⟨val, occ', u', rfl, rfl, h⟩
    exact .var hne hn h

theorem tokenize_spec (t : Bytes) : (∀ ts, tokenize t = some ts → ∀ occ u, Expands t occ u ↔ TokExp ts occ u) ∧
    (tokenize t = none → ∀ occ u, ¬ Expands t occ u) := by
  induction hn : t.length using Nat.strongRecOn generalizing t with
  | _ n ih =>
    rw [tokenize]
    by_cases h0 : t = []
    · rw [if_pos h0]; subst h0
      refine ⟨?_, by intro h; cases h⟩
      intro ts hts occ u; cases hts
      constructor <;> (intro h; cases h; constructor)
    rw [if_neg h0]
    split
    · rename_i h1
      refine ⟨?_, by intro h; cases h⟩
      intro ts hts occ u; cases hts
      have ht := splitCh_none_iff.1 h1
      have := expands_text_iff ht [] occ u
      rw [List.append_nil] at this
      rw [this]
      constructor
      · rintro ⟨u', rfl, h⟩; cases h; exact .text .nil
      · intro h; cases h with | text h => cases h; exact ⟨_, rfl, .nil⟩
    · rename_i a rest h1
      obtain ⟨e1, ha⟩ := splitCh_sound h1
      split
      · rename_i h2
        refine ⟨fun _ h => by (cases h), fun _ occ u hE => ?_⟩
        rw [e1] at hE
        obtain ⟨u', _, hE⟩ := (expands_text_iff ha _ _ _).1 hE
        generalize hx : '{' :: rest = x at hE
        cases hE with
        | nil => cases hx
        | ch hc _ => cases hx; exact absurd rfl hc
        | var _ _ _ =>
          have := (List.cons.inj hx).2
          exact splitCh_none_iff.1 h2 (by rw [this]; simp)
      · rename_i name rest' h2
        obtain ⟨e2, hnm⟩ := splitCh_sound h2
        by_cases h3 : name = []
        · rw [if_pos h3]
          refine ⟨fun _ h => by (cases h), fun _ occ u hE => ?_⟩
          rw [e1] at hE
          obtain ⟨u', _, hE⟩ := (expands_text_iff ha _ _ _).1 hE
          generalize hx : '{' :: rest = x at hE
          cases hE with
          | nil => cases hx
          | ch hc _ => cases hx; exact absurd rfl hc
          | var hne hnb _ =>
            have := (List.cons.inj hx).2
            rw [e2] at this
            obtain ⟨rfl, _⟩ := append_cons_inj hnm hnb this
            exact hne h3
        · rw [if_neg h3]
          have hl : rest'.length < n := by
            rw [← hn, e1, e2]; simp; omega
          obtain ⟨i1, i2⟩ := ih _ hl rest' rfl
          have key : ∀ occ u, Expands t occ u ↔ ∃ val occ' u', occ = (name, val) :: occ' ∧ u = a ++ (val ++ u') ∧ Expands rest' occ' u' := by
            intro occ u
            rw [e1, e2, expands_text_iff ha]
            constructor
            · rintro ⟨u1, rfl, h⟩
              obtain ⟨val, occ', u', rfl, rfl, h'⟩ := (expands_var_iff hnm h3 _ _ _).1 h
              exact ⟨val, occ', u', rfl, rfl, h'⟩
            · rintro ⟨val, occ', u', rfl, rfl, h⟩
              exact ⟨_, rfl, (expands_var_iff hnm h3 _ _ _).2 ⟨val, occ', u', rfl, rfl, h⟩⟩
          constructor
          · intro ts hts occ u
            rw [Option.map_eq_some_iff] at hts
            obtain ⟨ts', h4, rfl⟩ := hts
            rw [key]
            have hv : (∃ val occ' u', occ = (name, val) :: occ' ∧ u = a ++ (val ++ u') ∧ Expands rest' occ' u') ↔
                TokExp (.text a :: .var name :: ts') occ u := by
              constructor
              · rintro ⟨val, occ', u', rfl, rfl, h⟩
                exact .text (.var ((i1 ts' h4 _ _).1 h))
              · intro h
                cases h with
                | text h => cases h with
                  | var h => exact ⟨_, _, _, rfl, rfl, (i1 ts' h4 _ _).2 h⟩
            rw [hv]
            by_cases h5 : a = []
            · subst h5
              simp only [if_true, List.nil_append]
              constructor
              · intro h; cases h with | text h => exact h
              · intro h; exact .text (s := []) h
            · rw [if_neg h5]; exact Iff.rfl
          · intro h4 occ u hE
            rw [Option.map_eq_none_iff] at h4
            obtain ⟨val, occ', u', _, _, h⟩ := (key occ u).1 hE
            exact i2 h4 _ _ h

/-- Writing the values from left to right. -/
def setAll (vars : Vars) (occ : List (Bytes × Bytes)) : Vars := occ.foldl (fun v p => v.set p.1 p.2) vars

/-- `occ` takes, from left to right, values at most as long as those of `occ'` (first difference decides). -/
inductive LexLe : List (Bytes × Bytes) → List (Bytes × Bytes) → Prop
  | nil : LexLe [] []
  | lt {p p' : Bytes × Bytes} {o o' : List (Bytes × Bytes)} : p.2.length < p'.2.length → LexLe (p :: o) (p' :: o')
  | eq {p : Bytes × Bytes} {o o' : List (Bytes × Bytes)} : LexLe o o' → LexLe (p :: o) (p :: o')

/-- What a matcher of the remaining tokens must do. -/
def Good (ts : List Tok) (f : Vars → Bytes → Bool × Vars) : Prop :=
  ∀ vars u, ((f vars u).1 = true → ∃ occ, TokExp ts occ u ∧ (f vars u).2 = setAll vars occ ∧ ∀ occ', TokExp ts occ' u → LexLe occ occ') ∧
    ((f vars u).1 = false → (f vars u).2 = vars ∧ ∀ occ, ¬ TokExp ts occ u)

theorem set_set (v : Vars) (n a b : Bytes) : (v.set n a).set n b = v.set n b := by
  funext m; unfold Vars.set; split <;> rfl

theorem tryEnds_spec {ts : List Tok} {f : Vars → Bytes → Bool × Vars} (hf : Good ts f) (n : Bytes) (v0 : Vars) :
    ∀ (rest pre : Bytes) (vars : Vars), (∀ a, vars.set n a = v0.set n a) →
      (∀ x y, pre = x ++ y → y ≠ [] → ∀ occ, ¬ TokExp ts occ (y ++ rest)) →
      let r := tryEnds f n vars pre rest
      (r.1 = true → ∃ occ, TokExp (.var n :: ts) occ (pre ++ rest) ∧ r.2 = setAll v0 occ ∧
          ∀ occ', TokExp (.var n :: ts) occ' (pre ++ rest) → LexLe occ occ') ∧
      (r.1 = false → (∀ m, m ≠ n → r.2 m = v0 m) ∧ ∀ occ, ¬ TokExp (.var n :: ts) occ (pre ++ rest)) := by
  have hit : ∀ (rest pre : Bytes) (vars : Vars), (∀ a, vars.set n a = v0.set n a) →
      (∀ x y, pre = x ++ y → y ≠ [] → ∀ occ, ¬ TokExp ts occ (y ++ rest)) → (f (vars.set n pre) rest).1 = true →
      ∃ occ, TokExp (.var n :: ts) occ (pre ++ rest) ∧ (f (vars.set n pre) rest).2 = setAll v0 occ ∧
          ∀ occ', TokExp (.var n :: ts) occ' (pre ++ rest) → LexLe occ occ' := by
    intro rest pre vars hv hp hr
    obtain ⟨occ, h1, h2, h3⟩ := (hf (vars.set n pre) rest).1 hr
    refine ⟨(n, pre) :: occ, .var h1, ?_, ?_⟩
    · rw [h2, hv]; rfl
    · intro occ' ho
      generalize hx : pre ++ rest = x at ho
      cases ho with
      | @var _ val _ occ'' u' ho =>
        rcases List.append_eq_append_iff.1 hx with ⟨y, e1, e2⟩ | ⟨y, e1, e2⟩
        · by_cases hy : y = []
          · subst hy
            rw [List.append_nil] at e1; rw [List.nil_append] at e2
            subst e1; subst e2
            exact .eq (h3 _ ho)
          · refine .lt ?_
            have : 0 < y.length := by cases y with | nil => exact absurd rfl hy | cons => simp
            simp only [e1, List.length_append]; omega
        · by_cases hy : y = []
          · subst hy
            rw [List.append_nil] at e1; rw [List.nil_append] at e2
            subst e1; subst e2
            exact .eq (h3 _ ho)
          · rw [e2] at ho
            exact absurd ho (hp val y e1 hy occ'')
  intro rest
  induction rest with
  | nil =>
    intro pre vars hv hp
    simp only [tryEnds]
    refine ⟨fun hr => hit [] pre vars hv hp hr, fun hr => ?_⟩
    obtain ⟨h1, h2⟩ := (hf (vars.set n pre) []).2 hr
    refine ⟨?_, ?_⟩
    · intro m hm
      rw [h1, hv]; unfold Vars.set; rw [if_neg hm]
    · intro occ ho
      generalize hx : pre ++ ([] : Bytes) = x at ho
      cases ho with
      | @var _ val _ occ'' u' ho =>
        rw [List.append_nil] at hx
        by_cases hu : u' = []
        · subst hu; exact h2 _ ho
        · exact hp val u' hx hu occ'' (by rw [List.append_nil]; exact ho)
  | cons c cs ih =>
    intro pre vars hv hp
    simp only [tryEnds]
    cases hr : (f (vars.set n pre) (c :: cs)).1 with
    | true =>
      simp only [if_true]
      exact ⟨fun _ => hit _ pre vars hv hp hr, fun h => by (rw [hr] at h; cases h)⟩
    | false =>
      obtain ⟨h1, h2⟩ := (hf (vars.set n pre) (c :: cs)).2 hr
      have := ih (pre ++ [c]) (f (vars.set n pre) (c :: cs)).2
        (by intro a; rw [h1, set_set]; exact hv a)
        (by
          intro x y e hy occ
          rcases List.append_eq_append_iff.1 e with ⟨z, e1, e2⟩ | ⟨z, e1, e2⟩
          · cases z with
            | nil =>
              rw [List.nil_append] at e2; subst e2
              exact h2 occ
            | cons d z =>
              have := List.cons.inj e2
              have hz := List.append_eq_nil_iff.1 this.2.symm
              exact absurd hz.2 hy
          · rw [e2, List.append_assoc]
            by_cases hz : z = []
            · subst hz; exact h2 occ
            · exact hp x z e1 hz occ)
      simp only [List.append_assoc, List.cons_append, List.nil_append] at this
      simpa using this

theorem matchToks_good (ts : List Tok) : Good ts (matchToks ts) := by
  induction ts with
  | nil =>
    intro vars u
    simp only [matchToks]
    constructor
    · intro h
      have : u = [] := List.isEmpty_iff.1 h
      subst this
      exact ⟨[], .nil, rfl, by intro o ho; cases ho; exact .nil⟩
    · intro h
      refine ⟨trivial, ?_⟩
      intro occ ho; cases ho; cases h
  | cons tk ts ih =>
    intro vars u
    cases tk with
    | text s =>
      simp only [matchToks]
      by_cases hp : s.isPrefixOf u = true
      · rw [if_pos hp]
        obtain ⟨u', rfl⟩ := List.isPrefixOf_iff_prefix.1 hp
        rw [List.drop_left]
        have inv : ∀ occ, TokExp (.text s :: ts) occ (s ++ u') → TokExp ts occ u' := by
          intro occ ho
          generalize hx : s ++ u' = x at ho
          cases ho with
          | text ho => rw [List.append_cancel_left hx]; exact ho
        refine ⟨fun h => ?_, fun h => ?_⟩
        · obtain ⟨occ, h1, h2, h3⟩ := (ih vars u').1 h
          exact ⟨occ, .text h1, h2, fun o ho => h3 o (inv o ho)⟩
        · obtain ⟨h1, h2⟩ := (ih vars u').2 h
          exact ⟨h1, fun o ho => h2 o (inv o ho)⟩
      · rw [if_neg hp]
        refine ⟨fun h => by (cases h), fun _ => ⟨rfl, ?_⟩⟩
        intro occ ho
        cases ho with
        | text ho => exact hp (List.isPrefixOf_iff_prefix.2 ⟨_, rfl⟩)
    | var n =>
      simp only [matchToks]
      have := tryEnds_spec ih n vars u [] vars (fun _ => rfl)
        (by intro x y e hy; exact absurd (List.append_eq_nil_iff.1 e.symm).2 hy)
      simp only [List.nil_append] at this
      obtain ⟨t1, t2⟩ := this
      cases hr : (tryEnds (matchToks ts) n vars [] u).1 with
      | true =>
        simp only [if_true]
        exact ⟨fun _ => t1 hr, fun h => by (rw [hr] at h; cases h)⟩
      | false =>
        obtain ⟨h1, h2⟩ := t2 hr
        refine ⟨fun h => by (simp at h), fun _ => ⟨?_, h2⟩⟩
        simp only [Bool.false_eq_true, if_false]
        funext m
        by_cases hm : m = n
        · subst hm
          cases hv : vars m <;> simp [Vars.set, Vars.erase]
        · cases hv : vars n <;> simp [Vars.set, Vars.erase, hm, h1 m hm]

theorem matchTemplate_spec (t u : Bytes) :
    (∀ vars, matchTemplate t u = some vars → ∃ occ, Expands t occ u ∧ vars = setAll Vars.empty occ ∧ ∀ occ', Expands t occ' u → LexLe occ occ') ∧
    (matchTemplate t u = none → ∀ occ, ¬ Expands t occ u) := by
  obtain ⟨s1, s2⟩ := tokenize_spec t
  unfold matchTemplate
  cases ht : tokenize t with
  | none => exact ⟨fun _ h => by (cases h), fun _ occ => s2 ht occ u⟩
  | some ts =>
    obtain ⟨g1, g2⟩ := matchToks_good ts Vars.empty u
    simp only
    cases hr : (matchToks ts Vars.empty u).1 with
    | true =>
      simp only [if_true]
      refine ⟨fun vars h => ?_, fun h => by cases h⟩
      obtain ⟨occ, h1, h2, h3⟩ := g1 hr
      cases h
      exact ⟨occ, (s1 ts ht _ _).2 h1, h2, fun o ho => h3 o ((s1 ts ht _ _).1 ho)⟩
    | false =>
      refine ⟨fun vars h => by (simp at h), fun _ occ ho => (g2 hr).2 occ ((s1 ts ht _ _).1 ho)⟩

theorem setAll_notmem (occ : List (Bytes × Bytes)) : ∀ (v : Vars) (n : Bytes), n ∉ occ.map (·.1) → setAll v occ n = v n := by
  induction occ with
  | nil => intro v n _; rfl
  | cons p occ ih =>
    intro v n hn
    simp only [List.map_cons, List.mem_cons, not_or] at hn
    show setAll (v.set p.1 p.2) occ n = v n
    rw [ih _ _ hn.2]; unfold Vars.set; rw [if_neg hn.1]

theorem setAll_mem (occ : List (Bytes × Bytes)) : ∀ (v : Vars), (occ.map (·.1)).Nodup → ∀ p ∈ occ, setAll v occ p.1 = some p.2 := by
  induction occ with
  | nil => intro v _ p hp; cases hp
  | cons q occ ih =>
    intro v hn p hp
    rw [List.map_cons, List.nodup_cons] at hn
    rcases List.mem_cons.1 hp with rfl | hp
    · show setAll (v.set p.1 p.2) occ p.1 = _
      rw [setAll_notmem occ _ _ hn.1]; unfold Vars.set; rw [if_pos rfl]
    · exact ih _ hn.2 p hp

theorem setAll_isSome (occ : List (Bytes × Bytes)) : ∀ (v : Vars) (n : Bytes), (setAll v occ n).isSome ↔ (v n).isSome ∨ n ∈ occ.map (·.1) := by
  induction occ with
  | nil => intro v n; simp [setAll]
  | cons q occ ih =>
    intro v n
    show (setAll (v.set q.1 q.2) occ n).isSome ↔ _
    rw [ih, List.map_cons, List.mem_cons]
    unfold Vars.set
    by_cases h : n = q.1 <;> simp [h]

end Resource

/-- The template `t` with its variables replaced by the values `σ` is `u`; `names` lists the variables. -/
inductive Subst (σ : Bytes → Bytes) : Bytes → List Bytes → Bytes → Prop
  | nil : Subst σ [] [] []
  | ch {c : Char} {t : Bytes} {ns : List Bytes} {u : Bytes} : c ≠ '{' → Subst σ t ns u → Subst σ (c :: t) ns (c :: u)
  | var {name t : Bytes} {ns : List Bytes} {u : Bytes} : name ≠ [] → '}' ∉ name → Subst σ t ns u →
      Subst σ ('{' :: (name ++ '}' :: t)) (name :: ns) (σ name ++ u)

theorem subst_of_expands {t : Bytes} {occ : List (Bytes × Bytes)} {u : Bytes} (h : Expands t occ u) (σ : Bytes → Bytes)
    (hs : ∀ p ∈ occ, σ p.1 = p.2) : Subst σ t (occ.map (·.1)) u := by
  induction h with
  | nil => exact .nil
  | ch hc _ ih => exact .ch hc (ih hs)
  | @var name val t occ u h1 h2 _ ih =>
    have := hs (name, val) (by simp)
    simp only at this
    rw [← this]
    exact .var h1 h2 (ih (fun p hp => hs p (by simp [hp])))

theorem expands_of_subst {σ : Bytes → Bytes} {t : Bytes} {ns : List Bytes} {u : Bytes} (h : Subst σ t ns u) :
    Expands t (ns.map (fun n => (n, σ n))) u := by
  induction h with
  | nil => exact .nil
  | ch hc _ ih => exact .ch hc ih
  | var h1 h2 _ ih => exact .var h1 h2 ih

/-- The variables of a template are determined by its text. -/
theorem expands_names {t : Bytes} {occ occ' : List (Bytes × Bytes)} {u u' : Bytes} (h : Expands t occ u) (h' : Expands t occ' u') :
    occ.map (·.1) = occ'.map (·.1) := by
  induction h generalizing occ' u' with
  | nil => cases h'; rfl
  | ch hc _ ih =>
    cases h' with
    | ch _ h' => exact ih h'
    | var => exact absurd rfl hc
  | @var name val t occ u h1 h2 _ ih =>
    obtain ⟨val', occ'', u'', rfl, rfl, h3⟩ := (expands_var_iff h2 h1 _ _ _).1 h'
    simp only [List.map_cons, ih h3]

/-- `t` is a well-formed template and `ns` are its variables from left to right. -/
inductive HasNames : Bytes → List Bytes → Prop
  | nil : HasNames [] []
  | ch {c : Char} {t : Bytes} {ns : List Bytes} : c ≠ '{' → HasNames t ns → HasNames (c :: t) ns
  | var {name t : Bytes} {ns : List Bytes} : name ≠ [] → '}' ∉ name → HasNames t ns → HasNames ('{' :: (name ++ '}' :: t)) (name :: ns)

theorem hasNames_of_expands {t : Bytes} {occ : List (Bytes × Bytes)} {u : Bytes} (h : Expands t occ u) : HasNames t (occ.map (·.1)) := by
  induction h with
  | nil => exact .nil
  | ch hc _ ih => exact .ch hc ih
  | var a b _ ih => exact .var a b ih

/-- **C21.** Only well-formed templates match. If the variable names of a template are pairwise distinct and it matches a URI,
substituting the reported values gives back exactly the URI, and exactly the variables of the template are reported. Missing: templates
with repeated names, for which it is false (`C21_repeated_name_counterexample`). -/
theorem C21_match_is_instantiation_partial (t u : Bytes) (vars : Vars) (h : matchTemplate t u = some vars) :
    ∃ ns, HasNames t ns ∧ (∀ n, (vars n).isSome ↔ n ∈ ns) ∧ (ns.Nodup → Subst (fun n => (vars n).getD []) t ns u) := by
  obtain ⟨occ, h1, rfl, _⟩ := (matchTemplate_spec t u).1 vars h
  refine ⟨occ.map (·.1), hasNames_of_expands h1, ?_, fun hn => subst_of_expands h1 _ ?_⟩
  · intro n
    rw [setAll_isSome]; simp [Vars.empty]
  · intro p hp
    rw [setAll_mem occ _ hn p hp]; rfl

/-- **C21**, also for repeated names: a match comes from giving every occurrence some value, and a name is reported with the value of its
last occurrence. -/
theorem C21_match_occurrences (t u : Bytes) (vars : Vars) (h : matchTemplate t u = some vars) :
    ∃ occ, Expands t occ u ∧ ∀ n v, vars n = some v ↔ (occ.reverse.find? (fun p => decide (p.1 = n))).map (·.2) = some v := by
  obtain ⟨occ, h1, rfl, _⟩ := (matchTemplate_spec t u).1 vars h
  refine ⟨occ, h1, fun n v => ?_⟩
  suffices hs : ∀ (occ : List (Bytes × Bytes)) (v0 : Vars), setAll v0 occ n = ((occ.reverse.find? (fun p => decide (p.1 = n))).map (·.2)).or (v0 n) by
    rw [hs]; simp [Vars.empty]
  intro occ
  induction occ with
  | nil => intro v0; rfl
  | cons p occ ih =>
    intro v0
    show setAll (v0.set p.1 p.2) occ n = _
    rw [ih, List.reverse_cons, List.find?_append]
    cases hf : occ.reverse.find? (fun p => decide (p.1 = n)) with
    | some q => simp
    | none =>
      unfold Vars.set
      by_cases hp : p.1 = n
      · simp [hp]
      · simp [hp, Ne.symm hp]

/-- **C21 fails** for repeated names: "{a}-{a}" matches "1-2", and no value of `a` turns the template into that URI. -/
theorem C21_repeated_name_counterexample :
    ∃ t u, (matchTemplate t u).isSome ∧ (∃ ns, HasNames t ns) ∧ ∀ (σ : Bytes → Bytes) (ns : List Bytes), ¬ Subst σ t ns u := by
  have hx : Expands (lit "{a}-{a}") [(lit "a", lit "1"), (lit "a", lit "2")] (lit "1-2") :=
    .var (name := lit "a") (val := lit "1") (by decide) (by decide)
      (.ch (by decide) (.var (name := lit "a") (val := lit "2") (t := []) (by decide) (by decide) .nil))
  refine ⟨lit "{a}-{a}", lit "1-2", ?_, ⟨_, hasNames_of_expands hx⟩, ?_⟩
  · cases hm : matchTemplate (lit "{a}-{a}") (lit "1-2") with
    | some v => rfl
    | none => exact absurd hx ((matchTemplate_spec _ _).2 hm _)
  · intro σ ns h
    have h1 := expands_of_subst h
    have h2 := expands_names h1 hx
    have h3 : ns = [lit "a", lit "a"] := by simpa [List.map_map, Function.comp_def] using h2
    subst h3
    have h4 : Expands ('{' :: (lit "a" ++ '}' :: (lit "-{a}"))) [(lit "a", σ (lit "a")), (lit "a", σ (lit "a"))] (lit "1-2") := h1
    obtain ⟨val, occ', u', e1, e2, h5⟩ := (expands_var_iff (by decide) (by decide) _ _ _).1 h4
    cases e1
    cases h5 with
    | @ch c t occ u hc h6 =>
      have h7 : Expands ('{' :: (lit "a" ++ '}' :: [])) [(lit "a", σ (lit "a"))] u := h6
      obtain ⟨val, occ', u', e1, e3, h8⟩ := (expands_var_iff (by decide) (by decide) _ _ _).1 h7
      cases e1
      cases h8
      rw [e3, List.append_nil] at e2
      generalize σ (lit "a") = x at e2
      have hl := congrArg List.length e2
      simp [lit] at hl
      rcases x with _ | ⟨c, _ | ⟨d, x⟩⟩
      · simp at hl
      · simp [lit] at e2; rw [← e2.1] at e2; simp at e2
      · simp at hl; omega

/-- **C22.** If some values turn a template into the URI - even different values for occurrences of one name - the template matches. -/
theorem C22_match_complete (t u : Bytes) (occ : List (Bytes × Bytes)) (h : Expands t occ u) : (matchTemplate t u).isSome := by
  cases hm : matchTemplate t u with
  | some v => rfl
  | none => exact absurd h ((matchTemplate_spec t u).2 hm occ)

/-- **C22** for one value per name. -/
theorem C22_substitution_matches (t u : Bytes) (σ : Bytes → Bytes) (ns : List Bytes) (h : Subst σ t ns u) : (matchTemplate t u).isSome :=
  C22_match_complete t u _ (expands_of_subst h)

/-- **C22.** The match reported is the one with the shortest values, from left to right. -/
theorem C22_shortest_match (t u : Bytes) (vars : Vars) (h : matchTemplate t u = some vars) :
    ∃ occ, Expands t occ u ∧ (∀ n, (vars n).isSome ↔ n ∈ occ.map (·.1)) ∧ (∀ p ∈ occ, (occ.map (·.1)).Nodup → vars p.1 = some p.2) ∧
      ∀ occ', Expands t occ' u → LexLe occ occ' := by
  obtain ⟨occ, h1, rfl, h3⟩ := (matchTemplate_spec t u).1 vars h
  refine ⟨occ, h1, fun n => ?_, fun p hp hn => setAll_mem occ _ hn p hp, h3⟩
  rw [setAll_isSome]; simp [Vars.empty]

example : Subst (fun n => if n = lit "a" then lit "x/y" else lit "") (lit "f://{a}.{b}") [lit "a", lit "b"] (lit "f://x/y.") :=
  .ch (by decide) (.ch (by decide) (.ch (by decide) (.ch (by decide) (.var (name := lit "a") (by decide) (by decide)
    (.ch (by decide) (.var (name := lit "b") (t := []) (u := []) (by decide) (by decide) .nil))))))

/-! ### C23 -/

/-- The handler-bearing templates that can be instantiated to the URI. -/
def Matching {T : Type} (templates : List (Bytes × Option T)) (u : Bytes) : List (Bytes × Option T) :=
  templates.filter (fun e => e.2.isSome && (matchTemplate e.1 u).isSome)

theorem matching_mem {T : Type} (templates : List (Bytes × Option T)) (u : Bytes) (e : Bytes × Option T) :
    e ∈ Matching templates u ↔ e ∈ templates ∧ e.2.isSome ∧ ∃ occ, Expands e.1 occ u := by
  unfold Matching
  rw [List.mem_filter, Bool.and_eq_true]
  refine and_congr_right (fun _ => and_congr_right (fun _ => ?_))
  constructor
  · intro h
    obtain ⟨v, hv⟩ := Option.isSome_iff_exists.1 h
    obtain ⟨occ, ho, _⟩ := (matchTemplate_spec _ _).1 v hv
    exact ⟨occ, ho⟩
  · rintro ⟨occ, ho⟩; exact C22_match_complete _ _ occ ho

theorem resolveLoop_used {H T : Type} (u : Bytes) (es : List (Bytes × Option T)) (r : Resolved H T) (hu : r.usesTemplate = true) :
    (Matching es u = [] → resolveLoop u es r = r) ∧ (Matching es u ≠ [] → (resolveLoop u es r).ambiguous = true) := by
  induction es with
  | nil => exact ⟨fun _ => rfl, fun h => absurd rfl h⟩
  | cons e es ih =>
    obtain ⟨t, o⟩ := e
    cases o with
    | none => simpa [Matching, resolveLoop, List.filter_cons] using ih
    | some h =>
      simp only [resolveLoop]
      cases hm : matchTemplate t u with
      | none => simpa [Matching, List.filter_cons, hm] using ih
      | some v => simp [Matching, List.filter_cons, hm, hu]

theorem resolveLoop_fresh {H T : Type} (u : Bytes) (es : List (Bytes × Option T)) (r : Resolved H T) (hu : r.usesTemplate = false) :
    (Matching es u = [] → resolveLoop u es r = r) ∧
    (∀ t h, Matching es u = [(t, some h)] → ∃ vars, matchTemplate t u = some vars ∧
      resolveLoop u es r = { r with usesTemplate := true, template := some h, vars := vars }) ∧
    (2 ≤ (Matching es u).length → (resolveLoop u es r).ambiguous = true) := by
  induction es with
  | nil => exact ⟨fun _ => rfl, fun _ _ h => by (cases h), fun h => by (simp [Matching] at h)⟩
  | cons e es ih =>
    obtain ⟨t, o⟩ := e
    cases o with
    | none => simpa [Matching, resolveLoop, List.filter_cons] using ih
    | some h =>
      simp only [resolveLoop]
      cases hm : matchTemplate t u with
      | none => simpa [Matching, List.filter_cons, hm] using ih
      | some v =>
        have hM : Matching ((t, some h) :: es) u = (t, some h) :: Matching es u := by simp [Matching, List.filter_cons, hm]
        rw [hM]
        simp only [hu, Bool.false_eq_true, if_false]
        obtain ⟨a1, a2⟩ := resolveLoop_used u es { r with usesTemplate := true, template := some h, vars := v } rfl
        refine ⟨fun h => by (cases h), fun t' h' he => ?_, fun hl => a2 ?_⟩
        · simp only [List.cons.injEq, Prod.mk.injEq, Option.some.injEq] at he
          obtain ⟨⟨rfl, rfl⟩, he⟩ := he
          exact ⟨v, hm, a1 he⟩
        · intro e; rw [e] at hl; simp at hl

/-- **C23.** The handler of a read: the directly registered one if there is one; otherwise the only handler-bearing template that can be
instantiated to the URI, with the values of that template; none means not found, two or more ambiguous. -/
theorem C23_resolution {H T : Type} (handlers : List (Bytes × Option H)) (templates : List (Bytes × Option T)) (u : Bytes) :
    (∀ h, AMap.get handlers u = some (some h) → choose handlers templates u = .direct h) ∧
    (AMap.get handlers u = none → Matching templates u = [] → choose handlers templates u = .notFound) ∧
    (AMap.get handlers u = none → ∀ t h, Matching templates u = [(t, some h)] →
      ∃ vars, matchTemplate t u = some vars ∧ choose handlers templates u = .template h vars) ∧
    (AMap.get handlers u = none → 2 ≤ (Matching templates u).length → choose handlers templates u = .ambiguous) := by
  obtain ⟨a1, a2, a3⟩ := resolveLoop_fresh (H := H) u templates ⟨none, none, Vars.empty, false, false⟩ rfl
  refine ⟨?_, ?_, ?_, ?_⟩
  · intro h hh; simp [choose, resolve, hh]
  · intro hh hm; simp [choose, resolve, hh, a1 hm]
  · intro hh t h hm
    obtain ⟨vars, h1, h2⟩ := a2 t h hm
    exact ⟨vars, h1, by simp [choose, resolve, hh, h2]⟩
  · intro hh hl; simp [choose, resolve, hh, a3 hl]

/-- **C23.** The three cases are exhaustive, an empty function is never called, and a template in the list does match in the sense of C21/C22. -/
theorem C23_exhaustive {H T : Type} (handlers : List (Bytes × Option H)) (templates : List (Bytes × Option T)) (u : Bytes) :
    choose handlers templates u ≠ .badCall ∧
    (Matching templates u = [] ∨ (∃ t h, Matching templates u = [(t, some h)]) ∨ 2 ≤ (Matching templates u).length) ∧
    ∀ e, e ∈ Matching templates u ↔ e ∈ templates ∧ e.2.isSome ∧ ∃ occ, Expands e.1 occ u := by
  have hcases : Matching templates u = [] ∨ (∃ t h, Matching templates u = [(t, some h)]) ∨ 2 ≤ (Matching templates u).length := by
    cases hM : Matching templates u with
    | nil => exact .inl rfl
    | cons e es =>
      cases es with
      | cons => exact .inr (.inr (by simp))
      | nil =>
        have := (matching_mem templates u e).1 (by rw [hM]; simp)
        obtain ⟨t, o⟩ := e
        obtain ⟨h, rfl⟩ := Option.isSome_iff_exists.1 this.2.1
        exact .inr (.inl ⟨t, h, rfl⟩)
  refine ⟨?_, hcases, matching_mem templates u⟩
  cases hh : AMap.get handlers u with
  | some o => cases o <;> simp [choose, resolve, hh]
  | none =>
    obtain ⟨_, b2, b3, b4⟩ := C23_resolution handlers templates u
    rcases hcases with h | ⟨t, h, hm⟩ | h
    · rw [b2 hh h]; simp
    · obtain ⟨vars, _, h2⟩ := b3 hh t h hm
      rw [h2]; simp
    · rw [b4 hh h]; simp

/-- Two templates match "x-y", the third has no handler; nothing is registered directly. -/
example : 2 ≤ (Matching ([(lit "{p}", some 1), (lit "{p}-{q}", some 2), (lit "x{p}", none)] : List (Bytes × Option Nat)) (lit "x-y")).length ∧
    AMap.get ([(lit "x-z", some 1)] : List (Bytes × Option Nat)) (lit "x-y") = none := by
  refine ⟨?_, by decide⟩
  have h1 : Expands (lit "{p}") [(lit "p", lit "x-y")] (lit "x-y") := .var (name := lit "p") (val := lit "x-y") (t := []) (by decide) (by decide) .nil
  have h2 : Expands (lit "{p}-{q}") [(lit "p", lit "x"), (lit "q", lit "y")] (lit "x-y") :=
    .var (name := lit "p") (val := lit "x") (by decide) (by decide) (.ch (by decide) (.var (name := lit "q") (val := lit "y") (t := []) (by decide) (by decide) .nil))
  have e1 := C22_match_complete _ _ _ h1
  have e2 := C22_match_complete _ _ _ h2
  simp [Matching, List.filter_cons, e1, e2]

end Verif
