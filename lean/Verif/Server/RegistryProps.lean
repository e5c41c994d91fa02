import Verif.Server.Registry

/-!
C33: registering and unregistering behave like a map. C63: every change of the registry while connected is announced once.
-/

set_option linter.unusedSectionVars false

namespace Verif.Server

open Items

variable {D H : Type}

/-! ### Specification -/

/-- The call `o` is the last one of the history `ops` that concerns the subject described by `about`. -/
def Last (about : RegOp D H → Prop) (ops : List (Bool × RegOp D H)) (o : RegOp D H) : Prop :=
  ∃ pre b post, ops = pre ++ (b, o) :: post ∧ about o ∧ ∀ p ∈ post, ¬ about p.2

/-- No call of the history concerns the subject. -/
def Never (about : RegOp D H → Prop) (ops : List (Bool × RegOp D H)) : Prop := ∀ p ∈ ops, ¬ about p.2

/-- The calls that concern the tool, resource, prompt or template of the given name. -/
def OnTool (n : Bytes) : RegOp D H → Prop
  | .toolNamed m _ => m = n
  | .tool t _ => t.name = n
  | .dropTool m => m = n
  | _ => False

def OnResource (n : Bytes) : RegOp D H → Prop
  | .resourceNamed m _ => m = n
  | .resource t _ => t.uri = n
  | .dropResource m => m = n
  | _ => False

def OnPrompt (n : Bytes) : RegOp D H → Prop
  | .promptNamed m _ => m = n
  | .prompt t _ => t.name = n
  | .dropPrompt m => m = n
  | _ => False

def OnTemplate (n : Bytes) : RegOp D H → Prop
  | .templateBare t => t.uriTemplate = n
  | .template t _ => t.uriTemplate = n
  | .dropTemplate m => m = n
  | _ => False

/-- The list a call changes. -/
def kindOf : RegOp D H → Note
  | .toolNamed .. | .tool .. | .dropTool .. => .tools
  | .promptNamed .. | .prompt .. | .dropPrompt .. => .prompts
  | _ => .resources

/-- What is listed under a name. -/
def Reg.toolsAt (s : Reg D H) (n : Bytes) : List (Tool D) := s.tools.filter (fun t => t.name = n)
def Reg.promptsAt (s : Reg D H) (n : Bytes) : List (Prompt D) := s.prompts.filter (fun t => t.name = n)
def Reg.templatesAt (s : Reg D H) (n : Bytes) : List (Template D × Option H) := s.templates.filter (fun t => t.1.uriTemplate = n)
/-- With the UI extension nothing is hidden. -/
def Reg.resourcesAt (s : Reg D H) (n : Bytes) : List (Resource D) := (s.visible true).filter (fun t => t.uri = n)

/-- How a resource appears: `ui://` resources without a MIME type get one. -/
def shown (r : Resource D) : Resource D :=
  if isUi r.uri ∧ r.mimeType = none then { r with mimeType := some (lit "text/html+mcp") } else r

/-! ### Invariant -/

structure RInv (s : Reg D H) : Prop where
  tn : (AMap.keys s.toolMeta).Nodup
  tk : ∀ p ∈ s.toolMeta, p.2.name = p.1
  ts : ∀ n, (AMap.get s.toolHandlers n).isSome = (AMap.get s.toolMeta n).isSome
  pn : (AMap.keys s.promptMeta).Nodup
  pk : ∀ p ∈ s.promptMeta, p.2.name = p.1
  ps : ∀ n, (AMap.get s.promptHandlers n).isSome = (AMap.get s.promptMeta n).isSome
  rn : s.resUris.Nodup
  rk : ∀ p ∈ s.resMeta, p.2.uri = p.1
  rs : ∀ n, (AMap.get s.resHandlers n).isSome = (AMap.get s.resMeta n).isSome
  ru : ∀ n, n ∈ s.resUris ↔ (AMap.get s.resHandlers n).isSome
  mn : (s.templates.map (·.1.uriTemplate)).Nodup

theorem rinv_init : RInv (Reg.init : Reg D H) := by
  refine ⟨?_, ?_, ?_, ?_, ?_, ?_, ?_, ?_, ?_, ?_, ?_⟩ <;> simp [Reg.init, AMap.keys, AMap.get]

theorem rinv_notify {s : Reg D H} (h : RInv s) (c : Bool) (n : Note) : RInv (s.notify c n) := by
  unfold Reg.notify
  split
  · exact ⟨h.tn, h.tk, h.ts, h.pn, h.pk, h.ps, h.rn, h.rk, h.rs, h.ru, h.mn⟩
  · exact h

theorem isSome_put {V W : Type} {m : List (Bytes × V)} {m' : List (Bytes × W)} (h : ∀ n, (AMap.get m n).isSome = (AMap.get m' n).isSome)
    (k : Bytes) (v : V) (w : W) (n : Bytes) : (AMap.get (AMap.put m k v) n).isSome = (AMap.get (AMap.put m' k w) n).isSome := by
  rw [AMap.get_put, AMap.get_put]
  split
  · rfl
  · exact h n

theorem isSome_del {V W : Type} {m : List (Bytes × V)} {m' : List (Bytes × W)} (h : ∀ n, (AMap.get m n).isSome = (AMap.get m' n).isSome)
    (k : Bytes) (n : Bytes) : (AMap.get (AMap.del m k) n).isSome = (AMap.get (AMap.del m' k) n).isSome := by
  rw [AMap.get_del, AMap.get_del]
  split
  · rfl
  · exact h n

theorem key_put {V : Type} {m : List (Bytes × V)} {key : V → Bytes} (h : ∀ p ∈ m, key p.2 = p.1) (v : V) :
    ∀ p ∈ AMap.put m (key v) v, key p.2 = p.1 := by
  intro p hp
  rcases AMap.mem_put.1 hp with ⟨hp, _⟩ | rfl
  · exact h p hp
  · rfl

theorem key_del {V : Type} {m : List (Bytes × V)} {key : V → Bytes} (h : ∀ p ∈ m, key p.2 = p.1) (k : Bytes) :
    ∀ p ∈ AMap.del m k, key p.2 = p.1 := fun p hp => h p (AMap.mem_del.1 hp).1

theorem rinv_addTool {s : Reg D H} (h : RInv s) (t : Tool D) (x : H) : RInv (s.addTool t x) :=
  ⟨AMap.nodup_put _ _ h.tn, key_put h.tk t, isSome_put h.ts _ _ _, h.pn, h.pk, h.ps, h.rn, h.rk, h.rs, h.ru, h.mn⟩

theorem rinv_addToolNamed {s : Reg D H} (h : RInv s) (n : Bytes) (x : H) : RInv (s.addToolNamed n x) := by
  cases hg : AMap.get s.toolMeta n with
  | none =>
    have e : s.addToolNamed n x = s.addTool (defaultTool n) x := by
      unfold Reg.addToolNamed Reg.addTool
      rw [hg]
      rfl
    rw [e]
    exact rinv_addTool h _ x
  | some t =>
    have e : s.addToolNamed n x = { s with toolHandlers := AMap.put s.toolHandlers n x } := by
      unfold Reg.addToolNamed
      rw [hg]
    rw [e]
    refine ⟨h.tn, h.tk, ?_, h.pn, h.pk, h.ps, h.rn, h.rk, h.rs, h.ru, h.mn⟩
    intro m
    show (AMap.get (AMap.put s.toolHandlers n x) m).isSome = (AMap.get s.toolMeta m).isSome
    rw [AMap.get_put]
    split
    · rename_i e; subst e; rw [hg]; rfl
    · exact h.ts m

theorem rinv_removeTool {s : Reg D H} (h : RInv s) (n : Bytes) : RInv (s.removeTool n) :=
  ⟨AMap.nodup_del _ h.tn, key_del h.tk _, isSome_del h.ts _, h.pn, h.pk, h.ps, h.rn, h.rk, h.rs, h.ru, h.mn⟩

theorem rinv_addPrompt {s : Reg D H} (h : RInv s) (t : Prompt D) (x : H) : RInv (s.addPrompt t x) :=
  ⟨h.tn, h.tk, h.ts, AMap.nodup_put _ _ h.pn, key_put h.pk t, isSome_put h.ps _ _ _, h.rn, h.rk, h.rs, h.ru, h.mn⟩

theorem rinv_removePrompt {s : Reg D H} (h : RInv s) (n : Bytes) : RInv (s.removePrompt n) :=
  ⟨h.tn, h.tk, h.ts, AMap.nodup_del _ h.pn, key_del h.pk _, isSome_del h.ps _, h.rn, h.rk, h.rs, h.ru, h.mn⟩

theorem addResource_uris (s : Reg D H) (r : Resource D) (x : H) :
    (s.addResource r x).resUris = if (AMap.get s.resHandlers r.uri).isSome then s.resUris else s.resUris ++ [r.uri] := by
  unfold Reg.addResource
  cases AMap.get s.resHandlers r.uri <;> rfl

theorem rinv_addResource {s : Reg D H} (h : RInv s) (r : Resource D) (x : H) : RInv (s.addResource r x) := by
  refine ⟨h.tn, h.tk, h.ts, h.pn, h.pk, h.ps, ?_, key_put h.rk r, isSome_put h.rs _ _ _, ?_, h.mn⟩
  · rw [addResource_uris]
    split
    · exact h.rn
    · rename_i hs
      rw [List.nodup_append]
      refine ⟨h.rn, by simp, ?_⟩
      intro a ha b hb e
      rw [List.mem_singleton.1 hb] at e
      subst e
      exact hs ((h.ru _).1 ha)
  · intro n
    rw [addResource_uris]
    show _ ↔ (AMap.get (AMap.put s.resHandlers r.uri x) n).isSome
    rw [AMap.get_put]
    by_cases e : n = r.uri
    · subst e
      rw [if_pos rfl]
      split
      · rename_i hs
        exact ⟨fun _ => rfl, fun _ => (h.ru _).2 hs⟩
      · simp
    · rw [if_neg e, ← h.ru n]
      split
      · exact Iff.rfl
      · simp [e]

theorem rinv_removeResource {s : Reg D H} (h : RInv s) (n : Bytes) : RInv (s.removeResource n) := by
  refine ⟨h.tn, h.tk, h.ts, h.pn, h.pk, h.ps, h.rn.filter _, key_del h.rk _, isSome_del h.rs _, ?_, h.mn⟩
  intro m
  show m ∈ s.resUris.filter _ ↔ (AMap.get (AMap.del s.resHandlers n) m).isSome
  rw [AMap.get_del, List.mem_filter, decide_eq_true_eq, h.ru m]
  by_cases e : m = n <;> simp [e]

theorem nodup_dropTpl {l : List (Template D × Option H)} (h : (l.map (·.1.uriTemplate)).Nodup) (u : Bytes) :
    ((dropTpl l u).map (·.1.uriTemplate)).Nodup :=
  h.sublist (List.filter_sublist.map _)

theorem rinv_addTemplate {s : Reg D H} (h : RInv s) (t : Template D) (x : Option H) : RInv (s.addTemplate t x) := by
  refine ⟨h.tn, h.tk, h.ts, h.pn, h.pk, h.ps, h.rn, h.rk, h.rs, h.ru, ?_⟩
  show ((dropTpl s.templates t.uriTemplate ++ [(t, x)]).map (·.1.uriTemplate)).Nodup
  rw [List.map_append, List.nodup_append]
  refine ⟨nodup_dropTpl h.mn _, by simp, ?_⟩
  intro a ha b hb e
  simp only [List.map_cons, List.map_nil, List.mem_singleton] at hb
  subst hb
  subst e
  obtain ⟨p, hp, he⟩ := List.mem_map.1 ha
  exact absurd he (of_decide_eq_true (List.mem_filter.1 hp).2)

theorem rinv_removeTemplate {s : Reg D H} (h : RInv s) (u : Bytes) : RInv (s.removeTemplate u) :=
  ⟨h.tn, h.tk, h.ts, h.pn, h.pk, h.ps, h.rn, h.rk, h.rs, h.ru, nodup_dropTpl h.mn _⟩

theorem rinv_step {s : Reg D H} (h : RInv s) (c : Bool × RegOp D H) : RInv (s.step c) := by
  obtain ⟨b, o⟩ := c
  cases o with
  | toolNamed n x => exact rinv_notify (rinv_addToolNamed h n x) _ _
  | tool t x => exact rinv_notify (rinv_addTool h t x) _ _
  | dropTool n => exact rinv_notify (rinv_removeTool h n) _ _
  | resourceNamed n x => exact rinv_notify (rinv_addResource h _ x) _ _
  | resource t x => exact rinv_notify (rinv_addResource h t x) _ _
  | dropResource n => exact rinv_notify (rinv_removeResource h n) _ _
  | promptNamed n x => exact rinv_notify (rinv_addPrompt h _ x) _ _
  | prompt t x => exact rinv_notify (rinv_addPrompt h t x) _ _
  | dropPrompt n => exact rinv_notify (rinv_removePrompt h n) _ _
  | templateBare t => exact rinv_notify (rinv_addTemplate h t none) _ _
  | template t x => exact rinv_notify (rinv_addTemplate h t (some x)) _ _
  | dropTemplate u => exact rinv_notify (rinv_removeTemplate h u) _ _

theorem rinv_run {ops : List (Bool × RegOp D H)} : ∀ {s : Reg D H}, RInv s → RInv (s.run ops) := by
  induction ops with
  | nil => exact fun h => h
  | cons c ops ih => exact fun h => ih (rinv_step h c)

theorem run_append (s : Reg D H) (a b : List (Bool × RegOp D H)) : s.run (a ++ b) = (s.run a).run b := by
  simp [Reg.run, List.foldl_append]

theorem run_cons (s : Reg D H) (c : Bool × RegOp D H) (b : List (Bool × RegOp D H)) : s.run (c :: b) = (s.step c).run b := rfl

/-- A view of the state that calls about other things leave alone. -/
theorem run_never {V : Type} {about : RegOp D H → Prop} {view : Reg D H → V} (hv : ∀ (s : Reg D H) c, ¬ about c.2 → view (s.step c) = view s)
    {ops : List (Bool × RegOp D H)} : ∀ {s : Reg D H}, Never about ops → view (s.run ops) = view s := by
  induction ops with
  | nil => intros; rfl
  | cons c ops ih =>
    intro s h
    rw [run_cons, ih (fun p hp => h p (List.mem_cons_of_mem _ hp)), hv s c (h c (by simp))]

theorem run_last {V : Type} {about : RegOp D H → Prop} {view : Reg D H → V} (hv : ∀ (s : Reg D H) c, ¬ about c.2 → view (s.step c) = view s)
    {ops : List (Bool × RegOp D H)} {o : RegOp D H} (h : Last about ops o) :
    ∃ (s : Reg D H) (b : Bool), RInv s ∧ view (Reg.init.run ops) = view (s.step (b, o)) := by
  obtain ⟨pre, b, post, rfl, _, hp⟩ := h
  refine ⟨Reg.init.run pre, b, rinv_run rinv_init, ?_⟩
  rw [run_append, run_cons, run_never hv hp]

/-! ### The views -/

theorem notify_toolHandlers (s : Reg D H) (c : Bool) (n : Note) : (s.notify c n).toolHandlers = s.toolHandlers := by unfold Reg.notify; split <;> rfl
theorem notify_toolMeta (s : Reg D H) (c : Bool) (n : Note) : (s.notify c n).toolMeta = s.toolMeta := by unfold Reg.notify; split <;> rfl
theorem notify_promptHandlers (s : Reg D H) (c : Bool) (n : Note) : (s.notify c n).promptHandlers = s.promptHandlers := by unfold Reg.notify; split <;> rfl
theorem notify_promptMeta (s : Reg D H) (c : Bool) (n : Note) : (s.notify c n).promptMeta = s.promptMeta := by unfold Reg.notify; split <;> rfl
theorem notify_resHandlers (s : Reg D H) (c : Bool) (n : Note) : (s.notify c n).resHandlers = s.resHandlers := by unfold Reg.notify; split <;> rfl
theorem notify_resMeta (s : Reg D H) (c : Bool) (n : Note) : (s.notify c n).resMeta = s.resMeta := by unfold Reg.notify; split <;> rfl
theorem notify_templates (s : Reg D H) (c : Bool) (n : Note) : (s.notify c n).templates = s.templates := by unfold Reg.notify; split <;> rfl

/-- Handler and metadata of one tool. -/
def toolView (n : Bytes) (s : Reg D H) : Option H × Option (Tool D) := (AMap.get s.toolHandlers n, AMap.get s.toolMeta n)
def promptView (n : Bytes) (s : Reg D H) : Option H × Option (Prompt D) := (AMap.get s.promptHandlers n, AMap.get s.promptMeta n)
def resView (n : Bytes) (s : Reg D H) : Option H × Option (Resource D) := (AMap.get s.resHandlers n, AMap.get s.resMeta n)

theorem toolView_step (n : Bytes) (s : Reg D H) (c : Bool × RegOp D H) (h : ¬ OnTool n c.2) : toolView n (s.step c) = toolView n s := by
  obtain ⟨b, o⟩ := c
  cases o <;> simp only [OnTool] at h <;>
    simp only [Reg.step, toolView, notify_toolHandlers, notify_toolMeta, Reg.addToolNamed, Reg.addTool, Reg.removeTool, Reg.addResource,
      Reg.removeResource, Reg.addPrompt, Reg.removePrompt, Reg.addTemplate, Reg.removeTemplate]
  case toolNamed m x =>
    rw [AMap.get_put_ne _ _ (fun e => h e.symm)]
    congr 1
    split
    · rfl
    · rw [AMap.get_put_ne _ _ (fun e => h e.symm)]
  case tool t x => rw [AMap.get_put_ne _ _ (fun e => h e.symm), AMap.get_put_ne _ _ (fun e => h e.symm)]
  case dropTool m => rw [AMap.get_del_ne _ (fun e => h e.symm), AMap.get_del_ne _ (fun e => h e.symm)]

theorem promptView_step (n : Bytes) (s : Reg D H) (c : Bool × RegOp D H) (h : ¬ OnPrompt n c.2) : promptView n (s.step c) = promptView n s := by
  obtain ⟨b, o⟩ := c
  cases o <;> simp only [OnPrompt] at h <;>
    simp only [Reg.step, promptView, notify_promptHandlers, notify_promptMeta, Reg.addToolNamed, Reg.addTool, Reg.removeTool, Reg.addResource,
      Reg.removeResource, Reg.addPrompt, Reg.removePrompt, Reg.addTemplate, Reg.removeTemplate]
  case promptNamed m x =>
    have e0 : (defaultPrompt m : Prompt D).name = m := rfl
    rw [e0, AMap.get_put_ne _ _ (fun e => h e.symm), AMap.get_put_ne _ _ (fun e => h e.symm)]
  case prompt t x => rw [AMap.get_put_ne _ _ (fun e => h e.symm), AMap.get_put_ne _ _ (fun e => h e.symm)]
  case dropPrompt m => rw [AMap.get_del_ne _ (fun e => h e.symm), AMap.get_del_ne _ (fun e => h e.symm)]

theorem resView_step (n : Bytes) (s : Reg D H) (c : Bool × RegOp D H) (h : ¬ OnResource n c.2) : resView n (s.step c) = resView n s := by
  obtain ⟨b, o⟩ := c
  cases o <;> simp only [OnResource] at h <;>
    simp only [Reg.step, resView, notify_resHandlers, notify_resMeta, Reg.addToolNamed, Reg.addTool, Reg.removeTool, Reg.addResource,
      Reg.removeResource, Reg.addPrompt, Reg.removePrompt, Reg.addTemplate, Reg.removeTemplate]
  case resourceNamed m x =>
    have e0 : (defaultResource m : Resource D).uri = m := rfl
    rw [e0, AMap.get_put_ne _ _ (fun e => h e.symm), AMap.get_put_ne _ _ (fun e => h e.symm)]
  case resource t x => rw [AMap.get_put_ne _ _ (fun e => h e.symm), AMap.get_put_ne _ _ (fun e => h e.symm)]
  case dropResource m => rw [AMap.get_del_ne _ (fun e => h e.symm), AMap.get_del_ne _ (fun e => h e.symm)]

theorem dropTpl_at_ne (l : List (Template D × Option H)) {n u : Bytes} (h : u ≠ n) :
    (dropTpl l u).filter (fun t => t.1.uriTemplate = n) = l.filter (fun t => t.1.uriTemplate = n) := by
  unfold dropTpl
  rw [List.filter_filter]
  congr 1
  funext t
  by_cases e : t.1.uriTemplate = n
  · simp [e, h.symm]
  · simp [e]

theorem dropTpl_at_self (l : List (Template D × Option H)) (n : Bytes) :
    (dropTpl l n).filter (fun t => t.1.uriTemplate = n) = [] := by
  unfold dropTpl
  rw [List.filter_filter, List.filter_eq_nil_iff]
  intro t _
  simp

theorem templatesAt_step (n : Bytes) (s : Reg D H) (c : Bool × RegOp D H) (h : ¬ OnTemplate n c.2) : (s.step c).templatesAt n = s.templatesAt n := by
  obtain ⟨b, o⟩ := c
  cases o <;> simp only [OnTemplate] at h <;>
    simp only [Reg.step, Reg.templatesAt, notify_templates, Reg.addToolNamed, Reg.addTool, Reg.removeTool, Reg.addResource,
      Reg.removeResource, Reg.addPrompt, Reg.removePrompt, Reg.addTemplate, Reg.removeTemplate]
  case templateBare t => rw [List.filter_append, dropTpl_at_ne _ h]; simp [h]
  case template t x => rw [List.filter_append, dropTpl_at_ne _ h]; simp [h]
  case dropTemplate u => rw [dropTpl_at_ne _ h]

/-! ### Views and listings -/

/-- What a map keyed by `key` contains under `n`. -/
theorem map_filter_key {V : Type} {m : List (Bytes × V)} {key : V → Bytes} (hk : ∀ p ∈ m, key p.2 = p.1) (hn : (AMap.keys m).Nodup) (n : Bytes) :
    (m.map (·.2)).filter (fun v => key v = n) = (AMap.get m n).toList := by
  induction m with
  | nil => rfl
  | cons p m ih =>
    rw [AMap.keys, List.map_cons, List.nodup_cons] at hn
    have ih := ih (fun q hq => hk q (List.mem_cons_of_mem _ hq)) hn.2
    have hp := hk p (by simp)
    rw [List.map_cons, List.filter_cons, AMap.get_cons, hp, ih]
    by_cases e : p.1 = n
    · subst e
      have : AMap.get m p.1 = none := AMap.get_none_iff.2 hn.1
      simp [this]
    · simp [e]

theorem toolsAt_eq {s : Reg D H} (h : RInv s) (n : Bytes) : s.toolsAt n = (AMap.get s.toolMeta n).toList := map_filter_key h.tk h.tn n
theorem promptsAt_eq {s : Reg D H} (h : RInv s) (n : Bytes) : s.promptsAt n = (AMap.get s.promptMeta n).toList := map_filter_key h.pk h.pn n

/-- The resource listed for one uri, with the UI extension. -/
theorem visible_true (s : Reg D H) (h : RInv s) : s.visible true = s.resUris.filterMap (fun u => (AMap.get s.resMeta u).map shown) := by
  unfold Reg.visible
  congr 1
  funext u
  cases hg : AMap.get s.resMeta u with
  | none => rfl
  | some r =>
    have hk : r.uri = u := h.rk _ (AMap.get_some_mem hg)
    simp only [Option.map_some, if_true, shown, hk]
    by_cases hu : isUi u = true
    · rw [if_pos hu]
      cases hm : r.mimeType with
      | none => simp [hu]
      | some x => simp [hu]
    · rw [if_neg hu]; simp [hu]

theorem shown_uri (r : Resource D) : (shown r).uri = r.uri := by unfold shown; split <;> rfl

theorem resourcesAt_eq {s : Reg D H} (h : RInv s) (n : Bytes) : s.resourcesAt n = ((AMap.get s.resMeta n).map shown).toList := by
  unfold Reg.resourcesAt
  rw [visible_true s h]
  have hm : n ∉ s.resUris → AMap.get s.resMeta n = none := by
    intro hn
    have h1 := (mt (h.ru n).2 hn)
    rw [h.rs n] at h1
    cases hg : AMap.get s.resMeta n with
    | none => rfl
    | some _ => rw [hg] at h1; exact absurd rfl h1
  have key : ∀ l : List Bytes, l.Nodup → (l.filterMap (fun u => (AMap.get s.resMeta u).map shown)).filter (fun t => t.uri = n) =
      if n ∈ l then ((AMap.get s.resMeta n).map shown).toList else [] := by
    intro l hl
    induction l with
    | nil => rfl
    | cons u l ih =>
      rw [List.nodup_cons] at hl
      have ih := ih hl.2
      rw [List.filterMap_cons]
      cases hg : AMap.get s.resMeta u with
      | none =>
        simp only [Option.map_none]
        rw [ih]
        by_cases e : n = u
        · subst e
          rw [hg]
          simp
        · simp [e]
      | some r =>
        have hk : r.uri = u := h.rk _ (AMap.get_some_mem hg)
        simp only [Option.map_some]
        rw [List.filter_cons, ih, shown_uri, hk]
        by_cases e : n = u
        · subst e
          simp [hl.1, hg]
        · have e' : ¬ u = n := fun h => e h.symm
          simp [e, e']
  rw [key _ h.rn]
  split
  · rfl
  · rename_i hn; rw [hm hn]; rfl

end Verif.Server

namespace Verif

open Items Server

variable {D H : Type}

/-- **C33.** Tools. If the last call about a name registered the tool `t` with the handler `x`, then exactly `t` is listed under that name,
once, and calls go to `x`. If the last call unregistered it, or no call was about it, nothing is listed and no handler is found. -/
theorem C33_tools (ops : List (Bool × RegOp D H)) (n : Bytes) :
    (∀ t x, Last (OnTool n) ops (.tool t x) → (Reg.init.run ops).toolsAt n = [t] ∧ AMap.get (Reg.init.run ops).toolHandlers n = some x) ∧
    (Last (OnTool n) ops (.dropTool n) ∨ Never (OnTool n) ops →
      (Reg.init.run ops).toolsAt n = [] ∧ AMap.get (Reg.init.run ops).toolHandlers n = none) := by
  have hi : RInv (Reg.init.run ops) := rinv_run rinv_init
  rw [toolsAt_eq hi]
  constructor
  · intro t x h
    have hn : t.name = n := h.choose_spec.choose_spec.choose_spec.2.1
    obtain ⟨s, b, _, e⟩ := run_last (toolView_step n) h
    have e1 := congrArg Prod.fst e
    have e2 := congrArg Prod.snd e
    simp only [toolView] at e1 e2
    rw [e1, e2]
    subst hn
    simp [Reg.step, notify_toolHandlers, notify_toolMeta, Reg.addTool, AMap.get_put_self]
  · rintro (h | h)
    · obtain ⟨s, b, _, e⟩ := run_last (toolView_step n) h
      have e1 := congrArg Prod.fst e
      have e2 := congrArg Prod.snd e
      simp only [toolView] at e1 e2
      rw [e1, e2]
      simp [Reg.step, notify_toolHandlers, notify_toolMeta, Reg.removeTool, AMap.get_del_self]
    · have e := run_never (toolView_step n) (s := Reg.init) h
      have e1 := congrArg Prod.fst e
      have e2 := congrArg Prod.snd e
      simp only [toolView] at e1 e2
      rw [e1, e2]
      exact ⟨rfl, rfl⟩

/-- **C33.** A tool registered by name and handler only: the handler is the new one; the metadata stay those listed before the call if
there were any, and are made up from the name otherwise. -/
theorem C33_tools_named (pre post : List (Bool × RegOp D H)) (b : Bool) (n : Bytes) (x : H) (hp : Never (OnTool n) post) :
    let s := (Reg.init : Reg D H).run (pre ++ (b, .toolNamed n x) :: post)
    AMap.get s.toolHandlers n = some x ∧
    (∀ t, (Reg.init.run pre).toolsAt n = [t] → s.toolsAt n = [t]) ∧
    ((Reg.init.run pre).toolsAt n = [] → s.toolsAt n = [defaultTool n]) := by
  intro s
  have hi : RInv s := rinv_run rinv_init
  have hq : RInv (Reg.init.run pre : Reg D H) := rinv_run rinv_init
  have e : toolView n s = toolView n ((Reg.init.run pre).step (b, .toolNamed n x)) := by
    show toolView n (Reg.init.run (pre ++ (b, .toolNamed n x) :: post)) = _
    rw [run_append, run_cons, run_never (toolView_step n) hp]
  have e1 := congrArg Prod.fst e
  have e2 := congrArg Prod.snd e
  simp only [toolView] at e1 e2
  rw [toolsAt_eq hi, toolsAt_eq hq, e1, e2]
  simp only [Reg.step, notify_toolHandlers, notify_toolMeta, Reg.addToolNamed, AMap.get_put_self]
  refine ⟨trivial, ?_, ?_⟩
  · intro t ht
    cases hg : AMap.get (Reg.init.run pre : Reg D H).toolMeta n with
    | none => rw [hg] at ht; cases ht
    | some t' => rw [hg] at ht; simp only [hg]; exact ht
  · intro ht
    cases hg : AMap.get (Reg.init.run pre : Reg D H).toolMeta n with
    | none => simp [AMap.get_put_self]
    | some t' => rw [hg] at ht; cases ht

/-- **C33.** Prompts. Both forms of registration replace handler and metadata. -/
theorem C33_prompts (ops : List (Bool × RegOp D H)) (n : Bytes) :
    (∀ t x, Last (OnPrompt n) ops (.prompt t x) → (Reg.init.run ops).promptsAt n = [t] ∧ AMap.get (Reg.init.run ops).promptHandlers n = some x) ∧
    (∀ x, Last (OnPrompt n) ops (.promptNamed n x) →
      (Reg.init.run ops).promptsAt n = [defaultPrompt n] ∧ AMap.get (Reg.init.run ops).promptHandlers n = some x) ∧
    (Last (OnPrompt n) ops (.dropPrompt n) ∨ Never (OnPrompt n) ops →
      (Reg.init.run ops).promptsAt n = [] ∧ AMap.get (Reg.init.run ops).promptHandlers n = none) := by
  have hi : RInv (Reg.init.run ops) := rinv_run rinv_init
  rw [promptsAt_eq hi]
  refine ⟨?_, ?_, ?_⟩
  · intro t x h
    have hn : t.name = n := h.choose_spec.choose_spec.choose_spec.2.1
    obtain ⟨s, b, _, e⟩ := run_last (promptView_step n) h
    have e1 := congrArg Prod.fst e
    have e2 := congrArg Prod.snd e
    simp only [promptView] at e1 e2
    rw [e1, e2]
    subst hn
    simp [Reg.step, notify_promptHandlers, notify_promptMeta, Reg.addPrompt, AMap.get_put_self]
  · intro x h
    obtain ⟨s, b, _, e⟩ := run_last (promptView_step n) h
    have e1 := congrArg Prod.fst e
    have e2 := congrArg Prod.snd e
    simp only [promptView] at e1 e2
    rw [e1, e2]
    simp [Reg.step, notify_promptHandlers, notify_promptMeta, Reg.addPrompt, defaultPrompt, AMap.get_put_self]
  · rintro (h | h)
    · obtain ⟨s, b, _, e⟩ := run_last (promptView_step n) h
      have e1 := congrArg Prod.fst e
      have e2 := congrArg Prod.snd e
      simp only [promptView] at e1 e2
      rw [e1, e2]
      simp [Reg.step, notify_promptHandlers, notify_promptMeta, Reg.removePrompt, AMap.get_del_self]
    · have e := run_never (promptView_step n) (s := Reg.init) h
      have e1 := congrArg Prod.fst e
      have e2 := congrArg Prod.snd e
      simp only [promptView] at e1 e2
      rw [e1, e2]
      exact ⟨rfl, rfl⟩

/-- **C33.** Resources. What is listed is the registered resource (`shown` fills in the MIME type of `ui://` resources that have none). -/
theorem C33_resources (ops : List (Bool × RegOp D H)) (n : Bytes) :
    (∀ t x, Last (OnResource n) ops (.resource t x) → (Reg.init.run ops).resourcesAt n = [shown t] ∧ AMap.get (Reg.init.run ops).resHandlers n = some x) ∧
    (∀ x, Last (OnResource n) ops (.resourceNamed n x) →
      (Reg.init.run ops).resourcesAt n = [shown (defaultResource n)] ∧ AMap.get (Reg.init.run ops).resHandlers n = some x) ∧
    (Last (OnResource n) ops (.dropResource n) ∨ Never (OnResource n) ops →
      (Reg.init.run ops).resourcesAt n = [] ∧ AMap.get (Reg.init.run ops).resHandlers n = none) := by
  have hi : RInv (Reg.init.run ops) := rinv_run rinv_init
  rw [resourcesAt_eq hi]
  refine ⟨?_, ?_, ?_⟩
  · intro t x h
    have hn : t.uri = n := h.choose_spec.choose_spec.choose_spec.2.1
    obtain ⟨s, b, _, e⟩ := run_last (resView_step n) h
    have e1 := congrArg Prod.fst e
    have e2 := congrArg Prod.snd e
    simp only [resView] at e1 e2
    rw [e1, e2]
    subst hn
    simp [Reg.step, notify_resHandlers, notify_resMeta, Reg.addResource, AMap.get_put_self]
  · intro x h
    obtain ⟨s, b, _, e⟩ := run_last (resView_step n) h
    have e1 := congrArg Prod.fst e
    have e2 := congrArg Prod.snd e
    simp only [resView] at e1 e2
    rw [e1, e2]
    simp [Reg.step, notify_resHandlers, notify_resMeta, Reg.addResource, defaultResource, AMap.get_put_self]
  · rintro (h | h)
    · obtain ⟨s, b, _, e⟩ := run_last (resView_step n) h
      have e1 := congrArg Prod.fst e
      have e2 := congrArg Prod.snd e
      simp only [resView] at e1 e2
      rw [e1, e2]
      simp [Reg.step, notify_resHandlers, notify_resMeta, Reg.removeResource, AMap.get_del_self]
    · have e := run_never (resView_step n) (s := Reg.init) h
      have e1 := congrArg Prod.fst e
      have e2 := congrArg Prod.snd e
      simp only [resView] at e1 e2
      rw [e1, e2]
      exact ⟨rfl, rfl⟩

/-- **C33.** Resource templates; a template is stored together with its handler, which the plain form of registration removes. -/
theorem C33_templates (ops : List (Bool × RegOp D H)) (n : Bytes) :
    (∀ t x, Last (OnTemplate n) ops (.template t x) → (Reg.init.run ops).templatesAt n = [(t, some x)]) ∧
    (∀ t, Last (OnTemplate n) ops (.templateBare t) → (Reg.init.run ops).templatesAt n = [(t, none)]) ∧
    (Last (OnTemplate n) ops (.dropTemplate n) ∨ Never (OnTemplate n) ops → (Reg.init.run ops).templatesAt n = []) := by
  refine ⟨?_, ?_, ?_⟩
  · intro t x h
    have hn : t.uriTemplate = n := h.choose_spec.choose_spec.choose_spec.2.1
    obtain ⟨s, b, _, e⟩ := run_last (view := fun s => s.templatesAt n) (templatesAt_step n) h
    rw [e]
    subst hn
    simp [Reg.step, Reg.templatesAt, notify_templates, Reg.addTemplate, dropTpl_at_self]
  · intro t h
    have hn : t.uriTemplate = n := h.choose_spec.choose_spec.choose_spec.2.1
    obtain ⟨s, b, _, e⟩ := run_last (view := fun s => s.templatesAt n) (templatesAt_step n) h
    rw [e]
    subst hn
    simp [Reg.step, Reg.templatesAt, notify_templates, Reg.addTemplate, dropTpl_at_self]
  · rintro (h | h)
    · obtain ⟨s, b, _, e⟩ := run_last (view := fun s => s.templatesAt n) (templatesAt_step n) h
      rw [e]
      simp [Reg.step, Reg.templatesAt, notify_templates, Reg.removeTemplate, dropTpl_at_self]
    · have e := run_never (view := fun s => s.templatesAt n) (templatesAt_step n) (s := Reg.init) h
      rw [e]
      rfl

/-- The hypotheses of the theorems above are met, among others, by a registration that replaces an earlier one. -/
example (t u : Tool Empty) (h : t.name = lit "a") (hu : u.name = lit "b") :
    Last (OnTool (lit "a")) [(true, .toolNamed (lit "a") 1), (true, .tool t 2), (false, .tool u 3)] (.tool t 2) := by
  refine ⟨[(true, .toolNamed (lit "a") 1)], true, [(false, .tool u 3)], rfl, h, ?_⟩
  intro p hp
  rw [List.mem_singleton.1 hp]
  show ¬ (u.name = lit "a")
  rw [hu]
  decide

/-- **C33.** The list of every kind holds each name once, whatever the calls were. -/
theorem C33_listed_once (ops : List (Bool × RegOp D H)) :
    ((Reg.init.run ops).tools.map (·.name)).Nodup ∧ ((Reg.init.run ops).prompts.map (·.name)).Nodup ∧
    (∀ ui, (((Reg.init.run ops).visible ui).map (·.uri)).Nodup) ∧ ((Reg.init.run ops).templateList.map (·.uriTemplate)).Nodup := by
  have h : RInv (Reg.init.run ops) := rinv_run rinv_init
  have km : ∀ {V : Type} {m : List (Bytes × V)} {key : V → Bytes}, (∀ p ∈ m, key p.2 = p.1) → (m.map (·.2)).map key = AMap.keys m := by
    intro V m key hk
    rw [List.map_map]
    exact List.map_congr_left (fun p hp => hk p hp)
  refine ⟨?_, ?_, ?_, ?_⟩
  · rw [Reg.tools, km h.tk]; exact h.tn
  · rw [Reg.prompts, km h.pk]; exact h.pn
  · intro ui
    have key : ∀ l : List Bytes, ∀ f : Bytes → Option (Resource D), (∀ u r, f u = some r → r.uri = u) →
        ((l.filterMap f).map (·.uri)).Sublist l := by
      intro l f hf
      induction l with
      | nil => exact List.Sublist.slnil
      | cons u l ih =>
        rw [List.filterMap_cons]
        cases hu : f u with
        | none => exact ih.cons _
        | some r =>
          simp only [List.map_cons]
          rw [hf u r hu]
          exact ih.cons₂ _
    refine h.rn.sublist (key _ _ ?_)
    intro u r hr
    cases hg : AMap.get (Reg.init.run ops).resMeta u with
    | none => rw [hg] at hr; cases hr
    | some r' =>
      have hk : r'.uri = u := h.rk _ (AMap.get_some_mem hg)
      rw [hg] at hr
      simp only at hr
      split at hr
      · split at hr
        · cases hr
          cases r'.mimeType <;> exact hk
        · cases hr
      · cases hr; exact hk
  · rw [Reg.templateList, List.map_map]
    exact h.mn

/-- **C63.** The announcements: one `list_changed` of the right kind for every change made while connected, in order, and nothing else. -/
theorem C63_changes_announced (ops : List (Bool × RegOp D H)) :
    (Reg.init.run ops).notes = (ops.filter (·.1)).map (fun c => kindOf c.2) := by
  have key : ∀ s : Reg D H, (s.run ops).notes = s.notes ++ (ops.filter (·.1)).map (fun c => kindOf c.2) := by
    induction ops with
    | nil => intro s; simp [Reg.run]
    | cons c ops ih =>
      intro s
      rw [run_cons, ih]
      obtain ⟨b, o⟩ := c
      have hn : (s.step (b, o)).notes = s.notes ++ (if b then [kindOf o] else []) := by
        cases b <;> cases o <;> simp [Reg.step, Reg.notify, kindOf, Reg.addToolNamed, Reg.addTool, Reg.removeTool, Reg.addResource,
          Reg.removeResource, Reg.addPrompt, Reg.removePrompt, Reg.addTemplate, Reg.removeTemplate]
      rw [hn]
      cases b <;> simp
  rw [key Reg.init]
  rfl

example : (ops : List (Bool × RegOp Empty Nat)) → ops = [(true, .toolNamed (lit "a") 1), (false, .dropTool (lit "a")), (true, .dropPrompt (lit "b"))] →
    (ops.filter (·.1)).map (fun c => kindOf c.2) = [Note.tools, Note.prompts] := by
  rintro _ rfl; rfl

end Verif
