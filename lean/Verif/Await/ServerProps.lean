import Verif.Await.Held
import Verif.Await.ServerCalls
import Verif.Await.LifeProps

/-!
Claim C113: what a server gets from the calls it makes to its client, what it asks for, and what the calls need to be there.
-/

namespace Verif

open Client Validation Await
open Server hiding Ends
open Caps hiding Obj

variable {D : Type}

abbrev SOp (D : Type) := Op (SSelf D) (SReq D) (Outcome D) (SOut D)
abbrev SSys (D : Type) := Sys (SSelf D) (SReq D) (Outcome D) (SOut D)
abbrev SCall (D : Type) := Await.Call (SSelf D) (SReq D) (Outcome D) (SOut D)
abbrev SEv (D : Type) := Ev (SSelf D) (SReq D) (Outcome D)

/-! ### What is said of the calls -/

/-- What a call gives without asking the client, if it does not ask: with no transport, for a client that did not announce what is asked
for, or with parameters that are not of the documented shape. -/
def declined (transport : Bool) (c : ClientCaps D) (strict : Bool) : SApi D → Option (SOut D)
  | .roots => if transport ∧ c.roots ≠ none then none else some (.val (.roots []))
  | .sample _ _ => if transport then none else some (.val (.json .null))
  | .sampleTask _ _ => if transport ∧ ∃ t, c.tasks = some t ∧ t.createMessage = true then none else some .threw
  | .elicit r =>
    if transport ∧ c.elicitation ≠ none then
      if strict ∧ validateElicitationRequest (.obj (elicitParams r)) = false then some .threw else none
    else some (.val (.elicited ⟨[], none, none⟩))
  | .elicitTask r ttl =>
    if transport ∧ ∃ t, c.tasks = some t ∧ t.elicitationCreate = true then
      if strict ∧ validateElicitationRequest (withTask (elicitParams r) ttl) = false then some .threw else none
    else some .threw
  | .ping => if transport then none else some (.val .nothing)
  | _ => if transport then none else some .crash

/-- The request of a call. -/
def enquiry : SApi D → SReq D
  | .roots => ⟨none, lit "roots/list", none⟩
  | .sample p id => ⟨id, lit "sampling/createMessage", some (.obj (sampleParams p))⟩
  | .sampleTask p none => ⟨none, lit "sampling/createMessage", some (.obj (sampleParams p ++ [(lit "task", .obj [])]))⟩
  | .sampleTask p (some t) => ⟨none, lit "sampling/createMessage", some (.obj (sampleParams p ++ [(lit "task", .obj [(lit "ttl", .int t)])]))⟩
  | .elicit r => ⟨none, lit "elicitation/create", some (.obj (elicitParams r))⟩
  | .elicitTask r none => ⟨none, lit "elicitation/create", some (.obj (elicitParams r ++ [(lit "task", .obj [])]))⟩
  | .elicitTask r (some t) => ⟨none, lit "elicitation/create", some (.obj (elicitParams r ++ [(lit "task", .obj [(lit "ttl", .int t)])]))⟩
  | .ping => ⟨none, lit "ping", none⟩
  | .callToolTask name args none => ⟨none, lit "tools/call", some (.obj [(lit "name", .str name), (lit "arguments", args), (lit "task", .obj [])])⟩
  | .callToolTask name args (some t) =>
    ⟨none, lit "tools/call", some (.obj [(lit "name", .str name), (lit "arguments", args), (lit "task", .obj [(lit "ttl", .int t)])])⟩
  | .getTask id => ⟨none, lit "tasks/get", some (.obj [(lit "taskId", .str id)])⟩
  | .cancelTask id => ⟨none, lit "tasks/cancel", some (.obj [(lit "taskId", .str id)])⟩
  | .taskResult id => ⟨none, lit "tasks/result", some (.obj [(lit "taskId", .str id)])⟩
  | .listTasks => ⟨none, lit "tasks/list", none⟩
  | .listTasksPaged c l => ⟨none, lit "tasks/list", asked c l⟩

/-- A value, or an exception. -/
def orThrew {T : Type} (f : T → SVal D) : Option T → SOut D
  | some t => .val (f t)
  | none => .threw

/-- What a call makes of the answer to its request, in a mode and, for `GetTaskResult`, for a kind of task. -/
def reports (strict : Bool) (kind : Option Tasks.Kind) : SApi D → Outcome D → SOut D
  | .roots, o => orThrew .roots (rootsOf strict o)
  | .sample _ _, o => .val (.json (sampleOf o))
  | .sampleTask _ _, o => orThrew (fun p => .created p.1 p.2) (Client.sampleTask strict [] o).toOption
  | .elicit _, o => orThrew .elicited (elicitResOf strict o)
  | .elicitTask _ _, o => orThrew (fun p => .created p.1 p.2) (Client.elicitTask strict [] o).toOption
  | .ping, o => if Client.ping strict o then .val .nothing else .threw
  | .callToolTask _ _ _, o => orThrew (fun p => .created p.1 p.2) (Client.callToolTask strict [] o).toOption
  | .getTask _, o => orThrew .task (Client.getTask strict [] o).toOption
  | .cancelTask _, o => orThrew .task (Client.cancelTask strict [] o).toOption
  | .taskResult _, o => orThrew .json (Client.taskResult strict kind o)
  | .listTasks, o => orThrew (fun p => .tasks p.1) (Client.listTasks strict [] o).toOption
  | .listTasksPaged _ _, o => orThrew .taskPage (Client.listTasks strict [] o).toOption

/-- Only calls of the server are made, and nothing changes its transport, its mode or what it knows of the client. -/
def Unaltered : SOp D → Prop
  | .call b => ∃ api, b = sbody api
  | .change u => ∀ s, (u s).transport = s.transport ∧ (u s).caps = s.caps ∧ (u s).strict = s.strict
  | _ => True

/-! ### What the bodies keep -/

theorem keepsP_smode {P : SSelf D → Prop} (c : Bool) (k : Bool → SBody D) (h : ∀ b, KeepsP P (k b)) : KeepsP P (smode c k) := by
  unfold smode
  split
  · exact ⟨fun _ h => h, fun _ => h _⟩
  · exact h _

theorem keepsP_sgive {P : SSelf D → Prop} {T : Type} (f : T → SVal D) (t : Option T) : KeepsP P (sgive f t) := by cases t <;> trivial

theorem keepsP_send {P : SSelf D → Prop} (q : SReq D) (k : Outcome D → SBody D) (h : ∀ o, KeepsP P (k o)) : KeepsP P (send q k) := by
  refine ⟨fun _ h => h, fun s => ?_⟩
  dsimp only
  split
  · exact h
  · trivial

theorem keepsP_gate {P : SSelf D → Prop} (c : SSelf D → Bool) (no : SOut D) (k : SBody D) (h : KeepsP P k) :
    KeepsP P (.own id fun s => if c s then k else .ret no) := by
  refine ⟨fun _ h => h, fun s => ?_⟩
  dsimp only
  split
  · exact h
  · trivial

theorem keepsP_fitting {P : SSelf D → Prop} (v : JVal D) (k : SBody D) (h : KeepsP P k) : KeepsP P (fitting v k) := by
  refine ⟨fun _ h => h, fun s => ?_⟩
  dsimp only
  split
  · trivial
  · exact h

/-- The kind of task a call makes. -/
def makes : SApi D → Option Tasks.Kind
  | .sampleTask _ _ => some .createMessage
  | .elicitTask _ _ => some .elicitation
  | .callToolTask _ _ _ => some .toolCall
  | _ => none

theorem keepsP_sbody {P : SSelf D → Prop} (api : SApi D) (hP : ∀ k, makes api = some k → ∀ id s, P s → P (sremember id k s)) : KeepsP P (sbody api) := by
  have created : ∀ k, makes api = some k → ∀ e, KeepsP P (screated k e : SBody D) := by
    intro k hk e
    cases e with
    | error e => trivial
    | ok p => exact ⟨fun s h => hP k hk _ s h, fun _ => trivial⟩
  cases api with
  | roots => exact keepsP_gate _ _ _ (keepsP_gate (fun s => s.caps.roots.isSome) _ _ (keepsP_send _ _ fun o => keepsP_smode _ _ fun b => keepsP_sgive _ _))
  | sample p id => exact keepsP_gate _ _ _ (keepsP_send _ _ fun o => trivial)
  | sampleTask p ttl => exact keepsP_gate _ _ _ (keepsP_gate (fun s => samplesTasks s.caps) _ _ (keepsP_send _ _ fun o => keepsP_smode _ _ fun b => created _ rfl _))
  | elicit r =>
    exact keepsP_gate _ _ _ (keepsP_gate (fun s => s.caps.elicitation.isSome) _ _ (keepsP_fitting _ _ (keepsP_send _ _ fun o => keepsP_smode _ _ fun b => keepsP_sgive _ _)))
  | elicitTask r ttl =>
    exact keepsP_gate _ _ _ (keepsP_gate (fun s => elicitsTasks s.caps) _ _ (keepsP_fitting _ _ (keepsP_send _ _ fun o => keepsP_smode _ _ fun b => created _ rfl _)))
  | ping =>
    refine keepsP_gate _ _ _ (keepsP_send _ _ fun o => keepsP_smode _ _ fun b => ?_)
    split <;> trivial
  | callToolTask name args ttl => exact keepsP_send _ _ fun o => keepsP_smode _ _ fun b => created _ rfl _
  | getTask id => exact keepsP_send _ _ fun o => keepsP_smode _ _ fun b => keepsP_sgive _ _
  | cancelTask id => exact keepsP_send _ _ fun o => keepsP_smode _ _ fun b => keepsP_sgive _ _
  | taskResult id =>
    refine keepsP_send _ _ fun o => ?_

    split
    · exact ⟨fun _ h => h, fun _ => ⟨fun _ h => h, fun _ => keepsP_sgive _ _⟩⟩
    · exact keepsP_sgive _ _
  | listTasks => exact keepsP_send _ _ fun o => keepsP_smode _ _ fun b => keepsP_sgive _ _
  | listTasksPaged c l => exact keepsP_send _ _ fun o => keepsP_smode _ _ fun b => keepsP_sgive _ _

/-- Transport, mode and capabilities are these. -/
def Same (s0 s : SSelf D) : Prop := s.transport = s0.transport ∧ s.caps = s0.caps ∧ s.strict = s0.strict

theorem same_sremember (s0 s : SSelf D) (id : Bytes) (k : Tasks.Kind) (h : Same s0 s) : Same s0 (sremember id k s) := by
  unfold sremember
  split
  · exact h
  · exact h

theorem unaltered_keeps (s0 : SSelf D) (op : SOp D) (h : Unaltered op) : OpKeeps (Same s0) op := by
  cases op with
  | call b => obtain ⟨api, rfl⟩ := h; exact keepsP_sbody api fun k _ id s hs => same_sremember s0 s id k hs
  | change u => exact fun s hs => ⟨(h s).1.trans hs.1, (h s).2.1.trans hs.2.1, (h s).2.2.trans hs.2.2⟩
  | _ => trivial

/-! ### What a finished call has done -/

/-- A later part of a path. -/
def Later (rest path : List (SEv D)) : Prop := (∀ e ∈ rest, e ∈ path) ∧ sentOf path = sentOf rest

theorem Later.refl (p : List (SEv D)) : Later p p := ⟨fun _ h => h, rfl⟩
theorem Later.saw {p : List (SEv D)} {s : SSelf D} {rest : List (SEv D)} (h : Later (.saw s :: rest) p) : Later rest p :=
  ⟨fun e he => h.1 e (List.mem_cons_of_mem _ he), h.2⟩

theorem ends_gate {c : SSelf D → Bool} {no : SOut D} {k : SBody D} {evs path : List (SEv D)} {r : SOut D}
    (h : Ends (.own id fun s => if c s then k else .ret no : SBody D) evs r) (hl : Later evs path) :
    ∃ s, Ev.saw s ∈ path ∧ ((c s = true ∧ ∃ rest, Ends k rest r ∧ Later rest path) ∨ (c s = false ∧ sentOf path = [] ∧ r = no)) := by
  obtain ⟨s, rest, rfl, h⟩ := h
  refine ⟨s, hl.1 _ List.mem_cons_self, ?_⟩
  dsimp only at h
  split at h
  · rename_i hc; exact .inl ⟨hc, rest, h, hl.saw⟩
  · rename_i hc
    obtain ⟨rfl, rfl⟩ := h
    exact .inr ⟨by simpa using hc, hl.2, rfl⟩

theorem ends_send {q : SReq D} {k : Outcome D → SBody D} {evs path : List (SEv D)} {r : SOut D} (h : Ends (send q k) evs r) (hl : Later evs path) :
    ∃ s, Ev.saw s ∈ path ∧
      ((s.transport = true ∧ ∃ c o rest, Ev.sent c q ∈ path ∧ Ev.got c o ∈ path ∧ sentOf path = c :: sentOf rest ∧ (∀ e ∈ rest, e ∈ path) ∧ Ends (k o) rest r) ∨
        (s.transport = false ∧ sentOf path = [] ∧ r = .crash)) := by
  obtain ⟨s, rest, rfl, h⟩ := h
  refine ⟨s, hl.1 _ List.mem_cons_self, ?_⟩
  dsimp only at h
  split at h
  · rename_i hc
    obtain ⟨c, o, rest', rfl, h⟩ := h
    exact .inl ⟨hc, c, o, rest', hl.1 _ (by simp), hl.1 _ (by simp), hl.2, fun e he => hl.1 e (by simp [he]), h⟩
  · rename_i hc
    obtain ⟨rfl, rfl⟩ := h
    exact .inr ⟨by simpa using hc, hl.2, rfl⟩

theorem ends_smode {s0 : SSelf D} {c : Bool} {g : Bool → SBody D} {evs path : List (SEv D)} {r : SOut D} (h : Ends (smode c g) evs r) (hsub : ∀ e ∈ evs, e ∈ path)
    (hs : ∀ s', Ev.saw s' ∈ path → Same s0 s') : ∃ rest, sentOf evs = sentOf rest ∧ (∀ e ∈ rest, e ∈ path) ∧
      ((c = true ∧ Ends (g s0.strict) rest r) ∨ (c = false ∧ Ends (g false) rest r)) := by
  unfold smode at h
  cases c with
  | true =>
    rw [if_pos rfl] at h
    obtain ⟨s, rest, rfl, h⟩ := h
    dsimp only at h
    rw [(hs s (hsub _ List.mem_cons_self)).2.2] at h
    exact ⟨rest, rfl, fun e he => hsub e (List.mem_cons_of_mem _ he), .inl ⟨rfl, h⟩⟩
  | false =>
    rw [if_neg (by simp)] at h
    exact ⟨evs, rfl, hsub, .inr ⟨rfl, h⟩⟩

theorem ends_sgive {T : Type} {f : T → SVal D} {t : Option T} {evs : List (SEv D)} {r : SOut D} (h : Ends (sgive f t) evs r) : evs = [] ∧ r = orThrew f t := by
  cases t with
  | none => exact ⟨h.1, h.2.symm⟩
  | some t => exact ⟨h.1, h.2.symm⟩

theorem ends_screated {k : Tasks.Kind} {e : Except Bytes (Tasks.Task × Option (JVal D))} {evs : List (SEv D)} {r : SOut D} (h : Ends (screated k e : SBody D) evs r) :
    sentOf evs = [] ∧ r = orThrew (fun p => .created p.1 p.2) e.toOption := by
  cases e with
  | error e => obtain ⟨rfl, rfl⟩ := h; exact ⟨rfl, rfl⟩
  | ok p => obtain ⟨s, rest, rfl, rfl, rfl⟩ := h; exact ⟨rfl, rfl⟩

/-- What a finished call has done, and what it gives. -/
def Heard (s0 : SSelf D) (api : SApi D) (path : List (SEv D)) (r : SOut D) : Prop :=
  (declined s0.transport s0.caps s0.strict api = some r ∧ sentOf path = []) ∨
    (declined s0.transport s0.caps s0.strict api = none ∧
      ∃ c o kind, sentOf path = [c] ∧ Ev.sent c (enquiry api) ∈ path ∧ Ev.got c o ∈ path ∧ r = reports s0.strict kind api o ∧
        ∀ id, api = .taskResult id → hasResult o = true → ∃ s', Ev.saw s' ∈ path ∧ kind = s'.kinds id)

theorem heard_send {s0 : SSelf D} {api : SApi D} {q : SReq D} {k : Outcome D → SBody D} {evs path : List (SEv D)} {r : SOut D}
    (h : Ends (send q k) evs r) (hl : Later evs path) (hs : ∀ s', Ev.saw s' ∈ path → Same s0 s') (hq : q = enquiry api) (hn : ∀ id, api ≠ .taskResult id)
    (h1 : s0.transport = true → declined s0.transport s0.caps s0.strict api = none)
    (h2 : s0.transport = false → declined s0.transport s0.caps s0.strict api = some .crash)
    (hk : ∀ o rest, (∀ e ∈ rest, e ∈ path) → Ends (k o) rest r → sentOf rest = [] ∧ r = reports s0.strict none api o) : Heard s0 api path r := by
  obtain ⟨s, hsaw, ⟨ht, c, o, rest, a1, a2, a3, a4, a5⟩ | ⟨ht, a1, rfl⟩⟩ := ends_send h hl
  · rw [(hs s hsaw).1] at ht
    obtain ⟨b1, b2⟩ := hk o rest a4 a5
    exact .inr ⟨h1 ht, c, o, none, by rw [a3, b1], hq ▸ a1, a2, b2, fun id hid => absurd hid (hn id)⟩
  · rw [(hs s hsaw).1] at ht
    exact .inl ⟨h2 ht, a1⟩

/-- A continuation that reads the mode and returns. -/
theorem heard_simple {s0 : SSelf D} {api : SApi D} {o : Outcome D} {path : List (SEv D)} {r : SOut D} {g : Bool → SBody D} {v : Bool → SOut D}
    (hs : ∀ s', Ev.saw s' ∈ path → Same s0 s') (hg : ∀ b rest, Ends (g b) rest r → sentOf rest = [] ∧ r = v b)
    (hv : v s0.strict = reports s0.strict none api o) (hf : hasResult o = false → v s0.strict = v false) (rest : List (SEv D))
    (hr : ∀ e ∈ rest, e ∈ path) (h : Ends (smode (hasResult o) g) rest r) : sentOf rest = [] ∧ r = reports s0.strict none api o := by
  obtain ⟨rest', e1, _, ⟨_, e2⟩ | ⟨hc, e2⟩⟩ := ends_smode h hr hs
  · obtain ⟨x, y⟩ := hg _ _ e2
    exact ⟨e1.trans x, y.trans hv⟩
  · obtain ⟨x, y⟩ := hg _ _ e2
    exact ⟨e1.trans x, y.trans ((hf hc).symm.trans hv)⟩

theorem hg_give {T : Type} {f : T → SVal D} {t : Bool → Option T} {r : SOut D} :
    ∀ (b : Bool) (rest : List (SEv D)), Ends (sgive f (t b)) rest r → sentOf rest = [] ∧ r = orThrew f (t b) := by
  intro b rest h
  obtain ⟨rfl, h'⟩ := ends_sgive h
  exact ⟨rfl, h'⟩

theorem hg_created {k : Tasks.Kind} {t : Bool → Except Bytes (Tasks.Task × Option (JVal D))} {r : SOut D} :
    ∀ (b : Bool) (rest : List (SEv D)), Ends (screated k (t b) : SBody D) rest r → sentOf rest = [] ∧ r = orThrew (fun p => .created p.1 p.2) (t b).toOption :=
  fun _ _ h => ends_screated h

theorem rootsOf_free (strict : Bool) (o : Outcome D) (h : hasResult o = false) : rootsOf strict o = rootsOf false o := by
  cases o with
  | threw => rfl
  | nul => rfl
  | resp r =>
    obtain ⟨i, res, err⟩ := r
    cases err <;> cases res <;> first | rfl | cases h

theorem elicitResOf_free (strict : Bool) (o : Outcome D) (h : hasResult o = false) : elicitResOf strict o = elicitResOf false o := by
  cases o with
  | threw => rfl
  | nul => rfl
  | resp r =>
    obtain ⟨i, res, err⟩ := r
    cases err <;> cases res <;> first | rfl | cases h

theorem heard (s0 : SSelf D) (api : SApi D) (path : List (SEv D)) (r : SOut D) (h : Ends (sbody api) path r)
    (hs : ∀ s', Ev.saw s' ∈ path → Same s0 s') : Heard s0 api path r := by
  have hl := Later.refl path
  cases api with
  | roots =>
    obtain ⟨s, m, ⟨c1, rest, h, hl⟩ | ⟨c1, e, rfl⟩⟩ := ends_gate h hl
    · rw [(hs s m).1] at c1
      obtain ⟨s, m, ⟨c2, rest, h, hl⟩ | ⟨c2, e, rfl⟩⟩ := ends_gate (c := fun s => s.caps.roots.isSome) h hl
      · rw [(hs s m).2.1] at c2
        have c2' : s0.caps.roots ≠ none := fun hh => by rw [hh] at c2; cases c2
        exact heard_send h hl hs rfl (by simp) (fun _ => by simp [declined, c1, c2']) (fun hf => by rw [hf] at c1; cases c1)
          fun o rest hr h => heard_simple hs (hg_give (t := fun b => rootsOf b o)) rfl (fun hc => by rw [rootsOf_free _ o hc]) rest hr h
      · rw [(hs s m).2.1] at c2
        have c2' : s0.caps.roots = none := by cases hh : s0.caps.roots with | none => rfl | some b => rw [hh] at c2; cases c2
        exact .inl ⟨by simp [declined, c2'], e⟩
    · rw [(hs s m).1] at c1
      exact .inl ⟨by simp [declined, c1], e⟩
  | sample p id =>
    obtain ⟨s, m, ⟨c1, rest, h, hl⟩ | ⟨c1, e, rfl⟩⟩ := ends_gate h hl
    · rw [(hs s m).1] at c1
      exact heard_send h hl hs rfl (by simp) (fun _ => by simp [declined, c1]) (fun hf => by rw [hf] at c1; cases c1)
        fun o rest hr h => by obtain ⟨rfl, rfl⟩ := h; exact ⟨rfl, rfl⟩
    · rw [(hs s m).1] at c1
      exact .inl ⟨by simp [declined, c1], e⟩
  | sampleTask p ttl =>
    obtain ⟨s, m, ⟨c1, rest, h, hl⟩ | ⟨c1, e, rfl⟩⟩ := ends_gate h hl
    · rw [(hs s m).1] at c1
      obtain ⟨s, m, ⟨c2, rest, h, hl⟩ | ⟨c2, e, rfl⟩⟩ := ends_gate (c := fun s => samplesTasks s.caps) h hl
      · rw [(hs s m).2.1] at c2
        have c2' : ∃ t, s0.caps.tasks = some t ∧ t.createMessage = true := by
          unfold samplesTasks at c2
          split at c2
          · rename_i t ht; exact ⟨t, ht, c2⟩
          · cases c2
        exact heard_send h hl hs (by cases ttl <;> rfl) (by simp) (fun _ => by simp only [declined]; rw [if_pos ⟨c1, c2'⟩]) (fun hf => by rw [hf] at c1; cases c1)
          fun o rest hr h => heard_simple hs (hg_created (t := fun b => Client.sampleTask b [] o)) rfl
            (fun hc => by unfold Client.sampleTask; rw [strictCall_free _ _ _ _ _ _ o hc]) rest hr h
      · rw [(hs s m).2.1] at c2
        refine .inl ⟨?_, e⟩
        simp only [declined]
        rw [if_neg]
        rintro ⟨_, t, ht, hc⟩
        simp [samplesTasks, ht, hc] at c2
    · rw [(hs s m).1] at c1
      exact .inl ⟨by simp [declined, c1], e⟩
  | elicit q =>
    obtain ⟨s, m, ⟨c1, rest, h, hl⟩ | ⟨c1, e, rfl⟩⟩ := ends_gate h hl
    · rw [(hs s m).1] at c1
      obtain ⟨s, m, ⟨c2, rest, h, hl⟩ | ⟨c2, e, rfl⟩⟩ := ends_gate (c := fun s => s.caps.elicitation.isSome) h hl
      · rw [(hs s m).2.1] at c2
        have c2' : s0.caps.elicitation ≠ none := fun hh => by rw [hh] at c2; cases c2
        obtain ⟨s, rest, rfl, h⟩ := h
        have hst := (hs s (hl.1 _ List.mem_cons_self)).2.2
        dsimp only at h
        split at h
        · rename_i hv
          rw [hst] at hv
          obtain ⟨rfl, rfl⟩ := h
          refine .inl ⟨?_, hl.2⟩
          simp only [Bool.and_eq_true, Bool.not_eq_true'] at hv
          simp [declined, c1, c2', hv]
        · rename_i hv
          rw [hst] at hv
          simp only [Bool.and_eq_true, Bool.not_eq_true'] at hv
          exact heard_send h hl.saw hs rfl (by simp) (fun _ => by simp only [declined]; rw [if_pos ⟨c1, c2'⟩, if_neg hv]) (fun hf => by rw [hf] at c1; cases c1)
            fun o rest hr h => heard_simple hs (hg_give (t := fun b => elicitResOf b o)) rfl (fun hc => by rw [elicitResOf_free _ o hc]) rest hr h
      · rw [(hs s m).2.1] at c2
        have c2' : s0.caps.elicitation = none := by cases hh : s0.caps.elicitation with | none => rfl | some b => rw [hh] at c2; cases c2
        exact .inl ⟨by simp [declined, c2'], e⟩
    · rw [(hs s m).1] at c1
      exact .inl ⟨by simp [declined, c1], e⟩
  | elicitTask q ttl =>
    obtain ⟨s, m, ⟨c1, rest, h, hl⟩ | ⟨c1, e, rfl⟩⟩ := ends_gate h hl
    · rw [(hs s m).1] at c1
      obtain ⟨s, m, ⟨c2, rest, h, hl⟩ | ⟨c2, e, rfl⟩⟩ := ends_gate (c := fun s => elicitsTasks s.caps) h hl
      · rw [(hs s m).2.1] at c2
        have c2' : ∃ t, s0.caps.tasks = some t ∧ t.elicitationCreate = true := by
          unfold elicitsTasks at c2
          split at c2
          · rename_i t ht; exact ⟨t, ht, c2⟩
          · cases c2
        obtain ⟨s, rest, rfl, h⟩ := h
        have hst := (hs s (hl.1 _ List.mem_cons_self)).2.2
        dsimp only at h
        split at h
        · rename_i hv
          rw [hst] at hv
          obtain ⟨rfl, rfl⟩ := h
          refine .inl ⟨?_, hl.2⟩
          simp only [Bool.and_eq_true, Bool.not_eq_true'] at hv
          simp only [declined]
          rw [if_pos ⟨c1, c2'⟩, if_pos hv]
        · rename_i hv
          rw [hst] at hv
          simp only [Bool.and_eq_true, Bool.not_eq_true'] at hv
          exact heard_send h hl.saw hs (by cases ttl <;> rfl) (by simp) (fun _ => by simp only [declined]; rw [if_pos ⟨c1, c2'⟩, if_neg hv])
            (fun hf => by rw [hf] at c1; cases c1)
            fun o rest hr h => heard_simple hs (hg_created (t := fun b => Client.elicitTask b [] o)) rfl
              (fun hc => by unfold Client.elicitTask; rw [strictCall_free _ _ _ _ _ _ o hc]) rest hr h
      · rw [(hs s m).2.1] at c2
        refine .inl ⟨?_, e⟩
        simp only [declined]
        rw [if_neg]
        rintro ⟨_, t, ht, hc⟩
        simp [elicitsTasks, ht, hc] at c2
    · rw [(hs s m).1] at c1
      exact .inl ⟨by simp [declined, c1], e⟩
  | ping =>
    obtain ⟨s, m, ⟨c1, rest, h, hl⟩ | ⟨c1, e, rfl⟩⟩ := ends_gate h hl
    · rw [(hs s m).1] at c1
      exact heard_send h hl hs rfl (by simp) (fun _ => by simp [declined, c1]) (fun hf => by rw [hf] at c1; cases c1)
        fun o rest hr h => heard_simple hs (v := fun b => if Client.ping b o then .val .nothing else .threw)
          (fun b rest h => by split at h <;> rename_i hp <;> obtain ⟨rfl, rfl⟩ := h <;> simp [hp, sentOf]) rfl
          (fun hc => by simp only [ping_free s0.strict o hc]) rest hr h
    · rw [(hs s m).1] at c1
      exact .inl ⟨by simp [declined, c1], e⟩
  | callToolTask name args ttl =>
    exact heard_send h hl hs (by cases ttl <;> rfl) (by simp) (fun ht => by simp [declined, ht]) (fun ht => by simp [declined, ht])
      fun o rest hr h => heard_simple hs (hg_created (t := fun b => Client.callToolTask b [] o)) rfl
        (fun hc => by unfold Client.callToolTask; rw [strictCall_free _ _ _ _ _ _ o hc]) rest hr h
  | getTask id =>
    exact heard_send h hl hs rfl (by simp) (fun ht => by simp [declined, ht]) (fun ht => by simp [declined, ht])
      fun o rest hr h => heard_simple hs (hg_give (t := fun b => (Client.getTask b [] o).toOption)) rfl
        (fun hc => by unfold Client.getTask; rw [strictCall_free _ _ _ _ _ _ o hc]) rest hr h
  | cancelTask id =>
    exact heard_send h hl hs rfl (by simp) (fun ht => by simp [declined, ht]) (fun ht => by simp [declined, ht])
      fun o rest hr h => heard_simple hs (hg_give (t := fun b => (Client.cancelTask b [] o).toOption)) rfl
        (fun hc => by unfold Client.cancelTask; rw [strictCall_free _ _ _ _ _ _ o hc]) rest hr h
  | taskResult id =>
    obtain ⟨s, hsaw, ⟨ht, c, o, rest, a1, a2, a3, a4, h⟩ | ⟨ht, a1, rfl⟩⟩ := ends_send h hl
    · rw [(hs s hsaw).1] at ht
      refine .inr ⟨by simp [declined, ht], ?_⟩
      by_cases hres : hasResult o = true
      · rw [if_pos hres] at h
        obtain ⟨s, rest, rfl, s', rest', rfl, h⟩ := h
        obtain ⟨rfl, rfl⟩ := ends_sgive h
        refine ⟨c, o, s.kinds id, a3, a1, a2, ?_, fun id' hid _ => ⟨s, a4 _ (by simp), by cases hid; rfl⟩⟩
        rw [(hs s' (a4 _ (by simp))).2.2]
        rfl
      · rw [if_neg hres] at h
        obtain ⟨rfl, rfl⟩ := ends_sgive h
        refine ⟨c, o, none, a3, a1, a2, ?_, fun id' hid hr' => absurd hr' hres⟩
        show _ = orThrew _ (Client.taskResult s0.strict none o)
        rw [taskResult_free s0.strict none o (by simpa using hres)]
    · rw [(hs s hsaw).1] at ht
      exact .inl ⟨by simp [declined, ht], a1⟩
  | listTasks =>
    exact heard_send h hl hs rfl (by simp) (fun ht => by simp [declined, ht]) (fun ht => by simp [declined, ht])
      fun o rest hr h => heard_simple hs (hg_give (t := fun b => (Client.listTasks b [] o).toOption)) rfl
        (fun hc => by unfold Client.listTasks; rw [strictCall_free _ _ _ _ _ _ o hc]) rest hr h
  | listTasksPaged c l =>
    exact heard_send h hl hs (by rw [pageParams_eq]; rfl) (by simp) (fun ht => by simp [declined, ht]) (fun ht => by simp [declined, ht])
      fun o rest hr h => heard_simple hs (hg_give (t := fun b => (Client.listTasks b [] o).toOption)) rfl
        (fun hc => by unfold Client.listTasks; rw [strictCall_free _ _ _ _ _ _ o hc]) rest hr h

/-! ### C113 -/

/-- Whatever the threads do and whenever the answers come, a call of the server that has given its result either was not allowed to ask
and sent nothing, or sent exactly its one request, which no other call has; the transport has ended the future of that request, and the
result is what this answer says. -/
theorem C113_outcome (s0 : SSelf D) (ops : List (SOp D)) (hops : ∀ op ∈ ops, Unaltered op) (i : Nat) (x : SCall D)
    (hx : ((Sys.init s0).run ops).calls[i]? = some x) (api : SApi D) (hp : x.prog = sbody api) (r : SOut D) (hr : x.st = .over r) :
    (declined s0.transport s0.caps s0.strict api = some r ∧ sentOf x.path = []) ∨
      (declined s0.transport s0.caps s0.strict api = none ∧
        ∃ c o kind, sentOf x.path = [c] ∧ Ev.sent c (enquiry api) ∈ x.path ∧ ((Sys.init s0).run ops).cells[c]? = some (some o) ∧
          r = reports s0.strict kind api o ∧
          (∀ id, api = .taskResult id → hasResult o = true → ∃ s', Ev.saw s' ∈ x.path ∧ kind = s'.kinds id) ∧
          ∀ (j : Nat) (y : SCall D), ((Sys.init s0).run ops).calls[j]? = some y → c ∈ sentOf y.path → j = i) := by
  have hinv := inv_run s0 ops
  have hm := held_run ops _ (held_init (P := Same s0) ⟨rfl, rfl, rfl⟩) (fun op hop => unaltered_keeps s0 op (hops op hop))
  have htr := hinv.tr i x hx
  have ht := htr.tail
  rw [hr, hp] at ht
  rcases heard s0 api x.path r ht (hm.saw i x (Nat.zero_le _) hx) with h | ⟨h0, c, o, kind, h1, h2, h3, h4, h5⟩
  · exact .inl h
  · refine .inr ⟨h0, c, o, kind, h1, h2, htr.got c o h3, h4, h5, fun j y hy hc => ?_⟩
    exact flat_nodup (hinv.perm.nodup_iff.2 List.nodup_range) hx hy (by rw [h1]; simp) hc

/-- The result of a call comes once. -/
theorem C113_once (s0 : SSelf D) (ops more : List (SOp D)) (i : Nat) (x : SCall D) (hx : ((Sys.init s0).run ops).calls[i]? = some x)
    (r : SOut D) (hr : x.st = .over r) :
    ∃ y : SCall D, ((Sys.init s0).run (ops ++ more)).calls[i]? = some y ∧ y.st = .over r ∧ y.path = x.path := by
  rw [run_append]
  obtain ⟨y, h1, h2, _, h4⟩ := over_run more _ i x r hx hr
  exact ⟨y, h1, h2, h4⟩

end Verif
