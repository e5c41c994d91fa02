import Verif.Server.Caps
import Verif.Server.Items

/-!
C52: capabilities through the initialize handshake. Exact description of what arrives on either side, round trips under the exact
conditions, and the losses.
-/

set_option linter.unusedSectionVars false

namespace Verif

open Caps

variable {D : Type}

/-! ### Lemmas -/

theorem get_flag_ne {k k' : Bytes} (b : Bool) (h : k ≠ k') : AMap.get (flag (D := D) k b) k' = none := get_optField_ne _ h
theorem get_flag_self (k : Bytes) (b : Bool) : AMap.get (flag (D := D) k b) k = if b then some (.obj []) else none := get_optField_self _ _
theorem get_nonEmpty_ne {k k' : Bytes} (m : Caps.Obj D) (h : k ≠ k') : AMap.get (nonEmpty k m) k' = none := get_optField_ne _ h
theorem get_nonEmpty_self (k : Bytes) (m : Caps.Obj D) : AMap.get (nonEmpty k m) k = if m.isEmpty then none else some (.obj m) := get_optField_self _ _

theorem isSome_flag (b : Bool) : (if b = true then some (JVal.obj []) else (none : Option (JVal D))).isSome = b := by cases b <;> rfl

theorem strings_map (l : List Bytes) : strings (l.map (JVal.str (D := D))) = l := by
  induction l with
  | nil => rfl
  | cons a l ih => simp [strings, ih]

theorem serverTasks_roundtrip (t : ServerTasks) : parseServerTasks (some (serServerTasks (D := D) t)) = some t := by
  obtain ⟨a, b, c⟩ := t
  cases a <;> cases b <;> cases c <;> rfl

theorem clientTasks_roundtrip (t : ClientTasks) : parseClientTasks (some (serClientTasks (D := D) t)) = some t := by
  obtain ⟨a, b, c, d⟩ := t
  cases a <;> cases b <;> cases c <;> cases d <;> rfl

theorem objAt_initResult (n : Bytes) (c : ServerCaps D) (m : Caps.Obj D) (h : serServer c = .obj m) :
    (initResult n c).objAt (lit "capabilities") = some m := by
  unfold initResult
  rw [h]; rfl

theorem objAt_initParams (n v : Bytes) (c : ClientCaps D) (m : Caps.Obj D) (h : serClient c = .obj m) :
    (initParams n v c).objAt (lit "capabilities") = some m := by
  unfold initParams
  rw [h]; rfl

/-! ### C52 -/

/-- **C52.** What a client knows after the handshake, whatever the server advertises: everything arrives except that the flags of the
tools, resources and prompts capabilities are taken as set. -/
theorem C52_server_to_client (old c : ServerCaps D) (name : Bytes) :
    parseServer old (initResult name c) =
      { c with tools := c.tools.map (fun _ => true), resources := c.resources.map (fun _ => (true, true))
               prompts := c.prompts.map (fun _ => true) } := by
  unfold parseServer
  rw [objAt_initResult name c _ rfl]
  obtain ⟨tools, resources, prompts, sampling, completions, tasks, logging, experimental⟩ := c
  simp (disch := decide) only [has, AMap.get_append, get_optField_self, get_optField_ne, get_flag_self, get_flag_ne, get_nonEmpty_self,
    get_nonEmpty_ne, Option.none_or, Option.or_none, isSome_flag, ServerCaps.mk.injEq, true_and, and_true]
  refine ⟨?_, ?_, ?_, ?_, ?_⟩
  · cases tools <;> rfl
  · cases resources <;> rfl
  · cases prompts <;> rfl
  · cases tasks with
    | none => rfl
    | some t => exact serverTasks_roundtrip t
  · cases experimental <;> rfl

/-- **C52.** In particular everything survives when the flags are set, as they are in the defaults of the server. -/
theorem C52_server_roundtrip (old c : ServerCaps D) (name : Bytes) (h1 : c.tools ≠ some false) (h2 : c.prompts ≠ some false)
    (h3 : ∀ p, c.resources = some p → p = (true, true)) : parseServer old (initResult name c) = c := by
  rw [C52_server_to_client]
  obtain ⟨tools, resources, prompts, sampling, completions, tasks, logging, experimental⟩ := c
  simp only [ServerCaps.mk.injEq, true_and, and_true]
  refine ⟨?_, ?_, ?_⟩
  · rcases tools with _ | _ | _
    · rfl
    · exact absurd rfl h1
    · rfl
  · cases resources with
    | none => rfl
    | some p => rw [h3 p rfl]; rfl
  · rcases prompts with _ | _ | _
    · rfl
    · exact absurd rfl h2
    · rfl

example : (defaultServer (D := Empty)).tools ≠ some false ∧ (defaultServer (D := Empty)).prompts ≠ some false ∧
    ∀ p, (defaultServer (D := Empty)).resources = some p → p = (true, true) := by
  refine ⟨by decide, by decide, ?_⟩
  intro p h; cases h; rfl

/-- **C52.** A flag that the server clears is read as set, whatever else it advertises. -/
theorem C52_flags_counterexample (old c : ServerCaps D) (name : Bytes)
    (h : c.tools = some false ∨ c.prompts = some false ∨ ∃ p, c.resources = some p ∧ p ≠ (true, true)) :
    parseServer old (initResult name c) ≠ c := by
  rw [C52_server_to_client]
  intro e
  rcases h with h | h | ⟨p, h, hp⟩
  · have := congrArg ServerCaps.tools e; rw [h] at this; cases this
  · have := congrArg ServerCaps.prompts e; rw [h] at this; cases this
  · have := congrArg ServerCaps.resources e
    rw [h] at this
    simp only [Option.map_some, Option.some.injEq] at this
    exact hp this.symm

example : ({ defaultServer (D := Empty) with tools := some false }).tools = some false := rfl

/-- **C52.** What a server knows about a client of this library after the handshake: everything except the experimental entries and the
extensions. -/
theorem C52_client_to_server (old c : ClientCaps D) (name version : Bytes) :
    parseClient old (initParams name version c) = { c with experimental := [], extensions := [] } := by
  unfold parseClient
  rw [objAt_initParams name version c _ rfl]
  obtain ⟨roots, sampling, elicitation, tasks, experimental, extensions⟩ := c
  simp (disch := decide) only [has, AMap.get_append, get_optField_self, get_optField_ne, get_flag_self, get_flag_ne, get_nonEmpty_self,
    get_nonEmpty_ne, Option.none_or, Option.or_none, isSome_flag, ClientCaps.mk.injEq, true_and, and_true]
  refine ⟨?_, ?_, ?_⟩
  · cases roots <;> rfl
  · cases elicitation with
    | none => rfl
    | some l =>
      simp only [Option.map_some, parseElicitation, JVal.arrAt, JVal.get?, get_optField_self]
      cases l with
      | nil => rfl
      | cons a l =>
        simp only [List.isEmpty_cons, Bool.false_eq_true, if_false, Option.bind_some, JVal.asArr]
        rw [strings_map]
  · cases tasks with
    | none => rfl
    | some t => exact clientTasks_roundtrip t

/-- **C52.** A client without experimental entries and extensions is understood completely. -/
theorem C52_client_roundtrip (old c : ClientCaps D) (name version : Bytes) (h1 : c.experimental = []) (h2 : c.extensions = []) :
    parseClient old (initParams name version c) = c := by
  rw [C52_client_to_server]
  obtain ⟨_, _, _, _, _, _⟩ := c
  cases h1; cases h2; rfl

example : ({ ClientCaps.none_ (D := Empty) with elicitation := some [lit "form"], tasks := some ⟨true, false, true, false⟩ }).extensions = [] := rfl

/-- **C52.** A client of this library that announces extensions is never understood, and can never make a server show its UI
resources. -/
theorem C52_extensions_counterexample (old c : ClientCaps D) (name version : Bytes) (h : c.extensions ≠ []) :
    parseClient old (initParams name version c) ≠ c ∧ uiSupported (parseClient old (initParams name version c)) = false := by
  rw [C52_client_to_server]
  refine ⟨fun e => ?_, rfl⟩
  have := congrArg ClientCaps.extensions e
  exact h this.symm

example : ({ ClientCaps.none_ (D := Empty) with extensions := [(lit "io.modelcontextprotocol/ui", .obj [])] }).extensions ≠ [] := by
  intro h; cases h

/-- **C52.** The parser of the server does understand extensions: a client that writes them is shown UI resources. -/
theorem C52_extensions_parsed (old : ClientCaps D) (params : JVal D) (m e : Caps.Obj D) (hc : params.objAt (lit "capabilities") = some m)
    (he : AMap.get m (lit "extensions") = some (.obj e)) : (parseClient old params).extensions = e ∧
      (uiSupported (parseClient old params) = true ↔ ∃ v, AMap.get e (lit "io.modelcontextprotocol/ui") = some v) := by
  have h : (parseClient old params).extensions = e := by unfold parseClient; rw [hc]; simp only [he]
  refine ⟨h, ?_⟩
  unfold uiSupported has
  rw [h]
  cases AMap.get e (lit "io.modelcontextprotocol/ui") <;> simp

example : (JVal.obj [(lit "capabilities", .obj [(lit "extensions", .obj [(lit "io.modelcontextprotocol/ui", .obj [])])])] : JVal Empty).objAt
    (lit "capabilities") = some [(lit "extensions", .obj [(lit "io.modelcontextprotocol/ui", .obj [])])] := rfl

/-- **C52.** A second initialize replaces what was known; a malformed one (no capabilities object) leaves it. -/
theorem C52_reinitialize (old old' : ClientCaps D) (params : JVal D) :
    ((params.objAt (lit "capabilities")).isSome = true → parseClient old params = parseClient old' params) ∧
    (params.objAt (lit "capabilities") = none → parseClient old params = old) := by
  constructor
  · intro h
    unfold parseClient
    cases hp : params.objAt (lit "capabilities") with
    | none => rw [hp] at h; cases h
    | some m => rfl
  · intro h
    unfold parseClient
    rw [h]

/-- **C52.** The form of the server's answer as the protocol has it, for clients of any make: the three list capabilities carry their
flags under the right names and are absent when not advertised. -/
theorem C52_wire (c : ServerCaps D) (name : Bytes) :
    ∃ m, (initResult name c).objAt (lit "capabilities") = some m ∧
      (c.tools = none → AMap.get m (lit "tools") = none) ∧ (c.prompts = none → AMap.get m (lit "prompts") = none) ∧
      (c.resources = none → AMap.get m (lit "resources") = none) ∧
      (∀ b, c.tools = some b → ∃ o, AMap.get m (lit "tools") = some (.obj o) ∧ AMap.get o (lit "listChanged") = some (.bool b)) ∧
      (∀ b, c.prompts = some b → ∃ o, AMap.get m (lit "prompts") = some (.obj o) ∧ AMap.get o (lit "listChanged") = some (.bool b)) ∧
      ∀ sub lc, c.resources = some (sub, lc) →
        ∃ o, AMap.get m (lit "resources") = some (.obj o) ∧ AMap.get o (lit "subscribe") = some (.bool sub) ∧ AMap.get o (lit "listChanged") = some (.bool lc) := by
  refine ⟨_, objAt_initResult name c _ rfl, ?_⟩
  simp (disch := decide) only [AMap.get_append, get_optField_self, get_optField_ne, get_flag_ne, get_nonEmpty_ne, Option.none_or, Option.or_none]
  refine ⟨fun h => by rw [h]; rfl, fun h => by rw [h]; rfl, fun h => by rw [h]; rfl, fun b h => ⟨_, by rw [h]; rfl, rfl⟩, fun b h => ⟨_, by rw [h]; rfl, rfl⟩,
    fun a b h => ⟨_, by rw [h]; rfl, rfl, rfl⟩⟩

example : (defaultServer (D := Empty)).resources = some (true, true) := rfl

/-- **C52.** The client's side of a second handshake: a proper answer replaces what was known, one without capabilities leaves it. -/
theorem C52_reinitialize_client (old old' : ServerCaps D) (result : JVal D) :
    ((result.objAt (lit "capabilities")).isSome = true → parseServer old result = parseServer old' result) ∧
    (result.objAt (lit "capabilities") = none → parseServer old result = old) := by
  constructor
  · intro h
    unfold parseServer
    cases hp : result.objAt (lit "capabilities") with
    | none => rw [hp] at h; cases h
    | some m => rfl
  · intro h
    unfold parseServer
    rw [h]

/-- **C52.** The roots capability of a client of any make: known exactly when the member is there, and its change flag is set exactly when
the member says so. -/
theorem C52_roots_parsed (old : ClientCaps D) (params : JVal D) (m : Caps.Obj D) (hc : params.objAt (lit "capabilities") = some m) :
    (AMap.get m (lit "roots") = none → (parseClient old params).roots = none) ∧
    ∀ v, AMap.get m (lit "roots") = some v →
      ∃ b, (parseClient old params).roots = some b ∧ (b = true ↔ ∃ o, v = .obj o ∧ AMap.get o (lit "listChanged") = some (.bool true)) := by
  have h : (parseClient old params).roots = parseRoots (AMap.get m (lit "roots")) := by unfold parseClient; rw [hc]
  rw [h]
  refine ⟨fun hn => by rw [hn]; rfl, fun v hv => ⟨_, by rw [hv]; rfl, ?_⟩⟩
  constructor
  · intro hb
    cases v with
    | obj o =>
      refine ⟨o, rfl, ?_⟩
      simp only [JVal.boolAt, JVal.get?] at hb
      cases hg : AMap.get o (lit "listChanged") with
      | none => rw [hg] at hb; cases hb
      | some x => rw [hg] at hb; cases x <;> first | (cases hb; done) | skip
                  rename_i b; cases b
                  · cases hb
                  · rfl
    | _ => cases hb
  · rintro ⟨o, rfl, hg⟩
    simp [JVal.boolAt, JVal.get?, hg, JVal.asBool]

example : (JVal.obj [(lit "capabilities", .obj [(lit "roots", .obj [])])] : JVal Empty).objAt (lit "capabilities") = some [(lit "roots", .obj [])] := rfl

end Verif
