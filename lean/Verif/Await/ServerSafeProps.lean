import Verif.Await.ServerLifeProps

/-!
Claim C113, concluded: a call before `Start`, arguments and servers that go while a call is under way, and the shape of task results.
-/

namespace Verif

open Client Validation Await
open Server hiding Ends
open Caps hiding Obj

variable {D : Type}

/-! ### No transport -/

/-- As long as the members satisfy `P`, the body does not end badly. -/
def Sane {S Q A R : Type} (P : S → Prop) (bad : R → Prop) : Body S Q A R → Prop
  | .ret r => ¬ bad r
  | .arg k => Sane P bad k
  | .own _ k => ∀ s, P s → Sane P bad (k s)
  | .ask _ k => ∀ a, Sane P bad (k a)

theorem sane_ends {S Q A R : Type} {P : S → Prop} {bad : R → Prop} {b : Body S Q A R} :
    ∀ {p : List (Ev S Q A)} {r : R}, Sane P bad b → Ends b p r → (∀ s, Ev.saw s ∈ p → P s) → ¬ bad r := by
  induction b with
  | ret r' => intro p r hb h _; exact h.2 ▸ hb
  | arg k ih => intro p r hb h hp; exact ih hb h hp
  | own u k ih =>
    intro p r hb h hp
    obtain ⟨s, rest, rfl, h⟩ := h
    exact ih s (hb s (hp s List.mem_cons_self)) h fun s' hs' => hp s' (List.mem_cons_of_mem _ hs')
  | ask q k ih =>
    intro p r hb h hp
    obtain ⟨c, a, rest, rfl, h⟩ := h
    exact ih a (hb a) h fun s' hs' => hp s' (by simp [hs'])

def Wired (s : SSelf D) : Prop := s.transport = true
def Crashed (r : SOut D) : Prop := r = .crash

theorem sane_smode (c : Bool) (k : Bool → SBody D) (h : ∀ b, Sane Wired Crashed (k b)) : Sane Wired Crashed (smode c k) := by
  unfold smode
  split
  · exact fun _ _ => h _
  · exact h _

theorem sane_sgive {T : Type} (f : T → SVal D) (t : Option T) : Sane Wired Crashed (sgive f t) := by cases t <;> (intro h; cases h)

theorem sane_screated (k : Tasks.Kind) (e : Except Bytes (Tasks.Task × Option (JVal D))) : Sane Wired Crashed (screated k e : SBody D) := by
  cases e with
  | error e => intro h; cases h
  | ok p => intro _ _ h; cases h

theorem sane_send (q : SReq D) (k : Outcome D → SBody D) (h : ∀ o, Sane Wired Crashed (k o)) : Sane Wired Crashed (send q k) := by
  intro s hs
  dsimp only
  rw [if_pos (show s.transport = true from hs)]
  exact h

theorem sane_gate (c : SSelf D → Bool) (no : SOut D) (hn : no ≠ .crash) (k : SBody D) (h : Sane Wired Crashed k) :
    Sane Wired Crashed (.own id fun s => if c s then k else .ret no : SBody D) := by
  intro s _
  dsimp only
  split
  · exact h
  · exact hn

theorem sane_fitting (v : JVal D) (k : SBody D) (h : Sane Wired Crashed k) : Sane Wired Crashed (fitting v k) := by
  intro s _
  dsimp only
  split
  · intro h; cases h
  · exact h

theorem sane_sbody (api : SApi D) : Sane Wired Crashed (sbody api) := by
  have n1 : ∀ v : SVal D, SOut.val v ≠ .crash := fun v h => by cases h
  have n2 : (SOut.threw : SOut D) ≠ .crash := fun h => by cases h
  cases api with
  | roots =>
    exact sane_gate _ _ (n1 _) _ (sane_gate (fun s => s.caps.roots.isSome) _ (n1 _) _ (sane_send _ _ fun o => sane_smode _ _ fun b => sane_sgive _ _))
  | sample p id => exact sane_gate _ _ (n1 _) _ (sane_send _ _ fun o => n1 _)
  | sampleTask p ttl => exact sane_gate _ _ n2 _ (sane_gate (fun s => samplesTasks s.caps) _ n2 _ (sane_send _ _ fun o => sane_smode _ _ fun b => sane_screated _ _))
  | elicit r =>
    exact sane_gate _ _ (n1 _) _ (sane_gate (fun s => s.caps.elicitation.isSome) _ (n1 _) _
      (sane_fitting _ _ (sane_send _ _ fun o => sane_smode _ _ fun b => sane_sgive _ _)))
  | elicitTask r ttl =>
    exact sane_gate _ _ n2 _ (sane_gate (fun s => elicitsTasks s.caps) _ n2 _ (sane_fitting _ _ (sane_send _ _ fun o => sane_smode _ _ fun b => sane_screated _ _)))
  | ping =>
    refine sane_gate _ _ (n1 _) _ (sane_send _ _ fun o => sane_smode _ _ fun b => ?_)
    split
    · exact n1 _
    · exact n2
  | callToolTask name args ttl => exact sane_send _ _ fun o => sane_smode _ _ fun b => sane_screated _ _
  | getTask id => exact sane_send _ _ fun o => sane_smode _ _ fun b => sane_sgive _ _
  | cancelTask id => exact sane_send _ _ fun o => sane_smode _ _ fun b => sane_sgive _ _
  | taskResult id =>
    refine sane_send _ _ fun o => ?_
    split
    · exact fun _ _ _ _ => sane_sgive _ _
    · exact sane_sgive _ _
  | listTasks => exact sane_send _ _ fun o => sane_smode _ _ fun b => sane_sgive _ _
  | listTasksPaged c l => exact sane_send _ _ fun o => sane_smode _ _ fun b => sane_sgive _ _

/-- Once the server has its transport, which nothing takes away, no call made from then on goes through a null pointer, whatever
is done before and after and whatever else changes. -/
theorem C113_wired (s0 : SSelf D) (before ops : List (SOp D)) (ht : ((Sys.init s0).run before).own.transport = true)
    (hb : ∀ b, Op.call b ∈ before → ∃ api, b = sbody api) (hc : ∀ b, Op.call b ∈ ops → ∃ api, b = sbody api)
    (hu : ∀ u, Op.change u ∈ ops → ∀ s : SSelf D, s.transport = true → (u s).transport = true)
    (i : Nat) (hi : ((Sys.init s0).run before).calls.length ≤ i) (x : SCall D)
    (hx : ((Sys.init s0).run (before ++ ops)).calls[i]? = some x) : x.st ≠ .over .crash := by
  have kp : ∀ api : SApi D, KeepsP Wired (sbody api) := fun api => keepsP_sbody api fun k _ id s hs => by unfold sremember; split <;> exact hs
  have closed : Closed (KeepsP (Wired (D := D)) : SBody D → Prop) fun k => ∀ o, KeepsP Wired (k o) :=
    ⟨fun _ h => h, fun _ _ s h => h.2 s, fun _ _ h => h, fun _ a h => h a⟩
  have h0 : Held Wired ((Sys.init s0).run before).calls.length ((Sys.init s0).run before) := by
    refine ⟨ht, fun j y hj hy => ?_, fun j y hy => ?_⟩
    · rw [List.getElem?_eq_none hj] at hy; cases hy
    · have := stHas_run closed s0 before (fun b h => by obtain ⟨api, rfl⟩ := hb b h; exact kp api) j y hy
      cases hst : y.st with
      | run b => rw [hst] at this; exact this
      | check c k => rw [hst] at this; exact this
      | wait c k => rw [hst] at this; exact this
      | over r => trivial
  have h1 := held_run ops _ h0 fun op hop => by
    cases op with
    | call b => obtain ⟨api, rfl⟩ := hc b hop; exact kp api
    | change u => exact hu u hop
    | _ => trivial
  intro hr
  have hprog : ∃ api, x.prog = sbody api := by
    have : ∀ (ops : List (SOp D)) (s : SSys D), (∀ b, Op.call b ∈ ops → ∃ api, b = sbody api) →
        (∀ (i : Nat) (x : SCall D), s.calls[i]? = some x → ∃ api, x.prog = sbody api) →
        ∀ (i : Nat) (x : SCall D), (s.run ops).calls[i]? = some x → ∃ api, x.prog = sbody api := by
      intro ops
      induction ops with
      | nil => intro s _ h; exact h
      | cons op ops ih =>
        intro s hc h
        exact ih _ (fun b hb => hc b (List.mem_cons_of_mem _ hb))
          (progs_step (P := fun b => ∃ api, b = sbody api) s op (fun b hb => hc b (by rw [hb]; exact List.mem_cons_self)) h)
    refine this (before ++ ops) _ (fun b hb' => ?_) (fun j y hy => by cases hy) i x hx
    rcases List.mem_append.1 hb' with h | h
    · exact hb b h
    · exact hc b h
  obtain ⟨api, hp⟩ := hprog
  have htail := ((inv_run s0 (before ++ ops)).tr i x hx).tail
  rw [hr, hp] at htail
  rw [run_append] at hx
  exact sane_ends (sane_sbody api) htail (h1.saw i x hi hx) rfl

/-- The calls that look for a transport before they use it. -/
def LooksFirst : SApi D → Prop
  | .roots | .sample _ _ | .sampleTask _ _ | .elicit _ | .elicitTask _ _ | .ping => True
  | _ => False

/-- A task call on a server that was not started goes through a null pointer (Server.cpp 1988, 2012, 2050, 2072, 2104), while the
other calls notice and give an empty result or throw. -/
theorem C113_not_started_counterexample (s0 : SSelf D) (ht : s0.transport = false) (api : SApi D) (h : ¬ LooksFirst api) (more : List (SOp D)) :
    ∃ x : SCall D, ((Sys.init s0).run ([.call (sbody api), .go 0, .go 0, .go 0] ++ more)).calls[0]? = some x ∧ x.st = .over .crash := by
  rw [run_append]
  have h : ∃ x : SCall D, ((Sys.init s0).run [.call (sbody api), .go 0, .go 0, .go 0]).calls[0]? = some x ∧ x.st = .over .crash := by
    cases api <;> first
      | exact absurd trivial h
      | (unfold Sys.run; simp [Sys.step, Sys.go, Sys.init, sbody, send, ht])
  obtain ⟨x, h1, h2⟩ := h
  obtain ⟨y, h3, h4, _, _⟩ := over_run more _ 0 x _ h1 h2
  exact ⟨y, h3, h4⟩

/-! ### Arguments and servers that go -/

theorem free_sgive {T : Type} (a o : Bool) (f : T → SVal D) (t : Option T) : Free a o (sgive f t) := by cases t <;> trivial

theorem free_smode (c : Bool) (k : Bool → SBody D) (h : ∀ b, Free true false (k b)) : Free true false (smode c k) := by
  unfold smode
  split
  · exact ⟨rfl, fun s => h _⟩
  · exact h _

theorem free_screated (k : Tasks.Kind) (e : Except Bytes (Tasks.Task × Option (JVal D))) : Free true false (screated k e : SBody D) := by
  cases e with
  | error e => trivial
  | ok p => exact ⟨rfl, fun _ => trivial⟩

theorem neat_send {a o : Bool} (q : SReq D) (k : Outcome D → SBody D) (h : ∀ x, Free a o (k x)) : Neat a o (send q k) := by
  intro s
  dsimp only
  split
  · exact h
  · trivial

theorem neat_gate {a o : Bool} (c : SSelf D → Bool) (no : SOut D) (k : SBody D) (h : Neat a o k) : Neat a o (.own id fun s => if c s then k else .ret no : SBody D) := by
  intro s
  dsimp only
  split
  · exact h
  · trivial

theorem neat_fitting {a o : Bool} (v : JVal D) (k : SBody D) (h : Neat a o k) : Neat a o (fitting v k) := by
  intro s
  dsimp only
  split
  · trivial
  · exact h

theorem neat_sargs (api : SApi D) (h : ∀ id, api ≠ .taskResult id) : Neat true false (sbody api) := by
  cases api with
  | roots => exact neat_gate _ _ _ (neat_gate (fun s => s.caps.roots.isSome) _ _ (neat_send _ _ fun o => free_smode _ _ fun b => free_sgive _ _ _ _))
  | sample p id => exact neat_gate _ _ _ (neat_send _ _ fun o => trivial)
  | sampleTask p ttl => exact neat_gate _ _ _ (neat_gate (fun s => samplesTasks s.caps) _ _ (neat_send _ _ fun o => free_smode _ _ fun b => free_screated _ _))
  | elicit r =>
    exact neat_gate _ _ _ (neat_gate (fun s => s.caps.elicitation.isSome) _ _ (neat_fitting _ _ (neat_send _ _ fun o => free_smode _ _ fun b => free_sgive _ _ _ _)))
  | elicitTask r ttl =>
    exact neat_gate _ _ _ (neat_gate (fun s => elicitsTasks s.caps) _ _ (neat_fitting _ _ (neat_send _ _ fun o => free_smode _ _ fun b => free_screated _ _)))
  | ping =>
    refine neat_gate _ _ _ (neat_send _ _ fun o => free_smode _ _ fun b => ?_)
    split <;> trivial
  | callToolTask name args ttl => exact neat_send _ _ fun o => free_smode _ _ fun b => free_screated _ _
  | getTask id => exact neat_send _ _ fun o => free_smode _ _ fun b => free_sgive _ _ _ _
  | cancelTask id => exact neat_send _ _ fun o => free_smode _ _ fun b => free_sgive _ _ _ _
  | taskResult id => exact absurd rfl (h id)
  | listTasks => exact neat_send _ _ fun o => free_smode _ _ fun b => free_sgive _ _ _ _
  | listTasksPaged c l => exact neat_send _ _ fun o => free_smode _ _ fun b => free_sgive _ _ _ _

/-- `KeptAll` from a condition on the operations alone. -/
theorem keptAll_ops {S Q A R : Type} {P : Body S Q A R → Prop} {O : Op S Q A R → Prop} (ops : List (Op S Q A R)) (hc : ∀ b, Op.call b ∈ ops → P b) (ho : ∀ op ∈ ops, O op)
    (hk : ∀ (s : Sys S Q A R) (op : Op S Q A R), (∀ (i : Nat) (x : Await.Call S Q A R), s.calls[i]? = some x → P x.prog) → O op → Kept s op) :
    ∀ s : Sys S Q A R, (∀ (i : Nat) (x : Await.Call S Q A R), s.calls[i]? = some x → P x.prog) → KeptAll s ops := by
  induction ops with
  | nil => intro s _; trivial
  | cons op ops ih =>
    intro s hs
    exact ⟨hk s op hs (ho op List.mem_cons_self),
      ih (fun b hb => hc b (List.mem_cons_of_mem _ hb)) (fun o h => ho o (List.mem_cons_of_mem _ h)) _
        (progs_step s op (fun b hb => hc b (by rw [hb]; exact List.mem_cons_self)) hs)⟩

/-- The caller may give up what it passed as soon as it has its future back: with every call but `GetTaskResult`, and a server that is
there all the time, nothing that is gone is ever read. What is missing: `GetTaskResult`, see the counterexample. -/
theorem C113_arguments_partial (s0 : SSelf D) (ops : List (SOp D))
    (hc : ∀ b, Op.call b ∈ ops → ∃ api, b = sbody api ∧ ∀ id, api ≠ .taskResult id) (hd : Op.destroy ∉ ops) :
    ((Sys.init s0).run ops).ub = false := by
  refine (good_run ops _ (good_init s0) ?_).1
  refine keptAll_ops (P := Neat true false) (O := fun op => op ≠ .destroy) ops (fun b hb => ?_) (fun op hop h => hd (h ▸ hop)) ?_ _
    (fun i x hx => by cases hx)
  · obtain ⟨api, rfl, h⟩ := hc b hb
    exact neat_sargs api h
  · intro s op hs hop
    cases op with
    | drop i => exact fun x hx => .inr (hs i x hx)
    | destroy => exact absurd rfl hop
    | _ => trivial

/-- `GetTaskResult` with a task id that the caller does not keep: when the answer comes after `await_ready` the body looks the id up in a
string that is gone (Server.cpp 2083). -/
theorem C113_task_result_counterexample (s0 : SSelf D) (ht : s0.transport = true) (id : Bytes) (i : RpcId) (v : JVal D) (more : List (SOp D)) :
    ((Sys.init s0).run ([.call (sbody (.taskResult id)), .go 0, .go 0, .go 0, .go 0, .drop 0, .fill 0 (.resp ⟨i, some v, none⟩), .go 0, .go 0] ++ more)).ub = true := by
  rw [run_append]
  have h : ((Sys.init s0).run [.call (sbody (.taskResult id)), .go 0, .go 0, .go 0, .go 0, .drop 0, .fill 0 (.resp ⟨i, some v, none⟩), .go 0, .go 0]).ub = true := by
    unfold Sys.run
    simp [Sys.step, Sys.go, Sys.init, sbody, send, ht, hasResult]
  rw [run_ub _ _ h]
  exact h

/-- A server may be destroyed while sampling requests are under way, and their arguments may be gone as well. What is missing: all other
calls, see the counterexample. -/
theorem C113_destroyed_partial (s0 : SSelf D) (ops : List (SOp D)) (hc : ∀ b, Op.call b ∈ ops → ∃ p id, b = sbody (.sample p id)) :
    ((Sys.init s0).run ops).ub = false := by
  refine (good_run ops _ (good_init s0) ?_).1
  refine keptAll_ops (P := fun b => Neat true false b ∧ Neat false true b) (O := fun _ => True) ops (fun b hb => ?_) (fun _ _ => trivial) ?_ _
    (fun i x hx => by cases hx)
  · obtain ⟨p, id, rfl⟩ := hc b hb
    exact ⟨neat_sargs _ (by simp), neat_gate _ _ _ (neat_send _ _ fun o => trivial)⟩
  · intro s op hs _
    cases op with
    | drop i => exact fun x hx => .inr (hs i x hx).1
    | destroy => exact fun i x hx => .inr (hs i x hx).2
    | _ => trivial

/-- Every other call that has asked reads the server again when an answer with a result comes, also when the server is gone by then. -/
theorem C113_destroyed_counterexample (s0 : SSelf D) (api : SApi D) (hp : ∀ p id, api ≠ .sample p id)
    (hn : declined s0.transport s0.caps s0.strict api = none) (i : RpcId) (v : JVal D) (more : List (SOp D)) :
    ((Sys.init s0).run ([.call (sbody api), .go 0, .go 0, .go 0, .go 0, .go 0, .go 0, .go 0, .destroy, .fill 0 (.resp ⟨i, some v, none⟩), .go 0, .go 0, .go 0] ++ more)).ub = true := by
  rw [run_append]
  have h : ((Sys.init s0).run [.call (sbody api), .go 0, .go 0, .go 0, .go 0, .go 0, .go 0, .go 0, .destroy, .fill 0 (.resp ⟨i, some v, none⟩), .go 0, .go 0, .go 0]).ub = true := by
    have ht : s0.transport = true := by
      cases h : s0.transport with
      | true => rfl
      | false => cases api <;> simp [declined, h] at hn
    cases api with
    | sample p id => exact absurd rfl (hp p id)
    | roots =>
      have hr : s0.caps.roots.isSome = true := by
        cases h : s0.caps.roots with
        | none => simp [declined, h] at hn
        | some b => rfl
      unfold Sys.run
      simp [Sys.step, Sys.go, Sys.init, sbody, wired, offers, send, ht, hr, hasResult, smode]
    | sampleTask p ttl =>
      have hr : samplesTasks s0.caps = true := by
        unfold samplesTasks
        cases h : s0.caps.tasks with
        | none => simp [declined, h] at hn
        | some t => cases hm : t.createMessage with | true => simp [hm] | false => simp [declined, h, hm] at hn
      unfold Sys.run
      simp [Sys.step, Sys.go, Sys.init, sbody, wired, offers, send, ht, hr, hasResult, smode]
    | elicit r =>
      have hr : s0.caps.elicitation.isSome = true := by
        cases h : s0.caps.elicitation with
        | none => simp [declined, h] at hn
        | some b => rfl
      have hv : ¬ (s0.strict = true ∧ validateElicitationRequest (.obj (elicitParams r)) = false) := by
        intro hv
        have hr' : s0.caps.elicitation ≠ none := fun h => by simp [h] at hr
        simp [declined, ht, hr', hv] at hn
      unfold Sys.run
      simp [Sys.step, Sys.go, Sys.init, sbody, wired, offers, fitting, send, ht, hr, hv, hasResult, smode]
    | elicitTask r ttl =>
      have hr : elicitsTasks s0.caps = true := by
        unfold elicitsTasks
        cases h : s0.caps.tasks with
        | none => simp [declined, h] at hn
        | some t => cases hm : t.elicitationCreate with | true => simp [hm] | false => simp [declined, h, hm] at hn
      have hv : ¬ (s0.strict = true ∧ validateElicitationRequest (withTask (elicitParams r) ttl) = false) := by
        intro hv
        have hr' : ∃ t, s0.caps.tasks = some t ∧ t.elicitationCreate = true := by
          unfold elicitsTasks at hr
          split at hr
          · rename_i t h; exact ⟨t, h, hr⟩
          · cases hr
        simp only [declined] at hn
        rw [if_pos ⟨ht, hr'⟩, if_pos hv] at hn
        cases hn
      unfold Sys.run
      simp [Sys.step, Sys.go, Sys.init, sbody, wired, offers, fitting, send, ht, hr, hv, hasResult, smode]
    | _ =>
      unfold Sys.run
      simp [Sys.step, Sys.go, Sys.init, sbody, wired, offers, fitting, send, ht, hasResult, smode]
  rw [run_ub _ _ h]
  exact h

end Verif
