import Verif.Near.TaskProps
import Verif.Near.Case
import Verif.Web.TaskProps
import Verif.Web.Case
import Verif.Whole.TaskProps
import Verif.Whole.Case

/-! Concrete executions that meet the hypotheses of the theorems C131. -/

namespace Verif

open Await Client Server InMemory Http
open Whole (toolArgs quietCfg fine_sound fineOut fineOut_sound lt_of_get)
open Web (webCfg)

/-! ### A server on its own -/

/-- A server with one tool that may be run as a task. -/
def taskSetup : List (SrvOp Empty Nat) :=
  [.register false (.tool { defaultTool (lit "t") with execution := some (.obj [(lit "taskSupport", .str (lit "optional"))]) } 0)]

def taskSrv : Srv Empty Nat := (Srv.init (lit "s")).run taskSetup

/-- A task that ended, and one that was cancelled: the cases of `C131_origin` and `C131_failure`. -/
example : (match ((Srv.init (lit "s")).run (taskSetup ++ [.request echoEnv taskCall, .worker echoEnv 0])).tasks.wait (lit "task-1") with
      | .got false v => v.get? (lit "isError") == some (.bool true) | _ => false) = true ∧
    (match ((Srv.init (lit "s")).run (taskSetup ++ [.request echoEnv taskCall, .request echoEnv ⟨.int 2, lit "tasks/cancel", some (.obj [(lit "taskId", .str (lit "task-1"))])⟩])).tasks.wait
        (lit "task-1") with
      | .got true v => v == errorText (lit "Cancelled") | _ => false) = true := by
  decide +kernel

/-- The start of a task: the case of `C131_once`. -/
example : StartedAt (lit "s") (taskSetup ++ [.request echoEnv taskCall]) 1 (lit "task-1") (lit "t") .null 0 := by
  refine ⟨echoEnv, taskCall, rfl, ⟨rfl, by decide, _, rfl, rfl, rfl⟩, ⟨_, _, rfl, rfl⟩, ?_, ?_, ?_⟩
  · decide +kernel
  · have : (AMap.get (srvAt (lit "s") (taskSetup ++ [.request echoEnv taskCall]) 1).tasks.records (lit "task-1")).isNone = true := by decide +kernel
    exact Option.isNone_iff_eq_none.1 this
  · decide +kernel

/-! ### In memory -/

def nearTask : List (Near.Op Empty Nat) :=
  [.call (.callToolTask (lit "t") toolArgs none), .go 0, .go 0, .wire (.deliver false 0), .wire (.pop true), .wire (.handle true), .serve 0 echoEnv, .wire (.pop false),
   .wire (.handle false), .deliver 0, .go 0, .go 0, .go 0, .go 0, .own (.worker echoEnv 0), .call (.taskResult (lit "task-1")), .go 1, .go 1, .wire (.deliver false 0), .wire (.pop true),
   .wire (.handle true), .serve 0 echoEnv, .wire (.pop false), .wire (.handle false), .deliver 1, .go 1, .go 1, .go 1, .go 1, .go 1]

/-- What is dispatched with the step `n` survives the wire format. -/
def nearFine (n : Nat) : Bool :=
  match ((Near.World.init plainSelf taskSrv).run (nearTask.take n)).net.b.jobs[0]? with
  | some q => fineOut (dispatch echoEnv ((Near.World.init plainSelf taskSrv).run (nearTask.take n)).srv q).1
  | none => true

theorem nearFine_sound {n : Nat} (h : nearFine n = true) {q : Request Empty} {r : Response Empty}
    (h1 : ((Near.World.init plainSelf taskSrv).run (nearTask.take n)).net.b.jobs[0]? = some q)
    (h2 : (dispatch echoEnv ((Near.World.init plainSelf taskSrv).run (nearTask.take n)).srv q).1 = .answer r) : PlainAnswer (.resp r) := by
  unfold nearFine at h
  rw [h1] at h
  exact fineOut_sound h h2

theorem nearTask_serves {p i : Nat} {env : Env Empty Nat} (hp : p < 30) (h : nearTask[p]? = some (.serve i env)) : (p = 6 ∨ p = 21) ∧ i = 0 ∧ env = echoEnv := by
  match p, hp with
  | 6, _ => cases h; exact ⟨.inl rfl, rfl, rfl⟩
  | 21, _ => cases h; exact ⟨.inr rfl, rfl, rfl⟩
  | 0, _ | 1, _ | 2, _ | 3, _ | 4, _ | 5, _ | 7, _ | 8, _ | 9, _ | 10, _ | 11, _ | 12, _ | 13, _ | 14, _ | 15, _ | 16, _ | 17, _ | 18, _ | 19, _ | 20, _ | 22, _ | 23, _ | 24, _ | 25, _ | 26, _
  | 27, _ | 28, _ | 29, _ => cases h

theorem nearTask_carried : Near.Carried (Near.World.init plainSelf taskSrv) nearTask := by
  refine ⟨?_, ?_, ?_, ?_⟩
  · intro api h v hv
    simp only [nearTask, List.mem_cons, List.not_mem_nil, or_false, reduceCtorEq, false_or] at h
    rcases h with h | h <;> cases h <;> cases hv <;> exact (fine_sound (lit "error") _ (by decide +kernel)).1
  · intro op h
    simp only [nearTask, List.mem_cons, List.not_mem_nil, or_false, reduceCtorEq, false_or] at h
    rcases h with h | h | h | h | h | h | h | h | h | h <;> cases h <;> trivial
  · rintro p q env σ r ⟨i, h1, h2, rfl, -, h5⟩
    obtain ⟨hp, rfl, rfl⟩ := nearTask_serves (lt_of_get h1) h1
    rcases hp with rfl | rfl
    · exact nearFine_sound (by decide +kernel) h2 h5
    · exact nearFine_sound (by decide +kernel) h2 h5
  · intro u h
    simp [nearTask] at h

/-- A task was created and its outcome fetched: the case of `C131_memory_partial`. -/
example : Near.Carried (Near.World.init plainSelf taskSrv) nearTask ∧
    let w := (Near.World.init plainSelf taskSrv).run nearTask
    w.client.cells.length < 2 ^ 32 ∧ taskSetup.length + nearTask.length + 1 < 2 ^ 64 ∧
    (match w.client.calls with
      | [⟨_, .over (some (.created t _)), _, _, _⟩, ⟨_, .over (some (.json v)), _, _, _⟩] => t.taskId == lit "task-1" && v.get? (lit "structuredContent") == some toolArgs
      | _ => false) = true :=
  ⟨nearTask_carried, by decide +kernel⟩

/-! ### Over a pipe -/

def pipeTask : List (Whole.Op Empty Nat) :=
  [.call (.callToolTask (lit "t") toolArgs none), .go 0, .go 0, .wire false (.file 0 0), .wire false (.push 0), .wire false .dequeue, .wire false (.write 999),
   .wire false .finish, .wire true (.read 4000), .wire true .decode, .serve echoEnv, .wire true .dequeue, .wire true (.write 999), .wire true .finish,
   .wire false (.read 4000), .wire false .decode, .deliver 0, .go 0, .go 0, .go 0, .go 0, .own (.worker echoEnv 0), .call (.taskResult (lit "task-1")), .go 1, .go 1,
   .wire false (.file 1 0), .wire false (.push 0), .wire false .dequeue, .wire false (.write 999),
   .wire false .finish, .wire true (.read 4000), .wire true .decode, .serve echoEnv, .wire true .dequeue, .wire true (.write 999), .wire true .finish,
   .wire false (.read 4000), .wire false .decode, .deliver 1, .go 1, .go 1, .go 1, .go 1, .go 1]

/-- What is dispatched with the step `n` survives the wire format. -/
def pipeFine (n : Nat) : Bool :=
  match ((Whole.World.init plainSelf taskSrv).run quietCfg (pipeTask.take n)).pair.b.job with
  | some j => fineOut (dispatch echoEnv ((Whole.World.init plainSelf taskSrv).run quietCfg (pipeTask.take n)).srv j.req).1
  | none => true

theorem pipeFine_sound {n : Nat} (h : pipeFine n = true) {j : Duplex.Job Empty} {r : Response Empty}
    (h1 : ((Whole.World.init plainSelf taskSrv).run quietCfg (pipeTask.take n)).pair.b.job = some j)
    (h2 : (dispatch echoEnv ((Whole.World.init plainSelf taskSrv).run quietCfg (pipeTask.take n)).srv j.req).1 = .answer r) : PlainAnswer (.resp r) := by
  unfold pipeFine at h
  rw [h1] at h
  exact fineOut_sound h h2

theorem pipeTask_serves {p : Nat} {env : Env Empty Nat} (hp : p < 44) (h : pipeTask[p]? = some (.serve env)) : (p = 10 ∨ p = 32) ∧ env = echoEnv := by
  match p, hp with
  | 10, _ => cases h; exact ⟨.inl rfl, rfl⟩
  | 32, _ => cases h; exact ⟨.inr rfl, rfl⟩
  | 0, _ | 1, _ | 2, _ | 3, _ | 4, _ | 5, _ | 6, _ | 7, _ | 8, _ | 9, _ | 11, _ | 12, _ | 13, _ | 14, _ | 15, _ | 16, _ | 17, _ | 18, _ | 19, _ | 20, _ | 21, _ | 22, _ | 23, _ | 24, _ | 25, _
  | 26, _ | 27, _ | 28, _ | 29, _ | 30, _ | 31, _ | 33, _ | 34, _ | 35, _ | 36, _ | 37, _ | 38, _ | 39, _ | 40, _ | 41, _ | 42, _ | 43, _ => cases h

theorem pipeTask_carried : Whole.Carried quietCfg (Whole.World.init plainSelf taskSrv) pipeTask := by
  refine ⟨Duplex.echo_plain, ?_, ?_, ?_, ?_⟩
  · intro api h v hv
    simp only [pipeTask, List.mem_cons, List.not_mem_nil, or_false, reduceCtorEq, false_or] at h
    rcases h with h | h <;> cases h <;> cases hv <;> exact (fine_sound (lit "error") _ (by decide +kernel)).1
  · intro y op h
    simp only [pipeTask, List.mem_cons, List.not_mem_nil, or_false, reduceCtorEq, false_or] at h
    rcases h with h | h | h | h | h | h | h | h | h | h | h | h | h | h | h | h | h | h | h | h | h | h | h | h <;> cases h <;> trivial
  · rintro p q env σ r ⟨h1, ⟨j, hj, rfl⟩, rfl, -, h5⟩
    obtain ⟨hp, rfl⟩ := pipeTask_serves (lt_of_get h1) h1
    rcases hp with rfl | rfl
    · exact pipeFine_sound (by decide +kernel) hj h5
    · exact pipeFine_sound (by decide +kernel) hj h5
  · intro u h
    simp [pipeTask] at h

theorem own_empties : Duplex.OwnTexts [RpcId.str [], RpcId.str []] := by
  refine ⟨?_, ?_, by decide⟩
  · intro i j a b ha hb _ hne
    have h1 : a = .str [] := by have := List.mem_of_getElem? ha; simpa using this
    subst h1
    exact absurd rfl hne
  · intro i hi c h
    simp only [List.mem_cons, List.not_mem_nil, or_false, or_self] at hi
    subst hi
    cases h

/-- A task was created and its outcome fetched: the case of `C131_stdio_partial`. -/
example : Whole.Carried quietCfg (Whole.World.init plainSelf taskSrv) pipeTask ∧
    let w := (Whole.World.init plainSelf taskSrv).run quietCfg pipeTask
    Duplex.OwnTexts (w.pair.a.given.map (·.id)) ∧ taskSetup.length + pipeTask.length + 1 < 2 ^ 64 ∧
    (match w.client.calls with
      | [⟨_, .over (some (.created t _)), _, _, _⟩, ⟨_, .over (some (.json v)), _, _, _⟩] => t.taskId == lit "task-1" && v.get? (lit "structuredContent") == some toolArgs
      | _ => false) = true := by
  refine ⟨pipeTask_carried, ?_⟩
  intro w
  have h : w.pair.a.given.map (·.id) = [.str [], .str []] ∧ taskSetup.length + pipeTask.length + 1 < 2 ^ 64 ∧
      (match w.client.calls with
        | [⟨_, .over (some (.created t _)), _, _, _⟩, ⟨_, .over (some (.json v)), _, _, _⟩] => t.taskId == lit "task-1" && v.get? (lit "structuredContent") == some toolArgs
        | _ => false) = true := by decide +kernel
  exact ⟨by rw [h.1]; exact own_empties, h.2⟩

/-! ### Over HTTP -/

def webTask : List (Web.Op Empty Nat) :=
  [.wire .start, .call (.callToolTask (lit "t") toolArgs none), .go 0, .go 0, .wire (.file 0), .wire (.begin 0), .serve 0 0 [] echoEnv true true [], .wire (.arrive demoClient 0),
   .deliver 0, .go 0, .go 0, .go 0, .go 0, .own (.worker echoEnv 0), .call (.taskResult (lit "task-1")), .go 1, .go 1, .wire (.file 1), .wire (.begin 1),
   .serve 1 0 [] echoEnv true true [], .wire (.arrive demoClient 1), .deliver 1, .go 1, .go 1, .go 1, .go 1, .go 1]

/-- What is dispatched with the step `n`, if that serves flight `i`, survives the wire format. -/
def webFine (n i : Nat) : Bool :=
  match ((Web.World.init plainSelf taskSrv).run webCfg (webTask.take n)).served webCfg i 0 [] echoEnv true true [] with
  | some out => match out.handled with | (q, _) :: _ => fineOut (dispatch echoEnv ((Web.World.init plainSelf taskSrv).run webCfg (webTask.take n)).srv q).1 | [] => true
  | none => true

theorem webFine_sound {n i : Nat} (h : webFine n i = true) {out : Served Empty} {q : Request Empty} {tok : Option TokenInfo} {rest : List (Request Empty × Option TokenInfo)}
    {r : Response Empty} (h1 : ((Web.World.init plainSelf taskSrv).run webCfg (webTask.take n)).served webCfg i 0 [] echoEnv true true [] = some out)
    (h2 : out.handled = (q, tok) :: rest) (h3 : (dispatch echoEnv ((Web.World.init plainSelf taskSrv).run webCfg (webTask.take n)).srv q).1 = .answer r) : PlainAnswer (.resp r) := by
  unfold webFine at h
  rw [h1] at h
  simp only [h2] at h
  exact fineOut_sound h h3

theorem webTask_serves {p i : Nat} {now : Int} {a : Bytes} {env : Env Empty Nat} {n e : Bool} {d : Bytes} (hp : p < 27) (h : webTask[p]? = some (.serve i now a env n e d)) :
    (p = 6 ∧ i = 0 ∧ now = 0 ∧ a = [] ∧ env = echoEnv ∧ n = true ∧ e = true ∧ d = []) ∨
    (p = 19 ∧ i = 1 ∧ now = 0 ∧ a = [] ∧ env = echoEnv ∧ n = true ∧ e = true ∧ d = []) := by
  match p, hp with
  | 6, _ => cases h; exact .inl ⟨rfl, rfl, rfl, rfl, rfl, rfl, rfl, rfl⟩
  | 19, _ => cases h; exact .inr ⟨rfl, rfl, rfl, rfl, rfl, rfl, rfl, rfl⟩
  | 0, _ | 1, _ | 2, _ | 3, _ | 4, _ | 5, _ | 7, _ | 8, _ | 9, _ | 10, _ | 11, _ | 12, _ | 13, _ | 14, _ | 15, _ | 16, _ | 17, _ | 18, _ | 20, _ | 21, _ | 22, _ | 23, _ | 24, _ | 25, _
  | 26, _ => cases h

theorem webTask_carried : Web.Carried webCfg (Web.World.init plainSelf taskSrv) webTask := by
  refine ⟨fun v token m hv => (by cases hv), ?_, ?_, ?_, ?_⟩
  · intro api h v hv
    simp only [webTask, List.mem_cons, List.not_mem_nil, or_false, reduceCtorEq, false_or] at h
    rcases h with h | h <;> cases h <;> cases hv <;> exact (fine_sound (lit "error") _ (by decide +kernel)).1
  · intro op h
    simp only [webTask, List.mem_cons, List.not_mem_nil, or_false, reduceCtorEq, false_or] at h
    rcases h with h | h | h | h | h | h | h <;> cases h <;> trivial
  · rintro p q env σ r ⟨i, now, a, n, e, d, out, tok, rest, h1, h2, h3, rfl, h5⟩
    rcases webTask_serves (lt_of_get h1) h1 with ⟨rfl, rfl, rfl, rfl, rfl, rfl, rfl, rfl⟩ | ⟨rfl, rfl, rfl, rfl, rfl, rfl, rfl, rfl⟩
    · exact webFine_sound (by decide +kernel) h2 h3 h5
    · exact webFine_sound (by decide +kernel) h2 h3 h5
  · intro u h
    simp [webTask] at h

/-- A task was created and its outcome fetched: the case of `C131_http_partial`. -/
example : Web.Carried webCfg (Web.World.init plainSelf taskSrv) webTask ∧
    let w := (Web.World.init plainSelf taskSrv).run webCfg webTask
    w.slots.length < 2 ^ 32 ∧ taskSetup.length + webTask.length + 1 < 2 ^ 64 ∧
    (match w.client.calls with
      | [⟨_, .over (some (.created t _)), _, _, _⟩, ⟨_, .over (some (.json v)), _, _, _⟩] => t.taskId == lit "task-1" && v.get? (lit "structuredContent") == some toolArgs
      | _ => false) = true :=
  ⟨webTask_carried, by decide +kernel⟩

end Verif
