import Verif.Server.Dispatch

/-!
The context of a request: `RequestContextScope` (Server.cpp 37-113) and `TokenInfoScope` (auth/ServerAuth.cpp 18-67). Both keep a
`thread_local` pointer to an object on the stack of the caller; the constructor of the scope saves the pointer and sets it, the destructor
puts the saved pointer back, on return and on unwinding alike.

Objects get a new address each time and are gone once their scope ends, so that reading through a pointer kept too long is visible as
`dangling`. The scopes of a thread nest (they are local variables), so leaving means leaving the innermost one.
-/

namespace Verif.Context

open Verif.Tasks

variable {D V : Type}

/-- What a thread holds: the pointer, and its open scopes, innermost first, each with the saved pointer and its object. -/
structure Thread where
  cur : Option Nat
  scopes : List (Option Nat × Option Nat)

structure Mem (V : Type) where
  objects : Nat → Option V
  next : Nat
  threads : Nat → Thread

def Mem.init : Mem V := ⟨fun _ => none, 0, fun _ => ⟨none, []⟩⟩

/-- `enter t (some v)`: an object and a scope for it; `enter t none`: a scope with a null pointer (HTTPServer.cpp 711 without
authentication). `leave t`: the innermost scope ends, and then its object. -/
inductive Op (V : Type) where
  | enter (t : Nat) (v : Option V)
  | leave (t : Nat)

def setAt {T : Type} (f : Nat → T) (k : Nat) (x : T) : Nat → T := fun i => if i = k then x else f i

/-- The object of a scope is destroyed. -/
def dropObj (f : Nat → Option V) : Option Nat → Nat → Option V
  | some a => setAt f a none
  | none => f

/-- Constructor 86-89 and destructor 91-93; ServerAuth.cpp 61-67. -/
def Mem.step (m : Mem V) : Op V → Mem V
  | .enter t v =>
    let th := m.threads t
    let p := v.map (fun _ => m.next)
    { objects := setAt m.objects m.next v, next := m.next + 1, threads := setAt m.threads t ⟨p, (th.cur, p) :: th.scopes⟩ }
  | .leave t =>
    match (m.threads t).scopes with
    | [] => m
    | (prev, own) :: rest =>
      { m with objects := dropObj m.objects own, threads := setAt m.threads t ⟨prev, rest⟩ }

def Mem.run (m : Mem V) (ops : List (Op V)) : Mem V := ops.foldl Mem.step m

/-- What a thread reads through its pointer. -/
inductive Reading (V : Type) where
  | null
  | value (v : V)
  | dangling

/-- 101-113; ServerAuth.cpp 57-59. -/
def Mem.read (m : Mem V) (t : Nat) : Reading V :=
  match (m.threads t).cur with
  | none => .null
  | some a => match m.objects a with | some v => .value v | none => .dangling

/-! ### The context of a request -/

/-- `RequestContext`, 37-40. -/
structure Ctx where
  requestId : Option Bytes
  progressToken : Option Bytes
  deriving DecidableEq

/-- `requestIdToString`, 45-57. -/
def requestIdText : RpcId → Option Bytes
  | .str s => if s = [] then none else some s
  | .int i => some (intDec i)
  | .null => none

/-- `extractProgressToken`, 59-82. -/
def progressTokenOf (params : Option (JVal D)) : Option Bytes :=
  match params with
  | some (.obj m) =>
    match AMap.get m (lit "_meta") with
    | some (.obj o) =>
      match AMap.get o (lit "progressToken") with
      | some (.str s) => if s = [] then none else some s
      | some (.int i) => some (intDec i)
      | _ => none
    | _ => none
  | _ => none

/-- 1554. -/
def ctxOf (req : Request D) : Ctx := ⟨requestIdText req.id, progressTokenOf req.params⟩

/-- `CurrentRequestId` and `CurrentProgressToken`, 101-113. -/
def currentRequestId (m : Mem Ctx) (t : Nat) : Option (Option Bytes) :=
  match m.read t with | .null => some none | .value c => some c.requestId | .dangling => none
def currentProgressToken (m : Mem Ctx) (t : Nat) : Option (Option Bytes) :=
  match m.read t with | .null => some none | .value c => some c.progressToken | .dangling => none

end Verif.Context
