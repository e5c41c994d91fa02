import Verif.Client.Cache

/-!
Model of a client that is connected to one server after another: `coConnect` (src/mcp/Client.cpp 1075-1097), `coDisconnect` (1098-1112) and `IsConnected` (2105-2109), together with the list
calls and their cache (`Client/Cache`).

`Connect` puts the new transport in the place of the old one and starts it; nothing else of the client changes. Transports are numbered in the order in which they are given to `Connect`. A reply
comes when it comes, also after the transport was closed or replaced (the transports complete what is pending with an error then, or break the promise); what it says is a parameter. A list call
that has to ask the server goes through the transport pointer without looking at it, 1469, 1605, 1741, 1880: before the first `Connect` that is undefined, and the model stops there.
-/

namespace Verif.Client

variable {D : Type}

/-- A client with its transports. `links` lists the transports and whether each is connected; `via` gives for every list call the transport in use when it was made; `replies` lists which call has
got which reply, in order. -/
structure Rc (D : Type) where
  cache : Cache D
  cur : Option Nat
  links : List Bool
  via : List (Option Nat)
  replies : List (Nat × Outcome D)
  undefined : Bool

/-- A new client. -/
def Rc.init (strict : Bool) : Rc D := ⟨Cache.init strict, none, [], [], [], false⟩

inductive RcOp (D : Type) where
  /-- `Connect` with a new transport; `ok` says whether it is connected when it has started. -/
  | connect (ok : Bool)
  /-- `Disconnect`. -/
  | disconnect
  /-- Transport `l` loses its connection. -/
  | lost (l : Nat)
  /-- What happens to the list calls and their cache. -/
  | cache (op : CacheOp D)

/-- `IsConnected`, 2105-2109. -/
def Rc.isConnected (s : Rc D) : Bool :=
  match s.cur with
  | none => false
  | some l => s.links[l]?.getD false

/-- `coConnect`, 1075-1097. -/
def Rc.connect (s : Rc D) (ok : Bool) : Rc D := { s with cur := some s.links.length, links := s.links ++ [ok] }

/-- `coDisconnect`, 1098-1112: the transport is closed and stays where it is. -/
def Rc.disconnect (s : Rc D) : Rc D :=
  match s.cur with
  | none => s
  | some l => { s with links := s.links.set l false }

/-- A list call: from the cache, or by a request over the transport in use. -/
def Rc.list (s : Rc D) (k : Kind) : Rc D :=
  if (s.cache.hit k).isNone && s.cur.isNone then { s with undefined := true }
  else { s with cache := s.cache.step (.call k), via := s.via ++ [s.cur] }

/-- Is call `i` waiting for its reply? -/
def Rc.waits (s : Rc D) (i : Nat) : Bool :=
  match s.cache.calls[i]? with
  | some ⟨_, .waiting⟩ => true
  | _ => false

def Rc.reply (s : Rc D) (i : Nat) (o : Outcome D) : Rc D :=
  { s with cache := s.cache.step (.reply i o), replies := if s.waits i then s.replies ++ [(i, o)] else s.replies }

def Rc.step (s : Rc D) (op : RcOp D) : Rc D :=
  if s.undefined then s
  else
    match op with
    | .connect ok => s.connect ok
    | .disconnect => s.disconnect
    | .lost l => { s with links := s.links.set l false }
    | .cache (.call k) => s.list k
    | .cache (.reply i o) => s.reply i o
    | .cache op => { s with cache := s.cache.step op }

def Rc.run (s : Rc D) (ops : List (RcOp D)) : Rc D := ops.foldl Rc.step s

end Verif.Client
