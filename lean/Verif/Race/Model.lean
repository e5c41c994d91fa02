/-!
Data races: what the functions of a class do to the members they share, as far as the order between threads is concerned.

A function is a piece of `Code`: which members it reads and writes, which mutexes it holds meanwhile, which functions it calls and which threads it starts. The values are left out, so every
statement may be left out by an execution (a branch not taken, an early return, an exception: the guards are released on the way out) and a loop may go round any number of times.

An execution is recorded as the list of its events. What comes before what is read off that list: `HB` is the "happens before" of the C++ standard for the order within a thread, for
unlocking and locking a mutex and for starting a thread. A data race is a pair of accesses of one member, not both reads, neither of which happens before the other; the standard leaves such
a program undefined.
-/

namespace Verif.Race

/-- What a function does; `L` are the members, `M` the mutexes, `K` the functions. `sync` is an access of an atomic member, or the setting and the getting of a promise. -/
inductive Code (L M K : Type) where
  | skip
  | read (x : L)
  | write (x : L)
  | sync (x : L)
  | seq (a b : Code L M K)
  /-- the scope of a `lock_guard` or `unique_lock` -/
  | guard (m : M) (a : Code L M K)
  | loop (a : Code L M K)
  | call (k : K)
  /-- start a thread that runs function `k` -/
  | spawn (k : K)

/-- One after the other. -/
def Code.all {L M K : Type} : List (Code L M K) → Code L M K
  | [] => .skip
  | c :: cs => .seq c (Code.all cs)

/-- What is seen of an execution. -/
inductive Ev (L M : Type) where
  | read (x : L)
  | write (x : L)
  | sync (x : L)
  | lock (m : M)
  | unlock (m : M)
  | spawn (t : Nat)
  deriving DecidableEq

/-- What a thread has still to do: code, or to release a mutex at the end of a scope. -/
inductive Item (L M K : Type) where
  | code (c : Code L M K)
  | rel (m : M)

/-- The threads, who holds which mutex, and the events so far with the thread of each. -/
structure Sys (L M K : Type) where
  threads : List (List (Item L M K))
  holder : M → Option Nat
  trace : List (Nat × Ev L M)

/-- One thread, which has `main` to do. -/
def Sys.init {L M K : Type} (main : List (Code L M K)) : Sys L M K := ⟨[main.map .code], fun _ => none, []⟩

/-- Thread `i` goes on with `rest`, and `e` is seen. -/
def Sys.did {L M K : Type} (s : Sys L M K) (i : Nat) (rest : List (Item L M K)) (e : Ev L M) : Sys L M K := { s with threads := s.threads.set i rest, trace := s.trace ++ [(i, e)] }

/-- Thread `i` makes its next step; nothing when it waits for a mutex. -/
def Sys.go {L M K : Type} [DecidableEq M] (prog : K → Code L M K) (s : Sys L M K) (i : Nat) : Sys L M K :=
  match s.threads[i]? with
  | some (.code c :: r) =>
    match c with
    | .skip => { s with threads := s.threads.set i r }
    | .read x => s.did i r (.read x)
    | .write x => s.did i r (.write x)
    | .sync x => s.did i r (.sync x)
    | .seq a b => { s with threads := s.threads.set i (.code a :: .code b :: r) }
    | .guard m a => if s.holder m = none then { s.did i (.code a :: .rel m :: r) (.lock m) with holder := fun n => if n = m then some i else s.holder n } else s
    | .loop a => { s with threads := s.threads.set i (.code a :: .code (.loop a) :: r) }
    | .call k => { s with threads := s.threads.set i (.code (prog k) :: r) }
    | .spawn k => { threads := s.threads.set i r ++ [[.code (prog k)]], holder := s.holder, trace := s.trace ++ [(i, .spawn s.threads.length)] }
  | some (.rel m :: r) => { s.did i r (.unlock m) with holder := fun n => if n = m then none else s.holder n }
  | _ => s

/-- Thread `i` leaves its next statement out. -/
def Sys.leave {L M K : Type} (s : Sys L M K) (i : Nat) : Sys L M K :=
  match s.threads[i]? with
  | some (.code _ :: r) => { s with threads := s.threads.set i r }
  | _ => s

inductive Op where
  | go (i : Nat)
  | leave (i : Nat)

def Sys.step {L M K : Type} [DecidableEq M] (prog : K → Code L M K) (s : Sys L M K) : Op → Sys L M K
  | .go i => s.go prog i
  | .leave i => s.leave i

def Sys.run {L M K : Type} [DecidableEq M] (prog : K → Code L M K) (s : Sys L M K) (ops : List Op) : Sys L M K := ops.foldl (Sys.step prog) s

/-! ### What a data race is -/

/-- Event `a`, which comes first in the list, is ordered before event `b`: in the same thread; `b` locks the mutex that `a` unlocks; `a` starts the thread of `b`. With `sy` also: both are accesses
of one atomic. That is more than the standard grants, and is counted where a race is to be shown. -/
def orders {L M : Type} [DecidableEq L] [DecidableEq M] (sy : Bool) (a b : Nat × Ev L M) : Bool :=
  a.1 == b.1 || (match a.2, b.2 with
    | .unlock m, .lock n => decide (m = n)
    | .sync x, .sync y => sy && decide (x = y)
    | .spawn t, _ => decide (t = b.1)
    | _, _ => false)

/-- Happens before, on the places in the list of events. -/
inductive HB {L M : Type} [DecidableEq L] [DecidableEq M] (sy : Bool) (τ : List (Nat × Ev L M)) : Nat → Nat → Prop where
  | one {i j : Nat} {a b : Nat × Ev L M} (lt : i < j) (ha : τ[i]? = some a) (hb : τ[j]? = some b) (ho : orders sy a b = true) : HB sy τ i j
  | trans {i j k : Nat} : HB sy τ i j → HB sy τ j k → HB sy τ i k

def Ev.touches {L M : Type} (e : Ev L M) (x : L) : Prop := e = .read x ∨ e = .write x

/-- Two accesses of `x`, one of them a write, with no order between them. -/
def Racy {L M : Type} [DecidableEq L] [DecidableEq M] (sy : Bool) (τ : List (Nat × Ev L M)) (x : L) : Prop :=
  ∃ i j a b, i < j ∧ τ[i]? = some a ∧ τ[j]? = some b ∧ a.2.touches x ∧ b.2.touches x ∧ (a.2 = .write x ∨ b.2 = .write x) ∧ ¬ HB sy τ i j

/-! ### What can be read off the code -/

/-- Every access of `x` lies in the scope of a guard of `m`; `h`: the code stands in such a scope. -/
def Code.locked {L M K : Type} [DecidableEq L] [DecidableEq M] (x : L) (m : M) : Bool → Code L M K → Bool
  | h, .read y => h || !decide (y = x)
  | h, .write y => h || !decide (y = x)
  | h, .seq a b => a.locked x m h && b.locked x m h
  | h, .guard n a => a.locked x m (h || decide (n = m))
  | h, .loop a => a.locked x m h
  | _, _ => true

/-- The code does not write `x`. -/
def Code.spares {L M K : Type} [DecidableEq L] (x : L) : Code L M K → Bool
  | .write y => !decide (y = x)
  | .seq a b => a.spares x && b.spares x
  | .guard _ a => a.spares x
  | .loop a => a.spares x
  | _ => true

/-- The code starts no thread and calls nothing that could. -/
def Code.quiet {L M K : Type} : Code L M K → Bool
  | .seq a b => a.quiet && b.quiet
  | .guard _ a => a.quiet
  | .loop a => a.quiet
  | .call _ => false
  | .spawn _ => false
  | _ => true

end Verif.Race
