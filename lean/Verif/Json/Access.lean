import Verif.Base.AMap
import Verif.Json.Model

/-! Typed access to members of JSON objects, as done all over the library:
`auto it = o.find(k); if (it != o.end() && it->second && std::holds_alternative<T>(it->second->value)) ...`.
Null `shared_ptr`s inside values are not modelled. -/

namespace Verif

variable {D : Type}

/-- The member `k` of an object; `none` for non-objects and missing members. -/
def JVal.get? (v : JVal D) (k : Bytes) : Option (JVal D) :=
  match v with
  | .obj m => AMap.get m k
  | _ => none

def JVal.asStr : JVal D → Option Bytes
  | .str s => some s
  | _ => none

def JVal.asInt : JVal D → Option Int
  | .int i => some i
  | _ => none

def JVal.asBool : JVal D → Option Bool
  | .bool b => some b
  | _ => none

def JVal.asArr : JVal D → Option (List (JVal D))
  | .arr l => some l
  | _ => none

def JVal.asObj : JVal D → Option (List (Bytes × JVal D))
  | .obj m => some m
  | _ => none

/-- The string member `k`. -/
def JVal.strAt (v : JVal D) (k : Bytes) : Option Bytes := (v.get? k).bind JVal.asStr

def JVal.intAt (v : JVal D) (k : Bytes) : Option Int := (v.get? k).bind JVal.asInt

def JVal.boolAt (v : JVal D) (k : Bytes) : Option Bool := (v.get? k).bind JVal.asBool

def JVal.arrAt (v : JVal D) (k : Bytes) : Option (List (JVal D)) := (v.get? k).bind JVal.asArr

def JVal.objAt (v : JVal D) (k : Bytes) : Option (List (Bytes × JVal D)) := (v.get? k).bind JVal.asObj

/-- A member present only when the optional is. -/
def optField (k : Bytes) : Option (JVal D) → List (Bytes × JVal D)
  | none => []
  | some v => [(k, v)]

theorem get_optField_ne {k k' : Bytes} (o : Option (JVal D)) (h : k ≠ k') : AMap.get (optField k o) k' = none := by
  cases o with
  | none => rfl
  | some v => simp [optField, AMap.get, h]

theorem get_optField_self (k : Bytes) (o : Option (JVal D)) : AMap.get (optField k o) k = o := by
  cases o with
  | none => rfl
  | some v => simp [optField, AMap.get]

end Verif
