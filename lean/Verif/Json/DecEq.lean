import Verif.Json.Model

/-! Decidable equality of JSON values (for evaluating concrete witnesses). -/

namespace Verif
variable {D : Type} [DecidableEq D]

mutual
def JVal.eqb : JVal D → JVal D → Bool
  | .null, .null => true
  | .bool a, .bool b => a == b
  | .int a, .int b => a == b
  | .dbl a, .dbl b => decide (a = b)
  | .str a, .str b => a == b
  | .arr a, .arr b => eqbList a b
  | .obj a, .obj b => eqbFields a b
  | _, _ => false
def eqbList : List (JVal D) → List (JVal D) → Bool
  | [], [] => true
  | a :: as, b :: bs => a.eqb b && eqbList as bs
  | _, _ => false
def eqbFields : List (Bytes × JVal D) → List (Bytes × JVal D) → Bool
  | [], [] => true
  | (k, a) :: as, (l, b) :: bs => k == l && a.eqb b && eqbFields as bs
  | _, _ => false
end

mutual
theorem JVal.eqb_iff (a b : JVal D) : a.eqb b = true ↔ a = b := by
  match a, b with
  | .arr x, .arr y => simp [JVal.eqb, eqbList_iff x y]
  | .obj x, .obj y => simp [JVal.eqb, eqbFields_iff x y]
  | .null, b => cases b <;> simp [JVal.eqb]
  | .bool _, b => cases b <;> simp [JVal.eqb]
  | .int _, b => cases b <;> simp [JVal.eqb]
  | .dbl _, b => cases b <;> simp [JVal.eqb]
  | .str _, b => cases b <;> simp [JVal.eqb]
  | .arr x, .null | .arr x, .bool _ | .arr x, .int _ | .arr x, .dbl _ | .arr x, .str _ | .arr x, .obj _ => simp [JVal.eqb]
  | .obj x, .null | .obj x, .bool _ | .obj x, .int _ | .obj x, .dbl _ | .obj x, .str _ | .obj x, .arr _ => simp [JVal.eqb]
theorem eqbList_iff (a b : List (JVal D)) : eqbList a b = true ↔ a = b := by
  match a, b with
  | [], [] => simp [eqbList]
  | [], _ :: _ => simp [eqbList]
  | _ :: _, [] => simp [eqbList]
  | x :: xs, y :: ys => simp [eqbList, JVal.eqb_iff x y, eqbList_iff xs ys]
theorem eqbFields_iff (a b : List (Bytes × JVal D)) : eqbFields a b = true ↔ a = b := by
  match a, b with
  | [], [] => simp [eqbFields]
  | [], _ :: _ => simp [eqbFields]
  | _ :: _, [] => simp [eqbFields]
  | (k, x) :: xs, (l, y) :: ys => simp [eqbFields, JVal.eqb_iff x y, eqbFields_iff xs ys, and_assoc]
end

instance : DecidableEq (JVal D) := fun a b => decidable_of_iff _ (JVal.eqb_iff a b)

end Verif
