import Verif.Base.AMap

/-!
Model of resource template matching and of the choice of the handler for a read (src/mcp/Server.cpp 257-354, 977-985).
-/

namespace Verif.Resource

/-- `struct Token`, 259-262. -/
inductive Tok where
  | text (s : Bytes)
  | var (name : Bytes)
  deriving DecidableEq

theorem splitCh_length {ch : Char} {s a b : Bytes} (h : splitCh ch s = some (a, b)) : b.length < s.length := by
  induction s generalizing a with
  | nil => simp [splitCh] at h
  | cons c cs ih =>
    simp only [splitCh] at h
    split at h
    · cases h; simp
    · rw [Option.map_eq_some_iff] at h
      obtain ⟨p, hp, he⟩ := h
      cases p with | mk x y =>
      have := ih (a := x) (by cases he; exact hp)
      simp; omega

/-- The tokeniser, 264-281; `cursor` is where the argument starts. `none` is `return std::nullopt`. -/
def tokenize (t : Bytes) : Option (List Tok) :=
  if t = [] then some []
  else
    match _h1 : splitCh '{' t with
    | none => some [.text t]
    | some (a, rest) =>
      match _h2 : splitCh '}' rest with
      | none => none
      | some (name, rest') =>
        if name = [] then none
        else (tokenize rest').map (fun ts => (if a = [] then [] else [Tok.text a]) ++ .var name :: ts)
termination_by t.length
decreasing_by
  have := splitCh_length _h1
  have := splitCh_length _h2
  omega

/-- `ResourceTemplateVariables`, a map from names to values. -/
abbrev Vars := Bytes → Option Bytes

def Vars.set (v : Vars) (n val : Bytes) : Vars := fun m => if m = n then some val else v m

def Vars.erase (v : Vars) (n : Bytes) : Vars := fun m => if m = n then none else v m

def Vars.empty : Vars := fun _ => none

/-- The candidate loop, 304-309: `pre` is the candidate value, `rest` the URI after it; `variables` is shared mutable state. -/
def tryEnds (f : Vars → Bytes → Bool × Vars) (n : Bytes) (vars : Vars) (pre : Bytes) : Bytes → Bool × Vars
  | [] => f (vars.set n pre) []
  | c :: cs =>
    let r := f (vars.set n pre) (c :: cs)
    if r.1 then r else tryEnds f n r.2 (pre ++ [c]) cs

/-- `match`, 284-317, on the rest of the tokens and the rest of the URI; the flag and the state of `variables`.
(`uriIndex > uri.size()` cannot happen: the index only moves over matched text.) -/
def matchToks : List Tok → Vars → Bytes → Bool × Vars
  | [], vars, u => (u.isEmpty, vars)
  | .text s :: ts, vars, u => if s.isPrefixOf u then matchToks ts vars (u.drop s.length) else (false, vars)
  | .var n :: ts, vars, u =>
    let r := tryEnds (matchToks ts) n vars [] u
    if r.1 then r
    else (false, match vars n with | some v => r.2.set n v | none => r.2.erase n)

/-- `matchResourceTemplate`, 257-323. -/
def matchTemplate (t uri : Bytes) : Option Vars :=
  match tokenize t with
  | none => none
  | some ts =>
    let r := matchToks ts Vars.empty uri
    if r.1 then some r.2 else none

/-- `ResolvedResourceRead`. Handlers are `std::function`s: `none` is an empty one. -/
structure Resolved (H T : Type) where
  direct : Option H
  template : Option T
  vars : Vars
  usesTemplate : Bool
  ambiguous : Bool

/-- The loop over the templates, 335-352. -/
def resolveLoop {H T : Type} (uri : Bytes) : List (Bytes × Option T) → Resolved H T → Resolved H T
  | [], r => r
  | (_, none) :: es, r => resolveLoop uri es r
  | (t, some h) :: es, r =>
    match matchTemplate t uri with
    | none => resolveLoop uri es r
    | some vars =>
      if r.usesTemplate then { r with ambiguous := true, template := none, vars := Vars.empty }
      else resolveLoop uri es { r with usesTemplate := true, template := some h, vars := vars }

/-- `resolveResourceRead`, 325-354: direct handlers by URI, and the registered templates in order. -/
def resolve {H T : Type} (handlers : List (Bytes × Option H)) (templates : List (Bytes × Option T)) (uri : Bytes) : Resolved H T :=
  match AMap.get handlers uri with
  | some h => ⟨h, none, Vars.empty, false, false⟩
  | none => resolveLoop uri templates ⟨none, none, Vars.empty, false, false⟩

/-- What `handleResourcesRead` does with the answer, 977-999. -/
inductive Choice (H T : Type) where
  | ambiguous
  | notFound
  | direct (h : H)
  | template (h : T) (vars : Vars)
  | badCall

def choose {H T : Type} (handlers : List (Bytes × Option H)) (templates : List (Bytes × Option T)) (uri : Bytes) : Choice H T :=
  let r := resolve handlers templates uri
  if r.ambiguous then .ambiguous
  else if r.direct.isNone && r.template.isNone then .notFound
  else if r.usesTemplate then
    match r.template with | some h => .template h r.vars | none => .badCall
  else match r.direct with | some h => .direct h | none => .badCall

end Verif.Resource
