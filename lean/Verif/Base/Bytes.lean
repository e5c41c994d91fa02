/-
Byte strings and the few `std::string` operations the modelled code uses.

`std::string` is modelled as `List Char`; a byte `b` is the character with code `b`.
All theorems quantify over all characters, hence in particular over all bytes.
-/

namespace Verif

/-- `std::string`. -/
abbrev Bytes := List Char

/-- String literal as bytes. -/
def lit (s : String) : Bytes := s.toList

/-- `std::string::find(pat)` together with the two `substr` calls around the hit: the text before the
first occurrence of `pat` and the text after it; `none` is `npos`. -/
def splitSub (pat : Bytes) : Bytes → Option (Bytes × Bytes)
  | [] => if pat = [] then some ([], []) else none
  | c :: cs =>
    if pat.isPrefixOf (c :: cs) then some ([], (c :: cs).drop pat.length)
    else (splitSub pat cs).map (fun p => (c :: p.1, p.2))

/-- `std::string::find(ch)` with the surrounding `substr` calls. -/
def splitCh (ch : Char) : Bytes → Option (Bytes × Bytes)
  | [] => none
  | c :: cs => if c = ch then some ([], cs) else (splitCh ch cs).map (fun p => (c :: p.1, p.2))

/-- `std::isdigit` in the C locale. -/
def isDig (c : Char) : Bool := decide ('0'.toNat ≤ c.toNat ∧ c.toNat ≤ '9'.toNat)

/-- `std::tolower` in the C locale, on one byte. -/
def lowerCh (c : Char) : Char :=
  if 'A'.toNat ≤ c.toNat ∧ c.toNat ≤ 'Z'.toNat then Char.ofNat (c.toNat + 32) else c

/-- `std::isspace` in the C locale. -/
def isSpaceCh (c : Char) : Bool :=
  c = ' ' || c = '\t' || c = '\n' || c = '\r' || c.toNat = 11 || c.toNat = 12

/-- Decimal digit value. -/
def digVal (c : Char) : Nat := c.toNat - '0'.toNat

/-- Value of a run of decimal digits, most significant first. -/
def digitsVal (ds : Bytes) : Nat := ds.foldl (fun a c => a * 10 + digVal c) 0

/-- `std::to_string` of an unsigned integer. -/
def natDec (n : Nat) : Bytes := Nat.toDigits 10 n

/-- `std::to_string` of a signed integer. -/
def intDec (i : Int) : Bytes :=
  match i with
  | .ofNat n => natDec n
  | .negSucc n => '-' :: natDec (n + 1)

end Verif
