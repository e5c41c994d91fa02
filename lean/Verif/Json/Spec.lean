import Verif.Json.RoundTrip

/-!
Specification of JSON texts (RFC 8259), independent of the parser model: which texts denote which value.
-/

namespace Verif

/-- Insignificant whitespace: space, tab, line feed, carriage return. -/
def WsText (w : Bytes) : Prop := ∀ c ∈ w, c = ' ' ∨ c = '\t' ∨ c = '\n' ∨ c = '\r'

/-- The UTF-8 bytes of a character, one `Char` per byte (Lean's own encoder). -/
def utf8Bytes (c : Char) : Bytes := (String.utf8EncodeChar c).map (fun b => Char.ofNat b.toNat)

/-- Hexadecimal digit of either case with its value. -/
inductive HexDig : Char → Nat → Prop where
  | dig (n : Nat) (h : n < 10) : HexDig (Char.ofNat (48 + n)) n
  | low (n : Nat) (h : n < 6) : HexDig (Char.ofNat (97 + n)) (10 + n)
  | up (n : Nat) (h : n < 6) : HexDig (Char.ofNat (65 + n)) (10 + n)

/-- The text between the quotes of a JSON string and the byte string it denotes. Pairs of `\u` escapes denoting a
surrogate pair are not part of this relation (the code does not combine them, see the witness in `Props`). -/
inductive StrText : Bytes → Bytes → Prop where
  | nil : StrText [] []
  | raw (c : Char) {v t : Bytes} (h1 : c ≠ '"') (h2 : c ≠ '\\') (h : StrText v t) : StrText (c :: v) (c :: t)
  | quote {v t : Bytes} (h : StrText v t) : StrText ('"' :: v) ('\\' :: '"' :: t)
  | backslash {v t : Bytes} (h : StrText v t) : StrText ('\\' :: v) ('\\' :: '\\' :: t)
  | slash {v t : Bytes} (h : StrText v t) : StrText ('/' :: v) ('\\' :: '/' :: t)
  | b {v t : Bytes} (h : StrText v t) : StrText (Char.ofNat 8 :: v) ('\\' :: 'b' :: t)
  | f {v t : Bytes} (h : StrText v t) : StrText (Char.ofNat 12 :: v) ('\\' :: 'f' :: t)
  | n {v t : Bytes} (h : StrText v t) : StrText (Char.ofNat 10 :: v) ('\\' :: 'n' :: t)
  | r {v t : Bytes} (h : StrText v t) : StrText (Char.ofNat 13 :: v) ('\\' :: 'r' :: t)
  | t {v t : Bytes} (h : StrText v t) : StrText (Char.ofNat 9 :: v) ('\\' :: 't' :: t)
  | u {v t : Bytes} {a b c d : Char} {na nb nc nd : Nat} (ha : HexDig a na) (hb : HexDig b nb) (hc : HexDig c nc)
      (hd : HexDig d nd) (ch : Char) (hch : ch.toNat = na * 4096 + nb * 256 + nc * 16 + nd) (h : StrText v t) :
      StrText (utf8Bytes ch ++ v) ('\\' :: 'u' :: a :: b :: c :: d :: t)

/-- All characters are decimal digits. -/
def Digits (t : Bytes) : Prop := ∀ c ∈ t, isDig c = true

/-- Fraction part of a number (possibly absent). -/
def FracText (t : Bytes) : Prop := t = [] ∨ ∃ ds, Digits ds ∧ t = '.' :: ds

/-- Exponent part of a number (possibly absent). -/
def ExpText (t : Bytes) : Prop :=
  t = [] ∨ ∃ e sg ds, (e = 'e' ∨ e = 'E') ∧ (sg = [] ∨ sg = ['-'] ∨ sg = ['+']) ∧ ds ≠ [] ∧ Digits ds ∧ t = e :: (sg ++ ds)

/-- The distinct names of a list, in the order of their first appearance. -/
def nameOrder : List Bytes → List Bytes
  | [] => []
  | k :: ks => k :: (nameOrder ks).filter (fun x => decide (x ≠ k))

/-- The members an object denotes when names may be repeated: each name once, with the value given last. -/
def lastWins {α : Type} (ms : List (Bytes × α)) : List (Bytes × α) :=
  (nameOrder (ms.map Prod.fst)).filterMap (fun k => ms.reverse.find? (fun p => decide (p.1 = k)))

variable {D : Type} [DblFmt D]

mutual
/-- `JText v t`: the text `t` (without surrounding whitespace) denotes the value `v`. Integers must fit 64 bits;
the meaning of non-integer numbers is the C library's (`DblFmt.parse`); the last of several members with one name counts. -/
inductive JText : JVal D → Bytes → Prop where
  | null : JText .null (lit "null")
  | true : JText (.bool true) (lit "true")
  | false : JText (.bool false) (lit "false")
  | nat (n : Nat) (h : n < 2 ^ 63) : JText (.int n) (natDec n)
  | neg (n : Nat) (h : n ≤ 2 ^ 63) : JText (.int (-(n : Int))) ('-' :: natDec n)
  | num (d : D) (sg ip fr ex : Bytes) (hs : sg = [] ∨ sg = ['-']) (hi : ip ≠ []) (hi' : Digits ip) (hf : FracText fr)
      (he : ExpText ex) (hne : fr ≠ [] ∨ ex ≠ []) (hd : DblFmt.parse (sg ++ ip ++ fr ++ ex) = some d) :
      JText (.dbl d) (sg ++ ip ++ fr ++ ex)
  | str {s t : Bytes} (h : StrText s t) : JText (.str s) ('"' :: (t ++ ['"']))
  | arr0 (w : Bytes) (h : WsText w) : JText (.arr []) ('[' :: (w ++ [']']))
  | arr {l : List (JVal D)} {t : Bytes} (h : JTexts l t) : JText (.arr l) ('[' :: (t ++ [']']))
  | obj0 (w : Bytes) (h : WsText w) : JText (.obj []) ('{' :: (w ++ ['}']))
  | obj {ms m : List (Bytes × JVal D)} {t : Bytes} (h : JMembers ms t) (hm : m = lastWins ms) :
      JText (.obj m) ('{' :: (t ++ ['}']))
/-- Elements separated by commas, each surrounded by optional whitespace. -/
inductive JTexts : List (JVal D) → Bytes → Prop where
  | one {v : JVal D} {t w1 w2 : Bytes} (h1 : WsText w1) (h : JText v t) (h2 : WsText w2) :
      JTexts [v] (w1 ++ (t ++ w2))
  | cons {v : JVal D} {t w1 w2 : Bytes} {l : List (JVal D)} {ts : Bytes} (h1 : WsText w1) (h : JText v t)
      (h2 : WsText w2) (hl : JTexts l ts) : JTexts (v :: l) (w1 ++ (t ++ (w2 ++ ',' :: ts)))
/-- Members separated by commas. -/
inductive JMembers : List (Bytes × JVal D) → Bytes → Prop where
  | one {k kt : Bytes} {v : JVal D} {t w1 w2 w3 w4 : Bytes} (h1 : WsText w1) (hk : StrText k kt) (h2 : WsText w2)
      (h3 : WsText w3) (h : JText v t) (h4 : WsText w4) :
      JMembers [(k, v)] (w1 ++ '"' :: (kt ++ '"' :: (w2 ++ ':' :: (w3 ++ (t ++ w4)))))
  | cons {k kt : Bytes} {v : JVal D} {t w1 w2 w3 w4 : Bytes} {l : List (Bytes × JVal D)} {ts : Bytes} (h1 : WsText w1)
      (hk : StrText k kt) (h2 : WsText w2) (h3 : WsText w3) (h : JText v t) (h4 : WsText w4) (hl : JMembers l ts) :
      JMembers ((k, v) :: l) (w1 ++ '"' :: (kt ++ '"' :: (w2 ++ ':' :: (w3 ++ (t ++ (w4 ++ ',' :: ts))))))
end

end Verif
