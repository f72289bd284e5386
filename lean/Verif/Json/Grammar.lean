import Verif.Json.Model
import Verif.Base.TextSpec

/-!
# Specification: the grammar of JSON (RFC 8259)

Which texts are JSON, and which document each of them says.  Strings keep their characters, objects keep their members in order,
repeated ones included.  An integer that fits in 64 bits, with or without sign, is that integer; any other number is what `float`
makes of its text.
-/

namespace MinaRs.Json.Grammar

open Text (Text)
open Text.Spec (IsDigit value)

/-- White space. -/
def Space (s : Text) : Prop := ∀ c ∈ s, c = ' ' ∨ c = '\t' ∨ c = '\n' ∨ c = '\r'

/-! ## Strings (section 7) -/

/-- The hexadecimal digits. -/
def Hex (c : Char) (n : Nat) : Prop := "0123456789abcdef".toList[n]? = some c ∨ "0123456789ABCDEF".toList[n]? = some c

/-- Four hexadecimal digits. -/
def Unit16 (u : Text) (n : Nat) : Prop :=
  ∃ a b c d i j k l, u = [a, b, c, d] ∧ Hex a i ∧ Hex b j ∧ Hex c k ∧ Hex d l ∧ n = 4096 * i + 256 * j + 16 * k + l

/-- The characters that a backslash makes. -/
def short : List (Char × Char) :=
  [('"', '"'), ('\\', '\\'), ('/', '/'), ('b', Char.ofNat 8), ('f', Char.ofNat 12), ('n', Char.ofNat 10), ('r', Char.ofNat 13),
    ('t', Char.ofNat 9)]

/-- One character of a string. -/
inductive Chr : Text → Char → Prop
  | plain (c : Char) : c ≠ '"' → c ≠ '\\' → 32 ≤ c.toNat → Chr [c] c
  | short (c e : Char) : (c, e) ∈ short → Chr ['\\', c] e
  | unit (u : Text) (n : Nat) : Unit16 u n → n < 0xD800 ∨ 0xDFFF < n → Chr ('\\' :: 'u' :: u) (Char.ofNat n)
  | pair (u v : Text) (n m : Nat) : Unit16 u n → Unit16 v m → 0xD800 ≤ n ∧ n < 0xDC00 → 0xDC00 ≤ m ∧ m < 0xE000 →
      Chr ('\\' :: 'u' :: (u ++ '\\' :: 'u' :: v)) (Char.ofNat (0x10000 + 0x400 * (n - 0xD800) + (m - 0xDC00)))

/-- The content of a string. -/
inductive Chars : Text → Text → Prop
  | nil : Chars [] []
  | cons (t u : Text) (c : Char) (s : Text) : Chr t c → Chars u s → Chars (t ++ u) (c :: s)

/-- A string. -/
def Str (t : Text) (s : String) : Prop := ∃ u, t = '"' :: (u ++ ['"']) ∧ Chars u s.toList

/-! ## Numbers (section 6) -/

/-- One or more digits. -/
def Digits (ds : Text) : Prop := ds ≠ [] ∧ ∀ c ∈ ds, IsDigit c

/-- An integer without superfluous zeros. -/
def IntPart (ds : Text) : Prop := Digits ds ∧ (ds.head? = some '0' → ds = ['0'])

/-- A fraction, or nothing. -/
def Fraction (t : Text) : Prop := t = [] ∨ ∃ ds, Digits ds ∧ t = '.' :: ds

/-- An exponent, or nothing. -/
def Exponent (t : Text) : Prop :=
  t = [] ∨ ∃ e sign ds, (e = 'e' ∨ e = 'E') ∧ (sign = [] ∨ sign = ['+'] ∨ sign = ['-']) ∧ Digits ds ∧ t = e :: (sign ++ ds)

/-- A sign, or nothing. -/
def Minus (t : Text) (negative : Bool) : Prop := t = if negative then ['-'] else []

/-- The number is an integer of 64 bits; there is no such integer for `-0`. -/
def Fits (negative : Bool) (n : Nat) : Prop := if negative then 0 < n ∧ n ≤ 2 ^ 63 else n < 2 ^ 64

/-- A number. -/
inductive Number (float : Text → Option UInt64) : Text → J → Prop
  | int (sign ds : Text) (negative : Bool) : Minus sign negative → IntPart ds → Fits negative (value ds) →
      Number float (sign ++ ds) (.num (if negative then -value ds else value ds))
  | float (sign ds fr ex : Text) (negative : Bool) (bits : UInt64) : Minus sign negative → IntPart ds → Fraction fr → Exponent ex →
      ¬ (fr = [] ∧ ex = [] ∧ Fits negative (value ds)) → float (sign ++ ds ++ fr ++ ex) = some bits →
      Number float (sign ++ ds ++ fr ++ ex) (.float bits)

/-! ## Values, lists and objects (sections 2 to 5) -/

mutual
/-- A value. -/
inductive Value (float : Text → Option UInt64) : Text → J → Prop
  | null : Value float ['n', 'u', 'l', 'l'] .null
  | true : Value float ['t', 'r', 'u', 'e'] (.bool true)
  | false : Value float ['f', 'a', 'l', 's', 'e'] (.bool false)
  | number (t : Text) (j : J) : Number float t j → Value float t j
  | str (t : Text) (s : String) : Str t s → Value float t (.str s)
  | noItems (w : Text) : Space w → Value float ('[' :: (w ++ [']'])) (.arr [])
  | arr (t : Text) (js : List J) : Items float t js → Value float ('[' :: (t ++ [']'])) (.arr js)
  | noMembers (w : Text) : Space w → Value float ('{' :: (w ++ ['}'])) (.obj [])
  | obj (t : Text) (es : List (String × J)) : Members float t es → Value float ('{' :: (t ++ ['}'])) (.obj es)
/-- One or more values between commas. -/
inductive Items (float : Text → Option UInt64) : Text → List J → Prop
  | one (w v w' : Text) (j : J) : Space w → Value float v j → Space w' → Items float (w ++ (v ++ w')) [j]
  | more (w v w' t : Text) (j : J) (js : List J) : Space w → Value float v j → Space w' → Items float t js →
      Items float (w ++ (v ++ (w' ++ ',' :: t))) (j :: js)
/-- One or more members between commas. -/
inductive Members (float : Text → Option UInt64) : Text → List (String × J) → Prop
  | one (w m w' : Text) (e : String × J) : Space w → Member float m e → Space w' → Members float (w ++ (m ++ w')) [e]
  | more (w m w' t : Text) (e : String × J) (es : List (String × J)) : Space w → Member float m e → Space w' → Members float t es →
      Members float (w ++ (m ++ (w' ++ ',' :: t))) (e :: es)
/-- A name and a value. -/
inductive Member (float : Text → Option UInt64) : Text → String × J → Prop
  | mk (k w w' v : Text) (key : String) (j : J) : Str k key → Space w → Space w' → Value float v j →
      Member float (k ++ (w ++ ':' :: (w' ++ v))) (key, j)
end

/-- The text is JSON and says this document. -/
def Says (float : Text → Option UInt64) (t : Text) (j : J) : Prop :=
  ∃ w v w', t = w ++ (v ++ w') ∧ Space w ∧ Value float v j ∧ Space w'

/-! ## Documents -/

mutual
/-- How deep lists and objects are nested. -/
def depth : J → Nat
  | .arr js => depthAll js + 1
  | .obj es => depthMembers es + 1
  | _ => 0
def depthAll : List J → Nat
  | [] => 0
  | j :: js => max (depth j) (depthAll js)
def depthMembers : List (String × J) → Nat
  | [] => 0
  | (_, j) :: es => max (depth j) (depthMembers es)
end

mutual
/-- All numbers of the document are integers of 64 bits. -/
def Plain : J → Prop
  | .num n => -2 ^ 63 ≤ n ∧ n < 2 ^ 64
  | .float _ => False
  | .arr js => PlainAll js
  | .obj es => PlainMembers es
  | _ => True
def PlainAll : List J → Prop
  | [] => True
  | j :: js => Plain j ∧ PlainAll js
def PlainMembers : List (String × J) → Prop
  | [] => True
  | (_, j) :: es => Plain j ∧ PlainMembers es
end

end MinaRs.Json.Grammar
