import Verif.Proto.Model

/-!
# What a protobuf message is

The wire format of protocol buffers (version 3), written down independently of the readers and writers, and the two encodings
of text that the page and the program use.
-/

namespace MinaRs.Proto.Spec

/-- A number in base 128: every byte but the last has its top bit set. -/
inductive IsVarint : Bytes → Prop where
  | last (b : UInt8) : b.toNat < 128 → IsVarint [b]
  | more (b : UInt8) (bs : Bytes) : 128 ≤ b.toNat → IsVarint bs → IsVarint (b :: bs)

/-- The number: seven bits of each byte, least significant first. -/
def number : Bytes → Nat
  | [] => 0
  | b :: bs => b.toNat % 128 + 128 * number bs

/-- The content of a field, by wire type.  A number is given with the bytes it is written with. -/
inductive Piece where
  | varint (enc : Bytes)
  | fixed64 (bs : Bytes)
  | bytes (bs : Bytes)
  | fixed32 (bs : Bytes)

/-- `tag` announces field number `f` with wire type `w`. -/
def Tag (f w : Nat) (tag : Bytes) : Prop :=
  IsVarint tag ∧ tag.length ≤ 10 ∧ number tag = 8 * f + w ∧ 1 ≤ f ∧ f < 2 ^ 29

/-- One field as bytes. -/
inductive Written : Nat → Piece → Bytes → Prop where
  | varint (f : Nat) (tag enc : Bytes) : Tag f 0 tag → IsVarint enc → enc.length ≤ 10 → number enc < 2 ^ 64 →
      Written f (.varint enc) (tag ++ enc)
  | fixed64 (f : Nat) (tag bs : Bytes) : Tag f 1 tag → bs.length = 8 → Written f (.fixed64 bs) (tag ++ bs)
  | bytes (f : Nat) (tag len bs : Bytes) : Tag f 2 tag → IsVarint len → len.length ≤ 10 → number len = bs.length →
      bs.length < 2 ^ 31 → Written f (.bytes bs) (tag ++ (len ++ bs))
  | fixed32 (f : Nat) (tag bs : Bytes) : Tag f 5 tag → bs.length = 4 → Written f (.fixed32 bs) (tag ++ bs)

/-- A message: its fields one after the other, in any order, any number of times. -/
inductive Message : List (Nat × Piece) → Bytes → Prop where
  | nil : Message [] []
  | cons (f : Nat) (p : Piece) (fs : List (Nat × Piece)) (bs rest : Bytes) :
      Written f p bs → Message fs rest → Message ((f, p) :: fs) (bs ++ rest)

/-- A message that may also have groups, the older way to nest fields: a tag that starts the group, its fields, a tag that ends it.  None of
the messages here declares a group; the list has the fields outside of groups. -/
inductive WithGroups : List (Nat × Piece) → Bytes → Prop where
  | nil : WithGroups [] []
  | cons (f : Nat) (p : Piece) (fs : List (Nat × Piece)) (bs rest : Bytes) :
      Written f p bs → WithGroups fs rest → WithGroups ((f, p) :: fs) (bs ++ rest)
  | group (f : Nat) (inner fs : List (Nat × Piece)) (start inside stop rest : Bytes) :
      Tag f 3 start → WithGroups inner inside → Tag f 4 stop → WithGroups fs rest →
      WithGroups fs (start ++ (inside ++ (stop ++ rest)))

/-- The field of a number; when there are several, the last. -/
def field (fs : List (Nat × Piece)) (f : Nat) : Option Piece :=
  match fs with
  | [] => none
  | (g, p) :: fs =>
    match field fs f with
    | some q => some q
    | none => if g = f then some p else none

/-- UTF-16: the code units of a character. -/
def utf16Char (c : Char) : List Nat :=
  if c.toNat < 0x10000 then [c.toNat]
  else [0xD800 + (c.toNat - 0x10000) / 1024, 0xDC00 + (c.toNat - 0x10000) % 1024]

/-- UTF-16: the code units of a text, which is what a JavaScript string is. -/
def utf16 (s : String) : List Nat := s.toList.flatMap utf16Char

/-- A pair of 32-bit halves stands for a number of 64 bits: the high half with its sign, the low half without. -/
def IsLong (l : Long) (n : Int) : Prop :=
  n = l.high * 2 ^ 32 + l.low % 2 ^ 32 ∧ -2 ^ 31 ≤ l.low ∧ l.low < 2 ^ 31 ∧ -2 ^ 31 ≤ l.high ∧ l.high < 2 ^ 31 ∧
    l.unsigned = false

/-- What a field's content says to the page, given the declared type. -/
inductive Says : Kind → Piece → JsVal → Prop where
  | bool (enc : Bytes) : Says .bool (.varint enc) (.bool (decide (number enc ≠ 0)))
  | string (s : String) : Says .string (.bytes (BinProt.utf8 s)) (.text (utf16 s))
  | int64 (enc : Bytes) (l : Long) : IsLong l (toSigned 64 (number enc)) → Says .int64 (.varint enc) (.long l)

/-- What a field's content says to the program, given the declared type. -/
inductive Tells : Kind → Piece → RVal → Prop where
  | bool (enc : Bytes) : Tells .bool (.varint enc) (.bool (decide (number enc ≠ 0)))
  | string (s : String) : Tells .string (.bytes (BinProt.utf8 s)) (.str s)
  | int64 (enc : Bytes) : Tells .int64 (.varint enc) (.int (toSigned 64 (number enc)))

/-- `bool` fields whose number takes one byte, as every writer writes them. -/
def ShortBool : Kind → Piece → Prop
  | .bool, .varint enc => enc.length = 1
  | _, _ => True

/-- What the page sees of a value that the program writes: `false`, the empty text and 0 are left out of the message. -/
inductive Shown : RVal → Option JsVal → Prop where
  | yes : Shown (.bool true) (some (.bool true))
  | no : Shown (.bool false) none
  | text (s : String) : s ≠ "" → Shown (.str s) (some (.text (utf16 s)))
  | empty : Shown (.str "") none
  | int (n : Int) (l : Long) : n ≠ 0 → IsLong l n → Shown (.int n) (some (.long l))
  | zero : Shown (.int 0) none

/-- A text that fits in a message. -/
def FitsText (s : String) : Prop := (BinProt.utf8 s).length < 2 ^ 31

/-- A value that fits in a message: a text that is not too long, a number of 64 bits. -/
def FitsR : RVal → Prop
  | .bool _ => True
  | .str s => FitsText s
  | .int n => -2 ^ 63 ≤ n ∧ n < 2 ^ 63

/-- A value of the page that is what its type says: a text without unpaired surrogates, a pair of signed 32-bit halves. -/
def FitsJs : Kind → JsVal → Prop
  | .bool, .bool _ => True
  | .string, .text t => ∃ s, t = utf16 s ∧ FitsText s
  | .int64, .long l => ∃ n, IsLong l n
  | _, _ => False

end MinaRs.Proto.Spec
