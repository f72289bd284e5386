import Verif.Json.Model

/-!
# The text form of JSON documents

`try_into_json` and `try_from_json` (`protocol/serialization-types/src/type_annotations.rs:38-48`), `FromStr` and `Display` of hashes
(`macros.rs:14-57`) and the requests and answers of the pages go through `serde_json::to_string` and `serde_json::from_str`.  Model
of both (external crate, transcribed from its documentation and the JSON grammar it implements): the compact printer, and the reader
with its limit of nesting.

Simplifications.  A text is read into a document and the document is then decoded; `serde_json` does both at once, so that of
several faults another one may be reported, and in members that no field asks for it accepts numbers out of the range of `f64` and
unpaired surrogates.  Errors carry no message and no position.  Numbers that are no integers are printed and read by `Floats`.
-/

namespace MinaRs.Json

open Text (Text decimal)

/-- How `f64`s are printed and read (external; no JSON form of `protocol/serialization-types/src` has one); `none`: out of range. -/
structure Floats where
  print : UInt64 → Text
  read : Text → Option UInt64

/-! ## Printing -/

/-- One hexadecimal digit as `serde_json` writes it (external, used at `type_annotations.rs:47`, `payment.rs:86`). -/
def hexChar (n : Nat) : Char := "0123456789abcdef".toList.getD n '0'

/-- A character of a string as `serde_json` writes it (`format_escaped_str`, external, used at `type_annotations.rs:47`, by
`RequestBuilder::json` at `payment.rs:86, 105, 124, 147`, `js_exports.rs:88, 110, 135`). -/
def escapeChar (c : Char) : Text :=
  if c = '"' then ['\\', '"']
  else if c = '\\' then ['\\', '\\']
  else if c.toNat = 8 then ['\\', 'b']
  else if c.toNat = 9 then ['\\', 't']
  else if c.toNat = 10 then ['\\', 'n']
  else if c.toNat = 12 then ['\\', 'f']
  else if c.toNat = 13 then ['\\', 'r']
  else if c.toNat < 32 then ['\\', 'u', '0', '0', hexChar (c.toNat / 16), hexChar (c.toNat % 16)]
  else [c]

/-- A string with its quotes (`serde_json::to_string`, external, used at `type_annotations.rs:47`, `macros.rs:18`). -/
def printString (s : String) : Text := '"' :: (s.toList.flatMap escapeChar ++ ['"'])

/-- An integer (`serde_json::to_string`, external, used at `type_annotations.rs:47`). -/
def printInt (n : Int) : Text := if n < 0 then '-' :: decimal n.natAbs else decimal n.natAbs

mutual
/-- `serde_json::to_string` (external, used at `type_annotations.rs:47`, `macros.rs:18, 35`). -/
def print (F : Floats) : J → Text
  | .null => ['n', 'u', 'l', 'l']
  | .bool true => ['t', 'r', 'u', 'e']
  | .bool false => ['f', 'a', 'l', 's', 'e']
  | .num n => printInt n
  | .float bits => F.print bits
  | .str s => printString s
  | .arr [] => ['[', ']']
  | .arr (j :: js) => '[' :: (print F j ++ printItems F js)
  | .obj [] => ['{', '}']
  | .obj ((k, j) :: es) => '{' :: (printString k ++ ':' :: (print F j ++ printEntries F es))
/-- The further items of a list, and its end (external, used at `type_annotations.rs:47`). -/
def printItems (F : Floats) : List J → Text
  | [] => [']']
  | j :: js => ',' :: (print F j ++ printItems F js)
/-- The further members of an object, and its end (external, used at `type_annotations.rs:47`). -/
def printEntries (F : Floats) : List (String × J) → Text
  | [] => ['}']
  | (k, j) :: es => ',' :: (printString k ++ ':' :: (print F j ++ printEntries F es))
end

/-! ## Reading -/

/-- White space (`parse_whitespace`, external, used at `type_annotations.rs:40`). -/
def isSpace (c : Char) : Bool := c = ' ' || c = '\n' || c = '\t' || c = '\r'

/-- Skips white space (external, used at `type_annotations.rs:40`). -/
def skipSpace (s : Text) : Text := s.dropWhile isSpace

/-- The value of a hexadecimal digit (`decode_hex_escape`, external, used at `type_annotations.rs:40`). -/
def hexValue (c : Char) : Option Nat :=
  if 48 ≤ c.toNat ∧ c.toNat ≤ 57 then some (c.toNat - 48)
  else if 97 ≤ c.toNat ∧ c.toNat ≤ 102 then some (c.toNat - 87)
  else if 65 ≤ c.toNat ∧ c.toNat ≤ 70 then some (c.toNat - 55)
  else none

/-- Four hexadecimal digits (`decode_hex_escape`, external, used at `type_annotations.rs:40`). -/
def hex4 : Text → Option (Nat × Text)
  | a :: b :: c :: d :: rest =>
    match hexValue a, hexValue b, hexValue c, hexValue d with
    | some a, some b, some c, some d => some (((a * 16 + b) * 16 + c) * 16 + d, rest)
    | _, _, _, _ => none
  | _ => none

/-- What follows `\u`: a character, in one unit or in a pair of surrogates (`parse_unicode_escape`, external, used at
`type_annotations.rs:40`). -/
def unicodeEscape (s : Text) : Option (Char × Text) :=
  match hex4 s with
  | none => none
  | some (n, rest) =>
    if 0xDC00 ≤ n ∧ n ≤ 0xDFFF then none
    else if 0xD800 ≤ n ∧ n ≤ 0xDBFF then
      match rest with
      | '\\' :: 'u' :: rest' =>
        match hex4 rest' with
        | none => none
        | some (m, rest'') =>
          if 0xDC00 ≤ m ∧ m ≤ 0xDFFF then some (Char.ofNat ((n - 0xD800) * 0x400 + (m - 0xDC00) + 0x10000), rest'') else none
      | _ => none
    else some (Char.ofNat n, rest)

/-- What follows a backslash (`parse_escape`, external, used at `type_annotations.rs:40`). -/
def escape : Text → Option (Char × Text)
  | '"' :: r => some ('"', r)
  | '\\' :: r => some ('\\', r)
  | '/' :: r => some ('/', r)
  | 'b' :: r => some (Char.ofNat 8, r)
  | 'f' :: r => some (Char.ofNat 12, r)
  | 'n' :: r => some ('\n', r)
  | 'r' :: r => some ('\r', r)
  | 't' :: r => some ('\t', r)
  | 'u' :: r => unicodeEscape r
  | _ => none

/-- The content of a string after its opening quote, in at most so many characters (`parse_str`, external, used at
`type_annotations.rs:40`). -/
def readString : Nat → Text → Option (Text × Text)
  | 0, _ => none
  | _ + 1, [] => none
  | n + 1, c :: r =>
    if c = '"' then some ([], r)
    else if c = '\\' then
      match escape r with
      | none => none
      | some (e, r') => (readString n r').map fun x => (e :: x.1, x.2)
    else if c.toNat < 32 then none
    else (readString n r).map fun x => (c :: x.1, x.2)

/-- A decimal digit (external, used at `type_annotations.rs:40`). -/
def isDigit (c : Char) : Bool := 48 ≤ c.toNat && c.toNat ≤ 57

/-- The number that digits say (external, used at `type_annotations.rs:40`). -/
def digitsValue (ds : Text) : Nat := ds.foldl (fun n c => 10 * n + (c.toNat - 48)) 0

/-- A part of a number that may be missing: its text and the rest (`parse_decimal`, external, used at `type_annotations.rs:40`). -/
def readFraction : Text → Option (Text × Text)
  | '.' :: r => if r.takeWhile isDigit = [] then none else some ('.' :: r.takeWhile isDigit, r.dropWhile isDigit)
  | s => some ([], s)

/-- The sign of an exponent (`parse_exponent`, external, used at `type_annotations.rs:40`). -/
def readSign : Text → Text × Text
  | '+' :: r => (['+'], r)
  | '-' :: r => (['-'], r)
  | r => ([], r)

/-- The exponent of a number, if there is one (`parse_exponent`, external, used at `type_annotations.rs:40`). -/
def readExponent : Text → Option (Text × Text)
  | [] => some ([], [])
  | c :: r =>
    if c = 'e' ∨ c = 'E' then
      if (readSign r).2.takeWhile isDigit = [] then none
      else some (c :: ((readSign r).1 ++ (readSign r).2.takeWhile isDigit), (readSign r).2.dropWhile isDigit)
    else some ([], c :: r)

/-- The number after its sign (`parse_integer`, `parse_number`, external, used at `type_annotations.rs:40`): an integer of 64 bits,
with or without sign, or a number of type `f64`. -/
def readUnsigned (F : Floats) (negative : Bool) (s : Text) : Option (J × Text) :=
  let ds := s.takeWhile isDigit
  if ds = [] then none
  else if ds.head? = some '0' ∧ 1 < ds.length then none
  else
    match readFraction (s.dropWhile isDigit) with
    | none => none
    | some (fr, r) =>
      match readExponent r with
      | none => none
      | some (ex, r') =>
        let n := digitsValue ds
        if fr = [] ∧ ex = [] ∧ negative = false ∧ n < 2 ^ 64 then some (.num n, r')
        else if fr = [] ∧ ex = [] ∧ negative = true ∧ 0 < n ∧ n ≤ 2 ^ 63 then some (.num (-n), r')
        else (F.read ((if negative then ['-'] else []) ++ ds ++ fr ++ ex)).map fun bits => (.float bits, r')

/-- A number (`parse_any_number`, external, used at `type_annotations.rs:40`). -/
def readNumber (F : Floats) : Text → Option (J × Text)
  | '-' :: r => readUnsigned F true r
  | s => readUnsigned F false s

mutual
/-- One value (`parse_value`, external, used at `type_annotations.rs:40`).  The first number bounds the steps, the second is how deep
values may still be nested. -/
def readValue (F : Floats) : Nat → Nat → Text → Option (J × Text)
  | 0, _, _ => none
  | fuel + 1, depth, s =>
    match skipSpace s with
    | 'n' :: 'u' :: 'l' :: 'l' :: r => some (.null, r)
    | 't' :: 'r' :: 'u' :: 'e' :: r => some (.bool true, r)
    | 'f' :: 'a' :: 'l' :: 's' :: 'e' :: r => some (.bool false, r)
    | '"' :: r => (readString (r.length + 1) r).map fun x => (.str (String.ofList x.1), x.2)
    | '[' :: r =>
      if depth = 0 then none
      else match skipSpace r with
        | ']' :: r' => some (.arr [], r')
        | _ =>
          match readValue F fuel (depth - 1) r with
          | none => none
          | some (j, r') => (readItems F fuel (depth - 1) r').map fun x => (.arr (j :: x.1), x.2)
    | '{' :: r =>
      if depth = 0 then none
      else match skipSpace r with
        | '}' :: r' => some (.obj [], r')
        | _ =>
          match readMember F fuel (depth - 1) r with
          | none => none
          | some (e, r') => (readMembers F fuel (depth - 1) r').map fun x => (.obj (e :: x.1), x.2)
    | s' => readNumber F s'
/-- The further items of a list, and its end (`SeqAccess`, external, used at `type_annotations.rs:40`). -/
def readItems (F : Floats) : Nat → Nat → Text → Option (List J × Text)
  | 0, _, _ => none
  | fuel + 1, depth, s =>
    match skipSpace s with
    | ']' :: r => some ([], r)
    | ',' :: r =>
      match readValue F fuel depth r with
      | none => none
      | some (j, r') => (readItems F fuel depth r').map fun x => (j :: x.1, x.2)
    | _ => none
/-- A member of an object (`MapAccess`, external, used at `type_annotations.rs:40`). -/
def readMember (F : Floats) : Nat → Nat → Text → Option ((String × J) × Text)
  | 0, _, _ => none
  | fuel + 1, depth, s =>
    match skipSpace s with
    | '"' :: r =>
      match readString (r.length + 1) r with
      | none => none
      | some (k, r') =>
        match skipSpace r' with
        | ':' :: r'' => (readValue F fuel depth r'').map fun x => ((String.ofList k, x.1), x.2)
        | _ => none
    | _ => none
/-- The further members of an object, and its end (`MapAccess`, external, used at `type_annotations.rs:40`). -/
def readMembers (F : Floats) : Nat → Nat → Text → Option (List (String × J) × Text)
  | 0, _, _ => none
  | fuel + 1, depth, s =>
    match skipSpace s with
    | '}' :: r => some ([], r)
    | ',' :: r =>
      match readMember F fuel depth r with
      | none => none
      | some (e, r') => (readMembers F fuel depth r').map fun x => (e :: x.1, x.2)
    | _ => none
end

/-- How deep values may be nested (`remaining_depth: 128` of the external crate, used at `type_annotations.rs:40`; the last level is
refused). -/
def maxDepth : Nat := 127

/-- `serde_json::from_str` (external, used at `type_annotations.rs:40`, `macros.rs:19, 36`): one value and white space. -/
def parse (F : Floats) (s : Text) : Option J :=
  match readValue F (s.length + 1) maxDepth s with
  | some (j, r) => if skipSpace r = [] then some j else none
  | none => none

/-! ## The two functions of every JSON type -/

/-- `try_into_json` (`type_annotations.rs:45-48`). -/
def intoJsonText (F : Floats) (E : Env) (t : JTy) (v : t.denote) : Except JErr Text :=
  match ser E t v with
  | .ok j => .ok (print F j)
  | .error e => .error e

/-- `try_from_json` (`type_annotations.rs:39-42`). -/
def fromJsonText (F : Floats) (E : Env) (t : JTy) (s : Text) : Except JErr t.denote :=
  match parse F s with
  | some j => de E t j
  | none => .error .err

end MinaRs.Json
