/-!
# Texts: the parts of Rust's formatting and parsing that the code relies on

A text is the list of its characters.  The functions here model the standard library (integer
`Display`, `str::parse` for unsigned integers, `str::split`, `str::trim_end_matches` and the width
and fill options of `format!`) as used by `base/src/numbers.rs` and
`protocol/serialization-types/src/common.rs`.
-/

namespace MinaRs.Text

/-- `str`, the texts of `protocol/serialization-types/src/common.rs:35-134`. -/
abbrev Text := List Char

deriving instance DecidableEq for Except

/-- The character of a decimal digit (`protocol/serialization-types/src/common.rs:40`). -/
def digit (d : Nat) : Char := Char.ofNat (48 + d)

/-- `format!("{}", n)` for an unsigned integer (`protocol/serialization-types/src/common.rs:40, 68`). -/
def decimal (n : Nat) : Text :=
  if h : n < 10 then [digit n] else decimal (n / 10) ++ [digit (n % 10)]
termination_by n
decreasing_by omega

/-- `format!("{:09}", n)`, `format!("{:0>9}", n)`: zeros on the left up to nine characters
(`protocol/serialization-types/src/common.rs:105`). -/
def padLeft9 (s : Text) : Text := List.replicate (9 - s.length) '0' ++ s

/-- `format!("{:0<9}", s)`: zeros on the right up to nine characters
(`protocol/serialization-types/src/common.rs:122`). -/
def padRight9 (s : Text) : Text := s ++ List.replicate (9 - s.length) '0'

/-- `core::num::IntErrorKind` for unsigned integers (`protocol/serialization-types/src/common.rs:53, 81`). -/
inductive IntErr where
  | empty
  | invalidDigit
  | posOverflow
  deriving DecidableEq, Repr

/-- `char::to_digit(10)` (`protocol/serialization-types/src/common.rs:53, 81`) -/
def toDigit (c : Char) : Option Nat := if 48 ≤ c.toNat ∧ c.toNat ≤ 57 then some (c.toNat - 48) else none

/-- The digit loop of `from_str_radix(_, 10)` for an unsigned type with maximum `max`: the next
character is checked before the multiplication is (`protocol/serialization-types/src/common.rs:53, 81, 119, 123`). -/
def parseDigits (max : Nat) : Nat → Text → Except IntErr Nat
  | acc, [] => .ok acc
  | acc, c :: cs =>
    match toDigit c with
    | none => .error .invalidDigit
    | some d => if max < acc * 10 then .error .posOverflow
      else if max < acc * 10 + d then .error .posOverflow
      else parseDigits max (acc * 10 + d) cs

/-- `str::parse` for an unsigned type with maximum `max`: the empty text and a lone sign are errors,
one leading plus sign is skipped (`protocol/serialization-types/src/common.rs:53, 81, 119, 123`). -/
def parseUnsigned (max : Nat) : Text → Except IntErr Nat
  | [] => .error .empty
  | [c] => if c = '+' ∨ c = '-' then .error .invalidDigit else parseDigits max 0 [c]
  | '+' :: cs => parseDigits max 0 cs
  | cs => parseDigits max 0 cs

/-- `str::split(sep)`: the pieces between the separators; never an empty list
(`protocol/serialization-types/src/common.rs:115`). -/
def split (sep : Char) : Text → List Text
  | [] => [[]]
  | c :: cs =>
    if c = sep then [] :: split sep cs
    else match split sep cs with
      | p :: ps => (c :: p) :: ps
      | [] => [[c]]

/-- `str::trim_end_matches(c)` (`protocol/serialization-types/src/common.rs:106`) -/
def trimEnd (c : Char) (s : Text) : Text := (s.reverse.dropWhile (· == c)).reverse

end MinaRs.Text
