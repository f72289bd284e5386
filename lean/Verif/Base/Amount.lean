import Verif.Base.Text

/-!
# Amounts as texts

`base/src/numbers.rs` (`Amount`) and `protocol/serialization-types/src/common.rs` (`DecimalJson`,
`U32Json`, `U64Json`).
-/

namespace MinaRs.Base

open Text

/-- The largest `u64` (`base/src/numbers.rs:128-131`). -/
def U64_MAX : Nat := 2 ^ 64 - 1

/-- The largest `u32` (`protocol/serialization-types/src/common.rs:33`). -/
def U32_MAX : Nat := 2 ^ 32 - 1

/-- `base/src/constants.rs`, `common.rs:97` -/
def MINA_PRECISION : Nat := 1000000000

/-- `numbers.rs:100-105` (`Display`) -/
def Amount.display (a : Nat) : Text :=
  decimal (a / MINA_PRECISION) ++ '.' :: padLeft9 (decimal (a % MINA_PRECISION))

/-- `numbers.rs:127-135` (`ParseAmountError`), and an arithmetic overflow panic. -/
inductive AmountErr where
  | parsingInteger (e : IntErr)
  | invalidFormat (s : Text)
  | overflowPanic
  deriving DecidableEq, Repr

/-- The pieces of the text read as integers: `iter.next()`, `iter.next().unwrap_or("0")`, and whether
there is a third piece (`protocol/serialization-types/src/common.rs:115-125`). -/
def parseParts : List Text → Except IntErr (Nat × Nat × Bool)
  | [] => .error .empty
  | q :: rest => do
    let q ← parseUnsigned U64_MAX q
    match rest with
    | [] =>
      let r ← parseUnsigned U64_MAX (padRight9 ['0'])
      .ok (q, r, false)
    | r :: rest =>
      let r ← parseUnsigned U64_MAX (padRight9 r)
      .ok (q, r, !rest.isEmpty)

/-- `numbers.rs:137-154` (`from_str`).  `split` never yields no piece, so the first `ok_or_else` never
fires.  `checks` says whether the build checks for arithmetic overflow (debug builds do and panic,
release builds wrap around). -/
def Amount.fromStr (checks : Bool) (s : Text) : Except AmountErr Nat :=
  match parseParts (split '.' s) with
  | .error e => .error (.parsingInteger e)
  | .ok (_, _, true) => .error (.invalidFormat s)
  | .ok (q, r, false) =>
    if r + MINA_PRECISION * q ≤ U64_MAX then .ok (r + MINA_PRECISION * q)
    else if checks then .error .overflowPanic
    else .ok ((r + MINA_PRECISION * q) % 2 ^ 64)

/-- `common.rs:98-107` (`Serialize for DecimalJson`): the JSON string. -/
def DecimalJson.serialize (a : Nat) : Text :=
  trimEnd '.' (trimEnd '0' (decimal (a / MINA_PRECISION) ++ '.' :: padLeft9 (decimal (a % MINA_PRECISION))))

/-- `common.rs:109-134` (`Deserialize for DecimalJson`); the same steps as `from_str` with all errors
turned into texts. -/
def DecimalJson.deserialize (checks : Bool) (s : Text) : Except AmountErr Nat := Amount.fromStr checks s

/-- `common.rs:35-43, 63-71` (`Serialize for U32Json, U64Json`) -/
def UIntJson.serialize (n : Nat) : Text := decimal n

/-- `common.rs:45-56, 73-84` (`Deserialize for U32Json, U64Json`); `max` is the largest value. -/
def UIntJson.deserialize (max : Nat) (s : Text) : Except IntErr Nat := parseUnsigned max s

end MinaRs.Base
