import Verif.Genesis.Model

/-!
# Block times as dates

Model of `BlockTime` (`base/src/numbers.rs:248-275`).  An `OffsetDateTime` of the `time` crate is the instant
it denotes, in UTC, as whole seconds since 1970 and the nanoseconds within the second; how the crate turns
that into year, month and day is not modelled.
-/

namespace MinaRs.Genesis

open GraphQL

/-- `time::OffsetDateTime` in UTC: seconds since 1970-01-01 00:00:00, and nanoseconds below `10 ^ 9`
(`base/src/numbers.rs:265`) -/
structure DateTime where
  seconds : Int
  nanos : Nat
  deriving DecidableEq

/-- The first and last second of the years -9999 to 9999, the range of the `time` crate (used at
`base/src/numbers.rs:268`) -/
def minSecond : Int := -377705116800
/-- The last of them (used at `base/src/numbers.rs:268`). -/
def maxSecond : Int := 253402300799

/-- `OffsetDateTime::from_unix_timestamp` (external crate) (used at `base/src/numbers.rs:268`) -/
def fromUnixTimestamp (q : Int) : R DateTime :=
  if minSecond ≤ q ∧ q ≤ maxSecond then .ok ⟨q, 0⟩ else .error .err

/-- `OffsetDateTime + Duration::milliseconds(r)` (external crate): the seconds and nanoseconds of the duration are added
and carried; a result out of range panics (used at `base/src/numbers.rs:272`). -/
def addMillis (d : DateTime) (r : Int) : R DateTime :=
  let n : Int := d.nanos + r * 1000000
  let s := d.seconds + n.fdiv 1000000000
  if minSecond ≤ s ∧ s ≤ maxSecond then .ok ⟨s, (n.fmod 1000000000).toNat⟩ else .error .panic

/-- `self.0 as i64`: the number, or the number minus `2 ^ 64` from `2 ^ 63` on (`base/src/numbers.rs:267`) -/
def asI64 (t : UInt64) : Int := if t.toNat < 2 ^ 63 then t.toNat else (t.toNat : Int) - 2 ^ 64

/-- `BlockTime::datetime` (`base/src/numbers.rs:264-273`); `div_rem` rounds toward zero. -/
def datetime (t : UInt64) : R DateTime :=
  let q := (asI64 t).tdiv 1000
  let r := (asI64 t).tmod 1000
  match expect (fromUnixTimestamp q) with
  | .error e => .error e
  | .ok dt => if r = 0 then .ok dt else addMillis dt r

end MinaRs.Genesis
