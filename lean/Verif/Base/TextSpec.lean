import Verif.Base.Text

/-! # Decimal texts -/

namespace MinaRs.Text.Spec

/-- One of the ten decimal digits. -/
def IsDigit (c : Char) : Prop := '0' ≤ c ∧ c ≤ '9'

instance : DecidablePred IsDigit := fun c => inferInstanceAs (Decidable ('0' ≤ c ∧ c ≤ '9'))

/-- The number a sequence of digits stands for, most significant digit first. -/
def value (s : Text) : Nat := s.foldl (fun acc c => 10 * acc + (c.toNat - '0'.toNat)) 0

/-- The usual decimal notation of a number: digits with no superfluous leading zero. -/
def IsDecimalOf (s : Text) (n : Nat) : Prop :=
  s ≠ [] ∧ (∀ c ∈ s, IsDigit c) ∧ value s = n ∧ (s.head? = some '0' → s = ['0'])

end MinaRs.Text.Spec
