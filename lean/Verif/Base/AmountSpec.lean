import Verif.Base.TextSpec

/-! # Decimal amounts -/

namespace MinaRs.Base.Spec

open Text Text.Spec

/-- The text is a plain decimal number: digits, or digits, a point and digits. -/
inductive Decimal : Text → (int frac : Text) → Prop
  | whole (int : Text) : int ≠ [] → (∀ c ∈ int, IsDigit c) → Decimal int int []
  | point (int frac : Text) : int ≠ [] → (∀ c ∈ int, IsDigit c) → frac ≠ [] → (∀ c ∈ frac, IsDigit c) →
      Decimal (int ++ '.' :: frac) int frac

/-- The amount, in units of 10^-9, that a decimal number with integer digits `int` and fractional
digits `frac` stands for is `a`: a · 10^|frac| = (int · 10^|frac| + frac) · 10^9. -/
def Denotes (int frac : Text) (a : Nat) : Prop :=
  a * 10 ^ frac.length = (value int * 10 ^ frac.length + value frac) * 10 ^ 9

/-- The text is a number of 64 bits: digits, perhaps after one plus sign. -/
def Number64 (s : Text) (n : Nat) : Prop :=
  n < 2 ^ 64 ∧ ∃ ds, (s = ds ∨ s = '+' :: ds) ∧ ds ≠ [] ∧ (∀ c ∈ ds, IsDigit c) ∧ value ds = n

end MinaRs.Base.Spec
