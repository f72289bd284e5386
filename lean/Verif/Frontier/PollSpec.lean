import Verif.Frontier.Poll

/-! # What polling should do -/

namespace MinaRs.Frontier.Spec

open MinaRs.Frontier

variable {D N : Type}

/-- An item is fetched as a block: one of the first three attempts, all earlier ones having failed, gives an
answer, and the answer is this block. -/
def Fetched (parse : D → Option N) (attempts : List (Option D)) (b : N) : Prop :=
  ∃ k d, k < 3 ∧ attempts[k]? = some (some d) ∧ (∀ j < k, attempts[j]? = some none) ∧ parse d = some b

/-- The blocks that can be fetched, in the order of the items. -/
inductive Fetchable (parse : D → Option N) : List (List (Option D)) → List N → Prop
  | nil : Fetchable parse [] []
  | got {item items b bs} : Fetched parse item b → Fetchable parse items bs → Fetchable parse (item :: items) (b :: bs)
  | missed {item items bs} : (∀ b, ¬ Fetched parse item b) → Fetchable parse items bs → Fetchable parse (item :: items) bs

/-- The blocks up to the first item that cannot be fetched, and whether there is none. -/
inductive UpToFailure (parse : D → Option N) : List (List (Option D)) → List N → Bool → Prop
  | nil : UpToFailure parse [] [] true
  | got {item items b bs ok} : Fetched parse item b → UpToFailure parse items bs ok →
      UpToFailure parse (item :: items) (b :: bs) ok
  | missed {item items} : (∀ b, ¬ Fetched parse item b) → UpToFailure parse (item :: items) [] false

/-- The blocks the `i`-th poll has handed over. -/
def sentBy (i : Nat) (log : List (Nat × N)) : List N := log.filterMap fun e => if e.1 = i then some e.2 else none

end MinaRs.Frontier.Spec
