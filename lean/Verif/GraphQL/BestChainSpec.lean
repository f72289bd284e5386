import Verif.GraphQL.Spec
import Verif.Merkle.Spec
import Verif.Base.TextSpec

/-!
# What a best chain document says

Numbers that stand for field elements, merkle paths, and the document with the best chain and the entries
of the ledger.
-/

namespace MinaRs.GraphQL.Spec

open Json (J Env)
open Text (Text)
open Text.Spec (IsDigit value)
open Hash

/-- A decimal notation of a number: an optional plus sign, then a digit, then digits and underscores, which
do not count. -/
def Denotes (s : Text) (n : Nat) : Prop :=
  ∃ c cs, (s = c :: cs ∨ s = '+' :: c :: cs) ∧ IsDigit c ∧ (∀ d ∈ cs, IsDigit d ∨ d = '_') ∧
    value (c :: cs.filter (· ≠ '_')) = n

/-- A node of a path: the sibling's hash under the key that says which child the running node is, the other
key absent or `null`. -/
def SaysStep (j : J) : Bool × Fp → Prop
  | (true, s) => Has j "left" (number s.val) ∧ (Has j "right" .null ∨ Lacks j "right")
  | (false, s) => (Has j "left" .null ∨ Lacks j "left") ∧ Has j "right" (number s.val)

/-- A list of nodes says a list of steps. -/
inductive SaysSteps : List J → List (Bool × Fp) → Prop
  | nil : SaysSteps [] []
  | cons {j js s path} : SaysStep j s → SaysSteps js path → SaysSteps (j :: js) (s :: path)

/-- An entry of the ledger: a leaf hash and the path from it to the root. -/
structure SaysEntry (j : J) (path : List (Bool × Fp)) (leaf : Fp) : Prop where
  path : ∃ js, Has j "merklePath" (.arr js) ∧ SaysSteps js path
  leaf : Has j "leafHash" (number leaf.val)

/-- The key is an address: 55 characters, the base58check form of the three version bytes, the 32 bytes of a
coordinate below the modulus and one more byte. -/
def AddressText (E : Env) (key : String) : Prop :=
  key.toList.length = 55 ∧ ∃ x last, x.length = 32 ∧ leNat x < p ∧
    key.toList = Codec.encode58 ([0xcb, 0x01, 0x01] ++ x ++ [last] ++ E.chk ([0xcb, 0x01, 0x01] ++ x ++ [last]))

/-- The members of the object that are entries of the ledger, in the order of the object. -/
inductive SaysEntries (E : Env) : List (String × J) → List (List (Bool × Fp) × Fp) → Prop
  | nil : SaysEntries E [] []
  | other {key j es q} : ¬ AddressText E key → SaysEntries E es q → SaysEntries E ((key, j) :: es) q
  | entry {key j es path leaf q} : AddressText E key → SaysEntry j path leaf → SaysEntries E es q →
      SaysEntries E ((key, j) :: es) ((path, leaf) :: q)

/-- The document: the best chain's first block, and the entries of the ledger under the addresses. -/
structure SaysBestChain (E : Env) (es : List (String × J)) (s : ProtocolState) (q : List (List (Bool × Fp) × Fp)) :
    Prop where
  state : ∃ b bs d, Has (.obj es) "bestChain" (.arr (b :: bs)) ∧ Has b "protocolState" d ∧ SaysState E d s
  entries : SaysEntries E es q

end MinaRs.GraphQL.Spec
