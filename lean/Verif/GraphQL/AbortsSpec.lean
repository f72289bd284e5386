import Verif.GraphQL.BestChainAccepted

/-!
# Which parts of a GraphQL answer end the process (C119)
-/

namespace MinaRs.GraphQL.Spec

open Json (J Env)
open Hash

/-- The decimal notation of a number that is no field element but has at most 256 bits. -/
def BigHash (j : J) : Prop := ∃ (t : String) (n : Nat), j = .str t ∧ Denotes t.toList n ∧ p ≤ n ∧ n < 2 ^ 256

/-- The decimal notation of a number that is no field element. -/
def BigLeaf (j : J) : Prop := ∃ (t : String) (n : Nat), j = .str t ∧ Denotes t.toList n ∧ p ≤ n

/-- Entries that may end the process: a hash or a leaf beyond the field, no path at all, or a path of 64 nodes or
more. -/
inductive Hazard (v : J) : Prop
  | hash {js node left right} : index v "merklePath" = .arr js → node ∈ js → Sides node left right →
      (BigHash left ∨ BigHash right) → Hazard v
  | leaf : BigLeaf (index v "leafHash") → Hazard v
  | empty : index v "merklePath" = .arr [] → Hazard v
  | long {js} : index v "merklePath" = .arr js → 64 ≤ js.length → Hazard v

/-- A node that ends the process: its left hash is beyond the field, or its left one can be read and its right one is. -/
def NodeAborts (j : J) : Prop :=
  ∃ left right, Sides j left right ∧ (BigHash left ∨ (∃ o, ReadsOptional left o) ∧ BigHash right)

/-- Entries that do end the process, in the order in which their parts are read: the nodes of the path, the leaf, the
length of the path.  A path that is too long ends it if the 64 nodes next to the root have one hash each. -/
inductive EntryAborts (v : J) : Prop
  | node {before node after path} : index v "merklePath" = .arr (before ++ node :: after) →
      Pointwise ReadsNode before path → NodeAborts node → EntryAborts v
  | leaf {path} : ReadsPath (index v "merklePath") path → BigLeaf (index v "leafHash") → EntryAborts v
  | empty {leaf} : index v "merklePath" = .arr [] → ReadsField (index v "leafHash") leaf → EntryAborts v
  | long {path leaf} {steps : List (Bool × Fp)} : ReadsPath (index v "merklePath") (path ++ steps.map Merkle.Spec.pathNode) → steps.length = 64 →
      ReadsField (index v "leafHash") leaf → EntryAborts v

end MinaRs.GraphQL.Spec
