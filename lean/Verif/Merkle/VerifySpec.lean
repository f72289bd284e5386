import Verif.Merkle.Spec

/-!
# What checking a proof comes to (C27)
-/

namespace MinaRs.Merkle.Spec

variable {H : Type}

/-- Checking gets stuck on its way up: there is no hash for the next peer; a peer of the root is listed; a peer has the
greatest index there is and is no neighbour; or it gets stuck further up, the next peer being a neighbour. -/
inductive Stuck : (index : Nat) → (peers : List Nat) → (hashes : Nat) → Prop
  | noHash {i p ps} : Stuck i (p :: ps) 0
  | aboveRoot {ps q} : Stuck 0 (1 :: ps) (q + 1)
  | greatest {i p ps q} : i + 1 ≠ p → i ≠ p + 1 → 2 ^ 64 - 1 ≤ p → Stuck i (p :: ps) (q + 1)
  | up {i p ps q} : 0 < i → (i + 1 = p ∨ i = p + 1) → Stuck ((i - 1) / 2) ps q → Stuck i (p :: ps) (q + 1)

/-- The hashes merged on the way up from height `k` of a tree of height `n`: the peer with the next index is on the right. -/
def foldPeers (merger : Option H → Option H → Meta → Option H) (n : Nat) :
    (k index : Nat) → Option H → List Nat → List (Option H) → Option H
  | k, i, hash, p :: ps, q :: qs =>
    foldPeers merger n (k + 1) ((i - 1) / 2)
      (if p = i + 1 then merger hash q ⟨n - (k + 1), k + 1⟩ else merger q hash ⟨n - (k + 1), k + 1⟩) ps qs
  | _, _, hash, _, _ => hash

end MinaRs.Merkle.Spec
