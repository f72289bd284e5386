import Verif.Merkle.Model

/-!
# What a merkle tree is

Complete binary trees by recursion on the height, with no arrays, indices or caches.
-/

namespace MinaRs.Merkle.Spec

variable {I H : Type}

/-- `h` is the least height of a complete binary tree with room for `n` leaves. -/
def LeastHeight (n h : Nat) : Prop := n ≤ 2 ^ h ∧ ∀ k, n ≤ 2 ^ k → h ≤ k

/-- The hash of a complete binary tree of height `k` whose root is at distance `d` from the root
of the whole tree and whose leaves, from the left, are `items`; missing leaves are empty. -/
def subtree (hasher : I → Meta → H) (merger : Option H → Option H → Meta → Option H) :
    (k d : Nat) → List I → Option H
  | 0, d, items => items.head?.map (fun x => hasher x ⟨d, 0⟩)
  | k + 1, d, items =>
    merger (subtree hasher merger k (d + 1) (items.take (2 ^ k)))
      (subtree hasher merger k (d + 1) (items.drop (2 ^ k))) ⟨d, k + 1⟩

/-- The full binary tree of height `k` over `2^k` leaf positions, `node h` merging two children
into a node of height `h`; the leaves are `leaf i` for the positions `i` from `lo` on. -/
def fullTree (node : Nat → H → H → H) (leaf : Nat → H) : (k lo : Nat) → H
  | 0, lo => leaf lo
  | k + 1, lo => node (k + 1) (fullTree node leaf k lo) (fullTree node leaf k (lo + 2 ^ k))

/-- A subtree hash carried up as the leftmost subtree of a higher tree: `n` levels from height `lo`
on, each merging it with an absent right sibling. -/
def padUp (merger : Option H → Option H → Meta → Option H) : Option H → (lo n : Nat) → Option H
  | hash, _, 0 => hash
  | hash, lo, n + 1 => padUp merger (merger hash none ⟨0, lo⟩) (lo + 1) n

/-- The items a history inserts, in order. -/
def inserted : List (Op I) → List I
  | [] => []
  | .add item :: ops => item :: inserted ops
  | .addBatch items :: ops => items ++ inserted ops
  | .root :: ops => inserted ops
  | .proof _ :: ops => inserted ops

/-- The merger always produces a hash. -/
def Total (merger : Option H → Option H → Meta → Option H) : Prop := ∀ l r m, (merger l r m).isSome

/-- The hash of a leaf does not depend on how deep the leaf is. -/
def LeafHashStable (hasher : I → Meta → H) : Prop := ∀ x d d', hasher x ⟨d, 0⟩ = hasher x ⟨d', 0⟩

/-- The merger does not look at the depth of the node (it may look at its height). -/
def IgnoresDepth (merger : Option H → Option H → Meta → Option H) : Prop :=
  ∀ l r d d' h, merger l r ⟨d, h⟩ = merger l r ⟨d', h⟩

/-- Equal merged hashes at a node have equal children, where both have a child. -/
def MergeInjective (merger : Option H → Option H → Meta → Option H) : Prop :=
  ∀ m l r l' r', merger l r m = merger l' r' m →
    (∀ x y, l = some x → l' = some y → x = y) ∧ (∀ x y, r = some x → r' = some y → x = y)

/-- Equal leaf hashes have equal items. -/
def HashInjective (hasher : I → Meta → H) : Prop := ∀ x y m, hasher x m = hasher y m → x = y

/-- Each listed peer is the sibling of the node it is merged with: the node after it if it is a
left child (odd index), the node before it if it is a right child. -/
def ProperPeers : (index : Nat) → List Nat → Prop
  | _, [] => True
  | i, p :: ps => p = (if i % 2 = 1 then i + 1 else i - 1) ∧ ProperPeers ((i - 1) / 2) ps

/-- Some listed peer is not next to the node it is to be merged with. -/
def SomePeerMisplaced : (index : Nat) → List Nat → Prop
  | _, [] => False
  | i, p :: ps => (i + 1 ≠ p ∧ i ≠ p + 1) ∨ SomePeerMisplaced ((i - 1) / 2) ps

/-- Folding a merkle path from the leaf upwards: `hash` is the running hash at height `k` of a tree
of height `n`; a step `(true, s)` says that the running node is a left child with right sibling
`s`, a step `(false, s)` that it is a right child with left sibling `s`. -/
def foldPath (merger : Option H → Option H → Meta → Option H) (n : Nat) : (k : Nat) → Option H → List (Bool × H) → Option H
  | _, hash, [] => hash
  | k, hash, (true, s) :: path => foldPath merger n (k + 1) (merger hash (some s) ⟨n - (k + 1), k + 1⟩) path
  | k, hash, (false, s) :: path => foldPath merger n (k + 1) (merger (some s) hash ⟨n - (k + 1), k + 1⟩) path

/-- The position of the leaf a path starts from: its turns read as binary digits, the turn next to
the leaf being the last digit. -/
def pathPosition : List (Bool × H) → Nat
  | [] => 0
  | (isLeft, _) :: path => 2 * pathPosition path + (if isLeft then 0 else 1)

/-- A path as the API delivers it: the single hash of a node is in the field that says which child
the running node is. -/
def pathNode : Bool × H → PathNode H
  | (true, s) => ⟨some s, none⟩
  | (false, s) => ⟨none, some s⟩

/-! ## Collisions

Hash functions into a finite set always have collisions, so a claim that assumes there are none says nothing of
them.  The claims below instead exhibit one among the hashes that were actually computed. -/

/-- Two different pairs of hashes that a node of height `h` merges to the same hash. -/
def Collide (node : Nat → H → H → H) (h : Nat) (a b : H × H) : Prop := a ≠ b ∧ node h a.1 a.2 = node h b.1 b.2

/-- The two children of the `j`-th node of height `k + 1` of a full tree. -/
def children (node : Nat → H → H → H) (leaf : Nat → H) (k j : Nat) : H × H :=
  (fullTree node leaf k (2 * j * 2 ^ k), fullTree node leaf k ((2 * j + 1) * 2 ^ k))

/-- Two full trees of height `F` have collided at one of their nodes. -/
def TreesCollide (node : Nat → H → H → H) (leaf leaf' : Nat → H) (F : Nat) : Prop :=
  ∃ k j, k < F ∧ j < 2 ^ (F - (k + 1)) ∧ Collide node (k + 1) (children node leaf k j) (children node leaf' k j)

/-- Different items at the same position have the same hash. -/
def ItemsCollide (hash : I → H) (xs ys : List I) : Prop :=
  ∃ (i : Nat) (x y : I), xs[i]? = some x ∧ ys[i]? = some y ∧ x ≠ y ∧ hash x = hash y

/-- An item of the first list at a position which the second list does not have is hashed to the empty hash. -/
def ItemLooksEmpty (hash : I → H) (empty : H) (xs ys : List I) : Prop :=
  ∃ (i : Nat) (x : I), xs[i]? = some x ∧ ys[i]? = none ∧ hash x = empty

/-- Climbing from a node of height `k`: a step `(true, s)` says that the running node is a left child with right
sibling `s`, a step `(false, s)` that it is a right child with left sibling `s`. -/
def climb (node : Nat → H → H → H) : (k : Nat) → H → List (Bool × H) → H
  | _, v, [] => v
  | k, v, (true, s) :: path => climb node (k + 1) (node (k + 1) v s) path
  | k, v, (false, s) :: path => climb node (k + 1) (node (k + 1) s v) path

/-- The running hash and its sibling in order. -/
def inPlace (isLeft : Bool) (v s : H) : H × H := if isLeft then (v, s) else (s, v)

/-- A path climbed from a leaf hash `v` collides on its way with the node of the tree at the same place. -/
def PathCollides (node : Nat → H → H → H) (leaf : Nat → H) (v : H) (path : List (Bool × H)) : Prop :=
  ∃ below isLeft s above, path = below ++ (isLeft, s) :: above ∧
    Collide node (below.length + 1) (inPlace isLeft (climb node 0 v below) s)
      (children node leaf below.length (pathPosition above))

/-- The path a proof describes: a peer is on the right if its index is the next one; a peer without a hash stands
for an empty tree of its height. -/
def proofPath (node : Nat → H → H → H) (empty : H) : (k index : Nat) → List Nat → List (Option H) → List (Bool × H)
  | k, index, p :: ps, q :: qs =>
    (decide (p = index + 1), q.getD (fullTree node (fun _ => empty) k 0)) :: proofPath node empty (k + 1) ((index - 1) / 2) ps qs
  | _, _, _, _ => []

end MinaRs.Merkle.Spec
