/-!
# Model of the merkle tree crate (`/repo/merkle/src`)

Hashers and mergers are arbitrary functions, as in the code (type parameters `Hasher`, `Merger`).
A panic is the error value `Panic`.  Assertions and arithmetic checks behave as in a debug build.
`usize` and `u32` are natural numbers; overflow is modelled where a natural number would differ
for sizes that fit in memory (`u32` subtraction in the metadata, `2.pow`).
-/

namespace MinaRs.Merkle

/-- A panic, with its message (`merkle/src/proof.rs:111-166`, `merkle/src/tree_impl.rs:193-228`). -/
structure Panic where
  msg : String
  deriving DecidableEq, Repr

/-- The least `k` with `n ≤ 2^k` (used for `merkle/src/metadata.rs:33-35`). -/
def ceilLog2 (n : Nat) : Nat := if n ≤ 1 then 0 else Nat.log2 (n - 1) + 1

/-- `tree_impl.rs:355-361` (`calculate_height`).  Simplification: the `f64` computation
`log2().ceil()` is taken as exact, which it is below 2^49 leaves. -/
def calcHeight (size : Nat) : Nat := if size < 2 then 0 else ceilLog2 size

/-- `tree_impl.rs:363-365` (`calculate_node_count`), for heights below 64. -/
def nodeCount (height : Nat) : Nat := 2 ^ height - 1

/-- `tree_impl.rs:367-370` (`calculate_parent_index`) and `proof.rs:148-151`
(`get_parent_index`), with the debug assertion. -/
def parentIndex (index : Nat) : Except Panic Nat :=
  if index = 0 then .error ⟨"assertion failed: index > 0"⟩ else .ok ((index - 1) / 2)

/-! ## Metadata (`metadata.rs`) -/

/-- `metadata.rs:8-11` -/
structure Meta where
  depth : Nat
  height : Nat
  deriving DecidableEq, Repr

/-- The exponents below 49 at which `(2^k as f64).log(2.0)`, which Rust computes as
`ln(2^k) / ln(2)`, comes out slightly above `k` (`merkle/src/metadata.rs:33-35`). -/
def roundsUp : List Nat := [29, 31, 39, 47]

/-- `((x as f64).log(2.0)).ceil() as u32` for `x < 2^49`.  The logarithms are taken as correctly
rounded; with that, the quotient `ln x / ln 2` has the right ceiling except at the powers of two
listed in `roundsUp`, where it is one too big (`merkle/src/metadata.rs:33-35`). -/
def floatCeilLog2 (x : Nat) : Nat :=
  if roundsUp.contains (ceilLog2 x) && x == 2 ^ ceilLog2 x then ceilLog2 x + 1 else ceilLog2 x

/-- `metadata.rs:33-35` (`depth::<2>`) -/
def nodeDepth (index : Nat) : Nat := floatCeilLog2 (index + 2) - 1

/-- `metadata.rs:17-21, 37-40` (`MerkleTreeNodeMetadata::new`); the subtraction is checked. -/
def Meta.new (index treeHeight : Nat) : Except Panic Meta :=
  if nodeDepth index ≤ treeHeight then .ok ⟨nodeDepth index, treeHeight - nodeDepth index⟩
  else .error ⟨"attempt to subtract with overflow"⟩

/-! ## The tree (`tree_impl.rs`) -/

/-- `tree_impl.rs:38-53`; `fixed` is the mode (`some` for `FixedHeightMode`). -/
structure Tree (I H : Type) where
  fixed : Option Nat
  height : Nat
  leafs : List (I × Option H)
  nodes : List (Option H)

/-- `tree_impl.rs:63-68, 79-81, 302-318` (`new`, `default`). -/
def Tree.new {I H : Type} (fixed : Option Nat) : Tree I H := ⟨fixed, 0, [], []⟩

section
variable {I H : Type} (hasher : I → Meta → H) (merger : Option H → Option H → Meta → Option H)

/-- `tree_impl.rs:193-228` (`calculate_hash_if_needed`).  The first argument bounds the recursion
depth; the theorems show `height + 1` is enough. -/
def calcHash : Nat → Tree I H → Nat → Except Panic (Option H × Tree I H)
  | 0, _, _ => .error ⟨"recursion depth"⟩
  | fuel + 1, t, i =>
    if h : i < t.nodes.length then
      match t.nodes[i] with
      | some x => .ok (some x, t)
      | none => do
        let (l, t) ← calcHash fuel t (i * 2 + 1)
        let (r, t) ← calcHash fuel t (i * 2 + 2)
        let m ← Meta.new i t.height
        .ok (merger l r m, { t with nodes := t.nodes.set i (merger l r m) })
    else
      match t.leafs[i - t.nodes.length]? with
      | none => .ok (none, t)
      | some (_, some x) => .ok (some x, t)
      | some (item, none) => do
        let m ← Meta.new i t.height
        .ok (some (hasher item m),
          { t with leafs := t.leafs.set (i - t.nodes.length) (item, some (hasher item m)) })

/-- `calculate_hash_if_needed(0)` (`merkle/src/tree_impl.rs:193-228`) -/
def Tree.calcRoot (t : Tree I H) : Except Panic (Option H × Tree I H) :=
  calcHash hasher merger (t.height + 1) t 0

/-- `tree_impl.rs:288-292`: the loop `for h in lo..=hi`, as `n` steps from `lo`. -/
def extendRoot : Option H → (lo n : Nat) → Except Panic (Option H)
  | hash, _, 0 => .ok hash
  | hash, lo, n + 1 => do
    let m ← Meta.new 0 lo
    extendRoot (merger hash none m) (lo + 1) n

/-- `tree_impl.rs:250-252` (variable) and `278-294` (fixed): `root`. -/
def Tree.root (t : Tree I H) : Except Panic (Option H × Tree I H) := do
  let (hash, t) ← t.calcRoot hasher merger
  match t.fixed with
  | none => .ok (hash, t)
  | some fixedHeight =>
    if fixedHeight < t.height then
      .error ⟨"fixed_height should not be smaller than current height"⟩
    else do
      let hash ← extendRoot merger hash (t.height + 1) (fixedHeight - t.height)
      .ok (hash, t)

/-- `tree_impl.rs:177-187` (`clear_dirty_hashes`) -/
def clearDirty (nodes : List (Option H)) (i : Nat) : Except Panic (List (Option H)) :=
  if hi : i = 0 then .ok nodes
  else if h : (i - 1) / 2 < nodes.length then
    match nodes[(i - 1) / 2] with
    | some _ => clearDirty (nodes.set ((i - 1) / 2) none) ((i - 1) / 2)
    | none => .ok nodes
  else .error ⟨"index out of bounds"⟩
termination_by i

/-- `tree_impl.rs:347-349`: the loop over the new leaves. -/
def clearDirtyFrom (nodes : List (Option H)) : (start n : Nat) → Except Panic (List (Option H))
  | _, 0 => .ok nodes
  | start, n + 1 => do
    let nodes ← clearDirty nodes start
    clearDirtyFrom nodes (start + 1) n

/-- `tree_impl.rs:321-353` (`add_batch`).  The overflow of `2.pow` is left out here: no vector
holds 2^63 items. -/
def Tree.addBatch (t : Tree I H) (items : List I) : Except Panic (Tree I H) :=
  let leaves : List (I × Option H) := items.map (fun item => (item, none))
  let newHeight := calcHeight (t.leafs.length + leaves.length)
  if newHeight ≠ t.height then
    .ok { t with height := newHeight, nodes := List.replicate (nodeCount newHeight) none,
                 leafs := t.leafs ++ leaves }
  else do
    let nodes ← clearDirtyFrom t.nodes (t.nodes.length + t.leafs.length) leaves.length
    .ok { t with nodes := nodes, leafs := t.leafs ++ leaves }

/-- `tree.rs:20-22` (`add`) -/
def Tree.add (t : Tree I H) (item : I) : Except Panic (Tree I H) := t.addBatch [item]

/-- `tree_impl.rs:242, 270` (`height`) -/
def Tree.reportedHeight (t : Tree I H) : Nat :=
  match t.fixed with
  | none => t.height
  | some h => h

/-- `tree_impl.rs:246, 274` (`count`) -/
def Tree.count (t : Tree I H) : Nat := t.leafs.length

end

/-! ## Proofs (`proof.rs`) -/

/-- `proof.rs:46-65` (`DefaultMerkleProof`) -/
structure Proof (I H : Type) where
  index : Nat
  item : I
  peerIndices : List Nat
  peerHashes : List (Option H)

/-- `proof.rs:31-43` (`MerkleProofError`), and panics. -/
inductive ProofErr where
  | invalidIndex
  | invalidProof
  | mergerFailure
  | panic (msg : String)
  deriving DecidableEq, Repr

/-- A panic inside proof checking (`merkle/src/proof.rs:111-166`). -/
def liftPanic {α : Type} : Except Panic α → Except ProofErr α
  | .ok a => .ok a
  | .error p => .error (.panic p.msg)

/-- `proof.rs:75-100` (`DefaultMerkleProof::new`) with its assertions. -/
def Proof.new {I H : Type} (index : Nat) (item : I) (peerIndices : List Nat) (peerHashes : List (Option H)) :
    Except Panic (Proof I H) :=
  if ¬ 0 < index then .error ⟨"index of a data node should always to positive"⟩
  else if peerIndices.length ≠ peerHashes.length then
    .error ⟨"length of peer_indices and peer_hashes should match"⟩
  else if peerIndices = [] then
    .error ⟨"length of peer_indices and peer_hashes should be positive"⟩
  else .ok ⟨index, item, peerIndices, peerHashes⟩

/-- `proof.rs:153-166` (`get_ordered_siblings`).  `sibling_index + 1` overflows for the greatest index; as no node has
the index after that one, it makes no difference that the model looks for overflow last. -/
def orderedSiblings {H : Type} (index : Nat) (hash : Option H) (siblingIndex : Nat) (siblingHash : Option H) :
    Except ProofErr (Option H × Option H) :=
  if index + 1 = siblingIndex then .ok (hash, siblingHash)
  else if index = siblingIndex + 1 then .ok (siblingHash, hash)
  else if 2 ^ 64 ≤ siblingIndex + 1 then .error (.panic "attempt to add with overflow")
  else .error .invalidProof

section
variable {I H : Type} (hasher : I → Meta → H) (merger : Option H → Option H → Meta → Option H)

/-- `proof.rs:120-137`: the loop over the peers; `n` is the number of peers. -/
def rootLoop (n : Nat) : Nat → Option H → List Nat → List (Option H) → Except ProofErr (Option H)
  | _, hash, [], _ => .ok hash
  | _, _, _ :: _, [] => .error (.panic "index out of bounds")
  | index, hash, p :: ps, q :: qs => do
    let hs ← orderedSiblings index hash p q
    let parent ← liftPanic (parentIndex index)
    let m ← liftPanic (Meta.new parent n)
    rootLoop n parent (merger hs.1 hs.2 m) ps qs

/-- `proof.rs:111-145` (`root_hash`); `index + 2` in the metadata (`metadata.rs:34`) can overflow for the first node
only, as indices get smaller. -/
def Proof.rootHash (p : Proof I H) : Except ProofErr H :=
  if p.index > 0 then
    if 2 ^ 64 ≤ p.index + 2 then .error (.panic "attempt to add with overflow")
    else do
    let m ← liftPanic (Meta.new p.index p.peerIndices.length)
    let hash ← rootLoop merger p.peerIndices.length p.index (some (hasher p.item m)) p.peerIndices p.peerHashes
    match hash with
    | some h => .ok h
    | none => .error .mergerFailure
  else .error .invalidIndex

/-- `proof.rs:22-28` (`verify`); a panic in `root_hash` is a panic here. -/
def Proof.verify [DecidableEq H] (p : Proof I H) (root : H) : Except Panic Bool :=
  match p.rootHash hasher merger with
  | .ok h => .ok (h = root)
  | .error (.panic msg) => .error ⟨msg⟩
  | .error _ => .ok false

/-- `tree_impl.rs:140-164`: the loop of `get_proof`, `pi` being `parent_index` and `pio`
`parent_index_with_offset`. -/
def proofLoop (nodes : List (Option H)) (pi pio : Nat) : Except Panic (List Nat × List (Option H)) :=
  if hp : pio = 0 then .ok ([], [])
  else if 0 < pi then
    let peer := if pi % 2 = 0 then pi - 1 else pi + 1
    match nodes[peer]? with
    | none => .error ⟨"index out of bounds"⟩
    | some h => do
      let (is, hs) ← proofLoop nodes ((pi - 1) / 2) ((pio - 1) / 2)
      .ok ((pio + peer - pi) :: is, h :: hs)
  else do
    let (is, hs) ← proofLoop nodes pi ((pio - 1) / 2)
    .ok ((pio + 1) :: is, none :: hs)
termination_by pio

/-- `tree_impl.rs:127-131`, the cached hash of the peer leaf; a position past the last leaf has none -/
def Tree.leafHash (t : Tree I H) (peer : Nat) : Option H :=
  match t.leafs[peer]? with
  | some (_, h) => h
  | none => none

/-- `tree_impl.rs:106-173` (`get_proof`) -/
def Tree.getProof (t : Tree I H) (index : Nat) : Except Panic (Option (Proof I H) × Tree I H) := do
  let (hash, t) ← t.calcRoot hasher merger
  match hash with
  | none => .ok (none, t)
  | some _ =>
    let heightAbove := t.fixed.getD t.height                               -- 113-117
    if heightAbove ≥ 64 then .error ⟨"attempt to multiply with overflow"⟩   -- 118, 363-365
    else
    let offset := nodeCount heightAbove
    match t.leafs[index]? with                                            -- 122
    | none => .error ⟨"index out of bounds"⟩
    | some (item, _) =>
      let peer := if index % 2 = 0 then index + 1 else index - 1           -- 125
      let peerHash := t.leafHash peer
      do
      let parent ← parentIndex (t.nodes.length + index)                    -- 136
      let parentOffset ← parentIndex (offset + index)                      -- 139
      let (is, hs) ← proofLoop t.nodes parent parentOffset
      let p ← Proof.new (offset + index) item ((offset + peer) :: is) (peerHash :: hs)
      .ok (some p, t)

/-! ## Histories -/

/-- The requests a user can make (`merkle/src/tree.rs:8-40`). -/
inductive Op (I : Type) where
  | add (item : I)
  | addBatch (items : List I)
  | root
  | proof (index : Nat)

/-- The answers (`merkle/src/tree.rs:8-40`). -/
inductive Out (I H : Type) where
  | done
  | root (h : Option H)
  | proof (p : Option (Proof I H))

/-- One request (`merkle/src/tree.rs:8-40`). -/
def Tree.step (t : Tree I H) : Op I → Except Panic (Tree I H × Out I H)
  | .add item => do let t ← t.add item; .ok (t, .done)
  | .addBatch items => do let t ← t.addBatch items; .ok (t, .done)
  | .root => do let (h, t) ← t.root hasher merger; .ok (t, .root h)
  | .proof i => do let (p, t) ← t.getProof hasher merger i; .ok (t, .proof p)

/-- A history of requests, with the answers (`merkle/src/tree.rs:8-40`). -/
def Tree.run (t : Tree I H) : List (Op I) → Except Panic (Tree I H × List (Out I H))
  | [] => .ok (t, [])
  | op :: ops => do
    let (t, o) ← t.step hasher merger op
    let (t, os) ← Tree.run t ops
    .ok (t, o :: os)

end

/-! ## The Poseidon hasher and merger (`hasher_poseidon.rs`, `merger_poseidon.rs`, `prefixes.rs`)

The hash function itself is a parameter: `compress domain l r` stands for hashing the two field
elements `l`, `r` in a hasher initialised with the domain string. -/

/-- `format!("{:03}", n)` (`merkle/src/prefixes.rs:8-16`) -/
def pad3 (n : Nat) : String :=
  if n < 10 then "00" ++ toString n else if n < 100 then "0" ++ toString n else toString n

/-- `prefixes.rs:8-10` -/
def merklePrefix (height : Nat) : String := "CodaMklTree" ++ pad3 height

/-- `prefixes.rs:14-16` -/
def coinbaseMerklePrefix (height : Nat) : String := "CodaCbMklTree" ++ pad3 height

/-- `merger_poseidon.rs:53-60` (`domain_string`) -/
def nodeDomain (height : Nat) : Option String := if height > 0 then some (merklePrefix (height - 1)) else none

section
variable {H : Type} (compress : Option String → H → H → H) (empty : H)

/-- `merger_poseidon.rs:75-105` and `119-145` (`get_empty_hash_legacy`, `get_empty_hash_kimchi`);
the constant for height 0 is a parameter. -/
def emptyHash : Nat → H
  | 0 => empty
  | n + 1 => compress (nodeDomain (n + 1)) (emptyHash n) (emptyHash n)

/-- `merger_poseidon.rs:63-73` and `107-117` (`merge_poseidon_hash_*`) as mergers (18-43).  At
height 0 a missing child would underflow; trees and proofs only merge at heights from 1 on. -/
def poseidonMerger (l r : Option H) (m : Meta) : Option H :=
  some (compress (nodeDomain m.height) (l.getD (emptyHash compress empty (m.height - 1)))
    (r.getD (emptyHash compress empty (m.height - 1))))

end

/-! ## Merkle paths (`path.rs`) -/

/-- `path.rs:12-17` (`MerklePathNode`); the field elements are abstract. -/
structure PathNode (H : Type) where
  left : Option H
  right : Option H

/-- The ways `to_proof` can end without a proof: the two errors of `path.rs:27, 32`, or a panic. -/
inductive PathErr where
  | twoHashes
  | noHashes
  | panic (msg : String)
  deriving DecidableEq, Repr

/-- `path.rs:21-34` (`has_left_child`) -/
def PathNode.hasLeftChild {H : Type} (n : PathNode H) : Except PathErr Bool :=
  if n.left.isSome then
    if n.right.isNone then .ok true else .error .twoHashes
  else if n.right.isSome then .ok false
  else .error .noHashes

/-- The local variables of `to_proof` (`path.rs:50-54`). -/
structure PathState (H : Type) where
  peerIndices : List Nat
  peerHashes : List (Option H)
  rowIndex : Nat
  peerIndex : Nat
  nodeIsLeft : Bool

/-- `path.rs:55-76`: the body of the loop.  `2_usize.pow(64)` overflows. -/
def pathStep {H : Type} (s : PathState H) (node : PathNode H) : Except PathErr (PathState H) := do
  let row := s.rowIndex * 2
  let isLeft ← node.hasLeftChild
  let peerRow := if isLeft then row + 1 else row
  let row := if isLeft then row else row + 1
  let heightAbove := s.peerIndices.length
  if heightAbove + 1 ≥ 64 then .error (.panic "attempt to multiply with overflow")
  else
  let peerIndex := 2 ^ (heightAbove + 1) - 1 + peerRow
  .ok ⟨peerIndex :: s.peerIndices, (if isLeft then node.left else node.right) :: s.peerHashes, row, peerIndex, isLeft⟩

/-- `path.rs:42-88` (`MerklePath::to_proof`); the loop runs over the reversed path. -/
def pathToProof {I H : Type} (path : List (PathNode H)) (item : I) : Except PathErr (Proof I H) := do
  let s ← path.reverse.foldlM pathStep ⟨[], [], 0, 0, false⟩
  if s.nodeIsLeft = true ∧ s.peerIndex = 0 then .error (.panic "attempt to subtract with overflow")
  else
  let itemIndex := if s.nodeIsLeft then s.peerIndex - 1 else s.peerIndex + 1
  match Proof.new itemIndex item s.peerIndices s.peerHashes with
  | .ok p => .ok p
  | .error e => .error (.panic e.msg)

/-- `hasher_poseidon.rs:17-49`: the leaf hashers ignore the metadata; `hash` is the Poseidon hash of
the item under the domain of its type. -/
def poseidonHasher {I H : Type} (hash : I → H) (item : I) (_ : Meta) : H := hash item

end MinaRs.Merkle
