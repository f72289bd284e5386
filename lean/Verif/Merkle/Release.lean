import Verif.Merkle.Model

/-!
# Paths and proofs in a release build, and on the web

`Model.lean` is the build with overflow checks and debug assertions on a machine with words of 64 bits.  A release build,
which is what `wasm-pack` makes, has neither, and on the web `usize` has 32 bits.  Here the same functions of
`path.rs`, `proof.rs` and `metadata.rs` are modelled with wrap-around arithmetic for words of `w` bits.  `u32` has 32 bits
everywhere.  `assert!` and index bounds are checked in every build.
-/
namespace MinaRs.Merkle

/-- Addition of words of `w` bits (as at `merkle/src/proof.rs:111-166`). -/
def addW (w a b : Nat) : Nat := (a + b) % 2 ^ w

/-- Subtraction of words of `w` bits (as at `merkle/src/proof.rs:111-166`). -/
def subW (w a b : Nat) : Nat := (a + (2 ^ w - b % 2 ^ w)) % 2 ^ w

/-- `metadata.rs:33-35` (`depth::<2>`); the logarithm of 0, minus infinity, is 0 as a `u32`. -/
def nodeDepthR (w index : Nat) : Nat := subW 32 (floatCeilLog2 (addW w index 2)) 1

/-- `metadata.rs:17-21, 37-40` (`MerkleTreeNodeMetadata::new`) -/
def Meta.newR (w index treeHeight : Nat) : Meta := ⟨nodeDepthR w index, subW 32 treeHeight (nodeDepthR w index)⟩

/-- `proof.rs:148-151` (`get_parent_index`) without its debug assertion. -/
def parentIndexR (w index : Nat) : Nat := subW w index 1 / 2

/-- `proof.rs:153-166` (`get_ordered_siblings`) -/
def orderedSiblingsR {H : Type} (w index : Nat) (hash : Option H) (siblingIndex : Nat) (siblingHash : Option H) :
    Except ProofErr (Option H × Option H) :=
  if addW w index 1 = siblingIndex then .ok (hash, siblingHash)
  else if index = addW w siblingIndex 1 then .ok (siblingHash, hash)
  else .error .invalidProof

section
variable {I H : Type} (hasher : I → Meta → H) (merger : Option H → Option H → Meta → Option H)

/-- `proof.rs:120-137`: the loop over the peers. -/
def rootLoopR (w n : Nat) : Nat → Option H → List Nat → List (Option H) → Except ProofErr (Option H)
  | _, hash, [], _ => .ok hash
  | _, _, _ :: _, [] => .error (.panic "index out of bounds")
  | index, hash, p :: ps, q :: qs => do
    let hs ← orderedSiblingsR w index hash p q
    let parent := parentIndexR w index
    rootLoopR w n parent (merger hs.1 hs.2 (Meta.newR w parent n)) ps qs

/-- `proof.rs:111-145` (`root_hash`) -/
def Proof.rootHashR (w : Nat) (p : Proof I H) : Except ProofErr H :=
  if p.index > 0 then do
    let n := p.peerIndices.length % 2 ^ 32
    let hash ← rootLoopR merger w n p.index (some (hasher p.item (Meta.newR w p.index n))) p.peerIndices p.peerHashes
    match hash with
    | some h => .ok h
    | none => .error .mergerFailure
  else .error .invalidIndex

/-- `proof.rs:22-28` (`verify`) -/
def Proof.verifyR [DecidableEq H] (w : Nat) (p : Proof I H) (root : H) : Except Panic Bool :=
  match p.rootHashR hasher merger w with
  | .ok h => .ok (h = root)
  | .error (.panic msg) => .error ⟨msg⟩
  | .error _ => .ok false

end

/-- `path.rs:55-76`: the body of the loop. -/
def pathStepR {H : Type} (w : Nat) (s : PathState H) (node : PathNode H) : Except PathErr (PathState H) := do
  let row := s.rowIndex * 2 % 2 ^ w
  let isLeft ← node.hasLeftChild
  let peerRow := if isLeft then addW w row 1 else row
  let row := if isLeft then row else addW w row 1
  let heightAbove := s.peerIndices.length
  let peerIndex := addW w (subW w (2 ^ (heightAbove + 1) % 2 ^ w) 1) peerRow
  .ok ⟨peerIndex :: s.peerIndices, (if isLeft then node.left else node.right) :: s.peerHashes, row, peerIndex, isLeft⟩

/-- `path.rs:42-88` (`MerklePath::to_proof`) -/
def pathToProofR {I H : Type} (w : Nat) (path : List (PathNode H)) (item : I) : Except PathErr (Proof I H) := do
  let s ← path.reverse.foldlM (pathStepR w) ⟨[], [], 0, 0, false⟩
  let itemIndex := if s.nodeIsLeft then subW w s.peerIndex 1 else addW w s.peerIndex 1
  match Proof.new itemIndex item s.peerIndices s.peerHashes with
  | .ok p => .ok p
  | .error e => .error (.panic e.msg)

end MinaRs.Merkle
