import Verif.Merkle.Model
import Verif.Vectors.Basics

/-!
# The project's own test vectors: Merkle trees and chain selection

As in `Verif.Vectors.Basics`: tests of the model against the unit tests of `/repo`, not claims.
-/

namespace MinaRs.Vectors

open Merkle (Tree Meta Proof Panic)
open Consensus (ConsensusState)

/-- `TestHasher` (`merkle/tests/tree.rs:26-34`) -/
def testHash (item : Nat) (_ : Meta) : Nat := item

/-- `TestMerger` (`merkle/tests/tree.rs:36-47`) -/
def sumMerge : Option Nat → Option Nat → Meta → Option Nat
  | some l, some r, _ => some (l + r)
  | some l, none, _ => some l
  | _, _, _ => none

/-- `TestMerger` of the tree that doubles an odd leaf (`merkle/tests/tree_dup_odd_leaf_merger.rs:20-60`) -/
def dupMerge : Option Nat → Option Nat → Meta → Option Nat
  | some l, some r, _ => some (l + r)
  | some l, none, _ => some (2 * l)
  | _, _, _ => none

/-- The batches added one after the other, then the root and the height the tree reports
(`merkle/tests/tree.rs:133-149`). -/
def rootOf (merge : Option Nat → Option Nat → Meta → Option Nat) (fixed : Option Nat) (batches : List (List Nat)) :
    Option (Option Nat × Nat × Nat) :=
  match batches.foldl (fun t b => match t with | .ok t => t.addBatch b | .error e => .error e)
      (.ok (Tree.new fixed : Tree Nat Nat) : Except Panic (Tree Nat Nat)) with
  | .error _ => none
  | .ok t =>
    match t.root testHash merge with
    | .error _ => none
    | .ok (h, t) => some (h, t.reportedHeight, t.count)

-- `merkle/tests/tree.rs:88-131`
example : rootOf sumMerge none [] = some (none, 0, 0) := by decide +kernel
example : rootOf sumMerge none [List.range 10] = some (some 45, 4, 10) := by decide +kernel
example : rootOf sumMerge none [List.range 111] = some (some 6105, 7, 111) := by decide +kernel
example : rootOf sumMerge none [List.range 127] = some (some 8001, 7, 127) := by decide +kernel
example : rootOf sumMerge none [List.range 128] = some (some 8128, 7, 128) := by decide +kernel

-- `merkle/tests/tree_dup_odd_leaf_merger.rs`
example : rootOf dupMerge none [List.range 10] = some (some 96, 4, 10) := by decide +kernel
example : rootOf dupMerge none [List.range 111] = some (some 7870, 7, 111) := by decide +kernel
example : rootOf dupMerge none [List.range 127] = some (some 8127, 7, 127) := by decide +kernel
example : rootOf dupMerge none [List.range 128] = some (some 8128, 7, 128) := by decide +kernel
example : rootOf dupMerge none [List.range 129] = some (some 24512, 8, 129) := by decide +kernel

-- `merkle/tests/tree.rs:64-86`: a height that is too small, and six that are not
example : rootOf sumMerge (some 3) [List.range 10] = none := by decide +kernel
example : ((List.range 6).map fun k => rootOf sumMerge (some (k + 4)) [List.range 10]) =
    (List.range 6).map fun k => some (some 45, k + 4, 10) := by decide +kernel

/-- The roots seen while a tree grows to each of these sizes in turn (`merkle/tests/tree.rs:170-190`). -/
def grow (merge : Option Nat → Option Nat → Meta → Option Nat) (sizes : List Nat) : Option (List (Option Nat × Nat)) :=
  let rec go (t : Tree Nat Nat) : List Nat → Option (List (Option Nat × Nat))
    | [] => some []
    | n :: ns =>
      match t.addBatch ((List.range (n - t.count)).map (· + t.count)) with
      | .error _ => none
      | .ok t =>
        match t.root testHash merge with
        | .error _ => none
        | .ok (h, t) => (go t ns).map fun rest => (h, t.reportedHeight) :: rest
  go (Tree.new none) sizes

-- `merkle/tests/tree.rs:146-158`, `merkle/tests/tree_dup_odd_leaf_merger.rs:109-120`
example : grow sumMerge [1, 9, 10, 111, 127] =
    some [(some 0, 0), (some 36, 4), (some 45, 4), (some 6105, 7), (some 8001, 7)] := by decide +kernel
example : grow dupMerge [1, 9, 10, 111, 127, 128] =
    some [(some 0, 0), (some 92, 4), (some 96, 4), (some 7870, 7), (some 8127, 7), (some 8128, 7)] := by decide +kernel

/-- The proofs of all of `n` leaves, each checked against the root (`merkle/tests/tree.rs:160-171`). -/
def proofsVerify (n : Nat) : Bool :=
  match (Tree.new none : Tree Nat Nat).addBatch (List.range n) with
  | .error _ => false
  | .ok t =>
    match t.root testHash sumMerge with
    | .ok (some root, t) =>
      (List.range n).all fun i =>
        match t.getProof testHash sumMerge i with
        | .ok (some p, _) => match p.verify testHash sumMerge root with | .ok b => b | .error _ => false
        | _ => false
    | _ => false

example : proofsVerify 11 = true := by decide +kernel

/-! ## Metadata (`merkle/tests/metadata.rs`): the nodes of a tree of height 10 -/

example : Meta.new 0 10 = .ok ⟨0, 10⟩ ∧ Meta.new 1 10 = .ok ⟨1, 9⟩ ∧ Meta.new 2 10 = .ok ⟨1, 9⟩ ∧
    Meta.new 3 10 = .ok ⟨2, 8⟩ ∧ Meta.new 6 10 = .ok ⟨2, 8⟩ ∧ Meta.new 7 10 = .ok ⟨3, 7⟩ ∧
    Meta.new 1028 10 = .ok ⟨10, 0⟩ := by decide +kernel

/-! ## Prefixes (`merkle/src/prefixes.rs`) -/

example : Merkle.merklePrefix 3 = "CodaMklTree003" ∧ Merkle.merklePrefix 13 = "CodaMklTree013" ∧
    Merkle.merklePrefix 113 = "CodaMklTree113" ∧ Merkle.coinbaseMerklePrefix 3 = "CodaCbMklTree003" := by
  decide +kernel

/-! ## Chain selection between real blocks (`consensus/tests/common.rs:286-570`)

The lock checkpoints are numbered in the order of their first appearance. -/

/-- `mainnet-113267-3NLenrog9wkiJMoA774T9VraqSUGhCuhbDLj3JKbEzomNdjr78G8.json`
(`protocol/test-fixtures/src/data`) -/
def block113267 : ConsensusState :=
  ⟨113267, 23, 14, [7, 2, 2, 5, 6, 7, 5, 7, 5, 5, 5], [0x90], ⟨167176, 7140⟩, ⟨[1]⟩, ⟨[2]⟩⟩

/-- `mainnet-77748-3NKaBJsN1SehD6iJwRwJSFmVzJg5DXSUQVgnMxtH4eer4aF5BrDK.json` (`protocol/test-fixtures/src/data`),
with the sub-window densities as a parameter -/
def block77748 (subs : List Nat) : ConsensusState :=
  ⟨77748, 15, 33, subs, [0x58], ⟨111965, 7140⟩, ⟨[3]⟩, ⟨[4]⟩⟩

/-- Its densities (`protocol/test-fixtures/src/data`). -/
def subs77748 : List Nat := [6, 1, 3, 5, 4, 3, 5, 7, 4, 5, 6]

-- `consensus/tests/common.rs:286-326, 411-446`
example : Consensus.selectSecureChain hdr [(block77748 subs77748, 0)] [[(block113267, 1)]] =
    ([(block113267, 1)], .ok ()) := by decide +kernel
example : Consensus.selectSecureChain hdr [(block113267, 1)] [[(block77748 subs77748, 0)]] =
    ([(block113267, 1)], .ok ()) := by decide +kernel

-- `consensus/tests/common.rs:449-491`: three more densities
example : Consensus.selectSecureChain hdr [(block113267, 1)] [[(block77748 (subs77748 ++ [6, 6, 6]), 0)]] =
    ([(block113267, 1)], .ok ()) := by decide +kernel

-- `consensus/tests/common.rs:494-531`: a density of 999
example : Consensus.selectSecureChain hdr [(block113267, 1)] [[(block77748 (subs77748.set 5 999), 0)]] =
    ([(block113267, 1)], .ok ()) := by decide +kernel

-- `consensus/tests/common.rs:534-569`: three densities only
example : Consensus.selectSecureChain hdr [(block113267, 1)] [[(block77748 [6, 1, 3], 0)]] =
    ([(block113267, 1)], .ok ()) := by decide +kernel

-- `consensus/tests/common.rs:328-408`: the same density, the candidate is longer
example : Consensus.selectSecureChain hdr [(state 1 23 14 [7, 2, 2, 5, 6, 7, 5, 7, 5, 5, 5] 167176 7140, 0)]
      [[(state 77748 15 14 [7, 2, 2, 5, 6, 7, 5, 7, 5, 5, 5] 167176 7140, 0)]] =
    ([(state 77748 15 14 [7, 2, 2, 5, 6, 7, 5, 7, 5, 5, 5] 167176 7140, 0)], .ok ()) := by decide +kernel

end MinaRs.Vectors
