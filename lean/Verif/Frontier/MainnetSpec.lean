import Verif.Frontier.Mainnet
import Verif.Frontier.Lemmas
import Verif.Block.Spec
import Verif.Consensus.Spec
import Verif.Hash.NoPanicProps

/-!
# Specification of the mainnet node

Which blocks end the process, in terms of the fields of protocol states, and where those are in a block, by the names of its fields.
-/

namespace MinaRs.Frontier.Mainnet.Spec

open Block (Blk BTy BTys Key Sig)
open BinProt (IntKind)
open Hash (B32 Fp ProtocolStateLegacy)
open Hash.Spec (stateHashesLegacy IsField)
open Frontier.Spec (ValidCommand)
open MinaRs.Consensus.Spec (shiftedDensity)
open MinaRs.Consensus (Chain)

/-! ## The parts of a block, by name -/

/-- A value inside a block. -/
inductive Seen where
  | num (n : Int)
  | bytes (bs : List UInt8)
  | flag (b : Bool)
  | key (k : Key)
  | sig (s : Sig)

mutual
/-- The values at a path of field names inside a value.  The items of a sequence are all visited, those of a tuple are called by
their position, and a variant by its name; version layers have no name. -/
def look : (t : BTy) → t.base → List String → List Seen
  | .versioned t, v, p => look t v p
  | .newtype t, v, p => look t v p
  | .seq t, v, p => (show List t.base from v).flatMap fun x => look t x p
  | .option t, v, p => match (show Option t.base from v) with
    | none => []
    | some x => look t x p
  | .struct ts, v, n :: p => lookField ts v n p
  | .tuple ts, v, n :: p => lookItem ts v 0 n p
  | .enum vs, v, n :: p => lookVariant vs v n p
  | .int k, v, [] => [.num (show {n : Int // k.range.holds n} from v).val]
  | .bytes32, v, [] => [.bytes (Json.arrBytes 32 v)]
  | .bytes, v, [] => [.bytes v]
  | .bool, v, [] => [.flag v]
  | .key, v, [] => [.key v]
  | .sig, v, [] => [.sig v]
  | _, _, _ => []
/-- The field of this name. -/
def lookField : (ts : BTys) → ts.prod → String → List String → List Seen
  | .nil, _, _, _ => []
  | .cons m t ts, v, n, p =>
    let x : t.base × ts.prod := v
    if m == n then look t x.1 p else lookField ts x.2 n p
/-- The item at this position. -/
def lookItem : (ts : BTys) → ts.prod → Nat → String → List String → List Seen
  | .nil, _, _, _, _ => []
  | .cons _ t ts, v, i, n, p =>
    let x : t.base × ts.prod := v
    if ["0", "1", "2"][i]? == some n then look t x.1 p else lookItem ts x.2 (i + 1) n p
/-- The contents of the variant, if it is the one of this name. -/
def lookVariant : (vs : BTys) → vs.sum → String → List String → List Seen
  | .nil, _, _, _ => []
  | .cons m t ts, v, n, p =>
    match (show t.base ⊕ ts.sum from v) with
    | .inl x => if m == n then look t x p else []
    | .inr x => lookVariant ts x n p
end

/-! ## Which blocks stop a node -/

/-- Every hash of the state that is hashed as a field element is one. -/
def Hashable (s : ProtocolStateLegacy) : Prop := ∀ h ∈ stateHashesLegacy s, IsField h

/-- The slot of the block. -/
def slot (s : ProtocolStateLegacy) : Nat := s.body.consensusState.currGlobalSlot.slotNumber.toNat

/-- `lead` is one epoch ahead of `trail`, which is late in its epoch, and they agree on the checkpoint. -/
def Follows (lead trail : ProtocolStateLegacy) : Prop :=
  lead.body.consensusState.epochCount.toNat = trail.body.consensusState.epochCount.toNat + 1 ∧
  4760 ≤ slot trail % trail.body.consensusState.currGlobalSlot.slotsPerEpoch.toNat ∧
  lead.body.consensusState.stakingEpochData.lockCheckpoint = trail.body.consensusState.nextEpochData.lockCheckpoint

/-- A short-range fork. -/
def NearFork (t s : ProtocolStateLegacy) : Prop :=
  (t.body.consensusState.epochCount = s.body.consensusState.epochCount ∧
    t.body.consensusState.stakingEpochData.lockCheckpoint = s.body.consensusState.stakingEpochData.lockCheckpoint) ∨
  Follows t s ∨ Follows s t

/-- The tip and the block are in different epochs, and one has epochs of no slots or is in the last epoch that a `u32` can count.
Where only the tip is, the block gets away with it if the tip follows it. -/
def EpochClash (t s : ProtocolStateLegacy) : Prop :=
  let bad := fun x : ProtocolStateLegacy =>
    x.body.consensusState.currGlobalSlot.slotsPerEpoch.toNat = 0 ∨ x.body.consensusState.epochCount.toNat = 2 ^ 32 - 1
  t.body.consensusState.epochCount ≠ s.body.consensusState.epochCount ∧ (bad s ∨ (bad t ∧ ¬ Follows t s))

/-- The window has eleven sub-windows with at most seven blocks each. -/
def WindowOk (s : ProtocolStateLegacy) : Prop :=
  s.body.consensusState.subWindowDensities.length = 11 ∧ ∀ d ∈ s.body.consensusState.subWindowDensities, d.toNat ≤ 7

/-- How many sub-windows the node clears in the window of `s` to compare it with `other`; see C37. -/
def shift (s other : ProtocolStateLegacy) : Nat := min (max (slot s) (slot other) - (slot s - 1)) 11

/-- All those sub-windows exist. -/
def Fits (s other : ProtocolStateLegacy) : Prop :=
  ∀ i < shift s other, (slot s / 11 % 11 + 1 + i) % 11 < s.body.consensusState.subWindowDensities.length

/-- The blocks in the sub-windows that are left. -/
def blocksLeft (s other : ProtocolStateLegacy) : Nat :=
  shiftedDensity (shift s other) (slot s / 11 % 11) (s.body.consensusState.subWindowDensities.map (·.toNat))

/-- The relative minimum window density. -/
def relDensity (s other : ProtocolStateLegacy) : Nat :=
  if max (slot s) (slot other) < 1440 then s.body.consensusState.minWindowDensity.toNat
  else min s.body.consensusState.minWindowDensity.toNat (blocksLeft s other)

/-- The window of the tip counts more blocks than a `u32` can. -/
def WindowOverflow (t s : ProtocolStateLegacy) : Prop :=
  ¬ NearFork t s ∧ WindowOk s ∧ 1440 ≤ max (slot t) (slot s) ∧ Fits t s ∧ 2 ^ 32 ≤ blocksLeft t s

/-- The tip and the block tie up to their state hashes, and one of these cannot be computed. -/
def HashClash (digest : List UInt8 → List UInt8) (t s : ProtocolStateLegacy) : Prop :=
  t.body.consensusState.blockchainLength = s.body.consensusState.blockchainLength ∧
  digest t.body.consensusState.lastVrfOutput = digest s.body.consensusState.lastVrfOutput ∧
  (NearFork t s ∨ (WindowOk s ∧ (max (slot t) (slot s) < 1440 ∨ Fits t s) ∧ relDensity t s = relDensity s t)) ∧
  ¬ (Hashable t ∧ Hashable s)

variable {Pt : Type}

/-- The commands of a block, in the order in which they are checked. -/
def checked (b : Blk) : List (SignedCommand Key Sig Payload) := (used b).stagedLedgerDiff.diffOne.getD [] ++ (used b).stagedLedgerDiff.diffTwo

/-- A command whose signer is not a point of the curve comes before all commands that are not valid. -/
def BadSigner (crypto : Crypto Key Pt Sig Payload) (b : Blk) : Prop :=
  ∃ pre c post, checked b = pre ++ c :: post ∧ (∀ x ∈ pre, ValidCommand crypto x) ∧ crypto.uncompress c.signer = none

/-- The block stops a node whose best chain ends in this state, if it has one: it has a key or a signature that is not made of field
elements, a signer that is not on the curve, or all its commands are valid and it cannot be compared with the tip. -/
def Stops (digest : List UInt8 → List UInt8) (crypto : Crypto Key Pt Sig Payload) (tip : Option ProtocolStateLegacy) (v : Block.block.wire.denote) : Prop :=
  ¬ Block.Spec.Canonical Block.block v ∨
  ∃ b, Block.fromWire Block.block v = .ok b ∧
    (BadSigner crypto b ∨
      ((∀ c ∈ checked b, ValidCommand crypto c) ∧
        ∃ t, tip = some t ∧ t.body.consensusState.blockchainLength ≠ 0 ∧
          (EpochClash t (used b).protocolState ∨ WindowOverflow t (used b).protocolState ∨
            HashClash digest t (used b).protocolState)))

/-- No node is stopped by this block, unless by one that is not harmless before it: its keys and signatures are made of field
elements, its signers are on the curve, its hashes are field elements, its epochs have slots, it is not in the last epoch, and its
window is in order. -/
def Harmless (crypto : Crypto Key Pt Sig Payload) (v : Block.block.wire.denote) : Prop :=
  ∃ b, Block.fromWire Block.block v = .ok b ∧
    let s := (used b).protocolState
    (∀ c ∈ checked b, crypto.uncompress c.signer ≠ none) ∧ Hashable s ∧
    s.body.consensusState.currGlobalSlot.slotsPerEpoch.toNat ≠ 0 ∧ s.body.consensusState.epochCount.toNat ≠ 2 ^ 32 - 1 ∧ WindowOk s

/-- The block was sent and has only valid commands. -/
def Usable (crypto : Crypto Key Pt Sig Payload) (vs : List Block.block.wire.denote) (b : Blk) : Prop :=
  ∃ v ∈ vs, Block.fromWire Block.block v = .ok b ∧ ∀ c ∈ checked b, ValidCommand crypto c

/-- What the page may get that asks for the state hash of the tip, after these blocks were sent: `null` only if none of them is usable, and
else the hash of a usable one; the question panics only if there is a usable one that has no hash. -/
def RightHash (H : String → List Fp → Fp) (sha : List UInt8 → B32) (render : Nat → String) (crypto : Crypto Key Pt Sig Payload)
    (vs : List Block.block.wire.denote) : Option (Except Err String) → Prop
  | none => ∀ b, ¬ Usable crypto vs b
  | some (.ok t) => ∃ b f, Usable crypto vs b ∧ (used b).protocolState.stateHash H sha = .ok f ∧ t = render f.val
  | some (.error _) => ∃ b, Usable crypto vs b ∧ ¬ Hashable (used b).protocolState

/-! ## What becomes of the best chain -/

/-- `s` is longer than `t`; or as long with the larger VRF digest; or equal in both with the larger state hash. -/
def Wins (H : String → List Fp → Fp) (sha : List UInt8 → B32) (digest : List UInt8 → List UInt8) (s t : ProtocolStateLegacy) : Prop :=
  let a := t.body.consensusState
  let b := s.body.consensusState
  a.blockchainLength.toNat < b.blockchainLength.toNat ∨
  (a.blockchainLength = b.blockchainLength ∧ (digest a.lastVrfOutput < digest b.lastVrfOutput ∨
    (digest a.lastVrfOutput = digest b.lastVrfOutput ∧
      ∃ f g, s.stateHash H sha = .ok f ∧ t.stateHash H sha = .ok g ∧ g.val < f.val)))

/-- The node prefers `s` to its tip `t`.  In a long-range fork the window of `s` is in order, and that of `t` has the sub-windows that
are cleared. -/
def Prefers (H : String → List Fp → Fp) (sha : List UInt8 → B32) (digest : List UInt8 → List UInt8) (t s : ProtocolStateLegacy) : Prop :=
  (NearFork t s ∧ Wins H sha digest s t) ∨
  (¬ NearFork t s ∧ WindowOk s ∧ (max (slot t) (slot s) < 1440 ∨ Fits t s) ∧
    (relDensity t s < relDensity s t ∨ (relDensity t s = relDensity s t ∧ Wins H sha digest s t)))

/-- What a block makes of the best chain.  A block with a command that is not valid is refused; a first block is taken; after a tip
without height comes a block of height one or none; otherwise the block replaces the whole chain if it is preferred. -/
inductive Becomes (H : String → List Fp → Fp) (sha : List UInt8 → B32) (digest : List UInt8 → List UInt8)
    (crypto : Crypto Key Pt Sig Payload) (b : Blk) : Chain ProtocolStateLegacy → Chain ProtocolStateLegacy → Prop
  | invalid {c} : (¬ ∀ x ∈ checked b, ValidCommand crypto x) → Becomes H sha digest crypto b c c
  | first : (∀ x ∈ checked b, ValidCommand crypto x) → Becomes H sha digest crypto b [] [(used b).protocolState]
  | appended {c t} : (∀ x ∈ checked b, ValidCommand crypto x) → t.body.consensusState.blockchainLength = 0 →
      (used b).protocolState.body.consensusState.blockchainLength = 1 →
      Becomes H sha digest crypto b (c ++ [t]) (c ++ [t, (used b).protocolState])
  | refused {c t} : (∀ x ∈ checked b, ValidCommand crypto x) → t.body.consensusState.blockchainLength = 0 →
      (used b).protocolState.body.consensusState.blockchainLength ≠ 1 → Becomes H sha digest crypto b (c ++ [t]) (c ++ [t])
  | replaced {c t} : (∀ x ∈ checked b, ValidCommand crypto x) → t.body.consensusState.blockchainLength ≠ 0 →
      Prefers H sha digest t (used b).protocolState → Becomes H sha digest crypto b (c ++ [t]) [(used b).protocolState]
  | kept {c t} : (∀ x ∈ checked b, ValidCommand crypto x) → t.body.consensusState.blockchainLength ≠ 0 →
      ¬ Prefers H sha digest t (used b).protocolState → Becomes H sha digest crypto b (c ++ [t]) (c ++ [t])

end MinaRs.Frontier.Mainnet.Spec
