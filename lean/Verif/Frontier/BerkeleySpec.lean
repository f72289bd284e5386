import Verif.Frontier.Berkeley
import Verif.GraphQL.AbortsSpec
import Verif.GraphQL.BestChainAccepted
import Verif.Hash.NoPanicProps
import Verif.Consensus.Spec

/-!
# Specification of the Berkeley node

In terms of the documents that the GraphQL server answers: which can be read, as what, and which end the process.
-/

namespace MinaRs.Frontier.Berkeley.Spec

open Json (J Env)
open Hash (ProtocolState Fp B32)
open Hash.Spec (stateHashes IsField)
open GraphQL (LedgerProof index)
open GraphQL.Spec

/-- The ledger entries, as steps from a leaf to the root, and the proofs made of them. -/
def ProofsOf (q : List (List (Bool × Fp) × Fp)) (proofs : List LedgerProof) : Prop :=
  q.map (fun e => Merkle.pathToProof (e.1.map Merkle.Spec.pathNode) e.2) = proofs.map .ok

/-- The document is read as this protocol state and this ledger. -/
def ReadAs (E : Env) (j : J) (s : ProtocolState) (proofs : List LedgerProof) : Prop :=
  ∃ es b bs q, j = .obj es ∧ index j "bestChain" = .arr (b :: bs) ∧ ReadsState E (index b "protocolState") s ∧
    ReadsEntries E es q ∧ ProofsOf q proofs

/-- Reading the document ends the process: its first block can be read, and so can the entries of the ledger up to one that
ends the process. -/
def ReadingEnds (E : Env) (j : J) : Prop :=
  ∃ b bs s before key v after q proofs, j = .obj (before ++ (key, v) :: after) ∧ index j "bestChain" = .arr (b :: bs) ∧
    ReadsState E (index b "protocolState") s ∧ ReadsEntries E before q ∧ ProofsOf q proofs ∧ AddressText E key ∧ EntryAborts v

/-- Every hash of the state that is hashed as a field element is one. -/
def Hashable (s : ProtocolState) : Prop := ∀ h ∈ stateHashes s, IsField h

/-- The block is in another epoch than the tip, and one of them in the last epoch that a `u32` can count.  Where only the
tip is, the block gets away with it if the tip's epoch follows its own and the two would pass for neighbours. -/
def EpochClash (tip s : ProtocolState) : Prop :=
  let t := tip.body.consensusState
  let c := s.body.consensusState
  0 < t.blockchainLength.toNat ∧ t.epochCount ≠ c.epochCount ∧
  (c.epochCount.toNat = 2 ^ 32 - 1 ∨
   (t.epochCount.toNat = 2 ^ 32 - 1 ∧
    ¬ (t.epochCount.toNat = c.epochCount.toNat + 1 ∧ 4760 ≤ c.currGlobalSlot.slotNumber.toNat % 7140 ∧
       t.stakingEpochData.lockCheckpoint = c.nextEpochData.lockCheckpoint)))

/-- The document stops a node whose best chain ends in this state, if it has one. -/
def Stops (E : Env) (tip : Option ProtocolState) (j : J) : Prop :=
  ReadingEnds E j ∨ ∃ s proofs, ReadAs E j s proofs ∧ (¬ Hashable s ∨ ∃ t, tip = some t ∧ EpochClash t s)

/-- A document that stops no node: reading it does not end the process, and if it can be read, its hashes are field elements and
its epoch is not the last one. -/
def Harmless (E : Env) (j : J) : Prop :=
  ¬ ReadingEnds E j ∧ ∀ s proofs, ReadAs E j s proofs → Hashable s ∧ s.body.consensusState.epochCount.toNat < 2 ^ 32 - 1

/-- What the page may be told by a node that was sent these documents: nothing only if none of them can be read and hashed, and else
the state hash, the protocol state or the ledger of one of them. -/
def Right (E : Env) (H : String → List Fp → Fp) (sha : List UInt8 → B32) (render : Nat → String) (js : List J) :
    BerkeleyQ → BerkeleyA ProtocolState LedgerProof → Prop
  | .hash, .hash none => ∀ j ∈ js, ∀ s l, ReadAs E j s l → ¬ Hashable s
  | .hash, .hash (some t) => ∃ j ∈ js, ∃ s l f, ReadAs E j s l ∧ Hashable s ∧ s.stateHash H sha = .ok f ∧ t = render f.val
  | .state, .state none => ∀ j ∈ js, ∀ s l, ReadAs E j s l → ¬ Hashable s
  | .state, .state (some s) => ∃ j ∈ js, ∃ l, ReadAs E j s l ∧ Hashable s
  | .ledger, .ledger l => ((∀ j ∈ js, ∀ s l, ReadAs E j s l → ¬ Hashable s) ∧ l = []) ∨
      ∃ j ∈ js, ∃ s, ReadAs E j s l ∧ Hashable s
  | _, _ => False

/-! ## Which block becomes the tip -/

/-- `lead` is one epoch ahead, `trail` is in the last third of an epoch of 7140 slots, and they agree on the checkpoint. -/
def Follows (lead trail : ProtocolState) : Prop :=
  lead.body.consensusState.epochCount.toNat = trail.body.consensusState.epochCount.toNat + 1 ∧
  4760 ≤ trail.body.consensusState.currGlobalSlot.slotNumber.toNat % 7140 ∧
  lead.body.consensusState.stakingEpochData.lockCheckpoint = trail.body.consensusState.nextEpochData.lockCheckpoint

/-- A short-range fork. -/
def NearFork (t s : ProtocolState) : Prop :=
  (t.body.consensusState.epochCount = s.body.consensusState.epochCount ∧
    t.body.consensusState.stakingEpochData.lockCheckpoint = s.body.consensusState.stakingEpochData.lockCheckpoint) ∨
  Follows t s ∨ Follows s t

/-- The relative minimum window density as the node computes it.  Every window is the same; how far it is shifted and from where is
not what the consensus specification says, see C37. -/
def relDensity (s other : ProtocolState) : Nat :=
  let slot := s.body.consensusState.currGlobalSlot.slotNumber.toNat
  let last := max slot other.body.consensusState.currGlobalSlot.slotNumber.toNat
  let own := s.body.consensusState.minWindowDensity.toNat
  if last < 1440 then own
  else min own (MinaRs.Consensus.Spec.shiftedDensity (min (last - (slot - 1)) 11) (slot / 11 % 11) [1, 7, 7, 7, 7, 7, 7, 7, 7, 7, 7])

/-- `s` is longer than `t`; or as long with the larger VRF digest; or equal in both with the larger state hash. -/
def Wins (H : String → List Fp → Fp) (sha : List UInt8 → B32) (digest : List UInt8 → List UInt8) (s t : ProtocolState) : Prop :=
  let a := t.body.consensusState
  let b := s.body.consensusState
  a.blockchainLength.toNat < b.blockchainLength.toNat ∨
  (a.blockchainLength.toNat = b.blockchainLength.toNat ∧ (digest a.lastVrfOutput < digest b.lastVrfOutput ∨
    (digest a.lastVrfOutput = digest b.lastVrfOutput ∧
      ∃ f g, s.stateHash H sha = .ok f ∧ t.stateHash H sha = .ok g ∧ g.val < f.val)))

/-- The node prefers `s` to its tip `t`. -/
def Prefers (H : String → List Fp → Fp) (sha : List UInt8 → B32) (digest : List UInt8 → List UInt8) (t s : ProtocolState) : Prop :=
  (NearFork t s ∧ Wins H sha digest s t) ∨
  (¬ NearFork t s ∧ (relDensity t s < relDensity s t ∨ (relDensity t s = relDensity s t ∧ Wins H sha digest s t)))

/-- What a block, read as this state and ledger, makes of the node: the best chain and the ledger before and after.  A first block
is taken; after a tip without height comes a block of height one or none; otherwise the block replaces the whole chain if it is
preferred.  The ledger is the block's if it is taken, or if it has the hash of the tip. -/
inductive Becomes (H : String → List Fp → Fp) (sha : List UInt8 → B32) (digest : List UInt8 → List UInt8) (s : ProtocolState)
    (l : List LedgerProof) : State ProtocolState LedgerProof → State ProtocolState LedgerProof → Prop
  | first {l0} : Becomes H sha digest s l ⟨[], l0⟩ ⟨[s], l⟩
  | appended {c t l0} : t.body.consensusState.blockchainLength = 0 → s.body.consensusState.blockchainLength = 1 →
      Becomes H sha digest s l ⟨c ++ [t], l0⟩ ⟨c ++ [t, s], l⟩
  | refused {c t l0} : t.body.consensusState.blockchainLength = 0 → s.body.consensusState.blockchainLength ≠ 1 →
      Becomes H sha digest s l ⟨c ++ [t], l0⟩ ⟨c ++ [t], l0⟩
  | replaced {c t l0} : t.body.consensusState.blockchainLength ≠ 0 → Prefers H sha digest t s →
      Becomes H sha digest s l ⟨c ++ [t], l0⟩ ⟨[s], l⟩
  | kept {c t l0} : t.body.consensusState.blockchainLength ≠ 0 → ¬ Prefers H sha digest t s → s.stateHash H sha ≠ t.stateHash H sha →
      Becomes H sha digest s l ⟨c ++ [t], l0⟩ ⟨c ++ [t], l0⟩
  | same {c t l0} : t.body.consensusState.blockchainLength ≠ 0 → ¬ Prefers H sha digest t s → s.stateHash H sha = t.stateHash H sha →
      Becomes H sha digest s l ⟨c ++ [t], l0⟩ ⟨c ++ [t], l⟩

end MinaRs.Frontier.Berkeley.Spec
