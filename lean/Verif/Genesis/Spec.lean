import Verif.Genesis.Model
import Verif.Consensus.Spec

/-!
# What the genesis blocks should be

Texts are described from the bytes upward: base58 of a version byte, the bytes and the first four bytes of
the double SHA-256 digest of both.
-/

namespace MinaRs.Genesis.Spec

open Text (Text)
open Hash

/-- The text of a 32-byte hash with the version byte `ver`; hashes carry the format version 1. -/
def hashText (ver : UInt8) (h : B32) : Text :=
  Codec.encode58 (ver :: 1 :: h.bytes ++ (Sha256.digest (Sha256.digest (ver :: 1 :: h.bytes))).take 4)

/-- The text of a hash that is a byte vector -/
def bytesText (ver : UInt8) (bs : Bytes) : Text :=
  Codec.encode58 (ver :: bs ++ (Sha256.digest (Sha256.digest (ver :: bs))).take 4)

/-- The address of a public key: version bytes, the coordinate in 32 little-endian bytes, the parity -/
def addressText (k : PubKey) : Text :=
  let raw := [0xcb, 0x01, 0x01] ++ leBytes 32 k.x.val ++ [if k.isOdd then 0x01 else 0x00]
  Codec.encode58 (raw ++ (Sha256.digest (Sha256.digest raw)).take 4)

/-- The texts and numbers of epoch data -/
def epochTexts (e : EpochData) (ledger seed start lock : String) (currency : Nat) (len : Nat) : Prop :=
  hashText 0x05 e.ledger.hash = ledger.toList ∧ hashText 0x0d e.seed = seed.toList ∧
  hashText 0x10 e.startCheckpoint = start.toList ∧ hashText 0x10 e.lockCheckpoint = lock.toList ∧
  e.ledger.totalCurrency.toNat = currency ∧ e.epochLength.toNat = len

instance (e : EpochData) (l s a b : String) (c n : Nat) : Decidable (epochTexts e l s a b c n) := by
  unfold epochTexts; infer_instance

/-- What every genesis consensus state has: height one, epoch and slots zero. -/
def Starts (c : ConsensusState) : Prop :=
  c.blockchainLength.toNat = 1 ∧ c.epochCount.toNat = 0 ∧ c.currGlobalSlot.slotNumber.toNat = 0 ∧
  c.globalSlotSinceGenesis.toNat = 0 ∧ c.hasAncestorInSameCheckpointWindow = true ∧ c.superchargeCoinbase = true

instance (c : ConsensusState) : Decidable (Starts c) := by unfold Starts; infer_instance

/-- The consensus state of the mainnet and Berkeley genesis blocks: eleven sub-windows of seven slots, all full
but the first; 7140 slots in an epoch; one key for all three roles -/
def Windows (c : ConsensusState) : Prop :=
  c.minWindowDensity.toNat = 7 * 11 ∧ c.subWindowDensities.map (·.toNat) = 1 :: List.replicate 10 7 ∧
  c.currGlobalSlot.slotsPerEpoch.toNat = 7140 ∧
  addressText c.blockStakeWinner = "B62qiy32p8kAKnny8ZFwoMhYpBppM1DWVCqAPBYNcXnsAHhnfAAuXgg".toList ∧
  c.blockCreator = c.blockStakeWinner ∧ c.coinbaseReceiver = c.blockStakeWinner

instance (c : ConsensusState) : Decidable (Windows c) := by unfold Windows; infer_instance

/-- The mainnet genesis state, by its texts -/
def Mainnet (s : ProtocolStateLegacy) : Prop :=
  let b := s.body.blockchainState
  let c := s.body.consensusState
  hashText 0x10 s.previousStateHash = "3NLoKn22eMnyQ7rxh5pxB6vBA3XhSAhhrf7akdqS6HbAKD14Dh1d".toList ∧
  s.body.genesisStateHash = s.previousStateHash ∧
  hashText 0x05 b.genesisLedgerHash = "jx7buQVWFLsXTtzRgSxbYcT8EYLS8KCZbLrfDcJxMtyy4thw2Ee".toList ∧
  b.snarkedLedgerHash = b.genesisLedgerHash ∧ b.stagedLedgerHash.nonSnark.ledgerHash = b.genesisLedgerHash ∧
  bytesText 0x0e b.stagedLedgerHash.nonSnark.auxHash = "UDRUFHSvxUAtV8sh7gzMVPqpbd46roG1wzWR6dYvB6RunPihom".toList ∧
  bytesText 0x0f b.stagedLedgerHash.nonSnark.pendingCoinbaseAux =
    "WAAeUjUnP9Q2JiabhJzJozcjiEmkZe8ob4cfFKSuq6pQSNmHh7".toList ∧
  hashText 0x0c b.stagedLedgerHash.pendingCoinbaseHash = "2n1tLdP2gkifmyVmrmzYXTS4ohPbZPJn6Qq4x55ywrbRWB4543cC".toList ∧
  b.snarkedNextAvailableToken.toNat = 2 ∧ b.timestamp.toNat = 1615939200 * 1000 ∧
  Starts c ∧ Windows c ∧ Codec.encode64 c.lastVrfOutput = "NfThG1r1GxQuhaGLSJWGxcpv24SudtXG4etB0TnGqwg=".toList ∧
  c.totalCurrency.toNat = 805385692840039233 ∧
  epochTexts c.stakingEpochData "jx7buQVWFLsXTtzRgSxbYcT8EYLS8KCZbLrfDcJxMtyy4thw2Ee"
    "2va9BGv9JrLTtrzZttiEMDYw1Zj6a6EHzXjmP9evHDTG3oEquURA" "3NK2tkzqqK5spR2sZ7tujjqPksL45M3UUrcA4WhCkeiPtnugyE2x"
    "3NK2tkzqqK5spR2sZ7tujjqPksL45M3UUrcA4WhCkeiPtnugyE2x" 805385692840039233 1 ∧
  epochTexts c.nextEpochData "jx7buQVWFLsXTtzRgSxbYcT8EYLS8KCZbLrfDcJxMtyy4thw2Ee"
    "2vaRh7FQ5wSzmpFReF9gcRKjv48CcJvHs25aqb3SSZiPgHQBy5Dt" "3NK2tkzqqK5spR2sZ7tujjqPksL45M3UUrcA4WhCkeiPtnugyE2x"
    "3NLoKn22eMnyQ7rxh5pxB6vBA3XhSAhhrf7akdqS6HbAKD14Dh1d" 805385692840039233 2 ∧
  s.body.constants.k.toNat = 290 ∧ s.body.constants.delta.toNat = 0 ∧ s.body.constants.slotsPerEpoch.toNat = 7140 ∧
  s.body.constants.slotsPerSubWindow.toNat = 7 ∧ s.body.constants.genesisStateTimestamp = b.timestamp

instance (s : ProtocolStateLegacy) : Decidable (Mainnet s) := by unfold Mainnet; infer_instance

/-- The Berkeley genesis state, by its texts -/
def Berkeley (s : ProtocolState) : Prop :=
  let b := s.body.blockchainState
  let c := s.body.consensusState
  let l := b.registers.localState
  hashText 0x10 s.previousStateHash = "3NLUmnTBMCeExeWErijZ2GeLnjLtBgsDjN3qM8M8gcJDtk8k89xf".toList ∧
  s.body.genesisStateHash = s.previousStateHash ∧
  hashText 0x05 b.genesisLedgerHash = "jwNYQU34Jb9FD6ZbKnWRALZqVDKbMrjZBKWFYZwAw8ZPMgv9Ld4".toList ∧
  b.registers.ledger = b.genesisLedgerHash ∧ b.stagedLedgerHash.nonSnark.ledgerHash = b.genesisLedgerHash ∧
  bytesText 0x0e b.stagedLedgerHash.nonSnark.auxHash = "UDRUFHSvxUAtV8sh7gzMVPqpbd46roG1wzWR6dYvB6RunPihom".toList ∧
  bytesText 0x0f b.stagedLedgerHash.nonSnark.pendingCoinbaseAux =
    "WAAeUjUnP9Q2JiabhJzJozcjiEmkZe8ob4cfFKSuq6pQSNmHh7".toList ∧
  hashText 0x0c b.stagedLedgerHash.pendingCoinbaseHash = "2n27mUhCEctJbiZQdrk3kxYc7DVHvJVDErjXrjNs7jnP3HMLKtuN".toList ∧
  Codec.hexEncode b.bodyReference.bytes = "36bda176656cc3be96c3d317db7b4ac06fdbc7f4eedcd6efdd20e28143d67421".toList ∧
  b.timestamp.toNat = 1655755201 * 1000 ∧
  leNat l.stackFrame.bytes = 0x02F99BCFB0AA7F48C1888DA5A67196A2410FB084CD2DB1AF5216C5122AEBC054 ∧
  leNat l.callStack.bytes = 0 ∧ leNat l.transactionCommitment.bytes = 0 ∧ leNat l.fullTransactionCommitment.bytes = 0 ∧
  hashText 0x05 l.ledger = "jw6bz2wud1N6itRUHZ5ypo3267stk4UgzkiuWtAMPRZo9g4Udyd".toList ∧
  l.tokenId.toNat = 1 ∧ l.excess = (0, true) ∧ l.success = true ∧ l.partyIndex.toNat = 0 ∧ l.failureStatusTbl = 0 ∧
  Starts c ∧ Windows c ∧ Codec.encode64 c.lastVrfOutput = "OruOTtGM3tJL3jM0GHtCzKyugvWT0ZP7VckspHX8_g8=".toList ∧
  c.totalCurrency.toNat = 1013238001000001000 ∧
  epochTexts c.stakingEpochData "jwNYQU34Jb9FD6ZbKnWRALZqVDKbMrjZBKWFYZwAw8ZPMgv9Ld4"
    "2va9BGv9JrLTtrzZttiEMDYw1Zj6a6EHzXjmP9evHDTG3oEquURA" "3NK2tkzqqK5spR2sZ7tujjqPksL45M3UUrcA4WhCkeiPtnugyE2x"
    "3NK2tkzqqK5spR2sZ7tujjqPksL45M3UUrcA4WhCkeiPtnugyE2x" 1013238001000001000 1 ∧
  epochTexts c.nextEpochData "jwNYQU34Jb9FD6ZbKnWRALZqVDKbMrjZBKWFYZwAw8ZPMgv9Ld4"
    "2vc1zQHJx2xN72vaR4YDH31KwFSr5WHSEH2dzcfcq8jxBPcGiJJA" "3NK2tkzqqK5spR2sZ7tujjqPksL45M3UUrcA4WhCkeiPtnugyE2x"
    "3NLUmnTBMCeExeWErijZ2GeLnjLtBgsDjN3qM8M8gcJDtk8k89xf" 1013238001000001000 2 ∧
  s.body.constants.k.toNat = 290 ∧ s.body.constants.delta.toNat = 0 ∧ s.body.constants.slotsPerEpoch.toNat = 7140 ∧
  s.body.constants.slotsPerSubWindow.toNat = 7 ∧ s.body.constants.genesisStateTimestamp = b.timestamp

instance (s : ProtocolState) : Decidable (Berkeley s) := by unfold Berkeley; infer_instance

/-- The block of a configuration: what the configuration gives, unchanged, and the start values; its minimum
window density is `density`. -/
structure GenesisOf (c : Config) (density : Nat) (s : ProtocolStateLegacy) : Prop where
  starts : Starts s.body.consensusState
  density : s.body.consensusState.minWindowDensity.toNat = density
  epochLength : s.body.consensusState.currGlobalSlot.slotsPerEpoch = c.constants.slotsPerEpoch
  previous : s.previousStateHash = c.previousStateHash
  genesis : s.body.genesisStateHash = c.genesisStateHash
  blockchain : s.body.blockchainState = c.blockchainState
  constants : s.body.constants = c.constants
  windows : s.body.consensusState.subWindowDensities = c.subWindowDensities
  vrf : s.body.consensusState.lastVrfOutput = c.lastVrfOutput
  currency : s.body.consensusState.totalCurrency = c.totalCurrency
  staking : s.body.consensusState.stakingEpochData = c.stakingEpochData
  next : s.body.consensusState.nextEpochData = c.nextEpochData
  keys : s.body.consensusState.blockStakeWinner = c.blockStakeWinner ∧ s.body.consensusState.blockCreator = c.blockCreator ∧
    s.body.consensusState.coinbaseReceiver = c.coinbaseReceiver

/-- What chain selection sees of a consensus state -/
def seen (c : ConsensusState) : Consensus.ConsensusState where
  blockchainLength := c.blockchainLength.toNat
  epochCount := c.epochCount.toNat
  minWindowDensity := c.minWindowDensity.toNat
  subWindowDensities := c.subWindowDensities.map (·.toNat)
  lastVrfOutput := c.lastVrfOutput
  currGlobalSlot := ⟨c.currGlobalSlot.slotNumber.toNat, c.currGlobalSlot.slotsPerEpoch.toNat⟩
  stakingEpochData := ⟨c.stakingEpochData.lockCheckpoint.bytes⟩
  nextEpochData := ⟨c.nextEpochData.lockCheckpoint.bytes⟩

end MinaRs.Genesis.Spec
