import Verif.Hash.Types
import Verif.Hash.AccountSpec
/-!
# What the hash inputs of protocol states can and cannot distinguish
-/

namespace MinaRs.Hash.Spec

/-- Two VRF outputs agree on their first 31 bytes and on the five low bits of the next one; what
follows is not looked at. -/
def VrfAgree (v w : Bytes) : Prop :=
  v.take 31 = w.take 31 ∧ ((v.getD 31 0).toNat % 32 = (w.getD 31 0).toNat % 32)

/-- A truncated VRF output: 32 bytes holding a number of 253 bits. -/
def Vrf253 (v : Bytes) : Prop := v.length = 32 ∧ (v.getD 31 0).toNat < 32

/-- Two consensus states are equal except possibly for their VRF outputs, which agree. -/
def ConsensusAgree (a b : ConsensusState) : Prop :=
  VrfAgree a.lastVrfOutput b.lastVrfOutput ∧ a = { b with lastVrfOutput := a.lastVrfOutput }

/-- Two staged ledger hashes have the same pending coinbase hash and the same bytes under the
SHA-256 digest. -/
def StagedAgree (a b : StagedLedgerHash) : Prop :=
  a.pendingCoinbaseHash = b.pendingCoinbaseHash ∧
  a.nonSnark.ledgerHash.bytes.reverse ++ a.nonSnark.auxHash ++ a.nonSnark.pendingCoinbaseAux =
    b.nonSnark.ledgerHash.bytes.reverse ++ b.nonSnark.auxHash ++ b.nonSnark.pendingCoinbaseAux

/-- The auxiliary hashes of the staged ledger hash are 32 bytes long, as SHA-256 digests are. -/
def AuxSized (a : StagedLedgerHash) : Prop :=
  a.nonSnark.auxHash.length = 32 ∧ a.nonSnark.pendingCoinbaseAux.length = 32

/-- A protocol state body as in a real block: a truncated VRF output, eleven sub-windows, 32-byte
auxiliary hashes, an empty failure table. -/
structure RealBody (b : Body) : Prop where
  vrf : Vrf253 b.consensusState.lastVrfOutput
  windows : b.consensusState.subWindowDensities.length = 11
  aux : AuxSized b.blockchainState.stagedLedgerHash
  failures : b.blockchainState.registers.localState.failureStatusTbl = 0

end MinaRs.Hash.Spec
