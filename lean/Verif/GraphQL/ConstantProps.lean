import Verif.GraphQL.AcceptedProps
import Verif.Genesis.Spec

/-!
# The values an imported state has whatever the document says (C73)
-/

namespace MinaRs.GraphQL

open Json (J Env)
open Hash

/-- What every imported state is given: the hash of the genesis state, the constants of the network, and the local state of the
registers, as the texts and numbers of the network have them. -/
structure Spec.HasConstants (s : ProtocolState) : Prop where
  genesis : Genesis.Spec.hashText 0x10 s.body.genesisStateHash =
    "3NLUmnTBMCeExeWErijZ2GeLnjLtBgsDjN3qM8M8gcJDtk8k89xf".toList
  k : s.body.constants.k = 290
  slotsPerEpoch : s.body.constants.slotsPerEpoch = 7140
  slotsPerSubWindow : s.body.constants.slotsPerSubWindow = 7
  delta : s.body.constants.delta = 0
  genesisStateTimestamp : s.body.constants.genesisStateTimestamp = 1655755201000
  stackFrame : leNat s.body.blockchainState.registers.localState.stackFrame.bytes =
    0x02F99BCFB0AA7F48C1888DA5A67196A2410FB084CD2DB1AF5216C5122AEBC054
  callStack : leNat s.body.blockchainState.registers.localState.callStack.bytes = 0
  commitment : leNat s.body.blockchainState.registers.localState.transactionCommitment.bytes = 0
  fullCommitment : leNat s.body.blockchainState.registers.localState.fullTransactionCommitment.bytes = 0
  tokenId : s.body.blockchainState.registers.localState.tokenId = 1
  excess : s.body.blockchainState.registers.localState.excess = (0, true)
  ledger : Genesis.Spec.hashText 0x05 s.body.blockchainState.registers.localState.ledger =
    "jw6bz2wud1N6itRUHZ5ypo3267stk4UgzkiuWtAMPRZo9g4Udyd".toList
  success : s.body.blockchainState.registers.localState.success = true
  partyIndex : s.body.blockchainState.registers.localState.partyIndex = 0
  failures : s.body.blockchainState.registers.localState.failureStatusTbl = 0

/-- **C73.** Every imported state has the constants of the network. -/
theorem C73_constant_parts (E : Env) (j : J) (s : ProtocolState) (h : protocolState E j = .ok s) : Spec.HasConstants s := by
  have hb : blockchainState E (index j "blockchainState") = .ok s.body.blockchainState ∧
      s.body.genesisStateHash = genesisStateHash ∧ s.body.constants = Constants.default := by
    unfold protocolState body at h
    simp only [bind, Except.bind] at h
    split at h
    · cases h
    split at h
    · cases h
    rename_i b hb
    split at hb
    · cases hb
    rename_i bs hbs
    split at hb
    · cases hb
    rename_i cs hcs
    rw [hbs]
    have h1 := Except.ok.inj h
    have h2 := Except.ok.inj hb
    rw [← h1, ← h2]
    exact ⟨rfl, rfl, rfl⟩
  obtain ⟨h1, h2, h3⟩ := hb
  have h4 : s.body.blockchainState.registers.localState = LocalState.default :=
    ((blockchainState_iff E _ _).mp h1).localState
  constructor
  case genesis => rw [h2]; decide +kernel
  case ledger => rw [h4]; decide +kernel
  all_goals first
    | (rw [h3]; decide +kernel)
    | (rw [h4]; decide +kernel)

example (E : Env) (s : ProtocolState) : ∃ t, protocolState E (stateDoc E s) = .ok t :=
  ⟨_, C73_import_partial E _ s (says_stateDoc E s)⟩

end MinaRs.GraphQL
