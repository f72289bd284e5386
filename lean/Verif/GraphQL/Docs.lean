import Verif.GraphQL.Lemmas

/-! Documents for values: every value is described by some document. -/

namespace MinaRs.GraphQL

open Json (J Env)
open Hash
open Spec

theorem has_obj {es : List (String × J)} {k : String} {v : J} (hn : (es.map Prod.fst).Nodup) (h : (k, v) ∈ es) :
    Has (.obj es) k v := ⟨es, rfl, hn, h⟩

/-- Permissions as a document. -/
def permissionsDoc (q : Permissions) : J := .obj [
  ("editState", .str (authName q.editState)), ("send", .str (authName q.send)), ("receive", .str (authName q.receive)),
  ("setDelegate", .str (authName q.setDelegate)), ("setPermissions", .str (authName q.setPermissions)),
  ("setVerificationKey", .str (authName q.setVerificationKey)), ("setZkappUri", .str (authName q.setZkappUri)),
  ("editSequenceState", .str (authName q.editSequenceState)), ("setTokenSymbol", .str (authName q.setTokenSymbol)),
  ("incrementNonce", .str (authName q.incrementNonce)), ("setVotingFor", .str (authName q.setVotingFor))]

theorem says_permissionsDoc (q : Permissions) : SaysPermissions (permissionsDoc q) q := by
  constructor <;> exact has_obj (by simp) (by simp)

def timedDoc (d : TimedData) : J := .obj [
  ("initialMinimumBalance", number d.initialMinimumBalance.toNat), ("cliffTime", number d.cliffTime.toNat),
  ("cliffAmount", number d.cliffAmount.toNat), ("vestingPeriod", number d.vestingPeriod.toNat),
  ("vestingIncrement", number d.vestingIncrement.toNat)]

theorem says_timedDoc (d : TimedData) : SaysTimed (timedDoc d) d := by
  constructor <;> exact has_obj (by simp) (by simp)

def timingDoc : Timing → J
  | .timed d => timedDoc d
  | .untimed => .obj [("initialMinimumBalance", .null), ("cliffTime", .null), ("cliffAmount", .null),
      ("vestingPeriod", .null), ("vestingIncrement", .null)]

theorem says_timingDoc (t : Timing) : SaysTiming (timingDoc t) t := by
  cases t with
  | timed d => exact .timed d (says_timedDoc d)
  | untimed => exact .untimed (has_obj (by simp) (by simp))

def accountDoc (E : Env) (a : Account) : J := .obj [
  ("publicKey", keyText E a.publicKey), ("token", number a.tokenId.toNat),
  ("balance", .obj [("total", number a.balance.toNat)]), ("nonce", number a.nonce.toNat),
  ("receiptChainHash", hashText E 0x05 a.receiptChainHash),
  ("delegate", delegateText E a.delegate),
  ("votingFor", hashText E 0x10 a.votingFor), ("timing", timingDoc a.timing),
  ("permissions", permissionsDoc a.permissions),
  ("isTokenOwner", .bool (ownsToken a.tokenPermissions)),
  ("isDisabled", .bool (isDisabled a.tokenPermissions))]

theorem says_accountDoc (E : Env) (a : Account) : SaysAccount E (accountDoc E a) a := by
  constructor
  case balance => exact ⟨.obj [("total", number a.balance.toNat)], has_obj (by simp) (by simp), has_obj (by simp) (by simp)⟩
  case timing => exact ⟨_, has_obj (by simp) (by simp), says_timingDoc _⟩
  case permissions => exact ⟨_, has_obj (by simp) (by simp), says_permissionsDoc _⟩
  all_goals exact has_obj (by simp) (by simp)

def epochDoc (E : Env) (e : EpochData) : J := .obj [
  ("ledger", .obj [("hash", hashText E 0x05 e.ledger.hash), ("totalCurrency", number e.ledger.totalCurrency.toNat)]),
  ("seed", hashText E 0x0d e.seed), ("startCheckpoint", hashText E 0x10 e.startCheckpoint),
  ("lockCheckpoint", hashText E 0x10 e.lockCheckpoint), ("epochLength", number e.epochLength.toNat)]

theorem says_epochDoc (E : Env) (e : EpochData) : SaysEpoch E (epochDoc E e) e := by
  constructor
  case ledger =>
    exact ⟨.obj [("hash", hashText E 0x05 e.ledger.hash), ("totalCurrency", number e.ledger.totalCurrency.toNat)],
      has_obj (by simp) (by simp), has_obj (by simp) (by simp), has_obj (by simp) (by simp)⟩
  all_goals exact has_obj (by simp) (by simp)

def consensusDoc (E : Env) (c : ConsensusState) : J := .obj [
  ("blockHeight", number c.blockchainLength.toNat), ("epochCount", number c.epochCount.toNat),
  ("minWindowDensity", number c.minWindowDensity.toNat), ("lastVrfOutput", vrfText E c.lastVrfOutput),
  ("totalCurrency", number c.totalCurrency.toNat), ("slot", number c.currGlobalSlot.slotNumber.toNat),
  ("slotSinceGenesis", number c.globalSlotSinceGenesis.toNat), ("stakingEpochData", epochDoc E c.stakingEpochData),
  ("nextEpochData", epochDoc E c.nextEpochData),
  ("hasAncestorInSameCheckpointWindow", .bool c.hasAncestorInSameCheckpointWindow),
  ("blockStakeWinner", keyText E c.blockStakeWinner), ("blockCreator", keyText E c.blockCreator),
  ("coinbaseReceiever", keyText E c.coinbaseReceiver), ("superchargedCoinbase", .bool c.superchargeCoinbase)]

theorem says_consensusDoc (E : Env) (c : ConsensusState) : SaysConsensus E (consensusDoc E c) c := by
  constructor
  case staking => exact ⟨_, has_obj (by simp) (by simp), says_epochDoc E _⟩
  case next => exact ⟨_, has_obj (by simp) (by simp), says_epochDoc E _⟩
  all_goals exact has_obj (by simp) (by simp)

def blockchainDoc (E : Env) (b : BlockchainState) : J := .obj [
  ("stagedLedgerHash", hashText E 0x05 b.stagedLedgerHash.nonSnark.ledgerHash),
  ("stagedLedgerAuxHash", bytesText E 0x0e b.stagedLedgerHash.nonSnark.auxHash),
  ("stagedLedgerPendingCoinbaseAux", bytesText E 0x0f b.stagedLedgerHash.nonSnark.pendingCoinbaseAux),
  ("stagedLedgerPendingCoinbaseHash", hashText E 0x0c b.stagedLedgerHash.pendingCoinbaseHash),
  ("genesisLedgerHash", hashText E 0x05 b.genesisLedgerHash), ("snarkedLedgerHash", hashText E 0x05 b.registers.ledger),
  ("utcDate", number b.timestamp.toNat),
  ("bodyReference", .str (String.ofList (Codec.hexEncode b.bodyReference.bytes)))]

theorem says_blockchainDoc (E : Env) (b : BlockchainState) : SaysBlockchain E (blockchainDoc E b) b := by
  constructor <;> exact has_obj (by simp) (by simp)

def stateDoc (E : Env) (s : ProtocolState) : J := .obj [
  ("previousStateHash", hashText E 0x10 s.previousStateHash),
  ("blockchainState", blockchainDoc E s.body.blockchainState), ("consensusState", consensusDoc E s.body.consensusState)]

theorem says_stateDoc (E : Env) (s : ProtocolState) : SaysState E (stateDoc E s) s := by
  constructor
  case blockchain => exact ⟨_, has_obj (by simp) (by simp), says_blockchainDoc E _⟩
  case consensus => exact ⟨_, has_obj (by simp) (by simp), says_consensusDoc E _⟩
  all_goals exact has_obj (by simp) (by simp)

end MinaRs.GraphQL
