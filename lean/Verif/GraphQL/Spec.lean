import Verif.Hash.Types
import Verif.Json.Model
import Verif.Base.Text

/-!
# What a GraphQL document says

Relations between documents and values, in terms of the keys of the GraphQL API and the canonical texts
of numbers, hashes and keys.
-/

namespace MinaRs.GraphQL.Spec

open Json (J Env)
open Hash

/-- The document is an object with distinct keys, one of which is `key`, with this value. -/
def Has (j : J) (key : String) (v : J) : Prop :=
  ∃ es, j = .obj es ∧ (es.map Prod.fst).Nodup ∧ (key, v) ∈ es

/-- The key is absent. -/
def Lacks (j : J) (key : String) : Prop := ∀ es, j = .obj es → ∀ v, (key, v) ∉ es

/-- The name of a level of authorisation. -/
def authName : Auth → String
  | .none => "None" | .either => "Either" | .proof => "Proof" | .signature => "Signature" | .both => "Both"
  | .impossible => "Impossible"

/-- A number as decimal text. -/
def number (n : Nat) : J := .str (String.ofList (Text.decimal n))

/-- A 32-byte hash as text: base58check of the version byte, the format version 1 and the bytes. -/
def hashText (E : Env) (version : UInt8) (h : B32) : J :=
  .str (String.ofList (Codec.encodeCheck E.chk version (1 :: h.bytes)))

/-- Hashes of any length as text: base58check of the version byte and the bytes. -/
def bytesText (E : Env) (version : UInt8) (bs : Bytes) : J :=
  .str (String.ofList (Codec.encodeCheck E.chk version bs))

/-- A VRF output as text: base58check of the version byte, the length and the bytes. -/
def vrfText (E : Env) (bs : Bytes) : J :=
  .str (String.ofList (Codec.encodeCheck E.chk 0x15 (UInt8.ofNat bs.length :: bs)))

/-- A key as text: its address. -/
def keyText (E : Env) (k : PubKey) : J := .str (String.ofList (Json.address E (leBytes 32 k.x.val) k.isOdd))

/-- A delegate: its address, or `null`. -/
def delegateText (E : Env) : Option PubKey → J
  | some k => keyText E k
  | none => .null

def ownsToken : TokenPermissions → Bool
  | .tokenOwned _ => true
  | .notOwned _ => false

def isDisabled : TokenPermissions → Bool
  | .tokenOwned d => d
  | .notOwned d => d

/-- The document lists these permissions. -/
structure SaysPermissions (j : J) (q : Permissions) : Prop where
  editState : Has j "editState" (.str (authName q.editState))
  send : Has j "send" (.str (authName q.send))
  receive : Has j "receive" (.str (authName q.receive))
  setDelegate : Has j "setDelegate" (.str (authName q.setDelegate))
  setPermissions : Has j "setPermissions" (.str (authName q.setPermissions))
  setVerificationKey : Has j "setVerificationKey" (.str (authName q.setVerificationKey))
  setZkappUri : Has j "setZkappUri" (.str (authName q.setZkappUri))
  editSequenceState : Has j "editSequenceState" (.str (authName q.editSequenceState))
  setTokenSymbol : Has j "setTokenSymbol" (.str (authName q.setTokenSymbol))
  incrementNonce : Has j "incrementNonce" (.str (authName q.incrementNonce))
  setVotingFor : Has j "setVotingFor" (.str (authName q.setVotingFor))

/-- The document describes a vesting schedule. -/
structure SaysTimed (j : J) (d : TimedData) : Prop where
  initialMinimumBalance : Has j "initialMinimumBalance" (number d.initialMinimumBalance.toNat)
  cliffTime : Has j "cliffTime" (number d.cliffTime.toNat)
  cliffAmount : Has j "cliffAmount" (number d.cliffAmount.toNat)
  vestingPeriod : Has j "vestingPeriod" (number d.vestingPeriod.toNat)
  vestingIncrement : Has j "vestingIncrement" (number d.vestingIncrement.toNat)

/-- The document describes a timing; the API gives `null` for every part of an untimed account. -/
inductive SaysTiming (j : J) : Timing → Prop
  | timed (d : TimedData) : SaysTimed j d → SaysTiming j (.timed d)
  | untimed : Has j "initialMinimumBalance" .null → SaysTiming j .untimed

/-- The document describes an account. -/
structure SaysAccount (E : Env) (j : J) (a : Account) : Prop where
  publicKey : Has j "publicKey" (keyText E a.publicKey)
  tokenId : Has j "token" (number a.tokenId.toNat)
  balance : ∃ b, Has j "balance" b ∧ Has b "total" (number a.balance.toNat)
  nonce : Has j "nonce" (number a.nonce.toNat)
  receiptChainHash : Has j "receiptChainHash" (hashText E 0x05 a.receiptChainHash)
  delegate : Has j "delegate" (delegateText E a.delegate)
  votingFor : Has j "votingFor" (hashText E 0x10 a.votingFor)
  timing : ∃ t, Has j "timing" t ∧ SaysTiming t a.timing
  permissions : ∃ q, Has j "permissions" q ∧ SaysPermissions q a.permissions
  tokenOwner : Has j "isTokenOwner" (.bool (ownsToken a.tokenPermissions))
  disabled : Has j "isDisabled" (.bool (isDisabled a.tokenPermissions))

/-- The document describes an epoch. -/
structure SaysEpoch (E : Env) (j : J) (e : EpochData) : Prop where
  ledger : ∃ l, Has j "ledger" l ∧ Has l "hash" (hashText E 0x05 e.ledger.hash) ∧
    Has l "totalCurrency" (number e.ledger.totalCurrency.toNat)
  seed : Has j "seed" (hashText E 0x0d e.seed)
  startCheckpoint : Has j "startCheckpoint" (hashText E 0x10 e.startCheckpoint)
  lockCheckpoint : Has j "lockCheckpoint" (hashText E 0x10 e.lockCheckpoint)
  epochLength : Has j "epochLength" (number e.epochLength.toNat)

/-- The document describes a consensus state.  The API has no key for the sub-window densities and the
number of slots per epoch. -/
structure SaysConsensus (E : Env) (j : J) (c : ConsensusState) : Prop where
  blockchainLength : Has j "blockHeight" (number c.blockchainLength.toNat)
  epochCount : Has j "epochCount" (number c.epochCount.toNat)
  minWindowDensity : Has j "minWindowDensity" (number c.minWindowDensity.toNat)
  lastVrfOutput : Has j "lastVrfOutput" (vrfText E c.lastVrfOutput)
  totalCurrency : Has j "totalCurrency" (number c.totalCurrency.toNat)
  slot : Has j "slot" (number c.currGlobalSlot.slotNumber.toNat)
  slotSinceGenesis : Has j "slotSinceGenesis" (number c.globalSlotSinceGenesis.toNat)
  staking : ∃ e, Has j "stakingEpochData" e ∧ SaysEpoch E e c.stakingEpochData
  next : ∃ e, Has j "nextEpochData" e ∧ SaysEpoch E e c.nextEpochData
  hasAncestor : Has j "hasAncestorInSameCheckpointWindow" (.bool c.hasAncestorInSameCheckpointWindow)
  winner : Has j "blockStakeWinner" (keyText E c.blockStakeWinner)
  creator : Has j "blockCreator" (keyText E c.blockCreator)
  receiver : Has j "coinbaseReceiever" (keyText E c.coinbaseReceiver)
  supercharge : Has j "superchargedCoinbase" (.bool c.superchargeCoinbase)

/-- The document describes a blockchain state.  The API has no key for the local state. -/
structure SaysBlockchain (E : Env) (j : J) (b : BlockchainState) : Prop where
  ledgerHash : Has j "stagedLedgerHash" (hashText E 0x05 b.stagedLedgerHash.nonSnark.ledgerHash)
  auxHash : Has j "stagedLedgerAuxHash" (bytesText E 0x0e b.stagedLedgerHash.nonSnark.auxHash)
  pendingCoinbaseAux : Has j "stagedLedgerPendingCoinbaseAux" (bytesText E 0x0f b.stagedLedgerHash.nonSnark.pendingCoinbaseAux)
  pendingCoinbaseHash : Has j "stagedLedgerPendingCoinbaseHash" (hashText E 0x0c b.stagedLedgerHash.pendingCoinbaseHash)
  genesisLedgerHash : Has j "genesisLedgerHash" (hashText E 0x05 b.genesisLedgerHash)
  snarkedLedgerHash : Has j "snarkedLedgerHash" (hashText E 0x05 b.registers.ledger)
  timestamp : Has j "utcDate" (number b.timestamp.toNat)
  bodyReference : Has j "bodyReference" (.str (String.ofList (Codec.hexEncode b.bodyReference.bytes)))

/-- The document describes a protocol state.  The API has no key for the genesis state's hash and the
constants. -/
structure SaysState (E : Env) (j : J) (s : ProtocolState) : Prop where
  previous : Has j "previousStateHash" (hashText E 0x10 s.previousStateHash)
  blockchain : ∃ b, Has j "blockchainState" b ∧ SaysBlockchain E b s.body.blockchainState
  consensus : ∃ c, Has j "consensusState" c ∧ SaysConsensus E c s.body.consensusState

end MinaRs.GraphQL.Spec
