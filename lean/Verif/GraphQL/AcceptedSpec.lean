import Verif.GraphQL.Spec
import Verif.GraphQL.Model
import Verif.BinProt.PrimSpec
import Verif.Json.SpecText
import Verif.Base.TextSpec

/-!
# Which documents the import reads, and as what

Relations between the JSON value found at a key and the value it stands for.  They are wider than the
canonical forms of `Spec.lean`: a number may have a plus sign and leading zeros, a hash may carry any
version number in any wire form, the parity byte of a key may be anything.
-/

namespace MinaRs.GraphQL.Spec

open Json (J Env)
open Hash
open Text.Spec (IsDigit value)

/-- A text of digits, perhaps after one plus sign. -/
def ReadsNumber (j : J) (n : Nat) : Prop :=
  ∃ s ds, j = .str s ∧ (s.toList = ds ∨ s.toList = '+' :: ds) ∧ ds ≠ [] ∧ (∀ c ∈ ds, IsDigit c) ∧ value ds = n

/-- Base58check text of the version byte, the wire form of some 16-bit number, and the 32 bytes. -/
def ReadsHash (E : Env) (version : UInt8) (j : J) (h : B32) : Prop :=
  ∃ num n, BinProt.Spec.WireInt num n ∧ 0 ≤ n ∧ n < 2 ^ 16 ∧
    j = .str (String.ofList (Codec.encodeCheck E.chk version (num ++ h.bytes)))

/-- Base58check text of the version byte, one more byte (perhaps missing when there are no more) and the
bytes. -/
def ReadsVrf (E : Env) (j : J) (bs : Bytes) : Prop :=
  ∃ all : Bytes, bs = all.tail ∧ j = .str (String.ofList (Codec.encodeCheck E.chk 0x15 all))

/-- Base58 text of the three version bytes, the coordinate, a parity byte (1 for odd) and the checksum. -/
def ReadsKey (E : Env) (j : J) (k : PubKey) : Prop :=
  ∃ parity : UInt8, k.isOdd = (parity == 1) ∧
    j = .str (String.ofList (Codec.encode58 (([0xcb, 0x01, 0x01] ++ leBytes 32 k.x.val ++ [parity]) ++
      E.chk ([0xcb, 0x01, 0x01] ++ leBytes 32 k.x.val ++ [parity]))))

/-- A key, or anything that is no text for no key. -/
def ReadsDelegate (E : Env) (j : J) : Option PubKey → Prop
  | some k => ReadsKey E j k
  | none => ∀ s, j ≠ .str s

/-- Two hexadecimal digits of either case for each of the bytes. -/
def ReadsHex (j : J) (h : B32) : Prop := ∃ s : String, j = .str s ∧ Json.Spec.Spells s.toList h.bytes

/-- A flag: whether the value is `true`. -/
def ReadsFlag (j : J) (b : Bool) : Prop := b = true ↔ j = .bool true

/-- The name of a level of authorisation. -/
def ReadsAuth (j : J) (a : Auth) : Prop := j = .str (authName a)

/-- Ten permissions are read; the permission to increment the nonce is that to edit the state. -/
structure ReadsPermissions (j : J) (q : Permissions) : Prop where
  editState : ReadsAuth (index j "editState") q.editState
  send : ReadsAuth (index j "send") q.send
  receive : ReadsAuth (index j "receive") q.receive
  setDelegate : ReadsAuth (index j "setDelegate") q.setDelegate
  setPermissions : ReadsAuth (index j "setPermissions") q.setPermissions
  setVerificationKey : ReadsAuth (index j "setVerificationKey") q.setVerificationKey
  setZkappUri : ReadsAuth (index j "setZkappUri") q.setZkappUri
  editSequenceState : ReadsAuth (index j "editSequenceState") q.editSequenceState
  setTokenSymbol : ReadsAuth (index j "setTokenSymbol") q.setTokenSymbol
  incrementNonce : q.incrementNonce = q.editState
  setVotingFor : ReadsAuth (index j "setVotingFor") q.setVotingFor

structure ReadsTimed (j : J) (d : TimedData) : Prop where
  initialMinimumBalance : ReadsNumber (index j "initialMinimumBalance") d.initialMinimumBalance.toNat
  cliffTime : ReadsNumber (index j "cliffTime") d.cliffTime.toNat
  cliffAmount : ReadsNumber (index j "cliffAmount") d.cliffAmount.toNat
  vestingPeriod : ReadsNumber (index j "vestingPeriod") d.vestingPeriod.toNat
  vestingIncrement : ReadsNumber (index j "vestingIncrement") d.vestingIncrement.toNat

/-- Anything that is no complete schedule is no schedule. -/
def ReadsTiming (j : J) : Timing → Prop
  | .timed d => ReadsTimed j d
  | .untimed => ∀ d, ¬ ReadsTimed j d

/-- The import reads the document as this account; it never has a token symbol or a zkApp. -/
structure ReadsAccount (E : Env) (j : J) (a : Account) : Prop where
  publicKey : ReadsKey E (index j "publicKey") a.publicKey
  tokenId : ReadsNumber (index j "token") a.tokenId.toNat
  balance : ReadsNumber (index (index j "balance") "total") a.balance.toNat
  nonce : ReadsNumber (index j "nonce") a.nonce.toNat
  receiptChainHash : ReadsHash E 0x05 (index j "receiptChainHash") a.receiptChainHash
  delegate : ReadsDelegate E (index j "delegate") a.delegate
  votingFor : ReadsHash E 0x10 (index j "votingFor") a.votingFor
  timing : ReadsTiming (index j "timing") a.timing
  permissions : ReadsPermissions (index j "permissions") a.permissions
  tokenOwner : ReadsFlag (index j "isTokenOwner") (ownsToken a.tokenPermissions)
  disabled : ReadsFlag (index j "isDisabled") (isDisabled a.tokenPermissions)
  tokenSymbol : a.tokenSymbol.bytes = List.replicate 32 0
  zkapp : a.zkapp = none
  zkappUri : a.zkappUri = none

structure ReadsEpoch (E : Env) (j : J) (e : EpochData) : Prop where
  ledgerHash : ReadsHash E 0x05 (index (index j "ledger") "hash") e.ledger.hash
  totalCurrency : ReadsNumber (index (index j "ledger") "totalCurrency") e.ledger.totalCurrency.toNat
  seed : ReadsHash E 0x0d (index j "seed") e.seed
  startCheckpoint : ReadsHash E 0x10 (index j "startCheckpoint") e.startCheckpoint
  lockCheckpoint : ReadsHash E 0x10 (index j "lockCheckpoint") e.lockCheckpoint
  epochLength : ReadsNumber (index j "epochLength") e.epochLength.toNat

/-- The import reads the document as this state; two parts are constants. -/
structure ReadsConsensus (E : Env) (j : J) (c : ConsensusState) : Prop where
  blockchainLength : ReadsNumber (index j "blockHeight") c.blockchainLength.toNat
  epochCount : ReadsNumber (index j "epochCount") c.epochCount.toNat
  minWindowDensity : ReadsNumber (index j "minWindowDensity") c.minWindowDensity.toNat
  subWindowDensities : c.subWindowDensities = [1, 7, 7, 7, 7, 7, 7, 7, 7, 7, 7]
  lastVrfOutput : ReadsVrf E (index j "lastVrfOutput") c.lastVrfOutput
  totalCurrency : ReadsNumber (index j "totalCurrency") c.totalCurrency.toNat
  slot : ReadsNumber (index j "slot") c.currGlobalSlot.slotNumber.toNat
  slotsPerEpoch : c.currGlobalSlot.slotsPerEpoch = 7140
  slotSinceGenesis : ReadsNumber (index j "slotSinceGenesis") c.globalSlotSinceGenesis.toNat
  staking : ReadsEpoch E (index j "stakingEpochData") c.stakingEpochData
  next : ReadsEpoch E (index j "nextEpochData") c.nextEpochData
  hasAncestor : ReadsFlag (index j "hasAncestorInSameCheckpointWindow") c.hasAncestorInSameCheckpointWindow
  winner : ReadsKey E (index j "blockStakeWinner") c.blockStakeWinner
  creator : ReadsKey E (index j "blockCreator") c.blockCreator
  receiver : ReadsKey E (index j "coinbaseReceiever") c.coinbaseReceiver
  supercharge : ReadsFlag (index j "superchargedCoinbase") c.superchargeCoinbase

structure ReadsBlockchain (E : Env) (j : J) (b : BlockchainState) : Prop where
  ledgerHash : ReadsHash E 0x05 (index j "stagedLedgerHash") b.stagedLedgerHash.nonSnark.ledgerHash
  auxHash : index j "stagedLedgerAuxHash" = bytesText E 0x0e b.stagedLedgerHash.nonSnark.auxHash
  pendingCoinbaseAux : index j "stagedLedgerPendingCoinbaseAux" = bytesText E 0x0f b.stagedLedgerHash.nonSnark.pendingCoinbaseAux
  pendingCoinbaseHash : ReadsHash E 0x0c (index j "stagedLedgerPendingCoinbaseHash") b.stagedLedgerHash.pendingCoinbaseHash
  genesisLedgerHash : ReadsHash E 0x05 (index j "genesisLedgerHash") b.genesisLedgerHash
  snarkedLedgerHash : ReadsHash E 0x05 (index j "snarkedLedgerHash") b.registers.ledger
  localState : b.registers.localState = LocalState.default
  timestamp : ReadsNumber (index j "utcDate") b.timestamp.toNat
  bodyReference : ReadsHex (index j "bodyReference") b.bodyReference

/-- The import reads the document as this state; the genesis state's hash and the constants are fixed. -/
structure ReadsState (E : Env) (j : J) (s : ProtocolState) : Prop where
  previous : ReadsHash E 0x10 (index j "previousStateHash") s.previousStateHash
  genesis : s.body.genesisStateHash = genesisStateHash
  blockchain : ReadsBlockchain E (index j "blockchainState") s.body.blockchainState
  consensus : ReadsConsensus E (index j "consensusState") s.body.consensusState
  constants : s.body.constants = ⟨290, 7140, 7, 0, 1655755201000⟩

end MinaRs.GraphQL.Spec
