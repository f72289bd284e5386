import Verif.Hash.Types
import Verif.Json.LeafLemmas
import Verif.Base.Text

/-!
# Import from the GraphQL API

Model of the `FromGraphQLJson` implementations of `base/src` (`from_graphql_json.rs:7-12`): permissions,
timing, accounts, epoch data, consensus, blockchain and protocol states.

`J` stands for `serde_json::Value`; objects have distinct keys.  All `anyhow` errors are `JErr.err`.
-/

namespace MinaRs.GraphQL

open Json (J JErr Env)
open Text (Text)
open Hash

/-- Outcomes: a value, an error or a panic (`base/src/from_graphql_json.rs:7-12`). -/
abbrev R := Except JErr

/-- `&json[key]` of `serde_json`: `Null` when it is no object or has no such key (used at
`base/src/epoch_data.rs:30`). -/
def index (j : J) (key : String) : J :=
  match j with
  | .obj es => (es.lookup key).getD .null
  | _ => .null

/-- `.as_str().unwrap_or_default()` (`base/src/epoch_data.rs:30`) -/
def str : J → Text
  | .str s => s.toList
  | _ => []

/-- `.as_bool().unwrap_or_default()` (`base/src/consensus_state.rs:236-247`) -/
def flag : J → Bool
  | .bool b => b
  | _ => false

/-- `.parse::<u32>()?` (`base/src/epoch_data.rs:92`) -/
def u32 (s : Text) : R UInt32 :=
  match Text.parseUnsigned (2 ^ 32 - 1) s with
  | .ok n => .ok (UInt32.ofNat n)
  | .error _ => .error .err

/-- `.parse::<u64>()?` (`base/src/epoch_data.rs:34`) -/
def u64 (s : Text) : R UInt64 :=
  match Text.parseUnsigned (2 ^ 64 - 1) s with
  | .ok n => .ok (UInt64.ofNat n)
  | .error _ => .error .err

/-- `from_str` of the hash types with 32 bytes (`macros.rs:13-34`, `crypto/src/hash/types.rs`), with the
version byte of `version_bytes.rs`: the JSON form is read and its version wrapper removed. -/
def hash (E : Env) (version : UInt8) (s : Text) : R B32 :=
  match (Json.Leaf.base58Bin version Json.hashV1).deText E s with
  | .ok v =>
    let q : {n : Int // BinProt.u16.holds n} × Json.arr32.denote × Unit := v
    .ok ⟨Json.arrBytes 32 q.2.1, Json.arrBytes_length 32 q.2.1⟩
  | .error e => .error e

/-- `from_str` of the hash types that are byte vectors (`AuxHash`, `PendingCoinbaseAuxHash`)
(`base/src/blockchain_state.rs:76-100`). -/
def byteHash (E : Env) (version : UInt8) (s : Text) : R Bytes :=
  match (Json.Leaf.base58Bytes version).deText E s with
  | .ok v => .ok (show Bytes from v)
  | .error e => .error e

/-- `VrfOutputTruncated::from_base58_str` (`base/src/consensus_state.rs:60-64`) -/
def vrf (E : Env) (s : Text) : R Bytes :=
  match Json.Leaf.vrfBase58.deText E s with
  | .ok v => .ok (show Bytes from v)
  | .error e => .error e

/-- `TryFrom<&serde_json::Value>` of a hash (`crypto/src/hash/types.rs:134-150`): only strings. -/
def hashValue {α : Type} (f : Text → R α) : J → R α
  | .str s => f s.toList
  | _ => .error .err

/-- `CompressedPubKey::from_address(..)?` (`base/src/consensus_state.rs:238-246`) -/
def pubKey (E : Env) (s : Text) : R PubKey :=
  match Json.fromAddress E s with
  | some (x, odd) => .ok ⟨Fin.ofNat p (leNat x), odd⟩
  | none => .error .err

/-- `AuthRequired::from_str`, derived by `strum` (`base/src/account/permissions.rs:13-28`) -/
def auth (s : Text) : R Auth :=
  if s = "None".toList then .ok .none
  else if s = "Either".toList then .ok .either
  else if s = "Proof".toList then .ok .proof
  else if s = "Signature".toList then .ok .signature
  else if s = "Both".toList then .ok .both
  else if s = "Impossible".toList then .ok .impossible
  else .error .err

/-- `base/src/account/permissions.rs:110-143` -/
def permissions (j : J) : R Permissions := do
  let editState ← auth (str (index j "editState"))
  let send ← auth (str (index j "send"))
  let receive ← auth (str (index j "receive"))
  let setDelegate ← auth (str (index j "setDelegate"))
  let setPermissions ← auth (str (index j "setPermissions"))
  let setVerificationKey ← auth (str (index j "setVerificationKey"))
  let setZkappUri ← auth (str (index j "setZkappUri"))
  let editSequenceState ← auth (str (index j "editSequenceState"))
  let setTokenSymbol ← auth (str (index j "setTokenSymbol"))
  let incrementNonce ← auth (str (index j "editState"))
  let setVotingFor ← auth (str (index j "setVotingFor"))
  .ok { editState, send, receive, setDelegate, setPermissions, setVerificationKey, setZkappUri, editSequenceState,
        setTokenSymbol, incrementNonce, setVotingFor }

/-- `base/src/account/timing.rs:56-79` -/
def timedData (j : J) : R TimedData := do
  let initialMinimumBalance ← u64 (str (index j "initialMinimumBalance"))
  let cliffTime ← u64 (str (index j "cliffTime"))
  let cliffAmount ← u64 (str (index j "cliffAmount"))
  let vestingPeriod ← u64 (str (index j "vestingPeriod"))
  let vestingIncrement ← u64 (str (index j "vestingIncrement"))
  .ok { initialMinimumBalance, cliffTime, cliffAmount, vestingPeriod, vestingIncrement }

/-- `base/src/account/timing.rs:94-104` -/
def timing (j : J) : R Timing :=
  match timedData j with
  | .ok d => .ok (.timed d)
  | .error _ => .ok .untimed

/-- 32 zero bytes (`TokenSymbol::default()`) (`base/src/account/mod.rs:158-205`) -/
def B32.zero : B32 := ⟨List.replicate 32 0, rfl⟩

/-- `base/src/account/mod.rs:191-194` -/
def delegate (E : Env) : J → R (Option PubKey)
  | .str s =>
    match pubKey E s.toList with
    | .ok k => .ok (some k)
    | .error e => .error e
  | _ => .ok none

/-- `base/src/account/mod.rs:158-205` -/
def account (E : Env) (j : J) : R Account := do
  let isDisabled := flag (index j "isDisabled")
  let isTokenOwner := flag (index j "isTokenOwner")
  let publicKey ← pubKey E (str (index j "publicKey"))
  let tokenId ← u64 (str (index j "token"))
  let balance ← u64 (str (index (index j "balance") "total"))
  let nonce ← u32 (str (index j "nonce"))
  let receiptChainHash ← hash E 0x05 (str (index j "receiptChainHash"))
  let delegate ← delegate E (index j "delegate")
  let votingFor ← hash E 0x10 (str (index j "votingFor"))
  let timing ← timing (index j "timing")
  let permissions ← permissions (index j "permissions")
  .ok { publicKey, tokenId, balance,
        tokenPermissions := if isTokenOwner then .tokenOwned isDisabled else .notOwned isDisabled,
        tokenSymbol := B32.zero, nonce, receiptChainHash, delegate, votingFor, timing, permissions,
        zkapp := none, zkappUri := none }

/-- `base/src/epoch_data.rs:27-38` -/
def epochLedger (E : Env) (j : J) : R EpochLedger := do
  let h ← hash E 0x05 (str (index j "hash"))
  let totalCurrency ← u64 (str (index j "totalCurrency"))
  .ok { hash := h, totalCurrency }

/-- `base/src/epoch_data.rs:78-96` -/
def epochData (E : Env) (j : J) : R EpochData := do
  let ledger ← epochLedger E (index j "ledger")
  let seed ← hash E 0x0d (str (index j "seed"))
  let startCheckpoint ← hash E 0x10 (str (index j "startCheckpoint"))
  let lockCheckpoint ← hash E 0x10 (str (index j "lockCheckpoint"))
  let epochLength ← u32 (str (index j "epochLength"))
  .ok { ledger, seed, startCheckpoint, lockCheckpoint, epochLength }

/-- `base/src/consensus_state.rs:179-250` -/
def consensusState (E : Env) (j : J) : R ConsensusState := do
  let blockchainLength ← u32 (str (index j "blockHeight"))
  let epochCount ← u32 (str (index j "epochCount"))
  let minWindowDensity ← u32 (str (index j "minWindowDensity"))
  let subWindowDensities := [1, 7, 7, 7, 7, 7, 7, 7, 7, 7, 7]
  let lastVrfOutput ← vrf E (str (index j "lastVrfOutput"))
  let totalCurrency ← u64 (str (index j "totalCurrency"))
  let slotNumber ← u32 (str (index j "slot"))
  let globalSlotSinceGenesis ← u32 (str (index j "slotSinceGenesis"))
  let stakingEpochData ← epochData E (index j "stakingEpochData")
  let nextEpochData ← epochData E (index j "nextEpochData")
  let hasAncestorInSameCheckpointWindow := flag (index j "hasAncestorInSameCheckpointWindow")
  let blockStakeWinner ← pubKey E (str (index j "blockStakeWinner"))
  let blockCreator ← pubKey E (str (index j "blockCreator"))
  let coinbaseReceiver ← pubKey E (str (index j "coinbaseReceiever"))
  let superchargeCoinbase := flag (index j "superchargedCoinbase")
  .ok { blockchainLength, epochCount, minWindowDensity, subWindowDensities, lastVrfOutput, totalCurrency,
        currGlobalSlot := ⟨slotNumber, 7140⟩, globalSlotSinceGenesis, stakingEpochData, nextEpochData,
        hasAncestorInSameCheckpointWindow, blockStakeWinner, blockCreator, coinbaseReceiver, superchargeCoinbase }

/-- `BodyReference::from_hex` (`base/src/blockchain_state.rs:117-122`): `hex::decode_to_slice` into 32
bytes, an error for any other length. -/
def bodyReference (s : Text) : R B32 :=
  match Codec.hexDecode s with
  | .ok bs => if h : bs.length = 32 then .ok ⟨bs, h⟩ else .error .err
  | .error _ => .error .err

/-- `Default` of `BlockchainStateRegistersLocalState` (`blockchain_state_registers.rs:56-85`).  The
constants given there as text are given here as the bytes they denote. -/
def LocalState.default : LocalState where
  stackFrame := ⟨[84, 192, 235, 42, 18, 197, 22, 82, 175, 177, 45, 205, 132, 176, 15, 65, 162, 150, 113, 166, 165, 141, 136,
    193, 72, 127, 170, 176, 207, 155, 249, 2], rfl⟩
  callStack := B32.zero
  transactionCommitment := B32.zero
  fullTransactionCommitment := B32.zero
  tokenId := 1
  excess := (0, true)
  ledger := B32.zero
  success := true
  partyIndex := 0
  failureStatusTbl := 0

/-- `base/src/blockchain_state.rs:76-100` -/
def blockchainState (E : Env) (j : J) : R BlockchainState := do
  let ledgerHash ← hashValue (hash E 0x05) (index j "stagedLedgerHash")
  let auxHash ← hashValue (byteHash E 0x0e) (index j "stagedLedgerAuxHash")
  let pendingCoinbaseAux ← hashValue (byteHash E 0x0f) (index j "stagedLedgerPendingCoinbaseAux")
  let pendingCoinbaseHash ← hashValue (hash E 0x0c) (index j "stagedLedgerPendingCoinbaseHash")
  let genesisLedgerHash ← hashValue (hash E 0x05) (index j "genesisLedgerHash")
  let ledger ← hashValue (hash E 0x05) (index j "snarkedLedgerHash")
  let timestamp ← u64 (str (index j "utcDate"))
  let bodyReference ← bodyReference (str (index j "bodyReference"))
  .ok { stagedLedgerHash := ⟨⟨ledgerHash, auxHash, pendingCoinbaseAux⟩, pendingCoinbaseHash⟩, genesisLedgerHash,
        registers := ⟨ledger, LocalState.default⟩, timestamp, bodyReference }

/-- The bytes of `3NLUmnTBMCeExeWErijZ2GeLnjLtBgsDjN3qM8M8gcJDtk8k89xf` (`protocol_state.rs:227-229`). -/
def genesisStateHash : B32 :=
  ⟨[190, 117, 143, 59, 188, 82, 193, 122, 243, 231, 140, 96, 23, 80, 98, 12, 149, 101, 129, 171, 32, 140, 250, 173, 180, 213,
    162, 79, 72, 113, 65, 45], rfl⟩

/-- `Default` of `ProtocolConstants` (`protocol_state.rs:45-55`) -/
def Constants.default : Constants := ⟨290, 7140, 7, 0, 1655755201000⟩

/-- `base/src/protocol_state.rs:223-236` -/
def body (E : Env) (j : J) : R Body := do
  let blockchainState ← blockchainState E (index j "blockchainState")
  let consensusState ← consensusState E (index j "consensusState")
  .ok { genesisStateHash, blockchainState, consensusState, constants := Constants.default }

/-- `base/src/protocol_state.rs:298-307` -/
def protocolState (E : Env) (j : J) : R ProtocolState := do
  let previousStateHash ← hash E 0x10 (str (index j "previousStateHash"))
  let body ← body E j
  .ok { previousStateHash, body }

end MinaRs.GraphQL
