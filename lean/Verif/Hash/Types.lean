import Verif.Hash.RO
/-!
# Hash inputs of accounts and protocol states

Model of every `to_chunked_roinput` / `to_roinput` of `crypto/src/hash/types.rs` and `base/src`.
Poseidon and SHA-256 are parameters: `H domain fields` is the Poseidon hash of a chunked input with
the given domain string, `sha` is SHA-256.
-/

namespace MinaRs.Hash

/-- `[u8; 32]` (`crypto/src/hash/types.rs:25`) -/
structure B32 where
  bytes : Bytes
  len : bytes.length = 32
  deriving DecidableEq

/-- crypto/src/hash/types.rs 58-64, 104-110 (`TryFrom<&Field>`, `TryFrom<&BaseHash>`) with the
`.expect(..)` of 35-42, 72-88: `Fp::from_bytes` reads 32 little-endian bytes. -/
def B32.toFp (h : B32) : M Fp := fpOfNat (leNat h.bytes)

/-- crypto/src/hash/types.rs 35-42, 81-88: `Field`, `BaseHash` and its wrappers `StateHash`,
`LedgerHash`, `ChainHash`, `CoinBaseHash`, `EpochSeed` (214-261, 284-288, 321-352). -/
def B32.chunked (h : B32) : M Chunked := do
  let f ← h.toFp
  pure (Chunked.field f)

/-- crypto/src/hash/types.rs 69-79: the legacy input of a hash. -/
def B32.legacy (h : B32) : M Legacy := do
  let f ← h.toFp
  pure (Legacy.field f)

/-- `mina_signer::CompressedPubKey` (external): the x coordinate and the parity of y (used at
`base/src/user_commands/signed_command/mod.rs:15`). -/
structure PubKey where
  x : Fp
  isOdd : Bool
  deriving DecidableEq

/-- `CompressedPubKey::empty()` (used at `base/src/common.rs:24`) -/
def PubKey.empty : PubKey := ⟨0, false⟩

/-- base/src/common.rs 28-34 -/
def PubKey.chunked (k : PubKey) : M Chunked := Chunked.build [.ok (.field k.x), Chunked.bool k.isOdd]

/-- base/src/common.rs 40-49: no key is hashed as the empty key. -/
def PubKey.optChunked (k : Option PubKey) : M Chunked := (k.getD PubKey.empty).chunked

/-! ## Accounts -/

/-- base/src/account/permissions.rs 15-28 -/
inductive Auth where
  | none | either | proof | signature | both | impossible
  deriving DecidableEq, Repr

/-- permissions.rs 30-43: three one-bit pieces. -/
def Auth.chunked (a : Auth) : M Chunked :=
  let constant := a = .impossible ∨ a = .none
  let necessary := a = .impossible ∨ a = .signature
  let sufficient := a = .either ∨ a = .signature ∨ a = .none
  Chunked.build [Chunked.bool constant, Chunked.bool necessary, Chunked.bool sufficient]

/-- permissions.rs 66-91 -/
structure Permissions where
  editState : Auth
  send : Auth
  receive : Auth
  setDelegate : Auth
  setPermissions : Auth
  setVerificationKey : Auth
  setZkappUri : Auth
  editSequenceState : Auth
  setTokenSymbol : Auth
  incrementNonce : Auth
  setVotingFor : Auth
  deriving DecidableEq

/-- permissions.rs 93-107 -/
def Permissions.chunked (q : Permissions) : M Chunked :=
  Chunked.build [q.editState.chunked, q.send.chunked, q.receive.chunked, q.setDelegate.chunked,
    q.setPermissions.chunked, q.setVerificationKey.chunked, q.setZkappUri.chunked,
    q.editSequenceState.chunked, q.setTokenSymbol.chunked, q.incrementNonce.chunked,
    q.setVotingFor.chunked]

/-- base/src/account/timing.rs 20-31: amounts and block times are `u64` -/
structure TimedData where
  initialMinimumBalance : UInt64
  cliffTime : UInt64
  cliffAmount : UInt64
  vestingPeriod : UInt64
  vestingIncrement : UInt64
  deriving DecidableEq

/-- timing.rs 33-43 -/
def TimedData.default : TimedData := ⟨0, 0, 0, 1, 0⟩

/-- timing.rs 45-54: the two times are cast with `as u32`. -/
def TimedData.chunked (t : TimedData) : M Chunked :=
  Chunked.build [Chunked.u64 t.initialMinimumBalance, Chunked.u32 t.cliffTime.toUInt32, Chunked.u64 t.cliffAmount,
    Chunked.u32 t.vestingPeriod.toUInt32, Chunked.u64 t.vestingIncrement]

/-- timing.rs 86-92 -/
inductive Timing where
  | untimed
  | timed (d : TimedData)
  deriving DecidableEq

/-- timing.rs 106-117 -/
def Timing.chunked : Timing → M Chunked
  | .untimed => Chunked.build [.ok (.piece 0 1), TimedData.default.chunked]
  | .timed d => Chunked.build [.ok (.piece 1 1), d.chunked]

/-- base/src/account/token_permissions.rs 12-23 -/
inductive TokenPermissions where
  | notOwned (accountDisabled : Bool)
  | tokenOwned (disableNewAccounts : Bool)
  deriving DecidableEq

/-- token_permissions.rs 25-43 -/
def TokenPermissions.chunked (t : TokenPermissions) : M Chunked := do
  let bits := match t with
    | .notOwned d => [false, d]
    | .tokenOwned d => [true, d]
  let f ← bitsToFp bits
  pure (Chunked.piece f 2)

/-- base/src/account/token_symbol.rs 26-34: the first 6 of the 32 bytes, 48 bits. `Fp::read` of a
number below `2^48` does not fail. -/
def symbolChunked (s : B32) : M Chunked := do
  let f ← fpOfNat (leNat (s.bytes.take 6 ++ List.replicate 26 0))
  pure (Chunked.piece f 48)

/-- base/src/numbers.rs 33-37: `TokenId` in a chunked input is a field element. -/
def tokenIdChunked (t : UInt64) : M Chunked := .ok (.field (Fin.ofNat p t.toNat))

/-- base/src/account/zkapp.rs 30-33, 36-41: the two constants. -/
def zkFp1 : Fp := Fin.ofNat p (17818364107179681741 + 14791875366151232437 * 2 ^ 64 +
  6753084239224090698 * 2 ^ 128 + 2060674656258731539 * 2 ^ 192)
/-- See `zkFp1` (`base/src/account/mod.rs:66-122`). -/
def zkFp2 : Fp := Fin.ofNat p (17064760232198382013 + 7053532856486746066 * 2 ^ 64 +
  14503003448090529760 * 2 ^ 128 + 2522938464542289201 * 2 ^ 192)

/-- zkapp.rs 26-62: the hash input of a `ZkApp`, which carries no data. -/
def zkAppChunked : M Chunked :=
  .ok ⟨[zkFp1, zkFp1, zkFp1, zkFp1, zkFp1, zkFp2, 0, 0, 0, 0, 0, 0, 0, 0], [(0, 1), (0, 32), (0, 32)]⟩

/-- zkapp.rs 106-111: the hash input of a `ZkAppUri`, which carries no data. -/
def zkAppUriChunked : M Chunked := .ok (.piece 1 1)

/-- `hasher.hash(x)` with `create_kimchi` for a type whose `to_roinput` is the packed chunked input:
Poseidon of the packed fields under the domain string (used at `merkle/src/hasher_poseidon.rs:36-49`). -/
def hashChunked (H : String → List Fp → Fp) (domain : String) (c : M Chunked) : M Fp := do
  let c ← c
  let fs ← c.intoFields
  pure (H domain fs)

/-- zkapp.rs 68-92: an absent `ZkApp` is hashed as the default one; both carry no data. -/
def zkAppOptChunked (H : String → List Fp → Fp) (_ : Option Unit) : M Chunked := do
  let f ← hashChunked H "CodaZkappAccount" zkAppChunked
  pure (Chunked.field f)

/-- zkapp.rs 117-141 -/
def zkAppUriOptChunked (H : String → List Fp → Fp) (_ : Option Unit) : M Chunked := do
  let f ← hashChunked H "MinaZkappUri" zkAppUriChunked
  pure (Chunked.field f)

/-- base/src/account/mod.rs 94-122 -/
structure Account where
  publicKey : PubKey
  tokenId : UInt64
  balance : UInt64
  tokenPermissions : TokenPermissions
  tokenSymbol : B32
  nonce : UInt32
  receiptChainHash : B32
  delegate : Option PubKey
  votingFor : B32
  timing : Timing
  permissions : Permissions
  zkapp : Option Unit
  zkappUri : Option Unit
  deriving DecidableEq

/-- account/mod.rs 136-153 -/
def Account.chunked (H : String → List Fp → Fp) (a : Account) : M Chunked :=
  Chunked.build [zkAppUriOptChunked H a.zkappUri, zkAppOptChunked H a.zkapp, a.permissions.chunked,
    a.timing.chunked, a.votingFor.chunked, PubKey.optChunked a.delegate, a.receiptChainHash.chunked,
    Chunked.u32 a.nonce, Chunked.u64 a.balance, symbolChunked a.tokenSymbol, a.tokenPermissions.chunked,
    tokenIdChunked a.tokenId, a.publicKey.chunked]

/-- account/mod.rs 124-134: the account hash, `hasher.hash(account)`. -/
def Account.hash (H : String → List Fp → Fp) (a : Account) : M Fp :=
  hashChunked H "CodaAccount" (a.chunked H)

/-! ## Protocol states -/

/-- base/src/epoch_data.rs 20-25 -/
structure EpochLedger where
  hash : B32
  totalCurrency : UInt64
  deriving DecidableEq

/-- epoch_data.rs 54-60 -/
def EpochLedger.chunked (e : EpochLedger) : M Chunked :=
  Chunked.build [e.hash.chunked, Chunked.u64 e.totalCurrency]

/-- epoch_data.rs 65-76 -/
structure EpochData where
  ledger : EpochLedger
  seed : B32
  startCheckpoint : B32
  lockCheckpoint : B32
  epochLength : UInt32
  deriving DecidableEq

/-- epoch_data.rs 115-124 -/
def EpochData.chunked (e : EpochData) : M Chunked :=
  Chunked.build [e.seed.chunked, e.startCheckpoint.chunked, Chunked.u32 e.epochLength, e.ledger.chunked,
    e.lockCheckpoint.chunked]

/-- base/src/global_slot.rs 16-21 -/
structure GlobalSlot where
  slotNumber : UInt32
  slotsPerEpoch : UInt32
  deriving DecidableEq

/-- global_slot.rs 37-43 -/
def GlobalSlot.chunked (g : GlobalSlot) : M Chunked :=
  Chunked.build [Chunked.u32 g.slotNumber, Chunked.u32 g.slotsPerEpoch]

/-- base/src/consensus_state.rs 85-92, 110-116: the five low bits of the last byte.
`last & 0b1 > 0` parses as `(last & 0b1) > 0` in Rust. -/
def lowFive (b : UInt8) : List Bool := (List.range 5).map fun i => b.toNat.testBit i

/-- consensus_state.rs 77-96: the bits hashed for a truncated VRF output. -/
def vrfBits (v : Bytes) : List Bool :=
  if v.length ≤ 31 then bytesBits v
  else bytesBits (v.take 31) ++ lowFive (v.getD 31 0)

/-- consensus_state.rs 77-96 -/
def vrfLegacy (v : Bytes) : Legacy := ⟨[], vrfBits v⟩

/-- consensus_state.rs 103-121: one boolean piece per bit. -/
def vrfChunked (v : Bytes) : M Chunked := Chunked.build ((vrfBits v).map Chunked.bool)

/-- consensus_state.rs 134-168 -/
structure ConsensusState where
  blockchainLength : UInt32
  epochCount : UInt32
  minWindowDensity : UInt32
  subWindowDensities : List UInt32
  lastVrfOutput : Bytes
  totalCurrency : UInt64
  currGlobalSlot : GlobalSlot
  globalSlotSinceGenesis : UInt32
  stakingEpochData : EpochData
  nextEpochData : EpochData
  hasAncestorInSameCheckpointWindow : Bool
  blockStakeWinner : PubKey
  blockCreator : PubKey
  coinbaseReceiver : PubKey
  superchargeCoinbase : Bool
  deriving DecidableEq

/-- consensus_state.rs 284-304 -/
def ConsensusState.chunked (c : ConsensusState) : M Chunked :=
  Chunked.build ([Chunked.u32 c.blockchainLength, Chunked.u32 c.epochCount, Chunked.u32 c.minWindowDensity] ++
    c.subWindowDensities.map Chunked.u32 ++
    [vrfChunked c.lastVrfOutput, Chunked.u64 c.totalCurrency, c.currGlobalSlot.chunked,
     Chunked.u32 c.globalSlotSinceGenesis, Chunked.bool c.hasAncestorInSameCheckpointWindow,
     Chunked.bool c.superchargeCoinbase, c.stakingEpochData.chunked, c.nextEpochData.chunked,
     c.blockStakeWinner.chunked, c.blockCreator.chunked, c.coinbaseReceiver.chunked])

/-- crypto/src/hash/types.rs 396-401 -/
structure NonSnark where
  ledgerHash : B32
  auxHash : Bytes
  pendingCoinbaseAux : Bytes
  deriving DecidableEq

/-- crypto/src/hash/types.rs 404-411: what is fed to SHA-256, the ledger hash reversed. -/
def NonSnark.preimage (n : NonSnark) : Bytes :=
  n.ledgerHash.bytes.reverse ++ n.auxHash ++ n.pendingCoinbaseAux

/-- crypto/src/hash/types.rs 369-372 -/
structure StagedLedgerHash where
  nonSnark : NonSnark
  pendingCoinbaseHash : B32
  deriving DecidableEq

/-- crypto/src/hash/types.rs 374-380, 414-418 -/
def StagedLedgerHash.chunked (sha : Bytes → B32) (s : StagedLedgerHash) : M Chunked :=
  Chunked.build [Chunked.bytes (sha s.nonSnark.preimage).bytes, s.pendingCoinbaseHash.chunked]

/-- base/src/blockchain_state_registers.rs 33-54; `failure_status_tbl: Vec<()>` is its length. -/
structure LocalState where
  stackFrame : B32
  callStack : B32
  transactionCommitment : B32
  fullTransactionCommitment : B32
  tokenId : UInt64
  excess : UInt64 × Bool
  ledger : B32
  success : Bool
  partyIndex : UInt32
  failureStatusTbl : Nat
  deriving DecidableEq

/-- blockchain_state_registers.rs 90-103; numbers.rs 82-86, 197-201 -/
def LocalState.chunked (l : LocalState) : M Chunked :=
  Chunked.build [l.stackFrame.chunked, l.callStack.chunked, l.transactionCommitment.chunked,
    l.fullTransactionCommitment.chunked, tokenIdChunked l.tokenId,
    Chunked.build [Chunked.u64 l.excess.1, Chunked.bool l.excess.2], l.ledger.chunked, Chunked.u32 l.partyIndex,
    Chunked.bool l.success]

/-- blockchain_state_registers.rs 13-20; `pending_coinbase_stack: ()` is left out. -/
structure Registers where
  ledger : B32
  localState : LocalState
  deriving DecidableEq

/-- blockchain_state_registers.rs 22-28 -/
def Registers.chunked (r : Registers) : M Chunked :=
  Chunked.build [r.ledger.chunked, r.localState.chunked]

/-- base/src/blockchain_state.rs 63-74 -/
structure BlockchainState where
  stagedLedgerHash : StagedLedgerHash
  genesisLedgerHash : B32
  registers : Registers
  timestamp : UInt64
  bodyReference : B32
  deriving DecidableEq

/-- blockchain_state.rs 102-111, 126-130 -/
def BlockchainState.chunked (sha : Bytes → B32) (b : BlockchainState) : M Chunked :=
  Chunked.build [b.stagedLedgerHash.chunked sha, b.genesisLedgerHash.chunked, b.registers.chunked,
    Chunked.u64 b.timestamp, Chunked.bytes b.bodyReference.bytes]

/-- base/src/protocol_state.rs 26-37 -/
structure Constants where
  k : UInt32
  slotsPerEpoch : UInt32
  slotsPerSubWindow : UInt32
  delta : UInt32
  genesisStateTimestamp : UInt64
  deriving DecidableEq

/-- protocol_state.rs 74-83 -/
def Constants.chunked (c : Constants) : M Chunked :=
  Chunked.build [Chunked.u32 c.k, Chunked.u32 c.delta, Chunked.u32 c.slotsPerEpoch, Chunked.u32 c.slotsPerSubWindow,
    Chunked.u64 c.genesisStateTimestamp]

/-- protocol_state.rs 212-221 -/
structure Body where
  genesisStateHash : B32
  blockchainState : BlockchainState
  consensusState : ConsensusState
  constants : Constants
  deriving DecidableEq

/-- protocol_state.rs 250-258 -/
def Body.chunked (sha : Bytes → B32) (b : Body) : M Chunked :=
  Chunked.build [b.constants.chunked, b.genesisStateHash.chunked, b.blockchainState.chunked sha,
    b.consensusState.chunked]

/-- protocol_state.rs 262-267 -/
structure ProtocolState where
  previousStateHash : B32
  body : Body
  deriving DecidableEq

/-- protocol_state.rs 318-326 -/
def ProtocolState.chunked (H : String → List Fp → Fp) (sha : Bytes → B32) (s : ProtocolState) : M Chunked := do
  let f ← hashChunked H "CodaProtoStateBody" (s.body.chunked sha)
  Chunked.build [s.previousStateHash.chunked, .ok (.field f)]

/-- protocol_state.rs 306-316, 328-340: `state_hash_fp` -/
def ProtocolState.stateHash (H : String → List Fp → Fp) (sha : Bytes → B32) (s : ProtocolState) : M Fp :=
  hashChunked H "CodaProtoState" (s.chunked H sha)

end MinaRs.Hash
