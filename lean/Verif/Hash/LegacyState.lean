import Verif.Hash.Types
/-!
# Hash inputs of legacy (mainnet) protocol states and accounts

Model of every legacy `to_roinput` of `base/src` that enters the state hash of a mainnet block.
-/

namespace MinaRs.Hash

/-- A chain of `append_hashable` / `append_field` / ..., stopping at the first panic
(`base/src/user_commands/signed_command/mod.rs:84-145`). -/
def buildL : List (M Legacy) → M Legacy
  | [] => .ok Legacy.new
  | x :: xs => do
    let a ← x
    let b ← buildL xs
    pure (a.append b)

/-- base/src/epoch_data.rs 43-47 -/
def EpochLedger.legacy (e : EpochLedger) : M Legacy :=
  buildL [e.hash.legacy, .ok (Legacy.u64 e.totalCurrency)]

/-- epoch_data.rs 101-108 -/
def EpochData.legacy (e : EpochData) : M Legacy :=
  buildL [e.seed.legacy, e.startCheckpoint.legacy, .ok (Legacy.u32 e.epochLength), e.ledger.legacy,
    e.lockCheckpoint.legacy]

/-- base/src/global_slot.rs 26-30 -/
def GlobalSlot.legacy (g : GlobalSlot) : M Legacy :=
  buildL [.ok (Legacy.u32 g.slotNumber), .ok (Legacy.u32 g.slotsPerEpoch)]

/-- base/src/consensus_state.rs 255-277 -/
def ConsensusState.legacy (c : ConsensusState) : M Legacy :=
  buildL ([.ok (Legacy.u32 c.blockchainLength), .ok (Legacy.u32 c.epochCount), .ok (Legacy.u32 c.minWindowDensity)] ++
    c.subWindowDensities.map (fun d => .ok (Legacy.u32 d)) ++
    [.ok (vrfLegacy c.lastVrfOutput), .ok (Legacy.u64 c.totalCurrency), c.currGlobalSlot.legacy,
     .ok (Legacy.u32 c.globalSlotSinceGenesis), .ok (Legacy.bool c.hasAncestorInSameCheckpointWindow),
     .ok (Legacy.bool c.superchargeCoinbase), c.stakingEpochData.legacy, c.nextEpochData.legacy,
     .ok (Legacy.field c.blockStakeWinner.x), .ok (Legacy.bool c.blockStakeWinner.isOdd),
     .ok (Legacy.field c.blockCreator.x), .ok (Legacy.bool c.blockCreator.isOdd),
     .ok (Legacy.field c.coinbaseReceiver.x), .ok (Legacy.bool c.coinbaseReceiver.isOdd)])

/-- crypto/src/hash/types.rs 385-389, 423-425 -/
def StagedLedgerHash.legacy (sha : Bytes → B32) (s : StagedLedgerHash) : M Legacy :=
  buildL [.ok (Legacy.bytes (sha s.nonSnark.preimage).bytes), s.pendingCoinbaseHash.legacy]

/-- base/src/blockchain_state.rs 25-36 -/
structure BlockchainStateLegacy where
  stagedLedgerHash : StagedLedgerHash
  snarkedLedgerHash : B32
  genesisLedgerHash : B32
  snarkedNextAvailableToken : UInt64
  timestamp : UInt64
  deriving DecidableEq

/-- blockchain_state.rs 47-54 -/
def BlockchainStateLegacy.legacy (sha : Bytes → B32) (b : BlockchainStateLegacy) : M Legacy :=
  buildL [b.stagedLedgerHash.legacy sha, b.snarkedLedgerHash.legacy, b.genesisLedgerHash.legacy,
    .ok (Legacy.u64 b.snarkedNextAvailableToken), .ok (Legacy.u64 b.timestamp)]

/-- base/src/protocol_state.rs 60-67 -/
def Constants.legacy (c : Constants) : M Legacy :=
  buildL [.ok (Legacy.u32 c.k), .ok (Legacy.u32 c.delta), .ok (Legacy.u32 c.slotsPerEpoch),
    .ok (Legacy.u32 c.slotsPerSubWindow), .ok (Legacy.u64 c.genesisStateTimestamp)]

/-- protocol_state.rs 135-144 -/
structure BodyLegacy where
  genesisStateHash : B32
  blockchainState : BlockchainStateLegacy
  consensusState : ConsensusState
  constants : Constants
  deriving DecidableEq

/-- protocol_state.rs 155-161 -/
def BodyLegacy.legacy (sha : Bytes → B32) (b : BodyLegacy) : M Legacy :=
  buildL [b.constants.legacy, b.genesisStateHash.legacy, b.blockchainState.legacy sha, b.consensusState.legacy]

/-- protocol_state.rs 88-93 -/
structure ProtocolStateLegacy where
  previousStateHash : B32
  body : BodyLegacy
  deriving DecidableEq

/-- `hasher.hash(..)` of the legacy hasher: the sponge `H` with the domain string on the packed fields
(`base/src/protocol_state.rs:169-187`). -/
def hashLegacy (H : String → List Fp → Fp) (domain : String) (x : M Legacy) : M Fp := do
  let c ← x
  pure (H domain c.toFields)

/-- protocol_state.rs 97-106 -/
def ProtocolStateLegacy.legacy (H : String → List Fp → Fp) (sha : Bytes → B32) (s : ProtocolStateLegacy) : M Legacy := do
  let h ← hashLegacy H "CodaProtoStateBody" (s.body.legacy sha)
  buildL [s.previousStateHash.legacy, .ok (Legacy.field h)]

/-- protocol_state.rs 119-130 -/
def ProtocolStateLegacy.stateHash (H : String → List Fp → Fp) (sha : Bytes → B32) (s : ProtocolStateLegacy) : M Fp :=
  hashLegacy H "CodaProtoState" (s.legacy H sha)

/-- base/src/account/permissions.rs 45-64 -/
structure PermissionsLegacy where
  stake : Bool
  editState : Auth
  send : Auth
  receive : Auth
  setDelegate : Auth
  setPermissions : Auth
  setVerificationKey : Auth
  deriving DecidableEq

/-- base/src/account/mod.rs 33-59 -/
structure AccountLegacy where
  publicKey : PubKey
  tokenId : UInt64
  tokenPermissions : TokenPermissions
  balance : UInt64
  nonce : UInt32
  receiptChainHash : B32
  delegate : Option PubKey
  votingFor : B32
  timing : Timing
  permissions : PermissionsLegacy
  snapp : Option Unit
  deriving DecidableEq

/-- account/mod.rs 71-84: only the token and the balance. -/
def AccountLegacy.legacy (a : AccountLegacy) : Legacy :=
  Legacy.build [Legacy.u64 a.tokenId, Legacy.u64 a.balance]

end MinaRs.Hash
