import Verif.Frontier.Query
import Verif.Block.Lemmas
import Verif.Hash.LegacyState

/-!
# Model of the mainnet node: from the blocks the GraphQL server answers to the best chain

The network blocks of the message processor are the documents that the backend has read
(`/repo/network/src/processor/js/graphql_api_v1.rs:24-35, 88`), values of `ExternalTransitionJson`; they are those of
`ExternalTransitionV1`, see `Block.wire_eq_json`.  Converting them, verifying them and adding them to the frontier are the functions of the
other modules, put together as `/repo/network/src/processor/naive_transition_frontier.rs:101-122` does.
-/

namespace MinaRs.Frontier.Mainnet

open Block (Blk BTy BTys Key Sig fromWire)
open BinProt (IntKind)
open Hash (B32 Fp ProtocolStateLegacy)
open MinaRs.Consensus (Header Chain isShortRange relativeMinWindowDensity)

/-! ## The parts of a block -/

/-- 32 bytes (`base/src/protocol_state.rs:85-93`, hashes) -/
def bytes32 (v : BTy.bytes32.base) : B32 := ⟨Json.arrBytes 32 v, Json.arrBytes_length 32 v⟩

/-- A `u32` (`base/src/numbers.rs:18-75`) -/
def num32 (v : (BTy.int .u32).base) : UInt32 := UInt32.ofNat (show {n : Int // IntKind.u32.range.holds n} from v).val.toNat

/-- A `u64` (`base/src/numbers.rs:18-75`) -/
def num64 (v : (BTy.int .u64).base) : UInt64 := UInt64.ofNat (show {n : Int // IntKind.u64.range.holds n} from v).val.toNat

/-- `base/src/epoch_data.rs:62-76` -/
def epochData (v : Block.epochData.base) : Hash.EpochData :=
  let x : ((BTy.bytes32.base × (BTy.int .u64).base × Unit) × BTy.bytes32.base × BTy.bytes32.base × BTy.bytes32.base × (BTy.int .u32).base × Unit) := v
  ⟨⟨bytes32 x.1.1, num64 x.1.2.1⟩, bytes32 x.2.1, bytes32 x.2.2.1, bytes32 x.2.2.2.1, num32 x.2.2.2.2.1⟩

/-- `base/src/consensus_state.rs:123-168` -/
def consensusState (v : Block.consensusState.base) : Hash.ConsensusState :=
  let x : (BTy.int .u32).base × (BTy.int .u32).base × (BTy.int .u32).base × List (BTy.int .u32).base × List UInt8 × (BTy.int .u64).base ×
    ((BTy.int .u32).base × (BTy.int .u32).base × Unit) × (BTy.int .u32).base × Block.epochData.base × Block.epochData.base × Bool ×
    Key × Key × Key × Bool × Unit := v
  let (length, epoch, density, windows, vrf, total, slot, since, staking, next, ancestor, winner, creator, receiver, super, ()) := x
  { blockchainLength := num32 length
    epochCount := num32 epoch
    minWindowDensity := num32 density
    subWindowDensities := windows.map num32
    lastVrfOutput := vrf
    totalCurrency := num64 total
    currGlobalSlot := ⟨num32 slot.1, num32 slot.2.1⟩
    globalSlotSinceGenesis := num32 since
    stakingEpochData := epochData staking
    nextEpochData := epochData next
    hasAncestorInSameCheckpointWindow := ancestor
    blockStakeWinner := winner
    blockCreator := creator
    coinbaseReceiver := receiver
    superchargeCoinbase := super }

/-- `base/src/blockchain_state.rs:20-48` -/
def blockchainState (v : Block.blockchainState.base) : Hash.BlockchainStateLegacy :=
  let x : ((BTy.bytes32.base × List UInt8 × List UInt8 × Unit) × BTy.bytes32.base × Unit) × BTy.bytes32.base × BTy.bytes32.base ×
    (BTy.int .u64).base × (BTy.int .u64).base × Unit := v
  { stagedLedgerHash := ⟨⟨bytes32 x.1.1.1, x.1.1.2.1, x.1.1.2.2.1⟩, bytes32 x.1.2.1⟩
    snarkedLedgerHash := bytes32 x.2.1
    genesisLedgerHash := bytes32 x.2.2.1
    snarkedNextAvailableToken := num64 x.2.2.2.1
    timestamp := num64 x.2.2.2.2.1 }

/-- `base/src/protocol_state.rs:23-37` -/
def constants (v : Block.constants.base) : Hash.Constants :=
  let x : (BTy.int .u32).base × (BTy.int .u32).base × (BTy.int .u32).base × (BTy.int .u32).base × (BTy.int .u64).base × Unit := v
  { k := num32 x.1, slotsPerEpoch := num32 x.2.1, slotsPerSubWindow := num32 x.2.2.1, delta := num32 x.2.2.2.1
    genesisStateTimestamp := num64 x.2.2.2.2.1 }

/-- `base/src/protocol_state.rs:85-144` -/
def protocolState (v : Block.protocolState.base) : ProtocolStateLegacy :=
  let x : BTy.bytes32.base × (BTy.bytes32.base × Block.blockchainState.base × Block.consensusState.base × Block.constants.base × Unit) × Unit := v
  ⟨bytes32 x.1, ⟨bytes32 x.2.1.1, blockchainState x.2.1.2.1, consensusState x.2.1.2.2.1, constants x.2.1.2.2.2.1⟩⟩

/-- The payload of a command (`base/src/user_commands/signed_command/mod.rs:64-72`). -/
abbrev Payload := (BTy.struct (Block.fields [("common", Block.common), ("body", Block.body)])).base

/-- `base/src/user_commands/signed_command/mod.rs:21-31`, `base/src/staged_ledger_diff.rs:84-89`, `base/src/user_commands/mod.rs:24-32` -/
def command (v : Block.userCommand.base) : SignedCommand Key Sig Payload :=
  let x : ((Payload × Key × Sig × Unit) ⊕ Empty) × Block.status.base × Unit := v
  match x.1 with
  | .inl c => ⟨c.1, c.2.1, c.2.2.1⟩

/-- The commands of a pre-diff (`base/src/staged_ledger_diff.rs:62-69`). -/
def commands (v : Block.preDiff.base) : List (SignedCommand Key Sig Payload) :=
  let x : List Block.snarkWork.base × List Block.userCommand.base × Block.coinbase.base × List Block.internalBalance.base × Unit := v
  x.2.1.map command

/-- What `add_block` uses of a block (`base/src/external_transition.rs:13-32`, `base/src/staged_ledger_diff.rs:21-50`). -/
def used (b : Blk) : ExternalTransition ProtocolStateLegacy Key Sig Payload :=
  let x : Block.protocolState.base × Block.proof.base × ((Block.preDiff.base × Option Block.preDiff.base × Unit) × Unit) ×
    Block.deltaProof.base × Block.protocolVersion.base × Option Block.protocolVersion.base × Unit × Unit := b
  ⟨protocolState x.1, ⟨commands x.2.2.1.1.1, x.2.2.1.1.2.1.map commands⟩⟩

/-! ## The node -/

/-- `block.try_into()` (`network/src/processor/processor_impl.rs:64`, `base/src/external_transition.rs:34-38`): it has no error values. -/
def convert (v : Block.block.wire.denote) : Except Err Blk :=
  match fromWire Block.block v with
  | .ok b => .ok b
  | .error _ => .error (.panic "Wrong number of bytes encountered")

/-- What chain selection uses of a protocol state (`base/src/protocol_state.rs:184-208`, `consensus/src/common.rs:57-133`).  Simplification: the
state hash is a number; those of the states for which computing it panics, here zero, are not used, see `add`. -/
def header (H : String → List Fp → Fp) (sha : List UInt8 → B32) (digest : List UInt8 → List UInt8) : Header ProtocolStateLegacy where
  consensusState s :=
    let c := s.body.consensusState
    { blockchainLength := c.blockchainLength.toNat
      epochCount := c.epochCount.toNat
      minWindowDensity := c.minWindowDensity.toNat
      subWindowDensities := c.subWindowDensities.map (·.toNat)
      lastVrfOutput := c.lastVrfOutput
      currGlobalSlot := ⟨c.currGlobalSlot.slotNumber.toNat, c.currGlobalSlot.slotsPerEpoch.toNat⟩
      stakingEpochData := ⟨c.stakingEpochData.lockCheckpoint.bytes⟩
      nextEpochData := ⟨c.nextEpochData.lockCheckpoint.bytes⟩ }
  stateHash s :=
    match s.stateHash H sha with
    | .ok f => f.val
    | .error _ => 0
  digest := digest

/-- Whether chain selection comes to compare the state hashes of the tip and the candidate (`consensus/src/common.rs:163-195, 207-219`):
in a short-range fork, or with a window in order and equal densities, if lengths and digests are equal. -/
def comparesHashes {T : Type} (h : Header T) (self : Chain T) (new : T) : Bool :=
  match MinaRs.Consensus.consensusState h self with
  | none => false
  | some tip =>
    let c := h.consensusState new
    let even := decide (tip.blockchainLength = c.blockchainLength) && decide (h.digest tip.lastVrfOutput = h.digest c.lastVrfOutput)
    match isShortRange h self [new] with
    | .error _ => false
    | .ok true => even
    | .ok false =>
      if c.subWindowDensities.any (fun s => decide (s > 7)) = true ∨ c.subWindowDensities.length ≠ 11 then false
      else
        match relativeMinWindowDensity h self [new], relativeMinWindowDensity h [new] self with
        | .ok a, .ok b => decide (a = b) && even
        | _, _ => false

/-- Whether computing the state hash does not panic (`base/src/protocol_state.rs:203-207`). -/
def hashable (H : String → List Fp → Fp) (sha : List UInt8 → B32) (s : ProtocolStateLegacy) : Bool :=
  match s.stateHash H sha with
  | .ok _ => true
  | .error _ => false

/-- `network/src/processor/naive_transition_frontier.rs:110-122` (`add_block`) on what it uses of a block: a state hash is computed only
when it is compared, and that may panic. -/
def addUsed {Pt Proof : Type} (H : String → List Fp → Fp) (sha : List UInt8 → B32) (digest : List UInt8 → List UInt8)
    (crypto : Crypto Key Pt Sig Payload) (st : State ProtocolStateLegacy Proof) (b : ExternalTransition ProtocolStateLegacy Key Sig Payload) :
    State ProtocolStateLegacy Proof × Except Err Unit :=
  let h := header H sha digest
  match b.verify crypto with
  | .ok true =>
    if ¬ MinaRs.Consensus.length h st.bestChain < 1 ∧ comparesHashes h st.bestChain b.protocolState = true ∧
        ¬ (hashable H sha b.protocolState = true ∧ ∀ t, MinaRs.Consensus.top st.bestChain = some t → hashable H sha t = true) then
      (st, .error (.panic "called `Result::unwrap()` on an `Err` value"))
    else addBlockMainnet h crypto st b
  | _ => addBlockMainnet h crypto st b

/-- `network/src/processor/naive_transition_frontier.rs:110-122` (`add_block`) -/
def add {Pt Proof : Type} (H : String → List Fp → Fp) (sha : List UInt8 → B32) (digest : List UInt8 → List UInt8) (crypto : Crypto Key Pt Sig Payload)
    (st : State ProtocolStateLegacy Proof) (b : Blk) : State ProtocolStateLegacy Proof × Except Err Unit :=
  addUsed H sha digest crypto st (used b)

/-- What the page gets when it asks for the state hash of the tip (`apps/wasm/mvp/src/js_exports.rs:26-31`): `null`, a text, or a panic.
`render` is `to_string` of a field element. -/
def tipHash {Proof : Type} (H : String → List Fp → Fp) (sha : List UInt8 → B32) (render : Nat → String) (_ : Unit)
    (st : State ProtocolStateLegacy Proof) : Option (Except Err String) :=
  (MinaRs.Consensus.top st.bestChain).map fun t =>
    match t.stateHash H sha with
    | .ok f => .ok (render f.val)
    | .error _ => .error (.panic "called `Result::unwrap()` on an `Err` value")

end MinaRs.Frontier.Mainnet
