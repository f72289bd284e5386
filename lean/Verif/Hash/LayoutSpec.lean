import Verif.Hash.Command
import Verif.Hash.LegacyState
/-!
# The layout of hash inputs

What is hashed for an account, a protocol state and a signed command, as flat tables of numbers: the
order of the values, their widths and the domain strings. Nothing here refers to the functions that
build or pack hash inputs.
-/

namespace MinaRs.Hash.Layout

/-- One value of a hash input: a field element, or a number of a given width in bits. -/
inductive Entry where
  | field (n : Nat)
  | num (n width : Nat)
  deriving DecidableEq

/-- The field elements of a table, in order. -/
def fieldsOf : List Entry → List Nat
  | [] => []
  | .field n :: es => n :: fieldsOf es
  | .num _ _ :: es => fieldsOf es

/-- The numbers of a table with their widths, in order. -/
def numsOf : List Entry → List (Nat × Nat)
  | [] => []
  | .field _ :: es => numsOf es
  | .num n w :: es => (n, w) :: numsOf es

/-! ## Packing

The field elements come first. The numbers follow, several to a field element. -/

/-- The total width of some numbers. -/
def width : List (Nat × Nat) → Nat
  | [] => 0
  | (_, w) :: ps => w + width ps

/-- Numbers written one after another in base two, the first one most significant. -/
def concat : List (Nat × Nat) → Nat
  | [] => 0
  | (n, _) :: ps => n * 2 ^ width ps + concat ps

/-- The width of the first of some numbers. -/
def firstWidth : List (Nat × Nat) → Nat
  | [] => 0
  | (_, w) :: _ => w

/-- Non-empty groups of at most 254 bits, none with room for the first number of the next one. -/
def Greedy : List (List (Nat × Nat)) → Prop
  | [] => True
  | [g] => g ≠ [] ∧ width g ≤ 254
  | g :: h :: gs => g ≠ [] ∧ width g ≤ 254 ∧ 254 < width g + firstWidth h ∧ Greedy (h :: gs)

/-- Berkeley packing: whole numbers, most significant first, as many as fit 254 bits. -/
def Packed (es : List Entry) (r : List Fp) : Prop :=
  ∃ gs, gs.flatten = numsOf es ∧ Greedy gs ∧ r.map Fin.val = fieldsOf es ++ gs.map concat

/-- The bits of the numbers, each least significant bit first. -/
def bitsOf : List Entry → List Bool
  | [] => []
  | .field _ :: es => bitsOf es
  | .num n w :: es => (List.range w).map n.testBit ++ bitsOf es

/-- The number with these bits, least significant first. -/
def value : List Bool → Nat
  | [] => 0
  | b :: bs => b.toNat + 2 * value bs

/-- Mainnet packing: the bits of all numbers in one sequence, cut after every 254. -/
def PackedLegacy (es : List Entry) (r : List Fp) : Prop :=
  r.map Fin.val = fieldsOf es ++
    (List.range (((bitsOf es).length + 253) / 254)).map fun i => value (((bitsOf es).drop (254 * i)).take 254)

/-! ## Common values -/

/-- One bit. -/
def bit (b : Bool) : Entry := .num b.toNat 1
/-- The lowest `w` bits of a number, one by one, least significant first. -/
def bits (n w : Nat) : List Entry := (List.range w).map fun i => .num (n / 2 ^ i % 2) 1
/-- The bytes of a string of bytes, bit by bit. -/
def bytes (bs : Bytes) : List Entry := bits (leNat bs) (8 * bs.length)
/-- A hash: its 32 bytes read as a little-endian number, as a field element. -/
def hash (h : B32) : Entry := .field (leNat h.bytes)
/-- A compressed public key. -/
def key (k : PubKey) : List Entry := [.field k.x.val, bit k.isOdd]
/-- A 32-bit number. -/
def u32 (x : UInt32) : Entry := .num x.toNat 32
/-- A 64-bit number. -/
def u64 (x : UInt64) : Entry := .num x.toNat 64

/-! ## Accounts -/

/-- A permission: constant, signature necessary, signature sufficient. -/
def auth : Auth → List Entry
  | .none => [.num 1 1, .num 0 1, .num 1 1]
  | .either => [.num 0 1, .num 0 1, .num 1 1]
  | .proof => [.num 0 1, .num 0 1, .num 0 1]
  | .signature => [.num 0 1, .num 1 1, .num 1 1]
  | .both => [.num 0 1, .num 0 1, .num 0 1]
  | .impossible => [.num 1 1, .num 1 1, .num 0 1]

/-- A vesting schedule; the two times are cut to 32 bits. -/
def timing : Timing → List Entry
  | .untimed => [.num 0 1, .num 0 64, .num 0 32, .num 0 64, .num 1 32, .num 0 64]
  | .timed d => [.num 1 1, u64 d.initialMinimumBalance, .num (d.cliffTime.toNat % 2 ^ 32) 32, u64 d.cliffAmount,
      .num (d.vestingPeriod.toNat % 2 ^ 32) 32, u64 d.vestingIncrement]

/-- Token permissions: the low bit says whether the account owns the token. -/
def tokenPermissions : TokenPermissions → Entry
  | .notOwned disabled => .num (2 * disabled.toNat) 2
  | .tokenOwned disabled => .num (1 + 2 * disabled.toNat) 2

/-- The number the default verification state of a zkapp starts with (zkapp.rs 29, in decimal). -/
def zk1 : Fp := Fin.ofNat p 12935064460869035604753254773225484359407575580289870070671311469994328713165
/-- The second one (zkapp.rs 36). -/
def zk2 : Fp := Fin.ofNat p 15836741414052211301983886193856353162526040956490609761139212467629447291325

/-- What is hashed for the zkapp state of an account. -/
def zkFields : List Fp := [zk1, zk1, zk1, zk1, zk1, zk2, 0, 0, 0, 0, 0, 0, 0, 0, 0]

/-- A Berkeley account. -/
def account (H : String → List Fp → Fp) (a : Account) : List Entry :=
  [.field (H "MinaZkappUri" [1]).val, .field (H "CodaZkappAccount" zkFields).val] ++
  auth a.permissions.editState ++ auth a.permissions.send ++ auth a.permissions.receive ++
  auth a.permissions.setDelegate ++ auth a.permissions.setPermissions ++ auth a.permissions.setVerificationKey ++
  auth a.permissions.setZkappUri ++ auth a.permissions.editSequenceState ++ auth a.permissions.setTokenSymbol ++
  auth a.permissions.incrementNonce ++ auth a.permissions.setVotingFor ++
  timing a.timing ++
  [hash a.votingFor] ++
  key (a.delegate.getD ⟨0, false⟩) ++
  [hash a.receiptChainHash,
   u32 a.nonce,
   u64 a.balance,
   .num (leNat (a.tokenSymbol.bytes.take 6)) 48,
   tokenPermissions a.tokenPermissions,
   .field a.tokenId.toNat] ++
  key a.publicKey

/-- A mainnet account: only the token and the balance. -/
def accountLegacy (a : AccountLegacy) : List Entry := [u64 a.tokenId, u64 a.balance]

/-! ## Protocol states -/

/-- The protocol constants. -/
def constants (c : Constants) : List Entry :=
  [u32 c.k, u32 c.delta, u32 c.slotsPerEpoch, u32 c.slotsPerSubWindow, u64 c.genesisStateTimestamp]

/-- Epoch data. -/
def epochData (e : EpochData) : List Entry :=
  [hash e.seed, hash e.startCheckpoint, u32 e.epochLength, hash e.ledger.hash, u64 e.ledger.totalCurrency,
   hash e.lockCheckpoint]

/-- The staged ledger hash: a SHA-256 digest bit by bit, and the pending coinbase hash. -/
def stagedLedgerHash (sha : Bytes → B32) (s : StagedLedgerHash) : List Entry :=
  bytes (sha (s.nonSnark.ledgerHash.bytes.reverse ++ s.nonSnark.auxHash ++ s.nonSnark.pendingCoinbaseAux)).bytes ++
  [hash s.pendingCoinbaseHash]

/-- The consensus state. The last VRF output is hashed bit by bit, at most 253 bits of it. -/
def consensusState (c : ConsensusState) : List Entry :=
  [u32 c.blockchainLength, u32 c.epochCount, u32 c.minWindowDensity] ++
  c.subWindowDensities.map u32 ++
  bits (leNat c.lastVrfOutput) (min (8 * c.lastVrfOutput.length) 253) ++
  [u64 c.totalCurrency, u32 c.currGlobalSlot.slotNumber, u32 c.currGlobalSlot.slotsPerEpoch,
   u32 c.globalSlotSinceGenesis, bit c.hasAncestorInSameCheckpointWindow, bit c.superchargeCoinbase] ++
  epochData c.stakingEpochData ++ epochData c.nextEpochData ++
  key c.blockStakeWinner ++ key c.blockCreator ++ key c.coinbaseReceiver

/-- The Berkeley blockchain state. -/
def blockchainState (sha : Bytes → B32) (b : BlockchainState) : List Entry :=
  stagedLedgerHash sha b.stagedLedgerHash ++
  [hash b.genesisLedgerHash,
   hash b.registers.ledger,
   hash b.registers.localState.stackFrame,
   hash b.registers.localState.callStack,
   hash b.registers.localState.transactionCommitment,
   hash b.registers.localState.fullTransactionCommitment,
   .field b.registers.localState.tokenId.toNat,
   u64 b.registers.localState.excess.1,
   bit b.registers.localState.excess.2,
   hash b.registers.localState.ledger,
   u32 b.registers.localState.partyIndex,
   bit b.registers.localState.success,
   u64 b.timestamp] ++
  bytes b.bodyReference.bytes

/-- The mainnet blockchain state. -/
def blockchainStateLegacy (sha : Bytes → B32) (b : BlockchainStateLegacy) : List Entry :=
  stagedLedgerHash sha b.stagedLedgerHash ++
  [hash b.snarkedLedgerHash, hash b.genesisLedgerHash, u64 b.snarkedNextAvailableToken, u64 b.timestamp]

/-- The body of a Berkeley protocol state. -/
def body (sha : Bytes → B32) (b : Body) : List Entry :=
  constants b.constants ++ [hash b.genesisStateHash] ++ blockchainState sha b.blockchainState ++
  consensusState b.consensusState

/-- The body of a mainnet protocol state. -/
def bodyLegacy (sha : Bytes → B32) (b : BodyLegacy) : List Entry :=
  constants b.constants ++ [hash b.genesisStateHash] ++ blockchainStateLegacy sha b.blockchainState ++
  consensusState b.consensusState

/-! ## Signed commands -/

/-- The three bits of the kind of a command, and what follows the common part. -/
def commandBody : CmdBody → List Entry
  | .payment source receiver token amount =>
    [.num 0 1, .num 0 1, .num 0 1, bit source.isOdd, bit receiver.isOdd, u64 token, u64 amount, .num 0 1]
  | .delegation delegator newDelegate =>
    [.num 0 1, .num 0 1, .num 1 1, bit delegator.isOdd, bit newDelegate.isOdd, .num 1 64, .num 0 64, .num 0 1]

/-- The two parties of a command. -/
def parties : CmdBody → PubKey × PubKey
  | .payment source receiver _ _ => (source, receiver)
  | .delegation delegator newDelegate => (delegator, newDelegate)

/-- What is signed: the payload, the signer's key and the first coordinate of the nonce commitment. -/
def signed (c : Payload) (pkx pky rx : Fp) : List Entry :=
  [.field c.common.feePayer.x.val, .field (parties c.body).1.x.val, .field (parties c.body).2.x.val,
   u64 c.common.fee, u64 c.common.feeToken, bit c.common.feePayer.isOdd, u32 c.common.nonce,
   u32 c.common.validUntil] ++
  bytes c.common.memo ++
  commandBody c.body ++
  [.field pkx.val, .field pky.val, .field rx.val]

end MinaRs.Hash.Layout
