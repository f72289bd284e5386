/-!
# Model of chain selection (`/repo/consensus/src/common.rs`)

`u32` values are natural numbers; additions that can overflow are checked, as in a debug build.
A panic is the error value `Err.panic`.  The VRF digest (Blake2b-256) is an arbitrary function.
State hashes (field elements) are compared by their canonical integer and are natural numbers.
-/

namespace MinaRs.Consensus

/-- `consensus/src/error.rs:12-42` (the variants the modelled functions return), and panics. -/
inductive Err where
  | invalidHeight
  | topBlockNotFound
  | consensusStateNotFound
  | candidatesMissingSubWindowDensities
  | panic (msg : String)
  deriving DecidableEq, Repr

deriving instance DecidableEq for Except

/-- Is this a panic rather than a returned error? (`consensus/src/error.rs:12-42`) -/
def Err.isPanic : Err → Bool
  | .panic _ => true
  | _ => false

/-- `u32` addition of a debug build (`consensus/src/common.rs:230-330`). -/
def add32 (a b : Nat) : Except Err Nat :=
  if a + b < 2 ^ 32 then .ok (a + b) else .error (.panic "attempt to add with overflow")

/-- `u32` remainder (`consensus/src/common.rs:230-330`). -/
def rem32 (a b : Nat) : Except Err Nat :=
  if b = 0 then .error (.panic "attempt to calculate the remainder with a divisor of zero")
  else .ok (a % b)

/-- `common.rs:34-46` (`ConsensusConstants::mainnet`); the fields used by the selection rules. -/
def slotsPerEpoch : Nat := 7140
/-- `common.rs:40` -/
def slotsPerSubWindow : Nat := 7
/-- `common.rs:43` -/
def subWindowsPerWindow : Nat := 11
/-- `common.rs:44` -/
def gracePeriodEnd : Nat := 1440

/-- `base/src/global_slot.rs:13-21` -/
structure GlobalSlot where
  slotNumber : Nat
  slotsPerEpoch : Nat
  deriving DecidableEq, Repr

/-- `base/src/epoch_data.rs:62-76`; only the lock checkpoint takes part in chain selection. -/
structure EpochData where
  lockCheckpoint : List UInt8
  deriving DecidableEq, Repr

/-- `base/src/consensus_state.rs:134-168`; the fields that take part in chain selection. -/
structure ConsensusState where
  blockchainLength : Nat
  epochCount : Nat
  minWindowDensity : Nat
  subWindowDensities : List Nat
  lastVrfOutput : List UInt8
  currGlobalSlot : GlobalSlot
  stakingEpochData : EpochData
  nextEpochData : EpochData
  deriving DecidableEq, Repr

/-- `base/src/protocol_state.rs:169-182` (`ProtocolStateHeader`): what chain selection can see of
a block of type `T`, and the digest function of `consensus_state.rs` (`VrfOutputTruncated::digest`). -/
structure Header (T : Type) where
  consensusState : T → ConsensusState
  stateHash : T → Nat
  digest : List UInt8 → List UInt8

/-- `get_height` (`protocol_state.rs:185-187` and the same for `ProtocolState`). -/
def Header.getHeight {T : Type} (h : Header T) (b : T) : Nat := (h.consensusState b).blockchainLength

/-- `common.rs:57` (`ProtocolStateChain`) -/
abbrev Chain (T : Type) := List T

variable {T : Type} (h : Header T)

/-- `common.rs:66-78` (`push`): the chain afterwards, and the result. -/
def push (c : Chain T) (new : T) : Chain T × Except Err Unit :=
  match c.getLast? with
  | none => (c ++ [new], .ok ())
  | some last =>
    match add32 (h.getHeight last) 1 with
    | .error e => (c, .error e)
    | .ok next => if h.getHeight new ≠ next then (c, .error .invalidHeight) else (c ++ [new], .ok ())

/-- `common.rs:83-85` (`top`) -/
def top (c : Chain T) : Option T := c.getLast?

/-- `common.rs:89-91` (`consensus_state`) -/
def consensusState (c : Chain T) : Option ConsensusState := (top c).map h.consensusState

/-- `common.rs:94-96` (`genesis_block`) -/
def genesisBlock (c : Chain T) : Option T := c.head?

/-- `common.rs:100-102` (`global_slot`) -/
def globalSlot (c : Chain T) : Option GlobalSlot := (top c).map fun s => (h.consensusState s).currGlobalSlot

/-- `common.rs:106-109` (`epoch_slot`) -/
def epochSlot (c : Chain T) : Except Err (Option Nat) :=
  match globalSlot h c with
  | none => .ok none
  | some s => do
    let r ← rem32 s.slotNumber s.slotsPerEpoch
    .ok (some r)

/-- `common.rs:112-116` (`length`) -/
def length (c : Chain T) : Nat :=
  match consensusState h c with
  | some s => s.blockchainLength
  | none => 0

/-- A hexadecimal digit in lower case, as its ASCII code (`consensus/src/common.rs:126`). -/
def hexDigit (n : UInt8) : UInt8 := if n < 10 then 48 + n else 87 + n

/-- `hex::encode`: the ASCII codes of the digits (`consensus/src/common.rs:126`). -/
def hexEncode : List UInt8 → List UInt8
  | [] => []
  | b :: bs => hexDigit (b >>> 4) :: hexDigit (b &&& 15) :: hexEncode bs

/-- `str::cmp`: byte-wise lexicographic comparison (`consensus/src/common.rs:200-228`). -/
def strCmp : List UInt8 → List UInt8 → Ordering
  | [], [] => .eq
  | [], _ :: _ => .lt
  | _ :: _, [] => .gt
  | a :: as, b :: bs => if a < b then .lt else if b < a then .gt else strCmp as bs

/-- `common.rs:120-127` (`last_vrf_hash_digest`) -/
def lastVrfHashDigest (c : Chain T) : Except Err (List UInt8) :=
  match consensusState h c with
  | none => .error .topBlockNotFound
  | some s => .ok (hexEncode (h.digest s.lastVrfOutput))

/-- `common.rs:131-133` (`state_hash`) -/
def stateHash (c : Chain T) : Option Nat := (top c).map h.stateHash

/-- `Option<T> > Option<T>` of Rust: `None` is below every `Some` (`consensus/src/common.rs:200-228`). -/
def optGt : Option Nat → Option Nat → Bool
  | none, _ => false
  | some _, none => true
  | some a, some b => decide (a > b)

/-- `common.rs:200-228` (`select_longer_chain`); on an error the chain is the old one. -/
def selectLongerChain (self candidate : Chain T) : Except Err (Chain T) :=
  match consensusState h self, consensusState h candidate with
  | none, _ => .error .consensusStateNotFound
  | some _, none => .error .consensusStateNotFound
  | some topState, some candidateState =>
    if topState.blockchainLength < candidateState.blockchainLength then .ok candidate
    else if topState.blockchainLength = candidateState.blockchainLength then do
      let a ← lastVrfHashDigest h candidate
      let b ← lastVrfHashDigest h self
      match strCmp a b with
      | .gt => .ok candidate
      | .eq => if optGt (stateHash h candidate) (stateHash h self) then .ok candidate else .ok self
      | .lt => .ok self
    else .ok self

/-- `Option<u32> >= Some(x)` (`consensus/src/common.rs:240-249`) -/
def optGe (a : Option Nat) (x : Nat) : Bool :=
  match a with
  | none => false
  | some v => decide (v ≥ x)

/-- `common.rs:240-249` (the closure `check` of `is_short_range`) -/
def check (s1 s2 : ConsensusState) (s2EpochSlot : Option Nat) : Except Err Bool := do
  let next ← add32 s2.epochCount 1
  if s1.epochCount = next ∧ optGe s2EpochSlot (slotsPerEpoch * 2 / 3) = true then
    .ok (decide (s1.stakingEpochData.lockCheckpoint = s2.nextEpochData.lockCheckpoint))
  else .ok false

/-- `common.rs:230-258` (`is_short_range`) -/
def isShortRange (self candidate : Chain T) : Except Err Bool :=
  match consensusState h self, consensusState h candidate with
  | none, _ => .error .consensusStateNotFound
  | some _, none => .error .consensusStateNotFound
  | some a, some b =>
    if a.epochCount = b.epochCount then
      .ok (decide (a.stakingEpochData.lockCheckpoint = b.stakingEpochData.lockCheckpoint))
    else do
      let slotB ← epochSlot h candidate
      let first ← check a b slotB
      if first = true then .ok true
      else do
        let slotA ← epochSlot h self
        check b a slotA

/-- `common.rs:309-317` (the ring shift): zeroes `n` entries after position `rel`. -/
def ringShift : Nat → Nat → List Nat → Except Err (List Nat)
  | 0, _, w => .ok w
  | n + 1, rel, w =>
    let rel' := (rel + 1) % subWindowsPerWindow
    if rel' < w.length then ringShift n rel' (w.set rel' 0)
    else .error .candidatesMissingSubWindowDensities

/-- `common.rs:323` (`sum` of `u32`s, overflow checked) -/
def sum32 : Nat → List Nat → Except Err Nat
  | acc, [] => .ok acc
  | acc, d :: ds => do
    let acc' ← add32 acc d
    sum32 acc' ds

/-- `common.rs:270-330` (`relative_min_window_density`) -/
def relativeMinWindowDensity (self chainB : Chain T) : Except Err Nat :=
  match consensusState h self, consensusState h chainB with
  | none, _ => .error .consensusStateNotFound
  | some _, none => .error .consensusStateNotFound
  | some tip, some b =>
    let maxSlot := max tip.currGlobalSlot.slotNumber b.currGlobalSlot.slotNumber
    if maxSlot < gracePeriodEnd then .ok tip.minWindowDensity
    else do
      let shiftCount := min (max (maxSlot - (tip.currGlobalSlot.slotNumber - 1)) 0) subWindowsPerWindow
      let relSubWindow := tip.currGlobalSlot.slotNumber / subWindowsPerWindow % subWindowsPerWindow
      let projected ← ringShift shiftCount relSubWindow tip.subWindowDensities
      let density ← sum32 0 projected
      .ok (min tip.minWindowDensity density)

/-- `common.rs:164-195` (the body of the loop of `select_secure_chain`, for one candidate); on an
error the chain is the old one. -/
def selectOne (self candidate : Chain T) : Except Err (Chain T) := do
  let short ← isShortRange h self candidate
  if short = true then selectLongerChain h self candidate
  else
    match consensusState h candidate with
    | none => .error .consensusStateNotFound
    | some candidateState =>
      if candidateState.subWindowDensities.any (fun s => decide (s > slotsPerSubWindow)) = true then .ok self
      else if candidateState.subWindowDensities.length ≠ subWindowsPerWindow then .ok self
      else do
        let tipDensity ← relativeMinWindowDensity h self candidate
        let candidateDensity ← relativeMinWindowDensity h candidate self
        match compare candidateDensity tipDensity with
        | .gt => .ok candidate
        | .eq => selectLongerChain h self candidate
        | .lt => .ok self

/-- `common.rs:162-198` (`select_secure_chain`): the chain afterwards, and the result. -/
def selectSecureChain (self : Chain T) : List (Chain T) → Chain T × Except Err Unit
  | [] => (self, .ok ())
  | c :: cs =>
    match selectOne h self c with
    | .error e => (self, .error e)
    | .ok self' => selectSecureChain self' cs

end MinaRs.Consensus
