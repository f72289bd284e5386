import Verif.GraphQL.BestChain
import Verif.Hash.LegacyState
import Verif.Hash.Sha256

/-!
# Genesis blocks

Model of `consensus/src/genesis/config.rs` and `genesis_impl.rs`: the block built from a configuration, the
mainnet configuration and the Berkeley protocol state.  `expect` and `unwrap` of an error are panics.

Left out: the proof of the mainnet block (`config.rs:126-466`, constants that are only copied) and the
delta transition chain proof.  The staged ledger diff, the protocol versions and the proof are copied or
default values and do not enter the protocol state.
-/

namespace MinaRs.Genesis

open Json (J JErr Env)
open Text (Text)
open Hash GraphQL

/-! ## The environment -/

theorem wordBytes_length (w : Nat) : (Sha256.wordBytes w).length = 4 := rfl

theorem digest_length (msg : Bytes) : (Sha256.digest msg).length = 32 := by
  simp only [Sha256.digest, List.length_append, wordBytes_length]

theorem check_length (msg : Bytes) : (Sha256.check msg).length = 4 := by
  simp [Sha256.check, digest_length]

/-- The environment with the checksum that `bs58` computes; `checks` tells whether the build checks
arithmetic overflow (used at `protocol/serialization-types/src/common.rs:258, 280`). -/
def env (checks : Bool) : Env := ⟨Sha256.check, check_length, checks⟩

/-- `hasher.finalize().to_vec()` (`crypto/src/hash/types.rs:403-412`) -/
def sha (msg : Bytes) : B32 := ⟨Sha256.digest msg, digest_length msg⟩

/-! ## Field elements in any radix -/

/-- A digit of `num::BigUint::from_str_radix` (external crate): a decimal digit or a letter of either
case (used at `crypto/src/hash/types.rs:29`) -/
def digitValue (c : Char) : Option Nat :=
  if '0' ≤ c ∧ c ≤ '9' then some (c.toNat - 48)
  else if 'a' ≤ c ∧ c ≤ 'z' then some (c.toNat - 87)
  else if 'A' ≤ c ∧ c ≤ 'Z' then some (c.toNat - 55)
  else none

/-- The digits loop of `num::BigUint::from_str_radix`: underscores are skipped; a character that is no
digit of the radix is an error (used at `crypto/src/hash/types.rs:29`). -/
def radixDigits (radix : Nat) : Nat → Text → Option Nat
  | acc, [] => some acc
  | acc, c :: cs =>
    if c = '_' then radixDigits radix acc cs
    else match digitValue c with
      | some d => if d < radix then radixDigits radix (acc * radix + d) cs else none
      | none => none

/-- `num::BigUint::from_str_radix`: a radix outside `2..=36` panics (used at `crypto/src/hash/types.rs:29`). -/
def bigUintRadix (s : Text) (radix : Nat) : R Nat :=
  if 2 ≤ radix ∧ radix ≤ 36 then
    match stripPlus s with
    | [] => .error .err
    | c :: cs =>
      if c = '_' then .error .err
      else match radixDigits radix 0 (c :: cs) with
        | some n => .ok n
        | none => .error .err
  else .error .panic

/-- `Field::from_str_radix` (`crypto/src/hash/types.rs:28-32`): a number that does not fit 256 bits is an
error, one that is not below the modulus panics in `Fp::from` (`from_repr(..).unwrap()`); the others are
kept as 32 little-endian bytes. -/
def fieldFromStrRadix (s : Text) (radix : Nat) : R B32 :=
  match bigUintRadix s radix with
  | .error e => .error e
  | .ok n =>
    if n < 2 ^ 256 then
      if n < p then .ok ⟨leBytes 32 n, leBytes_length 32 n⟩ else .error .panic
    else .error .err

/-! ## Blocks from a configuration -/

/-- `GenesisInitConfig` (`config.rs:27-43`) without the proof and the delta transition chain proof -/
structure Config where
  constants : Constants
  subWindowsPerWindow : UInt32
  lastVrfOutput : Bytes
  totalCurrency : UInt64
  subWindowDensities : List UInt32
  stakingEpochData : EpochData
  nextEpochData : EpochData
  blockStakeWinner : PubKey
  blockCreator : PubKey
  coinbaseReceiver : PubKey
  genesisStateHash : B32
  previousStateHash : B32
  blockchainState : BlockchainStateLegacy
  deriving DecidableEq

/-- `a * b` on `u32`: a panic when it overflows and overflow is checked, the low 32 bits otherwise
(`consensus/src/genesis/genesis_impl.rs:13-42`) -/
def mul32 (checks : Bool) (a b : UInt32) : R UInt32 :=
  if a.toNat * b.toNat < 2 ^ 32 then .ok (a * b) else if checks then .error .panic else .ok (a * b)

/-- The protocol state of `ExternalTransition::from_genesis_config` (`genesis_impl.rs:13-42`) -/
def fromConfig (checks : Bool) (c : Config) : R ProtocolStateLegacy := do
  let minWindowDensity ← mul32 checks c.subWindowsPerWindow c.constants.slotsPerSubWindow
  .ok {
    previousStateHash := c.previousStateHash
    body := {
      genesisStateHash := c.genesisStateHash
      blockchainState := c.blockchainState
      constants := c.constants
      consensusState := {
        blockchainLength := 1
        epochCount := 0
        minWindowDensity
        subWindowDensities := c.subWindowDensities
        lastVrfOutput := c.lastVrfOutput
        totalCurrency := c.totalCurrency
        currGlobalSlot := ⟨0, c.constants.slotsPerEpoch⟩
        globalSlotSinceGenesis := 0
        stakingEpochData := c.stakingEpochData
        nextEpochData := c.nextEpochData
        hasAncestorInSameCheckpointWindow := true
        blockStakeWinner := c.blockStakeWinner
        blockCreator := c.blockCreator
        coinbaseReceiver := c.coinbaseReceiver
        superchargeCoinbase := true } } }

/-- `VrfOutputTruncated::from_str` (`base/src/consensus_state.rs:46-50, 75`): the Base64 form -/
def vrf64 (E : Env) (s : Text) : R Bytes :=
  match Json.Leaf.base64Bytes.deText E s with
  | .ok v => .ok (show Bytes from v)
  | .error e => .error e

/-- `.expect(..)` and `.unwrap()` (`consensus/src/genesis/config.rs:193-199, 501-509`) -/
def expect {α : Type} : R α → R α
  | .ok a => .ok a
  | .error _ => .error .panic

/-- `BlockTime::from_unix_epoch` (`base/src/numbers.rs:248-256`): `ts * 1000` on `u64` -/
def fromUnixEpoch (checks : Bool) (ts : UInt64) : R UInt64 :=
  if ts.toNat * 1000 < 2 ^ 64 then .ok (ts * 1000) else if checks then .error .panic else .ok (ts * 1000)

/-- `GenesisInitConfig::mainnet` (`config.rs:46-512`); `devnet` is the same (`config.rs:514-517`). -/
def mainnet (E : Env) : R Config := do
  let timestamp ← fromUnixEpoch E.checks 1615939200
  let totalCurrency : UInt64 := 805385692840039233
  let ledger ← expect (hash E 0x05 "jx7buQVWFLsXTtzRgSxbYcT8EYLS8KCZbLrfDcJxMtyy4thw2Ee".toList)
  let seed ← expect (hash E 0x0d "2va9BGv9JrLTtrzZttiEMDYw1Zj6a6EHzXjmP9evHDTG3oEquURA".toList)
  let start ← expect (hash E 0x10 "3NK2tkzqqK5spR2sZ7tujjqPksL45M3UUrcA4WhCkeiPtnugyE2x".toList)
  let nextSeed ← expect (hash E 0x0d "2vaRh7FQ5wSzmpFReF9gcRKjv48CcJvHs25aqb3SSZiPgHQBy5Dt".toList)
  let state ← expect (hash E 0x10 "3NLoKn22eMnyQ7rxh5pxB6vBA3XhSAhhrf7akdqS6HbAKD14Dh1d".toList)
  let auxHash ← expect (byteHash E 0x0e "UDRUFHSvxUAtV8sh7gzMVPqpbd46roG1wzWR6dYvB6RunPihom".toList)
  let pendingCoinbaseAux ← expect (byteHash E 0x0f "WAAeUjUnP9Q2JiabhJzJozcjiEmkZe8ob4cfFKSuq6pQSNmHh7".toList)
  let pendingCoinbaseHash ← expect (hash E 0x0c "2n1tLdP2gkifmyVmrmzYXTS4ohPbZPJn6Qq4x55ywrbRWB4543cC".toList)
  let lastVrfOutput ← expect (vrf64 E "NfThG1r1GxQuhaGLSJWGxcpv24SudtXG4etB0TnGqwg=".toList)
  let key ← expect (pubKey E "B62qiy32p8kAKnny8ZFwoMhYpBppM1DWVCqAPBYNcXnsAHhnfAAuXgg".toList)
  .ok {
    constants := ⟨290, 7140, 7, 0, timestamp⟩
    subWindowsPerWindow := 11
    lastVrfOutput
    totalCurrency
    subWindowDensities := [1, 7, 7, 7, 7, 7, 7, 7, 7, 7, 7]
    stakingEpochData := { ledger := ⟨ledger, totalCurrency⟩, seed := seed, startCheckpoint := start, lockCheckpoint := start, epochLength := 1 }
    nextEpochData := { ledger := ⟨ledger, totalCurrency⟩, seed := nextSeed, startCheckpoint := start, lockCheckpoint := state, epochLength := 2 }
    blockStakeWinner := key
    blockCreator := key
    coinbaseReceiver := key
    genesisStateHash := state
    previousStateHash := state
    blockchainState := {
      stagedLedgerHash := ⟨⟨ledger, auxHash, pendingCoinbaseAux⟩, pendingCoinbaseHash⟩
      snarkedLedgerHash := ledger
      genesisLedgerHash := ledger
      snarkedNextAvailableToken := 2
      timestamp } }

/-! ## The Berkeley protocol state -/

/-- `Default` of `BlockchainStateRegistersLocalState` (`blockchain_state_registers.rs:56-85`), from the texts -/
def localState (E : Env) : R LocalState := do
  let stackFrame ← expect (fieldFromStrRadix "02F99BCFB0AA7F48C1888DA5A67196A2410FB084CD2DB1AF5216C5122AEBC054".toList 16)
  let callStack ← expect (fieldFromStrRadix "0000000000000000000000000000000000000000000000000000000000000000".toList 16)
  let transactionCommitment ←
    expect (fieldFromStrRadix "0000000000000000000000000000000000000000000000000000000000000000".toList 16)
  let fullTransactionCommitment ←
    expect (fieldFromStrRadix "0000000000000000000000000000000000000000000000000000000000000000".toList 16)
  let ledger ← expect (hash E 0x05 "jw6bz2wud1N6itRUHZ5ypo3267stk4UgzkiuWtAMPRZo9g4Udyd".toList)
  .ok { stackFrame, callStack, transactionCommitment, fullTransactionCommitment, tokenId := 1, excess := (0, true),
        ledger, success := true, partyIndex := 0, failureStatusTbl := 0 }

/-- `gen` of `ProtocolState::berkeley` (`genesis_impl.rs:60-180`); a text that occurs several times is read
once here. -/
def gen (E : Env) : R ProtocolState := do
  let state ← hash E 0x10 "3NLUmnTBMCeExeWErijZ2GeLnjLtBgsDjN3qM8M8gcJDtk8k89xf".toList
  let ledger ← hash E 0x05 "jwNYQU34Jb9FD6ZbKnWRALZqVDKbMrjZBKWFYZwAw8ZPMgv9Ld4".toList
  let auxHash ← byteHash E 0x0e "UDRUFHSvxUAtV8sh7gzMVPqpbd46roG1wzWR6dYvB6RunPihom".toList
  let pendingCoinbaseAux ← byteHash E 0x0f "WAAeUjUnP9Q2JiabhJzJozcjiEmkZe8ob4cfFKSuq6pQSNmHh7".toList
  let pendingCoinbaseHash ← hash E 0x0c "2n27mUhCEctJbiZQdrk3kxYc7DVHvJVDErjXrjNs7jnP3HMLKtuN".toList
  let localState ← localState E
  let bodyReference ← bodyReference "36bda176656cc3be96c3d317db7b4ac06fdbc7f4eedcd6efdd20e28143d67421".toList
  let lastVrfOutput ← vrf64 E "OruOTtGM3tJL3jM0GHtCzKyugvWT0ZP7VckspHX8_g8=".toList
  let seed ← hash E 0x0d "2va9BGv9JrLTtrzZttiEMDYw1Zj6a6EHzXjmP9evHDTG3oEquURA".toList
  let start ← hash E 0x10 "3NK2tkzqqK5spR2sZ7tujjqPksL45M3UUrcA4WhCkeiPtnugyE2x".toList
  let nextSeed ← hash E 0x0d "2vc1zQHJx2xN72vaR4YDH31KwFSr5WHSEH2dzcfcq8jxBPcGiJJA".toList
  let key ← pubKey E "B62qiy32p8kAKnny8ZFwoMhYpBppM1DWVCqAPBYNcXnsAHhnfAAuXgg".toList
  let totalCurrency : UInt64 := 1013238001000001000
  .ok {
    previousStateHash := state
    body := {
      genesisStateHash := state
      blockchainState := {
        stagedLedgerHash := ⟨⟨ledger, auxHash, pendingCoinbaseAux⟩, pendingCoinbaseHash⟩
        genesisLedgerHash := ledger
        registers := ⟨ledger, localState⟩
        timestamp := 1655755201000
        bodyReference }
      consensusState := {
        blockchainLength := 1
        epochCount := 0
        minWindowDensity := 77
        subWindowDensities := [1, 7, 7, 7, 7, 7, 7, 7, 7, 7, 7]
        lastVrfOutput
        totalCurrency
        currGlobalSlot := ⟨0, 7140⟩
        globalSlotSinceGenesis := 0
        stakingEpochData := { ledger := ⟨ledger, totalCurrency⟩, seed := seed, startCheckpoint := start, lockCheckpoint := start, epochLength := 1 }
        nextEpochData := { ledger := ⟨ledger, totalCurrency⟩, seed := nextSeed, startCheckpoint := start, lockCheckpoint := state, epochLength := 2 }
        hasAncestorInSameCheckpointWindow := true
        blockStakeWinner := key
        blockCreator := key
        coinbaseReceiver := key
        superchargeCoinbase := true }
      constants := Constants.default } }

/-- `ProtocolState::berkeley` (`genesis_impl.rs:182-184`) -/
def berkeley (E : Env) : R ProtocolState := expect (gen E)

end MinaRs.Genesis
