import Verif.Frontier.Query
import Verif.GraphQL.BestChain
import Verif.Hash.Types

/-!
# Model of the Berkeley node: from the answers of the GraphQL server to the page

The network blocks of the message processor are the JSON documents that the GraphQL backend forwards
(`/repo/network/src/processor/js/graphql_api_berkeley.rs:80`).  Converting them, hashing them and adding them to the frontier are the
functions of the other modules, put together as `/repo/network/src/processor/naive_transition_frontier.rs` does.
-/

namespace MinaRs.Frontier.Berkeley

open Json (J Env)
open Hash (ProtocolState Fp B32)
open GraphQL (LedgerProof)
open MinaRs.Consensus (Header)

/-- `block.try_into()` (`network/src/processor/processor_impl.rs:64`, `network/src/processor/naive_transition_frontier.rs:128-160`) -/
def convert (E : Env) (j : J) : Except Err (ProtocolState × List LedgerProof) :=
  match GraphQL.bestChain E j with
  | .ok b => .ok b
  | .error .err => .error .conversion
  | .error _ => .error (.panic "called `Result::unwrap()` on an `Err` value")

/-- What chain selection uses of a protocol state (`base/src/protocol_state.rs:269-293`, `consensus/src/common.rs:57-133`).  Simplification: the state hash is a
number; the states for which computing it panics, here zero, are not used, see `add`. -/
def header (H : String → List Fp → Fp) (sha : List UInt8 → B32) (digest : List UInt8 → List UInt8) : Header ProtocolState where
  consensusState s :=
    let c := s.body.consensusState
    { blockchainLength := c.blockchainLength.toNat
      epochCount := c.epochCount.toNat
      minWindowDensity := c.minWindowDensity.toNat
      subWindowDensities := c.subWindowDensities.map (·.toNat)
      lastVrfOutput := c.lastVrfOutput
      currGlobalSlot := ⟨c.currGlobalSlot.slotNumber.toNat, c.currGlobalSlot.slotsPerEpoch.toNat⟩
      stakingEpochData := ⟨c.stakingEpochData.lockCheckpoint.bytes⟩
      nextEpochData := ⟨c.nextEpochData.lockCheckpoint.bytes⟩ }
  stateHash s :=
    match s.stateHash H sha with
    | .ok f => f.val
    | .error _ => 0
  digest := digest

/-- `network/src/processor/naive_transition_frontier.rs:169-184` (`add_block`): the state hash of the new block, which may panic,
is computed first. -/
def add (H : String → List Fp → Fp) (sha : List UInt8 → B32) (digest : List UInt8 → List UInt8) (st : State ProtocolState LedgerProof)
    (b : ProtocolState × List LedgerProof) : State ProtocolState LedgerProof × Except Err Unit :=
  match b.1.stateHash H sha with
  | .error _ => (st, .error (.panic "called `Result::unwrap()` on an `Err` value"))
  | .ok _ => addBlockBerkeley (header H sha digest) st b

end MinaRs.Frontier.Berkeley
