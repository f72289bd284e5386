import Verif.Frontier.Model
import Verif.Hash.Command

/-!
# Signing commands, and whole blocks

`/repo/base/src/user_commands/signed_command/mod.rs:33-61, 74-79` with the payloads of
`Verif.Hash.Command`, and the block of `/repo/base/src/external_transition.rs` with all its fields. The
equation of the signature scheme, its signing function and the hash function are arbitrary.
-/

namespace MinaRs.Frontier

open MinaRs.Hash (Fp PubKey Payload Network signedFields verifyPayload)

/-- What `mina_signer` provides (`signed_command/mod.rs:42-43, 59-60`). `sign` is given the challenge as
a function of the `rx` of the signature, as the signer computes it. -/
structure Scheme (SK σ : Type) where
  H : String → List Fp → Fp
  V : (Fp × Fp) → σ → Fp → Bool
  rx : σ → Fp
  pub : SK → Fp × Fp
  sign : SK → (Fp → Fp) → σ
  uncompress : PubKey → Option (Fp × Fp)

variable {SK σ : Type}

/-- `PubKey::into_compressed` (used at `signed_command/mod.rs:47`): the `x` coordinate and the parity of
`y`. -/
def compress (p : Fp × Fp) : PubKey := ⟨p.1, p.2.val % 2 == 1⟩

/-- `signed_command/mod.rs:35-50` (`from_payload`) and `:76-78` (`into_signed_command`): the message is
hashed under the domain of the network (`:139-147`). -/
def Scheme.fromPayload (G : Scheme SK σ) (c : Payload) (sk : SK) (n : Network) : SignedCommand PubKey σ Payload :=
  ⟨c, compress (G.pub sk),
    G.sign sk fun r => G.H n.domain (signedFields c (G.pub sk).1 (G.pub sk).2 r)⟩

/-- The context `create_legacy(NetworkId::…)`; `add_block` makes the one for mainnet
(`network/src/processor/naive_transition_frontier.rs:111`). -/
def Scheme.crypto (G : Scheme SK σ) (n : Network) : Crypto PubKey (Fp × Fp) σ Payload :=
  ⟨G.uncompress, fun s pk c => verifyPayload G.H G.V G.rx n pk s c⟩

/-- `staged_ledger_diff.rs:62-67, 84-89`: a pre-diff with its works, statuses, coinbase and balances. -/
structure FullPreDiff (W St Cb Ib K S P : Type) where
  completedWorks : List W
  commands : List (SignedCommand K S P × St)
  coinbase : Cb
  internalCommandBalances : List Ib

/-- `external_transition.rs:17-32`: all fields of a block; the types of those that verification does not
look into are arbitrary. -/
structure FullBlock (T Pf Dl Ver W St Cb Ib K S P : Type) where
  protocolState : T
  protocolStateProof : Pf
  diffTwo : FullPreDiff W St Cb Ib K S P
  diffOne : Option (FullPreDiff W St Cb Ib K S P)
  deltaTransitionChainProof : Dl
  currentProtocolVersion : Ver
  proposedProtocolVersion : Option Ver

variable {T Pf Dl Ver W St Cb Ib K S P Pt Proof : Type}

/-- The part of a block that `verify` and `add_block` read (`staged_ledger_diff.rs:36-42, 77-81`,
`naive_transition_frontier.rs:110-122`). -/
def FullBlock.used (b : FullBlock T Pf Dl Ver W St Cb Ib K S P) : ExternalTransition T K S P :=
  ⟨b.protocolState, ⟨b.diffTwo.commands.map Prod.fst, b.diffOne.map fun d => d.commands.map Prod.fst⟩⟩

/-- `add_block` on mainnet, of a whole block (`naive_transition_frontier.rs:110-122`). -/
def FullBlock.add (h : MinaRs.Consensus.Header T) (crypto : Crypto K Pt S P) (s : State T Proof)
    (b : FullBlock T Pf Dl Ver W St Cb Ib K S P) : State T Proof × Except Err Unit :=
  addBlockMainnet h crypto s b.used

end MinaRs.Frontier
