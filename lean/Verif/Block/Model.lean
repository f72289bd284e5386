import Verif.Json.Block
import Verif.Hash.Types
import Verif.BinProt.IO

/-!
# Blocks as the node holds them

`base/src` has its own block types, without version layers and with curve points instead of bytes.
The conversions to and from the wire types are derived (`AutoFrom`,
`protocol/serialization-types-macros/src/auto_from.rs`) or written by hand
(`protocol/serialization-types/src/signatures.rs`, `base/src/serialization_type_conversions/numbers.rs`,
`crypto/src/serialization_type_conversions.rs`).  A description `BTy` gives both types and both
conversions.

Simplifications: `Box` is transparent, struct fields are kept in the order of the wire type (`AutoFrom`
matches them by name), and fields are named as in the JSON model.
-/

namespace MinaRs.Block

open BinProt (Ty Tys IntKind)
open Json (arr32 u8s versionedTy version1)

/-- The order of the scalar field of Pallas (`mina_signer::ScalarField`, external; used by
`signatures.rs:224-231`). -/
def q : Nat := 0x40000000000000000000000000000000224698fc0994a8dd8c46eb2100000001

/-- `mina_signer::Signature` (external; used by `signatures.rs:220-270`): the x coordinate of a point and a
scalar. -/
structure Sig where
  rx : Hash.Fp
  s : Fin q
  deriving DecidableEq

/-- `mina_signer::CompressedPubKey` (external; used by `signatures.rs:115-152`) -/
abbrev Key := Hash.PubKey

mutual
/-- Descriptions of the node's types together with the wire types they convert to: what the derive macro
`AutoFrom` accepts (`protocol/serialization-types-macros/src/lib.rs:77-123`). -/
inductive BTy where
  | unit
  | bool
  | u8                          -- `Char`
  | int (k : IntKind)           -- number newtypes (`base/src/serialization_type_conversions/numbers.rs:11-22, 34-36, 48`)
  | ext32                       -- `AccountNonce`, `GlobalSlotNumber` as `ExtendedU32` (`numbers.rs:23-32, 37-46`)
  | bytes32                     -- `BaseHash`, `BigInt256`: `[u8; 32]` on both sides
  | bytes                       -- `Vec<u8>` newtypes on both sides
  | key                         -- `CompressedPubKey` and `CompressedCurvePoint` (`signatures.rs:115-147`)
  | sig                         -- `Signature` and the pair inside `SignatureV1` (`signatures.rs:224-281`)
  | option (t : BTy)
  | newtype (t : BTy)
  | seq (t : BTy)
  | tuple (ts : BTys)
  | struct (ts : BTys)
  | versioned (t : BTy)         -- `Versioned<T, 1>` on the wire only
  | enum (vs : BTys)
  | polyvar (vs : BTys)
/-- Named fields or variants (`auto_from.rs:14-60, 103-137, 161-250`). -/
inductive BTys where
  | nil
  | cons (name : String) (t : BTy) (ts : BTys)
end

/-- `CompressedCurvePoint` (`signatures.rs:11-21`) -/
def keyTy : Ty := .struct (.cons "x" arr32 (.cons "is_odd" .bool .nil))
/-- `(FieldElement, InnerCurveScalar)` (`signatures.rs:71-73`) -/
def sigTy : Ty := .tuple (.cons "" arr32 (.cons "" arr32 .nil))

mutual
/-- The wire type (`protocol/serialization-types/src`; the last part of each `#[auto_from(..)]`). -/
def BTy.wire : BTy → Ty
  | .unit => .unit
  | .bool => .bool
  | .u8 => .u8
  | .int k => .int k
  | .ext32 => .int .i32
  | .bytes32 => arr32
  | .bytes => .newtype (.seq .u8)
  | .key => keyTy
  | .sig => sigTy
  | .option t => .option t.wire
  | .newtype t => .newtype t.wire
  | .seq t => .seq t.wire
  | .tuple ts => .tuple ts.wire
  | .struct ts => .struct ts.wire
  | .versioned t => versionedTy t.wire
  | .enum vs => .enum vs.wire
  | .polyvar vs => .polyvar vs.wire
/-- Wire types of fields or variants (`auto_from.rs:71-93`). -/
def BTys.wire : BTys → Tys
  | .nil => .nil
  | .cons n t ts => .cons n t.wire ts.wire
end

mutual
/-- The values the node works with (`base/src`, `crypto/src`; version layers are absent,
`auto_from.rs:290-366`). -/
def BTy.base : BTy → Type
  | .unit => Unit
  | .bool => Bool
  | .u8 => UInt8
  | .int k => {n : Int // k.range.holds n}
  | .ext32 => UInt32
  | .bytes32 => (u8s 32).prod
  | .bytes => List UInt8
  | .key => Key
  | .sig => Sig
  | .option t => Option t.base
  | .newtype t => t.base
  | .seq t => List t.base
  | .tuple ts => ts.prod
  | .struct ts => ts.prod
  | .versioned t => t.base
  | .enum vs => vs.sum
  | .polyvar vs => vs.sum
/-- Values of a struct (`auto_from.rs:84-93`). -/
def BTys.prod : BTys → Type
  | .nil => Unit
  | .cons _ t ts => t.base × ts.prod
/-- Values of an enum (`auto_from.rs:262-271`). -/
def BTys.sum : BTys → Type
  | .nil => Empty
  | .cons _ t ts => t.base ⊕ ts.sum
end

/-! ## Leaves -/

/-- `to_bytes` of a field element (`signatures.rs:133-152, 246-270`): little-endian bytes. -/
def leArr : (n : Nat) → Nat → (u8s n).prod
  | 0, _ => ()
  | n + 1, k => ((UInt8.ofNat (k % 256), leArr n (k / 256)) : UInt8 × (u8s n).prod)

/-- `BaseField::from_bytes(..).expect(..)`, `ScalarField::from_bytes(..).expect(..)`
(`signatures.rs:119-126, 224-231`): the bytes must be below the order of the field. -/
def readField (m : Nat) (v : (u8s 32).prod) : Except BinProt.Err (Fin m) :=
  if h : leNat (Json.arrBytes 32 v) < m then .ok ⟨_, h⟩ else .error (.panic "Wrong number of bytes encountered")

/-- `From<CompressedCurvePoint> for CompressedPubKey` (`signatures.rs:119-132`) -/
def readKey (v : keyTy.denote) : Except BinProt.Err Key :=
  let p : (u8s 32).prod × Bool × Unit := v
  match readField Hash.p p.1 with
  | .ok x => .ok ⟨x, p.2.1⟩
  | .error e => .error e

/-- `From<CompressedPubKey> for CompressedCurvePoint` (`signatures.rs:133-152`) -/
def writeKey (k : Key) : keyTy.denote := ((leArr 32 k.x.val, k.isOdd, ()) : (u8s 32).prod × Bool × Unit)

/-- `internal_signature_to_signature` (`signatures.rs:224-231`) -/
def readSig (v : sigTy.denote) : Except BinProt.Err Sig :=
  let p : (u8s 32).prod × (u8s 32).prod × Unit := v
  match readField Hash.p p.1 with
  | .error e => .error e
  | .ok rx =>
    match readField q p.2.1 with
    | .error e => .error e
    | .ok s => .ok ⟨rx, s⟩

/-- `From<Signature> for SignatureV1` (`signatures.rs:246-270`) -/
def writeSig (k : Sig) : sigTy.denote :=
  ((leArr 32 k.rx.val, leArr 32 k.s.val, ()) : (u8s 32).prod × (u8s 32).prod × Unit)

/-- `t as u32` (`numbers.rs:28-32, 42-46`) -/
def readExt (v : (Ty.int .i32).denote) : UInt32 :=
  UInt32.ofNat (wrapU 32 (show {n : Int // IntKind.i32.range.holds n} from v).val)

/-- `t as i32` (`numbers.rs:23-27, 37-41`) -/
def writeExt (n : UInt32) : (Ty.int .i32).denote :=
  (⟨toSigned 32 n.toNat, by
    have := n.toNat_lt
    show (-2147483648 : Int) ≤ toSigned 32 n.toNat ∧ toSigned 32 n.toNat ≤ 2147483647
    unfold toSigned
    split <;> omega⟩ : {n : Int // IntKind.i32.range.holds n})

/-- Convert one after the other (`into_iter().map(Into::into).collect()`, `auto_from.rs:77, 88`). -/
def each {α β : Type} (f : α → Except BinProt.Err β) : List α → Except BinProt.Err (List β)
  | [] => .ok []
  | a :: as =>
    match f a with
    | .error e => .error e
    | .ok b =>
      match each f as with
      | .error e => .error e
      | .ok bs => .ok (b :: bs)

/-! ## Conversions -/

mutual
/-- From the wire type to the node's type (`impl From<#target_type> for #ident`,
`auto_from.rs:82-93, 149-158, 262-271`; versions are dropped, `auto_from.rs:290-366` with
`protocol/versioned/src/lib.rs`). -/
def fromWire : (t : BTy) → t.wire.denote → Except BinProt.Err t.base
  | .unit, _ => .ok ()
  | .bool, v => .ok v
  | .u8, v => .ok v
  | .int _, v => .ok v
  | .ext32, v => .ok (readExt v)
  | .bytes32, v => .ok v
  | .bytes, v => .ok v
  | .key, v => readKey v
  | .sig, v => readSig v
  | .option t, v =>
    match (show Option t.wire.denote from v) with
    | none => .ok (none : Option t.base)
    | some w =>
      match fromWire t w with
      | .ok b => .ok (some b : Option t.base)
      | .error e => .error e
  | .newtype t, v => fromWire t v
  | .seq t, v => each (fromWire t) (show List t.wire.denote from v)
  | .tuple ts, v => fromWireAll ts v
  | .struct ts, v => fromWireAll ts v
  | .versioned t, v => fromWire t (show {n : Int // BinProt.u16.holds n} × t.wire.denote × Unit from v).2.1
  | .enum vs, v => fromWireVar vs v
  | .polyvar vs, v => fromWireVar vs v
/-- Field by field (`auto_from.rs:84-93`). -/
def fromWireAll : (ts : BTys) → ts.wire.prod → Except BinProt.Err ts.prod
  | .nil, _ => .ok ()
  | .cons _ t ts, v =>
    let p : t.wire.denote × ts.wire.prod := v
    match fromWire t p.1 with
    | .error e => .error e
    | .ok a =>
      match fromWireAll ts p.2 with
      | .error e => .error e
      | .ok b => .ok ((a, b) : t.base × ts.prod)
/-- Variant by variant (`auto_from.rs:262-271`). -/
def fromWireVar : (vs : BTys) → vs.wire.sum → Except BinProt.Err vs.sum
  | .nil, v => nomatch (show Empty from v)
  | .cons _ t ts, v =>
    match (show t.wire.denote ⊕ ts.wire.sum from v) with
    | .inl w =>
      match fromWire t w with
      | .ok a => .ok (.inl a : t.base ⊕ ts.sum)
      | .error e => .error e
    | .inr w =>
      match fromWireVar ts w with
      | .ok b => .ok (.inr b : t.base ⊕ ts.sum)
      | .error e => .error e
end

mutual
/-- From the node's type to the wire type (`impl From<#ident> for #target_type`,
`auto_from.rs:71-80, 139-147, 252-260`; versions are set to 1, `protocol/versioned/src/lib.rs:40-43`). -/
def toWire : (t : BTy) → t.base → t.wire.denote
  | .unit, _ => ()
  | .bool, v => v
  | .u8, v => v
  | .int _, v => v
  | .ext32, v => writeExt v
  | .bytes32, v => v
  | .bytes, v => v
  | .key, v => writeKey v
  | .sig, v => writeSig v
  | .option t, v => ((show Option t.base from v).map (toWire t) : Option t.wire.denote)
  | .newtype t, v => toWire t v
  | .seq t, v => ((show List t.base from v).map (toWire t) : List t.wire.denote)
  | .tuple ts, v => toWireAll ts v
  | .struct ts, v => toWireAll ts v
  | .versioned t, v => version1 (toWire t v)
  | .enum vs, v => toWireVar vs v
  | .polyvar vs, v => toWireVar vs v
/-- Field by field (`auto_from.rs:73-82`). -/
def toWireAll : (ts : BTys) → ts.prod → ts.wire.prod
  | .nil, _ => ()
  | .cons _ t ts, v => ((toWire t (show t.base × ts.prod from v).1, toWireAll ts (show t.base × ts.prod from v).2) :
      t.wire.denote × ts.wire.prod)
/-- Variant by variant (`auto_from.rs:252-260`). -/
def toWireVar : (vs : BTys) → vs.sum → vs.wire.sum
  | .nil, v => nomatch (show Empty from v)
  | .cons _ t ts, v =>
    match (show t.base ⊕ ts.sum from v) with
    | .inl w => (.inl (toWire t w) : t.wire.denote ⊕ ts.wire.sum)
    | .inr w => (.inr (toWireVar ts w) : t.wire.denote ⊕ ts.wire.sum)
end

/-- `try_from_binprot` (`protocol/serialization-types/src/type_annotations.rs:16-19`): read strictly, then
convert.  A panic of the conversion is an error value. -/
def tryFromBinprot (t : BTy) (src : BinProt.Source) : Except BinProt.Err t.base :=
  match BinProt.fromReaderStrict t.wire src with
  | .error e => .error e
  | .ok v => fromWire t v

/-- `try_into_binprot` (`type_annotations.rs:21-27`); writing into a `Vec` never fails. -/
def tryIntoBinprot (t : BTy) (b : t.base) : Bytes := BinProt.toBytes t.wire (toWire t b)

/-! ## The block -/

/-- Named fields (as in `base/src/external_transition.rs:13-32`). -/
def fields (xs : List (String × BTy)) : BTys := xs.foldr (fun x ts => .cons x.1 x.2 ts) .nil
/-- Unnamed fields (as in `base/src/snark_work.rs:83-85`). -/
def items (xs : List BTy) : BTys := xs.foldr (fun x ts => .cons "" x ts) .nil
/-- Variants without data (as in `base/src/staged_ledger_diff.rs:129-147`). -/
def plain (xs : List String) : BTys := xs.foldr (fun x ts => .cons x (.tuple .nil) ts) .nil

/-- One version layer (`protocol/versioned/src/lib.rs:20-26`). -/
def v1 (t : BTy) : BTy := .versioned t
/-- Two version layers (`protocol/versioned/src/lib.rs:71-77`). -/
def v2 (t : BTy) : BTy := .versioned (.versioned t)
/-- Three version layers (`protocol/versioned/src/lib.rs:79-120`). -/
def v3 (t : BTy) : BTy := .versioned (v2 t)

/-- `Length`, `GlobalSlotNumber`, `Delta` (`base/src/numbers.rs:39-41, 63-64, 178-180`) -/
def u32 : BTy := v2 (.int .u32)
/-- `Amount`, `BlockTime` (`base/src/numbers.rs:88-98, 226-228`) -/
def u64 : BTy := v2 (.int .u64)
/-- `TokenId`, and `Amount` as `ExtendedU64_3` (`common.rs:171-175`, `base/src/numbers.rs:17-19, 88-98`) -/
def u64x3 : BTy := v3 (.int .u64)
/-- `BaseHash` and its wrappers (`crypto/src/hash/types.rs:112, 157-454`) -/
def hash : BTy := v1 .bytes32
/-- `PublicKeyV1` (`signatures.rs:63-69`) -/
def publicKey : BTy := .newtype (v2 .key)
/-- `FiniteECPoint` (`base/src/protocol_state_proof/field_and_curve_elements.rs:59-63`) -/
def point : BTy := .tuple (items [.bytes32, .bytes32])
/-- `ECPoint` (`base/src/protocol_state_proof/field_and_curve_elements.rs:141-150`) -/
def ecPoint : BTy := v1 (.enum (.cons "Infinite" (.tuple .nil) (.cons "Finite" (.newtype point) .nil)))

/-- `Hex64` (`base/src/numbers.rs:203-206`) -/
def hex64 : BTy := v1 (.int .i64)
/-- `ScalarChallengeVector2` (`base/src/protocol_state_proof/bulletproof_challenges.rs:143-145`) -/
def scalarChallenge : BTy := v1 (.tuple (items [hex64, hex64, .unit]))
/-- `BulletproofPreChallenge` (`base/src/protocol_state_proof/bulletproof_challenges.rs:131-135`) -/
def preChallenge : BTy := v1 (.enum (.cons "Scalar_challenge" (.newtype scalarChallenge) .nil))
/-- `BulletproofChallenge` (`base/src/protocol_state_proof/bulletproof_challenges.rs:7-11`) -/
def challenge : BTy := v1 (.struct (fields [("prechallenge", preChallenge)]))
/-- `BulletproofChallengeTuple17` (`base/src/protocol_state_proof/bulletproof_challenges.rs:33-54`) -/
def tuple17 : BTy := v3 (.tuple (items (List.replicate 17 challenge ++ [.unit])))
/-- `BulletproofChallengeTuple18` (`base/src/protocol_state_proof/bulletproof_challenges.rs:81-103`) -/
def tuple18 : BTy := v2 (.tuple (items (List.replicate 18 challenge ++ [.unit])))
/-- `Plonk` (`base/src/protocol_state_proof/mod.rs:84-91`) -/
def plonk : BTy := v1 (.struct (fields
  [("alpha", preChallenge), ("beta", scalarChallenge), ("gamma", scalarChallenge), ("zeta", preChallenge)]))
/-- `ShiftedValue` (`base/src/protocol_state_proof/mod.rs:93-97`) -/
def shiftedValue : BTy := v1 (.enum (.cons "Shifted_value" (.newtype .bytes32) .nil))
/-- `ProofStateDeferredValues` (`base/src/protocol_state_proof/mod.rs:73-82`) -/
def deferredValues : BTy := v1 (.struct (fields
  [("plonk", plonk), ("combined_inner_product", shiftedValue), ("b", shiftedValue), ("xi", preChallenge),
    ("bulletproof_challenges", tuple18), ("which_branch", v1 .u8)]))
/-- `SpongeDigestBeforeEvaluations` (`base/src/protocol_state_proof/mod.rs:105-107`) -/
def spongeDigest : BTy := v2 (.tuple (items [hex64, hex64, hex64, hex64, .unit]))
/-- `ProofStatePairingBased` (`base/src/protocol_state_proof/mod.rs:109-114`) -/
def meOnly : BTy := v1 (.struct (fields
  [("sg", point), ("old_bulletproof_challenges", v1 (.tuple (items [tuple17, tuple17, .unit])))]))
/-- `ProofState` (`base/src/protocol_state_proof/mod.rs:65-71`) -/
def proofState : BTy := v1 (.struct (fields
  [("deferred_values", deferredValues), ("sponge_digest_before_evaluations", spongeDigest), ("me_only", meOnly)]))
/-- `PairingBased` (`base/src/protocol_state_proof/mod.rs:116-122`) -/
def passThrough : BTy := v1 (.struct (fields
  [("app_state", .unit), ("sg", v1 (.newtype (.seq point))),
    ("old_bulletproof_challenges", v1 (.newtype (.seq tuple18)))]))
/-- `FieldElementVec` (`base/src/protocol_state_proof/field_and_curve_elements.rs:17-20`) -/
def fieldVec : BTy := v1 (.newtype (.seq .bytes32))
/-- `ProofEvaluations` (`base/src/protocol_state_proof/proof_evaluations.rs:8-19`) -/
def evaluations : BTy := v1 (.struct (fields
  [("l", fieldVec), ("r", fieldVec), ("o", fieldVec), ("z", fieldVec), ("t", fieldVec), ("f", fieldVec),
    ("sigma1", fieldVec), ("sigma2", fieldVec)]))
/-- `ProofMessageWithoutDegreeBoundList` (`base/src/protocol_state_proof/proof_messages.rs:18-20`) -/
def pointList : BTy := v2 (.newtype (.seq point))
/-- `ProofMessages` (`base/src/protocol_state_proof/proof_messages.rs:8-16`) -/
def messages : BTy := v1 (.struct (fields
  [("l_comm", pointList), ("r_comm", pointList), ("o_comm", pointList), ("z_comm", pointList),
    ("t_comm", v1 (.struct (fields [("unshifted", v1 (.newtype (.seq ecPoint))), ("shifted", ecPoint)])))]))
/-- `OpeningProof` (`base/src/protocol_state_proof/opening_proof.rs:8-16`) -/
def openingProof : BTy := v1 (.struct (fields
  [("lr", v1 (.newtype (.seq (.tuple (items [point, point]))))), ("z_1", .bytes32), ("z_2", .bytes32),
    ("delta", point), ("sg", point)]))
/-- `Proof`, `ProofOpenings`, `ProofOpeningsEvals`
(`base/src/protocol_state_proof/mod.rs:132-137, 139-141, 143-148`) -/
def innerProof : BTy := v2 (.struct (fields
  [("messages", messages),
    ("openings", v1 (.struct (fields
      [("proof", openingProof), ("evals", .tuple (items [evaluations, evaluations]))])))]))
/-- `ProtocolStateProof` (`base/src/protocol_state_proof/mod.rs:37-45`) -/
def proof : BTy := v2 (v2 (.struct (fields
  [("statement", v2 (.struct (fields [("proof_state", proofState), ("pass_through", passThrough)]))),
    ("prev_evals", v1 (.tuple (items [evaluations, evaluations]))),
    ("prev_x_hat", v1 (.newtype point)),
    ("proof", innerProof)])))

/-- `BlockchainStateLegacy` (`base/src/blockchain_state.rs`), `StagedLedgerHash`
(`crypto/src/serialization_type_conversions.rs`) -/
def blockchainState : BTy := v2 (.struct (fields
  [("staged_ledger_hash", v2 (.struct (fields
      [("non_snark", v1 (.struct (fields
          [("ledger_hash", hash), ("aux_hash", v1 .bytes), ("pending_coinbase_aux", v1 .bytes)]))),
        ("pending_coinbase_hash", v1 hash)]))),
    ("snarked_ledger_hash", hash),
    ("genesis_ledger_hash", hash),
    ("snarked_next_available_token", u64x3),
    ("timestamp", u64)]))
/-- `EpochData` (`base/src/epoch_data.rs:62-76`) -/
def epochData : BTy := v2 (.struct (fields
  [("ledger", v2 (.struct (fields [("hash", hash), ("total_currency", u64)]))),
    ("seed", hash), ("start_checkpoint", hash), ("lock_checkpoint", hash), ("epoch_length", u32)]))
/-- `ConsensusState`, `GlobalSlot` (`base/src/consensus_state.rs:123-168`, `base/src/global_slot.rs:13-21`) -/
def consensusState : BTy := v2 (.struct (fields
  [("blockchain_length", u32), ("epoch_count", u32), ("min_window_density", u32), ("sub_window_densities", .seq u32),
    ("last_vrf_output", v1 .bytes), ("total_currency", u64),
    ("curr_global_slot", v2 (.struct (fields [("slot_number", u32), ("slots_per_epoch", u32)]))),
    ("global_slot_since_genesis", u32), ("staking_epoch_data", epochData), ("next_epoch_data", epochData),
    ("has_ancestor_in_same_checkpoint_window", .bool), ("block_stake_winner", publicKey),
    ("block_creator", publicKey), ("coinbase_receiver", publicKey), ("supercharge_coinbase", .bool)]))
/-- `ProtocolConstants` (`base/src/protocol_state.rs:23-37`) -/
def constants : BTy := v2 (.struct (fields
  [("k", u32), ("slots_per_epoch", u32), ("slots_per_sub_window", u32), ("delta", u32),
    ("genesis_state_timestamp", u64)]))
/-- `ProtocolStateBodyLegacy` (`base/src/protocol_state.rs:132-144`) -/
def protocolStateBody : BTy := v2 (.struct (fields
  [("genesis_state_hash", hash), ("blockchain_state", blockchainState), ("consensus_state", consensusState),
    ("constants", constants)]))
/-- `ProtocolStateLegacy` (`base/src/protocol_state.rs:85-93`) -/
def protocolState : BTy := v2 (.struct (fields
  [("previous_state_hash", hash), ("body", protocolStateBody)]))

/-- `SignedCommandPayloadCommon` (`base/src/user_commands/signed_command/mod.rs:149-165`) -/
def common : BTy := v3 (.struct (fields
  [("fee", u64), ("fee_token", u64x3), ("fee_payer_pk", publicKey), ("nonce", v2 .ext32),
    ("valid_until", v2 .ext32), ("memo", v1 .bytes)]))
/-- `PaymentPayload` (`base/src/user_commands/payment.rs:11-23`) -/
def payment : BTy := v2 (.struct (fields
  [("source_pk", publicKey), ("receiver_pk", publicKey), ("token_id", u64x3), ("amount", u64)]))
/-- `StakeDelegation` (`base/src/user_commands/signed_command/mod.rs:178-189`) -/
def stakeDelegation : BTy := v1 (.enum
  (.cons "Set_delegate" (.struct (fields [("delegator", publicKey), ("new_delegate", publicKey)])) .nil))
/-- `SignedCommandPayloadBody` (`base/src/user_commands/signed_command/mod.rs:167-176`) -/
def body : BTy := v2 (.enum (.cons "Payment" (.newtype payment) (.cons "Stake_delegation" (.newtype stakeDelegation) .nil)))
/-- `SignedCommand` (`base/src/user_commands/signed_command/mod.rs:21-31`) -/
def signedCommand : BTy := v2 (.struct (fields
  [("payload", v2 (.struct (fields [("common", common), ("body", body)]))),
    ("signer", .newtype (v1 publicKey)),
    ("signature", .newtype (v1 (v1 .sig)))]))
/-- `TransactionStatusAuxiliaryData` (`base/src/staged_ledger_diff.rs:113-119`) -/
def auxiliaryData : BTy := v1 (.struct (fields
  [("fee_payer_account_creation_fee_paid", .option u64), ("receiver_account_creation_fee_paid", .option u64),
    ("created_token", .option u64x3)]))
/-- `TransactionStatusBalanceData` (`base/src/staged_ledger_diff.rs:121-127`) -/
def balanceData : BTy := v1 (.struct (fields
  [("fee_payer_balance", .option u64x3), ("source_balance", .option u64x3), ("receiver_balance", .option u64x3)]))
/-- `TransactionStatusFailedType` (`base/src/staged_ledger_diff.rs:129-147`) -/
def failure : BTy := v1 (.enum (plain
  ["Predicate", "Source_not_present", "Receiver_not_present", "Amount_insufficient_to_create_account",
    "Cannot_pay_creation_fee_in_token", "Source_insufficient_balance", "Source_minimum_balance_violation",
    "Receiver_already_exists", "Not_token_owner", "Mismatched_token_permissions", "Overflow",
    "Signed_command_on_snapp_account", "Snapp_account_not_present", "Update_not_permitted", "Incorrect_nonce"]))
/-- `TransactionStatus` (`base/src/staged_ledger_diff.rs:97-105`) -/
def status : BTy := v1 (.enum
  (.cons "Applied" (.tuple (items [auxiliaryData, balanceData]))
    (.cons "Failed" (.tuple (items [.seq failure, balanceData])) .nil)))
/-- `UserCommandWithStatus`, `UserCommand`
(`base/src/staged_ledger_diff.rs:84-89`, `base/src/user_commands/mod.rs:24-32`) -/
def userCommand : BTy := v1 (.struct (fields
  [("data", v2 (.enum (.cons "Signed_command" (.newtype signedCommand) .nil))), ("status", status)]))
/-- `CoinBaseFeeTransfer` (`base/src/staged_ledger_diff.rs:170-175`) -/
def feeTransfer : BTy := v2 (.struct (fields [("receiver_pk", publicKey), ("fee", u64)]))
/-- `CoinBase` (`base/src/staged_ledger_diff.rs:155-162`) -/
def coinbase : BTy := v1 (.enum
  (.cons "Zero" (.tuple .nil) (.cons "One" (.newtype (.option feeTransfer))
    (.cons "Two" (.tuple (items [.option feeTransfer, .option feeTransfer])) .nil))))
/-- `InternalCommandBalanceData` (`base/src/staged_ledger_diff.rs:177-182`) -/
def internalBalance : BTy := v1 (.enum
  (.cons "Coinbase" (.newtype (v1 (.struct (fields
      [("coinbase_receiver_balance", u64x3), ("fee_transfer_receiver_balance", .option u64x3)]))))
    (.cons "Fee_transfer" (.newtype (v1 (.struct (fields
      [("receiver1_balance", u64x3), ("receiver2_balance", .option u64x3)])))) .nil)))

/-- `PendingCoinbase`, `StateStack` (`base/src/snark_work.rs:69-74, 76-81`) -/
def coinbaseStack : BTy := v2 (.struct (fields
  [("data", hash), ("state", v2 (.struct (fields [("init", hash), ("curr", hash)])))]))
/-- `FeeExcess`, `Signed`, `SgnType` (`base/src/snark_work.rs:87-92, 94-99, 101-106`) -/
def feeExcess : BTy := .struct (fields
  [("token", u64x3),
    ("amount", v1 (.struct (fields [("magnitude", u64), ("sgn", v1 (.enum (plain ["Pos", "Neg"])))])))])
/-- `Statement` (`base/src/snark_work.rs:43-54`) -/
def statement : BTy := v2 (.struct (fields
  [("source", hash), ("target", hash), ("supply_increase", u64),
    ("pending_coinbase_stack_state", v2 (.struct (fields [("source", coinbaseStack), ("target", coinbaseStack)]))),
    ("fee_excess", v2 (.tuple (items [feeExcess, feeExcess]))),
    ("next_available_token_before", u64x3), ("next_available_token_after", u64x3),
    ("sok_digest", v1 .bytes)]))
/-- `TransactionSnark` (`base/src/snark_work.rs:36-41`) -/
def ledgerProof : BTy := v2 (.struct (fields [("statement", statement), ("proof", proof)]))
/-- `TransactionSnarkWork`, `OneORTwo` (`base/src/snark_work.rs:14-20, 28-34`) -/
def snarkWork : BTy := v1 (.struct (fields
  [("fee", u64),
    ("proofs", v1 (.polyvar (.cons "One" (.newtype ledgerProof)
      (.cons "Two" (.tuple (items [ledgerProof, ledgerProof])) .nil)))),
    ("prover", publicKey)]))

/-- `StagedLedgerPreDiff` (`base/src/staged_ledger_diff.rs:62-69`) -/
def preDiff : BTy := v2 (.struct (fields
  [("completed_works", .seq snarkWork), ("commands", .seq userCommand), ("coinbase", coinbase),
    ("internal_command_balances", .seq internalBalance)]))
/-- `StagedLedgerDiff`, `StagedLedgerDiffTuple` (`base/src/staged_ledger_diff.rs:21-26, 45-50`) -/
def stagedLedgerDiff : BTy := v1 (.struct (fields
  [("diff", v1 (.tuple (items [preDiff, .option preDiff])))]))
/-- `DeltaTransitionChainProof` (`base/src/delta_transition_chain_proof.rs:11-14`) -/
def deltaProof : BTy := .tuple (items [hash, .seq hash])
/-- `ProtocolVersion` (`base/src/protocol_version.rs:8-18`) -/
def protocolVersion : BTy := v1 (.struct (fields
  [("major", .int .u32), ("minor", .int .u32), ("patch", .int .u32)]))

/-- `ExternalTransition` (`base/src/external_transition.rs:14-36`) -/
def block : BTy := v1 (.struct (fields
  [("protocol_state", protocolState), ("protocol_state_proof", proof),
    ("staged_ledger_diff", stagedLedgerDiff), ("delta_transition_chain_proof", deltaProof),
    ("current_protocol_version", protocolVersion),
    ("proposed_protocol_version_opt", .option protocolVersion), ("validation_callback", .unit)]))

/-- A block as the node holds it (`base/src/external_transition.rs:13-32`). -/
abbrev Blk := block.base

end MinaRs.Block
