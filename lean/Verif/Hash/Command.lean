import Verif.Hash.Types
import Verif.BinProt.Prim
/-!
# Memos, signed commands and the transfer builder

Model of `base/src/user_commands/`.
-/

namespace MinaRs.Hash

open MinaRs.BinProt (utf8)

/-! ## Memos -/

/-- base/src/user_commands/memo.rs 16: `SignedCommandMemo(pub Vec<u8>)`; its `Default` is the empty
vector. -/
abbrev Memo := Bytes

/-- memo.rs 49-55 -/
inductive MemoErr where
  | stringTooLong
  deriving DecidableEq

/-- memo.rs 31-37: writing the bytes of `s` from index 2 on (`v[i + 2] = b` for each `i`). -/
def writeAt2 (v : Bytes) : Nat → Bytes → Bytes
  | _, [] => v
  | i, b :: s => writeAt2 (v.set (i + 2) b) (i + 1) s

/-- memo.rs 22-39: `try_from_text`, on the bytes of its argument. `set` beyond the end cannot happen:
the text is at most 32 bytes long. -/
def tryFromText (s : Bytes) : Except MemoErr Memo :=
  if s.length > 32 then .error .stringTooLong
  else .ok (writeAt2 (((List.replicate 34 0).set 0 1).set 1 (UInt8.ofNat s.length)) 0 s)

/-- `String::from_utf8_lossy`: exact on UTF-8; `repl` is what it gives for other bytes
(`base/src/user_commands/memo.rs:44`). -/
def lossy (repl : Bytes → String) (bs : Bytes) : String :=
  match String.fromUTF8? ⟨bs.toArray⟩ with
  | some s => s
  | none => repl bs

/-- memo.rs 42-45: the two panics of `to_text`, the index `self.0[1]` and the slice
`self.0[2..2 + len]`. -/
inductive TextPanic where
  | index | slice
  deriving DecidableEq

/-- memo.rs 42-45 -/
def toText (repl : Bytes → String) (m : Memo) : Except TextPanic String :=
  match m[1]? with
  | none => .error .index
  | some l =>
    if 2 + l.toNat ≤ m.length then
      .ok (lossy repl ((m.drop 2).take l.toNat))
    else .error .slice

/-! ## Payloads -/

/-- base/src/user_commands/signed_command/mod.rs 160-174 -/
structure Common where
  fee : UInt64
  feeToken : UInt64
  feePayer : PubKey
  nonce : UInt32
  validUntil : UInt32
  memo : Memo
  deriving DecidableEq

/-- signed_command/mod.rs 177-202, payment.rs 14-23; `StakeDelegation` has the one variant
`SetDelegate`. -/
inductive CmdBody where
  | payment (source receiver : PubKey) (token amount : UInt64)
  | delegation (delegator newDelegate : PubKey)
  deriving DecidableEq

/-- signed_command/mod.rs 67-72 -/
structure Payload where
  common : Common
  body : CmdBody
  deriving DecidableEq

/-- signed_command/mod.rs 84-137: `to_roinput`. -/
def Payload.roinput (c : Payload) : Legacy :=
  match c.body with
  | .payment s r tok amt =>
    Legacy.build ([.field c.common.feePayer.x, .field s.x, .field r.x, .u64 c.common.fee, .u64 c.common.feeToken,
      .bool c.common.feePayer.isOdd, .u32 c.common.nonce, .u32 c.common.validUntil, .bytes c.common.memo] ++
      [false, false, false].map Legacy.bool ++
      [.bool s.isOdd, .bool r.isOdd, .u64 tok, .u64 amt, .bool false])
  | .delegation d n =>
    Legacy.build ([.field c.common.feePayer.x, .field d.x, .field n.x, .u64 c.common.fee, .u64 c.common.feeToken,
      .bool c.common.feePayer.isOdd, .u32 c.common.nonce, .u32 c.common.validUntil, .bytes c.common.memo] ++
      [false, false, true].map Legacy.bool ++
      [.bool d.isOdd, .bool n.isOdd, .u64 1, .u64 0, .bool false])

/-- `mina_signer::NetworkId` (`base/src/user_commands/signed_command/mod.rs:139-144`) -/
inductive Network where
  | mainnet | testnet
  deriving DecidableEq

/-- signed_command/mod.rs 139-147 -/
def Network.domain : Network → String
  | .mainnet => "MinaSignatureMainnet"
  | .testnet => "CodaSignature"

/-- What the external signer hashes for a payload (`mina_signer::schnorr::Message`): the payload's
input followed by the coordinates of the public key and the `rx` of the signature, packed (used at
`base/src/user_commands/signed_command/mod.rs:56-61`). -/
def signedFields (c : Payload) (pkx pky rx : Fp) : List Fp :=
  (Legacy.build [c.roinput, .field pkx, .field pky, .field rx]).toFields

/-- `ctx.verify(signature, signer, payload)` (signed_command/mod.rs 52-61): the equation `V` of the
signature scheme, arbitrary here, on the hash of the packed fields under the domain of the network. -/
def verifyPayload {σ : Type} (H : String → List Fp → Fp) (V : (Fp × Fp) → σ → Fp → Bool) (rx : σ → Fp)
    (n : Network) (pk : Fp × Fp) (sig : σ) (c : Payload) : Bool :=
  V pk sig (H n.domain (signedFields c pk.1 pk.2 (rx sig)))

/-! ## The transfer builder -/

/-- base/src/user_commands/signed_command/builder.rs 15-27 -/
structure Builder where
  to : PubKey
  frm : PubKey
  amount : UInt64
  transferToken : UInt64
  feeToken : UInt64
  fee : UInt64
  nonce : UInt32
  memo : Memo
  feePayer : PubKey
  validUntil : UInt32

/-- builder.rs 29-50 -/
def Builder.new (frm to : PubKey) (amount fee : UInt64) (nonce : UInt32) : Builder :=
  { to, frm, amount, transferToken := 1, feeToken := 1, fee, nonce, feePayer := frm, memo := [],
    validUntil := 0xFFFFFFFF }

/-- The setters, builder.rs 53-89 -/
inductive Setter where
  | transferToken (t : UInt64)
  | feeToken (t : UInt64)
  | feePayer (k : PubKey)
  | memo (m : Memo)
  | validUntil (s : UInt32)

/-- builder.rs 53-89 -/
def Builder.set (b : Builder) : Setter → Builder
  | .transferToken t => { b with transferToken := t }
  | .feeToken t => { b with feeToken := t }
  | .feePayer k => { b with feePayer := k }
  | .memo m => { b with memo := m }
  | .validUntil s => { b with validUntil := s }

/-- builder.rs 92-109 -/
def Builder.build (b : Builder) : Payload :=
  ⟨⟨b.fee, b.feeToken, b.feePayer, b.nonce, b.validUntil, b.memo⟩,
    .payment b.frm b.to b.transferToken b.amount⟩

end MinaRs.Hash
