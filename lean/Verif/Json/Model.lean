import Verif.Json.Text
import Verif.Base.Amount
import Verif.BinProt.IO
import Verif.Hash.RO

/-!
# Model of the JSON forms of the wire types

`protocol/serialization-types/src`: the `...Json` types, their derived and hand-written serde
implementations, the list-tagged enums of `macros.rs:61-129`, and the `AutoFrom` conversions between
wire types and JSON types (`protocol/serialization-types-macros/src/auto_from.rs`).

A JSON type is described by `JTy`.  `JTy.wire` is the wire type it is converted from and to, described
in the universe of `Verif/BinProt/Serde.lean`.  `ser` is `serde_json::to_value(JsonType::from(v))` and
`de` is `WireType::from(serde_json::from_value::<JsonType>(j)?)`, both on values of the wire type:
`AutoFrom` converts field by field and keeps every part except version numbers and skipped fields, so
the two steps are composed into one.

Simplifications.  Documents are values (`J`); their text form is in `Json/DocText.lean`.  Object entries
are looked up by field; serde reads them in the order of the document, so when a document has several
faults another one may be reported first.  Objects keep repeated keys, which a struct refuses, except inside
list-tagged enums, which go through `serde_json::Value` (`asValue`).  Errors carry no message.
-/

namespace MinaRs.Json

open BinProt (Ty Tys)
open Codec
open Text (Text)

/-- `serde_json::Value` (external; used by `type_annotations.rs:38-48`, `macros.rs:63-127`).  `float` stands for the numbers that are not integers. -/
inductive J where
  | null
  | bool (b : Bool)
  | num (n : Int)
  | float (bits : UInt64)
  | str (s : String)
  | arr (items : List J)
  | obj (entries : List (String × J))

/-- `Map::insert` of `serde_json::Value`, a `BTreeMap` (external; used at `macros.rs:69-70, 103`): the members are kept in the order
of their names, and a name that is there already gets the new value. -/
def insertMember (k : String) (j : J) : List (String × J) → List (String × J)
  | [] => [(k, j)]
  | (k', j') :: es =>
    if k = k' then (k, j) :: es
    else if k < k' then (k, j) :: (k', j') :: es
    else (k', j') :: insertMember k j es

mutual
/-- The document as `serde_json::Value` keeps it (`serde_json::to_value`, `Value::deserialize`, external; used at
`macros.rs:69-70, 103`). -/
def asValue : J → J
  | .arr js => .arr (asValueItems js)
  | .obj es => .obj (asValueMembers [] es)
  | .null => .null
  | .bool b => .bool b
  | .num n => .num n
  | .float bits => .float bits
  | .str s => .str s
/-- The items of a list (external; used at `macros.rs:69-70, 103`). -/
def asValueItems : List J → List J
  | [] => []
  | j :: js => asValue j :: asValueItems js
/-- The members of an object, one after the other (external; used at `macros.rs:69-70, 103`). -/
def asValueMembers : List (String × J) → List (String × J) → List (String × J)
  | done, [] => done
  | done, (k, j) :: es => asValueMembers (insertMember k (asValue j) done) es
end

/-- How (de)serialization can go wrong: a serde error, a panic, or undefined behaviour
(`from_utf8_unchecked` on bytes that are not UTF-8) (`protocol/serialization-types/src/common.rs:194, 228`). -/
inductive JErr where
  | err
  | panic
  | ub
  deriving DecidableEq, Repr

/-- What the build and the environment provide: the base58 checksum (first four bytes of the double
SHA-256) and whether arithmetic overflow is checked (`protocol/serialization-types/src/common.rs:258, 280`). -/
structure Env where
  chk : Bytes → Bytes
  chk_length : ∀ bs, (chk bs).length = 4
  checks : Bool

/-! ## Types -/

/-- `n` bytes in a row, `[u8; n]` (`protocol/serialization-types/src/field_and_curve_elements.rs:128-130`). -/
def u8s : Nat → Tys
  | 0 => .nil
  | n + 1 => .cons "" .u8 (u8s n)

/-- `[u8; 32]` (`common.rs:15, 210`) -/
def arr32 : Ty := .tuple (u8s 32)

/-- `Versioned<T, V>` (`protocol/versioned/src/lib.rs:20-26`). -/
def versionedTy (t : Ty) : Ty := .struct (.cons "version" (.int .u16) (.cons "t" t .nil))

/-- `HashV1` (`common.rs:14-15`) -/
def hashV1 : Ty := versionedTy arr32

/-- Types with a hand-written JSON form: one string or one number (file and lines beside each). -/
inductive Leaf where
  | u32                                   -- `U32Json` of a `u32` (`common.rs:31-56`)
  | extU32                                -- `U32Json` of `ExtendedU32`'s `i32` (`common.rs:151-166`)
  | u64                                   -- `U64Json` (`common.rs:58-84`)
  | decimal                               -- `DecimalJson` (`common.rs:93-134`)
  | i64                                   -- `I64` (`common.rs:86-91`), derived
  | char                                  -- `CharJson` (`common.rs:181-207`)
  | byteVec                               -- `ByteVecJson` (`common.rs:212-242`)
  | field                                 -- `FieldElementJson` (`field_and_curve_elements.rs:128-174`)
  | base58Bin (ver : UInt8) (t : Ty)      -- `Base58EncodableVersionedType` (`common.rs:319-394`), `SignatureJson` (`signatures.rs:75-108`)
  | base58Bytes (ver : UInt8)             -- `Base58EncodableType` (`common.rs:247-317`)
  | memo                                  -- `SignedCommandMemoJson` (`staged_ledger_diff.rs:244-273`)
  | base64Bytes                           -- `VrfOutputTruncatedBase64Json` (`consensus_state.rs:25-51`)
  | vrfBase58                             -- `VrfOutputTruncatedBase58Json` (`consensus_state.rs:53-85`)
  | base64Bin (t : Ty)                    -- `ProtocolStateProofBase64Json` (`protocol_state_proof.rs:37-66`)
  | publicKey                             -- `PublicKeyJson` (`signatures.rs:24-61`)

/-- The wire type of a leaf (`common.rs:14-28, 136-183, 209-221`; versions outside it are `JTy.versioned`). -/
def Leaf.wire : Leaf → Ty
  | .u32 => .int .u32
  | .extU32 => .int .i32
  | .u64 => .int .u64
  | .decimal => .int .u64
  | .i64 => .int .i64
  | .char => .u8
  | .byteVec => .newtype (.seq .u8)
  | .field => arr32
  | .base58Bin _ t => t
  | .base58Bytes _ => .newtype (.seq .u8)
  | .memo => .newtype (.seq .u8)
  | .base64Bytes => .newtype (.seq .u8)
  | .vrfBase58 => .newtype (.seq .u8)
  | .base64Bin t => t
  | .publicKey => .struct (.cons "x" arr32 (.cons "is_odd" .bool .nil))

/-- Fields left out of the JSON form (`#[serde(skip)]`): `()`, `ProtocolVersion` and
`Option<ProtocolVersion>` (`external_transition.rs:58-69`, `bulletproof_challenges.rs`). -/
inductive Skip where
  | unit
  | protocolVersion
  | optProtocolVersion
  deriving DecidableEq

/-- `ProtocolVersion` (`protocol_version.rs:11-25`) -/
def protoVersionTy : Ty :=
  .struct (.cons "major" (.int .u32) (.cons "minor" (.int .u32) (.cons "patch" (.int .u32) .nil)))

/-- Their wire types (`external_transition.rs:30-43`). -/
def Skip.wire : Skip → Ty
  | .unit => .unit
  | .protocolVersion => versionedTy protoVersionTy
  | .optProtocolVersion => .option (versionedTy protoVersionTy)

mutual
/-- Descriptions of JSON types together with the wire types they stand for: serde's derive, and
`impl_mina_enum_json_serde_with_option!` (`macros.rs:60-129`). -/
inductive JTy where
  | leaf (c : Leaf)
  | unit
  | bool
  | option (t : JTy)
  | newtype (t : JTy)
  | seq (t : JTy)
  | tuple (ts : JTys)                     -- tuples and tuple structs of two or more fields
  | struct (ts : JTys)
  | versioned (t : JTy)                   -- a version layer on the wire, absent in JSON
  | listEnum (poly expand : Bool) (vs : JVars)  -- `impl_mina_enum_json_serde_with_option!`; `poly`: polymorphic variant on the wire
  | tagEnum (vs : JVars)                  -- derived, externally tagged
/-- Fields; `skip` fields exist on the wire only (serde's derive on the types of `protocol/serialization-types/src`,
e.g. `common.rs:86-91`). -/
inductive JTys where
  | nil
  | cons (name : String) (t : JTy) (ts : JTys)
  | skip (name : String) (s : Skip) (ts : JTys)
/-- Variants (serde's derive on the types of `protocol/serialization-types/src`, e.g. `staged_ledger_diff.rs`). -/
inductive JVars where
  | nil
  | cons (name : String) (p : JPay) (vs : JVars)
/-- What a variant carries (serde's derive on the types of `protocol/serialization-types/src`, e.g.
`staged_ledger_diff.rs`). -/
inductive JPay where
  | unit
  | newtype (t : JTy)
  | tuple (ts : JTys)
  | struct (ts : JTys)
end

mutual
/-- The wire type (`protocol/serialization-types/src/macros.rs`). -/
def JTy.wire : JTy → Ty
  | .leaf c => c.wire
  | .unit => .unit
  | .bool => .bool
  | .option t => .option t.wire
  | .newtype t => .newtype t.wire
  | .seq t => .seq t.wire
  | .tuple ts => .tuple ts.wire
  | .struct ts => .struct ts.wire
  | .versioned t => versionedTy t.wire
  | .listEnum poly _ vs => if poly then .polyvar vs.wire else .enum vs.wire
  | .tagEnum vs => .enum vs.wire
def JTys.wire : JTys → Tys
  | .nil => .nil
  | .cons n t ts => .cons n t.wire ts.wire
  | .skip n s ts => .cons n s.wire ts.wire
def JVars.wire : JVars → Tys
  | .nil => .nil
  | .cons n p vs => .cons n p.wire vs.wire
def JPay.wire : JPay → Ty
  | .unit => .tuple .nil
  | .newtype t => .newtype t.wire
  | .tuple ts => .tuple ts.wire
  | .struct ts => .struct ts.wire
end

/-- A value of the JSON type, as the wire value it stands for (`protocol/serialization-types/src/macros.rs`). -/
abbrev JTy.denote (t : JTy) : Type := t.wire.denote

/-- The values of a list-tagged enum do not depend on its wire encoding. -/
theorem denote_listEnum (poly expand : Bool) (vs : JVars) :
    (JTy.listEnum poly expand vs).wire.denote = vs.wire.sum := by
  cases poly <;> rfl

/-- A version-1 wrapper around a value (`Versioned::new`, `protocol/versioned/src/lib.rs:40-43`). -/
def version1 {t : Ty} (v : t.denote) : (versionedTy t).denote :=
  ((⟨1, by decide⟩ : {n : Int // BinProt.u16.holds n}), v, ())

/-- `Default` of a skipped field: `()`, `ProtocolVersion { 2, 0, 0 }` (`protocol_version.rs:11-22`) and
`None`. -/
def Skip.default : (s : Skip) → s.wire.denote
  | .unit => ()
  | .protocolVersion =>
    version1 (t := protoVersionTy)
      ((⟨2, by decide⟩ : {n : Int // BinProt.u32.holds n}), (⟨0, by decide⟩ : {n : Int // BinProt.u32.holds n}),
        (⟨0, by decide⟩ : {n : Int // BinProt.u32.holds n}), ())
  | .optProtocolVersion => (none : Option (versionedTy protoVersionTy).denote)

/-! ## Leaves -/

/-- The bytes of `[u8; n]` (`protocol/serialization-types/src/common.rs:280`). -/
def arrBytes : (n : Nat) → (u8s n).prod → Bytes
  | 0, _ => []
  | n + 1, v =>
    let p : UInt8 × (u8s n).prod := v
    p.1 :: arrBytes n p.2

/-- `copy_from_slice` into `[u8; n]`: nothing unless there are exactly `n` bytes (it panics)
(`protocol/serialization-types/src/common.rs:329-345`). -/
def bytesArr : (n : Nat) → Bytes → Option (u8s n).prod
  | 0, [] => some ()
  | n + 1, b :: bs => (bytesArr n bs).map (fun r => ((b, r) : UInt8 × (u8s n).prod))
  | _, _ => none

/-- `field_and_curve_elements.rs:168-174`, `crypto/src/hex/mod.rs:12-18`
(`skip_0x_prefix_when_needed`) -/
def skipPrefix : Text → Text
  | a :: 'x' :: rest => if a = '0' ∨ a = '\\' then rest else a :: 'x' :: rest
  | s => s

/-- `field_and_curve_elements.rs:139-145` (`try_from_hex_str`); `copy_from_slice` panics when there are
not 32 bytes. -/
def fieldFromHex (s : Text) : Except JErr arr32.denote :=
  match hexDecode (skipPrefix s) with
  | .error _ => .error .err
  | .ok bs =>
    match bytesArr 32 bs with
    | some v => .ok v
    | none => .error .panic

/-- `field_and_curve_elements.rs:148-156` (`Serialize`): `0x` and the digits. -/
def fieldToHex (v : arr32.denote) : Text := '0' :: 'x' :: hexEncode (arrBytes 32 v)

/-- `CompressedPubKey::into_address` of `mina_signer`: three version bytes, the coordinate, the parity
and the checksum in base58 (used at `protocol/serialization-types/src/signatures.rs:45`). -/
def address (E : Env) (x : Bytes) (isOdd : Bool) : Text :=
  let raw : Bytes := [0xcb, 0x01, 0x01] ++ x ++ [if isOdd then 0x01 else 0x00]
  encode58 (raw ++ E.chk raw)

/-- `CompressedPubKey::from_address` of `mina_signer`: 55 characters, base58, 40 bytes, checksum,
versions, and a coordinate below the field's modulus (used at `protocol/serialization-types/src/signatures.rs:57`). -/
def fromAddress (E : Env) (s : Text) : Option (Bytes × Bool) :=
  if s.length ≠ 55 then none
  else match decode58 s with
    | .error _ => none
    | .ok out =>
      if out.length ≠ 40 then none
      else if E.chk (out.take 36) ≠ out.drop 36 then none
      else if out.take 3 ≠ [0xcb, 0x01, 0x01] then none
      else if leNat ((out.drop 3).take 32) < Hash.p then
        some ((out.drop 3).take 32, (out.drop 35).head? == some 0x01)
      else none

/-- The string of a text (`protocol/serialization-types/src/common.rs:194, 228`). -/
def ofText (s : Text) : J := .str (String.ofList s)

/-- `from_utf8_unchecked`: undefined behaviour unless the bytes are UTF-8
(`protocol/serialization-types/src/common.rs:194, 228`). -/
def uncheckedString (bs : Bytes) : Except JErr J :=
  match String.fromUTF8? ⟨bs.toArray⟩ with
  | some s => .ok (.str s)
  | none => .error .ub

/-- An integer of a kind from a number known to be in range (`protocol/serialization-types/src/common.rs:53, 81`). -/
def intOf (k : BinProt.IntKind) (n : Int) : Except JErr (Ty.int k).denote :=
  if h : k.range.holds n then .ok (⟨n, h⟩ : {n : Int // k.range.holds n}) else .error .err

/-- The serde implementations of the leaves: serialization (`common.rs:35-43` and the lines beside each). -/
def Leaf.ser (E : Env) : (c : Leaf) → c.wire.denote → Except JErr J
  | .u32, v => .ok (ofText (Base.UIntJson.serialize (Subtype.val v : Int).toNat))       -- common.rs:35-43
  | .extU32, v => .ok (ofText (Base.UIntJson.serialize (wrapU 32 (Subtype.val v : Int))))  -- common.rs:162-166, 35-43
  | .u64, v => .ok (ofText (Base.UIntJson.serialize (Subtype.val v : Int).toNat))       -- common.rs:63-71
  | .decimal, v => .ok (ofText (Base.DecimalJson.serialize (Subtype.val v : Int).toNat))  -- common.rs:98-107
  | .i64, v => .ok (.num (Subtype.val v))
  | .char, v => uncheckedString [(v : UInt8)]                                           -- common.rs:189-197
  | .byteVec, v => uncheckedString (v : Bytes)                                          -- common.rs:223-231
  | .field, v => .ok (ofText (fieldToHex v))
  | .base58Bin ver t, v => .ok (ofText (encodeCheck E.chk ver (BinProt.toBytes t v)))   -- common.rs:340-379, signatures.rs:79-91
  | .base58Bytes ver, v => .ok (ofText (encodeCheck E.chk ver (v : Bytes)))             -- common.rs:268-303
  | .memo, v => .ok (ofText (encodeCheck E.chk 0x14 (v : Bytes)))                       -- staged_ledger_diff.rs:248-258
  | .base64Bytes, v => .ok (ofText (encode64 (v : Bytes)))                              -- consensus_state.rs:30-38
  | .vrfBase58, v =>                                                                    -- consensus_state.rs:58-71: `len() as u8`
    .ok (ofText (encodeCheck E.chk 0x15 (UInt8.ofNat (v : Bytes).length :: (v : Bytes))))
  | .base64Bin t, v => .ok (ofText (encode64 (BinProt.toBytes t v)))                    -- protocol_state_proof.rs:41-52
  | .publicKey, v =>                                                                    -- signatures.rs:36-48, 115-124
    let p : arr32.denote × Bool × Unit := v
    if leNat (arrBytes 32 p.1) < Hash.p then .ok (ofText (address E (arrBytes 32 p.1) p.2.1))
    else .error .panic

/-- `String::deserialize`: only strings (`protocol/serialization-types/src/common.rs:51, 79`). -/
def J.asText : J → Except JErr Text
  | .str s => .ok s.toList
  | _ => .error .err

/-- `bin_prot::from_reader_strict(&bytes[1..])` after the version byte (`common.rs:328-337`,
`signatures.rs:99-106`); the slice panics when there is no byte. -/
def strictAfterVersion (t : Ty) : Bytes → Except JErr t.denote
  | [] => .error .panic
  | _ :: bs =>
    match BinProt.fromReaderStrict t ⟨bs, []⟩ with
    | .ok v => .ok v
    | .error _ => .error .err

/-- The serde implementations of the leaves: deserialization (`common.rs:45-56` and the lines beside each). -/
def Leaf.deText (E : Env) : (c : Leaf) → Text → Except JErr c.wire.denote
  | .u32, s =>                                                                          -- common.rs:45-56
    match Base.UIntJson.deserialize Base.U32_MAX s with
    | .ok n => intOf .u32 n
    | .error _ => .error .err
  | .extU32, s =>                                                                       -- common.rs:45-56, 156-160
    match Base.UIntJson.deserialize Base.U32_MAX s with
    | .ok n => intOf .i32 (toSigned 32 n)
    | .error _ => .error .err
  | .u64, s =>                                                                          -- common.rs:73-84
    match Base.UIntJson.deserialize Base.U64_MAX s with
    | .ok n => intOf .u64 n
    | .error _ => .error .err
  | .decimal, s =>                                                                      -- common.rs:109-134
    match Base.DecimalJson.deserialize E.checks s with
    | .ok n => intOf .u64 n
    | .error .overflowPanic => .error .panic
    | .error _ => .error .err
  | .i64, _ => .error .err
  | .char, s =>                                                                         -- common.rs:199-207: `s.as_bytes()[0]`
    match BinProt.utf8 (String.ofList s) with
    | [] => .error .panic
    | b :: _ => .ok (b : UInt8)
  | .byteVec, s => .ok (BinProt.utf8 (String.ofList s))                                 -- common.rs:233-242
  | .field, s => fieldFromHex s
  | .base58Bin ver t, s =>                                                              -- common.rs:328-337, 381-394
    match decodeCheck E.chk ver s with
    | .error _ => .error .err
    | .ok bs => strictAfterVersion t bs
  | .base58Bytes ver, s =>                                                              -- common.rs:256-265, 305-317: `bytes.len() - 1`, `bytes[1..]`
    match decodeCheck E.chk ver s with
    | .error _ => .error .err
    | .ok [] => .error .panic
    | .ok (_ :: bs) => .ok (bs : Bytes)
  | .memo, s =>                                                                         -- staged_ledger_diff.rs:260-273: `skip(1)`
    match decodeCheck E.chk 0x14 s with
    | .error _ => .error .err
    | .ok bs => .ok (bs.drop 1 : Bytes)
  | .base64Bytes, s =>                                                                  -- consensus_state.rs:40-51
    match decode64 s with
    | .error _ => .error .err
    | .ok bs => .ok (bs : Bytes)
  | .vrfBase58, s =>                                                                    -- consensus_state.rs:73-85: `skip(2)`
    match decodeCheck E.chk 0x15 s with
    | .error _ => .error .err
    | .ok bs => .ok (bs.drop 2 : Bytes)
  | .base64Bin t, s =>                                                                  -- protocol_state_proof.rs:54-66
    match decode64 s with
    | .error _ => .error .err
    | .ok bs =>
      match BinProt.fromReaderStrict t ⟨bs, []⟩ with
      | .ok v => .ok v
      | .error _ => .error .err
  | .publicKey, s =>                                                                    -- signatures.rs:50-61, 130-143
    match fromAddress E s with
    | none => .error .err
    | some (x, odd) =>
      match bytesArr 32 x with
      | some v => .ok ((v, odd, ()) : arr32.denote × Bool × Unit)
      | none => .error .panic

/-- The serde implementations of the leaves: deserialization (`protocol/serialization-types/src/common.rs:45-56, 73-90, 109-131`; the other lines are
beside the cases above). -/
def Leaf.de (E : Env) (c : Leaf) (j : J) : Except JErr c.wire.denote :=
  match c, j with
  | .i64, .num n => intOf .i64 n
  | c, j =>
    match j.asText with
    | .error e => .error e
    | .ok s => c.deText E s

/-! ## List-tagged enums -/

/-- `macros.rs:64-95`: from the externally tagged form to the list form. -/
def toListTagged (expand : Bool) : J → Except JErr J
  | .str s => .ok (.arr [.str s])
  | .obj [(k, v)] =>
    match expand, v with
    | true, .arr items => .ok (.arr (.str k :: items))
    | _, v => .ok (.arr [.str k, v])
  | .obj _ => .error .panic
  | v => .ok v

/-- `macros.rs:98-127`: from the list form to the externally tagged form. -/
def fromListTagged : J → Except JErr J
  | .arr [] => .error .panic
  | .arr [v] => .ok v
  | .arr [.str k, v] => .ok (.obj [(k, v)])
  | .arr (.str k :: rest) => .ok (.obj [(k, .arr rest)])
  | .arr _ => .error .err
  | _ => .error .panic

/-! ## Serialization -/

/-- All results, or the first error (serde's derive on the types of `protocol/serialization-types/src`, e.g.
`common.rs:86-91`). -/
def collect {α β : Type} (f : α → Except JErr β) : List α → Except JErr (List β)
  | [] => .ok []
  | a :: as =>
    match f a with
    | .error e => .error e
    | .ok b =>
      match collect f as with
      | .error e => .error e
      | .ok bs => .ok (b :: bs)

mutual
/-- Serialization of the JSON type made from a wire value (serde's derive for the types of
`external_transition.rs:46-70` and below; `macros.rs:63-96` for enums). -/
def ser (E : Env) : (t : JTy) → t.wire.denote → Except JErr J
  | .leaf c, v => c.ser E v
  | .unit, _ => .ok .null
  | .bool, v => .ok (.bool v)
  | .option t, v =>
    match (show Option t.wire.denote from v) with
    | none => .ok .null
    | some w => ser E t w
  | .newtype t, v => ser E t v
  | .seq t, v =>
    match collect (ser E t) (show List t.wire.denote from v) with
    | .ok js => .ok (.arr js)
    | .error e => .error e
  | .tuple ts, v =>
    match serTuple E ts v with
    | .ok js => .ok (.arr js)
    | .error e => .error e
  | .struct ts, v =>
    match serStruct E ts v with
    | .ok es => .ok (.obj es)
    | .error e => .error e
  | .versioned t, v => ser E t (show {n : Int // BinProt.u16.holds n} × t.wire.denote × Unit from v).2.1
  | .listEnum poly expand vs, v =>
    match serTagged E vs (cast (denote_listEnum poly expand vs) v) with
    | .ok j => toListTagged expand (asValue j)
    | .error e => .error e
  | .tagEnum vs, v => serTagged E vs v
/-- The fields as array items (serde's derive, on e.g. `protocol/serialization-types/src/common.rs:86-91`). -/
def serTuple (E : Env) : (ts : JTys) → ts.wire.prod → Except JErr (List J)
  | .nil, _ => .ok []
  | .cons _ t ts, v =>
    let p : t.wire.denote × ts.wire.prod := v
    match ser E t p.1 with
    | .error e => .error e
    | .ok j =>
      match serTuple E ts p.2 with
      | .error e => .error e
      | .ok js => .ok (j :: js)
  | .skip _ s ts, v => serTuple E ts (show s.wire.denote × ts.wire.prod from v).2
/-- The fields as object entries (serde's derive, on e.g. `protocol/serialization-types/src/epoch_data.rs:16-70`). -/
def serStruct (E : Env) : (ts : JTys) → ts.wire.prod → Except JErr (List (String × J))
  | .nil, _ => .ok []
  | .cons n t ts, v =>
    let p : t.wire.denote × ts.wire.prod := v
    match ser E t p.1 with
    | .error e => .error e
    | .ok j =>
      match serStruct E ts p.2 with
      | .error e => .error e
      | .ok js => .ok ((n, j) :: js)
  | .skip _ s ts, v => serStruct E ts (show s.wire.denote × ts.wire.prod from v).2
/-- The externally tagged form (serde's default for enums) (on e.g.
`protocol/serialization-types/src/protocol_state_proof.rs:80-94`). -/
def serTagged (E : Env) : (vs : JVars) → vs.wire.sum → Except JErr J
  | .nil, v => nomatch (show Empty from v)
  | .cons n p vs, v =>
    match (show p.wire.denote ⊕ vs.wire.sum from v) with
    | .inl w => serPay E n p w
    | .inr w => serTagged E vs w
/-- One variant of it (on e.g. `protocol/serialization-types/src/protocol_state_proof.rs:80-94`). -/
def serPay (E : Env) (n : String) : (p : JPay) → p.wire.denote → Except JErr J
  | .unit, _ => .ok (.str n)
  | .newtype t, v =>
    match ser E t v with
    | .ok j => .ok (.obj [(n, j)])
    | .error e => .error e
  | .tuple ts, v =>
    match serTuple E ts v with
    | .ok js => .ok (.obj [(n, .arr js)])
    | .error e => .error e
  | .struct ts, v =>
    match serStruct E ts v with
    | .ok es => .ok (.obj [(n, .obj es)])
    | .error e => .error e
end

/-! ## Deserialization -/

/-- The values under a key (serde's derive, on e.g. `protocol/serialization-types/src/epoch_data.rs:16-70`). -/
def lookup (n : String) (es : List (String × J)) : List J := (es.filter (fun e => e.1 == n)).map Prod.snd

/-- What an absent field means: `None` for an `Option`, an error otherwise (serde's derive, on e.g.
`protocol/serialization-types/src/epoch_data.rs:16-70`). -/
def absent : (t : JTy) → Except JErr t.wire.denote
  | .option t => .ok (none : Option t.wire.denote)
  | _ => .error .err

/-- The externally tagged form taken apart: variant name and content (on e.g.
`protocol/serialization-types/src/protocol_state_proof.rs:80-94`). -/
def taggedParts : J → Except JErr (String × Option J)
  | .str s => .ok (s, none)
  | .obj [(k, v)] => .ok (k, some v)
  | _ => .error .err

mutual
/-- Deserialization and conversion to the wire value (serde's derive for the types of
`external_transition.rs:46-70` and below; `macros.rs:98-127` for enums). -/
def de (E : Env) : (t : JTy) → J → Except JErr t.wire.denote
  | .leaf c, j => c.de E j
  | .unit, j =>
    match j with
    | .null => .ok ()
    | _ => .error .err
  | .bool, j =>
    match j with
    | .bool b => .ok b
    | _ => .error .err
  | .option t, j =>
    match j with
    | .null => .ok (none : Option t.wire.denote)
    | j =>
      match de E t j with
      | .ok v => .ok (some v : Option t.wire.denote)
      | .error e => .error e
  | .newtype t, j => de E t j
  | .seq t, j =>
    match j with
    | .arr js => collect (de E t) js
    | _ => .error .err
  | .tuple ts, j =>
    match j with
    | .arr js => deTuple E ts js
    | _ => .error .err
  | .struct ts, j =>
    match j with
    | .obj es => deStruct E ts es
    | .arr js => deTuple E ts js
    | _ => .error .err
  | .versioned t, j =>
    match de E t j with
    | .ok v => .ok (version1 v)
    | .error e => .error e
  | .listEnum poly expand vs, j =>
    match fromListTagged (asValue j) with
    | .error e => .error e
    | .ok j =>
      match taggedParts j with
      | .error e => .error e
      | .ok (n, c) =>
        match deTagged E vs n c with
        | .ok v => .ok (cast (denote_listEnum poly expand vs).symm v)
        | .error e => .error e
  | .tagEnum vs, j =>
    match taggedParts j with
    | .error e => .error e
    | .ok (n, c) => deTagged E vs n c
/-- Array items as fields: all of them, in order (serde's derive, on e.g.
`protocol/serialization-types/src/common.rs:86-91`). -/
def deTuple (E : Env) : (ts : JTys) → List J → Except JErr ts.wire.prod
  | .nil, js =>
    match js with
    | [] => .ok ()
    | _ :: _ => .error .err
  | .cons _ t ts, js =>
    match js with
    | [] => .error .err
    | j :: js =>
      match de E t j with
      | .error e => .error e
      | .ok v =>
        match deTuple E ts js with
        | .error e => .error e
        | .ok w => .ok ((v, w) : t.wire.denote × ts.wire.prod)
  | .skip _ s ts, js =>
    match deTuple E ts js with
    | .error e => .error e
    | .ok w => .ok ((s.default, w) : s.wire.denote × ts.wire.prod)
/-- Object entries as fields: each exactly once, unknown keys ignored (serde's derive, on e.g.
`protocol/serialization-types/src/epoch_data.rs:16-70`). -/
def deStruct (E : Env) : (ts : JTys) → List (String × J) → Except JErr ts.wire.prod
  | .nil, _ => .ok ()
  | .cons n t ts, es =>
    match lookup n es with
    | [] =>
      match absent t with
      | .error e => .error e
      | .ok v =>
        match deStruct E ts es with
        | .error e => .error e
        | .ok w => .ok ((v, w) : t.wire.denote × ts.wire.prod)
    | [j] =>
      match de E t j with
      | .error e => .error e
      | .ok v =>
        match deStruct E ts es with
        | .error e => .error e
        | .ok w => .ok ((v, w) : t.wire.denote × ts.wire.prod)
    | _ => .error .err
  | .skip _ s ts, es =>
    match deStruct E ts es with
    | .error e => .error e
    | .ok w => .ok ((s.default, w) : s.wire.denote × ts.wire.prod)
/-- The variant with the name (on e.g. `protocol/serialization-types/src/protocol_state_proof.rs:80-94`). -/
def deTagged (E : Env) : (vs : JVars) → String → Option J → Except JErr vs.wire.sum
  | .nil, _, _ => .error .err
  | .cons n p vs, name, c =>
    if n = name then
      match dePay E p c with
      | .ok v => .ok (.inl v : p.wire.denote ⊕ vs.wire.sum)
      | .error e => .error e
    else
      match deTagged E vs name c with
      | .ok v => .ok (.inr v : p.wire.denote ⊕ vs.wire.sum)
      | .error e => .error e
/-- Its content (on e.g. `protocol/serialization-types/src/protocol_state_proof.rs:80-94`). -/
def dePay (E : Env) : (p : JPay) → Option J → Except JErr p.wire.denote
  | .unit, c =>
    match c with
    | none => .ok ()
    | some .null => .ok ()
    | some _ => .error .err
  | .newtype t, c =>
    match c with
    | none => .error .err
    | some j => de E t j
  | .tuple ts, c =>
    match c with
    | some (.arr (j :: js)) => deTuple E ts (j :: js)
    | _ => .error .err
  | .struct ts, c =>
    match c with
    | some (.obj es) => deStruct E ts es
    | _ => .error .err
end

end MinaRs.Json
