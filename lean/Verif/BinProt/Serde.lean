import Verif.BinProt.Prim

/-!
# Model of the typed (serde) layer of bin_prot

`protocol/bin-prot/src/ser.rs` and the `StronglyTyped` half of
`protocol/bin-prot/src/de.rs`.  Rust types that derive `Serialize`/`Deserialize` are described
by a universe `Ty`; `Ty.denote` is the set of values of such a type, `encode` is what
`to_writer` does with a value and `decode` is what `from_reader` does.

Simplifications: serde's derive macros are represented by their documented use of the serde
data model (structs and tuples field by field in order, enum variants by index, newtypes
transparently).  `serialize_map` panics (`ser.rs:252-254`), `i128`/`u128` are not supported by
serde's defaults, and `deserialize_bytes/byte_buf/str/any/identifier` always fail or panic
(`de.rs:104,198,212,219,348`): types needing them have no description in `Ty`
(see BinProt/SerdeAll.lean).
-/

namespace MinaRs.BinProt

/-- The Rust integer types with a serde method that goes through `bin_write_integer`
(`u8` is written raw and has its own constructor below) (`protocol/bin-prot/src/ser.rs:103-145`). -/
inductive IntKind where
  | i8 | i16 | i32 | i64 | u16 | u32 | u64
  deriving DecidableEq, Repr

/-- The values of an integer type (`protocol/bin-prot/src/ser.rs:103-145`). -/
def IntKind.range : IntKind → IntTy
  | .i8 => BinProt.i8 | .i16 => BinProt.i16 | .i32 => BinProt.i32 | .i64 => BinProt.i64
  | .u16 => BinProt.u16 | .u32 => BinProt.u32 | .u64 => BinProt.u64

mutual
/-- Descriptions of Rust types that can be (de)serialized (the methods of `protocol/bin-prot/src/ser.rs:69-474`). -/
inductive Ty where
  | unit                       -- `()` and unit structs
  | bool
  | u8
  | int (k : IntKind)
  | f32 | f64
  | char
  | string
  | option (t : Ty)
  | newtype (t : Ty)           -- `struct N(T)`
  | seq (t : Ty)               -- `Vec<T>` and other sequences of runtime length
  | tuple (ts : Tys)           -- tuples, tuple structs, arrays
  | struct (ts : Tys)          -- structs with named fields
  | enum (vs : Tys)            -- enums; the payload of a variant is one type
                               -- (`tuple` for tuple/unit variants, `struct` for struct variants)
  | polyvar (vs : Tys)         -- enums renamed to "Polyvar"
/-- Named lists of type descriptions (fields of a struct, variants of an enum)
(`protocol/bin-prot/src/ser.rs:69-474`). -/
inductive Tys where
  | nil
  | cons (name : String) (t : Ty) (ts : Tys)
end

/-- The names, in order (`protocol/bin-prot/src/de.rs:376-398`). -/
def Tys.names : Tys → List String
  | .nil => []
  | .cons n _ ts => n :: ts.names

/-- The number of entries (`protocol/bin-prot/src/de.rs:376-398`). -/
def Tys.length : Tys → Nat
  | .nil => 0
  | .cons _ _ ts => ts.length + 1

mutual
/-- Values of a described type.  Floats are their bit patterns (`protocol/bin-prot/src/ser.rs:69-474`). -/
def Ty.denote : Ty → Type
  | .unit => Unit
  | .bool => Bool
  | .u8 => UInt8
  | .int k => {n : Int // k.range.holds n}
  | .f32 => UInt32
  | .f64 => UInt64
  | .char => Char
  | .string => String
  | .option t => Option t.denote
  | .newtype t => t.denote
  | .seq t => List t.denote
  | .tuple ts => ts.prod
  | .struct ts => ts.prod
  | .enum vs => vs.sum
  | .polyvar vs => vs.sum
/-- One value of every entry, in order (`protocol/bin-prot/src/ser.rs:69-474`). -/
def Tys.prod : Tys → Type
  | .nil => Unit
  | .cons _ t ts => t.denote × ts.prod
/-- A value of exactly one entry (`protocol/bin-prot/src/ser.rs:69-474`). -/
def Tys.sum : Tys → Type
  | .nil => Empty
  | .cons _ t ts => t.denote ⊕ ts.sum
end

/-- The position of the variant a sum value belongs to (serde's `variant_index`) (`protocol/bin-prot/src/ser.rs:42`). -/
def Tys.index : (vs : Tys) → vs.sum → Nat
  | .nil, v => nomatch (show Empty from v)
  | .cons _ _ ts, v =>
    match (show _ ⊕ _ from v) with
    | .inl _ => 0
    | .inr w => ts.index w + 1

/-- The name of the variant a sum value belongs to (serde's `variant`) (`protocol/bin-prot/src/ser.rs:42`). -/
def Tys.variantName : (vs : Tys) → vs.sum → String
  | .nil, v => nomatch (show Empty from v)
  | .cons n _ ts, v =>
    match (show _ ⊕ _ from v) with
    | .inl _ => n
    | .inr w => ts.variantName w

/-- The i64 handed to `bin_write_integer`: `v.into()` for all types (`ser.rs:103-136`), and
`v as i64` for `u64` (`ser.rs:138-146`). -/
def IntKind.wire (k : IntKind) (n : Int) : Int :=
  match k with
  | .u64 => toSigned 64 n.toNat
  | _ => n

/-- `ser.rs:42-54` with `check_variant_index` (`ser.rs:478-482`): a single byte if the index
fits, else (with the polyvar assumption of the comment there) a four-byte tag. -/
def writeVariantIndex (index : Nat) : List WOp :=
  if index < 256 then (binWriteVariantIndex (UInt8.ofNat index)).1
  else (binWritePolyvarTag (UInt32.ofNat index)).1

/-- `ser.rs:43-45`: the enum is named "Polyvar". -/
def writePolyvar (variant : String) : List WOp :=
  (binWritePolyvarTag (camlHashVariant (utf8 variant))).1

mutual
/-- `to_writer` (`ser.rs:59-65`) at a described type: the calls made on the sink. -/
def encode : (t : Ty) → t.denote → List WOp
  | .unit, _ => binWriteUnit                                         -- ser.rs:198-206
  | .bool, b => binWriteBool b                                       -- ser.rs:97-100
  | .u8, b => [.all [b]]                                             -- ser.rs:123-126
  | .int k, n => (binWriteInteger (k.wire n.val)).1                  -- ser.rs:103-146
  | .f32, f => (binWriteFloat32 f).1                                 -- ser.rs:148-151
  | .f64, f => (binWriteFloat64 f).1                                 -- ser.rs:153-156
  | .char, c => (binWriteChar c).1                                   -- ser.rs:159-164
  | .string, s => binWriteString s                                   -- ser.rs:168-171
  | .option t, o =>                                                  -- ser.rs:181-194
    match (show Option _ from o) with
    | none => binWriteUnit
    | some v => .all [0x01] :: encode t v
  | .newtype t, v => encode t v                                      -- ser.rs:210-215
  | .seq t, vs =>                                                    -- ser.rs:222-230
    let l : List t.denote := vs
    (binWriteNat0 l.length).1 ++ l.flatMap (encode t)
  | .tuple ts, v => encodeProd ts v                                  -- ser.rs:236-248
  | .struct ts, v => encodeProd ts v                                 -- ser.rs:256-258
  | .enum vs, v => writeVariantIndex (vs.index v) ++ encodeSum vs v  -- ser.rs:270-320
  | .polyvar vs, v => writePolyvar (vs.variantName v) ++ encodeSum vs v
/-- Fields one after the other (`ser.rs:345-440`). -/
def encodeProd : (ts : Tys) → ts.prod → List WOp
  | .nil, _ => []
  | .cons _ t ts, v =>
    let p : t.denote × ts.prod := v
    encode t p.1 ++ encodeProd ts p.2
/-- The payload of the variant (`protocol/bin-prot/src/ser.rs:42-54`). -/
def encodeSum : (vs : Tys) → vs.sum → List WOp
  | .nil, v => nomatch (show Empty from v)
  | .cons _ t ts, v =>
    match (show _ ⊕ _ from v) with
    | .inl w => encode t w
    | .inr w => encodeSum ts w
end

/-- The bytes `to_writer` produces into a `Vec<u8>` (`protocol/bin-prot/src/ser.rs:59-66`). -/
def toBytes (t : Ty) (v : t.denote) : Bytes := flush (encode t v)

/-- `SeqAccess` (`de.rs:551-605`) asked for elements until it is exhausted: exactly `n`
elements are read. -/
def decodeN {α : Type} (p : Prog α) : Nat → Prog (List α)
  | 0 => .ret []
  | n + 1 => do
    let a ← p
    let as ← decodeN p n
    .ret (a :: as)

/-- `PolyvarEnum::variant_seed` (`de.rs:392-413`): the index handed to the derived visitor.
Non-ASCII names are filtered out *before* enumeration. -/
def polyvarIndex (names : List String) (hash : UInt32) : Option Nat :=
  (names.filter (fun n => (utf8 n).all (fun b => b < 0x80))).findIdx?
    (fun n => camlHashVariant (utf8 n) == hash)

mutual
/-- `from_reader` (`de.rs:59-63`) at a described type. -/
def decode : (t : Ty) → Prog t.denote
  | .unit => binReadUnit                                             -- de.rs:235-249
  | .bool => binReadBool                                             -- de.rs:107-112
  | .u8 => readU8                                                    -- de.rs:145-150
  | .int k => do                                                     -- de.rs:117-171
    let v ← binReadInteger k.range
    if h : k.range.holds v then .ret ⟨v, h⟩
    else .fail (.panic "unreachable: bin_read_integer checks the destination")
  | .f32 => readF32                                                  -- de.rs:173-178
  | .f64 => readF64                                                  -- de.rs:180-185
  | .char => binReadChar                                             -- de.rs:187-192
  | .string => binReadString                                         -- de.rs:201-206
  | .option t => do                                                  -- de.rs:224-232
    let b ← binReadBool
    if b then do
      let v ← decode t
      .ret (some v)
    else .ret none
  | .newtype t => decode t                                           -- de.rs:254-259
  | .seq t => do                                                     -- de.rs:263-269
    let len ← binReadLen
    decodeN (decode t) len
  | .tuple ts => decodeProd ts                                       -- de.rs:272-290
  | .struct ts => decodeProd ts                                      -- de.rs:308-318
  | .enum vs => do                                                   -- de.rs:336-339, 431-451
    let index ← binReadVariantIndex
    decodeSum vs index.toNat
  | .polyvar vs => do                                                -- de.rs:332-335, 392-413
    let hash ← binReadPolyvarTag
    match polyvarIndex vs.names hash with
    | some i => decodeSum vs (UInt8.ofNat i).toNat
    | none => .fail (.unknownPolyvarTag hash.toNat)
/-- The derived visitor reads the fields in order (below `protocol/bin-prot/src/de.rs:489`). -/
def decodeProd : (ts : Tys) → Prog ts.prod
  | .nil => .ret ()
  | .cons _ t ts => do
    let a ← decode t
    let b ← decodeProd ts
    .ret (a, b)
/-- The derived visitor selects the variant by index (`U8Deserializer` → `visit_u64`), and
reports serde's "invalid value" error for an index that is not a variant (`protocol/bin-prot/src/de.rs:439-446`). -/
def decodeSum : (vs : Tys) → Nat → Prog vs.sum
  | .nil, _ => .fail (.custom "invalid variant index")
  | .cons _ t _, 0 => do
    let a ← decode t
    .ret (.inl a)
  | .cons _ _ ts, i + 1 => do
    let b ← decodeSum ts i
    .ret (.inr b)
end

end MinaRs.BinProt
