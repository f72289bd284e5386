import Verif.BinProt.Serde

/-!
# Decoding on a 32-bit target, and what a decoder asks its reader for

The browser build (`apps/wasm`) is compiled for WebAssembly, where `usize` has 32 bits.  Lengths of sequences are read into a
`usize`, lengths of strings into a `u64` that is then cut to a `usize`.
-/

namespace MinaRs.BinProt
open Prog

/-- The length of a sequence (`let len = self.rdr.bin_read_nat0()?`, `protocol/bin-prot/src/de.rs:267`) where `usize` has 32
bits. -/
def binReadLen32 : Prog Nat := do
  let v ← binReadNat0 u32
  .ret v.toNat

/-- `bin_read_string` (`protocol/bin-prot/src/read_ext.rs:120-127`) where `usize` has 32 bits: the cast `as usize` keeps the low
32 bits of the length, and a claim of more than `isize::MAX = 2^31 - 1` bytes panics. -/
def binReadString32 : Prog String := do
  let v ← binReadNat0 u64
  let len := v.toNat % 2 ^ 32
  if len < 2 ^ 31 then do
    let bs ← Prog.readExact len
    match String.fromUTF8? ⟨bs.toArray⟩ with
    | some s => .ret s
    | none => .fail .invalidUtf8
  else .fail (.panic "capacity overflow")

mutual
/-- `from_reader` (`protocol/bin-prot/src/de.rs:59-63`) at a described type, where `usize` has 32 bits.  Only sequences
(`de.rs:263-269`) and strings (`de.rs:201-206`) differ from `decode`. -/
def decode32 : (t : Ty) → Prog t.denote
  | .unit => binReadUnit
  | .bool => binReadBool
  | .u8 => readU8
  | .int k => do
    let v ← binReadInteger k.range
    if h : k.range.holds v then .ret ⟨v, h⟩
    else .fail (.panic "unreachable: bin_read_integer checks the destination")
  | .f32 => readF32
  | .f64 => readF64
  | .char => binReadChar
  | .string => binReadString32
  | .option t => do
    let b ← binReadBool
    if b then do
      let v ← decode32 t
      .ret (some v)
    else .ret none
  | .newtype t => decode32 t
  | .seq t => do
    let len ← binReadLen32
    decodeN (decode32 t) len
  | .tuple ts => decodeProd32 ts
  | .struct ts => decodeProd32 ts
  | .enum vs => do
    let index ← binReadVariantIndex
    decodeSum32 vs index.toNat
  | .polyvar vs => do
    let hash ← binReadPolyvarTag
    match polyvarIndex vs.names hash with
    | some i => decodeSum32 vs (UInt8.ofNat i).toNat
    | none => .fail (.unknownPolyvarTag hash.toNat)
/-- The fields in order (below `protocol/bin-prot/src/de.rs:489`). -/
def decodeProd32 : (ts : Tys) → Prog ts.prod
  | .nil => .ret ()
  | .cons _ t ts => do
    let a ← decode32 t
    let b ← decodeProd32 ts
    .ret (a, b)
/-- The payload of the variant with the given index (`protocol/bin-prot/src/de.rs:439-446`). -/
def decodeSum32 : (vs : Tys) → Nat → Prog vs.sum
  | .nil, _ => .fail (.custom "invalid variant index")
  | .cons _ t _, 0 => do
    let a ← decode32 t
    .ret (.inl a)
  | .cons _ _ ts, i + 1 => do
    let b ← decodeSum32 ts i
    .ret (.inr b)
end

/-- The sizes of the buffers the program hands to `read_exact`, one after the other, the one that cannot be filled included
(`protocol/bin-prot/src/read_ext.rs:45, 80, 115, 123, 133`). -/
def Prog.requests {α : Type} : Prog α → Bytes → List Nat
  | .ret _, _ => []
  | .fail _, _ => []
  | .read k c, s => k :: (if s.length < k then [] else (c (s.take k)).requests (s.drop k))

end MinaRs.BinProt
