import Verif.BinProt.Prog

/-!
# Model of the bin_prot primitive readers and writers

`protocol/bin-prot/src/{consts,write_ext,read_ext}.rs` and
`protocol/bin-prot/src/polyvar/caml_hash_variant.rs`.
-/

namespace MinaRs.BinProt

/-- `protocol/bin-prot/src/consts.rs:5`: the lead bytes of the multi-byte integer forms. -/
def CODE_NEG_INT8 : UInt8 := 0xff
/-- `protocol/bin-prot/src/consts.rs:6` -/
def CODE_INT16 : UInt8 := 0xfe
/-- `protocol/bin-prot/src/consts.rs:7` -/
def CODE_INT32 : UInt8 := 0xfd
/-- `protocol/bin-prot/src/consts.rs:8` -/
def CODE_INT64 : UInt8 := 0xfc

/-- A Rust integer type, as the interval of values it holds (the types of `write_ext.rs:31-67`, `read_ext.rs:36-105`). -/
structure IntTy where
  lo : Int
  hi : Int
  deriving DecidableEq, Repr

/-- `v` is a value of the integer type `t` (`read_ext.rs:36-105`). -/
def IntTy.holds (t : IntTy) (v : Int) : Prop := t.lo ≤ v ∧ v ≤ t.hi

instance (t : IntTy) (v : Int) : Decidable (t.holds v) := inferInstanceAs (Decidable (_ ∧ _))

/-- `i8`, as in `protocol/bin-prot/src/ser.rs:103-145` -/
def i8 : IntTy := ⟨-2^7, 2^7 - 1⟩
/-- `i16`, as in `protocol/bin-prot/src/ser.rs:103-145` -/
def i16 : IntTy := ⟨-2^15, 2^15 - 1⟩
/-- `i32`, as in `protocol/bin-prot/src/ser.rs:103-145` -/
def i32 : IntTy := ⟨-2^31, 2^31 - 1⟩
/-- `i64`, as in `protocol/bin-prot/src/ser.rs:103-145` -/
def i64 : IntTy := ⟨-2^63, 2^63 - 1⟩
/-- `u8`, as in `protocol/bin-prot/src/ser.rs:103-145` -/
def u8 : IntTy := ⟨0, 2^8 - 1⟩
/-- `u16`, as in `protocol/bin-prot/src/ser.rs:103-145` -/
def u16 : IntTy := ⟨0, 2^16 - 1⟩
/-- `u32`, as in `protocol/bin-prot/src/ser.rs:103-145` -/
def u32 : IntTy := ⟨0, 2^32 - 1⟩
/-- `u64`, as in `protocol/bin-prot/src/ser.rs:103-145` -/
def u64 : IntTy := ⟨0, 2^64 - 1⟩

/-! ## Writers (`write_ext.rs`) -/

/-- `write_ext.rs:15-17` -/
def binWriteUnit : List WOp := [.all [0x00]]

/-- `write_ext.rs:20-22` -/
def binWriteBool (b : Bool) : List WOp := [.all [if b then 0x01 else 0x00]]

/-- `write_ext.rs:25-28`: `c as u8` keeps the low eight bits of the code point; the
reported count is 1. -/
def binWriteChar (c : Char) : List WOp × Nat := ([.all [UInt8.ofNat (c.toNat % 256)]], 1)

/-- `write_ext.rs:31-71`: the calls made and the byte count reported.  `n` is the value after
`Into<i64>`; the casts `n as u16`, `n as i8`, ... are `wrapU`. -/
def binWriteInteger (n : Int) : List WOp × Nat :=
  if 0 ≤ n then
    if n < 0x80 then ([.all [UInt8.ofNat (wrapU 8 n)]], 1)
    else if n < 0x8000 then ([.all [CODE_INT16], .all (leBytes 2 (wrapU 16 n))], 3)
    else if n < 0x80000000 then ([.all [CODE_INT32], .all (leBytes 4 (wrapU 32 n))], 5)
    else ([.all [CODE_INT64], .all (leBytes 8 (wrapU 64 n))], 9)
  else
    if -0x80 ≤ n then ([.all [CODE_NEG_INT8], .all (leBytes 1 (wrapU 8 n))], 2)
    else if -0x8000 ≤ n then ([.all [CODE_INT16], .all (leBytes 2 (wrapU 16 n))], 3)
    else if -0x80000000 ≤ n then ([.all [CODE_INT32], .all (leBytes 4 (wrapU 32 n))], 5)
    else ([.all [CODE_INT64], .all (leBytes 8 (wrapU 64 n))], 9)

/-- `write_ext.rs:80-97` -/
def binWriteNat0 (n : Nat) : List WOp × Nat :=
  if n < 0x80 then ([.all [UInt8.ofNat (n % 256)]], 1)
  else if n < 0x10000 then ([.all [CODE_INT16], .all (leBytes 2 n)], 3)
  else if n < 0x100000000 then ([.all [CODE_INT32], .all (leBytes 4 n)], 5)
  else ([.all [CODE_INT64], .all (leBytes 8 n)], 9)

/-- `write_ext.rs:100-102`: the float is its 32-bit pattern; note the bare `write`. -/
def binWriteFloat32 (bits : UInt32) : List WOp × Nat := ([.once (leBytes 4 bits.toNat)], 4)

/-- `write_ext.rs:105-107`: the float is its 64-bit pattern; note the bare `write`. -/
def binWriteFloat64 (bits : UInt64) : List WOp × Nat := ([.once (leBytes 8 bits.toNat)], 8)

/-- `write_ext.rs:119-121` -/
def binWriteVariantIndex (i : UInt8) : List WOp × Nat := ([.all [i]], 1)

/-- `write_ext.rs:125-127`: `(i << 1 | 1).to_le_bytes()`; `<<` drops the top bit. -/
def binWritePolyvarTag (i : UInt32) : List WOp × Nat :=
  ([.once (leBytes 4 ((i <<< 1) ||| 1).toNat)], 4)

/-- `str::as_bytes` (`protocol/bin-prot/src/ser.rs:169-170`). -/
def utf8 (s : String) : Bytes := s.toUTF8.data.toList

/-- `ser.rs:168-171` (`serialize_str`): length in bytes as Nat0, then the UTF-8 bytes. -/
def binWriteString (s : String) : List WOp :=
  (binWriteNat0 (utf8 s).length).1 ++ [.all (utf8 s)]

/-! ## Readers (`read_ext.rs`) -/

/-- `byteorder`'s `read_u8` (`read_ext.rs:14, 26, 39`). -/
def readU8 : Prog UInt8 := .read 1 fun
  | [b] => .ret b
  | _ => .fail (.panic "unreachable: read_exact returns the requested length")

/-- `read_ext.rs:13-22` -/
def binReadUnit : Prog Unit := do
  let b ← readU8
  if b = 0x00 then .ret () else .fail (.invalidByte b)

/-- `read_ext.rs:25-35` -/
def binReadBool : Prog Bool := do
  let b ← readU8
  if b = 0x00 then .ret false else if b = 0x01 then .ret true else .fail (.invalidByte b)

/-- `read_ext.rs:38-40` -/
def binReadChar : Prog Char := do
  let b ← readU8
  .ret (Char.ofNat b.toNat)

/-- `num::FromPrimitive::from_*` into the destination type followed by
`.ok_or(Error::DestinationIntegerOverflow)` (`read_ext.rs:74`, `:103`). -/
def fromPrimitive (t : IntTy) (v : Int) : Prog Int :=
  if t.holds v then .ret v else .fail .destinationIntegerOverflow

/-- `byteorder`'s `read_uN::<LittleEndian>` for `N = 8 * k` (`read_ext.rs:85-93`). -/
def readUintLE (k : Nat) : Prog Nat := do
  let bs ← Prog.readExact k
  .ret (leNat bs)

/-- `byteorder`'s `read_iN::<LittleEndian>` for `N = 8 * k` (`read_ext.rs:52-60`). -/
def readIntLE (k : Nat) : Prog Int := do
  let bs ← Prog.readExact k
  .ret (toSigned (8 * k) (leNat bs))

/-- `read_ext.rs:43-75` -/
def binReadInteger (t : IntTy) : Prog Int := do
  let byte0 ← readU8
  if byte0 = CODE_INT16 then do
    let v ← readIntLE 2
    fromPrimitive t v
  else if byte0 = CODE_INT32 then do
    let v ← readIntLE 4
    fromPrimitive t v
  else if byte0 = CODE_INT64 then do
    let v ← readIntLE 8
    fromPrimitive t v
  else if byte0 = CODE_NEG_INT8 then do
    let v ← readIntLE 1
    fromPrimitive t v
  else if 0x80 < byte0 then .fail (.invalidIntegerByte byte0)
  else fromPrimitive t byte0.toNat

/-- `read_ext.rs:78-104`; the destination is an unsigned type. -/
def binReadNat0 (t : IntTy) : Prog Int := do
  let byte0 ← readU8
  if byte0 = CODE_INT16 then do
    let v ← readUintLE 2
    fromPrimitive t v
  else if byte0 = CODE_INT32 then do
    let v ← readUintLE 4
    fromPrimitive t v
  else if byte0 = CODE_INT64 then do
    let v ← readUintLE 8
    fromPrimitive t v
  else if 0x80 < byte0 then .fail (.invalidIntegerByte byte0)
  else fromPrimitive t byte0.toNat

/-- `bin_read_nat0::<u64>()? as usize` (`read_ext.rs:121`, `:131`) and
`let len: usize = bin_read_nat0()?` (`de.rs:267`): lengths, on a 64-bit target. -/
def binReadLen : Prog Nat := do
  let v ← binReadNat0 u64
  .ret v.toNat

/-- `read_ext.rs:107-109` -/
def binReadVariantIndex : Prog UInt8 := readU8

/-- `read_ext.rs:113-117`: `u32::from_le_bytes(buf) >> 1`. -/
def binReadPolyvarTag : Prog UInt32 := do
  let n ← readUintLE 4
  .ret (UInt32.ofNat n >>> 1)

/-- Claiming `n` bytes for a vector before anything is read into it (`vec![0u8; len]` at `read_ext.rs:122, 132`,
`push_n` at `value/layout/traverse.rs:98-100`): more than `isize::MAX` bytes panic, on a 64-bit target.  Simplification: smaller
claims succeed, however much memory the machine has. -/
def claim (n : Nat) : Prog Unit := if n < 2 ^ 63 then .ret () else .fail (.panic "capacity overflow")

/-- `read_ext.rs:130-135`: the buffer is claimed before it is known that the bytes are there. -/
def binReadBytes : Prog Bytes := do
  let len ← binReadLen
  claim len
  Prog.readExact len

/-- `read_ext.rs:120-127`: bytes checked with `str::from_utf8`. -/
def binReadString : Prog String := do
  let len ← binReadLen
  claim len
  let bs ← Prog.readExact len
  match String.fromUTF8? ⟨bs.toArray⟩ with
  | some s => .ret s
  | none => .fail .invalidUtf8

/-- `byteorder`'s `read_f32::<LittleEndian>` (`de.rs:177`), as a bit pattern. -/
def readF32 : Prog UInt32 := do
  let n ← readUintLE 4
  .ret (UInt32.ofNat n)

/-- `byteorder`'s `read_f64::<LittleEndian>` (`de.rs:184`), as a bit pattern. -/
def readF64 : Prog UInt64 := do
  let n ← readUintLE 8
  .ret (UInt64.ofNat n)

/-! ## Polymorphic variant hash -/

/-- `polyvar/caml_hash_variant.rs:11-16`: fold of `223 * accu + byte` in `u32`.  The code's
`+` and `*` are the unchecked operators: they wrap in release builds (modelled here) and
panic on overflow in debug builds (see `camlHashVariantChecked`). -/
def camlHashVariant (label : Bytes) : UInt32 :=
  label.foldl (fun accu byte => 223 * accu + byte.toUInt32) 0

/-- The same fold in a build with overflow checks (`debug`): `none` is the panic
"attempt to multiply/add with overflow" (`polyvar/caml_hash_variant.rs:11-16`). -/
def camlHashVariantChecked (label : Bytes) : Option Nat :=
  label.foldlM (fun accu byte =>
    if 223 * accu < 2 ^ 32 ∧ 223 * accu + byte.toNat < 2 ^ 32
    then some (223 * accu + byte.toNat) else none) 0

end MinaRs.BinProt
