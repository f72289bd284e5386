import Verif.BinProt.Bytes
/-!
# Random-oracle inputs

Model of `proof-systems-shim/src/roinput.rs` (the chunked random-oracle input, all of it code of
this repository) and of the interface of `mina_hasher::ROInput` (the legacy input, an external
crate; only what its documentation promises is modelled).

`Fp` is the base field of the Pasta curve `Fp::size_in_bits() = 255`.  A panic is a value.
-/

namespace MinaRs.Hash

deriving instance DecidableEq for Except

/-- The order of the field `mina_hasher::Fp` (the base field of Pallas) (external crate, imported at
`proof-systems-shim/src/roinput.rs:1-12`). -/
def p : Nat := 0x40000000000000000000000000000000224698fc094cf91b992d30ed00000001

theorem p_pos : 0 < p := by decide
instance : NeZero p := ⟨by decide⟩

/-- `mina_hasher::Fp`: numbers below `p`, with addition modulo `p` (imported at
`proof-systems-shim/src/roinput.rs:1-12`). -/
abbrev Fp := Fin p

/-- The ways the modelled functions panic (`proof-systems-shim/src/roinput.rs:129-143`). -/
inductive Panic where
  /-- `u32` addition overflow (builds with overflow checks) -/
  | overflow
  /-- `BigInteger256` into `Fp` with a number not below `p` (`from_repr(..).unwrap()`) -/
  | notInField
  /-- `bits_to_fp_unsafe` / `Fp::from_bytes(..).expect(..)` -/
  | badFieldBytes
  deriving DecidableEq, Repr

/-- Results of functions which may panic (`proof-systems-shim/src/roinput.rs:129-143`). -/
abbrev M := Except Panic

/-- roinput.rs 22-27: `ChunkedROInput`. A piece is a field element and a width in bits (`u32`). -/
structure Chunked where
  fields : List Fp
  packed : List (Fp × Nat)
  deriving DecidableEq

namespace Chunked

/-- roinput.rs 31-33 -/
def new : Chunked := ⟨[], []⟩

/-- roinput.rs 36-40 -/
def append (a b : Chunked) : Chunked := ⟨a.fields ++ b.fields, a.packed ++ b.packed⟩

/-- roinput.rs 48-51: `new().append_field(f)` -/
def field (f : Fp) : Chunked := ⟨[f], []⟩

/-- roinput.rs 54-57: `new().append_packed(f, max_bits)` -/
def piece (f : Fp) (n : Nat) : Chunked := ⟨[], [(f, n)]⟩

end Chunked

/-- `as_bits::<Lsb0>()` of one byte: least significant bit first (used at `proof-systems-shim/src/roinput.rs:61`). -/
def byteBits (b : UInt8) : List Bool := (List.range 8).map fun i => b.toNat.testBit i

/-- `bytes.as_bits::<Lsb0>()` (used at `proof-systems-shim/src/roinput.rs:61`) -/
def bytesBits (bs : Bytes) : List Bool := bs.flatMap byteBits

/-- The number with the given bits, least significant first: the little-endian number held by
`BitVec<u8>::into_vec` for `Lsb0` (used at `proof-systems-shim/src/roinput.rs:136`). -/
def bitsNat : List Bool → Nat
  | [] => 0
  | b :: bs => b.toNat + 2 * bitsNat bs

/-- `Fp::from_bytes` on a little-endian number: an error unless it is below `p` (used at
`proof-systems-shim/src/roinput.rs:136`). -/
def fpOfNat (n : Nat) : M Fp := if h : n < p then .ok ⟨n, h⟩ else .error .badFieldBytes

/-- roinput.rs 129-142: `bits_to_fp_unsafe` (the two errors of `bits_to_fp` panic). The zero
padding up to 255 bits does not change the number. -/
def bitsToFp (bits : List Bool) : M Fp :=
  if 255 < bits.length then .error .badFieldBytes else fpOfNat (bitsNat bits)

namespace Chunked

/-- roinput.rs 68-75: `new().append_bool(b)` -/
def bool (b : Bool) : M Chunked := do
  let f ← bitsToFp [b]
  pure (piece f 1)

/-- roinput.rs 78-84: `new().append_u32(x)` -/
def u32 (x : UInt32) : M Chunked := do
  let f ← bitsToFp (bytesBits (leBytes 4 x.toNat))
  pure (piece f 32)

/-- roinput.rs 87-93: `new().append_u64(x)` -/
def u64 (x : UInt64) : M Chunked := do
  let f ← bitsToFp (bytesBits (leBytes 8 x.toNat))
  pure (piece f 64)

/-- A chain of appends in the given order: `new().append_…(..).append_…(..)`. Every `append_…` of
the code is `append` of what it would give on an empty input (roinput.rs 36-93). -/
def build : List (M Chunked) → M Chunked
  | [] => .ok new
  | x :: xs => do
    let c ← x
    let d ← build xs
    pure (c.append d)

/-- roinput.rs 60-65: `new().append_bytes(bytes)`: one boolean piece per bit. -/
def bytes (bs : Bytes) : M Chunked := build ((bytesBits bs).map bool)

/-- roinput.rs 97-105: `shl`. `BigInteger256::muln` multiplies by `2^n` and drops what does not fit
256 bits; `big.into()` panics unless the number is below `p`. -/
def shl (f : Fp) (n : Nat) : M Fp :=
  if n = 0 then .ok f
  else if h : f.val * 2 ^ n % 2 ^ 256 < p then .ok ⟨_, h⟩ else .error .notInField

/-- roinput.rs 108-122: the loop over the pieces with `acc_bits` and `sum`, and the final push;
the result is what the loop pushes after this state. -/
def packLoop : Nat → Fp → List (Fp × Nat) → M (List Fp)
  | acc, sum, [] => .ok (if acc > 0 then [sum] else [])
  | acc, sum, (f, n) :: ps =>
    if 2 ^ 32 ≤ acc + n then .error .overflow
    else if acc + n < 255 then do
      let s ← shl sum n
      packLoop (acc + n) (s + f) ps
    else do
      let r ← packLoop n f ps
      pure (sum :: r)

/-- roinput.rs 96-124: `into_fields`; also `From<ChunkedROInput> for ROInput` (145-153), whose
result has these fields and no bits. -/
def intoFields (c : Chunked) : M (List Fp) := do
  let r ← packLoop 0 0 c.packed
  pure (c.fields ++ r)

end Chunked

/-- `mina_hasher::ROInput` (external crate): field elements and bits (used at
`proof-systems-shim/src/roinput.rs:145-153`). -/
structure Legacy where
  fields : List Fp
  bits : List Bool
  deriving DecidableEq

namespace Legacy

/-- `ROInput::new` (external crate, used at `crypto/src/hash/types.rs:73`) -/
def new : Legacy := ⟨[], []⟩
/-- `ROInput::append` / `append_hashable` (external crate, used at `crypto/src/hash/types.rs:206`) -/
def append (a b : Legacy) : Legacy := ⟨a.fields ++ b.fields, a.bits ++ b.bits⟩
/-- `append_field` (external crate, used at `crypto/src/hash/types.rs:73`) -/
def field (f : Fp) : Legacy := ⟨[f], []⟩
/-- `append_bool` (external crate, used at `base/src/user_commands/signed_command/mod.rs:84-136`) -/
def bool (b : Bool) : Legacy := ⟨[], [b]⟩
/-- `append_bytes`: the bits of the bytes, least significant first (used at
`base/src/user_commands/signed_command/mod.rs:84-136`) -/
def bytes (bs : Bytes) : Legacy := ⟨[], bytesBits bs⟩
/-- `append_u32`: its little-endian bytes (used at `base/src/user_commands/signed_command/mod.rs:84-136`) -/
def u32 (x : UInt32) : Legacy := bytes (leBytes 4 x.toNat)
/-- `append_u64` (external crate, used at `base/src/user_commands/signed_command/mod.rs:84-136`) -/
def u64 (x : UInt64) : Legacy := bytes (leBytes 8 x.toNat)

/-- A chain of appends (as at `base/src/user_commands/signed_command/mod.rs:84-136`). -/
def build : List Legacy → Legacy
  | [] => new
  | x :: xs => x.append (build xs)

/-- Cutting a list into chunks of 254, the last one possibly shorter (`bits.chunks(254)`) (external crate, below
`merkle/src/merger_poseidon.rs:53-60`). -/
def chunks254 (l : List Bool) : List (List Bool) :=
  if h : l = [] then [] else l.take 254 :: chunks254 (l.drop 254)
termination_by l.length
decreasing_by
  have : 0 < l.length := List.length_pos_iff.2 h
  simp only [List.length_drop]; omega

theorem bitsNat_lt (l : List Bool) : bitsNat l < 2 ^ l.length := by
  induction l with
  | nil => simp [bitsNat]
  | cons b bs ih =>
    simp only [bitsNat, List.length_cons, Nat.pow_succ]
    cases b <;> simp <;> omega

theorem take_lt_p (l : List Bool) : bitsNat (l.take 254) < p := by
  refine Nat.lt_of_lt_of_le (bitsNat_lt _) (Nat.le_trans (Nat.pow_le_pow_right (by decide) ?_)
    (show 2 ^ 254 ≤ p by decide))
  simp only [List.length_take]; omega

/-- `ROInput::to_fields` (external crate, the input of the Poseidon sponge): the field elements, then
the bits in chunks of 254, each read as a little-endian number (below `merkle/src/merger_poseidon.rs:53-60`). -/
def toFields (r : Legacy) : List Fp :=
  r.fields ++ (chunks254 r.bits).map fun c => ⟨bitsNat (c.take 254), take_lt_p c⟩

end Legacy

end MinaRs.Hash
