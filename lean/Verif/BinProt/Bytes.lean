/-!
# Bytes, little-endian numbers and two's complement

Shared arithmetic for the model of `protocol/bin-prot`.  `byteorder`'s
`read_u16::<LittleEndian>` and friends, `to_le_bytes`/`from_le_bytes` and the `as`
casts between signed and unsigned integers are modelled here.
-/

namespace MinaRs

/-- A byte string (`Vec<u8>`, `protocol/bin-prot/src/ser.rs:28`). -/
abbrev Bytes := List UInt8

/-- `byteorder`'s `write_u16/u32/u64::<LittleEndian>` and `to_le_bytes`: the low `k` bytes
of `n`, least significant first (`k` = 2, 4, 8 in the code) (`protocol/bin-prot/src/write_ext.rs:39-67, 86-106`). -/
def leBytes : Nat → Nat → Bytes
  | 0, _ => []
  | k + 1, n => UInt8.ofNat (n % 256) :: leBytes k (n / 256)

/-- `byteorder`'s `read_u16/u32/u64::<LittleEndian>` and `from_le_bytes`
(`protocol/bin-prot/src/read_ext.rs:52-60, 85-93`). -/
def leNat : Bytes → Nat
  | [] => 0
  | b :: bs => b.toNat + 256 * leNat bs

/-- The `as iN` cast of an unsigned `N`-bit number: two's complement value
(`protocol/bin-prot/src/read_ext.rs:48-60`, `protocol/serialization-types/src/common.rs:158`). -/
def toSigned (bits : Nat) (n : Nat) : Int :=
  if n < 2 ^ (bits - 1) then (n : Int) else (n : Int) - 2 ^ bits

/-- The `as uN` cast of a (wider or equal) signed number: reduction modulo `2^N`
(`protocol/bin-prot/src/write_ext.rs:36-67`, `protocol/serialization-types/src/common.rs:164`). -/
def wrapU (bits : Nat) (n : Int) : Nat := (n % 2 ^ bits).toNat

@[simp] theorem leBytes_length (k n : Nat) : (leBytes k n).length = k := by
  induction k generalizing n with
  | zero => rfl
  | succ k ih => simp [leBytes, ih]

theorem UInt8.toNat_ofNat_mod (n : Nat) : (UInt8.ofNat (n % 256)).toNat = n % 256 := by
  simp

theorem leNat_leBytes (k n : Nat) : leNat (leBytes k n) = n % 256 ^ k := by
  induction k generalizing n with
  | zero => simp [leBytes, leNat, Nat.mod_one]
  | succ k ih =>
    simp only [leBytes, leNat, ih, UInt8.toNat_ofNat_mod]
    rw [Nat.pow_succ', Nat.mod_mul]

theorem leNat_leBytes_of_lt {k n : Nat} (h : n < 256 ^ k) : leNat (leBytes k n) = n := by
  rw [leNat_leBytes, Nat.mod_eq_of_lt h]

theorem leNat_lt (bs : Bytes) : leNat bs < 256 ^ bs.length := by
  induction bs with
  | nil => simp [leNat]
  | cons b bs ih =>
    have hb := b.toNat_lt
    simp only [leNat, List.length_cons, Nat.pow_succ']
    omega

theorem leBytes_leNat (bs : Bytes) : leBytes bs.length (leNat bs) = bs := by
  induction bs with
  | nil => rfl
  | cons b bs ih =>
    have hb := b.toNat_lt
    simp only [leNat, List.length_cons, leBytes]
    have h1 : (b.toNat + 256 * leNat bs) % 256 = b.toNat := by omega
    have h2 : (b.toNat + 256 * leNat bs) / 256 = leNat bs := by omega
    rw [h1, h2, ih]
    simp

theorem wrapU_of_nonneg {bits : Nat} {n : Int} (h0 : 0 ≤ n) (h1 : n < 2 ^ bits) :
    (wrapU bits n : Int) = n := by
  unfold wrapU
  rw [Int.emod_eq_of_lt h0 h1]
  omega

theorem wrapU_of_neg {bits : Nat} {n : Int} (h0 : n < 0) (h1 : -(2 ^ bits) ≤ n) :
    (wrapU bits n : Int) = n + 2 ^ bits := by
  unfold wrapU
  have hpos : (0 : Int) < 2 ^ bits := Int.pow_pos (by decide)
  have : n % 2 ^ bits = n + 2 ^ bits := by
    rw [← Int.add_emod_right]
    exact Int.emod_eq_of_lt (by omega) (by omega)
  rw [this]
  omega

theorem wrapU_lt (bits : Nat) (n : Int) : wrapU bits n < 2 ^ bits := by
  unfold wrapU
  have hpos : (0 : Int) < 2 ^ bits := Int.pow_pos (by decide)
  have h1 := Int.emod_lt_of_pos n hpos
  have h0 := Int.emod_nonneg n (Int.ne_of_gt hpos)
  have : ((n % 2 ^ bits).toNat : Int) < ((2 ^ bits : Nat) : Int) := by
    rw [Int.toNat_of_nonneg h0]; simpa using h1
  exact Int.ofNat_lt.mp this

end MinaRs
