import Verif.Hash.Sha256

/-!
# The constants and the padding of SHA-256

`Sha256.lean` writes the constants out; here they are compared with their definition in FIPS 180-4, and the
padding with its description.
-/

namespace MinaRs.Hash.Sha256

/-- `q` is prime. -/
def Prime (q : Nat) : Prop := 2 ≤ q ∧ ∀ d, d < q → 2 ≤ d → q % d ≠ 0

instance (q : Nat) : Decidable (Prime q) := by unfold Prime; infer_instance

/-- The primes below `n`, in order -/
def primesBelow (n : Nat) : List Nat := (List.range n).filter (fun q => decide (Prime q))

/-- `w` is made of the first 32 bits of the fractional part of the `k`-th root of `q`: with the whole part `m`,
`m + w / 2 ^ 32` is the root rounded down. -/
def RootBits (k q w : Nat) : Prop :=
  ∃ m, m < q + 1 ∧ w < 2 ^ 32 ∧ (m * 2 ^ 32 + w) ^ k ≤ q * 2 ^ (32 * k) ∧ q * 2 ^ (32 * k) < (m * 2 ^ 32 + w + 1) ^ k

instance (k q w : Nat) : Decidable (RootBits k q w) := by unfold RootBits; infer_instance

/-- **C86 (checksums).** The round constants are the fractional bits of the cube roots of the first 64 primes, the
initial state those of the square roots of the first eight. -/
theorem C86_sha256_constants :
    (primesBelow 312).length = 64 ∧ K.length = 64 ∧ (∀ x ∈ (primesBelow 312).zip K, RootBits 3 x.1 x.2) ∧
    (primesBelow 20).length = 8 ∧
    (∀ x ∈ (primesBelow 20).zip [init.a, init.b, init.c, init.d, init.e, init.f, init.g, init.h], RootBits 2 x.1 x.2) := by
  decide +kernel

/-- A number written in bytes, most significant first -/
def beNat (bs : Bytes) : Nat := bs.foldl (fun n b => n * 256 + b.toNat) 0

/-- **C86 (checksums).** A padded message is the message, the byte `0x80`, fewer than 64 zero bytes and the number of its
bits in eight bytes, and its length is a multiple of 64 bytes. -/
theorem C86_sha256_padding (n : Nat) (h : 8 * n < 2 ^ 64) :
    ∃ z len, padding n = 0x80 :: (List.replicate z 0 ++ len) ∧ z < 64 ∧ len.length = 8 ∧ beNat len = 8 * n ∧
      (n + (padding n).length) % 64 = 0 := by
  refine ⟨(119 - n % 64) % 64, wordBytes (8 * n / 4294967296 % 4294967296) ++ wordBytes (8 * n % 4294967296), ?_,
    Nat.mod_lt _ (by decide), rfl, ?_, ?_⟩
  · unfold padding; rw [List.append_assoc]
  · simp only [beNat, wordBytes, List.cons_append, List.nil_append, List.foldl_cons, List.foldl_nil, UInt8.toNat_ofNat']
    omega
  · simp only [padding, List.length_cons, List.length_append, List.length_replicate]
    have : ∀ w, (wordBytes w).length = 4 := fun _ => rfl
    simp only [this]
    have := Nat.mod_lt n (show 64 > 0 by decide)
    omega

example : 8 * 1000 < 2 ^ 64 := by decide

/-- The published digests of the empty message, of `abc` and of a message of two blocks (FIPS 180-4 examples) -/
theorem sha256_examples :
    beNat (digest []) = 0xe3b0c44298fc1c149afbf4c8996fb92427ae41e4649b934ca495991b7852b855 ∧
    beNat (digest [0x61, 0x62, 0x63]) = 0xba7816bf8f01cfea414140de5dae2223b00361a396177a9cb410ff61f20015ad ∧
    beNat (digest ("abcdbcdecdefdefgefghfghighijhijkijkljklmklmnlmnomnopnopq".toList.map (fun c => UInt8.ofNat c.toNat))) =
      0x248d6a61d20638b8e5c026930c3e6039a33ce45964ff2167f6ecedd419db06c1 := by
  decide +kernel

end MinaRs.Hash.Sha256
