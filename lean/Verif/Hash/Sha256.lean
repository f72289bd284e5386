import Verif.Hash.Types

/-!
# SHA-256

The digest that the `sha2` crate computes, as FIPS 180-4 defines it.  Two places of the code rest on it:
the digest of a staged ledger hash (`crypto/src/hash/types.rs:403-412`) and the checksums of the base58
texts (`bs58` with the `check` feature: the first four bytes of the digest of the digest).  The crate
itself is not part of the repository; this file is what the model says about it.
-/

namespace MinaRs.Hash.Sha256

/-- A word of 32 bits, kept as a number below `2 ^ 32` (external crate, imported at `crypto/src/hash/types.rs:21`) -/
abbrev Word := Nat

/-- Rotation to the right by `n` places (FIPS 180-4, 3.2) -/
def rotr (n : Nat) (x : Word) : Word := (x >>> n) ||| ((x <<< (32 - n)) % 4294967296)

/-- `Ch` (FIPS 180-4, 4.1.2); `x ^ 0xffffffff` is the complement of `x` -/
def ch (x y z : Word) : Word := (x &&& y) ^^^ ((x ^^^ 4294967295) &&& z)

/-- `Maj` (FIPS 180-4, 4.1.2) -/
def maj (x y z : Word) : Word := (x &&& y) ^^^ (x &&& z) ^^^ (y &&& z)

/-- `Σ₀` (FIPS 180-4, 4.1.2) -/
def bigSigma0 (x : Word) : Word := rotr 2 x ^^^ rotr 13 x ^^^ rotr 22 x
/-- `Σ₁` (FIPS 180-4, 4.1.2) -/
def bigSigma1 (x : Word) : Word := rotr 6 x ^^^ rotr 11 x ^^^ rotr 25 x
/-- `σ₀` (FIPS 180-4, 4.1.2) -/
def sigma0 (x : Word) : Word := rotr 7 x ^^^ rotr 18 x ^^^ (x >>> 3)
/-- `σ₁` (FIPS 180-4, 4.1.2) -/
def sigma1 (x : Word) : Word := rotr 17 x ^^^ rotr 19 x ^^^ (x >>> 10)

/-- The round constants (FIPS 180-4, 4.2.2) -/
def K : List Word := [
  0x428a2f98, 0x71374491, 0xb5c0fbcf, 0xe9b5dba5, 0x3956c25b, 0x59f111f1, 0x923f82a4, 0xab1c5ed5,
  0xd807aa98, 0x12835b01, 0x243185be, 0x550c7dc3, 0x72be5d74, 0x80deb1fe, 0x9bdc06a7, 0xc19bf174,
  0xe49b69c1, 0xefbe4786, 0x0fc19dc6, 0x240ca1cc, 0x2de92c6f, 0x4a7484aa, 0x5cb0a9dc, 0x76f988da,
  0x983e5152, 0xa831c66d, 0xb00327c8, 0xbf597fc7, 0xc6e00bf3, 0xd5a79147, 0x06ca6351, 0x14292967,
  0x27b70a85, 0x2e1b2138, 0x4d2c6dfc, 0x53380d13, 0x650a7354, 0x766a0abb, 0x81c2c92e, 0x92722c85,
  0xa2bfe8a1, 0xa81a664b, 0xc24b8b70, 0xc76c51a3, 0xd192e819, 0xd6990624, 0xf40e3585, 0x106aa070,
  0x19a4c116, 0x1e376c08, 0x2748774c, 0x34b0bcb5, 0x391c0cb3, 0x4ed8aa4a, 0x5b9cca4f, 0x682e6ff3,
  0x748f82ee, 0x78a5636f, 0x84c87814, 0x8cc70208, 0x90befffa, 0xa4506ceb, 0xbef9a3f7, 0xc67178f2]

/-- The eight working variables -/
structure State where
  (a b c d e f g h : Word)
deriving DecidableEq

/-- The initial hash value (FIPS 180-4, 5.3.3) -/
def init : State :=
  ⟨0x6a09e667, 0xbb67ae85, 0x3c6ef372, 0xa54ff53a, 0x510e527f, 0x9b05688c, 0x1f83d9ab, 0x5be0cd19⟩

/-- One round (FIPS 180-4, 6.2.2, step 3) with the round constant `k` and the word `w` of the schedule -/
def round (s : State) (k w : Word) : State :=
  let t1 := s.h + bigSigma1 s.e + ch s.e s.f s.g + k + w
  let t2 := bigSigma0 s.a + maj s.a s.b s.c
  ⟨(t1 + t2) % 4294967296, s.a, s.b, s.c, (s.d + t1) % 4294967296, s.e, s.f, s.g⟩

/-- The next word of the schedule, from the sixteen before it, oldest first (FIPS 180-4, 6.2.2, step 1) -/
def nextWord (ws : List Word) : Word :=
  (sigma1 (ws[14]?.getD 0) + ws[9]?.getD 0 + sigma0 (ws[1]?.getD 0) + ws[0]?.getD 0) % 4294967296

/-- All rounds: the sixteen words of the window are the next ones of the schedule. -/
def rounds : List Word → List Word → State → State
  | [], _, s => s
  | k :: ks, ws, s => rounds ks (ws.tail ++ [nextWord ws]) (round s k (ws[0]?.getD 0))

/-- One block of sixteen words (FIPS 180-4, 6.2.2) -/
def compress (s : State) (ws : List Word) : State :=
  let t := rounds K ws s
  ⟨(s.a + t.a) % 4294967296, (s.b + t.b) % 4294967296, (s.c + t.c) % 4294967296, (s.d + t.d) % 4294967296,
   (s.e + t.e) % 4294967296, (s.f + t.f) % 4294967296, (s.g + t.g) % 4294967296, (s.h + t.h) % 4294967296⟩

/-- Four bytes as a word, most significant first -/
def beWord : Bytes → List Word
  | a :: b :: c :: d :: rest =>
    (a.toNat * 16777216 + b.toNat * 65536 + c.toNat * 256 + d.toNat) :: beWord rest
  | _ => []

/-- The bytes of a word, most significant first -/
def wordBytes (w : Word) : Bytes :=
  [UInt8.ofNat (w / 16777216), UInt8.ofNat (w / 65536), UInt8.ofNat (w / 256), UInt8.ofNat w]

/-- The padding of a message of `n` bytes (FIPS 180-4, 5.1.1): `0x80`, the fewest zero bytes that complete a
block, and the length of the message in bits in eight bytes (the `sha2` crate counts modulo `2 ^ 64` too) -/
def padding (n : Nat) : Bytes :=
  0x80 :: (List.replicate ((119 - n % 64) % 64) 0 ++
    wordBytes (8 * n / 4294967296 % 4294967296) ++ wordBytes (8 * n % 4294967296))

/-- All blocks, one after another -/
def blocks (s : State) (ws : List Word) : Nat → State
  | 0 => s
  | n + 1 => blocks (compress s (ws.take 16)) (ws.drop 16) n

/-- The digest of a message (`sha2::Sha256::digest`) (used at `crypto/src/hash/types.rs:21`) -/
def digest (msg : Bytes) : Bytes :=
  let ws := beWord (msg ++ padding msg.length)
  let s := blocks init ws (ws.length / 16)
  wordBytes s.a ++ wordBytes s.b ++ wordBytes s.c ++ wordBytes s.d ++
    wordBytes s.e ++ wordBytes s.f ++ wordBytes s.g ++ wordBytes s.h

/-- The checksum of the base58 texts (`bs58` 0.4, feature `check`): four bytes of the double digest (used at
`protocol/serialization-types/src/common.rs:258, 280`) -/
def check (msg : Bytes) : Bytes := (digest (digest msg)).take 4

end MinaRs.Hash.Sha256
