import Verif.BinProt.Bytes

/-!
# Independent specification of the bin_prot integer wire format

Nothing here mentions the reader or the writer.  `WireInt bs v` says "the byte string `bs`
is a complete wire form whose mathematical value is `v`", `WireNat` the same for Nat0.
-/

namespace MinaRs.BinProt.Spec

/-- `v` is the two's complement value of the little-endian bytes `bs`: it lies in the signed
range of that width and is congruent to the unsigned little-endian value. -/
def IsSignedLE (bs : Bytes) (v : Int) : Prop :=
  -(2 ^ (8 * bs.length - 1)) ≤ v ∧ v < 2 ^ (8 * bs.length - 1) ∧
    v % 2 ^ (8 * bs.length) = (leNat bs : Int)

/-- How many payload bytes follow an integer lead byte; `none` if it is not a lead byte. -/
def intPayload (lead : UInt8) : Option Nat :=
  if lead.toNat ≤ 0x80 then some 0
  else if lead.toNat = 0xff then some 1
  else if lead.toNat = 0xfe then some 2
  else if lead.toNat = 0xfd then some 4
  else if lead.toNat = 0xfc then some 8
  else none

/-- Complete wire forms of signed integers accepted by the format, with their value. -/
inductive WireInt : Bytes → Int → Prop
  /-- one byte up to 0x80 is its own value -/
  | small (b : UInt8) (h : b.toNat ≤ 0x80) : WireInt [b] b.toNat
  /-- 0xff, then one byte; 0xfe, two; 0xfd, four; 0xfc, eight: two's complement -/
  | wide (lead : UInt8) (k : Nat) (p : Bytes) (v : Int) (hl : intPayload lead = some k)
      (hk : 0 < k) (hp : p.length = k) (hv : IsSignedLE p v) : WireInt (lead :: p) v

/-- How many payload bytes follow a Nat0 lead byte. -/
def natPayload (lead : UInt8) : Option Nat :=
  if lead.toNat ≤ 0x80 then some 0
  else if lead.toNat = 0xfe then some 2
  else if lead.toNat = 0xfd then some 4
  else if lead.toNat = 0xfc then some 8
  else none

/-- Complete wire forms of Nat0 numbers, with their value. -/
inductive WireNat : Bytes → Nat → Prop
  | small (b : UInt8) (h : b.toNat ≤ 0x80) : WireNat [b] b.toNat
  | wide (lead : UInt8) (k : Nat) (p : Bytes) (hl : natPayload lead = some k)
      (hk : 0 < k) (hp : p.length = k) : WireNat (lead :: p) (leNat p)

/-- The bytes of a label as the digits of a number in base 223, the first one most significant. -/
def base223 (label : Bytes) : Nat := label.foldl (fun accu byte => 223 * accu + byte.toNat) 0

/-- OCaml's variant hash (`caml_hash_variant` / `Btype.hash_variant`), over unbounded
integers: the label's bytes as digits in base 223, reduced modulo 2^31. -/
def ocamlHashVariant (label : Bytes) : Nat :=
  (label.foldl (fun h b => 223 * h + b.toNat) 0) % 2 ^ 31

/-- bin_prot writes a polymorphic variant tag `h` as the OCaml-tagged 32-bit integer
`2 * h + 1`, little endian. -/
def ocamlTagBytes (h : Nat) : Bytes := leBytes 4 (2 * h + 1)

end MinaRs.BinProt.Spec
