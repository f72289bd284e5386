import Verif.BinProt.Serde
import Verif.BinProt.PrimSpec

/-!
# Which values the wire format can carry

`Fits t v` is the condition under which a value survives a round trip.  Each clause that is
not about sheer size is a restriction of the *code*; the theorems `C07_*_fails` show that
none of them can be dropped.
-/

namespace MinaRs.BinProt

/-- All bytes of a name are ASCII. -/
def IsAsciiName (n : String) : Prop := ∀ b ∈ utf8 n, b.toNat < 128

/-- The variant's tag survives (its hash is below 2^31), is not shared with an earlier
variant, all names are ASCII and the variant's position fits a byte. -/
def PolyvarOk (vs : Tys) (v : vs.sum) : Prop :=
  vs.index v < 256 ∧
  (camlHashVariant (utf8 (vs.variantName v))).toNat < 2 ^ 31 ∧
  (∀ n ∈ vs.names, IsAsciiName n) ∧
  (∀ n ∈ vs.names.take (vs.index v),
    camlHashVariant (utf8 n) ≠ camlHashVariant (utf8 (vs.variantName v)))

mutual
/-- The value can be carried by the wire format. -/
def Fits : (t : Ty) → t.denote → Prop
  | .unit, _ => True
  | .bool, _ => True
  | .u8, _ => True
  | .int k, n => k = .u64 → n.val < 2 ^ 63
  | .f32, _ => True
  | .f64, _ => True
  | .char, c => Char.toNat c < 256
  | .string, s => (utf8 s).length < 2 ^ 63
  | .option t, o => ∀ v, (show Option _ from o) = some v → Fits t v
  | .newtype t, v => Fits t v
  | .seq t, vs => (show List _ from vs).length < 2 ^ 64 ∧ ∀ v ∈ (show List t.denote from vs), Fits t v
  | .tuple ts, v => FitsProd ts v
  | .struct ts, v => FitsProd ts v
  | .enum vs, v => vs.index v < 256 ∧ FitsSum vs v
  | .polyvar vs, v => PolyvarOk vs v ∧ FitsSum vs v
/-- Every field fits. -/
def FitsProd : (ts : Tys) → ts.prod → Prop
  | .nil, _ => True
  | .cons _ t ts, v => Fits t (show _ × _ from v).1 ∧ FitsProd ts (show _ × _ from v).2
/-- The payload fits. -/
def FitsSum : (vs : Tys) → vs.sum → Prop
  | .nil, _ => True
  | .cons _ t ts, v =>
    match (show t.denote ⊕ ts.sum from v) with
    | .inl w => Fits t w
    | .inr w => FitsSum ts w
end

/-! ## The wire grammar

`Wire t enc v`: the byte string `enc` is one complete wire form of the value `v` at type `t`.
Nothing here mentions the reader or the writer. -/

namespace Spec

/-- The variant hash before OCaml's reduction modulo 2^31 (the code stops at 2^32). -/
def hash32 (label : Bytes) : Nat := (label.foldl (fun h b => 223 * h + b.toNat) 0) % 2 ^ 32

/-- The bytes are wire forms of the listed values, back to back. -/
def WireElems {α : Type} (R : Bytes → α → Prop) : Bytes → List α → Prop
  | enc, [] => enc = []
  | enc, v :: vs => ∃ e₁ e₂, enc = e₁ ++ e₂ ∧ R e₁ v ∧ WireElems R e₂ vs

mutual
/-- Complete wire forms. -/
def Wire : (t : Ty) → Bytes → t.denote → Prop
  | .unit, enc, _ => enc = [0x00]
  | .bool, enc, b => enc = [if (show Bool from b) then 0x01 else 0x00]
  | .u8, enc, b => enc = [show UInt8 from b]
  | .int _, enc, n => WireInt enc n.val
  | .f32, enc, f => enc.length = 4 ∧ leNat enc = (show UInt32 from f).toNat
  | .f64, enc, f => enc.length = 8 ∧ leNat enc = (show UInt64 from f).toNat
  | .char, enc, c => ∃ b : UInt8, enc = [b] ∧ (show Char from c).toNat = b.toNat
  | .string, enc, s =>
    ∃ len, enc = len ++ utf8 s ∧ (utf8 s).length < 2 ^ 63 ∧ WireNat len (utf8 s).length
  | .option t, enc, o =>
    match (show Option t.denote from o) with
    | none => enc = [0x00]
    | some v => ∃ e, enc = 0x01 :: e ∧ Wire t e v
  | .newtype t, enc, v => Wire t enc v
  | .seq t, enc, vs =>
    ∃ len es, enc = len ++ es ∧ WireNat len (show List t.denote from vs).length ∧
      WireElems (fun e v => Wire t e v) es (show List t.denote from vs)
  | .tuple ts, enc, v => WireProd ts enc v
  | .struct ts, enc, v => WireProd ts enc v
  | .enum vs, enc, v => ∃ (b : UInt8) (e : Bytes), enc = b :: e ∧ b.toNat = vs.index v ∧ WireSum vs e v
  | .polyvar vs, enc, v =>
    ∃ tag e, enc = tag ++ e ∧ tag.length = 4 ∧ leNat tag / 2 = hash32 (utf8 (vs.variantName v)) ∧
      (∀ n ∈ vs.names.take (vs.index v), hash32 (utf8 n) ≠ hash32 (utf8 (vs.variantName v))) ∧
      WireSum vs e v
/-- Fields back to back. -/
def WireProd : (ts : Tys) → Bytes → ts.prod → Prop
  | .nil, enc, _ => enc = []
  | .cons _ t ts, enc, v =>
    ∃ e₁ e₂, enc = e₁ ++ e₂ ∧ Wire t e₁ (show _ × _ from v).1 ∧ WireProd ts e₂ (show _ × _ from v).2
/-- The payload of the variant. -/
def WireSum : (vs : Tys) → Bytes → vs.sum → Prop
  | .nil, _, _ => False
  | .cons _ t ts, enc, v =>
    match (show t.denote ⊕ ts.sum from v) with
    | .inl w => Wire t enc w
    | .inr w => WireSum ts enc w
end

/-- Somewhere in the bytes a length of at least `n` is announced: the byte 0xfc, then the length in eight bytes. -/
def Announces (n : Nat) (s : Bytes) : Prop :=
  ∃ before len after, s = before ++ 0xfc :: (len ++ after) ∧ len.length = 8 ∧ n ≤ leNat len

mutual
/-- Polymorphic variants inside the type have ASCII labels and at most 256 of them (labels are
OCaml identifiers, so this is no restriction in practice). -/
def WfTy : Ty → Prop
  | .option t => WfTy t
  | .newtype t => WfTy t
  | .seq t => WfTy t
  | .tuple ts => WfTys ts
  | .struct ts => WfTys ts
  | .enum vs => WfTys vs
  | .polyvar vs => (∀ n ∈ vs.names, IsAsciiName n) ∧ vs.length ≤ 256 ∧ WfTys vs
  | _ => True
/-- All entries are well-formed. -/
def WfTys : Tys → Prop
  | .nil => True
  | .cons _ t ts => WfTy t ∧ WfTys ts
end

mutual
/-- The type has no string anywhere in it. -/
def StringFree : Ty → Bool
  | .string => false
  | .option t => StringFree t
  | .newtype t => StringFree t
  | .seq t => StringFree t
  | .tuple ts => StringFreeAll ts
  | .struct ts => StringFreeAll ts
  | .enum vs => StringFreeAll vs
  | .polyvar vs => StringFreeAll vs
  | _ => true
def StringFreeAll : Tys → Bool
  | .nil => true
  | .cons _ t ts => StringFree t && StringFreeAll ts
end

end Spec

end MinaRs.BinProt
