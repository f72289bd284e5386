import Verif.Block.Model
import Verif.BinProt.SerdeSpec

/-! What a block may lose or gain on its way through the wire format: version numbers, and numbers the
wire cannot carry or the node cannot hold. -/

namespace MinaRs.Block.Spec

open BinProt (Ty Tys IntKind)

/-! ## Version numbers -/

/-- Set a version number to 1. -/
def one : (t : Ty) → t.denote → t.denote
  | .int .u16, _ => (⟨1, by decide⟩ : {n : Int // BinProt.u16.holds n})
  | _, v => v

mutual
/-- The value with every struct field called `version` set to 1. -/
def setVersions : (t : Ty) → t.denote → t.denote
  | .option t, v => ((show Option t.denote from v).map (setVersions t) : Option t.denote)
  | .newtype t, v => setVersions t v
  | .seq t, v => ((show List t.denote from v).map (setVersions t) : List t.denote)
  | .tuple ts, v => setVersionsAll ts v
  | .struct ts, v => setVersionsAll ts v
  | .enum vs, v => setVersionsVar vs v
  | .polyvar vs, v => setVersionsVar vs v
  | _, v => v
def setVersionsAll : (ts : Tys) → ts.prod → ts.prod
  | .nil, v => v
  | .cons n t ts, v =>
    ((if n = "version" then one t (show t.denote × ts.prod from v).1 else setVersions t (show t.denote × ts.prod from v).1,
      setVersionsAll ts (show t.denote × ts.prod from v).2) : t.denote × ts.prod)
def setVersionsVar : (vs : Tys) → vs.sum → vs.sum
  | .nil, v => v
  | .cons _ t ts, v =>
    match (show t.denote ⊕ ts.sum from v) with
    | .inl w => (.inl (setVersions t w) : t.denote ⊕ ts.sum)
    | .inr w => (.inr (setVersionsVar ts w) : t.denote ⊕ ts.sum)
end

/-! ## Field elements -/

/-- The order of the base field of the Pallas curve, where the coordinates of keys live. -/
def baseOrder : Nat := 28948022309329048855892746252171976963363056481941560715954676764349967630337

/-- The order of the scalar field of the Pallas curve, where the second halves of signatures live. -/
def scalarOrder : Nat := 28948022309329048855892746252171976963363056481941647379679742748393362948097

mutual
/-- Every coordinate of a key or signature is below the order of the base field, and every signature
scalar below the order of the scalar field. -/
def Canonical : (t : BTy) → t.wire.denote → Prop
  | .key, v => leNat (Json.arrBytes 32 (show (Json.u8s 32).prod × Bool × Unit from v).1) < baseOrder
  | .sig, v =>
    leNat (Json.arrBytes 32 (show (Json.u8s 32).prod × (Json.u8s 32).prod × Unit from v).1) < baseOrder ∧
    leNat (Json.arrBytes 32 (show (Json.u8s 32).prod × (Json.u8s 32).prod × Unit from v).2.1) < scalarOrder
  | .option t, v => ∀ w, (show Option t.wire.denote from v) = some w → Canonical t w
  | .newtype t, v => Canonical t v
  | .seq t, v => ∀ w ∈ (show List t.wire.denote from v), Canonical t w
  | .tuple ts, v => CanonicalAll ts v
  | .struct ts, v => CanonicalAll ts v
  | .versioned t, v => Canonical t (show {n : Int // BinProt.u16.holds n} × t.wire.denote × Unit from v).2.1
  | .enum vs, v => CanonicalVar vs v
  | .polyvar vs, v => CanonicalVar vs v
  | _, _ => True
def CanonicalAll : (ts : BTys) → ts.wire.prod → Prop
  | .nil, _ => True
  | .cons _ t ts, v => Canonical t (show t.wire.denote × ts.wire.prod from v).1 ∧
      CanonicalAll ts (show t.wire.denote × ts.wire.prod from v).2
def CanonicalVar : (vs : BTys) → vs.wire.sum → Prop
  | .nil, _ => True
  | .cons _ t ts, v =>
    match (show t.wire.denote ⊕ ts.wire.sum from v) with
    | .inl w => Canonical t w
    | .inr w => CanonicalVar ts w
end

/-! ## What the wire carries -/

mutual
/-- Every list is shorter than 2^64 (true of every list in memory). -/
def InMemory : (t : BTy) → t.base → Prop
  | .bytes, v => (show List UInt8 from v).length < 2 ^ 64
  | .option t, v => ∀ w, (show Option t.base from v) = some w → InMemory t w
  | .newtype t, v => InMemory t v
  | .seq t, v => (show List t.base from v).length < 2 ^ 64 ∧ ∀ w ∈ (show List t.base from v), InMemory t w
  | .tuple ts, v => InMemoryAll ts v
  | .struct ts, v => InMemoryAll ts v
  | .versioned t, v => InMemory t v
  | .enum vs, v => InMemoryVar vs v
  | .polyvar vs, v => InMemoryVar vs v
  | _, _ => True
def InMemoryAll : (ts : BTys) → ts.prod → Prop
  | .nil, _ => True
  | .cons _ t ts, v => InMemory t (show t.base × ts.prod from v).1 ∧ InMemoryAll ts (show t.base × ts.prod from v).2
def InMemoryVar : (vs : BTys) → vs.sum → Prop
  | .nil, _ => True
  | .cons _ t ts, v =>
    match (show t.base ⊕ ts.sum from v) with
    | .inl w => InMemory t w
    | .inr w => InMemoryVar ts w
end

mutual
/-- Every 64-bit unsigned number (amounts, token numbers, times) is below 2^63. -/
def Small : (t : BTy) → t.base → Prop
  | .int k, v => k = .u64 → (show {n : Int // k.range.holds n} from v).val < 2 ^ 63
  | .option t, v => ∀ w, (show Option t.base from v) = some w → Small t w
  | .newtype t, v => Small t v
  | .seq t, v => ∀ w ∈ (show List t.base from v), Small t w
  | .tuple ts, v => SmallAll ts v
  | .struct ts, v => SmallAll ts v
  | .versioned t, v => Small t v
  | .enum vs, v => SmallVar vs v
  | .polyvar vs, v => SmallVar vs v
  | _, _ => True
def SmallAll : (ts : BTys) → ts.prod → Prop
  | .nil, _ => True
  | .cons _ t ts, v => Small t (show t.base × ts.prod from v).1 ∧ SmallAll ts (show t.base × ts.prod from v).2
def SmallVar : (vs : BTys) → vs.sum → Prop
  | .nil, _ => True
  | .cons _ t ts, v =>
    match (show t.base ⊕ ts.sum from v) with
    | .inl w => Small t w
    | .inr w => SmallVar ts w
end

/-! ## Descriptions -/

mutual
/-- What is used of the block's description: only version layers have a field called `version`; enums have
at most 256 variants; and the labels of polymorphic variants are ASCII, have hashes below 2^31 and differ
in their hashes. -/
def Ordinary : BTy → Bool
  | .option t => Ordinary t
  | .newtype t => Ordinary t
  | .seq t => Ordinary t
  | .tuple ts => OrdinaryAll ts
  | .struct ts => OrdinaryAll ts
  | .versioned t => Ordinary t
  | .enum vs => decide (vs.wire.length ≤ 256) && OrdinaryVar vs
  | .polyvar vs =>
    decide (vs.wire.length ≤ 256) &&
      (vs.wire.names.all (fun n => (BinProt.utf8 n).all (fun b => decide (b.toNat < 128)) &&
        decide ((BinProt.camlHashVariant (BinProt.utf8 n)).toNat < 2 ^ 31))) &&
      decide ((vs.wire.names.map (fun n => BinProt.camlHashVariant (BinProt.utf8 n))).Nodup) && OrdinaryVar vs
  | _ => true
def OrdinaryAll : BTys → Bool
  | .nil => true
  | .cons n t ts => decide (n ≠ "version") && Ordinary t && OrdinaryAll ts
def OrdinaryVar : BTys → Bool
  | .nil => true
  | .cons _ t ts => Ordinary t && OrdinaryVar ts
end

end MinaRs.Block.Spec
