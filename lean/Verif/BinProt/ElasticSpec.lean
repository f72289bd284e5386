import Verif.BinProt.SerdeSpec

/-!
# Values with more than one wire form (specification for C14)
-/

namespace MinaRs.BinProt.Spec

mutual
/-- Somewhere in the value there is an integer that fits 32 bits, a string or a sequence shorter than 2^32, or a
polymorphic variant. -/
def Elastic : (t : Ty) → t.denote → Prop
  | .int _, n => -(2 ^ 31) ≤ n.val ∧ n.val < 2 ^ 31
  | .string, s => (utf8 s).length < 2 ^ 32
  | .option t, o => ∃ v, (show Option t.denote from o) = some v ∧ Elastic t v
  | .newtype t, v => Elastic t v
  | .seq t, vs => (show List t.denote from vs).length < 2 ^ 32 ∨ ∃ v ∈ (show List t.denote from vs), Elastic t v
  | .tuple ts, v => ElasticProd ts v
  | .struct ts, v => ElasticProd ts v
  | .enum vs, v => ElasticSum vs v
  | .polyvar _, _ => True
  | _, _ => False
/-- Some field is. -/
def ElasticProd : (ts : Tys) → ts.prod → Prop
  | .nil, _ => False
  | .cons _ t ts, v => Elastic t (show _ × _ from v).1 ∨ ElasticProd ts (show _ × _ from v).2
/-- The payload is. -/
def ElasticSum : (vs : Tys) → vs.sum → Prop
  | .nil, _ => False
  | .cons _ t ts, v =>
    match (show t.denote ⊕ ts.sum from v) with
    | .inl w => Elastic t w
    | .inr w => ElasticSum ts w
end

end MinaRs.BinProt.Spec
