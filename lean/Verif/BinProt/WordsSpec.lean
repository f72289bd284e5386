import Verif.BinProt.SerdeSpec

/-! # Specification for C109 and C110: announced lengths and the size of values -/

namespace MinaRs.BinProt.Spec

/-- Somewhere in the bytes stands a wire form of a number of at least `n`. -/
def Names (n : Nat) (s : Bytes) : Prop :=
  ∃ before enc after m, s = before ++ (enc ++ after) ∧ WireNat enc m ∧ n ≤ m

/-- The sum of the numbers of a list. -/
def total : List Nat → Nat
  | [] => 0
  | n :: ns => n + total ns

mutual
/-- The list items and string bytes in a value. -/
def items : (t : Ty) → t.denote → Nat
  | .string, s => (utf8 s).length
  | .option t, o =>
    match (show Option t.denote from o) with
    | none => 0
    | some v => items t v
  | .newtype t, v => items t v
  | .seq t, vs => (show List t.denote from vs).length + total ((show List t.denote from vs).map (items t))
  | .tuple ts, v => itemsProd ts v
  | .struct ts, v => itemsProd ts v
  | .enum vs, v => itemsSum vs v
  | .polyvar vs, v => itemsSum vs v
  | _, _ => 0
def itemsProd : (ts : Tys) → ts.prod → Nat
  | .nil, _ => 0
  | .cons _ t ts, v => items t (show _ × _ from v).1 + itemsProd ts (show _ × _ from v).2
def itemsSum : (vs : Tys) → vs.sum → Nat
  | .nil, _ => 0
  | .cons _ t ts, v =>
    match (show t.denote ⊕ ts.sum from v) with
    | .inl w => items t w
    | .inr w => itemsSum ts w
end

mutual
/-- Values of the type take at least one byte: it is not a tuple or struct without fields, or one of such only. -/
def Solid : Ty → Bool
  | .newtype t => Solid t
  | .tuple ts => SolidAny ts
  | .struct ts => SolidAny ts
  | _ => true
def SolidAny : Tys → Bool
  | .nil => false
  | .cons _ t ts => Solid t || SolidAny ts
end

mutual
/-- The items of every list in the type take at least one byte each. -/
def SolidLists : Ty → Bool
  | .option t => SolidLists t
  | .newtype t => SolidLists t
  | .seq t => Solid t && SolidLists t
  | .tuple ts => SolidListsAll ts
  | .struct ts => SolidListsAll ts
  | .enum vs => SolidListsAll vs
  | .polyvar vs => SolidListsAll vs
  | _ => true
def SolidListsAll : Tys → Bool
  | .nil => true
  | .cons _ t ts => SolidLists t && SolidListsAll ts
end

end MinaRs.BinProt.Spec
