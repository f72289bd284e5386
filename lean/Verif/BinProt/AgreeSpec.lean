import Verif.BinProt.LooseTyped

/-!
# What it means that a data type and a layout agree

The typed reader and the layout-driven reader give values of different shapes.  `Spec.content` and `Spec.contentOf` list what
either value holds, in the order of the bytes, each thing with the names of the fields and constructors around it; tuples, lists and
options have no names.  `Spec.Avoids` and `Spec.AvoidsAll` say that a value uses
none of a list of constructors.
-/

namespace MinaRs.BinProt.Spec

/-- What a value holds: its numbers, bytes, truth values, and the choices made on the way (constructors, options and list
lengths). -/
inductive Item where
  | unit
  | bool (b : Bool)
  | byte (c : UInt8)
  | int (n : Int)
  | float (bits : UInt64)
  | choice (n : Nat)
  | length (n : Nat)
  deriving DecidableEq, Repr

/-- Where in a value something stands: the names of the fields and constructors it is inside of, innermost first. -/
abbrev Place := List String

/-- What fields and constructors are called; `none` for those that do not count. -/
abbrev Naming := String → Option String

/-- The place of the field or constructor `n` of what stands at `l`. -/
def Naming.inside (nm : Naming) (l : Place) (n : String) : Place :=
  match nm n with
  | none => l
  | some m => m :: l

/-- What a value holds and where. -/
abbrev Held := List (Place × Item)

mutual
/-- What a layout-driven value holds. -/
def content (nm : Naming) (l : Place) : Value → Held
  | .unit => [(l, .unit)]
  | .nat0 n => [(l, .length n.toNat)]
  | .bool b => [(l, .bool b)]
  | .string bs => (l, .length bs.length) :: bs.map (fun b => (l, .byte b))
  | .char c => [(l, .byte c)]
  | .int n => [(l, .int n)]
  | .float f => [(l, .float f)]
  | .none => [(l, .choice 0)]
  | .some v => (l, .choice 1) :: content nm l v
  | .record fs => contentFields nm l fs
  | .tuple vs => contents nm l vs
  | .sum n i v => (l, .choice i.toNat) :: content nm (nm.inside l n) v
  | .polyvar n tag v => (l, .choice tag.toNat) :: content nm (nm.inside l n) v
  | .list vs => (l, .length vs.length) :: contents nm l vs
def contents (nm : Naming) (l : Place) : List Value → Held
  | [] => []
  | v :: vs => content nm l v ++ contents nm l vs
def contentFields (nm : Naming) (l : Place) : List (String × Value) → Held
  | [] => []
  | (n, v) :: fs => content nm (nm.inside l n) v ++ contentFields nm l fs
end

mutual
/-- What a typed value holds.  A constructor is its position, a polymorphic variant its hash; there is no item for 32-bit floats, which no layout has. -/
def contentOf (nm : Naming) (l : Place) : (t : Ty) → t.denote → Held
  | .unit, _ => [(l, .unit)]
  | .bool, b => [(l, .bool b)]
  | .u8, c => [(l, .byte c)]
  | .int _, n => [(l, .int n.val)]
  | .f32, _ => []
  | .f64, f => [(l, .float f)]
  | .char, c => [(l, .byte (UInt8.ofNat (show Char from c).toNat))]
  | .string, s => (l, .length (utf8 s).length) :: (utf8 s).map (fun b => (l, .byte b))
  | .option t, o =>
    match (show Option t.denote from o) with
    | none => [(l, .choice 0)]
    | some v => (l, .choice 1) :: contentOf nm l t v
  | .newtype t, v => contentOf nm l t v
  | .seq t, vs =>
    (l, .length (show List t.denote from vs).length) :: ((show List t.denote from vs).map (contentOf nm l t)).flatten
  | .tuple ts, v => contentOfProd nm (fun _ => l) ts v
  | .struct ts, v => contentOfProd nm (nm.inside l) ts v
  | .enum vs, v => (l, .choice (vs.index v)) :: contentOfSum nm (nm.inside l) vs v
  | .polyvar vs, v => (l, .choice (hash32 (utf8 (vs.variantName v)))) :: contentOfSum nm (nm.inside l) vs v
def contentOfProd (nm : Naming) (place : String → Place) : (ts : Tys) → ts.prod → Held
  | .nil, _ => []
  | .cons n t ts, v => contentOf nm (place n) t (show _ × _ from v).1 ++ contentOfProd nm place ts (show _ × _ from v).2
def contentOfSum (nm : Naming) (place : String → Place) : (vs : Tys) → vs.sum → Held
  | .nil, _ => []
  | .cons n t ts, v =>
    match (show t.denote ⊕ ts.sum from v) with
    | .inl w => contentOf nm (place n) t w
    | .inr w => contentOfSum nm place ts w
end

mutual
/-- No constructor of the list occurs in the layout-driven value. -/
def Avoids (bad : List String) : Value → Prop
  | .some v => Avoids bad v
  | .record fs => AvoidsFields bad fs
  | .tuple vs => AvoidsAll bad vs
  | .sum name _ v => name ∉ bad ∧ Avoids bad v
  | .polyvar _ _ v => Avoids bad v
  | .list vs => AvoidsAll bad vs
  | _ => True
def AvoidsAll (bad : List String) : List Value → Prop
  | [] => True
  | v :: vs => Avoids bad v ∧ AvoidsAll bad vs
def AvoidsFields (bad : List String) : List (String × Value) → Prop
  | [] => True
  | (_, v) :: fs => Avoids bad v ∧ AvoidsFields bad fs
end

mutual
/-- No constructor of the list occurs in the typed value. -/
def TypedAvoids (bad : List String) : (t : Ty) → t.denote → Prop
  | .option t, o => ∀ v, (show Option _ from o) = some v → TypedAvoids bad t v
  | .newtype t, v => TypedAvoids bad t v
  | .seq t, vs => ∀ v ∈ (show List t.denote from vs), TypedAvoids bad t v
  | .tuple ts, v => TypedAvoidsProd bad ts v
  | .struct ts, v => TypedAvoidsProd bad ts v
  | .enum vs, v => vs.variantName v ∉ bad ∧ TypedAvoidsSum bad vs v
  | .polyvar vs, v => TypedAvoidsSum bad vs v
  | _, _ => True
def TypedAvoidsProd (bad : List String) : (ts : Tys) → ts.prod → Prop
  | .nil, _ => True
  | .cons _ t ts, v => TypedAvoids bad t (show _ × _ from v).1 ∧ TypedAvoidsProd bad ts (show _ × _ from v).2
def TypedAvoidsSum (bad : List String) : (vs : Tys) → vs.sum → Prop
  | .nil, _ => True
  | .cons _ t ts, v =>
    match (show t.denote ⊕ ts.sum from v) with
    | .inl w => TypedAvoids bad t w
    | .inr w => TypedAvoidsSum bad ts w
end

end MinaRs.BinProt.Spec
