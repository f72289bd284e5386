import Verif.Json.Model
import Verif.BinProt.SerdeSpec

/-!
# What the JSON form can carry

`JTy.Sound` is a condition on types, checked once per schema: names are distinct and no two values
share a document.  `Leaves Leaf.Writable` and `Leaves Leaf.Carried` are conditions on values: all parts
have a text form (which is read back).  `norm` is the value without what the JSON form leaves out.
-/

namespace MinaRs.Json

open BinProt (Ty Tys Fits)

/-! ## Types -/

/-- Fields that appear in the document. -/
def JTys.visible : JTys → Nat
  | .nil => 0
  | .cons _ _ ts => ts.visible + 1
  | .skip _ _ ts => ts.visible

/-- Their names. -/
def JTys.names : JTys → List String
  | .nil => []
  | .cons n _ ts => n :: ts.names
  | .skip _ _ ts => ts.names

/-- The names of the variants. -/
def JVars.names : JVars → List String
  | .nil => []
  | .cons n _ vs => n :: vs.names

/-- There is a variant without payload. -/
def JVars.hasUnit : JVars → Bool
  | .nil => false
  | .cons _ .unit _ => true
  | .cons _ _ vs => vs.hasUnit

/-- Some value is written as `null`. -/
def JTy.mayBeNull : JTy → Bool
  | .unit => true
  | .option _ => true
  | .newtype t => t.mayBeNull
  | .versioned t => t.mayBeNull
  | _ => false

/-- Some value is written as an array of fewer than two items. -/
def JTy.mayBeShort : JTy → Bool
  | .option t => t.mayBeShort
  | .newtype t => t.mayBeShort
  | .versioned t => t.mayBeShort
  | .seq _ => true
  | .tuple ts => ts.visible < 2
  | .listEnum _ _ vs => vs.hasUnit
  | _ => false

/-- All entries of a list are different. -/
def distinct : List String → Bool
  | [] => true
  | n :: ns => !ns.contains n && distinct ns

mutual
/-- The documents of the type determine its values (up to `norm`). -/
def JTy.Sound : JTy → Bool
  | .leaf _ => true
  | .unit => true
  | .bool => true
  | .option t => !t.mayBeNull && t.Sound
  | .newtype t => t.Sound
  | .seq t => t.Sound
  | .tuple ts => ts.Sound
  | .struct ts => distinct ts.names && ts.Sound
  | .versioned t => t.Sound
  | .listEnum _ expand vs => distinct vs.names && vs.Sound expand
  | .tagEnum vs => distinct vs.names && vs.Sound false
def JTys.Sound : JTys → Bool
  | .nil => true
  | .cons _ t ts => t.Sound && ts.Sound
  | .skip _ _ ts => ts.Sound
def JVars.Sound : JVars → Bool → Bool
  | .nil, _ => true
  | .cons _ p vs, expand => p.Sound expand && vs.Sound expand
/-- With `expand`, the payload may not be an array of fewer than two items. -/
def JPay.Sound : JPay → Bool → Bool
  | .unit, _ => true
  | .newtype t, expand => !(expand && t.mayBeShort) && t.Sound
  | .tuple ts, expand => decide ((if expand then 2 else 1) ≤ ts.visible) && ts.Sound
  | .struct ts, _ => distinct ts.names && ts.Sound
end

/-! ## Values -/

/-- The bytes are UTF-8. -/
def IsUtf8 (bs : Bytes) : Prop := ∃ s : String, BinProt.utf8 s = bs

/-- The part has a text form: characters are ASCII, byte strings written as text are UTF-8, the
coordinate of a key is a field element. -/
def Leaf.Writable : (c : Leaf) → c.wire.denote → Prop
  | .char, v => (v : UInt8).toNat < 128
  | .byteVec, v => IsUtf8 (v : Bytes)
  | .publicKey, v => leNat (arrBytes 32 (show arr32.denote × Bool × Unit from v).1) < Hash.p
  | _, _ => True

/-- The part has a text form that is read back: what is written in the wire format inside base58 or
base64 has to survive that format. -/
def Leaf.Carried : (c : Leaf) → c.wire.denote → Prop
  | .base58Bin _ t, v => Fits t v
  | .base64Bin t, v => Fits t v
  | c, v => c.Writable v

mutual
/-- Every leaf of the value satisfies a condition. -/
def Leaves (P : (c : Leaf) → c.wire.denote → Prop) : (t : JTy) → t.wire.denote → Prop
  | .leaf c, v => P c v
  | .unit, _ => True
  | .bool, _ => True
  | .option t, v => ∀ w, (show Option t.wire.denote from v) = some w → Leaves P t w
  | .newtype t, v => Leaves P t v
  | .seq t, v => ∀ w ∈ (show List t.wire.denote from v), Leaves P t w
  | .tuple ts, v => LeavesAll P ts v
  | .struct ts, v => LeavesAll P ts v
  | .versioned t, v => Leaves P t (show {n : Int // BinProt.u16.holds n} × t.wire.denote × Unit from v).2.1
  | .listEnum poly expand vs, v => LeavesVar P vs (cast (denote_listEnum poly expand vs) v)
  | .tagEnum vs, v => LeavesVar P vs v
def LeavesAll (P : (c : Leaf) → c.wire.denote → Prop) : (ts : JTys) → ts.wire.prod → Prop
  | .nil, _ => True
  | .cons _ t ts, v => Leaves P t (show t.wire.denote × ts.wire.prod from v).1 ∧
      LeavesAll P ts (show t.wire.denote × ts.wire.prod from v).2
  | .skip _ s ts, v => LeavesAll P ts (show s.wire.denote × ts.wire.prod from v).2
def LeavesVar (P : (c : Leaf) → c.wire.denote → Prop) : (vs : JVars) → vs.wire.sum → Prop
  | .nil, _ => True
  | .cons _ p vs, v =>
    match (show p.wire.denote ⊕ vs.wire.sum from v) with
    | .inl w => LeavesPay P p w
    | .inr w => LeavesVar P vs w
def LeavesPay (P : (c : Leaf) → c.wire.denote → Prop) : (p : JPay) → p.wire.denote → Prop
  | .unit, _ => True
  | .newtype t, v => Leaves P t v
  | .tuple ts, v => LeavesAll P ts v
  | .struct ts, v => LeavesAll P ts v
end

/-! ## What is left out -/

mutual
/-- The value with every version number 1 and every skipped field at its default. -/
def norm : (t : JTy) → t.wire.denote → t.wire.denote
  | .leaf _, v => v
  | .unit, v => v
  | .bool, v => v
  | .option t, v => ((show Option t.wire.denote from v).map (norm t) : Option t.wire.denote)
  | .newtype t, v => norm t v
  | .seq t, v => ((show List t.wire.denote from v).map (norm t) : List t.wire.denote)
  | .tuple ts, v => normAll ts v
  | .struct ts, v => normAll ts v
  | .versioned t, v => version1 (norm t (show {n : Int // BinProt.u16.holds n} × t.wire.denote × Unit from v).2.1)
  | .listEnum poly expand vs, v =>
    cast (denote_listEnum poly expand vs).symm (normVar vs (cast (denote_listEnum poly expand vs) v))
  | .tagEnum vs, v => normVar vs v
def normAll : (ts : JTys) → ts.wire.prod → ts.wire.prod
  | .nil, _ => ()
  | .cons _ t ts, v => ((norm t (show t.wire.denote × ts.wire.prod from v).1,
      normAll ts (show t.wire.denote × ts.wire.prod from v).2) : t.wire.denote × ts.wire.prod)
  | .skip _ s ts, v => ((s.default, normAll ts (show s.wire.denote × ts.wire.prod from v).2) :
      s.wire.denote × ts.wire.prod)
def normVar : (vs : JVars) → vs.wire.sum → vs.wire.sum
  | .nil, v => v
  | .cons _ p vs, v =>
    match (show p.wire.denote ⊕ vs.wire.sum from v) with
    | .inl w => (.inl (normPay p w) : p.wire.denote ⊕ vs.wire.sum)
    | .inr w => (.inr (normVar vs w) : p.wire.denote ⊕ vs.wire.sum)
def normPay : (p : JPay) → p.wire.denote → p.wire.denote
  | .unit, v => v
  | .newtype t, v => norm t v
  | .tuple ts, v => normAll ts v
  | .struct ts, v => normAll ts v
end

/-! ## Documents with their members in order -/

mutual
/-- In every object of the document the members are in the order of their names, each once. -/
def Sorted : J → Prop
  | .arr js => SortedItems js
  | .obj es => es.Pairwise (fun a b => a.1 < b.1) ∧ SortedMembers es
  | .null | .bool _ | .num _ | .float _ | .str _ => True
def SortedItems : List J → Prop
  | [] => True
  | j :: js => Sorted j ∧ SortedItems js
def SortedMembers : List (String × J) → Prop
  | [] => True
  | (_, j) :: es => Sorted j ∧ SortedMembers es
end

end MinaRs.Json
