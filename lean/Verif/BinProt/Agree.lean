import Verif.BinProt.AgreeSpec

/-!
# Comparing a data type with a layout

`agree bad nm mn n l t r p` compares a data type and a layout part by part: nested tuples, records, newtypes and references are laid out
flat first, since they have no bytes of their own.  It is not a model of code; it is the computation by which C117 is proved, and
the lemmas here say what it establishes.
-/

namespace MinaRs.BinProt
open Prog Spec

mutual
/-- The parts of a type in the order of their bytes, each with its place. -/
def partsT (nm : Naming) (l : Place) : Ty → List (Place × Ty)
  | .newtype t => partsT nm l t
  | .tuple ts => partsTs nm (fun _ => l) ts
  | .struct ts => partsTs nm (nm.inside l) ts
  | t => [(l, t)]
def partsTs (nm : Naming) (place : String → Place) : Tys → List (Place × Ty)
  | .nil => []
  | .cons n t ts => partsT nm (place n) t ++ partsTs nm place ts
end

mutual
/-- The parts of a layout in the order of their bytes, each with its place and the module path it is read under. -/
def partsR (nm : Naming) (l : Place) : Rule → Option String → List (Place × Rule × Option String)
  | .reference path r, _ => partsR nm l r (some path)
  | .tuple rs, p => partsRs nm l rs p
  | .record fs, p => partsFs nm l fs p
  | .custom rs, p =>
    match p with
    | none => [(l, .nat0, none)]
    | some path =>
      match customKind path with
      | .vector n => partsVec nm l rs n p ++ [(l, .unit, p)]
      | .bigInt => List.replicate 32 (l, .char, p)
      | .unknown => [(l, .nat0, none)]
  | r, p => [(l, r, p)]
def partsRs (nm : Naming) (l : Place) : List Rule → Option String → List (Place × Rule × Option String)
  | [], _ => []
  | r :: rs, p => partsR nm l r p ++ partsRs nm l rs p
def partsFs (nm : Naming) (l : Place) : List (String × Rule) → Option String → List (Place × Rule × Option String)
  | [], _ => []
  | (n, r) :: fs, p => partsR nm (nm.inside l n) r p ++ partsFs nm l fs p
def partsVec (nm : Naming) (l : Place) : List Rule → Nat → Option String → List (Place × Rule × Option String)
  | [], _, _ => [(l, .nat0, none)]
  | r :: _, n, p => (List.replicate n (partsR nm l r p)).flatten
end

/-- Pairwise comparison. -/
def all2 {α β : Type} (f : α → β → Bool) : List α → List β → Bool
  | [], [] => true
  | a :: as, b :: bs => f a b && all2 f as bs
  | _, _ => false

/-- Variants against summands from position `k` on, standing at the same places; constructors in `bad` are passed over. -/
def agreeSums (bad : List String) (f : Place → Ty → Rule → Bool) (p q : String → Place) : Tys → List Summand → Nat → Bool
  | .nil, ss, _ => ss.all (fun | .mk m _ _ => bad.contains m)
  | .cons n t ts, ss, k =>
    match ss with
    | [] => bad.contains n && agreeSums bad f p q ts [] (k + 1)
    | .mk m i args :: ss =>
      ((bad.contains n && bad.contains m) ||
        (decide (i = (k : Int)) && decide (k < 256) && decide (q m = p n) && f (p n) t (.tuple args))) &&
        agreeSums bad f p q ts ss (k + 1)

/-- Polymorphic variants, pairwise. -/
def agreePolys (f : Place → Ty → Rule → Bool) (p q : String → Place) : Tys → List Polyvar → Bool
  | .nil, [] => true
  | .cons n t ts, .tagged m hash args :: ps =>
    decide (hash = camlHashVariant (utf8 n)) && (utf8 n).all (fun b => decide (b.toNat < 128)) && decide (q m = p n) &&
      f (p n) t (.tuple args) && agreePolys f p q ts ps
  | _, _ => false

/-- One part against one part at the same place. -/
def agreePart (bad : List String) (nm mn : Naming) (f : Place → Ty → Rule → Option String → Bool) (l : Place) :
    Ty → Rule → Option String → Bool
  | .unit, .unit, _ => true
  | .bool, .bool, _ => true
  | .u8, .char, _ => true
  | .char, .char, _ => true
  | .int _, .int _, _ => true
  | .f64, .float, _ => true
  | .seq .u8, .string, _ => true
  | .option t, .option r, p => f l t r p
  | .seq t, .list r, p => f l t r p
  | .enum vs, .sum ss, p => agreeSums bad (fun l t r => f l t r p) (nm.inside l) (mn.inside l) vs ss 0
  | .polyvar vs, .polyvar ps, p =>
    decide (vs.length ≤ 256) && agreePolys (fun l t r => f l t r p) (nm.inside l) (mn.inside l) vs ps
  | _, _, _ => false

/-- A type against a layout, to a nesting depth of options, lists and constructors.  `nm` gives the names of the type's fields and
constructors, `mn` those of the layout's. -/
def agree (bad : List String) (nm mn : Naming) : Nat → Place → Ty → Rule → Option String → Bool
  | 0, _, _, _, _ => false
  | n + 1, l, t, r, p =>
    all2 (fun x y => decide (y.1 = x.1) && agreePart bad nm mn (agree bad nm mn n) x.1 x.2 y.2.1 y.2.2)
      (partsT nm l t) (partsR mn l r p)

end MinaRs.BinProt
