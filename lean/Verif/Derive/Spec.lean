import Verif.Derive.Model

/-!
# What a derived conversion has to do (C125)

Stated on definitions and values only; nothing here mentions what the macro writes.
-/

namespace MinaRs.Derive.Spec
open MinaRs.Derive

/-- The names with a meaning for a reader of a type. -/
def containers : List String := ["Vec", "Option", "Box"]

/-- A field of this written type has such a value: the type is named by the last part of its path. -/
def Holds {V : Type} : Written → Part V → Prop
  | .path ss, .list _ => ss.getLast? = some "Vec"
  | .path ss, .opt _ => ss.getLast? = some "Option"
  | .path ss, .boxed _ => ss.getLast? = some "Box"
  | .path ss, .plain _ => ∀ s, ss.getLast? = some s → s ∉ containers
  | .other, .plain _ => True
  | .other, _ => False

/-- No module, and nothing else on the way to the type, has the name of a container. -/
def Ordinary : Written → Prop
  | .path ss => ∀ s ∈ ss.dropLast, s ∉ containers
  | .other => True

/-- The types of these fields. -/
def types : Fields → List Written
  | .unit => []
  | .unnamed ts => ts
  | .named fs => fs.map (·.2)

/-- The names of these fields are distinct, as in every program. -/
def Distinct : Fields → Prop
  | .named fs => (fs.map (·.1)).Nodup
  | _ => True

/-- A definition for which the macro is meant: at least one field or variant, fields in brackets only where there are
some, distinct names and ordinary types. -/
def Meant : Data → Prop
  | .struct fs => types fs ≠ [] ∧ Distinct fs ∧ ∀ w ∈ types fs, Ordinary w
  | .enum vs =>
    vs ≠ [] ∧ (vs.map (·.1)).Nodup ∧
      ∀ v ∈ vs, (v.2 = .unit ∨ types v.2 ≠ []) ∧ Distinct v.2 ∧ ∀ w ∈ types v.2, Ordinary w
  | .union => False

/-- The other type has the same fields, in any order if they have names. -/
def SameFields : Fields → Shape → Prop
  | .unit, .unit => True
  | .unnamed ts, .unnamed n => n = ts.length
  | .named fs, .named names => names.Perm (fs.map (·.1))
  | _, _ => False

/-- The other type has the same fields or variants. -/
def SameType : Data → Def → Prop
  | .struct fs, .struct s => SameFields fs s
  | .enum vs, .enum ss =>
    (ss.map (·.1)).Perm (vs.map (·.1)) ∧ ∀ n fs s, (n, fs) ∈ vs → (n, s) ∈ ss → SameFields fs s
  | _, _ => False

/-- These are values of these fields, in any order if they have names. -/
def FieldsOf {V : Type} : Fields → Payload V → Prop
  | .unit, .unit => True
  | .unnamed ts, .unnamed ps =>
    ps.length = ts.length ∧ ∀ (i : Nat) w p, ts[i]? = some w → ps[i]? = some p → Holds w p
  | .named fs, .named ps =>
    (ps.map (·.1)).Perm (fs.map (·.1)) ∧ ∀ n w p, (n, w) ∈ fs → (n, p) ∈ ps → Holds w p
  | _, _ => False

/-- This is a value of the type, or of one with the same fields. -/
def ValueOf {V : Type} : Data → Value V → Prop
  | .struct fs, .struct p => FieldsOf fs p
  | .enum vs, .variant n p => ∃ fs, (n, fs) ∈ vs ∧ FieldsOf fs p
  | _, _ => False

/-- The value of a field with its contents converted. -/
def image {V : Type} (f : V → V) : Part V → Part V
  | .plain v => .plain (f v)
  | .list l => .list (l.map f)
  | .opt o => .opt (o.map f)
  | .boxed v => .boxed (f v)

/-- `q` is `p` with every field converted and in its place: that of the same name, or the same position.  The fields of `q`
are those of `s`, in that order. -/
def CarriesFields {V : Type} (into : Key → V → V) (s : Shape) : Payload V → Payload V → Prop
  | .unit, .unit => s = .unit
  | .unnamed ps, .unnamed qs =>
    s = .unnamed qs.length ∧ qs.length = ps.length ∧
      ∀ (i : Nat) p, ps[i]? = some p → qs[i]? = some (image (into (.pos i)) p)
  | .named ps, .named qs =>
    s = .named (qs.map (·.1)) ∧ (qs.map (·.1)).Perm (ps.map (·.1)) ∧
      ∀ n p, (n, p) ∈ ps → (n, image (into (.name n)) p) ∈ qs
  | _, _ => False

/-- `w` is `v` as a value of the type `d`: the same variant, and every field converted and in its place. -/
def Carries {V : Type} (into : Place → V → V) (d : Def) : Value V → Value V → Prop
  | .struct p, .struct q => ∃ s, d = .struct s ∧ CarriesFields (fun k => into ⟨none, k⟩) s p q
  | .variant n p, .variant m q =>
    m = n ∧ ∃ ss s, d = .enum ss ∧ (n, s) ∈ ss ∧ CarriesFields (fun k => into ⟨some n, k⟩) s p q
  | _, _ => False

/-- The fields of a value are those of the type, in the order of the type. -/
def InOrderFields {V : Type} : Shape → Payload V → Prop
  | .unit, .unit => True
  | .unnamed n, .unnamed ps => ps.length = n
  | .named names, .named ps => ps.map (·.1) = names
  | _, _ => False

/-- A value of the type with this definition. -/
def InOrder {V : Type} : Def → Value V → Prop
  | .struct s, .struct p => InOrderFields s p
  | .enum ss, .variant n p => ∃ s, (n, s) ∈ ss ∧ InOrderFields s p
  | _, _ => False

/-- `t` is named as a target: an attribute `#[auto_from(t)]` of the type. -/
def Target (attrs : List Attr) (t : String) : Prop := ⟨true, some "auto_from", some t⟩ ∈ attrs

/-- The version numbers of the layers, from the outside in. -/
def numbers {A : Type} : Layered A → List UInt16
  | .bare _ => []
  | .layer v t => v :: numbers t

/-- What is inside of all layers. -/
def content {A : Type} : Layered A → A
  | .bare a => a
  | .layer _ t => content t

end MinaRs.Derive.Spec
