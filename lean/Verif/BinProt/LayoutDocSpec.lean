import Verif.BinProt.Loose
import Verif.Json.Model

/-!
# Specification: layout documents

The documents the OCaml side prints for a layout: every rule is a list of its name and its arguments, records with
their members are objects.
-/

namespace MinaRs.BinProt.Spec

open MinaRs.Json (J)

/-- `v` is the last value under a key. -/
def LastUnder (es : List (String × J)) (key : String) (v : J) : Prop :=
  ∃ before after, es = before ++ (key, v) :: after ∧ ∀ e ∈ after, e.1 ≠ key

/-- A document with the members `keys` holds `v` as the member `key`: either an object, or the list of all members in
order. -/
def Holds (keys : List String) (j : J) (key : String) (v : J) : Prop :=
  (∃ es, j = .obj es ∧ LastUnder es key v) ∨
  (∃ js, ∃ i : Nat, j = .arr js ∧ js.length = keys.length ∧ keys[i]? = some key ∧ js[i]? = some v)

/-- A document lacks a member. -/
def Lacks (j : J) (key : String) : Prop := ∃ es, j = .obj es ∧ ∀ e ∈ es, e.1 ≠ key

/-- The rules that are only a name. -/
def plainRules : List (String × Rule) :=
  [("Nat0", .nat0), ("Unit", .unit), ("Bool", .bool), ("String", .string), ("Char", .char), ("Int", .int .int),
    ("Int32", .int .int32), ("Int64", .int .int64), ("Native_int", .int .nativeInt), ("Float", .float),
    ("Bigstring", .other .bigstring)]

/-- The members of a resolved reference. -/
def resolvedKeys : List String := ["source_type_decl", "source_module_path", "bin_io_derived", "ref_rule"]

mutual
/-- The document describes the rule. -/
inductive Describes : J → Rule → Prop
  | plain {n : String} {r : Rule} : (n, r) ∈ plainRules → Describes (.arr [.str n]) r
  | option {j : J} {r : Rule} : Describes j r → Describes (.arr [.str "Option", j]) (.option r)
  | list {j : J} {r : Rule} : Describes j r → Describes (.arr [.str "List", j]) (.list r)
  | record {js : List J} {fs : List (String × Rule)} :
      DescribesFields js fs → Describes (.arr [.str "Record", .arr js]) (.record fs)
  | tuple {js : List J} {rs : List Rule} : DescribesAll js rs → Describes (.arr [.str "Tuple", .arr js]) (.tuple rs)
  | sum {js : List J} {ss : List Summand} :
      DescribesSummands js ss → Describes (.arr [.str "Sum", .arr js]) (.sum ss)
  | polyvar {js : List J} {ps : List Polyvar} :
      DescribesPolyvars js ps → Describes (.arr [.str "Polyvar", .arr js]) (.polyvar ps)
  | custom {js : List J} {rs : List Rule} : DescribesAll js rs → Describes (.arr [.str "Custom", .arr js]) (.custom rs)
  /-- a reference that has been resolved: where it was found, and its rule -/
  | resolved {j jr : J} {d p : String} {b : Bool} {r : Rule} :
      Holds resolvedKeys j "source_type_decl" (.str d) →
      (Holds resolvedKeys j "source_module_path" (.str p) ∨ (Lacks j "source_module_path" ∧ p = "")) →
      (Holds resolvedKeys j "bin_io_derived" (.bool b) ∨ Lacks j "bin_io_derived") →
      Holds resolvedKeys j "ref_rule" jr → Describes jr r →
      Describes (.arr [.str "Reference", .arr [.str "Resolved", j]]) (.reference p r)
  | unresolved {j : J} {js : List J} {rs : List Rule} {i : String} :
      Holds ["params", "layout_id"] j "params" (.arr js) → Holds ["params", "layout_id"] j "layout_id" (.str i) →
      DescribesAll js rs →
      Describes (.arr [.str "Reference", .arr [.str "Unresolved", j]]) (.other .unresolvedReference)
  | hashtable {j jk jv : J} {k v : Rule} :
      Holds ["key_rule", "value_rule"] j "key_rule" jk → Holds ["key_rule", "value_rule"] j "value_rule" jv →
      Describes jk k → Describes jv v → Describes (.arr [.str "Hashtable", j]) (.other .hashtable)
  | typeVar {s : String} : Describes (.arr [.str "Type_var", .str s]) (.other .typeVar)
  | selfReference {js : List J} {rs : List Rule} :
      DescribesAll js rs → Describes (.arr [.str "Self_reference", .arr js]) (.other .selfReference)
  | vec {n : Nat} {j : J} {r : Rule} :
      n < 2 ^ 64 → Describes j r → Describes (.arr [.str "Vec", .num n, j]) (.other .vec)
  | typeAbstraction {names : List String} {j : J} {r : Rule} :
      Describes j r → Describes (.arr [.str "Type_abstraction", .arr (names.map .str), j]) (.other .typeAbstraction)
  | typeClosure {js : List J} {bs : List (String × Rule)} {j : J} {r : Rule} :
      DescribesBindings js bs → Describes j r →
      Describes (.arr [.str "Type_closure", .arr js, j]) (.other .typeClosure)
/-- One document for each rule. -/
inductive DescribesAll : List J → List Rule → Prop
  | nil : DescribesAll [] []
  | cons {j : J} {r : Rule} {js : List J} {rs : List Rule} :
      Describes j r → DescribesAll js rs → DescribesAll (j :: js) (r :: rs)
/-- One document for each field: its name and rule. -/
inductive DescribesFields : List J → List (String × Rule) → Prop
  | nil : DescribesFields [] []
  | cons {j jr : J} {n : String} {r : Rule} {js : List J} {fs : List (String × Rule)} :
      Holds ["field_name", "field_rule"] j "field_name" (.str n) →
      Holds ["field_name", "field_rule"] j "field_rule" jr → Describes jr r →
      DescribesFields js fs → DescribesFields (j :: js) ((n, r) :: fs)
/-- One document for each variant: its name, number and arguments. -/
inductive DescribesSummands : List J → List Summand → Prop
  | nil : DescribesSummands [] []
  | cons {j : J} {as : List J} {n : String} {i : Int} {rs : List Rule} {js : List J} {ss : List Summand} :
      Holds ["ctor_name", "index", "ctor_args"] j "ctor_name" (.str n) →
      Holds ["ctor_name", "index", "ctor_args"] j "index" (.num i) → -2 ^ 31 ≤ i → i < 2 ^ 31 →
      Holds ["ctor_name", "index", "ctor_args"] j "ctor_args" (.arr as) → DescribesAll as rs →
      DescribesSummands js ss → DescribesSummands (j :: js) (.mk n i rs :: ss)
/-- One document for each polymorphic variant. -/
inductive DescribesPolyvars : List J → List Polyvar → Prop
  | nil : DescribesPolyvars [] []
  | tagged {j : J} {as : List J} {n : String} {h : UInt32} {rs : List Rule} {js : List J} {ps : List Polyvar} :
      Holds ["polyvar_name", "hash", "polyvar_args"] j "polyvar_name" (.str n) →
      Holds ["polyvar_name", "hash", "polyvar_args"] j "hash" (.num h.toNat) →
      Holds ["polyvar_name", "hash", "polyvar_args"] j "polyvar_args" (.arr as) → DescribesAll as rs →
      DescribesPolyvars js ps → DescribesPolyvars (.arr [.str "Tagged", j] :: js) (.tagged n h rs :: ps)
  | inherited {j : J} {r : Rule} {js : List J} {ps : List Polyvar} :
      Describes j r → DescribesPolyvars js ps →
      DescribesPolyvars (.arr [.str "Inherited", j] :: js) (.inherited r :: ps)
/-- One document for each binding: the list of its name and rule. -/
inductive DescribesBindings : List J → List (String × Rule) → Prop
  | nil : DescribesBindings [] []
  | cons {j : J} {n : String} {r : Rule} {js : List J} {bs : List (String × Rule)} :
      Describes j r → DescribesBindings js bs → DescribesBindings (.arr [.str n, j] :: js) ((n, r) :: bs)
end

mutual
/-- A rule that can occur in a document: no marker of the traversal, numbers in range. -/
def Sourced : Rule → Prop
  | .option r => Sourced r
  | .list r => Sourced r
  | .reference _ r => Sourced r
  | .record fs => SourcedFields fs
  | .tuple rs => SourcedRules rs
  | .custom rs => SourcedRules rs
  | .sum ss => SourcedSummands ss
  | .polyvar ps => SourcedPolyvars ps
  | .customForPath _ _ => False
  | _ => True
def SourcedRules : List Rule → Prop
  | [] => True
  | r :: rs => Sourced r ∧ SourcedRules rs
def SourcedFields : List (String × Rule) → Prop
  | [] => True
  | (_, r) :: fs => Sourced r ∧ SourcedFields fs
def SourcedSummands : List Summand → Prop
  | [] => True
  | .mk _ i as :: ss => (-2 ^ 31 ≤ i ∧ i < 2 ^ 31) ∧ SourcedRules as ∧ SourcedSummands ss
def SourcedPolyvars : List Polyvar → Prop
  | [] => True
  | .tagged _ _ as :: ps => SourcedRules as ∧ SourcedPolyvars ps
  | .inherited r :: ps => Sourced r ∧ SourcedPolyvars ps
end

/-- The document is a layout with this rule: all its members are there, once each, of the right kind; the version may
be missing or `null`. -/
def IsLayout (j : J) (r : Rule) : Prop :=
  ∃ l d b jr, Describes jr r ∧
    ((∃ es, j = .obj es ∧ es.filter (fun e => e.1 == "layout_loc") = [("layout_loc", .str l)] ∧
        es.filter (fun e => e.1 == "type_decl") = [("type_decl", .str d)] ∧
        es.filter (fun e => e.1 == "bin_io_derived") = [("bin_io_derived", .bool b)] ∧
        es.filter (fun e => e.1 == "bin_prot_rule") = [("bin_prot_rule", jr)] ∧
        (es.filter (fun e => e.1 == "version_opt") = [] ∨
          ∃ v, es.filter (fun e => e.1 == "version_opt") = [("version_opt", v)] ∧ IsVersion v)) ∨
     (∃ v, j = .arr [.str l, v, .str d, .bool b, jr] ∧ IsVersion v))
where
  /-- `null` or a 32-bit number. -/
  IsVersion (v : J) : Prop := v = .null ∨ ∃ n : Int, v = .num n ∧ -2 ^ 31 ≤ n ∧ n < 2 ^ 31

end MinaRs.BinProt.Spec
