import Verif.BinProt.ReaderTool
import Verif.Json.Model

/-!
# Reading layout documents

Model of the deserialization of `Layout` and `BinProtRule` from JSON (`protocol/bin-prot/src/value/layout/mod.rs`,
`list_tagged_enum.rs`).

A rule is a list whose first item is its name.  `ListTaggedEnum` is an untagged enum: the document is buffered and
taken as one, two or three items, the first a text; the items are then read by `serde_json::from_value`, whose objects
hold the last value of a repeated key.  Derived structs accept an object or the list of all their members in order, and
ignore unknown keys.  Simplifications: documents are values (`Json.J`); the stack is deep enough.
-/

namespace MinaRs.BinProt.LayoutDoc

open MinaRs.Json (J)

/-- The value under a key of a `serde_json::Map`: the last one written
(`protocol/bin-prot/src/value/layout/mod.rs:93-161`). -/
def member (key : String) : List (String × J) → Option J
  | [] => none
  | (k, v) :: es =>
    match member key es with
    | some w => some w
    | none => if k = key then some v else none

/-- The members of a derived struct, in the order of its fields, `none` for those an object lacks
(`protocol/bin-prot/src/value/layout/mod.rs:163-219`). -/
def parts (keys : List String) : J → Option (List (Option J))
  | .obj es => some (keys.map fun k => member k es)
  | .arr js => if js.length = keys.length then some (js.map some) else none
  | _ => none

/-- All of them, or nothing (`protocol/bin-prot/src/value/layout/mod.rs:106-141`). -/
def all {α β : Type} (f : α → Option β) : List α → Option (List β)
  | [] => some []
  | a :: as =>
    match f a with
    | none => none
    | some b =>
      match all f as with
      | none => none
      | some bs => some (b :: bs)

/-- `Vec<T>` (`protocol/bin-prot/src/value/layout/mod.rs:110-124`) -/
def vec {β : Type} (f : J → Option β) : J → Option (List β)
  | .arr js => all f js
  | _ => none

/-- `String` (`protocol/bin-prot/src/value/layout/mod.rs:24-26`) -/
def text : J → Option String
  | .str s => some s
  | _ => none

/-- A number within bounds: `i32`, `u32`, `usize` (`protocol/bin-prot/src/value/layout/mod.rs:25, 70`). -/
def int (lo hi : Int) : J → Option Int
  | .num n => if lo ≤ n ∧ n ≤ hi then some n else none
  | _ => none

/-- `value/layout/mod.rs:93-105`: the rules without arguments. -/
def rule0 : String → Option Rule
  | "Nat0" => some .nat0
  | "Unit" => some .unit
  | "Bool" => some .bool
  | "String" => some .string
  | "Char" => some .char
  | "Int" => some (.int .int)
  | "Int32" => some (.int .int32)
  | "Int64" => some (.int .int64)
  | "Native_int" => some (.int .nativeInt)
  | "Float" => some .float
  | "Bigstring" => some (.other .bigstring)
  | _ => none

section
variable (rule : J → Option Rule)

/-- `mod.rs:163-168` (`RecordField`) -/
def field (j : J) : Option (String × Rule) :=
  match parts ["field_name", "field_rule"] j with
  | some [some n, some r] => do return (← text n, ← rule r)
  | _ => none

/-- `mod.rs:170-177` (`Summand`) -/
def summand (j : J) : Option Summand :=
  match parts ["ctor_name", "index", "ctor_args"] j with
  | some [some n, some i, some as] => do return .mk (← text n) (← int (-2147483648) 2147483647 i) (← vec rule as)
  | _ => none

/-- `mod.rs:179-185` (`HashTblEntry`) -/
def hashEntry (j : J) : Option (Rule × Rule) :=
  match parts ["key_rule", "value_rule"] j with
  | some [some k, some v] => do return (← rule k, ← rule v)
  | _ => none

/-- `mod.rs:198-219` (`TaggedPolyvar`, `TryFrom<ListTaggedEnum> for Polyvar`) -/
def polyvar : J → Option Polyvar
  | .arr [.str "Tagged", v] =>
    match parts ["polyvar_name", "hash", "polyvar_args"] v with
    | some [some n, some h, some as] => do
      return .tagged (← text n) (UInt32.ofNat (← int 0 4294967295 h).toNat) (← vec rule as)
    | _ => none
  | .arr [.str "Inherited", v] => do return .inherited (← rule v)
  | _ => none

/-- `#[serde(default)]` on a text (`protocol/bin-prot/src/value/layout/mod.rs:198-219`) -/
def textOrDefault : Option J → Option String
  | none => some ""
  | some j => text j

/-- `#[serde(default)]` on a flag (`protocol/bin-prot/src/value/layout/mod.rs:198-219`) -/
def flagOrDefault : Option J → Option Bool
  | none => some false
  | some (.bool b) => some b
  | some _ => none

/-- `mod.rs:221-267` (`RuleRef`, `UnresolvedPayload`, `ResolvedPayload`) -/
def reference : J → Option Rule
  | .arr [.str "Unresolved", v] =>
    match parts ["params", "layout_id"] v with
    | some [some ps, some i] => do
      let _ ← vec rule ps
      let _ ← text i
      return .other .unresolvedReference
    | _ => none
  | .arr [.str "Resolved", v] =>
    match parts ["source_type_decl", "source_module_path", "bin_io_derived", "ref_rule"] v with
    | some [some d, p, b, some r] => do
      let _ ← text d
      let _ ← flagOrDefault b
      return .reference (← textOrDefault p) (← rule r)
    | _ => none
  | _ => none

/-- `(String, BinProtRule)` (`protocol/bin-prot/src/value/layout/mod.rs:83`) -/
def binding : J → Option (String × Rule)
  | .arr [n, r] => do return (← text n, ← rule r)
  | _ => none

/-- `mod.rs:106-141`: the rules with one argument. -/
def rule1 (name : String) (v : J) : Option Rule :=
  match name with
  | "Option" => do return .option (← rule v)
  | "Record" => do return .record (← vec (field rule) v)
  | "Tuple" => do return .tuple (← vec rule v)
  | "Sum" => do return .sum (← vec (summand rule) v)
  | "Polyvar" => do return .polyvar (← vec (polyvar rule) v)
  | "List" => do return .list (← rule v)
  | "Hashtable" => do
    let _ ← hashEntry rule v
    return .other .hashtable
  | "Reference" => reference rule v
  | "Type_var" => do
    let _ ← text v
    return .other .typeVar
  | "Self_reference" => do
    let _ ← vec rule v
    return .other .selfReference
  | "Custom" => do return .custom (← vec rule v)
  | _ => none

/-- `mod.rs:142-157`: the rules with two arguments. -/
def rule2 (name : String) (v w : J) : Option Rule :=
  match name with
  | "Vec" => do
    let _ ← int 0 18446744073709551615 v
    let _ ← rule w
    return .other .vec
  | "Type_abstraction" => do
    let _ ← vec text v
    let _ ← rule w
    return .other .typeAbstraction
  | "Type_closure" => do
    let _ ← vec (binding rule) v
    let _ ← rule w
    return .other .typeClosure
  | _ => none
end

/-- `TryFrom<ListTaggedEnum> for BinProtRule` (`mod.rs:90-161`), with a bound on the depth of the document. -/
def ruleUpTo : Nat → J → Option Rule
  | 0, _ => none
  | n + 1, j =>
    match j with
    | .arr [.str t] => rule0 t
    | .arr [.str t, v] => rule1 (ruleUpTo n) t v
    | .arr [.str t, v, w] => rule2 (ruleUpTo n) t v w
    | _ => none

mutual
/-- How deep a document is (a bound for the recursion of `protocol/bin-prot/src/value/layout/mod.rs:90-161`). -/
def depth : J → Nat
  | .arr js => depths js + 1
  | .obj es => depthEntries es + 1
  | _ => 1
/-- The same for the items of an array (`protocol/bin-prot/src/value/layout/mod.rs:90-161`). -/
def depths : List J → Nat
  | [] => 0
  | j :: js => max (depth j) (depths js)
/-- The same for the members of an object (`protocol/bin-prot/src/value/layout/mod.rs:90-161`). -/
def depthEntries : List (String × J) → Nat
  | [] => 0
  | (_, j) :: es => max (depth j) (depthEntries es)
end

/-- A rule read from a document (`protocol/bin-prot/src/value/layout/mod.rs:90-161`). -/
def ruleOf (j : J) : Option Rule := ruleUpTo (depth j) j

/-- `mod.rs:20-32` (`Layout`): only its rule is used.  It is read from the text itself, where a repeated key is an
error. -/
def layoutOf (j : J) : Option Rule :=
  match j with
  | .obj es =>
    match Json.lookup "layout_loc" es, Json.lookup "version_opt" es, Json.lookup "type_decl" es,
        Json.lookup "bin_io_derived" es, Json.lookup "bin_prot_rule" es with
    | [l], v, [d], [b], [r] => do
      let _ ← text l
      let _ ← version v
      let _ ← text d
      let _ ← flag b
      ruleOf r
    | _, _, _, _, _ => none
  | .arr [l, v, d, b, r] => do
    let _ ← text l
    let _ ← version [v]
    let _ ← text d
    let _ ← flag b
    ruleOf r
  | _ => none
where
  /-- `Option<i32>`: missing, `null` or a number. -/
  version : List J → Option (Option Int)
    | [] => some none
    | [.null] => some none
    | [v] => (int (-2147483648) 2147483647 v).map some
    | _ => none
  flag : J → Option Bool
    | .bool b => some b
    | _ => none

/-- The name of a rule in the derived `Serialize` (`mod.rs:35`). -/
def variantName : Rule → String
  | .nat0 => "Nat0"
  | .unit => "Unit"
  | .bool => "Bool"
  | .string => "String"
  | .char => "Char"
  | .int .int => "Int"
  | .int .int32 => "Int32"
  | .int .int64 => "Int64"
  | .int .nativeInt => "NativeInt"
  | .float => "Float"
  | .option _ => "Option"
  | .record _ => "Record"
  | .tuple _ => "Tuple"
  | .sum _ => "Sum"
  | .polyvar _ => "Polyvar"
  | .list _ => "List"
  | .reference _ _ => "Reference"
  | .custom _ => "Custom"
  | .customForPath _ _ => "CustomForPath"
  | .other .vec => "Vec"
  | .other .hashtable => "Hashtable"
  | .other .bigstring => "Bigstring"
  | .other .typeVar => "TypeVar"
  | .other .selfReference => "SelfReference"
  | .other .typeAbstraction => "TypeAbstraction"
  | .other .typeClosure => "TypeClosure"
  | .other .unresolvedReference => "Reference"

/-- `#[derive(Serialize)] enum BinProtRule` (`mod.rs:34-88`): the name, or an object from the name to the contents.
Simplification: the contents are left open. -/
def written (r : Rule) (contents : J) : J :=
  match r with
  | .nat0 | .unit | .bool | .string | .char | .int _ | .float | .other .bigstring => .str (variantName r)
  | _ => .obj [(variantName r, contents)]

/-- The tool on a layout document (`apps/bin-prot-layout-reader/src/main.rs:44-101`); `none` when the layout is
refused. -/
def toolOn (layout : J) (roundtrip : Bool) (file : Bytes) : Option ReaderTool.Outcome :=
  match layoutOf layout with
  | none => none
  | some r => some (ReaderTool.tool r roundtrip file)

end MinaRs.BinProt.LayoutDoc
