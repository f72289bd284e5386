import Verif.BinProt.LayoutDocLemmas
import Verif.BinProt.ReaderToolProps

/-!
# Properties of layout documents (C85)
-/

namespace MinaRs.BinProt.LayoutDoc

open MinaRs.Json (J)
open Spec

/-- **C85.** A document is read as a rule exactly if it describes that rule. -/
theorem C85_reads_exactly (j : J) (r : Rule) : ruleOf j = some r ↔ Describes j r :=
  ⟨ruleUpTo_sound _ _ _, fun h => complete h _ (Nat.le_refl _)⟩

mutual
/-- The usual document of a rule. -/
def doc : Rule → J
  | .nat0 => .arr [.str "Nat0"]
  | .unit => .arr [.str "Unit"]
  | .bool => .arr [.str "Bool"]
  | .string => .arr [.str "String"]
  | .char => .arr [.str "Char"]
  | .int .int => .arr [.str "Int"]
  | .int .int32 => .arr [.str "Int32"]
  | .int .int64 => .arr [.str "Int64"]
  | .int .nativeInt => .arr [.str "Native_int"]
  | .float => .arr [.str "Float"]
  | .option r => .arr [.str "Option", doc r]
  | .record fs => .arr [.str "Record", .arr (docFields fs)]
  | .tuple rs => .arr [.str "Tuple", .arr (docs rs)]
  | .sum ss => .arr [.str "Sum", .arr (docSummands ss)]
  | .polyvar ps => .arr [.str "Polyvar", .arr (docPolyvars ps)]
  | .list r => .arr [.str "List", doc r]
  | .reference p r => .arr [.str "Reference", .arr [.str "Resolved", .obj [("source_type_decl", .str ""),
      ("source_module_path", .str p), ("ref_rule", doc r)]]]
  | .custom rs => .arr [.str "Custom", .arr (docs rs)]
  | .customForPath _ _ => .null
  | .other .vec => .arr [.str "Vec", .num 0, .arr [.str "Unit"]]
  | .other .hashtable => .arr [.str "Hashtable", .obj [("key_rule", .arr [.str "Unit"]), ("value_rule", .arr [.str "Unit"])]]
  | .other .bigstring => .arr [.str "Bigstring"]
  | .other .typeVar => .arr [.str "Type_var", .str "a"]
  | .other .selfReference => .arr [.str "Self_reference", .arr []]
  | .other .typeAbstraction => .arr [.str "Type_abstraction", .arr [], .arr [.str "Unit"]]
  | .other .typeClosure => .arr [.str "Type_closure", .arr [], .arr [.str "Unit"]]
  | .other .unresolvedReference => .arr [.str "Reference", .arr [.str "Unresolved", .obj [("params", .arr []), ("layout_id", .str "")]]]
def docs : List Rule → List J
  | [] => []
  | r :: rs => doc r :: docs rs
def docFields : List (String × Rule) → List J
  | [] => []
  | (n, r) :: fs => .obj [("field_name", .str n), ("field_rule", doc r)] :: docFields fs
def docSummands : List Summand → List J
  | [] => []
  | .mk n i as :: ss => .obj [("ctor_name", .str n), ("index", .num i), ("ctor_args", .arr (docs as))] :: docSummands ss
def docPolyvars : List Polyvar → List J
  | [] => []
  | .tagged n h as :: ps =>
    .arr [.str "Tagged", .obj [("polyvar_name", .str n), ("hash", .num h.toNat), ("polyvar_args", .arr (docs as))]] :: docPolyvars ps
  | .inherited r :: ps => .arr [.str "Inherited", doc r] :: docPolyvars ps
end

theorem holds_of_member {keys : List String} {es : List (String × J)} {k : String} {v : J} (h : member k es = some v) :
    Holds keys (.obj es) k v := Or.inl ⟨es, rfl, (member_some_iff _ _ _).mp h⟩

theorem unit_describes : Describes (.arr [.str "Unit"]) .unit := .plain (by simp [plainRules])

mutual
theorem describes_doc : (r : Rule) → Sourced r → Describes (doc r) r
  | .nat0, _ => .plain (by simp [plainRules])
  | .unit, _ => .plain (by simp [plainRules])
  | .bool, _ => .plain (by simp [plainRules])
  | .string, _ => .plain (by simp [plainRules])
  | .char, _ => .plain (by simp [plainRules])
  | .int .int, _ => .plain (by simp [plainRules])
  | .int .int32, _ => .plain (by simp [plainRules])
  | .int .int64, _ => .plain (by simp [plainRules])
  | .int .nativeInt, _ => .plain (by simp [plainRules])
  | .float, _ => .plain (by simp [plainRules])
  | .option r, h => .option (describes_doc r (by simpa only [Sourced] using h))
  | .list r, h => .list (describes_doc r (by simpa only [Sourced] using h))
  | .record fs, h => .record (describes_docFields fs (by simpa only [Sourced] using h))
  | .tuple rs, h => .tuple (describes_docs rs (by simpa only [Sourced] using h))
  | .custom rs, h => .custom (describes_docs rs (by simpa only [Sourced] using h))
  | .sum ss, h => .sum (describes_docSummands ss (by simpa only [Sourced] using h))
  | .polyvar ps, h => .polyvar (describes_docPolyvars ps (by simpa only [Sourced] using h))
  | .reference p r, h => .resolved (b := false) (holds_of_member rfl) (Or.inl (holds_of_member rfl))
      (Or.inr ⟨_, rfl, (member_none_iff _ _).mp rfl⟩) (holds_of_member rfl) (describes_doc r (by simpa only [Sourced] using h))
  | .customForPath _ _, h => by simp [Sourced] at h
  | .other .vec, _ => .vec (n := 0) (by decide) unit_describes
  | .other .hashtable, _ => .hashtable (holds_of_member rfl) (holds_of_member rfl) unit_describes unit_describes
  | .other .bigstring, _ => .plain (by simp [plainRules])
  | .other .typeVar, _ => .typeVar
  | .other .selfReference, _ => .selfReference .nil
  | .other .typeAbstraction, _ => .typeAbstraction (names := []) unit_describes
  | .other .typeClosure, _ => .typeClosure .nil unit_describes
  | .other .unresolvedReference, _ => .unresolved (holds_of_member rfl) (holds_of_member rfl) .nil
theorem describes_docs : (rs : List Rule) → SourcedRules rs → DescribesAll (docs rs) rs
  | [], _ => .nil
  | r :: rs, h => by
    simp only [SourcedRules] at h
    exact .cons (describes_doc r h.1) (describes_docs rs h.2)
theorem describes_docFields : (fs : List (String × Rule)) → SourcedFields fs → DescribesFields (docFields fs) fs
  | [], _ => .nil
  | (n, r) :: fs, h => by
    simp only [SourcedFields] at h
    exact .cons (holds_of_member rfl) (holds_of_member rfl) (describes_doc r h.1) (describes_docFields fs h.2)
theorem describes_docSummands : (ss : List Summand) → SourcedSummands ss → DescribesSummands (docSummands ss) ss
  | [], _ => .nil
  | .mk n i as :: ss, h => by
    simp only [SourcedSummands] at h
    exact .cons (holds_of_member rfl) (holds_of_member rfl) h.1.1 h.1.2 (holds_of_member rfl) (describes_docs as h.2.1)
      (describes_docSummands ss h.2.2)
theorem describes_docPolyvars : (ps : List Polyvar) → SourcedPolyvars ps → DescribesPolyvars (docPolyvars ps) ps
  | [], _ => .nil
  | .tagged n k as :: ps, h => by
    simp only [SourcedPolyvars] at h
    exact .tagged (holds_of_member rfl) (holds_of_member rfl) (holds_of_member rfl) (describes_docs as h.1)
      (describes_docPolyvars ps h.2)
  | .inherited r :: ps, h => by
    simp only [SourcedPolyvars] at h
    exact .inherited (describes_doc r h.1) (describes_docPolyvars ps h.2)
end

mutual
theorem sourced_of {j : J} {r : Rule} : Describes j r → Sourced r
  | .plain h => by
    simp only [plainRules, List.mem_cons, Prod.mk.injEq, List.not_mem_nil, or_false] at h
    rcases h with ⟨-, rfl⟩ | ⟨-, rfl⟩ | ⟨-, rfl⟩ | ⟨-, rfl⟩ | ⟨-, rfl⟩ | ⟨-, rfl⟩ | ⟨-, rfl⟩ | ⟨-, rfl⟩ | ⟨-, rfl⟩ | ⟨-, rfl⟩ | ⟨-, rfl⟩ <;>
      simp only [Sourced]
  | .option h => by simpa only [Sourced] using sourced_of h
  | .list h => by simpa only [Sourced] using sourced_of h
  | .record h => by simpa only [Sourced] using sourced_fields h
  | .tuple h => by simpa only [Sourced] using sourced_all h
  | .custom h => by simpa only [Sourced] using sourced_all h
  | .sum h => by simpa only [Sourced] using sourced_summands h
  | .polyvar h => by simpa only [Sourced] using sourced_polyvars h
  | .resolved _ _ _ _ h => by simpa only [Sourced] using sourced_of h
  | .unresolved _ _ _ => by simp only [Sourced]
  | .hashtable _ _ _ _ => by simp only [Sourced]
  | .typeVar => by simp only [Sourced]
  | .selfReference _ => by simp only [Sourced]
  | .vec _ _ => by simp only [Sourced]
  | .typeAbstraction _ => by simp only [Sourced]
  | .typeClosure _ _ => by simp only [Sourced]
theorem sourced_all {js : List J} {rs : List Rule} : DescribesAll js rs → SourcedRules rs
  | .nil => by simp only [SourcedRules]
  | .cons h hs => by simp only [SourcedRules]; exact ⟨sourced_of h, sourced_all hs⟩
theorem sourced_fields {js : List J} {fs : List (String × Rule)} : DescribesFields js fs → SourcedFields fs
  | .nil => by simp only [SourcedFields]
  | .cons _ _ h hs => by simp only [SourcedFields]; exact ⟨sourced_of h, sourced_fields hs⟩
theorem sourced_summands {js : List J} {ss : List Summand} : DescribesSummands js ss → SourcedSummands ss
  | .nil => by simp only [SourcedSummands]
  | .cons _ _ h1 h2 _ h hs => by simp only [SourcedSummands]; exact ⟨⟨h1, h2⟩, sourced_all h, sourced_summands hs⟩
theorem sourced_polyvars {js : List J} {ps : List Polyvar} : DescribesPolyvars js ps → SourcedPolyvars ps
  | .nil => by simp only [SourcedPolyvars]
  | .tagged _ _ _ h hs => by simp only [SourcedPolyvars]; exact ⟨sourced_all h, sourced_polyvars hs⟩
  | .inherited h hs => by simp only [SourcedPolyvars]; exact ⟨sourced_of h, sourced_polyvars hs⟩
end

/-- **C85.** The rules that have a document are exactly those without the marker of the traversal and with 32-bit
numbers. -/
theorem C85_every_rule (r : Rule) : (∃ j, ruleOf j = some r) ↔ Sourced r := by
  constructor
  · rintro ⟨j, h⟩
    exact sourced_of ((C85_reads_exactly j r).mp h)
  · intro h
    exact ⟨doc r, (C85_reads_exactly _ _).mpr (describes_doc r h)⟩

theorem lookup_one_iff (k : String) (es : List (String × J)) (v : J) :
    Json.lookup k es = [v] ↔ es.filter (fun e => e.1 == k) = [(k, v)] := by
  unfold Json.lookup
  constructor
  · intro h
    match hf : es.filter (fun e => e.1 == k) with
    | [] => rw [hf] at h; cases h
    | [e] =>
      rw [hf] at h
      have he : e ∈ es.filter (fun e => e.1 == k) := by rw [hf]; simp
      have := (List.mem_filter.mp he).2
      obtain ⟨a, b⟩ := e
      simp only [List.map_cons, List.map_nil, List.cons.injEq, and_true] at h
      simp only [beq_iff_eq] at this
      subst this h
      exact hf
    | _ :: _ :: _ => rw [hf] at h; simp at h
  · intro h
    rw [h]; rfl

theorem lookup_nil_iff (k : String) (es : List (String × J)) :
    Json.lookup k es = [] ↔ es.filter (fun e => e.1 == k) = [] := by
  unfold Json.lookup
  exact List.map_eq_nil_iff

theorem version_iff (vs : List J) : (∃ o, layoutOf.version vs = some o) ↔ vs = [] ∨ ∃ v, vs = [v] ∧ IsLayout.IsVersion v := by
  match vs with
  | [] => simp [layoutOf.version]
  | [.null] => simp [layoutOf.version, IsLayout.IsVersion]
  | [.num n] =>
    simp only [layoutOf.version, IsLayout.IsVersion, reduceCtorEq, List.cons.injEq, and_true, exists_eq_left', false_or,
      J.num.injEq]
    constructor
    · rintro ⟨o, h⟩
      obtain ⟨m, hm, -⟩ := Option.map_eq_some_iff.mp h
      obtain ⟨he, h1, h2⟩ := (int_iff _ _ _ _).mp hm
      injection he with he
      subst he
      exact ⟨by omega, by omega⟩
    · rintro ⟨h1, h2⟩
      exact ⟨some n, by rw [int_num (by omega) (by omega)]; rfl⟩
  | [.bool _] => simp [layoutOf.version, IsLayout.IsVersion, int]
  | [.float _] => simp [layoutOf.version, IsLayout.IsVersion, int]
  | [.str _] => simp [layoutOf.version, IsLayout.IsVersion, int]
  | [.arr _] => simp [layoutOf.version, IsLayout.IsVersion, int]
  | [.obj _] => simp [layoutOf.version, IsLayout.IsVersion, int]
  | _ :: _ :: _ => simp [layoutOf.version]

theorem flag_iff (j : J) (b : Bool) : layoutOf.flag j = some b ↔ j = .bool b := by
  cases j <;> simp [layoutOf.flag]

/-- **C85.** A document is read as a layout exactly if it is one. -/
theorem C85_layout_exactly (j : J) (r : Rule) : layoutOf j = some r ↔ IsLayout j r := by
  unfold layoutOf IsLayout
  constructor
  · intro h
    split at h
    · rename_i es
      split at h
      · rename_i l v d b jr h1 h2 h3 h4
        simp only [Option.bind_eq_bind, Option.bind_eq_some_iff] at h
        obtain ⟨ls, hl, o, ho, ds, hd, bs, hb, hr⟩ := h
        rw [(text_iff _ _).mp hl] at h1
        rw [(text_iff _ _).mp hd] at h2
        rw [(flag_iff _ _).mp hb] at h3
        refine ⟨ls, ds, bs, jr, (C85_reads_exactly _ _).mp hr, Or.inl ⟨es, rfl, (lookup_one_iff _ _ _).mp h1,
          (lookup_one_iff _ _ _).mp h2, (lookup_one_iff _ _ _).mp h3, (lookup_one_iff _ _ _).mp h4, ?_⟩⟩
        rcases (version_iff _).mp ⟨o, ho⟩ with hv | ⟨v', hv, hv'⟩
        · exact Or.inl ((lookup_nil_iff _ _).mp hv)
        · exact Or.inr ⟨v', (lookup_one_iff _ _ _).mp hv, hv'⟩
      · cases h
    · rename_i l v d b jr
      simp only [Option.bind_eq_bind, Option.bind_eq_some_iff] at h
      obtain ⟨ls, hl, o, ho, ds, hd, bs, hb, hr⟩ := h
      rw [(text_iff _ _).mp hl, (text_iff _ _).mp hd, (flag_iff _ _).mp hb]
      refine ⟨ls, ds, bs, jr, (C85_reads_exactly _ _).mp hr, Or.inr ⟨v, rfl, ?_⟩⟩
      rcases (version_iff _).mp ⟨o, ho⟩ with hv | ⟨v', hv, hv'⟩
      · cases hv
      · cases hv; exact hv'
    · cases h
  · rintro ⟨l, d, b, jr, hr, ⟨es, rfl, h1, h2, h3, h4, h5⟩ | ⟨v, rfl, hv⟩⟩
    · simp only [(lookup_one_iff _ _ _).mpr h1, (lookup_one_iff _ _ _).mpr h2, (lookup_one_iff _ _ _).mpr h3,
        (lookup_one_iff _ _ _).mpr h4]
      obtain ⟨o, ho⟩ : ∃ o, layoutOf.version (Json.lookup "version_opt" es) = some o := by
        rw [version_iff]
        rcases h5 with h5 | ⟨v, h5, hv⟩
        · exact Or.inl ((lookup_nil_iff _ _).mpr h5)
        · exact Or.inr ⟨v, (lookup_one_iff _ _ _).mpr h5, hv⟩
      simp only [text, ho, layoutOf.flag, Option.bind_eq_bind, Option.bind_some, (C85_reads_exactly _ _).mpr hr]
    · obtain ⟨o, ho⟩ := (version_iff [v]).mpr (Or.inr ⟨v, rfl, hv⟩)
      simp only [text, ho, layoutOf.flag, Option.bind_eq_bind, Option.bind_some, (C85_reads_exactly _ _).mpr hr]

/-- **C85.** The tool on a document and a file, without `--roundtrip`: a value is printed exactly if the document is a
layout and the input begins with a wire form of the value under it. -/
theorem C85_tool_partial (j : J) (file : Bytes) (v : Value) (hs : ∀ r, IsLayout j r → Scoped r false) :
    toolOn j false file = some (.prints v) ↔
      ∃ r enc rest, IsLayout j r ∧ ReaderTool.input file = enc ++ rest ∧ Gram false r none enc v := by
  unfold toolOn
  constructor
  · intro h
    split at h
    · cases h
    · rename_i r hr
      have hr := (C85_layout_exactly j r).mp hr
      obtain ⟨enc, rest, h1, h2⟩ := (ReaderTool.C84_prints_partial r (hs r hr) file v).mp (Option.some.inj h)
      exact ⟨r, enc, rest, hr, h1, h2⟩
  · rintro ⟨r, enc, rest, hr, h1, h2⟩
    rw [(C85_layout_exactly j r).mpr hr]
    exact congrArg some ((ReaderTool.C84_prints_partial r (hs r hr) file v).mpr ⟨enc, rest, h1, h2⟩)

/-- **C85 fails** for layouts the library writes itself: none of them can be read again. -/
theorem C85_written_fails (r : Rule) (contents : J) : ruleOf (written r contents) = none := by
  cases h : ruleOf (written r contents) with
  | none => rfl
  | some r' =>
    have := (C85_reads_exactly _ _).mp h
    exfalso
    revert this
    generalize hj : written r contents = j
    intro hd
    have hno : ∀ js, j ≠ .arr js := by
      intro js
      rw [← hj]
      unfold written
      split <;> simp
    cases hd <;> exact hno _ rfl

/-- A layout with a record, a variant type, a list and a reference. -/
def sampleDoc : J := .obj [("layout_loc", .str "f.ml"), ("module_path", .str "M"), ("version_opt", .num 1), ("type_decl", .str "t"),
  ("bin_io_derived", .bool true), ("bin_prot_rule", .arr [.str "Record", .arr [
    .obj [("field_name", .str "a"), ("field_rule", .arr [.str "Option", .arr [.str "Int"]])],
    .obj [("field_name", .str "b"), ("field_rule", .arr [.str "Sum", .arr [
      .obj [("ctor_name", .str "X"), ("index", .num 0), ("ctor_args", .arr [])],
      .obj [("ctor_name", .str "Y"), ("index", .num 1), ("ctor_args", .arr [.arr [.str "Bool"]])]]])],
    .arr [.str "c", .arr [.str "Reference", .arr [.str "Resolved", .obj [("source_type_decl", .str "t"), ("ref_rule", .arr [.str "Char"])]]]]]])]

/-- The rule in it. -/
def sampleRule : Rule := .record [("a", .option (.int .int)), ("b", .sum [.mk "X" 0 [], .mk "Y" 1 [.bool]]), ("c", .reference "" .char)]

example : layoutOf sampleDoc = some sampleRule ∧ IsLayout sampleDoc sampleRule ∧ Sourced sampleRule ∧
    (∀ r, IsLayout sampleDoc r → Scoped r false) ∧
    toolOn sampleDoc true [1, 5, 1, 1, 65] =
      some (.prints (.record [("a", .some (.int 5)), ("b", .sum "Y" 1 (.tuple [.bool true])), ("c", .char 65)])) := by
  have h : layoutOf sampleDoc = some sampleRule := rfl
  refine ⟨h, (C85_layout_exactly _ _).mp h, by simp [sampleRule, Sourced, SourcedFields, SourcedSummands, SourcedRules], ?_, rfl⟩
  intro r hr
  have := (C85_layout_exactly _ _).mpr hr
  rw [h] at this
  cases this
  simp [sampleRule, Scoped, ScopedFields, ScopedSummands, ScopedRules]

example : layoutOf (.obj [("layout_loc", .str ""), ("type_decl", .str ""), ("bin_io_derived", .bool true),
      ("bin_prot_rule", .arr [.str "Unknown"])]) = none ∧
    ruleOf (.arr [.str "Int", .null]) = none ∧ ruleOf (.str "Int") = none := ⟨rfl, rfl, rfl⟩

end MinaRs.BinProt.LayoutDoc
