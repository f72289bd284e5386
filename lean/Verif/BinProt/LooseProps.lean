import Verif.BinProt.LooseTyped

/-!
# Properties C15–C19 (layout-driven layer)

Model: `Loose.lean`.  Specification: `LooseSpec.lean` (`parse`, `Gram`, `Scoped`, `Rewritable`,
`Supported`, `Addresses`) and, for C17, `Spec.layoutOf` and `Spec.toValue` in `LooseTyped.lean`.
-/

namespace MinaRs.BinProt
open Prog Spec

/-! ## C15 -/

/-- **C15 (part).** Layout-driven decoding is recursive descent: on every input the decoder
returns the value recursive descent returns, with the same bytes left and no rule of the layout
left over; and the same error when recursive descent fails.  Missing: layouts in which a
`Custom` rule is not the direct target of a `Reference`, for which the claim is false
(`C15_module_path_leaks_fails`). -/
theorem C15_decoding_is_recursive_descent_partial (r : Rule) (h : Scoped r false) (s : Bytes) :
    (∀ v rest, (parse r none).run s = .ok (v, rest) →
      ∃ it, (decodeLoose r).run s = .ok ((v, it), rest) ∧ it.stack = []) ∧
    (∀ e, (parse r none).run s = .error e → (decodeLoose r).run s = .error e) := by
  have := deser_agrees r false h r.depth (Nat.le_refl _) [] none none (fun _ => rfl) s
  refine ⟨fun v rest hv => ?_, this.2⟩
  obtain ⟨p', hp⟩ := this.1 v rest hv
  exact ⟨_, hp, rfl⟩

/-- **C15 (part).** The inputs accepted are exactly those starting with a wire form of a value
under the layout; that value is returned, exactly that wire form is consumed, and the whole
layout has been visited. -/
theorem C15_accepts_exactly_the_grammar_partial (r : Rule) (h : Scoped r false) (s rest : Bytes) (v : Value) :
    (∃ it, (decodeLoose r).run s = .ok ((v, it), rest)) ↔ ∃ enc, s = enc ++ rest ∧ Gram false r none enc v := by
  have hd := C15_decoding_is_recursive_descent_partial r h s
  rw [← parse_ok_iff]
  constructor
  · rintro ⟨it, hit⟩
    cases hp : (parse r none).run s with
    | error e => rw [hd.2 e hp] at hit; cases hit
    | ok x =>
      obtain ⟨w, rest'⟩ := x
      obtain ⟨it', h', _⟩ := hd.1 w rest' hp
      rw [h'] at hit; cases hit; rfl
  · intro hp
    obtain ⟨it', h', _⟩ := hd.1 v rest hp
    exact ⟨it', h'⟩

/-- **C15 (part).** Nothing of the layout is left over after a successful decode. -/
theorem C15_whole_layout_visited_partial (r : Rule) (h : Scoped r false) (s rest : Bytes) (v : Value) (it : Iter)
    (hd : (decodeLoose r).run s = .ok ((v, it), rest)) : it.stack = [] := by
  have hp := (parse_ok_iff r none s v rest).mpr
    ((C15_accepts_exactly_the_grammar_partial r h s rest v).mp ⟨it, hd⟩)
  obtain ⟨it', h', hs⟩ := (C15_decoding_is_recursive_descent_partial r h s).1 v rest hp
  rw [h'] at hd; cases hd; exact hs

/-- **C15 (custom types).** A custom type is read as a vector of `n` elements exactly if its path says so by its
last component: vectors of 2, 4, 8, 17 and 18 elements (two spellings of the first); as a 32-byte number
exactly if its path is one of ten; otherwise it is unknown. -/
theorem C15_custom_types (path : String) :
    (∀ n, customKind path = .vector n ↔ n ∈ [2, 4, 8, 17, 18] ∧
      (path = "Pickles_types.Vector.Vector" ++ toString n ∨ (n = 2 ∧ path = "Pickles_type.Vector.Vector2"))) ∧
    (customKind path = .bigInt ↔ path ∈ ["Ledger_hash0", "State_hash", "Pending_coinbase.Stack_hash", "State_body_hash",
      "Pending_coinbase.Hash_builder", "Snark_params.Make_inner_curve_scalar", "Snark_params.Tick", "Epoch_seed",
      "Zexe_backend.Zexe_backend_common.Stable.Field", "Pending_coinbase.Coinbase_stack"]) := by
  constructor
  · intro n
    constructor
    · intro h
      unfold customKind at h
      split at h
      · rename_i m hv
        cases h
        unfold vectorLen at hv
        repeat' split at hv
        all_goals first
          | (rename_i hp
             subst hp
             cases hv
             exact ⟨by decide, by decide⟩)
          | cases hv
      · split at h <;> cases h
    · rintro ⟨hn, hp⟩
      rcases hp with rfl | ⟨rfl, rfl⟩
      · simp only [List.mem_cons, List.not_mem_nil, or_false] at hn
        rcases hn with rfl | rfl | rfl | rfl | rfl <;> decide
      · decide
  · constructor
    · intro h
      unfold customKind at h
      split at h
      · cases h
      split at h
      · assumption
      · cases h
    · intro h
      simp only [List.mem_cons, List.not_mem_nil, or_false] at h
      rcases h with rfl | rfl | rfl | rfl | rfl | rfl | rfl | rfl | rfl | rfl <;> decide

/-- A layout with every supported rule, nested. -/
def sampleLayout : Rule :=
  .record [("a", .option (.int .int)), ("b", .list (.sum [.mk "A" 0 [], .mk "B" 1 [.string, .bool]])),
    ("c", .polyvar [.tagged "One" 3953222 [], .tagged "Two" 4203884 [.float, .char]]),
    ("d", .reference "Pickles_types.Vector.Vector2" (.custom [.reference "X" (.int .int64)])),
    ("e", .tuple [.unit, .reference "State_hash" (.custom [])])]

/-- An input it accepts. -/
def sampleInput : Bytes :=
  [1, 5, 2, 1, 1, 104, 1, 0] ++ leBytes 4 (2 * 3953222 + 1) ++ [7, 8, 0] ++ [0] ++ List.replicate 32 9

example : Scoped sampleLayout false ∧ Rewritable sampleLayout := by
  simp [sampleLayout, Scoped, ScopedFields, ScopedRules, ScopedSummands, ScopedPolyvars, Rewritable,
    RewritableFields, RewritableRules, RewritableSummands, RewritablePolyvars]

example : (decodeLoose sampleLayout).run (sampleInput ++ [77]) =
    .ok ((.record [("a", .some (.int 5)),
      ("b", .list [.sum "B" 1 (.tuple [.list [.char 104], .bool true]), .sum "A" 0 (.tuple [])]),
      ("c", .polyvar "One" 3953222 (.tuple [])), ("d", .tuple [.int 7, .int 8, .unit]),
      ("e", .tuple [.unit, .tuple (List.replicate 32 (.char 9))])], ⟨[], some "State_hash"⟩), [77]) := rfl

/-- **C15** is false when a `Custom` rule is not itself the target of a `Reference`: the
decoder never restores the module path on leaving a reference, so the custom rule is looked up
under the last reference visited instead of the one enclosing it, and the name of that one is never used. -/
theorem C15_module_path_leaks_fails (outer inner : String) (rs : List Rule) (s : Bytes) :
    (decodeLoose (.reference outer (.tuple [.reference inner .unit, .custom rs]))).run s =
      (decodeLoose (.reference inner (.tuple [.unit, .custom rs]))).run s := by
  rfl

/-- A `State_hash` wrapper whose body first refers to another module. -/
example : let leaky := Rule.reference "State_hash" (.tuple [.reference "Other" .unit, .custom []])
    (parse leaky none).run (0 :: List.replicate 32 9) = .ok (.tuple [.unit, .tuple (List.replicate 32 (.char 9))], []) ∧
    (decodeLoose leaky).run (0 :: List.replicate 32 9) = .error (.unknownCustomType "Other") := ⟨rfl, rfl⟩

/-! ## C16 -/

/-- **C16 (part).** Under a layout whose summands carry their own position and whose tags do not
fit one byte, the decoded value serializes to the consumed bytes exactly when these are
canonical.  Missing: non-canonical inputs and the other layouts, for which the claim is false
(the `C16_*_fails` theorems). -/
theorem C16_reencoding_reproduces_canonical_bytes_partial (r : Rule) (hs : Scoped r false) (hr : Rewritable r)
    (s rest : Bytes) (v : Value) (it : Iter) (hd : (decodeLoose r).run s = .ok ((v, it), rest)) :
    ∃ enc, s = enc ++ rest ∧ Gram false r none enc v ∧ (valueBytes v = enc ↔ Gram true r none enc v) := by
  obtain ⟨enc, he, hg⟩ := (C15_accepts_exactly_the_grammar_partial r hs s rest v).mp ⟨it, hd⟩
  refine ⟨enc, he, hg, ?_, gram_bytes r hr none enc v⟩
  intro hv
  have := gram_canon false r hr none enc v hg
  unfold valueBytes at hv
  rwa [hv] at this

/-- **C16 (part).** Re-encoding is stable: the serialized form of a decoded value decodes, in any
context, to that value again, consuming exactly itself. -/
theorem C16_reencoding_decodes_to_same_value_partial (r : Rule) (hs : Scoped r false) (hr : Rewritable r)
    (s rest rest' : Bytes) (v : Value) (it : Iter) (hd : (decodeLoose r).run s = .ok ((v, it), rest)) :
    ∃ it', (decodeLoose r).run (valueBytes v ++ rest') = .ok ((v, it'), rest') := by
  obtain ⟨enc, he, hg⟩ := (C15_accepts_exactly_the_grammar_partial r hs s rest v).mp ⟨it, hd⟩
  exact (C15_accepts_exactly_the_grammar_partial r hs _ rest' v).mpr
    ⟨_, rfl, gram_weaken _ _ _ _ (gram_canon false r hr none enc v hg)⟩

example : valueBytes (.record [("a", .some (.int 5)),
      ("b", .list [.sum "B" 1 (.tuple [.list [.char 104], .bool true]), .sum "A" 0 (.tuple [])]),
      ("c", .polyvar "One" 3953222 (.tuple [])), ("d", .tuple [.int 7, .int 8, .unit]),
      ("e", .tuple [.unit, .tuple (List.replicate 32 (.char 9))])]) = sampleInput := rfl

/-- **C16** is false for every integer in a longer form than necessary. -/
theorem C16_noncanonical_integer_fails (k : IntRule) (enc : Bytes) (n : Int) (hw : WireInt enc n)
    (hlong : enc ≠ flush (binWriteInteger n).1) :
    ∃ it, (decodeLoose (.int k)).run enc = .ok ((.int n, it), []) ∧ valueBytes (.int n) ≠ enc := by
  obtain ⟨it, hd⟩ := (C15_accepts_exactly_the_grammar_partial (.int k) trivial enc [] (.int n)).mpr
    ⟨enc, (List.append_nil _).symm, n, rfl, hw, fun h => nomatch h⟩
  refine ⟨it, hd, fun h => hlong ?_⟩
  obtain ⟨enc', he, -, hiff⟩ := C16_reencoding_reproduces_canonical_bytes_partial (.int k) trivial trivial enc [] _ it hd
  rw [List.append_nil] at he
  subst he
  obtain ⟨m, hm, -, hc⟩ := hiff.mp h
  cases hm
  exact hc rfl

example : WireInt [0xfe, 5, 0] 5 ∧ [0xfe, 5, 0] ≠ flush (binWriteInteger 5).1 :=
  ⟨.wide 0xfe 2 [5, 0] 5 rfl (by decide) rfl (by unfold IsSignedLE; decide), by decide⟩

/-- **C16** is false for every list whose length is in a longer form than necessary. -/
theorem C16_noncanonical_length_fails (r : Rule) (hs : Scoped (.list r) false) (hr : Rewritable (.list r)) (len es rest : Bytes)
    (vs : List Value) (it : Iter) (hd : (decodeLoose (.list r)).run (len ++ es ++ rest) = .ok ((.list vs, it), rest))
    (hw : WireNat len vs.length) (hlong : len ≠ flush (binWriteNat0 vs.length).1) :
    valueBytes (.list vs) ≠ len ++ es := by
  intro h
  obtain ⟨enc, he, -, hiff⟩ := C16_reencoding_reproduces_canonical_bytes_partial (.list r) hs hr _ rest _ it hd
  have he := (List.append_cancel_right he).symm
  subst he
  obtain ⟨len', es', vs', hv, e, -, hw', hc, -⟩ := hiff.mp h
  cases hv
  have h1 := binReadNat0_wire u64 hw es
  have h2 := binReadNat0_wire u64 hw' es'
  have hh : u64.holds vs.length := by
    have := wireNat_lt hw
    simp [IntTy.holds, u64]; omega
  rw [e, h2, if_pos hh] at h1
  rw [if_pos hh] at h1
  have h3 : es' = es := (Prod.mk.inj (Except.ok.inj h1)).2
  subst h3
  exact hlong ((List.append_cancel_right e).trans (hc rfl))

example : (decodeLoose (.list .char)).run ([0xfe, 1, 0] ++ [9] ++ []) = .ok ((.list [.char 9], ⟨[], none⟩), []) ∧
    valueBytes (.list [.char 9]) = [1, 9] := ⟨rfl, rfl⟩

/-- **C16** is false for every polymorphic variant whose tag has a clear low bit. -/
theorem C16_even_tag_fails (ps : List Polyvar) (hs : Scoped (.polyvar ps) false) (hr : Rewritable (.polyvar ps)) (tag e rest : Bytes)
    (v : Value) (it : Iter) (hd : (decodeLoose (.polyvar ps)).run (tag ++ e ++ rest) = .ok ((v, it), rest))
    (h4 : tag.length = 4) (heven : leNat tag % 2 = 0) : valueBytes v ≠ tag ++ e := by
  intro h
  obtain ⟨enc, he, -, hiff⟩ := C16_reencoding_reproduces_canonical_bytes_partial (.polyvar ps) hs hr _ rest _ it hd
  have he := (List.append_cancel_right he).symm
  subst he
  have hg := hiff.mp h
  simp only [Gram] at hg
  obtain ⟨tag', e', ht, hl, hc, -⟩ := hg
  have : tag = tag' := (List.append_inj ht (by omega)).1
  subst this
  have := hc trivial
  omega

example : (decodeLoose (.polyvar [.tagged "One" 3953222 []])).run (leBytes 4 (2 * 3953222) ++ [] ++ []) =
      .ok ((.polyvar "One" 3953222 (.tuple []), ⟨[], none⟩), []) ∧
    valueBytes (.polyvar "One" 3953222 (.tuple [])) = leBytes 4 (2 * 3953222 + 1) := ⟨rfl, rfl⟩

theorem gramPolyvar_value {canon : Bool} : (ps : List Polyvar) → (tag : Nat) → (p : Option String) → (e : Bytes) → (v : Value) →
    GramPolyvar canon ps tag p e v → ∃ name hash args, v = .polyvar name hash (.tuple args) ∧ hash.toNat = tag
  | [], _, _, _, _, h => by simp only [GramPolyvar] at h
  | .tagged name hash args :: ps, tag, p, e, v, h => by
    simp only [GramPolyvar] at h
    rcases h with ⟨h1, vs, rfl, -⟩ | ⟨-, h⟩
    · exact ⟨name, hash, vs, rfl, h1⟩
    · exact gramPolyvar_value ps tag p e v h
  | .inherited _ :: _, _, _, _, _, h => by simp only [GramPolyvar] at h

/-- **C16** is false for every polymorphic variant whose tag is below 256, such as `` `A ``, under every layout: four bytes are
read and one is written, so that the input does not come back even if the arguments do. -/
theorem C16_small_tag_fails (ps : List Polyvar) (hs : Scoped (.polyvar ps) false) (s rest : Bytes) (v : Value) (it : Iter)
    (hd : (decodeLoose (.polyvar ps)).run s = .ok ((v, it), rest)) :
    ∃ tag e name hash args, s = tag ++ e ++ rest ∧ tag.length = 4 ∧ v = .polyvar name hash (.tuple args) ∧
      leNat tag / 2 = hash.toNat ∧
      (hash.toNat < 256 → valueBytes v = UInt8.ofNat hash.toNat :: valueBytes (.tuple args) ∧
        (valueBytes (.tuple args) = e → valueBytes v ≠ tag ++ e)) := by
  obtain ⟨enc, rfl, hg⟩ := (C15_accepts_exactly_the_grammar_partial _ hs s rest v).mp ⟨it, hd⟩
  simp only [Gram] at hg
  obtain ⟨tag, e, rfl, hlen, -, hg⟩ := hg
  obtain ⟨name, hash, args, rfl, htag⟩ := gramPolyvar_value ps _ _ e v hg
  refine ⟨tag, e, name, hash, args, rfl, hlen, rfl, htag.symm, fun hsmall => ?_⟩
  have hb : valueBytes (.polyvar name hash (.tuple args)) = UInt8.ofNat hash.toNat :: valueBytes (.tuple args) := by
    show flush (writeVariantIndex hash.toNat ++ encodeValue (.tuple args)) = _
    unfold writeVariantIndex
    rw [if_pos hsmall]
    rfl
  refine ⟨hb, fun he e' => ?_⟩
  rw [hb, he] at e'
  have := congrArg List.length e'
  rw [List.length_cons, List.length_append] at this
  omega

/-- Such a layout and input. -/
example : camlHashVariant (utf8 "A") = 65 ∧ Scoped (.polyvar [.tagged "A" 65 []]) false ∧
    (decodeLoose (.polyvar [.tagged "A" 65 []])).run [131, 0, 0, 0] =
      .ok ((.polyvar "A" 65 (.tuple []), ⟨[], none⟩), []) ∧
    valueBytes (.polyvar "A" 65 (.tuple [])) = [65] := ⟨rfl, ⟨trivial, trivial⟩, rfl, rfl⟩

theorem gramSummand_value {canon : Bool} : (ss : List Summand) → (n : Nat) → (p : Option String) → (e : Bytes) → (v : Value) →
    GramSummand canon ss n p e v → ∃ name i args vs, ss[n]? = some (.mk name i args) ∧ 0 ≤ i ∧ i < 256 ∧
      v = .sum name (UInt8.ofNat i.toNat) (.tuple vs)
  | [], _, _, _, _, h => by simp only [GramSummand] at h
  | .mk name i args :: ss, 0, p, e, v, h => by
    simp only [GramSummand] at h
    obtain ⟨h1, h2, vs, rfl, -⟩ := h
    exact ⟨name, i, args, vs, rfl, h1, h2, rfl⟩
  | _ :: ss, n + 1, p, e, v, h => by
    simp only [GramSummand] at h
    obtain ⟨name, i, args, vs, h1, h2⟩ := gramSummand_value ss n p e v h
    exact ⟨name, i, args, vs, by simpa using h1, h2⟩

/-- **C16** is false for every summand whose index in the layout is not its position: the value is written under another
first byte than it was read from. -/
theorem C16_summand_index_fails (ss : List Summand) (hs : Scoped (.sum ss) false) (s rest : Bytes) (v : Value) (it : Iter)
    (hd : (decodeLoose (.sum ss)).run s = .ok ((v, it), rest)) :
    ∃ (b : UInt8) (e : Bytes) (name : String) (i : Int) (args : List Rule) (vs : List Value), s = b :: e ++ rest ∧
      ss[b.toNat]? = some (.mk name i args) ∧ valueBytes v = UInt8.ofNat i.toNat :: valueBytes (.tuple vs) ∧
      (i ≠ b.toNat → valueBytes v ≠ b :: e) := by
  obtain ⟨enc, rfl, hg⟩ := (C15_accepts_exactly_the_grammar_partial _ hs s rest v).mp ⟨it, hd⟩
  simp only [Gram] at hg
  obtain ⟨b, e, rfl, hg⟩ := hg
  obtain ⟨name, i, args, vs, h1, h2, h3, rfl⟩ := gramSummand_value ss _ _ e v hg
  have hi : (UInt8.ofNat i.toNat).toNat = i.toNat := by
    rw [UInt8.toNat_ofNat']
    omega
  have hb : valueBytes (.sum name (UInt8.ofNat i.toNat) (.tuple vs)) = UInt8.ofNat i.toNat :: valueBytes (.tuple vs) := by
    show flush (writeVariantIndex (UInt8.ofNat i.toNat).toNat ++ encodeValue (.tuple vs)) = _
    unfold writeVariantIndex
    rw [hi, if_pos (by omega)]
    rfl
  refine ⟨b, e, name, i, args, vs, rfl, h1, hb, fun hne e' => hne ?_⟩
  rw [hb] at e'
  have := congrArg UInt8.toNat (List.cons.inj e').1
  omega

/-- Such a layout and input. -/
example : Scoped (.sum [.mk "A" 3 []]) false ∧
    (decodeLoose (.sum [.mk "A" 3 []])).run [0] = .ok ((.sum "A" 3 (.tuple []), ⟨[], none⟩), []) ∧
    valueBytes (.sum "A" 3 (.tuple [])) = [3] := ⟨⟨trivial, trivial⟩, rfl, rfl⟩

/-! ## C17 -/

/-- **C17 (part).** For every type with a layout and every value the format carries: decoding the
typed encoding under the layout gives the loose reading of the value and leaves what the typed
decoder leaves; and that reading serializes back to the typed encoding.  Missing: types with
32-bit floats (no layout rule) or with polymorphic variant tags below 256, for which re-encoding
fails (`C17_single_letter_variant_fails`), and values with a list of 2^57 items or more, whose
length makes the layout-driven decoder panic (`C18_huge_length_fails`). -/
theorem C17_loose_agrees_with_typed_partial (t : Ty) (ht : HasLayout t) (v : t.denote) (hv : Fits t v)
    (hl : ListsBelow (2 ^ 57) t v) (rest : Bytes) :
    (∃ it, (decodeLoose (layoutOf t)).run (toBytes t v ++ rest) = .ok ((toValue t v, it), rest) ∧ it.stack = []) ∧
    (decode t).run (toBytes t v ++ rest) = .ok (v, rest) ∧
    valueBytes (toValue t v) = toBytes t v := by
  have hg := gram_of_typed t ht v hv hl none
  refine ⟨?_, decode_encode t v hv rest, gram_bytes _ (rewritable_layoutOf t ht) none _ _ hg⟩
  obtain ⟨it, hit⟩ := (C15_accepts_exactly_the_grammar_partial (layoutOf t) (scoped_layoutOf t false) _ rest _).mpr
    ⟨_, rfl, gram_weaken _ _ _ _ hg⟩
  exact ⟨it, hit, C15_whole_layout_visited_partial _ (scoped_layoutOf t false) _ _ _ _ hit⟩

/-- A type with most constructors. -/
def sampleLTy : Ty :=
  .struct (.cons "a" (.option (.int .u64)) (.cons "b" (.seq (.enum
    (.cons "A" (.tuple .nil) (.cons "B" (.tuple (.cons "0" .string .nil)) .nil))))
    (.cons "c" (.polyvar (.cons "One" (.tuple .nil) (.cons "Two" (.newtype .f64) .nil)))
    (.cons "d" (.tuple (.cons "0" .char (.cons "1" .bool (.cons "2" .u8 .nil)))) .nil))))

def sampleLVal : sampleLTy.denote :=
  ((some ⟨70000, by decide⟩ : Option {n : Int // BinProt.u64.holds n}),
   ([Sum.inl (), Sum.inr (Sum.inl ("hé", ()))] : List _),
   Sum.inr (Sum.inl (5 : UInt64)), (('x', true, (7 : UInt8), ()) : Char × Bool × UInt8 × Unit), ())

example : ListsBelow (2 ^ 57) sampleLTy sampleLVal := by
  refine ⟨fun _ _ => trivial, ⟨by decide, ?_⟩, trivial, ⟨trivial, trivial, trivial, trivial⟩, trivial⟩
  intro v hv
  rcases List.mem_cons.mp hv with rfl | hv
  · trivial
  · rcases List.mem_cons.mp hv with rfl | hv
    · exact ⟨trivial, trivial⟩
    · cases hv

example : HasLayout sampleLTy ∧ Fits sampleLTy sampleLVal := by
  refine ⟨⟨trivial, ⟨⟨trivial, ⟨trivial, trivial⟩, trivial⟩, ⟨?_, trivial, trivial, trivial⟩, ⟨trivial, trivial, trivial, trivial⟩, trivial⟩⟩,
    ⟨?_, ⟨by decide, ?_⟩, ⟨⟨by decide, by decide, ?_, by decide⟩, ?_⟩,
      ⟨by show Char.toNat 'x' < 256; decide, trivial, trivial, trivial⟩, trivial⟩⟩
  · intro n hn; simp only [Tys.names, List.mem_cons, List.not_mem_nil, or_false] at hn
    rcases hn with rfl | rfl <;> decide
  · rintro v h
    cases h
    intro _; decide
  · intro v hv
    rcases List.mem_cons.mp hv with rfl | hv
    · exact ⟨by decide, trivial⟩
    · rcases List.mem_cons.mp hv with rfl | hv
      · exact ⟨by decide, by show (utf8 "hé").length < 2 ^ 63; decide, trivial⟩
      · cases hv
  · intro n hn; simp only [Tys.names, List.mem_cons, List.not_mem_nil, or_false] at hn
    rcases hn with rfl | rfl <;> (unfold IsAsciiName; decide)
  · trivial

/-- A polymorphic variant type with a single-letter label. -/
def polyA : Ty := .polyvar (.cons "A" (.tuple .nil) .nil)

theorem small_tag_bytes : (vs : Tys) → HasLayouts vs → (v : vs.sum) → FitsSum vs v → ListsBelowSum (2 ^ 57) vs v →
    (camlHashVariant (utf8 (vs.variantName v))).toNat < 256 →
    valueBytes (toPolyvar vs v) = UInt8.ofNat (camlHashVariant (utf8 (vs.variantName v))).toNat :: flush (encodeSum vs v)
  | .nil, _, v, _, _, _ => nomatch (show Empty from v)
  | .cons n t ts, hl, v, hf, hb, hs => by
    simp only [HasLayouts] at hl
    rcases v with w | w
    · simp only [FitsSum, ListsBelowSum] at hf hb
      simp only [Tys.variantName] at hs
      have hg := gram_bytes_tuple _ (rewritable_args (rewritable_layoutOf t hl.1)) none _ _
        (gram_args (gram_of_typed t hl.1 w hf hb none))
      simp only [Tys.variantName, encodeSum, toPolyvar]
      rw [← hg]
      show flush (writeVariantIndex _ ++ encodeValues _) = _
      unfold writeVariantIndex
      rw [if_pos hs]
      rfl
    · simp only [FitsSum, ListsBelowSum] at hf hb
      simp only [Tys.variantName] at hs
      simp only [Tys.variantName, encodeSum, toPolyvar]
      exact small_tag_bytes ts hl.2 w hf hb hs

/-- **C17** is false for every polymorphic variant whose hash fits a byte, as that of a single letter does: the typed
encoding begins with four bytes of tag, and the loose value writes one. -/
theorem C17_single_letter_variant_fails (vs : Tys) (hl : HasLayouts vs) (v : (Ty.polyvar vs).denote) (hv : Fits (.polyvar vs) v)
    (hb : ListsBelow (2 ^ 57) (.polyvar vs) v) (hsmall : (camlHashVariant (utf8 (vs.variantName v))).toNat < 256) :
    valueBytes (toValue (.polyvar vs) v) =
      UInt8.ofNat (camlHashVariant (utf8 (vs.variantName v))).toNat :: (toBytes (.polyvar vs) v).drop 4 ∧
    valueBytes (toValue (.polyvar vs) v) ≠ toBytes (.polyvar vs) v := by
  have h := small_tag_bytes vs hl v hv.2 hb hsmall
  have ht : (flush (writePolyvar (vs.variantName v))).length = 4 := by
    simp [writePolyvar, binWritePolyvarTag, WOp.bytes]
  have he : toBytes (.polyvar vs) v = flush (writePolyvar (vs.variantName v)) ++ flush (encodeSum vs v) := by
    show flush (writePolyvar (vs.variantName v) ++ encodeSum vs v) = _
    rw [flush_append]
  have hd : (toBytes (.polyvar vs) v).drop 4 = flush (encodeSum vs v) := by
    rw [he, ← ht, List.drop_left]
  refine ⟨by rw [hd]; exact h, fun e => ?_⟩
  have := congrArg List.length e
  rw [he, List.length_append, ht] at this
  have h2 := congrArg List.length h
  simp only [List.length_cons] at h2
  have h3 : (valueBytes (toValue (.polyvar vs) v)).length = (valueBytes (toPolyvar vs v)).length := rfl
  omega

/-- A variant with a single letter. -/
example : Fits polyA (Sum.inl ()) ∧
    toBytes polyA (Sum.inl ()) = [131, 0, 0, 0] ∧
    (decodeLoose (layoutOf polyA)).run [131, 0, 0, 0] = .ok ((toValue polyA (Sum.inl ()), ⟨[], none⟩), []) ∧
    valueBytes (toValue polyA (Sum.inl ())) = [65] := by
  refine ⟨⟨⟨by decide, by decide, ?_, by decide⟩, trivial⟩, rfl, rfl, rfl⟩
  intro n hn; simp only [Tys.names, List.mem_cons, List.not_mem_nil, or_false] at hn
  subst hn; unfold IsAsciiName; decide

/-! ## C18 -/

/-- **C18** is false: under any sum layout with fewer than 256 constructors, an index byte out of
range makes the decoder panic. -/
theorem C18_bad_constructor_index_panics_fails (ss : List Summand) (b : UInt8) (hb : ss.length ≤ b.toNat)
    (rest : Bytes) : (decodeLoose (.sum ss)).run (b :: rest) = .error (.panic "index out of bounds") := by
  have h1 : ss[b.toNat]? = none := List.getElem?_eq_none hb
  show (deserLoose (depthSummands ss + 1 + 1) ⟨[.sum ss], none⟩).run _ = _
  simp only [deserLoose, Iter.next, Iter.handle, Except.map]
  refine (run_bind_ok (a := b) (s' := rest) rfl).trans ?_
  simp only [h1]
  rfl

example : (decodeLoose (.sum [.mk "A" 0 [], .mk "B" 1 []])).run [2] = .error (.panic "index out of bounds") :=
  C18_bad_constructor_index_panics_fails _ _ (by decide) _

/-- **C18** is false for a second reason: under a string layout nine bytes announcing 2^63 bytes
or more, and under any list layout nine bytes announcing 2^57 items or more, make the decoder
panic, whatever follows. -/
theorem C18_huge_length_fails (len rest : Bytes) (hl : len.length = 8) :
    (2 ^ 63 ≤ leNat len →
      (decodeLoose .string).run (0xfc :: (len ++ rest)) = .error (.panic "capacity overflow")) ∧
    ∀ r : Rule, 2 ^ 57 ≤ leNat len →
      (decodeLoose (.list r)).run (0xfc :: (len ++ rest)) = .error (.panic "capacity overflow") := by
  have h := (binReadLen_ok_iff (0xfc :: (len ++ rest)) (leNat len) rest).mpr
    ⟨0xfc :: len, rfl, .wide 0xfc 8 len rfl (by decide) hl⟩
  constructor
  · intro hn
    show (do let bs ← binReadBytes; Prog.ret (Value.list (bs.map .char), (⟨[], none⟩ : Iter))).run _ = _
    unfold binReadBytes
    rw [run_bind, run_bind_ok h, run_bind]
    unfold claim
    rw [if_neg (by omega)]
    rfl
  · intro r hn
    show (do
      let len ← binReadLen
      claim (len * ruleSize)
      let (vs, it) ← iterN (deserLoose (r.depth)) len ((⟨[], none⟩ : Iter).pushN r len)
      Prog.ret (Value.list vs, it)).run _ = _
    rw [run_bind_ok h, run_bind]
    unfold claim
    rw [if_neg (by unfold ruleSize; omega)]
    rfl

example : (decodeLoose (.list .unit)).run [0xfc, 0, 0, 0, 0, 0, 0, 0, 2] = .error (.panic "capacity overflow") :=
  (C18_huge_length_fails [0, 0, 0, 0, 0, 0, 0, 2] [] rfl).2 _ (by decide)

/-- **C18 (part).** With a layout of supported rules an out-of-range constructor index and an
announced length of at least 2^57 are the only panics, and the first is none if every sum of the
layout lists all 256 constructors (in particular if it has no sums).  Missing: those two cases, for
which the claim is false (`C18_bad_constructor_index_panics_fails`, `C18_huge_length_fails`). -/
theorem C18_no_other_panic_partial (m : Nat) (r : Rule) (hs : Scoped r false) (hr : Supported m r none) (s : Bytes)
    (msg : String) (h : (decodeLoose r).run s = .error (.panic msg)) :
    (msg = "index out of bounds" ∧ m < 256) ∨ (msg = "capacity overflow" ∧ Announces (2 ^ 57) s) := by
  have hd := C15_decoding_is_recursive_descent_partial r hs s
  cases hp : (parse r none).run s with
  | error e =>
    rw [hd.2 e hp] at h
    cases h
    exact parse_only_index_panic m r none hr s msg hp
  | ok x =>
    obtain ⟨v, rest⟩ := x
    obtain ⟨it, h', _⟩ := hd.1 v rest hp
    rw [h'] at h; cases h

/-- **C18 (part).** No input that announces no length of 2^57 or more makes decoding panic under a
layout of supported rules without sums of fewer than 256 constructors. -/
theorem C18_no_panic_without_short_sums_partial (r : Rule) (hs : Scoped r false) (hr : Supported 256 r none) (s : Bytes)
    (hn : ¬ Announces (2 ^ 57) s) (msg : String) : (decodeLoose r).run s ≠ .error (.panic msg) := by
  intro h
  rcases C18_no_other_panic_partial 256 r hs hr s msg h with h | h
  · omega
  · exact hn h.2

/-- Inputs of fewer than nine bytes announce no such length. -/
example (s : Bytes) (h : s.length < 9) (n : Nat) : ¬ Announces n s := by
  rintro ⟨a, l, b, rfl, hl, _⟩
  simp only [List.length_append, List.length_cons, hl] at h
  omega

example : Supported 2 sampleLayout none ∧ Scoped sampleLayout false ∧
    Supported 256 (.list (.record [("a", .option .string), ("b", .polyvar [.tagged "One" 3953222 [.bool]])])) none := by
  have h1 : customKind "State_hash" = .bigInt := by decide
  simp [sampleLayout, Supported, SupportedFields, SupportedRules, SupportedSummands, SupportedPolyvars,
    Scoped, ScopedFields, ScopedRules, ScopedSummands, ScopedPolyvars]
  rintro _ n rfl h; rw [h1] at h; cases h

/-- **C18** is false for the rules the decoder does not support, with every input: `Hashtable`,
`Vec`, `Bigstring` and the unresolved references panic. -/
theorem C18_unsupported_rule_panics_fails (k : OtherRule) (s : Bytes) :
    (decodeLoose (.other k)).run s = .error (.panic "not implemented") := rfl

/-! ## C19 -/

theorem addresses_pos (i : Nat) (v w : Value) :
    indexInto (.pos i) v = some w ↔ Addresses (.pos i) v w := by
  constructor
  · intro h
    unfold indexInto indexPos at h
    cases v with
    | list vs =>
      simp only [List.getElem?_eq_some_iff] at h
      obtain ⟨hi, rfl⟩ := h; exact .listPos i vs hi
    | tuple vs =>
      simp only [List.getElem?_eq_some_iff] at h
      obtain ⟨hi, rfl⟩ := h; exact .tuplePos i vs hi
    | sum name j u =>
      cases u with
      | list vs =>
        simp only [List.getElem?_eq_some_iff] at h
        obtain ⟨hi, rfl⟩ := h; exact .throughSum _ _ _ _ _ (.listPos i vs hi) (by simp)
      | tuple vs =>
        simp only [List.getElem?_eq_some_iff] at h
        obtain ⟨hi, rfl⟩ := h; exact .throughSum _ _ _ _ _ (.tuplePos i vs hi) (by simp)
      | _ => cases h
    | _ => cases h
  · intro h
    cases h with
    | listPos _ vs hi => exact List.getElem?_eq_getElem hi
    | tuplePos _ vs hi => exact List.getElem?_eq_getElem hi
    | throughSum _ name j u _ h hs =>
      cases h with
      | listPos _ vs hi => exact List.getElem?_eq_getElem hi
      | tuplePos _ vs hi => exact List.getElem?_eq_getElem hi
      | throughSum _ name j u _ h _ => exact (hs _ _ _ rfl).elim

theorem find_field (s : String) (fs : List (String × Value)) (w : Value) :
    (fs.find? (fun e => e.1 == s)).map Prod.snd = some w ↔
      ∃ before after, fs = before ++ (s, w) :: after ∧ ∀ e ∈ before, e.1 ≠ s := by
  rw [Option.map_eq_some_iff]
  constructor
  · rintro ⟨⟨n, u⟩, h, rfl⟩
    rw [List.find?_eq_some_iff_append] at h
    obtain ⟨hn, before, after, rfl, hb⟩ := h
    simp only [beq_iff_eq] at hn
    subst hn
    exact ⟨before, after, rfl, fun e he => by simpa using hb e he⟩
  · rintro ⟨before, after, rfl, hb⟩
    refine ⟨(s, w), ?_, rfl⟩
    rw [List.find?_eq_some_iff_append]
    exact ⟨by simp, before, after, rfl, fun e he => by simpa using hb e he⟩

theorem addresses_name (s : String) (v w : Value) :
    indexInto (.name s) v = some w ↔ Addresses (.name s) v w := by
  constructor
  · intro h
    unfold indexInto indexName at h
    cases v with
    | record fs =>
      simp only [find_field] at h
      obtain ⟨b, a, rfl, hb⟩ := h; exact .field s b w a hb
    | sum name j u =>
      cases u with
      | record fs =>
        simp only [find_field] at h
        obtain ⟨b, a, rfl, hb⟩ := h; exact .throughSum _ _ _ _ _ (.field s b w a hb) (by simp)
      | _ => cases h
    | _ => cases h
  · intro h
    cases h with
    | field _ b _ a hb => exact (find_field s _ w).mpr ⟨b, a, rfl, hb⟩
    | throughSum _ name j u _ h hs =>
      cases h with
      | field _ b _ a hb => exact (find_field s _ w).mpr ⟨b, a, rfl, hb⟩
      | throughSum _ name j u _ h _ => exact (hs _ _ _ rfl).elim

/-- **C19.** Indexing returns `w` exactly when the key addresses `w`; nothing is returned when the
key addresses nothing. -/
theorem C19_index_addresses (k : Key) (v : Value) :
    (∀ w, indexInto k v = some w ↔ Addresses k v w) ∧ (indexInto k v = none ↔ ∀ w, ¬ Addresses k v w) := by
  have h : ∀ w, indexInto k v = some w ↔ Addresses k v w := by
    intro w; cases k with
    | pos i => exact addresses_pos i v w
    | name s => exact addresses_name s v w
  refine ⟨h, ?_⟩
  constructor
  · intro hn w hw; rw [(h w).mpr hw] at hn; cases hn
  · intro hn
    cases hi : indexInto k v with
    | none => rfl
    | some w => exact (hn w ((h w).mp hi)).elim

/-- **C19 (paths).** `value[k₁][k₂]…` is the part reached by following the keys one after the
other, and panics exactly when some key addresses nothing. -/
theorem C19_index_path (ks : List Key) : ∀ (v w : Value),
    (ks.foldlM (fun v k => opsIndex k v) v = .ok w ↔ AddressesPath ks v w) ∧
    ((∃ msg, ks.foldlM (fun v k => opsIndex k v) v = .error (.panic msg)) ↔ ∀ w, ¬ AddressesPath ks v w) := by
  induction ks with
  | nil =>
    intro v w
    simp only [List.foldlM_nil]
    refine ⟨⟨fun h => by cases h; exact .nil v, fun h => by cases h; rfl⟩, ⟨?_, fun h => (h v (.nil v)).elim⟩⟩
    rintro ⟨msg, h⟩; exact nomatch h
  | cons k ks ih =>
    intro v w
    simp only [List.foldlM_cons]
    have hk := C19_index_addresses k v
    cases hi : indexInto k v with
    | none =>
      have ho : opsIndex k v = .error (.panic "No value for index") := by simp [opsIndex, hi]
      simp only [ho]
      refine ⟨⟨fun h => (nomatch h), fun h => ?_⟩, ⟨fun _ w h => ?_, fun _ => ⟨_, rfl⟩⟩⟩
      · cases h with | cons _ _ _ u _ h1 _ => exact (hk.2.mp hi u h1).elim
      · cases h with | cons _ _ _ u _ h1 _ => exact (hk.2.mp hi u h1).elim
    | some u =>
      have ho : opsIndex k v = .ok u := by simp [opsIndex, hi]
      have hu : ∀ u', Addresses k v u' → u' = u := fun u' h => by
        have := (hk.1 u').mpr h; rw [hi] at this; cases this; rfl
      have ha := (hk.1 u).mp hi
      simp only [ho]
      refine ⟨(ih u w).1.trans ⟨fun h => .cons k ks v u w ha h, fun h => ?_⟩,
        (ih u w).2.trans ⟨fun h w' h' => ?_, fun h w' h' => h w' (.cons k ks v u w' ha h')⟩⟩
      · cases h with | cons _ _ _ u' _ h1 h2 => rw [hu u' h1] at h2; exact h2
      · cases h' with | cons _ _ _ u' _ h1 h2 => rw [hu u' h1] at h2; exact h w' h2

example : AddressesPath [.name "b", .pos 1, .pos 0]
    (.record [("a", .unit), ("b", .list [.unit, .sum "B" 1 (.tuple [.int 4])])]) (.int 4) :=
  ((C19_index_path _ _ _).1).mp rfl

end MinaRs.BinProt
