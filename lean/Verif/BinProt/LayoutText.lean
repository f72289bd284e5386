import Verif.BinProt.LayoutDocProps
import Verif.Json.DocProps

/-!
# Layout files

The layout reader takes its layout from the text of a file (`apps/bin-prot-layout-reader/src/main.rs:44-51`).  It reads
one JSON value of any depth, and does not look at what follows it.

Simplifications: the file is UTF-8; the members that a layout ignores are read like the others (the library skips them, so
it accepts numbers there that are too large).
-/

namespace MinaRs.BinProt.LayoutText

open MinaRs.BinProt.Spec (IsLayout Sourced SourcedRules SourcedFields SourcedSummands SourcedPolyvars Scoped Gram)
open MinaRs.BinProt.LayoutDoc (layoutOf toolOn doc docs docFields docSummands docPolyvars describes_doc C85_layout_exactly C85_tool_partial)
open MinaRs.Json MinaRs.Json.Grammar

/-- `Layout::deserialize` on a reader without a limit of depth (`apps/bin-prot-layout-reader/src/main.rs:46-51`).  Each
level takes at least one character, so the length of the text is no limit. -/
def layoutFromText (F : Floats) (s : Text.Text) : Option Rule :=
  match readValue F (s.length + 1) s.length s with
  | some (j, _) => layoutOf j
  | none => none

/-- The tool on the text of a layout and a file (`apps/bin-prot-layout-reader/src/main.rs:38-101`). -/
def toolOnText (F : Floats) (layout : Text.Text) (roundtrip : Bool) (file : Bytes) : Option ReaderTool.Outcome :=
  match layoutFromText F layout with
  | none => none
  | some r => some (ReaderTool.tool r roundtrip file)

/-! ## Lemmas -/

/-- Lists and objects end where their bracket is, whatever follows. -/
theorem closed_read (F : Floats) {t : Text.Text} {j : J} (h : Grammar.Value F.read t j)
    (hj : (∃ js, j = .arr js) ∨ ∃ es, j = .obj es) (n d : Nat) (w r : Text.Text) (hw : Space w)
    (hl : (w ++ (t ++ r)).length < n) (hd : depth j ≤ d) : readValue F n d (w ++ (t ++ r)) = some (j, r) := by
  cases n with
  | zero => omega
  | succ n =>
  cases h with
  | null => rcases hj with ⟨_, h⟩ | ⟨_, h⟩ <;> cases h
  | true => rcases hj with ⟨_, h⟩ | ⟨_, h⟩ <;> cases h
  | false => rcases hj with ⟨_, h⟩ | ⟨_, h⟩ <;> cases h
  | str t s hs => rcases hj with ⟨_, h⟩ | ⟨_, h⟩ <;> cases h
  | number t j hn => cases hn <;> rcases hj with ⟨_, h⟩ | ⟨_, h⟩ <;> cases h
  | noItems v hv =>
    have e : w ++ ('[' :: (v ++ [']']) ++ r) = w ++ '[' :: (v ++ ']' :: r) := by simp
    simp only [depth, depthAll] at hd
    rw [readValue, e, skip_to w _ _ hw (by decide)]
    simp only [if_neg (show ¬ d = 0 by omega), skip_to v ']' r hv (by decide)]
  | arr t js ht =>
    have e : w ++ ('[' :: (t ++ [']']) ++ r) = w ++ '[' :: (t ++ ']' :: r) := by simp
    simp only [depth] at hd
    rw [e] at hl
    obtain ⟨j, js', r', rfl, h1, h2⟩ := items_read F ht n (d - 1) r
      (by simp only [List.length_append, List.length_cons] at hl ⊢; omega) (by omega)
    rw [readValue, e, skip_to w _ _ hw (by decide)]
    simp only [if_neg (show ¬ d = 0 by omega)]
    split
    · rename_i q hq
      rw [readValue_bracket F n _ _ _ _ hq (.inl rfl)] at h1
      cases h1
    · simp only [h1, h2, Option.map_some]
  | noMembers v hv =>
    have e : w ++ ('{' :: (v ++ ['}']) ++ r) = w ++ '{' :: (v ++ '}' :: r) := by simp
    simp only [depth, depthMembers] at hd
    rw [readValue, e, skip_to w _ _ hw (by decide)]
    simp only [if_neg (show ¬ d = 0 by omega), skip_to v '}' r hv (by decide)]
  | obj t es ht =>
    have e : w ++ ('{' :: (t ++ ['}']) ++ r) = w ++ '{' :: (t ++ '}' :: r) := by simp
    simp only [depth] at hd
    rw [e] at hl
    obtain ⟨m, es', r', rfl, h1, h2⟩ := members_read F ht n (d - 1) r
      (by simp only [List.length_append, List.length_cons] at hl ⊢; omega) (by omega)
    rw [readValue, e, skip_to w _ _ hw (by decide)]
    simp only [if_neg (show ¬ d = 0 by omega)]
    split
    · rename_i q hq
      rw [readMember_bracket F n _ _ _ _ hq (.inr rfl)] at h1
      cases h1
    · simp only [h1, h2, Option.map_some]

mutual
/-- Each level takes a character. -/
theorem depth_le_length {f : Text.Text → Option UInt64} : ∀ {t : Text.Text} {j : J}, Grammar.Value f t j → depth j ≤ t.length
  | _, _, .null => Nat.zero_le _
  | _, _, .true => Nat.zero_le _
  | _, _, .false => Nat.zero_le _
  | _, _, .number _ _ h => by cases h <;> exact Nat.zero_le _
  | _, _, .str _ _ _ => Nat.zero_le _
  | _, _, .noItems w _ => by simp [depth, depthAll]
  | _, _, .arr t js h => by
    have := depthAll_le_length h
    simp only [depth, List.length_cons, List.length_append]; omega
  | _, _, .noMembers w _ => by simp [depth, depthMembers]
  | _, _, .obj t es h => by
    have := depthMembers_le_length h
    simp only [depth, List.length_cons, List.length_append]; omega
theorem depthAll_le_length {f : Text.Text → Option UInt64} : ∀ {t : Text.Text} {js : List J}, Items f t js → depthAll js ≤ t.length
  | _, _, .one w v w' j _ h _ => by
    have := depth_le_length h
    simp only [depthAll, List.length_append]; omega
  | _, _, .more w v w' t j js _ h _ ht => by
    have := depth_le_length h
    have := depthAll_le_length ht
    simp only [depthAll, List.length_append, List.length_cons]; omega
theorem depthMembers_le_length {f : Text.Text → Option UInt64} : ∀ {t : Text.Text} {es : List (String × J)}, Members f t es →
    depthMembers es ≤ t.length
  | _, _, .one w v w' (k, j) _ h _ => by
    have : depth j ≤ v.length := depth_member_le_length h
    simp only [depthMembers, List.length_append]; omega
  | _, _, .more w v w' t (k, j) es _ h _ ht => by
    have : depth j ≤ v.length := depth_member_le_length h
    have := depthMembers_le_length ht
    simp only [depthMembers, List.length_append, List.length_cons]; omega
theorem depth_member_le_length {f : Text.Text → Option UInt64} : ∀ {t : Text.Text} {e : String × J}, Member f t e →
    depth e.2 ≤ t.length
  | _, _, .mk k w w' v key j _ _ _ h => by
    have := depth_le_length h
    simp only [List.length_append, List.length_cons]; omega
end

theorem isLayout_closed {j : J} {r : Rule} (h : IsLayout j r) : (∃ js, j = .arr js) ∨ ∃ es, j = .obj es := by
  obtain ⟨l, d, b, jr, -, ⟨es, rfl, -⟩ | ⟨v, rfl, -⟩⟩ := h
  · exact .inr ⟨es, rfl⟩
  · exact .inl ⟨_, rfl⟩

/-! ## C85 -/

/-- **C85 (files).** The text of a file is read as a layout exactly if it begins, after white space, with a JSON value that
is a layout; the value may be nested as deeply as it likes, and anything may follow it. -/
theorem C85_text (F : Floats) (s : Text.Text) (r : Rule) :
    layoutFromText F s = some r ↔ ∃ w v x j, s = w ++ (v ++ x) ∧ Space w ∧ Grammar.Value F.read v j ∧ IsLayout j r := by
  unfold layoutFromText
  constructor
  · intro h
    split at h
    · rename_i j x hv
      obtain ⟨w, v, e, hw, hv', -⟩ := (read_sound F _).1 _ _ _ _ hv
      exact ⟨w, v, x, j, e, hw, hv', (C85_layout_exactly j r).mp h⟩
    · cases h
  · rintro ⟨w, v, x, j, rfl, hw, hv, hj⟩
    have hd : depth j ≤ (w ++ (v ++ x)).length := by
      have := depth_le_length hv
      simp only [List.length_append]; omega
    rw [closed_read F hv (isLayout_closed hj) _ _ w x hw (Nat.lt_succ_self _) hd]
    exact (C85_layout_exactly j r).mpr hj

/-- **C85 (files).** A text that says a layout is read as it. -/
theorem C85_says (F : Floats) (s : Text.Text) (j : J) (r : Rule) (hs : Says F.read s j) (hj : IsLayout j r) :
    layoutFromText F s = some r := by
  obtain ⟨w, v, w', rfl, hw, hv, -⟩ := hs
  exact (C85_text F _ r).mpr ⟨w, v, w', j, rfl, hw, hv, hj⟩

/-- **C85 (files).** The tool on the text of a layout and a file, without `--roundtrip`. -/
theorem C85_tool_text_partial (F : Floats) (s : Text.Text) (j : J) (hs : Says F.read s j) (file : Bytes) (v : BinProt.Value)
    (hsc : ∀ r, IsLayout j r → Scoped r false) :
    toolOnText F s false file = some (.prints v) ↔
      ∃ r enc rest, IsLayout j r ∧ ReaderTool.input file = enc ++ rest ∧ Gram false r none enc v := by
  rw [← C85_tool_partial j file v hsc]
  unfold toolOnText toolOn
  obtain ⟨w, t, w', rfl, hw, hv, hw'⟩ := hs
  have hd : depth j ≤ (w ++ (t ++ w')).length := by
    have := depth_le_length hv
    simp only [List.length_append]; omega
  have : layoutFromText F (w ++ (t ++ w')) = layoutOf j := by
    unfold layoutFromText
    rw [value_read F hv _ _ w w' hw (stops_of_space w' hw') (Nat.lt_succ_self _) hd]
  rw [this]
  cases layoutOf j <;> rfl

mutual
theorem plain_doc : (r : Rule) → Sourced r → Plain (doc r)
  | .nat0, _ | .unit, _ | .bool, _ | .string, _ | .char, _ | .int .int, _ | .int .int32, _ | .int .int64, _ | .int .nativeInt, _
  | .float, _ => by simp [doc, Plain, PlainAll]
  | .option r, h => by
    have := plain_doc r (by simpa only [Sourced] using h)
    simp [doc, Plain, PlainAll, this]
  | .list r, h => by
    have := plain_doc r (by simpa only [Sourced] using h)
    simp [doc, Plain, PlainAll, this]
  | .record fs, h => by
    have := plain_docFields fs (by simpa only [Sourced] using h)
    simp [doc, Plain, PlainAll, this]
  | .tuple rs, h => by
    have := plain_docs rs (by simpa only [Sourced] using h)
    simp [doc, Plain, PlainAll, this]
  | .custom rs, h => by
    have := plain_docs rs (by simpa only [Sourced] using h)
    simp [doc, Plain, PlainAll, this]
  | .sum ss, h => by
    have := plain_docSummands ss (by simpa only [Sourced] using h)
    simp [doc, Plain, PlainAll, this]
  | .polyvar ps, h => by
    have := plain_docPolyvars ps (by simpa only [Sourced] using h)
    simp [doc, Plain, PlainAll, this]
  | .reference p r, h => by
    have := plain_doc r (by simpa only [Sourced] using h)
    simp [doc, Plain, PlainAll, PlainMembers, this]
  | .customForPath _ _, h => by simp [Sourced] at h
  | .other .vec, _ | .other .hashtable, _ | .other .bigstring, _ | .other .typeVar, _ | .other .selfReference, _
  | .other .typeAbstraction, _ | .other .typeClosure, _ | .other .unresolvedReference, _ => by
    simp [doc, Plain, PlainAll, PlainMembers]
theorem plain_docs : (rs : List Rule) → SourcedRules rs → PlainAll (docs rs)
  | [], _ => by simp [docs, PlainAll]
  | r :: rs, h => by
    simp only [SourcedRules] at h
    simp [docs, PlainAll, plain_doc r h.1, plain_docs rs h.2]
theorem plain_docFields : (fs : List (String × Rule)) → SourcedFields fs → PlainAll (docFields fs)
  | [], _ => by simp [docFields, PlainAll]
  | (n, r) :: fs, h => by
    simp only [SourcedFields] at h
    simp [docFields, PlainAll, Plain, PlainMembers, plain_doc r h.1, plain_docFields fs h.2]
theorem plain_docSummands : (ss : List Summand) → SourcedSummands ss → PlainAll (docSummands ss)
  | [], _ => by simp [docSummands, PlainAll]
  | .mk n i as :: ss, h => by
    simp only [SourcedSummands] at h
    have := plain_docs as h.2.1
    have := plain_docSummands ss h.2.2
    have h1 := h.1.1
    have h2 := h.1.2
    simp only [docSummands, PlainAll, Plain, PlainMembers, *, and_true, true_and]
    omega
theorem plain_docPolyvars : (ps : List Polyvar) → SourcedPolyvars ps → PlainAll (docPolyvars ps)
  | [], _ => by simp [docPolyvars, PlainAll]
  | .tagged n k as :: ps, h => by
    simp only [SourcedPolyvars] at h
    have := plain_docs as h.1
    have := plain_docPolyvars ps h.2
    have := k.toNat_lt
    simp only [docPolyvars, PlainAll, Plain, PlainMembers, *, and_true, true_and]
    omega
  | .inherited r :: ps, h => by
    simp only [SourcedPolyvars] at h
    simp [docPolyvars, PlainAll, Plain, plain_doc r h.1, plain_docPolyvars ps h.2]
end

/-- The usual document of a layout with this rule. -/
def layoutDoc (r : Rule) : J :=
  .obj [("layout_loc", .str ""), ("version_opt", .null), ("type_decl", .str ""), ("bin_io_derived", .bool true), ("bin_prot_rule", doc r)]

/-- **C85 (files).** Every rule that has a document, of any size and depth, has a file that the reader reads as this rule. -/
theorem C85_every_file (F : Floats) (r : Rule) (h : Sourced r) : layoutFromText F (print F (layoutDoc r)) = some r := by
  have hp : Plain (layoutDoc r) := by simp [layoutDoc, Plain, PlainMembers, plain_doc r h]
  refine C85_says F _ (layoutDoc r) r (C111_written F _ hp).1 ?_
  exact ⟨"", "", true, doc r, describes_doc r h, .inl ⟨_, rfl, rfl, rfl, rfl, rfl, .inr ⟨.null, rfl, .inl rfl⟩⟩⟩

/-- A rule nested `n` deep. -/
def deepRule : Nat → Rule
  | 0 => .bool
  | n + 1 => .option (deepRule n)

theorem deepRule_sourced : (n : Nat) → Sourced (deepRule n)
  | 0 => by simp [deepRule, Sourced]
  | n + 1 => by simpa [deepRule, Sourced] using deepRule_sourced n

theorem deepRule_depth : (n : Nat) → depth (doc (deepRule n)) = n + 1
  | 0 => by simp [deepRule, doc, depth, depthAll]
  | n + 1 => by simp [deepRule, doc, depth, depthAll, deepRule_depth n]

/-- Layouts that the usual reader of the library refuses are read here: it is the limit of depth that is switched off. -/
example (F : Floats) : layoutFromText F (print F (layoutDoc (deepRule 200))) = some (deepRule 200) ∧
    parse F (print F (layoutDoc (deepRule 200))) = none := by
  refine ⟨C85_every_file F _ (deepRule_sourced 200), (C111_too_deep F _ ?_ ?_).2⟩
  · simp [layoutDoc, Plain, PlainMembers, plain_doc _ (deepRule_sourced 200)]
  · simp only [layoutDoc, depth, depthMembers, deepRule_depth]; omega

/-- **C85 fails** for files with more than a layout in them: whatever follows the layout is not looked at, not even a
second layout. -/
theorem C85_second_layout_fails (F : Floats) (r : Rule) (h : Sourced r) (x : Text.Text) :
    layoutFromText F (print F (layoutDoc r) ++ x) = some r := by
  have hp : Plain (layoutDoc r) := by simp [layoutDoc, Plain, PlainMembers, plain_doc r h]
  obtain ⟨⟨w, v, w', e, hw, hv, -⟩, -⟩ := C111_written F _ hp
  rw [e]
  exact (C85_text F _ r).mpr ⟨w, v, w' ++ x, layoutDoc r, by simp, hw, hv, "", "", true, doc r, describes_doc r h,
    .inl ⟨_, rfl, rfl, rfl, rfl, rfl, .inr ⟨.null, rfl, .inl rfl⟩⟩⟩

end MinaRs.BinProt.LayoutText
