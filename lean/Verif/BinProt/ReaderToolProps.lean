import Verif.BinProt.ReaderTool

/-!
# Properties of the layout reader tool (C84)
-/

namespace MinaRs.BinProt.ReaderTool

open MinaRs MinaRs.BinProt MinaRs.BinProt.Spec

theorem toNat_ofByte (b : UInt8) : (Char.ofNat b.toNat).toNat = b.toNat := by
  have hb : b.toNat.isValidChar := Or.inl (Nat.lt_trans b.toNat_lt (by decide))
  rw [Char.ofNat, dif_pos hb]
  rfl

theorem chars_toNat (file : Bytes) : (chars file).map Char.toNat = file.map UInt8.toNat := by
  unfold chars
  rw [List.map_map]
  exact List.map_congr_left fun b _ => toNat_ofByte b

theorem chars_unique (file : Bytes) (s : Text.Text) (h : s.map Char.toNat = file.map UInt8.toNat) : s = chars file := by
  rw [← chars_toNat] at h
  exact (List.map_inj_right fun a b hab => by
    apply Char.ext
    apply UInt32.toNat_inj.mp
    exact hab).mp h

/-- **C84.** A file whose bytes are the characters of a text that spells bytes in hexadecimal digits is read as these
bytes; every other file as its own. -/
theorem C84_input (file : Bytes) :
    (∀ s bs, s.map Char.toNat = file.map UInt8.toNat → Json.Spec.Spells s bs → input file = bs) ∧
    ((∀ s bs, s.map Char.toNat = file.map UInt8.toNat → ¬ Json.Spec.Spells s bs) → input file = file) := by
  unfold input
  constructor
  · intro s bs hs h
    rw [chars_unique file s hs] at h
    rw [(Json.hexDecode_ok_iff _ _).mpr h]
  · intro h
    cases hd : Codec.hexDecode (chars file) with
    | error e => rfl
    | ok bs => exact absurd ((Json.hexDecode_ok_iff _ _).mp hd) (h _ bs (chars_toNat file))

/-- **C84.** Without `--roundtrip` a value is printed exactly if the input begins with a wire form of it under the
layout.  Missing: that nothing follows. -/
theorem C84_prints_partial (r : Rule) (h : Scoped r false) (file : Bytes) (v : Value) :
    tool r false file = .prints v ↔ ∃ enc rest, input file = enc ++ rest ∧ Gram false r none enc v := by
  unfold tool
  constructor
  · intro ht
    split at ht
    · cases ht
    · rename_i w it rest hd
      rw [if_neg (by decide)] at ht
      cases ht
      obtain ⟨enc, h1, h2⟩ := (C15_accepts_exactly_the_grammar_partial r h _ rest v).mp ⟨it, hd⟩
      exact ⟨enc, rest, h1, h2⟩
  · rintro ⟨enc, rest, h1, h2⟩
    obtain ⟨it, hd⟩ := (C15_accepts_exactly_the_grammar_partial r h _ rest v).mpr ⟨enc, h1, h2⟩
    rw [hd]
    rfl

/-- **C84.** With `--roundtrip` a value is printed exactly if the whole input is the canonical wire form of it under
the layout, for layouts whose summands carry their own position and whose tags do not fit one byte. -/
theorem C84_roundtrip_partial (r : Rule) (h : Scoped r false) (hr : Rewritable r) (file : Bytes) (v : Value) :
    tool r true file = .prints v ↔ Gram true r none (input file) v := by
  unfold tool
  constructor
  · intro ht
    split at ht
    · cases ht
    · rename_i w it rest hd
      rw [if_pos rfl] at ht
      split at ht
      · rename_i he
        cases ht
        obtain ⟨enc, -, h2⟩ := (C15_accepts_exactly_the_grammar_partial r h _ rest v).mp ⟨it, hd⟩
        have := gram_canon false r hr none enc v h2
        rw [he]
        exact this
      · cases ht
  · intro hg
    obtain ⟨it, hd⟩ := (C15_accepts_exactly_the_grammar_partial r h (input file) [] v).mpr
      ⟨input file, by simp, gram_weaken _ _ _ _ hg⟩
    rw [hd]
    have : valueBytes v = input file := gram_bytes r hr none _ v hg
    simp only [if_true]
    rw [if_pos this.symm]

/-- **C84.** For any layout: what is printed with `--roundtrip` re-encodes to exactly the input. -/
theorem C84_roundtrip_sound (r : Rule) (file : Bytes) (v : Value) (h : tool r true file = .prints v) :
    valueBytes v = input file := by
  unfold tool at h
  split at h
  · cases h
  · rw [if_pos rfl] at h
    split at h
    · rename_i he; cases h; exact he.symm
    · cases h

/-- A file as digits, one as bytes. -/
example : tool (.tuple [.int .int, .bool]) true [0x30, 0x35, 0x30, 0x31] = .prints (.tuple [.int 5, .bool true]) ∧
    tool (.tuple [.int .int, .bool]) true [5, 1] = .prints (.tuple [.int 5, .bool true]) ∧
    Scoped (.tuple [.int .int, .bool]) false ∧ Rewritable (.tuple [.int .int, .bool]) :=
  ⟨rfl, rfl, by simp [Scoped, ScopedRules], by simp [Rewritable, RewritableRules]⟩

/-- A file of hexadecimal digits is half as long when it is taken for text. -/
theorem input_digits (file bs : Bytes) (h : Codec.hexDecode (chars file) = .ok bs) :
    input file = bs ∧ file.length = 2 * bs.length ∧ input (file ++ [0x0a]) = file ++ [0x0a] := by
  have hl : file.length = 2 * bs.length := by
    unfold Codec.hexDecode at h
    split at h
    · cases h
    · have := (Codec.hexPairs_ok h).1
      rwa [chars, List.length_map] at this
  refine ⟨by unfold input; rw [h], hl, ?_⟩
  unfold input Codec.hexDecode
  rw [if_pos (by simp only [chars, List.length_map, List.length_append, List.length_cons, List.length_nil]; omega)]

/-- **C84 fails** for every binary file that happens to consist of an even number of hexadecimal digits: the value of which it is
the wire form is not printed. -/
theorem C84_binary_digits_fails (r : Rule) (hr : Rewritable r) (file bs : Bytes) (v : Value) (hne : file ≠ [])
    (hv : Gram true r none file v) (h : Codec.hexDecode (chars file) = .ok bs) : tool r true file ≠ .prints v := by
  obtain ⟨h1, h2, -⟩ := input_digits file bs h
  have hb : valueBytes v = file := gram_bytes r hr none file v hv
  unfold tool
  rw [h1]
  intro ht
  split at ht
  · cases ht
  · split at ht
    · split at ht
      · rename_i w _ _ _ _ e
        cases ht
        rw [hb] at e
        have := congrArg List.length e
        have := List.length_pos_iff.mpr hne
        omega
      · cases ht
    · rename_i hf; exact hf rfl

/-- Such a file: the wire form of the integers 48 and 49 is read as the one byte 1. -/
example : Gram true (.tuple [.int .int, .int .int]) none [48, 49] (.tuple [.int 48, .int 49]) ∧
    Codec.hexDecode (chars [48, 49]) = .ok [1] ∧
    tool (.tuple [.int .int, .int .int]) true [48, 49] = .fails .eof ∧
    tool (.int .int) false [48, 49] = .prints (.int 1) := by
  refine ⟨?_, rfl, rfl, rfl⟩
  obtain ⟨enc, h1, h2, h3⟩ := C16_reencoding_reproduces_canonical_bytes_partial (.tuple [.int .int, .int .int])
    (by simp [Scoped, ScopedRules]) (by simp [Rewritable, RewritableRules]) [48, 49] [] (.tuple [.int 48, .int 49]) ⟨[], none⟩ rfl
  rw [List.append_nil] at h1
  subst h1
  exact h3.mp rfl

/-- **C84 fails** without `--roundtrip`: under any layout, what follows the value goes unnoticed (in a file that is not taken for
hexadecimal text). -/
theorem C84_trailing_fails (r : Rule) (enc rest : Bytes) (v : Value) (it : Iter)
    (h : (decodeLoose r).run (enc ++ rest) = .ok ((v, it), rest)) (hx : input (enc ++ rest) = enc ++ rest) :
    tool r false (enc ++ rest) = .prints v := by
  unfold tool
  rw [hx, h]
  rfl

example : tool .bool false [1, 0xff, 0xff] = .prints (.bool true) ∧ tool .bool true [1, 0xff, 0xff] = .differs :=
  ⟨C84_trailing_fails .bool [1] [0xff, 0xff] (.bool true) ⟨[], none⟩ rfl rfl, rfl⟩

/-- **C84 fails** for every hexadecimal text that ends in a line break, as editors write it: it is taken for the bytes of its
own digits, under every layout. -/
theorem C84_line_break_fails (r : Rule) (file bs : Bytes) (v w : Value) (it it' : Iter) (rest : Bytes)
    (h : Codec.hexDecode (chars file) = .ok bs) (hv : (decodeLoose r).run bs = .ok ((v, it), rest)) (rest' : Bytes)
    (hw : (decodeLoose r).run (file ++ [0x0a]) = .ok ((w, it'), rest')) :
    tool r false file = .prints v ∧ tool r false (file ++ [0x0a]) = .prints w := by
  obtain ⟨h1, -, h3⟩ := input_digits file bs h
  unfold tool
  rw [h1, h3, hv, hw]
  exact ⟨rfl, rfl⟩

example : tool (.int .int) false [0x30, 0x31] = .prints (.int 1) ∧
    tool (.int .int) false [0x30, 0x31, 0x0a] = .prints (.int 48) ∧ input [0x30, 0x31, 0x0a] = [0x30, 0x31, 0x0a] :=
  ⟨rfl, rfl, rfl⟩

end MinaRs.BinProt.ReaderTool
