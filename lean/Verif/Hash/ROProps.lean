import Verif.Hash.ROSpec
import Verif.Hash.ROLemmas
/-!
# C52: packing of chunked random-oracle inputs
-/

namespace MinaRs.Hash

open Spec Chunked

theorem width_append (a b : List (Fp × Nat)) : width (a ++ b) = width a + width b := by
  simp [width]

theorem concat_append (a b : List (Fp × Nat)) : concat (a ++ b) = concat a * 2 ^ width b + concat b := by
  induction a with
  | nil => simp [concat]
  | cons q a ih =>
    obtain ⟨v, w⟩ := q
    simp only [List.cons_append, concat, ih, width_append, Nat.pow_add, Nat.add_mul]
    rw [Nat.mul_assoc, Nat.add_assoc]

theorem concat_lt {ps : List (Fp × Nat)} (h : ∀ q ∈ ps, q.1.val < 2 ^ q.2) : concat ps < 2 ^ width ps := by
  induction ps with
  | nil => simp [concat, width]
  | cons q ps ih =>
    obtain ⟨v, w⟩ := q
    have h1 := h (v, w) (by simp)
    have h2 := ih fun q hq => h q (by simp [hq])
    have h3 : width ((v, w) :: ps) = w + width ps := by simp [width]
    simp only [concat, h3, Nat.pow_add]
    have : (v.val + 1) * 2 ^ width ps ≤ 2 ^ w * 2 ^ width ps := Nat.mul_le_mul_right _ h1
    rw [Nat.add_mul] at this; omega

theorem packLoop_layout : ∀ (ps cur : List (Fp × Nat)) (s : Fp) (r : List Fp),
    cur ≠ [] → width cur ≤ 254 → (∀ q ∈ cur, q.1.val < 2 ^ q.2 ∧ 1 ≤ q.2 ∧ q.2 ≤ 254) →
    (∀ q ∈ ps, q.1.val < 2 ^ q.2 ∧ 1 ≤ q.2 ∧ q.2 ≤ 254) → s.val = concat cur →
    packLoop (width cur) s ps = .ok r →
    ∃ rest gs, ((cur ++ rest) :: gs).flatten = cur ++ ps ∧ Greedy ((cur ++ rest) :: gs) ∧
      r.map Fin.val = ((cur ++ rest) :: gs).map concat
  | [], cur, s, r, hc, hw, hcur, _, hs, h => by
    refine ⟨[], [], by simp, by simpa [Greedy] using ⟨hc, hw⟩, ?_⟩
    have hpos : width cur > 0 := by
      cases cur with
      | nil => exact absurd rfl hc
      | cons q cur => have := hcur q (by simp); simp [width]; omega
    cases Except.ok.inj h
    simp [hpos, hs]
  | (f, n) :: ps, cur, s, r, hc, hw, hcur, hps, hs, h => by
    have hf := hps (f, n) (by simp)
    have hps2 : ∀ q ∈ ps, q.1.val < 2 ^ q.2 ∧ 1 ≤ q.2 ∧ q.2 ≤ 254 := fun q hq => hps q (by simp [hq])
    have hslt : s.val < 2 ^ width cur := by rw [hs]; exact concat_lt fun q hq => (hcur q hq).1
    have hwf : width [(f, n)] = n := by simp [width]
    by_cases hn : width cur + n < 255
    · obtain ⟨t, e, v, _⟩ := step_in hslt hf.1 hn ps
      rw [e] at h
      have hw2 : width (cur ++ [(f, n)]) = width cur + n := by rw [width_append, hwf]
      obtain ⟨rest, gs, h1, h2, h3⟩ := packLoop_layout ps (cur ++ [(f, n)]) t r (by simp) (by omega)
        (by
          intro q hq
          rcases List.mem_append.1 hq with hq | hq
          · exact hcur q hq
          · rw [List.mem_singleton.1 hq]; exact hf)
        hps2 (by rw [v, concat_append, hwf, hs]; simp [concat, width]) (by rw [hw2]; exact h)
      refine ⟨(f, n) :: rest, gs, ?_, ?_, ?_⟩
      · simpa using h1
      · simpa using h2
      · simpa using h3
    · rw [step_out s f (by omega) (by omega)] at h
      cases h1 : packLoop n f ps with
      | error e => rw [h1] at h; exact nomatch h
      | ok r' =>
        rw [h1] at h
        cases Except.ok.inj h
        obtain ⟨rest, gs, h2, h3, h4⟩ := packLoop_layout ps [(f, n)] f r' (by simp) (by rw [hwf]; exact hf.2.2)
          (by intro q hq; rw [List.mem_singleton.1 hq]; exact hf) hps2 (by simp [concat, width])
          (by rw [hwf]; exact h1)
        refine ⟨[], ([(f, n)] ++ rest) :: gs, ?_, ?_, ?_⟩
        · rw [List.flatten_cons, h2]; simp
        · simp only [List.append_nil]
          refine ⟨hc, hw, ?_, h3⟩
          simp only [List.cons_append, firstWidth]; omega
        · simp only [List.map_cons, hs, List.append_nil]
          rw [h4]; simp

/-- **C52.** Packing never panics on pieces that fit their declared widths. -/
theorem C52_no_panic (c : Chunked) (h : Fits c) : ∃ r, c.intoFields = .ok r := by
  obtain ⟨q, hq⟩ := packLoop_ok c.packed 0 0 zero_lt (by decide) h
  exact ⟨_, intoFields_eq_ok.2 ⟨q, hq, rfl⟩⟩

/-- **C52.** Two chunked hash inputs with the same piece widths and the same packed fields are equal:
they have the same field elements and the same pieces. -/
theorem C52_injective (a b : Chunked) (ha : Fits a) (hb : Fits b) (hw : widths a = widths b)
    (h : a.intoFields = b.intoFields) : a = b := by
  obtain ⟨r, hr⟩ := C52_no_panic a ha
  exact intoFields_inj ha hb hw hr (h ▸ hr)

/-- **C52.** Exactly what is packed: the field elements, then the numbers written by the longest
possible groups of consecutive pieces of at most 254 bits. -/
theorem C52_layout (c : Chunked) (h : Proper c) :
    ∃ gs r, gs.flatten = c.packed ∧ Greedy gs ∧ c.intoFields = .ok (c.fields ++ r) ∧
      r.map Fin.val = gs.map concat := by
  obtain ⟨fs, ps⟩ := c
  cases ps with
  | nil => exact ⟨[], [], rfl, trivial, by simp [intoFields, packLoop, bind, Except.bind, pure, Except.pure], rfl⟩
  | cons q ps =>
    obtain ⟨f, n⟩ := q
    have hf := h (f, n) (by simp)
    obtain ⟨q, hq⟩ := packLoop_ok ((f, n) :: ps) 0 0 zero_lt (by decide)
      (fun q hq => ⟨(h q hq).1, by have := (h q hq).2; omega⟩)
    have hq0 := hq
    obtain ⟨t, e, v, _⟩ := step_in zero_lt hf.1 (by simpa using Nat.lt_succ_of_le hf.2.2) ps
    rw [e] at hq
    have hwf : width [(f, n)] = n := by simp [width]
    obtain ⟨rest, gs, h1, h2, h3⟩ := packLoop_layout ps [(f, n)] t q (by simp) (by rw [hwf]; exact hf.2.2)
      (by intro q hq; rw [List.mem_singleton.1 hq]; exact hf) (fun q hq => h q (by simp [hq]))
      (by rw [v]; simp [concat, width]) (by rw [hwf]; simpa using hq)
    exact ⟨_, q, by simpa using h1, h2, intoFields_eq_ok.2 ⟨q, hq0, rfl⟩, h3⟩

/-- **C52.** Every packed field is below `2^254`, which is below the field order. -/
theorem C52_packed_small (c : Chunked) (h : Proper c) :
    ∃ r, c.intoFields = .ok (c.fields ++ r) ∧ ∀ f ∈ r, f.val < 2 ^ 254 := by
  obtain ⟨gs, r, h1, h2, h3, h4⟩ := C52_layout c h
  refine ⟨r, h3, fun f hf => ?_⟩
  have : f.val ∈ gs.map concat := by rw [← h4]; exact List.mem_map_of_mem hf
  obtain ⟨g, hg, e⟩ := List.mem_map.1 this
  rw [← e]
  have hwid : width g ≤ 254 := by
    clear h3 h4 e this h1
    induction gs with
    | nil => exact nomatch hg
    | cons x gs ih =>
      cases gs with
      | nil => rw [List.mem_singleton.1 hg]; exact h2.2
      | cons y gs =>
        rcases List.mem_cons.1 hg with rfl | hg
        · exact h2.2.1
        · exact ih h2.2.2.2 hg
  refine Nat.lt_of_lt_of_le (concat_lt fun q hq => (h q ?_).1) (Nat.pow_le_pow_right (by decide) hwid)
  rw [← h1]; exact List.mem_flatten.2 ⟨g, hg, hq⟩

/-- Four 64-bit pieces and a boolean: a case crossing a chunk boundary meets the hypotheses. -/
def sampleChunked : Chunked :=
  ⟨[3], [(u64Fp 7, 64), (u64Fp 8, 64), (u64Fp 9, 64), (u64Fp 0xffffffffffffffff, 64), (boolFp true, 1)]⟩

example : Proper sampleChunked ∧ Fits sampleChunked ∧
    sampleChunked.intoFields = .ok [3, ⟨7 * 2 ^ 128 + 8 * 2 ^ 64 + 9, by decide⟩,
      ⟨0xffffffffffffffff * 2 + 1, by decide⟩] := by
  refine ⟨?_, ?_, by decide +kernel⟩ <;>
  · intro q hq
    simp only [sampleChunked, List.mem_cons, List.not_mem_nil, or_false] at hq
    rcases hq with rfl | rfl | rfl | rfl | rfl <;> decide

/-- **C52.** The width of a piece is not checked when it is appended: a value that does not fit its
declared width runs into its neighbour, and two different inputs with the same widths share their
packed fields. -/
theorem C52_oversized_piece_fails :
    ∃ a b : Chunked, widths a = widths b ∧ a ≠ b ∧ ∃ r, a.intoFields = .ok r ∧ b.intoFields = .ok r :=
  ⟨⟨[], [(1, 1), (0, 1)]⟩, ⟨[], [(0, 1), (2, 1)]⟩, rfl, by decide, [2], by decide +kernel, by decide +kernel⟩

/-- **C52.** The same widths are needed: inputs with different widths may share their packed fields. -/
theorem C52_widths_needed :
    ∃ a b : Chunked, Proper a ∧ Proper b ∧ a ≠ b ∧ ∃ r, a.intoFields = .ok r ∧ b.intoFields = .ok r := by
  refine ⟨⟨[], [(1, 1)]⟩, ⟨[], [(1, 2)]⟩, ?_, ?_, by decide, [1], by decide +kernel, by decide +kernel⟩ <;>
  · intro q hq
    rw [List.mem_singleton.1 hq]; decide

end MinaRs.Hash
