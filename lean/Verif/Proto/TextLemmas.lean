import Verif.Proto.Spec

/-! # Lemmas: UTF-8 and UTF-16 as the page reads and writes them -/

namespace MinaRs.Proto

open Spec

theorem utf8_eq (s : String) : BinProt.utf8 s = s.toList.flatMap String.utf8EncodeChar := by
  obtain ⟨l, rfl⟩ : ∃ l, s = String.ofList l := ⟨s.toList, by simp⟩
  unfold BinProt.utf8
  rw [String.toUTF8_eq_toByteArray, String.toByteArray_ofList, String.toList_ofList]
  simp [List.utf8Encode]

theorem char_bound (c : Char) : c.toNat < 0xD800 ∨ (0xDFFF < c.toNat ∧ c.toNat < 0x110000) := by
  have h := c.valid
  rcases h with h | h
  · exact .inl h
  · exact .inr h

theorem pointBytes_char (c : Char) : pointBytes c.toNat = String.utf8EncodeChar c := by
  unfold pointBytes String.utf8EncodeChar
  have hv : c.val.toNat = c.toNat := rfl
  simp only [hv]
  by_cases h1 : c.toNat < 0x80
  · rw [if_pos h1, if_pos (Nat.le_of_lt_succ h1)]
  · rw [if_neg h1, if_neg (show ¬ c.toNat ≤ 0x7f by omega)]
    by_cases h2 : c.toNat < 0x800
    · rw [if_pos h2, if_pos (Nat.le_of_lt_succ h2)]
    · rw [if_neg h2, if_neg (show ¬ c.toNat ≤ 0x7ff by omega)]
      by_cases h3 : c.toNat < 0x10000
      · rw [if_pos h3, if_pos (Nat.le_of_lt_succ h3)]
      · rw [if_neg h3, if_neg (show ¬ c.toNat ≤ 0xffff by omega)]

theorem pointBytes_length (c : Nat) : (pointBytes c).length = pointSize c := by
  unfold pointBytes pointSize
  split
  · rfl
  · split
    · rfl
    · split <;> rfl

theorem sum_pointSize (l : List Nat) : (l.map pointSize).sum = (l.flatMap pointBytes).length := by
  induction l with
  | nil => rfl
  | cons c l ih => rw [List.map_cons, List.sum_cons, ih, List.flatMap_cons, List.length_append, pointBytes_length]

theorem utf16Char_nonempty (c : Char) : utf16Char c ≠ [] := by
  unfold utf16Char
  split <;> simp

theorem points_cons_low {c : Nat} (h : ¬ (0xD800 ≤ c ∧ c ≤ 0xDBFF)) (t : List Nat) : points (c :: t) = c :: points t := by
  cases t with
  | nil => rfl
  | cons d t => rw [points, if_neg h]

theorem points_utf16Char (c : Char) (t : List Nat) : points (utf16Char c ++ t) = c.toNat :: points t := by
  have hc := char_bound c
  unfold utf16Char
  split
  · rename_i h
    exact points_cons_low (by omega) t
  · rename_i h
    simp only [List.cons_append, List.nil_append]
    rw [points, if_pos (by omega)]
    exact congrArg (· :: points t) (show (0xD800 + (c.toNat - 0x10000) / 1024) * 2 ^ 10 +
      (0xDC00 + (c.toNat - 0x10000) % 1024) - 0x35FDC00 = c.toNat by omega)

theorem points_utf16 (l : List Char) : points (l.flatMap utf16Char) = l.map Char.toNat := by
  induction l with
  | nil => rfl
  | cons c l ih => rw [List.flatMap_cons, points_utf16Char, ih, List.map_cons]

theorem points_bytes (s : String) : (points (utf16 s)).flatMap pointBytes = BinProt.utf8 s := by
  unfold utf16
  rw [points_utf16, utf8_eq, List.flatMap_map]
  congr 1
  funext c
  exact pointBytes_char c

/-- `writeString` writes the length and the bytes of the text. -/
theorem writeString_utf16 (s : String) :
    writeString (utf16 s) = writeVarint32 (BinProt.utf8 s).length ++ BinProt.utf8 s := by
  unfold writeString
  rw [sum_pointSize, points_bytes]

theorem toNat_ofNat {n : Nat} (h : n < 256) : (UInt8.ofNat n).toNat = n := by
  simp only [UInt8.toNat_ofNat']
  omega

theorem text_one {a : Nat} (h : a < 0x80) (t : List Nat) : text (a :: t) = a :: text t := by
  rw [text.eq_def]
  exact if_pos h

theorem text_two {a b c : Nat} (ha : a / 32 = 6) (hb : b / 64 = 2) (hc : a % 32 * 2 ^ 6 + b % 64 = c) (h : 0x80 ≤ c)
    (t : List Nat) : text (a :: b :: t) = c :: text t := by
  rw [text.eq_def]
  dsimp only
  rw [if_neg (by omega), if_pos ha, if_pos hb, hc, if_neg (by omega)]

theorem text_three {a b d c : Nat} (ha : a / 16 = 14) (hb : b / 64 = 2) (hd : d / 64 = 2)
    (hc : a % 16 * 2 ^ 12 + b % 64 * 2 ^ 6 + d % 64 = c) (h : ¬ (c < 0x800 ∨ (0xD800 ≤ c ∧ c ≤ 0xDFFF)))
    (t : List Nat) : text (a :: b :: d :: t) = c :: text t := by
  rw [text.eq_def]
  dsimp only
  rw [if_neg (by omega), if_neg (by omega), if_pos ha, if_pos ⟨hb, hd⟩, hc, if_neg h]

theorem text_four {a b d e c : Nat} (ha : a / 8 = 30) (hb : b / 64 = 2) (hd : d / 64 = 2) (he : e / 64 = 2)
    (hc : a % 8 * 2 ^ 18 + b % 64 * 2 ^ 12 + d % 64 * 2 ^ 6 + e % 64 = c) (h : ¬ (c < 0x10000 ∨ 0x10FFFF < c))
    (t : List Nat) : text (a :: b :: d :: e :: t) =
      ((c - 0x10000) / 2 ^ 10 + 0xD800) :: ((c - 0x10000) % 2 ^ 10 + 0xDC00) :: text t := by
  rw [text.eq_def]
  dsimp only
  rw [if_neg (by omega), if_neg (by omega), if_neg (by omega), if_pos ha, if_pos ⟨hb, hd, he⟩, hc, if_neg h]

theorem text_char (c : Char) (t : List Nat) :
    text ((String.utf8EncodeChar c).map UInt8.toNat ++ t) = utf16Char c ++ text t := by
  have hc := char_bound c
  rw [← pointBytes_char]
  unfold pointBytes utf16Char
  generalize c.toNat = n at hc
  by_cases h1 : n < 0x80
  · rw [if_pos h1, if_pos (by omega)]
    simp only [List.map_cons, List.map_nil, List.cons_append, List.nil_append]
    rw [toNat_ofNat (by omega)]
    exact text_one h1 t
  · rw [if_neg h1]
    by_cases h2 : n < 0x800
    · rw [if_pos h2, if_pos (by omega)]
      simp only [List.map_cons, List.map_nil, List.cons_append, List.nil_append]
      rw [toNat_ofNat (by omega), toNat_ofNat (by omega)]
      exact text_two (by omega) (by omega) (by omega) (by omega) t
    · rw [if_neg h2]
      by_cases h3 : n < 0x10000
      · rw [if_pos h3, if_pos h3]
        simp only [List.map_cons, List.map_nil, List.cons_append, List.nil_append]
        rw [toNat_ofNat (by omega), toNat_ofNat (by omega), toNat_ofNat (by omega)]
        exact text_three (by omega) (by omega) (by omega) (by omega) (by omega) t
      · rw [if_neg h3, if_neg h3]
        simp only [List.map_cons, List.map_nil, List.cons_append, List.nil_append]
        rw [toNat_ofNat (by omega), toNat_ofNat (by omega), toNat_ofNat (by omega), toNat_ofNat (by omega),
          text_four (c := n) (by omega) (by omega) (by omega) (by omega) (by omega) (by omega) t, Nat.add_comm 0xD800,
          Nat.add_comm 0xDC00]

/-- The page's UTF-8 reader gives back every text. -/
theorem text_utf8 (s : String) : text ((BinProt.utf8 s).map UInt8.toNat) = utf16 s := by
  rw [utf8_eq]
  unfold utf16
  induction s.toList with
  | nil => rfl
  | cons c l ih => rw [List.flatMap_cons, List.map_append, text_char, ih, List.flatMap_cons]

end MinaRs.Proto
