import Verif.Json.DocLemmas

/-! Lemmas on the text form of JSON (C111): numbers. -/

namespace MinaRs.Json

open Text (Text decimal)
open Text.Spec (IsDigit value)
open Grammar

theorem isDigit_eq (c : Char) : isDigit c = true ↔ IsDigit c := by
  rw [Text.isDigit_iff]
  simp [isDigit]

theorem isDigit_false (c : Char) : isDigit c = false ↔ ¬ IsDigit c := by
  rw [← isDigit_eq]
  simp

theorem digitsValue_eq (ds : Text) : digitsValue ds = value ds := rfl

theorem takeWhile_digits (s : Text) : ∀ c ∈ s.takeWhile isDigit, IsDigit c := by
  induction s with
  | nil => intro c h; cases h
  | cons a s ih =>
    intro c h
    rw [List.takeWhile_cons] at h
    split at h
    · rename_i ha
      rcases List.mem_cons.mp h with rfl | h
      · exact (isDigit_eq _).mp ha
      · exact ih c h
    · cases h

theorem while_digits (ds r : Text) (hd : ∀ c ∈ ds, IsDigit c) (hr : ∀ c, r.head? = some c → ¬ IsDigit c) :
    (ds ++ r).takeWhile isDigit = ds ∧ (ds ++ r).dropWhile isDigit = r := by
  induction ds with
  | nil =>
    cases r with
    | nil => exact ⟨rfl, rfl⟩
    | cons c r =>
      have := (isDigit_false c).mpr (hr c rfl)
      simp [this]
  | cons a ds ih =>
    have ha := (isDigit_eq a).mpr (hd a (List.mem_cons_self ..))
    obtain ⟨h1, h2⟩ := ih fun c hc => hd c (List.mem_cons_of_mem _ hc)
    simp [ha, h1, h2]

/-- A number may end before this text. -/
def Stops (r : Text) : Prop := ∀ c, r.head? = some c → ¬ IsDigit c ∧ c ≠ '.' ∧ c ≠ 'e' ∧ c ≠ 'E'

theorem readFraction_sound (s fr r : Text) (h : readFraction s = some (fr, r)) : s = fr ++ r ∧ Fraction fr := by
  unfold readFraction at h
  split at h
  · rename_i r'
    split at h
    · cases h
    · rename_i hne
      cases h
      refine ⟨?_, .inr ⟨_, ⟨hne, takeWhile_digits _⟩, rfl⟩⟩
      rw [List.cons_append, List.takeWhile_append_dropWhile]
  · cases h; exact ⟨rfl, .inl rfl⟩

theorem readFraction_complete (fr r : Text) (h : Fraction fr) (hr : ∀ c, r.head? = some c → ¬ IsDigit c ∧ c ≠ '.') :
    readFraction (fr ++ r) = some (fr, r) := by
  rcases h with rfl | ⟨ds, hd, rfl⟩
  · rw [List.nil_append]
    unfold readFraction
    split
    · exact absurd rfl (hr _ rfl).2
    · rfl
  · obtain ⟨h1, h2⟩ := while_digits ds r hd.2 fun c hc => (hr c hc).1
    simp only [List.cons_append, readFraction, h1, h2, if_neg hd.1]

theorem readExponent_sound (s ex r : Text) (h : readExponent s = some (ex, r)) : s = ex ++ r ∧ Exponent ex := by
  unfold readExponent at h
  split at h
  · cases h; exact ⟨rfl, .inl rfl⟩
  · rename_i c r'
    split at h
    · rename_i hc
      split at h
      · cases h
      · rename_i hne
        cases h
        have hs : r' = (readSign r').1 ++ (readSign r').2 ∧
            ((readSign r').1 = [] ∨ (readSign r').1 = ['+'] ∨ (readSign r').1 = ['-']) := by
          unfold readSign
          split
          · exact ⟨rfl, .inr (.inl rfl)⟩
          · exact ⟨rfl, .inr (.inr rfl)⟩
          · exact ⟨rfl, .inl rfl⟩
        refine ⟨?_, .inr ⟨c, _, _, hc, hs.2, ⟨hne, takeWhile_digits _⟩, rfl⟩⟩
        rw [List.cons_append, List.append_assoc, List.takeWhile_append_dropWhile, ← hs.1]
    · cases h; exact ⟨rfl, .inl rfl⟩

theorem readSign_digits (t : Text) (c : Char) (hc : t.head? = some c) (hd : IsDigit c) : readSign t = ([], t) := by
  unfold readSign
  split
  · cases hc; exact absurd hd (by decide)
  · cases hc; exact absurd hd (by decide)
  · rfl

theorem readExponent_complete (ex r : Text) (h : Exponent ex) (hr : Stops r) : readExponent (ex ++ r) = some (ex, r) := by
  rcases h with rfl | ⟨e, sign, ds, he, hs, hd, rfl⟩
  · rw [List.nil_append]
    cases r with
    | nil => rfl
    | cons c r =>
      obtain ⟨-, -, h1, h2⟩ := hr c rfl
      simp [readExponent, h1, h2]
  · obtain ⟨h1, h2⟩ := while_digits ds r hd.2 fun c hc => (hr c hc).1
    have hsign : readSign (sign ++ (ds ++ r)) = (sign, ds ++ r) := by
      rcases hs with rfl | rfl | rfl
      · obtain ⟨c, ds', rfl⟩ := List.exists_cons_of_ne_nil hd.1
        exact readSign_digits _ c rfl (hd.2 c (List.mem_cons_self ..))
      · rfl
      · rfl
    simp only [List.cons_append, List.append_assoc, readExponent, if_pos he, hsign, h1, h2, if_neg hd.1]

/-- What a number with these parts is read as. -/
def numberOf (F : Floats) (negative : Bool) (ds fr ex r : Text) : Option (J × Text) :=
  if fr = [] ∧ ex = [] ∧ negative = false ∧ value ds < 2 ^ 64 then some (.num (value ds), r)
  else if fr = [] ∧ ex = [] ∧ negative = true ∧ 0 < value ds ∧ value ds ≤ 2 ^ 63 then some (.num (-value ds), r)
  else (F.read ((if negative then ['-'] else []) ++ ds ++ fr ++ ex)).map fun bits => (.float bits, r)

theorem readUnsigned_sound (F : Floats) (negative : Bool) (s r : Text) (j : J) (h : readUnsigned F negative s = some (j, r)) :
    ∃ ds fr ex, s = ds ++ (fr ++ (ex ++ r)) ∧ IntPart ds ∧ Fraction fr ∧ Exponent ex ∧
      numberOf F negative ds fr ex r = some (j, r) := by
  unfold readUnsigned at h
  simp only at h
  split at h
  · cases h
  rename_i hne
  split at h
  · cases h
  rename_i hz
  split at h
  · cases h
  rename_i fr q hfr
  split at h
  · cases h
  rename_i ex r' hex
  obtain ⟨h1, h2⟩ := readFraction_sound _ _ _ hfr
  obtain ⟨h3, h4⟩ := readExponent_sound _ _ _ hex
  have h5 : numberOf F negative (s.takeWhile isDigit) fr ex r' = some (j, r) := h
  have hr : r' = r := by
    unfold numberOf at h5
    split at h5
    · cases h5; rfl
    split at h5
    · cases h5; rfl
    · cases hx : F.read ((if negative then ['-'] else []) ++ s.takeWhile isDigit ++ fr ++ ex) with
      | none => rw [hx] at h5; cases h5
      | some b => rw [hx] at h5; cases h5; rfl
  subst hr
  refine ⟨s.takeWhile isDigit, fr, ex, ?_, ⟨⟨hne, takeWhile_digits _⟩, fun h0 => ?_⟩, h2, h4, h5⟩
  · rw [← h3, ← h1, List.takeWhile_append_dropWhile]
  · generalize hds : s.takeWhile isDigit = ds at hne hz h0
    cases ds with
    | nil => exact absurd rfl hne
    | cons c ds =>
      cases h0
      cases ds with
      | nil => rfl
      | cons d ds => exact absurd ⟨rfl, by simp⟩ hz

theorem head?_append_cases {s r : Text} {c : Char} (h : (s ++ r).head? = some c) : s.head? = some c ∨ (s = [] ∧ r.head? = some c) := by
  cases s with
  | nil => exact .inr ⟨rfl, h⟩
  | cons a s => exact .inl h

theorem readUnsigned_complete (F : Floats) (negative : Bool) (ds fr ex r : Text) (hd : IntPart ds) (hf : Fraction fr) (he : Exponent ex)
    (hr : Stops r) : readUnsigned F negative (ds ++ (fr ++ (ex ++ r))) = numberOf F negative ds fr ex r := by
  have h1 : ∀ c, (ex ++ r).head? = some c → ¬ IsDigit c ∧ c ≠ '.' := by
    intro c hc
    rcases head?_append_cases hc with h | ⟨-, h⟩
    · rcases he with rfl | ⟨e, sign, ds, he, -, -, rfl⟩
      · cases h
      · cases h; rcases he with rfl | rfl <;> decide
    · exact ⟨(hr c h).1, (hr c h).2.1⟩
  have h2 : ∀ c, (fr ++ (ex ++ r)).head? = some c → ¬ IsDigit c := by
    intro c hc
    rcases head?_append_cases hc with h | ⟨-, h⟩
    · rcases hf with rfl | ⟨ds, -, rfl⟩
      · cases h
      · cases h; decide
    · exact (h1 c h).1
  obtain ⟨h3, h4⟩ := while_digits ds _ hd.1.2 h2
  unfold readUnsigned
  simp only
  rw [h3, h4, if_neg hd.1.1, if_neg ?_, readFraction_complete fr _ hf h1]
  · simp only
    rw [readExponent_complete ex r he hr]
    rfl
  · rintro ⟨h5, h6⟩
    rw [hd.2 h5] at h6
    simp at h6

theorem readNumber_sound (F : Floats) (s r : Text) (j : J) (h : readNumber F s = some (j, r)) :
    ∃ t, s = t ++ r ∧ Number F.read t j := by
  have hneg : ∃ negative s', s = (if negative then ['-'] else []) ++ s' ∧ readUnsigned F negative s' = some (j, r) := by
    unfold readNumber at h
    split at h
    · exact ⟨true, _, rfl, h⟩
    · exact ⟨false, _, rfl, h⟩
  obtain ⟨negative, s', rfl, hu⟩ := hneg
  obtain ⟨ds, fr, ex, rfl, hd, hf, he, hn⟩ := readUnsigned_sound F negative s' r j hu
  refine ⟨(if negative then ['-'] else []) ++ ds ++ fr ++ ex, by simp, ?_⟩
  unfold numberOf at hn
  split at hn
  · rename_i hc
    obtain ⟨rfl, rfl, rfl, hv⟩ := hc
    cases hn
    simpa using Number.int (float := F.read) [] ds false rfl hd (by simpa [Fits] using hv)
  rename_i hc1
  split at hn
  · rename_i hc
    obtain ⟨rfl, rfl, rfl, hv⟩ := hc
    cases hn
    simpa using Number.int (float := F.read) ['-'] ds true rfl hd (by simpa [Fits] using hv)
  rename_i hc2
  cases hx : F.read ((if negative then ['-'] else []) ++ ds ++ fr ++ ex) with
  | none => rw [hx] at hn; cases hn
  | some b =>
    rw [hx] at hn
    cases hn
    refine .float _ ds fr ex negative b rfl hd hf he ?_ hx
    rintro ⟨rfl, rfl, hfit⟩
    cases negative with
    | false => exact hc1 ⟨rfl, rfl, rfl, by simpa [Fits] using hfit⟩
    | true => exact hc2 ⟨rfl, rfl, rfl, by simpa [Fits] using hfit⟩

theorem readNumber_sign (F : Floats) (negative : Bool) (ds q : Text) (hd : IntPart ds) :
    readNumber F ((if negative then ['-'] else []) ++ (ds ++ q)) = readUnsigned F negative (ds ++ q) := by
  cases negative with
  | true => rfl
  | false =>
    obtain ⟨c, ds, rfl⟩ := List.exists_cons_of_ne_nil hd.1.1
    have hc := hd.1.2 c (List.mem_cons_self ..)
    show readNumber F (c :: (ds ++ q)) = readUnsigned F false (c :: (ds ++ q))
    unfold readNumber
    split
    · rename_i h
      cases h
      exact absurd hc (by decide)
    · rfl

theorem readNumber_complete (F : Floats) (t r : Text) (j : J) (h : Number F.read t j) (hr : Stops r) :
    readNumber F (t ++ r) = some (j, r) := by
  cases h with
  | int sign ds negative hs hd hfit =>
    cases hs
    have h1 := readNumber_sign F negative ds r hd
    have h2 := readUnsigned_complete F negative ds [] [] r hd (.inl rfl) (.inl rfl) hr
    rw [List.nil_append, List.nil_append] at h2
    rw [List.append_assoc, h1, h2]
    unfold numberOf
    cases negative with
    | false => rw [if_pos ⟨rfl, rfl, rfl, by simpa [Fits] using hfit⟩]; rfl
    | true => rw [if_neg (by simp), if_pos ⟨rfl, rfl, rfl, by simpa [Fits] using hfit⟩]; rfl
  | float sign ds fr ex negative bits hs hd hf he hfit hb =>
    cases hs
    have h1 := readNumber_sign F negative ds (fr ++ (ex ++ r)) hd
    have h2 := readUnsigned_complete F negative ds fr ex r hd hf he hr
    rw [List.append_assoc, List.append_assoc, List.append_assoc, h1, h2]
    unfold numberOf
    rw [if_neg, if_neg, hb]
    · rfl
    · rintro ⟨rfl, rfl, rfl, h⟩; exact hfit ⟨rfl, rfl, by simpa [Fits] using h⟩
    · rintro ⟨rfl, rfl, rfl, h⟩; exact hfit ⟨rfl, rfl, by simpa [Fits] using h⟩

theorem number_depth {float : Text → Option UInt64} {t : Text} {j : J} (h : Number float t j) : depth j = 0 := by
  cases h <;> rfl

/-- How a number begins. -/
theorem number_head {float : Text → Option UInt64} {t : Text} {j : J} (h : Number float t j) :
    ∃ c t', t = c :: t' ∧ (c = '-' ∨ IsDigit c) := by
  have key : ∀ (sign ds rest : Text) (negative : Bool), Minus sign negative → IntPart ds →
      ∃ c t', sign ++ (ds ++ rest) = c :: t' ∧ (c = '-' ∨ IsDigit c) := by
    intro sign ds rest negative hs hd
    obtain ⟨c, ds, rfl⟩ := List.exists_cons_of_ne_nil hd.1.1
    cases negative with
    | true => cases hs; exact ⟨'-', _, rfl, .inl rfl⟩
    | false => cases hs; exact ⟨c, _, rfl, .inr (hd.1.2 c (List.mem_cons_self ..))⟩
  cases h with
  | int sign ds negative hs hd => simpa using key sign ds [] negative hs hd
  | float sign ds fr ex negative bits hs hd => simpa using key sign ds (fr ++ ex) negative hs hd

end MinaRs.Json
