import Verif.Base.Amount
import Verif.Base.AmountSpec
import Verif.Base.TextLemmas

/-! # C47, C48, C49, C64: amounts and integers as texts -/

namespace MinaRs.Base

open Text Text.Spec Spec

theorem digits_padLeft9 {s : Text} (h : ∀ c ∈ s, IsDigit c) : ∀ c ∈ padLeft9 s, IsDigit c := by
  intro c hc
  rcases List.mem_append.mp hc with hc | hc
  · rw [List.eq_of_mem_replicate hc]; decide
  · exact h c hc

theorem value_padLeft9 (s : Text) : value (padLeft9 s) = value s := by
  unfold padLeft9; rw [value_append, value_replicate_zero]; simp

theorem length_padLeft9 {s : Text} (h : s.length ≤ 9) : (padLeft9 s).length = 9 := by
  unfold padLeft9; rw [List.length_append, List.length_replicate]; omega

theorem digits_padRight9 {s : Text} (h : ∀ c ∈ s, IsDigit c) : ∀ c ∈ padRight9 s, IsDigit c := by
  intro c hc
  rcases List.mem_append.mp hc with hc | hc
  · exact h c hc
  · rw [List.eq_of_mem_replicate hc]; decide

theorem value_padRight9 (s : Text) : value (padRight9 s) = value s * 10 ^ (9 - s.length) := by
  unfold padRight9; rw [value_append, value_replicate_zero, List.length_replicate]; simp

theorem length_padRight9 {s : Text} (h : s.length ≤ 9) : (padRight9 s).length = 9 := by
  unfold padRight9; rw [List.length_append, List.length_replicate]; omega

theorem padRight9_ne_nil (s : Text) : padRight9 s ≠ [] := by
  intro h
  have := congrArg List.length h
  unfold padRight9 at this
  simp at this
  rw [this.1] at this
  simp at this

theorem notMem_of_digits {s : Text} (h : ∀ c ∈ s, IsDigit c) : '.' ∉ s := fun hm => dot_not_digit (h _ hm)

/-- The fractional part of at most nine digits, read after padding. -/
theorem parse_frac {f : Text} (h : ∀ c ∈ f, IsDigit c) (hl : f.length ≤ 9) :
    parseUnsigned U64_MAX (padRight9 f) = .ok (value f * 10 ^ (9 - f.length)) := by
  have hd := digits_padRight9 h
  rw [parseUnsigned_digits (padRight9_ne_nil f) hd, parseDigits_ok hd]
  · rw [value_padRight9]; simp
  · have := value_lt hd
    rw [length_padRight9 hl] at this
    have e : U64_MAX = 18446744073709551615 := by decide
    rw [Nat.zero_mul, Nat.zero_add, e]
    have : (10:Nat) ^ 9 = 1000000000 := by decide
    omega

theorem parse_int {q : Text} (hne : q ≠ []) (h : ∀ c ∈ q, IsDigit c) :
    parseUnsigned U64_MAX q = if value q ≤ U64_MAX then .ok (value q) else .error .posOverflow := by
  rw [parseUnsigned_digits hne h]
  split
  · rw [parseDigits_ok h (by simpa using ‹_›)]; simp
  · rw [parseDigits_overflow h hne (by simp; omega)]

/-- Reading a plain decimal with at most nine fractional digits. -/
theorem fromStr_decimal (checks : Bool) {s int frac : Text} (h : Decimal s int frac) (hl : frac.length ≤ 9) :
    Amount.fromStr checks s =
      if value int ≤ U64_MAX then
        if value frac * 10 ^ (9 - frac.length) + MINA_PRECISION * value int ≤ U64_MAX then
          .ok (value frac * 10 ^ (9 - frac.length) + MINA_PRECISION * value int)
        else if checks then .error .overflowPanic
        else .ok ((value frac * 10 ^ (9 - frac.length) + MINA_PRECISION * value int) % 2 ^ 64)
      else .error (.parsingInteger .posOverflow) := by
  unfold Amount.fromStr
  cases h with
  | whole _ hne hd =>
    rw [split_of_notMem (notMem_of_digits hd)]
    by_cases hv : value s ≤ U64_MAX
    · have : parseUnsigned U64_MAX (padRight9 ['0']) = .ok 0 := by
        have := parse_frac (f := ['0']) (by decide) (by decide)
        simpa [value] using this
      simp only [parseParts, parse_int hne hd, bind, Except.bind, if_pos hv, this, value_nil, Nat.zero_mul]
    · simp only [parseParts, parse_int hne hd, bind, Except.bind, if_neg hv]
  | point _ _ hne hd hne' hd' =>
    rw [split_append (notMem_of_digits hd), split_of_notMem (notMem_of_digits hd')]
    by_cases hv : value int ≤ U64_MAX
    · simp only [parseParts, parse_int hne hd, parse_frac hd' hl, bind, Except.bind, if_pos hv, List.isEmpty_nil, Bool.not_true]
    · simp only [parseParts, parse_int hne hd, bind, Except.bind, if_neg hv]

theorem denotes_of_eq {int frac : Text} (hl : frac.length ≤ 9) :
    Denotes int frac (value frac * 10 ^ (9 - frac.length) + MINA_PRECISION * value int) := by
  unfold Denotes
  rw [Nat.add_mul, Nat.mul_assoc (value frac), ← Nat.pow_add, Nat.sub_add_cancel hl]
  unfold MINA_PRECISION
  have : (10:Nat) ^ 9 = 1000000000 := by decide
  rw [this, Nat.add_mul, Nat.mul_assoc 1000000000, Nat.mul_comm 1000000000]; omega

theorem denotes_eq {int frac : Text} {a : Nat} (hl : frac.length ≤ 9) (h : Denotes int frac a) :
    a = value frac * 10 ^ (9 - frac.length) + MINA_PRECISION * value int := by
  unfold Denotes at h
  have hpos : 0 < 10 ^ frac.length := Nat.pow_pos (by decide)
  apply Nat.eq_of_mul_eq_mul_right hpos
  rw [h, ← denotes_of_eq hl]

theorem mod_lt9 (a : Nat) : a % MINA_PRECISION < 10 ^ 9 := by unfold MINA_PRECISION; omega

theorem length_frac (a : Nat) : (padLeft9 (decimal (a % MINA_PRECISION))).length = 9 :=
  length_padLeft9 (decimal_length_le (by decide) (mod_lt9 a))

/-! ## C47 -/

/-- C47: the text of an amount is its exact decimal value: the usual notation of the whole part, a
point, and nine fractional digits. -/
theorem C47_text_exact (a : Nat) :
    ∃ int frac, Amount.display a = int ++ '.' :: frac ∧ Decimal (Amount.display a) int frac ∧
      IsDecimalOf int (a / 10 ^ 9) ∧ frac.length = 9 ∧ Denotes int frac a := by
  have hd := digits_padLeft9 (decimal_digits (a % MINA_PRECISION))
  refine ⟨decimal (a / MINA_PRECISION), padLeft9 (decimal (a % MINA_PRECISION)), rfl, ?_,
    isDecimalOf_decimal _, length_frac a, ?_⟩
  · exact .point _ _ (decimal_ne_nil _) (decimal_digits _) (fun h => by have := length_frac a; rw [h] at this; cases this) hd
  · unfold Denotes
    rw [length_frac, value_padLeft9, value_decimal, value_decimal]
    unfold MINA_PRECISION
    have : (10:Nat) ^ 9 = 1000000000 := by decide
    rw [this]
    omega

/-- C47: formatting any amount and parsing the text returns the same amount, in debug and release
builds alike. -/
theorem C47_roundtrip (checks : Bool) (a : Nat) (ha : a ≤ U64_MAX) :
    Amount.fromStr checks (Amount.display a) = .ok a := by
  obtain ⟨int, frac, -, h2, h3, h4, h5⟩ := C47_text_exact a
  have e := denotes_eq (by omega) h5
  rw [fromStr_decimal checks h2 (by omega), ← e, if_pos, if_pos ha]
  rw [h3.2.2.1]
  have : a / 10 ^ 9 ≤ a := Nat.div_le_self _ _
  omega

/-- C47: so different amounts have different texts. -/
theorem C47_injective (a b : Nat) (ha : a ≤ U64_MAX) (hb : b ≤ U64_MAX)
    (h : Amount.display a = Amount.display b) : a = b := by
  have h1 := C47_roundtrip true a ha
  rw [h, C47_roundtrip true b hb] at h1
  exact (Except.ok.inj h1).symm

example : Amount.display 1000000030 = "1.000000030".toList ∧ Amount.display U64_MAX = "18446744073.709551615".toList := by
  refine ⟨?_, ?_⟩ <;> simp +decide [Amount.display, decimal, padLeft9, digit, MINA_PRECISION, U64_MAX]

/-! ## C48 -/

/-- C48: every plain decimal number with at most nine fractional digits whose value fits in 64 bits is
read as exactly that amount; one whose value does not fit gives no amount in a build that checks
for overflow.  Missing: longer fractions and release builds (below). -/
theorem C48_decimal_partial (s int frac : Text) (a : Nat) (h : Decimal s int frac) (hl : frac.length ≤ 9)
    (ha : Denotes int frac a) :
    (a ≤ U64_MAX → ∀ checks, Amount.fromStr checks s = .ok a) ∧
    (U64_MAX < a → ∃ e, Amount.fromStr true s = .error e) ∧
    (U64_MAX < value int → ∀ checks, Amount.fromStr checks s = .error (.parsingInteger .posOverflow)) := by
  have e := denotes_eq hl ha
  refine ⟨fun hle checks => ?_, fun hlt => ?_, fun hlt checks => ?_⟩
  · rw [fromStr_decimal checks h hl, ← e, if_pos (by unfold MINA_PRECISION at e; omega), if_pos hle]
  · rw [fromStr_decimal true h hl, ← e, if_neg (Nat.not_le.mpr hlt)]
    split
    · exact ⟨_, rfl⟩
    · exact ⟨_, rfl⟩
  · rw [fromStr_decimal checks h hl, if_neg (Nat.not_le.mpr hlt)]

/-- The shape of every accepted text. -/
theorem fromStr_inv {checks : Bool} {s : Text} {a : Nat} (h : Amount.fromStr checks s = .ok a) :
    ∃ q r, parseUnsigned U64_MAX q = .ok r ∧
      ((s = q ∧ '.' ∉ q) ∨ ∃ f v, s = q ++ '.' :: f ∧ '.' ∉ q ∧ '.' ∉ f ∧ parseUnsigned U64_MAX (padRight9 f) = .ok v) := by
  unfold Amount.fromStr at h
  obtain ⟨h1, h2⟩ := split_spec '.' s
  cases hs : split '.' s with
  | nil => exact absurd hs (split_ne_nil _ _)
  | cons q rest =>
    rw [hs] at h1 h2 h
    simp only [parseParts, bind, Except.bind] at h
    cases hq : parseUnsigned U64_MAX q with
    | error e => simp only [hq] at h; cases h
    | ok qv =>
      simp only [hq] at h
      refine ⟨q, qv, hq, ?_⟩
      cases rest with
      | nil => left; exact ⟨by simpa [List.intercalate] using h1, h2 q List.mem_cons_self⟩
      | cons f rest =>
        cases hf : parseUnsigned U64_MAX (padRight9 f) with
        | error e => simp only [hf] at h; cases h
        | ok v =>
          simp only [hf] at h
          cases rest with
          | nil =>
            right
            refine ⟨f, v, ?_, h2 q List.mem_cons_self, h2 f (by simp), hf⟩
            rw [h1]; simp [List.intercalate]
          | cons g rest => simp only [List.isEmpty_cons, Bool.not_false] at h; cases h

theorem plain_of_parse {q : Text} {v : Nat} (h : parseUnsigned U64_MAX q = .ok v) (hp : '+' ∉ q) :
    q ≠ [] ∧ ∀ c ∈ q, IsDigit c := by
  obtain ⟨ds, h1, h2, h3, -⟩ := parseUnsigned_inv h
  rcases h1 with rfl | rfl
  · exact ⟨h2, h3⟩
  · exact absurd List.mem_cons_self hp

/-- C48: conversely, every accepted text without a plus sign that does not end in a point is a plain
decimal number, and if it has at most nine fractional digits the amount is its exact value.
Missing: longer fractions and plus signs, where the code is wrong (below), and release builds. -/
theorem C48_accepted_partial (s : Text) (a : Nat) (h : Amount.fromStr true s = .ok a) (hplus : '+' ∉ s)
    (hlast : s.getLast? ≠ some '.') :
    ∃ int frac, Decimal s int frac ∧ (frac.length ≤ 9 → Denotes int frac a ∧ a ≤ U64_MAX) := by
  have hdec : ∃ int frac, Decimal s int frac := by
    obtain ⟨q, r, h1, h2⟩ := fromStr_inv h
    rcases h2 with ⟨rfl, -⟩ | ⟨f, v, rfl, -, -, hf⟩
    · obtain ⟨a1, a2⟩ := plain_of_parse h1 hplus
      exact ⟨_, _, .whole _ a1 a2⟩
    · obtain ⟨a1, a2⟩ := plain_of_parse h1 (fun h => hplus (List.mem_append_left _ h))
      have hf' := plain_of_parse hf (by
        intro hm
        rcases List.mem_append.mp hm with hm | hm
        · exact hplus (List.mem_append_right _ (List.mem_cons_of_mem _ hm))
        · exact absurd (List.eq_of_mem_replicate hm) (by decide))
      refine ⟨_, _, .point _ _ a1 a2 ?_ (fun c hc => hf'.2 c (List.mem_append_left _ hc))⟩
      rintro rfl
      exact hlast (by simp)
  obtain ⟨int, frac, hd⟩ := hdec
  refine ⟨int, frac, hd, fun hl => ?_⟩
  rw [fromStr_decimal true hd hl] at h
  split at h
  · split at h
    · rename_i hle
      have := Except.ok.inj h
      subst this
      exact ⟨denotes_of_eq hl, hle⟩
    · cases h
  · cases h

/-- C48: a text with several points is never accepted. -/
theorem C48_two_points_refused (checks : Bool) (x y z : Text) (a : Nat) :
    Amount.fromStr checks (x ++ '.' :: y ++ '.' :: z) ≠ .ok a := by
  intro h
  obtain ⟨q, r, -, h2⟩ := fromStr_inv h
  have count : (x ++ '.' :: y ++ '.' :: z).count '.' ≥ 2 := by
    simp only [List.count_append, List.count_cons_self]; omega
  rcases h2 with ⟨h2, h3⟩ | ⟨f, v, h2, h3, h4, -⟩
  · rw [h2, List.count_eq_zero.mpr h3] at count; omega
  · rw [h2, List.count_append, List.count_cons_self, List.count_eq_zero.mpr h3, List.count_eq_zero.mpr h4] at count; omega

/-- C48: a text containing a character that is not a digit, a point or a plus sign is never accepted,
nor is a text with no digit before the point. -/
theorem C48_other_characters_refused (checks : Bool) (s : Text) (a : Nat) :
    (∀ c ∈ s, ¬ IsDigit c → c ≠ '.' → c ≠ '+' → Amount.fromStr checks s ≠ .ok a) ∧
    (∀ t, s = '.' :: t → Amount.fromStr checks s ≠ .ok a) ∧ (s = [] → Amount.fromStr checks s ≠ .ok a) := by
  have good : ∀ {q : Text} {v : Nat}, parseUnsigned U64_MAX q = .ok v → ∀ c ∈ q, IsDigit c ∨ c = '+' := by
    intro q v hq c hc
    obtain ⟨ds, h1, -, h3, -⟩ := parseUnsigned_inv hq
    rcases h1 with rfl | rfl
    · exact .inl (h3 c hc)
    · rcases List.mem_cons.mp hc with h | h
      · exact .inr h
      · exact .inl (h3 c h)
  have hne : ∀ {q : Text} {v : Nat}, parseUnsigned U64_MAX q = .ok v → q ≠ [] := by
    rintro q v hq rfl; cases hq
  refine ⟨fun c hc h1 h2 h3 h => ?_, fun t ht h => ?_, fun hs h => ?_⟩
  · obtain ⟨q, r, hq, h5⟩ := fromStr_inv h
    rcases h5 with ⟨rfl, -⟩ | ⟨f, v, rfl, -, -, hf⟩
    · rcases good hq c hc with h | h
      · exact h1 h
      · exact h3 h
    · rcases List.mem_append.mp hc with hc | hc
      · rcases good hq c hc with h | h
        · exact h1 h
        · exact h3 h
      · rcases List.mem_cons.mp hc with hc | hc
        · exact h2 hc
        · rcases good hf c (List.mem_append_left _ hc) with h | h
          · exact h1 h
          · exact h3 h
  · obtain ⟨q, r, hq, h5⟩ := fromStr_inv h
    have := hne hq
    obtain ⟨c, q', rfl⟩ := List.exists_cons_of_ne_nil this
    rcases h5 with ⟨h5, h6⟩ | ⟨f, v, h5, h6, -, -⟩
    · rw [h5] at ht; injection ht with h7 _; subst h7; exact h6 List.mem_cons_self
    · rw [h5] at ht; injection ht with h7 _; subst h7; exact h6 List.mem_cons_self
  · obtain ⟨q, r, hq, h5⟩ := fromStr_inv h
    have := hne hq
    rcases h5 with ⟨h5, -⟩ | ⟨f, v, h5, -⟩
    · exact this (h5 ▸ hs)
    · rw [hs] at h5
      have := congrArg List.length h5
      simp at this

/-- C48: exactly which texts are accepted and what they are read as, right or wrong: a number, or a number, a point and something
that becomes a number when zeros are added to make nine characters; and the two numbers make an amount of 64 bits, or the
build does not check for overflow. -/
theorem C48_exactly (checks : Bool) (s : Text) (a : Nat) :
    Amount.fromStr checks s = .ok a ↔ ∃ whole n r, Number64 whole n ∧
      ((s = whole ∧ r = 0) ∨ ∃ f, s = whole ++ '.' :: f ∧ Number64 (f ++ List.replicate (9 - f.length) '0') r) ∧
      (if n * 10 ^ 9 + r < 2 ^ 64 then a = n * 10 ^ 9 + r else checks = false ∧ a = (n * 10 ^ 9 + r) % 2 ^ 64) := by
  have num : ∀ t n, parseUnsigned U64_MAX t = .ok n ↔ Number64 t n := by
    intro t n
    constructor
    · intro h
      obtain ⟨ds, h1, h2, h3, h4, h5⟩ := parseUnsigned_inv h
      exact ⟨by unfold U64_MAX at h5; omega, ds, h1, h2, h3, h4.symm⟩
    · rintro ⟨hn, ds, h1, h2, h3, rfl⟩
      have hp : parseUnsigned U64_MAX ds = .ok (value ds) := by
        rw [parse_int h2 h3, if_pos (by unfold U64_MAX; omega)]
      rcases h1 with rfl | rfl
      · exact hp
      · rw [parseUnsigned_digits h2 h3] at hp
        cases t : ds with
        | nil => exact absurd t h2
        | cons c cs => rw [← t]; subst t; exact hp
  have nodot : ∀ t n, Number64 t n → '.' ∉ t := by
    rintro t n ⟨-, ds, h1, -, h3, -⟩ hm
    rcases h1 with rfl | rfl
    · exact notMem_of_digits h3 hm
    · rcases List.mem_cons.mp hm with h | h
      · exact absurd h (by decide)
      · exact notMem_of_digits h3 h
  have zero : parseUnsigned U64_MAX (padRight9 ['0']) = .ok 0 := by decide
  have sum : ∀ n r : Nat, ((if r + MINA_PRECISION * n ≤ U64_MAX then .ok (r + MINA_PRECISION * n)
      else if checks then .error .overflowPanic else .ok ((r + MINA_PRECISION * n) % 2 ^ 64)) : Except AmountErr Nat) = .ok a ↔
      (if n * 10 ^ 9 + r < 2 ^ 64 then a = n * 10 ^ 9 + r else checks = false ∧ a = (n * 10 ^ 9 + r) % 2 ^ 64) := by
    intro n r
    have e : r + MINA_PRECISION * n = n * 10 ^ 9 + r := by unfold MINA_PRECISION; omega
    rw [e]
    have e2 : n * 10 ^ 9 + r ≤ U64_MAX ↔ n * 10 ^ 9 + r < 2 ^ 64 := by unfold U64_MAX; omega
    by_cases hlt : n * 10 ^ 9 + r < 2 ^ 64
    · rw [if_pos (e2.mpr hlt), if_pos hlt]
      simp [eq_comm]
    · rw [if_neg (fun h => hlt (e2.mp h)), if_neg hlt]
      cases checks <;> simp [eq_comm]
  constructor
  · intro h
    obtain ⟨q, n, h1, h2⟩ := fromStr_inv h
    rcases h2 with ⟨rfl, hd⟩ | ⟨f, r, rfl, hd, hd', hf⟩
    · refine ⟨s, n, 0, (num _ _).mp h1, .inl ⟨rfl, rfl⟩, ?_⟩
      rw [← sum, ← h]
      unfold Amount.fromStr
      rw [split_of_notMem hd]
      simp only [parseParts, h1, zero, bind, Except.bind]
    · refine ⟨q, n, r, (num _ _).mp h1, .inr ⟨f, rfl, (num _ _).mp hf⟩, ?_⟩
      rw [← sum, ← h]
      unfold Amount.fromStr
      rw [split_append hd, split_of_notMem hd']
      simp only [parseParts, h1, hf, bind, Except.bind, List.isEmpty_nil, Bool.not_true]
  · rintro ⟨q, n, r, h1, h2, h3⟩
    rw [← sum] at h3
    rw [← h3]
    unfold Amount.fromStr
    rcases h2 with ⟨rfl, rfl⟩ | ⟨f, rfl, hf⟩
    · rw [split_of_notMem (nodot _ _ h1)]
      simp only [parseParts, (num _ _).mpr h1, zero, bind, Except.bind]
    · have hd' : '.' ∉ f := fun hm => nodot _ _ hf (List.mem_append_left _ hm)
      have hf' : parseUnsigned U64_MAX (padRight9 f) = .ok r := (num _ _).mpr hf
      rw [split_append (nodot _ _ h1), split_of_notMem hd']
      simp only [parseParts, (num _ _).mpr h1, hf', bind, Except.bind, List.isEmpty_nil, Bool.not_true]

/-- A text with two plus signs that is accepted. -/
example : Number64 "+1".toList 1 ∧ Number64 ("+5".toList ++ List.replicate (9 - "+5".toList.length) '0') 50000000 ∧
    Amount.fromStr true "+1.+5".toList = .ok 1050000000 :=
  ⟨⟨by decide, "1".toList, .inr rfl, by decide, by decide, by decide⟩,
   ⟨by decide, "50000000".toList, .inr rfl, by decide, by decide, by decide⟩, by decide⟩

/-- C48 fails for more than nine fractional digits: 0.1234567891 is read as 1.234567891, and
0.10000000000 as 10. -/
theorem C48_long_fraction_fails (checks : Bool) :
    Amount.fromStr checks "0.1234567891".toList = .ok 1234567891 ∧
    Amount.display 1234567891 = "1.234567891".toList ∧
    Amount.fromStr checks "0.10000000000".toList = .ok 10000000000 := by
  refine ⟨by cases checks <;> decide, ?_, by cases checks <;> decide⟩
  simp +decide [Amount.display, decimal, padLeft9, digit, MINA_PRECISION]

/-- C48 fails for every fraction that is longer than nine digits and not all zeros, as far as it is
accepted at all: the value read is never the value written. -/
theorem C48_long_fraction_always_wrong_fails (s int frac : Text) (a : Nat) (h : Decimal s int frac) (hl : 9 < frac.length)
    (hv : 0 < value frac) (hok : Amount.fromStr true s = .ok a) : ¬ Denotes int frac a := by
  cases h with
  | whole => simp at hl
  | point _ _ hne hd hne' hd' =>
    unfold Amount.fromStr at hok
    rw [split_append (notMem_of_digits hd), split_of_notMem (notMem_of_digits hd')] at hok
    have hp : padRight9 frac = frac := by
      unfold padRight9
      rw [Nat.sub_eq_zero_of_le (by omega), List.replicate_zero, List.append_nil]
    simp only [parseParts, parse_int hne hd, bind, Except.bind, hp, parse_int hne' hd'] at hok
    split at hok
    · cases hok
    · cases hok
    · rename_i q r he
      split at he
      · cases he
      · rename_i v hv1
        split at he
        · cases he
        · rename_i v' hv2
          split at hv1
          · split at hv2
            · have e1 := Except.ok.inj hv1
              have e2 := Except.ok.inj hv2
              subst e1 e2
              have e3 := Except.ok.inj he
              simp only [Prod.mk.injEq] at e3
              obtain ⟨rfl, rfl, -⟩ := e3
              split at hok
              · have := Except.ok.inj hok
                subst this
                unfold Denotes
                intro hden
                have hlt := value_lt hd'
                have h1 : (value frac + MINA_PRECISION * value int) * 10 ^ frac.length =
                    value frac * 10 ^ frac.length + value int * 10 ^ frac.length * 10 ^ 9 := by
                  unfold MINA_PRECISION
                  have : (10:Nat) ^ 9 = 1000000000 := by decide
                  rw [this, Nat.add_mul, Nat.mul_assoc 1000000000, Nat.mul_comm 1000000000]
                rw [h1, Nat.add_mul] at hden
                have h2 : value frac * 10 ^ frac.length = value frac * 10 ^ 9 := by omega
                have h3 := Nat.eq_of_mul_eq_mul_left hv h2
                have := Nat.pow_lt_pow_right (a := 10) (by decide) hl
                omega
              · simp at hok
            · cases hv2
          · cases hv1

/-- C48 fails for a plus sign in the fraction: 1.+5 is read as 1.05. -/
theorem C48_plus_in_fraction_fails (checks : Bool) : Amount.fromStr checks "1.+5".toList = .ok 1050000000 := by
  cases checks <;> decide

/-- C48 fails for a missing fraction, which is accepted. -/
theorem C48_empty_fraction_fails (checks : Bool) : Amount.fromStr checks "7.".toList = .ok 7000000000 := by
  cases checks <;> decide

/-- C48 fails for amounts of 2^64 units and more: the parser panics, or, in a release build, returns
a small amount. -/
theorem C48_overflow_fails :
    Amount.fromStr true "18446744073.709551616".toList = .error .overflowPanic ∧
    Amount.fromStr false "18446744073.709551616".toList = .ok 0 ∧
    Amount.fromStr false "18446744074".toList = .ok 290448384 := by
  refine ⟨by decide, by decide, by decide⟩

example : Decimal "12.5".toList "12".toList "5".toList ∧ Denotes "12".toList "5".toList 12500000000 ∧
    Amount.fromStr true "12.5".toList = .ok 12500000000 :=
  ⟨.point "12".toList "5".toList (by decide) (by decide) (by decide) (by decide), by unfold Denotes; decide, by decide⟩

example : ∃ s int frac a, Decimal s int frac ∧ 9 < frac.length ∧ 0 < value frac ∧ Amount.fromStr true s = .ok a :=
  ⟨_, "0".toList, "1234567891".toList, 1234567891, .point _ _ (by decide) (by decide) (by decide) (by decide), by decide, by decide, by decide⟩

/-! ## C49 -/

/-- What the decimal JSON form looks like: the whole part, and a point with the fractional digits up
to the last one that is not zero, if there is one. -/
theorem decimalJson_form (a : Nat) :
    (a % MINA_PRECISION = 0 ∧ DecimalJson.serialize a = decimal (a / MINA_PRECISION)) ∨
    ∃ frac n, DecimalJson.serialize a = decimal (a / MINA_PRECISION) ++ '.' :: frac ∧
      padLeft9 (decimal (a % MINA_PRECISION)) = frac ++ List.replicate n '0' ∧ frac ≠ [] ∧ frac.getLast? ≠ some '0' := by
  unfold DecimalJson.serialize
  have hd := digits_padLeft9 (decimal_digits (a % MINA_PRECISION))
  have hv := value_padLeft9 (decimal (a % MINA_PRECISION))
  rw [value_decimal] at hv
  generalize padLeft9 (decimal (a % MINA_PRECISION)) = f at hd hv
  obtain ⟨n, h1, h2⟩ := trimEnd_split '0' f
  generalize trimEnd '0' f = g at h1 h2
  have hg : ∀ c ∈ g, IsDigit c := fun c hc => hd c (h1 ▸ List.mem_append_left _ hc)
  have e : decimal (a / MINA_PRECISION) ++ '.' :: f = (decimal (a / MINA_PRECISION) ++ '.' :: g) ++ List.replicate n '0' := by
    rw [h1, List.append_assoc, List.cons_append]
  rw [e]
  cases g with
  | nil =>
    left
    constructor
    · rw [← hv, h1, List.nil_append, value_replicate_zero]
    · rw [trimEnd_append_replicate '0' _ n (by simp)]
      exact trimEnd_append_replicate '.' _ 1 (fun h => notMem_of_digits (decimal_digits _) (List.mem_of_getLast? h))
  | cons c g =>
    right
    refine ⟨c :: g, n, ?_, h1, by simp, h2⟩
    have e2 : (decimal (a / MINA_PRECISION) ++ '.' :: c :: g).getLast? = (c :: g).getLast? := by
      simp [List.getLast?_append, List.getLast?_cons]
    rw [trimEnd_append_replicate '0' _ n (by rw [e2]; exact h2)]
    have := trimEnd_append_replicate '.' (decimal (a / MINA_PRECISION) ++ '.' :: c :: g) 0
      (by rw [e2]; exact fun h => notMem_of_digits hg (List.mem_of_getLast? h))
    simpa using this

/-- C49: every amount written in the decimal JSON form parses back to the same amount. -/
theorem C49_roundtrip (checks : Bool) (a : Nat) (ha : a ≤ U64_MAX) :
    DecimalJson.deserialize checks (DecimalJson.serialize a) = .ok a := by
  unfold DecimalJson.deserialize
  have hq : a / MINA_PRECISION ≤ U64_MAX := Nat.le_trans (Nat.div_le_self _ _) ha
  have hdm : a = a % MINA_PRECISION + MINA_PRECISION * (a / MINA_PRECISION) := (Nat.mod_add_div a MINA_PRECISION).symm
  rcases decimalJson_form a with ⟨h1, h2⟩ | ⟨frac, n, h1, h2, h3, -⟩
  · rw [h2, fromStr_decimal checks (.whole _ (decimal_ne_nil _) (decimal_digits _)) (by simp), value_decimal, value_nil,
      if_pos hq, Nat.zero_mul]
    rw [h1] at hdm
    rw [← hdm, if_pos ha]
  · have hd := digits_padLeft9 (decimal_digits (a % MINA_PRECISION))
    have hl := length_frac a
    have hv := value_padLeft9 (decimal (a % MINA_PRECISION))
    rw [value_decimal] at hv
    rw [h2] at hd hl hv
    rw [List.length_append, List.length_replicate] at hl
    rw [value_append, value_replicate_zero, List.length_replicate] at hv
    have hn : n = 9 - frac.length := by omega
    rw [h1, fromStr_decimal checks (.point _ _ (decimal_ne_nil _) (decimal_digits _) h3
      (fun c hc => hd c (List.mem_append_left _ hc))) (by omega), value_decimal, if_pos hq, ← hn]
    rw [Nat.add_zero] at hv
    rw [hv, ← hdm, if_pos ha]

/-- C49: the form is the exact value, in plain notation, with no trailing zero after the point and no
trailing point. -/
theorem C49_form (a : Nat) :
    ∃ int frac, Decimal (DecimalJson.serialize a) int frac ∧ IsDecimalOf int (a / 10 ^ 9) ∧ frac.length ≤ 9 ∧
      frac.getLast? ≠ some '0' ∧ Denotes int frac a := by
  have hdm : a = a % MINA_PRECISION + MINA_PRECISION * (a / MINA_PRECISION) := (Nat.mod_add_div a MINA_PRECISION).symm
  rcases decimalJson_form a with ⟨h1, h2⟩ | ⟨frac, n, h1, h2, h3, h4⟩
  · refine ⟨decimal (a / MINA_PRECISION), [], ?_, isDecimalOf_decimal _, by simp, by simp, ?_⟩
    · rw [h2]; exact .whole _ (decimal_ne_nil _) (decimal_digits _)
    · have := denotes_of_eq (int := decimal (a / MINA_PRECISION)) (frac := []) (by simp)
      rw [value_decimal, value_nil, Nat.zero_mul] at this
      rw [h1] at hdm
      rw [← hdm] at this
      exact this
  · have hd := digits_padLeft9 (decimal_digits (a % MINA_PRECISION))
    have hl := length_frac a
    have hv := value_padLeft9 (decimal (a % MINA_PRECISION))
    rw [value_decimal] at hv
    rw [h2] at hd hl hv
    rw [List.length_append, List.length_replicate] at hl
    rw [value_append, value_replicate_zero, List.length_replicate] at hv
    have hn : n = 9 - frac.length := by omega
    refine ⟨_, frac, h1 ▸ .point _ _ (decimal_ne_nil _) (decimal_digits _) h3 (fun c hc => hd c (List.mem_append_left _ hc)),
      isDecimalOf_decimal _, by omega, h4, ?_⟩
    have := denotes_of_eq (int := decimal (a / MINA_PRECISION)) (frac := frac) (by omega)
    rw [Nat.add_zero] at hv
    rw [value_decimal, ← hn, hv, ← hdm] at this
    exact this

example : DecimalJson.serialize 20500000000 = "20.5".toList ∧ DecimalJson.serialize 30000000000 = "30".toList ∧
    DecimalJson.serialize 0 = "0".toList := by
  refine ⟨?_, ?_, ?_⟩ <;> simp +decide [DecimalJson.serialize, decimal, padLeft9, digit, MINA_PRECISION, trimEnd]

/-! ## C64 -/

/-- C64: the JSON string of a 32- or 64-bit number is its usual decimal notation, and reads back to the
same number. -/
theorem C64_roundtrip (max n : Nat) (h : n ≤ max) :
    IsDecimalOf (UIntJson.serialize n) n ∧ UIntJson.deserialize max (UIntJson.serialize n) = .ok n :=
  ⟨isDecimalOf_decimal n, parseUnsigned_decimal h⟩

/-- C64: a text is read as `n` exactly when it is a non-empty sequence of digits, perhaps after one plus
sign, with value `n`, and `n` is in range; everything else is an error. -/
theorem C64_accepted_iff (max n : Nat) (s : Text) :
    UIntJson.deserialize max s = .ok n ↔
      n ≤ max ∧ ∃ ds, (s = ds ∨ s = '+' :: ds) ∧ ds ≠ [] ∧ (∀ c ∈ ds, IsDigit c) ∧ value ds = n := by
  unfold UIntJson.deserialize
  constructor
  · intro h
    obtain ⟨ds, h1, h2, h3, h4, h5⟩ := parseUnsigned_inv h
    exact ⟨h5, ds, h1, h2, h3, h4.symm⟩
  · rintro ⟨hn, ds, h1, h2, h3, rfl⟩
    have hp : parseDigits max 0 ds = .ok (value ds) := by
      rw [parseDigits_ok h3 (by simpa using hn)]; simp
    rcases h1 with rfl | rfl
    · rw [parseUnsigned_digits h2 h3, hp]
    · obtain ⟨d, ds', rfl⟩ := List.exists_cons_of_ne_nil h2
      exact hp

example : UIntJson.deserialize U32_MAX "4294967295".toList = .ok 4294967295 ∧
    UIntJson.deserialize U32_MAX "4294967296".toList = .error .posOverflow ∧
    UIntJson.deserialize U32_MAX "-1".toList = .error .invalidDigit ∧
    UIntJson.deserialize U32_MAX "".toList = .error .empty := by decide

end MinaRs.Base
