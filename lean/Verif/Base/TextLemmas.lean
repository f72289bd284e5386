import Verif.Base.TextSpec

namespace MinaRs.Text

open Spec

theorem digit_toNat {d : Nat} (h : d < 10) : (digit d).toNat = 48 + d := by
  have : ∀ d : Fin 10, (digit d.1).toNat = 48 + d.1 := by decide
  exact this ⟨d, h⟩

theorem digit_isDigit {d : Nat} (h : d < 10) : IsDigit (digit d) := by
  have : ∀ d : Fin 10, IsDigit (digit d.1) := by decide
  exact this ⟨d, h⟩

theorem isDigit_iff (c : Char) : IsDigit c ↔ 48 ≤ c.toNat ∧ c.toNat ≤ 57 := by
  show ('0' ≤ c ∧ c ≤ '9') ↔ _
  rw [Char.le_def, Char.le_def, UInt32.le_iff_toNat_le, UInt32.le_iff_toNat_le]
  rfl

theorem toDigit_some {c : Char} (h : IsDigit c) : toDigit c = some (c.toNat - 48) := by
  unfold toDigit; rw [if_pos ((isDigit_iff c).mp h)]

theorem toDigit_none {c : Char} (h : ¬ IsDigit c) : toDigit c = none := by
  unfold toDigit; rw [if_neg (fun h' => h ((isDigit_iff c).mpr h'))]

theorem toDigit_eq_none_iff {c : Char} : toDigit c = none ↔ ¬ IsDigit c := by
  by_cases h : IsDigit c
  · rw [toDigit_some h]; simp [h]
  · rw [toDigit_none h]; simp [h]

theorem value_nil : value [] = 0 := rfl

theorem foldl_value (s : Text) (a : Nat) :
    s.foldl (fun acc c => 10 * acc + (c.toNat - '0'.toNat)) a = a * 10 ^ s.length + value s := by
  induction s generalizing a with
  | nil => simp [value]
  | cons c s ih =>
    unfold value
    rw [List.foldl_cons, List.foldl_cons, ih, ih (10 * 0 + _), List.length_cons, Nat.pow_succ, Nat.add_mul, Nat.add_mul]
    have : 10 * a * 10 ^ s.length = a * (10 ^ s.length * 10) := by
      rw [Nat.mul_comm 10 a, Nat.mul_assoc, Nat.mul_comm 10]
    omega

theorem value_cons (c : Char) (s : Text) : value (c :: s) = (c.toNat - 48) * 10 ^ s.length + value s := by
  unfold value
  rw [List.foldl_cons, foldl_value]
  have : '0'.toNat = 48 := rfl
  rw [this, Nat.mul_zero, Nat.zero_add]
  rfl

theorem value_append (s t : Text) : value (s ++ t) = value s * 10 ^ t.length + value t := by
  unfold value
  rw [List.foldl_append, foldl_value]
  rfl

theorem value_replicate_zero (n : Nat) : value (List.replicate n '0') = 0 := by
  induction n with
  | zero => rfl
  | succ n ih => rw [List.replicate_succ, value_cons, ih]; simp

theorem value_lt {s : Text} (h : ∀ c ∈ s, IsDigit c) : value s < 10 ^ s.length := by
  induction s with
  | nil => decide
  | cons c s ih =>
    rw [value_cons, List.length_cons, Nat.pow_succ]
    have h1 := ih (fun x hx => h x (List.mem_cons_of_mem _ hx))
    have h2 := (isDigit_iff c).mp (h c List.mem_cons_self)
    have : (c.toNat - 48) * 10 ^ s.length ≤ 9 * 10 ^ s.length := Nat.mul_le_mul_right _ (by omega)
    omega

theorem decimal_lt {n : Nat} (h : n < 10) : decimal n = [digit n] := by
  rw [decimal, dif_pos h]

theorem decimal_ge {n : Nat} (h : ¬ n < 10) : decimal n = decimal (n / 10) ++ [digit (n % 10)] := by
  rw [decimal, dif_neg h]

theorem decimal_digits (n : Nat) : ∀ c ∈ decimal n, IsDigit c := by
  induction n using Nat.strongRecOn with
  | ind n ih =>
    by_cases h : n < 10
    · rw [decimal_lt h]; intro c hc; rw [List.mem_singleton.mp hc]; exact digit_isDigit h
    · rw [decimal_ge h]; intro c hc
      rcases List.mem_append.mp hc with hc | hc
      · exact ih _ (by omega) c hc
      · rw [List.mem_singleton.mp hc]; exact digit_isDigit (by omega)

theorem value_decimal (n : Nat) : value (decimal n) = n := by
  induction n using Nat.strongRecOn with
  | ind n ih =>
    by_cases h : n < 10
    · rw [decimal_lt h, value_cons, digit_toNat h]; simp [value]
    · rw [decimal_ge h, value_append, ih _ (by omega), value_cons, digit_toNat (by omega)]
      simp [value]; omega

theorem decimal_ne_nil (n : Nat) : decimal n ≠ [] := by
  by_cases h : n < 10
  · rw [decimal_lt h]; simp
  · rw [decimal_ge h]; simp

theorem decimal_head (n : Nat) (h : (decimal n).head? = some '0') : decimal n = ['0'] := by
  induction n using Nat.strongRecOn with
  | ind n ih =>
    by_cases hn : n < 10
    · rw [decimal_lt hn] at h ⊢; simp at h; rw [h]
    · rw [decimal_ge hn] at h
      have : (decimal (n / 10)).head? = some '0' := by
        cases hd : decimal (n / 10) with
        | nil => exact absurd hd (decimal_ne_nil _)
        | cons c cs => rw [hd] at h; exact h
      have h0 := ih _ (by omega) this
      have := value_decimal (n / 10)
      rw [h0] at this
      simp [value] at this
      omega

theorem isDecimalOf_decimal (n : Nat) : IsDecimalOf (decimal n) n :=
  ⟨decimal_ne_nil n, decimal_digits n, value_decimal n, decimal_head n⟩

theorem decimal_length_le {n k : Nat} (hk : 0 < k) (h : n < 10 ^ k) : (decimal n).length ≤ k := by
  induction k generalizing n with
  | zero => omega
  | succ k ih =>
    by_cases hn : n < 10
    · rw [decimal_lt hn]; simp
    · rw [decimal_ge hn, List.length_append, List.length_singleton]
      have : 0 < k := by
        rcases Nat.eq_zero_or_pos k with rfl | h'
        · simp at h; omega
        · exact h'
      have := ih (n := n / 10) this (by rw [Nat.pow_succ] at h; omega)
      omega

theorem parseDigits_ok {max acc : Nat} {s : Text} (h : ∀ c ∈ s, IsDigit c) (hm : acc * 10 ^ s.length + value s ≤ max) :
    parseDigits max acc s = .ok (acc * 10 ^ s.length + value s) := by
  induction s generalizing acc with
  | nil => simp [parseDigits, value]
  | cons c s ih =>
    have hd := h c List.mem_cons_self
    unfold parseDigits
    rw [toDigit_some hd]
    rw [value_cons, List.length_cons, Nat.pow_succ] at hm ⊢
    have e : acc * (10 ^ s.length * 10) + ((c.toNat - 48) * 10 ^ s.length + value s) =
        (acc * 10 + (c.toNat - 48)) * 10 ^ s.length + value s := by
      rw [Nat.add_mul, Nat.mul_assoc acc, Nat.mul_comm 10]; omega
    rw [e] at hm ⊢
    have hpos : 1 ≤ 10 ^ s.length := Nat.one_le_pow _ _ (by decide)
    have : acc * 10 + (c.toNat - 48) ≤ (acc * 10 + (c.toNat - 48)) * 10 ^ s.length := Nat.le_mul_of_pos_right _ hpos
    simp only
    rw [if_neg (by omega), if_neg (by omega)]
    exact ih (fun x hx => h x (List.mem_cons_of_mem _ hx)) hm

theorem parseDigits_inv {max acc v : Nat} {s : Text} (h : parseDigits max acc s = .ok v) :
    (∀ c ∈ s, IsDigit c) ∧ v = acc * 10 ^ s.length + value s ∧ (s ≠ [] → v ≤ max) := by
  induction s generalizing acc with
  | nil => simp [parseDigits] at h; simp [value, h]
  | cons c s ih =>
    unfold parseDigits at h
    split at h
    · cases h
    · rename_i d hd
      have hc : IsDigit c := by
        apply Decidable.byContradiction; intro hc; rw [toDigit_none hc] at hd; cases hd
      rw [toDigit_some hc] at hd; cases hd
      split at h
      · cases h
      · split at h
        · cases h
        · obtain ⟨h1, h2, h3⟩ := ih h
          refine ⟨fun x hx => ?_, ?_, fun _ => ?_⟩
          · rcases List.mem_cons.mp hx with rfl | hx
            · exact hc
            · exact h1 x hx
          · rw [h2, value_cons, List.length_cons, Nat.pow_succ, Nat.add_mul, Nat.mul_assoc acc, Nat.mul_comm 10]; omega
          · cases s with
            | nil => simp [value] at h2; omega
            | cons x xs => exact h3 (by simp)

/-- Digits too large for the type overflow. -/
theorem parseDigits_overflow {max acc : Nat} {s : Text} (h : ∀ c ∈ s, IsDigit c) (hs : s ≠ [])
    (hm : max < acc * 10 ^ s.length + value s) : parseDigits max acc s = .error .posOverflow := by
  cases hp : parseDigits max acc s with
  | ok v =>
    obtain ⟨_, h2, h3⟩ := parseDigits_inv hp
    have := h3 hs; omega
  | error e =>
    congr 1
    clear hm hs
    induction s generalizing acc with
    | nil => simp [parseDigits] at hp
    | cons c s ih =>
      unfold parseDigits at hp
      rw [toDigit_some (h c List.mem_cons_self)] at hp
      simp only at hp
      split at hp
      · cases hp; rfl
      · split at hp
        · cases hp; rfl
        · exact ih (fun x hx => h x (List.mem_cons_of_mem _ hx)) hp

theorem plus_not_digit : ¬ IsDigit '+' := by decide
theorem minus_not_digit : ¬ IsDigit '-' := by decide
theorem dot_not_digit : ¬ IsDigit '.' := by decide

theorem parseUnsigned_digits {max : Nat} {s : Text} (hs : s ≠ []) (h : ∀ c ∈ s, IsDigit c) :
    parseUnsigned max s = parseDigits max 0 s := by
  unfold parseUnsigned
  split
  · exact absurd rfl hs
  · rename_i c
    rw [if_neg]
    rintro (rfl | rfl)
    · exact plus_not_digit (h _ List.mem_cons_self)
    · exact minus_not_digit (h _ List.mem_cons_self)
  · exact absurd (h '+' List.mem_cons_self) plus_not_digit
  · rfl

/-- A number prints and parses back. -/
theorem parseUnsigned_decimal {max n : Nat} (h : n ≤ max) : parseUnsigned max (decimal n) = .ok n := by
  rw [parseUnsigned_digits (decimal_ne_nil n) (decimal_digits n), parseDigits_ok (decimal_digits n)]
  · rw [value_decimal]; simp
  · rw [value_decimal]; simpa using h

/-- What unsigned parsing accepts: digits, perhaps after one plus sign. -/
theorem parseUnsigned_inv {max v : Nat} {s : Text} (h : parseUnsigned max s = .ok v) :
    ∃ ds, (s = ds ∨ s = '+' :: ds) ∧ ds ≠ [] ∧ (∀ c ∈ ds, IsDigit c) ∧ v = value ds ∧ v ≤ max := by
  unfold parseUnsigned at h
  split at h
  · cases h
  · rename_i c
    split at h
    · cases h
    · obtain ⟨h1, h2, h3⟩ := parseDigits_inv h
      exact ⟨[c], .inl rfl, by simp, h1, by simpa using h2, h3 (by simp)⟩
  · rename_i cs hne
    obtain ⟨h1, h2, h3⟩ := parseDigits_inv h
    have : cs ≠ [] := by rintro rfl; exact hne rfl
    exact ⟨cs, .inr rfl, this, h1, by simpa using h2, h3 this⟩
  · rename_i h0 _ _
    obtain ⟨h1, h2, h3⟩ := parseDigits_inv h
    exact ⟨s, .inl rfl, h0, h1, by simpa using h2, h3 h0⟩

theorem split_ne_nil (sep : Char) (s : Text) : split sep s ≠ [] := by
  cases s with
  | nil => simp [split]
  | cons c s =>
    unfold split; split
    · simp
    · split <;> simp

/-- No separator: one piece. -/
theorem split_of_notMem {sep : Char} {s : Text} (h : sep ∉ s) : split sep s = [s] := by
  induction s with
  | nil => rfl
  | cons c s ih =>
    unfold split
    rw [if_neg (show ¬ c = sep from fun e => h (by rw [e]; exact List.mem_cons_self)), ih (fun e => h (List.mem_cons_of_mem _ e))]

theorem split_append {sep : Char} {a b : Text} (h : sep ∉ a) : split sep (a ++ sep :: b) = a :: split sep b := by
  induction a with
  | nil => rw [List.nil_append, split, if_pos rfl]
  | cons c a ih =>
    rw [List.cons_append, split, if_neg (show ¬ c = sep from fun e => h (by rw [e]; exact List.mem_cons_self)), ih (fun e => h (List.mem_cons_of_mem _ e))]

/-- The pieces, joined with the separator, are the text, and contain no separator. -/
theorem split_spec (sep : Char) (s : Text) :
    s = [sep].intercalate (split sep s) ∧ ∀ p ∈ split sep s, sep ∉ p := by
  induction s with
  | nil => simp [split, List.intercalate]
  | cons c s ih =>
    obtain ⟨h1, h2⟩ := ih
    unfold split
    split
    · rename_i e; subst e
      refine ⟨?_, ?_⟩
      · cases hs : split c s with
        | nil => exact absurd hs (split_ne_nil _ _)
        | cons p ps => rw [hs] at h1; simp only [List.intercalate_cons_cons]; rw [← h1]; rfl
      · intro p hp
        rcases List.mem_cons.mp hp with rfl | hp
        · simp
        · exact h2 p hp
    · rename_i hne
      cases hs : split sep s with
      | nil => exact absurd hs (split_ne_nil _ _)
      | cons p ps =>
        rw [hs] at h1 h2
        refine ⟨?_, ?_⟩
        · simp only
          cases ps with
          | nil => simp [List.intercalate] at h1 ⊢; exact h1
          | cons q qs => rw [List.intercalate_cons_cons] at h1 ⊢; rw [List.cons_append, List.cons_append, ← h1]
        · intro q hq
          rcases List.mem_cons.mp hq with rfl | hq
          · intro hm
            rcases List.mem_cons.mp hm with h | h
            · exact hne h.symm
            · exact h2 p List.mem_cons_self h
          · exact h2 q (List.mem_cons_of_mem _ hq)

theorem trimEnd_append_replicate (c : Char) (s : Text) (n : Nat) (h : s.getLast? ≠ some c) :
    trimEnd c (s ++ List.replicate n c) = s := by
  unfold trimEnd
  rw [List.reverse_append, List.reverse_replicate]
  have : ∀ n, (List.replicate n c ++ s.reverse).dropWhile (· == c) = s.reverse := by
    intro n
    induction n with
    | zero =>
      rw [List.replicate_zero, List.nil_append]
      cases hs : s.reverse with
      | nil => rfl
      | cons x xs =>
        rw [List.dropWhile_cons, if_neg]
        intro hx
        have hx : x = c := by simpa using hx
        apply h
        rw [List.getLast?_eq_head?_reverse, hs, hx]; rfl
    | succ n ih => rw [List.replicate_succ, List.cons_append, List.dropWhile_cons, if_pos (by simp), ih]
  rw [this, List.reverse_reverse]

/-- Every text is a trimmed text followed by copies of the character. -/
theorem trimEnd_split (c : Char) (s : Text) : ∃ n, s = trimEnd c s ++ List.replicate n c ∧ (trimEnd c s).getLast? ≠ some c := by
  unfold trimEnd
  have key : ∀ l : Text, ∃ n, l = List.replicate n c ++ l.dropWhile (· == c) ∧ (l.dropWhile (· == c)).head? ≠ some c := by
    intro l
    induction l with
    | nil => exact ⟨0, rfl, by simp⟩
    | cons x xs ih =>
      by_cases hx : x = c
      · subst hx
        obtain ⟨n, h1, h2⟩ := ih
        refine ⟨n + 1, ?_, ?_⟩
        · rw [List.dropWhile_cons, if_pos (by simp), List.replicate_succ, List.cons_append, ← h1]
        · rw [List.dropWhile_cons, if_pos (by simp)]; exact h2
      · refine ⟨0, ?_, ?_⟩
        · rw [List.dropWhile_cons, if_neg (by simpa using hx)]; rfl
        · rw [List.dropWhile_cons, if_neg (by simpa using hx)]; simpa using hx
  obtain ⟨n, h1, h2⟩ := key s.reverse
  refine ⟨n, ?_, ?_⟩
  · have := congrArg List.reverse h1
    rw [List.reverse_reverse, List.reverse_append, List.reverse_replicate] at this
    exact this
  · rw [List.getLast?_reverse]; exact h2

end MinaRs.Text
