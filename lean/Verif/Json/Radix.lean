/-!
# Numbers in a radix

Big-endian digits of natural numbers and the change of radix that keeps leading zeros.  This is the
arithmetic that the `bs58` crate performs; the code under study calls it through
`protocol/serialization-types/src/common.rs:255-330`, `crypto/src/hash/types.rs` and
`secrets/src/secret_box/utils.rs`.
-/

namespace MinaRs.Codec

/-- The number with the given big-endian digits (`bs58`, used at
`protocol/serialization-types/src/common.rs:257, 280`). -/
def value (b : Nat) (ds : List Nat) : Nat := ds.foldl (fun a d => a * b + d) 0

/-- The big-endian digits of a number, without leading zeros (none for zero) (`bs58`, used at
`protocol/serialization-types/src/common.rs:257, 280`). -/
def digits (b n : Nat) : List Nat :=
  if h : n = 0 ∨ b < 2 then [] else digits b (n / b) ++ [n % b]
termination_by n
decreasing_by
  have h0 : 0 < n := by omega
  exact Nat.div_lt_self h0 (by omega)

/-- The number of leading zeros (`bs58`, used at `protocol/serialization-types/src/common.rs:257, 280`). -/
def leadingZeros (ds : List Nat) : Nat := (ds.takeWhile (· == 0)).length

/-- Change of radix; every leading zero digit becomes one leading zero digit (`bs58`, used at
`protocol/serialization-types/src/common.rs:257, 280`). -/
def convert (b b' : Nat) (ds : List Nat) : List Nat :=
  List.replicate (leadingZeros ds) 0 ++ digits b' (value b ds)

/-! ## Lemmas -/

theorem foldl_value (b : Nat) (ds : List Nat) (a : Nat) :
    ds.foldl (fun a d => a * b + d) a = a * b ^ ds.length + value b ds := by
  unfold value
  induction ds generalizing a with
  | nil => simp
  | cons d ds ih =>
    simp only [List.foldl_cons, List.length_cons]
    rw [ih, ih (0 * b + d), Nat.pow_succ, Nat.add_mul, Nat.add_mul]
    simp only [Nat.zero_mul, Nat.zero_add]
    rw [Nat.mul_assoc, Nat.mul_comm (b ^ ds.length) b, Nat.add_assoc]

theorem value_cons (b d : Nat) (ds : List Nat) : value b (d :: ds) = d * b ^ ds.length + value b ds := by
  have := foldl_value b ds (0 * b + d)
  simp only [Nat.zero_mul, Nat.zero_add] at this
  rw [← this]
  simp [value]

theorem value_append (b : Nat) (xs ys : List Nat) : value b (xs ++ ys) = value b xs * b ^ ys.length + value b ys := by
  rw [show value b (xs ++ ys) = ys.foldl (fun a d => a * b + d) (value b xs) by simp [value, List.foldl_append],
    foldl_value]

theorem value_replicate_zero (b n : Nat) : value b (List.replicate n 0) = 0 := by
  induction n with
  | zero => rfl
  | succ n ih => rw [List.replicate_succ, value_cons, ih]; simp

theorem value_lt {b : Nat} {ds : List Nat} (h : ∀ d ∈ ds, d < b) : value b ds < b ^ ds.length := by
  induction ds with
  | nil => simp [value]
  | cons d ds ih =>
    rw [value_cons, List.length_cons, Nat.pow_succ]
    have h1 : d < b := h d (by simp)
    have h2 := ih (fun x hx => h x (by simp [hx]))
    calc d * b ^ ds.length + value b ds < d * b ^ ds.length + b ^ ds.length := by omega
      _ = (d + 1) * b ^ ds.length := by rw [Nat.add_mul]; simp
      _ ≤ b * b ^ ds.length := Nat.mul_le_mul_right _ h1
      _ = b ^ ds.length * b := Nat.mul_comm _ _

theorem digits_zero (b : Nat) : digits b 0 = [] := by rw [digits]; simp

theorem digits_step {b n : Nat} (hb : 2 ≤ b) (hn : n ≠ 0) : digits b n = digits b (n / b) ++ [n % b] := by
  rw [digits, dif_neg (by omega)]

theorem digits_lt {b : Nat} (hb : 2 ≤ b) (n : Nat) : ∀ d ∈ digits b n, d < b := by
  induction n using Nat.strongRecOn with
  | ind n ih =>
    by_cases hn : n = 0
    · subst hn; simp [digits_zero]
    · rw [digits_step hb hn]
      intro d hd
      rcases List.mem_append.mp hd with hd | hd
      · exact ih _ (Nat.div_lt_self (by omega) (by omega)) d hd
      · rw [List.mem_singleton.mp hd]; exact Nat.mod_lt _ (by omega)

theorem value_digits {b : Nat} (hb : 2 ≤ b) (n : Nat) : value b (digits b n) = n := by
  induction n using Nat.strongRecOn with
  | ind n ih =>
    by_cases hn : n = 0
    · subst hn; simp [digits_zero, value]
    · rw [digits_step hb hn, value_append, ih _ (Nat.div_lt_self (by omega) (by omega))]
      simp only [List.length_singleton, Nat.pow_one, value, List.foldl_cons, List.foldl_nil, Nat.zero_mul, Nat.zero_add]
      rw [Nat.mul_comm]; exact Nat.div_add_mod n b

theorem digits_head {b : Nat} (hb : 2 ≤ b) (n : Nat) : (digits b n).head? ≠ some 0 := by
  induction n using Nat.strongRecOn with
  | ind n ih =>
    by_cases hn : n = 0
    · subst hn; simp [digits_zero]
    · rw [digits_step hb hn]
      by_cases hq : n / b = 0
      · rw [hq, digits_zero]
        have : n < b := by
          rcases Nat.div_eq_zero_iff.mp hq with h | h
          · omega
          · exact h
        simp [Nat.mod_eq_of_lt this, hn]
      · have h := ih _ (Nat.div_lt_self (Nat.pos_of_ne_zero hn) hb)
        cases hd : digits b (n / b) with
        | nil =>
          exfalso
          have := value_digits hb (n / b)
          rw [hd] at this
          exact hq this.symm
        | cons x xs => rw [hd] at h; simpa using h

/-- Two digit strings of the same number without leading zeros are the same. -/
theorem digits_value {b : Nat} (hb : 2 ≤ b) (ds : List Nat) (h : ∀ d ∈ ds, d < b) (hh : ds.head? ≠ some 0) :
    digits b (value b ds) = ds := by
  have key : ∀ n (rs : List Nat), rs.length = n → (∀ d ∈ rs, d < b) → rs.getLast? ≠ some 0 →
      digits b (value b rs.reverse) = rs.reverse := by
    intro n
    induction n with
    | zero => intro rs hl _ _; rw [List.length_eq_zero_iff.mp hl]; simp [value, digits_zero]
    | succ n ih =>
      intro rs hl hd hlast
      cases rs with
      | nil => simp at hl
      | cons r rs =>
        have hr : r < b := hd r (by simp)
        rw [List.reverse_cons, value_append]
        simp only [List.length_singleton, Nat.pow_one]
        have h1 : value b [r] = r := by simp [value]
        rw [h1]
        have hdiv : (value b rs.reverse * b + r) / b = value b rs.reverse := by
          rw [Nat.add_comm, Nat.add_mul_div_right _ _ (by omega), Nat.div_eq_of_lt hr]; simp
        have hmod : (value b rs.reverse * b + r) % b = r := by
          rw [Nat.add_comm, Nat.add_mul_mod_self_right, Nat.mod_eq_of_lt hr]
        cases hrs : rs with
        | nil =>
          subst hrs
          simp only [List.getLast?_singleton] at hlast
          have hr0 : r ≠ 0 := fun h => hlast (by rw [h])
          simp only [List.reverse_nil, List.nil_append]
          rw [show value b [] = 0 from rfl, Nat.zero_mul, Nat.zero_add, digits_step hb hr0, Nat.div_eq_of_lt hr, digits_zero,
            Nat.mod_eq_of_lt hr]
          rfl
        | cons y ys =>
          have hlast' : rs.getLast? ≠ some 0 := by
            rw [hrs] at hlast ⊢
            simpa [List.getLast?_cons_cons] using hlast
          have ihr := ih rs (by simp at hl; exact hl) (fun x hx => hd x (by simp [hx])) hlast'
          have hv : value b rs.reverse ≠ 0 := by
            intro h0
            rw [h0, digits_zero] at ihr
            have : rs = [] := by
              have := congrArg List.length ihr
              simp at this; exact List.length_eq_zero_iff.mp this.symm
            rw [hrs] at this; cases this
          rw [← hrs, digits_step hb, hdiv, hmod, ihr]
          intro h0
          rcases Nat.eq_zero_of_add_eq_zero h0 with ⟨h0, -⟩
          rcases Nat.mul_eq_zero.mp h0 with h | h
          · exact hv h
          · omega
  have := key ds.length ds.reverse (by simp) (by simpa using h) (by simpa [List.getLast?_reverse] using hh)
  simpa using this

theorem split_leadingZeros (ds : List Nat) :
    ∃ r, ds = List.replicate (leadingZeros ds) 0 ++ r ∧ r.head? ≠ some 0 := by
  induction ds with
  | nil => exact ⟨[], rfl, by simp⟩
  | cons d ds ih =>
    by_cases hd : d = 0
    · subst hd
      obtain ⟨r, h1, h2⟩ := ih
      refine ⟨r, ?_, h2⟩
      have : leadingZeros (0 :: ds) = leadingZeros ds + 1 := by simp [leadingZeros, List.takeWhile_cons]
      rw [this, List.replicate_succ, List.cons_append, ← h1]
    · refine ⟨d :: ds, ?_, by simpa using hd⟩
      have : leadingZeros (d :: ds) = 0 := by simp [leadingZeros, hd]
      rw [this]; rfl

theorem leadingZeros_replicate (n : Nat) {r : List Nat} (h : r.head? ≠ some 0) :
    leadingZeros (List.replicate n 0 ++ r) = n := by
  induction n with
  | zero =>
    cases r with
    | nil => rfl
    | cons x xs =>
      have : x ≠ 0 := by simpa using h
      simp [leadingZeros, this]
  | succ n ih =>
    have : leadingZeros (List.replicate (n + 1) 0 ++ r) = leadingZeros (List.replicate n 0 ++ r) + 1 := by
      rw [List.replicate_succ, List.cons_append]; simp [leadingZeros]
    rw [this, ih]

/-- Changing the radix and changing it back gives the same digits. -/
theorem convert_convert {b b' : Nat} (hb : 2 ≤ b) (hb' : 2 ≤ b') {ds : List Nat} (h : ∀ d ∈ ds, d < b) :
    convert b' b (convert b b' ds) = ds := by
  obtain ⟨r, h1, h2⟩ := split_leadingZeros ds
  have hv : value b ds = value b r := by
    conv => lhs; rw [h1]
    rw [value_append, value_replicate_zero]; simp
  have hr : ∀ d ∈ r, d < b := fun d hd => h d (by rw [h1]; simp [hd])
  unfold convert
  rw [leadingZeros_replicate _ (digits_head hb' _), value_append, value_replicate_zero, Nat.zero_mul, Nat.zero_add,
    value_digits hb', hv, digits_value hb r hr h2]
  exact h1.symm

theorem convert_lt {b b' : Nat} (hb' : 2 ≤ b') (ds : List Nat) : ∀ d ∈ convert b b' ds, d < b' := by
  intro d hd
  rcases List.mem_append.mp hd with hd | hd
  · rw [List.eq_of_mem_replicate hd]; omega
  · exact digits_lt hb' _ d hd

theorem digits_length {b n k : Nat} (hb : 2 ≤ b) (hlo : b ^ k ≤ n) (hhi : n < b ^ (k + 1)) :
    (digits b n).length = k + 1 := by
  induction k generalizing n with
  | zero =>
    simp at hlo hhi
    rw [digits_step hb (by omega), Nat.div_eq_of_lt hhi, digits_zero]; rfl
  | succ k ih =>
    have hn : n ≠ 0 := by
      have : 0 < b ^ (k + 1) := Nat.pow_pos (by omega)
      omega
    rw [digits_step hb hn, List.length_append, ih]
    · rfl
    · rw [Nat.le_div_iff_mul_le (by omega), ← Nat.pow_succ]; exact hlo
    · rw [Nat.div_lt_iff_lt_mul (by omega), ← Nat.pow_succ]; exact hhi

end MinaRs.Codec
