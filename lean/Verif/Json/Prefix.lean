import Verif.Json.TextLemmas

/-! # The first characters of base58 texts -/

namespace MinaRs.Codec

open Text (Text)

/-- Every number below `b ^ k` has `k` digits, with zeros in front. -/
theorem exists_digits {b : Nat} (hb : 2 ≤ b) (k r : Nat) (h : r < b ^ k) :
    ∃ ds : List Nat, ds.length = k ∧ (∀ d ∈ ds, d < b) ∧ value b ds = r := by
  induction k generalizing r with
  | zero =>
    have : r = 0 := by simpa using h
    exact ⟨[], rfl, by simp, by rw [this]; rfl⟩
  | succ k ih =>
    obtain ⟨ds, h1, h2, h3⟩ := ih (r / b) (by rw [Nat.div_lt_iff_lt_mul (by omega), ← Nat.pow_succ]; exact h)
    refine ⟨ds ++ [r % b], by simp [h1], ?_, ?_⟩
    · intro d hd
      rcases List.mem_append.mp hd with hd | hd
      · exact h2 d hd
      · rw [List.mem_singleton.mp hd]; exact Nat.mod_lt _ (by omega)
    · rw [value_append, h3]
      simp only [List.length_singleton, Nat.pow_one, value, List.foldl_cons, List.foldl_nil, Nat.zero_mul, Nat.zero_add]
      rw [Nat.mul_comm]; exact Nat.div_add_mod r b

/-- The first digits and the number of digits of a number between two bounds. -/
theorem digits_prefix {b : Nat} (hb : 2 ≤ b) {P : List Nat} (hP : ∀ d ∈ P, d < b) (h0 : P.head? ≠ some 0) (hne : P ≠ [])
    {n k : Nat} (hlo : value b P * b ^ k ≤ n) (hhi : n < (value b P + 1) * b ^ k) :
    ∃ R, digits b n = P ++ R ∧ R.length = k := by
  obtain ⟨R, h1, h2, h3⟩ := exists_digits hb k (n - value b P * b ^ k) (by
    rw [Nat.add_mul, Nat.one_mul] at hhi; omega)
  refine ⟨R, ?_, h1⟩
  have hv : value b (P ++ R) = n := by rw [value_append, h1, h3]; omega
  rw [← hv]
  refine digits_value hb _ ?_ ?_
  · intro d hd
    rcases List.mem_append.mp hd with hd | hd
    · exact hP d hd
    · exact h2 d hd
  · cases P with
    | nil => exact absurd rfl hne
    | cons x xs => simpa using h0

theorem value_bytes_lt (bs : Bytes) : value 256 (bs.map UInt8.toNat) < 256 ^ bs.length := by
  have := value_lt (b := 256) (ds := bs.map UInt8.toNat) (by
    intro d hd
    obtain ⟨b, -, rfl⟩ := List.mem_map.mp hd
    exact b.toNat_lt)
  simpa using this

/-- The first characters and the length of the text of bytes that begin with `pre`. -/
theorem encode58_prefix (pre : Bytes) (P : List Nat) (m k : Nat) (hpre : pre.head? ≠ some 0) (hpne : pre ≠ [])
    (hP : ∀ d ∈ P, d < 58) (h0 : P.head? ≠ some 0) (hne : P ≠ [])
    (hlo : value 58 P * 58 ^ k ≤ value 256 (pre.map UInt8.toNat) * 256 ^ m)
    (hhi : (value 256 (pre.map UInt8.toNat) + 1) * 256 ^ m ≤ (value 58 P + 1) * 58 ^ k)
    (bs : Bytes) (hl : bs.length = m) : ∃ rest, encode58 (pre ++ bs) = P.map char58 ++ rest ∧ rest.length = k := by
  have hb := value_bytes_lt bs
  rw [hl] at hb
  have hv : value 256 ((pre ++ bs).map UInt8.toNat) = value 256 (pre.map UInt8.toNat) * 256 ^ m + value 256 (bs.map UInt8.toNat) := by
    rw [List.map_append, value_append, List.length_map, hl]
  rw [Nat.add_mul, Nat.one_mul] at hhi
  obtain ⟨R, h1, h2⟩ := digits_prefix (b := 58) (by decide) hP h0 hne (n := value 256 ((pre ++ bs).map UInt8.toNat)) (k := k)
    (by omega) (by omega)
  refine ⟨R.map char58, ?_, by simp [h2]⟩
  have hz : leadingZeros ((pre ++ bs).map UInt8.toNat) = 0 := by
    cases pre with
    | nil => exact absurd rfl hpne
    | cons x xs =>
      have hx : x ≠ 0 := by simpa using hpre
      have : x.toNat ≠ 0 := fun h => hx (UInt8.toNat_inj.mp (by simpa using h))
      simp [leadingZeros, this]
  unfold encode58 convert
  rw [hz, h1]
  simp

end MinaRs.Codec
