import Verif.Proto.ReadLemmas

/-! # Lemmas: both writers write protobuf messages -/

namespace MinaRs.Proto

open Spec

theorem number_cons (b : UInt8) (bs : Bytes) : number (b :: bs) = b.toNat % 128 + 128 * number bs := rfl

theorem number_one {n : Nat} (h : n < 128) : number [UInt8.ofNat n] = n := by
  rw [number_cons, toNat_ofNat (by omega)]
  simp only [number]
  omega

theorem isVarint_one {n : Nat} (h : n < 128) : IsVarint [UInt8.ofNat n] := .last _ (by rw [toNat_ofNat (by omega)]; exact h)

theorem varintLoop_spec (k : Nat) : ∀ n, n < 128 ^ (k + 1) →
    IsVarint (varintLoop k n) ∧ number (varintLoop k n) = n ∧ (varintLoop k n).length ≤ k + 1 := by
  induction k with
  | zero =>
    intro n hn
    exact ⟨isVarint_one (by omega), number_one (by omega), Nat.le_refl _⟩
  | succ k ih =>
    intro n hn
    rw [varintLoop]
    split
    · rename_i h
      exact ⟨isVarint_one h, number_one h, by simp⟩
    · rename_i h
      obtain ⟨h1, h2, h3⟩ := ih (n / 128) (by rw [Nat.pow_succ] at hn; exact Nat.div_lt_of_lt_mul (by omega))
      have hb : (UInt8.ofNat (n % 128 + 128)).toNat = n % 128 + 128 := toNat_ofNat (by omega)
      refine ⟨.more _ _ (by omega) h1, ?_, by simp only [List.length_cons]; omega⟩
      rw [number_cons, h2, hb]
      omega

theorem varint_spec {n : Nat} (h : n < 2 ^ 64) :
    IsVarint (varint n) ∧ number (varint n) = n ∧ (varint n).length ≤ 10 :=
  varintLoop_spec 9 n (by omega)

theorem writeVarint32Loop_eq (k : Nat) : ∀ n, writeVarint32Loop k n = varintLoop k n := by
  induction k with
  | zero => intro n; rfl
  | succ k ih =>
    intro n
    rw [writeVarint32Loop, varintLoop, ih]
    by_cases h : n < 128
    · rw [if_neg (by omega), if_pos h]
    · rw [if_pos (by omega), if_neg h]

theorem writeVarint32_spec {n : Nat} (h : n < 2 ^ 32) :
    IsVarint (writeVarint32 n) ∧ number (writeVarint32 n) = n ∧ (writeVarint32 n).length ≤ 10 := by
  unfold writeVarint32
  rw [Nat.mod_eq_of_lt h, writeVarint32Loop_eq]
  obtain ⟨h1, h2, h3⟩ := varintLoop_spec 5 n (by omega)
  exact ⟨h1, h2, by omega⟩

theorem byte64_true (n : Nat) : (byte64 true n).toNat = n % 128 := toNat_ofNat (by omega)

theorem byte64_false (n : Nat) : (byte64 false n).toNat = n % 128 + 128 := toNat_ofNat (by omega)

theorem isVarint_more64 {n : Nat} {bs : Bytes} (h : IsVarint bs) : IsVarint (byte64 false n :: bs) :=
  .more _ _ (by rw [byte64_false]; omega) h

theorem isVarint_last64 (n : Nat) : IsVarint [byte64 true n] := .last _ (by rw [byte64_true]; omega)

theorem number_more64 (n : Nat) (bs : Bytes) : number (byte64 false n :: bs) = n % 128 + 128 * number bs := by
  rw [number_cons, byte64_false]
  omega

theorem number_last64 (n : Nat) : number [byte64 true n] = n % 128 := by
  rw [number_cons, byte64_true]
  simp only [number]
  omega

theorem enc_last (n : Nat) : IsVarint [byte64 true n] ∧ number [byte64 true n] = n % 128 :=
  ⟨isVarint_last64 n, number_last64 n⟩

theorem enc_one {n : Nat} (h : n < 128) : IsVarint [UInt8.ofNat n] ∧ number [UInt8.ofNat n] = n :=
  ⟨isVarint_one h, number_one h⟩

theorem enc_more (n : Nat) {bs : Bytes} {r : Nat} (h : IsVarint bs ∧ number bs = r) :
    IsVarint (byte64 false n :: bs) ∧ number (byte64 false n :: bs) = n % 128 + 128 * r :=
  ⟨isVarint_more64 h.1, by rw [number_more64, h.2]⟩

theorem size64_cases (a b c : Nat) :
    (size64 a b c = 1 ∧ c = 0 ∧ b = 0 ∧ a < 2 ^ 7) ∨ (size64 a b c = 2 ∧ c = 0 ∧ b = 0 ∧ a < 2 ^ 14) ∨
    (size64 a b c = 3 ∧ c = 0 ∧ b = 0 ∧ a < 2 ^ 21) ∨ (size64 a b c = 4 ∧ c = 0 ∧ b = 0) ∨
    (size64 a b c = 5 ∧ c = 0 ∧ b < 2 ^ 7) ∨ (size64 a b c = 6 ∧ c = 0 ∧ b < 2 ^ 14) ∨
    (size64 a b c = 7 ∧ c = 0 ∧ b < 2 ^ 21) ∨ (size64 a b c = 8 ∧ c = 0) ∨
    (size64 a b c = 9 ∧ c < 2 ^ 7) ∨ size64 a b c = 10 := by
  unfold size64
  by_cases h1 : c = 0
  · rw [if_pos h1]
    by_cases h2 : b = 0
    · rw [if_pos h2]
      by_cases h3 : a < 2 ^ 14
      · rw [if_pos h3]
        by_cases h4 : a < 2 ^ 7
        · rw [if_pos h4]; simp [h1, h2, h4]
        · rw [if_neg h4]; simp [h1, h2, h3]
      · rw [if_neg h3]
        by_cases h4 : a < 2 ^ 21
        · rw [if_pos h4]; simp [h1, h2, h4]
        · rw [if_neg h4]; simp [h1, h2]
    · rw [if_neg h2]
      by_cases h3 : b < 2 ^ 14
      · rw [if_pos h3]
        by_cases h4 : b < 2 ^ 7
        · rw [if_pos h4]; simp [h1, h4]
        · rw [if_neg h4]; simp [h1, h3]
      · rw [if_neg h3]
        by_cases h4 : b < 2 ^ 21
        · rw [if_pos h4]; simp [h1, h4]
        · rw [if_neg h4]; simp [h1]
  · rw [if_neg h1]
    by_cases h4 : c < 2 ^ 7
    · rw [if_pos h4]; simp [h4]
    · rw [if_neg h4]; simp

theorem bits32_lt (n : Int) : bits32 n < 2 ^ 32 := by
  unfold bits32
  omega

set_option maxHeartbeats 1000000 in
theorem writeVarint64_spec (l : Long) :
    IsVarint (writeVarint64 l) ∧ number (writeVarint64 l) = bits32 l.low + bits32 l.high * 2 ^ 32 ∧
      (writeVarint64 l).length ≤ 10 := by
  have hlow := bits32_lt l.low
  have hhigh := bits32_lt l.high
  unfold writeVarint64
  dsimp only
  generalize bits32 l.low = low at hlow ⊢
  generalize bits32 l.high = high at hhigh ⊢
  rcases size64_cases low (low / 2 ^ 28 + high * 16 % 2 ^ 32) (high / 2 ^ 24) with
    ⟨h, h1, h2, h3⟩ | ⟨h, h1, h2, h3⟩ | ⟨h, h1, h2, h3⟩ | ⟨h, h1, h2⟩ | ⟨h, h1, h2⟩ | ⟨h, h1, h2⟩ | ⟨h, h1, h2⟩ | ⟨h, h1⟩ |
    ⟨h, h1⟩ | h
  · rw [h]
    have e := enc_last low
    exact ⟨e.1, e.2.trans (by omega), by simp⟩
  · rw [h]
    have e := enc_more low <|
      enc_last (low / 2 ^ 7)
    exact ⟨e.1, e.2.trans (by omega), by simp⟩
  · rw [h]
    have e := enc_more low <|
      enc_more (low / 2 ^ 7) <|
      enc_last (low / 2 ^ 14)
    exact ⟨e.1, e.2.trans (by omega), by simp⟩
  · rw [h]
    have e := enc_more low <|
      enc_more (low / 2 ^ 7) <|
      enc_more (low / 2 ^ 14) <|
      enc_last (low / 2 ^ 21)
    exact ⟨e.1, e.2.trans (by omega), by simp⟩
  · rw [h]
    have e := enc_more low <|
      enc_more (low / 2 ^ 7) <|
      enc_more (low / 2 ^ 14) <|
      enc_more (low / 2 ^ 21) <|
      enc_last (low / 2 ^ 28 + high * 16 % 2 ^ 32)
    exact ⟨e.1, e.2.trans (by omega), by simp⟩
  · rw [h]
    have e := enc_more low <|
      enc_more (low / 2 ^ 7) <|
      enc_more (low / 2 ^ 14) <|
      enc_more (low / 2 ^ 21) <|
      enc_more (low / 2 ^ 28 + high * 16 % 2 ^ 32) <|
      enc_last ((low / 2 ^ 28 + high * 16 % 2 ^ 32) / 2 ^ 7)
    exact ⟨e.1, e.2.trans (by omega), by simp⟩
  · rw [h]
    have e := enc_more low <|
      enc_more (low / 2 ^ 7) <|
      enc_more (low / 2 ^ 14) <|
      enc_more (low / 2 ^ 21) <|
      enc_more (low / 2 ^ 28 + high * 16 % 2 ^ 32) <|
      enc_more ((low / 2 ^ 28 + high * 16 % 2 ^ 32) / 2 ^ 7) <|
      enc_last ((low / 2 ^ 28 + high * 16 % 2 ^ 32) / 2 ^ 14)
    exact ⟨e.1, e.2.trans (by omega), by simp⟩
  · rw [h]
    have e := enc_more low <|
      enc_more (low / 2 ^ 7) <|
      enc_more (low / 2 ^ 14) <|
      enc_more (low / 2 ^ 21) <|
      enc_more (low / 2 ^ 28 + high * 16 % 2 ^ 32) <|
      enc_more ((low / 2 ^ 28 + high * 16 % 2 ^ 32) / 2 ^ 7) <|
      enc_more ((low / 2 ^ 28 + high * 16 % 2 ^ 32) / 2 ^ 14) <|
      enc_last ((low / 2 ^ 28 + high * 16 % 2 ^ 32) / 2 ^ 21)
    exact ⟨e.1, e.2.trans (by omega), by simp⟩
  · rw [h]
    have e := enc_more low <|
      enc_more (low / 2 ^ 7) <|
      enc_more (low / 2 ^ 14) <|
      enc_more (low / 2 ^ 21) <|
      enc_more (low / 2 ^ 28 + high * 16 % 2 ^ 32) <|
      enc_more ((low / 2 ^ 28 + high * 16 % 2 ^ 32) / 2 ^ 7) <|
      enc_more ((low / 2 ^ 28 + high * 16 % 2 ^ 32) / 2 ^ 14) <|
      enc_more ((low / 2 ^ 28 + high * 16 % 2 ^ 32) / 2 ^ 21) <|
      enc_last (high / 2 ^ 24)
    exact ⟨e.1, e.2.trans (by omega), by simp⟩
  · rw [h]
    have e := enc_more low <|
      enc_more (low / 2 ^ 7) <|
      enc_more (low / 2 ^ 14) <|
      enc_more (low / 2 ^ 21) <|
      enc_more (low / 2 ^ 28 + high * 16 % 2 ^ 32) <|
      enc_more ((low / 2 ^ 28 + high * 16 % 2 ^ 32) / 2 ^ 7) <|
      enc_more ((low / 2 ^ 28 + high * 16 % 2 ^ 32) / 2 ^ 14) <|
      enc_more ((low / 2 ^ 28 + high * 16 % 2 ^ 32) / 2 ^ 21) <|
      enc_more (high / 2 ^ 24) <|
      enc_one (n := high / 2 ^ 24 / 2 ^ 7 % 2) (by omega)
    exact ⟨e.1, e.2.trans (by omega), by simp⟩

end MinaRs.Proto
