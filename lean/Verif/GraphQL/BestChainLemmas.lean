import Verif.GraphQL.BestChain
import Verif.GraphQL.BestChainSpec
import Verif.GraphQL.Docs

/-! Reading field elements, paths and addresses. -/

namespace MinaRs.GraphQL

open Json (J JErr Env)
open Text (Text)
open Text.Spec (IsDigit value)
open Hash
open Spec

theorem underscore_not_digit : ¬ IsDigit '_' := by decide

theorem bigDigits_ok (cs : Text) (h : ∀ d ∈ cs, IsDigit d ∨ d = '_') : ∀ acc,
    bigDigits acc cs = some (acc * 10 ^ (cs.filter (· ≠ '_')).length + value (cs.filter (· ≠ '_'))) := by
  induction cs with
  | nil => intro acc; simp [bigDigits, Text.value_nil]
  | cons c cs ih =>
    intro acc
    have ih := ih (fun d hd => h d (List.mem_cons_of_mem _ hd))
    by_cases hc : c = '_'
    · subst hc
      rw [bigDigits, if_pos rfl, ih]
      simp
    · have hd : IsDigit c := (h c List.mem_cons_self).resolve_right hc
      rw [bigDigits, if_neg hc, Text.toDigit_some hd]
      simp only
      rw [ih]
      rw [List.filter_cons_of_pos (by simpa using hc), Text.value_cons, List.length_cons, Nat.pow_succ]
      congr 1
      generalize 10 ^ (cs.filter (· ≠ '_')).length = m
      rw [Nat.add_mul, Nat.mul_assoc, Nat.mul_comm 10 m, Nat.add_assoc]

theorem bigDigits_inv (cs : Text) : ∀ acc n, bigDigits acc cs = some n → ∀ d ∈ cs, IsDigit d ∨ d = '_' := by
  induction cs with
  | nil => intro _ _ _ d hd; cases hd
  | cons c cs ih =>
    intro acc n h d hd
    rw [bigDigits] at h
    by_cases hc : c = '_'
    · rw [if_pos hc] at h
      rcases List.mem_cons.mp hd with rfl | hd
      · exact Or.inr hc
      · exact ih _ _ h d hd
    · rw [if_neg hc] at h
      by_cases hg : IsDigit c
      · rw [Text.toDigit_some hg] at h
        rcases List.mem_cons.mp hd with rfl | hd
        · exact Or.inl hg
        · exact ih _ _ h d hd
      · rw [Text.toDigit_none hg] at h; cases h

theorem bigUint_body (c : Char) (cs : Text) (n : Nat) :
    (if c = '_' then none else bigDigits 0 (c :: cs)) = some n ↔
      IsDigit c ∧ (∀ d ∈ cs, IsDigit d ∨ d = '_') ∧ value (c :: cs.filter (· ≠ '_')) = n := by
  constructor
  · intro h
    by_cases hc : c = '_'
    · rw [if_pos hc] at h; cases h
    · rw [if_neg hc] at h
      have hall := bigDigits_inv _ _ _ h
      have hd : IsDigit c := (hall c List.mem_cons_self).resolve_right hc
      refine ⟨hd, fun d hd => hall d (List.mem_cons_of_mem _ hd), ?_⟩
      rw [bigDigits_ok _ hall, List.filter_cons_of_pos (by simpa using hc)] at h
      have := Option.some.inj h
      rw [Nat.zero_mul, Nat.zero_add] at this
      exact this
  · rintro ⟨hd, hall, hv⟩
    have hc : c ≠ '_' := fun h => underscore_not_digit (h ▸ hd)
    have hall' : ∀ d ∈ c :: cs, IsDigit d ∨ d = '_' := by
      intro d h
      rcases List.mem_cons.mp h with rfl | h
      · exact Or.inl hd
      · exact hall d h
    rw [if_neg hc, bigDigits_ok _ hall', List.filter_cons_of_pos (by simpa using hc), Nat.zero_mul, Nat.zero_add, hv]

theorem stripPlus_other {c : Char} (hc : c ≠ '+') (cs : Text) : stripPlus (c :: cs) = c :: cs := by
  unfold stripPlus
  split
  · rename_i h; cases h; exact absurd rfl hc
  · rename_i h; cases h; exact absurd rfl hc
  · rfl

theorem stripPlus_plus {c : Char} (hc : c ≠ '+') (cs : Text) : stripPlus ('+' :: c :: cs) = c :: cs := by
  unfold stripPlus
  split
  · rename_i h; cases h; exact absurd rfl hc
  · rename_i h; cases h; rfl
  · rename_i h1 h2; exact absurd rfl (h2 _)

theorem bigUint_iff (s : Text) (n : Nat) : bigUint s = some n ↔ Denotes s n := by
  unfold Denotes
  constructor
  · intro h
    unfold bigUint at h
    cases hs : stripPlus s with
    | nil => rw [hs] at h; cases h
    | cons c cs =>
      rw [hs] at h
      have h' := (bigUint_body c cs n).mp h
      refine ⟨c, cs, ?_, h'⟩
      have hc : c ≠ '+' := fun e => Text.plus_not_digit (e ▸ h'.1)
      unfold stripPlus at hs
      split at hs
      · cases hs; exact absurd rfl hc
      · cases hs; exact Or.inr rfl
      · exact Or.inl hs
  · rintro ⟨c, cs, hs, h'⟩
    have hc : c ≠ '+' := fun e => Text.plus_not_digit (e ▸ h'.1)
    unfold bigUint
    rcases hs with rfl | rfl
    · rw [stripPlus_other hc]; exact (bigUint_body c cs n).mpr h'
    · rw [stripPlus_plus hc]; exact (bigUint_body c cs n).mpr h'

theorem denotes_decimal (n : Nat) : Denotes (Text.decimal n) n := by
  obtain ⟨c, cs, hd⟩ : ∃ c cs, Text.decimal n = c :: cs := List.exists_cons_of_ne_nil (Text.decimal_ne_nil n)
  have hall := Text.decimal_digits n
  rw [hd] at hall
  have hf : cs.filter (· ≠ '_') = cs := by
    apply List.filter_eq_self.mpr
    intro d hd
    have := hall d (List.mem_cons_of_mem _ hd)
    have hne : d ≠ '_' := fun h => underscore_not_digit (h ▸ this)
    simpa using hne
  refine ⟨c, cs, Or.inl hd, hall c List.mem_cons_self, fun d h => Or.inl (hall d (List.mem_cons_of_mem _ h)), ?_⟩
  rw [hf, ← hd, Text.value_decimal]

theorem bigUint_decimal (n : Nat) : bigUint (Text.decimal n) = some n := (bigUint_iff _ _).mpr (denotes_decimal n)

theorem fpFromRadix10_decimal (f : Fp) : fpFromRadix10 (str (number f.val)) = .ok f := by
  unfold fpFromRadix10 number
  rw [str_ofList, bigUint_decimal]
  simp only
  rw [dif_pos f.isLt]

theorem p_le : p ≤ 2 ^ 256 := by decide +kernel

theorem deserialize_number (f : Fp) : FpJson.deserialize (number f.val) = .ok f := by
  unfold number FpJson.deserialize
  simp only [String.toList_ofList, bigUint_decimal]
  rw [if_pos (Nat.lt_of_lt_of_le f.isLt p_le), dif_pos f.isLt]

/-! ## Paths -/

theorem optFp_number (f : Fp) : optFp (number f.val) = .ok (some f) := by
  have h := deserialize_number f
  unfold number at h ⊢
  simp only [optFp, h]

theorem optFp_null : optFp .null = .ok none := rfl

theorem index_null {j : J} {k : String} (h : Has j k .null ∨ Lacks j k) : index j k = .null := by
  rcases h with h | h
  · exact index_of_has h
  · exact index_of_lacks h

theorem pathNodeOf_says {j : J} {s : Bool × Fp} (h : SaysStep j s) : pathNodeOf j = .ok (Merkle.Spec.pathNode s) := by
  obtain ⟨b, s⟩ := s
  cases b with
  | true =>
    obtain ⟨h1, h2⟩ := h
    obtain ⟨es, rfl, -, -⟩ := id h1
    simp only [pathNodeOf, index_of_has h1, index_null h2, optFp_number, optFp_null, bind, Except.bind]
    rfl
  | false =>
    obtain ⟨h1, h2⟩ := h
    obtain ⟨es, rfl, -, -⟩ := id h2
    simp only [pathNodeOf, index_of_has h2, index_null h1, optFp_number, optFp_null, bind, Except.bind]
    rfl

theorem pathOf_says {js : List J} {path : List (Bool × Fp)} (h : SaysSteps js path) :
    pathOf (.arr js) = .ok (path.map Merkle.Spec.pathNode) := by
  unfold pathOf
  simp only
  induction h with
  | nil => rfl
  | cons h1 _ ih => simp only [allOf, pathNodeOf_says h1, ih, bind, Except.bind, List.map_cons]

theorem allOf_ok_iff {α β : Type} (f : α → R β) (as : List α) (bs : List β) :
    allOf f as = .ok bs ↔ as.map f = bs.map .ok := by
  induction as generalizing bs with
  | nil => cases bs <;> simp [allOf]
  | cons a as ih =>
    cases bs with
    | nil =>
      simp only [allOf, bind, Except.bind, List.map_cons, List.map_nil]
      constructor
      · intro h; repeat' split at h
        all_goals cases h
      · intro h; cases h
    | cons b bs =>
      simp only [allOf, bind, Except.bind, List.map_cons, List.cons.injEq]
      cases ha : f a with
      | error e => simp
      | ok c =>
        simp only [Except.ok.injEq]
        cases hr : allOf f as with
        | error e =>
          simp only [reduceCtorEq, false_iff, not_and]
          intro _ h
          have := (ih bs).mpr h
          rw [hr] at this; cases this
        | ok cs =>
          simp only [Except.ok.injEq, List.cons.injEq]
          constructor
          · rintro ⟨rfl, rfl⟩; exact ⟨rfl, (ih cs).mp hr⟩
          · rintro ⟨rfl, h⟩
            have := (ih bs).mpr h
            rw [hr] at this
            exact ⟨rfl, Except.ok.inj this⟩

theorem allOf_not_ok {α β : Type} (f : α → R β) (as : List α) (a : α) (ha : a ∈ as) (h : ∀ b, f a ≠ .ok b) :
    ∀ bs, allOf f as ≠ .ok bs := by
  intro bs hb
  have := (allOf_ok_iff f as bs).mp hb
  have hm : f a ∈ bs.map Except.ok := this ▸ List.mem_map.mpr ⟨a, ha, rfl⟩
  obtain ⟨b, -, e⟩ := List.mem_map.mp hm
  exact h b e.symm

/-! ## Addresses -/

theorem isAddress_iff (E : Env) (key : String) : isAddress E key = true ↔ AddressText E key := by
  unfold isAddress AddressText
  constructor
  · intro h
    unfold Json.fromAddress at h
    split at h
    · cases h
    rename_i h55
    split at h
    · cases h
    rename_i out hd
    split at h
    · cases h
    rename_i h40
    split at h
    · cases h
    rename_i hchk
    split at h
    · cases h
    rename_i h3
    by_cases hp : leNat ((out.drop 3).take 32) < p
    case neg => rw [if_neg hp] at h; cases h
    have h40 : out.length = 40 := Decidable.not_not.mp h40
    have hchk : E.chk (out.take 36) = out.drop 36 := Decidable.not_not.mp hchk
    have h3 : out.take 3 = [0xcb, 0x01, 0x01] := Decidable.not_not.mp h3
    refine ⟨Decidable.not_not.mp h55, (out.drop 3).take 32, out[35]'(by omega), ?_, hp, ?_⟩
    · rw [List.length_take, List.length_drop]; omega
    · have e36 : out.take 36 = ([0xcb, 0x01, 0x01] : Bytes) ++ (out.drop 3).take 32 ++ [out[35]'(by omega)] := by
        rw [← h3, ← List.take_add, ← List.take_append_getElem (by omega : 35 < out.length)]
      rw [← e36, hchk, List.take_append_drop, Codec.encode58_decode hd]
  · rintro ⟨h55, x, q, hx, hp, hs⟩
    have hq : key.toList = Codec.encode58 (([0xcb, 0x01, 0x01] ++ x ++ [q]) ++ E.chk ([0xcb, 0x01, 0x01] ++ x ++ [q])) := hs
    unfold Json.fromAddress
    rw [if_neg (by simp [h55]), hq, Codec.decode58_encode]
    simp only
    have hrl : (([0xcb, 0x01, 0x01] : Bytes) ++ x ++ [q]).length = 36 := by simp [hx]
    have ht : ((([0xcb, 0x01, 0x01] : Bytes) ++ x ++ [q]) ++ E.chk ([0xcb, 0x01, 0x01] ++ x ++ [q])).take 36 =
        [0xcb, 0x01, 0x01] ++ x ++ [q] := by
      rw [List.take_append_of_le_length (by omega), List.take_of_length_le (by omega)]
    have hd : (([0xcb, 0x01, 0x01] ++ x ++ [q]) ++ E.chk ([0xcb, 0x01, 0x01] ++ x ++ [q])).drop 36 =
        E.chk ([0xcb, 0x01, 0x01] ++ x ++ [q]) := by
      rw [List.drop_append, hrl, List.drop_of_length_le (by omega)]; simp
    rw [ht, hd]
    generalize hc : E.chk ([0xcb, 0x01, 0x01] ++ x ++ [q]) = c
    have hcl : c.length = 4 := by rw [← hc]; exact E.chk_length _
    have h3 : List.drop 3 ([0xcb, 0x01, 0x01] ++ x ++ [q] ++ c) = x ++ [q] ++ c := by simp
    have h32 : (x ++ [q] ++ c).take 32 = x := by
      rw [List.append_assoc, List.take_append_of_le_length (by omega), List.take_of_length_le (by omega)]
    rw [h3, h32, if_neg (by simp [hx, hcl]), if_neg (by simp), if_neg (by simp), if_pos hp]
    rfl

theorem addressText_address (E : Env) (k : PubKey) :
    AddressText E (String.ofList (Json.address E (leBytes 32 k.x.val) k.isOdd)) := by
  rw [← isAddress_iff]
  have hx : k.x.val < 256 ^ 32 := Nat.lt_trans k.x.isLt p_lt
  unfold isAddress
  rw [String.toList_ofList, Json.fromAddress_address E _ (by simp) (by rw [leNat_leBytes_of_lt hx]; exact k.x.isLt)]
  rfl

end MinaRs.GraphQL
