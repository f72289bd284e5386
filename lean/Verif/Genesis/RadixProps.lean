import Verif.Genesis.Model

/-!
# C87: field elements written in any radix
-/

namespace MinaRs.Genesis.Spec

open Text (Text)
open Hash

/-- The digits in order of their values, in both cases -/
def lower : List Char := "0123456789abcdefghijklmnopqrstuvwxyz".toList
def upper : List Char := "0123456789ABCDEFGHIJKLMNOPQRSTUVWXYZ".toList

/-- `c` is written for the digit `d`. -/
def IsDigit (c : Char) (d : Nat) : Prop := lower[d]? = some c ∨ upper[d]? = some c

/-- The text spells digits of the radix, with underscores anywhere. -/
inductive Spells (radix : Nat) : Text → List Nat → Prop
  | nil : Spells radix [] []
  | underscore {s : Text} {ds : List Nat} : Spells radix s ds → Spells radix ('_' :: s) ds
  | digit {c : Char} {d : Nat} {s : Text} {ds : List Nat} : IsDigit c d → d < radix → Spells radix s ds → Spells radix (c :: s) (d :: ds)

/-- The number with the given digits, most significant first -/
def value (radix : Nat) : List Nat → Nat
  | [] => 0
  | d :: ds => d * radix ^ ds.length + value radix ds

/-- The text is a number: an optional plus sign, a digit, and digits and underscores. -/
def Number (radix : Nat) (s : Text) (n : Nat) : Prop :=
  ∃ t ds, (s = t ∨ s = '+' :: t) ∧ (∃ c cs, t = c :: cs ∧ c ≠ '_') ∧ Spells radix t ds ∧ value radix ds = n

end MinaRs.Genesis.Spec

namespace MinaRs.Genesis

open Json (JErr)
open Text (Text)
open Hash GraphQL Spec

theorem digitValue_ascii (c : Char) (d : Nat) (h : digitValue c = some d) : c.toNat < 123 ∧ d < 36 := by
  have e0 : ('0' ≤ c) ↔ 48 ≤ c.toNat := Iff.rfl
  have e1 : (c ≤ '9') ↔ c.toNat ≤ 57 := Iff.rfl
  have e2 : ('a' ≤ c) ↔ 97 ≤ c.toNat := Iff.rfl
  have e3 : (c ≤ 'z') ↔ c.toNat ≤ 122 := Iff.rfl
  have e4 : ('A' ≤ c) ↔ 65 ≤ c.toNat := Iff.rfl
  have e5 : (c ≤ 'Z') ↔ c.toNat ≤ 90 := Iff.rfl
  simp only [digitValue, e0, e1, e2, e3, e4, e5] at h
  split at h
  · cases h; omega
  split at h
  · cases h; omega
  split at h
  · cases h; omega
  · cases h

theorem isDigit_lt {c : Char} {d : Nat} (h : IsDigit c d) : d < 36 := by
  rcases h with h | h
  · exact (List.getElem?_eq_some_iff.1 h).1
  · exact (List.getElem?_eq_some_iff.1 h).1

theorem digitTable : (∀ n, n < 123 → ∀ d, d < 36 → digitValue (Char.ofNat n) = some d →
      (lower[d]? = some (Char.ofNat n) ∨ upper[d]? = some (Char.ofNat n))) ∧
    (∀ d, d < 36 → ∃ a, ∃ b, lower[d]? = some a ∧ upper[d]? = some b ∧ digitValue a = some d ∧ digitValue b = some d) := by
  constructor
  · decide +kernel
  · intro d hd
    refine ⟨lower[d], upper[d], List.getElem?_eq_getElem _, List.getElem?_eq_getElem _, ?_⟩
    revert d
    decide +kernel

theorem digitValue_iff {c : Char} {d : Nat} : digitValue c = some d ↔ IsDigit c d := by
  constructor
  · intro h
    obtain ⟨h1, h2⟩ := digitValue_ascii c d h
    have hc : Char.ofNat c.toNat = c := Char.ofNat_toNat c
    have := digitTable.1 c.toNat h1 d h2
    rw [hc] at this
    exact this h
  · intro h
    obtain ⟨a, b, ha, hb, h1, h2⟩ := digitTable.2 d (isDigit_lt h)
    rcases h with h | h
    · rw [ha] at h; cases h; exact h1
    · rw [hb] at h; cases h; exact h2

theorem underscore_no_digit (d : Nat) : ¬ IsDigit '_' d := by
  intro h
  have := digitValue_iff.2 h
  cases this

theorem plus_no_digit (d : Nat) : ¬ IsDigit '+' d := by
  intro h
  have := digitValue_iff.2 h
  cases this

theorem radixDigits_iff (radix : Nat) : ∀ (s : Text) (acc n : Nat), radixDigits radix acc s = some n ↔
    ∃ ds, Spells radix s ds ∧ n = acc * radix ^ ds.length + value radix ds
  | [], acc, n => by
    simp only [radixDigits]
    constructor
    · intro h
      exact ⟨[], .nil, by simp [value, Option.some.inj h]⟩
    · rintro ⟨ds, h, rfl⟩
      cases h
      simp [value]
  | c :: cs, acc, n => by
    unfold radixDigits
    by_cases hc : c = '_'
    · subst hc
      rw [if_pos rfl, radixDigits_iff]
      constructor
      · rintro ⟨ds, h, e⟩
        exact ⟨ds, .underscore h, e⟩
      · rintro ⟨ds, h, e⟩
        cases h with
        | underscore h => exact ⟨ds, h, e⟩
        | digit hd _ _ => exact absurd hd (underscore_no_digit _)
    · rw [if_neg hc]
      have step : ∀ (d : Nat) (ds : List Nat), (acc * radix + d) * radix ^ ds.length + value radix ds =
          acc * radix ^ (d :: ds).length + value radix (d :: ds) := by
        intro d ds
        simp only [value, List.length_cons, Nat.pow_succ, Nat.add_mul]
        rw [Nat.mul_assoc, Nat.mul_comm radix (radix ^ ds.length), Nat.add_assoc]
      split
      · rename_i d hd
        split
        · rename_i hlt
          rw [radixDigits_iff]
          constructor
          · rintro ⟨ds, h, e⟩
            exact ⟨d :: ds, .digit (digitValue_iff.1 hd) hlt h, by rw [e, step]⟩
          · rintro ⟨ds, h, e⟩
            cases h with
            | underscore h => exact absurd rfl hc
            | @digit _ d' _ ds' hd' _ h =>
              have e' : d = d' := Option.some.inj (hd.symm.trans (digitValue_iff.2 hd'))
              subst e'
              exact ⟨ds', h, by rw [e, step]⟩
        · rename_i hlt
          constructor
          · intro h; cases h
          · rintro ⟨ds, h, e⟩
            cases h with
            | underscore h => exact absurd rfl hc
            | digit hd' hl h =>
              have e' := Option.some.inj (hd.symm.trans (digitValue_iff.2 hd'))
              exact absurd (e' ▸ hl) hlt
      · rename_i hd
        constructor
        · intro h; cases h
        · rintro ⟨ds, h, e⟩
          cases h with
          | underscore h => exact absurd rfl hc
          | digit hd' hl h => rw [digitValue_iff.2 hd'] at hd; cases hd

theorem stripPlus_cases (s : Text) : stripPlus s = s ∨ s = '+' :: stripPlus s := by
  unfold stripPlus
  split
  · exact .inl rfl
  · exact .inr rfl
  · exact .inl rfl

/-- The digits of a number start with a digit, so it does not matter how the sign is removed. -/
theorem stripPlus_number {radix : Nat} {s t : Text} {ds : List Nat} (hs : s = t ∨ s = '+' :: t)
    (h : Spells radix t ds) : stripPlus s = t := by
  have hp : ∀ u, t ≠ '+' :: u := by
    rintro u rfl
    cases h with
    | digit hd _ _ => exact plus_no_digit _ hd
  rcases hs with rfl | rfl
  · unfold stripPlus
    split
    · exact absurd rfl (hp _)
    · exact absurd rfl (hp _)
    · rfl
  · cases t with
    | nil => rfl
    | cons c cs =>
      unfold stripPlus
      split
      · rename_i he; injection he with _ he; exact absurd he (hp _)
      · rename_i he; injection he with _ he; exact he.symm
      · rename_i h1 h2; exact absurd rfl (h2 _)

theorem bigUintRadix_ok_iff (s : Text) (radix n : Nat) (hr : 2 ≤ radix ∧ radix ≤ 36) :
    bigUintRadix s radix = .ok n ↔ Number radix s n := by
  unfold bigUintRadix
  rw [if_pos hr]
  constructor
  · intro h
    split at h
    · cases h
    rename_i c cs hs
    split at h
    · cases h
    rename_i hc
    split at h
    · rename_i m hm
      cases h
      obtain ⟨ds, h1, h2⟩ := (radixDigits_iff radix _ _ _).1 hm
      refine ⟨c :: cs, ds, ?_, ⟨c, cs, rfl, hc⟩, h1, by rw [h2]; simp⟩
      rw [← hs]; exact (stripPlus_cases s).imp Eq.symm id
    · cases h
  · rintro ⟨t, ds, hs, ⟨c, cs, rfl, hc⟩, h1, rfl⟩
    rw [stripPlus_number hs h1]
    simp only [if_neg hc]
    rw [(radixDigits_iff radix _ 0 _).2 ⟨ds, h1, by rw [Nat.zero_mul, Nat.zero_add]⟩]

theorem bigUintRadix_err (s : Text) (radix : Nat) (hr : 2 ≤ radix ∧ radix ≤ 36) (h : ¬ ∃ n, Number radix s n) :
    bigUintRadix s radix = .error .err := by
  cases e : bigUintRadix s radix with
  | ok n => exact absurd ⟨n, (bigUintRadix_ok_iff s radix n hr).1 e⟩ h
  | error x =>
    unfold bigUintRadix at e
    rw [if_pos hr] at e
    split at e
    · exact e.symm ▸ rfl
    split at e
    · exact e.symm ▸ rfl
    split at e
    · cases e
    · exact e.symm ▸ rfl

/-- **C87.** A text in a radix from 2 to 36 is read as a field element exactly if it spells a number (with an optional
sign, digits of either case and underscores) that is below the field's order; the result holds that number in
32 little-endian bytes. -/
theorem C87_reads_iff (s : Text) (radix : Nat) (hr : 2 ≤ radix ∧ radix ≤ 36) (f : B32) :
    fieldFromStrRadix s radix = .ok f ↔ ∃ n, Number radix s n ∧ n < p ∧ f.bytes = leBytes 32 n := by
  have hp : p < 2 ^ 256 := by decide
  unfold fieldFromStrRadix
  constructor
  · intro h
    split at h
    · cases h
    rename_i n hn
    split at h
    · split at h
      · rename_i hlt
        cases h
        exact ⟨n, (bigUintRadix_ok_iff s radix n hr).1 hn, hlt, rfl⟩
      · cases h
    · cases h
  · rintro ⟨n, h1, h2, h3⟩
    rw [(bigUintRadix_ok_iff s radix n hr).2 h1]
    simp only [if_pos (Nat.lt_trans h2 hp), if_pos h2]
    congr 1
    cases f
    simp only at h3
    subst h3
    rfl

/-- **C87.** Any other text is refused with an error, except for the numbers of 256 bits that are not below the
field's order: they abort the program. -/
theorem C87_refusals (s : Text) (radix : Nat) (hr : 2 ≤ radix ∧ radix ≤ 36) :
    (fieldFromStrRadix s radix = .error .panic ↔ ∃ n, Number radix s n ∧ p ≤ n ∧ n < 2 ^ 256) ∧
    ((¬ ∃ n, Number radix s n ∧ n < 2 ^ 256) → fieldFromStrRadix s radix = .error .err) := by
  constructor
  · constructor
    · intro h
      unfold fieldFromStrRadix at h
      split at h
      · rename_i e he
        cases h
        by_cases hn : ∃ n, Number radix s n
        · obtain ⟨n, hn⟩ := hn
          rw [(bigUintRadix_ok_iff s radix n hr).2 hn] at he; cases he
        · rw [bigUintRadix_err s radix hr hn] at he; cases he
      · rename_i n hn
        split at h
        · split at h
          · cases h
          · exact ⟨n, (bigUintRadix_ok_iff s radix n hr).1 hn, by omega, by assumption⟩
        · cases h
    · rintro ⟨n, h1, h2, h3⟩
      unfold fieldFromStrRadix
      rw [(bigUintRadix_ok_iff s radix n hr).2 h1]
      simp only [if_pos h3, if_neg (Nat.not_lt.2 h2)]
  · intro h
    unfold fieldFromStrRadix
    by_cases hn : ∃ n, Number radix s n
    · obtain ⟨n, hn⟩ := hn
      rw [(bigUintRadix_ok_iff s radix n hr).2 hn]
      have : ¬ n < 2 ^ 256 := fun hl => h ⟨n, hn, hl⟩
      simp only [if_neg this]
    · rw [bigUintRadix_err s radix hr hn]

/-- **C87.** Every field element has a text in every radix that is read as it: no element is out of reach. -/
theorem C87_every_element (radix : Nat) (hr : 2 ≤ radix ∧ radix ≤ 36) (n : Nat) (hn : n < p) :
    ∃ s f, fieldFromStrRadix s radix = .ok f ∧ leNat f.bytes = n := by
  have key : ∀ n, ∃ s ds, Spells radix s ds ∧ value radix ds = n ∧ ∃ c cs, s = c :: cs ∧ c ≠ '_' := by
    have digit : ∀ d, d < radix → ∃ c, IsDigit c d ∧ c ≠ '_' := by
      intro d hd
      obtain ⟨a, b, ha, -, -, -⟩ := digitTable.2 d (by omega)
      exact ⟨a, .inl ha, fun e => underscore_no_digit d (e ▸ .inl ha)⟩
    have snoc : ∀ (s : Text) (ds : List Nat) (c : Char) (d : Nat), Spells radix s ds → IsDigit c d → d < radix →
        Spells radix (s ++ [c]) (ds ++ [d]) ∧ value radix (ds ++ [d]) = value radix ds * radix + d := by
      intro s ds c d h hc hd
      induction h with
      | nil => exact ⟨.digit hc hd .nil, by simp [value]⟩
      | underscore h ih => exact ⟨.underscore ih.1, ih.2⟩
      | digit h1 h2 h3 ih =>
        refine ⟨.digit h1 h2 ih.1, ?_⟩
        simp only [List.cons_append, value, ih.2, List.length_append, List.length_cons, List.length_nil, Nat.pow_succ, Nat.add_mul,
          Nat.zero_add, Nat.mul_assoc, Nat.add_assoc]
    intro n
    induction n using Nat.strongRecOn with
    | ind n ih =>
      obtain ⟨c, hc, hu⟩ := digit (n % radix) (Nat.mod_lt _ (by omega))
      by_cases hs : n < radix
      · refine ⟨[c], [n % radix], .digit hc (Nat.mod_lt _ (by omega)) .nil, ?_, c, [], rfl, hu⟩
        simp [value, Nat.mod_eq_of_lt hs]
      · obtain ⟨s, ds, h1, h2, e, es, rfl, he⟩ := ih (n / radix) (Nat.div_lt_self (by omega) (by omega))
        obtain ⟨h3, h4⟩ := snoc _ _ c (n % radix) h1 hc (Nat.mod_lt _ (by omega))
        refine ⟨_, _, h3, ?_, e, es ++ [c], rfl, he⟩
        rw [h4, h2, Nat.mul_comm]
        exact Nat.div_add_mod n radix
  obtain ⟨s, ds, h1, h2, h3⟩ := key n
  refine ⟨s, ⟨leBytes 32 n, leBytes_length 32 n⟩, (C87_reads_iff s radix hr _).2 ⟨n, ⟨s, ds, .inl rfl, h3, h1, h2⟩, hn, rfl⟩, ?_⟩
  have hp : p < 256 ^ 32 := by decide
  exact leNat_leBytes_of_lt (by omega)

/-- **C87.** A radix outside 2 to 36 aborts the program, whatever the text. -/
theorem C87_bad_radix (s : Text) (radix : Nat) (hr : ¬ (2 ≤ radix ∧ radix ≤ 36)) :
    fieldFromStrRadix s radix = .error .panic := by
  unfold fieldFromStrRadix bigUintRadix
  rw [if_neg hr]

/-- A witness of the abort: the order of the field in hexadecimal -/
theorem C87_modulus_fails : fieldFromStrRadix "40000000000000000000000000000000224698fc094cf91b992d30ed00000001".toList 16 =
    .error .panic := by decide +kernel

example : fieldFromStrRadix "+Fe_0".toList 16 = .ok ⟨leBytes 32 0xfe0, leBytes_length 32 _⟩ := by decide +kernel

end MinaRs.Genesis
