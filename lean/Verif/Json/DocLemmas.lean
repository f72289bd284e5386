import Verif.Json.DocText
import Verif.Json.Grammar
import Verif.Base.TextLemmas

/-! Lemmas on the text form of JSON (C111): the reader accepts exactly what the grammar says. -/

namespace MinaRs.Json

open Text (Text decimal)
open Text.Spec (IsDigit value)
open Grammar

/-! ## Strings -/

theorem char_ofNat_toNat (c : Char) (n : Nat) (h : c.toNat = n) : c = Char.ofNat n := by rw [← h, Char.ofNat_toNat]

theorem hexValue_iff (c : Char) (n : Nat) : hexValue c = some n ↔ Hex c n := by
  constructor
  · intro h
    unfold hexValue at h
    split at h
    · rename_i hc
      have hn : c.toNat = 48 + n := by cases h; omega
      rw [char_ofNat_toNat c _ hn]
      exact .inl ((by decide +kernel : ∀ n : Fin 10, "0123456789abcdef".toList[n.1]? = some (Char.ofNat (48 + n.1))) ⟨n, by omega⟩)
    split at h
    · rename_i hc
      have hn : c.toNat = 87 + n := by cases h; omega
      rw [char_ofNat_toNat c _ hn]
      have := (by decide +kernel : ∀ n : Fin 6, "0123456789abcdef".toList[n.1 + 10]? = some (Char.ofNat (87 + (n.1 + 10)))) ⟨n - 10, by omega⟩
      simp only [show n - 10 + 10 = n by omega] at this
      exact .inl this
    split at h
    · rename_i hc
      have hn : c.toNat = 55 + n := by cases h; omega
      rw [char_ofNat_toNat c _ hn]
      have := (by decide +kernel : ∀ n : Fin 6, "0123456789ABCDEF".toList[n.1 + 10]? = some (Char.ofNat (55 + (n.1 + 10)))) ⟨n - 10, by omega⟩
      simp only [show n - 10 + 10 = n by omega] at this
      exact .inr this
    · cases h
  · intro h
    have len : ∀ t : Text, t.length = 16 → t[n]? = some c → n < 16 := by
      intro t ht h
      rw [← ht]
      exact (List.getElem?_eq_some_iff.mp h).1
    rcases h with h | h
    · have hn := len _ (by decide +kernel) h
      have := (by decide +kernel : ∀ n : Fin 16, ∀ c, "0123456789abcdef".toList[n.1]? = some c → hexValue c = some n.1) ⟨n, hn⟩ c
      exact this h
    · have hn := len _ (by decide +kernel) h
      have := (by decide +kernel : ∀ n : Fin 16, ∀ c, "0123456789ABCDEF".toList[n.1]? = some c → hexValue c = some n.1) ⟨n, hn⟩ c
      exact this h

theorem hex4_iff (s r : Text) (n : Nat) : hex4 s = some (n, r) ↔ ∃ u, s = u ++ r ∧ Unit16 u n := by
  constructor
  · intro h
    unfold hex4 at h
    split at h
    · rename_i a b c d rest
      split at h
      · rename_i i j k l hi hj hk hl
        cases h
        exact ⟨[a, b, c, d], rfl, a, b, c, d, i, j, k, l, rfl, (hexValue_iff _ _).mp hi, (hexValue_iff _ _).mp hj,
          (hexValue_iff _ _).mp hk, (hexValue_iff _ _).mp hl, by omega⟩
      · cases h
    · cases h
  · rintro ⟨u, rfl, a, b, c, d, i, j, k, l, rfl, hi, hj, hk, hl, rfl⟩
    simp only [hex4, List.cons_append, List.nil_append, (hexValue_iff _ _).mpr hi, (hexValue_iff _ _).mpr hj, (hexValue_iff _ _).mpr hk,
      (hexValue_iff _ _).mpr hl]
    congr 2
    omega

theorem unit16_lt {u : Text} {n : Nat} (h : Unit16 u n) : n < 0x10000 := by
  obtain ⟨a, b, c, d, i, j, k, l, -, hi, hj, hk, hl, rfl⟩ := h
  have lt : ∀ c i, Hex c i → i < 16 := by
    rintro c i (h | h)
    all_goals
      have := (List.getElem?_eq_some_iff.mp h).1
      exact this
  have := lt _ _ hi
  have := lt _ _ hj
  have := lt _ _ hk
  have := lt _ _ hl
  omega

theorem pair_eq (n m : Nat) : Char.ofNat ((n - 0xD800) * 0x400 + (m - 0xDC00) + 0x10000) =
    Char.ofNat (0x10000 + 0x400 * (n - 0xD800) + (m - 0xDC00)) := congrArg Char.ofNat (by omega)

theorem unicodeEscape_iff (s r : Text) (e : Char) : unicodeEscape s = some (e, r) ↔ ∃ t, s = t ++ r ∧ Chr ('\\' :: 'u' :: t) e := by
  constructor
  · intro h
    unfold unicodeEscape at h
    split at h
    · cases h
    rename_i n rest hn
    obtain ⟨u, rfl, hu⟩ := (hex4_iff _ _ _).mp hn
    split at h
    · cases h
    split at h
    · rename_i h1 h2
      split at h
      · rename_i rest'
        split at h
        · cases h
        rename_i m rest'' hm
        obtain ⟨v, rfl, hv⟩ := (hex4_iff _ _ _).mp hm
        split at h
        · rename_i h3
          have hc := (Prod.mk.inj (Option.some.inj h))
          obtain ⟨h4, rfl⟩ := hc
          rw [pair_eq] at h4
          refine ⟨u ++ '\\' :: 'u' :: v, by simp, ?_⟩
          rw [← h4]
          exact Chr.pair u v n m hu hv (by omega) (by omega)
        · cases h
      · cases h
    · cases h
      exact ⟨u, rfl, .unit u n hu (by omega)⟩
  · rintro ⟨t, rfl, h⟩
    generalize hq : '\\' :: 'u' :: t = q at h
    cases h with
    | plain c h1 h2 => cases hq
    | short c e h =>
      cases hq
      revert h; intro h
      exact absurd h (by intro h; simp [short] at h)
    | unit u n hu hr =>
      cases hq
      have hn := (hex4_iff (t ++ r) r n).mpr ⟨t, rfl, hu⟩
      unfold unicodeEscape
      rw [hn]
      have := unit16_lt hu
      simp only
      rw [if_neg (by omega), if_neg (by omega)]
    | pair u v n m hu hv h1 h2 =>
      cases hq
      have hn := (hex4_iff (u ++ ('\\' :: 'u' :: (v ++ r))) ('\\' :: 'u' :: (v ++ r)) n).mpr ⟨u, rfl, hu⟩
      have hm := (hex4_iff (v ++ r) r m).mpr ⟨v, rfl, hv⟩
      unfold unicodeEscape
      rw [show u ++ '\\' :: 'u' :: v ++ r = u ++ ('\\' :: 'u' :: (v ++ r)) by simp, hn]
      simp only
      rw [if_neg (by omega), if_pos (by omega), hm]
      simp only
      rw [if_pos (by omega), pair_eq]

theorem escape_iff (s r : Text) (e : Char) : escape s = some (e, r) ↔ ∃ t, s = t ++ r ∧ Chr ('\\' :: t) e := by
  constructor
  · intro h
    have sh : ∀ c e' r', (c, e') ∈ short → s = c :: r' → some (e', r') = some (e, r) → ∃ t, s = t ++ r ∧ Chr ('\\' :: t) e := by
      rintro c e' r' h1 rfl h2
      cases h2
      exact ⟨[c], rfl, .short c _ h1⟩
    unfold escape at h
    split at h
    · exact sh _ _ _ (by simp [short]) rfl h
    · exact sh _ _ _ (by simp [short]) rfl h
    · exact sh _ _ _ (by simp [short]) rfl h
    · exact sh _ _ _ (by simp [short]) rfl h
    · exact sh _ _ _ (by simp [short]) rfl h
    · exact sh _ _ _ (by simp [short]) rfl h
    · exact sh _ _ _ (by simp [short]) rfl h
    · exact sh _ _ _ (by simp [short]) rfl h
    · obtain ⟨t, rfl, ht⟩ := (unicodeEscape_iff _ _ _).mp h
      exact ⟨'u' :: t, rfl, ht⟩
    · cases h
  · rintro ⟨t, rfl, h⟩
    have h' := h
    generalize hq : '\\' :: t = q at h
    cases h with
    | plain c h1 h2 => cases hq; exact absurd rfl h2
    | short c e h =>
      cases hq
      simp only [short, List.mem_cons, Prod.mk.injEq, List.not_mem_nil, or_false] at h
      rcases h with ⟨rfl, rfl⟩ | ⟨rfl, rfl⟩ | ⟨rfl, rfl⟩ | ⟨rfl, rfl⟩ | ⟨rfl, rfl⟩ | ⟨rfl, rfl⟩ | ⟨rfl, rfl⟩ | ⟨rfl, rfl⟩ <;> rfl
    | unit u n hu hr => cases hq; exact (unicodeEscape_iff _ _ _).mpr ⟨u, rfl, h'⟩
    | pair u v n m hu hv h1 h2 => cases hq; exact (unicodeEscape_iff _ _ _).mpr ⟨_, rfl, h'⟩

theorem readString_sound : ∀ (n : Nat) (s t r : Text), readString n s = some (t, r) → ∃ u, s = u ++ '"' :: r ∧ Chars u t
  | 0, _, _, _, h => by cases h
  | _ + 1, [], _, _, h => by cases h
  | n + 1, c :: s, t, r, h => by
    rw [readString] at h
    split at h
    · rename_i hc; cases h; subst hc; exact ⟨[], rfl, .nil⟩
    split at h
    · rename_i hq hc
      subst hc
      split at h
      · cases h
      rename_i e r' he
      obtain ⟨u, rfl, hu⟩ := (escape_iff _ _ _).mp he
      cases hx : readString n r' with
      | none => rw [hx] at h; cases h
      | some x =>
        rw [hx] at h
        cases h
        obtain ⟨v, rfl, hv⟩ := readString_sound n r' x.1 x.2 hx
        exact ⟨('\\' :: u) ++ v, by simp, .cons _ _ _ _ hu hv⟩
    split at h
    · cases h
    · rename_i h1 h2 h3
      cases hx : readString n s with
      | none => rw [hx] at h; cases h
      | some x =>
        rw [hx] at h
        cases h
        obtain ⟨v, rfl, hv⟩ := readString_sound n s x.1 x.2 hx
        exact ⟨[c] ++ v, rfl, .cons _ _ _ _ (.plain c h1 h2 (by omega)) hv⟩

theorem chr_ne_nil {t : Text} {c : Char} (h : Chr t c) : t ≠ [] := by cases h <;> (intro h; cases h)

theorem readString_complete {u t : Text} (h : Chars u t) : ∀ (n : Nat) (r : Text), (u ++ '"' :: r).length ≤ n →
    readString n (u ++ '"' :: r) = some (t, r) := by
  induction h with
  | nil =>
    intro n r hn
    cases n with
    | zero => simp at hn
    | succ n => simp [readString]
  | cons t u c s hc _ ih =>
    intro n r hn
    cases n with
    | zero => simp at hn
    | succ n =>
      have step := ih n r (by
        have : t.length ≠ 0 := fun h => chr_ne_nil hc (List.length_eq_zero_iff.mp h)
        simp only [List.length_append, List.length_cons] at hn ⊢
        omega)
      have esc : ∀ q, t = '\\' :: q → readString (n + 1) (t ++ u ++ '"' :: r) = some (c :: s, r) := by
        rintro q rfl
        have he := (escape_iff (q ++ (u ++ '"' :: r)) (u ++ '"' :: r) c).mpr ⟨q, rfl, hc⟩
        have e : '\\' :: q ++ u ++ '"' :: r = '\\' :: (q ++ (u ++ '"' :: r)) := by simp
        rw [e, readString, if_neg (by decide), if_pos rfl, he]
        simp only [step, Option.map_some]
      cases hc with
      | plain c h1 h2 h3 =>
        show readString (n + 1) (c :: (u ++ '"' :: r)) = _
        rw [readString, if_neg h1, if_neg h2, if_neg (by omega), step]
        rfl
      | short c e h => exact esc _ rfl
      | unit => exact esc _ rfl
      | pair => exact esc _ rfl

theorem readQuoted_iff (r : Text) (k rest : Text) : readString (r.length + 1) r = some (k, rest) ↔
    ∃ t, '"' :: r = t ++ rest ∧ Str t (String.ofList k) := by
  constructor
  · intro h
    obtain ⟨u, rfl, hu⟩ := readString_sound _ _ _ _ h
    exact ⟨'"' :: (u ++ ['"']), by simp, u, rfl, by rw [String.toList_ofList]; exact hu⟩
  · rintro ⟨t, h, u, rfl, hu⟩
    rw [String.toList_ofList] at hu
    have e : r = u ++ '"' :: rest := by simpa using h
    subst e
    exact readString_complete hu _ _ (by omega)

end MinaRs.Json
