import Verif.Json.Base64Spec
import Verif.Json.TextLemmas

/-! # Lemmas: exactly the base64 texts are decoded -/

namespace MinaRs.Codec

open Text (Text)
open Spec

theorem alphabet64_length : alphabet64.length = 64 := by decide +kernel

theorem alphabet64_nodup : alphabet64.Nodup := by decide +kernel

theorem digit64_iff (c : Char) (d : Nat) : digit64 c = some d ↔ alphabet64[d]? = some c := by
  unfold digit64
  rw [List.findIdx?_eq_some_iff_getElem]
  constructor
  · rintro ⟨h, h1, -⟩
    rw [List.getElem?_eq_getElem h, eq_of_beq h1]
  · intro h
    obtain ⟨hd, he⟩ := List.getElem?_eq_some_iff.mp h
    refine ⟨hd, by rw [he]; exact beq_self_eq_true c, ?_⟩
    intro j hj hb
    have := (List.getElem_inj alphabet64_nodup).mp ((eq_of_beq hb).trans he.symm)
    omega

theorem digit64_lt {c : Char} {d : Nat} (h : digit64 c = some d) : d < 64 := by
  obtain ⟨hd, -⟩ := List.getElem?_eq_some_iff.mp ((digit64_iff c d).mp h)
  rw [alphabet64_length] at hd
  exact hd

theorem pad_no_digit (d : Nat) : alphabet64[d]? ≠ some '=' := by
  intro h
  have := (digit64_iff '=' d).mpr h
  rw [show digit64 '=' = none by decide +kernel] at this
  cases this

theorem ofNat_toNat {n : Nat} (h : n < 256) : (UInt8.ofNat n).toNat = n := UInt8.toNat_ofNat_of_lt' h

theorem tail2_iff (a b : Char) (bs : Bytes) : tail2 a b = .ok bs ↔
    ∃ x : UInt8, bs = [x] ∧ alphabet64[x.toNat / 4]? = some a ∧ alphabet64[x.toNat % 4 * 16]? = some b := by
  unfold tail2
  constructor
  · intro h
    split at h
    · rename_i x y hx hy
      split at h
      · rename_i h0
        cases h
        have lx := digit64_lt hx
        have ly := digit64_lt hy
        refine ⟨_, rfl, ?_, ?_⟩
        · rw [ofNat_toNat (by omega), show (x * 4 + y / 16) / 4 = x by omega]
          exact (digit64_iff _ _).mp hx
        · rw [ofNat_toNat (by omega), show (x * 4 + y / 16) % 4 * 16 = y by omega]
          exact (digit64_iff _ _).mp hy
      · cases h
    · cases h
  · rintro ⟨x, rfl, h1, h2⟩
    rw [(digit64_iff _ _).mpr h1, (digit64_iff _ _).mpr h2]
    have := x.toNat_lt
    dsimp only
    rw [if_pos (by omega), show x.toNat / 4 * 4 + x.toNat % 4 * 16 / 16 = x.toNat by omega, UInt8.ofNat_toNat]

theorem tail3_iff (a b c : Char) (bs : Bytes) : tail3 a b c = .ok bs ↔
    ∃ x y : UInt8, bs = [x, y] ∧ alphabet64[x.toNat / 4]? = some a ∧ alphabet64[x.toNat % 4 * 16 + y.toNat / 16]? = some b ∧
      alphabet64[y.toNat % 16 * 4]? = some c := by
  unfold tail3
  constructor
  · intro h
    split at h
    · rename_i x y z hx hy hz
      split at h
      · rename_i h0
        cases h
        have lx := digit64_lt hx
        have ly := digit64_lt hy
        have lz := digit64_lt hz
        refine ⟨_, _, rfl, ?_, ?_, ?_⟩
        · rw [ofNat_toNat (by omega), show (x * 4 + y / 16) / 4 = x by omega]
          exact (digit64_iff _ _).mp hx
        · rw [ofNat_toNat (by omega), ofNat_toNat (by omega),
            show (x * 4 + y / 16) % 4 * 16 + (y % 16 * 16 + z / 4) / 16 = y by omega]
          exact (digit64_iff _ _).mp hy
        · rw [ofNat_toNat (by omega), show (y % 16 * 16 + z / 4) % 16 * 4 = z by omega]
          exact (digit64_iff _ _).mp hz
      · cases h
    · cases h
  · rintro ⟨x, y, rfl, h1, h2, h3⟩
    rw [(digit64_iff _ _).mpr h1, (digit64_iff _ _).mpr h2, (digit64_iff _ _).mpr h3]
    have := x.toNat_lt
    have := y.toNat_lt
    dsimp only
    rw [if_pos (by omega), show x.toNat / 4 * 4 + (x.toNat % 4 * 16 + y.toNat / 16) / 16 = x.toNat by omega,
      show (x.toNat % 4 * 16 + y.toNat / 16) % 16 * 16 + y.toNat % 16 * 4 / 4 = y.toNat by omega, UInt8.ofNat_toNat,
      UInt8.ofNat_toNat]

theorem quad_iff (a b c d : Char) (bs : Bytes) : quad a b c d = .ok bs ↔
    ∃ x y z : UInt8, bs = [x, y, z] ∧ alphabet64[x.toNat / 4]? = some a ∧
      alphabet64[x.toNat % 4 * 16 + y.toNat / 16]? = some b ∧ alphabet64[y.toNat % 16 * 4 + z.toNat / 64]? = some c ∧
      alphabet64[z.toNat % 64]? = some d := by
  unfold quad
  constructor
  · intro h
    split at h
    · rename_i x y z w hx hy hz hw
      cases h
      have lx := digit64_lt hx
      have ly := digit64_lt hy
      have lz := digit64_lt hz
      have lw := digit64_lt hw
      refine ⟨_, _, _, rfl, ?_, ?_, ?_, ?_⟩
      · rw [ofNat_toNat (by omega), show (x * 4 + y / 16) / 4 = x by omega]
        exact (digit64_iff _ _).mp hx
      · rw [ofNat_toNat (by omega), ofNat_toNat (by omega),
          show (x * 4 + y / 16) % 4 * 16 + (y % 16 * 16 + z / 4) / 16 = y by omega]
        exact (digit64_iff _ _).mp hy
      · rw [ofNat_toNat (by omega), ofNat_toNat (by omega),
          show (y % 16 * 16 + z / 4) % 16 * 4 + (z % 4 * 64 + w) / 64 = z by omega]
        exact (digit64_iff _ _).mp hz
      · rw [ofNat_toNat (by omega), show (z % 4 * 64 + w) % 64 = w by omega]
        exact (digit64_iff _ _).mp hw
    · cases h
  · rintro ⟨x, y, z, rfl, h1, h2, h3, h4⟩
    rw [(digit64_iff _ _).mpr h1, (digit64_iff _ _).mpr h2, (digit64_iff _ _).mpr h3, (digit64_iff _ _).mpr h4]
    have := x.toNat_lt
    have := y.toNat_lt
    have := z.toNat_lt
    dsimp only
    rw [show x.toNat / 4 * 4 + (x.toNat % 4 * 16 + y.toNat / 16) / 16 = x.toNat by omega,
      show (x.toNat % 4 * 16 + y.toNat / 16) % 16 * 16 + (y.toNat % 16 * 4 + z.toNat / 64) / 4 = y.toNat by omega,
      show (y.toNat % 16 * 4 + z.toNat / 64) % 4 * 64 + z.toNat % 64 = z.toNat by omega, UInt8.ofNat_toNat, UInt8.ofNat_toNat,
      UInt8.ofNat_toNat]

theorem decode64_sound (t : Text) : ∀ bs, decode64 t = .ok bs → Base64 alphabet64 t bs := by
  fun_induction decode64 t with
  | case1 => intro bs h; cases h; exact .nil
  | case2 => intro bs h; cases h
  | case3 a b =>
    intro bs h
    obtain ⟨x, rfl, h1, h2⟩ := (tail2_iff a b bs).mp h
    exact .one a b [] x h1 h2 (by simp)
  | case4 a b =>
    intro bs h
    obtain ⟨x, rfl, h1, h2⟩ := (tail2_iff a b bs).mp h
    exact .one a b ['='] x h1 h2 (by simp)
  | case5 a b c hc =>
    intro bs h
    obtain ⟨x, y, rfl, h1, h2, h3⟩ := (tail3_iff a b c bs).mp h
    exact .two a b c [] x y h1 h2 h3 (by simp)
  | case6 a b =>
    intro bs h
    obtain ⟨x, rfl, h1, h2⟩ := (tail2_iff a b bs).mp h
    exact .one a b ['=', '='] x h1 h2 (by simp)
  | case7 a b c hc =>
    intro bs h
    obtain ⟨x, y, rfl, h1, h2, h3⟩ := (tail3_iff a b c bs).mp h
    exact .two a b c ['='] x y h1 h2 h3 (by simp)
  | case8 a b c d hd =>
    intro bs h
    obtain ⟨x, y, z, rfl, h1, h2, h3, h4⟩ := (quad_iff a b c d bs).mp h
    exact .more a b c d [] x y z [] h1 h2 h3 h4 .nil
  | case9 a b c d rest hr xs ys hrest hq ih =>
    intro bs h
    cases h
    obtain ⟨x, y, z, rfl, h1, h2, h3, h4⟩ := (quad_iff a b c d xs).mp hq
    exact .more a b c d rest x y z ys h1 h2 h3 h4 (ih ys hrest)
  | case10 => intro bs h; cases h
  | case11 => intro bs h; cases h

theorem decode64_complete {t : Text} {bs : Bytes} (h : Base64 alphabet64 t bs) : decode64 t = .ok bs := by
  induction h with
  | nil => rfl
  | one a b pad x h1 h2 hp =>
    have := (tail2_iff a b [x]).mpr ⟨x, rfl, h1, h2⟩
    simp only [List.mem_cons, List.not_mem_nil, or_false] at hp
    rcases hp with rfl | rfl | rfl
    · rw [decode64, this]
    · rw [decode64, if_pos rfl, this]
    · rw [decode64, if_pos rfl, if_pos rfl, this]
  | two a b c pad x y h1 h2 h3 hp =>
    have := (tail3_iff a b c [x, y]).mpr ⟨x, y, rfl, h1, h2, h3⟩
    have hc : c ≠ '=' := by rintro rfl; exact pad_no_digit _ h3
    simp only [List.mem_cons, List.not_mem_nil, or_false] at hp
    rcases hp with rfl | rfl
    · rw [decode64, if_neg hc, this]
    · rw [decode64, if_pos rfl, if_neg hc, this]
  | more a b c d t x y z bs h1 h2 h3 h4 _ ih =>
    have := (quad_iff a b c d [x, y, z]).mpr ⟨x, y, z, rfl, h1, h2, h3, h4⟩
    have hd : d ≠ '=' := by rintro rfl; exact pad_no_digit _ h4
    cases t with
    | nil =>
      cases ih
      rw [decode64, if_neg hd, this]
    | cons e t =>
      rw [decode64, this, ih]
      · rfl
      · intro h; cases h

/-- Exactly the base64 texts are decoded. -/
theorem decode64_iff (t : Text) (bs : Bytes) : decode64 t = .ok bs ↔ Base64 alphabet64 t bs :=
  ⟨decode64_sound t bs, decode64_complete⟩

/-- A text says one sequence of bytes. -/
theorem base64_unique {t : Text} {bs bs' : Bytes} (h : Base64 alphabet64 t bs) (h' : Base64 alphabet64 t bs') : bs = bs' := by
  have := (decode64_iff t bs).mpr h
  rw [(decode64_iff t bs').mpr h'] at this
  exact (Except.ok.inj this).symm

end MinaRs.Codec
