import Verif.BinProt.PrimLemmas
import Verif.BinProt.PrimSpec

/-! Helper lemmas: complete case descriptions of the integer readers, and their relation to the
wire-format specification (no property theorems here). -/

namespace MinaRs.BinProt
open Prog Spec

theorem intPayload_cases (b : UInt8) :
    (b.toNat ≤ 0x80 ∧ intPayload b = some 0 ∧ b ≠ CODE_INT16 ∧ b ≠ CODE_INT32 ∧ b ≠ CODE_INT64 ∧
      b ≠ CODE_NEG_INT8 ∧ ¬ 0x80 < b) ∨
    (b = CODE_INT16 ∧ intPayload b = some 2) ∨ (b = CODE_INT32 ∧ intPayload b = some 4) ∨
    (b = CODE_INT64 ∧ intPayload b = some 8) ∨ (b = CODE_NEG_INT8 ∧ intPayload b = some 1) ∨
    (0x80 < b ∧ intPayload b = none ∧ b ≠ CODE_INT16 ∧ b ≠ CODE_INT32 ∧ b ≠ CODE_INT64 ∧
      b ≠ CODE_NEG_INT8 ∧ 0x80 < b.toNat ∧ b.toNat < 0xfc) := by
  have : ∀ m, m < 256 → (fun b : UInt8 => (b.toNat ≤ 0x80 ∧ intPayload b = some 0 ∧ b ≠ CODE_INT16 ∧ b ≠ CODE_INT32 ∧ b ≠ CODE_INT64 ∧
      b ≠ CODE_NEG_INT8 ∧ ¬ 0x80 < b) ∨
    (b = CODE_INT16 ∧ intPayload b = some 2) ∨ (b = CODE_INT32 ∧ intPayload b = some 4) ∨
    (b = CODE_INT64 ∧ intPayload b = some 8) ∨ (b = CODE_NEG_INT8 ∧ intPayload b = some 1) ∨
    (0x80 < b ∧ intPayload b = none ∧ b ≠ CODE_INT16 ∧ b ≠ CODE_INT32 ∧ b ≠ CODE_INT64 ∧
      b ≠ CODE_NEG_INT8 ∧ 0x80 < b.toNat ∧ b.toNat < 0xfc)) (UInt8.ofNat m) := by decide +kernel
  have h := this b.toNat b.toNat_lt
  simpa using h

theorem pow8_pos (k : Nat) (hk : 0 < k) : (2:Int) ^ (8 * k) = 2 * 2 ^ (8 * k - 1) := by
  obtain ⟨j, hj⟩ : ∃ j, 8 * k = j + 1 := ⟨8 * k - 1, by omega⟩
  rw [hj, Int.pow_succ]; simp; omega

theorem isSignedLE_iff {p : Bytes} (hp : 0 < p.length) (v : Int) :
    IsSignedLE p v ↔ v = toSigned (8 * p.length) (leNat p) := by
  have hlt := leNat_lt p
  have h2 := pow8_pos p.length hp
  have hc : ((2 ^ (8 * p.length - 1) : Nat) : Int) = 2 ^ (8 * p.length - 1) := by simp
  have hL : (leNat p : Int) < 2 ^ (8 * p.length) := by
    have : ((256 ^ p.length : Nat) : Int) = 2 ^ (8 * p.length) := by
      rw [Int.pow_mul]; simp
    rw [← this]; exact Int.ofNat_lt.mpr hlt
  have hpos : (0 : Int) < 2 ^ (8 * p.length - 1) := Int.pow_pos (by decide)
  unfold IsSignedLE toSigned
  generalize (2:Int) ^ (8 * p.length) = M at *
  generalize hH : (2:Int) ^ (8 * p.length - 1) = H at *
  generalize (leNat p) = L at *
  generalize (2 ^ (8 * p.length - 1) : Nat) = Hn at *
  subst h2
  constructor
  · rintro ⟨ha, hb, hm⟩
    by_cases h0 : 0 ≤ v
    · rw [Int.emod_eq_of_lt h0 (by omega)] at hm
      rw [if_pos (by omega)]; exact hm
    · have : v % (2 * H) = v + 2 * H := by
        rw [← Int.add_emod_right]
        exact Int.emod_eq_of_lt (by omega) (by omega)
      rw [this] at hm
      rw [if_neg (by omega)]; omega
  · intro hv
    split at hv
    · subst hv
      refine ⟨by omega, by omega, Int.emod_eq_of_lt (by omega) (by omega)⟩
    · subst hv
      refine ⟨by omega, by omega, ?_⟩
      rw [← Int.add_emod_right]
      rw [show (L : Int) - 2 * H + 2 * H = L by omega]
      exact Int.emod_eq_of_lt (by omega) (by omega)

/-- Full case description of the integer reader by lead byte. -/
theorem binReadInteger_run (t : IntTy) (s : Bytes) :
    (binReadInteger t).run s = match s with
      | [] => .error .eof
      | b :: r => match intPayload b with
        | none => .error (.invalidIntegerByte b)
        | some 0 => if t.holds b.toNat then .ok ((b.toNat : Int), r) else .error .destinationIntegerOverflow
        | some k => if r.length < k then .error .eof else
            if t.holds (toSigned (8 * k) (leNat (r.take k))) then
              .ok (toSigned (8 * k) (leNat (r.take k)), r.drop k)
            else .error .destinationIntegerOverflow := by
  have wide : ∀ (k : Nat) (r : Bytes), (do let v ← readIntLE k; fromPrimitive t v : Prog Int).run r =
      if r.length < k then .error .eof else
            if t.holds (toSigned (8 * k) (leNat (r.take k))) then
              .ok (toSigned (8 * k) (leNat (r.take k)), r.drop k)
            else .error .destinationIntegerOverflow := by
    intro k r
    by_cases h : r.length < k
    · rw [run_bind_error (readIntLE_short h), if_pos h]
    · rw [if_neg h]
      have e : r = r.take k ++ r.drop k := by simp
      conv => lhs; rw [e]
      rw [run_bind_ok (readIntLE_append (by simp; omega))]
      unfold fromPrimitive
      split <;> simp
  cases s with
  | nil => exact run_bind_error readU8_nil
  | cons b r =>
    unfold binReadInteger
    rw [run_bind_ok (readU8_cons b r)]
    rcases intPayload_cases b with ⟨h1, hp, a, b', c, d, e⟩ | ⟨h1, hp⟩ | ⟨h1, hp⟩ | ⟨h1, hp⟩ |
      ⟨h1, hp⟩ | ⟨h1, hp, a, b', c, d, e⟩
    · simp only [a, b', c, d, e, if_false, hp]
      unfold fromPrimitive
      split <;> simp
    · simp only [hp]; subst h1; rw [if_pos rfl]; exact wide 2 r
    · simp only [hp]; subst h1; rw [if_neg (by decide), if_pos rfl]; exact wide 4 r
    · simp only [hp]; subst h1; rw [if_neg (by decide), if_neg (by decide), if_pos rfl]; exact wide 8 r
    · simp only [hp]; subst h1
      rw [if_neg (by decide), if_neg (by decide), if_neg (by decide), if_pos rfl]; exact wide 1 r
    · simp only [a, b', c, d, h1, if_false, if_true, hp, run_fail]


theorem natPayload_cases (b : UInt8) :
    (b.toNat ≤ 0x80 ∧ natPayload b = some 0 ∧ b ≠ CODE_INT16 ∧ b ≠ CODE_INT32 ∧ b ≠ CODE_INT64 ∧
      ¬ 0x80 < b) ∨
    (b = CODE_INT16 ∧ natPayload b = some 2) ∨ (b = CODE_INT32 ∧ natPayload b = some 4) ∨
    (b = CODE_INT64 ∧ natPayload b = some 8) ∨
    (0x80 < b ∧ natPayload b = none ∧ b ≠ CODE_INT16 ∧ b ≠ CODE_INT32 ∧ b ≠ CODE_INT64 ∧
      0x80 < b.toNat) := by
  have : ∀ m, m < 256 → (fun b : UInt8 => (b.toNat ≤ 0x80 ∧ natPayload b = some 0 ∧ b ≠ CODE_INT16 ∧ b ≠ CODE_INT32 ∧ b ≠ CODE_INT64 ∧
      ¬ 0x80 < b) ∨
    (b = CODE_INT16 ∧ natPayload b = some 2) ∨ (b = CODE_INT32 ∧ natPayload b = some 4) ∨
    (b = CODE_INT64 ∧ natPayload b = some 8) ∨
    (0x80 < b ∧ natPayload b = none ∧ b ≠ CODE_INT16 ∧ b ≠ CODE_INT32 ∧ b ≠ CODE_INT64 ∧
      0x80 < b.toNat)) (UInt8.ofNat m) := by decide +kernel
  have h := this b.toNat b.toNat_lt
  simpa using h

/-- Full case description of the Nat0 reader by lead byte. -/
theorem binReadNat0_run (t : IntTy) (s : Bytes) :
    (binReadNat0 t).run s = match s with
      | [] => .error .eof
      | b :: r => match natPayload b with
        | none => .error (.invalidIntegerByte b)
        | some 0 => if t.holds b.toNat then .ok ((b.toNat : Int), r) else .error .destinationIntegerOverflow
        | some k => if r.length < k then .error .eof else
            if t.holds (leNat (r.take k)) then .ok ((leNat (r.take k) : Int), r.drop k)
            else .error .destinationIntegerOverflow := by
  have wide : ∀ (k : Nat) (r : Bytes), (do let v ← readUintLE k; fromPrimitive t v : Prog Int).run r =
      if r.length < k then .error .eof else
            if t.holds (leNat (r.take k)) then .ok ((leNat (r.take k) : Int), r.drop k)
            else .error .destinationIntegerOverflow := by
    intro k r
    by_cases h : r.length < k
    · rw [run_bind_error (readUintLE_short h), if_pos h]
    · rw [if_neg h]
      have e : r = r.take k ++ r.drop k := by simp
      conv => lhs; rw [e]
      rw [run_bind_ok (readUintLE_append (by simp; omega))]
      unfold fromPrimitive
      split <;> simp
  cases s with
  | nil => exact run_bind_error readU8_nil
  | cons b r =>
    unfold binReadNat0
    rw [run_bind_ok (readU8_cons b r)]
    rcases natPayload_cases b with ⟨h1, hp, a, b', c, e⟩ | ⟨h1, hp⟩ | ⟨h1, hp⟩ | ⟨h1, hp⟩ |
      ⟨h1, hp, a, b', c, e⟩
    · simp only [a, b', c, e, if_false, hp]
      unfold fromPrimitive
      split <;> simp
    · simp only [hp]; subst h1; rw [if_pos rfl]; exact wide 2 r
    · simp only [hp]; subst h1; rw [if_neg (by decide), if_pos rfl]; exact wide 4 r
    · simp only [hp]; subst h1; rw [if_neg (by decide), if_neg (by decide), if_pos rfl]; exact wide 8 r
    · simp only [a, b', c, h1, if_false, if_true, hp, run_fail]


/-! Reading in terms of the wire-format specification. -/

theorem WireInt.of_lead {b : UInt8} {r : Bytes} {v : Int} (h : WireInt (b :: r) v) :
    (intPayload b = some 0 ∧ r = [] ∧ v = b.toNat) ∨
    ∃ k, 0 < k ∧ intPayload b = some k ∧ r.length = k ∧ v = toSigned (8 * k) (leNat r) := by
  cases h with
  | small _ h => exact .inl ⟨by simp [intPayload, h], rfl, rfl⟩
  | wide _ k _ _ hl hk hp hv =>
    subst hp
    exact .inr ⟨_, hk, hl, rfl, (isSignedLE_iff hk v).mp hv⟩

theorem WireNat.of_lead {b : UInt8} {r : Bytes} {v : Nat} (h : WireNat (b :: r) v) :
    (natPayload b = some 0 ∧ r = [] ∧ v = b.toNat) ∨
    ∃ k, 0 < k ∧ natPayload b = some k ∧ r.length = k ∧ v = leNat r := by
  cases h with
  | small _ h => exact .inl ⟨by simp [natPayload, h], rfl, rfl⟩
  | wide _ k _ hl hk hp => exact .inr ⟨_, hk, hl, hp, rfl⟩

theorem intPayload_zero {b : UInt8} (h : intPayload b = some 0) : b.toNat ≤ 0x80 := by
  rcases intPayload_cases b with h1 | ⟨_, hp⟩ | ⟨_, hp⟩ | ⟨_, hp⟩ | ⟨_, hp⟩ | ⟨_, hp, _⟩
  · exact h1.1
  all_goals simp [hp] at h

theorem natPayload_zero {b : UInt8} (h : natPayload b = some 0) : b.toNat ≤ 0x80 := by
  rcases natPayload_cases b with h1 | ⟨_, hp⟩ | ⟨_, hp⟩ | ⟨_, hp⟩ | ⟨_, hp, _⟩
  · exact h1.1
  all_goals simp [hp] at h

/-- Every complete wire form is read as its value, or refused only for not fitting. -/
theorem binReadInteger_wire (t : IntTy) {enc : Bytes} {v : Int} (h : WireInt enc v) (rest : Bytes) :
    (binReadInteger t).run (enc ++ rest) =
      if t.holds v then .ok (v, rest) else .error .destinationIntegerOverflow := by
  rw [binReadInteger_run]
  cases enc with
  | nil => cases h
  | cons b p =>
    rcases WireInt.of_lead h with ⟨hp, rfl, rfl⟩ | ⟨k, hk, hp, hl, rfl⟩
    · simp [hp]
    · obtain ⟨j, rfl⟩ : ∃ j, k = j + 1 := ⟨k - 1, by omega⟩
      have h1 : ¬ (p ++ rest).length < j + 1 := by simp; omega
      have h2 : (p ++ rest).take (j + 1) = p := by rw [← hl]; simp
      have h3 : (p ++ rest).drop (j + 1) = rest := by rw [← hl]; simp
      simp only [List.cons_append, hp, h1, if_false, h2, h3]

theorem binReadNat0_wire (t : IntTy) {enc : Bytes} {v : Nat} (h : WireNat enc v) (rest : Bytes) :
    (binReadNat0 t).run (enc ++ rest) =
      if t.holds v then .ok ((v : Int), rest) else .error .destinationIntegerOverflow := by
  rw [binReadNat0_run]
  cases enc with
  | nil => cases h
  | cons b p =>
    rcases WireNat.of_lead h with ⟨hp, rfl, rfl⟩ | ⟨k, hk, hp, hl, rfl⟩
    · simp [hp]
    · obtain ⟨j, rfl⟩ : ∃ j, k = j + 1 := ⟨k - 1, by omega⟩
      have h1 : ¬ (p ++ rest).length < j + 1 := by simp; omega
      have h2 : (p ++ rest).take (j + 1) = p := by rw [← hl]; simp
      have h3 : (p ++ rest).drop (j + 1) = rest := by rw [← hl]; simp
      simp only [List.cons_append, hp, h1, if_false, h2, h3]

/-- Any input is empty, starts with a complete wire form, starts with an illegal byte, or is a
truncated wire form. -/
theorem wireInt_split (s : Bytes) :
    s = [] ∨ (∃ enc rest v, s = enc ++ rest ∧ WireInt enc v) ∨
    (∃ b r, s = b :: r ∧ intPayload b = none) ∨
    (∃ b r k, s = b :: r ∧ intPayload b = some k ∧ r.length < k) := by
  cases s with
  | nil => exact .inl rfl
  | cons b r =>
    right
    cases hp : intPayload b with
    | none => exact .inr (.inl ⟨b, r, rfl, hp⟩)
    | some k =>
      by_cases hk : k = 0
      · subst hk
        exact .inl ⟨[b], r, _, rfl, .small b (intPayload_zero hp)⟩
      · by_cases hl : r.length < k
        · exact .inr (.inr ⟨b, r, k, rfl, hp, hl⟩)
        · refine .inl ⟨b :: r.take k, r.drop k, toSigned (8 * k) (leNat (r.take k)), by simp, ?_⟩
          have hlen : (r.take k).length = k := by simp; omega
          refine .wide b k _ _ hp (by omega) hlen ?_
          have := (isSignedLE_iff (p := r.take k) (by omega) (toSigned (8 * k) (leNat (r.take k)))).mpr
          rw [hlen] at this
          exact this rfl

theorem wireNat_split (s : Bytes) :
    s = [] ∨ (∃ enc rest v, s = enc ++ rest ∧ WireNat enc v) ∨
    (∃ b r, s = b :: r ∧ natPayload b = none) ∨
    (∃ b r k, s = b :: r ∧ natPayload b = some k ∧ r.length < k) := by
  cases s with
  | nil => exact .inl rfl
  | cons b r =>
    right
    cases hp : natPayload b with
    | none => exact .inr (.inl ⟨b, r, rfl, hp⟩)
    | some k =>
      by_cases hk : k = 0
      · subst hk
        exact .inl ⟨[b], r, _, rfl, .small b (natPayload_zero hp)⟩
      · by_cases hl : r.length < k
        · exact .inr (.inr ⟨b, r, k, rfl, hp, hl⟩)
        · have hlen : (r.take k).length = k := by simp; omega
          exact .inl ⟨b :: r.take k, r.drop k, _, by simp, .wide b k _ hp (by omega) hlen⟩

theorem binReadInteger_bad (t : IntTy) {b : UInt8} (h : intPayload b = none) (r : Bytes) :
    (binReadInteger t).run (b :: r) = .error (.invalidIntegerByte b) := by
  rw [binReadInteger_run]; simp [h]

theorem binReadNat0_bad (t : IntTy) {b : UInt8} (h : natPayload b = none) (r : Bytes) :
    (binReadNat0 t).run (b :: r) = .error (.invalidIntegerByte b) := by
  rw [binReadNat0_run]; simp [h]

theorem binReadInteger_short (t : IntTy) {b : UInt8} {k : Nat} (h : intPayload b = some k) {r : Bytes}
    (hr : r.length < k) : (binReadInteger t).run (b :: r) = .error .eof := by
  rw [binReadInteger_run]
  obtain ⟨j, rfl⟩ : ∃ j, k = j + 1 := ⟨k - 1, by omega⟩
  simp [h, hr]

theorem binReadNat0_short (t : IntTy) {b : UInt8} {k : Nat} (h : natPayload b = some k) {r : Bytes}
    (hr : r.length < k) : (binReadNat0 t).run (b :: r) = .error .eof := by
  rw [binReadNat0_run]
  obtain ⟨j, rfl⟩ : ∃ j, k = j + 1 := ⟨k - 1, by omega⟩
  simp [h, hr]


theorem leNat_inj {a b : Bytes} (hl : a.length = b.length) (h : leNat a = leNat b) : a = b := by
  rw [← leBytes_leNat a, ← leBytes_leNat b, hl, h]

theorem intPayload_inj {a b : UInt8} {k : Nat} (hk : 0 < k) (ha : intPayload a = some k)
    (hb : intPayload b = some k) : a = b := by
  rcases intPayload_cases a with ⟨_, hp, _⟩ | ⟨h, hp⟩ | ⟨h, hp⟩ | ⟨h, hp⟩ | ⟨h, hp⟩ | ⟨_, hp, _⟩ <;>
  rcases intPayload_cases b with ⟨_, hp', _⟩ | ⟨h', hp'⟩ | ⟨h', hp'⟩ | ⟨h', hp'⟩ | ⟨h', hp'⟩ | ⟨_, hp', _⟩ <;>
  rw [hp] at ha <;> rw [hp'] at hb <;> simp at ha hb <;> first | omega | (rw [h, h'])

theorem natPayload_inj {a b : UInt8} {k : Nat} (hk : 0 < k) (ha : natPayload a = some k)
    (hb : natPayload b = some k) : a = b := by
  rcases natPayload_cases a with ⟨_, hp, _⟩ | ⟨h, hp⟩ | ⟨h, hp⟩ | ⟨h, hp⟩ | ⟨_, hp, _⟩ <;>
  rcases natPayload_cases b with ⟨_, hp', _⟩ | ⟨h', hp'⟩ | ⟨h', hp'⟩ | ⟨h', hp'⟩ | ⟨_, hp', _⟩ <;>
  rw [hp] at ha <;> rw [hp'] at hb <;> simp at ha hb <;> first | omega | (rw [h, h'])

/-- Two wire forms of the same value with the same length are equal. -/
theorem wireInt_eq {a b : Bytes} {v : Int} (ha : WireInt a v) (hb : WireInt b v)
    (hl : a.length = b.length) : a = b := by
  cases a with
  | nil => cases ha
  | cons x p =>
  cases b with
  | nil => cases hb
  | cons y q =>
    simp only [List.length_cons] at hl
    rcases WireInt.of_lead ha with ⟨h1, rfl, h3⟩ | ⟨k, hk, h1, h2, h3⟩ <;>
    rcases WireInt.of_lead hb with ⟨h1', rfl, h3'⟩ | ⟨k', hk', h1', h2', h3'⟩
    · simp only [List.cons.injEq, and_true]; apply UInt8.toNat_inj.mp; omega
    · simp only [List.length_nil] at hl; omega
    · simp only [List.length_nil] at hl; omega
    · obtain rfl : k = k' := by omega
      obtain rfl := intPayload_inj hk h1 h1'
      congr 1
      refine leNat_inj (by omega) ?_
      have e1 := (isSignedLE_iff (p := p) (by omega) v).mpr (by rw [h2]; exact h3)
      have e2 := (isSignedLE_iff (p := q) (by omega) v).mpr (by rw [h2']; exact h3')
      have := e1.2.2
      have := e2.2.2
      rw [h2] at *
      rw [h2'] at *
      omega

theorem wireNat_eq {a b : Bytes} {v : Nat} (ha : WireNat a v) (hb : WireNat b v)
    (hl : a.length = b.length) : a = b := by
  cases a with
  | nil => cases ha
  | cons x p =>
  cases b with
  | nil => cases hb
  | cons y q =>
    simp only [List.length_cons] at hl
    rcases WireNat.of_lead ha with ⟨h1, rfl, h3⟩ | ⟨k, hk, h1, h2, h3⟩ <;>
    rcases WireNat.of_lead hb with ⟨h1', rfl, h3'⟩ | ⟨k', hk', h1', h2', h3'⟩
    · simp only [List.cons.injEq, and_true]; apply UInt8.toNat_inj.mp; omega
    · simp only [List.length_nil] at hl; omega
    · simp only [List.length_nil] at hl; omega
    · obtain rfl : k = k' := by omega
      obtain rfl := natPayload_inj hk h1 h1'
      congr 1
      exact leNat_inj (by omega) (by omega)

theorem intPayload_values {b : UInt8} {k : Nat} (h : intPayload b = some k) :
    k = 0 ∨ k = 1 ∨ k = 2 ∨ k = 4 ∨ k = 8 := by
  rcases intPayload_cases b with ⟨_, hp, _⟩ | ⟨_, hp⟩ | ⟨_, hp⟩ | ⟨_, hp⟩ | ⟨_, hp⟩ | ⟨_, hp, _⟩ <;>
  rw [hp] at h <;> simp at h <;> omega

theorem natPayload_values {b : UInt8} {k : Nat} (h : natPayload b = some k) :
    k = 0 ∨ k = 2 ∨ k = 4 ∨ k = 8 := by
  rcases natPayload_cases b with ⟨_, hp, _⟩ | ⟨_, hp⟩ | ⟨_, hp⟩ | ⟨_, hp⟩ | ⟨_, hp, _⟩ <;>
  rw [hp] at h <;> simp at h <;> omega

theorem intBytes_length (n : Int) : (intBytes n).length =
    if 0 ≤ n ∧ n < 0x80 then 1 else if -0x80 ≤ n ∧ n < 0 then 2
    else if -0x8000 ≤ n ∧ n < 0x8000 then 3 else if -0x80000000 ≤ n ∧ n < 0x80000000 then 5 else 9 := by
  unfold intBytes binWriteInteger
  repeat' split
  all_goals simp [WOp.bytes]
  all_goals omega

theorem natBytes_length (n : Nat) : (natBytes n).length =
    if n < 0x80 then 1 else if n < 0x10000 then 3 else if n < 0x100000000 then 5 else 9 := by
  unfold natBytes binWriteNat0
  repeat' split
  all_goals simp [WOp.bytes]

theorem wireInt_minimal {n : Int} (hn : i64.holds n) (h128 : n ≠ 128) {enc : Bytes} (hw : WireInt enc n)
    (hw' : WireInt (intBytes n) n) :
    (intBytes n).length ≤ enc.length ∧ (enc.length = (intBytes n).length → enc = intBytes n) := by
  refine ⟨?_, fun h => wireInt_eq hw hw' h⟩
  rw [intBytes_length]
  cases hw with
  | small b hb => simp; repeat' split
                  all_goals omega
  | wide l k p _ h1 hk hp hv =>
    obtain ⟨h2, h3, -⟩ := hv
    rw [List.length_cons]
    rcases intPayload_values h1 with h | h | h | h | h <;> subst h <;> rw [hp] at h2 h3 ⊢ <;>
      simp only [Nat.reduceMul, Nat.reduceSub] at h2 h3 <;> repeat' split
    all_goals omega

theorem wireNat_minimal {n : Nat} (hn : n < 2 ^ 64) (h128 : n ≠ 128) {enc : Bytes} (hw : WireNat enc n)
    (hw' : WireNat (natBytes n) n) :
    (natBytes n).length ≤ enc.length ∧ (enc.length = (natBytes n).length → enc = natBytes n) := by
  refine ⟨?_, fun h => wireNat_eq hw hw' h⟩
  rw [natBytes_length]
  cases hw with
  | small b hb => simp; repeat' split
                  all_goals omega
  | wide l k p h1 hk hp =>
    have := leNat_lt p
    rw [hp] at this
    rw [List.length_cons]
    rcases natPayload_values h1 with h | h | h | h <;> subst h <;> rw [hp] <;> repeat' split
    all_goals omega

theorem shl1_or1_toNat (i : UInt32) : ((i <<< 1) ||| 1).toNat = 2 * (i.toNat % 2 ^ 31) + 1 := by
  have h : (i <<< 1).toNat = 2 * (i.toNat % 2 ^ 31) := by
    rw [UInt32.toNat_shiftLeft]
    simp only [UInt32.reduceToNat, Nat.reduceMod, Nat.shiftLeft_eq, Nat.pow_one]
    omega
  rw [UInt32.toNat_or, h]
  simp only [UInt32.reduceToNat]
  have := Nat.two_pow_add_eq_or_of_lt (i := 1) (b := 1) (by decide) (i.toNat % 2 ^ 31)
  simp only [Nat.pow_one] at this
  rw [← this]

theorem camlHash_fold (label : Bytes) (acc : UInt32) (acc' : Nat) (h : acc.toNat = acc' % 2 ^ 32) :
    (label.foldl (fun accu byte => 223 * accu + byte.toUInt32) acc).toNat =
      (label.foldl (fun h b => 223 * h + b.toNat) acc') % 2 ^ 32 := by
  induction label generalizing acc acc' with
  | nil => simpa using h
  | cons b bs ih =>
    simp only [List.foldl_cons]
    apply ih
    simp only [UInt32.toNat_add, UInt32.toNat_mul, UInt8.toNat_toUInt32, UInt32.reduceToNat, h]
    omega

theorem camlHashVariant_toNat (label : Bytes) : (camlHashVariant label).toNat =
    (label.foldl (fun h b => 223 * h + b.toNat) 0) % 2 ^ 32 :=
  camlHash_fold label 0 0 rfl

end MinaRs.BinProt
