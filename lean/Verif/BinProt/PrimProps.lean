import Verif.BinProt.PrimCases

/-!
# Properties of the bin_prot primitives (C01 - C06)
-/

namespace MinaRs.BinProt
open Prog Spec

/-! ## C01 -/

/-- **C01.** Any i64 written with `bin_write_integer` is read back by `bin_read_integer` into
any integer type that holds it, leaving exactly the following bytes; the reported count is
the number of bytes produced. -/
theorem C01_integer_roundtrip (n : Int) (hn : i64.holds n) (t : IntTy) (ht : t.holds n)
    (rest : Bytes) :
    (binReadInteger t).run (flush (binWriteInteger n).1 ++ rest) = .ok (n, rest) ∧
      (binWriteInteger n).2 = (flush (binWriteInteger n).1).length :=
  ⟨binReadInteger_write hn ht rest, binWriteInteger_count n⟩

example : i64.holds (-40000) ∧ i32.holds (-40000) ∧
    flush (binWriteInteger (-40000)).1 = [0xfd, 0xc0, 0x63, 0xff, 0xff] := by decide

/-! ## C02 -/


/-- **C02.** What reading an integer into a destination type returns, for every input:
success with value `v` exactly when the input starts with a wire form of `v` and `v` fits the
type (and then the rest is what follows that form); overflow exactly when it starts with a
wire form of a value that does not fit; `InvalidIntegerByte` exactly for an illegal lead byte;
end-of-input exactly when the input is empty or a truncated wire form. -/
theorem C02_integer_read_exact (t : IntTy) (s : Bytes) :
    (∀ v rest, (binReadInteger t).run s = .ok (v, rest) ↔
      ∃ enc, s = enc ++ rest ∧ WireInt enc v ∧ t.holds v) ∧
    ((binReadInteger t).run s = .error .destinationIntegerOverflow ↔
      ∃ enc rest v, s = enc ++ rest ∧ WireInt enc v ∧ ¬ t.holds v) ∧
    (∀ b, (binReadInteger t).run s = .error (.invalidIntegerByte b) ↔
      ∃ rest, s = b :: rest ∧ 0x80 < b.toNat ∧ b.toNat < 0xfc) ∧
    ((binReadInteger t).run s = .error .eof ↔
      s = [] ∨ ∃ b r k, s = b :: r ∧ intPayload b = some k ∧ r.length < k) ∧
    (∀ e, (binReadInteger t).run s = .error e →
      e = .eof ∨ e = .destinationIntegerOverflow ∨ ∃ b, e = .invalidIntegerByte b) := by
  have bad : ∀ b : UInt8, intPayload b = none ↔ 0x80 < b.toNat ∧ b.toNat < 0xfc := by
    intro b
    rcases intPayload_cases b with ⟨h, hp, _⟩ | ⟨h, hp⟩ | ⟨h, hp⟩ | ⟨h, hp⟩ | ⟨h, hp⟩ | ⟨h, hp, h3⟩
    · simp [hp]; omega
    · subst h; simp [hp]; decide
    · subst h; simp [hp]; decide
    · subst h; simp [hp]; decide
    · subst h; simp [hp]; decide
    · exact ⟨fun _ => ⟨h3.2.2.2.2.1, h3.2.2.2.2.2⟩, fun _ => hp⟩
  rcases wireInt_split s with rfl | ⟨enc, rest, v, rfl, hw⟩ | ⟨b, r, rfl, hb⟩ | ⟨b, r, k, rfl, hb, hr⟩
  · have hrun : (binReadInteger t).run [] = .error .eof := by rw [binReadInteger_run]
    have hno : ∀ enc rest v, ([] : Bytes) = enc ++ rest → ¬ WireInt enc v := by
      intro enc rest v he hw
      obtain ⟨rfl, -⟩ := List.append_eq_nil_iff.mp he.symm
      cases hw
    rw [hrun]
    refine ⟨?_, ?_, ?_, ?_, ?_⟩
    · intro v rest; simp
      intro rfl; exact fun h => absurd h (hno _ [] v rfl)
    · simp only [reduceCtorEq, Except.error.injEq, false_iff]
      rintro ⟨enc, rest, v, he, hw, -⟩; exact hno _ _ _ he hw
    · intro b; simp
    · simp
    · intro e he; cases he; exact .inl rfl
  · have hrun := binReadInteger_wire t hw rest
    have uniq : ∀ enc' rest' v', enc ++ rest = enc' ++ rest' → WireInt enc' v' → v' = v ∧ rest' = rest := by
      intro enc' rest' v' he hw'
      have h1 := binReadInteger_wire ⟨min v v', max v v'⟩ hw rest
      have h2 := binReadInteger_wire ⟨min v v', max v v'⟩ hw' rest'
      rw [if_pos (by constructor <;> simp <;> omega)] at h1 h2
      rw [he, h2] at h1
      simp at h1; exact h1
    have nobad : ∀ b r, enc ++ rest = b :: r → intPayload b ≠ none := by
      intro b r he hb
      cases hw with
      | small b' h' => simp at he; obtain ⟨rfl, -⟩ := he; exact absurd ((bad _).mp hb).1 (by omega)
      | wide l k p _ hl => simp at he; obtain ⟨rfl, -⟩ := he; rw [hl] at hb; cases hb
    have noshort : ∀ b r k, enc ++ rest = b :: r → intPayload b = some k → ¬ r.length < k := by
      intro b r k he hb hr
      cases hw with
      | small b' h' =>
        simp at he; obtain ⟨rfl, rfl⟩ := he
        have : intPayload b' = some 0 := by simp [intPayload, h']
        rw [this] at hb; cases hb; omega
      | wide l k p _ hl hk hp =>
        simp at he; obtain ⟨rfl, rfl⟩ := he; rw [hl] at hb; cases hb; simp at hr; omega
    rw [hrun]
    refine ⟨?_, ?_, ?_, ?_, ?_⟩
    · intro v' rest'
      constructor
      · intro h
        split at h <;> simp at h
        obtain ⟨rfl, rfl⟩ := h
        exact ⟨enc, rfl, hw, ‹_›⟩
      · rintro ⟨enc', he, hw', ht⟩
        obtain ⟨rfl, rfl⟩ := uniq _ _ _ he hw'
        rw [if_pos ht]
    · constructor
      · intro h
        split at h <;> simp at h
        exact ⟨enc, rest, v, rfl, hw, ‹_›⟩
      · rintro ⟨enc', rest', v', he, hw', ht⟩
        obtain ⟨rfl, rfl⟩ := uniq _ _ _ he hw'
        rw [if_neg ht]
    · intro b
      constructor
      · intro h; split at h <;> simp at h
      · rintro ⟨r, he, hb⟩; exact absurd ((bad b).mpr hb) (nobad _ _ he)
    · constructor
      · intro h; split at h <;> simp at h
      · rintro (he | ⟨b, r, k, he, hb, hr⟩)
        · obtain ⟨rfl, -⟩ := List.append_eq_nil_iff.mp he
          cases hw
        · exact absurd hr (noshort _ _ _ he hb)
    · intro e he; split at he <;> simp at he; exact .inr (.inl he.symm)
  · have nowire : ∀ enc rest v, b :: r = enc ++ rest → ¬ WireInt enc v := by
      intro enc rest v he hw
      have h1 := binReadInteger_wire ⟨v, v⟩ hw rest
      rw [← he, binReadInteger_bad _ hb, if_pos ⟨Int.le_refl _, Int.le_refl _⟩] at h1
      cases h1
    rw [binReadInteger_bad t hb r]
    refine ⟨?_, ?_, ?_, ?_, ?_⟩
    · intro v rest; simp only [reduceCtorEq, false_iff]
      rintro ⟨enc, he, hw, -⟩; exact nowire _ _ _ he hw
    · simp only [Except.error.injEq, reduceCtorEq, false_iff]
      rintro ⟨enc, rest, v, he, hw, -⟩; exact nowire _ _ _ he hw
    · intro b'
      constructor
      · intro h; simp at h; subst h; exact ⟨r, rfl, (bad _).mp hb⟩
      · rintro ⟨r', he, -⟩; simp at he; rw [he.1]
    · simp only [Except.error.injEq, reduceCtorEq, false_iff]
      rintro (he | ⟨b', r', k, he, hb', hr⟩)
      · cases he
      · simp at he; rw [← he.1, hb] at hb'; cases hb'
    · intro e he; cases he; exact .inr (.inr ⟨b, rfl⟩)
  · have nowire : ∀ enc rest v, b :: r = enc ++ rest → ¬ WireInt enc v := by
      intro enc rest v he hw
      have h1 := binReadInteger_wire ⟨v, v⟩ hw rest
      rw [← he, binReadInteger_short _ hb hr, if_pos ⟨Int.le_refl _, Int.le_refl _⟩] at h1
      cases h1
    rw [binReadInteger_short t hb hr]
    refine ⟨?_, ?_, ?_, ?_, ?_⟩
    · intro v rest; simp only [reduceCtorEq, false_iff]
      rintro ⟨enc, he, hw, -⟩; exact nowire _ _ _ he hw
    · simp only [Except.error.injEq, reduceCtorEq, false_iff]
      rintro ⟨enc, rest, v, he, hw, -⟩; exact nowire _ _ _ he hw
    · intro b'
      simp only [Except.error.injEq, reduceCtorEq, false_iff]
      rintro ⟨r', he, h⟩
      simp at he; rw [← he.1] at h; rw [(bad b).mpr h] at hb; cases hb
    · simp only [true_iff]; exact .inr ⟨b, r, k, rfl, hb, hr⟩
    · intro e he; cases he; exact .inl rfl

/-- Non-trivial instances: a 16-bit negative form, one that does not fit `u8`, an illegal lead
byte and a truncated form. -/
example : WireInt [0xfe, 0x00, 0x80] (-32768) ∧ ¬ u16.holds (-32768) ∧
    (binReadInteger u16).run [0xfe, 0x00, 0x80] = .error .destinationIntegerOverflow ∧
    (binReadInteger i16).run [0xfe, 0x00, 0x80, 7] = .ok (-32768, [7]) ∧
    (binReadInteger i64).run [0x81, 0] = .error (.invalidIntegerByte 0x81) ∧
    (binReadInteger i64).run [0xfd, 1, 2] = .error .eof := by
  refine ⟨.wide 0xfe 2 _ _ (by decide) (by decide) rfl (by unfold IsSignedLE; decide), by decide, rfl, rfl, rfl, rfl⟩

/-- **C02** (Nat0). What reading a Nat0 into a destination type returns, for every input:
success with value `v` exactly when the input starts with a wire form of `v` and `v` fits the
type (and then the rest is what follows that form); overflow exactly when it starts with a
wire form of a value that does not fit; `InvalidIntegerByte` exactly for an illegal lead byte;
end-of-input exactly when the input is empty or a truncated wire form. -/
theorem C02_nat0_read_exact (t : IntTy) (s : Bytes) :
    (∀ (v : Nat) rest, (binReadNat0 t).run s = .ok ((v : Int), rest) ↔
      ∃ enc, s = enc ++ rest ∧ WireNat enc v ∧ t.holds v) ∧
    ((binReadNat0 t).run s = .error .destinationIntegerOverflow ↔
      ∃ enc rest v, s = enc ++ rest ∧ WireNat enc v ∧ ¬ t.holds v) ∧
    (∀ b, (binReadNat0 t).run s = .error (.invalidIntegerByte b) ↔
      ∃ rest, s = b :: rest ∧ 0x80 < b.toNat ∧ (b.toNat < 0xfc ∨ b.toNat = 0xff)) ∧
    ((binReadNat0 t).run s = .error .eof ↔
      s = [] ∨ ∃ b r k, s = b :: r ∧ natPayload b = some k ∧ r.length < k) ∧
    (∀ e, (binReadNat0 t).run s = .error e →
      e = .eof ∨ e = .destinationIntegerOverflow ∨ ∃ b, e = .invalidIntegerByte b) := by
  have bad : ∀ b : UInt8, natPayload b = none ↔ 0x80 < b.toNat ∧ (b.toNat < 0xfc ∨ b.toNat = 0xff) := by
    intro b
    rcases natPayload_cases b with ⟨h, hp, _⟩ | ⟨h, hp⟩ | ⟨h, hp⟩ | ⟨h, hp⟩ | ⟨h, hp, h3⟩
    · simp [hp]; omega
    · subst h; simp [hp]; decide
    · subst h; simp [hp]; decide
    · subst h; simp [hp]; decide
    · have hb := b.toNat_lt
      have hne : b.toNat ≠ 0xfc ∧ b.toNat ≠ 0xfd ∧ b.toNat ≠ 0xfe := by
        obtain ⟨a1, a2, a3, _⟩ := h3
        refine ⟨fun h => a3 (UInt8.toNat_inj.mp h), fun h => a2 (UInt8.toNat_inj.mp h),
          fun h => a1 (UInt8.toNat_inj.mp h)⟩
      refine ⟨fun _ => ⟨h3.2.2.2, by omega⟩, fun _ => hp⟩
  rcases wireNat_split s with rfl | ⟨enc, rest, v, rfl, hw⟩ | ⟨b, r, rfl, hb⟩ | ⟨b, r, k, rfl, hb, hr⟩
  · have hrun : (binReadNat0 t).run [] = .error .eof := by rw [binReadNat0_run]
    have hno : ∀ enc rest v, ([] : Bytes) = enc ++ rest → ¬ WireNat enc v := by
      intro enc rest v he hw
      obtain ⟨rfl, -⟩ := List.append_eq_nil_iff.mp he.symm
      cases hw
    rw [hrun]
    refine ⟨?_, ?_, ?_, ?_, ?_⟩
    · intro v rest; simp
      intro rfl; exact fun h => absurd h (hno _ [] v rfl)
    · simp only [reduceCtorEq, Except.error.injEq, false_iff]
      rintro ⟨enc, rest, v, he, hw, -⟩; exact hno _ _ _ he hw
    · intro b; simp
    · simp
    · intro e he; cases he; exact .inl rfl
  · have hrun := binReadNat0_wire t hw rest
    have uniq : ∀ enc' rest' v', enc ++ rest = enc' ++ rest' → WireNat enc' v' → v' = v ∧ rest' = rest := by
      intro enc' rest' v' he hw'
      have h1 := binReadNat0_wire ⟨min v v', max v v'⟩ hw rest
      have h2 := binReadNat0_wire ⟨min v v', max v v'⟩ hw' rest'
      rw [if_pos (by constructor <;> simp <;> omega)] at h1 h2
      rw [he, h2] at h1
      simp at h1; exact ⟨by omega, h1.2⟩
    have nobad : ∀ b r, enc ++ rest = b :: r → natPayload b ≠ none := by
      intro b r he hb
      cases hw with
      | small b' h' => simp at he; obtain ⟨rfl, -⟩ := he; exact absurd ((bad _).mp hb).1 (by omega)
      | wide l k p hl => simp at he; obtain ⟨rfl, -⟩ := he; rw [hl] at hb; cases hb
    have noshort : ∀ b r k, enc ++ rest = b :: r → natPayload b = some k → ¬ r.length < k := by
      intro b r k he hb hr
      cases hw with
      | small b' h' =>
        simp at he; obtain ⟨rfl, rfl⟩ := he
        have : natPayload b' = some 0 := by simp [natPayload, h']
        rw [this] at hb; cases hb; omega
      | wide l k p hl hk hp =>
        simp at he; obtain ⟨rfl, rfl⟩ := he; rw [hl] at hb; cases hb; simp at hr; omega
    rw [hrun]
    refine ⟨?_, ?_, ?_, ?_, ?_⟩
    · intro v' rest'
      constructor
      · intro h
        split at h <;> simp at h
        obtain ⟨hv, rfl⟩ := h
        obtain rfl : v = v' := by omega
        exact ⟨enc, rfl, hw, ‹_›⟩
      · rintro ⟨enc', he, hw', ht⟩
        obtain ⟨rfl, rfl⟩ := uniq _ _ _ he hw'
        rw [if_pos ht]
    · constructor
      · intro h
        split at h <;> simp at h
        exact ⟨enc, rest, v, rfl, hw, ‹_›⟩
      · rintro ⟨enc', rest', v', he, hw', ht⟩
        obtain ⟨rfl, rfl⟩ := uniq _ _ _ he hw'
        rw [if_neg ht]
    · intro b
      constructor
      · intro h; split at h <;> simp at h
      · rintro ⟨r, he, hb⟩; exact absurd ((bad b).mpr hb) (nobad _ _ he)
    · constructor
      · intro h; split at h <;> simp at h
      · rintro (he | ⟨b, r, k, he, hb, hr⟩)
        · obtain ⟨rfl, -⟩ := List.append_eq_nil_iff.mp he
          cases hw
        · exact absurd hr (noshort _ _ _ he hb)
    · intro e he; split at he <;> simp at he; exact .inr (.inl he.symm)
  · have nowire : ∀ enc rest v, b :: r = enc ++ rest → ¬ WireNat enc v := by
      intro enc rest v he hw
      have h1 := binReadNat0_wire ⟨v, v⟩ hw rest
      rw [← he, binReadNat0_bad _ hb, if_pos ⟨Int.le_refl _, Int.le_refl _⟩] at h1
      cases h1
    rw [binReadNat0_bad t hb r]
    refine ⟨?_, ?_, ?_, ?_, ?_⟩
    · intro v rest; simp only [reduceCtorEq, false_iff]
      rintro ⟨enc, he, hw, -⟩; exact nowire _ _ _ he hw
    · simp only [Except.error.injEq, reduceCtorEq, false_iff]
      rintro ⟨enc, rest, v, he, hw, -⟩; exact nowire _ _ _ he hw
    · intro b'
      constructor
      · intro h; simp at h; subst h; exact ⟨r, rfl, (bad _).mp hb⟩
      · rintro ⟨r', he, -⟩; simp at he; rw [he.1]
    · simp only [Except.error.injEq, reduceCtorEq, false_iff]
      rintro (he | ⟨b', r', k, he, hb', hr⟩)
      · cases he
      · simp at he; rw [← he.1, hb] at hb'; cases hb'
    · intro e he; cases he; exact .inr (.inr ⟨b, rfl⟩)
  · have nowire : ∀ enc rest v, b :: r = enc ++ rest → ¬ WireNat enc v := by
      intro enc rest v he hw
      have h1 := binReadNat0_wire ⟨v, v⟩ hw rest
      rw [← he, binReadNat0_short _ hb hr, if_pos ⟨Int.le_refl _, Int.le_refl _⟩] at h1
      cases h1
    rw [binReadNat0_short t hb hr]
    refine ⟨?_, ?_, ?_, ?_, ?_⟩
    · intro v rest; simp only [reduceCtorEq, false_iff]
      rintro ⟨enc, he, hw, -⟩; exact nowire _ _ _ he hw
    · simp only [Except.error.injEq, reduceCtorEq, false_iff]
      rintro ⟨enc, rest, v, he, hw, -⟩; exact nowire _ _ _ he hw
    · intro b'
      simp only [Except.error.injEq, reduceCtorEq, false_iff]
      rintro ⟨r', he, h⟩
      simp at he; rw [← he.1] at h; rw [(bad b).mpr h] at hb; cases hb
    · simp only [true_iff]; exact .inr ⟨b, r, k, rfl, hb, hr⟩
    · intro e he; cases he; exact .inl rfl

example : WireNat [0xfd, 0, 0, 1, 0] 65536 ∧ ¬ u16.holds 65536 ∧
    (binReadNat0 u16).run [0xfd, 0, 0, 1, 0] = .error .destinationIntegerOverflow ∧
    (binReadNat0 u32).run [0xfd, 0, 0, 1, 0, 9] = .ok (65536, [9]) ∧
    (binReadNat0 u64).run [0xff, 1] = .error (.invalidIntegerByte 0xff) :=
  ⟨.wide 0xfd 4 [0, 0, 1, 0] (by decide) (by decide) rfl, by decide, rfl, rfl, rfl⟩

/-! ## C03 -/

/-- **C03.** Any u64 written with `bin_write_nat0` is read back by `bin_read_nat0` into any
type that holds it; the reported count is the number of bytes produced. -/
theorem C03_nat0_roundtrip (n : Nat) (hn : n < 2 ^ 64) (t : IntTy) (ht : t.holds n) (rest : Bytes) :
    (binReadNat0 t).run (flush (binWriteNat0 n).1 ++ rest) = .ok ((n : Int), rest) ∧
      (binWriteNat0 n).2 = (flush (binWriteNat0 n).1).length :=
  ⟨binReadNat0_write hn ht rest, binWriteNat0_count n⟩

example : (40000 : Nat) < 2 ^ 64 ∧ u32.holds (40000 : Nat) ∧
    flush (binWriteNat0 40000).1 = [0xfe, 0x40, 0x9c] := by decide

/-! ## C04 -/

/-- **C04 (part).** For every i64 other than 128 the written form has at most nine bytes and is
the unique shortest byte string that the reader accepts as that value.
Missing: the value 128, for which the claim is false (`C04_integer_minimal_fails`). -/
theorem C04_integer_minimal_partial (n : Int) (hn : i64.holds n) (h128 : n ≠ 128) :
    (flush (binWriteInteger n).1).length ≤ 9 ∧
    ∀ enc, (binReadInteger i64).run enc = .ok (n, []) →
      (flush (binWriteInteger n).1).length ≤ enc.length ∧
      (enc.length = (flush (binWriteInteger n).1).length → enc = flush (binWriteInteger n).1) := by
  refine ⟨?_, ?_⟩
  · unfold binWriteInteger
    repeat' split
    all_goals simp [WOp.bytes]
  · intro enc henc
    obtain ⟨enc', he, hw, -⟩ := ((C02_integer_read_exact i64 enc).1 n []).mp henc
    simp only [List.append_nil] at he
    subst he
    have hmine := binReadInteger_write hn (t := i64) hn []
    obtain ⟨enc', he, hw', -⟩ := ((C02_integer_read_exact i64 _).1 n []).mp hmine
    simp only [List.append_nil] at he
    subst he
    exact wireInt_minimal hn h128 hw hw'

/-- **C04** is false at 128: the reader accepts the single byte 0x80, which the writer never
emits (it writes three bytes for 128). -/
theorem C04_integer_minimal_fails :
    (binReadInteger i64).run [0x80] = .ok (128, []) ∧
    (flush (binWriteInteger 128).1).length = 3 ∧
    ∀ n, i64.holds n → flush (binWriteInteger n).1 ≠ [0x80] := by
  refine ⟨rfl, rfl, ?_⟩
  intro n hn h
  have h1 := binReadInteger_write hn (t := i64) hn []
  unfold intBytes at h1
  rw [h] at h1
  have h2 : (binReadInteger i64).run ([0x80] ++ []) = .ok (128, []) := rfl
  rw [h2] at h1
  simp at h1
  subst h1
  exact absurd h (by decide)

/-- **C04 (part, Nat0).** As above for Nat0; 128 again excepted. -/
theorem C04_nat0_minimal_partial (n : Nat) (hn : n < 2 ^ 64) (h128 : n ≠ 128) :
    (flush (binWriteNat0 n).1).length ≤ 9 ∧
    ∀ enc, (binReadNat0 u64).run enc = .ok ((n : Int), []) →
      (flush (binWriteNat0 n).1).length ≤ enc.length ∧
      (enc.length = (flush (binWriteNat0 n).1).length → enc = flush (binWriteNat0 n).1) := by
  refine ⟨?_, ?_⟩
  · unfold binWriteNat0
    repeat' split
    all_goals simp [WOp.bytes]
  · intro enc henc
    obtain ⟨enc', he, hw, -⟩ := ((C02_nat0_read_exact u64 enc).1 n []).mp henc
    simp only [List.append_nil] at he
    subst he
    have hmine := binReadNat0_write hn (t := u64) (by simp [IntTy.holds, u64]; omega) []
    obtain ⟨enc', he, hw', -⟩ := ((C02_nat0_read_exact u64 _).1 n []).mp hmine
    simp only [List.append_nil] at he
    subst he
    exact wireNat_minimal hn h128 hw hw'

/-- **C04** is false for Nat0 at 128. -/
theorem C04_nat0_minimal_fails :
    (binReadNat0 u64).run [0x80] = .ok (128, []) ∧ (flush (binWriteNat0 128).1).length = 3 :=
  ⟨rfl, rfl⟩

example : i64.holds (-129) ∧ (binReadInteger i64).run [0xfd, 0x7f, 0xff, 0xff, 0xff] = .ok (-129, []) ∧
    flush (binWriteInteger (-129)).1 = [0xfe, 0x7f, 0xff] := ⟨by decide, rfl, rfl⟩

/-- **C02 (types).** The values of each integer type are those of the machine integers of its name. -/
theorem C02_ranges (n : Int) :
    (i8.holds n ↔ ∃ x : Int8, x.toInt = n) ∧ (i16.holds n ↔ ∃ x : Int16, x.toInt = n) ∧
    (i32.holds n ↔ ∃ x : Int32, x.toInt = n) ∧ (i64.holds n ↔ ∃ x : Int64, x.toInt = n) ∧
    (u8.holds n ↔ ∃ x : UInt8, (x.toNat : Int) = n) ∧ (u16.holds n ↔ ∃ x : UInt16, (x.toNat : Int) = n) ∧
    (u32.holds n ↔ ∃ x : UInt32, (x.toNat : Int) = n) ∧ (u64.holds n ↔ ∃ x : UInt64, (x.toNat : Int) = n) := by
  simp only [IntTy.holds, i8, i16, i32, i64, u8, u16, u32, u64]
  refine ⟨⟨fun h => ⟨Int8.ofInt n, ?_⟩, ?_⟩, ⟨fun h => ⟨Int16.ofInt n, ?_⟩, ?_⟩, ⟨fun h => ⟨Int32.ofInt n, ?_⟩, ?_⟩,
    ⟨fun h => ⟨Int64.ofInt n, ?_⟩, ?_⟩, ⟨fun h => ⟨UInt8.ofNat n.toNat, ?_⟩, ?_⟩, ⟨fun h => ⟨UInt16.ofNat n.toNat, ?_⟩, ?_⟩,
    ⟨fun h => ⟨UInt32.ofNat n.toNat, ?_⟩, ?_⟩, ⟨fun h => ⟨UInt64.ofNat n.toNat, ?_⟩, ?_⟩⟩
  · exact Int8.toInt_ofInt_of_le (by omega) (by omega)
  · rintro ⟨x, rfl⟩; have := x.le_toInt; have := x.toInt_lt; omega
  · exact Int16.toInt_ofInt_of_le (by omega) (by omega)
  · rintro ⟨x, rfl⟩; have := x.le_toInt; have := x.toInt_lt; omega
  · exact Int32.toInt_ofInt_of_le (by omega) (by omega)
  · rintro ⟨x, rfl⟩; have := x.le_toInt; have := x.toInt_lt; omega
  · exact Int64.toInt_ofInt_of_le (by omega) (by omega)
  · rintro ⟨x, rfl⟩; have := x.le_toInt; have := x.toInt_lt; omega
  · simp only [UInt8.toNat_ofNat']; omega
  · rintro ⟨x, rfl⟩; have := x.toNat_lt; omega
  · simp only [UInt16.toNat_ofNat']; omega
  · rintro ⟨x, rfl⟩; have := x.toNat_lt; omega
  · simp only [UInt32.toNat_ofNat']; omega
  · rintro ⟨x, rfl⟩; have := x.toNat_lt; omega
  · simp only [UInt64.toNat_ofNat']; omega
  · rintro ⟨x, rfl⟩; have := x.toNat_lt; omega

example : u8.holds 255 ∧ ¬ u8.holds 256 ∧ i8.holds (-128) ∧ ¬ i8.holds 128 := by decide

/-! ## C05 -/

/-- **C05 (part).** Unit, bool, float, variant index, string and byte string round trips, and
chars up to U+00FF.  Missing: chars above U+00FF, for which it is false
(`C05_char_roundtrip_fails`). -/
theorem C05_primitive_roundtrip_partial (rest : Bytes) :
    binReadUnit.run (flush binWriteUnit ++ rest) = .ok ((), rest) ∧
    (∀ b, binReadBool.run (flush (binWriteBool b) ++ rest) = .ok (b, rest)) ∧
    (∀ c : Char, c.toNat < 256 → binReadChar.run (flush (binWriteChar c).1 ++ rest) = .ok (c, rest)) ∧
    (∀ f, readF32.run (flush (binWriteFloat32 f).1 ++ rest) = .ok (f, rest)) ∧
    (∀ f, readF64.run (flush (binWriteFloat64 f).1 ++ rest) = .ok (f, rest)) ∧
    (∀ i, binReadVariantIndex.run (flush (binWriteVariantIndex i).1 ++ rest) = .ok (i, rest)) ∧
    (∀ s : String, s.toUTF8.size < 2 ^ 63 →
      binReadString.run (flush (binWriteString s) ++ rest) = .ok (s, rest)) ∧
    (∀ bs : Bytes, bs.length < 2 ^ 63 →
      binReadBytes.run (flush (binWriteNat0 bs.length).1 ++ bs ++ rest) = .ok (bs, rest)) := by
  refine ⟨?_, ?_, ?_, ?_, ?_, ?_, ?_, ?_⟩
  · simp only [binWriteUnit, flush_cons, flush_nil, WOp.bytes, List.append_nil, List.singleton_append]
    exact run_bind_ok (readU8_cons _ _)
  · intro b
    simp only [binWriteBool, flush_cons, flush_nil, WOp.bytes, List.append_nil, List.singleton_append]
    unfold binReadBool
    rw [run_bind_ok (readU8_cons _ _)]
    cases b <;> rfl
  · intro c hc
    simp only [binWriteChar, flush_cons, flush_nil, WOp.bytes, List.append_nil, List.singleton_append]
    unfold binReadChar
    rw [run_bind_ok (readU8_cons _ _)]
    simp only [run_ret]
    rw [UInt8.toNat_ofNat_mod, Nat.mod_eq_of_lt hc, Char.ofNat_toNat]
  · intro f
    simp only [binWriteFloat32, flush_cons, flush_nil, WOp.bytes, List.append_nil]
    unfold readF32
    rw [run_bind_ok (readUintLE_write f.toNat_lt _)]
    simp
  · intro f
    simp only [binWriteFloat64, flush_cons, flush_nil, WOp.bytes, List.append_nil]
    unfold readF64
    rw [run_bind_ok (readUintLE_write f.toNat_lt _)]
    simp
  · intro i
    simp only [binWriteVariantIndex, flush_cons, flush_nil, WOp.bytes, List.append_nil, List.singleton_append]
    exact readU8_cons _ _
  · intro s hs
    exact binReadString_write s (by simpa [utf8] using hs) rest
  · intro bs hb
    unfold binReadBytes
    have := binReadLen_write (show bs.length < 2 ^ 64 by omega) (bs ++ rest)
    unfold natBytes at this
    rw [List.append_assoc, run_bind_ok this, run_bind_ok (run_claim hb _), run_readExact_append rfl]

/-- **C05** is false for every char above U+00FF: it is written as its low eight bits and comes back as another char. -/
theorem C05_char_roundtrip_fails (c : Char) (hc : 0x100 ≤ c.toNat) (rest : Bytes) :
    ∃ d : Char, binReadChar.run (flush (binWriteChar c).1 ++ rest) = .ok (d, rest) ∧ d.toNat = c.toNat % 256 ∧ d ≠ c := by
  have hd : (Char.ofNat (c.toNat % 256)).toNat = c.toNat % 256 := by
    have hv : (c.toNat % 256).isValidChar := .inl (by omega)
    rw [Char.ofNat, dif_pos hv]
    show (UInt32.ofNatLT (c.toNat % 256) _).toNat = _
    exact UInt32.toNat_ofNatLT ..
  refine ⟨Char.ofNat (c.toNat % 256), ?_, hd, fun he => ?_⟩
  · simp only [binWriteChar, flush_cons, flush_nil, WOp.bytes, List.append_nil, List.singleton_append]
    unfold binReadChar
    rw [run_bind_ok (readU8_cons _ _)]
    simp only [run_ret]
    rw [UInt8.toNat_ofNat_mod]
  · rw [he] at hd; omega

example : ∃ d : Char, binReadChar.run (flush (binWriteChar 'Ā').1) = .ok (d, []) ∧ d.toNat = 0 ∧ d ≠ 'Ā' := by
  simpa using C05_char_roundtrip_fails 'Ā' (by decide) []

/-- **C05 (reported length).** On a sink that takes everything, each primitive writer reports
exactly as many bytes as it has written, for every value. -/
theorem C05_reported_length :
    (∀ c, (binWriteChar c).2 = (flush (binWriteChar c).1).length) ∧
    (∀ n, (binWriteInteger n).2 = (flush (binWriteInteger n).1).length) ∧
    (∀ n, (binWriteNat0 n).2 = (flush (binWriteNat0 n).1).length) ∧
    (∀ f, (binWriteFloat32 f).2 = (flush (binWriteFloat32 f).1).length) ∧
    (∀ f, (binWriteFloat64 f).2 = (flush (binWriteFloat64 f).1).length) ∧
    (∀ i, (binWriteVariantIndex i).2 = (flush (binWriteVariantIndex i).1).length) ∧
    (∀ i, (binWritePolyvarTag i).2 = (flush (binWritePolyvarTag i).1).length) := by
  refine ⟨fun c => ?_, fun n => ?_, fun n => ?_, fun f => ?_, fun f => ?_, fun i => ?_, fun i => ?_⟩
  · simp [binWriteChar, WOp.bytes]
  · unfold binWriteInteger
    repeat' split
    all_goals simp [WOp.bytes]
  · unfold binWriteNat0
    repeat' split
    all_goals simp [WOp.bytes]
  · simp [binWriteFloat32, WOp.bytes]
  · simp [binWriteFloat64, WOp.bytes]
  · simp [binWriteVariantIndex, WOp.bytes]
  · simp [binWritePolyvarTag, WOp.bytes]

/-! ## C06 -/

/-- **C06 (labels).** For every label the four tag bytes written are the ones OCaml's bin_prot
writes for it (release arithmetic). -/
theorem C06_tag_bytes_match_ocaml (label : Bytes) :
    flush (binWritePolyvarTag (camlHashVariant label)).1 = ocamlTagBytes (ocamlHashVariant label) := by
  simp only [binWritePolyvarTag, flush_cons, flush_nil, WOp.bytes, List.append_nil, ocamlTagBytes]
  rw [shl1_or1_toNat, camlHashVariant_toNat]
  unfold ocamlHashVariant
  congr 1
  omega

/-- **C06 (round trip).** Reading back a written tag returns it modulo 2^31; so it is returned
unchanged exactly when it is below 2^31. -/
theorem C06_tag_roundtrip_partial (tag : UInt32) (rest : Bytes) :
    ∃ tag', binReadPolyvarTag.run (flush (binWritePolyvarTag tag).1 ++ rest) = .ok (tag', rest) ∧
      tag'.toNat = tag.toNat % 2 ^ 31 ∧ (tag' = tag ↔ tag.toNat < 2 ^ 31) := by
  simp only [binWritePolyvarTag, flush_cons, flush_nil, WOp.bytes, List.append_nil]
  unfold binReadPolyvarTag
  rw [run_bind_ok (readUintLE_write (UInt32.toNat_lt _) _)]
  have h : (UInt32.ofNat ((tag <<< 1) ||| 1).toNat >>> 1).toNat = tag.toNat % 2 ^ 31 := by
    rw [UInt32.ofNat_toNat, UInt32.toNat_shiftRight, shl1_or1_toNat]
    simp only [UInt32.reduceToNat, Nat.reduceMod, Nat.shiftRight_eq_div_pow, Nat.pow_one]
    omega
  refine ⟨_, rfl, h, ?_⟩
  rw [← UInt32.toNat_inj, h]
  omega

/-- **C06 (builds with overflow checks).** The hash of a label is its value as a number in base 223 when that is
below 2^32, and then the hash of a build without checks is the same; otherwise the build panics. -/
theorem C06_checked_hash (label : Bytes) :
    camlHashVariantChecked label = (if base223 label < 2 ^ 32 then some (base223 label) else none) ∧
    (∀ n, camlHashVariantChecked label = some n → (camlHashVariant label).toNat = n) := by
  have h1 : camlHashVariantChecked label = (if base223 label < 2 ^ 32 then some (base223 label) else none) := by
    have key : ∀ (l : Bytes) (a : Nat), a < 2 ^ 32 → l.foldlM (fun accu byte =>
        if 223 * accu < 2 ^ 32 ∧ 223 * accu + byte.toNat < 2 ^ 32
        then some (223 * accu + byte.toNat) else none) a =
        (if l.foldl (fun accu byte => 223 * accu + byte.toNat) a < 2 ^ 32
         then some (l.foldl (fun accu byte => 223 * accu + byte.toNat) a) else none) := by
      intro l
      induction l with
      | nil => intro a ha; simp [ha]
      | cons b l ih =>
        intro a ha
        rw [List.foldlM_cons]
        by_cases hb : 223 * a + b.toNat < 2 ^ 32
        · have hc : 223 * a < 2 ^ 32 ∧ 223 * a + b.toNat < 2 ^ 32 := ⟨by omega, hb⟩
          rw [if_pos hc]
          exact ih _ hb
        · have hc : ¬ (223 * a < 2 ^ 32 ∧ 223 * a + b.toNat < 2 ^ 32) := fun h => hb h.2
          rw [if_neg hc]
          have hmono : ∀ (l : Bytes) (x : Nat), x ≤ l.foldl (fun accu byte => 223 * accu + byte.toNat) x := by
            intro l
            induction l with
            | nil => intro x; exact Nat.le_refl _
            | cons c l ih => intro x; exact Nat.le_trans (show x ≤ 223 * x + c.toNat by omega) (ih _)
          have hle := hmono l (223 * a + b.toNat)
          have hn : ¬ (List.foldl (fun accu byte => 223 * accu + byte.toNat) a (b :: l) < 2 ^ 32) := by
            rw [List.foldl_cons]
            omega
          exact (if_neg hn).symm
    exact key label 0 (by decide)
  refine ⟨h1, fun n hn => ?_⟩
  rw [h1] at hn
  split at hn
  · rename_i hlt
    have key : ∀ (l : Bytes) (a : UInt32) (m : Nat), a.toNat = m % 2 ^ 32 →
        (l.foldl (fun accu byte => 223 * accu + byte.toUInt32) a).toNat =
          l.foldl (fun accu byte => 223 * accu + byte.toNat) m % 2 ^ 32 := by
      intro l
      induction l with
      | nil => intro a m h; exact h
      | cons b l ih =>
        intro a m h
        simp only [List.foldl_cons]
        apply ih
        have := b.toNat_lt
        simp only [UInt32.toNat_add, UInt32.toNat_mul, h, UInt8.toNat_toUInt32]
        have e : (223 : UInt32).toNat = 223 := rfl
        rw [e]
        omega
    have := key label 0 0 rfl
    unfold camlHashVariant
    rw [this]
    unfold base223 at hn hlt
    rw [Nat.mod_eq_of_lt hlt]
    exact Option.some.inj hn
  · cases hn

example : base223 (utf8 "One") = 3953222 ∧ base223 (utf8 "Polyvar") ≥ 2 ^ 32 := by decide

/-- **C06** fails for every label whose hash reaches 2^31: the tag that is read back is not the hash that the
decoder compares it with, so the variant cannot be read; and with overflow checks the hash of every label that is
2^32 or more as a number in base 223 panics. -/
theorem C06_tag_roundtrip_fails (label : Bytes) :
    (2 ^ 31 ≤ (camlHashVariant label).toNat → ∀ rest, ∃ tag',
      binReadPolyvarTag.run (flush (binWritePolyvarTag (camlHashVariant label)).1 ++ rest) = .ok (tag', rest) ∧
        tag' ≠ camlHashVariant label) ∧
    (2 ^ 32 ≤ base223 label → camlHashVariantChecked label = none) := by
  refine ⟨fun hl rest => ?_, fun hl => ?_⟩
  · obtain ⟨tag', h, -, hiff⟩ := C06_tag_roundtrip_partial (camlHashVariant label) rest
    exact ⟨tag', h, fun he => absurd (hiff.mp he) (by omega)⟩
  · rw [(C06_checked_hash label).1, if_neg (by omega)]

/-- "Three" is such a label. -/
example : 2 ^ 31 ≤ (camlHashVariant (utf8 "Three")).toNat ∧ 2 ^ 32 ≤ base223 (utf8 "Three") := by decide

example : camlHashVariant (utf8 "One") = 3953222 ∧ camlHashVariant (utf8 "Two") = 4203884 ∧
    ocamlHashVariant (utf8 "Three") = 582861886 ∧
    camlHashVariant (utf8 "Three") = 2730345534 := by decide

end MinaRs.BinProt
