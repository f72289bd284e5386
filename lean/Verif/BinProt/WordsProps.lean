import Verif.BinProt.WordsLemmas

/-! # Properties C109 (the browser build decodes alike) and C110 (decoding is bounded by the input) -/

namespace MinaRs.BinProt
open Prog Spec

/-! ## C109 -/

/-- **C109 (part).** Where `usize` has 32 bits, decoding any bytes at any type ends as it does where it has 64 bits, value, rest and
error included, unless a number of at least 2^31 stands in the bytes.  Missing: such bytes, for which it is false
(`C109_cut_length_fails`). -/
theorem C109_same_as_native_partial (t : Ty) (s : Bytes) (h : ¬ Names (2 ^ 31) s) :
    (decode32 t).run s = (decode t).run s :=
  (decode_follows (N := 2 ^ 31) (sf := false) t (.inl ⟨Nat.le_refl _, rfl⟩) s).resolve_right fun h' => h h'.1

/-- **C109 (types without strings).** At a type without strings the 32-bit build gives the same result as the 64-bit build, or
refuses with the integer overflow error bytes in which a number of at least 2^32 stands.  In particular it accepts nothing the
64-bit build does not accept. -/
theorem C109_without_strings (t : Ty) (ht : StringFree t = true) (s : Bytes) :
    ((decode32 t).run s = (decode t).run s ∨
      (Names (2 ^ 32) s ∧ (decode32 t).run s = .error .destinationIntegerOverflow)) ∧
    ∀ v r, (decode32 t).run s = .ok (v, r) → (decode t).run s = .ok (v, r) := by
  have h := decode_follows (N := 2 ^ 32) (sf := true) t (.inr ⟨Nat.le_refl _, ht⟩) s
  refine ⟨h.imp_right fun h => ⟨h.1, h.2 rfl⟩, fun v r hv => ?_⟩
  rcases h with h | h
  · rw [← h]; exact hv
  · rw [h.2 rfl] at hv; cases hv

/-- Bytes in which no such number stands: every byte is below 0xfc. -/
theorem not_names {n : Nat} (hn : 0x80 < n) (s : Bytes) (h : ∀ b ∈ s, b.toNat < 0xfc) : ¬ Names n s := by
  rintro ⟨a, e, b, m, rfl, hw, hm⟩
  cases hw with
  | small c hc => omega
  | wide l k p hl hk hp =>
    have := h l (by simp)
    rcases natPayload_cases l with ⟨_, hq, _⟩ | ⟨rfl, _⟩ | ⟨rfl, _⟩ | ⟨rfl, _⟩ | ⟨_, hq, _⟩
    · rw [hq] at hl; simp at hl; omega
    · exact absurd this (by decide)
    · exact absurd this (by decide)
    · exact absurd this (by decide)
    · rw [hq] at hl; cases hl

example : ¬ Names (2 ^ 31) [0x03, 0x61, 0x62, 0x63] ∧ StringFree (.seq (.option .u8)) = true :=
  ⟨not_names (by decide) _ (by decide), rfl⟩

theorem leNat_append (a b : Bytes) : leNat (a ++ b) = leNat a + 256 ^ a.length * leNat b := by
  induction a with
  | nil => simp [leNat]
  | cons x a ih =>
    simp only [List.cons_append, leNat, ih, List.length_cons, Nat.pow_succ, Nat.mul_add]
    have : 256 * (256 ^ a.length * leNat b) = 256 ^ a.length * 256 * leNat b := by
      rw [← Nat.mul_assoc, Nat.mul_comm 256]
    omega

/-- **C109** is false: the 32-bit build cuts the length of a string to 32 bits.  Eight length bytes with a nonzero upper half make it
read the string of the lower half, where the 64-bit build reads further or fails; and a length from 2^31 to 2^32 - 1 makes it
panic, where the 64-bit build reads on. -/
theorem C109_cut_length_fails :
    (∀ (v : String) (high : Bytes) (rest : Bytes), (utf8 v).length < 2 ^ 31 → high.length = 4 → leNat high ≠ 0 →
      rest.length < 2 ^ 32 →
      (decode32 .string).run (0xfc :: (leBytes 4 (utf8 v).length ++ high) ++ (utf8 v ++ rest)) = .ok (v, rest) ∧
      ∃ e, (decode .string).run (0xfc :: (leBytes 4 (utf8 v).length ++ high) ++ (utf8 v ++ rest)) = .error e) ∧
    (∀ len rest : Bytes, len.length = 4 → 2 ^ 31 ≤ leNat len →
      (decode32 .string).run (0xfd :: (len ++ rest)) = .error (.panic "capacity overflow")) ∧
    (decode .string).run [0xfd, 0, 0, 0, 0x80] = .error .eof := by
  refine ⟨?_, ?_, rfl⟩
  · intro v high rest hv hh h0 hr
    have hpow : (256:Nat) ^ 4 = 2 ^ 32 := by decide
    have hn : leNat (leBytes 4 (utf8 v).length ++ high) = (utf8 v).length + 2 ^ 32 * leNat high := by
      rw [leNat_append, leNat_leBytes, leBytes_length, Nat.mod_eq_of_lt (by omega), hpow]
    have hl : (leBytes 4 (utf8 v).length ++ high).length = 8 := by simp [leBytes_length, hh]
    generalize hL : leBytes 4 (utf8 v).length ++ high = L at hn hl
    have hw : WireNat (0xfc :: L) (leNat L) := .wide 0xfc 8 L rfl (by decide) hl
    have hlt := leNat_lt L
    rw [hl, show (256:Nat) ^ 8 = 2 ^ 64 by decide] at hlt
    have hnat := ((C02_nat0_read_exact u64 (0xfc :: L ++ (utf8 v ++ rest))).1 (leNat L) (utf8 v ++ rest)).mpr
      ⟨0xfc :: L, rfl, hw, ⟨by show (0:Int) ≤ leNat L; omega, by show (leNat L : Int) ≤ 2 ^ 64 - 1; omega⟩⟩
    refine ⟨?_, ?_⟩
    · show binReadString32.run _ = _
      unfold binReadString32
      rw [run_bind_ok hnat]
      have hm : (leNat L : Int).toNat % 2 ^ 32 = (utf8 v).length := by
        rw [Int.toNat_natCast, hn]; omega
      simp only [hm, if_pos hv]
      rw [run_bind_ok (run_readExact_append rfl)]
      have : String.fromUTF8? ⟨(utf8 v).toArray⟩ = some v := fromUTF8?_utf8 v
      rw [this]
      rfl
    · have hlen := (binReadLen_ok_iff (0xfc :: L ++ (utf8 v ++ rest)) (leNat L) (utf8 v ++ rest)).mpr ⟨0xfc :: L, rfl, hw⟩
      show ∃ e, binReadString.run _ = .error e
      unfold binReadString
      rw [run_bind_ok hlen]
      by_cases hc : leNat L < 2 ^ 63
      · rw [run_bind_ok (run_claim hc _), run_bind, run_readExact]
        refine ⟨.eof, ?_⟩
        rw [if_pos]
        have : 1 ≤ leNat high := Nat.one_le_iff_ne_zero.mpr h0
        rw [List.length_append, hn]
        omega
      · refine ⟨.panic "capacity overflow", ?_⟩
        rw [show claim (leNat L) = Prog.fail (.panic "capacity overflow") from if_neg hc]
        rfl
  · intro len rest hl hn
    have hlt := leNat_lt len
    rw [hl, show (256:Nat) ^ 4 = 2 ^ 32 by decide] at hlt
    have hnat := ((C02_nat0_read_exact u64 (0xfd :: (len ++ rest))).1 (leNat len) rest).mpr
      ⟨0xfd :: len, rfl, .wide 0xfd 4 len rfl (by decide) hl,
        ⟨by show (0:Int) ≤ leNat len; omega, by show (leNat len : Int) ≤ 2 ^ 64 - 1; omega⟩⟩
    show binReadString32.run _ = _
    unfold binReadString32
    rw [run_bind_ok hnat]
    have hm : (leNat len : Int).toNat % 2 ^ 32 = leNat len := by
      rw [Int.toNat_natCast]; omega
    simp only [hm]
    rw [if_neg (by omega)]
    rfl

example : (decode32 .string).run [0xfc, 1, 0, 0, 0, 1, 0, 0, 0, 0x61] = .ok ("a", []) :=
  ((C109_cut_length_fails.1 "a" [1, 0, 0, 0] [] (by decide) rfl (by decide) (by decide)).1)

/-! ## C110 -/

/-- **C110 (part).** A decoded value has no more list items and string bytes than bytes were used up.  Missing: types with a list of
items that take no bytes, for which it is false (`C110_free_items_fails`). -/
theorem C110_value_no_larger_than_bytes_partial (t : Ty) (hwf : WfTy t) (ht : SolidLists t = true) (s : Bytes) (v : t.denote)
    (r : Bytes) (h : (decode t).run s = .ok (v, r)) : items t v + r.length ≤ s.length := by
  obtain ⟨enc, rfl, hw⟩ := (C09_accepts_exactly_wire_forms t hwf s v r).mp h
  have := wire_items t ht enc v hw
  rw [List.length_append]
  omega

example : SolidLists sampleTy = true ∧ items (.seq (.option .string)) [some "ab", none] = 4 := by
  refine ⟨rfl, ?_⟩
  show 2 + ((utf8 "ab").length + (0 + 0)) = 4
  decide

/-- **C110** is false for a list of items that take no bytes: nine bytes make any number of them below 2^64. -/
theorem C110_free_items_fails (len : Bytes) (hl : len.length = 8) :
    ∃ v, (decode (.seq (.tuple .nil))).run (0xfc :: len) = .ok (v, []) ∧ items (.seq (.tuple .nil)) v = leNat len := by
  have h := (binReadLen_ok_iff (0xfc :: len) (leNat len) []).mpr
    ⟨0xfc :: len, by simp, .wide 0xfc 8 len rfl (by decide) hl⟩
  have hn : ∀ n s, (decodeN (decode (.tuple .nil)) n).run s = .ok (List.replicate n (), s) := by
    intro n
    induction n with
    | zero => intro s; rfl
    | succ n ih =>
      intro s
      unfold BinProt.decodeN
      rw [run_bind_ok (show (decode (.tuple .nil)).run s = .ok ((), s) from rfl), run_bind_ok (ih s)]
      rfl
  refine ⟨List.replicate (leNat len) (), ?_, ?_⟩
  · exact (run_bind_ok (f := decodeN (decode (.tuple .nil))) h).trans (hn _ _)
  · simp only [items]
    have ht : ∀ n, total ((List.replicate n ()).map (items (.tuple .nil))) = 0 := by
      intro n
      induction n with
      | zero => rfl
      | succ n ih => exact (Nat.zero_add _).trans ih
    have e : (show List (Ty.tuple .nil).denote from List.replicate (leNat len) ()).length = leNat len := List.length_replicate ..
    have e' := ht (leNat len)
    exact (congr (congrArg HAdd.hAdd e) e').trans (Nat.add_zero _)

example : leNat [0xff, 0xff, 0xff, 0xff, 0xff, 0xff, 0xff, 0xff] = 2 ^ 64 - 1 := rfl

/-- **C110 (reads).** Decoding any bytes at any type, successful or not, asks the reader for bytes at most twice for each byte of
the input and once more: a truncated list is given up where its bytes end, whatever length it announced. -/
theorem C110_reads_bounded_by_input (t : Ty) (s : Bytes) : ((decode t).requests s).length ≤ 2 * s.length + 1 := by
  have := (decode_modest (Q := fun _ => True) (fun _ _ => trivial) t (.inl fun _ => trivial) s).2
  cases h : (decode t).run s with
  | error e => rw [h] at this; exact this
  | ok x => rw [h] at this; simp only at this; omega

example : (decode (.seq .bool)).requests [0xfc, 0xff, 0xff, 0xff, 0xff, 0xff, 0xff, 0xff, 0xff, 1, 0] = [1, 8, 1, 1, 1] := rfl

/-- **C110 (buffers, part).** At a type without strings no buffer of more than eight bytes is ever claimed for the reader to fill.
Missing: strings, for which nothing bounds it (`C110_claims_ahead_fails`). -/
theorem C110_small_buffers_partial (t : Ty) (ht : StringFree t = true) (s : Bytes) (k : Nat)
    (hk : k ∈ (decode t).requests s) : k ≤ 8 :=
  (decode_modest (Q := fun k => k ≤ 8) (fun _ h => h) t (.inr ht) s).1 k hk

/-- **C110** is false for strings: nine bytes make the decoder claim a buffer of any size below 2^63, before it looks whether the
bytes are there. -/
theorem C110_claims_ahead_fails (len : Bytes) (hl : len.length = 8) (hn : leNat len < 2 ^ 63) :
    (decode .string).requests (0xfc :: len) = [1, 8, leNat len] := by
  have h := (binReadLen_ok_iff (0xfc :: len) (leNat len) []).mpr
    ⟨0xfc :: len, by simp, .wide 0xfc 8 len rfl (by decide) hl⟩
  show binReadString.requests _ = _
  unfold binReadString
  rw [requests_bind, h]
  have h1 : binReadLen.requests (0xfc :: len) = [1, 8] := by
    have hp : ∀ v s, (fromPrimitive u64 v).requests s = [] := by
      intro v s; unfold fromPrimitive; split <;> rfl
    have h2 : (binReadNat0 u64).requests (0xfc :: len) = [1, 8] := by
      unfold binReadNat0
      rw [requests_bind, show readU8.run (0xfc :: len) = .ok (0xfc, len) from rfl,
        show readU8.requests (0xfc :: len) = [1] from rfl]
      simp only
      rw [if_neg (by decide), if_neg (by decide), if_pos (by decide), requests_bind]
      have h3 : (readUintLE 8).run len = .ok (leNat len, []) := by
        unfold readUintLE
        rw [run_bind, run_readExact, if_neg (by omega), List.take_of_length_le (by omega), List.drop_of_length_le (by omega)]
        rfl
      have h4 : (readUintLE 8).requests len = [8] := by
        unfold readUintLE
        rw [requests_bind, run_readExact, if_neg (by omega)]
        simp only [Prog.readExact, Prog.requests, if_neg (show ¬ len.length < 8 by omega)]
        rfl
      rw [h3, h4]
      simp only [hp]
      rfl
    unfold binReadLen
    rw [requests_bind, h2]
    split <;> rfl
  simp only [h1]
  rw [show claim (leNat len) = Prog.ret () from if_pos hn,
    show ∀ (f : Unit → Prog String), (Prog.ret () >>= f) = f () from fun _ => rfl, requests_bind, run_readExact]
  by_cases h0 : leNat len = 0
  · rw [h0]; rfl
  · rw [if_pos (by simp; omega)]
    simp only [Prog.readExact, Prog.requests]
    rw [if_pos (by simp; omega)]
    rfl

example : leNat [0xff, 0xff, 0xff, 0xff, 0xff, 0xff, 0xff, 0x7f] = 2 ^ 63 - 1 := rfl

end MinaRs.BinProt
