import Verif.BinProt.Prim

/-! Helper lemmas about the primitive readers and writers (no property theorems here). -/

namespace MinaRs.BinProt
open Prog

theorem readU8_nil : readU8.run [] = .error .eof := by
  simp [readU8, Prog.run]

@[simp] theorem readU8_cons (b : UInt8) (r : Bytes) : readU8.run (b :: r) = .ok (b, r) := by
  simp [readU8, Prog.run]

theorem readUintLE_append {k : Nat} {bs r : Bytes} (h : bs.length = k) :
    (readUintLE k).run (bs ++ r) = .ok (leNat bs, r) := by
  unfold readUintLE
  rw [run_bind_ok (run_readExact_append h)]; rfl

theorem readUintLE_short {k : Nat} {s : Bytes} (h : s.length < k) :
    (readUintLE k).run s = .error .eof := by
  unfold readUintLE
  rw [run_bind_error]
  rw [run_readExact, if_pos h]

theorem readIntLE_append {k : Nat} {bs r : Bytes} (h : bs.length = k) :
    (readIntLE k).run (bs ++ r) = .ok (toSigned (8 * k) (leNat bs), r) := by
  unfold readIntLE
  rw [run_bind_ok (run_readExact_append h)]; rfl

theorem readIntLE_short {k : Nat} {s : Bytes} (h : s.length < k) :
    (readIntLE k).run s = .error .eof := by
  unfold readIntLE
  rw [run_bind_error]
  rw [run_readExact, if_pos h]

theorem fromPrimitive_ok {t : IntTy} {v : Int} (h : t.holds v) (s : Bytes) :
    (fromPrimitive t v).run s = .ok (v, s) := by
  simp [fromPrimitive, h]

theorem fromPrimitive_overflow {t : IntTy} {v : Int} (h : ¬ t.holds v) (s : Bytes) :
    (fromPrimitive t v).run s = .error .destinationIntegerOverflow := by
  simp [fromPrimitive, h]

theorem toSigned_wrapU {bits : Nat} (hb : 0 < bits) {n : Int} (h0 : -2 ^ (bits - 1) ≤ n)
    (h1 : n < 2 ^ (bits - 1)) : toSigned bits (wrapU bits n) = n := by
  have hp : (2 : Int) ^ bits = 2 * 2 ^ (bits - 1) := by
    obtain ⟨k, rfl⟩ : ∃ k, bits = k + 1 := ⟨bits - 1, by omega⟩
    rw [Int.pow_succ]; simp; omega
  have hpn : (2 : Nat) ^ bits = 2 * 2 ^ (bits - 1) := by
    obtain ⟨k, rfl⟩ : ∃ k, bits = k + 1 := ⟨bits - 1, by omega⟩
    rw [Nat.pow_succ]; simp; omega
  have hc : ((2 ^ (bits - 1) : Nat) : Int) = 2 ^ (bits - 1) := by simp
  have hpos : (0 : Int) < 2 ^ (bits - 1) := Int.pow_pos (by decide)
  unfold toSigned
  by_cases hn : 0 ≤ n
  · have := wrapU_of_nonneg (bits := bits) hn (by omega)
    have hlt : wrapU bits n < 2 ^ (bits - 1) := by
      apply Int.ofNat_lt.mp; omega
    rw [if_pos hlt, this]
  · have := wrapU_of_neg (bits := bits) (n := n) (by omega) (by omega)
    have hge : ¬ wrapU bits n < 2 ^ (bits - 1) := by
      intro hlt
      have := Int.ofNat_lt.mpr hlt
      omega
    rw [if_neg hge, this]; omega

/-- The signed read of the little-endian bytes of `n` is `n` when `n` fits in `8*k` bits. -/
theorem readIntLE_write {k : Nat} (hk : 0 < k) {n : Int} (h0 : -2 ^ (8 * k - 1) ≤ n)
    (h1 : n < 2 ^ (8 * k - 1)) (r : Bytes) :
    (readIntLE k).run (leBytes k (wrapU (8 * k) n) ++ r) = .ok (n, r) := by
  rw [readIntLE_append (leBytes_length _ _)]
  have hlt : wrapU (8 * k) n < 256 ^ k := by
    have := wrapU_lt (8 * k) n
    rwa [Nat.pow_mul] at this
  rw [leNat_leBytes_of_lt hlt, toSigned_wrapU (by omega) h0 h1]

/-- The bytes written for an integer. -/
def intBytes (n : Int) : Bytes := flush (binWriteInteger n).1

/-- The bytes written for a Nat0. -/
def natBytes (n : Nat) : Bytes := flush (binWriteNat0 n).1

theorem binReadInteger_write {n : Int} (hn : i64.holds n) {t : IntTy} (ht : t.holds n) (r : Bytes) :
    (binReadInteger t).run (intBytes n ++ r) = .ok (n, r) := by
  obtain ⟨hlo, hhi⟩ := hn
  simp only [i64] at hlo hhi
  unfold intBytes binWriteInteger binReadInteger
  split
  · split
    · have hw : wrapU 8 n < 128 := by
        have := wrapU_of_nonneg (bits := 8) (n := n) (by omega) (by omega)
        omega
      have hw' := wrapU_of_nonneg (bits := 8) (n := n) (by omega) (by omega)
      have key : ∀ m, m < 128 → UInt8.ofNat m ≠ CODE_INT16 ∧ UInt8.ofNat m ≠ CODE_INT32 ∧
          UInt8.ofNat m ≠ CODE_INT64 ∧ UInt8.ofNat m ≠ CODE_NEG_INT8 ∧ ¬ (0x80 < UInt8.ofNat m) ∧
          (UInt8.ofNat m).toNat = m := by decide
      obtain ⟨a, b, c, d, e, f⟩ := key _ hw
      simp only [flush_cons, WOp.bytes, flush_nil, List.append_nil, List.singleton_append]
      rw [run_bind_ok (readU8_cons _ _)]
      simp only [a, b, c, d, e, if_false]
      rw [f, hw', fromPrimitive_ok ht]
    · split
      · simp only [flush_cons, WOp.bytes, flush_nil, List.append_nil, List.nil_append, List.cons_append]
        rw [run_bind_ok (readU8_cons _ _), if_pos rfl,
          run_bind_ok (readIntLE_write (k := 2) (by decide) (by omega) (by omega) _), fromPrimitive_ok ht]
      · split
        · simp only [flush_cons, WOp.bytes, flush_nil, List.append_nil, List.nil_append, List.cons_append]
          rw [run_bind_ok (readU8_cons _ _), if_neg (by decide), if_pos rfl,
            run_bind_ok (readIntLE_write (k := 4) (by decide) (by omega) (by omega) _), fromPrimitive_ok ht]
        · simp only [flush_cons, WOp.bytes, flush_nil, List.append_nil, List.nil_append, List.cons_append]
          rw [run_bind_ok (readU8_cons _ _), if_neg (by decide), if_neg (by decide), if_pos rfl,
            run_bind_ok (readIntLE_write (k := 8) (by decide) (by omega) (by omega) _), fromPrimitive_ok ht]
  · split
    · simp only [flush_cons, WOp.bytes, flush_nil, List.append_nil, List.nil_append, List.cons_append]
      rw [run_bind_ok (readU8_cons _ _), if_neg (by decide), if_neg (by decide), if_neg (by decide),
        if_pos rfl, run_bind_ok (readIntLE_write (k := 1) (by decide) (by omega) (by omega) _), fromPrimitive_ok ht]
    · split
      · simp only [flush_cons, WOp.bytes, flush_nil, List.append_nil, List.nil_append, List.cons_append]
        rw [run_bind_ok (readU8_cons _ _), if_pos rfl,
          run_bind_ok (readIntLE_write (k := 2) (by decide) (by omega) (by omega) _), fromPrimitive_ok ht]
      · split
        · simp only [flush_cons, WOp.bytes, flush_nil, List.append_nil, List.nil_append, List.cons_append]
          rw [run_bind_ok (readU8_cons _ _), if_neg (by decide), if_pos rfl,
            run_bind_ok (readIntLE_write (k := 4) (by decide) (by omega) (by omega) _), fromPrimitive_ok ht]
        · simp only [flush_cons, WOp.bytes, flush_nil, List.append_nil, List.nil_append, List.cons_append]
          rw [run_bind_ok (readU8_cons _ _), if_neg (by decide), if_neg (by decide), if_pos rfl,
            run_bind_ok (readIntLE_write (k := 8) (by decide) (by omega) (by omega) _), fromPrimitive_ok ht]

theorem binWriteInteger_count (n : Int) : (binWriteInteger n).2 = (intBytes n).length := by
  unfold intBytes binWriteInteger
  repeat' split
  all_goals simp [WOp.bytes]

theorem binWriteNat0_count (n : Nat) : (binWriteNat0 n).2 = (natBytes n).length := by
  unfold natBytes binWriteNat0
  repeat' split
  all_goals simp [WOp.bytes]

theorem readUintLE_write {k n : Nat} (h : n < 256 ^ k) (r : Bytes) :
    (readUintLE k).run (leBytes k n ++ r) = .ok (n, r) := by
  rw [readUintLE_append (leBytes_length _ _), leNat_leBytes_of_lt h]

theorem small_byte (m : Nat) (hm : m < 128) : UInt8.ofNat m ≠ CODE_INT16 ∧ UInt8.ofNat m ≠ CODE_INT32 ∧
    UInt8.ofNat m ≠ CODE_INT64 ∧ UInt8.ofNat m ≠ CODE_NEG_INT8 ∧ ¬ (0x80 < UInt8.ofNat m) ∧
    (UInt8.ofNat m).toNat = m := by
  revert m; decide

theorem binReadNat0_write {n : Nat} (hn : n < 2 ^ 64) {t : IntTy} (ht : t.holds n) (r : Bytes) :
    (binReadNat0 t).run (natBytes n ++ r) = .ok ((n : Int), r) := by
  unfold natBytes binWriteNat0 binReadNat0
  split
  · rename_i h
    have hm : n % 256 = n := by omega
    obtain ⟨a, b, c, d, e, f⟩ := small_byte n h
    simp only [flush_cons, WOp.bytes, flush_nil, List.append_nil, List.singleton_append, hm]
    rw [run_bind_ok (readU8_cons _ _)]
    simp only [a, b, c, e, if_false]
    rw [f, fromPrimitive_ok ht]
  · split
    · simp only [flush_cons, WOp.bytes, flush_nil, List.append_nil, List.nil_append, List.cons_append]
      rw [run_bind_ok (readU8_cons _ _), if_pos rfl,
        run_bind_ok (readUintLE_write (k := 2) (by omega) _), fromPrimitive_ok ht]
    · split
      · simp only [flush_cons, WOp.bytes, flush_nil, List.append_nil, List.nil_append, List.cons_append]
        rw [run_bind_ok (readU8_cons _ _), if_neg (by decide), if_pos rfl,
          run_bind_ok (readUintLE_write (k := 4) (by omega) _), fromPrimitive_ok ht]
      · simp only [flush_cons, WOp.bytes, flush_nil, List.append_nil, List.nil_append, List.cons_append]
        rw [run_bind_ok (readU8_cons _ _), if_neg (by decide), if_neg (by decide), if_pos rfl,
          run_bind_ok (readUintLE_write (k := 8) (by omega) _), fromPrimitive_ok ht]

theorem binReadLen_write {n : Nat} (hn : n < 2 ^ 64) (r : Bytes) :
    binReadLen.run (natBytes n ++ r) = .ok (n, r) := by
  unfold binReadLen
  rw [run_bind_ok (binReadNat0_write hn (t := u64) (by simp [IntTy.holds, u64]; omega) r)]
  simp

theorem fromUTF8?_utf8 (s : String) : String.fromUTF8? ⟨(utf8 s).toArray⟩ = some s := by
  have hh : (⟨(utf8 s).toArray⟩ : ByteArray) = s.toByteArray := by
    simp [utf8, String.toUTF8]
  rw [hh]
  unfold String.fromUTF8?
  rw [dif_pos s.isValidUTF8]
  rfl

theorem run_claim {n : Nat} (h : n < 2 ^ 63) (s : Bytes) : (claim n).run s = .ok ((), s) := by
  unfold claim; rw [if_pos h]; rfl

theorem binReadString_write (s : String) (hs : (utf8 s).length < 2 ^ 63) (r : Bytes) :
    binReadString.run (flush (binWriteString s) ++ r) = .ok (s, r) := by
  unfold binReadString binWriteString
  have e : flush ((binWriteNat0 (utf8 s).length).1 ++ [.all (utf8 s)]) ++ r
      = natBytes (utf8 s).length ++ (utf8 s ++ r) := by
    simp [natBytes, WOp.bytes]
  rw [e, run_bind_ok (binReadLen_write (by omega) _), run_bind_ok (run_claim hs _), run_bind_ok (run_readExact_append rfl),
    fromUTF8?_utf8]
  rfl

end MinaRs.BinProt
