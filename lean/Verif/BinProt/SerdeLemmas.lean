import Verif.BinProt.PrimCases
import Verif.BinProt.SerdeSpec

/-! Helper lemmas for the typed layer. -/

namespace MinaRs.BinProt
open Prog Spec

theorem decodeN_flatMap {α : Type} (p : Prog α) (enc : α → Bytes) (l : List α)
    (h : ∀ a ∈ l, ∀ r, p.run (enc a ++ r) = .ok (a, r)) (r : Bytes) :
    (decodeN p l.length).run (l.flatMap enc ++ r) = .ok (l, r) := by
  induction l with
  | nil => rfl
  | cons a l ih =>
    simp only [List.length_cons, decodeN, List.flatMap_cons, List.append_assoc]
    rw [run_bind_ok (h a (by simp) _), run_bind_ok (ih (fun b hb => h b (by simp [hb])))]
    rfl

theorem flush_flatMap {α : Type} (f : α → List WOp) (l : List α) :
    flush (l.flatMap f) = l.flatMap (fun a => flush (f a)) := by
  induction l with
  | nil => rfl
  | cons a l ih => simp [ih]

theorem binReadUnit_write (r : Bytes) : binReadUnit.run (flush binWriteUnit ++ r) = .ok ((), r) := by
  simp only [binWriteUnit, flush_cons, flush_nil, WOp.bytes, List.append_nil, List.singleton_append]
  exact run_bind_ok (readU8_cons _ _)

theorem binReadBool_write (b : Bool) (r : Bytes) :
    binReadBool.run (flush (binWriteBool b) ++ r) = .ok (b, r) := by
  simp only [binWriteBool, flush_cons, flush_nil, WOp.bytes, List.append_nil, List.singleton_append]
  unfold binReadBool
  rw [run_bind_ok (readU8_cons _ _)]
  cases b <;> rfl

theorem binReadChar_write {c : Char} (hc : c.toNat < 256) (r : Bytes) :
    binReadChar.run (flush (binWriteChar c).1 ++ r) = .ok (c, r) := by
  simp only [binWriteChar, flush_cons, flush_nil, WOp.bytes, List.append_nil, List.singleton_append]
  unfold binReadChar
  rw [run_bind_ok (readU8_cons _ _)]
  simp only [run_ret]
  rw [UInt8.toNat_ofNat_mod, Nat.mod_eq_of_lt hc, Char.ofNat_toNat]

theorem readF32_write (f : UInt32) (r : Bytes) :
    readF32.run (flush (binWriteFloat32 f).1 ++ r) = .ok (f, r) := by
  simp only [binWriteFloat32, flush_cons, flush_nil, WOp.bytes, List.append_nil]
  unfold readF32
  rw [run_bind_ok (readUintLE_write f.toNat_lt _)]
  simp

theorem readF64_write (f : UInt64) (r : Bytes) :
    readF64.run (flush (binWriteFloat64 f).1 ++ r) = .ok (f, r) := by
  simp only [binWriteFloat64, flush_cons, flush_nil, WOp.bytes, List.append_nil]
  unfold readF64
  rw [run_bind_ok (readUintLE_write f.toNat_lt _)]
  simp

theorem binReadPolyvarTag_write {tag : UInt32} (h : tag.toNat < 2 ^ 31) (r : Bytes) :
    binReadPolyvarTag.run (flush (binWritePolyvarTag tag).1 ++ r) = .ok (tag, r) := by
  simp only [binWritePolyvarTag, flush_cons, flush_nil, WOp.bytes, List.append_nil]
  unfold binReadPolyvarTag
  rw [run_bind_ok (readUintLE_write (UInt32.toNat_lt _) _)]
  have e : (UInt32.ofNat ((tag <<< 1) ||| 1).toNat >>> 1) = tag := by
    apply UInt32.toNat_inj.mp
    rw [UInt32.ofNat_toNat, UInt32.toNat_shiftRight, shl1_or1_toNat]
    simp only [UInt32.reduceToNat, Nat.reduceMod, Nat.shiftRight_eq_div_pow, Nat.pow_one]
    omega
  rw [e]; rfl

theorem IntKind.holds_i64 {k : IntKind} {n : Int} (h : k.range.holds n) (hf : k = .u64 → n < 2 ^ 63) :
    k.wire n = n ∧ BinProt.i64.holds n := by
  cases k <;> simp_all [IntKind.range, IntKind.wire, IntTy.holds, BinProt.i8, BinProt.i16, BinProt.i32,
    BinProt.i64, BinProt.u16, BinProt.u32, BinProt.u64, toSigned] <;> omega

theorem Tys.index_lt_length : (vs : Tys) → (v : vs.sum) → vs.index v < vs.length
  | .nil, v => nomatch (show Empty from v)
  | .cons _ _ ts, v => by
    rcases v with w | w
    · simp [Tys.index, Tys.length]
    · have := Tys.index_lt_length ts w
      simp [Tys.index, Tys.length]; omega

theorem Tys.names_length : (vs : Tys) → vs.names.length = vs.length
  | .nil => rfl
  | .cons _ _ ts => by simp [Tys.names, Tys.length, Tys.names_length ts]

theorem Tys.names_index : (vs : Tys) → (v : vs.sum) → vs.names[vs.index v]? = some (vs.variantName v)
  | .nil, v => nomatch (show Empty from v)
  | .cons _ _ ts, v => by
    rcases v with w | w
    · rfl
    · simpa [Tys.index, Tys.names, Tys.variantName] using Tys.names_index ts w

theorem asciiFilter_eq {names : List String} (h : ∀ n ∈ names, IsAsciiName n) :
    names.filter (fun n => (utf8 n).all (fun b => b < 0x80)) = names := by
  apply List.filter_eq_self.mpr
  intro n hn
  simp only [List.all_eq_true, decide_eq_true_eq]
  intro b hb
  have := h n hn b hb
  rw [UInt8.lt_iff_toNat_lt]
  exact this

theorem polyvarIndex_of_ok {vs : Tys} {v : vs.sum} (h : PolyvarOk vs v) :
    polyvarIndex vs.names (camlHashVariant (utf8 (vs.variantName v))) = some (vs.index v) := by
  obtain ⟨-, -, hascii, hfirst⟩ := h
  unfold polyvarIndex
  rw [asciiFilter_eq hascii, List.findIdx?_eq_some_iff_getElem]
  have hn := Tys.names_index vs v
  obtain ⟨hlt, he⟩ := List.getElem?_eq_some_iff.mp hn
  refine ⟨hlt, by rw [he]; simp, ?_⟩
  intro j hj
  have := hfirst (vs.names[j]) (by
    rw [List.mem_take_iff_getElem]
    exact ⟨j, by omega, rfl⟩)
  simpa using this

mutual
/-- The round trip, by induction over the type description. -/
theorem decode_encode : (t : Ty) → (v : t.denote) → Fits t v → (r : Bytes) →
    (decode t).run (flush (encode t v) ++ r) = .ok (v, r)
  | .unit, v, _, r => by cases v; exact binReadUnit_write r
  | .bool, v, _, r => binReadBool_write v r
  | .u8, v, _, r => by
    simp only [encode, flush_cons, flush_nil, WOp.bytes, List.append_nil, List.singleton_append]
    exact readU8_cons _ _
  | .int k, v, hf, r => by
    obtain ⟨n, hn⟩ := v
    obtain ⟨hw, hi⟩ := IntKind.holds_i64 hn (by simpa [Fits] using hf)
    simp only [encode, decode, hw]
    refine (run_bind_ok (binReadInteger_write hi hn r)).trans ?_
    rw [dif_pos hn]
    rfl
  | .f32, v, _, r => readF32_write v r
  | .f64, v, _, r => readF64_write v r
  | .char, v, hf, r => binReadChar_write (by simpa [Fits] using hf) r
  | .string, v, hf, r => binReadString_write v (by simpa [Fits] using hf) r
  | .option t, v, hf, r => by
    rcases v with _ | v
    · simp only [encode, decode]
      have : binReadBool.run (flush binWriteUnit ++ r) = .ok (false, r) := binReadBool_write false r
      rw [run_bind_ok this]; rfl
    · simp only [encode, decode, flush_cons, WOp.bytes, List.append_assoc]
      have : ∀ r, binReadBool.run ([0x01] ++ r) = .ok (true, r) := fun r => by
        have := binReadBool_write true r
        simpa [binWriteBool, WOp.bytes] using this
      rw [run_bind_ok (this _)]
      simp only [if_true]
      rw [run_bind_ok (decode_encode t v (by simpa [Fits] using hf) r)]
      rfl
  | .newtype t, v, hf, r => by
    simp only [encode, decode]
    exact decode_encode t v (by simpa [Fits] using hf) r
  | .seq t, v, hf, r => by
    simp only [Fits] at hf
    obtain ⟨hl, hall⟩ := hf
    simp only [encode, decode, flush_append, List.append_assoc]
    have := binReadLen_write hl (flush (List.flatMap (encode t) v) ++ r)
    unfold natBytes at this
    refine (run_bind_ok this).trans ?_
    have e := flush_flatMap (encode t) (show List t.denote from v)
    refine (congrArg (fun x => (decodeN (decode t) (List.length v)).run (x ++ r)) e).trans ?_
    exact decodeN_flatMap _ (fun a => flush (encode t a)) v (fun a ha r => decode_encode t a (hall a ha) r) r
  | .tuple ts, v, hf, r => decodeProd_encode ts v (by simpa [Fits] using hf) r
  | .struct ts, v, hf, r => decodeProd_encode ts v (by simpa [Fits] using hf) r
  | .enum vs, v, hf, r => by
    simp only [Fits] at hf
    obtain ⟨hi, hs⟩ := hf
    simp only [encode, decode, writeVariantIndex, if_pos hi, flush_append, binWriteVariantIndex,
      flush_cons, flush_nil, WOp.bytes, List.nil_append, List.cons_append]
    unfold binReadVariantIndex
    refine (run_bind_ok (readU8_cons _ _)).trans ?_
    have : (UInt8.ofNat (vs.index v)).toNat = vs.index v := by simp; omega
    rw [this]
    exact decodeSum_encode vs v hs r
  | .polyvar vs, v, hf, r => by
    simp only [Fits] at hf
    obtain ⟨hp, hs⟩ := hf
    simp only [encode, decode, writePolyvar, flush_append, List.append_assoc]
    refine (run_bind_ok (binReadPolyvarTag_write hp.2.1 _)).trans ?_
    rw [polyvarIndex_of_ok hp]
    have : (UInt8.ofNat (vs.index v)).toNat = vs.index v := by
      have := hp.1
      simp; omega
    simp only [this]
    exact decodeSum_encode vs v hs r
theorem decodeProd_encode : (ts : Tys) → (v : ts.prod) → FitsProd ts v → (r : Bytes) →
    (decodeProd ts).run (flush (encodeProd ts v) ++ r) = .ok (v, r)
  | .nil, v, _, r => by cases v; rfl
  | .cons _ t ts, v, hf, r => by
    obtain ⟨a, b⟩ := v
    simp only [FitsProd] at hf
    simp only [encodeProd, decodeProd, flush_append, List.append_assoc]
    rw [run_bind_ok (decode_encode t a hf.1 _), run_bind_ok (decodeProd_encode ts b hf.2 r)]
    rfl
theorem decodeSum_encode : (vs : Tys) → (v : vs.sum) → FitsSum vs v → (r : Bytes) →
    (decodeSum vs (vs.index v)).run (flush (encodeSum vs v) ++ r) = .ok (v, r)
  | .nil, v, _, _ => nomatch (show Empty from v)
  | .cons _ t ts, v, hf, r => by
    rcases v with w | w
    · simp only [encodeSum, Tys.index, decodeSum]
      rw [run_bind_ok (decode_encode t w (by simpa [FitsSum] using hf) r)]
      rfl
    · simp only [encodeSum, Tys.index, decodeSum]
      rw [run_bind_ok (decodeSum_encode ts w (by simpa [FitsSum] using hf) r)]
      rfl
end

end MinaRs.BinProt
