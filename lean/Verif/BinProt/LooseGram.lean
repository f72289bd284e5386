import Verif.BinProt.LooseLemmas

/-! The recursive descent accepts exactly the layout's grammar; decoded values and their bytes
(helper lemmas). -/

namespace MinaRs.BinProt
open Prog Spec

theorem wireElems_bytes : ∀ (enc bs : Bytes), WireElems (fun e b => e = [b]) enc bs ↔ enc = bs
  | enc, [] => by simp [WireElems]
  | enc, b :: bs => by
    simp only [WireElems]
    constructor
    · rintro ⟨e₁, e₂, rfl, rfl, h⟩
      rw [(wireElems_bytes e₂ bs).mp h]; rfl
    · rintro rfl
      exact ⟨[b], bs, rfl, rfl, (wireElems_bytes bs bs).mpr rfl⟩

theorem decodeN_readU8_ok_iff (n : Nat) (s bs r : Bytes) :
    (decodeN readU8 n).run s = .ok (bs, r) ↔ s = bs ++ r ∧ bs.length = n := by
  rw [decodeN_ok_iff readU8 (fun e b => e = [b])]
  · simp only [wireElems_bytes]
    constructor
    · rintro ⟨enc, rfl, h, rfl⟩; exact ⟨rfl, h⟩
    · rintro ⟨rfl, h⟩; exact ⟨bs, rfl, h, rfl⟩
  · intro s v r
    rw [readU8_ok_iff]
    constructor
    · rintro rfl; exact ⟨[v], rfl, rfl⟩
    · rintro ⟨enc, rfl, rfl⟩; rfl

theorem binReadBytes_ok_iff (s bs r : Bytes) :
    binReadBytes.run s = .ok (bs, r) ↔ ∃ len, s = len ++ bs ++ r ∧ bs.length < 2 ^ 63 ∧ WireNat len bs.length := by
  unfold binReadBytes
  simp only [run_bind_ok_iff]
  constructor
  · rintro ⟨n, s', h, _, s₁, hc, h'⟩
    obtain ⟨len, rfl, hw⟩ := (binReadLen_ok_iff _ _ _).mp h
    obtain ⟨hn, rfl⟩ := (claim_ok_iff _ _ _ _).mp hc
    obtain ⟨rfl, rfl⟩ := (readExact_ok_iff _ _ _ _).mp h'
    exact ⟨len, by simp, hn, hw⟩
  · rintro ⟨len, rfl, hn, hw⟩
    exact ⟨bs.length, bs ++ r, (binReadLen_ok_iff _ _ _).mpr ⟨len, by simp, hw⟩, (), _, run_claim hn _, run_readExact_append rfl⟩

theorem binReadUnit_ok_iff (s : Bytes) (u : Unit) (r : Bytes) :
    binReadUnit.run s = .ok (u, r) ↔ s = 0x00 :: r := by
  have := decode_ok_iff .unit (by simp [WfTy]) s u r
  simp only [decode, Wire] at this
  refine Iff.trans this ?_
  constructor
  · rintro ⟨enc, rfl, rfl⟩; rfl
  · rintro rfl; exact ⟨[0], rfl, rfl⟩

theorem readF64_ok_iff (s : Bytes) (f : UInt64) (r : Bytes) :
    readF64.run s = .ok (f, r) ↔ ∃ enc, s = enc ++ r ∧ enc.length = 8 ∧ leNat enc = f.toNat :=
  decode_ok_iff .f64 (by simp [WfTy]) s f r

theorem ret_ok_iff {α : Type} (a b : α) (s r : Bytes) :
    (Prog.ret a).run s = .ok (b, r) ↔ b = a ∧ s = r := by
  constructor
  · intro h; cases h; exact ⟨rfl, rfl⟩
  · rintro ⟨rfl, rfl⟩; rfl

theorem wireInt_i64 {n : Int} {enc : Bytes} (h : WireInt enc n) : i64.holds n := by
  cases h with
  | small b h => simp [IntTy.holds, i64]; omega
  | wide l k p v hl hk hp hv =>
    have hk8 : 8 * k - 1 ≤ 63 := by
      rcases intPayload_cases l with ⟨_, hq, _⟩ | ⟨_, hq⟩ | ⟨_, hq⟩ | ⟨_, hq⟩ | ⟨_, hq⟩ | ⟨_, hq, _⟩ <;>
        rw [hq] at hl <;> simp at hl <;> omega
    obtain ⟨h1, h2, -⟩ := hv
    rw [hp] at h1 h2
    have h3 : (2:Int) ^ (8 * k - 1) ≤ 2 ^ 63 := by
      exact_mod_cast Nat.pow_le_pow_right (by omega : 2 > 0) hk8
    simp only [IntTy.holds, i64]
    generalize (2:Int) ^ (8 * k - 1) = x at *
    omega

mutual
/-- The recursive descent accepts exactly the grammar. -/
theorem parse_ok_iff : (l : Rule) → (p : Option String) → (s : Bytes) → (v : Value) → (r : Bytes) →
    ((parse l p).run s = .ok (v, r) ↔ ∃ enc, s = enc ++ r ∧ Gram false l p enc v)
  | .unit, p, s, v, r => by
    simp only [parse, Gram, run_bind_ok_iff, binReadUnit_ok_iff, ret_ok_iff]
    constructor
    · rintro ⟨_, _, rfl, rfl, rfl⟩; exact ⟨[0], rfl, rfl, rfl⟩
    · rintro ⟨_, rfl, rfl, rfl⟩; exact ⟨(), r, rfl, rfl, rfl⟩
  | .bool, p, s, v, r => by
    simp only [parse, Gram, run_bind_ok_iff, binReadBool_ok_iff, ret_ok_iff]
    constructor
    · rintro ⟨b, _, ⟨enc, rfl, rfl⟩, rfl, rfl⟩; exact ⟨_, rfl, b, rfl, rfl⟩
    · rintro ⟨enc, rfl, b, rfl, rfl⟩; exact ⟨b, r, ⟨_, rfl, rfl⟩, rfl, rfl⟩
  | .char, p, s, v, r => by
    simp only [parse, Gram, run_bind_ok_iff, readU8_ok_iff, ret_ok_iff]
    constructor
    · rintro ⟨b, _, rfl, rfl, rfl⟩; exact ⟨[b], rfl, b, rfl, rfl⟩
    · rintro ⟨enc, rfl, b, rfl, rfl⟩; exact ⟨b, r, rfl, rfl, rfl⟩
  | .int k, p, s, v, r => by
    simp only [parse, Gram, run_bind_ok_iff, binReadInteger_ok_iff, ret_ok_iff]
    constructor
    · rintro ⟨n, _, ⟨enc, rfl, hw, _⟩, rfl, rfl⟩; exact ⟨enc, rfl, n, rfl, hw, by simp⟩
    · rintro ⟨enc, rfl, n, rfl, hw, _⟩; exact ⟨n, r, ⟨enc, rfl, hw, wireInt_i64 hw⟩, rfl, rfl⟩
  | .float, p, s, v, r => by
    simp only [parse, Gram, run_bind_ok_iff, readF64_ok_iff, ret_ok_iff]
    constructor
    · rintro ⟨f, _, ⟨enc, rfl, h1, h2⟩, rfl, rfl⟩; exact ⟨enc, rfl, f, rfl, h1, h2⟩
    · rintro ⟨enc, rfl, f, rfl, h1, h2⟩; exact ⟨f, r, ⟨enc, rfl, h1, h2⟩, rfl, rfl⟩
  | .string, p, s, v, r => by
    simp only [parse, Gram, run_bind_ok_iff, binReadBytes_ok_iff, ret_ok_iff]
    constructor
    · rintro ⟨bs, _, ⟨len, rfl, h0, h1⟩, rfl, rfl⟩; exact ⟨len ++ bs, rfl, len, bs, rfl, rfl, h0, h1, by simp⟩
    · rintro ⟨enc, rfl, len, bs, rfl, rfl, h0, h1, _⟩; exact ⟨bs, r, ⟨len, rfl, h0, h1⟩, rfl, rfl⟩
  | .option l, p, s, v, r => by
    simp only [parse, Gram, run_bind_ok_iff, readU8_ok_iff]
    constructor
    · rintro ⟨b, s', rfl, h⟩
      split at h
      · rename_i hb
        obtain ⟨rfl, rfl⟩ := (ret_ok_iff _ _ _ _).mp h
        exact ⟨[b], rfl, .inl ⟨rfl, by rw [hb]⟩⟩
      · split at h
        · rename_i hb
          obtain ⟨w, s'', h1, h2⟩ := (run_bind_ok_iff _ _ _ _ _).mp h
          obtain ⟨rfl, rfl⟩ := (ret_ok_iff _ _ _ _).mp h2
          obtain ⟨e, rfl, hg⟩ := (parse_ok_iff l p _ _ _).mp h1
          exact ⟨b :: e, rfl, .inr ⟨w, e, rfl, by rw [hb], hg⟩⟩
        · cases h
    · rintro ⟨enc, rfl, ⟨rfl, rfl⟩ | ⟨w, e, rfl, rfl, hg⟩⟩
      · exact ⟨0, r, rfl, rfl⟩
      · exact ⟨1, e ++ r, rfl, (run_bind_ok_iff _ _ _ _ _).mpr
          ⟨w, r, (parse_ok_iff l p _ _ _).mpr ⟨e, rfl, hg⟩, rfl⟩⟩
  | .record fs, p, s, v, r => by
    simp only [parse, Gram, run_bind_ok_iff, parseFields_ok_iff fs p, ret_ok_iff]
    constructor
    · rintro ⟨vs, _, ⟨enc, rfl, h⟩, rfl, rfl⟩; exact ⟨enc, rfl, vs, rfl, h⟩
    · rintro ⟨enc, rfl, vs, rfl, h⟩; exact ⟨vs, r, ⟨enc, rfl, h⟩, rfl, rfl⟩
  | .tuple rs, p, s, v, r => by
    simp only [parse, Gram, run_bind_ok_iff, parseTuple_ok_iff rs p, ret_ok_iff]
    constructor
    · rintro ⟨vs, _, ⟨enc, rfl, h⟩, rfl, rfl⟩; exact ⟨enc, rfl, vs, rfl, h⟩
    · rintro ⟨enc, rfl, vs, rfl, h⟩; exact ⟨vs, r, ⟨enc, rfl, h⟩, rfl, rfl⟩
  | .list l, p, s, v, r => by
    have ih := decodeN_ok_iff (parse l p) (Gram false l p) (fun s v r => parse_ok_iff l p s v r)
    simp only [parse, Gram, run_bind_ok_iff, binReadLen_ok_iff, claim_ok_iff, ih, ret_ok_iff]
    constructor
    · rintro ⟨n, _, ⟨len, rfl, hw⟩, _, _, ⟨hn, rfl⟩, vs, _, ⟨es, rfl, rfl, he⟩, rfl, rfl⟩
      exact ⟨len ++ es, by simp, len, es, vs, rfl, rfl, by unfold ruleSize at hn; omega, hw, by simp, he⟩
    · rintro ⟨enc, rfl, len, es, vs, rfl, rfl, hn, hw, _, he⟩
      exact ⟨_, es ++ r, ⟨len, by simp, hw⟩, (), _, ⟨by unfold ruleSize; omega, rfl⟩, vs, r, ⟨es, rfl, rfl, he⟩, rfl, rfl⟩
  | .sum ss, p, s, v, r => by
    simp only [parse, Gram, run_bind_ok_iff, readU8_ok_iff, parseSummand_ok_iff ss _ p]
    constructor
    · rintro ⟨b, _, rfl, enc, rfl, h⟩; exact ⟨b :: enc, rfl, b, enc, rfl, h⟩
    · rintro ⟨_, rfl, b, enc, rfl, h⟩; exact ⟨b, enc ++ r, rfl, enc, rfl, h⟩
  | .polyvar ps, p, s, v, r => by
    simp only [parse, Gram, run_bind_ok_iff, binReadPolyvarTag_ok_iff, parsePolyvar_ok_iff ps _ p]
    constructor
    · rintro ⟨t, _, ⟨tag, rfl, h4, ht⟩, enc, rfl, h⟩
      exact ⟨tag ++ enc, by simp, tag, enc, rfl, h4, by simp, by rw [← ht]; exact h⟩
    · rintro ⟨_, rfl, tag, enc, rfl, h4, _, h⟩
      have hlt := leNat_lt tag
      rw [h4] at hlt
      have e1 : (UInt32.ofNat (leNat tag / 2)).toNat = leNat tag / 2 := by simp; omega
      exact ⟨UInt32.ofNat (leNat tag / 2), enc ++ r, ⟨tag, by simp, h4, e1⟩, enc, rfl, by rw [e1]; exact h⟩
  | .reference path l, p, s, v, r => by
    simp only [parse, Gram]
    exact parse_ok_iff l (some path) s v r
  | .custom rs, p, s, v, r => by
    simp only [parse, Gram]
    cases p with
    | none =>
      constructor
      · intro h; cases h
      · rintro ⟨_, _, _, h, _⟩; cases h
    | some path =>
      simp only
      cases hk : customKind path with
      | vector n =>
        simp only [run_bind_ok_iff, binReadUnit_ok_iff, ret_ok_iff, parseVector_ok_iff rs n (some path)]
        constructor
        · rintro ⟨vs, _, ⟨es, rfl, he⟩, _, _, rfl, rfl, rfl⟩
          exact ⟨es ++ [0], by simp, path, rfl, .inl ⟨n, es, vs, hk, rfl, rfl, he⟩⟩
        · rintro ⟨enc, rfl, path', h, ⟨n', es, vs, hk', rfl, rfl, he⟩ | ⟨hk', _⟩⟩
          · cases h
            rw [hk] at hk'
            cases hk'
            exact ⟨vs, 0 :: r, ⟨es, by simp, he⟩, (), r, rfl, rfl, rfl⟩
          · cases h; rw [hk] at hk'; cases hk'
      | bigInt =>
        simp only [run_bind_ok_iff, decodeN_readU8_ok_iff, ret_ok_iff]
        constructor
        · rintro ⟨bs, _, ⟨rfl, h32⟩, rfl, rfl⟩
          exact ⟨bs, rfl, path, rfl, .inr ⟨hk, rfl, h32⟩⟩
        · rintro ⟨enc, rfl, path', h, ⟨n', es, vs, hk', _⟩ | ⟨hk', rfl, h32⟩⟩
          · cases h; rw [hk] at hk'; cases hk'
          · exact ⟨enc, r, ⟨rfl, h32⟩, rfl, rfl⟩
      | unknown =>
        constructor
        · intro h; cases h
        · rintro ⟨enc, rfl, path', h, ⟨n', es, vs, hk', _⟩ | ⟨hk', _⟩⟩ <;>
            (cases h; rw [hk] at hk'; cases hk')
  | .nat0, p, s, v, r => by
    simp only [parse, Gram]
    exact ⟨fun h => (by cases h), fun ⟨_, _, h⟩ => h.elim⟩
  | .customForPath _ _, p, s, v, r => by
    simp only [parse, Gram]
    exact ⟨fun h => (by cases h), fun ⟨_, _, h⟩ => h.elim⟩
  | .other _, p, s, v, r => by
    simp only [parse, Gram]
    exact ⟨fun h => (by cases h), fun ⟨_, _, h⟩ => h.elim⟩
theorem parseTuple_ok_iff : (ls : List Rule) → (p : Option String) → (s : Bytes) → (vs : List Value) →
    (r : Bytes) → ((parseTuple ls p).run s = .ok (vs, r) ↔ ∃ enc, s = enc ++ r ∧ GramTuple false ls p enc vs)
  | [], p, s, vs, r => by
    simp only [parseTuple, GramTuple, ret_ok_iff]
    constructor
    · rintro ⟨rfl, rfl⟩; exact ⟨[], rfl, rfl, rfl⟩
    · rintro ⟨enc, rfl, rfl, rfl⟩; exact ⟨rfl, rfl⟩
  | l :: ls, p, s, vs, r => by
    simp only [parseTuple, GramTuple, run_bind_ok_iff, parse_ok_iff l p, parseTuple_ok_iff ls p, ret_ok_iff]
    constructor
    · rintro ⟨w, _, ⟨e₁, rfl, h₁⟩, ws, _, ⟨e₂, rfl, h₂⟩, rfl, rfl⟩
      exact ⟨e₁ ++ e₂, by simp, e₁, e₂, w, ws, rfl, rfl, h₁, h₂⟩
    · rintro ⟨enc, rfl, e₁, e₂, w, ws, rfl, rfl, h₁, h₂⟩
      exact ⟨w, e₂ ++ r, ⟨e₁, by simp, h₁⟩, ws, r, ⟨e₂, rfl, h₂⟩, rfl, rfl⟩
theorem parseFields_ok_iff : (ls : List (String × Rule)) → (p : Option String) → (s : Bytes) →
    (vs : List (String × Value)) → (r : Bytes) →
    ((parseFields ls p).run s = .ok (vs, r) ↔ ∃ enc, s = enc ++ r ∧ GramFields false ls p enc vs)
  | [], p, s, vs, r => by
    simp only [parseFields, GramFields, ret_ok_iff]
    constructor
    · rintro ⟨rfl, rfl⟩; exact ⟨[], rfl, rfl, rfl⟩
    · rintro ⟨enc, rfl, rfl, rfl⟩; exact ⟨rfl, rfl⟩
  | (name, l) :: ls, p, s, vs, r => by
    simp only [parseFields, GramFields, run_bind_ok_iff, parse_ok_iff l p, parseFields_ok_iff ls p, ret_ok_iff]
    constructor
    · rintro ⟨w, _, ⟨e₁, rfl, h₁⟩, ws, _, ⟨e₂, rfl, h₂⟩, rfl, rfl⟩
      exact ⟨e₁ ++ e₂, by simp, e₁, e₂, w, ws, rfl, rfl, h₁, h₂⟩
    · rintro ⟨enc, rfl, e₁, e₂, w, ws, rfl, rfl, h₁, h₂⟩
      exact ⟨w, e₂ ++ r, ⟨e₁, by simp, h₁⟩, ws, r, ⟨e₂, rfl, h₂⟩, rfl, rfl⟩
theorem parseSummand_ok_iff : (ss : List Summand) → (n : Nat) → (p : Option String) → (s : Bytes) → (v : Value) →
    (r : Bytes) → ((parseSummand ss n p).run s = .ok (v, r) ↔ ∃ enc, s = enc ++ r ∧ GramSummand false ss n p enc v)
  | [], n, p, s, v, r => by
    simp only [parseSummand, GramSummand]
    exact ⟨fun h => (by cases h), fun ⟨_, _, h⟩ => h.elim⟩
  | .mk name i args :: ss, 0, p, s, v, r => by
    simp only [parseSummand, GramSummand]
    split
    · rename_i hi
      simp only [run_bind_ok_iff, parseTuple_ok_iff args p, ret_ok_iff]
      constructor
      · rintro ⟨vs, _, ⟨enc, rfl, h⟩, rfl, rfl⟩; exact ⟨enc, rfl, hi.1, hi.2, vs, rfl, h⟩
      · rintro ⟨enc, rfl, _, _, vs, rfl, h⟩; exact ⟨vs, r, ⟨enc, rfl, h⟩, rfl, rfl⟩
    · rename_i hi
      exact ⟨fun h => (by cases h), fun ⟨_, _, h1, h2, _⟩ => (hi ⟨h1, h2⟩).elim⟩
  | .mk name i args :: ss, n + 1, p, s, v, r => by
    simp only [parseSummand, GramSummand]
    exact parseSummand_ok_iff ss n p s v r
theorem parsePolyvar_ok_iff : (ps : List Polyvar) → (tag : UInt32) → (p : Option String) → (s : Bytes) →
    (v : Value) → (r : Bytes) →
    ((parsePolyvar ps tag p).run s = .ok (v, r) ↔ ∃ enc, s = enc ++ r ∧ GramPolyvar false ps tag.toNat p enc v)
  | [], tag, p, s, v, r => by
    simp only [parsePolyvar, GramPolyvar]
    exact ⟨fun h => (by cases h), fun ⟨_, _, h⟩ => h.elim⟩
  | .inherited _ :: _, tag, p, s, v, r => by
    simp only [parsePolyvar, GramPolyvar]
    exact ⟨fun h => (by cases h), fun ⟨_, _, h⟩ => h.elim⟩
  | .tagged name hash args :: ps, tag, p, s, v, r => by
    simp only [parsePolyvar, GramPolyvar]
    split
    · rename_i hi
      simp only [run_bind_ok_iff, parseTuple_ok_iff args p, ret_ok_iff]
      constructor
      · rintro ⟨vs, _, ⟨enc, rfl, h⟩, rfl, rfl⟩; exact ⟨enc, rfl, .inl ⟨by rw [hi], vs, rfl, h⟩⟩
      · rintro ⟨enc, rfl, ⟨_, vs, rfl, h⟩ | ⟨h, _⟩⟩
        · exact ⟨vs, r, ⟨enc, rfl, h⟩, rfl, rfl⟩
        · exact (h (by rw [hi])).elim
    · rename_i hi
      rw [← UInt32.toNat_inj] at hi
      rw [parsePolyvar_ok_iff ps tag p s v r]
      simp only [hi, false_and, ne_eq, not_false_eq_true, true_and, false_or]
theorem parseVector_ok_iff : (rs : List Rule) → (n : Nat) → (p : Option String) → (s : Bytes) →
    (vs : List Value) → (r : Bytes) →
    ((parseVector rs n p).run s = .ok (vs, r) ↔ ∃ enc, s = enc ++ r ∧ GramVector false rs n p enc vs)
  | [], n, p, s, vs, r => by
    simp only [parseVector, GramVector]
    exact ⟨fun h => (by cases h), fun ⟨_, _, h⟩ => h.elim⟩
  | l :: _, n, p, s, vs, r => by
    have ih := decodeN_ok_iff (parse l p) (Gram false l p) (fun s v r => parse_ok_iff l p s v r)
    simp only [parseVector, GramVector]
    exact ih n s vs r
end

/-! ### Writing values back -/

theorem flush_char (c : UInt8) : flush (binWriteChar (Char.ofNat c.toNat)).1 = [c] := by
  have := char_ofNat_toNat c
  have hc := c.toNat_lt
  simp only [binWriteChar, flush_cons, flush_nil, WOp.bytes, List.append_nil, this]
  rw [Nat.mod_eq_of_lt hc, UInt8.ofNat_toNat]

theorem flush_chars (bs : Bytes) : flush (encodeValues (bs.map .char)) = bs := by
  induction bs with
  | nil => rfl
  | cons b bs ih =>
    simp only [List.map_cons, encodeValues, encodeValue, flush_append, flush_char, ih, List.cons_append,
      List.nil_append]

theorem flush_float (f : UInt64) (enc : Bytes) (h8 : enc.length = 8) (h : leNat enc = f.toNat) :
    flush (binWriteFloat64 f).1 = enc := by
  simp only [binWriteFloat64, flush_cons, flush_nil, WOp.bytes, List.append_nil]
  apply leNat_inj
  · rw [leBytes_length, h8]
  · rw [leNat_leBytes, h, Nat.mod_eq_of_lt]
    have := f.toNat_lt
    have : (256:Nat) ^ 8 = 2 ^ 64 := by decide
    omega

theorem flush_tag {hash : UInt32} (h : 256 ≤ hash.toNat) (h31 : hash.toNat < 2 ^ 31) :
    flush (writeVariantIndex hash.toNat) = leBytes 4 (2 * hash.toNat + 1) := by
  simp only [writeVariantIndex]
  rw [if_neg (by omega)]
  simp only [binWritePolyvarTag, flush_cons, flush_nil, WOp.bytes, List.append_nil, UInt32.ofNat_toNat,
    shl1_or1_toNat]
  rw [Nat.mod_eq_of_lt h31]

theorem flush_index (i : UInt8) : flush (writeVariantIndex i.toNat) = [i] := by
  have := i.toNat_lt
  simp only [writeVariantIndex]
  rw [if_pos this]
  simp only [binWriteVariantIndex, flush_cons, flush_nil, WOp.bytes, List.append_nil, UInt8.ofNat_toNat]

theorem flush_encodeValues_append (vs ws : List Value) :
    flush (encodeValues (vs ++ ws)) = flush (encodeValues vs) ++ flush (encodeValues ws) := by
  induction vs with
  | nil => simp [encodeValues]
  | cons v vs ih => simp only [List.cons_append, encodeValues, flush_append, ih, List.append_assoc]

theorem wireElems_bytes_of {R : Bytes → Value → Prop} : ∀ {es : Bytes} {vs : List Value},
    (∀ e v, R e v → flush (encodeValue v) = e) → WireElems R es vs → flush (encodeValues vs) = es
  | es, [], _, h => by simp only [WireElems] at h; simp [encodeValues, h]
  | es, v :: vs, hR, h => by
    obtain ⟨e₁, e₂, rfl, h₁, h₂⟩ := h
    simp only [encodeValues, flush_append, hR _ _ h₁, wireElems_bytes_of hR h₂]

theorem wireElems_canon {R R' : Bytes → Value → Prop} : ∀ {es : Bytes} {vs : List Value},
    (∀ e v, R e v → R' (flush (encodeValue v)) v) → WireElems R es vs →
    WireElems R' (flush (encodeValues vs)) vs
  | es, [], _, h => by simp [WireElems, encodeValues]
  | es, v :: vs, hR, h => by
    obtain ⟨e₁, e₂, rfl, h₁, h₂⟩ := h
    simp only [encodeValues, flush_append]
    exact ⟨_, _, rfl, hR _ _ h₁, wireElems_canon hR h₂⟩

mutual
/-- A value read from canonical bytes is written as those bytes. -/
theorem gram_bytes : (l : Rule) → Rewritable l → (p : Option String) → (enc : Bytes) → (v : Value) →
    Gram true l p enc v → flush (encodeValue v) = enc
  | .unit, _, p, enc, v, h => by
    obtain ⟨rfl, rfl⟩ := (by simpa only [Gram] using h : _ ∧ _); rfl
  | .bool, _, p, enc, v, h => by
    simp only [Gram] at h
    obtain ⟨b, rfl, rfl⟩ := h; cases b <;> rfl
  | .char, _, p, enc, v, h => by
    simp only [Gram] at h
    obtain ⟨c, rfl, rfl⟩ := h
    simp only [encodeValue]; exact flush_char c
  | .int _, _, p, enc, v, h => by
    simp only [Gram] at h
    obtain ⟨n, rfl, _, h⟩ := h
    simp only [encodeValue]; exact (h trivial).symm
  | .float, _, p, enc, v, h => by
    simp only [Gram] at h
    obtain ⟨n, rfl, h8, h⟩ := h
    simp only [encodeValue]; exact flush_float n enc h8 h
  | .string, _, p, enc, v, h => by
    simp only [Gram] at h
    obtain ⟨len, bs, rfl, rfl, _, _, h⟩ := h
    simp only [encodeValue, flush_append, flush_chars, List.length_map]
    rw [← h trivial]
  | .option l, hr, p, enc, v, h => by
    simp only [Gram, Rewritable] at h hr
    rcases h with ⟨rfl, rfl⟩ | ⟨w, e, rfl, rfl, h⟩
    · rfl
    · simp only [encodeValue, flush_cons, WOp.bytes, gram_bytes l hr p e w h]; rfl
  | .record fs, hr, p, enc, v, h => by
    simp only [Gram, Rewritable] at h hr
    obtain ⟨vs, rfl, h⟩ := h
    simp only [encodeValue]; exact gram_bytes_fields fs hr p enc vs h
  | .tuple rs, hr, p, enc, v, h => by
    simp only [Gram, Rewritable] at h hr
    obtain ⟨vs, rfl, h⟩ := h
    simp only [encodeValue]; exact gram_bytes_tuple rs hr p enc vs h
  | .list l, hr, p, enc, v, h => by
    simp only [Gram, Rewritable] at h hr
    obtain ⟨len, es, vs, rfl, rfl, _, _, hc, h⟩ := h
    simp only [encodeValue, flush_append]
    rw [wireElems_bytes_of (fun e v hv => gram_bytes l hr p e v hv) h, ← hc trivial]
  | .sum ss, hr, p, enc, v, h => by
    simp only [Gram, Rewritable] at h hr
    obtain ⟨b, e, rfl, h⟩ := h
    obtain ⟨name, idx, w, rfl, hi, hw⟩ := gram_bytes_summand ss 0 hr b.toNat p e v h
    have hidx : idx = b := by rw [← UInt8.toNat_inj]; omega
    simp only [encodeValue, flush_append, hw, flush_index, hidx]; rfl
  | .polyvar ps, hr, p, enc, v, h => by
    simp only [Gram, Rewritable] at h hr
    obtain ⟨tag, e, rfl, h4, hodd, h⟩ := h
    obtain ⟨name, hash, w, rfl, hh, h256, hw⟩ := gram_bytes_polyvar ps hr _ p e v h
    have hlt := leNat_lt tag
    rw [h4] at hlt
    have hodd := hodd trivial
    simp only [encodeValue, flush_append, hw]
    rw [flush_tag h256 (by omega)]
    congr 1
    apply leNat_inj
    · rw [leBytes_length, h4]
    · rw [leNat_leBytes, hh, Nat.mod_eq_of_lt (by omega)]; omega
  | .reference path l, hr, p, enc, v, h => by
    simp only [Gram, Rewritable] at h hr
    exact gram_bytes l hr (some path) enc v h
  | .custom rs, hr, p, enc, v, h => by
    simp only [Gram, Rewritable] at h hr
    obtain ⟨path, rfl, ⟨n, es, vs, _, rfl, rfl, h⟩ | ⟨_, rfl, _⟩⟩ := h
    · simp only [encodeValue, flush_encodeValues_append, gram_bytes_vector rs hr n _ es vs h]; rfl
    · simp only [encodeValue, flush_chars]
  | .nat0, _, p, enc, v, h => by simp only [Gram] at h
  | .customForPath _ _, _, p, enc, v, h => by simp only [Gram] at h
  | .other _, _, p, enc, v, h => by simp only [Gram] at h
theorem gram_bytes_tuple : (ls : List Rule) → RewritableRules ls → (p : Option String) → (enc : Bytes) →
    (vs : List Value) → GramTuple true ls p enc vs → flush (encodeValues vs) = enc
  | [], _, p, enc, vs, h => by
    simp only [GramTuple] at h
    obtain ⟨rfl, rfl⟩ := h; rfl
  | l :: ls, hr, p, enc, vs, h => by
    simp only [GramTuple, RewritableRules] at h hr
    obtain ⟨e₁, e₂, w, ws, rfl, rfl, h₁, h₂⟩ := h
    simp only [encodeValues, flush_append, gram_bytes l hr.1 p e₁ w h₁, gram_bytes_tuple ls hr.2 p e₂ ws h₂]
theorem gram_bytes_fields : (ls : List (String × Rule)) → RewritableFields ls → (p : Option String) →
    (enc : Bytes) → (vs : List (String × Value)) → GramFields true ls p enc vs → flush (encodeFields vs) = enc
  | [], _, p, enc, vs, h => by
    simp only [GramFields] at h
    obtain ⟨rfl, rfl⟩ := h; rfl
  | (_, l) :: ls, hr, p, enc, vs, h => by
    simp only [GramFields, RewritableFields] at h hr
    obtain ⟨e₁, e₂, w, ws, rfl, rfl, h₁, h₂⟩ := h
    simp only [encodeFields, flush_append, gram_bytes l hr.1 p e₁ w h₁, gram_bytes_fields ls hr.2 p e₂ ws h₂]
theorem gram_bytes_summand : (ss : List Summand) → (k : Nat) → RewritableSummands ss k → (n : Nat) →
    (p : Option String) → (enc : Bytes) → (v : Value) → GramSummand true ss n p enc v →
    ∃ name idx w, v = .sum name idx w ∧ idx.toNat = k + n ∧ flush (encodeValue w) = enc
  | [], k, _, n, p, enc, v, h => by simp only [GramSummand] at h
  | .mk name i args :: ss, k, hr, 0, p, enc, v, h => by
    simp only [GramSummand, RewritableSummands] at h hr
    obtain ⟨h0, h256, vs, rfl, h⟩ := h
    refine ⟨_, _, _, rfl, ?_, ?_⟩
    · obtain ⟨rfl, _⟩ := hr
      simp; omega
    · simp only [encodeValue]; exact gram_bytes_tuple args hr.2.1 p enc vs h
  | .mk name i args :: ss, k, hr, n + 1, p, enc, v, h => by
    simp only [GramSummand, RewritableSummands] at h hr
    obtain ⟨name, idx, w, rfl, hi, hw⟩ := gram_bytes_summand ss (k + 1) hr.2.2 n p enc v h
    exact ⟨name, idx, w, rfl, by omega, hw⟩
theorem gram_bytes_polyvar : (ps : List Polyvar) → RewritablePolyvars ps → (tag : Nat) →
    (p : Option String) → (enc : Bytes) → (v : Value) → GramPolyvar true ps tag p enc v →
    ∃ name hash w, v = .polyvar name hash w ∧ hash.toNat = tag ∧ 256 ≤ hash.toNat ∧ flush (encodeValue w) = enc
  | [], _, tag, p, enc, v, h => by simp only [GramPolyvar] at h
  | .inherited _ :: _, _, tag, p, enc, v, h => by simp only [GramPolyvar] at h
  | .tagged name hash args :: ps, hr, tag, p, enc, v, h => by
    simp only [GramPolyvar, RewritablePolyvars] at h hr
    rcases h with ⟨ht, vs, rfl, h⟩ | ⟨_, h⟩
    · refine ⟨_, _, _, rfl, ht, hr.1, ?_⟩
      simp only [encodeValue]; exact gram_bytes_tuple args hr.2.1 p enc vs h
    · exact gram_bytes_polyvar ps hr.2.2 tag p enc v h
theorem gram_bytes_vector : (ls : List Rule) → RewritableRules ls → (n : Nat) → (p : Option String) →
    (enc : Bytes) → (vs : List Value) → GramVector true ls n p enc vs → flush (encodeValues vs) = enc
  | [], _, n, p, enc, vs, h => by simp only [GramVector] at h
  | l :: _, hr, n, p, enc, vs, h => by
    simp only [GramVector, RewritableRules] at h hr
    exact wireElems_bytes_of (fun e v hv => gram_bytes l hr.1 p e v hv) h.2
end

theorem wireInt_write {n : Int} (h : i64.holds n) : WireInt (flush (binWriteInteger n).1) n := by
  have h1 := binReadInteger_write h (t := i64) h []
  obtain ⟨enc, he, hw, _⟩ := (binReadInteger_ok_iff _ _ _ _).mp h1
  simp only [List.append_nil] at he
  unfold intBytes at he
  rw [he]; exact hw

theorem wireNat_write {n : Nat} (h : n < 2 ^ 64) : WireNat (flush (binWriteNat0 n).1) n := by
  have h1 := binReadLen_write h []
  obtain ⟨enc, he, hw⟩ := (binReadLen_ok_iff _ _ _).mp h1
  simp only [List.append_nil] at he
  unfold natBytes at he
  rw [he]; exact hw

mutual
/-- What a decoded value is written as is a canonical wire form of it. -/
theorem gram_canon (c : Bool) : (l : Rule) → Rewritable l → (p : Option String) → (enc : Bytes) → (v : Value) →
    Gram c l p enc v → Gram true l p (flush (encodeValue v)) v
  | .unit, _, p, enc, v, h => by
    simp only [Gram] at h ⊢
    obtain ⟨rfl, rfl⟩ := h; exact ⟨rfl, rfl⟩
  | .bool, _, p, enc, v, h => by
    simp only [Gram] at h ⊢
    obtain ⟨b, rfl, rfl⟩ := h; exact ⟨b, rfl, by cases b <;> rfl⟩
  | .char, _, p, enc, v, h => by
    simp only [Gram] at h ⊢
    obtain ⟨c, rfl, rfl⟩ := h
    exact ⟨c, rfl, by simp only [encodeValue]; exact flush_char c⟩
  | .int _, _, p, enc, v, h => by
    simp only [Gram] at h ⊢
    obtain ⟨n, rfl, hw, h⟩ := h
    simp only [encodeValue]
    exact ⟨n, rfl, wireInt_write (wireInt_i64 hw), fun _ => rfl⟩
  | .float, _, p, enc, v, h => by
    simp only [Gram] at h ⊢
    obtain ⟨n, rfl, h8, h⟩ := h
    simp only [encodeValue]; rw [flush_float n enc h8 h]; exact ⟨n, rfl, h8, h⟩
  | .string, _, p, enc, v, h => by
    simp only [Gram] at h ⊢
    obtain ⟨len, bs, rfl, rfl, hn, hw, h⟩ := h
    simp only [encodeValue, flush_append, flush_chars, List.length_map]
    exact ⟨_, bs, rfl, rfl, hn, wireNat_write (wireNat_lt hw), fun _ => rfl⟩
  | .option l, hr, p, enc, v, h => by
    simp only [Gram, Rewritable] at h hr ⊢
    rcases h with ⟨rfl, rfl⟩ | ⟨w, e, rfl, rfl, h⟩
    · exact .inl ⟨rfl, rfl⟩
    · exact .inr ⟨w, _, rfl, by simp only [encodeValue, flush_cons, WOp.bytes]; rfl, gram_canon c l hr p e w h⟩
  | .record fs, hr, p, enc, v, h => by
    simp only [Gram, Rewritable] at h hr ⊢
    obtain ⟨vs, rfl, h⟩ := h
    simp only [encodeValue]; exact ⟨vs, rfl, gram_canon_fields c fs hr p enc vs h⟩
  | .tuple rs, hr, p, enc, v, h => by
    simp only [Gram, Rewritable] at h hr ⊢
    obtain ⟨vs, rfl, h⟩ := h
    simp only [encodeValue]; exact ⟨vs, rfl, gram_canon_tuple c rs hr p enc vs h⟩
  | .list l, hr, p, enc, v, h => by
    simp only [Gram, Rewritable] at h hr ⊢
    obtain ⟨len, es, vs, rfl, rfl, hn, hw, hc, h⟩ := h
    simp only [encodeValue, flush_append]
    exact ⟨_, _, vs, rfl, rfl, hn, wireNat_write (wireNat_lt hw), fun _ => rfl,
      wireElems_canon (fun e v hv => gram_canon c l hr p e v hv) h⟩
  | .sum ss, hr, p, enc, v, h => by
    simp only [Gram, Rewritable] at h hr ⊢
    obtain ⟨b, e, rfl, h⟩ := h
    obtain ⟨name, idx, w, rfl, hi, hw⟩ := gram_canon_summand c ss 0 hr b.toNat p e v h
    have hidx : idx = b := by rw [← UInt8.toNat_inj]; omega
    subst hidx
    simp only [encodeValue, flush_append, flush_index]
    exact ⟨idx, _, rfl, hw⟩
  | .polyvar ps, hr, p, enc, v, h => by
    simp only [Gram, Rewritable] at h hr ⊢
    obtain ⟨tag, e, rfl, h4, hodd, h⟩ := h
    have hlt := leNat_lt tag
    rw [h4] at hlt
    obtain ⟨name, hash, w, rfl, hh, h256, hw⟩ := gram_canon_polyvar c ps hr _ p e v h
    simp only [encodeValue, flush_append]
    rw [flush_tag h256 (by omega)]
    have e1 : leNat (leBytes 4 (2 * hash.toNat + 1)) = 2 * hash.toNat + 1 := by
      rw [leNat_leBytes, Nat.mod_eq_of_lt (by omega)]
    refine ⟨_, _, rfl, leBytes_length _ _, fun _ => by omega, ?_⟩
    rw [e1, show (2 * hash.toNat + 1) / 2 = leNat tag / 2 by omega]
    exact hw
  | .reference path l, hr, p, enc, v, h => by
    simp only [Gram, Rewritable] at h hr ⊢
    exact gram_canon c l hr (some path) enc v h
  | .custom rs, hr, p, enc, v, h => by
    simp only [Gram, Rewritable] at h hr ⊢
    obtain ⟨path, rfl, ⟨n, es, vs, hk, rfl, rfl, h⟩ | ⟨hk, rfl, h32⟩⟩ := h
    · refine ⟨path, rfl, .inl ⟨n, _, vs, hk, rfl, ?_, gram_canon_vector c rs hr n _ es vs h⟩⟩
      simp only [encodeValue, flush_encodeValues_append]; rfl
    · refine ⟨path, rfl, .inr ⟨hk, ?_, ?_⟩⟩ <;> simp only [encodeValue, flush_chars]
      exact h32
  | .nat0, _, p, enc, v, h => by simp only [Gram] at h
  | .customForPath _ _, _, p, enc, v, h => by simp only [Gram] at h
  | .other _, _, p, enc, v, h => by simp only [Gram] at h
theorem gram_canon_tuple (c : Bool) : (ls : List Rule) → RewritableRules ls → (p : Option String) → (enc : Bytes) →
    (vs : List Value) → GramTuple c ls p enc vs → GramTuple true ls p (flush (encodeValues vs)) vs
  | [], _, p, enc, vs, h => by
    simp only [GramTuple] at h ⊢
    obtain ⟨rfl, rfl⟩ := h; exact ⟨rfl, rfl⟩
  | l :: ls, hr, p, enc, vs, h => by
    simp only [GramTuple, RewritableRules] at h hr ⊢
    obtain ⟨e₁, e₂, w, ws, rfl, rfl, h₁, h₂⟩ := h
    simp only [encodeValues, flush_append]
    exact ⟨_, _, w, ws, rfl, rfl, gram_canon c l hr.1 p e₁ w h₁, gram_canon_tuple c ls hr.2 p e₂ ws h₂⟩
theorem gram_canon_fields (c : Bool) : (ls : List (String × Rule)) → RewritableFields ls → (p : Option String) →
    (enc : Bytes) → (vs : List (String × Value)) → GramFields c ls p enc vs →
    GramFields true ls p (flush (encodeFields vs)) vs
  | [], _, p, enc, vs, h => by
    simp only [GramFields] at h ⊢
    obtain ⟨rfl, rfl⟩ := h; exact ⟨rfl, rfl⟩
  | (_, l) :: ls, hr, p, enc, vs, h => by
    simp only [GramFields, RewritableFields] at h hr ⊢
    obtain ⟨e₁, e₂, w, ws, rfl, rfl, h₁, h₂⟩ := h
    simp only [encodeFields, flush_append]
    exact ⟨_, _, w, ws, rfl, rfl, gram_canon c l hr.1 p e₁ w h₁, gram_canon_fields c ls hr.2 p e₂ ws h₂⟩
theorem gram_canon_summand (c : Bool) : (ss : List Summand) → (k : Nat) → RewritableSummands ss k → (n : Nat) →
    (p : Option String) → (enc : Bytes) → (v : Value) → GramSummand c ss n p enc v →
    ∃ name idx w, v = .sum name idx w ∧ idx.toNat = k + n ∧ GramSummand true ss n p (flush (encodeValue w)) v
  | [], k, _, n, p, enc, v, h => by simp only [GramSummand] at h
  | .mk name i args :: ss, k, hr, 0, p, enc, v, h => by
    simp only [GramSummand, RewritableSummands] at h hr ⊢
    obtain ⟨h0, h256, vs, rfl, h⟩ := h
    refine ⟨_, _, _, rfl, ?_, h0, h256, vs, rfl, ?_⟩
    · obtain ⟨rfl, _⟩ := hr
      simp; omega
    · simp only [encodeValue]; exact gram_canon_tuple c args hr.2.1 p enc vs h
  | .mk name i args :: ss, k, hr, n + 1, p, enc, v, h => by
    simp only [GramSummand, RewritableSummands] at h hr ⊢
    obtain ⟨name, idx, w, rfl, hi, hw⟩ := gram_canon_summand c ss (k + 1) hr.2.2 n p enc v h
    exact ⟨name, idx, w, rfl, by omega, hw⟩
theorem gram_canon_polyvar (c : Bool) : (ps : List Polyvar) → RewritablePolyvars ps → (tag : Nat) →
    (p : Option String) → (enc : Bytes) → (v : Value) → GramPolyvar c ps tag p enc v →
    ∃ name hash w, v = .polyvar name hash w ∧ hash.toNat = tag ∧ 256 ≤ hash.toNat ∧
      GramPolyvar true ps tag p (flush (encodeValue w)) v
  | [], _, tag, p, enc, v, h => by simp only [GramPolyvar] at h
  | .inherited _ :: _, _, tag, p, enc, v, h => by simp only [GramPolyvar] at h
  | .tagged name hash args :: ps, hr, tag, p, enc, v, h => by
    simp only [GramPolyvar, RewritablePolyvars] at h hr ⊢
    rcases h with ⟨ht, vs, rfl, h⟩ | ⟨hn, h⟩
    · refine ⟨_, _, _, rfl, ht, hr.1, .inl ⟨ht, vs, rfl, ?_⟩⟩
      simp only [encodeValue]; exact gram_canon_tuple c args hr.2.1 p enc vs h
    · obtain ⟨name, hash, w, rfl, h1, h2, h3⟩ := gram_canon_polyvar c ps hr.2.2 tag p enc v h
      exact ⟨name, hash, w, rfl, h1, h2, .inr ⟨hn, h3⟩⟩
theorem gram_canon_vector (c : Bool) : (ls : List Rule) → RewritableRules ls → (n : Nat) → (p : Option String) →
    (enc : Bytes) → (vs : List Value) → GramVector c ls n p enc vs →
    GramVector true ls n p (flush (encodeValues vs)) vs
  | [], _, n, p, enc, vs, h => by simp only [GramVector] at h
  | l :: _, hr, n, p, enc, vs, h => by
    simp only [GramVector, RewritableRules] at h hr ⊢
    exact ⟨h.1, wireElems_canon (fun e v hv => gram_canon c l hr.1 p e v hv) h.2⟩
end

theorem wireElems_mono {α : Type} {R R' : Bytes → α → Prop} (hR : ∀ e v, R e v → R' e v) :
    ∀ {es : Bytes} {vs : List α}, WireElems R es vs → WireElems R' es vs
  | _, [], h => h
  | _, _ :: _, h => by
    obtain ⟨e₁, e₂, rfl, h₁, h₂⟩ := h
    exact ⟨e₁, e₂, rfl, hR _ _ h₁, wireElems_mono hR h₂⟩

mutual
/-- Canonical wire forms are wire forms. -/
theorem gram_weaken : (l : Rule) → (p : Option String) → (enc : Bytes) → (v : Value) →
    Gram true l p enc v → Gram false l p enc v
  | .unit, p, enc, v, h => by simpa only [Gram] using h
  | .bool, p, enc, v, h => by simpa only [Gram] using h
  | .char, p, enc, v, h => by simpa only [Gram] using h
  | .float, p, enc, v, h => by simpa only [Gram] using h
  | .int _, p, enc, v, h => by
    simp only [Gram] at h ⊢
    obtain ⟨n, rfl, hw, h⟩ := h; exact ⟨n, rfl, hw, by simp⟩
  | .string, p, enc, v, h => by
    simp only [Gram] at h ⊢
    obtain ⟨len, bs, rfl, rfl, hn, hw, h⟩ := h; exact ⟨len, bs, rfl, rfl, hn, hw, by simp⟩
  | .option l, p, enc, v, h => by
    simp only [Gram] at h ⊢
    rcases h with h | ⟨w, e, rfl, rfl, h⟩
    · exact .inl h
    · exact .inr ⟨w, e, rfl, rfl, gram_weaken l p e w h⟩
  | .record fs, p, enc, v, h => by
    simp only [Gram] at h ⊢
    obtain ⟨vs, rfl, h⟩ := h; exact ⟨vs, rfl, gram_weaken_fields fs p enc vs h⟩
  | .tuple rs, p, enc, v, h => by
    simp only [Gram] at h ⊢
    obtain ⟨vs, rfl, h⟩ := h; exact ⟨vs, rfl, gram_weaken_tuple rs p enc vs h⟩
  | .list l, p, enc, v, h => by
    simp only [Gram] at h ⊢
    obtain ⟨len, es, vs, rfl, rfl, hn, hw, hc, h⟩ := h
    exact ⟨len, es, vs, rfl, rfl, hn, hw, by simp, wireElems_mono (fun e v hv => gram_weaken l p e v hv) h⟩
  | .sum ss, p, enc, v, h => by
    simp only [Gram] at h ⊢
    obtain ⟨b, e, rfl, h⟩ := h; exact ⟨b, e, rfl, gram_weaken_summand ss _ p e v h⟩
  | .polyvar ps, p, enc, v, h => by
    simp only [Gram] at h ⊢
    obtain ⟨tag, e, rfl, h4, hodd, h⟩ := h; exact ⟨tag, e, rfl, h4, by simp, gram_weaken_polyvar ps _ p e v h⟩
  | .reference path l, p, enc, v, h => by
    simp only [Gram] at h ⊢
    exact gram_weaken l (some path) enc v h
  | .custom rs, p, enc, v, h => by
    simp only [Gram] at h ⊢
    obtain ⟨path, rfl, ⟨n, es, vs, hk, rfl, rfl, h⟩ | h⟩ := h
    · exact ⟨path, rfl, .inl ⟨n, es, vs, hk, rfl, rfl, gram_weaken_vector rs n _ es vs h⟩⟩
    · exact ⟨path, rfl, .inr h⟩
  | .nat0, p, enc, v, h => by simp only [Gram] at h
  | .customForPath _ _, p, enc, v, h => by simp only [Gram] at h
  | .other _, p, enc, v, h => by simp only [Gram] at h
theorem gram_weaken_tuple : (ls : List Rule) → (p : Option String) → (enc : Bytes) → (vs : List Value) →
    GramTuple true ls p enc vs → GramTuple false ls p enc vs
  | [], p, enc, vs, h => by simpa only [GramTuple] using h
  | l :: ls, p, enc, vs, h => by
    simp only [GramTuple] at h ⊢
    obtain ⟨e₁, e₂, w, ws, rfl, rfl, h₁, h₂⟩ := h
    exact ⟨e₁, e₂, w, ws, rfl, rfl, gram_weaken l p e₁ w h₁, gram_weaken_tuple ls p e₂ ws h₂⟩
theorem gram_weaken_fields : (ls : List (String × Rule)) → (p : Option String) → (enc : Bytes) →
    (vs : List (String × Value)) → GramFields true ls p enc vs → GramFields false ls p enc vs
  | [], p, enc, vs, h => by simpa only [GramFields] using h
  | (_, l) :: ls, p, enc, vs, h => by
    simp only [GramFields] at h ⊢
    obtain ⟨e₁, e₂, w, ws, rfl, rfl, h₁, h₂⟩ := h
    exact ⟨e₁, e₂, w, ws, rfl, rfl, gram_weaken l p e₁ w h₁, gram_weaken_fields ls p e₂ ws h₂⟩
theorem gram_weaken_summand : (ss : List Summand) → (n : Nat) → (p : Option String) → (enc : Bytes) → (v : Value) →
    GramSummand true ss n p enc v → GramSummand false ss n p enc v
  | [], n, p, enc, v, h => by simp only [GramSummand] at h
  | .mk name i args :: ss, 0, p, enc, v, h => by
    simp only [GramSummand] at h ⊢
    obtain ⟨h0, h256, vs, rfl, h⟩ := h
    exact ⟨h0, h256, vs, rfl, gram_weaken_tuple args p enc vs h⟩
  | .mk name i args :: ss, n + 1, p, enc, v, h => by
    simp only [GramSummand] at h ⊢
    exact gram_weaken_summand ss n p enc v h
theorem gram_weaken_polyvar : (ps : List Polyvar) → (tag : Nat) → (p : Option String) → (enc : Bytes) → (v : Value) →
    GramPolyvar true ps tag p enc v → GramPolyvar false ps tag p enc v
  | [], tag, p, enc, v, h => by simp only [GramPolyvar] at h
  | .inherited _ :: _, tag, p, enc, v, h => by simp only [GramPolyvar] at h
  | .tagged name hash args :: ps, tag, p, enc, v, h => by
    simp only [GramPolyvar] at h ⊢
    rcases h with ⟨ht, vs, rfl, h⟩ | ⟨hn, h⟩
    · exact .inl ⟨ht, vs, rfl, gram_weaken_tuple args p enc vs h⟩
    · exact .inr ⟨hn, gram_weaken_polyvar ps tag p enc v h⟩
theorem gram_weaken_vector : (ls : List Rule) → (n : Nat) → (p : Option String) → (enc : Bytes) → (vs : List Value) →
    GramVector true ls n p enc vs → GramVector false ls n p enc vs
  | [], n, p, enc, vs, h => by simp only [GramVector] at h
  | l :: _, n, p, enc, vs, h => by
    simp only [GramVector] at h ⊢
    exact ⟨h.1, wireElems_mono (fun e v hv => gram_weaken l p e v hv) h.2⟩
end

end MinaRs.BinProt
