import Verif.BinProt.PrimProps
import Verif.BinProt.SerdeLemmas

/-! The typed decoder accepts exactly the wire grammar (helper lemmas). -/

namespace MinaRs.BinProt
open Prog Spec

theorem run_bind_ok_iff {α β : Type} (p : Prog α) (f : α → Prog β) (s : Bytes) (b : β) (r : Bytes) :
    (p >>= f).run s = .ok (b, r) ↔ ∃ a s', p.run s = .ok (a, s') ∧ (f a).run s' = .ok (b, r) := by
  rw [run_bind]
  cases h : p.run s with
  | error e => simp
  | ok x =>
    obtain ⟨a, s'⟩ := x
    constructor
    · intro h'; exact ⟨a, s', rfl, h'⟩
    · rintro ⟨a', s'', he, h'⟩
      cases he; exact h'

theorem readExact_ok_iff (k : Nat) (s bs r : Bytes) :
    (readExact k).run s = .ok (bs, r) ↔ s = bs ++ r ∧ bs.length = k := by
  constructor
  · intro h
    rw [run_readExact] at h
    split at h
    · cases h
    · simp only [Except.ok.injEq, Prod.mk.injEq] at h
      obtain ⟨rfl, rfl⟩ := h
      exact ⟨(List.take_append_drop _ _).symm, by simp; omega⟩
  · rintro ⟨rfl, h⟩
    exact run_readExact_append h

theorem readU8_ok_iff (s : Bytes) (b : UInt8) (r : Bytes) :
    readU8.run s = .ok (b, r) ↔ s = b :: r := by
  cases s with
  | nil => simp [readU8_nil]
  | cons x xs => simp [readU8_cons]

theorem readUintLE_ok_iff (k : Nat) (s : Bytes) (n : Nat) (r : Bytes) :
    (readUintLE k).run s = .ok (n, r) ↔ ∃ bs, s = bs ++ r ∧ bs.length = k ∧ n = leNat bs := by
  unfold readUintLE
  rw [run_bind_ok_iff]
  constructor
  · rintro ⟨bs, s', h, h'⟩
    obtain ⟨rfl, hk⟩ := (readExact_ok_iff _ _ _ _).mp h
    simp only [run_ret, Except.ok.injEq, Prod.mk.injEq] at h'
    obtain ⟨rfl, rfl⟩ := h'
    exact ⟨bs, rfl, hk, rfl⟩
  · rintro ⟨bs, rfl, hk, rfl⟩
    exact ⟨bs, r, run_readExact_append hk, rfl⟩

theorem binReadInteger_ok_iff (t : IntTy) (s : Bytes) (v : Int) (r : Bytes) :
    (binReadInteger t).run s = .ok (v, r) ↔ ∃ enc, s = enc ++ r ∧ WireInt enc v ∧ t.holds v :=
  (C02_integer_read_exact t s).1 v r

theorem wireNat_lt {enc : Bytes} {n : Nat} (h : WireNat enc n) : n < 2 ^ 64 := by
  cases h with
  | small b h => have := b.toNat_lt; omega
  | wide l k p hl hk hp =>
    have h1 := leNat_lt p
    rw [hp] at h1
    have : k ≤ 8 := by
      rcases natPayload_cases l with ⟨_, hq, _⟩ | ⟨_, hq⟩ | ⟨_, hq⟩ | ⟨_, hq⟩ | ⟨_, hq, _⟩ <;>
        rw [hq] at hl <;> simp at hl <;> omega
    have : 256 ^ k ≤ 256 ^ 8 := Nat.pow_le_pow_right (by omega) this
    have : (256:Nat) ^ 8 = 2 ^ 64 := by decide
    omega

theorem binReadLen_ok_iff (s : Bytes) (n : Nat) (r : Bytes) :
    binReadLen.run s = .ok (n, r) ↔ ∃ enc, s = enc ++ r ∧ WireNat enc n := by
  unfold binReadLen
  rw [run_bind_ok_iff]
  constructor
  · rintro ⟨v, s', h, h'⟩
    have hsplit := wireNat_split s
    simp only [run_ret, Except.ok.injEq, Prod.mk.injEq] at h'
    obtain ⟨rfl, rfl⟩ := h'
    rcases hsplit with rfl | ⟨enc, rest, v', rfl, hw⟩ | ⟨b, r, rfl, hb⟩ | ⟨b, r, k, rfl, hb, hr⟩
    · rw [binReadNat0_run] at h; cases h
    · rw [binReadNat0_wire _ hw] at h
      split at h <;> simp at h
      obtain ⟨rfl, rfl⟩ := h
      exact ⟨enc, rfl, by simpa using hw⟩
    · rw [binReadNat0_bad _ hb] at h; cases h
    · rw [binReadNat0_short _ hb hr] at h; cases h
  · rintro ⟨enc, rfl, hw⟩
    refine ⟨n, r, ?_, by simp⟩
    rw [binReadNat0_wire _ hw, if_pos]
    have := wireNat_lt hw
    simp [IntTy.holds, u64]; omega

theorem utf8_of_fromUTF8? {bs : Bytes} {s : String} (h : String.fromUTF8? ⟨bs.toArray⟩ = some s) :
    bs = utf8 s := by
  unfold String.fromUTF8? at h
  split at h
  · simp only [Option.some.injEq] at h
    subst h
    simp [utf8, String.toUTF8, String.fromUTF8]
  · cases h

theorem claim_ok_iff (n : Nat) (s : Bytes) (u : Unit) (r : Bytes) :
    (claim n).run s = .ok (u, r) ↔ n < 2 ^ 63 ∧ s = r := by
  unfold claim
  split
  · simp [*]
  · simp [*]

theorem binReadString_ok_iff (s : Bytes) (v : String) (r : Bytes) :
    binReadString.run s = .ok (v, r) ↔ ∃ enc, s = enc ++ r ∧ Wire .string enc v := by
  unfold binReadString
  simp only [run_bind_ok_iff]
  constructor
  · rintro ⟨n, s', h, _, s₁, hc, bs, s'', h', h''⟩
    obtain ⟨len, rfl, hw⟩ := (binReadLen_ok_iff _ _ _).mp h
    obtain ⟨hn, rfl⟩ := (claim_ok_iff _ _ _ _).mp hc
    obtain ⟨rfl, hk⟩ := (readExact_ok_iff _ _ _ _).mp h'
    cases hu : String.fromUTF8? ⟨bs.toArray⟩ with
    | none => rw [hu] at h''; cases h''
    | some w =>
      rw [hu] at h''
      simp only [run_ret, Except.ok.injEq, Prod.mk.injEq] at h''
      obtain ⟨rfl, rfl⟩ := h''
      have := utf8_of_fromUTF8? hu
      refine ⟨len ++ bs, by simp, ?_⟩
      simp only [Wire]
      exact ⟨len, by rw [this], by rw [← this, hk]; exact hn, by rw [← this, hk]; exact hw⟩
  · rintro ⟨enc, rfl, hw⟩
    simp only [Wire] at hw
    obtain ⟨len, rfl, hn, hw⟩ := hw
    refine ⟨_, _, (binReadLen_ok_iff _ _ _).mpr ⟨len, by rw [List.append_assoc], hw⟩, (), _, run_claim hn _, utf8 v, r,
      run_readExact_append rfl, ?_⟩
    rw [fromUTF8?_utf8]; rfl

theorem decodeN_ok_iff {α : Type} (p : Prog α) (R : Bytes → α → Prop)
    (h : ∀ s v r, p.run s = .ok (v, r) ↔ ∃ enc, s = enc ++ r ∧ R enc v) (n : Nat) :
    ∀ s vs r, (decodeN p n).run s = .ok (vs, r) ↔
      ∃ enc, s = enc ++ r ∧ vs.length = n ∧ WireElems R enc vs := by
  induction n with
  | zero =>
    intro s vs r
    simp only [decodeN, run_ret, Except.ok.injEq, Prod.mk.injEq]
    constructor
    · rintro ⟨rfl, rfl⟩; exact ⟨[], rfl, rfl, rfl⟩
    · rintro ⟨enc, rfl, hl, hw⟩
      obtain rfl := List.length_eq_zero_iff.mp hl
      simp only [WireElems] at hw
      subst hw; simp
  | succ n ih =>
    intro s vs r
    simp only [decodeN, run_bind_ok_iff, h, ih]
    constructor
    · rintro ⟨v, s', ⟨e₁, rfl, h₁⟩, ws, s'', ⟨e₂, rfl, hl, h₂⟩, he⟩
      simp only [run_ret, Except.ok.injEq, Prod.mk.injEq] at he
      obtain ⟨rfl, rfl⟩ := he
      exact ⟨e₁ ++ e₂, by simp, by simp [hl], e₁, e₂, rfl, h₁, h₂⟩
    · rintro ⟨enc, rfl, hl, hw⟩
      cases vs with
      | nil => simp at hl
      | cons v vs =>
        obtain ⟨e₁, e₂, rfl, h₁, h₂⟩ := hw
        exact ⟨v, e₂ ++ r, ⟨e₁, by simp, h₁⟩, vs, r, ⟨e₂, rfl, by simpa using hl, h₂⟩, rfl⟩

theorem hash32_eq (label : Bytes) : hash32 label = (camlHashVariant label).toNat :=
  (camlHashVariant_toNat label).symm

theorem hash32_inj {a b : Bytes} : hash32 a = hash32 b ↔ camlHashVariant a = camlHashVariant b := by
  rw [hash32_eq, hash32_eq, UInt32.toNat_inj]

theorem binReadPolyvarTag_ok_iff (s : Bytes) (h : UInt32) (r : Bytes) :
    binReadPolyvarTag.run s = .ok (h, r) ↔
      ∃ tag, s = tag ++ r ∧ tag.length = 4 ∧ h.toNat = leNat tag / 2 := by
  unfold binReadPolyvarTag
  simp only [run_bind_ok_iff, readUintLE_ok_iff]
  have key : ∀ bs : Bytes, bs.length = 4 → (UInt32.ofNat (leNat bs) >>> 1).toNat = leNat bs / 2 := by
    intro bs hb
    have h1 := leNat_lt bs
    rw [hb] at h1
    rw [UInt32.toNat_shiftRight]
    simp only [UInt32.toNat_ofNat', UInt32.reduceToNat, Nat.reduceMod, Nat.shiftRight_eq_div_pow, Nat.pow_one]
    rw [Nat.mod_eq_of_lt (by omega)]
  constructor
  · rintro ⟨n, s', ⟨bs, rfl, hk, rfl⟩, he⟩
    simp only [run_ret, Except.ok.injEq, Prod.mk.injEq] at he
    obtain ⟨rfl, rfl⟩ := he
    exact ⟨bs, rfl, hk, key bs hk⟩
  · rintro ⟨tag, rfl, hk, hh⟩
    refine ⟨_, r, ⟨tag, rfl, hk, rfl⟩, ?_⟩
    simp only [run_ret, Except.ok.injEq, Prod.mk.injEq, and_true]
    rw [← UInt32.toNat_inj, key tag hk, hh]

theorem char_ofNat_toNat (b : UInt8) : (Char.ofNat b.toNat).toNat = b.toNat := by
  have h := b.toNat_lt
  rw [Char.ofNat, dif_pos (.inl (by omega))]
  rfl

theorem binReadBool_ok_iff (s : Bytes) (v : Bool) (r : Bytes) :
    binReadBool.run s = .ok (v, r) ↔ ∃ enc, s = enc ++ r ∧ enc = [if v then 0x01 else 0x00] := by
  unfold binReadBool
  refine (run_bind_ok_iff _ _ _ _ _).trans ?_
  constructor
  · rintro ⟨b, s', h, h'⟩
    obtain rfl := (readU8_ok_iff _ _ _).mp h
    split at h'
    · rename_i hb
      cases h'; exact ⟨[b], rfl, by rw [hb]; rfl⟩
    · split at h'
      · rename_i hb
        cases h'; exact ⟨[b], rfl, by rw [hb]; rfl⟩
      · cases h'
  · rintro ⟨enc, rfl, rfl⟩
    cases v
    · exact ⟨0, r, rfl, rfl⟩
    · exact ⟨1, r, rfl, rfl⟩

mutual
/-- The decoder of a well-formed type accepts exactly the wire forms. -/
theorem decode_ok_iff : (t : Ty) → WfTy t → (s : Bytes) → (v : t.denote) → (r : Bytes) →
    ((decode t).run s = .ok (v, r) ↔ ∃ enc, s = enc ++ r ∧ Wire t enc v)
  | .unit, _, s, v, r => by
    cases v
    simp only [decode, Wire]
    unfold binReadUnit
    refine (run_bind_ok_iff _ _ _ _ _).trans ?_
    constructor
    · rintro ⟨b, s', h, h'⟩
      obtain rfl := (readU8_ok_iff _ _ _).mp h
      split at h'
      · rename_i hb
        cases h'; exact ⟨[b], rfl, by rw [hb]⟩
      · cases h'
    · rintro ⟨enc, rfl, rfl⟩
      exact ⟨0, r, rfl, rfl⟩
  | .bool, _, s, v, r => binReadBool_ok_iff s v r
  | .u8, _, s, v, r => by
    simp only [decode, Wire]
    refine (readU8_ok_iff _ _ _).trans ?_
    constructor
    · rintro rfl; exact ⟨_, rfl, rfl⟩
    · rintro ⟨enc, rfl, rfl⟩; rfl
  | .int k, _, s, v, r => by
    simp only [decode, Wire]
    refine (run_bind_ok_iff _ _ _ _ _).trans ?_
    constructor
    · rintro ⟨n, s', h, h'⟩
      obtain ⟨enc, rfl, hw, ht⟩ := (binReadInteger_ok_iff _ _ _ _).mp h
      rw [dif_pos ht] at h'
      cases h'
      exact ⟨enc, rfl, hw⟩
    · rintro ⟨enc, rfl, hw⟩
      obtain ⟨n, hn⟩ := v
      refine ⟨n, r, (binReadInteger_ok_iff _ _ _ _).mpr ⟨enc, rfl, hw, hn⟩, ?_⟩
      rw [dif_pos hn]; rfl
  | .f32, _, s, v, r => by
    simp only [decode, Wire]
    unfold readF32
    refine (run_bind_ok_iff _ _ _ _ _).trans ?_
    constructor
    · rintro ⟨n, s', h, h'⟩
      obtain ⟨bs, rfl, hk, rfl⟩ := (readUintLE_ok_iff _ _ _ _).mp h
      cases h'
      refine ⟨bs, rfl, hk, ?_⟩
      have h1 := leNat_lt bs
      rw [hk] at h1
      simp; omega
    · rintro ⟨enc, rfl, hk, hv⟩
      refine ⟨_, r, (readUintLE_ok_iff _ _ _ _).mpr ⟨enc, rfl, hk, rfl⟩, ?_⟩
      rw [hv]
      exact congrArg (fun x => Except.ok (x, r)) (UInt32.ofNat_toNat (x := v))
  | .f64, _, s, v, r => by
    simp only [decode, Wire]
    unfold readF64
    refine (run_bind_ok_iff _ _ _ _ _).trans ?_
    constructor
    · rintro ⟨n, s', h, h'⟩
      obtain ⟨bs, rfl, hk, rfl⟩ := (readUintLE_ok_iff _ _ _ _).mp h
      cases h'
      refine ⟨bs, rfl, hk, ?_⟩
      have h1 := leNat_lt bs
      rw [hk] at h1
      simp; omega
    · rintro ⟨enc, rfl, hk, hv⟩
      refine ⟨_, r, (readUintLE_ok_iff _ _ _ _).mpr ⟨enc, rfl, hk, rfl⟩, ?_⟩
      rw [hv]
      exact congrArg (fun x => Except.ok (x, r)) (UInt64.ofNat_toNat (x := v))
  | .char, _, s, v, r => by
    simp only [decode, Wire]
    unfold binReadChar
    refine (run_bind_ok_iff _ _ _ _ _).trans ?_
    constructor
    · rintro ⟨b, s', h, h'⟩
      obtain rfl := (readU8_ok_iff _ _ _).mp h
      cases h'
      exact ⟨[b], rfl, b, rfl, char_ofNat_toNat b⟩
    · rintro ⟨enc, rfl, b, rfl, hb⟩
      refine ⟨b, r, rfl, ?_⟩
      rw [← hb]
      exact congrArg (fun x => Except.ok (x, r)) (Char.ofNat_toNat v)
  | .string, _, s, v, r => binReadString_ok_iff s v r
  | .option t, hwf, s, v, r => by
    simp only [decode]
    refine (run_bind_ok_iff _ _ _ _ _).trans ?_
    have hb := binReadBool_ok_iff
    constructor
    · rintro ⟨b, s', h, h'⟩
      obtain ⟨enc, rfl, rfl⟩ := (hb _ _ _).mp h
      cases b
      · cases h'
        exact ⟨_, rfl, by simp only [Wire]; rfl⟩
      · simp only [if_true] at h'
        obtain ⟨w, s'', h1, h2⟩ := (run_bind_ok_iff _ _ _ _ _).mp h'
        obtain ⟨e, rfl, hw⟩ := (decode_ok_iff t (by simpa [WfTy] using hwf) _ _ _).mp h1
        cases h2
        refine ⟨0x01 :: e, rfl, ?_⟩
        simp only [Wire]
        exact ⟨e, rfl, hw⟩
    · rintro ⟨enc, rfl, hw⟩
      rcases v with _ | w
      · simp only [Wire] at hw
        subst hw
        exact ⟨false, r, (hb _ _ _).mpr ⟨_, rfl, rfl⟩, rfl⟩
      · simp only [Wire] at hw
        obtain ⟨e, rfl, hw⟩ := hw
        refine ⟨true, e ++ r, (hb _ _ _).mpr ⟨[0x01], rfl, rfl⟩, ?_⟩
        simp only [if_true]
        exact (run_bind_ok_iff _ _ _ _ _).mpr ⟨w, r,
          (decode_ok_iff t (by simpa [WfTy] using hwf) _ _ _).mpr ⟨e, rfl, hw⟩, rfl⟩
  | .newtype t, hwf, s, v, r => by
    simp only [decode, Wire]
    exact decode_ok_iff t (by simpa [WfTy] using hwf) s v r
  | .seq t, hwf, s, v, r => by
    simp only [decode, Wire]
    refine (run_bind_ok_iff _ _ _ _ _).trans ?_
    have ih := decodeN_ok_iff (decode t) (fun e v => Wire t e v)
      (fun s v r => decode_ok_iff t (by simpa [WfTy] using hwf) s v r)
    constructor
    · rintro ⟨n, s', h, h'⟩
      obtain ⟨len, rfl, hw⟩ := (binReadLen_ok_iff _ _ _).mp h
      obtain ⟨e, rfl, hl, he⟩ := (ih n _ _ _).mp h'
      exact ⟨len ++ e, by simp, len, e, rfl, by rw [hl]; exact hw, he⟩
    · rintro ⟨enc, rfl, len, e, rfl, hw, he⟩
      exact ⟨_, e ++ r, (binReadLen_ok_iff _ _ _).mpr ⟨len, by simp, hw⟩,
        (ih _ _ _ _).mpr ⟨e, rfl, rfl, he⟩⟩
  | .tuple ts, hwf, s, v, r => by
    simp only [decode, Wire]
    exact decodeProd_ok_iff ts (by simpa [WfTy] using hwf) s v r
  | .struct ts, hwf, s, v, r => by
    simp only [decode, Wire]
    exact decodeProd_ok_iff ts (by simpa [WfTy] using hwf) s v r
  | .enum vs, hwf, s, v, r => by
    simp only [decode, Wire]
    refine (run_bind_ok_iff _ _ _ _ _).trans ?_
    constructor
    · rintro ⟨b, s', h, h'⟩
      obtain rfl := (readU8_ok_iff _ _ _).mp h
      obtain ⟨e, rfl, hi, hw⟩ := (decodeSum_ok_iff vs (by simpa [WfTy] using hwf) _ _ _ _).mp h'
      exact ⟨b :: e, rfl, b, e, rfl, hi, hw⟩
    · rintro ⟨enc, rfl, b, e, rfl, hi, hw⟩
      exact ⟨b, e ++ r, (readU8_ok_iff _ _ _).mpr rfl,
        (decodeSum_ok_iff vs (by simpa [WfTy] using hwf) _ _ _ _).mpr ⟨e, rfl, hi, hw⟩⟩
  | .polyvar vs, hwf, s, v, r => by
    simp only [WfTy] at hwf
    obtain ⟨hascii, hlen, hwf⟩ := hwf
    simp only [decode, Wire]
    refine (run_bind_ok_iff _ _ _ _ _).trans ?_
    have hidx := Tys.index_lt_length vs v
    have hname := Tys.names_index vs v
    obtain ⟨hnl, hne⟩ := List.getElem?_eq_some_iff.mp hname
    constructor
    · rintro ⟨hsh, s', h, h'⟩
      obtain ⟨tag, rfl, ht, hh⟩ := (binReadPolyvarTag_ok_iff _ _ _).mp h
      cases hp : polyvarIndex vs.names hsh with
      | none => rw [hp] at h'; cases h'
      | some i =>
        rw [hp] at h'
        simp only at h'
        unfold polyvarIndex at hp
        rw [asciiFilter_eq hascii, List.findIdx?_eq_some_iff_getElem] at hp
        obtain ⟨hi, hm, hfirst⟩ := hp
        have hi' := Tys.names_length vs
        have e1 : (UInt8.ofNat i).toNat = i := by simp; omega
        rw [e1] at h'
        obtain ⟨e, rfl, hii, hw⟩ := (decodeSum_ok_iff vs hwf _ _ _ _).mp h'
        subst hii
        rw [hne] at hm
        simp only [beq_iff_eq] at hm
        refine ⟨tag ++ e, by simp, tag, e, rfl, ht, ?_, ?_, hw⟩
        · rw [hash32_eq, hm, hh]
        · intro n hn
          obtain ⟨j, hj, rfl⟩ := List.mem_take_iff_getElem.mp hn
          rw [Ne, hash32_inj, hm]
          have := hfirst j (by omega)
          simpa using this
    · rintro ⟨enc, rfl, tag, e, rfl, ht, hh, hfirst, hw⟩
      rw [hash32_eq] at hh
      refine ⟨camlHashVariant (utf8 (vs.variantName v)), e ++ r,
        (binReadPolyvarTag_ok_iff _ _ _).mpr ⟨tag, by simp, ht, hh.symm⟩, ?_⟩
      have hp : polyvarIndex vs.names (camlHashVariant (utf8 (vs.variantName v))) = some (vs.index v) := by
        unfold polyvarIndex
        rw [asciiFilter_eq hascii, List.findIdx?_eq_some_iff_getElem]
        refine ⟨hnl, by rw [hne]; simp, ?_⟩
        intro j hj
        have := hfirst (vs.names[j]) (List.mem_take_iff_getElem.mpr ⟨j, by omega, rfl⟩)
        rw [Ne, hash32_inj] at this
        simpa using this
      rw [hp]
      have e1 : (UInt8.ofNat (vs.index v)).toNat = vs.index v := by simp; omega
      simp only [e1]
      exact (decodeSum_ok_iff vs hwf _ _ _ _).mpr ⟨e, rfl, rfl, hw⟩
theorem decodeProd_ok_iff : (ts : Tys) → WfTys ts → (s : Bytes) → (v : ts.prod) → (r : Bytes) →
    ((decodeProd ts).run s = .ok (v, r) ↔ ∃ enc, s = enc ++ r ∧ WireProd ts enc v)
  | .nil, _, s, v, r => by
    cases v
    simp only [decodeProd, WireProd]
    constructor
    · intro h; cases h; exact ⟨[], rfl, rfl⟩
    · rintro ⟨enc, rfl, rfl⟩; rfl
  | .cons _ t ts, hwf, s, v, r => by
    simp only [WfTys] at hwf
    simp only [decodeProd, WireProd]
    refine (run_bind_ok_iff _ _ _ _ _).trans ?_
    constructor
    · rintro ⟨a, s', h, h'⟩
      obtain ⟨e₁, rfl, h₁⟩ := (decode_ok_iff t hwf.1 _ _ _).mp h
      obtain ⟨b, s'', h2, h3⟩ := (run_bind_ok_iff _ _ _ _ _).mp h'
      obtain ⟨e₂, rfl, h₂⟩ := (decodeProd_ok_iff ts hwf.2 _ _ _).mp h2
      cases h3
      exact ⟨e₁ ++ e₂, by simp, e₁, e₂, rfl, h₁, h₂⟩
    · rintro ⟨enc, rfl, e₁, e₂, rfl, h₁, h₂⟩
      obtain ⟨a, b⟩ := v
      exact ⟨a, e₂ ++ r, (decode_ok_iff t hwf.1 _ _ _).mpr ⟨e₁, by simp, h₁⟩,
        (run_bind_ok_iff _ _ _ _ _).mpr ⟨b, r, (decodeProd_ok_iff ts hwf.2 _ _ _).mpr ⟨e₂, rfl, h₂⟩, rfl⟩⟩
theorem decodeSum_ok_iff : (vs : Tys) → WfTys vs → (i : Nat) → (s : Bytes) → (v : vs.sum) → (r : Bytes) →
    ((decodeSum vs i).run s = .ok (v, r) ↔ ∃ enc, s = enc ++ r ∧ i = vs.index v ∧ WireSum vs enc v)
  | .nil, _, _, _, v, _ => nomatch (show Empty from v)
  | .cons _ t ts, hwf, 0, s, v, r => by
    simp only [WfTys] at hwf
    simp only [decodeSum]
    refine (run_bind_ok_iff _ _ _ _ _).trans ?_
    constructor
    · rintro ⟨a, s', h, h'⟩
      obtain ⟨e, rfl, hw⟩ := (decode_ok_iff t hwf.1 _ _ _).mp h
      cases h'
      exact ⟨e, rfl, rfl, by simp only [WireSum]; exact hw⟩
    · rintro ⟨enc, rfl, hi, hw⟩
      rcases v with w | w
      · simp only [WireSum] at hw
        exact ⟨w, r, (decode_ok_iff t hwf.1 _ _ _).mpr ⟨enc, rfl, hw⟩, rfl⟩
      · simp [Tys.index] at hi
  | .cons _ t ts, hwf, i + 1, s, v, r => by
    simp only [WfTys] at hwf
    simp only [decodeSum]
    refine (run_bind_ok_iff _ _ _ _ _).trans ?_
    constructor
    · rintro ⟨a, s', h, h'⟩
      obtain ⟨e, rfl, hi, hw⟩ := (decodeSum_ok_iff ts hwf.2 _ _ _ _).mp h
      cases h'
      exact ⟨e, rfl, by simp [Tys.index, hi], by simp only [WireSum]; exact hw⟩
    · rintro ⟨enc, rfl, hi, hw⟩
      rcases v with w | w
      · simp [Tys.index] at hi
      · simp only [WireSum] at hw
        simp only [Tys.index, Nat.add_right_cancel_iff] at hi
        exact ⟨w, r, (decodeSum_ok_iff ts hwf.2 _ _ _ _).mpr ⟨enc, rfl, hi, hw⟩, rfl⟩
end

theorem wireInt_u64 {n : Int} {enc : Bytes} (h : WireInt enc n) : n < 2 ^ 63 := by
  cases h with
  | small b h => have := b.toNat_lt; omega
  | wide l k p _ hl hk hp hv =>
    have : k ≤ 8 := by
      rcases intPayload_cases l with ⟨_, hq, _⟩ | ⟨_, hq⟩ | ⟨_, hq⟩ | ⟨_, hq⟩ | ⟨_, hq⟩ | ⟨_, hq, _⟩ <;>
        rw [hq] at hl <;> simp at hl <;> omega
    have h1 := hv.2.1
    rw [hp] at h1
    have : (2:Nat) ^ (8 * k - 1) ≤ 2 ^ 63 := Nat.pow_le_pow_right (by omega) (by omega)
    have h2 : ((2 ^ (8 * k - 1) : Nat) : Int) ≤ ((2 ^ 63 : Nat) : Int) := by exact_mod_cast this
    have h3 : ((2 ^ (8 * k - 1) : Nat) : Int) = 2 ^ (8 * k - 1) := by simp
    omega

mutual
/-- Only values that survive a round trip have a wire form. -/
theorem fits_of_wire : (t : Ty) → WfTy t → (enc : Bytes) → (v : t.denote) → Wire t enc v → Fits t v
  | .unit, _, _, _, _ => by simp [Fits]
  | .bool, _, _, _, _ => by simp [Fits]
  | .u8, _, _, _, _ => by simp [Fits]
  | .int k, _, enc, v, h => by
    simp only [Wire] at h
    simp only [Fits]
    intro _
    exact wireInt_u64 h
  | .f32, _, _, _, _ => by simp [Fits]
  | .f64, _, _, _, _ => by simp [Fits]
  | .char, _, enc, v, h => by
    simp only [Wire] at h
    obtain ⟨b, -, hb⟩ := h
    simp only [Fits]
    have := b.toNat_lt
    exact hb ▸ this
  | .string, _, enc, v, h => by
    simp only [Wire] at h
    obtain ⟨len, -, hn, -⟩ := h
    simp only [Fits]
    exact hn
  | .option t, hwf, enc, v, h => by
    simp only [Fits]
    rintro w rfl
    simp only [Wire] at h
    obtain ⟨e, -, hw⟩ := h
    exact fits_of_wire t (by simpa [WfTy] using hwf) e w hw
  | .newtype t, hwf, enc, v, h => by
    simp only [Wire] at h
    simp only [Fits]
    exact fits_of_wire t (by simpa [WfTy] using hwf) enc v h
  | .seq t, hwf, enc, v, h => by
    simp only [Wire] at h
    simp only [Fits]
    obtain ⟨len, es, -, hw, hes⟩ := h
    refine ⟨wireNat_lt hw, ?_⟩
    have key : ∀ (vs : List t.denote) (es : Bytes), WireElems (fun e v => Wire t e v) es vs →
        ∀ v ∈ vs, ∃ e, Wire t e v := by
      intro vs
      induction vs with
      | nil => intro _ _ v hv; cases hv
      | cons w ws ih =>
        rintro es ⟨e₁, e₂, -, h₁, h₂⟩ v hv
        rcases List.mem_cons.mp hv with rfl | hv
        · exact ⟨_, h₁⟩
        · exact ih _ h₂ v hv
    intro w hw'
    obtain ⟨e, he⟩ := key _ _ hes w hw'
    exact fits_of_wire t (by simpa [WfTy] using hwf) e w he
  | .tuple ts, hwf, enc, v, h => by
    simp only [Wire] at h
    simp only [Fits]
    exact fitsProd_of_wire ts (by simpa [WfTy] using hwf) enc v h
  | .struct ts, hwf, enc, v, h => by
    simp only [Wire] at h
    simp only [Fits]
    exact fitsProd_of_wire ts (by simpa [WfTy] using hwf) enc v h
  | .enum vs, hwf, enc, v, h => by
    simp only [Wire] at h
    simp only [Fits]
    obtain ⟨b, e, -, hi, hw⟩ := h
    exact ⟨by have := b.toNat_lt; omega, fitsSum_of_wire vs (by simpa [WfTy] using hwf) e v hw⟩
  | .polyvar vs, hwf, enc, v, h => by
    simp only [Wire] at h
    simp only [Fits]
    simp only [WfTy] at hwf
    obtain ⟨tag, e, -, ht, hh, hfirst, hw⟩ := h
    have hidx := Tys.index_lt_length vs v
    refine ⟨⟨by omega, ?_, hwf.1, ?_⟩, fitsSum_of_wire vs hwf.2.2 e v hw⟩
    · rw [← hash32_eq, ← hh]
      have := leNat_lt tag
      rw [ht] at this
      omega
    · intro n hn
      have := hfirst n hn
      rwa [Ne, hash32_inj] at this
theorem fitsProd_of_wire : (ts : Tys) → WfTys ts → (enc : Bytes) → (v : ts.prod) → WireProd ts enc v →
    FitsProd ts v
  | .nil, _, _, _, _ => by simp [FitsProd]
  | .cons _ t ts, hwf, enc, v, h => by
    simp only [WireProd] at h
    simp only [WfTys] at hwf
    simp only [FitsProd]
    obtain ⟨e₁, e₂, -, h₁, h₂⟩ := h
    exact ⟨fits_of_wire t hwf.1 e₁ _ h₁, fitsProd_of_wire ts hwf.2 e₂ _ h₂⟩
theorem fitsSum_of_wire : (vs : Tys) → WfTys vs → (enc : Bytes) → (v : vs.sum) → WireSum vs enc v →
    FitsSum vs v
  | .nil, _, _, _, _ => by simp [FitsSum]
  | .cons _ t ts, hwf, enc, v, h => by
    simp only [WfTys] at hwf
    rcases v with w | w
    · simp only [WireSum] at h
      simp only [FitsSum]
      exact fits_of_wire t hwf.1 enc w h
    · simp only [WireSum] at h
      simp only [FitsSum]
      exact fitsSum_of_wire ts hwf.2 enc w h
end

/-! ### No panics -/

/-- Whenever the program panics, it is with a message satisfying `P`, or because a length of at least `N` was announced. -/
def Prog.Panics {α : Type} (P : String → Prop) (N : Nat) (p : Prog α) : Prop :=
  ∀ s m, p.run s = .error (.panic m) → P m ∨ (m = "capacity overflow" ∧ Announces N s)

/-- The program never panics unless a length of 2^63 or more was announced. -/
abbrev Prog.Safe {α : Type} (p : Prog α) : Prop := p.Panics (fun _ => False) (2 ^ 63)

theorem Announces.suffix {N : Nat} {c s : Bytes} (h : Announces N s) : Announces N (c ++ s) := by
  obtain ⟨a, l, b, rfl, h⟩ := h
  exact ⟨c ++ a, l, b, by simp, h⟩

/-- Any reader program consumes a prefix and does not look beyond it. -/
theorem Prog.prefix_stable {α : Type} (p : Prog α) (s : Bytes) (a : α) (r : Bytes)
    (h : p.run s = .ok (a, r)) : ∃ c, s = c ++ r ∧ ∀ r', p.run (c ++ r') = .ok (a, r') := by
  induction p generalizing s with
  | ret b => cases h; exact ⟨[], rfl, fun _ => rfl⟩
  | fail e => cases h
  | read k cont ih =>
    simp only [run] at h
    split at h
    · cases h
    · rename_i hk
      obtain ⟨c, hc, hall⟩ := ih _ _ h
      refine ⟨s.take k ++ c, ?_, ?_⟩
      · rw [List.append_assoc, ← hc, List.take_append_drop]
      · intro r'
        have hl : (s.take k).length = k := by simp; omega
        simp only [run, List.append_assoc]
        rw [if_neg (by simp; omega)]
        rw [List.take_append_of_le_length (by omega), List.drop_append_of_le_length (by omega)]
        rw [List.take_of_length_le (by omega), List.drop_of_length_le (by omega)]
        exact hall r'

theorem Prog.Panics.bind {α β : Type} {P : String → Prop} {N : Nat} {p : Prog α} {f : α → Prog β} (hp : p.Panics P N)
    (hf : ∀ s a r, p.run s = .ok (a, r) → (f a).Panics P N) : (p >>= f).Panics P N := by
  intro s m h
  rw [run_bind] at h
  cases hs : p.run s with
  | error e => rw [hs] at h; simp only [Except.error.injEq] at h; subst h; exact hp s m hs
  | ok x =>
    rw [hs] at h
    obtain ⟨c, rfl, _⟩ := Prog.prefix_stable _ _ _ _ hs
    rcases hf _ _ _ hs _ m h with h | ⟨h, ha⟩
    · exact .inl h
    · exact .inr ⟨h, Announces.suffix ha⟩

theorem Prog.Panics.ret {α : Type} {P : String → Prop} {N : Nat} (a : α) : (Prog.ret a).Panics P N := fun _ _ h => by cases h

theorem Prog.Panics.weaken {α : Type} {P Q : String → Prop} {M N : Nat} {p : Prog α} (hp : p.Panics P N) (hPQ : ∀ m, P m → Q m)
    (hMN : M ≤ N) : p.Panics Q M := by
  intro s m h
  rcases hp s m h with h | ⟨h, a, l, b, e, hl, hn⟩
  · exact .inl (hPQ m h)
  · exact .inr ⟨h, a, l, b, e, hl, Nat.le_trans hMN hn⟩

theorem wireNat_wide {enc : Bytes} {n : Nat} (h : WireNat enc n) (hn : 2 ^ 32 ≤ n) :
    ∃ p, enc = 0xfc :: p ∧ p.length = 8 ∧ leNat p = n := by
  cases h with
  | small b h => have := b.toNat_lt; omega
  | wide l k p hl hk hp =>
    have h1 := leNat_lt p
    have hk8 : k = 8 := by
      by_cases h8 : k = 8
      · exact h8
      · have : k ≤ 4 := by
          rcases natPayload_cases l with ⟨_, hq, _⟩ | ⟨_, hq⟩ | ⟨_, hq⟩ | ⟨_, hq⟩ | ⟨_, hq, _⟩ <;>
            rw [hq] at hl <;> simp at hl <;> omega
        rw [hp] at h1
        have : 256 ^ k ≤ 256 ^ 4 := Nat.pow_le_pow_right (by omega) this
        have : (256:Nat) ^ 4 = 2 ^ 32 := by decide
        omega
    refine ⟨p, ?_, by rw [hp, hk8], rfl⟩
    have : l = 0xfc := by
      rw [hk8] at hl
      rcases natPayload_cases l with ⟨_, hq, _⟩ | ⟨hl', hq⟩ | ⟨_, hq⟩ | ⟨hl', hq⟩ | ⟨hl', hq, _⟩ <;>
        rw [hq] at hl <;> simp at hl <;> first | exact hl' | skip
    rw [this]

theorem readExact_safe {P : String → Prop} {N : Nat} (k : Nat) : (readExact k).Panics P N := by
  intro s m h
  rw [run_readExact] at h
  split at h <;> cases h

theorem readUintLE_safe {P : String → Prop} {N : Nat} (k : Nat) : (readUintLE k).Panics P N :=
  (readExact_safe k).bind (fun _ _ _ _ => Prog.Panics.ret _)

theorem readU8_safe {P : String → Prop} {N : Nat} : readU8.Panics P N := by
  intro s m h
  cases s <;> simp [readU8_nil] at h

theorem binReadBool_safe {P : String → Prop} {N : Nat} : binReadBool.Panics P N := by
  refine readU8_safe.bind ?_
  intro _ b _ _ s m h
  split at h
  · cases h
  · split at h <;> cases h

theorem binReadInteger_safe {P : String → Prop} {N : Nat} (t : IntTy) : (binReadInteger t).Panics P N := by
  intro s m h
  have := (C02_integer_read_exact t s).2.2.2.2 _ h
  rcases this with h | h | ⟨_, h⟩ <;> cases h

theorem binReadLen_safe {P : String → Prop} {N : Nat} : binReadLen.Panics P N := by
  have : (binReadNat0 u64).Panics P N := by
    intro s m h
    have := (C02_nat0_read_exact u64 s).2.2.2.2 _ h
    rcases this with h | h | ⟨_, h⟩ <;> cases h
  exact this.bind (fun _ _ _ _ => Prog.Panics.ret _)

theorem decodeN_safe {P : String → Prop} {N : Nat} {α : Type} {p : Prog α} (h : p.Panics P N) (n : Nat) :
    (decodeN p n).Panics P N := by
  induction n with
  | zero => exact Prog.Panics.ret _
  | succ n ih => exact h.bind (fun _ _ _ _ => ih.bind (fun _ _ _ _ => Prog.Panics.ret _))

/-- Reading a length `n` and claiming room for `n` items of `k` bytes: the only panic comes from an announced length that is too
large. -/
theorem lenClaim_panics {α : Type} {P : String → Prop} {N k : Nat} {f : Nat → Prog α} (hk : N * k = 2 ^ 63) (hN : 2 ^ 32 ≤ N)
    (hf : ∀ n, (f n).Panics P N) : (binReadLen >>= fun n => claim (n * k) >>= fun _ => f n).Panics P N := by
  have hk0 : 0 < k := by
    rcases Nat.eq_zero_or_pos k with h | h
    · rw [h] at hk; simp at hk
    · exact h
  have hN' : N ≤ 2 ^ 63 := by rw [← hk]; exact Nat.le_mul_of_pos_right _ hk0
  intro s m h
  cases hs : binReadLen.run s with
  | error e =>
    rw [run_bind, hs] at h; simp only [Except.error.injEq] at h; subst h
    exact binReadLen_safe s m hs
  | ok x =>
    obtain ⟨n, s'⟩ := x
    rw [run_bind, hs] at h
    obtain ⟨len, rfl, hw⟩ := (binReadLen_ok_iff _ _ _).mp hs
    by_cases hc : n * k < 2 ^ 63
    · simp only [run_bind_ok (run_claim hc s')] at h
      rcases hf n s' m h with h | ⟨h, ha⟩
      · exact .inl h
      · exact .inr ⟨h, Announces.suffix ha⟩
    · have hn : N ≤ n := by
        rw [← hk] at hc
        exact Nat.le_of_mul_le_mul_right (Nat.le_of_not_lt hc) hk0
      have hm : m = "capacity overflow" := by
        unfold claim at h
        simp only [if_neg hc] at h
        cases h; rfl
      obtain ⟨p, rfl, hl, hv⟩ := wireNat_wide hw (by omega)
      exact .inr ⟨hm, [], p, s', rfl, hl, by omega⟩

mutual
theorem decode_panics (N : Nat) : (t : Ty) → (N = 2 ^ 63 ∨ StringFree t = true) → (decode t).Panics (fun _ => False) N
  | .unit, _ => by
    refine readU8_safe.bind ?_
    intro _ b _ _ s m h
    split at h <;> cases h
  | .bool, _ => binReadBool_safe
  | .u8, _ => readU8_safe
  | .int k, _ => by
    simp only [decode]
    refine (binReadInteger_safe _).bind ?_
    intro s v r hv s m h
    obtain ⟨_, _, _, ht⟩ := (binReadInteger_ok_iff _ _ _ _).mp hv
    rw [dif_pos ht] at h
    cases h
  | .f32, _ => (readUintLE_safe 4).bind (fun _ _ _ _ => Prog.Panics.ret _)
  | .f64, _ => (readUintLE_safe 8).bind (fun _ _ _ _ => Prog.Panics.ret _)
  | .char, _ => readU8_safe.bind (fun _ _ _ _ => Prog.Panics.ret _)
  | .string, hf => by
    obtain rfl : N = 2 ^ 63 := hf.resolve_right (by simp [StringFree])
    have e : decode .string = (binReadLen >>= fun n => claim (n * 1) >>= fun _ => readExact n >>= fun bs =>
        match String.fromUTF8? ⟨bs.toArray⟩ with
        | some s => .ret s
        | none => .fail .invalidUtf8) := by
      simp only [Nat.mul_one]; rfl
    rw [e]
    refine lenClaim_panics rfl (by decide) (fun _ => (readExact_safe _).bind ?_)
    intro _ bs _ _ s m h
    split at h <;> cases h
  | .option t, hf => by
    simp only [StringFree] at hf
    simp only [decode]
    refine binReadBool_safe.bind ?_
    intro _ b _ _
    cases b
    · exact Prog.Panics.ret _
    · exact (decode_panics N t hf).bind (fun _ _ _ _ => Prog.Panics.ret _)
  | .newtype t, hf => by
    simp only [StringFree] at hf
    simp only [decode]; exact decode_panics N t hf
  | .seq t, hf => by
    simp only [StringFree] at hf
    simp only [decode]
    exact binReadLen_safe.bind (fun _ _ _ _ => decodeN_safe (decode_panics N t hf) _)
  | .tuple ts, hf => by
    simp only [StringFree] at hf
    simp only [decode]; exact decodeProd_panics N ts hf
  | .struct ts, hf => by
    simp only [StringFree] at hf
    simp only [decode]; exact decodeProd_panics N ts hf
  | .enum vs, hf => by
    simp only [StringFree] at hf
    simp only [decode]
    exact readU8_safe.bind (fun _ _ _ _ => decodeSum_panics N vs hf _)
  | .polyvar vs, hf => by
    simp only [StringFree] at hf
    simp only [decode]
    refine Prog.Panics.bind ((readUintLE_safe 4).bind (fun _ _ _ _ => Prog.Panics.ret _)) ?_
    intro _ tag _ _ s m h
    split at h
    · exact decodeSum_panics N vs hf _ _ _ h
    · cases h
theorem decodeProd_panics (N : Nat) : (ts : Tys) → (N = 2 ^ 63 ∨ StringFreeAll ts = true) →
    (decodeProd ts).Panics (fun _ => False) N
  | .nil, _ => Prog.Panics.ret _
  | .cons _ t ts, hf => by
    simp only [StringFreeAll, Bool.and_eq_true] at hf
    simp only [decodeProd]
    exact (decode_panics N t (hf.imp_right (·.1))).bind
      (fun _ _ _ _ => (decodeProd_panics N ts (hf.imp_right (·.2))).bind (fun _ _ _ _ => Prog.Panics.ret _))
theorem decodeSum_panics (N : Nat) : (vs : Tys) → (N = 2 ^ 63 ∨ StringFreeAll vs = true) → (i : Nat) →
    (decodeSum vs i).Panics (fun _ => False) N
  | .nil, _, _ => fun _ _ h => by simp [decodeSum] at h
  | .cons _ t _, hf, 0 => by
    simp only [StringFreeAll, Bool.and_eq_true] at hf
    simp only [decodeSum]
    exact (decode_panics N t (hf.imp_right (·.1))).bind (fun _ _ _ _ => Prog.Panics.ret _)
  | .cons _ _ ts, hf, i + 1 => by
    simp only [StringFreeAll, Bool.and_eq_true] at hf
    simp only [decodeSum]
    exact (decodeSum_panics N ts (hf.imp_right (·.2)) i).bind (fun _ _ _ _ => Prog.Panics.ret _)
end

theorem decode_safe (t : Ty) : (decode t).Safe := decode_panics _ t (.inl rfl)

/-- A decoder of a type without strings never panics. -/
theorem decode_stringFree (t : Ty) (h : StringFree t = true) (s : Bytes) (m : String) :
    (decode t).run s ≠ .error (.panic m) := by
  intro hm
  obtain ⟨-, a, l, b, -, hl, hn⟩ := (decode_panics (2 ^ 64) t (.inr h) s m hm).resolve_left id
  have := leNat_lt l
  rw [hl] at this
  have e : (256:Nat) ^ 8 = 2 ^ 64 := by decide
  omega

end MinaRs.BinProt
