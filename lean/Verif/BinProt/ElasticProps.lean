import Verif.BinProt.SerdeProps
import Verif.BinProt.ElasticSpec

/-!
# Property C14: which values have a second wire form
-/

namespace MinaRs.BinProt
open Prog Spec

/-- Two's complement bytes of a number in range. -/
theorem isSignedLE_leBytes (k : Nat) (v : Int) (hlo : -(2 ^ (8 * k - 1)) ≤ v) (hhi : v < 2 ^ (8 * k - 1)) :
    IsSignedLE (leBytes k (v % 2 ^ (8 * k)).toNat) v := by
  have hpos : (0 : Int) < 2 ^ (8 * k) := Int.pow_pos (by decide)
  have h1 := Int.emod_nonneg v (Int.ne_of_gt hpos)
  have h2 := Int.emod_lt_of_pos v hpos
  refine ⟨by rw [leBytes_length]; exact hlo, by rw [leBytes_length]; exact hhi, ?_⟩
  rw [leBytes_length, leNat_leBytes_of_lt, Int.toNat_of_nonneg h1]
  have e : (256 : Nat) ^ k = 2 ^ (8 * k) := by rw [Nat.pow_mul]
  rw [e]
  have : ((2 ^ (8 * k) : Nat) : Int) = 2 ^ (8 * k) := by simp
  omega

theorem wireInt_elastic {a : Bytes} {n : Int} (h : WireInt a n) :
    (∃ b, b ≠ a ∧ WireInt b n) ↔ -(2 ^ 31) ≤ n ∧ n < 2 ^ 31 := by
  constructor
  · rintro ⟨b, hne, hb⟩
    apply Classical.byContradiction
    intro hout
    have wide : ∀ {c : Bytes}, WireInt c n → ∃ p, c = 0xfc :: p ∧ p.length = 8 ∧ n % 2 ^ 64 = (leNat p : Int) := by
      intro c hc
      cases hc with
      | small b h => omega
      | wide l k p v hl hk hp hv =>
        obtain ⟨h1, h2, h3⟩ := hv
        rw [hp] at h1 h2 h3
        unfold intPayload at hl
        repeat' split at hl
        all_goals simp at hl
        all_goals subst hl
        · omega
        · exfalso; simp at h1 h2; omega
        · exfalso; simp at h1 h2; omega
        · exfalso; simp at h1 h2; omega
        · refine ⟨p, ?_, hp, h3⟩
          have : l = 0xfc := UInt8.toNat_inj.mp (by assumption)
          rw [this]
    obtain ⟨p, rfl, hp, ep⟩ := wide h
    obtain ⟨q, rfl, hq, eq⟩ := wide hb
    apply hne
    rw [leNat_inj (a := q) (b := p) (by omega) (by omega)]
  · rintro ⟨hlo, hhi⟩
    have w4 : WireInt (0xfd :: leBytes 4 (n % 2 ^ (8 * 4)).toNat) n :=
      .wide 0xfd 4 _ _ (by decide) (by decide) (leBytes_length _ _) (isSignedLE_leBytes 4 n (by simpa using hlo) (by simpa using hhi))
    have w8 : WireInt (0xfc :: leBytes 8 (n % 2 ^ (8 * 8)).toNat) n :=
      .wide 0xfc 8 _ _ (by decide) (by decide) (leBytes_length _ _) (isSignedLE_leBytes 8 n (by simp; omega) (by simp; omega))
    by_cases e : 0xfd :: leBytes 4 (n % 2 ^ (8 * 4)).toNat = a
    · refine ⟨_, fun e' => ?_, w8⟩
      rw [← e] at e'
      simp at e'
    · exact ⟨_, e, w4⟩

theorem wireNat_elastic {a : Bytes} {n : Nat} (h : WireNat a n) : (∃ b, b ≠ a ∧ WireNat b n) ↔ n < 2 ^ 32 := by
  constructor
  · rintro ⟨b, hne, hb⟩
    apply Classical.byContradiction
    intro hout
    obtain ⟨p, rfl, hp, ep⟩ := wireNat_wide h (by omega)
    obtain ⟨q, rfl, hq, eq⟩ := wireNat_wide hb (by omega)
    apply hne
    rw [leNat_inj (a := q) (b := p) (by omega) (by omega)]
  · intro hn
    have w4 : WireNat (0xfd :: leBytes 4 n) n := by
      have := WireNat.wide 0xfd 4 (leBytes 4 n) (by decide) (by decide) (leBytes_length _ _)
      rwa [leNat_leBytes_of_lt (by simpa using hn)] at this
    have w8 : WireNat (0xfc :: leBytes 8 n) n := by
      have := WireNat.wide 0xfc 8 (leBytes 8 n) (by decide) (by decide) (leBytes_length _ _)
      rwa [leNat_leBytes_of_lt (by simp; omega)] at this
    by_cases e : 0xfd :: leBytes 4 n = a
    · refine ⟨_, fun e' => ?_, w8⟩
      rw [← e] at e'
      simp at e'
    · exact ⟨_, e, w4⟩

/-- Wire forms back to back: another form is another form of some element. -/
theorem wireElems_elastic {α : Type} {R : Bytes → α → Prop} {P : α → Prop} :
    (vs : List α) → (hR : ∀ v ∈ vs, ∀ a, R a v → ((∃ b, b ≠ a ∧ R b v) ↔ P v)) → (a : Bytes) → WireElems R a vs →
    ((∃ b, b ≠ a ∧ WireElems R b vs) ↔ ∃ v ∈ vs, P v)
  | [], _, a, ha => by
    simp only [WireElems] at ha ⊢
    subst ha
    simp
  | v :: vs, hR, a, ha => by
    simp only [WireElems] at ha
    obtain ⟨e₁, e₂, rfl, h1, h2⟩ := ha
    have ih := wireElems_elastic vs (fun v hv => hR v (List.mem_cons_of_mem _ hv)) e₂ h2
    have hv := hR v List.mem_cons_self e₁ h1
    constructor
    · rintro ⟨b, hne, hb⟩
      simp only [WireElems] at hb
      obtain ⟨f₁, f₂, rfl, g1, g2⟩ := hb
      by_cases e : f₁ = e₁
      · obtain ⟨w, hw, hp⟩ := ih.mp ⟨f₂, fun e' => hne (by rw [e, e']), g2⟩
        exact ⟨w, List.mem_cons_of_mem _ hw, hp⟩
      · exact ⟨v, List.mem_cons_self, hv.mp ⟨f₁, e, g1⟩⟩
    · rintro ⟨w, hw, hp⟩
      rcases List.mem_cons.mp hw with rfl | hw
      · obtain ⟨b, hb, hb'⟩ := hv.mpr hp
        refine ⟨b ++ e₂, fun e => hb (List.append_cancel_right e), ?_⟩
        simp only [WireElems]
        exact ⟨b, e₂, rfl, hb', h2⟩
      · obtain ⟨b, hb, hb'⟩ := ih.mpr ⟨w, hw, hp⟩
        refine ⟨e₁ ++ b, fun e => hb (List.append_cancel_left e), ?_⟩
        simp only [WireElems]
        exact ⟨e₁, b, rfl, h1, hb'⟩

mutual
theorem wire_elastic : (t : Ty) → (v : t.denote) → (a : Bytes) → Wire t a v → ((∃ b, b ≠ a ∧ Wire t b v) ↔ Elastic t v)
  | .unit, v, a, ha => by simp only [Wire, Elastic] at ha ⊢; subst ha; simp
  | .bool, v, a, ha => by simp only [Wire, Elastic] at ha ⊢; subst ha; simp
  | .u8, v, a, ha => by simp only [Wire, Elastic] at ha ⊢; subst ha; simp
  | .int _, v, a, ha => by simp only [Wire, Elastic] at ha ⊢; exact wireInt_elastic ha
  | .f32, v, a, ha => by
    simp only [Elastic, iff_false]
    rintro ⟨b, hne, hb⟩
    exact hne (wire_unique .f32 trivial v b a hb ha)
  | .f64, v, a, ha => by
    simp only [Elastic, iff_false]
    rintro ⟨b, hne, hb⟩
    exact hne (wire_unique .f64 trivial v b a hb ha)
  | .char, v, a, ha => by
    simp only [Elastic, iff_false]
    rintro ⟨b, hne, hb⟩
    exact hne (wire_unique .char trivial v b a hb ha)
  | .string, v, a, ha => by
    simp only [Wire, Elastic] at ha ⊢
    obtain ⟨l, rfl, hlt, hl⟩ := ha
    rw [← wireNat_elastic hl]
    constructor
    · rintro ⟨b, hne, l', rfl, -, hl'⟩
      exact ⟨l', fun e => hne (by rw [e]), hl'⟩
    · rintro ⟨l', hne, hl'⟩
      exact ⟨l' ++ utf8 v, fun e => hne (List.append_cancel_right e), l', rfl, hlt, hl'⟩
  | .option t, v, a, ha => by
    rcases v with _ | v
    · simp only [Wire, Elastic] at ha ⊢
      subst ha
      simp
    · simp only [Wire] at ha
      obtain ⟨e, rfl, he⟩ := ha
      have ih := wire_elastic t v e he
      constructor
      · rintro ⟨b, hne, hb⟩
        simp only [Wire] at hb
        obtain ⟨e', rfl, he'⟩ := hb
        simp only [Elastic]
        exact ⟨v, rfl, ih.mp ⟨e', fun e => hne (by rw [e]), he'⟩⟩
      · intro hs
        simp only [Elastic] at hs
        obtain ⟨w, hw, hs⟩ := hs
        cases hw
        obtain ⟨b, hb, hb'⟩ := ih.mpr hs
        refine ⟨0x01 :: b, fun e => hb (List.cons.inj e).2, ?_⟩
        simp only [Wire]
        exact ⟨b, rfl, hb'⟩
  | .newtype t, v, a, ha => by
    simp only [Wire, Elastic] at ha ⊢
    exact wire_elastic t v a ha
  | .seq t, v, a, ha => by
    simp only [Wire, Elastic] at ha ⊢
    obtain ⟨l, es, rfl, hl, hes⟩ := ha
    have ih := wireElems_elastic (P := fun w => Elastic t w) v (fun w _ a ha => wire_elastic t w a ha) es hes
    rw [← wireNat_elastic hl, ← ih]
    constructor
    · rintro ⟨b, hne, l', es', rfl, hl', hes'⟩
      by_cases e : l' = l
      · exact .inr ⟨es', fun e' => hne (by rw [e, e']), hes'⟩
      · exact .inl ⟨l', e, hl'⟩
    · rintro (⟨l', hne, hl'⟩ | ⟨es', hne, hes'⟩)
      · exact ⟨l' ++ es, fun e => hne (List.append_cancel_right e), l', es, rfl, hl', hes⟩
      · exact ⟨l ++ es', fun e => hne (List.append_cancel_left e), l, es', rfl, hl, hes'⟩
  | .tuple ts, v, a, ha => by
    simp only [Wire, Elastic] at ha ⊢
    exact wireProd_elastic ts v a ha
  | .struct ts, v, a, ha => by
    simp only [Wire, Elastic] at ha ⊢
    exact wireProd_elastic ts v a ha
  | .enum vs, v, a, ha => by
    simp only [Wire, Elastic] at ha ⊢
    obtain ⟨x, e, rfl, hx, he⟩ := ha
    rw [← wireSum_elastic vs v e he]
    constructor
    · rintro ⟨b, hne, y, e', rfl, hy, he'⟩
      have : y = x := UInt8.toNat_inj.mp (by omega)
      subst this
      exact ⟨e', fun e => hne (by rw [e]), he'⟩
    · rintro ⟨b, hne, hb⟩
      exact ⟨x :: b, fun e => hne (List.cons.inj e).2, x, b, rfl, hx, hb⟩
  | .polyvar vs, v, a, ha => by
    simp only [Wire, Elastic, iff_true] at ha ⊢
    obtain ⟨tag, e, rfl, hlen, hh, hfirst, he⟩ := ha
    have hlt := leNat_lt tag
    rw [hlen] at hlt
    have key : ∀ m, m < 256 ^ 4 → m / 2 = leNat tag / 2 → m ≠ leNat tag →
        ∃ b, b ≠ tag ++ e ∧ ∃ tag' e', b = tag' ++ e' ∧ tag'.length = 4 ∧ leNat tag' / 2 = hash32 (utf8 (vs.variantName v)) ∧
          (∀ n ∈ vs.names.take (vs.index v), hash32 (utf8 n) ≠ hash32 (utf8 (vs.variantName v))) ∧ WireSum vs e' v := by
      intro m hm hm2 hne
      refine ⟨leBytes 4 m ++ e, fun e' => hne ?_, leBytes 4 m, e, rfl, leBytes_length _ _, ?_, hfirst, he⟩
      · have := List.append_cancel_right e'
        rw [← this, leNat_leBytes_of_lt hm]
      · rw [leNat_leBytes_of_lt hm, hm2, hh]
    by_cases hodd : leNat tag % 2 = 1
    · exact key (leNat tag - 1) (by omega) (by omega) (by omega)
    · exact key (leNat tag + 1) (by simp at hlt ⊢; omega) (by omega) (by omega)
theorem wireProd_elastic : (ts : Tys) → (v : ts.prod) → (a : Bytes) → WireProd ts a v →
    ((∃ b, b ≠ a ∧ WireProd ts b v) ↔ ElasticProd ts v)
  | .nil, v, a, ha => by simp only [WireProd, ElasticProd] at ha ⊢; subst ha; simp
  | .cons _ t ts, v, a, ha => by
    simp only [WireProd, ElasticProd] at ha ⊢
    obtain ⟨x, x', rfl, hx, hx'⟩ := ha
    rw [← wire_elastic t _ x hx, ← wireProd_elastic ts _ x' hx']
    constructor
    · rintro ⟨b, hne, y, y', rfl, hy, hy'⟩
      by_cases e : y = x
      · exact .inr ⟨y', fun e' => hne (by rw [e, e']), hy'⟩
      · exact .inl ⟨y, e, hy⟩
    · rintro (⟨y, hne, hy⟩ | ⟨y', hne, hy'⟩)
      · exact ⟨y ++ x', fun e => hne (List.append_cancel_right e), y, x', rfl, hy, hx'⟩
      · exact ⟨x ++ y', fun e => hne (List.append_cancel_left e), x, y', rfl, hx, hy'⟩
theorem wireSum_elastic : (vs : Tys) → (v : vs.sum) → (a : Bytes) → WireSum vs a v →
    ((∃ b, b ≠ a ∧ WireSum vs b v) ↔ ElasticSum vs v)
  | .nil, _, _, ha => by simp [WireSum] at ha
  | .cons _ t ts, v, a, ha => by
    rcases v with w | w
    · simp only [WireSum, ElasticSum] at ha ⊢; exact wire_elastic t w a ha
    · simp only [WireSum, ElasticSum] at ha ⊢; exact wireSum_elastic ts w a ha
end

/-- **C14 fails, exactly.** For every well-formed type and every value the format carries: some other byte string than
its encoding decodes to the value, in every context, exactly when the value contains an integer that fits 32 bits, a
string or sequence shorter than 2^32, or a polymorphic variant. -/
theorem C14_malleable_fails (t : Ty) (hwf : WfTy t) (v : t.denote) (hf : Fits t v) :
    (∃ enc, enc ≠ toBytes t v ∧ ∀ rest, (decode t).run (enc ++ rest) = .ok (v, rest)) ↔ Elastic t v := by
  rw [← wire_elastic t v _ (C07_encoding_is_wire_form_partial t hwf v hf)]
  constructor
  · rintro ⟨enc, hne, h⟩
    have h0 := h []
    rw [List.append_nil] at h0
    obtain ⟨e, he, hw⟩ := (decode_ok_iff t hwf _ _ _).mp h0
    rw [List.append_nil] at he
    subst he
    exact ⟨enc, hne, hw⟩
  · rintro ⟨enc, hne, hw⟩
    exact ⟨enc, hne, fun rest => (decode_ok_iff t hwf _ _ _).mpr ⟨enc, rfl, hw⟩⟩

/-- Both sides occur: a pair of a large number and a boolean has one form, a pair with the number 5 has several. -/
example : Fits (.tuple (.cons "a" (.int .i64) (.cons "b" .bool .nil))) (⟨2 ^ 40, by decide⟩, true, ()) ∧
    ¬ Elastic (.tuple (.cons "a" (.int .i64) (.cons "b" .bool .nil))) (⟨2 ^ 40, by decide⟩, true, ()) ∧
    Elastic (.tuple (.cons "a" (.int .i64) (.cons "b" .bool .nil))) (⟨5, by decide⟩, true, ()) ∧
    (decode (.tuple (.cons "a" (.int .i64) (.cons "b" .bool .nil)))).run [0xfe, 5, 0, 1] =
      .ok ((⟨5, by decide⟩, true, ()), []) := by
  refine ⟨?_, ?_, ?_, rfl⟩
  · simp [Fits, FitsProd]
  · simp [Elastic, ElasticProd]
  · simp [Elastic, ElasticProd]

end MinaRs.BinProt
