import Verif.BinProt.Words
import Verif.BinProt.WordsSpec
import Verif.BinProt.SerdeProps

/-! Helper lemmas for C109 and C110. -/

namespace MinaRs.BinProt
open Prog Spec

/-! ## 32 bits against 64 -/

/-- `q` does what `p` does, unless a number of at least `N` is named in the bytes; with `sf`, `q` then gives up. -/
def Follows {α : Type} (N : Nat) (sf : Bool) (p q : Prog α) : Prop :=
  ∀ s, q.run s = p.run s ∨ (Names N s ∧ (sf = true → q.run s = .error .destinationIntegerOverflow))

theorem Names.suffix {N : Nat} {c s : Bytes} (h : Names N s) : Names N (c ++ s) := by
  obtain ⟨a, e, b, m, rfl, h⟩ := h
  exact ⟨c ++ a, e, b, m, by simp, h⟩

theorem Follows.refl {α : Type} {N : Nat} {sf : Bool} (p : Prog α) : Follows N sf p p := fun _ => .inl rfl

theorem Follows.bind {α β : Type} {N : Nat} {sf : Bool} {p q : Prog α} {f g : α → Prog β} (h : Follows N sf p q)
    (h' : ∀ a, Follows N sf (f a) (g a)) : Follows N sf (p >>= f) (q >>= g) := by
  intro s
  rcases h s with h | ⟨hn, h⟩
  · rw [run_bind, run_bind, h]
    cases hp : p.run s with
    | error e => exact .inl rfl
    | ok x =>
      obtain ⟨a, r⟩ := x
      obtain ⟨c, rfl, _⟩ := Prog.prefix_stable _ _ _ _ hp
      rcases h' a r with h | ⟨hn, h⟩
      · exact .inl h
      · exact .inr ⟨Names.suffix hn, h⟩
  · refine .inr ⟨hn, fun hs => ?_⟩
    rw [run_bind, h hs]

theorem Follows.decodeN {α : Type} {N : Nat} {sf : Bool} {p q : Prog α} (h : Follows N sf p q) (n : Nat) :
    Follows N sf (decodeN p n) (decodeN q n) := by
  induction n with
  | zero => exact .refl _
  | succ n ih => exact h.bind fun _ => ih.bind fun _ => .refl _

theorem len_follows {N : Nat} {sf : Bool} (hN : N ≤ 2 ^ 32) : Follows N sf binReadLen binReadLen32 := by
  intro s
  obtain ⟨a1, a2, a3, a4, a5⟩ := C02_nat0_read_exact u64 s
  obtain ⟨b1, b2, b3, b4, b5⟩ := C02_nat0_read_exact u32 s
  have hlen : ∀ t, ∀ e, (binReadNat0 t).run s = .error e →
      (do let v ← binReadNat0 t; Prog.ret v.toNat : Prog Nat).run s = .error e := by
    intro t e h; rw [run_bind, h]
  cases h : (binReadNat0 u64).run s with
  | error e =>
    left
    have : (binReadNat0 u32).run s = .error e := by
      rcases a5 e h with rfl | rfl | ⟨b, rfl⟩
      · exact b4.mpr (a4.mp h)
      · obtain ⟨enc, rest, v, _, hw, hv⟩ := a2.mp h
        have := wireNat_lt hw
        exact absurd (show u64.holds v from ⟨by show (0:Int) ≤ v; omega, by show (v:Int) ≤ 2 ^ 64 - 1; omega⟩) hv
      · exact (b3 b).mpr ((a3 b).mp h)
    rw [binReadLen32, binReadLen, hlen _ _ h, hlen _ _ this]
  | ok x =>
    obtain ⟨v, r⟩ := x
    have hl : binReadLen.run s = .ok (v.toNat, r) := by
      unfold binReadLen; rw [run_bind_ok h]; rfl
    obtain ⟨enc, rfl, hw⟩ := (binReadLen_ok_iff _ _ _).mp hl
    by_cases hv : v.toNat < 2 ^ 32
    · left
      have := (b1 v.toNat r).mpr ⟨enc, rfl, hw, ⟨by show (0:Int) ≤ v.toNat; omega, by show (v.toNat:Int) ≤ 2 ^ 32 - 1; omega⟩⟩
      rw [hl]
      unfold binReadLen32
      rw [run_bind_ok this]
      rfl
    · right
      refine ⟨⟨[], enc, r, _, rfl, hw, by omega⟩, fun _ => ?_⟩
      exact hlen _ _ (b2.mpr ⟨enc, r, _, rfl, hw, fun h => by
        have : (v.toNat:Int) ≤ 2 ^ 32 - 1 := h.2
        omega⟩)

theorem string_follows {N : Nat} (hN : N ≤ 2 ^ 31) : Follows N false binReadString binReadString32 := by
  intro s
  cases h : (binReadNat0 u64).run s with
  | error e =>
    left
    unfold binReadString32 binReadString binReadLen
    rw [run_bind, h, run_bind, run_bind, h]
  | ok x =>
    obtain ⟨v, r⟩ := x
    have hl : binReadLen.run s = .ok (v.toNat, r) := by
      unfold binReadLen; rw [run_bind_ok h]; rfl
    obtain ⟨enc, rfl, hw⟩ := (binReadLen_ok_iff _ _ _).mp hl
    by_cases hv : v.toNat < 2 ^ 31
    · left
      unfold binReadString32 binReadString
      rw [run_bind_ok h, run_bind_ok hl, run_bind_ok (run_claim (by omega) _)]
      simp only [Nat.mod_eq_of_lt (show v.toNat < 2 ^ 32 by omega), if_pos hv]
      rfl
    · exact .inr ⟨⟨[], enc, r, _, rfl, hw, by omega⟩, fun h => by cases h⟩

mutual
theorem decode_follows {N : Nat} {sf : Bool} : (t : Ty) →
    (N ≤ 2 ^ 31 ∧ sf = false) ∨ (N ≤ 2 ^ 32 ∧ StringFree t = true) → Follows N sf (decode t) (decode32 t)
  | .unit, _ | .bool, _ | .u8, _ | .f32, _ | .f64, _ | .char, _ | .int _, _ => by
    unfold decode decode32; exact .refl _
  | .string, h => by
    obtain ⟨h1, rfl⟩ := h.resolve_right (by simp [StringFree])
    unfold decode decode32; exact string_follows h1
  | .option t, h => by
    simp only [StringFree] at h
    unfold decode decode32
    refine (Follows.refl _).bind fun b => ?_
    split
    · exact (decode_follows t h).bind fun _ => .refl _
    · exact .refl _
  | .newtype t, h => by
    simp only [StringFree] at h
    unfold decode decode32; exact decode_follows t h
  | .seq t, h => by
    simp only [StringFree] at h
    unfold decode decode32
    refine (len_follows (by omega)).bind fun n => (decode_follows t h).decodeN n
  | .tuple ts, h => by
    simp only [StringFree] at h
    unfold decode decode32; exact decodeProd_follows ts h
  | .struct ts, h => by
    simp only [StringFree] at h
    unfold decode decode32; exact decodeProd_follows ts h
  | .enum vs, h => by
    simp only [StringFree] at h
    unfold decode decode32; exact (Follows.refl _).bind fun b => decodeSum_follows vs h _
  | .polyvar vs, h => by
    simp only [StringFree] at h
    unfold decode decode32
    refine (Follows.refl _).bind fun b => ?_
    cases polyvarIndex vs.names b with
    | some i => exact decodeSum_follows vs h _
    | none => exact .refl _
theorem decodeProd_follows {N : Nat} {sf : Bool} : (ts : Tys) →
    (N ≤ 2 ^ 31 ∧ sf = false) ∨ (N ≤ 2 ^ 32 ∧ StringFreeAll ts = true) → Follows N sf (decodeProd ts) (decodeProd32 ts)
  | .nil, _ => .refl _
  | .cons _ t ts, h => by
    simp only [StringFreeAll, Bool.and_eq_true] at h
    unfold decodeProd decodeProd32
    exact (decode_follows t (h.imp_right fun h => ⟨h.1, h.2.1⟩)).bind fun _ =>
      (decodeProd_follows ts (h.imp_right fun h => ⟨h.1, h.2.2⟩)).bind fun _ => .refl _
theorem decodeSum_follows {N : Nat} {sf : Bool} : (vs : Tys) →
    (N ≤ 2 ^ 31 ∧ sf = false) ∨ (N ≤ 2 ^ 32 ∧ StringFreeAll vs = true) → (i : Nat) →
    Follows N sf (decodeSum vs i) (decodeSum32 vs i)
  | .nil, _, _ => by unfold decodeSum decodeSum32; exact .refl _
  | .cons _ t _, h, 0 => by
    simp only [StringFreeAll, Bool.and_eq_true] at h
    unfold decodeSum decodeSum32
    exact (decode_follows t (h.imp_right fun h => ⟨h.1, h.2.1⟩)).bind fun _ => .refl _
  | .cons _ _ ts, h, i + 1 => by
    simp only [StringFreeAll, Bool.and_eq_true] at h
    unfold decodeSum decodeSum32
    exact (decodeSum_follows ts (h.imp_right fun h => ⟨h.1, h.2.2⟩) i).bind fun _ => .refl _
end

/-! ## Sizes -/

theorem wireNat_pos {enc : Bytes} {n : Nat} (h : WireNat enc n) : 0 < enc.length := by
  cases h <;> simp

theorem wireInt_pos {enc : Bytes} {n : Int} (h : WireInt enc n) : 0 < enc.length := by
  cases h <;> simp

theorem wireElems_items {t : Ty} {k : Nat} (hw : ∀ enc v, Wire t enc v → items t v + k ≤ enc.length) :
    ∀ (vs : List t.denote) (es : Bytes), WireElems (fun e v => Wire t e v) es vs →
      total (vs.map (items t)) + k * vs.length ≤ es.length
  | [], es, h => by simp [total]
  | v :: vs, es, h => by
    obtain ⟨e₁, e₂, rfl, h1, h2⟩ := h
    have := hw _ _ h1
    have := wireElems_items hw vs e₂ h2
    simp only [List.map_cons, total, List.length_append, List.length_cons, Nat.mul_add, Nat.mul_one]
    omega

mutual
theorem wire_items : (t : Ty) → SolidLists t = true → (enc : Bytes) → (v : t.denote) → Wire t enc v →
    items t v + (Solid t).toNat ≤ enc.length
  | .unit, _, enc, v, h => by simp only [Wire] at h; subst h; simp [items, Solid]
  | .bool, _, enc, v, h => by simp only [Wire] at h; subst h; simp [items, Solid]
  | .u8, _, enc, v, h => by
    simp only [Wire] at h
    have : enc.length = 1 := by rw [h]; rfl
    simp [items, Solid, this]
  | .int _, _, enc, v, h => by
    simp only [Wire] at h
    have := wireInt_pos h
    simp only [items, Solid, Bool.toNat_true]; omega
  | .f32, _, enc, v, h => by simp only [Wire] at h; simp [items, Solid, h.1]
  | .f64, _, enc, v, h => by simp only [Wire] at h; simp [items, Solid, h.1]
  | .char, _, enc, v, h => by
    simp only [Wire] at h
    obtain ⟨b, rfl, _⟩ := h
    simp [items, Solid]
  | .string, _, enc, v, h => by
    simp only [Wire] at h
    obtain ⟨len, rfl, _, h⟩ := h
    have := wireNat_pos h
    simp only [items, Solid, Bool.toNat_true, List.length_append]; omega
  | .option t, hs, enc, v, h => by
    simp only [Wire] at h
    simp only [SolidLists] at hs
    rcases v with _ | w
    · subst h; simp [items, Solid]
    · obtain ⟨e, rfl, h⟩ := h
      have := wire_items t hs e w h
      simp only [items, Solid, Bool.toNat_true, List.length_cons]; omega
  | .newtype t, hs, enc, v, h => by
    simp only [Wire] at h
    simp only [SolidLists] at hs
    simp only [items, Solid]; exact wire_items t hs enc v h
  | .seq t, hs, enc, v, h => by
    simp only [Wire] at h
    simp only [SolidLists, Bool.and_eq_true] at hs
    obtain ⟨len, es, rfl, hl, he⟩ := h
    have := wireNat_pos hl
    have := wireElems_items (k := 1) (fun enc v hv => by simpa [hs.1] using wire_items t hs.2 enc v hv) v es he
    simp only [items, Solid, Bool.toNat_true, List.length_append]; omega
  | .tuple ts, hs, enc, v, h => by
    simp only [Wire] at h
    simp only [SolidLists] at hs
    simp only [items, Solid]; exact wireProd_items ts hs enc v h
  | .struct ts, hs, enc, v, h => by
    simp only [Wire] at h
    simp only [SolidLists] at hs
    simp only [items, Solid]; exact wireProd_items ts hs enc v h
  | .enum vs, hs, enc, v, h => by
    simp only [Wire] at h
    simp only [SolidLists] at hs
    obtain ⟨b, e, rfl, _, h⟩ := h
    have := wireSum_items vs hs e v h
    simp only [items, Solid, Bool.toNat_true, List.length_cons]; omega
  | .polyvar vs, hs, enc, v, h => by
    simp only [Wire] at h
    simp only [SolidLists] at hs
    obtain ⟨tag, e, rfl, h4, _, _, h⟩ := h
    have := wireSum_items vs hs e v h
    simp only [items, Solid, Bool.toNat_true, List.length_append]; omega
theorem wireProd_items : (ts : Tys) → SolidListsAll ts = true → (enc : Bytes) → (v : ts.prod) → WireProd ts enc v →
    itemsProd ts v + (SolidAny ts).toNat ≤ enc.length
  | .nil, _, enc, v, h => by simp [itemsProd, SolidAny]
  | .cons _ t ts, hs, enc, v, h => by
    simp only [WireProd] at h
    simp only [SolidListsAll, Bool.and_eq_true] at hs
    obtain ⟨e₁, e₂, rfl, h1, h2⟩ := h
    have a1 := wire_items t hs.1 e₁ _ h1
    have a2 := wireProd_items ts hs.2 e₂ _ h2
    simp only [itemsProd, SolidAny, List.length_append]
    have : (Solid t || SolidAny ts).toNat ≤ (Solid t).toNat + (SolidAny ts).toNat := by
      cases Solid t <;> cases SolidAny ts <;> decide
    omega
theorem wireSum_items : (vs : Tys) → SolidListsAll vs = true → (enc : Bytes) → (v : vs.sum) → WireSum vs enc v →
    itemsSum vs v ≤ enc.length
  | .nil, _, enc, v, h => nomatch (show Empty from v)
  | .cons _ t ts, hs, enc, v, h => by
    simp only [SolidListsAll, Bool.and_eq_true] at hs
    rcases v with w | w
    · simp only [WireSum] at h
      have := wire_items t hs.1 enc w h
      simp only [itemsSum]; omega
    · simp only [WireSum] at h
      have := wireSum_items ts hs.2 enc w h
      simpa only [itemsSum] using this
end

/-! ## Requests -/

/-- The requests are bounded by the bytes used up, two for each byte, and one more if the program fails; each satisfies `Q`. -/
def Modest {α : Type} (Q : Nat → Prop) (p : Prog α) : Prop :=
  ∀ s, (∀ k ∈ p.requests s, Q k) ∧
    (match p.run s with
    | .ok (_, r) => r.length ≤ s.length ∧ (p.requests s).length + 2 * r.length ≤ 2 * s.length
    | .error _ => (p.requests s).length ≤ 2 * s.length + 1)

theorem requests_bind {α β : Type} (p : Prog α) (f : α → Prog β) (s : Bytes) :
    (p >>= f).requests s = p.requests s ++ (match p.run s with
      | .ok (a, r) => (f a).requests r
      | .error _ => []) := by
  induction p generalizing s with
  | ret a => rfl
  | fail e => rfl
  | read k c ih =>
    show Prog.requests (.read k fun bs => (c bs).bind f) s = _
    simp only [Prog.requests, Prog.run]
    split
    · rfl
    · have := ih (s.take k) (s.drop k)
      change ((c (s.take k)).bind f).requests (s.drop k) = _ at this
      rw [this]; rfl

theorem Modest.bind {α β : Type} {Q : Nat → Prop} {p : Prog α} {f : α → Prog β} (h : Modest Q p) (h' : ∀ a, Modest Q (f a)) :
    Modest Q (p >>= f) := by
  intro s
  obtain ⟨h1, h2⟩ := h s
  rw [requests_bind, run_bind]
  cases hp : p.run s with
  | error e =>
    rw [hp] at h2
    simpa using ⟨h1, h2⟩
  | ok x =>
    obtain ⟨a, r⟩ := x
    rw [hp] at h2
    obtain ⟨h3, h4⟩ := h' a r
    refine ⟨?_, ?_⟩
    · intro k hk
      rcases List.mem_append.mp hk with hk | hk
      · exact h1 k hk
      · exact h3 k hk
    · simp only [List.length_append]
      simp only at h2
      cases hf : (f a).run r with
      | error e => rw [hf] at h4; simp only at h4 ⊢; omega
      | ok y => rw [hf] at h4; simp only at h4 ⊢; omega

theorem Modest.ret {α : Type} {Q : Nat → Prop} (a : α) : Modest Q (Prog.ret a) := by
  intro s; simp [Prog.requests]

theorem Modest.fail {α : Type} {Q : Nat → Prop} (e : Err) : Modest Q (Prog.fail e : Prog α) := by
  intro s; simp [Prog.requests]

theorem Modest.readExact {Q : Nat → Prop} {k : Nat} (hk : 0 < k) (hm : Q k) : Modest Q (readExact k) := by
  intro s
  rw [run_readExact]
  simp only [Prog.readExact, Prog.requests]
  split
  · simp [hm]
  · simp [hm]; omega

theorem Modest.readU8 {Q : Nat → Prop} (hm : Q 1) : Modest Q readU8 := by
  intro s
  cases s with
  | nil => simp [BinProt.readU8, Prog.requests, Prog.run, hm]
  | cons b s => simp [BinProt.readU8, Prog.requests, Prog.run, hm]; omega

theorem Modest.uint {Q : Nat → Prop} {k : Nat} (hk : 0 < k) (hm : Q k) : Modest Q (readUintLE k) :=
  (Modest.readExact hk hm).bind fun _ => .ret _

theorem Modest.sint {Q : Nat → Prop} {k : Nat} (hk : 0 < k) (hm : Q k) : Modest Q (readIntLE k) :=
  (Modest.readExact hk hm).bind fun _ => .ret _

theorem Modest.fromPrimitive {Q : Nat → Prop} (t : IntTy) (v : Int) : Modest Q (fromPrimitive t v) := by
  unfold BinProt.fromPrimitive; split
  · exact .ret _
  · exact .fail _

theorem Modest.integer {Q : Nat → Prop} (hm : ∀ k ≤ 8, Q k) (t : IntTy) : Modest Q (binReadInteger t) := by
  unfold binReadInteger
  refine (Modest.readU8 (hm _ (by omega))).bind fun b => ?_
  split
  · exact (Modest.sint (by omega) (hm _ (by omega))).bind fun _ => .fromPrimitive _ _
  split
  · exact (Modest.sint (by omega) (hm _ (by omega))).bind fun _ => .fromPrimitive _ _
  split
  · exact (Modest.sint (by omega) (hm _ (by omega))).bind fun _ => .fromPrimitive _ _
  split
  · exact (Modest.sint (by omega) (hm _ (by omega))).bind fun _ => .fromPrimitive _ _
  split
  · exact .fail _
  · exact .fromPrimitive _ _

theorem Modest.nat0 {Q : Nat → Prop} (hm : ∀ k ≤ 8, Q k) (t : IntTy) : Modest Q (binReadNat0 t) := by
  unfold binReadNat0
  refine (Modest.readU8 (hm _ (by omega))).bind fun b => ?_
  split
  · exact (Modest.uint (by omega) (hm _ (by omega))).bind fun _ => .fromPrimitive _ _
  split
  · exact (Modest.uint (by omega) (hm _ (by omega))).bind fun _ => .fromPrimitive _ _
  split
  · exact (Modest.uint (by omega) (hm _ (by omega))).bind fun _ => .fromPrimitive _ _
  split
  · exact .fail _
  · exact .fromPrimitive _ _

theorem Modest.len {Q : Nat → Prop} (hm : ∀ k ≤ 8, Q k) : Modest Q binReadLen :=
  (Modest.nat0 hm _).bind fun _ => .ret _

/-- On success the program leaves one request to spare. -/
def Thrifty {α : Type} (p : Prog α) : Prop :=
  ∀ s a r, p.run s = .ok (a, r) → (p.requests s).length + 1 + 2 * r.length ≤ 2 * s.length

theorem Thrifty.bind {α β : Type} {Q : Nat → Prop} {p : Prog α} {f : α → Prog β} (h : Thrifty p) (h' : ∀ a, Modest Q (f a)) :
    Thrifty (p >>= f) := by
  intro s b r hr
  rw [requests_bind]
  obtain ⟨a, r', h1, h2⟩ := (run_bind_ok_iff _ _ _ _ _).mp hr
  have := h s a r' h1
  have := (h' a r').2
  rw [h2] at this
  simp only at this
  rw [h1]
  simp only [List.length_append]
  omega

theorem Thrifty.readU8 : Thrifty readU8 := by
  intro s a r h
  cases s with
  | nil => cases h
  | cons b s =>
    have : r = s := by
      have : a = b ∧ r = s := by simpa using h.symm
      exact this.2
    subst this
    simp [BinProt.readU8, Prog.requests]; omega

theorem Thrifty.len : Thrifty binReadLen := by
  refine Thrifty.bind (Q := fun _ => True) ?_ fun _ => .ret _
  unfold binReadNat0
  refine Thrifty.bind (Q := fun _ => True) Thrifty.readU8 fun b => ?_
  split
  · exact (Modest.uint (by omega) trivial).bind fun _ => .fromPrimitive _ _
  split
  · exact (Modest.uint (by omega) trivial).bind fun _ => .fromPrimitive _ _
  split
  · exact (Modest.uint (by omega) trivial).bind fun _ => .fromPrimitive _ _
  split
  · exact .fail _
  · exact .fromPrimitive _ _

theorem Modest.string {Q : Nat → Prop} (hm : ∀ k, Q k) : Modest Q binReadString := by
  intro s
  refine ⟨fun k _ => hm k, ?_⟩
  have h0 := (Modest.len (Q := Q) (fun k _ => hm k) s).2
  unfold binReadString
  rw [requests_bind, run_bind]
  cases h : binReadLen.run s with
  | error e => rw [h] at h0; simpa using h0
  | ok x =>
    obtain ⟨n, r⟩ := x
    have ht := Thrifty.len s n r h
    rw [h] at h0
    simp only
    by_cases hc : n < 2 ^ 63
    · rw [show claim n = Prog.ret () from if_pos hc,
        show ∀ (f : Unit → Prog String), (Prog.ret () >>= f) = f () from fun _ => rfl]
      rw [requests_bind, run_bind, run_readExact]
      have hq : ((Prog.readExact n).requests r).length = 1 := by
        simp only [Prog.readExact, Prog.requests]
        split <;> rfl
      by_cases hn : r.length < n
      · simp only [if_pos hn, List.length_append, hq, List.length_nil]
        omega
      · simp only [if_neg hn, List.length_append, hq]
        cases String.fromUTF8? ⟨(r.take n).toArray⟩ with
        | some v => simp [Prog.requests]; omega
        | none => simp [Prog.requests]; omega
    · rw [show claim n = Prog.fail (.panic "capacity overflow") from if_neg hc,
        show ∀ (f : Unit → Prog String), ((Prog.fail (.panic "capacity overflow") : Prog Unit) >>= f) = .fail (.panic "capacity overflow")
          from fun _ => rfl]
      simp [Prog.requests]
      omega

theorem Modest.bool {Q : Nat → Prop} (hm : ∀ k ≤ 8, Q k) : Modest Q binReadBool := by
  unfold binReadBool
  refine (Modest.readU8 (hm _ (by omega))).bind fun b => ?_
  split
  · exact .ret _
  · split
    · exact .ret _
    · exact .fail _

theorem Modest.decodeN {α : Type} {Q : Nat → Prop} {p : Prog α} (h : Modest Q p) (n : Nat) : Modest Q (decodeN p n) := by
  induction n with
  | zero => exact .ret _
  | succ n ih => exact h.bind fun _ => ih.bind fun _ => .ret _

mutual
theorem decode_modest {Q : Nat → Prop} (hm : ∀ k ≤ 8, Q k) : (t : Ty) → (∀ k, Q k) ∨ StringFree t = true → Modest Q (decode t)
  | .unit, _ => by
    unfold decode binReadUnit
    refine (Modest.readU8 (hm _ (by omega))).bind fun b => ?_
    split
    · exact .ret _
    · exact .fail _
  | .bool, _ => by
    unfold decode; exact .bool hm
  | .u8, _ => by unfold decode; exact .readU8 (hm _ (by omega))
  | .int k, _ => by
    unfold decode
    refine (Modest.integer hm _).bind fun v => ?_
    split
    · exact .ret _
    · exact .fail _
  | .f32, _ => by unfold decode; exact (Modest.uint (by omega) (hm _ (by omega))).bind fun _ => .ret _
  | .f64, _ => by unfold decode; exact (Modest.uint (by omega) (hm _ (by omega))).bind fun _ => .ret _
  | .char, _ => by unfold decode; exact (Modest.readU8 (hm _ (by omega))).bind fun _ => .ret _
  | .string, h => by
    unfold decode; exact .string (h.resolve_right (by simp [StringFree]))
  | .option t, h => by
    simp only [StringFree] at h
    unfold decode
    refine (Modest.bool hm).bind fun b => ?_
    split
    · exact (decode_modest hm t h).bind fun _ => .ret _
    · exact .ret _
  | .newtype t, h => by
    simp only [StringFree] at h
    unfold decode; exact decode_modest hm t h
  | .seq t, h => by
    simp only [StringFree] at h
    unfold decode; exact (Modest.len hm).bind fun n => (decode_modest hm t h).decodeN n
  | .tuple ts, h => by
    simp only [StringFree] at h
    unfold decode; exact decodeProd_modest hm ts h
  | .struct ts, h => by
    simp only [StringFree] at h
    unfold decode; exact decodeProd_modest hm ts h
  | .enum vs, h => by
    simp only [StringFree] at h
    unfold decode; exact (Modest.readU8 (hm _ (by omega))).bind fun b => decodeSum_modest hm vs h _
  | .polyvar vs, h => by
    simp only [StringFree] at h
    unfold decode
    refine Modest.bind ((Modest.uint (by omega) (hm _ (by omega))).bind fun _ => .ret _) fun b => ?_
    split
    · exact decodeSum_modest hm vs h _
    · exact .fail _
theorem decodeProd_modest {Q : Nat → Prop} (hm : ∀ k ≤ 8, Q k) : (ts : Tys) → (∀ k, Q k) ∨ StringFreeAll ts = true →
    Modest Q (decodeProd ts)
  | .nil, _ => .ret _
  | .cons _ t ts, h => by
    simp only [StringFreeAll, Bool.and_eq_true] at h
    unfold decodeProd
    exact (decode_modest hm t (h.imp_right (·.1))).bind fun _ =>
      (decodeProd_modest hm ts (h.imp_right (·.2))).bind fun _ => .ret _
theorem decodeSum_modest {Q : Nat → Prop} (hm : ∀ k ≤ 8, Q k) : (vs : Tys) → (∀ k, Q k) ∨ StringFreeAll vs = true → (i : Nat) →
    Modest Q (decodeSum vs i)
  | .nil, _, _ => by unfold decodeSum; exact .fail _
  | .cons _ t _, h, 0 => by
    simp only [StringFreeAll, Bool.and_eq_true] at h
    unfold decodeSum
    exact (decode_modest hm t (h.imp_right (·.1))).bind fun _ => .ret _
  | .cons _ _ ts, h, i + 1 => by
    simp only [StringFreeAll, Bool.and_eq_true] at h
    unfold decodeSum
    exact (decodeSum_modest hm ts (h.imp_right (·.2)) i).bind fun _ => .ret _
end

end MinaRs.BinProt
