import Verif.Hash.LayoutSpec
import Verif.Hash.NoPanicProps
import Verif.Hash.ROProps
/-!
# Lemmas for C97: from hash inputs to tables
-/

namespace MinaRs.Hash

open Chunked Spec Layout

/-! ## Tables -/

theorem fieldsOf_append (a b : List Entry) : fieldsOf (a ++ b) = fieldsOf a ++ fieldsOf b := by
  induction a with
  | nil => rfl
  | cons e a ih => cases e <;> simp [fieldsOf, ih]

theorem numsOf_append (a b : List Entry) : numsOf (a ++ b) = numsOf a ++ numsOf b := by
  induction a with
  | nil => rfl
  | cons e a ih => cases e <;> simp [numsOf, ih]

theorem bitsOf_append (a b : List Entry) : bitsOf (a ++ b) = bitsOf a ++ bitsOf b := by
  induction a with
  | nil => rfl
  | cons e a ih => cases e <;> simp [bitsOf, ih]

/-- A hash input holds the values of a table. -/
def Laid (x : M Chunked) (es : List Entry) : Prop :=
  ∃ c, x = .ok c ∧ c.fields.map Fin.val = fieldsOf es ∧ c.packed.map (fun q => (q.1.val, q.2)) = numsOf es

theorem Laid.cast {x : M Chunked} {es fs : List Entry} (h : Laid x es) (e : es = fs) : Laid x fs := e ▸ h

theorem Laid.nil : Laid (build []) [] := ⟨_, rfl, rfl, rfl⟩

theorem Laid.cons {x : M Chunked} {xs : List (M Chunked)} {es fs : List Entry} (h1 : Laid x es)
    (h2 : Laid (build xs) fs) : Laid (build (x :: xs)) (es ++ fs) := by
  obtain ⟨c, rfl, a1, a2⟩ := h1
  obtain ⟨d, e, b1, b2⟩ := h2
  refine ⟨c.append d, by rw [build_cons_ok, e]; rfl, ?_, ?_⟩
  · simp [append, a1, b1, fieldsOf_append]
  · simp [append, a2, b2, numsOf_append]

theorem Laid.append {xs ys : List (M Chunked)} {es fs : List Entry} (h1 : Laid (build xs) es)
    (h2 : Laid (build ys) fs) : Laid (build (xs ++ ys)) (es ++ fs) := by
  obtain ⟨c, h, a1, a2⟩ := h1
  obtain ⟨cs, rfl, rfl⟩ := build_eq_ok.1 h
  obtain ⟨d, h, b1, b2⟩ := h2
  obtain ⟨ds, rfl, rfl⟩ := build_eq_ok.1 h
  refine ⟨_, by rw [← List.map_append]; exact build_ok _, ?_, ?_⟩
  · simp only [List.flatMap_append, List.map_append, fieldsOf_append]; rw [← a1, ← b1]
  · simp only [List.flatMap_append, List.map_append, numsOf_append]; rw [← a2, ← b2]

theorem Laid.map {α : Type} {f : α → M Chunked} {g : α → Entry} (h : ∀ a, Laid (f a) [g a]) (l : List α) :
    Laid (build (l.map f)) (l.map g) := by
  induction l with
  | nil => exact Laid.nil
  | cons a l ih => exact Laid.cons (h a) ih

theorem laid_field (f : Fp) : Laid (.ok (Chunked.field f)) [.field f.val] := ⟨_, rfl, rfl, rfl⟩
theorem laid_piece (f : Fp) (n : Nat) : Laid (.ok (piece f n)) [.num f.val n] := ⟨_, rfl, rfl, rfl⟩

theorem laid_bool (b : Bool) : Laid (Chunked.bool b) [bit b] := by
  rw [bool_eq]; cases b <;> exact ⟨_, rfl, rfl, rfl⟩

theorem laid_u32 (x : UInt32) : Laid (Chunked.u32 x) [Layout.u32 x] := by
  rw [u32_eq]; exact ⟨_, rfl, rfl, rfl⟩

theorem laid_u64 (x : UInt64) : Laid (Chunked.u64 x) [Layout.u64 x] := by
  rw [u64_eq]; exact ⟨_, rfl, rfl, rfl⟩

theorem laid_b32 {h : B32} (hf : IsField h) : Laid h.chunked [Layout.hash h] := by
  obtain ⟨c, e⟩ := runs_b32.2 hf
  obtain ⟨f, hv, rfl⟩ := b32_chunked_eq_ok.1 e
  exact ⟨_, e, by simp [Chunked.field, fieldsOf, Layout.hash, hv], rfl⟩

theorem laid_key (k : PubKey) : Laid k.chunked (key k) :=
  Laid.cons (laid_field k.x) (Laid.cons (laid_bool k.isOdd) Laid.nil)

theorem laid_tokenId (t : UInt64) : Laid (tokenIdChunked t) [.field t.toNat] := by
  refine ⟨_, rfl, ?_, rfl⟩
  simp only [Chunked.field, List.map_cons, List.map_nil, fieldsOf, Fin.ofNat]
  rw [Nat.mod_eq_of_lt (lt_p_of_lt (Nat.lt_trans t.toNat_lt (by decide)))]

/-! ## Bits -/

theorem range_bits (l : List Bool) (n : Nat) (h : bitsNat l = n % 2 ^ l.length) :
    l = (List.range l.length).map n.testBit :=
  bitsNat_inj (by simp) (by rw [h, bitsNat_testBits])

theorem bytesBits_eq (bs : Bytes) : bytesBits bs = (List.range (8 * bs.length)).map (leNat bs).testBit := by
  have h := range_bits (bytesBits bs) (leNat bs) (by
    rw [bitsNat_bytesBits, bytesBits_length, Nat.mod_eq_of_lt]
    have := leNat_lt bs
    rwa [show (256 : Nat) = 2 ^ 8 from rfl, ← Nat.pow_mul] at this)
  rwa [bytesBits_length] at h

theorem leNat_append (a b : Bytes) : leNat (a ++ b) = leNat a + 2 ^ (8 * a.length) * leNat b := by
  rw [← bitsNat_bytesBits, ← bitsNat_bytesBits, ← bitsNat_bytesBits,
    show bytesBits (a ++ b) = bytesBits a ++ bytesBits b by simp [bytesBits], bitsNat_append, bytesBits_length]

theorem vrfBits_eq_range (v : Bytes) :
    vrfBits v = (List.range (min (8 * v.length) 253)).map (leNat v).testBit := by
  by_cases h : v.length ≤ 31
  · rw [vrfBits, if_pos h, Nat.min_eq_left (by omega), bytesBits_eq]
  · have hl := vrfBits_length v
    rw [if_neg h] at hl
    have h' : 31 < v.length := by omega
    rw [Nat.min_eq_right (by omega), ← hl]
    apply range_bits
    rw [hl]
    have split : v = v.take 31 ++ (v.getD 31 0 :: v.drop 32) := by
      rw [List.getD_eq_getElem?_getD, List.getElem?_eq_getElem h', Option.getD_some, ← List.drop_eq_getElem_cons h',
        List.take_append_drop]
    rw [vrfBits, if_neg h, bitsNat_append, bitsNat_bytesBits, bytesBits_length, bitsNat_lowFive]
    have l31 : (v.take 31).length = 31 := by simp; omega
    conv => rhs; rw [split]
    rw [leNat_append, l31, leNat]
    have h1 := leNat_lt (v.take 31)
    rw [l31, show (256 : Nat) ^ 31 = 2 ^ 248 by decide] at h1
    have : 2 ^ 253 = 2 ^ (8 * 31) * 2 ^ 5 := by decide
    rw [this, Nat.mod_mul, Nat.add_mul_mod_self_left, Nat.mod_eq_of_lt (show leNat (v.take 31) < 2 ^ (8 * 31) from h1)]
    congr 2
    rw [Nat.add_mul_div_left _ _ (by decide), Nat.div_eq_of_lt (show leNat (v.take 31) < 2 ^ (8 * 31) from h1)]
    omega

theorem testBit_toNat (n i : Nat) : (n.testBit i).toNat = n / 2 ^ i % 2 := by
  rw [Nat.testBit_eq_decide_div_mod_eq]
  have := Nat.mod_lt (n / 2 ^ i) (show 0 < 2 by decide)
  by_cases h : n / 2 ^ i % 2 = 1
  · simp [h]
  · simp [h]; omega

theorem laid_bits (l : List Bool) (n w : Nat) (h : l = (List.range w).map n.testBit) :
    Laid (build (l.map Chunked.bool)) (bits n w) := by
  subst h
  rw [List.map_map]
  refine Laid.map (fun i => ?_) _
  have := laid_bool (n.testBit i)
  rwa [bit, testBit_toNat] at this

theorem laid_bytes (bs : Bytes) : Laid (Chunked.bytes bs) (Layout.bytes bs) := laid_bits _ _ _ (bytesBits_eq bs)

theorem laid_vrf (v : Bytes) : Laid (vrfChunked v) (bits (leNat v) (min (8 * v.length) 253)) :=
  laid_bits _ _ _ (vrfBits_eq_range v)

/-! ## Packing -/

/-- Pieces as pairs of numbers. -/
def nums (ps : List (Fp × Nat)) : List (Nat × Nat) := ps.map fun q => (q.1.val, q.2)

theorem width_nums (ps : List (Fp × Nat)) : Layout.width (nums ps) = Spec.width ps := by
  induction ps with
  | nil => rfl
  | cons q ps ih =>
    show q.2 + Layout.width (nums ps) = _
    rw [ih]; simp [Spec.width]

theorem concat_nums (ps : List (Fp × Nat)) : Layout.concat (nums ps) = Spec.concat ps := by
  induction ps with
  | nil => rfl
  | cons q ps ih =>
    show q.1.val * 2 ^ Layout.width (nums ps) + Layout.concat (nums ps) = _
    rw [ih, width_nums]; rfl

theorem firstWidth_nums (ps : List (Fp × Nat)) : Layout.firstWidth (nums ps) = Spec.firstWidth ps := by
  cases ps <;> rfl

theorem nums_ne {ps : List (Fp × Nat)} : nums ps ≠ [] ↔ ps ≠ [] := by simp [nums]

theorem greedy_nums : ∀ gs : List (List (Fp × Nat)), Spec.Greedy gs → Layout.Greedy (gs.map nums)
  | [], _ => trivial
  | [g], h => ⟨nums_ne.2 h.1, by rw [width_nums]; exact h.2⟩
  | g :: h :: gs, ⟨h1, h2, h3, h4⟩ =>
    ⟨nums_ne.2 h1, by rw [width_nums]; exact h2, by rw [width_nums, firstWidth_nums]; exact h3, greedy_nums (h :: gs) h4⟩

/-- Every number of a table fits its width, which is between 1 and 254. -/
def ProperT (es : List Entry) : Prop := ∀ q ∈ numsOf es, q.1 < 2 ^ q.2 ∧ 1 ≤ q.2 ∧ q.2 ≤ 254

theorem Laid.packed {x : M Chunked} {es : List Entry} (h : Laid x es) (hp : ProperT es) :
    ∃ r, packFields x = .ok r ∧ Packed es r := by
  obtain ⟨c, rfl, h1, h2⟩ := h
  have proper : Proper c := by
    intro q hq
    exact hp (q.1.val, q.2) (by rw [← h2]; exact List.mem_map.2 ⟨q, hq, rfl⟩)
  obtain ⟨gs, r, g1, g2, g3, g4⟩ := C52_layout c proper
  refine ⟨c.fields ++ r, g3, gs.map nums, ?_, greedy_nums gs g2, ?_⟩
  · rw [← h2, ← g1]; simp [nums, List.map_flatten]
    rfl
  · rw [List.map_append, h1, g4, List.map_map]
    congr 1
    exact List.map_congr_left fun g _ => (concat_nums g).symm

theorem properT_append {a b : List Entry} (ha : ProperT a) (hb : ProperT b) : ProperT (a ++ b) := by
  intro q hq
  rw [numsOf_append] at hq
  exact (List.mem_append.1 hq).elim (ha q) (hb q)

theorem properT_nil : ProperT [] := fun _ h => nomatch h

theorem properT_field {n : Nat} {es : List Entry} (h : ProperT es) : ProperT (.field n :: es) := h

theorem properT_num {n w : Nat} {es : List Entry} (h1 : n < 2 ^ w ∧ 1 ≤ w ∧ w ≤ 254) (h : ProperT es) :
    ProperT (.num n w :: es) := by
  intro q hq
  rcases List.mem_cons.1 hq with rfl | hq
  · exact h1
  · exact h q hq

theorem properT_hash {x : B32} {es : List Entry} (h : ProperT es) : ProperT (Layout.hash x :: es) := h

theorem properT_bit {b : Bool} {es : List Entry} (h : ProperT es) : ProperT (bit b :: es) :=
  properT_num (by cases b <;> decide) h

theorem properT_u32 {x : UInt32} {es : List Entry} (h : ProperT es) : ProperT (Layout.u32 x :: es) :=
  properT_num ⟨x.toNat_lt, by decide, by decide⟩ h

theorem properT_u64 {x : UInt64} {es : List Entry} (h : ProperT es) : ProperT (Layout.u64 x :: es) :=
  properT_num ⟨x.toNat_lt, by decide, by decide⟩ h

theorem properT_map {α : Type} {g : α → Entry} (h : ∀ a, ProperT [g a]) (l : List α) : ProperT (l.map g) := by
  induction l with
  | nil => exact properT_nil
  | cons a l ih => exact properT_append (h a) ih

theorem properT_bits (n w : Nat) : ProperT (bits n w) :=
  properT_map (g := fun i => .num (n / 2 ^ i % 2) 1)
    (fun _ => properT_num ⟨Nat.mod_lt _ (by decide), by decide, by decide⟩ properT_nil) _

theorem properT_bytes (bs : Bytes) : ProperT (Layout.bytes bs) := properT_bits _ _

theorem properT_key (k : PubKey) : ProperT (key k) := properT_field (properT_bit properT_nil)

/-! ## The packing is determined by the table -/

theorem lwidth_append (a b : List (Nat × Nat)) : Layout.width (a ++ b) = Layout.width a + Layout.width b := by
  induction a with
  | nil => simp [Layout.width]
  | cons q a ih => obtain ⟨n, w⟩ := q; simp [Layout.width, ih]; omega

theorem Greedy.tail {g : List (Nat × Nat)} {gs : List (List (Nat × Nat))} (h : Layout.Greedy (g :: gs)) :
    g ≠ [] ∧ Layout.width g ≤ 254 ∧ Layout.Greedy gs := by
  cases gs with
  | nil => exact ⟨h.1, h.2, trivial⟩
  | cons k gs => exact ⟨h.1, h.2.1, h.2.2.2⟩

/-- A greedy group cannot be extended. -/
theorem greedy_maximal {g t : List (Nat × Nat)} {gs : List (List (Nat × Nat))} (h : Layout.Greedy (g :: gs))
    (ht : t ≠ []) (hp : ∃ u, t ++ u = gs.flatten) : 254 < Layout.width (g ++ t) := by
  obtain ⟨u, hu⟩ := hp
  cases gs with
  | nil => simp at hu; exact absurd hu.1 ht
  | cons k gs =>
    obtain ⟨_, _, h3, h4⟩ := h
    have hk := (Greedy.tail h4).1
    cases t with
    | nil => exact absurd rfl ht
    | cons q t =>
      cases k with
      | nil => exact absurd rfl hk
      | cons q' k =>
        obtain ⟨n, w⟩ := q
        simp only [List.cons_append, List.flatten_cons, List.cons.injEq] at hu
        obtain ⟨rfl, _⟩ := hu
        rw [lwidth_append]
        simp only [Layout.firstWidth] at h3
        simp only [Layout.width]; omega

theorem greedy_unique : ∀ gs hs : List (List (Nat × Nat)), Layout.Greedy gs → Layout.Greedy hs →
    gs.flatten = hs.flatten → gs = hs
  | [], [], _, _, _ => rfl
  | [], h :: hs, _, b, e => by
    have := (Greedy.tail b).1
    simp at e; exact absurd e.1 this
  | g :: gs, [], a, _, e => by
    have := (Greedy.tail a).1
    simp at e; exact absurd e.1 this
  | g :: gs, h :: hs, a, b, e => by
    obtain ⟨a1, a2, a3⟩ := Greedy.tail a
    obtain ⟨b1, b2, b3⟩ := Greedy.tail b
    simp only [List.flatten_cons] at e
    have key : g = h ∧ gs.flatten = hs.flatten := by
      rcases List.append_eq_append_iff.1 e with ⟨t, h1, h2⟩ | ⟨t, h1, h2⟩
      · by_cases ht : t = []
        · subst ht; simp at h1 h2; exact ⟨h1.symm, h2⟩
        · exact absurd (greedy_maximal a ht ⟨_, h2.symm⟩) (by rw [← h1]; omega)
      · by_cases ht : t = []
        · subst ht; simp at h1 h2; exact ⟨h1, h2.symm⟩
        · exact absurd (greedy_maximal b ht ⟨_, h2.symm⟩) (by rw [← h1]; omega)
    obtain ⟨rfl, e'⟩ := key
    rw [greedy_unique gs hs a3 b3 e']

/-! ## Mainnet inputs -/

/-- A mainnet hash input holds the values of a table. -/
def LaidL (x : M Legacy) (es : List Entry) : Prop :=
  ∃ c, x = .ok c ∧ c.fields.map Fin.val = fieldsOf es ∧ c.bits = bitsOf es

theorem LaidL.cast {x : M Legacy} {es fs : List Entry} (h : LaidL x es) (e : es = fs) : LaidL x fs := e ▸ h

theorem LaidL.nil : LaidL (buildL []) [] := ⟨_, rfl, rfl, rfl⟩

theorem LaidL.cons {x : M Legacy} {xs : List (M Legacy)} {es fs : List Entry} (h1 : LaidL x es)
    (h2 : LaidL (buildL xs) fs) : LaidL (buildL (x :: xs)) (es ++ fs) := by
  obtain ⟨c, rfl, a1, a2⟩ := h1
  obtain ⟨d, e, b1, b2⟩ := h2
  refine ⟨c.append d, ?_, ?_, ?_⟩
  · show (buildL xs >>= fun b => pure (c.append b)) = _
    rw [e]; rfl
  · simp [Legacy.append, a1, b1, fieldsOf_append]
  · simp [Legacy.append, a2, b2, bitsOf_append]

theorem LaidL.append {xs ys : List (M Legacy)} {es fs : List Entry} (h1 : LaidL (buildL xs) es)
    (h2 : LaidL (buildL ys) fs) : LaidL (buildL (xs ++ ys)) (es ++ fs) := by
  induction xs generalizing es with
  | nil =>
    obtain ⟨c, h, a1, a2⟩ := h1
    cases Except.ok.inj h
    obtain ⟨d, e, b1, b2⟩ := h2
    refine ⟨d, e, ?_, ?_⟩
    · rw [fieldsOf_append, ← a1, b1]; rfl
    · rw [bitsOf_append, ← a2, b2]; rfl
  | cons x xs ih =>
    obtain ⟨c, h, a1, a2⟩ := h1
    obtain ⟨a, b, e1, e2, rfl⟩ := buildL_split h
    obtain ⟨d, e, b1, b2⟩ := h2
    have hb : ∀ b' : Legacy, buildL (xs ++ ys) = .ok b' → buildL ((x :: xs) ++ ys) = .ok (a.append b') := by
      intro b' hb'
      subst e1
      show (buildL (xs ++ ys) >>= fun b => pure (a.append b)) = _
      rw [hb']; rfl
    have key : ∀ (zs : List (M Legacy)) (b : Legacy), buildL zs = .ok b → buildL (zs ++ ys) = .ok (b.append d) := by
      intro zs
      induction zs with
      | nil => intro b hb; cases Except.ok.inj hb; exact e
      | cons z zs ihz =>
        intro b hb
        obtain ⟨u, v, rfl, hv, rfl⟩ := buildL_split hb
        show (buildL (zs ++ ys) >>= fun b => pure (u.append b)) = _
        rw [ihz v hv]
        show Except.ok _ = _
        simp [Legacy.append, List.append_assoc]
    refine ⟨_, hb _ (key xs b e2), ?_, ?_⟩
    · rw [fieldsOf_append, ← a1, ← b1]; simp [Legacy.append]
    · rw [bitsOf_append, ← a2, ← b2]; simp [Legacy.append]

theorem LaidL.map {α : Type} {f : α → M Legacy} {g : α → Entry} (h : ∀ a, LaidL (f a) [g a]) (l : List α) :
    LaidL (buildL (l.map f)) (l.map g) := by
  induction l with
  | nil => exact LaidL.nil
  | cons a l ih => exact LaidL.cons (h a) ih

theorem laidL_field (f : Fp) : LaidL (.ok (Legacy.field f)) [.field f.val] := ⟨_, rfl, rfl, rfl⟩

theorem laidL_bool (b : Bool) : LaidL (.ok (Legacy.bool b)) [bit b] :=
  ⟨_, rfl, rfl, by cases b <;> rfl⟩

theorem bitsOf_bits (n w : Nat) : bitsOf (bits n w) = (List.range w).map n.testBit := by
  unfold bits
  induction List.range w with
  | nil => rfl
  | cons i l ih =>
    simp only [List.map_cons, bitsOf, ih]
    have : (List.range 1).map (Nat.testBit (n / 2 ^ i % 2)) = [n.testBit i] := by
      rw [← testBit_toNat]
      cases n.testBit i <;> decide
    rw [this]; rfl

theorem fieldsOf_bits (n w : Nat) : fieldsOf (bits n w) = [] := by
  unfold bits
  induction List.range w with
  | nil => rfl
  | cons i l ih => simpa only [List.map_cons, fieldsOf] using ih

theorem laidL_bytes (bs : Bytes) : LaidL (.ok (Legacy.bytes bs)) (Layout.bytes bs) :=
  ⟨_, rfl, (fieldsOf_bits _ _).symm, by
    show bytesBits bs = _
    rw [Layout.bytes, bitsOf_bits, bytesBits_eq]⟩

theorem laidL_vrf (v : Bytes) : LaidL (.ok (vrfLegacy v)) (bits (leNat v) (min (8 * v.length) 253)) :=
  ⟨_, rfl, (fieldsOf_bits _ _).symm, by
    show vrfBits v = _
    rw [bitsOf_bits, vrfBits_eq_range]⟩

theorem laidL_le (k : Nat) (n : Nat) (h : n < 2 ^ (8 * k)) : LaidL (.ok (Legacy.bytes (leBytes k n))) [.num n (8 * k)] := by
  refine ⟨_, rfl, rfl, ?_⟩
  show bytesBits (leBytes k n) = _ ++ []
  rw [bytesBits_eq, List.append_nil, leBytes_length, leNat_leBytes, Nat.mod_eq_of_lt]
  rwa [show (256 : Nat) = 2 ^ 8 from rfl, ← Nat.pow_mul]

theorem laidL_u32 (x : UInt32) : LaidL (.ok (Legacy.u32 x)) [Layout.u32 x] := laidL_le 4 _ x.toNat_lt
theorem laidL_u64 (x : UInt64) : LaidL (.ok (Legacy.u64 x)) [Layout.u64 x] := laidL_le 8 _ x.toNat_lt

theorem laidL_b32 {h : B32} (hf : IsField h) : LaidL h.legacy [Layout.hash h] := by
  have e := b32_legacy_eq_ok.2 ⟨⟨_, hf⟩, rfl, rfl⟩
  exact ⟨_, e, rfl, rfl⟩

theorem value_eq (l : List Bool) : value l = bitsNat l := by
  induction l with
  | nil => rfl
  | cons b l ih => simp [value, bitsNat, ih]

theorem chunks_values (l : List Bool) : (Legacy.chunks254 l).map (fun c => bitsNat (c.take 254)) =
    (List.range ((l.length + 253) / 254)).map fun i => value ((l.drop (254 * i)).take 254) := by
  induction l using Legacy.chunks254.induct with
  | case1 => simp [Legacy.chunks254_nil]
  | case2 l hne ih =>
    have hpos : 0 < l.length := List.length_pos_iff.2 hne
    rw [Legacy.chunks254_ne hne, List.map_cons, ih]
    have hn : (l.length + 253) / 254 = ((l.drop 254).length + 253) / 254 + 1 := by
      simp only [List.length_drop]; omega
    rw [hn, List.range_succ_eq_map, List.map_cons, List.map_map]
    congr 1
    · simp [value_eq, List.take_take]
    · refine List.map_congr_left fun i _ => ?_
      simp only [Function.comp_apply, List.drop_drop]
      congr 3
      omega

theorem LaidL.packed {c : Legacy} {es : List Entry} (h1 : c.fields.map Fin.val = fieldsOf es)
    (h2 : c.bits = bitsOf es) : PackedLegacy es c.toFields := by
  unfold PackedLegacy Legacy.toFields
  rw [List.map_append, h1, ← h2, ← chunks_values, List.map_map]
  rfl

end MinaRs.Hash
