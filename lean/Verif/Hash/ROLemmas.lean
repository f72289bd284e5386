import Verif.Hash.RO
/-!
# Lemmas about random-oracle inputs
-/

namespace MinaRs.Hash

/-! ## Bits and bytes -/

theorem bitsNat_append (a b : List Bool) : bitsNat (a ++ b) = bitsNat a + 2 ^ a.length * bitsNat b := by
  induction a with
  | nil => simp [bitsNat]
  | cons x xs ih =>
    simp only [List.cons_append, bitsNat, ih, List.length_cons, Nat.pow_succ]
    rw [Nat.mul_add, Nat.mul_comm (2 ^ xs.length) 2, Nat.mul_assoc]; omega

@[simp] theorem byteBits_length (b : UInt8) : (byteBits b).length = 8 := by simp [byteBits]

theorem bitsNat_testBits (n k : Nat) :
    bitsNat ((List.range k).map fun i => n.testBit i) = n % 2 ^ k := by
  induction k with
  | zero => simp [bitsNat, Nat.mod_one]
  | succ k ih =>
    rw [List.range_succ, List.map_append, bitsNat_append, ih]
    simp only [List.map_cons, List.map_nil, bitsNat, List.length_map, List.length_range]
    rw [Nat.mod_pow_succ, Nat.testBit_eq_decide_div_mod_eq]
    congr 1
    have : n / 2 ^ k % 2 < 2 := Nat.mod_lt _ (by decide)
    by_cases h : n / 2 ^ k % 2 = 1
    · simp [h]
    · have h0 : n / 2 ^ k % 2 = 0 := by omega
      simp [h0]

theorem bitsNat_byteBits (b : UInt8) : bitsNat (byteBits b) = b.toNat := by
  rw [byteBits, bitsNat_testBits]
  exact Nat.mod_eq_of_lt b.toNat_lt

@[simp] theorem bytesBits_cons (b : UInt8) (bs : Bytes) : bytesBits (b :: bs) = byteBits b ++ bytesBits bs := by
  simp [bytesBits]

@[simp] theorem bytesBits_nil : bytesBits [] = [] := rfl

@[simp] theorem bytesBits_length (bs : Bytes) : (bytesBits bs).length = 8 * bs.length := by
  induction bs with
  | nil => rfl
  | cons b bs ih => simp [ih]; omega

theorem bitsNat_bytesBits (bs : Bytes) : bitsNat (bytesBits bs) = leNat bs := by
  induction bs with
  | nil => rfl
  | cons b bs ih => rw [bytesBits_cons, bitsNat_append, ih, bitsNat_byteBits]; simp [leNat]

theorem bitsNat_inj : ∀ {a b : List Bool}, a.length = b.length → bitsNat a = bitsNat b → a = b
  | [], [], _, _ => rfl
  | x :: xs, y :: ys, hl, h => by
    simp only [bitsNat] at h
    have h1 : bitsNat xs = bitsNat ys := by cases x <;> cases y <;> simp_all <;> omega
    have h2 : x = y := by cases x <;> cases y <;> simp_all
    rw [bitsNat_inj (by simpa using hl) h1, h2]

theorem leNat_inj {a b : Bytes} (hl : a.length = b.length) (h : leNat a = leNat b) : a = b := by
  rw [← leBytes_leNat a, ← leBytes_leNat b, hl, h]

theorem bytesBits_inj {a b : Bytes} (h : bytesBits a = bytesBits b) : a = b := by
  have hl : a.length = b.length := by
    have := congrArg List.length h; simp at this; omega
  apply leNat_inj hl
  rw [← bitsNat_bytesBits, ← bitsNat_bytesBits, h]

theorem byteBits_inj {a b : UInt8} (h : byteBits a = byteBits b) : a = b := by
  have := congrArg bitsNat h
  rw [bitsNat_byteBits, bitsNat_byteBits] at this
  exact UInt8.toNat_inj.1 this

/-! ## The pieces appended by the API -/

theorem lt_p_of_lt {n : Nat} (h : n < 2 ^ 254) : n < p := Nat.lt_of_lt_of_le h (by decide)

/-- A number below `2^254` as a field element. -/
def small (n : Nat) (h : n < 2 ^ 254) : Fp := ⟨n, lt_p_of_lt h⟩

theorem bitsToFp_eq {l : List Bool} (hl : l.length ≤ 254) :
    bitsToFp l = .ok ⟨bitsNat l, lt_p_of_lt (Nat.lt_of_lt_of_le (Legacy.bitsNat_lt l)
      (Nat.pow_le_pow_right (by decide) hl))⟩ := by
  unfold bitsToFp fpOfNat
  rw [if_neg (by omega), dif_pos]

/-- The piece of a boolean. -/
def boolFp (b : Bool) : Fp := ⟨b.toNat, by cases b <;> decide⟩
/-- The piece of a 32-bit number. -/
def u32Fp (x : UInt32) : Fp := ⟨x.toNat, lt_p_of_lt (Nat.lt_trans x.toNat_lt (by decide))⟩
/-- The piece of a 64-bit number. -/
def u64Fp (x : UInt64) : Fp := ⟨x.toNat, lt_p_of_lt (Nat.lt_trans x.toNat_lt (by decide))⟩

theorem boolFp_inj {a b : Bool} : boolFp a = boolFp b ↔ a = b := by
  cases a <;> cases b <;> decide

theorem u32Fp_inj {a b : UInt32} : u32Fp a = u32Fp b ↔ a = b := by
  simp [u32Fp, Fin.ext_iff, UInt32.toNat_inj]

theorem u64Fp_inj {a b : UInt64} : u64Fp a = u64Fp b ↔ a = b := by
  simp [u64Fp, Fin.ext_iff, UInt64.toNat_inj]

namespace Chunked

theorem bool_eq (b : Bool) : bool b = .ok (piece (boolFp b) 1) := by
  unfold bool
  rw [bitsToFp_eq (by simp)]
  cases b <;> rfl

theorem u32_eq (x : UInt32) : u32 x = .ok (piece (u32Fp x) 32) := by
  unfold u32
  rw [bitsToFp_eq (by simp)]
  have : bitsNat (bytesBits (leBytes 4 x.toNat)) = x.toNat := by
    rw [bitsNat_bytesBits, leNat_leBytes_of_lt]; exact x.toNat_lt
  simp only [bind, Except.bind, pure, Except.pure, this]
  rfl

theorem u64_eq (x : UInt64) : u64 x = .ok (piece (u64Fp x) 64) := by
  unfold u64
  rw [bitsToFp_eq (by simp)]
  have : bitsNat (bytesBits (leBytes 8 x.toNat)) = x.toNat := by
    rw [bitsNat_bytesBits, leNat_leBytes_of_lt]; exact x.toNat_lt
  simp only [bind, Except.bind, pure, Except.pure, this]
  rfl

@[simp] theorem build_nil : build [] = .ok new := rfl

theorem build_cons_ok (c : Chunked) (xs : List (M Chunked)) :
    build (.ok c :: xs) = (build xs).map c.append := by
  simp only [build, bind, Except.bind]
  cases build xs <;> rfl

theorem build_ok (cs : List Chunked) :
    build (cs.map .ok) = .ok ⟨cs.flatMap Chunked.fields, cs.flatMap Chunked.packed⟩ := by
  induction cs with
  | nil => rfl
  | cons c cs ih => rw [List.map_cons, build_cons_ok, ih]; rfl

/-- A chain succeeds exactly when every link does. -/
theorem build_eq_ok {xs : List (M Chunked)} {c : Chunked} :
    build xs = .ok c ↔ ∃ cs : List Chunked, xs = cs.map .ok ∧
      c = ⟨cs.flatMap Chunked.fields, cs.flatMap Chunked.packed⟩ := by
  constructor
  · intro h
    induction xs generalizing c with
    | nil => exact ⟨[], rfl, (Except.ok.inj h).symm⟩
    | cons x xs ih =>
      cases x with
      | error e => exact nomatch h
      | ok x =>
        rw [build_cons_ok] at h
        cases hb : build xs with
        | error e => rw [hb] at h; exact nomatch h
        | ok d =>
          rw [hb] at h
          obtain ⟨cs, rfl, rfl⟩ := ih hb
          exact ⟨x :: cs, rfl, (Except.ok.inj h).symm⟩
  · rintro ⟨cs, rfl, rfl⟩; exact build_ok cs

theorem bytes_eq (bs : Bytes) :
    bytes bs = .ok ⟨[], (bytesBits bs).map fun b => (boolFp b, 1)⟩ := by
  unfold bytes
  have : (bytesBits bs).map bool = ((bytesBits bs).map fun b => piece (boolFp b) 1).map .ok := by
    rw [List.map_map]; exact List.map_congr_left fun b _ => bool_eq b
  rw [this, build_ok]
  simp [List.flatMap_map, piece]
  induction bytesBits bs <;> simp_all

/-! ## Packing -/

theorem shl_eq {f : Fp} {acc n : Nat} (hf : f.val < 2 ^ acc) (hn : acc + n < 255) :
    ∃ s, shl f n = .ok s ∧ s.val = f.val * 2 ^ n := by
  unfold shl
  by_cases h0 : n = 0
  · exact ⟨f, by simp [h0], by simp [h0]⟩
  · have h1 : f.val * 2 ^ n < 2 ^ 254 :=
      calc f.val * 2 ^ n < 2 ^ acc * 2 ^ n := Nat.mul_lt_mul_of_pos_right hf (Nat.two_pow_pos n)
        _ = 2 ^ (acc + n) := by rw [Nat.pow_add]
        _ ≤ 2 ^ 254 := Nat.pow_le_pow_right (by decide) (by omega)
    have h2 : f.val * 2 ^ n % 2 ^ 256 = f.val * 2 ^ n := Nat.mod_eq_of_lt (Nat.lt_trans h1 (by decide))
    rw [if_neg h0, dif_pos (by rw [h2]; exact lt_p_of_lt h1)]
    exact ⟨_, rfl, h2⟩

/-- One step of the packing loop, inside a chunk. -/
theorem step_in {s f : Fp} {acc n : Nat} (hs : s.val < 2 ^ acc) (hf : f.val < 2 ^ n) (hn : acc + n < 255)
    (ps : List (Fp × Nat)) :
    ∃ t : Fp, packLoop acc s ((f, n) :: ps) = packLoop (acc + n) t ps ∧
      t.val = s.val * 2 ^ n + f.val ∧ t.val < 2 ^ (acc + n) := by
  obtain ⟨u, hu, hv⟩ := shl_eq hs hn
  have hlt : s.val * 2 ^ n + f.val < 2 ^ (acc + n) := by
    have : (s.val + 1) * 2 ^ n ≤ 2 ^ acc * 2 ^ n := Nat.mul_le_mul_right _ hs
    rw [Nat.pow_add]
    rw [Nat.add_mul] at this; omega
  have hp : s.val * 2 ^ n + f.val < p :=
    lt_p_of_lt (Nat.lt_of_lt_of_le hlt (Nat.pow_le_pow_right (by decide) (by omega)))
  have hval : (u + f).val = s.val * 2 ^ n + f.val := by
    rw [Fin.val_add, hv]; exact Nat.mod_eq_of_lt hp
  refine ⟨u + f, ?_, hval, by rw [hval]; exact hlt⟩
  have : ¬ 2 ^ 32 ≤ acc + n := by omega
  simp only [packLoop, if_neg this, if_pos hn, hu, bind, Except.bind]

/-- One step of the packing loop, starting a chunk. -/
theorem step_out (s f : Fp) {acc n : Nat} (hn : 255 ≤ acc + n) (ho : acc + n < 2 ^ 32)
    (ps : List (Fp × Nat)) :
    packLoop acc s ((f, n) :: ps) = (packLoop n f ps).map (s :: ·) := by
  have : ¬ 2 ^ 32 ≤ acc + n := by omega
  simp only [packLoop, if_neg this, if_neg (show ¬ acc + n < 255 by omega), bind, Except.bind]
  cases packLoop n f ps <;> rfl

/-- The pieces fit their widths, and no two widths overflow `u32`. -/
def FitsL (ps : List (Fp × Nat)) : Prop := ∀ q ∈ ps, q.1.val < 2 ^ q.2 ∧ q.2 < 2 ^ 31

theorem packLoop_ok : ∀ (ps : List (Fp × Nat)) (acc : Nat) (s : Fp),
    s.val < 2 ^ acc → acc < 2 ^ 31 → FitsL ps → ∃ r, packLoop acc s ps = .ok r
  | [], acc, s, _, _, _ => ⟨_, rfl⟩
  | (f, n) :: ps, acc, s, hs, ha, hf => by
    have h1 := hf (f, n) (by simp)
    have h2 : FitsL ps := fun q hq => hf q (by simp [hq])
    by_cases hn : acc + n < 255
    · obtain ⟨t, ht, _, hlt⟩ := step_in hs h1.1 hn ps
      rw [ht]; exact packLoop_ok ps _ _ hlt (by omega) h2
    · obtain ⟨r, hr⟩ := packLoop_ok ps n f h1.1 h1.2 h2
      rw [step_out s f (by omega) (by omega), hr]; exact ⟨_, rfl⟩

theorem packLoop_length : ∀ (ps qs : List (Fp × Nat)) (acc : Nat) (s t : Fp) (r q : List Fp),
    ps.map Prod.snd = qs.map Prod.snd → packLoop acc s ps = .ok r → packLoop acc t qs = .ok q →
    r.length = q.length
  | [], [], acc, s, t, r, q, _, hr, hq => by
    cases Except.ok.inj hr; cases Except.ok.inj hq
    by_cases h : acc > 0 <;> simp [h]
  | (f, n) :: ps, (g, m) :: qs, acc, s, t, r, q, hw, hr, hq => by
    simp only [List.map_cons, List.cons.injEq] at hw
    obtain ⟨rfl, hw⟩ := hw
    simp only [packLoop] at hr hq
    by_cases h0 : 2 ^ 32 ≤ acc + n
    · rw [if_pos h0] at hr; exact nomatch hr
    · rw [if_neg h0] at hr hq
      by_cases h1 : acc + n < 255
      · rw [if_pos h1] at hr hq
        simp only [bind, Except.bind] at hr hq
        cases hs : shl s n with
        | error e => rw [hs] at hr; exact nomatch hr
        | ok s' =>
          cases ht : shl t n with
          | error e => rw [ht] at hq; exact nomatch hq
          | ok t' =>
            rw [hs] at hr; rw [ht] at hq
            exact packLoop_length ps qs _ _ _ _ _ hw hr hq
      · rw [if_neg h1] at hr hq
        simp only [bind, Except.bind] at hr hq
        cases hs : packLoop n f ps with
        | error e => rw [hs] at hr; exact nomatch hr
        | ok r' =>
          cases ht : packLoop n g qs with
          | error e => rw [ht] at hq; exact nomatch hq
          | ok q' =>
            rw [hs] at hr; rw [ht] at hq
            cases Except.ok.inj hr; cases Except.ok.inj hq
            simp [packLoop_length ps qs _ _ _ _ _ hw hs ht]

theorem packLoop_inj : ∀ (ps qs : List (Fp × Nat)) (acc : Nat) (s t : Fp) (r : List Fp),
    ps.map Prod.snd = qs.map Prod.snd → FitsL ps → FitsL qs → s.val < 2 ^ acc → t.val < 2 ^ acc →
    acc < 2 ^ 31 →
    packLoop acc s ps = .ok r → packLoop acc t qs = .ok r → s = t ∧ ps = qs
  | [], [], acc, s, t, r, _, _, _, hs, ht, _, hr, hq => by
    refine ⟨?_, rfl⟩
    cases Except.ok.inj hr
    have h := Except.ok.inj hq
    by_cases h0 : acc > 0
    · simpa [h0] using h.symm
    · have : acc = 0 := by omega
      subst this
      apply Fin.ext; simp at hs ht; omega
  | (f, n) :: ps, (g, m) :: qs, acc, s, t, r, hw, hf, hg, hs, ht, ha, hr, hq => by
    simp only [List.map_cons, List.cons.injEq] at hw
    obtain ⟨rfl, hw⟩ := hw
    have hf1 := hf (f, n) (by simp)
    have hg1 := hg (g, n) (by simp)
    have hf2 : FitsL ps := fun q hq => hf q (by simp [hq])
    have hg2 : FitsL qs := fun q hq => hg q (by simp [hq])
    by_cases hn : acc + n < 255
    · obtain ⟨s', e1, v1, l1⟩ := step_in hs hf1.1 hn ps
      obtain ⟨t', e2, v2, l2⟩ := step_in ht hg1.1 hn qs
      rw [e1] at hr; rw [e2] at hq
      obtain ⟨h1, h2⟩ := packLoop_inj ps qs _ s' t' r hw hf2 hg2 l1 l2 (by omega) hr hq
      have h3 : s.val * 2 ^ n + f.val = t.val * 2 ^ n + g.val := by rw [← v1, ← v2, h1]
      have hpos : 0 < 2 ^ n := Nat.two_pow_pos n
      have hsv : s.val = t.val := by
        have := congrArg (· / 2 ^ n) h3
        simpa [Nat.mul_comm _ (2 ^ n), Nat.mul_add_div hpos, Nat.div_eq_of_lt hf1.1,
          Nat.div_eq_of_lt hg1.1] using this
      have hfv : f.val = g.val := by rw [hsv] at h3; omega
      exact ⟨Fin.ext hsv, by rw [h2, Fin.ext hfv]⟩
    · rw [step_out s f (by omega) (by omega)] at hr
      rw [step_out t g (by omega) (by omega)] at hq
      cases h1 : packLoop n f ps with
      | error e => rw [h1] at hr; exact nomatch hr
      | ok r' =>
        cases h2 : packLoop n g qs with
        | error e => rw [h2] at hq; exact nomatch hq
        | ok q' =>
          rw [h1] at hr; rw [h2] at hq
          have e1 := Except.ok.inj hr
          have e2 := Except.ok.inj hq
          rw [← e1] at e2
          simp only [List.cons.injEq] at e2
          obtain ⟨e3, rfl⟩ := e2
          obtain ⟨h3, h4⟩ := packLoop_inj ps qs n f g q' hw hf2 hg2 hf1.1 hg1.1 hf1.2 h1 h2
          exact ⟨e3.symm, by rw [h3, h4]⟩

theorem intoFields_eq_ok {c : Chunked} {r : List Fp} :
    c.intoFields = .ok r ↔ ∃ q, packLoop 0 0 c.packed = .ok q ∧ r = c.fields ++ q := by
  unfold intoFields
  simp only [bind, Except.bind, pure, Except.pure]
  cases packLoop 0 0 c.packed with
  | error e => simp
  | ok q => simp [eq_comm]

theorem zero_lt : (0 : Fp).val < 2 ^ 0 := by decide

/-- Packing is injective on inputs with the same widths. -/
theorem intoFields_inj {a b : Chunked} {r : List Fp}
    (ha : FitsL a.packed) (hb : FitsL b.packed) (hw : a.packed.map Prod.snd = b.packed.map Prod.snd)
    (h1 : a.intoFields = .ok r) (h2 : b.intoFields = .ok r) : a = b := by
  obtain ⟨q1, hq1, e1⟩ := intoFields_eq_ok.1 h1
  obtain ⟨q2, hq2, e2⟩ := intoFields_eq_ok.1 h2
  have hl := packLoop_length _ _ _ _ _ _ _ hw hq1 hq2
  rw [e1] at e2
  obtain ⟨hf, rfl⟩ := List.append_inj' e2 hl
  obtain ⟨_, hp⟩ := packLoop_inj _ _ 0 0 0 q1 hw ha hb zero_lt zero_lt (by decide) hq1 hq2
  cases a; cases b; simp_all

end Chunked

/-! ## The legacy input -/

namespace Legacy

theorem chunks254_nil : chunks254 [] = [] := by unfold chunks254; simp

theorem chunks254_ne {l : List Bool} (h : l ≠ []) : chunks254 l = l.take 254 :: chunks254 (l.drop 254) := by
  rw [chunks254]; simp [h]

theorem chunks254_flatten (l : List Bool) : (chunks254 l).flatten = l := by
  induction l using chunks254.induct with
  | case1 => simp [chunks254_nil]
  | case2 l h ih => rw [chunks254_ne h, List.flatten_cons, ih, List.take_append_drop]

theorem chunks254_mem_length (l : List Bool) : ∀ c ∈ chunks254 l, c.length ≤ 254 := by
  induction l using chunks254.induct with
  | case1 => simp [chunks254_nil]
  | case2 l h ih =>
    rw [chunks254_ne h]
    intro c hc
    rcases List.mem_cons.1 hc with rfl | hc
    · simp only [List.length_take]; omega
    · exact ih c hc

/-- Reading the chunks as numbers is injective on bit strings of the same length. -/
theorem chunks_inj (a : List Bool) : ∀ (b : List Bool), a.length = b.length →
    (chunks254 a).map (fun c => bitsNat (c.take 254)) = (chunks254 b).map (fun c => bitsNat (c.take 254)) →
    a = b := by
  induction a using chunks254.induct with
  | case1 => intro b hl _; exact (List.length_eq_zero_iff.1 hl.symm).symm
  | case2 a h ih =>
    intro b hl he
    have hb : b ≠ [] := by rintro rfl; exact h (List.length_eq_zero_iff.1 hl)
    rw [chunks254_ne h, chunks254_ne hb] at he
    simp only [List.map_cons, List.cons.injEq, List.take_take, Nat.min_self] at he
    have h1 : a.take 254 = b.take 254 := bitsNat_inj (by simp [hl]) he.1
    have h2 := ih (b.drop 254) (by simp [hl]) he.2
    rw [← List.take_append_drop 254 a, ← List.take_append_drop 254 b, h1, h2]

theorem chunks254_length (l : List Bool) : (chunks254 l).length = (l.length + 253) / 254 := by
  induction l using chunks254.induct with
  | case1 => simp [chunks254_nil]
  | case2 l h ih =>
    rw [chunks254_ne h, List.length_cons, ih]
    have : 0 < l.length := List.length_pos_iff.2 h
    simp only [List.length_drop]; omega

/-- Equal packed fields of inputs with the same number of bits come from equal inputs. -/
theorem toFields_inj {a b : Legacy} (hl : a.bits.length = b.bits.length) (h : a.toFields = b.toFields) :
    a = b := by
  unfold toFields at h
  obtain ⟨h1, h2⟩ := List.append_inj' h (by simp [chunks254_length, hl])
  have h3 := congrArg (List.map Fin.val) h2
  simp only [List.map_map] at h3
  have := chunks_inj a.bits b.bits hl (by simpa [Function.comp_def] using h3)
  cases a; cases b; simp_all

end Legacy

end MinaRs.Hash
