import Verif.Curve.Model

/-!
# Numbers and points of a proof: properties

C102: the numbers of a proof become the field elements and points they stand for.
-/
namespace MinaRs.Curve

/-! ## Specification -/

namespace Spec

/-- The field element that 32 bytes stand for: their number, the least significant byte first, if there is one. -/
def IsElem (q : Nat) (x : Elem) (v : Nat) : Prop := leNat x.bytes = v ∧ v < q

/-- The point that a point of a proof stands for. -/
inductive IsPoint (q : Nat) : Point → Affine → Prop where
  | infinite : IsPoint q .infinite ⟨0, 0, true⟩
  | finite {p : Finite} {x y : Nat} (hx : IsElem q p.x x) (hy : IsElem q p.y y) : IsPoint q (.finite p) ⟨x, y, false⟩

/-- Two lists agree item by item. -/
def Each {A B : Type} (R : A → B → Prop) (as : List A) (bs : List B) : Prop :=
  as.length = bs.length ∧ ∀ (i : Nat) (a : A) (b : B), as[i]? = some a → bs[i]? = some b → R a b

/-- A number that is no field element. -/
def TooBig (q : Nat) (x : Elem) : Prop := q ≤ leNat x.bytes

end Spec

open Spec

/-! ## Lemmas -/

theorem limbsLt_append : ∀ (xs ys : List Nat) (a b : Nat), xs.length = ys.length →
    limbsLt (xs ++ [a]) (ys ++ [b]) = (limbsLt xs ys || (decide (xs = ys) && decide (a < b)))
  | [], [], a, b, _ => by
    simp only [List.nil_append, limbsLt]
    by_cases h : a < b
    · simp [h]
    · simp [h]
  | x :: xs, y :: ys, a, b, h => by
    have ih := limbsLt_append xs ys a b (by simpa using h)
    simp only [List.cons_append, limbsLt]
    by_cases h1 : x < y
    · simp [h1]
    · by_cases h2 : x > y
      · have : x ≠ y := by omega
        simp [h1, h2, this]
      · have : x = y := by omega
        subst this
        simp [ih]
  | [], _ :: _, _, _, h => by simp at h
  | _ :: _, [], _, _, h => by simp at h

theorem limbsNat_inj : ∀ (xs ys : List Nat), xs.length = ys.length → (∀ x ∈ xs, x < 2 ^ 64) → (∀ y ∈ ys, y < 2 ^ 64) →
    limbsNat xs = limbsNat ys → xs = ys
  | [], [], _, _, _, _ => rfl
  | x :: xs, y :: ys, h, hx, hy, e => by
    have h1 := hx x List.mem_cons_self
    have h2 := hy y List.mem_cons_self
    simp only [limbsNat] at e
    have h3 : limbsNat xs = limbsNat ys := by omega
    have h4 : x = y := by omega
    rw [h4, limbsNat_inj xs ys (by simpa using h) (fun z hz => hx z (List.mem_cons_of_mem _ hz))
      (fun z hz => hy z (List.mem_cons_of_mem _ hz)) h3]
  | [], _ :: _, h, _, _, _ => by simp at h
  | _ :: _, [], h, _, _, _ => by simp at h

theorem limbsLt_iff : ∀ (xs ys : List Nat), xs.length = ys.length → (∀ x ∈ xs, x < 2 ^ 64) → (∀ y ∈ ys, y < 2 ^ 64) →
    (limbsLt xs.reverse ys.reverse = true ↔ limbsNat xs < limbsNat ys)
  | [], [], _, _, _ => by simp [limbsLt, limbsNat]
  | x :: xs, y :: ys, h, hx, hy => by
    have h0 : xs.length = ys.length := by simpa using h
    have hx' : ∀ z ∈ xs, z < 2 ^ 64 := fun z hz => hx z (List.mem_cons_of_mem _ hz)
    have hy' : ∀ z ∈ ys, z < 2 ^ 64 := fun z hz => hy z (List.mem_cons_of_mem _ hz)
    have ih := limbsLt_iff xs ys h0 hx' hy'
    have h1 := hx x List.mem_cons_self
    have h2 := hy y List.mem_cons_self
    rw [List.reverse_cons, List.reverse_cons, limbsLt_append _ _ _ _ (by simpa using h0)]
    simp only [Bool.or_eq_true, Bool.and_eq_true, decide_eq_true_eq, ih, limbsNat, List.reverse_inj]
    constructor
    · rintro (h3 | ⟨rfl, h3⟩) <;> omega
    · intro h3
      by_cases h4 : limbsNat xs < limbsNat ys
      · exact .inl h4
      · have h5 : limbsNat xs = limbsNat ys := by omega
        exact .inr ⟨limbsNat_inj xs ys h0 hx' hy' h5, by omega⟩
  | [], _ :: _, h, _, _ => by simp at h
  | _ :: _, [], h, _, _ => by simp at h

theorem limbs_facts : ∀ (n q : Nat), (limbs n q).length = n ∧ (∀ x ∈ limbs n q, x < 2 ^ 64) ∧
    limbsNat (limbs n q) = q % 2 ^ (64 * n)
  | 0, q => by simp [limbs, limbsNat, Nat.mod_one]
  | n + 1, q => by
    obtain ⟨h1, h2, h3⟩ := limbs_facts n (q / 2 ^ 64)
    refine ⟨by simp [limbs, h1], ?_, ?_⟩
    · intro x hx
      rcases List.mem_cons.mp hx with rfl | hx
      · exact Nat.mod_lt _ (by decide)
      · exact h2 x hx
    · simp only [limbs, limbsNat, h3]
      rw [show 64 * (n + 1) = 64 + 64 * n by omega, Nat.pow_add, Nat.mod_mul]

theorem leNat_split (bs : Bytes) (k : Nat) (h : k ≤ bs.length) :
    leNat bs = leNat (bs.take k) + 256 ^ k * leNat (bs.drop k) := by
  induction k generalizing bs with
  | zero => simp [leNat]
  | succ k ih =>
    cases bs with
    | nil => simp at h
    | cons b bs =>
      have := ih bs (by simpa using h)
      simp only [List.take_succ_cons, List.drop_succ_cons, leNat]
      rw [this, Nat.pow_succ', Nat.mul_add, Nat.mul_assoc]
      omega

theorem readLimbs_facts : ∀ (n : Nat) (bs : Bytes), bs.length = 8 * n →
    ∃ ls, readLimbs n bs = .ok ls ∧ ls.length = n ∧ (∀ x ∈ ls, x < 2 ^ 64) ∧ limbsNat ls = leNat bs
  | 0, bs, h => by
    have : bs = [] := List.eq_nil_of_length_eq_zero (by omega)
    subst this
    exact ⟨[], rfl, rfl, nofun, rfl⟩
  | n + 1, bs, h => by
    obtain ⟨ls, h1, h2, h3, h4⟩ := readLimbs_facts n (bs.drop 8) (by rw [List.length_drop]; omega)
    refine ⟨leNat (bs.take 8) :: ls, ?_, by simp [h2], ?_, ?_⟩
    · unfold readLimbs
      rw [if_neg (by omega), h1]
    · intro x hx
      rcases List.mem_cons.mp hx with rfl | hx
      · have := leNat_lt (bs.take 8)
        rw [List.length_take, Nat.min_eq_left (by omega)] at this
        exact this
      · exact h3 x hx
    · rw [limbsNat, h4, leNat_split bs 8 (by omega)]

theorem limbsNat_zero : ∀ (ls : List Nat), ls.all (· == 0) = true ↔ limbsNat ls = 0
  | [] => by simp [limbsNat]
  | l :: ls => by
    have := limbsNat_zero ls
    simp only [List.all_cons, Bool.and_eq_true, beq_iff_eq, this, limbsNat]
    omega

theorem toField_eq {q : Nat} (h0 : 0 < q) (hq : q < 2 ^ 256) (x : Elem) :
    toField q x = if leNat x.bytes < q then .ok (leNat x.bytes) else .error .unwrapNone := by
  obtain ⟨ls, h1, h2, h3, h4⟩ := readLimbs_facts 4 x.bytes x.length
  unfold toField fromRepr
  rw [h1]
  simp only
  have hx : leNat x.bytes < 2 ^ 256 := by
    have := leNat_lt x.bytes
    rw [x.length] at this
    exact this
  by_cases hz : limbsNat ls = 0
  · rw [if_pos ((limbsNat_zero ls).mpr hz), ← h4, hz, if_pos h0]
  · rw [if_neg (fun h => hz ((limbsNat_zero ls).mp h))]
    obtain ⟨g1, g2, g3⟩ := limbs_facts 4 q
    rw [Nat.mod_eq_of_lt (show q < 2 ^ (64 * 4) by omega)] at g3
    have key := limbsLt_iff ls (limbs 4 q) (by rw [h2, g1]) h3 g2
    rw [g3, h4] at key
    by_cases hlt : leNat x.bytes < q
    · rw [if_pos hlt, if_pos (key.mpr hlt), h4]
    · rw [if_neg hlt, if_neg (fun h => hlt (key.mp h))]

theorem toField_ok {q : Nat} (h0 : 0 < q) (hq : q < 2 ^ 256) (x : Elem) (v : Nat) : toField q x = .ok v ↔ IsElem q x v := by
  rw [toField_eq h0 hq]
  unfold IsElem
  split
  · rename_i h
    constructor
    · intro e; have := Except.ok.inj e; exact ⟨this, by omega⟩
    · rintro ⟨e, _⟩; rw [e]
  · rename_i h
    constructor
    · nofun
    · rintro ⟨e, h'⟩; omega

theorem toField_panic {q : Nat} (h0 : 0 < q) (hq : q < 2 ^ 256) (x : Elem) (e : Panic) :
    toField q x = .error e ↔ e = .unwrapNone ∧ TooBig q x := by
  rw [toField_eq h0 hq]
  unfold TooBig
  split
  · constructor
    · nofun
    · rintro ⟨_, h⟩; omega
  · constructor
    · intro h; injection h with h; exact ⟨h.symm, by omega⟩
    · rintro ⟨rfl, _⟩; rfl

theorem elem_ext {a b : Elem} (h : leNat a.bytes = leNat b.bytes) : a = b := by
  cases a with
  | mk a ha =>
  cases b with
  | mk b hb =>
  have := leBytes_leNat a
  have h' := leBytes_leNat b
  simp only at h
  rw [ha, h, ← hb, h'] at this
  subst this
  rfl

theorem mapAll_ok {A B : Type} (f : A → Except Panic B) (R : A → B → Prop) (hf : ∀ a b, f a = .ok b ↔ R a b) :
    ∀ (as : List A) (bs : List B), mapAll f as = .ok bs ↔ Each R as bs
  | [], bs => by
    constructor
    · intro h
      have := Except.ok.inj h
      subst this
      exact ⟨rfl, nofun⟩
    · rintro ⟨h, _⟩
      cases bs with
      | nil => rfl
      | cons _ _ => simp at h
  | a :: as, bs => by
    have ih := mapAll_ok f R hf as
    simp only [mapAll, bind, Except.bind]
    constructor
    · intro h
      cases hb : f a with
      | error e => rw [hb] at h; cases h
      | ok b =>
        rw [hb] at h
        simp only at h
        cases hbs : mapAll f as with
        | error e => rw [hbs] at h; cases h
        | ok bs' =>
          rw [hbs] at h
          have := Except.ok.inj h
          subst this
          obtain ⟨h1, h2⟩ := (ih bs').mp hbs
          refine ⟨by simp [h1], fun i x y hx hy => ?_⟩
          cases i with
          | zero => simp at hx hy; subst hx hy; exact (hf _ _).mp hb
          | succ i => exact h2 i x y (by simpa using hx) (by simpa using hy)
    · rintro ⟨h1, h2⟩
      cases bs with
      | nil => simp at h1
      | cons b bs =>
        rw [(hf a b).mpr (h2 0 a b rfl rfl),
          (ih bs).mpr ⟨by simpa using h1, fun i x y hx hy => h2 (i + 1) x y (by simpa using hx) (by simpa using hy)⟩]

theorem mapAll_panic {A B : Type} (f : A → Except Panic B) (Bad : A → Prop) (hf : ∀ a, (∃ e, f a = .error e) ↔ Bad a)
    (hf' : ∀ a e, f a = .error e → e = .unwrapNone) :
    ∀ (as : List A), mapAll f as = .error .unwrapNone ↔ ∃ a ∈ as, Bad a
  | [] => by
    constructor
    · intro h; cases h
    · rintro ⟨a, h, _⟩; cases h
  | a :: as => by
    have ih := mapAll_panic f Bad hf hf' as
    simp only [mapAll, bind, Except.bind]
    cases hb : f a with
    | error e =>
      have := hf' a e hb
      subst this
      exact ⟨fun _ => ⟨a, List.mem_cons_self, (hf a).mp ⟨_, hb⟩⟩, fun _ => rfl⟩
    | ok b =>
      have hna : ¬ Bad a := fun h => by
        obtain ⟨e, he⟩ := (hf a).mpr h
        rw [hb] at he; cases he
      simp only
      cases hbs : mapAll f as with
      | error e =>
        simp only
        constructor
        · intro h
          injection h with h
          subst h
          obtain ⟨x, hx, hb⟩ := ih.mp hbs
          exact ⟨x, List.mem_cons_of_mem _ hx, hb⟩
        · rintro ⟨x, hx, hbad⟩
          rcases List.mem_cons.mp hx with rfl | hx
          · exact absurd hbad hna
          · rw [← hbs]; exact ih.mpr ⟨x, hx, hbad⟩
      | ok bs =>
        simp only
        constructor
        · nofun
        · rintro ⟨x, hx, hbad⟩
          rcases List.mem_cons.mp hx with rfl | hx
          · exact absurd hbad hna
          · have := ih.mpr ⟨x, hx, hbad⟩
            rw [hbs] at this; cases this

theorem finite_ok {q : Nat} (h0 : 0 < q) (hq : q < 2 ^ 256) (p : Finite) (a : Affine) :
    p.toAffine q = .ok a ↔ IsPoint q (.finite p) a := by
  simp only [Finite.toAffine, bind, Except.bind]
  constructor
  · intro h
    cases hx : toField q p.x with
    | error e => rw [hx] at h; cases h
    | ok x =>
      cases hy : toField q p.y with
      | error e => rw [hx, hy] at h; cases h
      | ok y =>
        rw [hx, hy] at h
        have := Except.ok.inj h
        subst this
        exact .finite ((toField_ok h0 hq _ _).mp hx) ((toField_ok h0 hq _ _).mp hy)
  · intro h
    cases h with
    | finite hx hy => rw [(toField_ok h0 hq _ _).mpr hx, (toField_ok h0 hq _ _).mpr hy]

theorem finite_panic {q : Nat} (h0 : 0 < q) (hq : q < 2 ^ 256) (p : Finite) :
    ((∃ e, p.toAffine q = .error e) ↔ TooBig q p.x ∨ TooBig q p.y) ∧ (∀ e, p.toAffine q = .error e → e = .unwrapNone) := by
  simp only [Finite.toAffine, bind, Except.bind]
  cases hx : toField q p.x with
  | error e =>
    have := (toField_panic h0 hq _ _).mp hx
    exact ⟨⟨fun _ => .inl this.2, fun _ => ⟨_, rfl⟩⟩, fun e' h => by injection h with h; rw [← h]; exact this.1⟩
  | ok x =>
    have hnx : ¬ TooBig q p.x := fun h => by
      have := (toField_panic h0 hq p.x .unwrapNone).mpr ⟨rfl, h⟩
      rw [hx] at this; cases this
    simp only
    cases hy : toField q p.y with
    | error e =>
      have := (toField_panic h0 hq _ _).mp hy
      exact ⟨⟨fun _ => .inr this.2, fun _ => ⟨_, rfl⟩⟩, fun e' h => by injection h with h; rw [← h]; exact this.1⟩
    | ok y =>
      have hny : ¬ TooBig q p.y := fun h => by
        have := (toField_panic h0 hq p.y .unwrapNone).mpr ⟨rfl, h⟩
        rw [hy] at this; cases this
      refine ⟨⟨fun h => ?_, fun h => ?_⟩, nofun⟩
      · obtain ⟨e, h⟩ := h; cases h
      · rcases h with h | h
        · exact absurd h hnx
        · exact absurd h hny

theorem point_ok {q : Nat} (h0 : 0 < q) (hq : q < 2 ^ 256) (p : Point) (a : Affine) :
    p.toAffine q = .ok a ↔ IsPoint q p a := by
  cases p with
  | infinite =>
    constructor
    · intro h; have := Except.ok.inj h; subst this; exact .infinite
    · intro h; cases h; rfl
  | finite p => exact finite_ok h0 hq p a

/-! ## Properties -/

/-- **C102.** In a field with `q` elements, 32 bytes become the field element they spell, the least significant byte
first, and each field element is spelled by exactly one array of bytes. -/
theorem C102_field {q : Nat} (h0 : 0 < q) (hq : q < 2 ^ 256) :
    (∀ x v, toField q x = .ok v ↔ IsElem q x v) ∧
    (∀ v, v < q → ∃ x, toField q x = .ok v ∧ ∀ y, toField q y = .ok v → y = x) := by
  refine ⟨toField_ok h0 hq, fun v hv => ?_⟩
  have hv' : leNat (leBytes 32 v) = v := leNat_leBytes_of_lt (show v < 256 ^ 32 by have : (256 : Nat) ^ 32 = 2 ^ 256 := by decide
                                                                                   omega)
  refine ⟨⟨leBytes 32 v, by simp⟩, (toField_ok h0 hq _ _).mpr ⟨hv', hv⟩, fun y hy => ?_⟩
  have := ((toField_ok h0 hq y v).mp hy).1
  exact elem_ext (by rw [this]; exact hv'.symm)

/-- **C102.** A point becomes the point with its coordinates, infinity becomes infinity, and different points become
different points. -/
theorem C102_points {q : Nat} (h0 : 0 < q) (hq : q < 2 ^ 256) :
    (∀ p a, Point.toAffine q p = .ok a ↔ IsPoint q p a) ∧
    (∀ p a, Finite.toAffine q p = .ok a ↔ IsPoint q (.finite p) a) ∧
    (∀ p p' a, Point.toAffine q p = .ok a → Point.toAffine q p' = .ok a → p = p') := by
  refine ⟨point_ok h0 hq, finite_ok h0 hq, fun p p' a h h' => ?_⟩
  have h := (point_ok h0 hq p a).mp h
  have h' := (point_ok h0 hq p' a).mp h'
  cases h with
  | infinite => cases h'; rfl
  | @finite p x y hx hy =>
    cases h' with
    | @finite p' _ _ hx' hy' =>
      cases p; cases p'
      have e1 := elem_ext (hx.1.trans hx'.1.symm)
      have e2 := elem_ext (hy.1.trans hy'.1.symm)
      simp only at e1 e2
      subst e1 e2; rfl

/-- **C102.** Vectors keep their length and order. -/
theorem C102_vectors {q : Nat} (h0 : 0 < q) (hq : q < 2 ^ 256) :
    (∀ v w, fieldVec q v = .ok w ↔ Each (IsElem q) v w) ∧
    (∀ v w, finiteVec q v = .ok w ↔ Each (fun p a => IsPoint q (.finite p) a) v w) ∧
    (∀ v w, pointVec q v = .ok w ↔ Each (IsPoint q) v w) ∧
    (∀ v w, pairVec q v = .ok w ↔ Each (fun p a => IsPoint q (.finite p.1) a.1 ∧ IsPoint q (.finite p.2) a.2) v w) := by
  refine ⟨mapAll_ok _ _ (toField_ok h0 hq), mapAll_ok _ _ (finite_ok h0 hq), mapAll_ok _ _ (point_ok h0 hq),
    mapAll_ok _ _ fun p a => ?_⟩
  rw [← finite_ok h0 hq, ← finite_ok h0 hq]
  simp only [bind, Except.bind]
  cases hx : p.1.toAffine q with
  | error e => simp
  | ok x =>
    cases hy : p.2.toAffine q with
    | error e => simp
    | ok y =>
      obtain ⟨a, b⟩ := a
      simp

/-- **C102** fails for blocks that are not canonical: the conversion of a vector panics exactly when one of its numbers
is not below the order of the field, and 32 bytes from a peer can be any number. -/
theorem C102_too_big_fails {q : Nat} (h0 : 0 < q) (hq : q < 2 ^ 256) :
    (∀ v, fieldVec q v = .error .unwrapNone ↔ ∃ x ∈ v, TooBig q x) ∧
    (∀ v, finiteVec q v = .error .unwrapNone ↔ ∃ p ∈ v, TooBig q p.x ∨ TooBig q p.y) ∧
    ∃ x, TooBig q x := by
  refine ⟨mapAll_panic _ _ (fun x => ?_) (fun x e h => ((toField_panic h0 hq x e).mp h).1),
    mapAll_panic _ _ (fun p => (finite_panic h0 hq p).1) (fun p => (finite_panic h0 hq p).2),
    ⟨leBytes 32 q, by simp⟩, ?_⟩
  · constructor
    · rintro ⟨e, h⟩; exact ((toField_panic h0 hq x e).mp h).2
    · intro h; exact ⟨_, (toField_panic h0 hq x .unwrapNone).mpr ⟨rfl, h⟩⟩
  · unfold TooBig
    rw [leNat_leBytes_of_lt (show q < 256 ^ 32 by have : (256 : Nat) ^ 32 = 2 ^ 256 := by decide
                                                  omega)]
    exact Nat.le_refl _

/-- The order of the base field of Pallas, over which the points of Pallas `y² = x³ + 5` are. -/
def pallasBase : Nat := 28948022309329048855892746252171976963363056481941560715954676764349967630337

/-- **C102 fails.** The conversion does not check that a point is on the curve: every pair of numbers below the order converts,
whatever equation the curve has. -/
theorem C102_off_curve_fails (q : Nat) (hq : q < 2 ^ 256) (x y : Nat) (hx : x < q) (hy : y < q) :
    ∃ p : Finite, p.toAffine q = .ok ⟨x, y, false⟩ := by
  have e : ∀ n, n < q → leNat (leBytes 32 n) = n := fun n hn =>
    leNat_leBytes_of_lt (by have : (256 : Nat) ^ 32 = 2 ^ 256 := by decide
                            omega)
  refine ⟨⟨⟨leBytes 32 x, by simp⟩, ⟨leBytes 32 y, by simp⟩⟩, ?_⟩
  rw [finite_ok (by omega) hq]
  exact .finite ⟨e x hx, hx⟩ ⟨e y hy, hy⟩

/-- (1, 1) is not on Pallas. -/
example : 1 < pallasBase ∧ pallasBase < 2 ^ 256 ∧ (1 * 1) % pallasBase ≠ (1 * 1 * 1 + 5) % pallasBase := by decide

/-- The bounds on the order hold for the field of Pallas, and a vector of two numbers converts. -/
example : 0 < pallasBase ∧ pallasBase < 2 ^ 256 ∧
    (fieldVec pallasBase [⟨leBytes 32 7, by simp⟩, ⟨leBytes 32 (2 ^ 200 + 1), by simp⟩]).toOption = some [7, 2 ^ 200 + 1] := by
  refine ⟨by decide, by decide, ?_⟩
  decide +kernel

end MinaRs.Curve
