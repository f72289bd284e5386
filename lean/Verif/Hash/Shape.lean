import Verif.Hash.ROLemmas
import Verif.Hash.Types
/-!
# Shapes of hash inputs

A hash input of fixed shape has a fixed number of fields and fixed piece widths, so it can be taken
apart again.
-/

namespace MinaRs.Hash

open Chunked

/-- Whenever `x` is an input, it has `nf` fields and pieces of widths `ws` that fit. -/
def Shape (x : M Chunked) (nf : Nat) (ws : List Nat) : Prop :=
  ∀ c, x = .ok c → c.fields.length = nf ∧ c.packed.map Prod.snd = ws ∧ FitsL c.packed

/-- Both succeed and give the same input. -/
def Same (x y : M Chunked) : Prop := ∃ c, x = .ok c ∧ y = .ok c

theorem Same.symm {x y : M Chunked} (h : Same x y) : Same y x := h.imp fun _ h => ⟨h.2, h.1⟩

theorem build_split {x : M Chunked} {xs : List (M Chunked)} {c : Chunked} (h : build (x :: xs) = .ok c) :
    ∃ c1 c2, x = .ok c1 ∧ build xs = .ok c2 ∧ c = c1.append c2 := by
  cases x with
  | error e => exact nomatch h
  | ok c1 =>
    rw [build_cons_ok] at h
    cases hb : build xs with
    | error e => rw [hb] at h; exact nomatch h
    | ok c2 => rw [hb] at h; exact ⟨c1, c2, rfl, rfl, (Except.ok.inj h).symm⟩

theorem Shape.nil : Shape (build []) 0 [] := by
  intro c h; cases Except.ok.inj h
  exact ⟨rfl, rfl, fun q hq => nomatch hq⟩

theorem Shape.cons {x : M Chunked} {xs : List (M Chunked)} {n m : Nat} {ws vs : List Nat}
    (h1 : Shape x n ws) (h2 : Shape (build xs) m vs) : Shape (build (x :: xs)) (n + m) (ws ++ vs) := by
  intro c h
  obtain ⟨c1, c2, e1, e2, rfl⟩ := build_split h
  obtain ⟨a1, a2, a3⟩ := h1 _ e1
  obtain ⟨b1, b2, b3⟩ := h2 _ e2
  refine ⟨by simp [append, a1, b1], by simp [append, a2, b2], fun q hq => ?_⟩
  rcases List.mem_append.1 hq with hq | hq
  · exact a3 q hq
  · exact b3 q hq

theorem Shape.map {α : Type} {f : α → M Chunked} {n : Nat} {ws : List Nat} (h : ∀ a, Shape (f a) n ws)
    (l : List α) : Shape (build (l.map f)) (l.length * n) (l.flatMap fun _ => ws) := by
  induction l with
  | nil => simpa using Shape.nil
  | cons a l ih =>
    have := Shape.cons (h a) ih
    simp only [List.map_cons, List.length_cons, List.flatMap_cons, Nat.succ_mul]
    rwa [Nat.add_comm (l.length * n) n]

theorem Shape.append {xs ys : List (M Chunked)} {n m : Nat} {ws vs : List Nat}
    (h1 : Shape (build xs) n ws) (h2 : Shape (build ys) m vs) : Shape (build (xs ++ ys)) (n + m) (ws ++ vs) := by
  intro c h
  obtain ⟨cs, e, rfl⟩ := build_eq_ok.1 h
  obtain ⟨c1, c2, rfl, e1, e2⟩ := List.append_eq_map_iff.1 e
  obtain ⟨a1, a2, a3⟩ := h1 _ (by rw [← e1]; exact build_ok c1)
  obtain ⟨b1, b2, b3⟩ := h2 _ (by rw [← e2]; exact build_ok c2)
  refine ⟨by rw [← a1, ← b1]; simp, by rw [← a2, ← b2]; simp, fun q hq => ?_⟩
  simp only [List.flatMap_append] at hq
  rcases List.mem_append.1 hq with hq | hq
  · exact a3 q hq
  · exact b3 q hq

theorem append_cancel {a b c d : Chunked} (h : a.append b = c.append d)
    (hf : a.fields.length = c.fields.length) (hp : a.packed.length = c.packed.length) : a = c ∧ b = d := by
  obtain ⟨a1, a2⟩ := a; obtain ⟨b1, b2⟩ := b; obtain ⟨c1, c2⟩ := c; obtain ⟨d1, d2⟩ := d
  simp only [append, mk.injEq] at h
  obtain ⟨e1, e2⟩ := List.append_inj h.1 hf
  obtain ⟨e3, e4⟩ := List.append_inj h.2 hp
  simp [e1, e2, e3, e4]

theorem Shape.same_len {x y : M Chunked} {n : Nat} {ws : List Nat} (hx : Shape x n ws) (hy : Shape y n ws)
    {c d : Chunked} (h1 : x = .ok c) (h2 : y = .ok d) :
    c.fields.length = d.fields.length ∧ c.packed.length = d.packed.length := by
  obtain ⟨a1, a2, _⟩ := hx _ h1
  obtain ⟨b1, b2, _⟩ := hy _ h2
  refine ⟨by rw [a1, b1], ?_⟩
  have := congrArg List.length (a2.trans b2.symm)
  simpa using this

theorem Same.cons {x y : M Chunked} {xs ys : List (M Chunked)} {n : Nat} {ws : List Nat}
    (hx : Shape x n ws) (hy : Shape y n ws) (h : Same (build (x :: xs)) (build (y :: ys))) :
    Same x y ∧ Same (build xs) (build ys) := by
  obtain ⟨c, h1, h2⟩ := h
  obtain ⟨c1, c2, e1, e2, rfl⟩ := build_split h1
  obtain ⟨d1, d2, f1, f2, e⟩ := build_split h2
  obtain ⟨l1, l2⟩ := hx.same_len hy e1 f1
  obtain ⟨rfl, rfl⟩ := append_cancel e l1 l2
  exact ⟨⟨_, e1, f1⟩, ⟨_, e2, f2⟩⟩

theorem Same.consIff {x y : M Chunked} {xs ys : List (M Chunked)} {n : Nat} {ws : List Nat}
    (hx : Shape x n ws) (hy : Shape y n ws) : Same (build (x :: xs)) (build (y :: ys)) ↔
    Same x y ∧ Same (build xs) (build ys) := by
  refine ⟨Same.cons hx hy, ?_⟩
  rintro ⟨⟨c, rfl, rfl⟩, d, h1, h2⟩
  exact ⟨c.append d, by rw [build_cons_ok, h1]; rfl, by rw [build_cons_ok, h2]; rfl⟩

theorem Same.nil : Same (build []) (build []) := ⟨_, rfl, rfl⟩

theorem Same.append {xs ys us vs : List (M Chunked)} {n : Nat} {ws : List Nat}
    (hx : Shape (build xs) n ws) (hy : Shape (build ys) n ws)
    (h : Same (build (xs ++ us)) (build (ys ++ vs))) :
    Same (build xs) (build ys) ∧ Same (build us) (build vs) := by
  obtain ⟨c, h1, h2⟩ := h
  obtain ⟨cs, e, rfl⟩ := build_eq_ok.1 h1
  obtain ⟨c1, c2, rfl, rfl, rfl⟩ := List.append_eq_map_iff.1 e
  obtain ⟨ds, e', f⟩ := build_eq_ok.1 h2
  obtain ⟨d1, d2, rfl, rfl, rfl⟩ := List.append_eq_map_iff.1 e'
  obtain ⟨l1, l2⟩ := hx.same_len hy (build_ok c1) (build_ok d1)
  obtain ⟨e1, e2⟩ := append_cancel (a := ⟨c1.flatMap fields, c1.flatMap packed⟩)
    (b := ⟨c2.flatMap fields, c2.flatMap packed⟩) (c := ⟨d1.flatMap fields, d1.flatMap packed⟩)
    (d := ⟨d2.flatMap fields, d2.flatMap packed⟩) (by simpa [Chunked.append] using f) l1 l2
  exact ⟨⟨_, build_ok c1, by rw [e1]; exact build_ok d1⟩, ⟨_, build_ok c2, by rw [e2]; exact build_ok d2⟩⟩

/-- Lists of the same length of inputs of one shape. -/
theorem Same.map {α : Type} {f : α → M Chunked} {n : Nat} {ws : List Nat} (hs : ∀ a, Shape (f a) n ws) :
    ∀ {l k : List α}, l.length = k.length → Same (build (l.map f)) (build (k.map f)) →
      ∀ i (h1 : i < l.length) (h2 : i < k.length), Same (f l[i]) (f k[i])
  | [], [], _, _, i, h1, _ => nomatch h1
  | a :: l, b :: k, hl, h, i, h1, h2 => by
    obtain ⟨h3, h4⟩ := Same.cons (hs a) (hs b) h
    cases i with
    | zero => exact h3
    | succ i => exact Same.map hs (by simpa using hl) h4 i (by simpa using h1) (by simpa using h2)

/-- The packed fields of a hash input (`roinput`, roinput.rs 16-19). -/
def packFields (x : M Chunked) : M (List Fp) := do
  let c ← x
  c.intoFields

/-- Equal packed fields of inputs of one shape come from equal inputs. -/
theorem Shape.unpack {x y : M Chunked} {n m : Nat} {ws : List Nat} (hx : Shape x n ws) (hy : Shape y m ws)
    {r : List Fp} (h1 : packFields x = .ok r) (h2 : packFields y = .ok r) : Same x y := by
  cases x with
  | error e => exact nomatch h1
  | ok c =>
    cases y with
    | error e => exact nomatch h2
    | ok d =>
      obtain ⟨_, a2, a3⟩ := hx _ rfl
      obtain ⟨_, b2, b3⟩ := hy _ rfl
      have := intoFields_inj a3 b3 (a2.trans b2.symm) h1 h2
      exact ⟨c, rfl, by rw [this]⟩

/-- Inputs that fit are packed without a panic. -/
theorem Shape.pack_ok {x : M Chunked} {n : Nat} {ws : List Nat} (hx : Shape x n ws) {c : Chunked}
    (h : x = .ok c) : ∃ r, packFields x = .ok r := by
  subst h
  obtain ⟨_, _, h3⟩ := hx _ rfl
  obtain ⟨q, hq⟩ := packLoop_ok c.packed 0 0 zero_lt (by decide) h3
  exact ⟨_, intoFields_eq_ok.2 ⟨q, hq, rfl⟩⟩

/-! ## Shapes of the basic inputs -/

theorem shape_field (f : Fp) : Shape (.ok (field f)) 1 [] := by
  intro c h; cases Except.ok.inj h; exact ⟨rfl, rfl, fun q hq => nomatch hq⟩

theorem shape_piece {f : Fp} {n : Nat} (h : f.val < 2 ^ n) (hn : n < 2 ^ 31) : Shape (.ok (piece f n)) 0 [n] := by
  intro c hc; cases Except.ok.inj hc
  refine ⟨rfl, rfl, fun q hq => ?_⟩
  rw [List.mem_singleton.1 hq]; exact ⟨h, hn⟩

theorem shape_bool (b : Bool) : Shape (bool b) 0 [1] := by
  rw [bool_eq]; exact shape_piece (by cases b <;> decide) (by decide)

theorem shape_u32 (x : UInt32) : Shape (u32 x) 0 [32] := by
  rw [u32_eq]; exact shape_piece x.toNat_lt (by decide)

theorem shape_u64 (x : UInt64) : Shape (u64 x) 0 [64] := by
  rw [u64_eq]; exact shape_piece x.toNat_lt (by decide)

theorem shape_bools (l : List Bool) : Shape (build (l.map bool)) 0 (List.replicate l.length 1) := by
  have := Shape.map shape_bool l
  have e : (l.flatMap fun _ => [1]) = List.replicate l.length 1 := by
    induction l with
    | nil => rfl
    | cons _ l ih => simp [List.replicate_succ, ih (Shape.map shape_bool l)]
  rw [e, Nat.mul_zero] at this; exact this

theorem same_field {f g : Fp} (h : Same (.ok (field f)) (.ok (field g))) : f = g := by
  obtain ⟨c, h1, h2⟩ := h
  have := (Except.ok.inj h1).trans (Except.ok.inj h2).symm
  simpa [field] using this

theorem same_bool {a b : Bool} : Same (bool a) (bool b) ↔ a = b := by
  constructor
  · rintro ⟨c, h1, h2⟩
    rw [bool_eq] at h1 h2
    have := (Except.ok.inj h1).trans (Except.ok.inj h2).symm
    simpa [piece, boolFp_inj] using this
  · rintro rfl; exact ⟨_, bool_eq a, bool_eq a⟩

theorem same_u32 {a b : UInt32} : Same (u32 a) (u32 b) ↔ a = b := by
  constructor
  · rintro ⟨c, h1, h2⟩
    rw [u32_eq] at h1 h2
    have := (Except.ok.inj h1).trans (Except.ok.inj h2).symm
    simpa [piece, u32Fp_inj] using this
  · rintro rfl; exact ⟨_, u32_eq a, u32_eq a⟩

theorem same_u64 {a b : UInt64} : Same (u64 a) (u64 b) ↔ a = b := by
  constructor
  · rintro ⟨c, h1, h2⟩
    rw [u64_eq] at h1 h2
    have := (Except.ok.inj h1).trans (Except.ok.inj h2).symm
    simpa [piece, u64Fp_inj] using this
  · rintro rfl; exact ⟨_, u64_eq a, u64_eq a⟩

theorem bools_eq (l : List Bool) : build (l.map bool) = .ok ⟨[], l.map fun b => (boolFp b, 1)⟩ := by
  have : l.map bool = (l.map fun b => piece (boolFp b) 1).map .ok := by
    rw [List.map_map]; exact List.map_congr_left fun b _ => bool_eq b
  rw [this, build_ok]
  simp [List.flatMap_map, piece]
  induction l <;> simp_all

theorem same_bools {l k : List Bool} : Same (build (l.map bool)) (build (k.map bool)) ↔ l = k := by
  constructor
  · rintro ⟨c, h1, h2⟩
    rw [bools_eq] at h1 h2
    have := (Except.ok.inj h1).trans (Except.ok.inj h2).symm
    simp only [mk.injEq, true_and] at this
    induction l generalizing k c with
    | nil => cases k with
      | nil => rfl
      | cons b k => exact nomatch this
    | cons a l ih => cases k with
      | nil => exact nomatch this
      | cons b k =>
        simp only [List.map_cons, List.cons.injEq, Prod.mk.injEq, and_true, boolFp_inj] at this
        rw [this.1, ih _ rfl (by rw [this.2]) this.2]
  · rintro rfl; exact ⟨_, bools_eq l, bools_eq l⟩

theorem toFp_eq_ok {h : B32} {f : Fp} : h.toFp = .ok f ↔ f.val = leNat h.bytes := by
  unfold B32.toFp fpOfNat
  by_cases hp : leNat h.bytes < p
  · rw [dif_pos hp]
    constructor
    · intro e; rw [← Except.ok.inj e]
    · intro e; rw [show f = ⟨_, hp⟩ from Fin.ext e]
  · rw [dif_neg hp]
    constructor
    · intro e; exact nomatch e
    · intro e; exact absurd (e ▸ f.isLt) hp

theorem b32_chunked_eq_ok {h : B32} {c : Chunked} :
    h.chunked = .ok c ↔ ∃ f : Fp, f.val = leNat h.bytes ∧ c = field f := by
  unfold B32.chunked
  cases e : h.toFp with
  | error x =>
    refine ⟨fun h => (nomatch h), ?_⟩
    rintro ⟨f, hf, -⟩
    rw [toFp_eq_ok.2 hf] at e; exact nomatch e
  | ok f =>
    constructor
    · intro h; exact ⟨f, toFp_eq_ok.1 e, (Except.ok.inj h).symm⟩
    · rintro ⟨g, hg, rfl⟩
      rw [toFp_eq_ok.2 hg] at e; cases e; rfl

theorem B32.ext_leNat {a b : B32} (h : leNat a.bytes = leNat b.bytes) : a = b := by
  obtain ⟨a, ha⟩ := a; obtain ⟨b, hb⟩ := b
  have := leNat_inj (ha.trans hb.symm) h
  simp [this]

theorem shape_b32 (h : B32) : Shape h.chunked 1 [] := by
  intro c hc
  obtain ⟨f, _, rfl⟩ := b32_chunked_eq_ok.1 hc
  exact ⟨rfl, rfl, fun q hq => nomatch hq⟩

theorem same_b32 {a b : B32} (h : Same a.chunked b.chunked) : a = b := by
  obtain ⟨c, h1, h2⟩ := h
  obtain ⟨f, hf, rfl⟩ := b32_chunked_eq_ok.1 h1
  obtain ⟨g, hg, e⟩ := b32_chunked_eq_ok.1 h2
  have : f = g := by simpa [field] using e
  apply B32.ext_leNat; rw [← hf, ← hg, this]

theorem shape_tokenId (t : UInt64) : Shape (tokenIdChunked t) 1 [] := shape_field _

theorem same_tokenId {a b : UInt64} (h : Same (tokenIdChunked a) (tokenIdChunked b)) : a = b := by
  have := congrArg Fin.val (same_field h)
  simp only [Fin.ofNat] at this
  rw [Nat.mod_eq_of_lt (lt_p_of_lt (Nat.lt_trans a.toNat_lt (by decide))),
    Nat.mod_eq_of_lt (lt_p_of_lt (Nat.lt_trans b.toNat_lt (by decide)))] at this
  exact UInt64.toNat_inj.1 this

theorem shape_pubKey (k : PubKey) : Shape k.chunked 1 [1] :=
  Shape.cons (shape_field _) (Shape.cons (shape_bool _) Shape.nil)

theorem same_pubKey {a b : PubKey} (h : Same a.chunked b.chunked) : a = b := by
  obtain ⟨h1, h⟩ := Same.cons (shape_field _) (shape_field _) h
  obtain ⟨h2, _⟩ := Same.cons (shape_bool _) (shape_bool _) h
  cases a; cases b; simp only [PubKey.mk.injEq]
  exact ⟨same_field h1, same_bool.1 h2⟩

end MinaRs.Hash
