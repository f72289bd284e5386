import Verif.Merkle.Insert

/-! Roots and authentication paths (helper lemmas for C20–C28). -/

namespace MinaRs.Merkle
open Spec

variable {I H : Type} {hasher : I → Meta → H} {merger : Option H → Option H → Meta → Option H}

theorem meta_root (h : Nat) : Meta.new 0 h = .ok ⟨0, h⟩ :=
  meta_regular (d := 0) (j := 0) (by decide) (regular_of_le (by decide)) (Nat.zero_le h)

theorem extendRoot_ok (n : Nat) : ∀ (hash : Option H) (lo : Nat),
    extendRoot merger hash lo n = .ok (padUp merger hash lo n) := by
  induction n with
  | zero => intro hash lo; rfl
  | succ n ih =>
    intro hash lo
    unfold extendRoot padUp
    rw [meta_root]
    exact ih _ _

theorem padUp_succ (n : Nat) : ∀ (hash : Option H) (lo : Nat),
    padUp merger hash lo (n + 1) = merger (padUp merger hash lo n) none ⟨0, lo + n⟩ := by
  induction n with
  | zero => intro hash lo; rfl
  | succ n ih =>
    intro hash lo
    rw [padUp, ih, padUp]
    congr 2
    omega

theorem padUp_some (htot : Total merger) (n lo : Nat) (x : H) : ∃ y, padUp merger (some x) lo n = some y := by
  cases n with
  | zero => exact ⟨x, rfl⟩
  | succ n => rw [padUp_succ]; exact Option.isSome_iff_exists.mp (htot _ _ _)

/-- What the two modes make of the hash `v` of the top node of a tree of height `h`. -/
def modeRoot (merger : Option H → Option H → Meta → Option H) (fixed : Option Nat) (h : Nat) (v : Option H) :
    Except Panic (Option H) :=
  match fixed with
  | none => .ok v
  | some F =>
    if F < h then .error ⟨"fixed_height should not be smaller than current height"⟩
    else .ok (padUp merger v (h + 1) (F - h))

/-- The root a tree should have, as a function of its mode and items. -/
def rootVal (hasher : I → Meta → H) (merger : Option H → Option H → Meta → Option H) (fixed : Option Nat)
    (items : List I) : Except Panic (Option H) :=
  let h := calcHeight items.length
  match fixed with
  | none => .ok (subtree hasher merger h 0 items)
  | some F =>
    if F < h then .error ⟨"fixed_height should not be smaller than current height"⟩
    else .ok (padUp merger (subtree hasher merger h 0 items) (h + 1) (F - h))

theorem rootVal_eq (fixed : Option Nat) (items : List I) : rootVal hasher merger fixed items =
    modeRoot merger fixed (calcHeight items.length) (subtree hasher merger (calcHeight items.length) 0 items) := by
  unfold rootVal modeRoot
  cases fixed <;> rfl

theorem root_of_calcRoot {t t' : Tree I H} {v : Option H} (h : t.calcRoot hasher merger = .ok (v, t'))
    (hf : t'.fixed = t.fixed) (hh : t'.height = t.height) :
    (t.root hasher merger).map Prod.fst = modeRoot merger t.fixed t.height v ∧
    (∀ r t'', t.root hasher merger = .ok (r, t'') → t'' = t') := by
  unfold Tree.root modeRoot
  rw [h]
  simp only [bind, Except.bind, hf, hh]
  cases t.fixed with
  | none => exact ⟨rfl, fun r t'' h => by cases h; rfl⟩
  | some F =>
    simp only
    split
    · exact ⟨rfl, fun r t'' h => by cases h⟩
    · simp only [extendRoot_ok]
      exact ⟨rfl, fun r t'' h => by cases h; rfl⟩

/-- The root of every tree, as the code computes it. -/
theorem inv_root_code (htot : Total merger) {t : Tree I H} (ht : Inv hasher merger t) (ha : ¬ Aborts t.leafs.length) :
    (t.root hasher merger).map Prod.fst =
      modeRoot merger t.fixed t.height (codeVal hasher merger t.items t.height t.height 0 0) ∧
    (∀ r t'', t.root hasher merger = .ok (r, t'') → Inv hasher merger t'' ∧ Extends t t'') := by
  obtain ⟨t', h1, h2, h3, _⟩ := inv_calcRoot htot ht ha
  obtain ⟨a, b⟩ := root_of_calcRoot h1 h3.fixed h3.height
  exact ⟨a, fun r t'' h => by rw [b r t'' h]; exact ⟨h2, h3⟩⟩

theorem inv_root_aborts {t : Tree I H} (ht : Inv hasher merger t) (ha : Aborts t.leafs.length) :
    t.root hasher merger = .error ⟨"attempt to subtract with overflow"⟩ := by
  unfold Tree.root
  rw [inv_calcRoot_aborts ht ha]; rfl

theorem codeVal_root {t : Tree I H} (ht : Inv hasher merger t) (h28 : t.leafs.length ≤ 2 ^ 28) :
    codeVal hasher merger t.items t.height t.height 0 0 = subtree hasher merger t.height 0 t.items := by
  have hlen : t.items.length ≤ 2 ^ t.height := by
    rw [ht.height]; simp only [Tree.items, List.length_map]; exact (leastHeight_calcHeight _).1
  rw [codeVal_eq _ (by rw [ht.height]; exact calcHeight_le h28) _ _ _ (by omega) (by decide)]
  unfold nodeVal
  rw [slice_whole _ _ hlen]

theorem inv_root (htot : Total merger) {t : Tree I H} (ht : Inv hasher merger t) (h28 : t.items.length < 2 ^ 28) :
    (t.root hasher merger).map Prod.fst = rootVal hasher merger t.fixed t.items ∧
    (∀ r t'', t.root hasher merger = .ok (r, t'') → Inv hasher merger t'' ∧ Extends t t'') := by
  have hlen : t.leafs.length = t.items.length := by simp [Tree.items]
  rw [← hlen] at h28
  obtain ⟨a, b⟩ := inv_root_code htot ht (not_aborts_of_lt h28)
  refine ⟨?_, b⟩
  rw [a, rootVal_eq, codeVal_root ht (Nat.le_of_lt h28), ← hlen, ← ht.height]

/-! ### Values along a path -/

/-- The position at depth `dd` of the path from leaf `p` in a tree of height `F`. -/
def pos (F p dd : Nat) : Nat := p / 2 ^ (F - dd)

/-- The sibling position. -/
def sib (j : Nat) : Nat := if j % 2 = 0 then j + 1 else j - 1

/-- The hash at depth `dd` of the path from leaf `p`, in a tree of actual height `V` that is the
leftmost subtree of one of height `V + e`. -/
def pathVal (hasher : I → Meta → H) (merger : Option H → Option H → Meta → Option H) (items : List I)
    (V e p dd : Nat) : Option H :=
  if e ≤ dd then nodeVal hasher merger items (V + e - dd) (dd - e) (pos (V + e) p dd)
  else padUp merger (nodeVal hasher merger items V 0 0) (V + 1) (e - dd)

/-- The hash of the sibling at depth `dd`. -/
def sibVal (hasher : I → Meta → H) (merger : Option H → Option H → Meta → Option H) (items : List I)
    (V e p dd : Nat) : Option H :=
  if e < dd then nodeVal hasher merger items (V + e - dd) (dd - e) (sib (pos (V + e) p dd)) else none

theorem pos_succ {F p dd : Nat} (h : dd + 1 ≤ F) : pos F p dd = pos F p (dd + 1) / 2 := by
  unfold pos
  rw [← div_pow_succ, show F - (dd + 1) + 1 = F - dd by omega]

theorem pos_lt {F p dd : Nat} (hp : p < 2 ^ F) (h : dd ≤ F) : pos F p dd < 2 ^ dd := by
  have := div_pow_lt hp (show F - dd ≤ F by omega)
  rwa [show F - (F - dd) = dd by omega] at this

theorem pos_virtual {V e p dd : Nat} (hp : p < 2 ^ V) (h : dd ≤ e) : pos (V + e) p dd = 0 := by
  unfold pos
  apply Nat.div_eq_of_lt
  have := pow_mono (show V ≤ V + e - dd by omega)
  omega

/-- One level of the path. -/
theorem pathVal_step (hdep : IgnoresDepth merger ∨ e = 0) {items : List I} {V p dd : Nat} (hp : p < 2 ^ V)
    (hd : dd + 1 ≤ V + e) :
    pathVal hasher merger items V e p dd =
      if pos (V + e) p (dd + 1) % 2 = 0 then
        merger (pathVal hasher merger items V e p (dd + 1)) (sibVal hasher merger items V e p (dd + 1)) ⟨dd, V + e - dd⟩
      else
        merger (sibVal hasher merger items V e p (dd + 1)) (pathVal hasher merger items V e p (dd + 1)) ⟨dd, V + e - dd⟩ := by
  have hdepth : ∀ l r d h, (e = 0 → d = dd) → merger l r ⟨d, h⟩ = merger l r ⟨dd, h⟩ := by
    intro l r d h hd
    rcases hdep with hi | h0
    · exact hi _ _ _ _ _
    · rw [hd h0]
  unfold pathVal sibVal
  by_cases he : e ≤ dd
  · rw [if_pos he, if_pos (show e ≤ dd + 1 by omega), if_pos (show e < dd + 1 by omega)]
    rw [show V + e - dd = (V + e - (dd + 1)) + 1 by omega, nodeVal_succ, pos_succ hd,
      show dd + 1 - e = dd - e + 1 by omega]
    rw [hdepth _ _ _ _ (by omega)]
    unfold sib
    rcases Nat.mod_two_eq_zero_or_one (pos (V + e) p (dd + 1)) with hm | hm
    · rw [if_pos hm, if_pos hm, show 2 * (pos (V + e) p (dd + 1) / 2) = pos (V + e) p (dd + 1) by omega]
    · rw [if_neg (by omega), if_neg (by omega), show 2 * (pos (V + e) p (dd + 1) / 2) + 1 = pos (V + e) p (dd + 1) by omega,
        show 2 * (pos (V + e) p (dd + 1) / 2) = pos (V + e) p (dd + 1) - 1 by omega]
  · rw [if_neg he, if_neg (show ¬ e < dd + 1 by omega)]
    have hz := pos_virtual (V := V) (e := e) (p := p) (dd := dd + 1) hp (by omega)
    rw [hz, if_pos rfl, show e - dd = (e - (dd + 1)) + 1 by omega, padUp_succ]
    rw [hdepth _ _ _ _ (by omega), show V + 1 + (e - (dd + 1)) = V + e - dd by omega]
    by_cases he1 : e ≤ dd + 1
    · rw [if_pos he1]
      have : e = dd + 1 := by omega
      subst this
      rw [Nat.sub_self]
      simp only [padUp]
      rw [show V + (dd + 1) - (dd + 1) = V by omega]
    · rw [if_neg he1]

/-- The peers of the path, from depth `dd` up to the root. -/
def peerIdx (F p : Nat) : Nat → List Nat
  | 0 => []
  | dd + 1 => idx (dd + 1) (sib (pos F p (dd + 1))) :: peerIdx F p dd

/-- Their hashes. -/
def peerVal (hasher : I → Meta → H) (merger : Option H → Option H → Meta → Option H) (items : List I)
    (V e p : Nat) : Nat → List (Option H)
  | 0 => []
  | dd + 1 => sibVal hasher merger items V e p (dd + 1) :: peerVal hasher merger items V e p dd

theorem peerIdx_length (F p dd : Nat) : (peerIdx F p dd).length = dd := by
  induction dd with
  | zero => rfl
  | succ dd ih => simp [peerIdx, ih]

theorem peerVal_length (items : List I) (V e p dd : Nat) : (peerVal hasher merger items V e p dd).length = dd := by
  induction dd with
  | zero => rfl
  | succ dd ih => simp [peerVal, ih]

theorem orderedSiblings_path {F p dd : Nat} (h v : Option H) :
    orderedSiblings (idx (dd + 1) (pos F p (dd + 1))) h (idx (dd + 1) (sib (pos F p (dd + 1)))) v =
      .ok (if pos F p (dd + 1) % 2 = 0 then (h, v) else (v, h)) := by
  unfold orderedSiblings sib
  rcases Nat.mod_two_eq_zero_or_one (pos F p (dd + 1)) with hm | hm
  · rw [if_pos hm, if_pos hm, if_pos (by simp only [idx]; omega)]
  · rw [if_neg (by omega : ¬ pos F p (dd + 1) % 2 = 0), if_neg (by omega : ¬ pos F p (dd + 1) % 2 = 0),
      if_neg (by simp only [idx]; omega), if_pos (by simp only [idx]; omega)]

/-- The indices proofs use do not overflow. -/
theorem idx_no_overflow {d j : Nat} (hd : d < 64) (hj : j + 1 < 2 ^ 28) : ¬ 2 ^ 64 ≤ idx d j + 2 := by
  have : 2 ^ d ≤ 2 ^ 63 := Nat.pow_le_pow_right (by omega) (by omega)
  unfold idx; omega

theorem parentIndex_idx (dd j : Nat) : parentIndex (idx (dd + 1) j) = .ok (idx dd (j / 2)) := by
  unfold parentIndex
  rw [if_neg (by have := idx_pos (dd + 1) j (by omega); omega), idx_parent]

theorem regular_pos {F p dd : Nat} (hp : p + 1 < 2 ^ 28) (h : dd ≤ F) : ¬ Irregular dd (pos F p dd) := by
  have := regular_ancestor (F := F) (k := F - dd) hp
  rwa [show F - (F - dd) = dd by omega] at this

/-- Folding the peers up the path gives the root. -/
theorem rootLoop_path (hdep : IgnoresDepth merger ∨ e = 0) {items : List I} {V p : Nat} (hp : p < 2 ^ V)
    (hp28 : p + 1 < 2 ^ 28) (dd : Nat) (hd : dd ≤ V + e) :
    rootLoop merger (V + e) (idx dd (pos (V + e) p dd)) (pathVal hasher merger items V e p dd)
      (peerIdx (V + e) p dd) (peerVal hasher merger items V e p dd) = .ok (pathVal hasher merger items V e p 0) := by
  induction dd with
  | zero => rfl
  | succ dd ih =>
    have hpF : p < 2 ^ (V + e) := Nat.lt_of_lt_of_le hp (pow_mono (by omega))
    unfold peerIdx peerVal rootLoop
    rw [orderedSiblings_path]
    simp only [bind, Except.bind]
    rw [parentIndex_idx, ← pos_succ hd]
    simp only [liftPanic]
    rw [meta_regular (pos_lt hpF (by omega)) (regular_pos hp28 (by omega)) (by omega)]
    simp only
    rw [← ih (by omega)]
    congr 1
    rw [pathVal_step hdep hp hd]
    split <;> rfl

/-- Soundness of one authentication path: with an injective merger, a path that ends in the right
root starts with the right hash. -/
theorem rootLoop_sound (hdep : IgnoresDepth merger ∨ e = 0) (htot : Total merger) (hinj : MergeInjective merger)
    {items : List I} {V p : Nat} (hp : p < 2 ^ V) (hp28 : p + 1 < 2 ^ 28) (dd : Nat) :
    ∀ (hd : dd ≤ V + e) (x y : H) (ps : List Nat) (qs : List (Option H)), ps.length = dd →
    ProperPeers (idx dd (pos (V + e) p dd)) ps →
    rootLoop merger (V + e) (idx dd (pos (V + e) p dd)) (some x) ps qs = .ok (pathVal hasher merger items V e p 0) →
    pathVal hasher merger items V e p dd = some y → x = y := by
  induction dd with
  | zero =>
    intro hd x y ps qs hl _ hr hy
    rw [List.length_eq_zero_iff.mp hl] at hr
    simp only [rootLoop] at hr
    rw [hy] at hr
    cases hr; rfl
  | succ dd ih =>
    intro hd x y ps qs hl hprop hr hy
    have hpF : p < 2 ^ (V + e) := Nat.lt_of_lt_of_le hp (pow_mono (by omega))
    cases ps with
    | nil => simp at hl
    | cons q ps =>
      cases qs with
      | nil => simp [rootLoop] at hr
      | cons v qs =>
        simp only [ProperPeers] at hprop
        obtain ⟨hq, hprop⟩ := hprop
        rw [idx_parent, ← pos_succ hd] at hprop
        have hq' : q = idx (dd + 1) (sib (pos (V + e) p (dd + 1))) := by
          rw [hq, idx_odd _ _ (by omega)]
          unfold sib
          rcases Nat.mod_two_eq_zero_or_one (pos (V + e) p (dd + 1)) with hm | hm
          · rw [if_pos (by omega), if_pos hm]; simp only [idx]; omega
          · rw [if_neg (by omega), if_neg (by omega)]; simp only [idx]; omega
        unfold rootLoop at hr
        rw [hq', orderedSiblings_path] at hr
        simp only [bind, Except.bind] at hr
        rw [parentIndex_idx, ← pos_succ hd] at hr
        simp only [liftPanic] at hr
        rw [meta_regular (pos_lt hpF (by omega)) (regular_pos hp28 (by omega)) (by omega)] at hr
        simp only at hr
        have hstep := pathVal_step (hasher := hasher) (items := items) hdep hp hd
        rw [hy] at hstep
        rcases Nat.mod_two_eq_zero_or_one (pos (V + e) p (dd + 1)) with hm | hm
        · rw [if_pos hm] at hr hstep
          obtain ⟨z, hz⟩ := Option.isSome_iff_exists.mp (htot (some x) v ⟨dd, V + e - dd⟩)
          obtain ⟨w, hw⟩ := Option.isSome_iff_exists.mp
            (htot (some y) (sibVal hasher merger items V e p (dd + 1)) ⟨dd, V + e - dd⟩)
          simp only [hz] at hr
          rw [hw] at hstep
          have := ih (by omega) z w ps qs (by simpa using hl) hprop hr hstep
          subst this
          exact (hinj _ _ _ _ _ (hz.trans hw.symm)).1 x y rfl rfl
        · have hm' : ¬ pos (V + e) p (dd + 1) % 2 = 0 := by omega
          rw [if_neg hm'] at hr hstep
          obtain ⟨z, hz⟩ := Option.isSome_iff_exists.mp (htot v (some x) ⟨dd, V + e - dd⟩)
          obtain ⟨w, hw⟩ := Option.isSome_iff_exists.mp
            (htot (sibVal hasher merger items V e p (dd + 1)) (some y) ⟨dd, V + e - dd⟩)
          simp only [hz] at hr
          rw [hw] at hstep
          have := ih (by omega) z w ps qs (by simpa using hl) hprop hr hstep
          subst this
          exact (hinj _ _ _ _ _ (hz.trans hw.symm)).2 x y rfl rfl

/-! ### `get_proof` -/

theorem cached_all {t : Tree I H} (hc : Closed t) (h0 : Cached t 0 0) (d : Nat) : ∀ j, d ≤ t.height → j < 2 ^ d →
    Cached t d j := by
  induction d with
  | zero =>
    intro j _ hj
    have : j = 0 := by simp at hj; omega
    subst this; exact h0
  | succ d ih =>
    intro j hd hj
    have hj2 : j / 2 < 2 ^ d := by rw [Nat.pow_succ] at hj; omega
    obtain ⟨x, hx⟩ := (ih (j / 2) (by omega) hj2).1 (by omega)
    have := hc d (j / 2) x (by omega) hj2 hx
    rcases Nat.mod_two_eq_zero_or_one j with hm | hm
    · rw [show j = 2 * (j / 2) by omega]; exact this.1
    · rw [show j = 2 * (j / 2) + 1 by omega]; exact this.2

theorem sib_lt {d j : Nat} (hd : 0 < d) (hj : j < 2 ^ d) : sib j < 2 ^ d := by
  obtain ⟨d, rfl⟩ : ∃ k, d = k + 1 := ⟨d - 1, by omega⟩
  rw [Nat.pow_succ] at *
  unfold sib
  split <;> omega

theorem proofLoop_path {t : Tree I H} (hcache : CacheOK hasher merger t) (hcl : Closed t) (h0 : Cached t 0 0)
    (h28 : t.height ≤ 28) {e p : Nat} (hp : p < 2 ^ t.height) (dd : Nat) (hd : dd < t.height + e) :
    proofLoop t.nodes (if e ≤ dd then idx (dd - e) (pos (t.height + e) p dd) else 0)
      (idx dd (pos (t.height + e) p dd)) =
      .ok (peerIdx (t.height + e) p dd, peerVal hasher merger t.items t.height e p dd) := by
  have hpF : p < 2 ^ (t.height + e) := Nat.lt_of_lt_of_le hp (pow_mono (by omega))
  induction dd with
  | zero =>
    have hz : pos (t.height + e) p 0 = 0 := by
      have := pos_lt hpF (show 0 ≤ t.height + e by omega)
      simpa using this
    unfold proofLoop
    rw [hz, dif_pos (by rfl)]; rfl
  | succ dd ih =>
    have ih := ih (by omega)
    have hpp := pos_lt hpF (show dd + 1 ≤ t.height + e by omega)
    unfold proofLoop
    rw [dif_neg (by have := idx_pos (dd + 1) (pos (t.height + e) p (dd + 1)) (by omega); omega)]
    by_cases he : e ≤ dd
    · have hpos : 0 < idx (dd + 1 - e) (pos (t.height + e) p (dd + 1)) := idx_pos _ _ (by omega)
      rw [if_pos (show e ≤ dd + 1 by omega), if_pos hpos]
      have hlt : pos (t.height + e) p (dd + 1) < 2 ^ (dd + 1 - e) := by
        have := div_pow_lt hp (show t.height + e - (dd + 1) ≤ t.height by omega)
        unfold pos
        rwa [show t.height - (t.height + e - (dd + 1)) = dd + 1 - e by omega] at this
      have hpeer : (if idx (dd + 1 - e) (pos (t.height + e) p (dd + 1)) % 2 = 0
            then idx (dd + 1 - e) (pos (t.height + e) p (dd + 1)) - 1
            else idx (dd + 1 - e) (pos (t.height + e) p (dd + 1)) + 1) =
          idx (dd + 1 - e) (sib (pos (t.height + e) p (dd + 1))) := by
        rw [idx_odd _ _ (by omega)]
        unfold sib
        rcases Nat.mod_two_eq_zero_or_one (pos (t.height + e) p (dd + 1)) with hm | hm
        · rw [if_neg (by omega), if_pos hm]; simp only [idx]; omega
        · rw [if_pos (by omega), if_neg (by omega)]; simp only [idx]; omega
      simp only [hpeer]
      have hsl := sib_lt (show 0 < dd + 1 - e by omega) hlt
      obtain ⟨x, hx⟩ := (cached_all hcl h0 (dd + 1 - e) _ (by omega) hsl).1 (by omega)
      have hval := hcache.node _ _ x (by omega) hsl hx
      rw [codeVal_eq _ h28 _ _ _ (by omega) hsl] at hval
      rw [hx]
      simp only
      rw [show dd + 1 - e = (dd - e) + 1 by omega, idx_parent, idx_parent, ← pos_succ (by omega)]
      rw [if_pos he] at ih
      rw [ih]
      simp only [bind, Except.bind, peerIdx, peerVal]
      congr 3
      · unfold sib
        split <;> simp only [idx] <;> omega
      · unfold sibVal
        rw [if_pos (by omega), ← hval]
        congr 1; omega
    · have hz := pos_virtual (V := t.height) (e := e) (p := p) (dd := dd + 1) hp (by omega)
      have hz' := pos_virtual (V := t.height) (e := e) (p := p) (dd := dd) hp (by omega)
      have h00 : (if e ≤ dd + 1 then idx (dd + 1 - e) (pos (t.height + e) p (dd + 1)) else 0) = 0 := by
        split
        · rw [hz, show dd + 1 - e = 0 by omega]; rfl
        · rfl
      rw [h00, if_neg (Nat.lt_irrefl 0), hz, idx_parent]
      rw [if_neg he, hz'] at ih
      simp only [Nat.zero_div]
      rw [ih]
      simp only [bind, Except.bind, peerIdx, peerVal, hz]
      congr 3
      unfold sibVal
      rw [if_neg (by omega)]

theorem getProof_ok (htot : Total merger) (hstable : LeafHashStable hasher) {t : Tree I H}
    (ht : Inv hasher merger t) {e : Nat} (hF : t.fixed.getD t.height = t.height + e) (hF64 : t.height + e < 64)
    (hdep : IgnoresDepth merger ∨ e = 0) {p : Nat} (hp : p < t.leafs.length) (h2 : 2 ≤ t.leafs.length)
    (h28 : t.leafs.length < 2 ^ 28) :
    ∃ t' item root, t.getProof hasher merger p = .ok (some ⟨idx (t.height + e) p, item, peerIdx (t.height + e) p (t.height + e),
        peerVal hasher merger t.items t.height e p (t.height + e)⟩, t') ∧
      Inv hasher merger t' ∧ Extends t t' ∧ t.items[p]? = some item ∧
      pathVal hasher merger t.items t.height e p 0 = some root ∧
      Proof.rootHash hasher merger ⟨idx (t.height + e) p, item, peerIdx (t.height + e) p (t.height + e),
        peerVal hasher merger t.items t.height e p (t.height + e)⟩ = .ok root := by
  obtain ⟨t', hcr, hinv, hext, hc0⟩ := inv_calcRoot htot ht (not_aborts_of_lt h28)
  rw [codeVal_root ht (Nat.le_of_lt h28)] at hcr
  have hV : 0 < t.height := by
    rw [ht.height]
    apply Nat.pos_of_ne_zero; intro h0
    have := (leastHeight_calcHeight t.leafs.length).1
    rw [h0] at this; simp at this; omega
  have hcap : t.leafs.length ≤ 2 ^ t.height := by rw [ht.height]; exact (leastHeight_calcHeight _).1
  have hpV : p < 2 ^ t.height := by omega
  have hpF : p < 2 ^ (t.height + e) := Nat.lt_of_lt_of_le hpV (pow_mono (by omega))
  have hp28 : p + 1 < 2 ^ 28 := by omega
  have hleafs : p < t'.leafs.length := by rw [hext.leafs_length]; exact hp
  obtain ⟨item, c, hitem'⟩ : ∃ item c, t'.leafs[p]? = some (item, c) :=
    ⟨t'.leafs[p].1, t'.leafs[p].2, List.getElem?_eq_getElem hleafs⟩
  have hitem : t.items[p]? = some item := by
    rw [← hext.items]; simp [Tree.items, hitem']
  -- the root is a hash
  have hroot : ∃ r, pathVal hasher merger t.items t.height e p 0 = some r := by
    rw [pathVal_step hdep hpV (by omega)]
    split <;> exact Option.isSome_iff_exists.mp (htot _ _ _)
  obtain ⟨root, hroot⟩ := hroot
  have hsub : ∃ r, subtree hasher merger t.height 0 t.items = some r := by
    obtain ⟨k, hk⟩ : ∃ k, t.height = k + 1 := ⟨t.height - 1, by omega⟩
    rw [hk]; exact Option.isSome_iff_exists.mp (htot _ _ _)
  obtain ⟨r, hr⟩ := hsub
  have hposF : pos (t.height + e) p (t.height + e) = p := by simp [pos]
  have hloop := rootLoop_path (hasher := hasher) (items := t.items) hdep hpV hp28 (t.height + e) (Nat.le_refl _)
  have hpv : pathVal hasher merger t.items t.height e p (t.height + e) = some (hasher item ⟨t.height + e, 0⟩) := by
    unfold pathVal
    rw [if_pos (by omega), Nat.sub_self, nodeVal_zero, hposF, hitem]
    simp only [Option.map_some]
    rw [hstable]
  refine ⟨t', item, root, ?_, hinv, hext, hitem, hroot, ?_⟩
  · unfold Tree.getProof
    rw [hcr]
    simp only [bind, Except.bind, hr, hext.fixed, hext.height, hF]
    rw [if_neg (by omega), hitem']
    simp only
    have hpi : parentIndex (t'.nodes.length + p) = .ok (idx (t.height - 1) (p / 2)) := by
      rw [hinv.cache.len, hext.height]
      have := parentIndex_idx (t.height - 1) p
      rw [show t.height - 1 + 1 = t.height by omega] at this
      exact this
    have hpo : parentIndex (nodeCount (t.height + e) + p) = .ok (idx (t.height + e - 1) (p / 2)) := by
      have := parentIndex_idx (t.height + e - 1) p
      rw [show t.height + e - 1 + 1 = t.height + e by omega] at this
      exact this
    rw [hpi, hpo]
    simp only
    have hpl := proofLoop_path hinv.cache hinv.closed hc0 (by rw [hext.height, ht.height]; exact calcHeight_le (Nat.le_of_lt h28)) (e := e) (p := p) (by rw [hext.height]; exact hpV)
      (t.height + e - 1) (by rw [hext.height]; omega)
    rw [hext.height, if_pos (by omega), pos_succ (by omega), show t.height + e - 1 + 1 = t.height + e by omega,
      hposF, show t.height + e - 1 - e = t.height - 1 by omega, hext.items] at hpl
    rw [hpl]
    simp only
    have hpeerhash : t'.leafHash (if p % 2 = 0 then p + 1 else p - 1) =
        sibVal hasher merger t.items t.height e p (t.height + e) := by
      unfold sibVal
      rw [if_pos (Nat.lt_add_of_pos_left hV), Nat.sub_self, nodeVal_zero, hposF]
      change t'.leafHash (sib p) = _
      unfold Tree.leafHash
      cases hs : t'.leafs[sib p]? with
      | none =>
        have : t.items[sib p]? = none := by rw [← hext.items]; simp [Tree.items, hs]
        rw [this]; rfl
      | some q =>
        obtain ⟨x, c⟩ := q
        have hx : t.items[sib p]? = some x := by rw [← hext.items]; simp [Tree.items, hs]
        have hsl : sib p < 2 ^ t'.height := by rw [hext.height]; exact sib_lt hV hpV
        obtain ⟨h, rfl⟩ := (cached_all hinv.closed hc0 t'.height (sib p) (Nat.le_refl _) hsl).2 rfl x c hs
        rw [hx]
        simp only [Option.map_some, Option.some.injEq]
        rw [hinv.cache.leaf _ _ _ hs, hext.height, show t.height + e - e = t.height by omega]
    have hidx : nodeCount (t.height + e) + p = idx (t.height + e) p := rfl
    have hidx2 : nodeCount (t.height + e) + (if p % 2 = 0 then p + 1 else p - 1) =
        idx (t.height + e) (sib (pos (t.height + e) p (t.height + e))) := by rw [hposF]; rfl
    have hpi2 : (idx (t.height + e) (sib (pos (t.height + e) p (t.height + e))) :: peerIdx (t.height + e) p (t.height + e - 1)) =
        peerIdx (t.height + e) p (t.height + e) := by
      obtain ⟨k, hk⟩ : ∃ k, t.height + e = k + 1 := ⟨t.height + e - 1, by omega⟩
      rw [hk]; rfl
    have hpv2 : (sibVal hasher merger t.items t.height e p (t.height + e) ::
          peerVal hasher merger t.items t.height e p (t.height + e - 1)) =
        peerVal hasher merger t.items t.height e p (t.height + e) := by
      have : ∀ n, 0 < n → peerVal hasher merger t.items t.height e p n =
          sibVal hasher merger t.items t.height e p n :: peerVal hasher merger t.items t.height e p (n - 1) := by
        intro n hn
        obtain ⟨k, rfl⟩ : ∃ k, n = k + 1 := ⟨n - 1, by omega⟩
        rfl
      exact (this _ (by omega)).symm
    rw [hpeerhash, hidx2, hidx, hpi2, hpv2]
    unfold Proof.new
    rw [if_neg, if_neg, if_neg]
    · intro h
      have := congrArg List.length h
      rw [peerIdx_length] at this; simp at this; omega
    · rw [peerIdx_length, peerVal_length]; simp
    · have := idx_pos (t.height + e) p (by omega); omega
  · unfold Proof.rootHash
    rw [if_pos (idx_pos _ _ (by omega)), if_neg (idx_no_overflow hF64 hp28)]
    simp only [peerIdx_length]
    have hm := meta_regular (d := t.height + e) (j := p) hpF (by have := regular_pos hp28 (Nat.le_refl (t.height + e)); rwa [hposF] at this) (Nat.le_refl _)
    rw [Nat.sub_self] at hm
    rw [hm]
    simp only [liftPanic, bind, Except.bind]
    rw [hposF, hpv] at hloop
    rw [hloop, hroot]

/-- What a path value at the top is. -/
theorem pathVal_zero (items : List I) (V e p : Nat) (hp : p < 2 ^ V) (hlen : items.length ≤ 2 ^ V) :
    pathVal hasher merger items V e p 0 = padUp merger (subtree hasher merger V 0 items) (V + 1) e := by
  have hn : nodeVal hasher merger items V 0 0 = subtree hasher merger V 0 items := by
    unfold nodeVal; rw [slice_whole _ _ hlen]
  unfold pathVal
  by_cases he : e ≤ 0
  · have : e = 0 := by omega
    subst this
    have hz : pos (V + 0) p 0 = 0 := pos_virtual hp (Nat.le_refl 0)
    rw [if_pos (Nat.le_refl 0), hz]
    exact hn
  · rw [if_neg he, hn]; rfl

end MinaRs.Merkle
