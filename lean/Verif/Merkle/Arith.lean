import Verif.Merkle.Spec

/-! Arithmetic of heap indices and of the metadata (helper lemmas). -/

namespace MinaRs.Merkle
open Spec

/-- The index of the node at depth `d`, position `j` from the left. -/
def idx (d j : Nat) : Nat := 2 ^ d - 1 + j

theorem two_pow_pos (d : Nat) : 0 < 2 ^ d := Nat.pos_of_ne_zero (by simp)

theorem idx_left (d j : Nat) : idx d j * 2 + 1 = idx (d + 1) (2 * j) := by
  have := two_pow_pos d
  simp only [idx, Nat.pow_succ]; omega

theorem idx_right (d j : Nat) : idx d j * 2 + 2 = idx (d + 1) (2 * j + 1) := by
  have := two_pow_pos d
  simp only [idx, Nat.pow_succ]; omega

theorem idx_parent (d j : Nat) : (idx (d + 1) j - 1) / 2 = idx d (j / 2) := by
  have := two_pow_pos d
  simp only [idx, Nat.pow_succ]; omega

theorem idx_pos (d j : Nat) (h : 0 < d) : 0 < idx d j := by
  have : 2 ^ 1 ≤ 2 ^ d := Nat.pow_le_pow_right (by decide) h
  simp only [idx]; omega

theorem idx_zero (d : Nat) : idx d 0 = 0 ↔ d = 0 := by
  constructor
  · intro h
    rcases Nat.eq_zero_or_pos d with hd | hd
    · exact hd
    · have := idx_pos d 0 hd; omega
  · rintro rfl; rfl

theorem idx_odd (d j : Nat) (h : 0 < d) : idx d j % 2 = 1 - j % 2 := by
  obtain ⟨d, rfl⟩ : ∃ e, d = e + 1 := ⟨d - 1, by omega⟩
  have := two_pow_pos d
  simp only [idx, Nat.pow_succ]; omega

theorem pow_mono {a b : Nat} (h : a ≤ b) : 2 ^ a ≤ 2 ^ b := Nat.pow_le_pow_right (by decide) h

theorem idx_lt {d h j : Nat} (hd : d < h) (hj : j < 2 ^ d) : idx d j < 2 ^ h - 1 := by
  have := pow_mono (show d + 1 ≤ h by omega)
  rw [Nat.pow_succ] at this
  simp only [idx]; omega

theorem idx_inj {d d' j j' : Nat} (hj : j < 2 ^ d) (hj' : j' < 2 ^ d') (h : idx d j = idx d' j') :
    d = d' ∧ j = j' := by
  have hd : d = d' := by
    apply Nat.le_antisymm
    · apply Nat.le_of_not_lt; intro hlt
      have := idx_lt hlt hj'
      simp only [idx] at this h; omega
    · apply Nat.le_of_not_lt; intro hlt
      have := idx_lt hlt hj
      simp only [idx] at this h; omega
  subst hd
  simp only [idx] at h
  exact ⟨rfl, by omega⟩

/-- Every index is the index of some node. -/
theorem exists_idx (h i : Nat) (hi : i < 2 ^ h - 1) : ∃ d j, d < h ∧ j < 2 ^ d ∧ i = idx d j := by
  induction h with
  | zero => simp at hi
  | succ h ih =>
    by_cases hlt : i < 2 ^ h - 1
    · obtain ⟨d, j, hd, hj, rfl⟩ := ih hlt
      exact ⟨d, j, by omega, hj, rfl⟩
    · refine ⟨h, i - (2 ^ h - 1), by omega, ?_, ?_⟩
      · rw [Nat.pow_succ] at hi; omega
      · simp only [idx]; omega

theorem div_pow_succ (p k : Nat) : p / 2 ^ (k + 1) = p / 2 ^ k / 2 := by
  rw [Nat.pow_succ, Nat.div_div_eq_div_mul]

theorem div_pow_lt {p h k : Nat} (hp : p < 2 ^ h) (hk : k ≤ h) : p / 2 ^ k < 2 ^ (h - k) := by
  rw [Nat.div_lt_iff_lt_mul (two_pow_pos k), ← Nat.pow_add]
  rwa [show h - k + k = h by omega]

/-! ### Logarithms -/

theorem le_two_pow_ceilLog2 (n : Nat) : n ≤ 2 ^ ceilLog2 n := by
  unfold ceilLog2
  split
  · simpa using ‹n ≤ 1›
  · have := @Nat.lt_log2_self (n - 1)
    omega

theorem ceilLog2_le {n k : Nat} (h : n ≤ 2 ^ k) : ceilLog2 n ≤ k := by
  unfold ceilLog2
  split
  · omega
  · have h0 : n - 1 ≠ 0 := by omega
    have : Nat.log2 (n - 1) < k := (Nat.log2_lt h0).mpr (by omega)
    omega

theorem leastHeight_unique {n h h' : Nat} (a : LeastHeight n h) (b : LeastHeight n h') : h = h' :=
  Nat.le_antisymm (a.2 _ b.1) (b.2 _ a.1)

theorem leastHeight_ceilLog2 (n : Nat) : LeastHeight n (ceilLog2 n) :=
  ⟨le_two_pow_ceilLog2 n, fun _ => ceilLog2_le⟩

theorem calcHeight_eq (n : Nat) : calcHeight n = ceilLog2 n := by
  unfold calcHeight
  split
  · unfold ceilLog2; rw [if_pos (by omega)]
  · rfl

theorem leastHeight_calcHeight (n : Nat) : LeastHeight n (calcHeight n) := by
  rw [calcHeight_eq]; exact leastHeight_ceilLog2 n

/-- An index the floating point computation gets wrong: the last node at depth 28, 30, 38 or 46. -/
def Irregular (d j : Nat) : Prop := j + 1 = 2 ^ d ∧ d + 1 ∈ roundsUp

instance (d j : Nat) : Decidable (Irregular d j) := inferInstanceAs (Decidable (_ ∧ _))

theorem ceilLog2_idx {d j : Nat} (hj : j < 2 ^ d) : ceilLog2 (idx d j + 2) = d + 1 := by
  apply leastHeight_unique (leastHeight_ceilLog2 _)
  have := two_pow_pos d
  refine ⟨by simp only [idx, Nat.pow_succ]; omega, fun k hk => ?_⟩
  apply Nat.le_of_not_lt; intro hlt
  have := pow_mono (show k ≤ d by omega)
  simp only [idx] at hk; omega

theorem nodeDepth_idx {d j : Nat} (hj : j < 2 ^ d) :
    nodeDepth (idx d j) = if Irregular d j then d + 1 else d := by
  have hp := two_pow_pos d
  unfold nodeDepth floatCeilLog2
  rw [ceilLog2_idx hj]
  have : (idx d j + 2 = 2 ^ (d + 1)) ↔ j + 1 = 2 ^ d := by
    simp only [idx, Nat.pow_succ]; omega
  by_cases hi : Irregular d j
  · rw [if_pos hi, if_pos]; rfl
    simp only [Bool.and_eq_true, List.contains_iff_mem, beq_iff_eq]
    exact ⟨hi.2, this.mpr hi.1⟩
  · rw [if_neg hi, if_neg]; rfl
    simp only [Bool.and_eq_true, List.contains_iff_mem, beq_iff_eq]
    exact fun h => hi ⟨this.mp h.2, h.1⟩

theorem nodeDepth_regular {d j : Nat} (hj : j < 2 ^ d) (h : ¬ Irregular d j) : nodeDepth (idx d j) = d := by
  rw [nodeDepth_idx hj, if_neg h]

theorem meta_regular {d j h : Nat} (hj : j < 2 ^ d) (hr : ¬ Irregular d j) (hd : d ≤ h) :
    Meta.new (idx d j) h = .ok ⟨d, h - d⟩ := by
  unfold Meta.new
  rw [nodeDepth_regular hj hr, if_pos hd]

theorem regular_of_le {d j : Nat} (h : d ≤ 27) : ¬ Irregular d j := by
  rintro ⟨_, h2⟩
  simp only [roundsUp, List.mem_cons, List.not_mem_nil, or_false] at h2
  omega

theorem meta_inner {d j h : Nat} (hj : j < 2 ^ d) (hd : d < h) :
    Meta.new (idx d j) h = .ok ⟨nodeDepth (idx d j), h - nodeDepth (idx d j)⟩ := by
  unfold Meta.new
  rw [if_pos]
  rw [nodeDepth_idx hj]
  split <;> omega

theorem meta_leaf_panics {h j : Nat} (hj : j < 2 ^ h) (hi : Irregular h j) :
    Meta.new (idx h j) h = .error ⟨"attempt to subtract with overflow"⟩ := by
  unfold Meta.new
  rw [nodeDepth_idx hj, if_pos hi, if_neg (by omega)]

/-- Only the last node of a level as deep as 28 can be irregular. -/
theorem regular_of_lt {d j : Nat} (h : j + 1 < 2 ^ 28) : ¬ Irregular d j := by
  rintro ⟨h1, h2⟩
  have hd : 28 ≤ d := by
    simp only [roundsUp, List.mem_cons, List.not_mem_nil, or_false] at h2
    omega
  have := pow_mono hd
  omega

/-- Ancestors of the first 2^28 - 1 leaves of a tree of any height are regular. -/
theorem regular_ancestor {p F k : Nat} (hp : p + 1 < 2 ^ 28) :
    ¬ Irregular (F - k) (p / 2 ^ k) := by
  have h3 : p / 2 ^ k ≤ p := Nat.div_le_self _ _
  exact regular_of_lt (by omega)

end MinaRs.Merkle
