import Verif.Merkle.Props

namespace MinaRs.Merkle

open Spec

variable {I H : Type}

theorem fullTree_eq_or_collide (node : Nat → H → H → H) (f g : Nat → H) (k : Nat) : ∀ j,
    fullTree node f k (j * 2 ^ k) = fullTree node g k (j * 2 ^ k) →
    (∀ i, i < 2 ^ k → f (j * 2 ^ k + i) = g (j * 2 ^ k + i)) ∨
    ∃ k' j', k' < k ∧ j' / 2 ^ (k - (k' + 1)) = j ∧ Collide node (k' + 1) (children node f k' j') (children node g k' j') := by
  induction k with
  | zero =>
    intro j h
    left
    intro i hi
    have : i = 0 := by simp at hi; exact hi
    subst this
    simpa [fullTree] using h
  | succ k ih =>
    intro j h
    have e1 : j * 2 ^ (k + 1) = 2 * j * 2 ^ k := by rw [Nat.pow_succ]; ac_rfl
    have e2 : j * 2 ^ (k + 1) + 2 ^ k = (2 * j + 1) * 2 ^ k := by rw [e1, Nat.add_mul, Nat.one_mul]
    rw [fullTree, fullTree, e2, e1] at h
    by_cases hc : children node f k j = children node g k j
    · obtain ⟨c1, c2⟩ := Prod.mk.inj hc
      rcases ih (2 * j) c1 with a | ⟨k', j', h1, h2, h3⟩
      · rcases ih (2 * j + 1) c2 with b | ⟨k', j', h1, h2, h3⟩
        · left
          intro i hi
          by_cases hi' : i < 2 ^ k
          · rw [e1]; exact a i hi'
          · have := b (i - 2 ^ k) (by rw [Nat.pow_succ] at hi; omega)
            rw [← e2] at this
            rwa [show j * 2 ^ (k + 1) + 2 ^ k + (i - 2 ^ k) = j * 2 ^ (k + 1) + i by omega] at this
        · right
          refine ⟨k', j', by omega, ?_, h3⟩
          rw [show k + 1 - (k' + 1) = (k - (k' + 1)) + 1 by omega, Nat.pow_succ, ← Nat.div_div_eq_div_mul, h2]
          omega
      · right
        refine ⟨k', j', by omega, ?_, h3⟩
        rw [show k + 1 - (k' + 1) = (k - (k' + 1)) + 1 by omega, Nat.pow_succ, ← Nat.div_div_eq_div_mul, h2]
        omega
    · right
      exact ⟨k, j, by omega, by simp, hc, h⟩

theorem fullTree_commits (node : Nat → H → H → H) (f g : Nat → H) (F : Nat) (h : fullTree node f F 0 = fullTree node g F 0) :
    (∀ i, i < 2 ^ F → f i = g i) ∨ TreesCollide node f g F := by
  rcases fullTree_eq_or_collide node f g F 0 (by rwa [Nat.zero_mul]) with a | ⟨k, j, h1, h2, h3⟩
  · left; intro i hi; simpa using a i hi
  · right
    refine ⟨k, j, h1, ?_, h3⟩
    have := two_pow_pos (F - (k + 1))
    exact (Nat.div_eq_zero_iff_lt this).mp h2

theorem padLeaf_commits (hash : I → H) (empty : H) (xs ys : List I) (n : Nat) (hx : xs.length ≤ n) (hy : ys.length ≤ n)
    (h : ∀ i, i < n → padLeaf hash empty xs i = padLeaf hash empty ys i) :
    xs = ys ∨ ItemsCollide hash xs ys ∨ ItemLooksEmpty hash empty xs ys ∨ ItemLooksEmpty hash empty ys xs := by
  by_cases he : xs = ys
  · exact .inl he
  right
  have : ∃ i : Nat, xs[i]? ≠ ys[i]? := by
    apply Classical.byContradiction
    intro hn
    exact he (List.ext_getElem? fun i => Classical.byContradiction fun hi => hn ⟨i, hi⟩)
  obtain ⟨i, hi⟩ := this
  have hin : i < n := by
    apply Nat.lt_of_not_le
    intro hle
    rw [List.getElem?_eq_none (by omega), List.getElem?_eq_none (by omega)] at hi
    exact hi rfl
  have hp := h i hin
  unfold padLeaf at hp
  cases ex : xs[i]? with
  | none =>
    cases ey : ys[i]? with
    | none => rw [ex, ey] at hi; exact absurd rfl hi
    | some y => rw [ex, ey] at hp; exact .inr (.inr ⟨i, y, ey, ex, hp.symm⟩)
  | some x =>
    cases ey : ys[i]? with
    | none => rw [ex, ey] at hp; exact .inr (.inl ⟨i, x, ex, ey, hp⟩)
    | some y => rw [ex, ey] at hp hi; exact .inl ⟨i, x, y, ex, ey, fun h => hi (by rw [h]), hp⟩

theorem climb_or_collides (node : Nat → H → H → H) (leaf : Nat → H) (path : List (Bool × H)) : ∀ (k : Nat) (v : H),
    climb node k v path = fullTree node leaf (k + path.length) 0 →
    v = fullTree node leaf k (pathPosition path * 2 ^ k) ∨
    ∃ below isLeft s above, path = below ++ (isLeft, s) :: above ∧
      Collide node (k + below.length + 1) (inPlace isLeft (climb node k v below) s)
        (children node leaf (k + below.length) (pathPosition above)) := by
  induction path with
  | nil => intro k v h; left; simpa [climb, pathPosition] using h
  | cons step path ih =>
    obtain ⟨isLeft, s⟩ := step
    intro k v h
    have e1 : pathPosition path * 2 ^ (k + 1) = 2 * pathPosition path * 2 ^ k := by rw [Nat.pow_succ]; ac_rfl
    have e2 : pathPosition path * 2 ^ (k + 1) + 2 ^ k = (2 * pathPosition path + 1) * 2 ^ k := by
      rw [e1, Nat.add_mul, Nat.one_mul]
    have hlen : k + ((isLeft, s) :: path).length = k + 1 + path.length := by simp; omega
    rw [hlen] at h
    have hc : climb node k v ((isLeft, s) :: path) =
        climb node (k + 1) (node (k + 1) (inPlace isLeft v s).1 (inPlace isLeft v s).2) path := by
      cases isLeft <;> rfl
    rw [hc] at h
    rcases ih (k + 1) _ h with a | ⟨below, l', s', above, h1, h2⟩
    · rw [fullTree, e2, e1] at a
      by_cases hk : inPlace isLeft v s = children node leaf k (pathPosition path)
      · left
        cases isLeft with
        | true =>
          have := congrArg Prod.fst hk
          simpa [inPlace, children, pathPosition] using this
        | false =>
          have := congrArg Prod.snd hk
          simpa [inPlace, children, pathPosition] using this
      · right
        exact ⟨[], isLeft, s, path, rfl, hk, a⟩
    · right
      refine ⟨(isLeft, s) :: below, l', s', above, by rw [h1]; rfl, ?_⟩
      have hcb : climb node k v ((isLeft, s) :: below) =
          climb node (k + 1) (node (k + 1) (inPlace isLeft v s).1 (inPlace isLeft v s).2) below := by
        cases isLeft <;> rfl
      rw [hcb, show k + ((isLeft, s) :: below).length = k + 1 + below.length by simp; omega]
      exact h2

theorem emptyHash_eq (compress : Option String → H → H → H) (empty : H) (k : Nat) : ∀ lo,
    emptyHash compress empty k = fullTree (padNode compress) (fun _ => empty) k lo := by
  induction k with
  | zero => intro lo; rfl
  | succ k ih => intro lo; rw [emptyHash, fullTree, ← ih lo, ← ih (lo + 2 ^ k)]; rfl

/-- What the proof's loop computes is the climb of the proof's path. -/
theorem rootLoop_climb (compress : Option String → H → H → H) (empty : H) {F : Nat} (dd : Nat) :
    ∀ (j : Nat) (hd : dd ≤ F) (hj : j < 2 ^ dd) (hreg : ∀ k, k ≤ dd → ¬ Irregular (dd - k) (j / 2 ^ k))
      (x r : H) (ps : List Nat) (qs : List (Option H)), ps.length = dd →
    rootLoop (poseidonMerger compress empty) F (idx dd j) (some x) ps qs = .ok (some r) →
    climb (padNode compress) (F - dd) x (proofPath (padNode compress) empty (F - dd) (idx dd j) ps qs) = r ∧
    (proofPath (padNode compress) empty (F - dd) (idx dd j) ps qs).length = dd := by
  induction dd with
  | zero =>
    intro j hd hj _ x r ps qs hl hr
    rw [List.length_eq_zero_iff.mp hl] at hr ⊢
    simp only [rootLoop] at hr
    cases hr
    exact ⟨rfl, rfl⟩
  | succ dd ih =>
    intro j hd hj hreg x r ps qs hl hr
    cases ps with
    | nil => simp at hl
    | cons q ps =>
      cases qs with
      | nil => simp [rootLoop] at hr
      | cons v qs =>
        have hj2 : j / 2 < 2 ^ dd := by rw [Nat.pow_succ] at hj; omega
        have hr1 : ¬ Irregular dd (j / 2) := by
          have := hreg 1 (by omega); rwa [Nat.pow_one, show dd + 1 - 1 = dd by omega] at this
        have hm := meta_regular (h := F) hj2 hr1 (by omega)
        have hreg' : ∀ k, k ≤ dd → ¬ Irregular (dd - k) (j / 2 / 2 ^ k) := by
          intro k hk
          have := hreg (k + 1) (by omega)
          rwa [Nat.pow_succ, Nat.mul_comm, ← Nat.div_div_eq_div_mul, show dd + 1 - (k + 1) = dd - k by omega] at this
        unfold rootLoop at hr
        simp only [bind, Except.bind] at hr
        unfold orderedSiblings at hr
        have hF : F - dd = (F - (dd + 1)) + 1 := by omega
        split at hr
        · cases hr
        · rename_i lr he
          rw [parentIndex_idx] at hr
          simp only [liftPanic, hm, poseidonMerger] at hr
          obtain ⟨i1, i2⟩ := ih (j / 2) (by omega) hj2 hreg' _ r ps qs (by simpa using hl) hr
          unfold proofPath
          rw [idx_parent, ← hF]
          refine ⟨?_, by rw [List.length_cons, i2]⟩
          split at he
          · rename_i hq
            cases he
            rw [decide_eq_true hq.symm, climb, ← hF, ← i1]
            simp only [Option.getD_some, padNode]
            rw [show F - dd - 1 = F - (dd + 1) by omega, emptyHash_eq compress empty _ 0]
          · split at he
            · rename_i hq1 hq
              cases he
              rw [decide_eq_false (fun h => hq1 h.symm), climb, ← hF, ← i1]
              simp only [Option.getD_some, padNode]
              rw [show F - dd - 1 = F - (dd + 1) by omega, emptyHash_eq compress empty _ 0]
            · split at he <;> cases he

/-- With proper peers the path of a proof leads to the position the proof names. -/
theorem proofPath_position (node : Nat → H → H → H) (empty : H) (dd : Nat) : ∀ (k j : Nat) (ps : List Nat) (qs : List (Option H)),
    j < 2 ^ dd → ProperPeers (idx dd j) ps → ps.length = dd → (proofPath node empty k (idx dd j) ps qs).length = dd →
    pathPosition (proofPath node empty k (idx dd j) ps qs) = j := by
  induction dd with
  | zero =>
    intro k j ps qs hj _ hl _
    rw [List.length_eq_zero_iff.mp hl]
    simp at hj
    simp [proofPath, pathPosition, hj]
  | succ dd ih =>
    intro k j ps qs hj hp hl hq
    cases ps with
    | nil => simp at hl
    | cons q ps =>
      cases qs with
      | nil => simp [proofPath] at hq
      | cons v qs =>
        obtain ⟨h1, h2⟩ := hp
        rw [idx_parent] at h2
        unfold proofPath at hq ⊢
        rw [idx_parent] at hq ⊢
        rw [pathPosition, ih (k + 1) (j / 2) ps qs (by rw [Nat.pow_succ] at hj; omega) h2 (by simpa using hl) (by simpa using hq)]
        have ho := idx_odd (dd + 1) j (by omega)
        have hpos := idx_pos (dd + 1) j (by omega)
        rcases Nat.mod_two_eq_zero_or_one j with hm | hm
        · rw [if_pos (by omega)] at h1
          rw [if_pos (by simpa using h1)]; omega
        · rw [if_neg (by omega)] at h1
          rw [if_neg (by simp; omega)]; omega

end MinaRs.Merkle
