import Verif.Merkle.History
import Verif.Base.TextLemmas

/-! Padded trees, commitment, soundness without sibling order, malformed proofs and merkle paths
(helper lemmas for C23, C25–C28). -/

namespace MinaRs.Merkle
open Spec

variable {I H : Type} {hasher : I → Meta → H} {merger : Option H → Option H → Meta → Option H}

/-! ### Poseidon mergers and padded trees -/

/-- The leaf positions of a padded tree. -/
def padLeaf (hash : I → H) (empty : H) (items : List I) (i : Nat) : H :=
  match items[i]? with
  | some x => hash x
  | none => empty

section
variable (compress : Option String → H → H → H) (empty : H) (hash : I → H)

/-- An inner node of a padded tree. -/
def padNode (h : Nat) (l r : H) : H := compress (nodeDomain h) l r

theorem nodeVal_full (items : List I) (k : Nat) : ∀ d j,
    (nodeVal (poseidonHasher hash) (poseidonMerger compress empty) items k d j).getD (emptyHash compress empty k) =
      fullTree (padNode compress) (padLeaf hash empty items) k (j * 2 ^ k) := by
  induction k with
  | zero =>
    intro d j
    rw [nodeVal_zero, fullTree, Nat.pow_zero, Nat.mul_one]
    unfold padLeaf
    cases items[j]? <;> rfl
  | succ k ih =>
    intro d j
    rw [nodeVal_succ]
    unfold poseidonMerger
    simp only [Option.getD_some, Nat.add_sub_cancel]
    rw [show (poseidonMerger compress empty) = fun l r m => some (compress (nodeDomain m.height) (l.getD (emptyHash compress empty (m.height - 1)))
    (r.getD (emptyHash compress empty (m.height - 1)))) from rfl] at ih
    rw [ih, ih, fullTree, padNode, show 2 * j * 2 ^ k = j * 2 ^ (k + 1) by rw [Nat.pow_succ, Nat.mul_assoc, Nat.mul_left_comm, Nat.mul_comm 2 (2 ^ k)],
      show (2 * j + 1) * 2 ^ k = j * 2 ^ (k + 1) + 2 ^ k by
        rw [Nat.add_mul, Nat.pow_succ, Nat.one_mul, Nat.mul_assoc, Nat.mul_left_comm, Nat.mul_comm 2 (2 ^ k)]]

theorem fullTree_empty (items : List I) (k : Nat) : ∀ lo, items.length ≤ lo →
    fullTree (padNode compress) (padLeaf hash empty items) k lo = emptyHash compress empty k := by
  induction k with
  | zero =>
    intro lo h
    unfold fullTree padLeaf
    rw [List.getElem?_eq_none h]; rfl
  | succ k ih =>
    intro lo h
    rw [fullTree, ih lo h, ih (lo + 2 ^ k) (Nat.le_trans h (Nat.le_add_right _ _))]; rfl

theorem padUp_full (items : List I) (V n : Nat) (hV : items.length ≤ 2 ^ V) :
    (padUp (poseidonMerger compress empty)
      (subtree (poseidonHasher hash) (poseidonMerger compress empty) V 0 items) (V + 1) n).getD (emptyHash compress empty (V + n)) =
      fullTree (padNode compress) (padLeaf hash empty items) (V + n) 0 := by
  induction n with
  | zero =>
    have := nodeVal_full compress empty hash items V 0 0
    rw [nodeVal, slice_whole _ _ hV, Nat.zero_mul] at this
    exact this
  | succ n ih =>
    rw [padUp_succ]
    unfold poseidonMerger
    simp only [Option.getD_some, Option.getD_none]
    rw [show (poseidonMerger compress empty) = fun l r m => some (compress (nodeDomain m.height) (l.getD (emptyHash compress empty (m.height - 1)))
    (r.getD (emptyHash compress empty (m.height - 1)))) from rfl] at ih
    rw [show V + 1 + n - 1 = V + n by omega, ih, show V + (n + 1) = V + n + 1 by omega, fullTree]
    rw [fullTree_empty compress empty hash items (V + n) (0 + 2 ^ (V + n)) (by
      have := pow_mono (show V ≤ V + n by omega); omega)]
    unfold padNode
    rw [show V + 1 + n = V + n + 1 by omega]

/-- The root of a fixed-height Poseidon tree. -/
theorem rootVal_full (F : Nat) (items : List I) (hfit : items.length ≤ 2 ^ F) (hne : items ≠ [] ∨ 0 < F) :
    rootVal (poseidonHasher hash) (poseidonMerger compress empty) (some F) items =
      .ok (some (fullTree (padNode compress) (padLeaf hash empty items) F 0)) := by
  have hV := (leastHeight_calcHeight items.length).2 F hfit
  have hcap := (leastHeight_calcHeight items.length).1
  unfold rootVal
  simp only
  rw [if_neg (by omega)]
  have hfull := padUp_full compress empty hash items (calcHeight items.length) (F - calcHeight items.length) hcap
  rw [show calcHeight items.length + (F - calcHeight items.length) = F by omega] at hfull
  rw [← hfull]
  have hsome : (padUp (poseidonMerger compress empty) (subtree (poseidonHasher hash) (poseidonMerger compress empty)
      (calcHeight items.length) 0 items) (calcHeight items.length + 1) (F - calcHeight items.length)).isSome := by
    rcases Nat.eq_zero_or_pos (F - calcHeight items.length) with h0 | h0
    · rw [h0, padUp]
      rcases Nat.eq_zero_or_pos (calcHeight items.length) with hz | hz
      · rw [hz, subtree]
        cases items with
        | nil =>
          exfalso
          rcases hne with h | h
          · exact h rfl
          · omega
        | cons x xs => rfl
      · obtain ⟨k, hk⟩ : ∃ k, calcHeight items.length = k + 1 := ⟨calcHeight items.length - 1, by omega⟩
        rw [hk, subtree]; rfl
    · obtain ⟨k, hk⟩ : ∃ k, F - calcHeight items.length = k + 1 := ⟨F - calcHeight items.length - 1, by omega⟩
      rw [hk, padUp_succ]; rfl
  obtain ⟨r, hr⟩ := Option.isSome_iff_exists.mp hsome
  rw [hr]; rfl

theorem poseidon_total : Total (poseidonMerger compress empty) := fun _ _ _ => rfl

theorem poseidon_ignoresDepth : IgnoresDepth (poseidonMerger compress empty) := fun _ _ _ _ _ => rfl

theorem poseidon_stable : LeafHashStable (poseidonHasher hash) := fun _ _ _ => rfl

theorem poseidon_injective (hinj : ∀ s l r l' r', compress s l r = compress s l' r' → l = l' ∧ r = r') :
    MergeInjective (poseidonMerger compress empty) := by
  intro m l r l' r' h
  simp only [poseidonMerger, Option.some.injEq] at h
  obtain ⟨a, b⟩ := hinj _ _ _ _ _ h
  constructor
  · rintro x y rfl rfl; exact a
  · rintro x y rfl rfl; exact b

/-- A verifying proof, with its siblings on whichever side, carries the hash of some leaf position. -/
theorem rootLoop_member (hinj : ∀ s l r l' r', compress s l r = compress s l' r' → l = l' ∧ r = r')
    (leaf : Nat → H) {F : Nat} (dd : Nat) :
    ∀ (j : Nat) (hd : dd ≤ F) (hj : j < 2 ^ dd) (hreg : ∀ k, k ≤ dd → ¬ Irregular (dd - k) (j / 2 ^ k))
      (x : H) (ps : List Nat) (qs : List (Option H)), ps.length = dd →
    rootLoop (poseidonMerger compress empty) F (idx dd j) (some x) ps qs = .ok (some (fullTree (padNode compress) leaf F 0)) →
    ∃ j', j' < 2 ^ dd ∧ x = fullTree (padNode compress) leaf (F - dd) (j' * 2 ^ (F - dd)) := by
  induction dd with
  | zero =>
    intro j hd hj _ x ps qs hl hr
    rw [List.length_eq_zero_iff.mp hl] at hr
    simp only [rootLoop] at hr
    cases hr
    exact ⟨0, by decide, by simp⟩
  | succ dd ih =>
    intro j hd hj hreg x ps qs hl hr
    cases ps with
    | nil => simp at hl
    | cons q ps =>
      cases qs with
      | nil => simp [rootLoop] at hr
      | cons v qs =>
        have hj2 : j / 2 < 2 ^ dd := by rw [Nat.pow_succ] at hj; omega
        have hr1 : ¬ Irregular dd (j / 2) := by
          have := hreg 1 (by omega); rwa [Nat.pow_one, show dd + 1 - 1 = dd by omega] at this
        have hm := meta_regular (h := F) hj2 hr1 (by omega)
        have hreg' : ∀ k, k ≤ dd → ¬ Irregular (dd - k) (j / 2 / 2 ^ k) := by
          intro k hk
          have := hreg (k + 1) (by omega)
          rwa [Nat.pow_succ, Nat.mul_comm, ← Nat.div_div_eq_div_mul, show dd + 1 - (k + 1) = dd - k by omega] at this
        unfold rootLoop at hr
        simp only [bind, Except.bind] at hr
        unfold orderedSiblings at hr
        have hpow : ∀ j', j' < 2 ^ dd → 2 * j' < 2 ^ (dd + 1) ∧ 2 * j' + 1 < 2 ^ (dd + 1) := by
          intro j' hj'; rw [Nat.pow_succ]; omega
        have hF : F - dd = (F - (dd + 1)) + 1 := by omega
        split at hr
        · rename_i e he
          cases hr
        · rename_i lr he
          rw [parentIndex_idx] at hr
          simp only [liftPanic, hm, poseidonMerger] at hr
          obtain ⟨j', hj', hz⟩ := ih (j / 2) (by omega) hj2 hreg' _ ps qs (by simpa using hl) hr
          rw [hF, fullTree] at hz
          obtain ⟨a, b⟩ := hinj _ _ _ _ _ hz
          split at he
          · cases he
            refine ⟨2 * j', (hpow j' hj').1, ?_⟩
            simp only [Option.getD_some] at a
            rw [a, Nat.pow_succ, ← Nat.mul_assoc, Nat.mul_comm (j' * 2 ^ (F - (dd + 1))) 2, ← Nat.mul_assoc]
          · split at he
            · cases he
              refine ⟨2 * j' + 1, (hpow j' hj').2, ?_⟩
              simp only [Option.getD_some] at b
              rw [b, Nat.pow_succ, ← Nat.mul_assoc, Nat.mul_comm (j' * 2 ^ (F - (dd + 1))) 2, ← Nat.mul_assoc, Nat.add_mul, Nat.one_mul]
            · split at he <;> cases he

end

/-! ### Commitment -/

theorem subtree_some (htot : Total merger) (k d : Nat) (items : List I) (h : items ≠ [] ∨ 0 < k) :
    ∃ x, subtree hasher merger k d items = some x := by
  cases k with
  | zero =>
    cases items with
    | nil => rcases h with h | h
             · exact absurd rfl h
             · exact absurd h (Nat.lt_irrefl _)
    | cons a l => exact ⟨_, rfl⟩
  | succ k => exact Option.isSome_iff_exists.mp (htot _ _ _)

theorem slice_length {xs ys : List I} (hl : xs.length = ys.length) (k j : Nat) :
    (slice xs k j).length = (slice ys k j).length := by simp [slice, hl]

theorem codeVal_some (htot : Total merger) {items : List I} (h k d j : Nat) (hne : slice items k j ≠ []) :
    ∃ x, codeVal hasher merger items h k d j = some x := by
  cases k with
  | zero =>
    rw [slice_zero] at hne
    unfold codeVal
    cases h1 : items[j]? with
    | none => rw [h1] at hne; exact absurd rfl hne
    | some x => exact ⟨_, rfl⟩
  | succ k => exact Option.isSome_iff_exists.mp (htot _ _ _)

theorem codeVal_injective (htot : Total merger) (hinj : MergeInjective merger) (hhash : HashInjective hasher)
    {xs ys : List I} (hl : xs.length = ys.length) (h k : Nat) :
    ∀ d j, codeVal hasher merger xs h k d j = codeVal hasher merger ys h k d j → slice xs k j = slice ys k j := by
  induction k with
  | zero =>
    intro d j he
    rw [slice_zero, slice_zero]
    unfold codeVal at he
    cases h1 : xs[j]? <;> cases h2 : ys[j]? <;> simp_all
    exact hhash _ _ _ he
  | succ k ih =>
    intro d j he
    obtain ⟨a, b⟩ := hinj _ _ _ _ _ he
    have key : ∀ j', (∀ x y, codeVal hasher merger xs h k (d + 1) j' = some x →
        codeVal hasher merger ys h k (d + 1) j' = some y → x = y) → slice xs k j' = slice ys k j' := by
      intro j' hxy
      have hlen := slice_length hl k j'
      by_cases hz : slice xs k j' = []
      · rw [hz] at hlen ⊢; exact (List.length_eq_zero_iff.mp hlen.symm).symm
      · have hz' : slice ys k j' ≠ [] := by intro h'; rw [h'] at hlen; exact hz (List.length_eq_zero_iff.mp hlen)
        obtain ⟨x, hx⟩ := codeVal_some (hasher := hasher) htot h k (d + 1) j' hz
        obtain ⟨y, hy⟩ := codeVal_some (hasher := hasher) htot h k (d + 1) j' hz'
        exact ih (d + 1) j' (by rw [hx, hy, hxy x y hx hy])
    have e1 := key _ a
    have e2 := key _ b
    rw [← slice_left, ← slice_left] at e1
    rw [← slice_right, ← slice_right] at e2
    rw [← List.take_append_drop (2 ^ k) (slice xs (k + 1) j), ← List.take_append_drop (2 ^ k) (slice ys (k + 1) j), e1, e2]

theorem padUp_injective (htot : Total merger) (hinj : MergeInjective merger) (n lo : Nat) : ∀ (x y : H),
    padUp merger (some x) lo n = padUp merger (some y) lo n → x = y := by
  induction n generalizing lo with
  | zero => intro x y h; exact Option.some.inj h
  | succ n ih =>
    intro x y h
    rw [padUp, padUp] at h
    obtain ⟨z, hz⟩ := Option.isSome_iff_exists.mp (htot (some x) none ⟨0, lo⟩)
    obtain ⟨w, hw⟩ := Option.isSome_iff_exists.mp (htot (some y) none ⟨0, lo⟩)
    rw [hz, hw] at h
    have := ih (lo + 1) z w h
    subst this
    exact (hinj _ _ _ _ _ (hz.trans hw.symm)).1 x y rfl rfl

theorem modeRoot_injective (htot : Total merger) (hinj : MergeInjective merger) (hhash : HashInjective hasher)
    {fixed : Option Nat} {h : Nat} {xs ys : List I} (hl : xs.length = ys.length) (hcap : xs.length ≤ 2 ^ h) {r : Option H}
    (hx : modeRoot merger fixed h (codeVal hasher merger xs h h 0 0) = .ok r)
    (hy : modeRoot merger fixed h (codeVal hasher merger ys h h 0 0) = .ok r) : xs = ys := by
  have whole : codeVal hasher merger xs h h 0 0 = codeVal hasher merger ys h h 0 0 → xs = ys := by
    intro he
    have := codeVal_injective htot hinj hhash hl h h 0 0 he
    rwa [slice_whole _ _ hcap, slice_whole _ _ (hl ▸ hcap)] at this
  unfold modeRoot at hx hy
  cases fixed with
  | none => exact whole ((Except.ok.inj hx).trans (Except.ok.inj hy).symm)
  | some F =>
    simp only at hx hy
    rw [← hy] at hx
    split at hx
    · cases hx; rename_i h; rw [if_pos h] at hy; cases hy
    · by_cases hz : xs = []
      · subst hz; exact (List.length_eq_zero_iff.mp hl.symm).symm
      · have hz' : ys ≠ [] := by intro h'; subst h'; exact hz (List.length_eq_zero_iff.mp hl)
        obtain ⟨x, hx'⟩ := codeVal_some (hasher := hasher) htot h h 0 0 (by rwa [slice_whole _ _ hcap])
        obtain ⟨y, hy'⟩ := codeVal_some (hasher := hasher) htot h h 0 0 (by rwa [slice_whole _ _ (hl ▸ hcap)])
        rw [hx', hy'] at hx
        exact whole (by rw [hx', hy', padUp_injective htot hinj _ _ x y (Except.ok.inj hx)])

/-! ### Large trees -/

theorem leastHeight_pow (k : Nat) : LeastHeight (2 ^ k) k :=
  ⟨Nat.le_refl _, fun j hj => Nat.le_of_not_lt fun hlt => by
    have := pow_mono (show j + 1 ≤ k by omega)
    rw [Nat.pow_succ] at this
    have := two_pow_pos j
    omega⟩

theorem digit_digitChar (n : Nat) (h : n < 10) : Nat.digitChar n = Text.digit n := by
  have : ∀ n : Fin 10, Nat.digitChar n.1 = Text.digit n.1 := by decide
  exact this ⟨n, h⟩

theorem toString_toList (n : Nat) : (toString n).toList = Text.decimal n := by
  rw [Nat.toString_eq_ofList_toDigits, String.toList_ofList]
  induction n using Nat.strongRecOn with
  | ind n ih =>
    by_cases h : n < 10
    · rw [Nat.toDigits_of_lt_base h, Text.decimal_lt h, digit_digitChar n h]
    · rw [Nat.toDigits_of_base_le (by omega) (by omega), ih (n / 10) (by omega), digit_digitChar _ (by omega), Text.decimal_ge h]

theorem pad3_toList (n : Nat) : (pad3 n).toList = List.replicate (3 - (Text.decimal n).length) '0' ++ Text.decimal n := by
  have h1 : 0 < (Text.decimal n).length := List.length_pos_iff.mpr (Text.decimal_ne_nil n)
  unfold pad3
  split
  · have := Text.decimal_length_le (n := n) (k := 1) (by omega) (by omega)
    rw [String.toList_append, toString_toList, show (Text.decimal n).length = 1 by omega]; rfl
  · rename_i h10
    have h2 : 2 ≤ (Text.decimal n).length := by
      rw [Text.decimal_ge h10, List.length_append]
      have := List.length_pos_iff.mpr (Text.decimal_ne_nil (n / 10))
      simp; omega
    split
    · have := Text.decimal_length_le (n := n) (k := 2) (by omega) (by omega)
      rw [String.toList_append, toString_toList, show (Text.decimal n).length = 2 by omega]; rfl
    · have h3 : 3 ≤ (Text.decimal n).length := by
        rw [Text.decimal_ge h10, List.length_append, Text.decimal_ge (by omega), List.length_append]
        have := List.length_pos_iff.mpr (Text.decimal_ne_nil (n / 10 / 10))
        simp; omega
      rw [toString_toList, show 3 - (Text.decimal n).length = 0 by omega]; rfl

theorem value_pad3 (n : Nat) : Text.Spec.value (pad3 n).toList = n := by
  rw [pad3_toList, Text.value_append, Text.value_replicate_zero, Nat.zero_mul, Nat.zero_add, Text.value_decimal]

theorem pad3_injective {m n : Nat} (h : pad3 m = pad3 n) : m = n := by
  rw [← value_pad3 m, h, value_pad3]

theorem append_injective {a b c : String} (h : a ++ b = a ++ c) : b = c := by
  have := congrArg String.toList h
  rw [String.toList_append, String.toList_append] at this
  exact String.toList_inj.mp (List.append_cancel_left this)

theorem nodeDomain_injective {m n : Nat} (h : nodeDomain m = nodeDomain n) : m = n := by
  unfold nodeDomain at h
  split at h <;> split at h
  · have := pad3_injective (append_injective (Option.some.inj h))
    omega
  · cases h
  · cases h
  · omega

theorem nodeDomain_shift (k : Nat) (_ : k < 21) (hk : 0 < k) : nodeDomain k ≠ nodeDomain (k - 1) := fun h => by
  have := nodeDomain_injective h
  omega

section
variable (compress : Option String → H → H → H) (empty : H) (hash : I → H)

theorem padNode_eq : padNode compress =
    fun h l r => compress (if h = 0 then none else some ("CodaMklTree" ++ pad3 (h - 1))) l r := by
  funext h l r
  unfold padNode nodeDomain
  rcases Nat.eq_zero_or_pos h with rfl | hp
  · rfl
  · rw [if_pos hp, if_neg (by omega)]; rfl

/-- On the way to the last node at depth 28 of a higher tree, the code's hashes are wrong. -/
theorem codeVal_ne (hinj : ∀ s l r s' l' r', compress s l r = compress s' l' r' → s = s' ∧ l = l' ∧ r = r')
    (items : List I) {h : Nat} (hlow : 29 ≤ h) (hhigh : h ≤ 48) (n : Nat) : ∀ d k j, d + n = 28 → d + k = h → j + 1 = 2 ^ d →
    codeVal (poseidonHasher hash) (poseidonMerger compress empty) items h k d j ≠
      nodeVal (poseidonHasher hash) (poseidonMerger compress empty) items k d j := by
  induction n with
  | zero =>
    intro d k j hd hk hj he
    obtain ⟨k, rfl⟩ : ∃ m, k = m + 1 := ⟨k - 1, by omega⟩
    rw [nodeVal_succ, codeVal] at he
    have hirr : Irregular d j := ⟨hj, by rw [show d = 28 by omega]; decide⟩
    rw [nodeDepth_idx (by omega), if_pos hirr] at he
    have := (hinj _ _ _ _ _ _ (Option.some.inj he)).1
    simp only at this
    refine nodeDomain_shift (k + 1) (by omega) (by omega) ?_
    rw [← this]; congr 1; omega
  | succ n ih =>
    intro d k j hd hk hj he
    obtain ⟨k, rfl⟩ : ∃ m, k = m + 1 := ⟨k - 1, by omega⟩
    rw [nodeVal_succ, codeVal] at he
    have hr := (hinj _ _ _ _ _ _ (Option.some.inj he)).2.2
    obtain ⟨k, rfl⟩ : ∃ m, k = m + 1 := ⟨k - 1, by omega⟩
    refine ih (d + 1) (k + 1) (2 * j + 1) (by omega) (by omega) (by rw [Nat.pow_succ]; omega) ?_
    rw [nodeVal_succ, codeVal] at hr ⊢
    exact congrArg some hr

theorem codeVal_large (hinj : ∀ s l r s' l' r', compress s l r = compress s' l' r' → s = s' ∧ l = l' ∧ r = r')
    (items : List I) (hlow : 2 ^ 28 ≤ items.length) (hhigh : items.length ≤ 2 ^ 48) (ha : ¬ Aborts items.length) :
    codeVal (poseidonHasher hash) (poseidonMerger compress empty) items (calcHeight items.length) (calcHeight items.length) 0 0 ≠
      subtree (poseidonHasher hash) (poseidonMerger compress empty) (calcHeight items.length) 0 items := by
  have hcap : items.length ≤ 2 ^ calcHeight items.length := (leastHeight_calcHeight _).1
  have h29 : 29 ≤ calcHeight items.length := by
    apply Nat.le_of_not_lt; intro hlt
    have := pow_mono (show calcHeight items.length ≤ 28 by omega)
    have hn : items.length = 2 ^ 28 := by omega
    have h28 : calcHeight items.length = 28 := by
      rw [hn]; exact leastHeight_unique (leastHeight_calcHeight _) (leastHeight_pow 28)
    exact ha ⟨by rw [h28]; exact hn, by rw [h28]; decide⟩
  have := codeVal_ne compress empty hash hinj items h29 (calcHeight_le hhigh) 28 0 (calcHeight items.length) 0 (by omega) (by omega) rfl
  unfold nodeVal at this
  rwa [slice_whole _ _ hcap] at this

end

/-! ### Malformed proofs -/

theorem rootLoop_misplaced (n : Nat) (ps : List Nat) : ∀ (i : Nat) (h : Option H) (qs : List (Option H)) (r : Option H),
    SomePeerMisplaced i ps → rootLoop merger n i h ps qs ≠ .ok r := by
  induction ps with
  | nil => intro i h qs r hm; exact hm.elim
  | cons p ps ih =>
    intro i h qs r hm hr
    cases qs with
    | nil => simp [rootLoop] at hr
    | cons q qs =>
      unfold rootLoop orderedSiblings at hr
      simp only [bind, Except.bind] at hr
      split at hr
      · cases hr
      · rename_i lr he
        have hnear : ¬ (i + 1 ≠ p ∧ i ≠ p + 1) := by
          rintro ⟨a, b⟩
          rw [if_neg a, if_neg b] at he
          split at he <;> cases he
        have hm := hm.resolve_left hnear
        split at hr
        · cases hr
        · rename_i parent hp
          have : parent = (i - 1) / 2 := by
            unfold parentIndex at hp
            split at hp
            · cases hp
            · cases hp; rfl
          subst this
          split at hr
          · cases hr
          · exact ih _ _ _ _ hm hr

/-- A walk up the tree can be repeated from any other node of the same depth, with the same hashes: only the indices of the
peers change. -/
theorem rootLoop_transport {n : Nat} (ps : List Nat) : ∀ (dd a b : Nat) (h : Option H) (qs : List (Option H)) (r : Option H),
    dd ≤ n → a < 2 ^ dd → b < 2 ^ dd → a + 1 < 2 ^ 28 → b + 1 < 2 ^ 28 → ps.length = dd →
    rootLoop merger n (idx dd a) h ps qs = .ok r →
    ∃ ps', ps'.length = dd ∧ rootLoop merger n (idx dd b) h ps' qs = .ok r := by
  induction ps with
  | nil =>
    intro dd a b h qs r _ _ _ _ _ hl hr
    subst hl
    exact ⟨[], rfl, by simpa only [rootLoop] using hr⟩
  | cons p ps ih =>
    intro dd a b h qs r hd ha hb ha28 hb28 hl hr
    cases qs with
    | nil => simp [rootLoop] at hr
    | cons q qs =>
      obtain ⟨dd, rfl⟩ : ∃ k, dd = k + 1 := ⟨dd - 1, by simp at hl; omega⟩
      have ha2 : a / 2 < 2 ^ dd := by rw [Nat.pow_succ] at ha; omega
      have hb2 : b / 2 < 2 ^ dd := by rw [Nat.pow_succ] at hb; omega
      have hma := meta_regular (h := n) ha2 (regular_of_lt (by omega)) (by omega)
      have hmb := meta_regular (h := n) hb2 (regular_of_lt (by omega)) (by omega)
      have hbp := idx_pos (dd + 1) b (by omega)
      unfold rootLoop at hr
      rw [parentIndex_idx] at hr
      simp only [liftPanic, hma, bind, Except.bind] at hr
      split at hr
      · cases hr
      · rename_i hs he
        obtain ⟨p', hp'⟩ : ∃ p', orderedSiblings (idx (dd + 1) b) h p' q = .ok hs := by
          unfold orderedSiblings at he
          split at he
          · exact ⟨idx (dd + 1) b + 1, by unfold orderedSiblings; rw [if_pos rfl]; exact he⟩
          · split at he
            · exact ⟨idx (dd + 1) b - 1, by unfold orderedSiblings; rw [if_neg (by omega), if_pos (by omega)]; exact he⟩
            · split at he <;> cases he
        obtain ⟨ps', h1, h2⟩ := ih dd (a / 2) (b / 2) _ qs r (by omega) ha2 hb2 (by omega) (by omega) (by simpa using hl) hr
        refine ⟨p' :: ps', by simp [h1], ?_⟩
        unfold rootLoop
        rw [hp', parentIndex_idx]
        simp only [liftPanic, hmb, bind, Except.bind]
        exact h2

/-- The peers of a path are siblings. -/
theorem peerIdx_proper (F p : Nat) : ∀ dd, dd ≤ F → ProperPeers (idx dd (pos F p dd)) (peerIdx F p dd) := by
  intro dd
  induction dd with
  | zero => intro _; trivial
  | succ dd ih =>
    intro hd
    refine ⟨?_, ?_⟩
    · have := idx_odd (dd + 1) (pos F p (dd + 1)) (by omega)
      have hp := idx_pos (dd + 1) (pos F p (dd + 1)) (by omega)
      unfold sib
      rcases Nat.mod_two_eq_zero_or_one (pos F p (dd + 1)) with hm | hm
      · rw [if_pos hm, if_pos (by omega)]; simp only [idx]; omega
      · rw [if_neg (by omega), if_neg (by omega)]; simp only [idx]; omega
    · rw [idx_parent, show pos F p (dd + 1) / 2 = pos F p dd by
        unfold pos
        rw [Nat.div_div_eq_div_mul, ← Nat.pow_succ, show (F - (dd + 1)).succ = F - dd by omega]]
      exact ih (by omega)

theorem rootLoop_misplaced_error {n : Nat} (ps : List Nat) : ∀ (dd j : Nat) (h : Option H) (qs : List (Option H)),
    dd ≤ n → j < 2 ^ dd → (∀ k, k ≤ dd → ¬ Irregular (dd - k) (j / 2 ^ k)) → ps.length ≤ dd → ps.length ≤ qs.length →
    (∀ p ∈ ps, p + 1 < 2 ^ 64) →
    SomePeerMisplaced (idx dd j) ps → rootLoop merger n (idx dd j) h ps qs = .error .invalidProof := by
  induction ps with
  | nil => intro dd j h qs _ _ _ _ _ _ hm; exact hm.elim
  | cons p ps ih =>
    intro dd j h qs hd hj hreg hl hq hps hm
    have hp64 := hps p List.mem_cons_self
    have hps' : ∀ q ∈ ps, q + 1 < 2 ^ 64 := fun q hq => hps q (List.mem_cons_of_mem _ hq)
    cases qs with
    | nil => simp at hq
    | cons q qs =>
      obtain ⟨dd, rfl⟩ : ∃ k, dd = k + 1 := ⟨dd - 1, by simp at hl; omega⟩
      have hj2 : j / 2 < 2 ^ dd := by rw [Nat.pow_succ] at hj; omega
      have hr1 : ¬ Irregular dd (j / 2) := by
        have := hreg 1 (by omega); rwa [Nat.pow_one, show dd + 1 - 1 = dd by omega] at this
      have hm' := meta_regular (h := n) hj2 hr1 (by omega)
      have hreg' : ∀ k, k ≤ dd → ¬ Irregular (dd - k) (j / 2 / 2 ^ k) := by
        intro k hk
        have := hreg (k + 1) (by omega)
        rwa [Nat.pow_succ, Nat.mul_comm, ← Nat.div_div_eq_div_mul, show dd + 1 - (k + 1) = dd - k by omega] at this
      by_cases hn : idx (dd + 1) j + 1 ≠ p ∧ idx (dd + 1) j ≠ p + 1
      · unfold rootLoop orderedSiblings
        rw [if_neg hn.1, if_neg hn.2, if_neg (by omega)]; rfl
      · have hm := hm.resolve_left hn
        rw [idx_parent] at hm
        have := fun h => ih dd (j / 2) h qs (by omega) hj2 hreg' (by simpa using hl) (by simpa using hq) hps' hm
        unfold rootLoop orderedSiblings
        rw [parentIndex_idx]
        simp only [liftPanic, hm', bind, Except.bind]
        split
        · rename_i e he
          split at he
          · cases he
          · split at he
            · cases he
            · rw [if_neg (by omega)] at he; cases he; rfl
        · exact this _

/-! ### Merkle paths -/

theorem pathPosition_lt (path : List (Bool × H)) : pathPosition path < 2 ^ path.length := by
  induction path with
  | nil => exact Nat.one_pos
  | cons s path ih =>
    obtain ⟨b, s⟩ := s
    simp only [pathPosition, List.length_cons, Nat.pow_succ]
    split <;> omega

theorem peerIdx_cons (F p dd : Nat) (h : dd ≤ F) : peerIdx (F + 1) p dd = peerIdx F (p / 2) dd := by
  induction dd with
  | zero => rfl
  | succ dd ih =>
    rw [peerIdx, peerIdx, ih (by omega)]
    congr 3
    unfold pos
    rw [show F + 1 - (dd + 1) = (F - (dd + 1)) + 1 by omega, Nat.pow_succ, Nat.mul_comm, Nat.div_div_eq_div_mul]

/-- The state of the loop after the part of the path above the leaf side. -/
theorem pathFold (path : List (Bool × H)) (hl : path.length < 64) :
    (path.map pathNode).reverse.foldlM pathStep (⟨[], [], 0, 0, false⟩ : PathState H) =
      .ok ⟨peerIdx path.length (pathPosition path) path.length, path.map (fun s => some s.2), pathPosition path,
        match path with
        | [] => 0
        | _ => idx path.length (sib (pathPosition path)),
        match path with
        | [] => false
        | s :: _ => s.1⟩ := by
  induction path with
  | nil => rfl
  | cons s path ih =>
    have ih := ih (by simp at hl; omega)
    simp only [List.map_cons, List.reverse_cons, List.foldlM_append, List.foldlM_cons, List.foldlM_nil]
    rw [ih]
    simp only [bind, Except.bind, pure, Except.pure]
    obtain ⟨b, v⟩ := s
    have hpos : (2 * pathPosition path + if b = true then 0 else 1) / 2 = pathPosition path := by split <;> omega
    have hp : pos (path.length + 1) (2 * pathPosition path + if b = true then 0 else 1) (path.length + 1) =
        2 * pathPosition path + if b = true then 0 else 1 := by simp [pos]
    have hlen : ¬ path.length + 1 ≥ 64 := by simp at hl; omega
    cases b with
    | true =>
      simp only [if_true, Nat.add_zero] at hpos hp
      simp [pathStep, pathNode, PathNode.hasLeftChild, bind, Except.bind, peerIdx_length, pathPosition, hlen,
        peerIdx, peerIdx_cons, hpos, sib, hp, idx, Nat.mul_comm]
    | false =>
      simp only [Bool.false_eq_true, if_false] at hpos hp
      simp [pathStep, pathNode, PathNode.hasLeftChild, bind, Except.bind, peerIdx_length, pathPosition, hlen,
        peerIdx, peerIdx_cons, hpos, sib, hp, idx, Nat.mul_comm]

theorem rootLoop_foldPath (n : Nat) (path : List (Bool × H)) : ∀ (hash : Option H), path.length ≤ n →
    pathPosition path + 1 < 2 ^ 28 →
    rootLoop merger n (idx path.length (pathPosition path)) hash (peerIdx path.length (pathPosition path) path.length)
      (path.map (fun s => some s.2)) = .ok (foldPath merger n (n - path.length) hash path) := by
  induction path with
  | nil => intro hash _ _; rfl
  | cons s path ih =>
    intro hash hn h27
    obtain ⟨b, v⟩ := s
    have hlt := pathPosition_lt path
    have hp2 : pathPosition ((b, v) :: path) / 2 = pathPosition path := by
      simp only [pathPosition]; split <;> omega
    have h27' : pathPosition path + 1 < 2 ^ 28 := by omega
    simp only [List.length_cons] at hn
    have hpp : pos (path.length + 1) (pathPosition ((b, v) :: path)) (path.length + 1) = pathPosition ((b, v) :: path) := by
      simp [pos]
    have hos := orderedSiblings_path (F := path.length + 1) (p := pathPosition ((b, v) :: path)) (dd := path.length) hash (some v)
    rw [hpp] at hos
    have hreg : ¬ Irregular path.length (pathPosition path) := by
      have := regular_pos (F := path.length) h27' (Nat.le_refl _)
      simpa [pos] using this
    simp only [List.length_cons, peerIdx, List.map_cons, peerIdx_cons _ _ _ (Nat.le_refl _), hp2, hpp]
    unfold rootLoop
    rw [hos, parentIndex_idx, hp2]
    simp only [bind, Except.bind, liftPanic]
    rw [meta_regular hlt hreg (by omega)]
    simp only
    rw [ih _ (by omega) h27']
    cases b with
    | true =>
      have : pathPosition ((true, v) :: path) % 2 = 0 := by simp [pathPosition]
      rw [if_pos this, foldPath, show n - (path.length + 1) + 1 = n - path.length by omega,
        show n - (n - path.length) = path.length by omega]
    | false =>
      have : ¬ pathPosition ((false, v) :: path) % 2 = 0 := by simp [pathPosition]
      rw [if_neg this, foldPath, show n - (path.length + 1) + 1 = n - path.length by omega,
        show n - (n - path.length) = path.length by omega]

theorem pathToProof_ok (path : List (Bool × H)) (item : I) (hne : path ≠ []) (hl : path.length < 64) :
    pathToProof (path.map pathNode) item = .ok ⟨idx path.length (pathPosition path), item,
      peerIdx path.length (pathPosition path) path.length, path.map (fun s => some s.2)⟩ := by
  unfold pathToProof
  rw [pathFold path hl]
  simp only [bind, Except.bind]
  match path, hne with
  | (b, v) :: path, _ =>
    have hpos := idx_pos (path.length + 1) (pathPosition ((b, v) :: path)) (by omega)
    have hitem : (if b = true then idx (path.length + 1) (sib (pathPosition ((b, v) :: path))) - 1
        else idx (path.length + 1) (sib (pathPosition ((b, v) :: path))) + 1) =
        idx (path.length + 1) (pathPosition ((b, v) :: path)) := by
      cases b <;> simp [sib, pathPosition, idx] <;> omega
    simp only [List.length_cons]
    rw [if_neg (by
      rintro ⟨_, h⟩
      have := idx_pos (path.length + 1) (sib (pathPosition ((b, v) :: path))) (by omega)
      omega), hitem]
    unfold Proof.new
    rw [if_neg (by omega), if_neg (by simp [peerIdx_length]), if_neg (by simp [peerIdx])]

end MinaRs.Merkle

namespace MinaRs.Merkle

/-- A bad node stops the loop. -/
theorem pathFold_bad {H : Type} (l : List (PathNode H)) : ∀ (s : PathState H),
    (∃ n ∈ l, n.left.isSome = n.right.isSome) → s.peerIndices.length + l.length < 64 →
    l.foldlM pathStep s = .error .twoHashes ∨ l.foldlM pathStep s = .error .noHashes := by
  induction l with
  | nil => rintro s ⟨n, h, _⟩; cases h
  | cons n l ih =>
    rintro s ⟨m, hm, hbad⟩ hl
    simp only [List.foldlM_cons, bind, Except.bind]
    simp only [List.length_cons] at hl
    rcases hn : n with ⟨a, b⟩
    cases a with
    | some a =>
      cases b with
      | some b => exact Or.inl rfl
      | none =>
        have hne : m ≠ n := by rintro rfl; rw [hn] at hbad; cases hbad
        have hm : m ∈ l := (List.mem_cons.mp hm).resolve_left hne
        simp only [pathStep, PathNode.hasLeftChild, Option.isSome_some, Option.isNone_none, if_true, bind, Except.bind]
        rw [if_neg (by omega)]
        exact ih _ ⟨m, hm, hbad⟩ (by simp only [List.length_cons]; omega)
    | none =>
      cases b with
      | none => exact Or.inr rfl
      | some b =>
        have hne : m ≠ n := by rintro rfl; rw [hn] at hbad; cases hbad
        have hm : m ∈ l := (List.mem_cons.mp hm).resolve_left hne
        simp only [pathStep, PathNode.hasLeftChild, Option.isSome_some, Option.isSome_none, Bool.false_eq_true, if_true, if_false, bind, Except.bind]
        rw [if_neg (by omega)]
        exact ih _ ⟨m, hm, hbad⟩ (by simp only [List.length_cons]; omega)

theorem pathFold_bad_any {H : Type} (l : List (PathNode H)) : ∀ (s s' : PathState H),
    (∃ n ∈ l, n.left.isSome = n.right.isSome) → l.foldlM pathStep s ≠ .ok s' := by
  induction l with
  | nil => rintro s s' ⟨n, h, _⟩; cases h
  | cons n l ih =>
    rintro s s' ⟨m, hm, hbad⟩ h
    simp only [List.foldlM_cons, bind, Except.bind] at h
    split at h
    · cases h
    · rename_i s1 h1
      rcases List.mem_cons.mp hm with rfl | hm
      · rcases m with ⟨a, b⟩
        cases a with
        | none =>
          cases b with
          | none => simp [pathStep, PathNode.hasLeftChild, bind, Except.bind] at h1
          | some b => cases hbad
        | some a =>
          cases b with
          | none => cases hbad
          | some b => simp [pathStep, PathNode.hasLeftChild, bind, Except.bind] at h1
      · exact ih s1 s' ⟨m, hm, hbad⟩ h

end MinaRs.Merkle
