import Verif.Merkle.Arith

/-! The cached computation of node hashes (helper lemmas for C20–C24). -/

namespace MinaRs.Merkle
open Spec

variable {I H : Type} {hasher : I → Meta → H} {merger : Option H → Option H → Meta → Option H}

/-- The items of a tree. -/
def Tree.items (t : Tree I H) : List I := t.leafs.map Prod.fst

/-- The leaves below the node at position `j` of the level `k` above the leaves. -/
def slice (items : List I) (k j : Nat) : List I := (items.drop (j * 2 ^ k)).take (2 ^ k)

/-- The hash of the node at depth `d`, position `j`, height `k`. -/
def nodeVal (hasher : I → Meta → H) (merger : Option H → Option H → Meta → Option H) (items : List I)
    (k d j : Nat) : Option H := subtree hasher merger k d (slice items k j)

theorem slice_left (items : List I) (k j : Nat) : (slice items (k + 1) j).take (2 ^ k) = slice items k (2 * j) := by
  unfold slice
  rw [List.take_take, Nat.min_eq_left (pow_mono (by omega)), Nat.pow_succ]
  congr 2
  rw [Nat.mul_comm (2 ^ k) 2, ← Nat.mul_assoc, Nat.mul_comm j 2]

theorem slice_right (items : List I) (k j : Nat) :
    (slice items (k + 1) j).drop (2 ^ k) = slice items k (2 * j + 1) := by
  unfold slice
  rw [List.drop_take, List.drop_drop, Nat.pow_succ]
  congr 2
  · omega
  · rw [Nat.add_mul, Nat.mul_comm (2 ^ k) 2, ← Nat.mul_assoc, Nat.mul_comm j 2]; omega

theorem nodeVal_succ (items : List I) (k d j : Nat) :
    nodeVal hasher merger items (k + 1) d j =
      merger (nodeVal hasher merger items k (d + 1) (2 * j)) (nodeVal hasher merger items k (d + 1) (2 * j + 1))
        ⟨d, k + 1⟩ := by
  unfold nodeVal
  rw [← slice_left, ← slice_right]; rfl

theorem nodeVal_zero (items : List I) (d j : Nat) :
    nodeVal hasher merger items 0 d j = items[j]?.map (fun x => hasher x ⟨d, 0⟩) := by
  unfold nodeVal slice
  simp only [Nat.pow_zero, Nat.mul_one, subtree, List.head?_take]
  simp [List.head?_drop]

theorem slice_whole (items : List I) (k : Nat) (h : items.length ≤ 2 ^ k) : slice items k 0 = items := by
  unfold slice
  simp [List.take_of_length_le h]

theorem set_same {α : Type} {l : List α} {i : Nat} {a : α} (h : l[i]? = some a) : l.set i a = l := by
  apply List.ext_getElem?
  intro j
  rw [List.getElem?_set]
  split
  · rename_i hij; subst hij
    rw [if_pos (List.getElem?_eq_some_iff.mp h).1, h]
  · rfl

theorem slice_zero (items : List I) (j : Nat) : slice items 0 j = items[j]?.toList := by
  unfold slice
  simp only [Nat.pow_zero, Nat.mul_one]
  rw [← List.head?_drop]
  cases items.drop j <;> simp

/-- The hash of the node at depth `d`, position `j`, height `k` of a tree of height `h`, with the
depth and height that the code computes for it, right or not. -/
def codeVal (hasher : I → Meta → H) (merger : Option H → Option H → Meta → Option H) (items : List I)
    (h : Nat) : (k d j : Nat) → Option H
  | 0, _, j => items[j]?.map (fun x => hasher x ⟨h, 0⟩)
  | k + 1, d, j =>
    merger (codeVal hasher merger items h k (d + 1) (2 * j)) (codeVal hasher merger items h k (d + 1) (2 * j + 1))
      ⟨nodeDepth (idx d j), h - nodeDepth (idx d j)⟩

theorem codeVal_congr {items items' : List I} (h k : Nat) : ∀ d j, slice items k j = slice items' k j →
    codeVal hasher merger items h k d j = codeVal hasher merger items' h k d j := by
  induction k with
  | zero =>
    intro d j he
    rw [slice_zero, slice_zero] at he
    unfold codeVal
    cases h1 : items[j]? <;> cases h2 : items'[j]? <;> simp_all
  | succ k ih =>
    intro d j he
    unfold codeVal
    rw [ih (d + 1) (2 * j) (by rw [← slice_left, ← slice_left, he]),
      ih (d + 1) (2 * j + 1) (by rw [← slice_right, ← slice_right, he])]

/-- In trees of height at most 28 the code computes the right depths of all inner nodes. -/
theorem codeVal_eq (items : List I) {h : Nat} (hh : h ≤ 28) (k : Nat) : ∀ d j, d + k = h → j < 2 ^ d →
    codeVal hasher merger items h k d j = nodeVal hasher merger items k d j := by
  induction k with
  | zero => intro d j hd _; rw [nodeVal_zero]; simp only [codeVal]; rw [← hd]; rfl
  | succ k ih =>
    intro d j hd hj
    have hj2 : 2 * j + 1 < 2 ^ (d + 1) := by rw [Nat.pow_succ]; omega
    rw [nodeVal_succ, codeVal, ih (d + 1) (2 * j) (by omega) (by omega), ih (d + 1) (2 * j + 1) (by omega) hj2,
      nodeDepth_regular hj (regular_of_le (by omega)), show h - d = k + 1 by omega]

/-- Every cached hash is the hash of its node. -/
structure CacheOK (hasher : I → Meta → H) (merger : Option H → Option H → Meta → Option H) (t : Tree I H) :
    Prop where
  len : t.nodes.length = 2 ^ t.height - 1
  leaf : ∀ (p : Nat) (x : I) (h : H), t.leafs[p]? = some (x, some h) → h = hasher x ⟨t.height, 0⟩
  regular : ∀ (p : Nat) (x : I) (h : H), t.leafs[p]? = some (x, some h) → ¬ Irregular t.height p
  node : ∀ (d j : Nat) (x : H), d < t.height → j < 2 ^ d → t.nodes[idx d j]? = some (some x) →
    codeVal hasher merger t.items t.height (t.height - d) d j = some x

/-- No leaf below the node at depth `d`, position `j`, height `k` gets a depth beyond the height of
the tree (which would abort the computation). -/
def LeavesRegular (t : Tree I H) (k j : Nat) : Prop :=
  ∀ p, j * 2 ^ k ≤ p → p < (j + 1) * 2 ^ k → p < t.leafs.length → ¬ Irregular t.height p

theorem LeavesRegular.left {t : Tree I H} {k j : Nat} (h : LeavesRegular t (k + 1) j) : LeavesRegular t k (2 * j) := by
  intro p a b c
  apply h p _ _ c
  · rw [Nat.pow_succ, Nat.mul_comm (2 ^ k) 2, ← Nat.mul_assoc, Nat.mul_comm j 2]; exact a
  · rw [Nat.pow_succ, Nat.mul_comm (2 ^ k) 2, ← Nat.mul_assoc, Nat.mul_comm (j + 1) 2]
    refine Nat.lt_of_lt_of_le b (Nat.mul_le_mul_right _ (by omega))

theorem LeavesRegular.right {t : Tree I H} {k j : Nat} (h : LeavesRegular t (k + 1) j) :
    LeavesRegular t k (2 * j + 1) := by
  intro p a b c
  apply h p _ _ c
  · rw [Nat.pow_succ, Nat.mul_comm (2 ^ k) 2, ← Nat.mul_assoc, Nat.mul_comm j 2]
    exact Nat.le_trans (Nat.mul_le_mul_right _ (by omega)) a
  · rw [Nat.pow_succ, Nat.mul_comm (2 ^ k) 2, ← Nat.mul_assoc, Nat.mul_comm (j + 1) 2]
    exact b

/-- `t'` is `t` with more hashes cached. -/
structure Extends (t t' : Tree I H) : Prop where
  fixed : t'.fixed = t.fixed
  height : t'.height = t.height
  items : t'.items = t.items
  len : t'.nodes.length = t.nodes.length
  node : ∀ (i : Nat) (x : H), t.nodes[i]? = some (some x) → t'.nodes[i]? = some (some x)
  leaf : ∀ (p : Nat) (x : I) (h : H), t.leafs[p]? = some (x, some h) → t'.leafs[p]? = some (x, some h)

theorem Extends.refl (t : Tree I H) : Extends t t := ⟨rfl, rfl, rfl, rfl, fun _ _ h => h, fun _ _ _ h => h⟩

theorem Extends.trans {t t' t'' : Tree I H} (a : Extends t t') (b : Extends t' t'') : Extends t t'' :=
  ⟨b.fixed.trans a.fixed, b.height.trans a.height, b.items.trans a.items, b.len.trans a.len,
    fun i x h => b.node i x (a.node i x h), fun p x h h' => b.leaf p x h (a.leaf p x h h')⟩

theorem Extends.leafs_length {t t' : Tree I H} (a : Extends t t') : t'.leafs.length = t.leafs.length := by
  have := congrArg List.length a.items
  simpa [Tree.items] using this

/-- The node at depth `d`, position `j` is cached (a missing leaf counts as cached). -/
def Cached (t : Tree I H) (d j : Nat) : Prop :=
  (d < t.height → ∃ x, t.nodes[idx d j]? = some (some x)) ∧
  (d = t.height → ∀ x c, t.leafs[j]? = some (x, c) → ∃ h, c = some h)

/-- Whatever is below a cached node is cached. -/
def Closed (t : Tree I H) : Prop :=
  ∀ d j x, d < t.height → j < 2 ^ d → t.nodes[idx d j]? = some (some x) →
    Cached t (d + 1) (2 * j) ∧ Cached t (d + 1) (2 * j + 1)

theorem getElem?_of_items {t t' : Tree I H} (h : t'.items = t.items) {p : Nat} {x : I} {c : Option H}
    (hp : t'.leafs[p]? = some (x, c)) : ∃ c', t.leafs[p]? = some (x, c') := by
  have h1 : t'.items[p]? = some x := by simp [Tree.items, hp]
  rw [h] at h1
  simp only [Tree.items, List.getElem?_map, Option.map_eq_some_iff] at h1
  obtain ⟨⟨y, c'⟩, h2, rfl⟩ := h1
  exact ⟨c', h2⟩

theorem Cached.mono {t t' : Tree I H} (e : Extends t t') {d j : Nat} (h : Cached t d j) : Cached t' d j := by
  refine ⟨fun hd => ?_, fun hd x c hc => ?_⟩
  · obtain ⟨x, hx⟩ := h.1 (by rw [← e.height]; exact hd)
    exact ⟨x, e.node _ _ hx⟩
  · obtain ⟨c', hc'⟩ := getElem?_of_items e.items hc
    obtain ⟨y, rfl⟩ := h.2 (by rw [← e.height]; exact hd) x c' hc'
    have := e.leaf _ _ _ hc'
    rw [this] at hc; cases hc; exact ⟨y, rfl⟩

theorem calcHash_ok (k : Nat) : ∀ (d j fuel : Nat) (t : Tree I H), CacheOK hasher merger t → d + k = t.height →
    j < 2 ^ d → k < fuel → LeavesRegular t k j →
    ∃ t', calcHash hasher merger fuel t (idx d j) = .ok (codeVal hasher merger t.items t.height k d j, t') ∧
      CacheOK hasher merger t' ∧ Extends t t' ∧
      (Total merger → Closed t → Closed t' ∧ Cached t' d j) := by
  induction k with
  | zero =>
    intro d j fuel t ht hd hj hf hreg
    obtain ⟨fuel, rfl⟩ : ∃ f, fuel = f + 1 := ⟨fuel - 1, by omega⟩
    have hdh : d = t.height := by omega
    subst hdh
    have hnot : ¬ idx t.height j < t.nodes.length := by rw [ht.len]; simp only [idx]; omega
    have hsub : idx t.height j - t.nodes.length = j := by rw [ht.len]; simp only [idx]; omega
    unfold calcHash
    rw [dif_neg hnot, hsub, codeVal]
    cases hl : t.leafs[j]? with
    | none =>
      refine ⟨t, ?_, ht, .refl t, fun _ hc => ⟨hc, fun h => absurd h (Nat.lt_irrefl _), fun _ x c h => ?_⟩⟩
      · simp [Tree.items, hl]
      · rw [hl] at h; cases h
    | some e =>
      obtain ⟨item, c⟩ := e
      have hitem : t.items[j]? = some item := by simp [Tree.items, hl]
      cases c with
      | some x =>
        refine ⟨t, ?_, ht, .refl t, fun _ hc => ⟨hc, fun h => absurd h (Nat.lt_irrefl _), fun _ y c h => ?_⟩⟩
        · rw [hitem, ht.leaf j item x hl]; rfl
        · rw [hl] at h; cases h; exact ⟨x, rfl⟩
      | none =>
        have hjl : j < t.leafs.length := (List.getElem?_eq_some_iff.mp hl).1
        have hjr : ¬ Irregular t.height j := hreg j (by simp) (by simp) hjl
        have hm : Meta.new (idx t.height j) t.height = .ok ⟨t.height, 0⟩ := by
          have := meta_regular hj hjr (Nat.le_refl t.height)
          simpa using this
        simp only [hm, hitem, Option.map_some]
        refine ⟨_, rfl, ?_, ?_, ?_⟩
        · refine ⟨ht.len, ?_, ?_, ?_⟩
          · intro p x h hp
            simp only [List.getElem?_set] at hp
            split at hp
            · rename_i hpj
              simp only [hjl, if_true, Option.some.injEq, Prod.mk.injEq] at hp
              obtain ⟨rfl, rfl⟩ := hp; rfl
            · exact ht.leaf p x h hp
          · intro p x h hp
            simp only [List.getElem?_set] at hp
            split at hp
            · rename_i hpj
              subst hpj; exact hjr
            · exact ht.regular p x h hp
          · intro d j' x hd hj' hx
            have := ht.node d j' x hd hj' hx
            have hi : Tree.items { t with leafs := t.leafs.set j (item, some (hasher item ⟨t.height, 0⟩)) } = t.items := by
              simp only [Tree.items, List.map_set]
              rw [set_same (by simpa [Tree.items] using hitem)]
            rw [hi]; exact this
        · have hi : Tree.items { t with leafs := t.leafs.set j (item, some (hasher item ⟨t.height, 0⟩)) } = t.items := by
            simp only [Tree.items, List.map_set]
            rw [set_same (by simpa [Tree.items] using hitem)]
          refine ⟨rfl, rfl, hi, rfl, fun _ _ h => h, fun p x h hp => ?_⟩
          simp only [List.getElem?_set]
          split
          · rename_i hpj; subst hpj; rw [hl] at hp; cases hp
          · exact hp
        · intro _ hc
          have hleaf : ∀ d j', Cached t d j' → Cached { t with leafs := t.leafs.set j (item, some (hasher item ⟨t.height, 0⟩)) } d j' := by
            intro d j' h
            refine ⟨h.1, fun hd x c hx => ?_⟩
            simp only [List.getElem?_set] at hx
            split at hx
            · simp only [hjl, if_true, Option.some.injEq, Prod.mk.injEq] at hx
              exact ⟨_, hx.2.symm⟩
            · exact h.2 hd x c hx
          refine ⟨fun d j' x hd hj' hx => ⟨hleaf _ _ (hc d j' x hd hj' hx).1, hleaf _ _ (hc d j' x hd hj' hx).2⟩,
            fun h => absurd h (Nat.lt_irrefl _), fun _ x c hx => ?_⟩
          simp only [List.getElem?_set_self hjl, Option.some.injEq, Prod.mk.injEq] at hx
          exact ⟨_, hx.2.symm⟩
  | succ k ih =>
    intro d j fuel t ht hd hj hf hreg
    obtain ⟨fuel, rfl⟩ : ∃ f, fuel = f + 1 := ⟨fuel - 1, by omega⟩
    have hdh : d < t.height := by omega
    have hlt : idx d j < t.nodes.length := by rw [ht.len]; exact idx_lt hdh hj
    unfold calcHash
    rw [dif_pos hlt]
    cases hn : t.nodes[idx d j] with
    | some x =>
      have hx : t.nodes[idx d j]? = some (some x) := by rw [List.getElem?_eq_getElem hlt, hn]
      refine ⟨t, ?_, ht, .refl t, fun _ hc => ⟨hc, fun _ => ⟨x, hx⟩, fun h => by omega⟩⟩
      have := ht.node d j x hdh hj hx
      rw [show t.height - d = k + 1 by omega] at this
      rw [this]
    | none =>
      have hj2 : 2 * j + 1 < 2 ^ (d + 1) := by rw [Nat.pow_succ]; omega
      obtain ⟨t1, h1, hc1, he1, hcl1⟩ := ih (d + 1) (2 * j) fuel t ht (by omega) (by omega) (by omega) hreg.left
      obtain ⟨t2, h2, hc2, he2, hcl2⟩ := ih (d + 1) (2 * j + 1) fuel t1 hc1 (by rw [he1.height]; omega) hj2 (by omega)
        (by intro p a b c; rw [he1.height]; exact hreg.right p a b (by rw [← he1.leafs_length]; exact c))
      have he := he1.trans he2
      have hm : Meta.new (idx d j) t2.height = .ok ⟨nodeDepth (idx d j), t.height - nodeDepth (idx d j)⟩ := by
        rw [he.height]; exact meta_inner hj hdh
      rw [idx_left, idx_right, h1]
      simp only [bind, Except.bind]
      rw [h2]
      simp only [hm]
      rw [he1.items, he1.height]
      rw [show merger (codeVal hasher merger t.items t.height k (d + 1) (2 * j))
        (codeVal hasher merger t.items t.height k (d + 1) (2 * j + 1))
        ⟨nodeDepth (idx d j), t.height - nodeDepth (idx d j)⟩ = codeVal hasher merger t.items t.height (k + 1) d j from rfl]
      have hlt2 : idx d j < t2.nodes.length := by rw [he.len]; exact hlt
      have hitems : Tree.items { t2 with nodes := t2.nodes.set (idx d j) (codeVal hasher merger t.items t.height (k + 1) d j) } = t.items := he.items
      have hset : Extends t2 { t2 with nodes := t2.nodes.set (idx d j) (codeVal hasher merger t.items t.height (k + 1) d j) } := by
        refine ⟨rfl, rfl, rfl, by simp, fun i x hx => ?_, fun _ _ _ h => h⟩
        simp only [List.getElem?_set]
        split
        · rename_i hi
          subst hi
          have := hc2.node d j x (by rw [he.height]; exact hdh) hj hx
          rw [he.items, he.height, show t.height - d = k + 1 by omega] at this
          rw [this]
        · exact hx
      refine ⟨_, rfl, ⟨by simp [hc2.len], hc2.leaf, hc2.regular, ?_⟩, he.trans hset, ?_⟩
      · intro d' j' x hd' hj' hx
        simp only [List.getElem?_set] at hx
        split at hx
        · rename_i hi
          obtain ⟨rfl, rfl⟩ := idx_inj hj hj' hi
          rw [hitems]
          simp only [he.height]
          rw [show t.height - d = k + 1 by omega]
          simpa using hx
        · have := hc2.node d' j' x hd' hj' hx
          rw [hitems, ← he.items]; exact this
      · intro htot hc
        obtain ⟨a1, b1⟩ := hcl1 htot hc
        obtain ⟨a2, b2⟩ := hcl2 htot a1
        have b1' := b1.mono he2
        obtain ⟨y, hy⟩ : ∃ y, codeVal hasher merger t.items t.height (k + 1) d j = some y := by
          exact Option.isSome_iff_exists.mp (htot _ _ _)
        refine ⟨fun d' j' x hd' hj' hx => ?_, fun _ => ⟨y, ?_⟩, fun h => ?_⟩
        · simp only [List.getElem?_set] at hx
          split at hx
          · rename_i hi
            obtain ⟨rfl, rfl⟩ := idx_inj hj hj' hi
            exact ⟨b1'.mono hset, b2.mono hset⟩
          · have := a2 d' j' x hd' hj' hx
            exact ⟨this.1.mono hset, this.2.mono hset⟩
        · simp only [List.getElem?_set_self hlt2, hy]
        · simp only [he.height] at h; omega

end MinaRs.Merkle
