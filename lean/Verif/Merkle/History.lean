import Verif.Merkle.Path

/-! Histories, splitting of batches, padded trees, proof soundness and merkle paths (helper lemmas
for C20–C28). -/

namespace MinaRs.Merkle
open Spec

variable {I H : Type} {hasher : I → Meta → H} {merger : Option H → Option H → Meta → Option H}

/-! ### The shape of a tree -/

/-- What every reachable tree satisfies, for any hasher and merger. -/
structure Shape (t : Tree I H) : Prop where
  height : t.height = calcHeight t.leafs.length
  len : t.nodes.length = nodeCount t.height

theorem calcHash_shape (fuel : Nat) : ∀ (t : Tree I H) (i : Nat) r t', calcHash hasher merger fuel t i = .ok (r, t') →
    t'.fixed = t.fixed ∧ t'.height = t.height ∧ t'.nodes.length = t.nodes.length ∧ t'.items = t.items := by
  induction fuel with
  | zero => intro t i r t' h; cases h
  | succ fuel ih =>
    intro t i r t' h
    unfold calcHash at h
    split at h
    · split at h
      · cases h; exact ⟨rfl, rfl, rfl, rfl⟩
      · simp only [bind, Except.bind] at h
        split at h
        · cases h
        · rename_i x hx
          obtain ⟨l, t1⟩ := x
          have a := ih _ _ _ _ hx
          simp only at h
          split at h
          · cases h
          · rename_i y hy
            obtain ⟨r', t2⟩ := y
            have b := ih _ _ _ _ hy
            simp only at h
            split at h
            · cases h
            · cases h
              exact ⟨b.1.trans a.1, b.2.1.trans a.2.1, by simp [b.2.2.1, a.2.2.1], b.2.2.2.trans a.2.2.2⟩
    · split at h
      · cases h; exact ⟨rfl, rfl, rfl, rfl⟩
      · cases h; exact ⟨rfl, rfl, rfl, rfl⟩
      · rename_i item hl
        simp only [bind, Except.bind] at h
        split at h
        · cases h
        · cases h
          refine ⟨rfl, rfl, rfl, ?_⟩
          simp only [Tree.items, List.map_set]
          apply set_same
          rw [List.getElem?_map, hl]; rfl

theorem items_length (t : Tree I H) : t.items.length = t.leafs.length := by simp [Tree.items]

theorem calcRoot_shape {t t' : Tree I H} {r : Option H} (h : t.calcRoot hasher merger = .ok (r, t')) (hs : Shape t) :
    Shape t' ∧ t'.fixed = t.fixed ∧ t'.items = t.items := by
  obtain ⟨a, b, c, d⟩ := calcHash_shape _ _ _ _ _ h
  have hl : t'.leafs.length = t.leafs.length := by rw [← items_length, ← items_length, d]
  exact ⟨⟨by rw [b, hl, hs.height], by rw [c, b, hs.len]⟩, a, d⟩

theorem root_state {t t' : Tree I H} {r : Option H} (h : t.root hasher merger = .ok (r, t')) :
    ∃ r', t.calcRoot hasher merger = .ok (r', t') := by
  unfold Tree.root at h
  simp only [bind, Except.bind] at h
  split at h
  · cases h
  · rename_i x hx
    obtain ⟨r', t1⟩ := x
    simp only at h
    split at h
    · cases h; exact ⟨_, hx⟩
    · split at h
      · cases h
      · split at h
        · cases h
        · cases h; exact ⟨_, hx⟩

theorem getProof_state {t t' : Tree I H} {i : Nat} {r : Option (Proof I H)}
    (h : t.getProof hasher merger i = .ok (r, t')) : ∃ r', t.calcRoot hasher merger = .ok (r', t') := by
  unfold Tree.getProof at h
  simp only [bind, Except.bind] at h
  split at h
  · cases h
  · rename_i x hx
    obtain ⟨r', t1⟩ := x
    simp only at h
    split at h
    · cases h; exact ⟨_, hx⟩
    · split at h
      · cases h
      · split at h
        · cases h
        · split at h
          · cases h
          · split at h
            · cases h
            · split at h
              · cases h
              · split at h
                · cases h
                · cases h; exact ⟨_, hx⟩

theorem clearDirty_len (i : Nat) : ∀ (nodes : List (Option H)), i ≤ 2 * nodes.length →
    ∃ nodes', clearDirty nodes i = .ok nodes' ∧ nodes'.length = nodes.length := by
  induction i using Nat.strongRecOn with
  | _ i ih =>
    intro nodes hi
    unfold clearDirty
    split
    · exact ⟨nodes, rfl, rfl⟩
    · rw [dif_pos (by omega)]
      split
      · obtain ⟨n', h1, h2⟩ := ih ((i - 1) / 2) (by omega) (nodes.set ((i - 1) / 2) none) (by simp; omega)
        exact ⟨n', h1, by simpa using h2⟩
      · exact ⟨nodes, rfl, rfl⟩

theorem clearDirtyFrom_len (n : Nat) : ∀ (nodes : List (Option H)) (s : Nat), s + n ≤ 2 * nodes.length + 1 →
    ∃ nodes', clearDirtyFrom nodes s n = .ok nodes' ∧ nodes'.length = nodes.length := by
  induction n with
  | zero => intro nodes s _; exact ⟨nodes, rfl, rfl⟩
  | succ n ih =>
    intro nodes s h
    obtain ⟨n1, h1, l1⟩ := clearDirty_len s nodes (by omega)
    obtain ⟨n2, h2, l2⟩ := ih n1 (s + 1) (by omega)
    refine ⟨n2, ?_, l2.trans l1⟩
    unfold clearDirtyFrom
    rw [h1]; exact h2

theorem clearDirtyFrom_add (a b : Nat) : ∀ (nodes : List (Option H)) (s : Nat),
    clearDirtyFrom nodes s (a + b) = (clearDirtyFrom nodes s a >>= fun n => clearDirtyFrom n (s + a) b) := by
  induction a with
  | zero => intro nodes s; rw [Nat.zero_add]; rfl
  | succ a ih =>
    intro nodes s
    rw [show a + 1 + b = (a + b) + 1 by omega]
    rw [clearDirtyFrom, clearDirtyFrom]
    simp only [bind, Except.bind]
    split
    · rfl
    · rename_i n1 _
      have := ih n1 (s + 1)
      simp only [bind, Except.bind] at this
      rw [this, show s + 1 + a = s + (a + 1) by omega]

/-- Inserting a batch never fails and keeps the shape. -/
theorem addBatch_shape {t : Tree I H} (ht : Shape t) (items : List I) :
    ∃ t', t.addBatch items = .ok t' ∧ Shape t' ∧ t'.fixed = t.fixed ∧ t'.items = t.items ++ items := by
  have hitems : (t.leafs ++ items.map (fun item => (item, (none : Option H)))).map Prod.fst = t.items ++ items := by
    simp [Tree.items, List.map_append, Function.comp_def]
  unfold Tree.addBatch
  simp only [List.length_map]
  split
  · exact ⟨_, rfl, ⟨by simp, by simp⟩, rfl, hitems⟩
  · rename_i h
    have h : calcHeight (t.leafs.length + items.length) = t.height := by simpa using h
    have hcap : t.leafs.length + items.length ≤ 2 ^ t.height := by rw [← h]; exact (leastHeight_calcHeight _).1
    obtain ⟨n', h1, l1⟩ := clearDirtyFrom_len items.length t.nodes (t.nodes.length + t.leafs.length)
      (by rw [ht.len]; simp only [nodeCount]; omega)
    rw [h1]
    exact ⟨_, rfl, ⟨by simp [h], by simpa [l1] using ht.len⟩, rfl, hitems⟩

theorem clearDirtyFrom_replicate (h n s : Nat) (hs : s + n ≤ 2 * nodeCount h + 1) :
    clearDirtyFrom (List.replicate (nodeCount h) (none : Option H)) s n = .ok (List.replicate (nodeCount h) none) := by
  induction n generalizing s with
  | zero => rfl
  | succ n ih =>
    unfold clearDirtyFrom
    have h1 : clearDirty (List.replicate (nodeCount h) (none : Option H)) s = .ok (List.replicate (nodeCount h) none) := by
      unfold clearDirty
      split
      · rfl
      · rw [dif_pos (by simp only [List.length_replicate]; omega)]
        simp
    rw [h1]
    exact ih (s + 1) (by omega)

/-- A batch may be split. -/
theorem addBatch_append {t : Tree I H} (ht : Shape t) (a b : List I) :
    t.addBatch (a ++ b) = (t.addBatch a >>= fun t' => t'.addBatch b) := by
  have h1 := calcHeight_mono (show t.leafs.length ≤ t.leafs.length + a.length by omega)
  have h2 := calcHeight_mono (show t.leafs.length + a.length ≤ t.leafs.length + a.length + b.length by omega)
  have hcap := (leastHeight_calcHeight (t.leafs.length + a.length + b.length)).1
  rw [← ht.height] at h1
  unfold Tree.addBatch
  simp only [List.length_map, List.length_append, List.map_append, ← Nat.add_assoc]
  by_cases ha : calcHeight (t.leafs.length + a.length) = t.height
  · rw [if_neg (show ¬ calcHeight (t.leafs.length + a.length) ≠ t.height by simpa using ha)]
    obtain ⟨n1, e1, l1⟩ := clearDirtyFrom_len a.length t.nodes (t.nodes.length + t.leafs.length) (by
      have := (leastHeight_calcHeight (t.leafs.length + a.length)).1
      rw [ha] at this
      rw [ht.len]; simp only [nodeCount]; omega)
    rw [e1]
    simp only [bind, Except.bind]
    by_cases hb : calcHeight (t.leafs.length + a.length + b.length) = t.height
    · rw [if_neg (by simpa using hb)]
      have hb' : ¬ calcHeight ((t.leafs ++ a.map (fun item => (item, (none : Option H)))).length + b.length) ≠ t.height := by
        simpa using hb
      simp only [List.length_append, List.length_map] at hb'
      simp only [List.length_append, List.length_map]
      rw [if_neg hb', clearDirtyFrom_add, e1]
      simp only [bind, Except.bind, l1, ← Nat.add_assoc, List.append_assoc]
    · rw [if_pos hb]
      simp only [List.length_append, List.length_map]
      rw [if_pos hb]
      simp only [List.append_assoc]
  · have hab : calcHeight (t.leafs.length + a.length + b.length) ≠ t.height := by omega
    rw [if_pos hab, if_pos ha]
    simp only [bind, Except.bind, List.length_append, List.length_map]
    by_cases hb : calcHeight (t.leafs.length + a.length + b.length) = calcHeight (t.leafs.length + a.length)
    · rw [if_neg (by simpa using hb)]
      rw [hb] at hcap
      simp only [List.length_replicate]
      rw [clearDirtyFrom_replicate _ _ _ (by simp only [nodeCount]; omega)]
      simp only [hb, List.append_assoc]
    · rw [if_pos hb]
      simp only [List.append_assoc]

theorem addBatch_nil {t : Tree I H} (ht : Shape t) : t.addBatch [] = .ok t := by
  unfold Tree.addBatch
  simp only [List.map_nil, List.length_nil, Nat.add_zero, List.append_nil]
  rw [if_neg (by simp [ht.height])]
  rfl

theorem shape_new (fixed : Option Nat) : Shape (Tree.new fixed : Tree I H) := ⟨rfl, rfl⟩

theorem step_shape {t t' : Tree I H} {op : Op I} {o : Out I H} (ht : Shape t)
    (h : t.step hasher merger op = .ok (t', o)) : Shape t' ∧ t'.fixed = t.fixed ∧ t'.items = t.items ++ inserted [op] := by
  cases op with
  | add item =>
    obtain ⟨t1, h1, h2, h3, h4⟩ := addBatch_shape ht [item]
    simp only [Tree.step, Tree.add, h1, bind, Except.bind] at h
    cases h; exact ⟨h2, h3, h4⟩
  | addBatch items =>
    obtain ⟨t1, h1, h2, h3, h4⟩ := addBatch_shape ht items
    simp only [Tree.step, h1, bind, Except.bind] at h
    cases h; exact ⟨h2, h3, by simpa [inserted] using h4⟩
  | root =>
    simp only [Tree.step, bind, Except.bind] at h
    split at h
    · cases h
    · rename_i x hx
      obtain ⟨r, t1⟩ := x
      cases h
      obtain ⟨r', hr⟩ := root_state hx
      obtain ⟨a, b, c⟩ := calcRoot_shape hr ht
      exact ⟨a, b, by simpa [inserted] using c⟩
  | proof i =>
    simp only [Tree.step, bind, Except.bind] at h
    split at h
    · cases h
    · rename_i x hx
      obtain ⟨r, t1⟩ := x
      cases h
      obtain ⟨r', hr⟩ := getProof_state hx
      obtain ⟨a, b, c⟩ := calcRoot_shape hr ht
      exact ⟨a, b, by simpa [inserted] using c⟩

theorem inserted_cons (op : Op I) (ops : List (Op I)) : inserted (op :: ops) = inserted [op] ++ inserted ops := by
  cases op <;> simp [inserted]

theorem run_shape (ops : List (Op I)) : ∀ {t t' : Tree I H} {os : List (Out I H)}, Shape t →
    t.run hasher merger ops = .ok (t', os) → Shape t' ∧ t'.fixed = t.fixed ∧ t'.items = t.items ++ inserted ops := by
  induction ops with
  | nil => intro t t' os ht h; cases h; exact ⟨ht, rfl, by simp [inserted]⟩
  | cons op ops ih =>
    intro t t' os ht h
    simp only [Tree.run, bind, Except.bind] at h
    split at h
    · cases h
    · rename_i x hx
      obtain ⟨t1, o⟩ := x
      simp only at h
      split at h
      · cases h
      · rename_i y hy
        obtain ⟨t2, os'⟩ := y
        cases h
        obtain ⟨a, b, c⟩ := step_shape ht hx
        obtain ⟨a', b', c'⟩ := ih a hy
        exact ⟨a', b'.trans b, by rw [c', c, inserted_cons op ops, List.append_assoc]⟩

/-! ### The cache along a history -/

theorem step_inv (htot : Total merger) (hstable : LeafHashStable hasher) {t t' : Tree I H} {op : Op I} {o : Out I H}
    (ht : Inv hasher merger t) (h : t.step hasher merger op = .ok (t', o)) : Inv hasher merger t' := by
  have hroot : ∀ {r t1}, t.calcRoot hasher merger = .ok (r, t1) → Inv hasher merger t1 := by
    intro r t1 hr
    by_cases ha : Aborts t.leafs.length
    · rw [inv_calcRoot_aborts ht ha] at hr; cases hr
    · obtain ⟨t2, h1, h2, _⟩ := inv_calcRoot htot ht ha
      rw [hr] at h1; cases h1; exact h2
  cases op with
  | add item =>
    obtain ⟨t1, h1, h2, _⟩ := inv_addBatch hstable ht [item]
    simp only [Tree.step, Tree.add, h1, bind, Except.bind] at h
    cases h; exact h2
  | addBatch items =>
    obtain ⟨t1, h1, h2, _⟩ := inv_addBatch hstable ht items
    simp only [Tree.step, h1, bind, Except.bind] at h
    cases h; exact h2
  | root =>
    simp only [Tree.step, bind, Except.bind] at h
    split at h
    · cases h
    · rename_i x hx
      obtain ⟨r, t1⟩ := x
      cases h
      obtain ⟨r', hr⟩ := root_state hx
      exact hroot hr
  | proof i =>
    simp only [Tree.step, bind, Except.bind] at h
    split at h
    · cases h
    · rename_i x hx
      obtain ⟨r, t1⟩ := x
      cases h
      obtain ⟨r', hr⟩ := getProof_state hx
      exact hroot hr

theorem Inv.shape {t : Tree I H} (h : Inv hasher merger t) : Shape t := ⟨h.height, h.cache.len⟩

theorem run_inv (htot : Total merger) (hstable : LeafHashStable hasher) (ops : List (Op I)) :
    ∀ {t t' : Tree I H} {os : List (Out I H)}, Inv hasher merger t →
    t.run hasher merger ops = .ok (t', os) → Inv hasher merger t' := by
  induction ops with
  | nil => intro t t' os ht h; cases h; exact ht
  | cons op ops ih =>
    intro t t' os ht h
    simp only [Tree.run, bind, Except.bind] at h
    split at h
    · cases h
    · rename_i x hx
      obtain ⟨t1, o⟩ := x
      simp only at h
      split at h
      · cases h
      · rename_i y hy
        obtain ⟨t2, os'⟩ := y
        cases h
        exact ih (step_inv htot hstable ht hx) hy

/-- Two fully cached trees over the same items are the same. -/
theorem full_unique {t t' : Tree I H} (ht : Inv hasher merger t) (ht' : Inv hasher merger t')
    (hc : Cached t 0 0) (hc' : Cached t' 0 0) (hi : t.items = t'.items) (hf : t.fixed = t'.fixed) : t = t' := by
  have hll : t.leafs.length = t'.leafs.length := by rw [← items_length, ← items_length, hi]
  have hh : t.height = t'.height := by rw [ht.height, ht'.height, hll]
  have hcap : t.leafs.length ≤ 2 ^ t.height := by rw [ht.height]; exact (leastHeight_calcHeight _).1
  have hleafs : t.leafs = t'.leafs := by
    apply List.ext_getElem? 
    intro p
    rcases Nat.lt_or_ge p t.leafs.length with hp | hp
    · have hp' : p < t'.leafs.length := by omega
      obtain ⟨x, c, hx⟩ : ∃ x c, t.leafs[p]? = some (x, c) := ⟨t.leafs[p].1, t.leafs[p].2, List.getElem?_eq_getElem hp⟩
      obtain ⟨x', c', hx'⟩ : ∃ x c, t'.leafs[p]? = some (x, c) := ⟨t'.leafs[p].1, t'.leafs[p].2, List.getElem?_eq_getElem hp'⟩
      have hxx : x = x' := by
        have : t.items[p]? = t'.items[p]? := by rw [hi]
        simpa [Tree.items, hx, hx'] using this
      subst hxx
      obtain ⟨y, rfl⟩ := (cached_all ht.closed hc t.height p (Nat.le_refl _) (by omega)).2 rfl x c hx
      obtain ⟨y', rfl⟩ := (cached_all ht'.closed hc' t'.height p (Nat.le_refl _) (by rw [← hh]; omega)).2 rfl x c' hx'
      rw [hx, hx', ht.cache.leaf _ _ _ hx, ht'.cache.leaf _ _ _ hx', hh]
    · rw [List.getElem?_eq_none hp, List.getElem?_eq_none (by omega)]
  have hnodes : t.nodes = t'.nodes := by
    apply List.ext_getElem? 
    intro i
    have hl := ht.cache.len
    have hl' := ht'.cache.len
    rw [← hh] at hl'
    rcases Nat.lt_or_ge i t.nodes.length with hp | hp
    · obtain ⟨d, j, hd, hj, rfl⟩ := exists_idx t.height i (by omega)
      obtain ⟨x, hx⟩ := (cached_all ht.closed hc d j (by omega) hj).1 hd
      obtain ⟨x', hx'⟩ := (cached_all ht'.closed hc' d j (by omega) hj).1 (by omega)
      have e1 := ht.cache.node d j x hd hj hx
      have e2 := ht'.cache.node d j x' (by omega) hj hx'
      rw [hx, hx', ← e1, ← e2, hi, hh]
    · rw [List.getElem?_eq_none hp, List.getElem?_eq_none (by omega)]
  cases t; cases t'
  simp only at *
  subst hleafs hnodes hh hf
  rfl

theorem calcRoot_unique (htot : Total merger) {t t' : Tree I H} (ht : Inv hasher merger t) (ht' : Inv hasher merger t')
    (hi : t.items = t'.items) (hf : t.fixed = t'.fixed) :
    t.calcRoot hasher merger = t'.calcRoot hasher merger := by
  have hl : t.leafs.length = t'.leafs.length := by rw [← items_length, ← items_length, hi]
  by_cases ha : Aborts t.leafs.length
  · rw [inv_calcRoot_aborts ht ha, inv_calcRoot_aborts ht' (hl ▸ ha)]
  obtain ⟨a, a1, a2, a3, a4⟩ := inv_calcRoot htot ht ha
  obtain ⟨b, b1, b2, b3, b4⟩ := inv_calcRoot htot ht' (hl ▸ ha)
  have hh : t.height = t'.height := by rw [ht.height, ht'.height, hl]
  have hab : a = b := full_unique a2 b2 a4 b4 (by rw [a3.items, b3.items, hi]) (by rw [a3.fixed, b3.fixed, hf])
  rw [a1, b1, hab, hh, hi]

end MinaRs.Merkle
