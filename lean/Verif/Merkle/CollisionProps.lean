import Verif.Merkle.Collision

/-! # C25, C26 without assuming collision-free hashing

The claims of `Props.lean` assume that hashing is injective, which no hash into a finite set is.  Here nothing is
assumed of the hashes: what fails to hold the tree to its items is a collision among the hashes that were
computed, and the theorems say where it is. -/

namespace MinaRs.Merkle

open Spec

variable {I H : Type}

/-- The node and leaf hashes of the Poseidon trees. -/
abbrev mklNode (compress : Option String → H → H → H) (h : Nat) (l r : H) : H :=
  compress (if h = 0 then none else some ("CodaMklTree" ++ pad3 (h - 1))) l r

/-- The leaves, unused positions holding the empty hash. -/
abbrev mklLeaf (hash : I → H) (empty : H) (items : List I) (i : Nat) : H :=
  match items[i]? with
  | some x => hash x
  | none => empty

theorem mklNode_eq (compress : Option String → H → H → H) : mklNode compress = padNode compress :=
  (padNode_eq compress).symm

theorem mklLeaf_eq (hash : I → H) (empty : H) (items : List I) : mklLeaf hash empty items = padLeaf hash empty items := rfl

/-- **C26.** Two fixed-height Poseidon trees, whatever their histories and however many items each holds, that
report the same root hold the same items in the same order; or else two different items have the same hash, an
item has the hash of an empty position, or two different pairs of hashes in the two trees are merged to the same
hash.  Missing: 2^28 items or more, where the code computes another root (`C23_large_trees_fails`). -/
theorem C26_same_root_or_collision_partial (compress : Option String → H → H → H) (empty : H) (hash : I → H)
    (F : Nat) (ops₁ ops₂ : List (Op I)) (hs₁ : (inserted ops₁).length < 2 ^ 28) (hs₂ : (inserted ops₂).length < 2 ^ 28)
    (t₁ t₂ t₁' t₂' : Tree I H) (outs₁ outs₂ : List (Out I H))
    (hrun₁ : (Tree.new (some F)).run (poseidonHasher hash) (poseidonMerger compress empty) ops₁ = .ok (t₁, outs₁))
    (hrun₂ : (Tree.new (some F)).run (poseidonHasher hash) (poseidonMerger compress empty) ops₂ = .ok (t₂, outs₂))
    (root : H) (h₁ : t₁.root (poseidonHasher hash) (poseidonMerger compress empty) = .ok (some root, t₁'))
    (h₂ : t₂.root (poseidonHasher hash) (poseidonMerger compress empty) = .ok (some root, t₂')) :
    inserted ops₁ = inserted ops₂ ∨
    ItemsCollide hash (inserted ops₁) (inserted ops₂) ∨
    ItemLooksEmpty hash empty (inserted ops₁) (inserted ops₂) ∨
    ItemLooksEmpty hash empty (inserted ops₂) (inserted ops₁) ∨
    TreesCollide (mklNode compress) (mklLeaf hash empty (inserted ops₁)) (mklLeaf hash empty (inserted ops₂)) F := by
  have key : ∀ (ops : List (Op I)) (t t' : Tree I H) (outs : List (Out I H)), (inserted ops).length < 2 ^ 28 →
      (Tree.new (some F)).run (poseidonHasher hash) (poseidonMerger compress empty) ops = .ok (t, outs) →
      t.root (poseidonHasher hash) (poseidonMerger compress empty) = .ok (some root, t') →
      (inserted ops).length ≤ 2 ^ F ∧ root = fullTree (padNode compress) (padLeaf hash empty (inserted ops)) F 0 := by
    intro ops t t' outs hs hrun hroot
    have hfit : (inserted ops).length ≤ 2 ^ F := by
      apply Nat.le_of_not_lt
      intro hlt
      obtain ⟨e, he⟩ := C23_too_many_refused_partial _ _ (poseidon_total compress empty) (poseidon_stable hash) F ops hlt t outs hrun
      rw [he] at hroot; cases hroot
    refine ⟨hfit, ?_⟩
    by_cases hne : inserted ops ≠ [] ∨ 0 < F
    · have := C23_fixed_root_partial compress empty hash F ops hs hfit hne t outs hrun
      rw [hroot] at this
      have := Option.some.inj (Except.ok.inj this)
      rw [padNode_eq]
      exact this
    · simp only [not_or, ne_eq, Classical.not_not, Nat.not_lt, Nat.le_zero_eq] at hne
      obtain ⟨hn, rfl⟩ := hne
      have ht := run_inv (poseidon_total compress empty) (poseidon_stable hash) ops (inv_new (some 0)) hrun
      obtain ⟨_, hf, hi⟩ := run_shape ops (shape_new (some 0)) hrun
      have hi : t.items = inserted ops := by rw [hi]; rfl
      have hr := (inv_root (poseidon_total compress empty) ht (by rw [hi]; exact hs)).1
      rw [hroot, hf, hi, hn] at hr
      cases hr
  obtain ⟨f₁, r₁⟩ := key ops₁ t₁ t₁' outs₁ hs₁ hrun₁ h₁
  obtain ⟨f₂, r₂⟩ := key ops₂ t₂ t₂' outs₂ hs₂ hrun₂ h₂
  rw [mklNode_eq, mklLeaf_eq, mklLeaf_eq]
  rcases fullTree_commits _ _ _ F (r₁.symm.trans r₂) with a | a
  · rcases padLeaf_commits hash empty _ _ (2 ^ F) f₁ f₂ a with b | b | b | b
    · exact .inl b
    · exact .inr (.inl b)
    · exact .inr (.inr (.inl b))
    · exact .inr (.inr (.inr (.inl b)))
  · exact .inr (.inr (.inr (.inr a)))

/-- **C26**, trees that grow with their items: the same for two trees with equally many items. -/
theorem C26_same_root_or_collision_growing_partial (compress : Option String → H → H → H) (empty : H) (hash : I → H)
    (ops₁ ops₂ : List (Op I)) (hs : (inserted ops₁).length < 2 ^ 28)
    (t₁ t₂ t₁' t₂' : Tree I H) (outs₁ outs₂ : List (Out I H))
    (hrun₁ : (Tree.new none).run (poseidonHasher hash) (poseidonMerger compress empty) ops₁ = .ok (t₁, outs₁))
    (hrun₂ : (Tree.new none).run (poseidonHasher hash) (poseidonMerger compress empty) ops₂ = .ok (t₂, outs₂))
    (hcount : t₁.count = t₂.count) (root : Option H)
    (h₁ : t₁.root (poseidonHasher hash) (poseidonMerger compress empty) = .ok (root, t₁'))
    (h₂ : t₂.root (poseidonHasher hash) (poseidonMerger compress empty) = .ok (root, t₂')) :
    inserted ops₁ = inserted ops₂ ∨
    ItemsCollide hash (inserted ops₁) (inserted ops₂) ∨
    TreesCollide (mklNode compress) (mklLeaf hash empty (inserted ops₁)) (mklLeaf hash empty (inserted ops₂))
      t₁.reportedHeight := by
  have hl : (inserted ops₁).length = (inserted ops₂).length := by
    obtain ⟨_, _, hi₁⟩ := run_shape ops₁ (shape_new none) hrun₁
    obtain ⟨_, _, hi₂⟩ := run_shape ops₂ (shape_new none) hrun₂
    have hi₁ : t₁.items = inserted ops₁ := by rw [hi₁]; rfl
    have hi₂ : t₂.items = inserted ops₂ := by rw [hi₂]; rfl
    rw [← hi₁, ← hi₂, items_length, items_length]; exact hcount
  have key : ∀ (ops : List (Op I)) (t t' : Tree I H) (outs : List (Out I H)), (inserted ops).length < 2 ^ 28 →
      (Tree.new none).run (poseidonHasher hash) (poseidonMerger compress empty) ops = .ok (t, outs) →
      t.root (poseidonHasher hash) (poseidonMerger compress empty) = .ok (root, t') →
      t.reportedHeight = calcHeight (inserted ops).length ∧
      root.getD (emptyHash compress empty (calcHeight (inserted ops).length)) =
        fullTree (padNode compress) (padLeaf hash empty (inserted ops)) (calcHeight (inserted ops).length) 0 := by
    intro ops t t' outs hs hrun hroot
    have ht := run_inv (poseidon_total compress empty) (poseidon_stable hash) ops (inv_new none) hrun
    obtain ⟨_, hf, hi⟩ := run_shape ops (shape_new none) hrun
    have hi : t.items = inserted ops := by rw [hi]; rfl
    have hr := (inv_root (poseidon_total compress empty) ht (by rw [hi]; exact hs)).1
    rw [hroot, hf, hi] at hr
    have hf : t.fixed = none := hf
    refine ⟨?_, ?_⟩
    · unfold Tree.reportedHeight
      rw [hf]
      change t.height = _
      rw [ht.height, ← items_length, hi]
    · have hr : root = subtree (poseidonHasher hash) (poseidonMerger compress empty) (calcHeight (inserted ops).length) 0 (inserted ops) :=
        Except.ok.inj hr
      have := nodeVal_full compress empty hash (inserted ops) (calcHeight (inserted ops).length) 0 0
      rw [nodeVal, slice_whole _ _ (leastHeight_calcHeight _).1, Nat.zero_mul] at this
      rw [hr]
      exact this
  obtain ⟨e₁, r₁⟩ := key ops₁ t₁ t₁' outs₁ hs hrun₁ h₁
  obtain ⟨-, r₂⟩ := key ops₂ t₂ t₂' outs₂ (hl ▸ hs) hrun₂ h₂
  rw [← hl] at r₂
  have hcap := (leastHeight_calcHeight (inserted ops₁).length).1
  rw [e₁, mklNode_eq, mklLeaf_eq, mklLeaf_eq]
  rcases fullTree_commits _ _ _ _ (r₁.symm.trans r₂) with a | a
  · rcases padLeaf_commits hash empty _ _ _ hcap (hl ▸ hcap) a with b | b | ⟨i, x, b1, b2, -⟩ | ⟨i, x, b1, b2, -⟩
    · exact .inl b
    · exact .inr (.inl b)
    · rw [List.getElem?_eq_none_iff] at b2
      have := (List.getElem?_eq_some_iff.mp b1).1
      omega
    · rw [List.getElem?_eq_none_iff] at b2
      have := (List.getElem?_eq_some_iff.mp b1).1
      omega
  · exact .inr (.inr a)

/-- **C25.** A proof for a leaf position that verifies against the root of a fixed-height Poseidon tree carries an
item with the hash of the position its path leads to; or else the path collides on its way up with the node of
the tree at the same place.  The path leads to the position the proof names when each peer is the sibling of the
node it is merged with.  Missing: that condition, which the code does not check (`C25_wrong_position_fails`);
heights above 48; positions from 2^28 - 1 on and 2^28 items or more. -/
theorem C25_verified_or_collision_partial [DecidableEq H] (compress : Option String → H → H → H) (empty : H) (hash : I → H)
    (F : Nat) (hF : F ≤ 48) (ops : List (Op I)) (hsize : (inserted ops).length < 2 ^ 28) (hne : inserted ops ≠ [] ∨ 0 < F)
    (t t' : Tree I H) (outs : List (Out I H))
    (hrun : (Tree.new (some F)).run (poseidonHasher hash) (poseidonMerger compress empty) ops = .ok (t, outs))
    (hfit : (inserted ops).length ≤ 2 ^ F)
    (root : H) (hroot : t.root (poseidonHasher hash) (poseidonMerger compress empty) = .ok (some root, t'))
    (i : Nat) (hi : i < 2 ^ F) (hi28 : i + 1 < 2 ^ 28) (p : Proof I H) (hindex : p.index = 2 ^ F - 1 + i)
    (hlen : p.peerIndices.length = F)
    (hver : p.verify (poseidonHasher hash) (poseidonMerger compress empty) root = .ok true) :
    let path := proofPath (mklNode compress) empty 0 p.index p.peerIndices p.peerHashes
    (hash p.item = mklLeaf hash empty (inserted ops) (pathPosition path) ∨
      PathCollides (mklNode compress) (mklLeaf hash empty (inserted ops)) (hash p.item) path) ∧
    (ProperPeers p.index p.peerIndices → pathPosition path = i) := by
  intro path
  have hr := C23_fixed_root_partial compress empty hash F ops hsize hfit hne t outs hrun
  rw [hroot] at hr
  have hr : root = fullTree (padNode compress) (padLeaf hash empty (inserted ops)) F 0 := by
    rw [padNode_eq]; exact Option.some.inj (Except.ok.inj hr)
  have hidx : p.index = idx F i := hindex
  have hreg : ∀ k, k ≤ F → ¬ Irregular (F - k) (i / 2 ^ k) := fun k _ => regular_ancestor hi28
  have hpath : path = proofPath (padNode compress) empty 0 (idx F i) p.peerIndices p.peerHashes := by
    show proofPath (mklNode compress) empty 0 p.index p.peerIndices p.peerHashes = _
    rw [mklNode_eq, hidx]
  have hclimb : climb (padNode compress) 0 (hash p.item) path = root ∧ path.length = F := by
    unfold Proof.verify at hver
    split at hver
    · rename_i h hrh
      have heq : h = root := by simpa using hver
      subst heq
      unfold Proof.rootHash at hrh
      split at hrh
      · rw [hidx, if_neg (idx_no_overflow (by omega) hi28), hlen] at hrh
        rw [meta_regular (h := F) hi (by simpa using hreg 0 (Nat.zero_le _)) (Nat.le_refl _)] at hrh
        simp only [liftPanic, bind, Except.bind] at hrh
        split at hrh
        · cases hrh
        · rename_i v hv
          split at hrh
          · cases hrh
            have := rootLoop_climb compress empty F i (Nat.le_refl _) hi hreg _ _ _ _ hlen hv
            rw [Nat.sub_self, ← hpath] at this
            exact this
          · cases hrh
      · cases hrh
    · cases hver
    · cases hver
  refine ⟨?_, fun hp => ?_⟩
  · have := climb_or_collides (padNode compress) (padLeaf hash empty (inserted ops)) path 0 (hash p.item)
      (by rw [hclimb.1, hclimb.2, Nat.zero_add]; exact hr)
    rw [mklNode_eq, mklLeaf_eq]
    rcases this with h | ⟨below, l, s, above, h1, h2⟩
    · rw [fullTree, Nat.pow_zero, Nat.mul_one] at h
      exact .inl h
    · right
      refine ⟨below, l, s, above, h1, ?_⟩
      rw [Nat.zero_add] at h2
      exact h2
  · rw [hpath]
    rw [hidx] at hp
    exact proofPath_position (padNode compress) empty F 0 i _ _ hi hp hlen (hpath ▸ hclimb.2)

/-- **C25.** So with proper peers the proof carries the item at the position it names; or else two different items
have the same hash, or the path collides. -/
theorem C25_proof_sound_or_collision_partial [DecidableEq H] (compress : Option String → H → H → H) (empty : H) (hash : I → H)
    (F : Nat) (hF : F ≤ 48) (ops : List (Op I)) (hsize : (inserted ops).length < 2 ^ 28)
    (t t' : Tree I H) (outs : List (Out I H))
    (hrun : (Tree.new (some F)).run (poseidonHasher hash) (poseidonMerger compress empty) ops = .ok (t, outs))
    (hfit : (inserted ops).length ≤ 2 ^ F)
    (root : H) (hroot : t.root (poseidonHasher hash) (poseidonMerger compress empty) = .ok (some root, t'))
    (i : Nat) (item : I) (hitem : (inserted ops)[i]? = some item) (p : Proof I H) (hindex : p.index = 2 ^ F - 1 + i)
    (hlen : p.peerIndices.length = F) (hpeers : ProperPeers p.index p.peerIndices)
    (hver : p.verify (poseidonHasher hash) (poseidonMerger compress empty) root = .ok true) :
    p.item = item ∨ (p.item ≠ item ∧ hash p.item = hash item) ∨
    PathCollides (mklNode compress) (mklLeaf hash empty (inserted ops)) (hash p.item)
      (proofPath (mklNode compress) empty 0 p.index p.peerIndices p.peerHashes) := by
  have hi := (List.getElem?_eq_some_iff.mp hitem).1
  obtain ⟨h1, h2⟩ := C25_verified_or_collision_partial compress empty hash F hF ops hsize
    (.inl (by intro h; rw [h] at hi; cases hi)) t t' outs hrun hfit root hroot i (by omega) (by omega) p hindex hlen hver
  have h2 := h2 hpeers
  rcases h1 with h | h
  · rw [h2] at h
    by_cases e : p.item = item
    · exact .inl e
    · refine .inr (.inl ⟨e, ?_⟩)
      rw [h]
      simp only [mklLeaf, hitem]
  · exact .inr (.inr h)

/-! ## Examples: a hash into eleven values -/

/-- A compression with many collisions. -/
def toyCompress (s : Option String) (l r : Nat) : Nat := ((match s with | none => 0 | some s => s.length) + 3 * l + 5 * r) % 11
/-- An item hash with many collisions. -/
def toyHash (x : Nat) : Nat := (x + 1) % 11

/-- Both histories lead to trees with the same root. -/
def sameRoot (mode : Option Nat) (ops₁ ops₂ : List (Op Nat)) : Bool :=
  check ((Tree.new mode).run (poseidonHasher toyHash) (poseidonMerger toyCompress 0) ops₁) fun x =>
  check ((Tree.new mode).run (poseidonHasher toyHash) (poseidonMerger toyCompress 0) ops₂) fun y =>
  check (x.1.root (poseidonHasher toyHash) (poseidonMerger toyCompress 0)) fun r =>
  check (y.1.root (poseidonHasher toyHash) (poseidonMerger toyCompress 0)) fun s => r.1 == s.1 && r.1.isSome

theorem sameRoot_true {mode : Option Nat} {ops₁ ops₂ : List (Op Nat)} (h : sameRoot mode ops₁ ops₂ = true) :
    ∃ t₁ o₁ t₁' t₂ o₂ t₂' root,
      (Tree.new mode).run (poseidonHasher toyHash) (poseidonMerger toyCompress 0) ops₁ = .ok (t₁, o₁) ∧
      (Tree.new mode).run (poseidonHasher toyHash) (poseidonMerger toyCompress 0) ops₂ = .ok (t₂, o₂) ∧
      t₁.root (poseidonHasher toyHash) (poseidonMerger toyCompress 0) = .ok (some root, t₁') ∧
      t₂.root (poseidonHasher toyHash) (poseidonMerger toyCompress 0) = .ok (some root, t₂') := by
  obtain ⟨⟨t₁, o₁⟩, h1, h⟩ := check_true h
  obtain ⟨⟨t₂, o₂⟩, h2, h⟩ := check_true h
  obtain ⟨⟨r, t₁'⟩, h3, h⟩ := check_true h
  obtain ⟨⟨s, t₂'⟩, h4, h⟩ := check_true h
  simp only [Bool.and_eq_true, beq_iff_eq] at h
  obtain ⟨rfl, h⟩ := h
  obtain ⟨root, rfl⟩ := Option.isSome_iff_exists.mp h
  exact ⟨t₁, o₁, t₁', t₂, o₂, t₂', root, h1, h2, h3, h4⟩

/-- Two histories with the same items. -/
example : sameRoot (some 3) [.addBatch [4, 5], .root, .add 6] [.add 4, .addBatch [5, 6]] = true := by decide +kernel

/-- Different items, the same root, and the collision: position 0 holds 4 and 15. -/
example : sameRoot (some 3) [.addBatch [4, 5]] [.addBatch [15, 5]] = true ∧ ItemsCollide toyHash [4, 5] [15, 5] :=
  ⟨by decide +kernel, 0, 4, 15, rfl, rfl, by decide, by decide⟩

/-- Different items, the same root, and the collision: 10 has the hash of an empty position. -/
example : sameRoot (some 3) [.addBatch [4, 5, 10]] [.addBatch [4, 5]] = true ∧ ItemLooksEmpty toyHash 0 [4, 5, 10] [4, 5] :=
  ⟨by decide +kernel, 2, 10, rfl, rfl, by decide⟩

/-- Trees that grow. -/
example : sameRoot none [.addBatch [4, 5], .root, .add 6] [.addBatch [4, 5, 6]] = true := by decide +kernel

/-- A proof of the tree, which verifies. -/
example : ∃ t o t' t'' root p,
    (Tree.new (some 3)).run (poseidonHasher toyHash) (poseidonMerger toyCompress 0) [.addBatch [4, 5, 6]] = .ok (t, o) ∧
    t.root (poseidonHasher toyHash) (poseidonMerger toyCompress 0) = .ok (some root, t') ∧
    t.getProof (poseidonHasher toyHash) (poseidonMerger toyCompress 0) 1 = .ok (some p, t'') ∧
    p.index = 2 ^ 3 - 1 + 1 ∧ p.peerIndices.length = 3 ∧ p.peerIndices = [7, 4, 2] ∧ p.item = 5 ∧
    p.verify (poseidonHasher toyHash) (poseidonMerger toyCompress 0) root = .ok true := by
  obtain ⟨⟨t, o⟩, h1, h2⟩ := check_true
    (e := (Tree.new (some 3)).run (poseidonHasher toyHash) (poseidonMerger toyCompress 0) [.addBatch [4, 5, 6]])
    (p := fun x => check (x.1.root (poseidonHasher toyHash) (poseidonMerger toyCompress 0)) (fun r =>
      check (x.1.getProof (poseidonHasher toyHash) (poseidonMerger toyCompress 0) 1) (fun q =>
        match r.1, q.1 with
        | some root, some p => p.index == 2 ^ 3 - 1 + 1 && p.peerIndices.length == 3 && p.peerIndices == [7, 4, 2] && p.item == 5 &&
            check (p.verify (poseidonHasher toyHash) (poseidonMerger toyCompress 0) root) (· == true)
        | _, _ => false))) (by decide +kernel)
  obtain ⟨⟨root, t'⟩, h3, h4⟩ := check_true h2
  obtain ⟨⟨q, t''⟩, h5, h6⟩ := check_true h4
  cases root with
  | none => cases h6
  | some root =>
    cases q with
    | none => cases h6
    | some p =>
      simp only [Bool.and_eq_true, beq_iff_eq] at h6
      obtain ⟨⟨⟨⟨a1, a2⟩, a3⟩, a4⟩, a5⟩ := h6
      obtain ⟨b, h7, h8⟩ := check_true a5
      have : b = true := by simpa using h8
      subst this
      exact ⟨t, o, t', t'', root, p, h1, h3, h5, a1, a2, a3, a4, h7⟩

/-- The same proof with the item 16, which has the same hash, verifies as well: the collision is needed. -/
example : toyHash 16 = toyHash 5 ∧ (16 : Nat) ≠ 5 := by decide

end MinaRs.Merkle
