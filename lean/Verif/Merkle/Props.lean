import Verif.Merkle.Commit

/-!
# Properties of merkle trees, proofs and paths (C20–C29)

The hasher and the merger are arbitrary functions of the item or children and of the node
metadata, as the traits `MerkleHasher` and `MerkleMerger` allow; properties that need a law of
them say so.  Sizes are restricted to fewer than 2^28 items where the code's floating-point depth
computation is exact (see C29).
-/

namespace MinaRs.Merkle
open Spec

variable {I H : Type}

/-- A toy collision-free hash, for the examples. -/
inductive Sym where
  | leaf (n : Nat)
  | empty
  | node (domain : Option String) (l r : Sym)
  deriving DecidableEq, Repr

/-- The Poseidon merger over the toy hash. -/
def symMerger : Option Sym → Option Sym → Meta → Option Sym := poseidonMerger Sym.node Sym.empty

/-- The leaf hasher over the toy hash. -/
def symHasher : Nat → Meta → Sym := poseidonHasher Sym.leaf

theorem symNode_injective : ∀ (s : Option String) (l r l' r' : Sym), Sym.node s l r = Sym.node s l' r' → l = l' ∧ r = r' := by
  intro s l r l' r' h; injection h with _ a b; exact ⟨a, b⟩

/-- Checking a concrete run, for the examples and counterexamples. -/
def check {α ε : Type} (e : Except ε α) (p : α → Bool) : Bool :=
  match e with
  | .ok x => p x
  | .error _ => false

theorem check_true {α ε : Type} {e : Except ε α} {p : α → Bool} (h : check e p = true) : ∃ x, e = .ok x ∧ p x = true := by
  cases e with
  | ok x => exact ⟨x, rfl, h⟩
  | error _ => cases h

/-! ## C20 -/

/-- C20: after any history of insertions and queries, every further answer (root or proof) is the
one of a tree freshly built from the same items, however many.  Missing: mergers that may produce no
hash and hashers that look at the depth of a leaf (false for those, see below). -/
theorem C20_answers_depend_on_items_only_partial (hasher : I → Meta → H)
    (merger : Option H → Option H → Meta → Option H) (htot : Total merger) (hstable : LeafHashStable hasher)
    (mode : Option Nat) (ops : List (Op I)) (t fresh : Tree I H) (outs : List (Out I H))
    (hrun : (Tree.new mode).run hasher merger ops = .ok (t, outs))
    (hfresh : (Tree.new mode).addBatch (inserted ops) = .ok fresh) :
    t.root hasher merger = fresh.root hasher merger ∧
    ∀ i, t.getProof hasher merger i = fresh.getProof hasher merger i := by
  have ht := run_inv htot hstable ops (inv_new mode) hrun
  obtain ⟨_, hf, hi⟩ := run_shape ops (shape_new mode) hrun
  obtain ⟨f, h1, h2, h3, h4⟩ := inv_addBatch (hasher := hasher) (merger := merger) hstable (inv_new mode) (inserted ops)
  rw [h1] at hfresh; cases hfresh
  have := calcRoot_unique htot ht h2 (by rw [hi, h3]) (by rw [hf, h4])
  exact ⟨by unfold Tree.root; rw [this], fun i => by unfold Tree.getProof; rw [this]⟩

/-- The hypotheses of C20 hold for the Poseidon hashers and mergers. -/
example (compress : Option String → H → H → H) (empty : H) (hash : I → H) :
    Total (poseidonMerger compress empty) ∧ LeafHashStable (poseidonHasher hash) :=
  ⟨poseidon_total _ _, poseidon_stable _⟩

example : ∃ (x : Tree Nat Sym × List (Out Nat Sym)) (fresh : Tree Nat Sym),
    (Tree.new none).run symHasher symMerger [.add 5, .root, .addBatch [6, 7], .proof 1, .add 8, .root, .add 9] = .ok x ∧
    (Tree.new none).addBatch (inserted [.add 5, .root, .addBatch [6, 7], .proof 1, .add 8, .root, .add 9]) = .ok fresh ∧
    x.2.length = 7 ∧ fresh.count = 5 := by
  obtain ⟨x, h1, h2⟩ := check_true (e := (Tree.new none).run symHasher symMerger [.add 5, .root, .addBatch [6, 7], .proof 1, .add 8, .root, .add 9])
    (p := fun x => x.2.length == 7) (by decide +kernel)
  obtain ⟨f, h3, h4⟩ := check_true (e := (Tree.new none : Tree Nat Sym).addBatch (inserted [.add 5, .root, .addBatch [6, 7], .proof 1, .add 8, .root, .add 9]))
    (p := fun x => x.count == 5) (by decide +kernel)
  exact ⟨x, f, h1, h3, by simpa using h2, by simpa using h4⟩

/-- A merger that doubles a lone left hash and gives nothing for two missing children. -/
def lonelyMerger : Option Nat → Option Nat → Meta → Option Nat
  | some l, some r, _ => some (l + r)
  | some l, none, _ => some (2 * l)
  | none, some r, _ => some r
  | none, none, _ => none

/-- C20 fails for mergers that may produce no hash: with six items, asking for the root before
adding a seventh leaves a stale root behind. -/
theorem C20_stale_root_fails :
    ∃ (ops : List (Op Nat)) (t fresh : Tree Nat Nat) (outs : List (Out Nat Nat)),
      (Tree.new none).run (fun x _ => x) lonelyMerger ops = .ok (t, outs) ∧
      (Tree.new none).addBatch (inserted ops) = .ok fresh ∧
      (t.root (fun x _ => x) lonelyMerger).map Prod.fst ≠ (fresh.root (fun x _ => x) lonelyMerger).map Prod.fst := by
  obtain ⟨⟨t, outs⟩, h1, h2⟩ := check_true
    (e := (Tree.new none).run (fun (x : Nat) _ => x) lonelyMerger [.addBatch [1, 2, 3, 4, 5, 6], .root, .add 7])
    (p := fun x => check (x.1.root (fun x _ => x) lonelyMerger) (fun r => r.1 == some 32)) (by decide +kernel)
  obtain ⟨f, h3, h4⟩ := check_true (e := (Tree.new none : Tree Nat Nat).addBatch [1, 2, 3, 4, 5, 6, 7])
    (p := fun x => check (x.root (fun x _ => x) lonelyMerger) (fun r => r.1 == some 35)) (by decide +kernel)
  obtain ⟨r, e1, e2⟩ := check_true h2
  obtain ⟨r', e3, e4⟩ := check_true h4
  refine ⟨_, t, f, outs, h1, h3, ?_⟩
  rw [e1, e3]
  intro h
  have h : r.1 = r'.1 := Except.ok.inj h
  rw [eq_of_beq e2, eq_of_beq e4] at h
  cases h

/-- C20 fails for hashers that look at the depth of the leaf: a leaf hashed before the tree grew
keeps its old hash. -/
theorem C20_depth_dependent_hasher_fails :
    ∃ (ops : List (Op Nat)) (t fresh : Tree Nat Nat) (outs : List (Out Nat Nat)),
      (Tree.new none).run (fun x m => x + 100 * m.depth) (fun l r _ => some (l.getD 0 + r.getD 0)) ops = .ok (t, outs) ∧
      (Tree.new none).addBatch (inserted ops) = .ok fresh ∧
      (t.root (fun x m => x + 100 * m.depth) (fun l r _ => some (l.getD 0 + r.getD 0))).map Prod.fst ≠
        (fresh.root (fun x m => x + 100 * m.depth) (fun l r _ => some (l.getD 0 + r.getD 0))).map Prod.fst := by
  obtain ⟨⟨t, outs⟩, h1, h2⟩ := check_true
    (e := (Tree.new none).run (fun (x : Nat) (m : Meta) => x + 100 * m.depth) (fun l r _ => some (l.getD 0 + r.getD 0)) [.add 1, .root, .add 2])
    (p := fun x => check (x.1.root (fun x m => x + 100 * m.depth) (fun l r _ => some (l.getD 0 + r.getD 0))) (fun r => r.1 == some 103)) (by decide +kernel)
  obtain ⟨f, h3, h4⟩ := check_true (e := (Tree.new none : Tree Nat Nat).addBatch [1, 2])
    (p := fun x => check (x.root (fun x m => x + 100 * m.depth) (fun l r _ => some (l.getD 0 + r.getD 0))) (fun r => r.1 == some 203)) (by decide +kernel)
  obtain ⟨r, e1, e2⟩ := check_true h2
  obtain ⟨r', e3, e4⟩ := check_true h4
  refine ⟨_, t, f, outs, h1, h3, ?_⟩
  rw [e1, e3]
  intro h
  have h : r.1 = r'.1 := Except.ok.inj h
  rw [eq_of_beq e2, eq_of_beq e4] at h
  cases h

theorem add_first (x : I) : (Tree.new none : Tree I H).add x = .ok ⟨none, 0, [(x, none)], []⟩ := by
  have h : clearDirty ([] : List (Option H)) 0 = .ok [] := by rw [clearDirty]; rfl
  show (do let nodes ← clearDirtyFrom ([] : List (Option H)) 0 1; Except.ok _) = _
  simp only [clearDirtyFrom, h]
  rfl

/-- **C20** fails for every hasher that gives an item another hash at depth 0 than at depth 1, with every merger that tells its
children apart: with that item, asking for the root before a second item is added changes every root after it. -/
theorem C20_every_depth_dependent_hasher_fails (hasher : I → Meta → H) (merge : Option H → Option H → Meta → H)
    (hinj : ∀ l r l' r' m, merge l r m = merge l' r' m → l = l' ∧ r = r') (x : I) (hx : hasher x ⟨0, 0⟩ ≠ hasher x ⟨1, 0⟩) (y : I) :
    ∃ (t fresh : Tree I H) (outs : List (Out I H)),
      (Tree.new none).run hasher (fun l r m => some (merge l r m)) [.add x, .root, .add y] = .ok (t, outs) ∧
      (Tree.new none).addBatch (inserted [.add x, .root, .add y]) = .ok fresh ∧
      (t.root hasher fun l r m => some (merge l r m)).map Prod.fst ≠
        (fresh.root hasher fun l r m => some (merge l r m)).map Prod.fst := by
  have h1 : (Tree.new none).run hasher (fun l r m => some (merge l r m)) [.add x, .root, .add y] =
      .ok (⟨none, 1, [(x, some (hasher x ⟨0, 0⟩)), (y, none)], [none]⟩, [.done, .root (some (hasher x ⟨0, 0⟩)), .done]) := by
    simp only [Tree.run, Tree.step, add_first]
    rfl
  refine ⟨_, _, _, h1, rfl, ?_⟩
  intro h
  have h : some (merge (some (hasher x ⟨0, 0⟩)) (some (hasher y ⟨1, 0⟩)) ⟨0, 1⟩) =
      some (merge (some (hasher x ⟨1, 0⟩)) (some (hasher y ⟨1, 0⟩)) ⟨0, 1⟩) := Except.ok.inj h
  exact hx (Option.some.inj (hinj _ _ _ _ _ (Option.some.inj h)).1)

/-- A child, as a hash of its own. -/
def child : Option Sym → Sym
  | none => .empty
  | some s => .node none s .empty

theorem child_inj (a b : Option Sym) (h : child a = child b) : a = b := by
  cases a <;> cases b <;> simp_all [child]

/-- A hasher and a merger that meet the hypotheses. -/
example : ∃ (hasher : Nat → Meta → Sym) (merge : Option Sym → Option Sym → Meta → Sym),
    (∀ l r l' r' m, merge l r m = merge l' r' m → l = l' ∧ r = r') ∧ ∀ x, hasher x ⟨0, 0⟩ ≠ hasher x ⟨1, 0⟩ := by
  refine ⟨fun n m => .leaf (n + m.depth), fun l r _ => .node none (child l) (child r), ?_, ?_⟩
  · intro l r l' r' m h
    injection h with _ h1 h2
    exact ⟨child_inj _ _ h1, child_inj _ _ h2⟩
  · intro x h
    injection h with h
    simp at h

/-- **C20** fails for every merger that gives no hash for two missing children, and one when there is a left child: of seven items, the
root does not depend on the seventh if it was asked for after the sixth. -/
theorem C20_every_partial_merger_fails (hasher : I → Meta → H) (merger : Option H → Option H → Meta → Option H)
    (hnone : ∀ m, merger none none m = none) (hleft : ∀ l r m, (merger (some l) r m).isSome) (a b c d e f : I) :
    ∃ root : H, ∀ y, ∃ t : Tree I H,
      (Tree.new none).run hasher merger [.addBatch [a, b, c, d, e, f], .root, .add y] = .ok (t, [.done, .root (some root), .done]) ∧
      (t.root hasher merger).map Prod.fst = .ok (some root) := by
  obtain ⟨n3, e3⟩ := Option.isSome_iff_exists.mp (hleft (hasher a ⟨3, 0⟩) (some (hasher b ⟨3, 0⟩)) ⟨2, 1⟩)
  obtain ⟨n4, e4⟩ := Option.isSome_iff_exists.mp (hleft (hasher c ⟨3, 0⟩) (some (hasher d ⟨3, 0⟩)) ⟨2, 1⟩)
  obtain ⟨n5, e5⟩ := Option.isSome_iff_exists.mp (hleft (hasher e ⟨3, 0⟩) (some (hasher f ⟨3, 0⟩)) ⟨2, 1⟩)
  obtain ⟨n1, e1⟩ := Option.isSome_iff_exists.mp (hleft n3 (some n4) ⟨1, 2⟩)
  obtain ⟨n2, e2⟩ := Option.isSome_iff_exists.mp (hleft n5 none ⟨1, 2⟩)
  obtain ⟨n0, e0⟩ := Option.isSome_iff_exists.mp (hleft n1 (some n2) ⟨0, 3⟩)
  have s1 : (Tree.new none : Tree I H).addBatch [a, b, c, d, e, f] =
      .ok ⟨none, 3, [(a, none), (b, none), (c, none), (d, none), (e, none), (f, none)],
        [none, none, none, none, none, none, none]⟩ := by
    have hc : calcHeight 6 = 3 := by decide +kernel
    simp [Tree.addBatch, Tree.new, hc, nodeCount, List.replicate]
  have d0 : nodeDepth 0 = 0 := by decide +kernel
  have d1 : nodeDepth 1 = 1 := by decide +kernel
  have d2 : nodeDepth 2 = 1 := by decide +kernel
  have d3 : nodeDepth 3 = 2 := by decide +kernel
  have d4 : nodeDepth 4 = 2 := by decide +kernel
  have d5 : nodeDepth 5 = 2 := by decide +kernel
  have d6 : nodeDepth 6 = 2 := by decide +kernel
  have d7 : nodeDepth 7 = 3 := by decide +kernel
  have d8 : nodeDepth 8 = 3 := by decide +kernel
  have d9 : nodeDepth 9 = 3 := by decide +kernel
  have d10 : nodeDepth 10 = 3 := by decide +kernel
  have d11 : nodeDepth 11 = 3 := by decide +kernel
  have d12 : nodeDepth 12 = 3 := by decide +kernel
  have s2 : (⟨none, 3, [(a, none), (b, none), (c, none), (d, none), (e, none), (f, none)],
      [none, none, none, none, none, none, none]⟩ : Tree I H).root hasher merger =
      .ok (some n0, ⟨none, 3, [(a, some (hasher a ⟨3, 0⟩)), (b, some (hasher b ⟨3, 0⟩)), (c, some (hasher c ⟨3, 0⟩)),
        (d, some (hasher d ⟨3, 0⟩)), (e, some (hasher e ⟨3, 0⟩)), (f, some (hasher f ⟨3, 0⟩))],
        [some n0, some n1, some n2, some n3, some n4, some n5, none]⟩) := by
    simp [Tree.root, Tree.calcRoot, calcHash, Meta.new, d0, d1, d2, d3, d4, d5, d6, d7, d8, d9, d10, d11, d12, e0, e1, e2, e3, e4, e5,
      hnone, bind, Except.bind]
  refine ⟨n0, fun y => ⟨⟨none, 3, [(a, some (hasher a ⟨3, 0⟩)), (b, some (hasher b ⟨3, 0⟩)), (c, some (hasher c ⟨3, 0⟩)),
        (d, some (hasher d ⟨3, 0⟩)), (e, some (hasher e ⟨3, 0⟩)), (f, some (hasher f ⟨3, 0⟩)), (y, none)],
        [some n0, some n1, some n2, some n3, some n4, some n5, none]⟩, ?_, rfl⟩⟩
  have s3 : (⟨none, 3, [(a, some (hasher a ⟨3, 0⟩)), (b, some (hasher b ⟨3, 0⟩)), (c, some (hasher c ⟨3, 0⟩)),
        (d, some (hasher d ⟨3, 0⟩)), (e, some (hasher e ⟨3, 0⟩)), (f, some (hasher f ⟨3, 0⟩))],
        [some n0, some n1, some n2, some n3, some n4, some n5, none]⟩ : Tree I H).add y =
      .ok ⟨none, 3, [(a, some (hasher a ⟨3, 0⟩)), (b, some (hasher b ⟨3, 0⟩)), (c, some (hasher c ⟨3, 0⟩)),
        (d, some (hasher d ⟨3, 0⟩)), (e, some (hasher e ⟨3, 0⟩)), (f, some (hasher f ⟨3, 0⟩)), (y, none)],
        [some n0, some n1, some n2, some n3, some n4, some n5, none]⟩ := by
    have hc : calcHeight 7 = 3 := by decide +kernel
    have hd : clearDirty [some n0, some n1, some n2, some n3, some n4, some n5, none] 13 =
        .ok [some n0, some n1, some n2, some n3, some n4, some n5, none] := by
      rw [clearDirty]
      simp
    simp [Tree.add, Tree.addBatch, hc, clearDirtyFrom, hd, bind, Except.bind]
  simp only [Tree.run, Tree.step, s1, s2, s3, bind, Except.bind]

/-- The merger of `C20_stale_root_fails` meets the hypotheses. -/
example : (∀ m, lonelyMerger none none m = none) ∧ ∀ l r m, (lonelyMerger (some l) r m).isSome :=
  ⟨fun _ => rfl, fun l r m => by cases r <;> rfl⟩

/-! ## C21 -/

/-- C21: from any tree reached by any history (any hasher and merger, any size), inserting the
items in any batches gives exactly the tree that inserting them in one batch gives. -/
theorem C21_batches (hasher : I → Meta → H) (merger : Option H → Option H → Meta → Option H) (mode : Option Nat)
    (ops : List (Op I)) (t : Tree I H) (outs : List (Out I H))
    (hrun : (Tree.new mode).run hasher merger ops = .ok (t, outs)) (batches : List (List I)) :
    batches.foldlM Tree.addBatch t = t.addBatch batches.flatten := by
  have ht := (run_shape ops (shape_new mode) hrun).1
  clear hrun
  induction batches generalizing t with
  | nil => exact (addBatch_nil ht).symm
  | cons b bs ih =>
    rw [List.flatten_cons, addBatch_append ht, List.foldlM_cons]
    obtain ⟨t', h1, h2, _⟩ := addBatch_shape ht b
    rw [h1]
    exact ih t' h2

/-- C21: in particular, inserting one at a time is the same as one batch, which never fails and
gives the expected count and height. -/
theorem C21_one_by_one (hasher : I → Meta → H) (merger : Option H → Option H → Meta → Option H) (mode : Option Nat)
    (ops : List (Op I)) (t : Tree I H) (outs : List (Out I H))
    (hrun : (Tree.new mode).run hasher merger ops = .ok (t, outs)) (items : List I) :
    ∃ t', items.foldlM Tree.add t = .ok t' ∧ t.addBatch items = .ok t' ∧ t'.count = t.count + items.length ∧
      (mode = none → LeastHeight t'.count t'.reportedHeight) ∧ (∀ h, mode = some h → t'.reportedHeight = h) := by
  have hb := C21_batches hasher merger mode ops t outs hrun (items.map (fun x => [x]))
  obtain ⟨ht, hf, _⟩ := run_shape ops (shape_new mode) hrun
  obtain ⟨t', h1, h2, h3, h4⟩ := addBatch_shape ht items
  have hflat : ∀ xs : List I, (xs.map (fun x => [x])).flatten = xs := by
    intro xs
    induction xs with
    | nil => rfl
    | cons x xs ih => rw [List.map_cons, List.flatten_cons, ih]; rfl
  have hfold : ∀ (xs : List I) (t : Tree I H), (xs.map (fun x => [x])).foldlM Tree.addBatch t = xs.foldlM Tree.add t := by
    intro xs
    induction xs with
    | nil => intro t; rfl
    | cons x xs ih =>
      intro t
      simp only [List.map_cons, List.foldlM_cons, bind, Except.bind, Tree.add]
      split
      · rfl
      · exact ih _
  rw [hflat, h1, hfold] at hb
  refine ⟨t', hb, h1, ?_, ?_, ?_⟩
  · have := congrArg List.length h4
    rw [List.length_append, items_length, items_length] at this
    exact this
  · rintro rfl
    have : t'.reportedHeight = t'.height := by unfold Tree.reportedHeight; rw [h3, hf]; rfl
    rw [this, h2.height]; exact leastHeight_calcHeight _
  · rintro h rfl
    unfold Tree.reportedHeight; rw [h3, hf]; rfl

example : ∃ t outs, (Tree.new (some 20)).run symHasher symMerger [.addBatch [1, 2, 3], .root] = .ok (t, outs) ∧ t.count = 3 :=
  ⟨_, _, rfl, rfl⟩

/-! ## C22 -/

/-- C22: the root of a variable-height tree built from any items is the root of the complete
binary tree of the least height that holds them, for every hasher and merger.  Missing: 2^28 items
and more, for which it is false (see below). -/
theorem C22_variable_root_partial (hasher : I → Meta → H) (merger : Option H → Option H → Meta → Option H)
    (items : List I) (hsize : items.length < 2 ^ 28) (h : Nat) (hh : LeastHeight items.length h) :
    ∃ t t' : Tree I H, (Tree.new none).addBatch items = .ok t ∧
      t.root hasher merger = .ok (subtree hasher merger h 0 items, t') := by
  have hadd := addBatch_clean (H := H) none ([] : List I) items
  obtain ⟨t', h1, h2⟩ := calcRoot_clean (hasher := hasher) (merger := merger) none items hsize
  have hf : t'.fixed = none := h2.fixed
  rw [leastHeight_unique hh (leastHeight_calcHeight _)]
  refine ⟨clean none items, t', hadd, ?_⟩
  unfold Tree.root
  rw [h1]
  simp only [bind, Except.bind, hf]

/-- C22 after any history, for total mergers and depth-blind leaf hashers. -/
theorem C22_variable_root_history_partial (hasher : I → Meta → H)
    (merger : Option H → Option H → Meta → Option H) (htot : Total merger) (hstable : LeafHashStable hasher)
    (ops : List (Op I)) (hsize : (inserted ops).length < 2 ^ 28) (h : Nat) (hh : LeastHeight (inserted ops).length h)
    (t : Tree I H) (outs : List (Out I H)) (hrun : (Tree.new none).run hasher merger ops = .ok (t, outs)) :
    (t.root hasher merger).map Prod.fst = .ok (subtree hasher merger h 0 (inserted ops)) := by
  obtain ⟨f, f', h1, h2⟩ := C22_variable_root_partial hasher merger (inserted ops) hsize h hh
  rw [(C20_answers_depend_on_items_only_partial hasher merger htot hstable none ops t f outs hrun h1).1, h2]
  rfl

/-- C22 fails for 2^28 items (also 2^30, 2^38, 2^46): whatever the hasher, the merger and the mode,
asking such a tree for its root or for a proof panics, because the depth of the last leaf comes out
beyond the height of the tree. -/
theorem C22_full_tree_panics_fails (hasher : I → Meta → H) (merger : Option H → Option H → Meta → Option H)
    (mode : Option Nat) (k : Nat) (hk : k = 28 ∨ k = 30 ∨ k = 38 ∨ k = 46) (items : List I) (hn : items.length = 2 ^ k) :
    ∃ t : Tree I H, (Tree.new mode).addBatch items = .ok t ∧
      t.root hasher merger = .error ⟨"attempt to subtract with overflow"⟩ ∧
      ∀ i, t.getProof hasher merger i = .error ⟨"attempt to subtract with overflow"⟩ := by
  have ha : Aborts items.length := by
    have : calcHeight items.length = k := by
      rw [hn]; exact leastHeight_unique (leastHeight_calcHeight _) (leastHeight_pow k)
    refine ⟨by rw [this]; exact hn, ?_⟩
    rw [this]
    rcases hk with rfl | rfl | rfl | rfl <;> decide
  have hc : (clean mode items : Tree I H).calcRoot hasher merger = .error ⟨"attempt to subtract with overflow"⟩ :=
    inv_calcRoot_aborts (inv_clean mode items) (by simpa [clean] using ha)
  refine ⟨clean mode items, addBatch_clean (H := H) mode ([] : List I) items, ?_, fun i => ?_⟩
  · unfold Tree.root; rw [hc]; rfl
  · unfold Tree.getProof; rw [hc]; rfl

example : (List.replicate (2 ^ 28) (7 : Nat)).length = 2 ^ 28 := List.length_replicate

/-- C22 fails for every number of items from 2^28 on, even with the Poseidon merger over a
collision-free compression: the root, if there is one, is never that of the complete binary tree,
because the last node at depth 28 is merged in the domain of the wrong height. -/
theorem C22_large_trees_fails (compress : Option String → H → H → H) (empty : H) (hash : I → H)
    (hinj : ∀ s l r s' l' r', compress s l r = compress s' l' r' → s = s' ∧ l = l' ∧ r = r')
    (items : List I) (hlow : 2 ^ 28 ≤ items.length) (hhigh : items.length ≤ 2 ^ 48) (h : Nat) (hh : LeastHeight items.length h)
    (t t' : Tree I H) (hadd : (Tree.new none).addBatch items = .ok t) :
    t.root (poseidonHasher hash) (poseidonMerger compress empty) ≠
      .ok (subtree (poseidonHasher hash) (poseidonMerger compress empty) h 0 items, t') := by
  have hc := addBatch_clean (H := H) none ([] : List I) items
  rw [show (clean none [] : Tree I H) = Tree.new none from rfl, hadd, List.nil_append] at hc
  cases hc
  have hinv := inv_clean (hasher := poseidonHasher hash) (merger := poseidonMerger compress empty) none items
  rw [leastHeight_unique hh (leastHeight_calcHeight _)]
  intro hroot
  have hl : (clean none items : Tree I H).leafs.length = items.length := by simp [clean]
  by_cases ha : Aborts items.length
  · rw [inv_root_aborts hinv (by rw [hl]; exact ha)] at hroot; cases hroot
  · have hr := (inv_root_code (poseidon_total compress empty) hinv (by rw [hl]; exact ha)).1
    rw [hroot, items_clean] at hr
    have hr := Except.ok.inj hr
    exact codeVal_large compress empty hash hinj items hlow hhigh ha (hr.symm)

example : LeastHeight [10, 11, 12, 13, 14].length 3 ∧
    subtree (fun (x : Nat) (_ : Meta) => x) (fun l r m => some (l.getD 0 + 2 * r.getD 0 + 1000 * m.height + 10000 * m.depth)) 3 0
      [10, 11, 12, 13, 14] = some 228136 :=
  ⟨leastHeight_calcHeight 5, by decide⟩

/-! ## C23 -/

/-- C23: with the Poseidon merger (any compression function and any empty hash), the root of a
fixed-height tree is the root of the full binary tree with all `2^F` leaf positions, the unused
ones holding the empty hash and a node of height `h` compressing its children under the domain of
height `h`.  Missing: no items at height 0 and 2^28 items (false, see below), and more items. -/
theorem C23_fixed_root_partial (compress : Option String → H → H → H) (empty : H) (hash : I → H)
    (F : Nat) (ops : List (Op I)) (hsize : (inserted ops).length < 2 ^ 28) (hfit : (inserted ops).length ≤ 2 ^ F)
    (hne : inserted ops ≠ [] ∨ 0 < F) (t : Tree I H) (outs : List (Out I H))
    (hrun : (Tree.new (some F)).run (poseidonHasher hash) (poseidonMerger compress empty) ops = .ok (t, outs)) :
    (t.root (poseidonHasher hash) (poseidonMerger compress empty)).map Prod.fst =
      .ok (some (fullTree (fun h l r => compress (if h = 0 then none else some ("CodaMklTree" ++ pad3 (h - 1))) l r)
        (fun i => match (inserted ops)[i]? with
          | some x => hash x
          | none => empty) F 0)) := by
  have ht := run_inv (poseidon_total compress empty) (poseidon_stable hash) ops (inv_new (some F)) hrun
  obtain ⟨_, hf, hi⟩ := run_shape ops (shape_new (some F)) hrun
  have hi : t.items = inserted ops := by rw [hi]; rfl
  have hr := (inv_root (poseidon_total compress empty) ht (by rw [hi]; exact hsize)).1
  rw [hr, hf, hi]
  have := rootVal_full compress empty hash F (inserted ops) hfit hne
  have e1 := padNode_eq compress
  have e2 : padLeaf hash empty (inserted ops) = fun i => match (inserted ops)[i]? with
          | some x => hash x
          | none => empty := rfl
  rw [← e1, ← e2]
  exact this

/-- C23: more items than fit are refused (the code panics), for every hasher and total merger and
any number of items. -/
theorem C23_too_many_refused_partial (hasher : I → Meta → H) (merger : Option H → Option H → Meta → Option H)
    (htot : Total merger) (hstable : LeafHashStable hasher) (F : Nat) (ops : List (Op I))
    (hbig : 2 ^ F < (inserted ops).length) (t : Tree I H)
    (outs : List (Out I H)) (hrun : (Tree.new (some F)).run hasher merger ops = .ok (t, outs)) :
    ∃ e, t.root hasher merger = .error e := by
  have ht := run_inv htot hstable ops (inv_new (some F)) hrun
  obtain ⟨_, hf, hi⟩ := run_shape ops (shape_new (some F)) hrun
  have hi : t.items = inserted ops := by rw [hi]; rfl
  by_cases ha : Aborts t.leafs.length
  · exact ⟨_, inv_root_aborts ht ha⟩
  have hr := (inv_root_code htot ht ha).1
  have hf : t.fixed = some F := hf
  rw [hf] at hr
  have hlt : F < t.height := by
    rw [ht.height, ← items_length, hi]
    apply Nat.lt_of_not_le; intro h
    have := pow_mono h
    have := (leastHeight_calcHeight (inserted ops).length).1
    omega
  unfold modeRoot at hr
  simp only at hr
  rw [if_pos hlt] at hr
  cases hq : t.root hasher merger with
  | error e => exact ⟨e, rfl⟩
  | ok x => rw [hq] at hr; cases hr

example : ∃ t outs, (Tree.new (some 1)).run symHasher symMerger [.addBatch [1, 2, 3]] = .ok (t, outs) ∧
    2 ^ 1 < (inserted [Op.addBatch [1, 2, 3]]).length := ⟨_, _, rfl, by decide⟩

/-- C23 fails for every number of items from 2^28 on that fits, over a collision-free compression:
the root, if there is one, is never that of the padded tree. -/
theorem C23_large_trees_fails (compress : Option String → H → H → H) (empty : H) (hash : I → H)
    (hinj : ∀ s l r s' l' r', compress s l r = compress s' l' r' → s = s' ∧ l = l' ∧ r = r')
    (F : Nat) (hF : F ≤ 48) (items : List I) (hlow : 2 ^ 28 ≤ items.length) (hfit : items.length ≤ 2 ^ F)
    (t : Tree I H) (hadd : (Tree.new (some F)).addBatch items = .ok t) :
    (t.root (poseidonHasher hash) (poseidonMerger compress empty)).map Prod.fst ≠
      .ok (some (fullTree (fun h l r => compress (if h = 0 then none else some ("CodaMklTree" ++ pad3 (h - 1))) l r)
        (fun i => match items[i]? with
          | some x => hash x
          | none => empty) F 0)) := by
  have hc := addBatch_clean (H := H) (some F) ([] : List I) items
  rw [show (clean (some F) [] : Tree I H) = Tree.new (some F) from rfl, hadd, List.nil_append] at hc
  cases hc
  have hinv := inv_clean (hasher := poseidonHasher hash) (merger := poseidonMerger compress empty) (some F) items
  have hl : (clean (some F) items : Tree I H).leafs.length = items.length := by simp [clean]
  intro hroot
  by_cases ha : Aborts items.length
  · rw [inv_root_aborts hinv (by rw [hl]; exact ha)] at hroot; cases hroot
  · have hr := (inv_root_code (poseidon_total compress empty) hinv (by rw [hl]; exact ha)).1
    rw [hroot, items_clean] at hr
    have hne : items ≠ [] := by rintro rfl; simp at hlow
    have hfull := rootVal_full compress empty hash F items hfit (Or.inl hne)
    rw [padNode_eq] at hfull
    rw [show (fun i => match items[i]? with
          | some x => hash x
          | none => empty) = padLeaf hash empty items from rfl, ← hfull, rootVal_eq] at hr
    have hle : ¬ F < calcHeight items.length := Nat.not_lt.mpr (calcHeight_le hfit)
    change modeRoot _ (some F) _ _ = modeRoot _ (some F) (calcHeight items.length) _ at hr
    unfold modeRoot at hr
    simp only at hr
    rw [if_neg hle, if_neg hle] at hr
    have hcap : items.length ≤ 2 ^ calcHeight items.length := (leastHeight_calcHeight _).1
    obtain ⟨x, hx⟩ := subtree_some (hasher := poseidonHasher hash) (poseidon_total compress empty) (calcHeight items.length) 0 items (Or.inl hne)
    obtain ⟨y, hy⟩ := codeVal_some (hasher := poseidonHasher hash) (poseidon_total compress empty) (items := items)
      (calcHeight items.length) (calcHeight items.length) 0 0 (by rwa [slice_whole _ _ hcap])
    change Except.ok (padUp _ _ _ _) = Except.ok (padUp _ (codeVal _ _ _ (calcHeight items.length) (calcHeight items.length) 0 0) _ _) at hr
    rw [hx, hy] at hr
    have hxy := padUp_injective (poseidon_total compress empty) (poseidon_injective _ _ (fun s l r l' r' h => (hinj s l r s l' r' h).2))
      _ _ x y (Except.ok.inj hr)
    exact codeVal_large compress empty hash hinj items hlow (Nat.le_trans hfit (pow_mono hF)) ha (by rw [hx, hy, hxy])

/-- C23 fails in one corner: a tree of fixed height 0 has one leaf position, but without items its
root is absent rather than the empty hash. -/
theorem C23_height_zero_empty_fails (hasher : I → Meta → H) (merger : Option H → Option H → Meta → Option H) :
    ((Tree.new (some 0) : Tree I H).root hasher merger).map Prod.fst = .ok none := by rfl

example : ∃ t outs, (Tree.new (some 3)).run symHasher symMerger [.addBatch [4, 5], .root, .add 6] = .ok (t, outs) ∧
    (inserted [Op.addBatch [4, 5], .root, .add 6]).length ≤ 2 ^ 3 := ⟨_, _, rfl, by decide⟩

/-! ## C24 -/

/-- C24: after any history, for every position below the count, the tree returns a proof which
names that position, carries its item, lists the siblings of the nodes from the leaf to the root
with one hash each, and verifies against the root the tree reports.  Missing: trees with a single item (false, see below), mergers that
may produce no hash, depth-dependent hashers, in fixed-height mode mergers that look at the depth
of a node, heights above 48, and 2^28 items (false, see below) or more. -/
theorem C24_proof_verifies_partial [DecidableEq H] (hasher : I → Meta → H)
    (merger : Option H → Option H → Meta → Option H) (htot : Total merger) (hstable : LeafHashStable hasher)
    (mode : Option Nat) (hmode : mode = none ∨ IgnoresDepth merger) (ops : List (Op I))
    (hsize : (inserted ops).length < 2 ^ 28) (h2 : 2 ≤ (inserted ops).length) (t : Tree I H) (outs : List (Out I H))
    (hrun : (Tree.new mode).run hasher merger ops = .ok (t, outs))
    (hfit : t.count ≤ 2 ^ t.reportedHeight) (hF : t.reportedHeight ≤ 48) (i : Nat) (hi : i < t.count) :
    ∃ (p : Proof I H) (t' : Tree I H) (root : H) (t'' : Tree I H),
      t.getProof hasher merger i = .ok (some p, t') ∧
      t.root hasher merger = .ok (some root, t'') ∧
      p.index = 2 ^ t.reportedHeight - 1 + i ∧ (inserted ops)[i]? = some p.item ∧
      ProperPeers p.index p.peerIndices ∧ p.peerIndices.length = t.reportedHeight ∧ p.peerHashes.length = t.reportedHeight ∧
      p.verify hasher merger root = .ok true := by
  have ht := run_inv htot hstable ops (inv_new mode) hrun
  obtain ⟨_, hf, hitems⟩ := run_shape ops (shape_new mode) hrun
  have hitems : t.items = inserted ops := by rw [hitems]; rfl
  have hf : t.fixed = mode := hf
  have hcount : t.leafs.length = (inserted ops).length := by rw [← hitems, items_length]
  have hrep : t.reportedHeight = t.fixed.getD t.height := by unfold Tree.reportedHeight; cases t.fixed <;> rfl
  have hge : t.height ≤ t.reportedHeight := by rw [ht.height]; exact (leastHeight_calcHeight _).2 _ hfit
  obtain ⟨e, he⟩ : ∃ e, t.reportedHeight = t.height + e := ⟨t.reportedHeight - t.height, by omega⟩
  have hdep : IgnoresDepth merger ∨ e = 0 := by
    rcases hmode with h | h
    · right; rw [hrep, hf, h] at he; simp at he; omega
    · exact Or.inl h
  have hi' : i < t.leafs.length := hi
  have hcap : t.leafs.length ≤ 2 ^ t.height := by rw [ht.height]; exact (leastHeight_calcHeight _).1
  obtain ⟨t', item, root, g1, g2, g3, g4, g5, g6⟩ := getProof_ok htot hstable ht (by rw [← hrep, he]) (by omega) hdep
    hi' (by omega) (by omega)
  rw [pathVal_zero _ _ _ _ (by omega) (by rw [items_length]; exact hcap)] at g5
  have hroot : ∃ t'', t.root hasher merger = .ok (some root, t'') := by
    have hr := (inv_root htot ht (by rw [hitems]; exact hsize)).1
    have hv : rootVal hasher merger t.fixed t.items = .ok (some root) := by
      have hh : calcHeight t.items.length = t.height := by rw [items_length, ht.height]
      unfold rootVal
      simp only [hh]
      rw [hrep] at he
      cases hx : t.fixed with
      | none =>
        rw [hx] at he; simp at he
        subst he; rw [← g5]; rfl
      | some F =>
        rw [hx] at he; simp at he
        simp only
        rw [if_neg (by omega), ← g5, he, Nat.add_sub_cancel_left]
    rw [hv] at hr
    cases hq : t.root hasher merger with
    | error x => rw [hq] at hr; cases hr
    | ok x => rw [hq] at hr; obtain ⟨r, t''⟩ := x; cases hr; exact ⟨t'', rfl⟩
  obtain ⟨t'', hroot⟩ := hroot
  refine ⟨_, t', root, t'', g1, hroot, ?_, ?_, ?_, ?_, ?_, ?_⟩
  · simp only [idx, he]
  · rw [← hitems]; exact g4
  · have := peerIdx_proper (t.height + e) i (t.height + e) (Nat.le_refl _)
    rwa [show pos (t.height + e) i (t.height + e) = i by simp [pos]] at this
  · rw [he]; exact peerIdx_length _ _ _
  · rw [he]; exact peerVal_length _ _ _ _ _
  · unfold Proof.verify; rw [g6]; simp

example : ∃ t outs, (Tree.new (some 20)).run symHasher symMerger [.addBatch [4, 5], .root, .add 6] = .ok (t, outs) ∧
    2 ≤ (inserted [Op.addBatch [4, 5], .root, .add 6]).length ∧ t.count ≤ 2 ^ t.reportedHeight ∧ t.reportedHeight ≤ 48 ∧
    IgnoresDepth symMerger ∧ Total symMerger ∧ LeafHashStable symHasher :=
  ⟨_, _, rfl, by decide, by decide, by decide, poseidon_ignoresDepth _ _, poseidon_total _ _, poseidon_stable _⟩

/-- C24 fails for trees with a single item: asking for its proof panics (debug assertion), in both
modes, whatever the hasher and merger. -/
theorem C24_single_item_fails (hasher : I → Meta → H) (merger : Option H → Option H → Meta → Option H)
    (mode : Option Nat) (item : I) :
    ∃ t e, (Tree.new mode : Tree I H).add item = .ok t ∧ t.getProof hasher merger 0 = .error e := by
  refine ⟨clean mode [item], ?_⟩
  have hadd := addBatch_clean (H := H) mode ([] : List I) [item]
  cases mode with
  | none => exact ⟨_, hadd, rfl⟩
  | some F =>
    by_cases h : F ≥ 64
    · refine ⟨⟨"attempt to multiply with overflow"⟩, hadd, ?_⟩
      unfold Tree.getProof
      have : (clean (some F) [item] : Tree I H).calcRoot hasher merger = .ok (some (hasher item ⟨0, 0⟩),
        ⟨some F, 0, [(item, some (hasher item ⟨0, 0⟩))], []⟩) := rfl
      rw [this]
      simp only [bind, Except.bind, Option.getD_some]
      rw [if_pos h]
    · refine ⟨⟨"assertion failed: index > 0"⟩, hadd, ?_⟩
      unfold Tree.getProof
      have : (clean (some F) [item] : Tree I H).calcRoot hasher merger = .ok (some (hasher item ⟨0, 0⟩),
        ⟨some F, 0, [(item, some (hasher item ⟨0, 0⟩))], []⟩) := rfl
      rw [this]
      simp only [bind, Except.bind, Option.getD_some]
      rw [if_neg h]
      rfl

/-! ## C25 -/

/-- C25: with collision-free hashing, a proof for position `i` that verifies against the tree's
root carries the item at position `i`, provided each of its peers is the sibling of the node it is
merged with.  Missing: the last condition, which the code does not check (see below), and the
limits of C24. -/
theorem C25_proof_sound_partial [DecidableEq H] (hasher : I → Meta → H)
    (merger : Option H → Option H → Meta → Option H) (htot : Total merger) (hstable : LeafHashStable hasher)
    (hinj : MergeInjective merger) (hhash : HashInjective hasher)
    (mode : Option Nat) (hmode : mode = none ∨ IgnoresDepth merger) (ops : List (Op I))
    (hsize : (inserted ops).length < 2 ^ 28) (t t' : Tree I H) (outs : List (Out I H))
    (hrun : (Tree.new mode).run hasher merger ops = .ok (t, outs)) (hF : t.reportedHeight ≤ 48)
    (root : H) (hroot : t.root hasher merger = .ok (some root, t'))
    (i : Nat) (item : I) (hi : (inserted ops)[i]? = some item)
    (p : Proof I H) (hindex : p.index = 2 ^ t.reportedHeight - 1 + i) (hlen : p.peerIndices.length = t.reportedHeight)
    (hpeers : ProperPeers p.index p.peerIndices) (hver : p.verify hasher merger root = .ok true) :
    p.item = item := by
  have ht := run_inv htot hstable ops (inv_new mode) hrun
  obtain ⟨_, hf, hitems⟩ := run_shape ops (shape_new mode) hrun
  have hitems : t.items = inserted ops := by rw [hitems]; rfl
  have hf : t.fixed = mode := hf
  have hcount : t.leafs.length = (inserted ops).length := by rw [← hitems, items_length]
  have hrep : t.reportedHeight = t.fixed.getD t.height := by unfold Tree.reportedHeight; cases t.fixed <;> rfl
  have hr := (inv_root htot ht (by rw [hitems]; exact hsize)).1
  rw [hroot] at hr
  have hh : calcHeight t.items.length = t.height := by rw [items_length, ht.height]
  have hcap : t.leafs.length ≤ 2 ^ t.height := by rw [ht.height]; exact (leastHeight_calcHeight _).1
  have hge : t.height ≤ t.reportedHeight := by
    rw [hrep]
    unfold rootVal at hr
    simp only [hh] at hr
    cases hx : t.fixed with
    | none => exact Nat.le_refl _
    | some F =>
      rw [hx] at hr
      simp only at hr
      split at hr
      · cases hr
      · simp; omega
  obtain ⟨e, he⟩ : ∃ e, t.reportedHeight = t.height + e := ⟨t.reportedHeight - t.height, by omega⟩
  have hdep : IgnoresDepth merger ∨ e = 0 := by
    rcases hmode with h | h
    · right; rw [hrep, hf, h] at he; simp at he; omega
    · exact Or.inl h
  have hilt : i < (inserted ops).length := (List.getElem?_eq_some_iff.mp hi).1
  have hiV : i < 2 ^ t.height := by omega
  have hiF : i < 2 ^ (t.height + e) := Nat.lt_of_lt_of_le hiV (pow_mono (by omega))
  have hpv : pathVal hasher merger t.items t.height e i 0 = some root := by
    rw [pathVal_zero _ _ _ _ hiV (by rw [items_length]; exact hcap)]
    unfold rootVal at hr
    simp only [hh] at hr
    rw [hrep] at he
    cases hx : t.fixed with
    | none =>
      rw [hx] at hr he
      simp at he
      subst he
      exact (Except.ok.inj hr).symm
    | some F =>
      rw [hx] at hr he
      simp at he
      simp only at hr
      rw [if_neg (by omega), show F - t.height = e by omega] at hr
      exact (Except.ok.inj hr).symm
  have hidx : p.index = idx (t.height + e) i := by rw [hindex, he]; rfl
  have hposF : pos (t.height + e) i (t.height + e) = i := by simp [pos]
  unfold Proof.verify at hver
  split at hver
  · rename_i h hrh
    have heq : h = root := by simpa using hver
    subst heq
    unfold Proof.rootHash at hrh
    split at hrh
    · rw [hidx, if_neg (idx_no_overflow (by omega) (by omega)), hlen, he] at hrh
      have hm := meta_regular (d := t.height + e) (j := i) hiF (by have := regular_pos (F := t.height + e) (p := i) (by omega) (Nat.le_refl _); rwa [hposF] at this) (Nat.le_refl _)
      rw [Nat.sub_self] at hm
      rw [hm] at hrh
      simp only [liftPanic, bind, Except.bind] at hrh
      split at hrh
      · cases hrh
      · rename_i v hv
        split at hrh
        · cases hrh
          have hsound := rootLoop_sound (hasher := hasher) (items := t.items) hdep htot hinj hiV (by omega) (t.height + e) (Nat.le_refl _)
            (hasher p.item ⟨t.height + e, 0⟩) (hasher item ⟨t.height, 0⟩) p.peerIndices p.peerHashes (by rw [hlen, he])
            (by rw [hposF, ← hidx]; exact hpeers) (by rw [hposF, hpv]; exact hv)
            (by
              unfold pathVal
              rw [if_pos (by omega), Nat.sub_self, nodeVal_zero, hposF, hitems, hi]
              simp only [Option.map_some, Nat.add_sub_cancel])
          rw [hstable _ _ t.height] at hsound
          exact hhash _ _ _ hsound
        · cases hrh
    · cases hrh
  · cases hver
  · cases hver

example : MergeInjective symMerger ∧ HashInjective symHasher ∧ ProperPeers 8 [7, 4, 2] :=
  ⟨poseidon_injective _ _ symNode_injective, fun _ _ _ h => by injection h, by simp [ProperPeers]⟩

/-- C25 without the condition on the peers: a proof for a leaf position that verifies against the
root of a fixed-height Poseidon tree carries an item of the tree, or one whose hash is the empty
hash.  Missing: that it is the item of the claimed position; positions from 2^28 - 1 on. -/
theorem C25_proved_item_is_member_partial [DecidableEq H] (compress : Option String → H → H → H) (empty : H) (hash : I → H)
    (hinj : ∀ s l r l' r', compress s l r = compress s l' r' → l = l' ∧ r = r')
    (hhash : ∀ x y, hash x = hash y → x = y) (F : Nat) (hF : F ≤ 48) (ops : List (Op I))
    (hsize : (inserted ops).length < 2 ^ 28) (hne : inserted ops ≠ [] ∨ 0 < F)
    (t t' : Tree I H) (outs : List (Out I H))
    (hrun : (Tree.new (some F)).run (poseidonHasher hash) (poseidonMerger compress empty) ops = .ok (t, outs))
    (hfit : (inserted ops).length ≤ 2 ^ F)
    (root : H) (hroot : t.root (poseidonHasher hash) (poseidonMerger compress empty) = .ok (some root, t'))
    (i : Nat) (hi : i < 2 ^ F) (hi28 : i + 1 < 2 ^ 28) (p : Proof I H) (hindex : p.index = 2 ^ F - 1 + i) (hlen : p.peerIndices.length = F)
    (hver : p.verify (poseidonHasher hash) (poseidonMerger compress empty) root = .ok true) :
    p.item ∈ inserted ops ∨ hash p.item = empty := by
  have ht := run_inv (poseidon_total compress empty) (poseidon_stable hash) ops (inv_new (some F)) hrun
  obtain ⟨_, hf, hitems⟩ := run_shape ops (shape_new (some F)) hrun
  have hitems : t.items = inserted ops := by rw [hitems]; rfl
  have hf : t.fixed = some F := hf
  have hr := (inv_root (poseidon_total compress empty) ht (by rw [hitems]; exact hsize)).1
  rw [hroot, hf, hitems, rootVal_full compress empty hash F (inserted ops) hfit hne] at hr
  have hr : root = fullTree (padNode compress) (padLeaf hash empty (inserted ops)) F 0 := by
    cases hr; rfl
  have hidx : p.index = idx F i := hindex
  have hreg : ∀ k, k ≤ F → ¬ Irregular (F - k) (i / 2 ^ k) := fun k _ => regular_ancestor hi28
  unfold Proof.verify at hver
  split at hver
  · rename_i h hrh
    have heq : h = root := by simpa using hver
    subst heq
    unfold Proof.rootHash at hrh
    split at hrh
    · rw [hidx, if_neg (idx_no_overflow (by omega) hi28), hlen] at hrh
      rw [meta_regular (h := F) hi (by simpa using hreg 0 (Nat.zero_le _)) (Nat.le_refl _)] at hrh
      simp only [liftPanic, bind, Except.bind] at hrh
      split at hrh
      · cases hrh
      · rename_i v hv
        split at hrh
        · cases hrh
          rw [hr] at hv
          obtain ⟨j', _, hj⟩ := rootLoop_member compress empty hinj _ F i (Nat.le_refl _) hi hreg _ _ _ hlen hv
          rw [Nat.sub_self, fullTree, Nat.pow_zero, Nat.mul_one] at hj
          unfold padLeaf at hj
          cases hx : (inserted ops)[j']? with
          | none => rw [hx] at hj; exact Or.inr hj
          | some x =>
            rw [hx] at hj
            exact Or.inl (hhash _ _ hj ▸ List.mem_of_getElem? hx)
        · cases hrh
    · cases hrh
  · cases hver
  · cases hver

/-- C25 fails, for every tree of two items or more, whatever the hash: the code accepts any peer next to the node, without
checking that the two are siblings, so every item of the tree is "proved" to be at every position of the tree. -/
theorem C25_wrong_position_fails [DecidableEq H] (hasher : I → Meta → H)
    (merger : Option H → Option H → Meta → Option H) (htot : Total merger) (hstable : LeafHashStable hasher)
    (mode : Option Nat) (hmode : mode = none ∨ IgnoresDepth merger) (ops : List (Op I))
    (hsize : (inserted ops).length < 2 ^ 28) (h2 : 2 ≤ (inserted ops).length) (t : Tree I H) (outs : List (Out I H))
    (hrun : (Tree.new mode).run hasher merger ops = .ok (t, outs))
    (hfit : t.count ≤ 2 ^ t.reportedHeight) (hF : t.reportedHeight ≤ 48)
    (i : Nat) (item : I) (hi : (inserted ops)[i]? = some item) (j : Nat) (hj : j < 2 ^ t.reportedHeight) (hj28 : j + 1 < 2 ^ 28) :
    ∃ (root : H) (t' : Tree I H) (p : Proof I H), t.root hasher merger = .ok (some root, t') ∧
      p.index = 2 ^ t.reportedHeight - 1 + j ∧ p.item = item ∧
      p.peerIndices.length = t.reportedHeight ∧ p.peerHashes.length = t.reportedHeight ∧
      p.verify hasher merger root = .ok true := by
  obtain ⟨_, -, hitems⟩ := run_shape ops (shape_new mode) hrun
  have hitems : t.items = inserted ops := by rw [hitems]; rfl
  have hcount : t.count = (inserted ops).length := by rw [← hitems, items_length]; rfl
  have hlt : i < (inserted ops).length := (List.getElem?_eq_some_iff.mp hi).1
  obtain ⟨p, -, root, t'', -, hroot, hidx, hitem, -, hl, hql, hver⟩ :=
    C24_proof_verifies_partial hasher merger htot hstable mode hmode ops hsize h2 t outs hrun hfit hF i (by omega)
  have hpos : 0 < t.reportedHeight := by
    apply Nat.pos_of_ne_zero; intro h0
    rw [h0] at hfit; simp at hfit; omega
  have hidx : p.index = idx t.reportedHeight i := hidx
  have hi28 : i + 1 < 2 ^ 28 := by omega
  have hiF : i < 2 ^ t.reportedHeight := by omega
  rw [hi] at hitem
  -- the hashes of the honest proof, from the other leaf
  obtain ⟨h, hrh, hh⟩ : ∃ h, p.rootHash hasher merger = .ok h ∧ h = root := by
    unfold Proof.verify at hver
    split at hver
    · rename_i h hr
      exact ⟨h, hr, by simpa using hver⟩
    · cases hver
    · cases hver
  subst hh
  unfold Proof.rootHash at hrh
  rw [if_pos (by rw [hidx]; exact idx_pos _ _ hpos), if_neg (by rw [hidx]; exact idx_no_overflow (by omega) hi28), hidx, hl,
    meta_regular hiF (regular_of_lt hi28) (Nat.le_refl _)] at hrh
  simp only [liftPanic, bind, Except.bind] at hrh
  split at hrh
  · cases hrh
  · rename_i v hv
    obtain ⟨ps', hl', hv'⟩ := rootLoop_transport p.peerIndices t.reportedHeight i j _ _ _ (Nat.le_refl _) hiF hj hi28 hj28 hl hv
    refine ⟨h, t'', ⟨idx t.reportedHeight j, item, ps', p.peerHashes⟩, hroot, rfl, rfl, hl', hql, ?_⟩
    have : Proof.rootHash hasher merger ⟨idx t.reportedHeight j, item, ps', p.peerHashes⟩ = .ok h := by
      unfold Proof.rootHash
      simp only
      rw [if_pos (idx_pos _ _ hpos), if_neg (idx_no_overflow (by omega) hj28), hl',
        meta_regular hj (regular_of_lt hj28) (Nat.le_refl _)]
      simp only [liftPanic, bind, Except.bind]
      rw [Option.some.inj hitem, hv']
      exact hrh
    unfold Proof.verify
    rw [this]
    simp

/-- In the tree over `[5, 6]` a proof for position 0 (node 1) that carries the item 6, with the root as its "left neighbour"
index 0, verifies, although hashing is collision free. -/
example :
    MergeInjective symMerger ∧ HashInjective symHasher ∧
    ∃ (t t' : Tree Nat Sym) (root : Sym) (p : Proof Nat Sym),
      (Tree.new none).addBatch [5, 6] = .ok t ∧ t.root symHasher symMerger = .ok (some root, t') ∧
      t.reportedHeight = 1 ∧ p.index = 2 ^ 1 - 1 + 0 ∧ p.peerIndices.length = 1 ∧ p.peerHashes.length = 1 ∧
      p.verify symHasher symMerger root = .ok true ∧ p.item = 6 :=
  ⟨poseidon_injective _ _ symNode_injective, fun _ _ _ h => by injection h,
    clean none [5, 6], ⟨none, 1, [(5, some (.leaf 5)), (6, some (.leaf 6))], [some (.node (some "CodaMklTree000") (.leaf 5) (.leaf 6))]⟩,
    .node (some "CodaMklTree000") (.leaf 5) (.leaf 6), ⟨1, 6, [0], [some (.leaf 5)]⟩,
    addBatch_clean none [] [5, 6], by rfl, rfl, rfl, rfl, rfl, by rfl, rfl⟩

/-! ## C26 -/

/-- C26: with collision-free hashing, two trees of the same mode with equally many items and the
same root hold the same items, whatever their histories and sizes.  Missing: mergers that may
produce no hash and hashers that look at the depth of a leaf, whose roots depend on the history
(C20). -/
theorem C26_root_commits_partial (hasher : I → Meta → H) (merger : Option H → Option H → Meta → Option H)
    (htot : Total merger) (hstable : LeafHashStable hasher) (hinj : MergeInjective merger) (hhash : HashInjective hasher)
    (mode : Option Nat) (ops₁ ops₂ : List (Op I))
    (t₁ t₂ t₁' t₂' : Tree I H) (outs₁ outs₂ : List (Out I H))
    (hrun₁ : (Tree.new mode).run hasher merger ops₁ = .ok (t₁, outs₁))
    (hrun₂ : (Tree.new mode).run hasher merger ops₂ = .ok (t₂, outs₂)) (hcount : t₁.count = t₂.count)
    (root : Option H) (h₁ : t₁.root hasher merger = .ok (root, t₁')) (h₂ : t₂.root hasher merger = .ok (root, t₂')) :
    inserted ops₁ = inserted ops₂ := by
  obtain ⟨_, hf₁, hi₁⟩ := run_shape ops₁ (shape_new mode) hrun₁
  obtain ⟨_, hf₂, hi₂⟩ := run_shape ops₂ (shape_new mode) hrun₂
  have hi₁ : t₁.items = inserted ops₁ := by rw [hi₁]; rfl
  have hi₂ : t₂.items = inserted ops₂ := by rw [hi₂]; rfl
  have hc : t₁.leafs.length = t₂.leafs.length := hcount
  have ht₁ := run_inv htot hstable ops₁ (inv_new mode) hrun₁
  have ht₂ := run_inv htot hstable ops₂ (inv_new mode) hrun₂
  have ha : ¬ Aborts t₁.leafs.length := by
    intro ha; rw [inv_root_aborts ht₁ ha] at h₁; cases h₁
  have r₁ := (inv_root_code htot ht₁ ha).1
  have r₂ := (inv_root_code htot ht₂ (hc ▸ ha)).1
  have hh : t₂.height = t₁.height := by rw [ht₁.height, ht₂.height, hc]
  rw [h₁, hf₁, hi₁] at r₁
  rw [h₂, hf₂, hi₂, hh] at r₂
  refine modeRoot_injective htot hinj hhash (h := t₁.height) ?_ ?_ r₁.symm r₂.symm
  · rw [← hi₁, ← hi₂, items_length, items_length]; exact hc
  · rw [← hi₁, items_length, ht₁.height]; exact (leastHeight_calcHeight _).1

/-- C26 for the hashers and mergers of the code: trees over Poseidon, taken as collision free. -/
theorem C26_poseidon_root_commits (compress : Option String → H → H → H) (empty : H) (hash : I → H)
    (hinj : ∀ s l r l' r', compress s l r = compress s l' r' → l = l' ∧ r = r') (hhash : ∀ x y, hash x = hash y → x = y)
    (mode : Option Nat) (ops₁ ops₂ : List (Op I)) (t₁ t₂ t₁' t₂' : Tree I H) (outs₁ outs₂ : List (Out I H))
    (hrun₁ : (Tree.new mode).run (poseidonHasher hash) (poseidonMerger compress empty) ops₁ = .ok (t₁, outs₁))
    (hrun₂ : (Tree.new mode).run (poseidonHasher hash) (poseidonMerger compress empty) ops₂ = .ok (t₂, outs₂))
    (hcount : t₁.count = t₂.count) (root : Option H)
    (h₁ : t₁.root (poseidonHasher hash) (poseidonMerger compress empty) = .ok (root, t₁'))
    (h₂ : t₂.root (poseidonHasher hash) (poseidonMerger compress empty) = .ok (root, t₂')) :
    inserted ops₁ = inserted ops₂ :=
  C26_root_commits_partial _ _ (poseidon_total _ _) (poseidon_stable _) (poseidon_injective _ _ hinj)
    (fun x y _ h => hhash x y h) mode ops₁ ops₂ t₁ t₂ t₁' t₂' outs₁ outs₂ hrun₁ hrun₂ hcount root h₁ h₂

/-- C26: the domain of the nodes at a height, in the ledger's tree and in the tree of coinbases, is a name followed by the height in
decimal, with zeros in front up to three digits. -/
theorem C26_domains (h : Nat) : ∃ ds, (merklePrefix h).toList = "CodaMklTree".toList ++ ds ∧
    (coinbaseMerklePrefix h).toList = "CodaCbMklTree".toList ++ ds ∧
    (∀ c ∈ ds, Text.Spec.IsDigit c) ∧ Text.Spec.value ds = h ∧ 3 ≤ ds.length ∧ (3 < ds.length → ds.head? ≠ some '0') := by
  refine ⟨(pad3 h).toList, String.toList_append, String.toList_append, ?_, value_pad3 h, ?_, ?_⟩
  · rw [pad3_toList]
    intro c hc
    rcases List.mem_append.mp hc with hc | hc
    · rw [(List.mem_replicate.mp hc).2]; decide
    · exact Text.decimal_digits h c hc
  · rw [pad3_toList, List.length_append, List.length_replicate]
    omega
  · rw [pad3_toList, List.length_append, List.length_replicate]
    intro hl hh
    have hz : 3 - (Text.decimal h).length = 0 := by omega
    rw [hz] at hh hl
    have := Text.decimal_head h (by simpa using hh)
    rw [this] at hl
    simp at hl

/-- C26: nodes of different heights, and nodes of the two kinds of trees, have different domains. -/
theorem C26_domains_apart (h h' : Nat) : (merklePrefix h = merklePrefix h' → h = h') ∧
    (coinbaseMerklePrefix h = coinbaseMerklePrefix h' → h = h') ∧ merklePrefix h ≠ coinbaseMerklePrefix h' := by
  refine ⟨fun e => pad3_injective (append_injective e), fun e => pad3_injective (append_injective e), fun e => ?_⟩
  have := congrArg (fun s : String => s.toList[4]?) e
  simp [merklePrefix, coinbaseMerklePrefix, String.toList_append] at this

example : ∃ x₁ x₂ r₁ r₂,
    (Tree.new none).run symHasher symMerger [.add 1, .root, .addBatch [2, 3]] = .ok x₁ ∧
    (Tree.new none).run symHasher symMerger [.addBatch [1, 2], .proof 1, .add 3] = .ok x₂ ∧ x₁.1.count = x₂.1.count ∧
    x₁.1.root symHasher symMerger = .ok r₁ ∧ x₂.1.root symHasher symMerger = .ok r₂ ∧ r₁.1 = r₂.1 := by
  let want : Option Sym := symMerger (symMerger (some (.leaf 1)) (some (.leaf 2)) ⟨1, 1⟩) (symMerger (some (.leaf 3)) none ⟨1, 1⟩) ⟨0, 2⟩
  obtain ⟨x₁, h1, h2⟩ := check_true (e := (Tree.new none).run symHasher symMerger [.add 1, .root, .addBatch [2, 3]])
    (p := fun x => (x.1.count == 3) && check (x.1.root symHasher symMerger) (fun r => r.1 == want)) (by decide +kernel)
  obtain ⟨x₂, h3, h4⟩ := check_true (e := (Tree.new none).run symHasher symMerger [.addBatch [1, 2], .proof 1, .add 3])
    (p := fun x => (x.1.count == 3) && check (x.1.root symHasher symMerger) (fun r => r.1 == want)) (by decide +kernel)
  rw [Bool.and_eq_true] at h2 h4
  obtain ⟨r₁, e1, e2⟩ := check_true h2.2
  obtain ⟨r₂, e3, e4⟩ := check_true h4.2
  exact ⟨x₁, x₂, r₁, r₂, h1, h3, by rw [eq_of_beq h2.1, eq_of_beq h4.1], e1, e3, by rw [eq_of_beq e2, eq_of_beq e4]⟩

/-! ## C27 -/

/-- C27: a proof whose node index is zero is an error, and `verify` answers false for every root. -/
theorem C27_index_zero [DecidableEq H] (hasher : I → Meta → H) (merger : Option H → Option H → Meta → Option H)
    (p : Proof I H) (h : p.index = 0) (root : H) :
    p.rootHash hasher merger = .error .invalidIndex ∧ p.verify hasher merger root = .ok false := by
  have : p.rootHash hasher merger = .error .invalidIndex := by
    unfold Proof.rootHash; rw [if_neg (by omega)]
  exact ⟨this, by unfold Proof.verify; rw [this]⟩

/-- C27: a proof with a misplaced peer, whatever its index, lengths and hashes, never yields a root
and never verifies. -/
theorem C27_misplaced_never_verifies [DecidableEq H] (hasher : I → Meta → H)
    (merger : Option H → Option H → Meta → Option H) (p : Proof I H) (h : SomePeerMisplaced p.index p.peerIndices)
    (root : H) : (∀ r, p.rootHash hasher merger ≠ .ok r) ∧ p.verify hasher merger root ≠ .ok true := by
  have key : ∀ r, p.rootHash hasher merger ≠ .ok r := by
    intro r hr
    unfold Proof.rootHash at hr
    split at hr
    · split at hr
      · cases hr
      simp only [bind, Except.bind] at hr
      split at hr
      · cases hr
      · split at hr
        · cases hr
        · rename_i hv
          exact rootLoop_misplaced _ _ _ _ _ _ h hv
    · cases hr
  refine ⟨key, ?_⟩
  unfold Proof.verify
  split
  · rename_i r hr; exact absurd hr (key r)
  · exact nofun
  · simp

/-- C27: if moreover the index is that of a leaf of a tree as high as the proof is long and there
are enough hashes, the answer is the error `InvalidProof`, and `verify` answers false.  Missing:
proofs whose index is not at the depth of their length, with too few hashes or with the greatest
index among the peers, on which the code panics (see below). -/
theorem C27_misplaced_error_partial [DecidableEq H] (hasher : I → Meta → H)
    (merger : Option H → Option H → Meta → Option H) (p : Proof I H) (h : SomePeerMisplaced p.index p.peerIndices)
    (i : Nat) (hindex : p.index = 2 ^ p.peerIndices.length - 1 + i) (hi : i < 2 ^ p.peerIndices.length)
    (hsmall : i + 1 < 2 ^ 28) (h48 : p.peerIndices.length ≤ 48)
    (hq : p.peerIndices.length ≤ p.peerHashes.length) (h64 : ∀ k ∈ p.peerIndices, k + 1 < 2 ^ 64) (root : H) :
    p.rootHash hasher merger = .error .invalidProof ∧ p.verify hasher merger root = .ok false := by
  have hidx : p.index = idx p.peerIndices.length i := hindex
  have hreg : ∀ k, k ≤ p.peerIndices.length → ¬ Irregular (p.peerIndices.length - k) (i / 2 ^ k) := by
    intro k _
    exact regular_ancestor hsmall
  have hne : p.peerIndices ≠ [] := by intro h'; rw [h'] at h; exact h.elim
  have hpos : 0 < p.peerIndices.length := List.length_pos_iff.mpr hne
  have key : p.rootHash hasher merger = .error .invalidProof := by
    unfold Proof.rootHash
    rw [if_pos (by rw [hidx]; exact idx_pos _ _ hpos), hidx,
      if_neg (idx_no_overflow (by omega) hsmall), meta_regular (h := p.peerIndices.length) hi (by simpa using hreg 0 (Nat.zero_le _)) (Nat.le_refl _)]
    simp only [liftPanic, bind, Except.bind]
    rw [rootLoop_misplaced_error _ _ _ _ _ (Nat.le_refl _) hi hreg (Nat.le_refl _) hq h64 (by rw [← hidx]; exact h)]
  exact ⟨key, by unfold Proof.verify; rw [key]⟩

example : SomePeerMisplaced 8 [7, 5, 2] ∧ (8 : Nat) = 2 ^ [7, 5, 2].length - 1 + 1 ∧ (1 : Nat) < 2 ^ [7, 5, 2].length ∧
    ∀ k ∈ [7, 5, 2], k + 1 < 2 ^ 64 := by
  refine ⟨?_, by decide, by decide, by decide⟩
  simp [SomePeerMisplaced]

/-- C27 fails for `verify` as a whole: some malformed proofs make it panic instead of answering
false: an index below the depth of the proof, more peers than levels, fewer hashes than peers, an
index or a peer at the end of the range of `usize`. -/
theorem C27_verify_panics_fails (hasher : Nat → Meta → Sym) (merger : Option Sym → Option Sym → Meta → Option Sym)
    (root : Sym) :
    Proof.verify hasher merger (⟨3, 7, [9], [none]⟩ : Proof Nat Sym) root = .error ⟨"attempt to subtract with overflow"⟩ ∧
    Proof.verify hasher merger (⟨1, 7, [2, 1], [none, none]⟩ : Proof Nat Sym) root = .error ⟨"assertion failed: index > 0"⟩ ∧
    Proof.verify hasher merger (⟨3, 7, [4, 9], [none]⟩ : Proof Nat Sym) root = .error ⟨"index out of bounds"⟩ ∧
    Proof.verify hasher merger (⟨2 ^ 64 - 2, 7, [2 ^ 64 - 3], [none]⟩ : Proof Nat Sym) root =
      .error ⟨"attempt to add with overflow"⟩ ∧
    Proof.verify hasher merger (⟨1, 7, [2 ^ 64 - 1], [none]⟩ : Proof Nat Sym) root =
      .error ⟨"attempt to add with overflow"⟩ := by
  refine ⟨rfl, rfl, rfl, rfl, rfl⟩

/-! ## C28 -/

/-- C28: a non-empty path in which each node carries one hash converts to a proof at the position
its turns spell, and the root of that proof is the fold of the path from the leaf upwards at
heights 1, 2, ...  Missing: the empty path, paths longer than 48, and positions from 2^28 - 1 on (see
below). -/
theorem C28_path_root_partial (hasher : I → Meta → H) (merger : Option H → Option H → Meta → Option H)
    (path : List (Bool × H)) (item : I) (hne : path ≠ []) (h48 : path.length ≤ 48)
    (hpos : pathPosition path + 1 < 2 ^ 28) :
    ∃ p, pathToProof (path.map pathNode) item = .ok p ∧ p.item = item ∧
      p.index = 2 ^ path.length - 1 + pathPosition path ∧
      p.rootHash hasher merger =
        match foldPath merger path.length 0 (some (hasher item ⟨path.length, 0⟩)) path with
        | some root => .ok root
        | none => .error .mergerFailure := by
  refine ⟨_, pathToProof_ok path item hne (by omega), rfl, rfl, ?_⟩
  have hpos' : 0 < path.length := List.length_pos_iff.mpr hne
  have hreg : ¬ Irregular path.length (pathPosition path) := by
    have := regular_pos (F := path.length) hpos (Nat.le_refl _)
    simpa [pos] using this
  have hm := meta_regular (h := path.length) (pathPosition_lt path) hreg (Nat.le_refl _)
  rw [Nat.sub_self] at hm
  unfold Proof.rootHash
  rw [if_pos (idx_pos _ _ hpos'), if_neg (idx_no_overflow (by omega) hpos)]
  simp only [peerIdx_length]
  rw [hm]
  simp only [liftPanic, bind, Except.bind]
  rw [rootLoop_foldPath _ _ _ (Nat.le_refl _) hpos, Nat.sub_self]
  rfl

example : pathPosition [(true, Sym.leaf 1), (false, Sym.leaf 2), (true, Sym.leaf 3)] = 2 ∧
    foldPath symMerger 3 0 (some (Sym.leaf 9)) [(true, Sym.leaf 1), (false, Sym.leaf 2), (true, Sym.leaf 3)] =
      some (.node (some "CodaMklTree002") (.node (some "CodaMklTree001") (.leaf 2) (.node (some "CodaMklTree000") (.leaf 9) (.leaf 1))) (.leaf 3)) := by
  decide

/-- C28: a path with a node carrying no hash or two hashes never converts; up to 63 nodes the
answer is one of the two errors. -/
theorem C28_bad_node_refused (path : List (PathNode H)) (item : I)
    (hbad : ∃ n ∈ path, n.left.isSome = n.right.isSome) :
    (∀ p, pathToProof path item ≠ .ok p) ∧
    (path.length < 64 → pathToProof path item = .error .twoHashes ∨ pathToProof path item = .error .noHashes) := by
  have hbad' : ∃ n ∈ path.reverse, n.left.isSome = n.right.isSome := by
    obtain ⟨n, h1, h2⟩ := hbad; exact ⟨n, List.mem_reverse.mpr h1, h2⟩
  constructor
  · intro p hp
    unfold pathToProof at hp
    simp only [bind, Except.bind] at hp
    split at hp
    · cases hp
    · rename_i s hs
      exact pathFold_bad_any _ _ _ hbad' hs
  · intro hl
    have := pathFold_bad path.reverse (⟨[], [], 0, 0, false⟩ : PathState H) hbad' (by simpa using hl)
    unfold pathToProof
    rcases this with h | h
    · left; rw [h]; rfl
    · right; rw [h]; rfl

example : ∃ n ∈ [(⟨some 1, none⟩ : PathNode Nat), ⟨none, none⟩], n.left.isSome = n.right.isSome := ⟨⟨none, none⟩, by simp, rfl⟩

/-- C28 fails for the empty path, which panics instead of giving the leaf itself or an error. -/
theorem C28_empty_path_fails (item : I) :
    pathToProof ([] : List (PathNode H)) item =
      .error (.panic "length of peer_indices and peer_hashes should be positive") := rfl

/-- C28 fails for the rightmost leaf of a tree of height 28: the conversion succeeds but computing
the root of the resulting proof panics. -/
theorem C28_long_path_fails (hasher : I → Meta → H) (merger : Option H → Option H → Meta → Option H) (item : I) (s : H) :
    ∃ p, pathToProof ((List.replicate 28 (false, s)).map pathNode) item = .ok p ∧
      p.rootHash hasher merger = .error (.panic "attempt to subtract with overflow") := by
  refine ⟨_, pathToProof_ok _ item (by simp) (by simp), ?_⟩
  have hp : pathPosition (List.replicate 28 (false, s)) = 2 ^ 28 - 1 := by
    simp [pathPosition, List.replicate]
  have hm : Meta.new (idx 28 (2 ^ 28 - 1)) 28 = .error ⟨"attempt to subtract with overflow"⟩ := by rfl
  unfold Proof.rootHash
  simp only [List.length_replicate, peerIdx_length, hp]
  rw [if_pos (idx_pos _ _ (by omega)), if_neg (by unfold idx; omega), hm]
  rfl

/-! ## C29 -/

/-- C29: the metadata of the node with index `2^d - 1 + j` (the `j`-th at distance `d` from the
root) of a tree of height `h` is its depth `d` and its distance `h - d` to the leaves.  Missing:
the last node of depth 28, 30, 38 and 46, where floating-point rounding makes it wrong, and depths
above 47. -/
theorem C29_metadata_partial (d j h : Nat) (hj : j < 2 ^ d) (hd : d ≤ h) (_h47 : d ≤ 47)
    (hround : j + 1 = 2 ^ d → d ≠ 28 ∧ d ≠ 30 ∧ d ≠ 38 ∧ d ≠ 46) :
    Meta.new (2 ^ d - 1 + j) h = .ok ⟨d, h - d⟩ := by
  apply meta_regular (d := d) hj _ hd
  rintro ⟨h1, h2⟩
  have := hround h1
  simp only [roundsUp, List.mem_cons, List.not_mem_nil, or_false] at h2
  omega

example : (5 : Nat) < 2 ^ 3 ∧ Meta.new (2 ^ 3 - 1 + 5) 4 = .ok ⟨3, 1⟩ := ⟨by decide, by rfl⟩

/-- C29: the height the code computes for `n` leaves is the least one with room for them. -/
theorem C29_height (n : Nat) : LeastHeight n (calcHeight n) := leastHeight_calcHeight n

/-- C29 fails at the last node of depth 28 (and 30, 38, 46): its depth is reported one too large;
in a tree of height 28, where it is the last leaf, this panics. -/
theorem C29_rounding_fails :
    (∀ d ∈ [28, 30, 38, 46], ∀ h, d < h → Meta.new (2 ^ d - 1 + (2 ^ d - 1)) h = .ok ⟨d + 1, h - (d + 1)⟩) ∧
    Meta.new (2 ^ 28 - 1 + (2 ^ 28 - 1)) 28 = .error ⟨"attempt to subtract with overflow"⟩ := by
  refine ⟨?_, rfl⟩
  intro d hd h hh
  have hp := two_pow_pos d
  have hirr : Irregular d (2 ^ d - 1) := by
    refine ⟨by omega, ?_⟩
    simp only [List.mem_cons, List.not_mem_nil, or_false] at hd
    simp only [roundsUp, List.mem_cons, List.not_mem_nil, or_false]
    omega
  have := nodeDepth_idx (d := d) (j := 2 ^ d - 1) (by omega)
  rw [if_pos hirr] at this
  unfold Meta.new
  simp only [idx] at this
  rw [this, if_pos (by omega)]

end MinaRs.Merkle
