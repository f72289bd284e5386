import Verif.Merkle.VerifySpec
import Verif.Merkle.Props

/-!
# Exactly what checking a proof answers (C27)
-/

namespace MinaRs.Merkle
open Spec

variable {I H : Type}

theorem stuck_nil {i q : Nat} : ¬ Stuck i [] q := fun h => by cases h

theorem stuck_cons {i p q : Nat} {ps : List Nat} (h : Stuck i (p :: ps) (q + 1)) :
    (i = 0 ∧ p = 1) ∨ (i + 1 ≠ p ∧ i ≠ p + 1 ∧ 2 ^ 64 - 1 ≤ p) ∨ (0 < i ∧ (i + 1 = p ∨ i = p + 1) ∧ Stuck ((i - 1) / 2) ps q) := by
  cases h with
  | aboveRoot => exact .inl ⟨rfl, rfl⟩
  | greatest a b c => exact .inr (.inl ⟨a, b, c⟩)
  | up a b c => exact .inr (.inr ⟨a, b, c⟩)

/-- The outcomes of the loop: stuck, the merged hash, or the error. -/
theorem rootLoop_outcomes (merger : Option H → Option H → Meta → Option H) {n : Nat} (ps : List Nat) :
    ∀ (dd j : Nat) (h : Option H) (qs : List (Option H)), dd ≤ n → j < 2 ^ dd → j + 1 < 2 ^ 28 →
    ((∃ m, rootLoop merger n (idx dd j) h ps qs = .error (.panic m)) ∧ Stuck (idx dd j) ps qs.length) ∨
    (¬ Stuck (idx dd j) ps qs.length ∧
      ((SomePeerMisplaced (idx dd j) ps ∧ rootLoop merger n (idx dd j) h ps qs = .error .invalidProof) ∨
      (¬ SomePeerMisplaced (idx dd j) ps ∧ ps.length ≤ dd ∧ ps.length ≤ qs.length ∧
        rootLoop merger n (idx dd j) h ps qs = .ok (foldPeers merger n (n - dd) (idx dd j) h ps qs)))) := by
  induction ps with
  | nil =>
    intro dd j h qs _ _ _
    exact .inr ⟨stuck_nil, .inr ⟨id, Nat.zero_le _, Nat.zero_le _, by cases qs <;> rfl⟩⟩
  | cons p ps ih =>
    intro dd j h qs hd hj h28
    cases qs with
    | nil => exact .inl ⟨⟨_, rfl⟩, .noHash⟩
    | cons q qs =>
      by_cases hn : idx dd j + 1 ≠ p ∧ idx dd j ≠ p + 1
      · by_cases hg : 2 ^ 64 ≤ p + 1
        · refine .inl ⟨⟨"attempt to add with overflow", ?_⟩, .greatest hn.1 hn.2 (by omega)⟩
          unfold rootLoop orderedSiblings
          rw [if_neg hn.1, if_neg hn.2, if_pos hg]; rfl
        · refine .inr ⟨?_, .inl ⟨.inl hn, ?_⟩⟩
          · intro hs
            rcases stuck_cons hs with ⟨h1, h2⟩ | ⟨-, -, h3⟩ | ⟨-, h2, -⟩
            · exact hn.1 (by omega)
            · omega
            · rcases h2 with h2 | h2
              · exact hn.1 h2
              · exact hn.2 h2
          · unfold rootLoop orderedSiblings
            rw [if_neg hn.1, if_neg hn.2, if_neg hg]; rfl
      · have hadj : idx dd j + 1 = p ∨ idx dd j = p + 1 := by
          rcases Classical.em (idx dd j + 1 = p) with h1 | h1
          · exact .inl h1
          · rcases Classical.em (idx dd j = p + 1) with h2 | h2
            · exact .inr h2
            · exact absurd ⟨h1, h2⟩ hn
        obtain ⟨hs, hos, hval⟩ : ∃ hs, orderedSiblings (idx dd j) h p q = .ok hs ∧
            ∀ m, merger hs.1 hs.2 m = if p = idx dd j + 1 then merger h q m else merger q h m := by
          unfold orderedSiblings
          rcases hadj with h1 | h1
          · rw [if_pos h1]
            exact ⟨_, rfl, fun m => by rw [if_pos h1.symm]⟩
          · rw [if_neg (by omega), if_pos h1]
            exact ⟨_, rfl, fun m => by rw [if_neg (by omega)]⟩
        cases dd with
        | zero =>
          have h0 : idx 0 j = 0 := by
            have : j < 2 ^ 0 := hj
            simp only [Nat.pow_zero] at this
            simp only [idx, Nat.pow_zero]; omega
          have hp1 : p = 1 := by rw [h0] at hadj; omega
          refine .inl ⟨⟨"assertion failed: index > 0", ?_⟩, ?_⟩
          · unfold rootLoop
            rw [hos, h0]
            rfl
          · rw [h0, hp1]; exact .aboveRoot
        | succ dd =>
          have hpos := idx_pos (dd + 1) j (by omega)
          have hj2 : j / 2 < 2 ^ dd := by rw [Nat.pow_succ] at hj; omega
          have hm := meta_regular (h := n) hj2 (regular_of_lt (by omega)) (by omega)
          have hstep : rootLoop merger n (idx (dd + 1) j) h (p :: ps) (q :: qs) =
              rootLoop merger n (idx dd (j / 2)) (merger hs.1 hs.2 ⟨dd, n - dd⟩) ps qs := by
            conv => lhs; unfold rootLoop
            rw [hos, parentIndex_idx]
            simp only [liftPanic, hm, bind, Except.bind]
          have hfold : foldPeers merger n (n - (dd + 1)) (idx (dd + 1) j) h (p :: ps) (q :: qs) =
              foldPeers merger n (n - dd) (idx dd (j / 2)) (merger hs.1 hs.2 ⟨dd, n - dd⟩) ps qs := by
            conv => lhs; unfold foldPeers
            rw [idx_parent, show n - (dd + 1) + 1 = n - dd by omega, show n - (n - dd) = dd by omega, hval]
          have hstuck : Stuck (idx (dd + 1) j) (p :: ps) (q :: qs).length ↔ Stuck (idx dd (j / 2)) ps qs.length := by
            rw [← idx_parent]
            constructor
            · intro hs
              rcases stuck_cons hs with ⟨h1, -⟩ | ⟨h1, h2, -⟩ | ⟨-, -, h3⟩
              · omega
              · exact absurd ⟨h1, h2⟩ hn
              · exact h3
            · intro hs
              exact .up hpos hadj hs
          have hmis : SomePeerMisplaced (idx (dd + 1) j) (p :: ps) ↔ SomePeerMisplaced (idx dd (j / 2)) ps := by
            rw [← idx_parent]
            exact ⟨fun h => h.resolve_left hn, .inr⟩
          rw [hstep, hfold, hstuck, hmis]
          rcases ih dd (j / 2) (merger hs.1 hs.2 ⟨dd, n - dd⟩) qs (by omega) hj2 (by omega) with h1 | ⟨h1, h2 | ⟨h2, h3, h4, h5⟩⟩
          · exact .inl h1
          · exact .inr ⟨h1, .inl h2⟩
          · exact .inr ⟨h1, .inr ⟨h2, by simp only [List.length_cons]; omega, by simp only [List.length_cons]; omega, h5⟩⟩

variable [DecidableEq H] (hasher : I → Meta → H) (merger : Option H → Option H → Meta → Option H)

theorem verify_cases (p : Proof I H) (d j : Nat) (hindex : p.index = 2 ^ d - 1 + j) (hj : j < 2 ^ d) (hsmall : j + 1 < 2 ^ 28)
    (h47 : d ≤ 47) (hpos : 0 < p.index) (root : H) :
    (p.peerIndices.length < d ∧ ∃ e, p.verify hasher merger root = .error e) ∨
    (d ≤ p.peerIndices.length ∧
      (((∃ e, p.verify hasher merger root = .error e) ∧ Stuck p.index p.peerIndices p.peerHashes.length) ∨
      (¬ Stuck p.index p.peerIndices p.peerHashes.length ∧
        ((SomePeerMisplaced p.index p.peerIndices ∧ p.verify hasher merger root = .ok false) ∨
        (¬ SomePeerMisplaced p.index p.peerIndices ∧ p.peerIndices.length = d ∧ d ≤ p.peerHashes.length ∧
          p.verify hasher merger root =
            .ok (decide (foldPeers merger d 0 p.index (some (hasher p.item ⟨d, 0⟩)) p.peerIndices p.peerHashes = some root))))))) := by
  have hidx : p.index = idx d j := hindex
  have hroot : p.rootHash hasher merger = (do
      let m ← liftPanic (Meta.new (idx d j) p.peerIndices.length)
      let hash ← rootLoop merger p.peerIndices.length (idx d j) (some (hasher p.item m)) p.peerIndices p.peerHashes
      match hash with
      | some h => .ok h
      | none => .error .mergerFailure) := by
    unfold Proof.rootHash
    rw [if_pos hpos, hidx, if_neg (idx_no_overflow (by omega) hsmall)]
    rfl
  by_cases hd : d ≤ p.peerIndices.length
  · refine .inr ⟨hd, ?_⟩
    rw [meta_regular (h := p.peerIndices.length) hj (regular_of_lt hsmall) hd] at hroot
    simp only [liftPanic, bind, Except.bind] at hroot
    rw [hidx]
    rcases rootLoop_outcomes merger (n := p.peerIndices.length) p.peerIndices d j (some (hasher p.item ⟨d, p.peerIndices.length - d⟩))
      p.peerHashes hd hj hsmall with ⟨⟨m, h1⟩, h2⟩ | ⟨h1, ⟨h2, h3⟩ | ⟨h2, h3, h4, h5⟩⟩
    · refine .inl ⟨⟨⟨m⟩, ?_⟩, h2⟩
      rw [h1] at hroot
      unfold Proof.verify
      rw [hroot]
    · refine .inr ⟨h1, .inl ⟨h2, ?_⟩⟩
      rw [h3] at hroot
      unfold Proof.verify
      rw [hroot]
    · have hlen : p.peerIndices.length = d := by omega
      refine .inr ⟨h1, .inr ⟨h2, hlen, by omega, ?_⟩⟩
      rw [h5, hlen, Nat.sub_self] at hroot
      unfold Proof.verify
      rw [hroot]
      cases foldPeers merger d 0 (idx d j) (some (hasher p.item ⟨d, 0⟩)) p.peerIndices p.peerHashes with
      | none => simp
      | some v => simp
  · refine .inl ⟨by omega, ⟨"attempt to subtract with overflow"⟩, ?_⟩
    have : Meta.new (idx d j) p.peerIndices.length = .error ⟨"attempt to subtract with overflow"⟩ := by
      unfold Meta.new
      rw [nodeDepth_regular hj (regular_of_lt hsmall), if_neg (by omega)]
    rw [this] at hroot
    unfold Proof.verify
    rw [hroot]
    rfl

/-- **C27.** A proof verifies against a root exactly if its index is that of a leaf at the depth of its list of peers, each listed
peer is next to the node it is to be merged with, each has its place in the list of hashes, and merging on the way up
gives the root.  `d` and `j` are the depth and place of the index.  Missing: the places from 2^28 - 1 on and depths above 47,
where depths are rounded (C29). -/
theorem C27_verifies_iff_partial (p : Proof I H) (d j : Nat) (hindex : p.index = 2 ^ d - 1 + j) (hj : j < 2 ^ d) (hsmall : j + 1 < 2 ^ 28)
    (h47 : d ≤ 47) (root : H) :
    p.verify hasher merger root = .ok true ↔ 0 < d ∧ p.peerIndices.length = d ∧ d ≤ p.peerHashes.length ∧
      ¬ SomePeerMisplaced p.index p.peerIndices ∧
      foldPeers merger d 0 p.index (some (hasher p.item ⟨d, 0⟩)) p.peerIndices p.peerHashes = some root := by
  by_cases h0 : p.index = 0
  · rw [(C27_index_zero hasher merger p h0 root).2]
    constructor
    · intro h; cases h
    · rintro ⟨hd, -⟩
      have := idx_pos d j hd
      rw [hindex] at h0
      simp only [idx] at this
      omega
  have hd : 0 < d := by
    rcases Nat.eq_zero_or_pos d with rfl | h
    · exfalso; apply h0; rw [hindex]; simp only [Nat.pow_zero] at hj ⊢; omega
    · exact h
  rcases verify_cases hasher merger p d j hindex hj hsmall h47 (by omega) root with ⟨h1, e, h2⟩ | ⟨h1, ⟨⟨e, h2⟩, h3⟩ | ⟨h2, ⟨h3, h4⟩ | ⟨h3, h4, h5, h6⟩⟩⟩
  · rw [h2]
    constructor
    · intro h; cases h
    · rintro ⟨-, h, -⟩; omega
  · rw [h2]
    constructor
    · intro h; cases h
    · rintro ⟨-, hl, hq, hm, -⟩
      exfalso
      have key : ∀ (ps : List Nat) (dd j q : Nat), j < 2 ^ dd → Stuck (idx dd j) ps q → ¬ SomePeerMisplaced (idx dd j) ps →
          ps.length ≤ dd → ps.length ≤ q → False := by
        intro ps
        induction ps with
        | nil => intro dd j q _ hs; exact absurd hs stuck_nil
        | cons x ps ih =>
          intro dd j q hj hs hm hl hq
          obtain ⟨dd, rfl⟩ : ∃ k, dd = k + 1 := ⟨dd - 1, by simp at hl; omega⟩
          have hpos := idx_pos (dd + 1) j (by omega)
          have hm' : ¬ SomePeerMisplaced ((idx (dd + 1) j - 1) / 2) ps := fun h => hm (.inr h)
          have hadj : ¬ (idx (dd + 1) j + 1 ≠ x ∧ idx (dd + 1) j ≠ x + 1) := fun h => hm (.inl h)
          have hjj : j / 2 < 2 ^ dd := by rw [Nat.pow_succ] at hj; omega
          have hpar := idx_parent dd j
          cases q with
          | zero => simp at hq
          | succ q =>
            rcases stuck_cons hs with ⟨h1, -⟩ | ⟨h1, h2, -⟩ | ⟨-, -, h3⟩
            · omega
            · exact hadj ⟨h1, h2⟩
            · rw [hpar] at h3 hm'
              exact ih dd (j / 2) _ hjj h3 hm' (by simpa using hl) (by simpa using hq)
      have hidx : p.index = idx d j := hindex
      rw [hidx] at h3 hm
      exact key _ d j _ hj h3 hm (by omega) (by omega)
  · rw [h4]
    constructor
    · intro h; cases h
    · rintro ⟨-, -, -, h, -⟩; exact absurd h3 h
  · rw [h6]
    constructor
    · intro h
      have := Except.ok.inj h
      exact ⟨hd, h4, h5, h3, of_decide_eq_true this⟩
    · rintro ⟨-, -, -, -, h⟩
      rw [decide_eq_true h]

/-- **C27 fails** exactly here: checking panics if the list of peers is shorter than the depth of the index, or if it gets stuck on
its way up (`Stuck`: a peer without a hash, a peer of the root, a peer with the greatest index).  In all other
cases it answers. -/
theorem C27_panics_iff_fails (p : Proof I H) (d j : Nat) (hindex : p.index = 2 ^ d - 1 + j) (hj : j < 2 ^ d) (hsmall : j + 1 < 2 ^ 28)
    (h47 : d ≤ 47) (root : H) :
    (∃ e, p.verify hasher merger root = .error e) ↔
      0 < p.index ∧ (p.peerIndices.length < d ∨ Stuck p.index p.peerIndices p.peerHashes.length) := by
  by_cases h0 : p.index = 0
  · rw [(C27_index_zero hasher merger p h0 root).2]
    constructor
    · rintro ⟨e, h⟩; cases h
    · rintro ⟨h, -⟩; omega
  rcases verify_cases hasher merger p d j hindex hj hsmall h47 (by omega) root with ⟨h1, h2⟩ | ⟨h1, ⟨h2, h3⟩ | ⟨h2, ⟨h3, h4⟩ | ⟨h3, h4, h5, h6⟩⟩⟩
  · exact ⟨fun _ => ⟨by omega, .inl h1⟩, fun _ => h2⟩
  · exact ⟨fun _ => ⟨by omega, .inr h3⟩, fun _ => h2⟩
  · constructor
    · rintro ⟨e, h⟩; rw [h4] at h; cases h
    · rintro ⟨-, h | h⟩
      · omega
      · exact absurd h h2
  · constructor
    · rintro ⟨e, h⟩; rw [h6] at h; cases h
    · rintro ⟨-, h | h⟩
      · omega
      · exact absurd h h2

/-- A proof for the second of four leaves, index 4 = 2^2 - 1 + 1, with peers 3 and 2. -/
example : ¬ SomePeerMisplaced 4 [3, 2] ∧
    foldPeers (fun l r m => some (l.getD 0 * 100 + r.getD 0 * 10 + m.height)) 2 0 4 (some 7) [3, 2] [some 5, some 1] = some (57100 + 10 + 2) := by
  constructor
  · simp [SomePeerMisplaced]
  · decide

/-- The cases of `C27_verify_panics_fails`. -/
example : [9].length < 2 ∧ (3 : Nat) = 2 ^ 2 - 1 + 0 ∧ Stuck 1 [2, 1] 2 ∧ Stuck 3 [4, 9] 1 ∧ Stuck 1 [2 ^ 64 - 1] 1 :=
  ⟨by decide, by decide, .up (by decide) (.inl rfl) .aboveRoot, .up (by decide) (.inl rfl) .noHash,
    .greatest (by decide) (by decide) (by decide)⟩

end MinaRs.Merkle
