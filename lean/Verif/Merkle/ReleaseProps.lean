import Verif.Merkle.Props
import Verif.Merkle.Release

/-!
# Paths and proofs in a release build, and on the web: properties

C101: builds agree about paths and proofs.
-/
namespace MinaRs.Merkle
open Spec

variable {I H : Type}

theorem addW_small {w a b : Nat} (h : a + b < 2 ^ w) : addW w a b = a + b := Nat.mod_eq_of_lt h

theorem subW_small {w a b : Nat} (hb : b < 2 ^ w) (ha : a - b < 2 ^ w) (h : b ≤ a) : subW w a b = a - b := by
  unfold subW
  rw [Nat.mod_eq_of_lt hb, show a + (2 ^ w - b) = a - b + 2 ^ w by omega, Nat.add_mod_right,
    Nat.mod_eq_of_lt (by omega)]

theorem floatCeilLog2_pos {x : Nat} (h : 2 ≤ x) : 1 ≤ floatCeilLog2 x := by
  have : 1 ≤ ceilLog2 x := by
    unfold ceilLog2
    rw [if_neg (by omega)]
    omega
  unfold floatCeilLog2
  split <;> omega

/-- Where a checked build has metadata, a release build has the same. -/
theorem newR_eq {w index n : Nat} {m : Meta} (hi : index + 2 < 2 ^ w) (hn : n < 2 ^ 32) (h : Meta.new index n = .ok m) :
    Meta.newR w index n = m := by
  unfold Meta.new at h
  split at h
  · rename_i hle
    have hp := floatCeilLog2_pos (x := index + 2) (by omega)
    have hd : nodeDepthR w index = nodeDepth index := by
      unfold nodeDepthR
      unfold nodeDepth at hle ⊢
      rw [addW_small hi, subW_small (by omega) (by omega) hp]
    unfold Meta.newR
    rw [hd, subW_small (by omega) (by omega) hle]
    exact Except.ok.inj h
  · cases h

/-- A word of 64 bits, or indices that have room. -/
def Room (w : Nat) (ps : List Nat) : Prop := w = 64 ∨ ∀ p ∈ ps, p + 1 < 2 ^ w

theorem rootLoopR_eq (merger : Option H → Option H → Meta → Option H) {w n : Nat} (hw : w ≤ 64) (hn : n < 2 ^ 32) :
    ∀ (ps : List Nat) (qs : List (Option H)) (index : Nat) (hash : Option H) (r : Except ProofErr (Option H)),
      index + 2 < 2 ^ w → Room w ps → rootLoop merger n index hash ps qs = r → (∀ msg, r ≠ .error (.panic msg)) →
      rootLoopR merger w n index hash ps qs = r := by
  intro ps
  induction ps with
  | nil => intro qs index hash r _ _ h _; rw [← h]; unfold rootLoopR rootLoop; rfl
  | cons p ps ih =>
    intro qs index hash r hi hroom h hr
    cases qs with
    | nil => exact absurd h.symm (hr _)
    | cons q qs =>
      unfold rootLoop at h
      unfold rootLoopR
      have hos : orderedSiblingsR w index hash p q = orderedSiblings index hash p q := by
        unfold orderedSiblingsR orderedSiblings
        rw [addW_small (show index + 1 < 2 ^ w by omega)]
        by_cases h1 : index + 1 = p
        · rw [if_pos h1, if_pos h1]
        · rw [if_neg h1, if_neg h1]
          by_cases h2 : p + 1 < 2 ^ w
          · rw [addW_small h2]
            by_cases h3 : index = p + 1
            · rw [if_pos h3, if_pos h3]
            · have : 2 ^ w ≤ 2 ^ 64 := Nat.pow_le_pow_right (by omega) hw
              rw [if_neg h3, if_neg h3, if_neg (by omega)]
          · exfalso
            rcases hroom with rfl | hroom
            · have hos : orderedSiblings index hash p q = .error (.panic "attempt to add with overflow") := by
                unfold orderedSiblings
                rw [if_neg h1, if_neg (by omega), if_pos (by omega)]
              rw [hos] at h
              exact hr _ h.symm
            · exact h2 (hroom p List.mem_cons_self)
      have hroom' : Room w ps := by
        rcases hroom with hr' | hr'
        · exact .inl hr'
        · exact .inr fun x hx => hr' x (List.mem_cons_of_mem _ hx)
      rw [hos]
      cases ho : orderedSiblings index hash p q with
      | error e => rw [ho] at h; exact h
      | ok hs =>
        rw [ho] at h
        simp only [bind, Except.bind] at h ⊢
        cases hp : parentIndex index with
        | error e => rw [hp] at h; exact absurd h.symm (hr _)
        | ok parent =>
          rw [hp] at h
          simp only [liftPanic] at h
          have hpar : 0 < index ∧ parent = (index - 1) / 2 := by
            unfold parentIndex at hp
            split at hp
            · cases hp
            · exact ⟨by omega, (Except.ok.inj hp).symm⟩
          have hparR : parentIndexR w index = parent := by
            unfold parentIndexR
            rw [subW_small (by omega) (by omega) hpar.1, hpar.2]
          cases hm : Meta.new parent n with
          | error e => rw [hm] at h; exact absurd h.symm (hr _)
          | ok m =>
            rw [hm] at h
            simp only at h
            rw [hparR, newR_eq (by omega) hn hm]
            exact ih _ _ _ _ (by omega) hroom' h hr

theorem rootHashR_eq (hasher : I → Meta → H) (merger : Option H → Option H → Meta → Option H) {w : Nat} (hw : w ≤ 64)
    (p : Proof I H) (hi : p.index + 2 < 2 ^ w) (hroom : Room w p.peerIndices) (hn : p.peerIndices.length < 2 ^ 32)
    (r : Except ProofErr H) (h : p.rootHash hasher merger = r) (hr : ∀ msg, r ≠ .error (.panic msg)) :
    p.rootHashR hasher merger w = r := by
  unfold Proof.rootHash at h
  unfold Proof.rootHashR
  split at h
  · rename_i hpos
    have : 2 ^ w ≤ 2 ^ 64 := Nat.pow_le_pow_right (by omega) hw
    rw [if_neg (by omega)] at h
    rw [if_pos hpos, Nat.mod_eq_of_lt hn]
    simp only [bind, Except.bind] at h ⊢
    cases hm : Meta.new p.index p.peerIndices.length with
    | error e => rw [hm] at h; exact absurd h.symm (hr _)
    | ok m =>
      rw [hm] at h
      simp only [liftPanic] at h
      rw [newR_eq hi hn hm]
      cases hl : rootLoop merger p.peerIndices.length p.index (some (hasher p.item m)) p.peerIndices p.peerHashes with
      | error e =>
        rw [hl] at h
        have he : ∀ msg, (Except.error e : Except ProofErr (Option H)) ≠ .error (.panic msg) := by
          intro msg he
          injection he with he
          subst he
          exact hr msg h.symm
        rw [rootLoopR_eq merger hw hn _ _ _ _ _ hi hroom hl he]
        exact h
      | ok v =>
        rw [hl] at h
        rw [rootLoopR_eq merger hw hn _ _ _ _ _ hi hroom hl (fun _ => nofun)]
        exact h
  · rename_i hpos
    rw [if_neg hpos]; exact h

theorem rootLoopR_short (merger : Option H → Option H → Meta → Option H) (w n : Nat) : ∀ (ps : List Nat) (qs : List (Option H))
    (index : Nat) (hash : Option H), qs.length < ps.length → ∀ r, rootLoopR merger w n index hash ps qs ≠ .ok r
  | [], _, _, _, h, _ => by simp at h
  | _ :: _, [], _, _, _, _ => by intro h; cases h
  | p :: ps, q :: qs, index, hash, h, r => by
    intro hr
    unfold rootLoopR at hr
    cases ho : orderedSiblingsR w index hash p q with
    | error e => rw [ho] at hr; cases hr
    | ok hs =>
      rw [ho] at hr
      exact rootLoopR_short merger w n ps qs _ _ (by simpa using h) r hr

/-- **C101.** A proof with fewer hashes than peers is never accepted, in a build with words of any size. -/
theorem C101_missing_hashes_refused [DecidableEq H] (hasher : I → Meta → H) (merger : Option H → Option H → Meta → Option H)
    (w : Nat) (p : Proof I H) (hlen : p.peerHashes.length < p.peerIndices.length) (root : H) :
    p.verifyR hasher merger w root ≠ .ok true := by
  intro hv
  unfold Proof.verifyR Proof.rootHashR at hv
  by_cases hi : p.index > 0
  · rw [if_pos hi] at hv
    cases hl : rootLoopR merger w (p.peerIndices.length % 2 ^ 32) p.index
        (some (hasher p.item (Meta.newR w p.index (p.peerIndices.length % 2 ^ 32)))) p.peerIndices p.peerHashes with
    | ok r => exact rootLoopR_short merger w _ _ _ _ _ hlen r hl
    | error e =>
      simp only [hl, bind, Except.bind] at hv
      cases e <;> cases hv
  · rw [if_neg hi] at hv
    cases hv

/-- A proof whose only hash is missing. -/
example : (⟨1, 5, [2], []⟩ : Proof Nat Nat).peerHashes.length < (⟨1, 5, [2], []⟩ : Proof Nat Nat).peerIndices.length := by decide

/-- **C101.** For every proof whatsoever (indices that are words of 64 bits, fewer than 2^32 peers): if a build with
checks answers, with a root or an error, a release build gives the same answer; and so does `verify`. -/
theorem C101_release_agrees [DecidableEq H] (hasher : I → Meta → H) (merger : Option H → Option H → Meta → Option H)
    (p : Proof I H) (hindex : p.index < 2 ^ 64) (hn : p.peerIndices.length < 2 ^ 32) :
    (∀ r, p.rootHash hasher merger = r → (∀ msg, r ≠ .error (.panic msg)) → p.rootHashR hasher merger 64 = r) ∧
    (∀ root b, p.verify hasher merger root = .ok b → p.verifyR hasher merger 64 root = .ok b) := by
  have key : ∀ r, p.rootHash hasher merger = r → (∀ msg, r ≠ .error (.panic msg)) → p.rootHashR hasher merger 64 = r := by
    intro r h hr
    by_cases hi : p.index + 2 < 2 ^ 64
    · exact rootHashR_eq hasher merger (Nat.le_refl 64) p hi (.inl rfl) hn r h hr
    · unfold Proof.rootHash at h
      rw [if_pos (by omega), if_pos (by omega)] at h
      exact absurd h.symm (hr _)
  refine ⟨key, fun root b h => ?_⟩
  unfold Proof.verify at h
  unfold Proof.verifyR
  cases hr : p.rootHash hasher merger with
  | ok v => rw [hr] at h; rw [key _ hr (fun _ => nofun)]; exact h
  | error e =>
    cases e with
    | panic msg => rw [hr] at h; cases h
    | invalidIndex => rw [hr] at h; rw [key _ hr (fun _ => nofun)]; exact h
    | invalidProof => rw [hr] at h; rw [key _ hr (fun _ => nofun)]; exact h
    | mergerFailure => rw [hr] at h; rw [key _ hr (fun _ => nofun)]; exact h

/-- A proof of the third of three levels that both builds follow to the end. -/
example : ∃ root, (⟨8, 5, [7, 4, 2], [some (.leaf 1), none, none]⟩ : Proof Nat Sym).rootHash symHasher symMerger = .ok root ∧
    (⟨8, 5, [7, 4, 2], [some (.leaf 1), none, none]⟩ : Proof Nat Sym).rootHashR symHasher symMerger 64 = .ok root :=
  ⟨_, rfl, rfl⟩

theorem row_mod (w a : Nat) : a % 2 ^ w * 2 % 2 ^ w = a * 2 % 2 ^ w := by
  rw [Nat.mod_mul_mod]

theorem peer_mod (w k row : Nat) : addW w (subW w (2 ^ (k + 1) % 2 ^ w) 1) (row % 2 ^ w) = idx (k + 1) row % 2 ^ w := by
  have hp := two_pow_pos w
  have hk := two_pow_pos k
  unfold addW subW idx
  rw [← Nat.add_mod]
  by_cases h1 : w = 0
  · subst h1; simp [Nat.mod_one]
  · have h2 : 1 < 2 ^ w := Nat.one_lt_two_pow h1
    rw [Nat.mod_eq_of_lt h2, Nat.add_assoc, Nat.mod_add_mod,
      show 2 ^ (k + 1) + (2 ^ w - 1 + row) = (2 ^ (k + 1) - 1 + row) + 2 ^ w by
        have := two_pow_pos (k + 1); omega, Nat.add_mod_right]

theorem pathFoldR (w : Nat) (path : List (Bool × H)) :
    (path.map pathNode).reverse.foldlM (pathStepR w) (⟨[], [], 0, 0, false⟩ : PathState H) =
      .ok ⟨(peerIdx path.length (pathPosition path) path.length).map (· % 2 ^ w), path.map (fun s => some s.2),
        pathPosition path % 2 ^ w,
        (match path with
        | [] => 0
        | _ => idx path.length (sib (pathPosition path)) % 2 ^ w),
        match path with
        | [] => false
        | s :: _ => s.1⟩ := by
  induction path with
  | nil => simp [peerIdx, pathPosition]; rfl
  | cons s path ih =>
    simp only [List.map_cons, List.reverse_cons, List.foldlM_append, List.foldlM_cons, List.foldlM_nil]
    rw [ih]
    simp only [bind, Except.bind, pure, Except.pure]
    obtain ⟨b, v⟩ := s
    have hpos : (2 * pathPosition path + if b = true then 0 else 1) / 2 = pathPosition path := by split <;> omega
    have hp : pos (path.length + 1) (2 * pathPosition path + if b = true then 0 else 1) (path.length + 1) =
        2 * pathPosition path + if b = true then 0 else 1 := by simp [pos]
    have hadd : ∀ a, addW w (a % 2 ^ w) 1 = (a + 1) % 2 ^ w := by intro a; unfold addW; rw [Nat.mod_add_mod]
    cases b with
    | true =>
      simp only [if_true, Nat.add_zero] at hpos hp
      simp [pathStepR, pathNode, PathNode.hasLeftChild, bind, Except.bind, peerIdx_length, pathPosition,
        peerIdx, peerIdx_cons, hpos, sib, hp, hadd, peer_mod, Nat.mul_comm]
    | false =>
      simp only [Bool.false_eq_true, if_false] at hpos hp
      simp [pathStepR, pathNode, PathNode.hasLeftChild, bind, Except.bind, peerIdx_length, pathPosition,
        peerIdx, peerIdx_cons, hpos, sib, hp, hadd, peer_mod, Nat.mul_comm]

theorem subW_mod (w a : Nat) (h : 0 < a) : subW w (a % 2 ^ w) 1 = (a - 1) % 2 ^ w := by
  have hp := two_pow_pos w
  unfold subW
  by_cases h1 : w = 0
  · subst h1; simp [Nat.mod_one]
  · have h2 : 1 < 2 ^ w := Nat.one_lt_two_pow h1
    rw [Nat.mod_eq_of_lt h2, Nat.mod_add_mod, show a + (2 ^ w - 1) = (a - 1) + 2 ^ w by omega, Nat.add_mod_right]

theorem itemR (w : Nat) (b : Bool) (v : H) (path : List (Bool × H)) :
    (if b = true then subW w (idx (path.length + 1) (sib (pathPosition ((b, v) :: path))) % 2 ^ w) 1
      else addW w (idx (path.length + 1) (sib (pathPosition ((b, v) :: path))) % 2 ^ w) 1) =
    idx (path.length + 1) (pathPosition ((b, v) :: path)) % 2 ^ w := by
  have hpos := idx_pos (path.length + 1) (sib (pathPosition ((b, v) :: path))) (by omega)
  cases b with
  | true =>
    rw [if_pos rfl, subW_mod _ _ hpos]
    congr 1
    simp [sib, pathPosition, idx]
  | false =>
    simp only [Bool.false_eq_true, if_false]
    unfold addW
    rw [Nat.mod_add_mod]
    congr 1
    simp [sib, pathPosition, idx]; omega

/-- **C101.** In a release build with words of `w` bits a path of any length converts to a proof whose indices are the
true ones modulo 2^w, or the conversion panics if the index of the item is 0 modulo 2^w. -/
theorem C101_release_indices (w : Nat) (path : List (Bool × H)) (item : I) (hne : path ≠ []) :
    let index := (2 ^ path.length - 1 + pathPosition path) % 2 ^ w
    (0 < index → ∃ p, pathToProofR w (path.map pathNode) item = .ok p ∧ p.item = item ∧ p.index = index ∧
      p.peerHashes = path.map (fun s => some s.2)) ∧
    (index = 0 → pathToProofR w (path.map pathNode) item =
      .error (.panic "index of a data node should always to positive")) := by
  intro index
  have hidx : index = idx path.length (pathPosition path) % 2 ^ w := rfl
  match path, hne with
  | (b, v) :: path, _ =>
    have hlen : ((b, v) :: path).length = path.length + 1 := rfl
    have hconv : pathToProofR w (((b, v) :: path).map pathNode) item =
        match Proof.new (idx (path.length + 1) (pathPosition ((b, v) :: path)) % 2 ^ w) item
          ((peerIdx (path.length + 1) (pathPosition ((b, v) :: path)) (path.length + 1)).map (· % 2 ^ w))
          (((b, v) :: path).map (fun s => some s.2)) with
        | .ok p => .ok p
        | .error e => .error (.panic e.msg) := by
      unfold pathToProofR
      rw [pathFoldR w]
      simp only [bind, Except.bind, List.length_cons]
      rw [itemR]
      cases Proof.new (idx (path.length + 1) (pathPosition ((b, v) :: path)) % 2 ^ w) item
        ((peerIdx (path.length + 1) (pathPosition ((b, v) :: path)) (path.length + 1)).map (· % 2 ^ w))
        (((b, v) :: path).map (fun s => some s.2)) <;> rfl
    rw [hconv, hidx, hlen]
    constructor
    · intro hpos
      unfold Proof.new
      rw [if_neg (by omega), if_neg (by simp [peerIdx_length]), if_neg (by simp [peerIdx])]
      exact ⟨_, rfl, rfl, rfl, rfl⟩
    · intro h0
      unfold Proof.new
      rw [if_pos (by omega)]

example : (2 ^ [(true, Sym.leaf 1), (false, Sym.leaf 2)].length - 1 + pathPosition [(true, Sym.leaf 1), (false, Sym.leaf 2)]) % 2 ^ 32 = 5 := by
  decide

/-- Where the path is shorter than a word nothing wraps. -/
theorem pathToProofR_eq (w : Nat) (hw : w ≤ 64) (path : List (Bool × H)) (item : I) (hne : path ≠ []) (hl : path.length < w) :
    pathToProofR w (path.map pathNode) item = pathToProof (path.map pathNode) item := by
  rw [pathToProof_ok path item hne (by omega)]
  have hmod : ∀ k j, k < w → j < 2 ^ k → idx k j % 2 ^ w = idx k j := by
    intro k j hk hj
    apply Nat.mod_eq_of_lt
    have h1 : 2 ^ (k + 1) ≤ 2 ^ w := Nat.pow_le_pow_right (by omega) hk
    have h2 := two_pow_pos k
    rw [Nat.pow_succ] at h1
    unfold idx; omega
  match path, hne with
  | (b, v) :: path, _ =>
    unfold pathToProofR
    rw [pathFoldR w]
    simp only [bind, Except.bind, List.length_cons] at hl ⊢
    rw [itemR]
    have hP := pathPosition_lt ((b, v) :: path)
    rw [List.length_cons] at hP
    rw [hmod _ _ hl hP]
    have hpeers : (peerIdx (path.length + 1) (pathPosition ((b, v) :: path)) (path.length + 1)).map (· % 2 ^ w) =
        peerIdx (path.length + 1) (pathPosition ((b, v) :: path)) (path.length + 1) := by
      generalize pathPosition ((b, v) :: path) = q at hP ⊢
      generalize hn : path.length + 1 = n at hP hl ⊢
      have : ∀ dd, dd ≤ n → (peerIdx n q dd).map (· % 2 ^ w) = peerIdx n q dd := by
        intro dd
        induction dd with
        | zero => intro _; rfl
        | succ dd ih =>
          intro hd
          rw [peerIdx, List.map_cons, ih (by omega)]
          congr 1
          apply hmod _ _ (by omega)
          have hq : pos n q (dd + 1) < 2 ^ (dd + 1) := by
            unfold pos
            rw [Nat.div_lt_iff_lt_mul (two_pow_pos _), ← Nat.pow_add, show dd + 1 + (n - (dd + 1)) = n by omega]
            exact hP
          have h2 : 2 ^ (dd + 1) % 2 = 0 := by rw [Nat.pow_succ]; omega
          unfold sib
          split <;> omega
      exact this n (Nat.le_refl _)
    rw [hpeers]
    unfold Proof.new
    have := idx_pos (path.length + 1) (pathPosition ((b, v) :: path)) (by omega)
    rw [if_neg (by omega), if_neg (by simp [peerIdx_length]), if_neg (by simp [peerIdx])]

/-- **C101.** So on the web, in a release build, paths of up to 31 nodes convert as they do elsewhere, to a proof whose
root is the fold of the path.  Missing: longer paths, see below, and the positions from 2^28 - 1 on of C28. -/
theorem C101_web_root_partial (hasher : I → Meta → H) (merger : Option H → Option H → Meta → Option H)
    (path : List (Bool × H)) (item : I) (hne : path ≠ []) (h31 : path.length ≤ 31) (hpos : pathPosition path + 1 < 2 ^ 28) :
    ∃ p, pathToProofR 32 (path.map pathNode) item = .ok p ∧ pathToProof (path.map pathNode) item = .ok p ∧
      p.rootHashR hasher merger 32 =
        match foldPath merger path.length 0 (some (hasher item ⟨path.length, 0⟩)) path with
        | some root => .ok root
        | none => .error .mergerFailure := by
  obtain ⟨p, h1, h2, h3, h4⟩ := C28_path_root_partial hasher merger path item hne (by omega) hpos
  refine ⟨p, by rw [pathToProofR_eq 32 (by omega) path item hne (by omega)]; exact h1, h1, ?_⟩
  have hp := pathToProof_ok path item hne (by omega)
  rw [hp] at h1
  have h1 := (Except.ok.inj h1).symm
  have hpow : 2 ^ path.length ≤ 2 ^ 31 := Nat.pow_le_pow_right (by omega) h31
  apply rootHashR_eq hasher merger (by omega) p (by rw [h3]; omega) (.inr ?_) (by rw [h1]; simp only [peerIdx_length]; omega) _ h4
  · intro msg
    split <;> nofun
  · rw [h1]
    simp only
    intro x hx
    have hP := pathPosition_lt path
    have : ∀ dd, dd ≤ path.length → ∀ x ∈ peerIdx path.length (pathPosition path) dd, x + 1 < 2 ^ 32 := by
      intro dd
      induction dd with
      | zero => intro _ x hx; cases hx
      | succ dd ih =>
        intro hd x hx
        rw [peerIdx] at hx
        rcases List.mem_cons.mp hx with rfl | hx
        · have h5 : 2 ^ (dd + 1) ≤ 2 ^ 31 := Nat.pow_le_pow_right (by omega) (by omega)
          have h6 : pos path.length (pathPosition path) (dd + 1) ≤ pathPosition path := Nat.div_le_self _ _
          unfold idx sib
          split <;> omega
        · exact ih (by omega) x hx
    exact this _ (Nat.le_refl _) x hx

example : pathPosition [(true, Sym.leaf 1), (false, Sym.leaf 2), (true, Sym.leaf 3)] + 1 < 2 ^ 28 := by decide

theorem pathPosition_left (path : List (Bool × H)) (h : ∀ x ∈ path, x.1 = true) : pathPosition path = 0 := by
  induction path with
  | nil => rfl
  | cons x path ih =>
    obtain ⟨b, v⟩ := x
    have hb : b = true := h _ List.mem_cons_self
    rw [pathPosition, ih fun y hy => h y (List.mem_cons_of_mem _ hy), hb]; rfl

theorem pow_mod_32 {n : Nat} (h : 32 ≤ n) : 2 ^ n % 2 ^ 32 = 0 := by
  obtain ⟨k, rfl⟩ : ∃ k, n = 32 + k := ⟨n - 32, by omega⟩
  rw [Nat.pow_add, Nat.mul_mod_right]

/-- **C101** fails on the web for paths of 32 nodes and more (ledgers of mainnet have 35 levels): the second account of
the ledger makes the conversion panic. -/
theorem C101_second_account_fails (s : H) (path : List (Bool × H)) (item : I) (hleft : ∀ x ∈ path, x.1 = true)
    (hlen : 31 ≤ path.length) :
    pathToProofR 32 (((false, s) :: path).map pathNode) item =
      .error (.panic "index of a data node should always to positive") := by
  refine (C101_release_indices 32 ((false, s) :: path) item (by simp)).2 ?_
  have hp := two_pow_pos (path.length + 1)
  rw [List.length_cons, pathPosition, pathPosition_left path hleft]
  simp only [Bool.false_eq_true, if_false]
  rw [show 2 ^ (path.length + 1) - 1 + (2 * 0 + 1) = 2 ^ (path.length + 1) by omega]
  exact pow_mod_32 (by omega)

theorem siblings_wrap (a b : Option H) : orderedSiblingsR 32 (2 ^ 32 - 1) a 0 b = .ok (a, b) := by
  unfold orderedSiblingsR
  rw [if_pos (by decide)]

theorem siblings_refused (a b : Option H) :
    orderedSiblingsR 32 (parentIndexR 32 (2 ^ 32 - 1)) a 0 b = .error .invalidProof := by
  unfold orderedSiblingsR
  rw [if_neg (by decide), if_neg (by decide)]

theorem path_left (w m : Nat) (v v' : H) (path : List (Bool × H)) (item : I)
    (hP : pathPosition ((true, v) :: (true, v') :: path) = 0)
    (h1 : idx (path.length + 2) 0 % 2 ^ w = m) (h2 : idx (path.length + 2) 1 % 2 ^ w = 0)
    (h3 : idx (path.length + 1) 1 % 2 ^ w = 0) (hm : 0 < m) :
    pathToProofR w (((true, v) :: (true, v') :: path).map pathNode) item =
      .ok ⟨m, item, 0 :: 0 :: (peerIdx (path.length + 2) 0 path.length).map (· % 2 ^ w),
        some v :: some v' :: path.map (fun s => some s.2)⟩ := by
  have hpz : ∀ dd, pos (path.length + 2) 0 dd = 0 := by intro dd; unfold pos; simp
  unfold pathToProofR
  rw [pathFoldR w]
  have hit := itemR w true v ((true, v') :: path)
  simp only [bind, Except.bind, List.length_cons] at hit ⊢
  rw [hit, hP]
  simp only [peerIdx, hpz, List.map_cons]
  rw [show sib 0 = 1 from rfl, h1, h2, h3]
  unfold Proof.new
  rw [if_neg (by omega), if_neg (by simp [peerIdx_length]), if_neg (by simp)]

theorem loop_refused (merger : Option H → Option H → Meta → Option H) (w n m : Nat) (hash v v' : Option H)
    (ps : List Nat) (qs : List (Option H))
    (h1 : ∀ a b : Option H, orderedSiblingsR w m a 0 b = .ok (a, b))
    (h2 : ∀ a b : Option H, orderedSiblingsR w (parentIndexR w m) a 0 b = .error .invalidProof) :
    rootLoopR merger w n m hash (0 :: 0 :: ps) (v :: v' :: qs) = .error .invalidProof := by
  unfold rootLoopR
  rw [h1]
  simp only [bind, Except.bind]
  unfold rootLoopR
  rw [h2]
  rfl

theorem refused (hasher : I → Meta → H) (merger : Option H → Option H → Meta → Option H) (w : Nat) (p : Proof I H)
    (v v' : Option H) (ps : List Nat) (qs : List (Option H)) (h0 : p.index > 0)
    (hp : p.peerIndices = 0 :: 0 :: ps) (hq : p.peerHashes = v :: v' :: qs)
    (h1 : ∀ a b : Option H, orderedSiblingsR w p.index a 0 b = .ok (a, b))
    (h2 : ∀ a b : Option H, orderedSiblingsR w (parentIndexR w p.index) a 0 b = .error .invalidProof) :
    p.rootHashR hasher merger w = .error .invalidProof := by
  unfold Proof.rootHashR
  rw [if_pos h0]
  generalize p.peerIndices.length % 2 ^ 32 = n
  rw [hp, hq]
  simp only [loop_refused merger w n p.index _ v v' ps qs h1 h2]
  rfl

/-- ... and the first account of a ledger of 33 levels or more gets a proof that is refused as malformed, whatever the
root, although a build with words of 64 bits and checks takes it (C28). -/
theorem C101_first_account_fails [DecidableEq H] (hasher : I → Meta → H) (merger : Option H → Option H → Meta → Option H)
    (path : List (Bool × H)) (item : I) (hleft : ∀ x ∈ path, x.1 = true) (hlen : 33 ≤ path.length) :
    ∃ p, pathToProofR 32 (path.map pathNode) item = .ok p ∧ p.rootHashR hasher merger 32 = .error .invalidProof ∧
      ∀ root, p.verifyR hasher merger 32 root = .ok false := by
  match path, hlen with
  | (b, v) :: (b', v') :: path, hlen =>
    have hb : b = true := hleft _ List.mem_cons_self
    have hb' : b' = true := hleft _ (List.mem_cons_of_mem _ List.mem_cons_self)
    subst hb hb'
    simp only [List.length_cons] at hlen
    have hP : pathPosition ((true, v) :: (true, v') :: path) = 0 := pathPosition_left _ hleft
    have hne : ((true, v) :: (true, v') :: path) ≠ [] := by simp
    obtain ⟨m, hm⟩ : ∃ m, m = 2 ^ 32 - 1 := ⟨_, rfl⟩
    have h1 : idx (path.length + 2) 0 % 2 ^ 32 = m := by
      have := pow_mod_32 (n := path.length + 2) (by omega)
      have := two_pow_pos (path.length + 2)
      unfold idx; omega
    have h2 : idx (path.length + 2) 1 % 2 ^ 32 = 0 := by
      have := pow_mod_32 (n := path.length + 2) (by omega)
      have := two_pow_pos (path.length + 2)
      unfold idx; omega
    have h3 : idx (path.length + 1) 1 % 2 ^ 32 = 0 := by
      have := pow_mod_32 (n := path.length + 1) (by omega)
      have := two_pow_pos (path.length + 1)
      unfold idx; omega
    have hconv := path_left 32 m v v' path item hP h1 h2 h3 (by omega)
    refine ⟨_, hconv, ?_⟩
    have key := refused hasher merger 32 (⟨m, item, 0 :: 0 :: (peerIdx (path.length + 2) 0 path.length).map (· % 2 ^ 32),
      some v :: some v' :: path.map (fun s => some s.2)⟩ : Proof I H) (some v) (some v') _ _ (show m > 0 by omega) rfl rfl
      (by subst hm; exact siblings_wrap) (by subst hm; exact siblings_refused)
    exact ⟨key, fun root => by unfold Proof.verifyR; rw [key]⟩

example : (∀ x ∈ List.replicate 35 (true, Sym.leaf 1), x.1 = true) ∧ 33 ≤ (List.replicate 35 (true, Sym.leaf 1)).length := by
  constructor
  · intro x hx; rw [List.eq_of_mem_replicate hx]
  · simp

end MinaRs.Merkle
