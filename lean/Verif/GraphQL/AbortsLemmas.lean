import Verif.GraphQL.AbortsSpec
import Verif.Json.AbortsLemmas

/-! Lemmas for C119. -/

namespace MinaRs.Merkle

open Spec

variable {I H : Type}

theorem node_cases (n : PathNode H) : (∃ s : Bool × H, n = pathNode s ∧ n.hasLeftChild = .ok s.1) ∨
    ((∀ s : Bool × H, n ≠ pathNode s) ∧ (n.hasLeftChild = .error .twoHashes ∨ n.hasLeftChild = .error .noHashes)) := by
  rcases n with ⟨_ | a, _ | b⟩
  · exact .inr ⟨fun s => by obtain ⟨_ | _, _⟩ := s <;> simp [pathNode], .inr rfl⟩
  · exact .inl ⟨(false, b), rfl, rfl⟩
  · exact .inl ⟨(true, a), rfl, rfl⟩
  · exact .inr ⟨fun s => by obtain ⟨_ | _, _⟩ := s <;> simp [pathNode], .inl rfl⟩

theorem pathFold_panic_iff (l : List (PathNode H)) : ∀ s : PathState H, s.peerIndices.length < 64 →
    ((∃ m, l.foldlM pathStep s = .error (.panic m)) ↔
      ∃ (steps : List (Bool × H)) (after : List (PathNode H)), l = steps.map pathNode ++ after ∧
        s.peerIndices.length + steps.length = 64) := by
  induction l with
  | nil =>
    intro s hs
    constructor
    · rintro ⟨m, h⟩; cases h
    · rintro ⟨steps, after, h, hl⟩
      obtain ⟨h1, -⟩ := List.append_eq_nil_iff.mp h.symm
      have : steps.length = 0 := by simpa using congrArg List.length h1
      omega
  | cons n l ih =>
    intro s hs
    rw [List.foldlM_cons]
    rcases node_cases n with ⟨st, hn, hc⟩ | ⟨hn, hc⟩
    · by_cases hk : s.peerIndices.length + 1 ≥ 64
      · have : pathStep s n = .error (.panic "attempt to multiply with overflow") := by
          simp only [pathStep, hc, bind, Except.bind]
          rw [if_pos hk]
        rw [this]
        constructor
        · intro _
          exact ⟨[st], l, by rw [hn]; rfl, by simp only [List.length_singleton]; omega⟩
        · intro _; exact ⟨_, rfl⟩
      · obtain ⟨t, ht, hl⟩ : ∃ t, pathStep s n = .ok t ∧ t.peerIndices.length = s.peerIndices.length + 1 := by
          simp only [pathStep, hc, bind, Except.bind]
          rw [if_neg hk]
          exact ⟨_, rfl, rfl⟩
        rw [ht]
        show (∃ m, l.foldlM pathStep t = .error (.panic m)) ↔ _
        rw [ih t (by omega)]
        constructor
        · rintro ⟨steps, after, rfl, h2⟩
          exact ⟨st :: steps, after, by rw [hn]; rfl, by simp only [List.length_cons]; omega⟩
        · rintro ⟨steps, after, h1, h2⟩
          cases steps with
          | nil => simp only [List.length_nil] at h2; omega
          | cons a steps =>
            simp only [List.map_cons, List.cons_append, List.cons.injEq] at h1
            exact ⟨steps, after, h1.2, by simp only [List.length_cons] at h2; omega⟩
    · constructor
      · rintro ⟨m, h⟩
        rcases hc with hc | hc <;> simp only [pathStep, hc, bind, Except.bind] at h <;> cases h
      · rintro ⟨steps, after, h1, h2⟩
        cases steps with
        | nil => simp only [List.length_nil] at h2; omega
        | cons a steps =>
          simp only [List.map_cons, List.cons_append, List.cons.injEq] at h1
          exact absurd h1.1 (hn a)

/-- The conversion of a path panics exactly if there is no node or the last 64 ones have one hash each. -/
theorem pathToProof_panic_iff (path : List (PathNode H)) (item : I) :
    (∃ m, pathToProof path item = .error (.panic m)) ↔
      path = [] ∨ ∃ (before : List (PathNode H)) (steps : List (Bool × H)), path = before ++ steps.map pathNode ∧ steps.length = 64 := by
  have hf := pathFold_panic_iff path.reverse (⟨[], [], 0, 0, false⟩ : PathState H) (by simp)
  have hrev : (∃ (steps : List (Bool × H)) (after : List (PathNode H)), path.reverse = steps.map pathNode ++ after ∧
      ([] : List Nat).length + steps.length = 64) ↔
      ∃ (before : List (PathNode H)) (steps : List (Bool × H)), path = before ++ steps.map pathNode ∧ steps.length = 64 := by
    constructor
    · rintro ⟨steps, after, h1, h2⟩
      refine ⟨after.reverse, steps.reverse, ?_, by simpa using h2⟩
      have := congrArg List.reverse h1
      simpa using this
    · rintro ⟨before, steps, rfl, h2⟩
      exact ⟨steps.reverse, before.reverse, by simp, by simpa using h2⟩
  rw [← hrev, ← hf]
  constructor
  · rintro ⟨m, h⟩
    by_cases he : path = []
    · exact .inl he
    refine .inr ?_
    cases hx : path.reverse.foldlM pathStep (⟨[], [], 0, 0, false⟩ : PathState H) with
    | error e =>
      unfold pathToProof at h
      rw [hx] at h
      cases h
      exact ⟨m, rfl⟩
    | ok s =>
      have hlen : path.length < 64 := by
        obtain ⟨h1, h2⟩ := pathFold_length _ _ _ hx
        have := h2 (by simpa using he)
        rw [h1] at this
        simpa using this
      by_cases hb : ∃ n ∈ path, n.left.isSome = n.right.isSome
      · rcases (C28_bad_node_refused path item hb).2 hlen with h' | h' <;> rw [h'] at h <;> cases h
      · obtain ⟨pr, hpr⟩ := (C28_converts_iff path item).mpr ⟨he, hlen, good_nodes path hb⟩
        rw [hpr] at h
        cases h
  · rintro (rfl | ⟨m, h⟩)
    · exact ⟨_, rfl⟩
    · refine ⟨m, ?_⟩
      unfold pathToProof
      rw [h]
      rfl

end MinaRs.Merkle

namespace MinaRs.GraphQL

open Json (J JErr Env)
open Text (Text)
open Hash Spec

/-- A value or an error. -/
def Calm {α : Type} (x : R α) : Prop := ∀ e, x = .error e → e = .err

theorem calm_ok {α : Type} (a : α) : Calm (.ok a : R α) := fun _ h => by cases h

theorem calm_err {α : Type} : Calm (.error .err : R α) := fun _ h => by cases h; rfl

theorem calm_bind {α β : Type} {x : R α} {f : α → R β} (hx : Calm x) (hf : ∀ a, Calm (f a)) : Calm (x >>= f) := by
  intro e h
  cases x with
  | error e' => cases h; exact hx _ rfl
  | ok a => exact hf a e h

theorem calm_u32 (s : Text) : Calm (u32 s) := by
  unfold u32; split
  · exact calm_ok _
  · exact calm_err

theorem calm_u64 (s : Text) : Calm (u64 s) := by
  unfold u64; split
  · exact calm_ok _
  · exact calm_err

theorem calm_auth (s : Text) : Calm (auth s) := by
  unfold auth
  repeat' split
  all_goals first | exact calm_ok _ | exact calm_err

theorem calm_pubKey (E : Env) (s : Text) : Calm (pubKey E s) := by
  unfold pubKey; split
  · exact calm_ok _
  · exact calm_err

theorem calm_delegate (E : Env) (j : J) : Calm (delegate E j) := by
  unfold delegate; split
  · rename_i s
    have := calm_pubKey E s.toList
    split
    · exact calm_ok _
    · rename_i e h
      intro e' he
      cases he
      exact this e h
  · exact calm_ok _

theorem calm_bodyReference (s : Text) : Calm (bodyReference s) := by
  unfold bodyReference; split
  · split
    · exact calm_ok _
    · exact calm_err
  · exact calm_err

theorem calm_vrf (E : Env) (s : Text) : Calm (vrf E s) := by
  have hd : vrf E s = match Codec.decodeCheck E.chk 0x15 s with
      | .error _ => .error .err
      | .ok bs => .ok (bs.drop 2) := by
    unfold vrf
    simp only [Json.Leaf.deText]
    cases Codec.decodeCheck E.chk 0x15 s <;> rfl
  rw [hd]
  split
  · exact calm_err
  · exact calm_ok _

theorem calm_hash (E : Env) (ver : UInt8) (hE : (E.chk []).head? ≠ some ver) (s : Text) : Calm (hash E ver s) := by
  have hd : ∀ s, (Json.Leaf.base58Bin ver Json.hashV1).deText E s = match Codec.decodeCheck E.chk ver s with
      | .error _ => .error .err
      | .ok bs => Json.strictAfterVersion Json.hashV1 bs := fun _ => rfl
  intro e h
  unfold hash at h
  rw [hd] at h
  cases hc : Codec.decodeCheck E.chk ver s with
  | error _ => rw [hc] at h; cases h; rfl
  | ok bs =>
    rw [hc] at h
    dsimp only at h
    cases hr : Json.strictAfterVersion Json.hashV1 bs with
    | ok w => rw [hr] at h; cases h
    | error e' =>
      rw [hr] at h
      cases h
      rcases Json.strict_ne hr with h | ⟨-, rfl⟩
      · exact h
      · exact absurd (Json.decodeCheck_nil hc).1 hE

theorem calm_byteHash (E : Env) (ver : UInt8) (hE : (E.chk []).head? ≠ some ver) (s : Text) : Calm (byteHash E ver s) := by
  have hd : byteHash E ver s = match Codec.decodeCheck E.chk ver s with
      | .error _ => .error .err
      | .ok [] => .error .panic
      | .ok (_ :: bs) => .ok bs := by
    unfold byteHash
    simp only [Json.Leaf.deText]
    cases Codec.decodeCheck E.chk ver s with
    | error e => rfl
    | ok o => cases o <;> rfl
  rw [hd]
  split
  · exact calm_err
  · rename_i hc
    exact absurd (Json.decodeCheck_nil hc).1 hE
  · exact calm_ok _

theorem calm_hashValue {α : Type} {f : Text → R α} (hf : ∀ s, Calm (f s)) (j : J) : Calm (hashValue f j) := by
  unfold hashValue; split
  · exact hf _
  · exact calm_err

theorem calm_timing (j : J) : Calm (timing j) := by
  unfold timing; split <;> exact calm_ok _

theorem calm_permissions (j : J) : Calm (permissions j) := by
  unfold permissions
  repeat' first | exact calm_ok _ | exact calm_auth _ | (refine calm_bind ?_ fun _ => ?_)

theorem fp_panic_iff (j : J) : FpJson.deserialize j = .error .panic ↔ BigHash j := by
  cases j with
  | str t =>
    simp only [FpJson.deserialize]
    cases hb : bigUint t.toList with
    | none =>
      constructor
      · intro h; cases h
      · rintro ⟨_, n, h, hd, -⟩
        cases h
        rw [(bigUint_iff _ _).mpr hd] at hb
        cases hb
    | some n =>
      have hn := (bigUint_iff _ _).mp hb
      dsimp only
      constructor
      · intro h
        split at h
        · split at h
          · cases h
          · exact ⟨t, n, rfl, hn, by omega, by assumption⟩
        · cases h
      · rintro ⟨_, m, h, hd, h1, h2⟩
        cases h
        rw [(bigUint_iff _ _).mpr hd] at hb
        cases hb
        rw [if_pos h2, dif_neg (by omega)]
  | _ =>
    constructor
    · intro h; cases h
    · rintro ⟨_, _, h, -⟩; cases h

theorem fp_error (j : J) (e : JErr) (h : FpJson.deserialize j = .error e) : e = .err ∨ e = .panic := by
  unfold FpJson.deserialize at h
  repeat' split at h
  all_goals cases h
  all_goals first | exact .inl rfl | exact .inr rfl

theorem optFp_eq (j : J) (hj : j ≠ .null) : optFp j = match FpJson.deserialize j with
    | .ok f => .ok (some f)
    | .error e => .error e := by
  unfold optFp
  split
  · exact absurd rfl hj
  · cases FpJson.deserialize j <;> rfl

theorem optFp_panic_iff (j : J) : optFp j = .error .panic ↔ BigHash j := by
  by_cases hj : j = .null
  · subst hj
    constructor
    · intro h; cases h
    · rintro ⟨_, _, h, -⟩; cases h
  · rw [← fp_panic_iff, optFp_eq j hj]
    cases FpJson.deserialize j with
    | ok f => constructor <;> intro h <;> cases h
    | error e => simp

theorem optFp_error (j : J) (e : JErr) (h : optFp j = .error e) : e = .err ∨ e = .panic := by
  by_cases hj : j = .null
  · subst hj; cases h
  · rw [optFp_eq j hj] at h
    cases hd : FpJson.deserialize j with
    | ok f => rw [hd] at h; cases h
    | error e' => rw [hd] at h; cases h; exact fp_error j e hd

theorem two_panic_iff (a b : J) :
    (do
      let l ← optFp a
      let r ← optFp b
      .ok ⟨l, r⟩ : R (Merkle.PathNode Fp)) = .error .panic ↔ BigHash a ∨ (∃ o, ReadsOptional a o) ∧ BigHash b := by
  rw [← optFp_panic_iff, ← optFp_panic_iff]
  cases ha : optFp a with
  | error e =>
    have : ¬ ∃ o, ReadsOptional a o := by
      rintro ⟨o, ho⟩
      rw [(optFp_iff a o).mpr ho] at ha
      cases ha
    simp [bind, Except.bind, this]
  | ok o =>
    have : ∃ o, ReadsOptional a o := ⟨o, (optFp_iff a o).mp ha⟩
    cases optFp b <;> simp [bind, Except.bind, this]

theorem two_error (a b : J) (e : JErr) (h :
    (do
      let l ← optFp a
      let r ← optFp b
      .ok ⟨l, r⟩ : R (Merkle.PathNode Fp)) = .error e) : e = .err ∨ e = .panic := by
  cases ha : optFp a with
  | error e' => rw [ha] at h; cases h; exact optFp_error a e ha
  | ok o =>
    rw [ha] at h
    cases hb : optFp b with
    | error e' => simp only [hb, bind, Except.bind] at h; cases h; exact optFp_error b e hb
    | ok o' => simp only [hb, bind, Except.bind] at h; cases h

theorem node_panic_iff (j : J) : pathNodeOf j = .error .panic ↔ NodeAborts j := by
  unfold NodeAborts Sides
  unfold pathNodeOf
  split
  · rename_i es
    rw [two_panic_iff]
    constructor
    · intro h; exact ⟨_, _, .inl ⟨es, rfl, rfl, rfl⟩, h⟩
    · rintro ⟨l, r, ⟨_, -, rfl, rfl⟩ | h, h'⟩
      · exact h'
      · cases h
  · rw [two_panic_iff]
    constructor
    · intro h; exact ⟨_, _, .inr rfl, h⟩
    · rintro ⟨l, r, ⟨_, h, -⟩ | h, h'⟩
      · cases h
      · cases h; exact h'
  · rename_i h1 h2
    constructor
    · intro h; cases h
    · rintro ⟨l, r, ⟨es, rfl, -⟩ | rfl, -⟩
      · exact absurd rfl (h1 es)
      · exact absurd rfl (h2 l r)

theorem node_error (j : J) (e : JErr) (h : pathNodeOf j = .error e) : e = .err ∨ e = .panic := by
  unfold pathNodeOf at h
  split at h
  · exact two_error _ _ e h
  · exact two_error _ _ e h
  · cases h; exact .inl rfl

theorem allOf_panic_iff {α β : Type} (f : α → R β) (as : List α) : allOf f as = .error .panic ↔
    ∃ before a after bs, as = before ++ a :: after ∧ allOf f before = .ok bs ∧ f a = .error .panic := by
  induction as with
  | nil =>
    constructor
    · intro h; cases h
    · rintro ⟨b, a, c, -, h, -⟩
      cases b <;> cases h
  | cons a as ih =>
    simp only [allOf, bind, Except.bind]
    cases ha : f a with
    | error e =>
      constructor
      · intro h
        cases h
        exact ⟨[], a, as, [], rfl, rfl, ha⟩
      · rintro ⟨b, a', c, bs, h, hb, hp⟩
        cases b with
        | nil => cases h; rw [ha] at hp; cases hp; rfl
        | cons x b =>
          cases h
          simp only [allOf, ha, bind, Except.bind] at hb
          cases hb
    | ok v =>
      dsimp only
      constructor
      · intro h
        split at h
        · rename_i e he
          cases h
          obtain ⟨b, a', c, bs, rfl, hb, hp⟩ := ih.mp he
          exact ⟨a :: b, a', c, v :: bs, rfl, by simp only [allOf, ha, hb, bind, Except.bind], hp⟩
        · cases h
      · rintro ⟨b, a', c, bs, h, hb, hp⟩
        cases b with
        | nil => cases h; rw [ha] at hp; cases hp
        | cons x b =>
          cases h
          simp only [allOf, ha, bind, Except.bind] at hb
          split at hb
          · cases hb
          · rename_i bs' hbs
            rw [ih.mpr ⟨b, a', c, bs', rfl, hbs, hp⟩]

theorem allOf_error {α β : Type} {f : α → R β} (hf : ∀ a e, f a = .error e → e = .err ∨ e = .panic) (as : List α) (e : JErr)
    (h : allOf f as = .error e) : e = .err ∨ e = .panic := by
  induction as with
  | nil => cases h
  | cons a as ih =>
    simp only [allOf, bind, Except.bind] at h
    split at h
    · rename_i e' he; cases h; exact hf a e he
    · split at h
      · rename_i e' he; cases h; exact ih he
      · cases h

theorem path_panic_iff (j : J) : pathOf j = .error .panic ↔ ∃ before node after path, j = .arr (before ++ node :: after) ∧
    Pointwise ReadsNode before path ∧ NodeAborts node := by
  unfold pathOf
  split
  · rename_i js
    rw [allOf_panic_iff]
    constructor
    · rintro ⟨b, a, c, bs, rfl, hb, hp⟩
      exact ⟨b, a, c, bs, rfl, (allOf_iff _ _ pathNodeOf_iff _ _).mp hb, (node_panic_iff a).mp hp⟩
    · rintro ⟨b, a, c, bs, h, hb, hp⟩
      cases h
      exact ⟨b, a, c, bs, rfl, (allOf_iff _ _ pathNodeOf_iff _ _).mpr hb, (node_panic_iff a).mpr hp⟩
  · rename_i h
    constructor
    · intro h; cases h
    · rintro ⟨b, a, c, bs, rfl, -⟩
      exact absurd rfl (h _)

theorem path_error (j : J) (e : JErr) (h : pathOf j = .error e) : e = .err ∨ e = .panic := by
  unfold pathOf at h
  split at h
  · exact allOf_error node_error _ e h
  · cases h; exact .inl rfl

theorem leaf_panic_iff (j : J) : fpFromRadix10 (str j) = .error .panic ↔ BigLeaf j := by
  have key : ∀ s, fpFromRadix10 s = .error .panic ↔ ∃ n, Denotes s n ∧ p ≤ n := by
    intro s
    unfold fpFromRadix10
    cases hb : bigUint s with
    | none =>
      constructor
      · intro h; cases h
      · rintro ⟨n, hd, -⟩
        rw [(bigUint_iff _ _).mpr hd] at hb
        cases hb
    | some n =>
      have hn := (bigUint_iff _ _).mp hb
      dsimp only
      constructor
      · intro h
        split at h
        · cases h
        · exact ⟨n, hn, by omega⟩
      · rintro ⟨m, hd, h⟩
        rw [(bigUint_iff _ _).mpr hd] at hb
        cases hb
        rw [dif_neg (by omega)]
  rw [key]
  cases j with
  | str t =>
    constructor
    · rintro ⟨n, h⟩; exact ⟨t, n, rfl, h⟩
    · rintro ⟨_, n, h, h'⟩; cases h; exact ⟨n, h'⟩
  | _ =>
    constructor
    · rintro ⟨n, ⟨c, cs, h | h, -⟩, -⟩ <;> cases h
    · rintro ⟨_, _, h, -⟩; cases h

theorem leaf_error (s : Text) (e : JErr) (h : fpFromRadix10 s = .error e) : e = .err ∨ e = .panic := by
  unfold fpFromRadix10 at h
  repeat' split at h
  all_goals cases h
  all_goals first | exact .inl rfl | exact .inr rfl

theorem proofOf_panic_iff (path : List (Merkle.PathNode Fp)) (leaf : Fp) : proofOf path leaf = .error .panic ↔
    path = [] ∨ ∃ (before : List (Merkle.PathNode Fp)) (steps : List (Bool × Fp)), path = before ++ steps.map Merkle.Spec.pathNode ∧ steps.length = 64 := by
  rw [← Merkle.pathToProof_panic_iff path leaf]
  unfold proofOf
  split
  · rename_i h; rw [h]; simp
  · rename_i h; rw [h]; simp
  · rename_i hn h
    constructor
    · intro h'; cases h'
    · rintro ⟨m, hm⟩
      rw [hm] at h
      cases h
      exact (hn m rfl).elim

theorem proofOf_error (path : List (Merkle.PathNode Fp)) (leaf : Fp) (e : JErr) (h : proofOf path leaf = .error e) :
    e = .err ∨ e = .panic := by
  unfold proofOf at h
  split at h
  all_goals cases h
  · exact .inr rfl
  · exact .inl rfl

theorem entry_panic_iff (j : J) : ledgerEntry j = .error .panic ↔ EntryAborts j := by
  simp only [ledgerEntry, bind, Except.bind]
  constructor
  · intro h
    split at h
    · rename_i e he
      cases h
      obtain ⟨b, a, c, path, h1, h2, h3⟩ := (path_panic_iff _).mp he
      exact .node h1 h2 h3
    · rename_i path hp
      have hr := (C76_path_accepted_iff _ _).mp hp
      split at h
      · rename_i e he
        cases h
        exact .leaf hr ((leaf_panic_iff _).mp he)
      · rename_i leaf hl
        have hf := (leaf_iff _ _).mp hl
        rcases (proofOf_panic_iff path leaf).mp h with rfl | ⟨b, steps, rfl, hs⟩
        · obtain ⟨js, hj, hw⟩ := hr
          cases hw
          exact .empty hj hf
        · exact .long hr hs hf
  · intro h
    cases h with
    | node h1 h2 h3 => rw [(path_panic_iff _).mpr ⟨_, _, _, _, h1, h2, h3⟩]
    | leaf h1 h2 =>
      rw [(C76_path_accepted_iff _ _).mpr h1]
      simp only [(leaf_panic_iff _).mpr h2]
    | empty h1 h2 =>
      rw [(C76_path_accepted_iff _ []).mpr ⟨[], h1, .nil⟩]
      simp only [(leaf_iff _ _).mpr h2]
      exact (proofOf_panic_iff _ _).mpr (.inl rfl)
    | long h1 h2 h3 =>
      rw [(C76_path_accepted_iff _ _).mpr h1]
      simp only [(leaf_iff _ _).mpr h3]
      exact (proofOf_panic_iff _ _).mpr (.inr ⟨_, _, rfl, h2⟩)

theorem entry_error (j : J) (e : JErr) (h : ledgerEntry j = .error e) : e = .err ∨ e = .panic := by
  simp only [ledgerEntry, bind, Except.bind] at h
  split at h
  · rename_i e' he; cases h; exact path_error _ e he
  · split at h
    · rename_i e' he; cases h; exact leaf_error _ e he
    · exact proofOf_error _ _ e h

theorem pointwise_length {α β : Type} {r : α → β → Prop} {as : List α} {bs : List β} (h : Pointwise r as bs) :
    as.length = bs.length := by
  induction h with
  | nil => rfl
  | cons _ _ ih => simp [ih]

theorem hazard_of_aborts {j : J} (h : EntryAborts j) : Hazard j := by
  cases h with
  | node h1 h2 h3 =>
    obtain ⟨l, r, hs, h⟩ := h3
    exact .hash h1 (by simp) hs (h.imp id And.right)
  | leaf h1 h2 => exact .leaf h2
  | empty h1 h2 => exact .empty h1
  | long h1 h2 h3 =>
    obtain ⟨js, hj, hw⟩ := h1
    refine .long hj ?_
    rw [pointwise_length hw]
    simp [h2]

theorem calm_epochLedger (E : Env) (hE : ∀ ver : UInt8, ver ≠ 0x5d → (E.chk []).head? ≠ some ver) (j : J) : Calm (epochLedger E j) := by
  unfold epochLedger
  repeat' first | exact calm_ok _ | exact calm_u64 _ | exact calm_hash E _ (hE _ (by decide)) _ | (refine calm_bind ?_ fun _ => ?_)

theorem calm_epochData (E : Env) (hE : ∀ ver : UInt8, ver ≠ 0x5d → (E.chk []).head? ≠ some ver) (j : J) : Calm (epochData E j) := by
  unfold epochData
  repeat' first | exact calm_ok _ | exact calm_u32 _ | exact calm_epochLedger E hE _ | exact calm_hash E _ (hE _ (by decide)) _ |
    (refine calm_bind ?_ fun _ => ?_)

theorem calm_consensusState (E : Env) (hE : ∀ ver : UInt8, ver ≠ 0x5d → (E.chk []).head? ≠ some ver) (j : J) :
    Calm (consensusState E j) := by
  unfold consensusState
  repeat' first | exact calm_ok _ | exact calm_u32 _ | exact calm_u64 _ | exact calm_vrf E _ | exact calm_epochData E hE _ |
    exact calm_pubKey E _ | (refine calm_bind ?_ fun _ => ?_)

theorem calm_blockchainState (E : Env) (hE : ∀ ver : UInt8, ver ≠ 0x5d → (E.chk []).head? ≠ some ver) (j : J) :
    Calm (blockchainState E j) := by
  unfold blockchainState
  repeat' first | exact calm_ok _ | exact calm_u64 _ | exact calm_hashValue (calm_hash E _ (hE _ (by decide))) _ |
    exact calm_hashValue (calm_byteHash E _ (hE _ (by decide))) _ | exact calm_bodyReference _ | (refine calm_bind ?_ fun _ => ?_)

theorem calm_protocolState (E : Env) (hE : ∀ ver : UInt8, ver ≠ 0x5d → (E.chk []).head? ≠ some ver) (j : J) :
    Calm (protocolState E j) := by
  unfold protocolState body
  repeat' first | exact calm_ok _ | exact calm_hash E _ (hE _ (by decide)) _ | exact calm_blockchainState E hE _ |
    exact calm_consensusState E hE _ | (refine calm_bind ?_ fun _ => ?_)

theorem calm_account (E : Env) (hE : ∀ ver : UInt8, ver ≠ 0x5d → (E.chk []).head? ≠ some ver) (j : J) : Calm (account E j) := by
  unfold account
  repeat' first | exact calm_ok _ | exact calm_u32 _ | exact calm_u64 _ | exact calm_pubKey E _ |
    exact calm_hash E _ (hE _ (by decide)) _ | exact calm_delegate E _ | exact calm_timing _ | exact calm_permissions _ |
    (refine calm_bind ?_ fun _ => ?_)

/-- The members before the first one that ends the process are read. -/
theorem sparse_panic_iff (E : Env) (es : List (String × J)) : sparseLedger E (.obj es) = .error .panic ↔
    ∃ before key v after proofs, es = before ++ (key, v) :: after ∧ sparseLedger E (.obj before) = .ok proofs ∧
      AddressText E key ∧ ledgerEntry v = .error .panic := by
  simp only [sparseLedger]
  rw [allOf_panic_iff]
  constructor
  · rintro ⟨b, ⟨key, v⟩, c, bs, h, hb, hp⟩
    obtain ⟨l1, l2, rfl, h1, h2⟩ := List.filter_eq_append_iff.mp h
    obtain ⟨l3, l4, rfl, h3, h4, h5⟩ := List.filter_eq_cons_iff.mp h2
    refine ⟨l1 ++ l3, key, v, l4, bs, by simp, ?_, (isAddress_iff E key).mp (by simpa using h4), hp⟩
    rw [List.filter_append, h1]
    have : l3.filter (fun e => isAddress E e.1) = [] := List.filter_eq_nil_iff.mpr h3
    rw [this, List.append_nil]
    exact hb
  · rintro ⟨b, key, v, c, bs, rfl, hb, hk, hp⟩
    refine ⟨b.filter (fun e => isAddress E e.1), (key, v), c.filter (fun e => isAddress E e.1), bs, ?_, hb, hp⟩
    rw [List.filter_append, List.filter_cons_of_pos (by simpa using (isAddress_iff E key).mpr hk)]

theorem sparse_error (E : Env) (j : J) (e : JErr) (h : sparseLedger E j = .error e) : e = .err ∨ e = .panic := by
  unfold sparseLedger at h
  split at h
  · exact allOf_error (fun a e => entry_error a.2 e) _ e h
  · cases h

end MinaRs.GraphQL
