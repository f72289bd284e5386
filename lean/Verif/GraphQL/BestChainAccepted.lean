import Verif.GraphQL.BestChainProps
import Verif.GraphQL.AcceptedProps
import Verif.Merkle.Props

/-!
# Exactly which best chain documents are imported

The readers of fields, nodes, paths, entries and documents accept what is described here and nothing else.
-/

namespace MinaRs.GraphQL.Spec

open Json (J Env)
open Text (Text)
open Hash

/-- A text that denotes the field element. -/
def ReadsField (j : J) (f : Fp) : Prop := ∃ t, j = .str t ∧ Denotes t.toList f.val

/-- `null`, or a text that denotes the field element. -/
def ReadsOptional (j : J) : Option Fp → Prop
  | none => j = .null
  | some f => ReadsField j f

/-- The two members of a node: those of an object, absent ones being `null`, or the two items of an array. -/
def Sides (j : J) (left right : J) : Prop :=
  (∃ es, j = .obj es ∧ left = index j "left" ∧ right = index j "right") ∨ j = .arr [left, right]

/-- A node with any of the two hashes. -/
def ReadsNode (j : J) (n : Merkle.PathNode Fp) : Prop :=
  ∃ left right, Sides j left right ∧ ReadsOptional left n.left ∧ ReadsOptional right n.right

/-- The two lists have the same length and the predicate holds at each place. -/
inductive Pointwise {α β : Type} (r : α → β → Prop) : List α → List β → Prop
  | nil : Pointwise r [] []
  | cons {a b as bs} : r a b → Pointwise r as bs → Pointwise r (a :: as) (b :: bs)

/-- An array of nodes. -/
def ReadsPath (j : J) (path : List (Merkle.PathNode Fp)) : Prop := ∃ js, j = .arr js ∧ Pointwise ReadsNode js path

/-- A step up the tree: the node has exactly one hash. -/
def ReadsStep (j : J) : Bool × Fp → Prop
  | (true, s) => ∃ left, Sides j left .null ∧ ReadsField left s
  | (false, s) => ∃ right, Sides j .null right ∧ ReadsField right s

/-- An entry of the ledger. -/
def ReadsEntry (j : J) (e : List (Bool × Fp) × Fp) : Prop :=
  (∃ js, index j "merklePath" = .arr js ∧ Pointwise ReadsStep js e.1) ∧ ReadsField (index j "leafHash") e.2

/-- The members under addresses are entries, in order; the others do not matter. -/
inductive ReadsEntries (E : Env) : List (String × J) → List (List (Bool × Fp) × Fp) → Prop
  | nil : ReadsEntries E [] []
  | other {key j es q} : ¬ AddressText E key → ReadsEntries E es q → ReadsEntries E ((key, j) :: es) q
  | entry {key j es e q} : AddressText E key → ReadsEntry j e → ReadsEntries E es q →
      ReadsEntries E ((key, j) :: es) (e :: q)

end MinaRs.GraphQL.Spec

namespace MinaRs.Merkle

open Spec

variable {I H : Type}

theorem pathFold_length (l : List (PathNode H)) : ∀ (s s' : PathState H), l.foldlM pathStep s = .ok s' →
    s'.peerIndices.length = s.peerIndices.length + l.length ∧ (l ≠ [] → s'.peerIndices.length < 64) := by
  induction l with
  | nil =>
    intro s s' h
    have := Except.ok.inj h
    exact ⟨by rw [this]; rfl, fun h => absurd rfl h⟩
  | cons n l ih =>
    intro s s' h
    simp only [List.foldlM_cons, bind, Except.bind] at h
    split at h
    · cases h
    rename_i t ht
    obtain ⟨h1, h2⟩ := ih t s' h
    have ht' : t.peerIndices.length = s.peerIndices.length + 1 ∧ t.peerIndices.length < 64 := by
      simp only [pathStep, bind, Except.bind] at ht
      split at ht
      · cases ht
      split at ht
      · cases ht
      have := Except.ok.inj ht
      have e : t.peerIndices.length = s.peerIndices.length + 1 := by rw [← this]; rfl
      exact ⟨e, by omega⟩
    refine ⟨by simp only [List.length_cons]; omega, fun _ => ?_⟩
    cases l with
    | nil => have := Except.ok.inj h; rw [← this]; exact ht'.2
    | cons m l => exact h2 (by simp)

theorem good_nodes (path : List (PathNode H)) (h : ¬ ∃ n ∈ path, n.left.isSome = n.right.isSome) :
    ∃ steps : List (Bool × H), path = steps.map pathNode := by
  induction path with
  | nil => exact ⟨[], rfl⟩
  | cons n path ih =>
    obtain ⟨steps, rfl⟩ := ih (fun ⟨m, hm, hb⟩ => h ⟨m, List.mem_cons_of_mem _ hm, hb⟩)
    rcases n with ⟨_ | a, _ | b⟩
    · exact absurd ⟨_, List.mem_cons_self, rfl⟩ h
    · exact ⟨(false, b) :: steps, rfl⟩
    · exact ⟨(true, a) :: steps, rfl⟩
    · exact absurd ⟨_, List.mem_cons_self, rfl⟩ h

/-- **C28.** A path becomes a proof exactly if it has at least one and at most 63 nodes, each with exactly one
hash. -/
theorem C28_converts_iff (path : List (PathNode H)) (item : I) :
    (∃ pr, pathToProof path item = .ok pr) ↔
      path ≠ [] ∧ path.length < 64 ∧ ∃ steps : List (Bool × H), path = steps.map pathNode := by
  constructor
  · rintro ⟨pr, h⟩
    refine ⟨fun he => ?_, ?_, good_nodes path fun hb => (C28_bad_node_refused path item hb).1 pr h⟩
    · rw [he, C28_empty_path_fails] at h; cases h
    · by_cases he : path = []
      · rw [he]; simp
      unfold pathToProof at h
      simp only [bind, Except.bind] at h
      split at h
      · cases h
      rename_i s hs
      obtain ⟨h1, h2⟩ := pathFold_length _ _ _ hs
      have := h2 (by simpa using he)
      rw [h1] at this
      simpa using this
  · rintro ⟨hne, hl, steps, rfl⟩
    exact ⟨_, pathToProof_ok steps item (by simpa using hne) (by simpa using hl)⟩

example : [(⟨some 1, none⟩ : PathNode Nat), ⟨none, some 2⟩] ≠ [] ∧
    [(⟨some 1, none⟩ : PathNode Nat), ⟨none, some 2⟩].length < 64 ∧
    ∃ steps : List (Bool × Nat), [(⟨some 1, none⟩ : PathNode Nat), ⟨none, some 2⟩] = steps.map pathNode :=
  ⟨by simp, by simp, [(true, 1), (false, 2)], rfl⟩

theorem pathNode_inj {a b : Bool × H} (h : pathNode a = pathNode b) : a = b := by
  obtain ⟨_ | _, x⟩ := a <;> obtain ⟨_ | _, y⟩ := b <;> simp_all [pathNode]

end MinaRs.Merkle

namespace MinaRs.GraphQL

open Json (J JErr Env)
open Text (Text)
open Hash Spec

theorem optFp_iff (j : J) (o : Option Fp) : optFp j = .ok o ↔ ReadsOptional j o := by
  have key : ∀ j : J, j ≠ .null → (optFp j = .ok o ↔ ReadsOptional j o) := by
    intro j hj
    have hd := C76_accepted_iff j
    have : optFp j = match FpJson.deserialize j with
        | .ok f => .ok (some f)
        | .error e => .error e := by
      unfold optFp
      split
      · exact absurd rfl hj
      · cases FpJson.deserialize j <;> rfl
    rw [this]
    cases hx : FpJson.deserialize j with
    | error e =>
      simp only
      constructor
      · intro h; cases h
      · cases o with
        | none => intro h; exact absurd h hj
        | some f =>
          intro h
          rw [(hd f).mpr h] at hx
          cases hx
    | ok g =>
      simp only
      constructor
      · intro h
        have := Except.ok.inj h
        rw [← this]
        exact (hd g).mp hx
      · cases o with
        | none => intro h; exact absurd h hj
        | some f =>
          intro h
          rw [(hd f).mpr h] at hx
          rw [Except.ok.inj hx]
  by_cases hj : j = .null
  · subst hj
    cases o with
    | none => exact ⟨fun _ => rfl, fun _ => rfl⟩
    | some f =>
      constructor
      · intro h; cases h
      · rintro ⟨t, h, -⟩; cases h
  · exact key j hj

theorem two_iff (a b : J) (n : Merkle.PathNode Fp) :
    (do
      let l ← optFp a
      let r ← optFp b
      .ok ⟨l, r⟩ : R (Merkle.PathNode Fp)) = .ok n ↔ ReadsOptional a n.left ∧ ReadsOptional b n.right := by
  rw [← optFp_iff, ← optFp_iff]
  simp only [bind, Except.bind]
  constructor
  · intro h
    split at h
    · cases h
    rename_i l hl
    split at h
    · cases h
    rename_i r hr
    have := Except.ok.inj h
    rw [← this]
    exact ⟨hl, hr⟩
  · rintro ⟨h1, h2⟩
    rw [h1]
    simp only [h2]

theorem pathNodeOf_iff (j : J) (n : Merkle.PathNode Fp) : pathNodeOf j = .ok n ↔ ReadsNode j n := by
  unfold ReadsNode Sides
  unfold pathNodeOf
  split
  · rename_i es
    rw [two_iff]
    constructor
    · rintro ⟨h1, h2⟩
      exact ⟨_, _, Or.inl ⟨es, rfl, rfl, rfl⟩, h1, h2⟩
    · rintro ⟨l, r, h, h1, h2⟩
      rcases h with ⟨_, -, rfl, rfl⟩ | h
      · exact ⟨h1, h2⟩
      · cases h
  · rename_i a b
    rw [two_iff]
    constructor
    · rintro ⟨h1, h2⟩
      exact ⟨_, _, Or.inr rfl, h1, h2⟩
    · rintro ⟨l, r, h, h1, h2⟩
      rcases h with ⟨_, h, -⟩ | h
      · cases h
      · cases h
        exact ⟨h1, h2⟩
  · rename_i h1 h2
    constructor
    · intro h; cases h
    · rintro ⟨l, r, ⟨es, rfl, -⟩ | rfl, -⟩
      · exact absurd rfl (h1 es)
      · exact absurd rfl (h2 l r)

theorem allOf_iff {α β : Type} (f : α → R β) (r : α → β → Prop) (hr : ∀ a b, f a = .ok b ↔ r a b) (as : List α)
    (bs : List β) : allOf f as = .ok bs ↔ Pointwise r as bs := by
  rw [allOf_ok_iff]
  constructor
  · intro h
    induction as generalizing bs with
    | nil =>
      cases bs with
      | nil => exact .nil
      | cons b bs => cases h
    | cons a as ih =>
      cases bs with
      | nil => cases h
      | cons b bs =>
        simp only [List.map_cons, List.cons.injEq] at h
        exact .cons ((hr a b).mp h.1) (ih bs h.2)
  · intro h
    induction h with
    | nil => rfl
    | cons h _ ih => rw [List.map_cons, List.map_cons, ih, (hr _ _).mpr h]

/-- **C76.** A document is read as a path exactly if it is an array of nodes that can be read as those of the
path, each an object or a pair with two optional numbers below the modulus; anything else is refused. -/
theorem C76_path_accepted_iff (j : J) (path : List (Merkle.PathNode Fp)) : pathOf j = .ok path ↔ ReadsPath j path := by
  unfold pathOf ReadsPath
  split
  · rename_i js
    rw [allOf_iff _ _ pathNodeOf_iff]
    constructor
    · intro h; exact ⟨js, rfl, h⟩
    · rintro ⟨_, h, hp⟩
      cases h
      exact hp
  · rename_i h
    constructor
    · intro h; cases h
    · rintro ⟨js, rfl, -⟩
      exact absurd rfl (h js)

example (x : Fp) : ReadsPath (.arr [.obj [("left", number x.val)], .arr [.null, number x.val]]) [⟨some x, none⟩, ⟨none, some x⟩] := by
  have hx : ReadsField (number x.val) x := ⟨_, rfl, by rw [String.toList_ofList]; exact denotes_decimal x.val⟩
  exact ⟨_, rfl, .cons ⟨_, _, Or.inl ⟨_, rfl, rfl, rfl⟩, by simpa [index, ReadsOptional] using hx, rfl⟩
    (.cons ⟨_, _, Or.inr rfl, rfl, hx⟩ .nil)⟩

theorem readsStep_iff (j : J) (s : Bool × Fp) : ReadsStep j s ↔ ReadsNode j (Merkle.Spec.pathNode s) := by
  obtain ⟨b, x⟩ := s
  cases b with
  | true =>
    constructor
    · rintro ⟨l, h, hl⟩; exact ⟨l, .null, h, hl, rfl⟩
    · rintro ⟨l, r, h, hl, hr⟩
      have : r = .null := hr
      exact ⟨l, this ▸ h, hl⟩
  | false =>
    constructor
    · rintro ⟨r, h, hr⟩; exact ⟨.null, r, h, rfl, hr⟩
    · rintro ⟨l, r, h, hl, hr⟩
      have : l = .null := hl
      exact ⟨r, this ▸ h, hr⟩

theorem pointwise_steps (js : List J) (steps : List (Bool × Fp)) :
    Pointwise ReadsStep js steps ↔ Pointwise ReadsNode js (steps.map Merkle.Spec.pathNode) := by
  constructor
  · intro h
    induction h with
    | nil => exact .nil
    | cons h _ ih => exact .cons ((readsStep_iff _ _).mp h) ih
  · intro h
    induction steps generalizing js with
    | nil => cases h; exact .nil
    | cons s steps ih =>
      cases h with
      | cons h1 h2 => exact .cons ((readsStep_iff _ _).mpr h1) (ih _ h2)

theorem leaf_iff (j : J) (f : Fp) : fpFromRadix10 (str j) = .ok f ↔ ReadsField j f := by
  rw [C76_radix_accepted_iff]
  unfold ReadsField
  cases j with
  | str t =>
    constructor
    · intro h; exact ⟨t, rfl, h⟩
    · rintro ⟨_, h, ht⟩
      cases h
      exact ht
  | _ =>
    constructor
    · rintro ⟨c, cs, h | h, -⟩ <;> cases h
    · rintro ⟨_, h, -⟩; cases h

theorem ledgerEntry_iff (j : J) (pr : LedgerProof) : ledgerEntry j = .ok pr ↔
    ∃ e, ReadsEntry j e ∧ Merkle.pathToProof (e.1.map Merkle.Spec.pathNode) e.2 = .ok pr := by
  simp only [ledgerEntry, bind, Except.bind]
  constructor
  · intro h
    split at h
    · cases h
    rename_i path hp
    split at h
    · cases h
    rename_i leaf hl
    unfold proofOf at h
    split at h
    · rename_i q hq
      have := Except.ok.inj h
      subst this
      obtain ⟨-, -, steps, rfl⟩ := (Merkle.C28_converts_iff path leaf).mp ⟨_, hq⟩
      obtain ⟨js, hj, hs⟩ := (C76_path_accepted_iff _ _).mp hp
      exact ⟨(steps, leaf), ⟨⟨js, hj, (pointwise_steps _ _).mpr hs⟩, (leaf_iff _ _).mp hl⟩, hq⟩
    · cases h
    · cases h
  · rintro ⟨⟨steps, leaf⟩, ⟨⟨js, hj, hs⟩, hl⟩, hq⟩
    have hp := (C76_path_accepted_iff _ _).mpr ⟨js, hj, (pointwise_steps _ _).mp hs⟩
    rw [hp]
    simp only
    rw [(leaf_iff _ _).mpr hl]
    simp only [proofOf, hq]

theorem sparseLedger_iff (E : Env) (es : List (String × J)) (proofs : List LedgerProof) :
    sparseLedger E (.obj es) = .ok proofs ↔ ∃ q, ReadsEntries E es q ∧
      q.map (fun e => Merkle.pathToProof (e.1.map Merkle.Spec.pathNode) e.2) = proofs.map .ok := by
  simp only [sparseLedger]
  rw [allOf_iff _ (fun e pr => _) (fun e pr => ledgerEntry_iff e.2 pr)]
  constructor
  · intro h
    induction es generalizing proofs with
    | nil =>
      cases h
      exact ⟨[], .nil, rfl⟩
    | cons e es ih =>
      obtain ⟨key, j⟩ := e
      cases hb : isAddress E key with
      | false =>
        rw [List.filter_cons_of_neg (by simp [hb])] at h
        obtain ⟨q, hq, hm⟩ := ih proofs h
        exact ⟨q, .other (fun ha => by rw [(isAddress_iff E key).mpr ha] at hb; cases hb) hq, hm⟩
      | true =>
        rw [List.filter_cons_of_pos (by simp [hb])] at h
        cases h with
        | cons h1 h2 =>
          obtain ⟨e, he, hpr⟩ := h1
          obtain ⟨q, hq, hm⟩ := ih _ h2
          exact ⟨e :: q, .entry ((isAddress_iff E key).mp hb) he hq, by rw [List.map_cons, List.map_cons, hm, hpr]⟩
  · rintro ⟨q, hq, hm⟩
    induction hq generalizing proofs with
    | nil =>
      cases proofs with
      | nil => exact .nil
      | cons _ _ => cases hm
    | @other key j es q ha _ ih =>
      have hb : isAddress E key = false := by
        cases hb : isAddress E key with
        | false => rfl
        | true => exact absurd ((isAddress_iff E key).mp hb) ha
      rw [List.filter_cons_of_neg (by simp [hb])]
      exact ih proofs hm
    | @entry key j es e q ha he _ ih =>
      rw [List.filter_cons_of_pos (by simp [(isAddress_iff E key).mpr ha])]
      cases proofs with
      | nil => cases hm
      | cons pr proofs =>
        simp only [List.map_cons, List.cons.injEq] at hm
        exact .cons ⟨e, he, hm.1⟩ (ih proofs hm.2)

/-- **C77.** A document is imported exactly if it is an object whose best chain's first block can be read as a
protocol state and whose members under addresses can all be read as entries, with paths of one to 63 nodes
of exactly one hash each (`C28_converts_iff`); the result is that state and, in order, the proofs made of
the entries.  Any other document is refused as a whole. -/
theorem C77_accepted_iff (E : Env) (hE : (E.chk []).head? ≠ some 0x15) (j : J) (s : ProtocolState)
    (proofs : List LedgerProof) :
    bestChain E j = .ok (s, proofs) ↔ ∃ es b bs q, j = .obj es ∧ index j "bestChain" = .arr (b :: bs) ∧
      ReadsState E (index b "protocolState") s ∧ ReadsEntries E es q ∧
      q.map (fun e => Merkle.pathToProof (e.1.map Merkle.Spec.pathNode) e.2) = proofs.map .ok := by
  have hnull : ∀ s, protocolState E .null ≠ .ok s := by
    intro s h
    obtain ⟨_, _, _, _, _, h⟩ := ((C73_accepted_iff E hE _ _).mp h).previous
    cases h
  simp only [bestChain, bind, Except.bind]
  constructor
  · intro h
    split at h
    · cases h
    rename_i t ht
    split at h
    · cases h
    rename_i l hl
    have e := Except.ok.inj h
    obtain ⟨rfl, rfl⟩ := Prod.mk.inj e
    cases hi : index j "bestChain" with
    | arr bs =>
      cases bs with
      | cons b bs =>
        cases j with
        | obj es =>
          obtain ⟨q, hq, hm⟩ := (sparseLedger_iff E es l).mp hl
          rw [hi] at ht
          exact ⟨es, b, bs, q, rfl, rfl, (C73_accepted_iff E hE _ _).mp ht, hq, hm⟩
        | _ => cases hi
      | nil => rw [hi] at ht; exact absurd ht (hnull t)
    | _ => rw [hi] at ht; exact absurd ht (hnull t)
  · rintro ⟨es, b, bs, q, rfl, hi, hs, hq, hm⟩
    rw [hi]
    have : item (.arr (b :: bs)) 0 = b := rfl
    rw [this, (C73_accepted_iff E hE _ _).mpr hs]
    simp only
    rw [(sparseLedger_iff E es proofs).mpr ⟨q, hq, hm⟩]

/-- The conditions hold of the documents of `C77_import_partial`. -/
example (E : Env) (hE : (E.chk []).head? ≠ some 0x15) (s : ProtocolState) (k : PubKey) (x y : Fp) :
    ∃ (b : J) (bs : List J) (q : List (List (Bool × Fp) × Fp)) (proofs : List LedgerProof), index (.obj (bestChainDoc E s k [(true, x), (false, y)] x)) "bestChain" = .arr (b :: bs) ∧
      ReadsState E (index b "protocolState") (importedState s) ∧
      ReadsEntries E (bestChainDoc E s k [(true, x), (false, y)] x) q ∧
      q.map (fun e => Merkle.pathToProof (e.1.map Merkle.Spec.pathNode) e.2) = proofs.map .ok := by
  obtain ⟨proofs, h, -⟩ := C77_import_partial E _ s _ (says_bestChainDoc E s k [(true, x), (false, y)] x) (by simp)
  obtain ⟨es, b, bs, q, he, h1, h2, h3, h4⟩ := (C77_accepted_iff E hE _ _ _).mp h
  cases he
  exact ⟨b, bs, q, proofs, h1, h2, h3, h4⟩

end MinaRs.GraphQL
