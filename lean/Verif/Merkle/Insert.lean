import Verif.Merkle.Cache

/-! Insertion (helper lemmas for C20–C22). -/

namespace MinaRs.Merkle
open Spec

variable {I H : Type} {hasher : I → Meta → H} {merger : Option H → Option H → Meta → Option H}

theorem div_pow_sub {j d e : Nat} (he : e ≤ d) : j / 2 ^ (d + 1 - e) = j / 2 / 2 ^ (d - e) := by
  rw [show d + 1 - e = (d - e) + 1 by omega, Nat.pow_succ, Nat.mul_comm, Nat.div_div_eq_div_mul]

theorem anc_lt {j d e : Nat} (hj : j < 2 ^ d) (he : e ≤ d) : j / 2 ^ (d - e) < 2 ^ e := by
  have := div_pow_lt hj (show d - e ≤ d by omega)
  rwa [show d - (d - e) = e by omega] at this

/-- Clearing empties every ancestor and nothing else, provided an empty ancestor has only empty
ancestors. -/
theorem clearDirty_ok (h : Nat) (d : Nat) : ∀ (j : Nat) (nodes : List (Option H)), d ≤ h →
    nodes.length = 2 ^ h - 1 → j < 2 ^ d →
    (∀ e, e < d → nodes[idx e (j / 2 ^ (d - e))]? = some none →
      ∀ e', e' ≤ e → nodes[idx e' (j / 2 ^ (d - e'))]? = some none) →
    ∃ nodes', clearDirty nodes (idx d j) = .ok nodes' ∧ nodes'.length = nodes.length ∧
      (∀ e, e < d → nodes'[idx e (j / 2 ^ (d - e))]? = some none) ∧
      (∀ i, (∀ e, e < d → i ≠ idx e (j / 2 ^ (d - e))) → nodes'[i]? = nodes[i]?) := by
  induction d with
  | zero =>
    intro j nodes _ hl hj _
    have : idx 0 j = 0 := by simp only [idx, Nat.pow_zero] at *; omega
    refine ⟨nodes, ?_, rfl, fun e he => absurd he (Nat.not_lt_zero _), fun _ _ => rfl⟩
    rw [this]; unfold clearDirty; rfl
  | succ d ih =>
    intro j nodes hd hl hj hchain
    have hp := idx_pos (d + 1) j (by omega)
    have hj2 : j / 2 < 2 ^ d := by rw [Nat.pow_succ] at hj; omega
    have hlt : idx d (j / 2) < nodes.length := by rw [hl]; exact idx_lt (by omega) hj2
    unfold clearDirty
    rw [dif_neg (by omega)]
    simp only [idx_parent]
    rw [dif_pos hlt]
    cases hn : nodes[idx d (j / 2)] with
    | none =>
      simp only
      have hall := hchain d (by omega) (by
        rw [show d + 1 - d = 1 by omega, Nat.pow_one, List.getElem?_eq_getElem hlt, hn])
      exact ⟨nodes, rfl, rfl, fun e he => hall e (by omega), fun _ _ => rfl⟩
    | some x =>
      simp only
      have hother : ∀ e, e < d → (nodes.set (idx d (j / 2)) none)[idx e (j / 2 / 2 ^ (d - e))]? =
          nodes[idx e (j / 2 ^ (d + 1 - e))]? := by
        intro e he
        rw [List.getElem?_set_ne, div_pow_sub (by omega)]
        intro heq
        have := (idx_inj hj2 (anc_lt hj2 (by omega)) heq).1
        omega
      obtain ⟨nodes', h1, h2, h3, h4⟩ := ih (j / 2) (nodes.set (idx d (j / 2)) none) (by omega) (by simpa using hl) hj2
        (by
          intro e he hne e' he'
          rw [hother e he] at hne
          rw [hother e' (by omega)]
          exact hchain e (by omega) hne e' he')
      refine ⟨nodes', h1, by simpa using h2, fun e he => ?_, fun i hi => ?_⟩
      · rcases Nat.lt_or_ge e d with hed | hed
        · rw [div_pow_sub (by omega)]; exact h3 e hed
        · have : e = d := by omega
          subst this
          rw [show e + 1 - e = 1 by omega, Nat.pow_one]
          rw [h4]
          · rw [List.getElem?_set_self hlt]
          · intro e' he' heq
            have := (idx_inj hj2 (anc_lt hj2 (by omega)) heq).1
            omega
      · rw [h4 i (fun e he => by rw [← div_pow_sub (by omega)]; exact hi e (by omega))]
        rw [List.getElem?_set_ne]
        have := hi d (by omega)
        rw [show d + 1 - d = 1 by omega, Nat.pow_one] at this
        exact fun h => this h.symm

/-- An empty node has an empty parent. -/
def UpClosed (h : Nat) (nodes : List (Option H)) : Prop :=
  ∀ d j, d + 1 < h → j < 2 ^ (d + 1) → nodes[idx (d + 1) j]? = some none → nodes[idx d (j / 2)]? = some none

theorem UpClosed.chain {h : Nat} {nodes : List (Option H)} (hu : UpClosed h nodes) {d j : Nat} (hd : d ≤ h)
    (hj : j < 2 ^ d) (e : Nat) : e < d → nodes[idx e (j / 2 ^ (d - e))]? = some none →
    ∀ e', e' ≤ e → nodes[idx e' (j / 2 ^ (d - e'))]? = some none := by
  induction e with
  | zero => intro _ h0 e' he'; rw [show e' = 0 by omega]; exact h0
  | succ e ih =>
    intro he hne e' he'
    rcases Nat.lt_or_ge e e' with h' | h'
    · rw [show e' = e + 1 by omega]; exact hne
    · refine ih (by omega) ?_ e' h'
      have := hu e _ (by omega) (anc_lt hj (by omega)) hne
      rwa [← div_pow_succ, show d - (e + 1) + 1 = d - e by omega] at this

/-- The loop over the new leaves empties exactly the nodes above them. -/
theorem clearDirtyFrom_ok (h n : Nat) : ∀ (p : Nat) (nodes : List (Option H)), nodes.length = 2 ^ h - 1 →
    UpClosed h nodes → p + n ≤ 2 ^ h →
    ∃ nodes', clearDirtyFrom nodes (2 ^ h - 1 + p) n = .ok nodes' ∧ nodes'.length = 2 ^ h - 1 ∧
      (∀ e j, e < h → j < 2 ^ e → (∃ q, p ≤ q ∧ q < p + n ∧ q / 2 ^ (h - e) = j) →
        nodes'[idx e j]? = some none) ∧
      (∀ e j, e < h → j < 2 ^ e → (∀ q, p ≤ q → q < p + n → q / 2 ^ (h - e) ≠ j) →
        nodes'[idx e j]? = nodes[idx e j]?) := by
  induction n with
  | zero =>
    intro p nodes hl hu hp
    refine ⟨nodes, rfl, hl, ?_, fun _ _ _ _ _ => rfl⟩
    rintro e j he hj ⟨q, h1, h2, _⟩; omega
  | succ n ih =>
    intro p nodes hl hu hp
    have hpl : p < 2 ^ h := by omega
    obtain ⟨n1, h1, hl1, h3, h4⟩ := clearDirty_ok h h p nodes (Nat.le_refl _) hl hpl
      (fun e => hu.chain (Nat.le_refl h) hpl e)
    have hanc : ∀ e j, e < h → j < 2 ^ e → p / 2 ^ (h - e) = j → n1[idx e j]? = some none := by
      rintro e j he hj rfl; exact h3 e he
    have hnot : ∀ e j, e < h → j < 2 ^ e → p / 2 ^ (h - e) ≠ j → n1[idx e j]? = nodes[idx e j]? := by
      intro e j he hj hne
      refine h4 _ (fun e' he' heq => hne ?_)
      obtain ⟨rfl, rfl⟩ := idx_inj hj (anc_lt hpl (Nat.le_of_lt he')) heq
      rfl
    have hu1 : UpClosed h n1 := by
      intro d j hd hj hn
      have hj2 : j / 2 < 2 ^ d := by rw [Nat.pow_succ] at hj; omega
      by_cases ha : p / 2 ^ (h - d) = j / 2
      · exact hanc d _ (by omega) hj2 ha
      · rw [hnot d _ (by omega) hj2 ha]
        apply hu d j hd hj
        rw [← hnot (d + 1) j hd hj]
        · exact hn
        · intro hc
          apply ha
          rw [← hc, ← div_pow_succ, show h - (d + 1) + 1 = h - d by omega]
    obtain ⟨n2, g1, gl, g3, g4⟩ := ih (p + 1) n1 (hl1.trans hl) hu1 (by omega)
    refine ⟨n2, ?_, gl, ?_, ?_⟩
    · unfold clearDirtyFrom
      have : idx h p = 2 ^ h - 1 + p := rfl
      rw [← this, h1]
      exact g1
    · rintro e j he hj ⟨q, hq1, hq2, hq⟩
      by_cases hex : ∃ q, p + 1 ≤ q ∧ q < p + 1 + n ∧ q / 2 ^ (h - e) = j
      · exact g3 e j he hj hex
      · rw [g4 e j he hj (fun q a b c => hex ⟨q, a, b, c⟩)]
        have : q = p := by
          apply Classical.byContradiction; intro hne
          exact hex ⟨q, by omega, by omega, hq⟩
        subst this
        exact hanc e j he hj hq
    · intro e j he hj hq
      rw [g4 e j he hj (fun q a b => hq q (by omega) (by omega))]
      exact hnot e j he hj (hq p (by omega) (by omega))

theorem slice_append (items new : List I) (k j : Nat)
    (h : (j + 1) * 2 ^ k ≤ items.length ∨ items.length + new.length ≤ j * 2 ^ k) :
    slice (items ++ new) k j = slice items k j := by
  unfold slice
  rcases h with h | h
  · rw [Nat.add_mul] at h
    rw [List.drop_append_of_le_length (by omega), List.take_append_of_le_length (by simp; omega)]
  · rw [List.drop_eq_nil_of_le (by simp; omega), List.drop_eq_nil_of_le (by omega)]

/-- What holds after every history. -/
structure Inv (hasher : I → Meta → H) (merger : Option H → Option H → Meta → Option H) (t : Tree I H) :
    Prop where
  cache : CacheOK hasher merger t
  closed : Closed t
  height : t.height = calcHeight t.leafs.length

theorem Closed.up {t : Tree I H} (hl : t.nodes.length = 2 ^ t.height - 1) (hc : Closed t) :
    UpClosed t.height t.nodes := by
  intro d j hd hj hn
  have hj2 : j / 2 < 2 ^ d := by rw [Nat.pow_succ] at hj; omega
  have hlt : idx d (j / 2) < t.nodes.length := by rw [hl]; exact idx_lt (by omega) hj2
  rw [List.getElem?_eq_getElem hlt]
  cases hx : t.nodes[idx d (j / 2)] with
  | none => rfl
  | some x =>
    have := hc d (j / 2) x (by omega) hj2 (by rw [List.getElem?_eq_getElem hlt, hx])
    have hcc : Cached t (d + 1) j := by
      rcases Nat.mod_two_eq_zero_or_one j with hm | hm
      · rw [show j = 2 * (j / 2) by omega]; exact this.1
      · rw [show j = 2 * (j / 2) + 1 by omega]; exact this.2
    obtain ⟨y, hy⟩ := hcc.1 hd
    rw [hy] at hn; cases hn

theorem calcHeight_le {n k : Nat} (h : n ≤ 2 ^ k) : calcHeight n ≤ k := (leastHeight_calcHeight n).2 k h

theorem calcHeight_mono {a b : Nat} (h : a ≤ b) : calcHeight a ≤ calcHeight b :=
  calcHeight_le (Nat.le_trans h (leastHeight_calcHeight b).1)

theorem inv_new (fixed : Option Nat) : Inv hasher merger (Tree.new fixed : Tree I H) := by
  refine ⟨⟨rfl, ?_, ?_, ?_⟩, ?_, rfl⟩
  · intro p x h hp; simp [Tree.new] at hp
  · intro p x h hp; simp [Tree.new] at hp
  · intro d j x hd; simp [Tree.new] at hd
  · intro d j x hd; simp [Tree.new] at hd

theorem inv_addBatch (hstable : LeafHashStable hasher) {t : Tree I H} (ht : Inv hasher merger t) (items : List I) :
    ∃ t', t.addBatch items = .ok t' ∧ Inv hasher merger t' ∧ t'.items = t.items ++ items ∧ t'.fixed = t.fixed := by
  have hnew : ∀ (a : I × Option H), a ∈ items.map (fun item => (item, (none : Option H))) → a.2 = none := by
    intro a ha; simp only [List.mem_map] at ha; obtain ⟨x, _, rfl⟩ := ha; rfl
  have hleaf : ∀ (p : Nat) x h, (t.leafs ++ items.map (fun item => (item, (none : Option H))))[p]? = some (x, some h) →
      h = hasher x ⟨t.height, 0⟩ ∧ ¬ Irregular t.height p ∧ p < t.leafs.length := by
    intro p x h hp
    rcases Nat.lt_or_ge p t.leafs.length with hl | hl
    · rw [List.getElem?_append_left hl] at hp
      exact ⟨ht.cache.leaf p x h hp, ht.cache.regular p x h hp, hl⟩
    · rw [List.getElem?_append_right hl] at hp
      exact nomatch hnew _ (List.mem_of_getElem? hp)
  unfold Tree.addBatch
  simp only [List.length_map]
  split
  · rename_i hne
    refine ⟨_, rfl, ⟨⟨by simp [nodeCount], ?_, ?_, ?_⟩, ?_, by simp⟩, ?_, rfl⟩
    · intro p x h hp
      rw [(hleaf p x h hp).1]; exact hstable _ _ _
    · rintro p x h hp ⟨hlast, _⟩
      have hp := (hleaf p x h hp).2.2
      have h1 : t.height ≤ calcHeight (t.leafs.length + items.length) := by
        rw [ht.height]; exact calcHeight_mono (by omega)
      have h2 := pow_mono (show t.height + 1 ≤ calcHeight (t.leafs.length + items.length) by omega)
      have h3 : t.leafs.length ≤ 2 ^ t.height := by rw [ht.height]; exact (leastHeight_calcHeight _).1
      simp only [Nat.pow_succ] at h2 hlast
      omega
    · intro d j x hd hj hx
      simp only [List.getElem?_replicate] at hx
      split at hx <;> cases hx
    · intro d j x hd hj hx
      simp only [List.getElem?_replicate] at hx
      split at hx <;> cases hx
    · simp [Tree.items, List.map_append, Function.comp_def]
  · rename_i heq
    have heq : calcHeight (t.leafs.length + items.length) = t.height := by simpa using heq
    have hcap : t.leafs.length + items.length ≤ 2 ^ t.height := by
      rw [← heq]; exact (leastHeight_calcHeight _).1
    obtain ⟨nodes', h1, hl, h3, h4⟩ := clearDirtyFrom_ok t.height items.length t.leafs.length t.nodes ht.cache.len
      (ht.closed.up ht.cache.len) hcap
    rw [ht.cache.len, h1]
    have hkeep : ∀ d j x, d < t.height → j < 2 ^ d → nodes'[idx d j]? = some (some x) →
        t.nodes[idx d j]? = some (some x) ∧
        ∀ q, t.leafs.length ≤ q → q < t.leafs.length + items.length → q / 2 ^ (t.height - d) ≠ j := by
      intro d j x hd hj hx
      have hnot : ∀ q, t.leafs.length ≤ q → q < t.leafs.length + items.length → q / 2 ^ (t.height - d) ≠ j := by
        intro q a b c
        rw [h3 d j hd hj ⟨q, a, b, c⟩] at hx; cases hx
      exact ⟨(h4 d j hd hj hnot).symm.trans hx, hnot⟩
    have hitems : (t.leafs ++ items.map (fun item => (item, (none : Option H)))).map Prod.fst = t.items ++ items := by
      simp [Tree.items, List.map_append, Function.comp_def]
    refine ⟨_, rfl, ⟨⟨hl, fun p x h hp => (hleaf p x h hp).1, fun p x h hp => (hleaf p x h hp).2.1, ?_⟩, ?_, ?_⟩, hitems, rfl⟩
    · intro d j x hd hj hx
      obtain ⟨hold, hnot⟩ := hkeep d j x hd hj hx
      have := ht.cache.node d j x hd hj hold
      simp only [Tree.items, hitems] at *
      rw [← this]
      apply codeVal_congr
      rcases List.eq_nil_or_concat items with rfl | ⟨_, _, hne⟩
      · rw [List.append_nil]
      have hne : 0 < items.length := by rw [hne]; simp
      rw [slice_append]
      have hpos := two_pow_pos (t.height - d)
      simp only [List.length_map]
      apply Classical.byContradiction
      intro hc
      simp only [not_or, Nat.not_le] at hc
      have hq : max (j * 2 ^ (t.height - d)) t.leafs.length / 2 ^ (t.height - d) = j := by
        rw [Nat.div_eq_iff hpos]
        rw [Nat.add_mul] at hc
        omega
      exact hnot _ (by omega) (by omega) hq
    · intro d j x hd hj hx
      obtain ⟨hold, hnot⟩ := hkeep d j x hd hj hx
      have hcl := ht.closed d j x hd hj hold
      have hchild : ∀ b, b < 2 → Cached t (d + 1) (2 * j + b) →
          Cached { t with nodes := nodes', leafs := t.leafs ++ items.map (fun item => (item, (none : Option H))) } (d + 1) (2 * j + b) := by
        intro b hb hcb
        refine ⟨fun hd1 => ?_, fun hd1 y c hy => ?_⟩
        · obtain ⟨y, hy⟩ := hcb.1 hd1
          refine ⟨y, ?_⟩
          simp only at hd1 ⊢
          rw [h4 (d + 1) (2 * j + b) hd1 (by rw [Nat.pow_succ]; omega)]
          · exact hy
          · intro q a b' c
            apply hnot q a b'
            rw [show t.height - d = t.height - (d + 1) + 1 by omega, div_pow_succ, c]
            omega
        · simp only at hd1 hy
          rcases Nat.lt_or_ge (2 * j + b) t.leafs.length with hlt | hlt
          · rw [List.getElem?_append_left hlt] at hy
            exact hcb.2 hd1 y c hy
          · exfalso
            have hlen := (List.getElem?_eq_some_iff.mp hy).1
            simp only [List.length_append, List.length_map] at hlen
            apply hnot (2 * j + b) hlt hlen
            rw [← hd1, show d + 1 - d = 1 by omega, Nat.pow_one]; omega
      exact ⟨hchild 0 (by omega) hcl.1, hchild 1 (by omega) hcl.2⟩
    · simp [heq]

/-! ### The root -/

/-- The computation of the root aborts: the last leaf of a full tree gets a depth beyond the height. -/
def Aborts (n : Nat) : Prop := n = 2 ^ calcHeight n ∧ calcHeight n + 1 ∈ roundsUp

instance (n : Nat) : Decidable (Aborts n) := inferInstanceAs (Decidable (_ ∧ _))

theorem not_aborts_of_lt {n : Nat} (h : n < 2 ^ 28) : ¬ Aborts n := by
  rintro ⟨h1, h2⟩
  have := calcHeight_le (Nat.le_of_lt h)
  have h28 : calcHeight n = 28 := by
    simp only [roundsUp, List.mem_cons, List.not_mem_nil, or_false] at h2
    omega
  rw [h28] at h1
  omega

theorem leavesRegular_of {t : Tree I H} (hh : t.height = calcHeight t.leafs.length) (ha : ¬ Aborts t.leafs.length) (k j : Nat) :
    LeavesRegular t k j := by
  rintro p _ _ hp ⟨h1, h2⟩
  have hcap : t.leafs.length ≤ 2 ^ t.height := by rw [hh]; exact (leastHeight_calcHeight _).1
  exact ha ⟨by rw [← hh]; omega, by rw [← hh]; exact h2⟩

theorem inv_calcRoot (htot : Total merger) {t : Tree I H} (ht : Inv hasher merger t) (ha : ¬ Aborts t.leafs.length) :
    ∃ t', t.calcRoot hasher merger = .ok (codeVal hasher merger t.items t.height t.height 0 0, t') ∧
      Inv hasher merger t' ∧ Extends t t' ∧ Cached t' 0 0 := by
  obtain ⟨t', h1, h2, h3, h4⟩ := calcHash_ok t.height 0 0 (t.height + 1) t ht.cache (by omega) (by decide) (by omega)
    (leavesRegular_of ht.height ha _ _)
  have hidx : idx 0 0 = 0 := rfl
  rw [hidx] at h1
  obtain ⟨a, b⟩ := h4 htot ht.closed
  exact ⟨t', h1, ⟨h2, a, by rw [h3.height, h3.leafs_length]; exact ht.height⟩, h3, b⟩

/-- Computing the hash of a node that is not the last of its level leaves the last nodes alone. -/
theorem calcHash_frame (fuel : Nat) : ∀ (d j : Nat) (t t' : Tree I H) (r : Option H), j + 1 < 2 ^ d →
    calcHash hasher merger fuel t (idx d j) = .ok (r, t') →
    ∀ d', t'.nodes[idx d' (2 ^ d' - 1)]? = t.nodes[idx d' (2 ^ d' - 1)]? := by
  induction fuel with
  | zero => intro d j t t' r _ h; simp [calcHash] at h
  | succ fuel ih =>
    intro d j t t' r hj h d'
    unfold calcHash at h
    split at h
    · split at h
      · cases h; rfl
      · rw [idx_left, idx_right] at h
        simp only [bind, Except.bind] at h
        split at h
        · cases h
        · rename_i x hx
          obtain ⟨l, t1⟩ := x
          simp only at h
          split at h
          · cases h
          · rename_i y hy
            obtain ⟨r', t2⟩ := y
            simp only at h
            split at h
            · cases h
            · cases h
              have e1 := ih (d + 1) (2 * j) t t1 l (by rw [Nat.pow_succ]; omega) hx d'
              have e2 := ih (d + 1) (2 * j + 1) t1 t2 r' (by rw [Nat.pow_succ]; omega) hy d'
              simp only [List.getElem?_set]
              rw [if_neg, e2, e1]
              intro he
              have hp := two_pow_pos d'
              obtain ⟨rfl, hjj⟩ := idx_inj (show j < 2 ^ d by omega) (show 2 ^ d' - 1 < 2 ^ d' by omega) he
              omega
    · split at h
      · cases h; rfl
      · cases h; rfl
      · simp only [bind, Except.bind] at h
        split at h
        · cases h
        · cases h; rfl

/-- When the last leaf of a full tree is irregular and nothing on the way to it is cached, the
computation aborts. -/
theorem calcHash_aborts (k : Nat) : ∀ (d j fuel : Nat) (t : Tree I H), CacheOK hasher merger t → d + k = t.height →
    j + 1 = 2 ^ d → k < fuel → t.leafs.length = 2 ^ t.height → t.height + 1 ∈ roundsUp →
    (∀ d', d ≤ d' → d' < t.height → t.nodes[idx d' (2 ^ d' - 1)]? = some none) →
    calcHash hasher merger fuel t (idx d j) = .error ⟨"attempt to subtract with overflow"⟩ := by
  induction k with
  | zero =>
    intro d j fuel t ht hd hj hf hfull hirr _
    obtain ⟨fuel, rfl⟩ : ∃ f, fuel = f + 1 := ⟨fuel - 1, by omega⟩
    have hdh : d = t.height := by omega
    subst hdh
    have hi : Irregular t.height j := ⟨hj, hirr⟩
    have hnot : ¬ idx t.height j < t.nodes.length := by rw [ht.len]; simp only [idx]; omega
    have hsub : idx t.height j - t.nodes.length = j := by rw [ht.len]; simp only [idx]; omega
    unfold calcHash
    rw [dif_neg hnot, hsub]
    have hjl : j < t.leafs.length := by omega
    obtain ⟨item, c, hl⟩ : ∃ x c, t.leafs[j]? = some (x, c) := ⟨t.leafs[j].1, t.leafs[j].2, List.getElem?_eq_getElem hjl⟩
    rw [hl]
    cases c with
    | some x => exact absurd hi (ht.regular j item x hl)
    | none => simp only [meta_leaf_panics (by omega) hi]; rfl
  | succ k ih =>
    intro d j fuel t ht hd hj hf hfull hirr hun
    obtain ⟨fuel, rfl⟩ : ∃ f, fuel = f + 1 := ⟨fuel - 1, by omega⟩
    have hdh : d < t.height := by omega
    have hlt : idx d j < t.nodes.length := by rw [ht.len]; exact idx_lt hdh (by omega)
    have hn : t.nodes[idx d j] = none := by
      have := hun d (Nat.le_refl _) hdh
      rw [show 2 ^ d - 1 = j by omega, List.getElem?_eq_getElem hlt] at this
      simpa using this
    unfold calcHash
    rw [dif_pos hlt, hn]
    have hj2 : 2 * j + 1 + 1 = 2 ^ (d + 1) := by rw [Nat.pow_succ]; omega
    obtain ⟨t1, h1, hc1, he1, _⟩ := calcHash_ok (hasher := hasher) (merger := merger) k (d + 1) (2 * j) fuel t ht (by omega)
      (by omega) (by omega) (by
        rintro p _ hp2 _ ⟨hp, _⟩
        have : (2 * j + 1) * 2 ^ k < 2 ^ t.height := by
          rw [show t.height = (d + 1) + k by omega, Nat.pow_add]
          exact Nat.mul_lt_mul_of_pos_right (by omega) (two_pow_pos k)
        omega)
    rw [idx_left, idx_right, h1]
    simp only [bind, Except.bind]
    have hf1 := calcHash_frame fuel (d + 1) (2 * j) t t1 _ (by omega) h1
    rw [ih (d + 1) (2 * j + 1) fuel t1 hc1 (by rw [he1.height]; omega) hj2 (by omega)
      (by rw [he1.height, he1.leafs_length]; exact hfull) (by rw [he1.height]; exact hirr)
      (fun d' a b => by rw [hf1 d']; exact hun d' (by omega) (by rw [← he1.height]; exact b))]

theorem Closed.last {t : Tree I H} (hc : Closed t) (k : Nat) : ∀ d, d + k = t.height → Cached t d (2 ^ d - 1) →
    Cached t t.height (2 ^ t.height - 1) := by
  induction k with
  | zero => intro d hd h; rw [show t.height = d by omega]; exact h
  | succ k ih =>
    intro d hd h
    have hp := two_pow_pos d
    obtain ⟨x, hx⟩ := h.1 (by omega)
    have := (hc d (2 ^ d - 1) x (by omega) (by omega) hx).2
    rw [show 2 * (2 ^ d - 1) + 1 = 2 ^ (d + 1) - 1 by rw [Nat.pow_succ]; omega] at this
    exact ih (d + 1) (by omega) this

theorem inv_calcRoot_aborts {t : Tree I H} (ht : Inv hasher merger t) (ha : Aborts t.leafs.length) :
    t.calcRoot hasher merger = .error ⟨"attempt to subtract with overflow"⟩ := by
  obtain ⟨h1, h2⟩ := ha
  rw [← ht.height] at h1 h2
  refine calcHash_aborts t.height 0 0 (t.height + 1) t ht.cache (by omega) rfl (by omega) h1 h2 ?_
  intro d' _ hd'
  have hp := two_pow_pos d'
  have hlt : idx d' (2 ^ d' - 1) < t.nodes.length := by rw [ht.cache.len]; exact idx_lt hd' (by omega)
  rw [List.getElem?_eq_getElem hlt]
  cases hn : t.nodes[idx d' (2 ^ d' - 1)] with
  | none => rfl
  | some x =>
    exfalso
    have hc := ht.closed.last (t.height - d') d' (by omega)
      ⟨fun _ => ⟨x, by rw [List.getElem?_eq_getElem hlt, hn]⟩, fun h => by omega⟩
    have hp' := two_pow_pos t.height
    have hjl : 2 ^ t.height - 1 < t.leafs.length := by omega
    obtain ⟨y, hy⟩ := hc.2 rfl _ _ (List.getElem?_eq_getElem hjl)
    refine ht.cache.regular (2 ^ t.height - 1) t.leafs[2 ^ t.height - 1].1 y ?_ ⟨by omega, h2⟩
    exact (List.getElem?_eq_getElem hjl).trans (congrArg some (Prod.ext rfl hy))

/-! ### Trees without cached hashes -/

/-- The tree over `items` with nothing cached. -/
def clean (fixed : Option Nat) (items : List I) : Tree I H :=
  ⟨fixed, calcHeight items.length, items.map (fun x => (x, none)),
    List.replicate (nodeCount (calcHeight items.length)) none⟩

theorem clearDirtyFrom_clean (h n : Nat) : ∀ p, p + n ≤ 2 ^ h →
    clearDirtyFrom (List.replicate (nodeCount h) (none : Option H)) (2 ^ h - 1 + p) n =
      .ok (List.replicate (nodeCount h) none) := by
  induction n with
  | zero => intro p _; rfl
  | succ n ih =>
    intro p hp
    have h1 : clearDirty (List.replicate (nodeCount h) (none : Option H)) (2 ^ h - 1 + p) =
        .ok (List.replicate (nodeCount h) none) := by
      unfold clearDirty
      split
      · rfl
      · rename_i hi
        have hlt : (2 ^ h - 1 + p - 1) / 2 < (List.replicate (nodeCount h) (none : Option H)).length := by
          simp only [List.length_replicate, nodeCount]; omega
        rw [dif_pos hlt]
        simp
    unfold clearDirtyFrom
    rw [h1]
    exact ih (p + 1) (by omega)

theorem addBatch_clean (fixed : Option Nat) (a b : List I) :
    (clean fixed a : Tree I H).addBatch b = .ok (clean fixed (a ++ b)) := by
  unfold Tree.addBatch
  simp only [clean, List.length_map, List.length_append, List.map_append]
  split
  · rfl
  · rename_i h
    have h : calcHeight (a.length + b.length) = calcHeight a.length := by simpa using h
    have hcap : a.length + b.length ≤ 2 ^ calcHeight a.length := by
      rw [← h]; exact (leastHeight_calcHeight _).1
    have := clearDirtyFrom_clean (H := H) (calcHeight a.length) b.length a.length hcap
    simp only [List.length_replicate, nodeCount] at this ⊢
    rw [this, h]; rfl

theorem inv_clean (fixed : Option Nat) (items : List I) : Inv hasher merger (clean fixed items : Tree I H) := by
  refine ⟨⟨by simp [clean, nodeCount], ?_, ?_, ?_⟩, ?_, by simp [clean]⟩
  · intro p x h hp
    simp only [clean, List.getElem?_map, Option.map_eq_some_iff] at hp
    obtain ⟨_, _, hp⟩ := hp; cases hp
  · intro p x h hp
    simp only [clean, List.getElem?_map, Option.map_eq_some_iff] at hp
    obtain ⟨_, _, hp⟩ := hp; cases hp
  · intro d j x hd hj hx
    simp only [clean, List.getElem?_replicate] at hx
    split at hx <;> cases hx
  · intro d j x hd hj hx
    simp only [clean, List.getElem?_replicate] at hx
    split at hx <;> cases hx

theorem items_clean (fixed : Option Nat) (items : List I) : (clean fixed items : Tree I H).items = items := by
  simp [clean, Tree.items, Function.comp_def]

theorem calcRoot_clean (fixed : Option Nat) (items : List I) (h : items.length < 2 ^ 28) :
    ∃ t', (clean fixed items : Tree I H).calcRoot hasher merger =
      .ok (subtree hasher merger (calcHeight items.length) 0 items, t') ∧ Extends (clean fixed items : Tree I H) t' := by
  obtain ⟨t', h1, h2, h3, h4⟩ := calcHash_ok (hasher := hasher) (merger := merger) (calcHeight items.length) 0 0
    (calcHeight items.length + 1) (clean fixed items) (inv_clean fixed items).cache (by simp [clean]) (by decide) (by omega)
    (leavesRegular_of (by simp [clean]) (not_aborts_of_lt (by simpa [clean] using h)) _ _)
  have hlen : items.length ≤ 2 ^ calcHeight items.length := (leastHeight_calcHeight _).1
  rw [codeVal_eq _ (by simpa [clean] using calcHeight_le (Nat.le_of_lt h)) _ _ _ (by simp [clean]) (by decide)] at h1
  unfold nodeVal at h1
  rw [items_clean, slice_whole _ _ hlen] at h1
  exact ⟨t', h1, h3⟩

end MinaRs.Merkle
