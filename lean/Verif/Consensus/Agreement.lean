import Verif.Consensus.Props

/-!
# C116: do nodes that know the same chains agree?

Two nodes that are offered each other's chain, and one node that is offered the same candidates in another order.
-/

namespace MinaRs.Consensus
open Spec

variable {T : Type} (h : Header T)

/-- A tip of mainnet shape: counters in range, epochs of 7140 slots, a window of eleven sub-windows of at most seven
blocks. -/
structure Regular (s : ConsensusState) : Prop where
  wellFormed : WellFormed s
  epochs : s.currGlobalSlot.slotsPerEpoch = 7140
  window : WindowOk s

theorem shortRange_comm {a b : ConsensusState} (hh : ShortRange a b) : ShortRange b a := by
  rcases hh with ⟨h1, h2⟩ | h1 | h1
  · exact .inl ⟨h1.symm, h2.symm⟩
  · exact .inr (.inr h1)
  · exact .inr (.inl h1)

theorem beats_asymm {a b : Key} (h1 : Beats a b) (h2 : Beats b a) : False := beats_irrefl _ (beats_trans h1 h2)

theorem preferred_asymm {a b : T} (h1 : Preferred h a b) (h2 : Preferred h b a) : False := by
  rcases h1 with ⟨s1, b1⟩ | ⟨n1, -, d1, d2, e1, e2, hd⟩
  · rcases h2 with ⟨-, b2⟩ | ⟨n2, -⟩
    · exact beats_asymm b1 b2
    · exact n2 (shortRange_comm s1)
  · rcases h2 with ⟨s2, -⟩ | ⟨-, -, d3, d4, e3, e4, hd'⟩
    · exact n1 (shortRange_comm s2)
    · rw [e2] at e3; rw [e1] at e4
      cases e3; cases e4
      rcases hd with hd | ⟨hd, b1⟩ <;> rcases hd' with hd' | ⟨hd', b2⟩
      · omega
      · omega
      · omega
      · exact beats_asymm b1 b2

theorem density_exists {a b : T} (ra : Regular (h.consensusState a)) :
    ∃ d, relativeMinWindowDensity h [a] [b] = .ok d :=
  ⟨_, relDensity_eq (h := h) (ts := a) (tc := b) rfl rfl (by rw [ra.window.1]; exact Nat.le_refl _) ra.wellFormed.window⟩

theorem preferred_total {a b : T} (ra : Regular (h.consensusState a)) (rb : Regular (h.consensusState b))
    (h1 : ¬ Preferred h a b) (h2 : ¬ Preferred h b a) : key h a = key h b := by
  by_cases hs : ShortRange (h.consensusState a) (h.consensusState b)
  · rcases beats_total (key h a) (key h b) with hb | hb | hb
    · exact absurd (.inl ⟨shortRange_comm hs, hb⟩) h2
    · exact hb
    · exact absurd (.inl ⟨hs, hb⟩) h1
  · obtain ⟨d1, e1⟩ := density_exists h (b := b) ra
    obtain ⟨d2, e2⟩ := density_exists h (b := a) rb
    have hs' : ¬ ShortRange (h.consensusState b) (h.consensusState a) := fun hh => hs (shortRange_comm hh)
    have n1 : ¬ (d1 < d2 ∨ (d1 = d2 ∧ Beats (key h b) (key h a))) := fun hh => h1 (.inr ⟨hs, rb.window, d1, d2, e1, e2, hh⟩)
    have n2 : ¬ (d2 < d1 ∨ (d2 = d1 ∧ Beats (key h a) (key h b))) := fun hh => h2 (.inr ⟨hs', ra.window, d2, d1, e2, e1, hh⟩)
    have hd : d1 = d2 := by
      have : ¬ d1 < d2 := fun hh => n1 (.inl hh)
      have : ¬ d2 < d1 := fun hh => n2 (.inl hh)
      omega
    rcases beats_total (key h a) (key h b) with hb | hb | hb
    · exact absurd (.inr ⟨hd.symm, hb⟩) n2
    · exact hb
    · exact absurd (.inr ⟨hd, hb⟩) n1

/-- **C116 (part, two nodes).** Two nodes with regular tips that are offered each other's chain end on tips with the
same length, VRF digest and state hash; unless they started with such tips, on the same chain.  Missing: tips with other
windows (`C116_bad_window_fails`). -/
theorem C116_two_nodes_partial (a b : Chain T) (ta tb : T) (ha : top a = some ta) (hb : top b = some tb)
    (ra : Regular (h.consensusState ta)) (rb : Regular (h.consensusState tb)) :
    ∃ x y, selectSecureChain h a [b] = (x, .ok ()) ∧ selectSecureChain h b [a] = (y, .ok ()) ∧
      (top x).map (key h) = (top y).map (key h) ∧ (key h ta ≠ key h tb → x = y) := by
  have sab := C35_selected_iff_preferred h a b ta tb ha hb ra.wellFormed rb.wellFormed ra.epochs rb.epochs ra.window.1
  have sba := C35_selected_iff_preferred h b a tb ta hb ha rb.wellFormed ra.wellFormed rb.epochs ra.epochs rb.window.1
  by_cases h1 : Preferred h ta tb
  · have h2 : ¬ Preferred h tb ta := fun hh => preferred_asymm h h1 hh
    exact ⟨b, b, sab.1 h1, sba.2 h2, rfl, fun _ => rfl⟩
  · by_cases h2 : Preferred h tb ta
    · exact ⟨a, a, sab.2 h1, sba.1 h2, rfl, fun _ => rfl⟩
    · have hk := preferred_total h ra rb h1 h2
      exact ⟨a, b, sab.2 h1, sba.2 h2, by rw [ha, hb]; simp [hk], fun hn => absurd hk hn⟩

/-! ## Candidates in another order -/

/-- The density that counts between tips in the same slot. -/
def ownDensity (s : ConsensusState) : Nat :=
  density 1 (s.currGlobalSlot.slotNumber / 11 % 11) s s

/-- `c` is denser than `t`, or as dense and wins by length, digest and hash. -/
def Denser (c t : T) : Prop :=
  ownDensity (h.consensusState t) < ownDensity (h.consensusState c) ∨
  (ownDensity (h.consensusState t) = ownDensity (h.consensusState c) ∧ Beats (key h c) (key h t))

theorem denser_irrefl (a : T) : ¬ Denser h a a := by
  rintro (hh | ⟨-, hh⟩)
  · omega
  · exact beats_irrefl _ hh

theorem denser_trans {a b c : T} (h1 : Denser h a b) (h2 : Denser h b c) : Denser h a c := by
  rcases h1 with h1 | ⟨e1, b1⟩ <;> rcases h2 with h2 | ⟨e2, b2⟩
  · exact .inl (by omega)
  · exact .inl (by omega)
  · exact .inl (by omega)
  · exact .inr ⟨by omega, beats_trans b1 b2⟩

theorem denser_negtrans {a b c : T} (h1 : ¬ Denser h a b) (h2 : ¬ Denser h b c) : ¬ Denser h a c := by
  unfold Denser at *
  simp only [not_or, not_and] at *
  refine ⟨by omega, fun e => ?_⟩
  exact beats_negtrans (h1.2 (by omega)) (h2.2 (by omega))

theorem density_same_slot {a b : T} (ra : Regular (h.consensusState a))
    (hpos : 0 < (h.consensusState a).currGlobalSlot.slotNumber)
    (hslot : (h.consensusState a).currGlobalSlot.slotNumber = (h.consensusState b).currGlobalSlot.slotNumber) :
    relativeMinWindowDensity h [a] [b] = .ok (ownDensity (h.consensusState a)) := by
  rw [C36_defined h [a] [b] a b rfl rfl ra.window.1 ra.wellFormed.window hpos]
  unfold ownDensity density
  rw [← hslot]
  simp

theorem preferred_same_slot {a b : T} (ra : Regular (h.consensusState a)) (rb : Regular (h.consensusState b))
    (hpos : 0 < (h.consensusState a).currGlobalSlot.slotNumber)
    (hslot : (h.consensusState a).currGlobalSlot.slotNumber = (h.consensusState b).currGlobalSlot.slotNumber)
    (hlong : ¬ ShortRange (h.consensusState a) (h.consensusState b)) : Preferred h a b ↔ Denser h b a := by
  have e1 := density_same_slot h ra hpos hslot
  have e2 := density_same_slot h (b := a) rb (by omega) hslot.symm
  constructor
  · rintro (⟨h1, -⟩ | ⟨-, -, d1, d2, f1, f2, hd⟩)
    · exact absurd h1 hlong
    · rw [e1] at f1; rw [e2] at f2
      cases f1; cases f2
      exact hd
  · intro hd
    exact .inr ⟨hlong, rb.window, _, _, e1, e2, hd⟩

/-- The tips are regular, all in one slot, and any two of them that differ are a long-range fork. -/
structure LongRangeField (chains : List (Chain T)) (slot : Nat) : Prop where
  regular : ∀ x ∈ chains, ∃ t, top x = some t ∧ Regular (h.consensusState t) ∧
    (h.consensusState t).currGlobalSlot.slotNumber = slot
  long : ∀ x ∈ chains, ∀ y ∈ chains, ∀ t u, top x = some t → top y = some u → t ≠ u →
    ¬ ShortRange (h.consensusState t) (h.consensusState u)

theorem field_step {self c : Chain T} {cs : List (Chain T)} {slot : Nat} (hslot : 0 < slot)
    (hf : LongRangeField h (self :: c :: cs) slot) {ts tc : T} (hs : top self = some ts) (hc : top c = some tc) :
    (Denser h tc ts ∧ selectSecureChain h self [c] = (c, .ok ())) ∨
    (¬ Denser h tc ts ∧ selectSecureChain h self [c] = (self, .ok ())) := by
  obtain ⟨t1, e1, rs, ss⟩ := hf.regular self (by simp)
  obtain ⟨t2, e2, rc, sc⟩ := hf.regular c (by simp)
  rw [hs] at e1; rw [hc] at e2
  cases e1; cases e2
  have sel := C35_selected_iff_preferred h self c ts tc hs hc rs.wellFormed rc.wellFormed rs.epochs rc.epochs rs.window.1
  by_cases hne : ts = tc
  · subst hne
    refine .inr ⟨denser_irrefl h ts, sel.2 fun hp => preferred_asymm h hp hp⟩
  · have hlong := hf.long self (by simp) c (by simp) ts tc hs hc hne
    have hiff := preferred_same_slot h rs rc (by omega) (by omega) hlong
    by_cases hd : Denser h tc ts
    · exact .inl ⟨hd, sel.1 (hiff.mpr hd)⟩
    · exact .inr ⟨hd, sel.2 fun hp => hd (hiff.mp hp)⟩

theorem field_max (self : Chain T) (cs : List (Chain T)) (slot : Nat) (hslot : 0 < slot)
    (hf : LongRangeField h (self :: cs) slot) :
    (selectSecureChain h self cs).2 = .ok () ∧
    ∃ r, top (selectSecureChain h self cs).1 = some r ∧ ∀ x ∈ self :: cs, ∃ t, top x = some t ∧ ¬ Denser h t r := by
  induction cs generalizing self with
  | nil =>
    obtain ⟨t, e, -⟩ := hf.regular self (by simp)
    refine ⟨rfl, t, e, fun x hx => ?_⟩
    simp only [List.mem_cons, List.not_mem_nil, or_false] at hx
    subst hx
    exact ⟨t, e, denser_irrefl h t⟩
  | cons c cs ih =>
    obtain ⟨ts, hs, -⟩ := hf.regular self (by simp)
    obtain ⟨tc, hc, -⟩ := hf.regular c (by simp)
    have happ : ∀ r, selectSecureChain h self [c] = (r, .ok ()) →
        selectSecureChain h self (c :: cs) = selectSecureChain h r cs := by
      intro r hr
      simp only [selectSecureChain] at hr ⊢
      cases ho : selectOne h self c with
      | error e => rw [ho] at hr; cases hr
      | ok r' => rw [ho] at hr; cases hr; rfl
    have hsub : ∀ r, r = self ∨ r = c → LongRangeField h (r :: cs) slot := by
      intro r hr
      have hm : ∀ x ∈ r :: cs, x ∈ self :: c :: cs := by
        intro x hx
        simp only [List.mem_cons] at hx ⊢
        rcases hx with rfl | hx
        · rcases hr with rfl | rfl <;> simp
        · exact .inr (.inr hx)
      exact ⟨fun x hx => hf.regular x (hm x hx), fun x hx y hy => hf.long x (hm x hx) y (hm y hy)⟩
    rcases field_step h hslot hf hs hc with ⟨hd, hsel⟩ | ⟨hd, hsel⟩
    · rw [happ c hsel]
      obtain ⟨h1, r, h2, h3⟩ := ih c (hsub c (.inr rfl))
      refine ⟨h1, r, h2, fun x hx => ?_⟩
      simp only [List.mem_cons] at hx h3
      rcases hx with rfl | hx
      · refine ⟨ts, hs, ?_⟩
        obtain ⟨tx, e, hn⟩ := h3 c (.inl rfl)
        rw [hc] at e; cases e
        intro hh
        exact hn (denser_trans h hd hh)
      · exact h3 x hx
    · rw [happ self hsel]
      obtain ⟨h1, r, h2, h3⟩ := ih self (hsub self (.inl rfl))
      refine ⟨h1, r, h2, fun x hx => ?_⟩
      simp only [List.mem_cons] at hx h3
      rcases hx with rfl | rfl | hx
      · exact h3 _ (.inl rfl)
      · refine ⟨tc, hc, ?_⟩
        obtain ⟨tx, e, hn⟩ := h3 self (.inl rfl)
        rw [hs] at e; cases e
        exact denser_negtrans h hd hn
      · exact h3 x (.inr hx)

/-- **C116 (part, order).** Among regular tips in one slot, any two of which are a long-range fork, the order in which
candidates are offered does not matter: the selected tips agree on density, length, VRF digest and state hash.  Missing:
fields with short-range forks among long-range ones (`C116_order_fails`), and
tips in different slots (`C116_slots_circle_fails`). -/
theorem C116_long_range_order_partial (self : Chain T) (candidates candidates' : List (Chain T)) (slot : Nat) (hslot : 0 < slot)
    (hperm : candidates.Perm candidates') (hf : LongRangeField h (self :: candidates) slot) :
    ∃ r r', top (selectSecureChain h self candidates).1 = some r ∧ top (selectSecureChain h self candidates').1 = some r' ∧
      key h r = key h r' ∧
      ((∀ x ∈ self :: candidates, ∀ y ∈ self :: candidates, (top x).map (key h) = (top y).map (key h) → x = y) →
        (selectSecureChain h self candidates).1 = (selectSecureChain h self candidates').1) := by
  have hsub : ∀ x, x ∈ self :: candidates ↔ x ∈ self :: candidates' := by
    intro x; simp only [List.mem_cons, hperm.mem_iff]
  have hf' : LongRangeField h (self :: candidates') slot :=
    ⟨fun x hx => hf.regular x ((hsub x).mpr hx), fun x hx y hy => hf.long x ((hsub x).mpr hx) y ((hsub y).mpr hy)⟩
  obtain ⟨-, r, t1, b1⟩ := field_max h self candidates slot hslot hf
  obtain ⟨-, r', t2, b2⟩ := field_max h self candidates' slot hslot hf'
  have m1 := selectSecureChain_mem (h := h) self candidates
  have m2 := selectSecureChain_mem (h := h) self candidates'
  have hk : key h r = key h r' := by
    obtain ⟨x, e, n1⟩ := b1 _ ((hsub _).mpr m2)
    obtain ⟨y, e', n2⟩ := b2 _ ((hsub _).mp m1)
    rw [t2] at e; rw [t1] at e'
    cases e; cases e'
    unfold Denser at n1 n2
    simp only [not_or, not_and] at n1 n2
    rcases beats_total (key h r) (key h r') with hh | hh | hh
    · exact absurd hh (n2.2 (by omega))
    · exact hh
    · exact absurd hh (n1.2 (by omega))
  refine ⟨r, r', t1, t2, hk, fun hinj => ?_⟩
  exact hinj _ m1 _ ((hsub _).mpr m2) (by rw [t1, t2]; simp [hk])

/-! ## Gossip

Nodes are numbered; in every step one node offers its chain to another, in any order and as often as it likes. -/

/-- Node `i` offers its chain to node `j`. -/
def offer (nodes : Nat → Chain T) (i j : Nat) : Nat → Chain T :=
  fun k => if k = j then (selectSecureChain h (nodes j) [nodes i]).1 else nodes k

/-- The chains of the nodes after these offers. -/
def gossip (nodes : Nat → Chain T) : List (Nat × Nat) → Nat → Chain T
  | [] => nodes
  | (i, j) :: offers => gossip (offer h nodes i j) offers

/-- Who has heard, after these offers, directly or through others, from one of `who`. -/
def heard (who : Nat → Prop) : List (Nat × Nat) → Nat → Prop
  | [] => who
  | (i, j) :: offers => heard (fun k => who k ∨ (k = j ∧ who i)) offers

/-- Among these chains, `better` decides. -/
structure Decides (chains : Chain T → Prop) (better : T → T → Prop) : Prop where
  step : ∀ x y t u, chains x → chains y → top x = some t → top y = some u →
    (better u t ∧ (selectSecureChain h x [y]).1 = y) ∨ (¬ better u t ∧ (selectSecureChain h x [y]).1 = x)
  tip : ∀ x, chains x → ∃ t, top x = some t
  negtrans : ∀ a b c, ¬ better a b → ¬ better b c → ¬ better a c
  asymm : ∀ a b, better a b → ¬ better b a

theorem gossip_best {chains : Chain T → Prop} {better : T → T → Prop} (hd : Decides h chains better)
    (offers : List (Nat × Nat)) (nodes : Nat → Chain T) (hc : ∀ k, chains (nodes k)) (who : Nat → Prop)
    (best : T → Prop) (hbest : ∀ b, best b → ∀ x t, chains x → top x = some t → ¬ better t b)
    (hself : ∀ b t, best b → ¬ better b t → (∃ x, chains x ∧ top x = some t) → best t)
    (hw : ∀ k, who k → ∃ b, top (nodes k) = some b ∧ best b) (k : Nat) (hk : heard who offers k) :
    ∃ b, top (gossip h nodes offers k) = some b ∧ best b := by
  induction offers generalizing nodes who with
  | nil => exact hw k hk
  | cons e offers ih =>
    obtain ⟨i, j⟩ := e
    obtain ⟨tj, ej⟩ := hd.tip _ (hc j)
    obtain ⟨ti, ei⟩ := hd.tip _ (hc i)
    have hstep := hd.step _ _ _ _ (hc j) (hc i) ej ei
    have hc' : ∀ k, chains (offer h nodes i j k) := by
      intro k
      unfold offer
      split
      · rcases hstep with ⟨-, h1⟩ | ⟨-, h1⟩ <;> rw [h1] <;> exact hc _
      · exact hc k
    refine ih (offer h nodes i j) hc' _ ?_ hk
    rintro k (hwk | ⟨rfl, hwi⟩)
    · obtain ⟨b, e1, hb⟩ := hw k hwk
      unfold offer
      split
      · rename_i hkj
        subst hkj
        rw [ej] at e1; cases e1
        rcases hstep with ⟨h1, -⟩ | ⟨-, h1⟩
        · exact absurd h1 (hbest _ hb _ _ (hc i) ei)
        · rw [h1]; exact ⟨_, ej, hb⟩
      · exact ⟨b, e1, hb⟩
    · obtain ⟨b, e1, hb⟩ := hw i hwi
      rw [ei] at e1; cases e1
      unfold offer
      rw [if_pos rfl]
      rcases hstep with ⟨-, h1⟩ | ⟨h0, h1⟩
      · rw [h1]; exact ⟨_, ei, hb⟩
      · rw [h1]; exact ⟨_, ej, hself _ _ hb h0 ⟨_, hc _, ej⟩⟩

theorem decides_short {chains : Chain T → Prop}
    (hreg : ∀ x, chains x → ∃ t, top x = some t ∧ Regular (h.consensusState t))
    (hshort : ∀ x y t u, chains x → chains y → top x = some t → top y = some u → ShortRange (h.consensusState t) (h.consensusState u)) :
    Decides h chains (fun a b => Beats (key h a) (key h b)) := by
  refine ⟨fun x y t u hx hy ht hu => ?_, fun x hx => ?_, fun a b c => beats_negtrans, fun a b h1 h2 => beats_asymm h1 h2⟩
  · obtain ⟨t', e1, rt⟩ := hreg x hx
    obtain ⟨u', e2, ru⟩ := hreg y hy
    rw [ht] at e1; rw [hu] at e2
    cases e1; cases e2
    have sel := C35_selected_iff_preferred h x y t u ht hu rt.wellFormed ru.wellFormed rt.epochs ru.epochs rt.window.1
    by_cases hb : Beats (key h u) (key h t)
    · exact .inl ⟨hb, by rw [sel.1 (.inl ⟨hshort x y t u hx hy ht hu, hb⟩)]⟩
    · have hn : ¬ Preferred h t u := by
        rintro (⟨-, hh⟩ | ⟨hn, -⟩)
        · exact hb hh
        · exact hn (hshort x y t u hx hy ht hu)
      exact .inr ⟨hb, by rw [sel.2 hn]⟩
  · obtain ⟨t, e, -⟩ := hreg x hx
    exact ⟨t, e⟩

/-- **C116 (part, many nodes).** Regular tips that are pairwise short-range forks, at any number of nodes: whatever the
order of the offers, every node that has heard from the holder of the best tip, directly or through others, has a tip with
the same length, VRF digest and state hash.  Missing: fields that are not of one kind (`C116_circle_fails`). -/
theorem C116_gossip_short_range_partial (nodes : Nat → Chain T)
    (hreg : ∀ k, ∃ t, top (nodes k) = some t ∧ Regular (h.consensusState t))
    (hshort : ∀ j k t u, top (nodes j) = some t → top (nodes k) = some u → ShortRange (h.consensusState t) (h.consensusState u))
    (m : Nat) (tm : T) (hm : top (nodes m) = some tm)
    (hbest : ∀ k t, top (nodes k) = some t → ¬ Beats (key h t) (key h tm))
    (offers : List (Nat × Nat)) (k : Nat) (hk : heard (fun k => k = m) offers k) :
    ∃ t, top (gossip h nodes offers k) = some t ∧ key h t = key h tm := by
  have hd := decides_short h (chains := fun x => ∃ k, x = nodes k) (fun x ⟨k, e⟩ => e ▸ hreg k)
    (fun x y t u ⟨i, ex⟩ ⟨j, ey⟩ ht hu => hshort i j t u (ex ▸ ht) (ey ▸ hu))
  refine gossip_best h hd offers nodes (fun k => ⟨k, rfl⟩) (fun k => k = m) (fun t => key h t = key h tm) ?_ ?_ ?_ k hk
  · rintro b hb x t ⟨i, rfl⟩ ht
    rw [hb]
    exact hbest i t ht
  · rintro b t hb hn ⟨x, ⟨i, rfl⟩, ht⟩
    rw [hb] at hn
    rcases beats_total (key h t) (key h tm) with hh | hh | hh
    · exact absurd hh (hbest i t ht)
    · exact hh
    · exact absurd hh hn
  · rintro k rfl
    exact ⟨tm, hm, rfl⟩

/-- **C116 (part, many nodes).** The same for tips in one slot that are pairwise long-range forks. -/
theorem C116_gossip_long_range_partial (nodes : Nat → Chain T) (slot : Nat) (hslot : 0 < slot)
    (hreg : ∀ k, ∃ t, top (nodes k) = some t ∧ Regular (h.consensusState t) ∧
      (h.consensusState t).currGlobalSlot.slotNumber = slot)
    (hlong : ∀ j k t u, top (nodes j) = some t → top (nodes k) = some u → t ≠ u →
      ¬ ShortRange (h.consensusState t) (h.consensusState u))
    (m : Nat) (tm : T) (hm : top (nodes m) = some tm)
    (hbest : ∀ k t, top (nodes k) = some t → ¬ Denser h t tm)
    (offers : List (Nat × Nat)) (k : Nat) (hk : heard (fun k => k = m) offers k) :
    ∃ t, top (gossip h nodes offers k) = some t ∧ key h t = key h tm := by
  have hd : Decides h (fun x => ∃ k, x = nodes k) (Denser h) := by
    refine ⟨?_, ?_, fun a b c => denser_negtrans h, fun a b h1 h2 => denser_irrefl h _ (denser_trans h h1 h2)⟩
    · rintro x y t u ⟨i, rfl⟩ ⟨j, rfl⟩ ht hu
      have hf : LongRangeField h [nodes i, nodes j] slot := by
        have hm : ∀ x ∈ [nodes i, nodes j], ∃ k, x = nodes k := by
          intro x hx
          simp only [List.mem_cons, List.not_mem_nil, or_false] at hx
          rcases hx with rfl | rfl
          · exact ⟨i, rfl⟩
          · exact ⟨j, rfl⟩
        refine ⟨fun x hx => ?_, fun x hx y hy => ?_⟩
        · obtain ⟨k, rfl⟩ := hm x hx
          exact hreg k
        · obtain ⟨k, rfl⟩ := hm x hx
          obtain ⟨l, rfl⟩ := hm y hy
          exact hlong k l
      rcases field_step h hslot hf ht hu with ⟨h1, h2⟩ | ⟨h1, h2⟩
      · exact .inl ⟨h1, by rw [h2]⟩
      · exact .inr ⟨h1, by rw [h2]⟩
    · rintro x ⟨k, rfl⟩
      obtain ⟨t, e, -⟩ := hreg k
      exact ⟨t, e⟩
  have hall : ∃ t, top (gossip h nodes offers k) = some t ∧ ¬ Denser h tm t ∧ ¬ Denser h t tm := by
    refine gossip_best h hd offers nodes (fun k => ⟨k, rfl⟩) (fun k => k = m)
      (fun t => ¬ Denser h tm t ∧ ¬ Denser h t tm) ?_ ?_ ?_ k hk
    · rintro b ⟨hb, -⟩ x t ⟨i, rfl⟩ ht
      exact denser_negtrans h (hbest i t ht) hb
    · rintro b t ⟨hb, -⟩ hn ⟨x, ⟨i, rfl⟩, ht⟩
      exact ⟨denser_negtrans h hb hn, hbest i t ht⟩
    · rintro k rfl
      exact ⟨tm, hm, denser_irrefl h _, denser_irrefl h _⟩
  obtain ⟨t, ht, h1, h2⟩ := hall
  refine ⟨t, ht, ?_⟩
  unfold Denser at h1 h2
  simp only [not_or, not_and] at h1 h2
  rcases beats_total (key h t) (key h tm) with hh | hh | hh
  · exact absurd hh (h2.2 (by omega))
  · exact hh
  · exact absurd hh (h1.2 (by omega))

/-! ## Witnesses -/

/-- A regular block of epoch 4. -/
def agBlockAt (slot len density : Nat) (lock : List UInt8) (hash : Nat) : ConsensusState × Nat :=
  (⟨len, 4, density, [7, 7, 7, 7, 7, 7, 7, 7, 7, 7, 7], [], ⟨slot, 7140⟩, ⟨lock⟩, ⟨[]⟩⟩, hash)

/-- The same in slot 30000. -/
def agBlock := agBlockAt 30000

theorem agBlock_regular (slot len density : Nat) (lock : List UInt8) (hash : Nat) :
    Regular (exHeader.consensusState (agBlockAt slot len density lock hash)) := by
  refine ⟨⟨?_, ?_, ?_⟩, rfl, rfl, ?_⟩
  · show 0 < 7140; decide
  · show 4 + 1 < 2 ^ 32; decide
  · show [7, 7, 7, 7, 7, 7, 7, 7, 7, 7, 7].sum < 2 ^ 32; decide
  · show ∀ d ∈ [7, 7, 7, 7, 7, 7, 7, 7, 7, 7, 7], d ≤ 7; decide

/-- **C116** is false for candidates in another order: from the same chain, the same two candidates lead to different
chains.  The second is a longer short-range fork with a lower density, and the third a long-range fork between the two in
density; all tips are regular and in one slot. -/
theorem C116_order_fails : ∃ x y z : ConsensusState × Nat,
    Regular x.1 ∧ Regular y.1 ∧ Regular z.1 ∧
    selectSecureChain exHeader [x] [[y], [z]] = ([z], .ok ()) ∧
    selectSecureChain exHeader [x] [[z], [y]] = ([y], .ok ()) ∧ key exHeader y ≠ key exHeader z :=
  ⟨agBlock 10 50 [3] 1, agBlock 11 30 [3] 2, agBlock 5 40 [5] 3, agBlock_regular 30000 _ _ _ 1, agBlock_regular 30000 _ _ _ 2,
    agBlock_regular 30000 _ _ _ 3,
    by decide +kernel, by decide +kernel, by decide⟩

/-- **C116** is false also in that a node can be led in a circle, back to a chain it has left: each step replaces the
current chain by a preferred one. -/
theorem C116_circle_fails : ∃ x y z : ConsensusState × Nat,
    Regular x.1 ∧ Regular y.1 ∧ Regular z.1 ∧ x ≠ y ∧ y ≠ z ∧ z ≠ x ∧
    selectSecureChain exHeader [x] [[y]] = ([y], .ok ()) ∧ selectSecureChain exHeader [y] [[z]] = ([z], .ok ()) ∧
    selectSecureChain exHeader [z] [[x]] = ([x], .ok ()) :=
  ⟨agBlock 10 50 [3] 1, agBlock 11 30 [3] 2, agBlock 5 40 [5] 3, agBlock_regular 30000 _ _ _ 1, agBlock_regular 30000 _ _ _ 2,
    agBlock_regular 30000 _ _ _ 3,
    by decide, by decide, by decide, by decide +kernel, by decide +kernel, by decide +kernel⟩

/-- **C116** is false also for tips that are pairwise long-range forks, when they lie in different slots: ten slots are
enough for a circle. -/
theorem C116_slots_circle_fails : ∃ x y z : ConsensusState × Nat,
    Regular x.1 ∧ Regular y.1 ∧ Regular z.1 ∧
    ¬ ShortRange x.1 y.1 ∧ ¬ ShortRange y.1 z.1 ∧ ¬ ShortRange z.1 x.1 ∧
    selectSecureChain exHeader [y] [[x]] = ([x], .ok ()) ∧ selectSecureChain exHeader [x] [[z]] = ([z], .ok ()) ∧
    selectSecureChain exHeader [z] [[y]] = ([y], .ok ()) :=
  ⟨agBlockAt 30000 10 77 [3] 1, agBlockAt 30005 11 30 [4] 2, agBlockAt 30010 12 20 [5] 3, agBlock_regular _ _ _ _ 1,
    agBlock_regular _ _ _ _ 2, agBlock_regular _ _ _ _ 3,
    by simp [ShortRange, OneEpochAhead, agBlockAt], by simp [ShortRange, OneEpochAhead, agBlockAt],
    by simp [ShortRange, OneEpochAhead, agBlockAt], by decide +kernel, by decide +kernel, by decide +kernel⟩

/-- **C116** is false for two nodes when a window is malformed: each keeps its own chain.  (A chain with such a window
can have been taken over as a short-range fork, for which windows are not checked.) -/
theorem C116_bad_window_fails : ∃ x y : ConsensusState × Nat,
    WellFormed x.1 ∧ WellFormed y.1 ∧ Regular x.1 ∧ y.1.subWindowDensities.length = 11 ∧ key exHeader x ≠ key exHeader y ∧
    selectSecureChain exHeader [x] [[y]] = ([x], .ok ()) ∧ selectSecureChain exHeader [y] [[x]] = ([y], .ok ()) :=
  ⟨agBlock 10 30 [3] 1, (⟨9, 4, 40, [8, 7, 7, 7, 7, 7, 7, 7, 7, 7, 7], [], ⟨30000, 7140⟩, ⟨[5]⟩, ⟨[]⟩⟩, 2),
    ⟨by decide, by decide, by decide⟩, ⟨by decide, by decide, by decide⟩, agBlock_regular 30000 _ _ _ 1, rfl, by decide, by decide +kernel,
    by decide +kernel⟩

/-- Nodes with three short-range forks. -/
def exNodes : Nat → Chain (ConsensusState × Nat)
  | 0 => [agBlock 10 50 [3] 1]
  | 1 => [agBlock 11 30 [3] 2]
  | _ => [agBlock 12 40 [3] 3]

/-- The best tip is at node 2, and reaches node 0 through node 1. -/
example : (∀ k, ∃ t, top (exNodes k) = some t ∧ Regular (exHeader.consensusState t)) ∧
    (∀ j k t u, top (exNodes j) = some t → top (exNodes k) = some u →
      ShortRange (exHeader.consensusState t) (exHeader.consensusState u)) ∧
    (∀ k t, top (exNodes k) = some t → ¬ Beats (key exHeader t) (key exHeader (agBlock 12 40 [3] 3))) ∧
    heard (fun k => k = 2) [(0, 1), (2, 1), (1, 0)] 0 ∧
    gossip exHeader exNodes [(0, 1), (2, 1), (1, 0)] 0 = [agBlock 12 40 [3] 3] := by
  have ht : ∀ k t, top (exNodes k) = some t → t = agBlock 10 50 [3] 1 ∨ t = agBlock 11 30 [3] 2 ∨ t = agBlock 12 40 [3] 3 := by
    intro k t e
    unfold exNodes at e
    split at e <;> cases e <;> simp
  refine ⟨fun k => ?_, fun j k t u e1 e2 => ?_, fun k t e => ?_, by simp [heard], by decide +kernel⟩
  · unfold exNodes
    split <;> exact ⟨_, rfl, agBlock_regular ..⟩
  · rcases ht j t e1 with rfl | rfl | rfl <;> rcases ht k u e2 with rfl | rfl | rfl <;> exact .inl ⟨rfl, rfl⟩
  · rcases ht k t e with rfl | rfl | rfl <;> decide +kernel

example : LongRangeField exHeader [[agBlock 10 50 [3] 1], [agBlock 11 30 [4] 2], [agBlock 5 40 [5] 3]] 30000 := by
  refine ⟨fun x hx => ?_, fun x hx y hy t u ht hu hne => ?_⟩
  · simp only [List.mem_cons, List.not_mem_nil, or_false] at hx
    rcases hx with rfl | rfl | rfl <;> exact ⟨_, rfl, agBlock_regular .., rfl⟩
  · simp only [List.mem_cons, List.not_mem_nil, or_false] at hx hy
    rcases hx with rfl | rfl | rfl <;> rcases hy with rfl | rfl | rfl <;> cases ht <;> cases hu <;>
      first
        | exact absurd rfl hne
        | (simp [ShortRange, OneEpochAhead, exHeader, agBlock, agBlockAt])

end MinaRs.Consensus
