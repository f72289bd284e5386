import Verif.Consensus.Density

/-!
# Properties of chain selection (C30–C38)

`h` is what chain selection sees of a block: its consensus state, its state hash and the digest
function; all three are arbitrary.  `top c` is the last block of the chain `c`.
-/

namespace MinaRs.Consensus
open Spec

variable {T : Type} (h : Header T)

/-! ## Concrete chains for the examples -/

/-- Blocks for the examples: a consensus state and a state hash; the digest is the identity. -/
def exHeader : Header (ConsensusState × Nat) := ⟨Prod.fst, Prod.snd, id⟩

/-- A block of mainnet shape. -/
def exBlock (len epoch slot : Nat) (vrf : List UInt8) (lock nextLock : List UInt8) (hash : Nat) : ConsensusState × Nat :=
  (⟨len, epoch, 40, [1, 7, 7, 7, 7, 7, 7, 7, 7, 7, 7], vrf, ⟨slot, 7140⟩, ⟨lock⟩, ⟨nextLock⟩⟩, hash)

/-! ## C30 -/

/-- Pushing blocks one after another; a refused push leaves the chain as `push` left it. -/
def pushes (c : Chain T) : List T → Chain T
  | [] => c
  | b :: bs => pushes (push h c b).1 bs

theorem push_cases (c : Chain T) (b : T) :
    (push h c b = (c ++ [b], .ok ()) ∧ ∀ last, top c = some last → h.getHeight b = h.getHeight last + 1) ∨
    ((push h c b).1 = c ∧ (push h c b).2 ≠ .ok ()) := by
  unfold push top
  cases hl : c.getLast? with
  | none => left; exact ⟨rfl, fun last hh => by cases hh⟩
  | some last =>
    simp only [add32]
    by_cases hov : h.getHeight last + 1 < 2 ^ 32
    · simp only [hov, if_true]
      by_cases he : h.getHeight b = h.getHeight last + 1
      · left; simp [he]
      · right; simp [he]
    · right; simp [hov]

theorem consecutive_snoc (l : List Nat) (x : Nat) (hl : Consecutive l) (hx : ∀ y, l.getLast? = some y → x = y + 1) :
    Consecutive (l ++ [x]) := by
  induction l with
  | nil => simp [Consecutive]
  | cons a l ih =>
    cases l with
    | nil => simp only [List.cons_append, List.nil_append, Consecutive, and_true]; exact hx a rfl
    | cons b l =>
      simp only [List.cons_append, Consecutive] at *
      exact ⟨hl.1, ih hl.2 (by simpa using hx)⟩

/-- C30: whatever blocks are pushed, in whatever order, the heights in the chain increase by
exactly one. -/
theorem C30_consecutive_heights (bs : List T) : Consecutive ((pushes h [] bs).map h.getHeight) := by
  suffices hgen : ∀ c : Chain T, Consecutive (c.map h.getHeight) → Consecutive ((pushes h c bs).map h.getHeight) from
    hgen [] trivial
  induction bs with
  | nil => intro c hc; exact hc
  | cons b bs ih =>
    intro c hc
    rw [pushes]
    apply ih
    rcases push_cases h c b with ⟨h1, h2⟩ | ⟨h1, _⟩
    · rw [h1]
      simp only [List.map_append, List.map_cons, List.map_nil]
      apply consecutive_snoc _ _ hc
      intro y hy
      rw [List.getLast?_map] at hy
      cases hl : c.getLast? with
      | none => simp [hl] at hy
      | some last => simp only [hl, Option.map_some, Option.some.injEq] at hy; rw [← hy]; exact h2 last hl
    · rw [h1]; exact hc

example : (pushes exHeader [] [exBlock 5 0 0 [] [] [] 0, exBlock 7 0 0 [] [] [] 0, exBlock 6 0 0 [] [] [] 0, exBlock 7 0 0 [] [] [] 1]).map exHeader.getHeight = [5, 6, 7] := by decide

/-- C30: a push onto an empty chain is accepted; a push onto a chain with last height `n` is
accepted exactly for height `n + 1`, and otherwise refused with the chain unchanged.
Missing: a last height equal to the greatest `u32` (see below). -/
theorem C30_push_rule_partial (c : Chain T) (b : T) (hmax : ∀ last, top c = some last → h.getHeight last + 1 < 2 ^ 32) :
    push h c b =
      match top c with
      | none => ([b], .ok ())
      | some last => if h.getHeight b = h.getHeight last + 1 then (c ++ [b], .ok ()) else (c, .error .invalidHeight) := by
  unfold push top at *
  cases hl : c.getLast? with
  | none => rw [List.getLast?_eq_none_iff] at hl; simp [hl]
  | some last =>
    have := hmax last hl
    simp only [add32, this, if_true]
    by_cases he : h.getHeight b = h.getHeight last + 1 <;> simp [he]

example : push exHeader [exBlock 5 0 0 [] [] [] 0] (exBlock 7 0 0 [] [] [] 0) = ([exBlock 5 0 0 [] [] [] 0], .error .invalidHeight) :=
  C30_push_rule_partial _ _ _ (by intro last hl; cases hl; decide)

/-- C30 fails at the greatest height, for every such chain and every block: the push panics instead of being refused (in a
release build the height wraps around and a block of height 0 is accepted).  The chain stays as it is. -/
theorem C30_greatest_height_fails (c : Chain T) (last b : T) (hl : top c = some last) (hmax : 2 ^ 32 ≤ h.getHeight last + 1) :
    push h c b = (c, .error (.panic "attempt to add with overflow")) := by
  unfold push top at *
  rw [hl]
  simp only [add32, if_neg (Nat.not_lt.mpr hmax)]

example : push exHeader [exBlock (2 ^ 32 - 1) 0 0 [] [] [] 0] (exBlock 3 0 0 [] [] [] 0) =
    ([exBlock (2 ^ 32 - 1) 0 0 [] [] [] 0], .error (.panic "attempt to add with overflow")) :=
  C30_greatest_height_fails _ _ (exBlock (2 ^ 32 - 1) 0 0 [] [] [] 0) _ rfl (by decide)

/-! ## C31 -/

/-- C31: after `select_secure_chain`, successful or not, the chain is the previous chain or one
of the candidates, unmodified. -/
theorem C31_selected_was_offered (self : Chain T) (candidates : List (Chain T)) :
    (selectSecureChain h self candidates).1 = self ∨ (selectSecureChain h self candidates).1 ∈ candidates := by
  have := selectSecureChain_mem (h := h) self candidates
  simpa using this

/-- A run that stops with an error after having switched to a candidate. -/
example : selectSecureChain exHeader [exBlock 5 0 2000 [] [1] [] 0] [[exBlock 9 0 2000 [] [1] [] 0], []] =
    ([exBlock 9 0 2000 [] [1] [] 0], .error .consensusStateNotFound) := by decide

/-! ## C32 -/

/-- Every candidate is a short-range fork of the chain selected when it is considered. -/
def ShortRangeRun (self : Chain T) (candidates : List (Chain T)) : Prop :=
  ∀ pre c post, candidates = pre ++ c :: post → isShortRange h (selectSecureChain h self pre).1 c = .ok true

theorem shortRangeRun_cons {self c : Chain T} {cs : List (Chain T)} {ts tc : T} (hs : top self = some ts) (hc : top c = some tc)
    (hrun : ShortRangeRun h self (c :: cs)) :
    isShortRange h self c = .ok true ∧ ShortRangeRun h (if Beats (key h tc) (key h ts) then c else self) cs := by
  have h0 := hrun [] c cs rfl
  refine ⟨h0, fun pre d post hd => ?_⟩
  have := hrun (c :: pre) d post (by rw [hd]; rfl)
  rw [selectSecureChain, selectOne_short hs hc h0] at this
  exact this

theorem shortRange_max (self : Chain T) (cs : List (Chain T)) (ts : T) (hs : top self = some ts) (hrun : ShortRangeRun h self cs) :
    (selectSecureChain h self cs).2 = .ok () ∧
    ∃ tr, top (selectSecureChain h self cs).1 = some tr ∧
      ∀ x ∈ self :: cs, ∃ tx, top x = some tx ∧ ¬ Beats (key h tx) (key h tr) := by
  induction cs generalizing self ts with
  | nil =>
    refine ⟨rfl, ts, hs, fun x hx => ?_⟩
    simp only [List.mem_cons, List.not_mem_nil, or_false] at hx
    subst hx
    exact ⟨ts, hs, beats_irrefl _⟩
  | cons c cs ih =>
    have h0 := hrun [] c cs rfl
    obtain ⟨_, tc, _, hc⟩ := isShortRange_tops h0
    obtain ⟨_, hrun'⟩ := shortRangeRun_cons h hs hc hrun
    rw [selectSecureChain, selectOne_short hs hc h0]
    simp only
    by_cases hb : Beats (key h tc) (key h ts)
    · simp only [hb, if_true] at hrun' ⊢
      obtain ⟨h1, tr, h2, h3⟩ := ih c tc hc hrun'
      refine ⟨h1, tr, h2, fun x hx => ?_⟩
      simp only [List.mem_cons] at hx h3
      rcases hx with rfl | hx
      · refine ⟨ts, hs, ?_⟩
        obtain ⟨tx, e, hn⟩ := h3 c (.inl rfl)
        have : tx = tc := by rw [hc] at e; exact (Option.some.inj e).symm
        subst this
        intro hh
        exact hn (beats_trans hb hh)
      · exact h3 x hx
    · simp only [hb, if_false] at hrun' ⊢
      obtain ⟨h1, tr, h2, h3⟩ := ih self ts hs hrun'
      refine ⟨h1, tr, h2, fun x hx => ?_⟩
      simp only [List.mem_cons] at hx h3
      rcases hx with rfl | rfl | hx
      · exact h3 _ (.inl rfl)
      · refine ⟨tc, hc, ?_⟩
        obtain ⟨tx, e, hn⟩ := h3 self (.inl rfl)
        have : tx = ts := by rw [hs] at e; exact (Option.some.inj e).symm
        subst this
        exact beats_negtrans hb hn
      · exact h3 x (.inr hx)

/-- C32: when every candidate is a short-range fork of the chain selected so far, selection
succeeds, and the selected chain is one of the offered ones and no offered chain beats it by
(length, VRF digest, state hash); in particular none is longer. -/
theorem C32_selected_is_maximum (self : Chain T) (candidates : List (Chain T)) (hne : self ≠ [])
    (hrun : ShortRangeRun h self candidates) :
    (selectSecureChain h self candidates).2 = .ok () ∧
    (selectSecureChain h self candidates).1 ∈ self :: candidates ∧
    ∃ r, top (selectSecureChain h self candidates).1 = some r ∧
      ∀ x ∈ self :: candidates, ∃ t, top x = some t ∧ ¬ Beats (key h t) (key h r) ∧
        length h x ≤ length h (selectSecureChain h self candidates).1 := by
  obtain ⟨h1, r, h2, h3⟩ := shortRange_max h self candidates _ (List.getLast?_eq_some_getLast hne) hrun
  refine ⟨h1, selectSecureChain_mem _ _, r, h2, fun x hx => ?_⟩
  obtain ⟨t, e, hn⟩ := h3 x hx
  refine ⟨t, e, hn, ?_⟩
  simp only [length, consensusState_some e, consensusState_some h2]
  simp only [Beats, key, not_or] at hn
  omega

/-- C32: the order in which short-range candidates are offered does not matter: the selected tips
agree on length, VRF digest and state hash, and the selected chains are equal if chains that agree
on all three are. -/
theorem C32_order_independent (self : Chain T) (candidates candidates' : List (Chain T)) (hne : self ≠ [])
    (hperm : candidates.Perm candidates') (hrun : ShortRangeRun h self candidates) (hrun' : ShortRangeRun h self candidates') :
    ∃ r r', top (selectSecureChain h self candidates).1 = some r ∧ top (selectSecureChain h self candidates').1 = some r' ∧
      key h r = key h r' ∧
      ((∀ x ∈ self :: candidates, ∀ y ∈ self :: candidates, (top x).map (key h) = (top y).map (key h) → x = y) →
        (selectSecureChain h self candidates).1 = (selectSecureChain h self candidates').1) := by
  obtain ⟨-, m1, r, t1, b1⟩ := C32_selected_is_maximum h self candidates hne hrun
  obtain ⟨-, m2, r', t2, b2⟩ := C32_selected_is_maximum h self candidates' hne hrun'
  have hsub : ∀ x, x ∈ self :: candidates ↔ x ∈ self :: candidates' := by
    intro x; simp only [List.mem_cons, hperm.mem_iff]
  have hk : key h r = key h r' := by
    obtain ⟨x, e, n1, -⟩ := b1 _ ((hsub _).mpr m2)
    obtain ⟨y, e', n2, -⟩ := b2 _ ((hsub _).mp m1)
    rw [t2] at e; rw [t1] at e'
    cases e; cases e'
    rcases beats_total (key h r) (key h r') with hh | hh | hh
    · exact absurd hh n2
    · exact hh
    · exact absurd hh n1
  refine ⟨r, r', t1, t2, hk, fun hinj => ?_⟩
  exact hinj _ m1 _ ((hsub _).mpr m2) (by rw [t1, t2]; simp [hk])

/-- In a common situation the hypothesis is met in every order: all chains in one epoch with one
staking lock checkpoint. -/
theorem shortRangeRun_of_same_epoch (self : Chain T) (candidates : List (Chain T)) (epoch : Nat) (lock : List UInt8)
    (hall : ∀ x ∈ self :: candidates, ∃ t, top x = some t ∧ (h.consensusState t).epochCount = epoch ∧
      (h.consensusState t).stakingEpochData.lockCheckpoint = lock) : ShortRangeRun h self candidates := by
  intro pre c post hc
  have hm := selectSecureChain_mem (h := h) self pre
  obtain ⟨t, e1, e2, e3⟩ := hall (selectSecureChain h self pre).1 (by
    simp only [List.mem_cons] at hm ⊢
    rcases hm with hm | hm
    · exact .inl hm
    · right; rw [hc]; simp [hm])
  obtain ⟨t', f1, f2, f3⟩ := hall c (by rw [hc]; simp)
  unfold isShortRange
  rw [consensusState_some e1, consensusState_some f1]
  simp [e2, e3, f2, f3]

example : ShortRangeRun exHeader [exBlock 5 0 2000 [1] [1] [] 0]
    [[exBlock 6 0 2000 [1] [1] [] 0], [exBlock 6 0 2000 [2] [1] [] 3], [exBlock 6 0 2000 [2] [1] [] 4]] :=
  shortRangeRun_of_same_epoch _ _ _ 0 [1] (by
    intro x hx
    simp only [List.mem_cons, List.not_mem_nil, or_false] at hx
    rcases hx with rfl | rfl | rfl | rfl <;> exact ⟨_, rfl, rfl, rfl⟩)

example : (selectSecureChain exHeader [exBlock 5 0 2000 [1] [1] [] 0]
    [[exBlock 6 0 2000 [2] [1] [] 3], [exBlock 6 0 2000 [2] [1] [] 4], [exBlock 6 0 2000 [1] [1] [] 9]]).1 =
    [exBlock 6 0 2000 [2] [1] [] 4] := by decide

/-! ## C33 -/

/-- C33: if both questions get an answer, it is the same. -/
theorem C33_answers_agree (a b : Chain T) (x y : Bool) (hx : isShortRange h a b = .ok x) (hy : isShortRange h b a = .ok y) :
    x = y := by
  obtain ⟨ta, tb, ha, hb⟩ := isShortRange_tops hx
  rw [isShortRange_ok ha hb hx, isShortRange_ok hb ha hy]
  simp only [shortProp_comm]

/-- C33: the two directions give the same result, error or answer, for all chains whose tips have
a positive epoch length and an epoch counter below the greatest `u32`.  Missing: the other tips,
on which one direction may panic. -/
theorem C33_symmetric_partial (a b : Chain T)
    (hwf : ∀ t, top a = some t ∨ top b = some t →
      0 < (h.consensusState t).currGlobalSlot.slotsPerEpoch ∧ (h.consensusState t).epochCount + 1 < 2 ^ 32) :
    isShortRange h a b = isShortRange h b a := by
  cases ha : top a with
  | none => cases hb : top b <;> simp [isShortRange, consensusState, ha, hb]
  | some ta =>
    cases hb : top b with
    | none => simp [isShortRange, consensusState, ha, hb]
    | some tb =>
      obtain ⟨a1, a2⟩ := hwf ta (.inl ha)
      obtain ⟨b1, b2⟩ := hwf tb (.inr hb)
      rw [isShortRange_eq ha hb a1 b1 a2 b2, isShortRange_eq hb ha b1 a1 b2 a2]
      simp only [shortProp_comm]

example : isShortRange exHeader [exBlock 9 4 30000 [] [3] [] 0] [exBlock 5 3 27000 [] [1] [3] 0] = .ok true ∧
    isShortRange exHeader [exBlock 5 3 27000 [] [1] [3] 0] [exBlock 9 4 30000 [] [3] [] 0] = .ok true := by decide

theorem check_panics (s1 s2 : ConsensusState) (o : Option Nat) (m : String) :
    check s1 s2 o = .error (.panic m) ↔ 2 ^ 32 ≤ s2.epochCount + 1 ∧ m = "attempt to add with overflow" := by
  unfold check add32
  by_cases hlt : s2.epochCount + 1 < 2 ^ 32
  · rw [if_pos hlt]
    simp only [bind, Except.bind]
    constructor
    · intro h; split at h <;> cases h
    · rintro ⟨h, -⟩; omega
  · rw [if_neg hlt]
    simp only [bind, Except.bind]
    constructor
    · intro h; cases h; exact ⟨by omega, rfl⟩
    · rintro ⟨-, rfl⟩; rfl

/-- C33 in full is false: classifying a fork panics exactly if the epochs of the two tips differ and the candidate's tip claims
zero slots per epoch or the greatest epoch count, or, unless the answer is already yes with the roles as given, the own tip does.
So with one such tip one direction can answer and the other panic. -/
theorem C33_zero_epoch_length_fails (a b : Chain T) (ta tb : T) (ha : top a = some ta) (hb : top b = some tb) :
    (∃ m, isShortRange h a b = .error (.panic m)) ↔
      (h.consensusState ta).epochCount ≠ (h.consensusState tb).epochCount ∧
      ((h.consensusState tb).currGlobalSlot.slotsPerEpoch = 0 ∨ 2 ^ 32 ≤ (h.consensusState tb).epochCount + 1 ∨
        (((h.consensusState ta).currGlobalSlot.slotsPerEpoch = 0 ∨ 2 ^ 32 ≤ (h.consensusState ta).epochCount + 1) ∧
        ¬ ((h.consensusState ta).epochCount = (h.consensusState tb).epochCount + 1 ∧
          4760 ≤ (h.consensusState tb).currGlobalSlot.slotNumber % (h.consensusState tb).currGlobalSlot.slotsPerEpoch ∧
          (h.consensusState ta).stakingEpochData.lockCheckpoint = (h.consensusState tb).nextEpochData.lockCheckpoint))) := by
  have ga : globalSlot h a = some (h.consensusState ta).currGlobalSlot := by unfold globalSlot; rw [ha]; rfl
  have gb : globalSlot h b = some (h.consensusState tb).currGlobalSlot := by unfold globalSlot; rw [hb]; rfl
  unfold isShortRange consensusState
  rw [ha, hb]
  simp only [Option.map_some]
  unfold epochSlot
  rw [ga, gb]
  simp only
  generalize h.consensusState ta = x
  generalize h.consensusState tb = y
  by_cases he : x.epochCount = y.epochCount
  · rw [if_pos he]
    constructor
    · rintro ⟨m, hm⟩; cases hm
    · rintro ⟨hn, -⟩; exact absurd he hn
  rw [if_neg he]
  by_cases hy : y.currGlobalSlot.slotsPerEpoch = 0
  · refine ⟨fun _ => ⟨he, .inl hy⟩, fun _ => ⟨"attempt to calculate the remainder with a divisor of zero", ?_⟩⟩
    unfold rem32; rw [if_pos hy]; rfl
  unfold rem32
  rw [if_neg hy]
  simp only [bind, Except.bind]
  by_cases hy2 : 2 ^ 32 ≤ y.epochCount + 1
  · refine ⟨fun _ => ⟨he, .inr (.inl hy2)⟩, fun _ => ⟨"attempt to add with overflow", ?_⟩⟩
    rw [(check_panics _ _ _ _).mpr ⟨hy2, rfl⟩]
  have hc : check x y (some (y.currGlobalSlot.slotNumber % y.currGlobalSlot.slotsPerEpoch)) =
      .ok (decide (x.epochCount = y.epochCount + 1 ∧ 4760 ≤ y.currGlobalSlot.slotNumber % y.currGlobalSlot.slotsPerEpoch ∧
        x.stakingEpochData.lockCheckpoint = y.nextEpochData.lockCheckpoint)) := by
    unfold check add32 optGe
    rw [if_pos (by omega)]
    simp only [bind, Except.bind, decide_eq_true_eq]
    split
    · rename_i hh
      have h2 : 4760 ≤ y.currGlobalSlot.slotNumber % y.currGlobalSlot.slotsPerEpoch := hh.2
      simp [hh.1, h2]
    · rename_i hh
      refine congrArg Except.ok (Eq.symm (decide_eq_false ?_))
      rintro ⟨h1, h2, -⟩
      exact hh ⟨h1, h2⟩
  rw [hc]
  simp only [decide_eq_true_eq]
  by_cases hk : x.epochCount = y.epochCount + 1 ∧ 4760 ≤ y.currGlobalSlot.slotNumber % y.currGlobalSlot.slotsPerEpoch ∧
        x.stakingEpochData.lockCheckpoint = y.nextEpochData.lockCheckpoint
  · rw [if_pos hk]
    constructor
    · rintro ⟨m, hm⟩; cases hm
    · rintro ⟨-, h1 | h1 | ⟨-, h1⟩⟩
      · exact absurd h1 hy
      · exact absurd h1 hy2
      · exact absurd hk h1
  · rw [if_neg hk]
    by_cases hx : x.currGlobalSlot.slotsPerEpoch = 0
    · refine ⟨fun _ => ⟨he, .inr (.inr ⟨.inl hx, hk⟩)⟩, fun _ => ⟨"attempt to calculate the remainder with a divisor of zero", ?_⟩⟩
      rw [if_pos hx]
    · rw [if_neg hx]
      simp only [check_panics]
      constructor
      · rintro ⟨m, h1, -⟩; exact ⟨he, .inr (.inr ⟨.inr h1, hk⟩)⟩
      · rintro ⟨-, h1 | h1 | ⟨h1 | h1, -⟩⟩
        · exact absurd h1 hy
        · exact absurd h1 hy2
        · exact absurd h1 hx
        · exact ⟨_, h1, rfl⟩

example : ∃ a b : Chain (ConsensusState × Nat),
    isShortRange exHeader a b = .ok true ∧ ∃ m, isShortRange exHeader b a = .error (.panic m) :=
  ⟨[(⟨9, 4, 40, [], [], ⟨30000, 0⟩, ⟨[3]⟩, ⟨[]⟩⟩, 0)], [exBlock 5 3 27000 [] [1] [3] 0],
    by decide, (C33_zero_epoch_length_fails exHeader _ _ _ _ rfl rfl).mpr (by decide)⟩

/-! ## C34 -/

/-- C34: the decision rule, for tips with 7140 slots per epoch.  Missing: tips with another epoch
length, for which the last third is computed from the configured length (see below). -/
theorem C34_decision_rule_partial (a b : Chain T) (ta tb : T) (ha : top a = some ta) (hb : top b = some tb)
    (sa : (h.consensusState ta).currGlobalSlot.slotsPerEpoch = 7140) (sb : (h.consensusState tb).currGlobalSlot.slotsPerEpoch = 7140)
    (ea : (h.consensusState ta).epochCount + 1 < 2 ^ 32) (eb : (h.consensusState tb).epochCount + 1 < 2 ^ 32) :
    ∃ answer, isShortRange h a b = .ok answer ∧
      (answer = true ↔ ShortRange (h.consensusState ta) (h.consensusState tb)) := by
  refine ⟨_, isShortRange_eq ha hb (by omega) (by omega) ea eb, ?_⟩
  rw [decide_eq_true_iff]
  exact spec_shortRange sa sb

/-- C34: the decision rule for tips with any numbers of slots per epoch: the slot within the epoch is that of the tip's own epoch
length, but it is compared with two thirds of 7140. -/
theorem C34_any_length_partial (a b : Chain T) (ta tb : T) (ha : top a = some ta) (hb : top b = some tb)
    (sa : 0 < (h.consensusState ta).currGlobalSlot.slotsPerEpoch) (sb : 0 < (h.consensusState tb).currGlobalSlot.slotsPerEpoch)
    (ea : (h.consensusState ta).epochCount + 1 < 2 ^ 32) (eb : (h.consensusState tb).epochCount + 1 < 2 ^ 32) :
    let ahead := fun lead trail : ConsensusState => lead.epochCount = trail.epochCount + 1 ∧
      2 * 7140 ≤ 3 * (trail.currGlobalSlot.slotNumber % trail.currGlobalSlot.slotsPerEpoch) ∧
      lead.stakingEpochData.lockCheckpoint = trail.nextEpochData.lockCheckpoint
    let x := h.consensusState ta
    let y := h.consensusState tb
    ∃ answer, isShortRange h a b = .ok answer ∧
      (answer = true ↔ (x.epochCount = y.epochCount ∧ x.stakingEpochData.lockCheckpoint = y.stakingEpochData.lockCheckpoint) ∨
        ahead x y ∨ ahead y x) := by
  refine ⟨_, isShortRange_eq ha hb sa sb ea eb, ?_⟩
  rw [decide_eq_true_iff]
  have e : ∀ n, 4760 ≤ n ↔ 2 * 7140 ≤ 3 * n := by intro n; omega
  simp only [shortProp, checkProp, e]

example : ShortRange (exBlock 9 4 30000 [] [3] [] 0).1 (exBlock 5 3 27000 [] [1] [3] 0).1 :=
  .inr (.inl ⟨rfl, by decide, rfl⟩)
example : ¬ ShortRange (exBlock 9 4 30000 [] [3] [] 0).1 (exBlock 5 3 21500 [] [1] [3] 0).1 := by
  rintro (⟨h1, -⟩ | ⟨-, h2, -⟩ | ⟨h1, -⟩)
  · revert h1; decide
  · revert h2; decide
  · revert h1; decide

/-- **C34 fails** for every other number of slots per epoch but 1, 2 and 7139: there are tips for which the answer is not
that of the rule. -/
theorem C34_other_epoch_length_fails (n : Nat) (hn : 0 < n) :
    (∃ a b : ConsensusState × Nat, a.1.currGlobalSlot.slotsPerEpoch = n ∧ b.1.currGlobalSlot.slotsPerEpoch = n ∧
      a.1.epochCount + 1 < 2 ^ 32 ∧ b.1.epochCount + 1 < 2 ^ 32 ∧
      ¬ (isShortRange exHeader [a] [b] = .ok true ↔ ShortRange a.1 b.1)) ↔ n ∉ [1, 2, 7139, 7140] := by
  have rule : ∀ a b : ConsensusState × Nat, a.1.currGlobalSlot.slotsPerEpoch = n → b.1.currGlobalSlot.slotsPerEpoch = n →
      a.1.epochCount + 1 < 2 ^ 32 → b.1.epochCount + 1 < 2 ^ 32 →
      (isShortRange exHeader [a] [b] = .ok true ↔ shortProp a.1 b.1) := by
    intro a b ha hb ea eb
    rw [isShortRange_eq (h := exHeader) (ts := a) (tc := b) rfl rfl (by show 0 < a.1.currGlobalSlot.slotsPerEpoch; omega)
      (by show 0 < b.1.currGlobalSlot.slotsPerEpoch; omega) ea eb]
    constructor
    · intro e; exact of_decide_eq_true (Except.ok.inj e)
    · intro e; exact congrArg Except.ok (decide_eq_true e)
  constructor
  · rintro ⟨a, b, ha, hb, ea, eb, hne⟩ hmem
    apply hne
    rw [rule a b ha hb ea eb]
    have third : ∀ x, 4760 ≤ x % n ↔ 2 * n ≤ 3 * (x % n) := by
      intro x
      have := Nat.mod_lt x hn
      simp only [List.mem_cons, List.not_mem_nil, or_false] at hmem
      omega
    simp only [shortProp, ShortRange, OneEpochAhead, checkProp, ha, hb, third]
  · intro hmem
    simp only [List.mem_cons, List.not_mem_nil, or_false, not_or] at hmem
    obtain ⟨x, hx, hne⟩ : ∃ x, x < n ∧ ¬ (4760 ≤ x ↔ 2 * n ≤ 3 * x) := by
      by_cases h1 : 7141 ≤ n
      · exact ⟨4760, by omega, by omega⟩
      · by_cases h2 : n ≤ 4760
        · exact ⟨n - 1, by omega, by omega⟩
        · exact ⟨4759, by omega, by omega⟩
    refine ⟨(⟨9, 4, 40, [], [], ⟨n, n⟩, ⟨[3]⟩, ⟨[]⟩⟩, 0), (⟨9, 3, 40, [], [], ⟨x, n⟩, ⟨[1]⟩, ⟨[3]⟩⟩, 0), rfl, rfl,
      by simp, by simp, ?_⟩
    rw [rule _ _ rfl rfl (by simp) (by simp)]
    simp only [shortProp, ShortRange, OneEpochAhead, checkProp, Nat.mod_eq_of_lt hx]
    intro hiff
    apply hne
    simpa using hiff

/-- With 100 slots per epoch the trailing tip can be in the last third of its epoch and still not count as such. -/
example : ∃ (a b : ConsensusState × Nat), ShortRange a.1 b.1 ∧ isShortRange exHeader [a] [b] = .ok false :=
  ⟨(⟨9, 4, 40, [], [], ⟨450, 100⟩, ⟨[3]⟩, ⟨[]⟩⟩, 0), (⟨9, 3, 40, [], [], ⟨399, 100⟩, ⟨[1]⟩, ⟨[3]⟩⟩, 0),
    .inr (.inl ⟨rfl, by decide, rfl⟩), by decide⟩

/-! ## C35 -/

/-- C35: a long-range candidate with a well-formed window is selected exactly when its relative
minimum window density is greater, or equal and it wins by (length, VRF digest, state hash). -/
theorem C35_long_range_rule (self c : Chain T) (ts tc : T) (hs : top self = some ts) (hc : top c = some tc)
    (hlong : isShortRange h self c = .ok false) (hwin : WindowOk (h.consensusState tc)) (dt dc : Nat)
    (hdt : relativeMinWindowDensity h self c = .ok dt) (hdc : relativeMinWindowDensity h c self = .ok dc) :
    selectSecureChain h self [c] =
      (if dt < dc ∨ (dt = dc ∧ Beats (key h tc) (key h ts)) then c else self, .ok ()) := by
  rw [selectSecureChain, selectOne_long hs hc hlong hwin hdt hdc]
  rfl

example : selectSecureChain exHeader [exBlock 9 4 30000 [] [3] [] 0] [[exBlock 5 4 30001 [] [4] [] 0]] =
      ([exBlock 9 4 30000 [] [3] [] 0], .ok ()) ∧
    selectSecureChain exHeader [exBlock 9 4 30000 [] [3] [] 0] [[exBlock 5 4 30020 [] [4] [] 0]] =
      ([exBlock 5 4 30020 [] [4] [] 0], .ok ()) := by decide

/-- C35: a long-range candidate with a sub-window denser than seven or without exactly eleven
sub-windows is never selected, and does not disturb the rest of the selection. -/
theorem C35_malformed_never_selected (self c : Chain T) (tc : T) (hc : top c = some tc)
    (hlong : isShortRange h self c = .ok false)
    (hwin : (h.consensusState tc).subWindowDensities.length ≠ 11 ∨ ∃ d ∈ (h.consensusState tc).subWindowDensities, 7 < d)
    (rest : List (Chain T)) : selectSecureChain h self (c :: rest) = selectSecureChain h self rest := by
  rw [selectSecureChain, selectOne_long_bad hc hlong]
  rintro ⟨h1, h2⟩
  rcases hwin with hwin | ⟨d, hd, hgt⟩
  · exact hwin h1
  · have := h2 d hd; omega

example : selectSecureChain exHeader [exBlock 9 4 30000 [] [3] [] 0]
    [[(⟨90, 4, 77, [8, 7, 7, 7, 7, 7, 7, 7, 7, 7, 7], [], ⟨30000, 7140⟩, ⟨[4]⟩, ⟨[]⟩⟩, 0)]] =
    ([exBlock 9 4 30000 [] [3] [] 0], .ok ()) := by decide

/-- The complete preference of a candidate tip over the current one, short or long range. -/
def Preferred (cur cand : T) : Prop :=
  (ShortRange (h.consensusState cur) (h.consensusState cand) ∧ Beats (key h cand) (key h cur)) ∨
  (¬ ShortRange (h.consensusState cur) (h.consensusState cand) ∧ WindowOk (h.consensusState cand) ∧
    ∃ dt dc, relativeMinWindowDensity h [cur] [cand] = .ok dt ∧ relativeMinWindowDensity h [cand] [cur] = .ok dc ∧
      (dt < dc ∨ (dt = dc ∧ Beats (key h cand) (key h cur))))

theorem relDensity_tip {a b : Chain T} {ta tb : T} (ha : top a = some ta) (hb : top b = some tb) :
    relativeMinWindowDensity h a b = relativeMinWindowDensity h [ta] [tb] := by
  have e1 : top [ta] = some ta := rfl
  have e2 : top [tb] = some tb := rfl
  unfold relativeMinWindowDensity
  rw [consensusState_some ha, consensusState_some hb, consensusState_some e1, consensusState_some e2]

/-- C35: on well-formed chains of mainnet shape, a candidate replaces the current chain exactly
when its tip is preferred. -/
theorem C35_selected_iff_preferred (self c : Chain T) (ts tc : T) (hs : top self = some ts) (hc : top c = some tc)
    (ws : WellFormed (h.consensusState ts)) (wc : WellFormed (h.consensusState tc))
    (ss : (h.consensusState ts).currGlobalSlot.slotsPerEpoch = 7140) (sc : (h.consensusState tc).currGlobalSlot.slotsPerEpoch = 7140)
    (hlen : (h.consensusState ts).subWindowDensities.length = 11) :
    (Preferred h ts tc → selectSecureChain h self [c] = (c, .ok ())) ∧
    (¬ Preferred h ts tc → selectSecureChain h self [c] = (self, .ok ())) := by
  have hsr := isShortRange_eq hs hc ws.slots wc.slots ws.epoch wc.epoch
  by_cases hp : ShortRange (h.consensusState ts) (h.consensusState tc)
  · have hsr' : isShortRange h self c = .ok true := by
      rw [hsr, decide_eq_true ((spec_shortRange ss sc).mpr hp)]
    rw [selectSecureChain, selectOne_short hs hc hsr']
    simp only [Preferred, hp, true_and, not_true_eq_false, false_and, or_false, selectSecureChain]
    constructor <;> intro hb <;> simp [hb]
  · have hsr' : isShortRange h self c = .ok false := by
      rw [hsr, decide_eq_false (fun hh => hp ((spec_shortRange ss sc).mp hh))]
    by_cases hw : WindowOk (h.consensusState tc)
    · have hdt := relDensity_eq (h := h) hs hc (by omega) ws.window
      have hdc := relDensity_eq (h := h) hc hs (by rw [hw.1]; exact Nat.le_refl _) wc.window
      rw [selectSecureChain, selectOne_long hs hc hsr' hw hdt hdc]
      rw [relDensity_tip h hs hc] at hdt
      rw [relDensity_tip h hc hs] at hdc
      simp only [selectSecureChain]
      constructor
      · rintro (⟨h1, -⟩ | ⟨-, -, dt, dc, e1, e2, h3⟩)
        · exact absurd h1 hp
        · rw [hdt] at e1; rw [hdc] at e2
          cases e1; cases e2
          rw [if_pos h3]
      · intro hn
        split
        · rename_i h3
          exact absurd (.inr ⟨hp, hw, _, _, hdt, hdc, h3⟩) hn
        · rfl
    · rw [selectSecureChain, selectOne_long_bad hc hsr' hw]
      refine ⟨?_, fun _ => rfl⟩
      rintro (⟨h1, -⟩ | ⟨-, h2, -⟩)
      · exact absurd h1 hp
      · exact absurd h2 hw

/-! ## C36 -/

/-- C36: the relative minimum window density never exceeds the chain's own minimum window density. -/
theorem C36_at_most_own_density (a b : Chain T) (ta : T) (ha : top a = some ta) (d : Nat)
    (hd : relativeMinWindowDensity h a b = .ok d) : d ≤ (h.consensusState ta).minWindowDensity := by
  cases hb : top b with
  | none => simp [relativeMinWindowDensity, consensusState, ha, hb] at hd
  | some tb =>
    rcases relDensity_ok ha hb hd with ⟨-, e⟩ | ⟨-, w, -, e⟩
    · omega
    · rw [e]; exact Nat.min_le_left _ _

/-- C36: inside the grace period it equals the chain's own minimum window density. -/
theorem C36_grace_period (a b : Chain T) (ta tb : T) (ha : top a = some ta) (hb : top b = some tb)
    (g1 : (h.consensusState ta).currGlobalSlot.slotNumber < 1440) (g2 : (h.consensusState tb).currGlobalSlot.slotNumber < 1440) :
    relativeMinWindowDensity h a b = .ok (h.consensusState ta).minWindowDensity := by
  unfold relativeMinWindowDensity
  rw [consensusState_some ha, consensusState_some hb]
  have : max (h.consensusState ta).currGlobalSlot.slotNumber (h.consensusState tb).currGlobalSlot.slotNumber < 1440 := by omega
  simp [gracePeriodEnd, this]

/-- C36: it never increases when the other chain is further ahead. -/
theorem C36_antitone (a b b' : Chain T) (tb tb' : T) (hb : top b = some tb) (hb' : top b' = some tb')
    (hle : (h.consensusState tb).currGlobalSlot.slotNumber ≤ (h.consensusState tb').currGlobalSlot.slotNumber) (d d' : Nat)
    (hd : relativeMinWindowDensity h a b = .ok d) (hd' : relativeMinWindowDensity h a b' = .ok d') : d' ≤ d := by
  cases ha : top a with
  | none => simp [relativeMinWindowDensity, consensusState, ha] at hd
  | some ta =>
    have hle' := C36_at_most_own_density h a b' ta ha d' hd'
    rcases relDensity_ok ha hb hd with ⟨h1, e⟩ | ⟨h1, w, hw, e⟩
    · omega
    · rcases relDensity_ok ha hb' hd' with ⟨h2, e'⟩ | ⟨h2, w', hw', e'⟩
      · omega
      · have := ringShift_mono (by simp only [codeShift]; omega) hw hw'
        omega

example : relativeMinWindowDensity exHeader [exBlock 9 4 30000 [] [3] [] 0] [exBlock 5 4 30000 [] [4] [] 0] = .ok 40 ∧
    relativeMinWindowDensity exHeader [exBlock 9 4 30000 [] [3] [] 0] [exBlock 5 4 30006 [] [4] [] 0] = .ok 28 ∧
    relativeMinWindowDensity exHeader [exBlock 9 4 30000 [] [3] [] 0] [exBlock 5 4 30007 [] [4] [] 0] = .ok 21 := by decide

/-- C36: it is defined for every chain whose window has eleven sub-windows, and is the smaller of
the own density and the number of blocks left in the window after clearing, one after another from
the one after `slot / 11 mod 11`, as many sub-windows as the other chain is slots ahead, plus one
(none is left to clear after eleven). -/
theorem C36_defined (a b : Chain T) (ta tb : T) (ha : top a = some ta) (hb : top b = some tb)
    (hlen : (h.consensusState ta).subWindowDensities.length = 11) (hsum : (h.consensusState ta).subWindowDensities.sum < 2 ^ 32)
    (hpos : 0 < (h.consensusState ta).currGlobalSlot.slotNumber) :
    relativeMinWindowDensity h a b = .ok (density
      (min ((h.consensusState tb).currGlobalSlot.slotNumber - (h.consensusState ta).currGlobalSlot.slotNumber + 1) 11)
      ((h.consensusState ta).currGlobalSlot.slotNumber / 11 % 11) (h.consensusState ta) (h.consensusState tb)) := by
  rw [relDensity_eq ha hb (by omega) hsum]
  have : codeShift (h.consensusState ta) (h.consensusState tb) =
      min ((h.consensusState tb).currGlobalSlot.slotNumber - (h.consensusState ta).currGlobalSlot.slotNumber + 1) 11 := by
    unfold codeShift; omega
  rw [this]
  rfl

example : (exBlock 9 4 30000 [] [3] [] 0).1.subWindowDensities.length = 11 ∧ (exBlock 9 4 30000 [] [3] [] 0).1.subWindowDensities.sum = 71 := by decide

/-! ## C37 -/

/-- C37: inside the grace period and when the other chain is at least twelve slots ahead, the
value is the one of the cited specification.  Missing: all other cases, in which it differs in
general (see below). -/
theorem C37_cited_specification_partial (a b : Chain T) (ta tb : T) (ha : top a = some ta) (hb : top b = some tb)
    (hlen : (h.consensusState ta).subWindowDensities.length = 11) (hsum : (h.consensusState ta).subWindowDensities.sum < 2 ^ 32)
    (hcase : max (h.consensusState ta).currGlobalSlot.slotNumber (h.consensusState tb).currGlobalSlot.slotNumber < 1440 ∨
      (h.consensusState ta).currGlobalSlot.slotNumber + 12 ≤ (h.consensusState tb).currGlobalSlot.slotNumber) :
    relativeMinWindowDensity h a b = .ok (citedDensity (h.consensusState ta) (h.consensusState tb)) := by
  rw [relDensity_eq ha hb (by omega) hsum]
  rcases hcase with hc | hc
  · simp only [citedDensity, density, hc, if_true]
  · have h1 : codeShift (h.consensusState ta) (h.consensusState tb) = 11 := by unfold codeShift; omega
    have h2 : min (max (h.consensusState ta).currGlobalSlot.slotNumber (h.consensusState tb).currGlobalSlot.slotNumber -
        (h.consensusState ta).currGlobalSlot.slotNumber - 1) 11 = 11 := by omega
    have hz : ∀ rel, shiftedDensity 11 rel (h.consensusState ta).subWindowDensities = 0 := by
      intro rel
      have : ∀ i, i < 11 → cleared 11 rel i = true := by
        intro i hi
        simp only [cleared, List.any_eq_true, List.mem_range, beq_iff_eq]
        refine ⟨(i + 11 - (rel + 1) % 11) % 11, by omega, by omega⟩
      have e : clearW 11 rel (h.consensusState ta).subWindowDensities = List.replicate 11 0 := by
        apply List.ext_getElem (by simp [clearW_length, hlen])
        intro i h3 h4
        have hi : i < 11 := by simpa using h4
        rw [clearW_get _ _ _ _ (by omega), this i hi, if_pos rfl, List.getElem_replicate]
      rw [shiftedDensity_clearW, e]
      decide
    simp only [citedDensity, h1, h2, density, hz]

theorem shiftedDensity_even (d k r : Nat) (hk : k ≤ 11) (hr : r < 11) :
    shiftedDensity k r (List.replicate 11 d) = d * (11 - k) := by
  have e : ∀ m, m ∈ List.range 11 → ∀ n, n ∈ List.range 12 →
      ((List.range 11).filter fun i => !cleared n m i).length = 11 - n := by decide +kernel
  have e' := e r (List.mem_range.mpr hr) k (List.mem_range.mpr (by omega))
  have sum_if : ∀ l : List Nat, (l.map fun i => if cleared k r i then 0 else d).sum = d * (l.filter fun i => !cleared k r i).length := by
    intro l
    induction l with
    | nil => rfl
    | cons x l ih =>
      simp only [List.map_cons, List.sum_cons, ih, List.filter_cons]
      cases cleared k r x <;> simp [Nat.mul_add, Nat.add_comm]
  have z : (List.replicate 11 d).zipIdx.map (fun (x, i) => if cleared k r i then 0 else x) =
      (List.range 11).map fun i => if cleared k r i then 0 else d := rfl
  rw [shiftedDensity, z, sum_if, e']

/-- **C37 fails** outside those cases, in every slot: for a chain with `d > 0` blocks in each of its sub-windows and the
other tip at most eleven slots ahead (`k` slots), the specification clears `k - 1` sub-windows and the code `k + 1`. -/
theorem C37_fails (a b : Chain T) (ta tb : T) (ha : top a = some ta) (hb : top b = some tb) (d k : Nat)
    (hwin : (h.consensusState ta).subWindowDensities = List.replicate 11 d) (hd : 0 < d) (hd7 : d ≤ 7)
    (hmin : 11 * d ≤ (h.consensusState ta).minWindowDensity) (hpos : 0 < (h.consensusState ta).currGlobalSlot.slotNumber)
    (hk : k = (h.consensusState tb).currGlobalSlot.slotNumber - (h.consensusState ta).currGlobalSlot.slotNumber) (hk11 : k ≤ 11)
    (hgrace : 1440 ≤ max (h.consensusState ta).currGlobalSlot.slotNumber (h.consensusState tb).currGlobalSlot.slotNumber) :
    citedDensity (h.consensusState ta) (h.consensusState tb) = d * (11 - (k - 1)) ∧
    relativeMinWindowDensity h a b = .ok (d * (11 - (k + 1))) ∧ d * (11 - (k + 1)) < d * (11 - (k - 1)) := by
  have hsum : (h.consensusState ta).subWindowDensities.sum < 2 ^ 32 := by
    rw [hwin, List.sum_replicate_nat]; omega
  have hg : ¬ max (h.consensusState ta).currGlobalSlot.slotNumber (h.consensusState tb).currGlobalSlot.slotNumber < 1440 := by omega
  have le11 : ∀ x, x ≤ 11 → min (h.consensusState ta).minWindowDensity (d * x) = d * x := fun x hx => by
    have := Nat.mul_le_mul_left d hx
    omega
  refine ⟨?_, ?_, Nat.mul_lt_mul_of_pos_left (by omega) hd⟩
  · have e : min (max (h.consensusState ta).currGlobalSlot.slotNumber (h.consensusState tb).currGlobalSlot.slotNumber -
        (h.consensusState ta).currGlobalSlot.slotNumber - 1) 11 = k - 1 := by omega
    simp only [citedDensity, density, if_neg hg, e, hwin]
    rw [shiftedDensity_even _ _ _ (by omega) (by omega), le11 _ (by omega)]
  · rw [relDensity_eq ha hb (by rw [hwin]; simp) hsum]
    have e : codeShift (h.consensusState ta) (h.consensusState tb) = min (k + 1) 11 := by unfold codeShift; omega
    simp only [density, if_neg hg, e, hwin]
    rw [shiftedDensity_even _ _ _ (by omega) (by unfold codeStart; omega), le11 _ (by omega)]
    congr 2
    omega

/-- Such a chain.  With another window, in the same slot and three slots behind: 70 for 71, and 49 for 57. -/
example : (⟨9, 4, 77, List.replicate 11 7, [], ⟨30000, 7140⟩, ⟨[]⟩, ⟨[]⟩⟩ : ConsensusState).subWindowDensities = List.replicate 11 7 ∧
    ∃ a b b' : ConsensusState × Nat,
    citedDensity a.1 b.1 = 71 ∧ relativeMinWindowDensity exHeader [a] [b] = .ok 70 ∧
    citedDensity a.1 b'.1 = 57 ∧ relativeMinWindowDensity exHeader [a] [b'] = .ok 49 :=
  ⟨rfl, (⟨9, 4, 77, [1, 7, 7, 7, 7, 7, 7, 7, 7, 7, 7], [], ⟨30000, 7140⟩, ⟨[]⟩, ⟨[]⟩⟩, 0), exBlock 9 4 30000 [] [3] [] 0,
    exBlock 9 4 30003 [] [3] [] 0, by decide +kernel⟩

/-- A tip in a slot, in no short-range fork with a tip of another lock checkpoint. -/
def windowTip (slot : Nat) (window : List Nat) (lock : List UInt8) : ConsensusState × Nat :=
  (⟨9, 4, 77, window, [], ⟨slot, 7140⟩, ⟨lock⟩, ⟨[]⟩⟩, 0)

/-- All blocks of a window in one sub-window. -/
def oneSubWindow (j d : Nat) : List Nat := (List.range 11).map fun i => if i = j % 11 then d else 0

/-- **C37 fails**, and the difference changes which chain is selected, in every slot after the grace period: with both tips
in that slot, the current chain is denser by the specification (7 against 6), yet the candidate replaces it. -/
theorem C37_wrong_chain_selected_fails (slot : Nat) (hslot : 1440 ≤ slot) : ∃ a c : ConsensusState × Nat,
    a.1.currGlobalSlot.slotNumber = slot ∧ c.1.currGlobalSlot.slotNumber = slot ∧ WindowOk a.1 ∧ WindowOk c.1 ∧
    citedDensity c.1 a.1 < citedDensity a.1 c.1 ∧ ¬ ShortRange a.1 c.1 ∧
    selectSecureChain exHeader [a] [[c]] = ([c], .ok ()) := by
  obtain ⟨r, hr⟩ : ∃ r, r = slot / 11 % 11 := ⟨_, rfl⟩
  have hr11 : r < 11 := by omega
  have table : ∀ m, m ∈ List.range 11 →
      (oneSubWindow (m + 1) 7).length = 11 ∧ (∀ d ∈ oneSubWindow (m + 1) 7, d ≤ 7) ∧ (oneSubWindow (m + 1) 7).sum = 7 ∧
      (oneSubWindow (m + 2) 6).length = 11 ∧ (∀ d ∈ oneSubWindow (m + 2) 6, d ≤ 7) ∧ (oneSubWindow (m + 2) 6).sum = 6 ∧
      shiftedDensity 1 m (oneSubWindow (m + 1) 7) = 0 ∧ shiftedDensity 1 m (oneSubWindow (m + 2) 6) = 6 ∧
      shiftedDensity 0 0 (oneSubWindow (m + 1) 7) = 7 ∧ shiftedDensity 0 0 (oneSubWindow (m + 2) 6) = 6 := by decide +kernel
  obtain ⟨l1, w1, s1, l2, w2, s2, c1, c2, z1, z2⟩ := table r (List.mem_range.mpr hr11)
  have z0 : ∀ start w, shiftedDensity 0 start w = shiftedDensity 0 0 w := fun _ _ => rfl
  have hg : ¬ slot < 1440 := by omega
  have hshort : ¬ ShortRange (windowTip slot (oneSubWindow (r + 1) 7) [1]).1 (windowTip slot (oneSubWindow (r + 2) 6) [2]).1 := by
    rintro (⟨-, h1⟩ | ⟨h1, -⟩ | ⟨h1, -⟩)
    · simp [windowTip] at h1
    · simp [windowTip] at h1
    · simp [windowTip] at h1
  have k : min (max slot slot - (slot - 1)) 11 = 1 := by omega
  have e1 : relativeMinWindowDensity exHeader [windowTip slot (oneSubWindow (r + 1) 7) [1]] [windowTip slot (oneSubWindow (r + 2) 6) [2]] = .ok 0 := by
    rw [relDensity_eq (h := exHeader) (ts := windowTip slot (oneSubWindow (r + 1) 7) [1]) (tc := windowTip slot (oneSubWindow (r + 2) 6) [2]) rfl rfl
      (Nat.le_of_eq l1.symm) (by show (oneSubWindow (r + 1) 7).sum < _; omega)]
    show Except.ok (density (min (max slot slot - (slot - 1)) 11) (slot / 11 % 11) (windowTip slot (oneSubWindow (r + 1) 7) [1]).1 _) = _
    rw [k, ← hr]
    simp [density, windowTip, hg, c1, exHeader]
  have e2 : relativeMinWindowDensity exHeader [windowTip slot (oneSubWindow (r + 2) 6) [2]] [windowTip slot (oneSubWindow (r + 1) 7) [1]] = .ok 6 := by
    rw [relDensity_eq (h := exHeader) (ts := windowTip slot (oneSubWindow (r + 2) 6) [2]) (tc := windowTip slot (oneSubWindow (r + 1) 7) [1]) rfl rfl
      (Nat.le_of_eq l2.symm) (by show (oneSubWindow (r + 2) 6).sum < _; omega)]
    show Except.ok (density (min (max slot slot - (slot - 1)) 11) (slot / 11 % 11) (windowTip slot (oneSubWindow (r + 2) 6) [2]).1 _) = _
    rw [k, ← hr]
    simp [density, windowTip, hg, c2, exHeader]
  have hlong : isShortRange exHeader [windowTip slot (oneSubWindow (r + 1) 7) [1]] [windowTip slot (oneSubWindow (r + 2) 6) [2]] = .ok false := by
    rw [isShortRange_eq (h := exHeader) (ts := windowTip slot (oneSubWindow (r + 1) 7) [1]) (tc := windowTip slot (oneSubWindow (r + 2) 6) [2])
      rfl rfl (by simp [windowTip, exHeader]) (by simp [windowTip, exHeader]) (by simp [windowTip, exHeader]) (by simp [windowTip, exHeader])]
    exact congrArg Except.ok (decide_eq_false fun hh => hshort ((spec_shortRange rfl rfl).mp hh))
  refine ⟨windowTip slot (oneSubWindow (r + 1) 7) [1], windowTip slot (oneSubWindow (r + 2) 6) [2], rfl, rfl, ⟨l1, w1⟩, ⟨l2, w2⟩, ?_, hshort, ?_⟩
  · simp [citedDensity, density, windowTip, hg, z0, z1, z2]
  · rw [C35_long_range_rule exHeader _ _ (windowTip slot (oneSubWindow (r + 1) 7) [1]) (windowTip slot (oneSubWindow (r + 2) 6) [2]) rfl rfl hlong
      ⟨l2, w2⟩ 0 6 e1 e2]
    rfl

/-- The windows for slot 30000. -/
example : oneSubWindow (30000 / 11 % 11 + 1) 7 = [7, 0, 0, 0, 0, 0, 0, 0, 0, 0, 0] ∧
    oneSubWindow (30000 / 11 % 11 + 2) 6 = [0, 6, 0, 0, 0, 0, 0, 0, 0, 0, 0] := by decide +kernel

example : relativeMinWindowDensity exHeader [exBlock 9 4 30000 [] [3] [] 0] [exBlock 9 4 30012 [] [3] [] 0] = .ok 0 := by decide

/-! ## C38 -/

/-- C38: for non-empty chains whose tips have a positive number of slots per epoch, epoch counters
below the greatest `u32` and windows whose density sum fits in a `u32`, chain selection does not
panic, and it returns an error only when one of the chains has a window with fewer than eleven
sub-windows. -/
theorem C38_no_panic (self : Chain T) (candidates : List (Chain T))
    (hwf : ∀ x ∈ self :: candidates, ∃ t, top x = some t ∧ WellFormed (h.consensusState t)) :
    (selectSecureChain h self candidates).2 = .ok () ∨
    ((selectSecureChain h self candidates).2 = .error .candidatesMissingSubWindowDensities ∧
      ∃ t, top (selectSecureChain h self candidates).1 = some t ∧ (h.consensusState t).subWindowDensities.length < 11) := by
  induction candidates generalizing self with
  | nil => exact .inl rfl
  | cons c cs ih =>
    obtain ⟨ts, hs, ws⟩ := hwf self (by simp)
    obtain ⟨tc, hc, wc⟩ := hwf c (by simp)
    rw [selectSecureChain]
    rcases selectOne_wf hs hc ws wc with ⟨r, hr⟩ | ⟨he, hlen⟩
    · rw [hr]
      apply ih
      intro x hx
      simp only [List.mem_cons] at hx
      rcases hx with rfl | hx
      · rcases selectOne_mem hr with e | e <;> subst e
        · exact ⟨ts, hs, ws⟩
        · exact ⟨tc, hc, wc⟩
      · exact hwf x (by simp [hx])
    · rw [he]
      exact .inr ⟨rfl, ts, hs, hlen⟩

example : WellFormed (exBlock 9 4 30000 [] [3] [] 0).1 := ⟨by decide, by decide, by decide⟩

/-- C38: an error, with or without well-formedness, is a panic, an empty chain among those offered,
or a window that is too short. -/
theorem C38_errors (self : Chain T) (candidates : List (Chain T)) (e : Err)
    (herr : (selectSecureChain h self candidates).2 = .error e) (hnp : ∀ msg, e ≠ .panic msg) :
    (e = .consensusStateNotFound ∧ [] ∈ self :: candidates) ∨ e = .candidatesMissingSubWindowDensities := by
  have hnp : e.isPanic = false := by
    cases e with
    | panic m => exact absurd rfl (hnp m)
    | _ => rfl
  induction candidates generalizing self with
  | nil => cases herr
  | cons c cs ih =>
    rw [selectSecureChain] at herr
    cases hone : selectOne h self c with
    | ok r =>
      rw [hone] at herr
      rcases ih r herr with ⟨h1, h2⟩ | h1
      · left
        refine ⟨h1, ?_⟩
        simp only [List.mem_cons] at h2 ⊢
        rcases h2 with h2 | h2
        · rcases selectOne_mem hone with e' | e' <;> rw [e'] at h2 <;> simp [h2]
        · simp [h2]
      · exact .inr h1
    | error e' =>
      rw [hone] at herr
      have : e' = e := by simpa using herr
      subst this
      by_cases hs : self = []
      · subst hs
        left
        have : selectOne h [] c = .error .consensusStateNotFound := rfl
        rw [this] at hone
        exact ⟨(Except.error.inj hone).symm, by simp⟩
      by_cases hc : c = []
      · subst hc
        left
        have ⟨ts, hts⟩ : ∃ ts, top self = some ts := ⟨self.getLast hs, List.getLast?_eq_some_getLast hs⟩
        have : selectOne h self [] = .error .consensusStateNotFound := by
          unfold selectOne isShortRange
          rw [consensusState_some hts]
          rfl
        rw [this] at hone
        exact ⟨(Except.error.inj hone).symm, by simp⟩
      right
      have ⟨ts, hts⟩ : ∃ ts, top self = some ts := ⟨self.getLast hs, List.getLast?_eq_some_getLast hs⟩
      have ⟨tc, htc⟩ : ∃ tc, top c = some tc := ⟨c.getLast hc, List.getLast?_eq_some_getLast hc⟩
      cases hsr : isShortRange h self c with
      | error e2 =>
        have hp : e2.isPanic = true := isShortRange_err hts htc hsr
        simp only [selectOne, hsr, bind, Except.bind, Except.error.injEq] at hone
        rw [hone, hnp] at hp; cases hp
      | ok b =>
        cases b with
        | true => rw [selectOne_short hts htc hsr] at hone; cases hone
        | false =>
          by_cases hw : WindowOk (h.consensusState tc)
          · cases hd1 : relativeMinWindowDensity h self c with
            | error e2 =>
              rw [selectOne_long_err1 htc hsr hw hd1] at hone
              rcases relDensity_err hs hc hd1 with h1 | h1
              · rw [← Except.error.inj hone]; exact h1
              · rw [Except.error.inj hone, hnp] at h1; cases h1
            | ok d1 =>
              cases hd2 : relativeMinWindowDensity h c self with
              | ok d2 => rw [selectOne_long hts htc hsr hw hd1 hd2] at hone; cases hone
              | error e2 =>
                rw [selectOne_long_err2 htc hsr hw hd1 hd2] at hone
                rcases relDensity_err hc hs hd2 with h1 | h1
                · rw [← Except.error.inj hone]; exact h1
                · rw [Except.error.inj hone, hnp] at h1; cases h1
          · rw [selectOne_long_bad htc hsr hw] at hone; cases hone

example : (selectSecureChain exHeader [exBlock 9 4 30000 [] [3] [] 0] [[]]).2 = .error .consensusStateNotFound := by decide

/-- C38: comparing two chains by length fails exactly if one of them is empty, and then with an error, never a
panic. -/
theorem C38_longer_no_panic (self candidate : Chain T) (e : Err) :
    selectLongerChain h self candidate = .error e ↔ e = .consensusStateNotFound ∧ [] ∈ [self, candidate] := by
  have hcs : ∀ c : Chain T, (c = [] ∧ consensusState h c = none) ∨ ∃ s, c ≠ [] ∧ consensusState h c = some s := by
    intro c
    cases ht : top c with
    | none =>
      left
      have hc : c = [] := by simpa [top] using ht
      exact ⟨hc, by subst hc; rfl⟩
    | some t =>
      right
      exact ⟨_, (by rintro rfl; cases ht), consensusState_some ht⟩
  unfold selectLongerChain
  rcases hcs self with ⟨rfl, h1⟩ | ⟨s, hs, h1⟩
  · rw [h1]
    simp [eq_comm]
  · rcases hcs candidate with ⟨rfl, h2⟩ | ⟨s', hs', h2⟩
    · rw [h1, h2]
      simp [eq_comm]
    · rw [h1, h2]
      have hn : ¬ ([] ∈ [self, candidate]) := by simp [Ne.symm hs, Ne.symm hs']
      simp only [lastVrfHashDigest, h1, h2, bind, Except.bind, hn, and_false, iff_false]
      repeat' split
      all_goals exact fun h => by cases h

/-- The hypotheses of C38 are needed: whatever the own chain, a candidate from another epoch whose tip claims zero slots per
epoch or the greatest epoch count makes chain selection panic. -/
theorem C38_zero_epoch_length_fails (self c : Chain T) (cs : List (Chain T)) (ts tc : T) (hs : top self = some ts)
    (hc : top c = some tc) (hne : (h.consensusState ts).epochCount ≠ (h.consensusState tc).epochCount)
    (h0 : (h.consensusState tc).currGlobalSlot.slotsPerEpoch = 0 ∨ 2 ^ 32 ≤ (h.consensusState tc).epochCount + 1) :
    ∃ m, selectSecureChain h self (c :: cs) = (self, .error (.panic m)) := by
  obtain ⟨m, hm⟩ := (C33_zero_epoch_length_fails h self c ts tc hs hc).mpr ⟨hne, h0.imp_right .inl⟩
  refine ⟨m, ?_⟩
  rw [selectSecureChain, selectOne, hm]
  rfl

example : ∃ m, selectSecureChain exHeader [exBlock 9 4 30000 [] [3] [] 0] [[(⟨9, 3, 40, [], [], ⟨30000, 0⟩, ⟨[3]⟩, ⟨[]⟩⟩, 0)]] =
    ([exBlock 9 4 30000 [] [3] [] 0], .error (.panic m)) :=
  C38_zero_epoch_length_fails exHeader _ _ _ _ _ rfl rfl (by decide) (.inl rfl)

end MinaRs.Consensus
