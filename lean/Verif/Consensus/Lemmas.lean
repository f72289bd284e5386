import Verif.Consensus.Spec

/-! Helper lemmas for chain selection. -/

namespace MinaRs.Consensus
open Spec

variable {T : Type} {h : Header T}

/-! ## Strings -/

theorem u8_eq_of_not_lt {x y : UInt8} (h1 : ¬ x < y) (h2 : ¬ y < x) : x = y := by
  rw [UInt8.lt_iff_toNat_lt] at *
  apply UInt8.toNat_inj.mp; omega

theorem u8_not_lt {x y : UInt8} (h1 : x < y) : ¬ y < x := by
  rw [UInt8.lt_iff_toNat_lt] at *; omega

theorem strCmp_lt (a b : List UInt8) : strCmp a b = .lt ↔ a < b := by
  induction a generalizing b with
  | nil => cases b <;> simp [strCmp]
  | cons x xs ih =>
    cases b with
    | nil => simp [strCmp]
    | cons y ys =>
      rw [strCmp, List.cons_lt_cons_iff]
      by_cases h1 : x < y
      · simp [h1]
      · by_cases h2 : y < x
        · have : x ≠ y := by intro e; subst e; exact absurd h2 (by simp)
          simp [h1, h2, this]
        · have : x = y := u8_eq_of_not_lt h1 h2
          simp [this, ih]

theorem strCmp_eq (a b : List UInt8) : strCmp a b = .eq ↔ a = b := by
  induction a generalizing b with
  | nil => cases b <;> simp [strCmp]
  | cons x xs ih =>
    cases b with
    | nil => simp [strCmp]
    | cons y ys =>
      rw [strCmp]
      by_cases h1 : x < y
      · have : x ≠ y := by intro e; subst e; exact absurd h1 (by simp)
        simp [h1, this]
      · by_cases h2 : y < x
        · have : x ≠ y := by intro e; subst e; exact absurd h2 (by simp)
          simp [h1, h2, this]
        · have : x = y := u8_eq_of_not_lt h1 h2
          simp [this, ih]

theorem strCmp_gt (a b : List UInt8) : strCmp a b = .gt ↔ b < a := by
  induction a generalizing b with
  | nil => cases b <;> simp [strCmp]
  | cons x xs ih =>
    cases b with
    | nil => simp [strCmp]
    | cons y ys =>
      rw [strCmp, List.cons_lt_cons_iff]
      by_cases h1 : x < y
      · have hne : y ≠ x := by intro e; subst e; exact absurd h1 (by simp)
        have : ¬ y < x := u8_not_lt h1
        simp [h1, this, hne]
      · by_cases h2 : y < x
        · simp [h1, h2]
        · have : x = y := u8_eq_of_not_lt h1 h2
          simp [this, ih]

theorem hexDigit_lt : ∀ a b : Fin 16,
    (hexDigit (UInt8.ofNat a) < hexDigit (UInt8.ofNat b) ↔ a < b) ∧
    (hexDigit (UInt8.ofNat a) = hexDigit (UInt8.ofNat b) ↔ a = b) := by decide

theorem hi_eq (b : UInt8) : b >>> 4 = UInt8.ofNat (b.toNat / 16) := by
  apply UInt8.toNat_inj.mp
  have := b.toNat_lt
  simp only [UInt8.toNat_shiftRight, UInt8.toNat_ofNat']
  rw [Nat.mod_eq_of_lt (by omega : b.toNat / 16 < 2 ^ 8)]
  show b.toNat >>> 4 = _
  rw [Nat.shiftRight_eq_div_pow]

theorem lo_eq (b : UInt8) : b &&& 15 = UInt8.ofNat (b.toNat % 16) := by
  apply UInt8.toNat_inj.mp
  have := b.toNat_lt
  simp only [UInt8.toNat_and, UInt8.toNat_ofNat']
  rw [Nat.mod_eq_of_lt (by omega : b.toNat % 16 < 2 ^ 8)]
  exact Nat.and_two_pow_sub_one_eq_mod b.toNat 4

theorem hexEncode_lt (a b : List UInt8) : hexEncode a < hexEncode b ↔ a < b := by
  induction a generalizing b with
  | nil => cases b <;> simp [hexEncode]
  | cons x xs ih =>
    cases b with
    | nil => simp [hexEncode]
    | cons y ys =>
      have hx := x.toNat_lt
      have hy := y.toNat_lt
      rw [hexEncode, hexEncode, List.cons_lt_cons_iff, List.cons_lt_cons_iff, List.cons_lt_cons_iff, ih,
        hi_eq, hi_eq, lo_eq, lo_eq]
      obtain ⟨h1, h2⟩ := hexDigit_lt ⟨x.toNat / 16, by omega⟩ ⟨y.toNat / 16, by omega⟩
      obtain ⟨h3, h4⟩ := hexDigit_lt ⟨x.toNat % 16, by omega⟩ ⟨y.toNat % 16, by omega⟩
      rw [h1, h2, h3, h4, UInt8.lt_iff_toNat_lt, ← UInt8.toNat_inj]
      simp only [Fin.mk_lt_mk, Fin.mk.injEq]
      by_cases hlt : xs < ys <;> simp only [hlt, and_true, and_false, or_false] <;> omega

theorem hexEncode_inj (a b : List UInt8) : hexEncode a = hexEncode b ↔ a = b := by
  induction a generalizing b with
  | nil => cases b <;> simp [hexEncode]
  | cons x xs ih =>
    cases b with
    | nil => simp [hexEncode]
    | cons y ys =>
      have hx := x.toNat_lt
      have hy := y.toNat_lt
      rw [hexEncode, hexEncode, List.cons.injEq, List.cons.injEq, List.cons.injEq, ih,
        hi_eq, hi_eq, lo_eq, lo_eq]
      obtain ⟨_, h2⟩ := hexDigit_lt ⟨x.toNat / 16, by omega⟩ ⟨y.toNat / 16, by omega⟩
      obtain ⟨_, h4⟩ := hexDigit_lt ⟨x.toNat % 16, by omega⟩ ⟨y.toNat % 16, by omega⟩
      rw [h2, h4, ← UInt8.toNat_inj]
      simp only [Fin.mk.injEq]
      constructor
      · rintro ⟨a, b, c⟩; exact ⟨by omega, c⟩
      · rintro ⟨a, c⟩; exact ⟨by omega, by omega, c⟩

/-! ## The preference order -/

theorem bytes_lt_irrefl (a : List UInt8) : ¬ a < a := by
  intro hh; have := (strCmp_lt a a).mpr hh; rw [(strCmp_eq a a).mpr rfl] at this; cases this

theorem bytes_lt_trans {a b c : List UInt8} (h1 : a < b) (h2 : b < c) : a < c := by
  induction a generalizing b c with
  | nil => cases b <;> cases c <;> simp_all
  | cons x xs ih =>
    cases b with
    | nil => simp at h1
    | cons y ys =>
      cases c with
      | nil => simp at h2
      | cons z zs =>
        rw [List.cons_lt_cons_iff, UInt8.lt_iff_toNat_lt, ← UInt8.toNat_inj] at *
        rcases h1 with h1 | ⟨h1, h1'⟩ <;> rcases h2 with h2 | ⟨h2, h2'⟩
        · left; omega
        · left; omega
        · left; omega
        · right; exact ⟨by omega, ih h1' h2'⟩

theorem bytes_lt_trichotomy (a b : List UInt8) : a < b ∨ a = b ∨ b < a := by
  cases hh : strCmp a b with
  | lt => exact .inl ((strCmp_lt a b).mp hh)
  | eq => exact .inr (.inl ((strCmp_eq a b).mp hh))
  | gt => exact .inr (.inr ((strCmp_gt a b).mp hh))

instance : DecidableRel Beats := fun c t => by unfold Beats; exact inferInstance

theorem beats_irrefl (k : Key) : ¬ Beats k k := by
  simp [Beats, bytes_lt_irrefl]

theorem beats_trans {a b c : Key} (h1 : Beats a b) (h2 : Beats b c) : Beats a c := by
  unfold Beats at *
  rcases h1 with h1 | ⟨e1, h1⟩ <;> rcases h2 with h2 | ⟨e2, h2⟩
  · left; omega
  · left; omega
  · left; omega
  · right
    refine ⟨by omega, ?_⟩
    rcases h1 with h1 | ⟨e1', h1⟩ <;> rcases h2 with h2 | ⟨e2', h2⟩
    · left; exact bytes_lt_trans h2 h1
    · left; rw [e2']; exact h1
    · left; rw [← e1']; exact h2
    · right; exact ⟨by rw [e2', e1'], by omega⟩

theorem beats_total (a b : Key) : Beats a b ∨ a = b ∨ Beats b a := by
  unfold Beats
  rcases Nat.lt_trichotomy a.length b.length with h1 | h1 | h1
  · right; right; left; exact h1
  · rcases bytes_lt_trichotomy a.digest b.digest with h2 | h2 | h2
    · right; right; right; exact ⟨h1, .inl h2⟩
    · rcases Nat.lt_trichotomy a.hash b.hash with h3 | h3 | h3
      · right; right; right; exact ⟨h1, .inr ⟨h2, h3⟩⟩
      · right; left; cases a; cases b; simp_all
      · left; right; exact ⟨h1.symm, .inr ⟨h2.symm, h3⟩⟩
    · left; right; exact ⟨h1.symm, .inl h2⟩
  · left; left; exact h1

theorem beats_negtrans {a b c : Key} (h1 : ¬ Beats a b) (h2 : ¬ Beats b c) : ¬ Beats a c := by
  rcases beats_total b a with e | e | e
  · rcases beats_total c b with f | f | f
    · intro hh; exact beats_irrefl _ (beats_trans hh (beats_trans f e))
    · subst f; exact h1
    · exact absurd f h2
  · subst e; exact h2
  · exact absurd e h1

/-! ## `select_longer_chain` -/

theorem consensusState_some {c : Chain T} {t : T} (ht : top c = some t) :
    consensusState h c = some (h.consensusState t) := by simp [consensusState, ht]

theorem selectLongerChain_eq {self c : Chain T} {ts tc : T} (hs : top self = some ts) (hc : top c = some tc) :
    selectLongerChain h self c = .ok (if Beats (key h tc) (key h ts) then c else self) := by
  unfold selectLongerChain
  rw [consensusState_some hs, consensusState_some hc]
  simp only [lastVrfHashDigest, consensusState_some hs, consensusState_some hc, bind, Except.bind, stateHash, hs, hc,
    Option.map_some, optGt, Beats, key]
  by_cases h1 : (h.consensusState ts).blockchainLength < (h.consensusState tc).blockchainLength
  · simp [h1]
  · by_cases h2 : (h.consensusState ts).blockchainLength = (h.consensusState tc).blockchainLength
    · simp only [h2, Nat.lt_irrefl, if_false, if_true, true_and, false_or]
      cases hcmp : strCmp (hexEncode (h.digest (h.consensusState tc).lastVrfOutput))
          (hexEncode (h.digest (h.consensusState ts).lastVrfOutput)) with
      | lt =>
        rw [strCmp_lt, hexEncode_lt] at hcmp
        have h3 : ¬ h.digest (h.consensusState ts).lastVrfOutput < h.digest (h.consensusState tc).lastVrfOutput :=
          fun hh => bytes_lt_irrefl _ (bytes_lt_trans hcmp hh)
        have h4 : h.digest (h.consensusState ts).lastVrfOutput ≠ h.digest (h.consensusState tc).lastVrfOutput :=
          fun hh => bytes_lt_irrefl _ (hh ▸ hcmp)
        simp [h3, h4]
      | eq =>
        rw [strCmp_eq, hexEncode_inj] at hcmp
        simp only [hcmp, bytes_lt_irrefl, false_or, true_and, decide_eq_true_eq, gt_iff_lt]
        split <;> rfl
      | gt =>
        rw [strCmp_gt, hexEncode_lt] at hcmp
        simp [hcmp]
    · simp [h1, h2]

/-! ## Fork classification -/

theorem isShortRange_tops {self c : Chain T} {b : Bool} (hh : isShortRange h self c = .ok b) :
    ∃ ts tc, top self = some ts ∧ top c = some tc := by
  unfold isShortRange consensusState at hh
  cases hs : top self with
  | none => simp [hs] at hh
  | some ts =>
    cases hc : top c with
    | none => simp [hs, hc] at hh
    | some tc => exact ⟨ts, tc, rfl, rfl⟩

/-- The test of `check`, when the addition does not overflow. -/
def checkProp (s1 s2 : ConsensusState) (slot : Nat) : Prop :=
  s1.epochCount = s2.epochCount + 1 ∧ 4760 ≤ slot ∧
    s1.stakingEpochData.lockCheckpoint = s2.nextEpochData.lockCheckpoint

instance (s1 s2 : ConsensusState) (slot : Nat) : Decidable (checkProp s1 s2 slot) := by
  unfold checkProp; exact inferInstance

theorem check_eq {s1 s2 : ConsensusState} {slot : Nat} (hov : s2.epochCount + 1 < 2 ^ 32) :
    check s1 s2 (some slot) = .ok (decide (checkProp s1 s2 slot)) := by
  have hk : slotsPerEpoch * 2 / 3 = 4760 := by decide
  simp only [check, add32, hov, if_true, bind, Except.bind, optGe, hk, decide_eq_true_eq, checkProp, ge_iff_le]
  by_cases h1 : s1.epochCount = s2.epochCount + 1
  · by_cases h2 : 4760 ≤ slot <;> simp [h1, h2]
  · simp [h1]

theorem epochSlot_eq {c : Chain T} {t : T} (ht : top c = some t)
    (hpos : 0 < (h.consensusState t).currGlobalSlot.slotsPerEpoch) :
    epochSlot h c = .ok (some ((h.consensusState t).currGlobalSlot.slotNumber % (h.consensusState t).currGlobalSlot.slotsPerEpoch)) := by
  have : (h.consensusState t).currGlobalSlot.slotsPerEpoch ≠ 0 := by omega
  simp [epochSlot, globalSlot, ht, rem32, this, bind, Except.bind]

/-- Short range as the code decides it, without panics. -/
def shortProp (a b : ConsensusState) : Prop :=
  (a.epochCount = b.epochCount ∧ a.stakingEpochData.lockCheckpoint = b.stakingEpochData.lockCheckpoint) ∨
  checkProp a b (b.currGlobalSlot.slotNumber % b.currGlobalSlot.slotsPerEpoch) ∨
  checkProp b a (a.currGlobalSlot.slotNumber % a.currGlobalSlot.slotsPerEpoch)

instance (a b : ConsensusState) : Decidable (shortProp a b) := by unfold shortProp; exact inferInstance

theorem shortProp_comm (a b : ConsensusState) : shortProp a b ↔ shortProp b a := by
  unfold shortProp
  constructor <;> rintro (⟨h1, h2⟩ | h1 | h1)
  all_goals first
    | exact .inl ⟨h1.symm, h2.symm⟩
    | exact .inr (.inl h1)
    | exact .inr (.inr h1)

theorem isShortRange_eq {self c : Chain T} {ts tc : T} (hs : top self = some ts) (hc : top c = some tc)
    (ws : 0 < (h.consensusState ts).currGlobalSlot.slotsPerEpoch) (wc : 0 < (h.consensusState tc).currGlobalSlot.slotsPerEpoch)
    (es : (h.consensusState ts).epochCount + 1 < 2 ^ 32) (ec : (h.consensusState tc).epochCount + 1 < 2 ^ 32) :
    isShortRange h self c = .ok (decide (shortProp (h.consensusState ts) (h.consensusState tc))) := by
  unfold isShortRange
  rw [consensusState_some hs, consensusState_some hc]
  simp only [epochSlot_eq hs ws, epochSlot_eq hc wc, check_eq es, check_eq ec, bind, Except.bind]
  by_cases he : (h.consensusState ts).epochCount = (h.consensusState tc).epochCount
  · have h1 : ∀ n, ¬ checkProp (h.consensusState ts) (h.consensusState tc) n := by
      intro n hh; unfold checkProp at hh; omega
    have h2 : ∀ n, ¬ checkProp (h.consensusState tc) (h.consensusState ts) n := by
      intro n hh; unfold checkProp at hh; omega
    simp [he, shortProp, h1, h2]
  · simp only [he, if_false, shortProp, false_and, false_or, decide_eq_true_eq]
    split <;> rename_i h1
    · simp [h1]
    · simp [h1]

/-- Whatever answer is given, it is the decision rule; panics are the only other outcome. -/
theorem isShortRange_ok {self c : Chain T} {ts tc : T} {b : Bool} (hs : top self = some ts) (hc : top c = some tc)
    (hh : isShortRange h self c = .ok b) : b = decide (shortProp (h.consensusState ts) (h.consensusState tc)) := by
  unfold isShortRange at hh
  rw [consensusState_some hs, consensusState_some hc] at hh
  simp only at hh
  by_cases he : (h.consensusState ts).epochCount = (h.consensusState tc).epochCount
  · have h1 : ∀ n, ¬ checkProp (h.consensusState ts) (h.consensusState tc) n := by
      intro n hh; unfold checkProp at hh; omega
    have h2 : ∀ n, ¬ checkProp (h.consensusState tc) (h.consensusState ts) n := by
      intro n hh; unfold checkProp at hh; omega
    simp only [he, if_true, Except.ok.injEq] at hh
    simp [shortProp, h1, h2, he, ← hh]
  · rw [if_neg he] at hh
    have hsl : ∀ (x : Chain T) (t : T), top x = some t → (∃ e, epochSlot h x = .error e) ∨
        epochSlot h x = .ok (some ((h.consensusState t).currGlobalSlot.slotNumber % (h.consensusState t).currGlobalSlot.slotsPerEpoch)) := by
      intro x t ht
      by_cases hp : (h.consensusState t).currGlobalSlot.slotsPerEpoch = 0
      · left; simp [epochSlot, globalSlot, ht, rem32, hp, bind, Except.bind]
      · right; exact epochSlot_eq ht (by omega)
    have hck : ∀ (s1 s2 : ConsensusState) (n : Nat), (∃ e, check s1 s2 (some n) = .error e) ∨
        check s1 s2 (some n) = .ok (decide (checkProp s1 s2 n)) := by
      intro s1 s2 n
      by_cases hp : s2.epochCount + 1 < 2 ^ 32
      · right; exact check_eq hp
      · left; simp [check, add32, hp, bind, Except.bind]
    rcases hsl c tc hc with ⟨e, h1⟩ | h1
    · simp [h1, bind, Except.bind] at hh
    rcases hck (h.consensusState ts) (h.consensusState tc) ((h.consensusState tc).currGlobalSlot.slotNumber % (h.consensusState tc).currGlobalSlot.slotsPerEpoch) with ⟨e, h2⟩ | h2
    · simp [h1, h2, bind, Except.bind] at hh
    simp only [h1, h2, bind, Except.bind, decide_eq_true_eq] at hh
    split at hh
    · rename_i h3
      rw [← Except.ok.inj hh]; simp [shortProp, h3]
    · rename_i h3
      rcases hsl self ts hs with ⟨e, h4⟩ | h4
      · simp [h4] at hh
      rcases hck (h.consensusState tc) (h.consensusState ts) ((h.consensusState ts).currGlobalSlot.slotNumber % (h.consensusState ts).currGlobalSlot.slotsPerEpoch) with ⟨e, h5⟩ | h5
      · simp [h4, h5] at hh
      simp only [h4, h5] at hh
      rw [← Except.ok.inj hh]; simp [shortProp, h3, he]

theorem spec_shortRange {a b : ConsensusState} (ha : a.currGlobalSlot.slotsPerEpoch = 7140)
    (hb : b.currGlobalSlot.slotsPerEpoch = 7140) : shortProp a b ↔ ShortRange a b := by
  have e : ∀ n, 4760 ≤ n ↔ 2 * 7140 ≤ 3 * n := by intro n; omega
  simp only [shortProp, ShortRange, OneEpochAhead, checkProp, ha, hb, e]

end MinaRs.Consensus
