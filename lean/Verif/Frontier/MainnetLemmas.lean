import Verif.Frontier.MainnetSpec
import Verif.Consensus.Props
import Verif.Frontier.Props
import Verif.Block.Lemmas

/-! Helper lemmas for the mainnet node: densities for windows of any shape, and when chain selection panics. -/

namespace MinaRs.Consensus
open Spec

variable {T : Type} {h : Header T}

/-- All positions that are cleared are in the window. -/
def fits (n rel : Nat) (w : List Nat) : Prop := ∀ i < n, (rel + 1 + i) % 11 < w.length

theorem ringShift_fits (n rel : Nat) (w : List Nat) (hf : fits n rel w) : ringShift n rel w = .ok (clearW n rel w) := by
  induction n generalizing rel w with
  | zero => rw [ringShift, clearW_zero]
  | succ n ih =>
    have hlt : (rel + 1) % 11 < w.length := hf 0 (by omega)
    have hs : subWindowsPerWindow = 11 := rfl
    simp only [ringShift, hs, hlt, if_true]
    rw [ih _ _ (by
      intro i hi
      have := hf (i + 1) (by omega)
      rw [List.length_set]
      rw [show ((rel + 1) % 11 + 1 + i) % 11 = (rel + 1 + (i + 1)) % 11 by omega]
      exact this)]
    congr 1
    apply List.ext_getElem (by simp [clearW_length])
    intro i h1 h2
    have hi : i < w.length := by simpa [clearW_length] using h2
    rw [clearW_get _ _ _ _ (by simpa using hi), clearW_get _ _ _ _ hi, cleared_succ, List.getElem_set]
    by_cases e : (rel + 1) % 11 = i
    · simp [e]
    · simp [e]

theorem ringShift_misfits (n rel : Nat) (w : List Nat) (hf : ¬ fits n rel w) :
    ringShift n rel w = .error .candidatesMissingSubWindowDensities := by
  induction n generalizing rel w with
  | zero => exact absurd (fun i hi => by omega) hf
  | succ n ih =>
    have hs : subWindowsPerWindow = 11 := rfl
    simp only [ringShift, hs]
    split
    · rename_i hlt
      refine ih _ _ fun h => hf ?_
      intro i hi
      cases i with
      | zero => exact hlt
      | succ i =>
        have := h i (by omega)
        rw [List.length_set] at this
        rw [show (rel + 1 + (i + 1)) % 11 = ((rel + 1) % 11 + 1 + i) % 11 by omega]
        exact this
    · rfl

theorem sum32_panics (acc : Nat) (l : List Nat) (ha : acc < 2 ^ 32) (hb : 2 ^ 32 ≤ acc + l.sum) : ∃ m, sum32 acc l = .error (.panic m) := by
  induction l generalizing acc with
  | nil => simp at hb; omega
  | cons d ds ih =>
    simp only [List.sum_cons] at hb
    simp only [sum32, add32, bind, Except.bind]
    by_cases h1 : acc + d < 2 ^ 32
    · simp only [h1, if_true]
      exact ih _ h1 (by omega)
    · simp only [h1, if_false]
      exact ⟨_, rfl⟩

/-- The density for every window. -/
theorem relDensity_full {self c : Chain T} {ts tc : T} (hs : top self = some ts) (hc : top c = some tc) :
    let a := h.consensusState ts
    let b := h.consensusState tc
    let early := max a.currGlobalSlot.slotNumber b.currGlobalSlot.slotNumber < 1440
    let fit := fits (codeShift a b) (codeStart a) a.subWindowDensities
    let left := shiftedDensity (codeShift a b) (codeStart a) a.subWindowDensities
    (early → relativeMinWindowDensity h self c = .ok a.minWindowDensity) ∧
    (¬ early → ¬ fit → relativeMinWindowDensity h self c = .error .candidatesMissingSubWindowDensities) ∧
    (¬ early → fit → left < 2 ^ 32 → relativeMinWindowDensity h self c = .ok (min a.minWindowDensity left)) ∧
    (¬ early → fit → ¬ left < 2 ^ 32 → ∃ m, relativeMinWindowDensity h self c = .error (.panic m)) := by
  intro a b early fit left
  unfold relativeMinWindowDensity
  rw [consensusState_some hs, consensusState_some hc]
  simp only [gracePeriodEnd, subWindowsPerWindow, Nat.max_zero]
  refine ⟨fun he => if_pos he, fun he hf => ?_, fun he hf hl => ?_, fun he hf hl => ?_⟩
  all_goals rw [if_neg he]
  · have := ringShift_misfits _ _ _ hf
    simp only [codeShift, codeStart] at this
    rw [this]; rfl
  · have := ringShift_fits _ _ _ hf
    simp only [codeShift, codeStart] at this
    rw [this]
    simp only [bind, Except.bind]
    rw [sum32_eq _ _ (by rw [Nat.zero_add]; exact hl), Nat.zero_add]
    rfl
  · have := ringShift_fits _ _ _ hf
    simp only [codeShift, codeStart] at this
    rw [this]
    simp only [bind, Except.bind]
    obtain ⟨m, hm⟩ := sum32_panics 0 (clearW (codeShift a b) (codeStart a) a.subWindowDensities) (by decide) (by
      rw [Nat.zero_add]; exact Nat.le_of_not_lt hl)
    simp only [codeShift, codeStart] at hm
    exact ⟨m, by rw [hm]⟩

end MinaRs.Consensus

namespace MinaRs.Frontier.Mainnet

open Block (Blk BTy BTys Key Sig fromWire)
open Hash (B32 Fp ProtocolStateLegacy)
open MinaRs.Consensus (Header Chain top isShortRange relativeMinWindowDensity selectOne selectSecureChain relDensity_full fits codeShift codeStart)
open Mainnet.Spec
open Frontier.Spec (ValidCommand Panics)

variable (H : String → List Fp → Fp) (sha : List UInt8 → B32) (digest : List UInt8 → List UInt8)

theorem b32_inj (a b : B32) : a.bytes = b.bytes ↔ a = b := by
  constructor
  · intro h; cases a; cases b; cases h; rfl
  · rintro rfl; rfl

theorem clash_iff {self : Chain ProtocolStateLegacy} {t s : ProtocolStateLegacy} (ht : top self = some t) :
    (∃ m, isShortRange (header H sha digest) self [s] = .error (.panic m)) ↔ EpochClash t s := by
  rw [MinaRs.Consensus.C33_zero_epoch_length_fails (header H sha digest) self [s] t s ht rfl]
  have b1 := t.body.consensusState.epochCount.toNat_lt
  have b2 := s.body.consensusState.epochCount.toNat_lt
  have ha : ∀ n : Nat, n < 2 ^ 32 → (2 ^ 32 ≤ n + 1 ↔ n = 2 ^ 32 - 1) := by intro n hn; omega
  unfold EpochClash Follows slot
  simp only [header, b32_inj, ne_eq, UInt32.toNat_inj, ha _ b1, ha _ b2, or_assoc]

theorem short_near (t s : ProtocolStateLegacy) :
    MinaRs.Consensus.shortProp ((header H sha digest).consensusState t) ((header H sha digest).consensusState s) ↔ NearFork t s := by
  simp only [MinaRs.Consensus.shortProp, MinaRs.Consensus.checkProp, NearFork, Follows, slot, header, b32_inj, UInt32.toNat_inj]

theorem window_iff (s : ProtocolStateLegacy) :
    MinaRs.Consensus.Spec.WindowOk ((header H sha digest).consensusState s) ↔ WindowOk s := by
  unfold MinaRs.Consensus.Spec.WindowOk WindowOk
  simp [header]

theorem fits_iff (t s : ProtocolStateLegacy) :
    fits (codeShift ((header H sha digest).consensusState t) ((header H sha digest).consensusState s))
      (codeStart ((header H sha digest).consensusState t)) ((header H sha digest).consensusState t).subWindowDensities ↔ Fits t s := by
  unfold fits Fits
  simp only [header, List.length_map]
  exact Iff.rfl

theorem window_fits {s : ProtocolStateLegacy} (t : ProtocolStateLegacy) (hw : WindowOk s) : Fits s t ∧ blocksLeft s t < 2 ^ 32 := by
  refine ⟨fun i _ => by rw [hw.1]; exact Nat.mod_lt _ (by decide), ?_⟩
  have h1 := MinaRs.Consensus.shiftedDensity_le (shift s t) (slot s / 11 % 11) (s.body.consensusState.subWindowDensities.map (·.toNat))
  have h2 : ∀ l : List UInt32, (∀ d ∈ l, d.toNat ≤ 7) → (l.map (·.toNat)).sum ≤ 7 * l.length := by
    intro l
    induction l with
    | nil => intro _; simp
    | cons d ds ih =>
      intro h
      have := h d (by simp)
      have := ih (fun x hx => h x (by simp [hx]))
      simp only [List.map_cons, List.sum_cons, List.length_cons]; omega
  have h3 := h2 _ hw.2
  rw [hw.1] at h3
  unfold blocksLeft
  omega

/-- The density of a state, for every window. -/
theorem density_full {a b : Chain ProtocolStateLegacy} {t s : ProtocolStateLegacy} (ha : top a = some t) (hb : top b = some s) :
    ((max (slot t) (slot s) < 1440 ∨ (Fits t s ∧ blocksLeft t s < 2 ^ 32)) → relativeMinWindowDensity (header H sha digest) a b = .ok (relDensity t s)) ∧
    (¬ max (slot t) (slot s) < 1440 → ¬ Fits t s →
      relativeMinWindowDensity (header H sha digest) a b = .error .candidatesMissingSubWindowDensities) ∧
    (¬ max (slot t) (slot s) < 1440 → Fits t s → ¬ blocksLeft t s < 2 ^ 32 → ∃ m, relativeMinWindowDensity (header H sha digest) a b = .error (.panic m)) := by
  obtain ⟨h1, h2, h3, h4⟩ := relDensity_full (h := header H sha digest) ha hb
  rw [fits_iff] at h2 h3 h4
  refine ⟨fun h => ?_, h2, h4⟩
  unfold relDensity
  by_cases he : max (slot t) (slot s) < 1440
  · rw [if_pos he]; exact h1 he
  · rw [if_neg he]
    rcases h with h | ⟨hf, hl⟩
    · exact absurd h he
    · exact h3 he hf hl

theorem selectOne_panics {self : Chain ProtocolStateLegacy} {t s : ProtocolStateLegacy} (ht : top self = some t) :
    (∃ m, selectOne (header H sha digest) self [s] = .error (.panic m)) ↔ EpochClash t s ∨ (¬ EpochClash t s ∧ WindowOverflow t s) := by
  have hs : top [s] = some s := rfl
  cases hr : isShortRange (header H sha digest) self [s] with
  | error e =>
    have hp := MinaRs.Consensus.isShortRange_err ht hs hr
    cases e with
    | panic m =>
      have := (clash_iff H sha digest ht).mp ⟨m, hr⟩
      exact ⟨fun _ => .inl this, fun _ => ⟨m, by unfold selectOne; rw [hr]; rfl⟩⟩
    | _ => cases hp
  | ok b =>
    have hne : ¬ EpochClash t s := by
      rw [← clash_iff H sha digest ht, hr]
      rintro ⟨m, h⟩; cases h
    simp only [hne, false_or, not_false_eq_true, true_and]
    have hb := MinaRs.Consensus.isShortRange_ok ht hs hr
    cases b with
    | true =>
      have hn : NearFork t s := (short_near H sha digest t s).mp (of_decide_eq_true hb.symm)
      rw [MinaRs.Consensus.selectOne_short ht hs hr]
      exact ⟨fun ⟨m, h⟩ => (by cases h), fun h => absurd hn h.1⟩
    | false =>
      have hn : ¬ NearFork t s := fun h => of_decide_eq_false hb.symm ((short_near H sha digest t s).mpr h)
      by_cases hw : WindowOk s
      · have hw' := (window_iff H sha digest s).mpr hw
        obtain ⟨d1, d2, d3⟩ := density_full H sha digest ht hs
        have e2 := (density_full H sha digest hs ht).1 (.inr (window_fits t hw))
        by_cases he : max (slot t) (slot s) < 1440
        · rw [MinaRs.Consensus.selectOne_long ht hs hr hw' (d1 (.inl he)) e2]
          refine ⟨fun ⟨m, h⟩ => (by cases h), fun h => ?_⟩
          have := h.2.2.1; omega
        · by_cases hf : Fits t s
          · by_cases hl : blocksLeft t s < 2 ^ 32
            · rw [MinaRs.Consensus.selectOne_long ht hs hr hw' (d1 (.inr ⟨hf, hl⟩)) e2]
              refine ⟨fun ⟨m, h⟩ => (by cases h), fun h => ?_⟩
              have := h.2.2.2.2; omega
            · obtain ⟨m, hm⟩ := d3 he hf hl
              rw [MinaRs.Consensus.selectOne_long_err1 hs hr hw' hm]
              exact ⟨fun _ => ⟨hn, hw, by omega, hf, by omega⟩, fun _ => ⟨m, rfl⟩⟩
          · rw [MinaRs.Consensus.selectOne_long_err1 hs hr hw' (d2 he hf)]
            exact ⟨fun ⟨m, h⟩ => (by cases h), fun h => absurd h.2.2.2.1 hf⟩
      · rw [MinaRs.Consensus.selectOne_long_bad hs hr (fun h => hw ((window_iff H sha digest s).mp h))]
        exact ⟨fun ⟨m, h⟩ => (by cases h), fun h => absurd h.2.1 hw⟩

theorem even_iff (t s : ProtocolStateLegacy) :
    (decide (((header H sha digest).consensusState t).blockchainLength = ((header H sha digest).consensusState s).blockchainLength) &&
      decide ((header H sha digest).digest ((header H sha digest).consensusState t).lastVrfOutput =
        (header H sha digest).digest ((header H sha digest).consensusState s).lastVrfOutput)) = true ↔
      t.body.consensusState.blockchainLength = s.body.consensusState.blockchainLength ∧
      digest t.body.consensusState.lastVrfOutput = digest s.body.consensusState.lastVrfOutput := by
  simp only [Bool.and_eq_true, decide_eq_true_eq]
  simp only [header, UInt32.toNat_inj]

/-- When state hashes are compared, if nothing panics before. -/
theorem compares_iff {self : Chain ProtocolStateLegacy} {t s : ProtocolStateLegacy} (ht : top self = some t)
    (h1 : ¬ EpochClash t s) (h2 : ¬ WindowOverflow t s) :
    comparesHashes (header H sha digest) self s = true ↔
      t.body.consensusState.blockchainLength = s.body.consensusState.blockchainLength ∧
      digest t.body.consensusState.lastVrfOutput = digest s.body.consensusState.lastVrfOutput ∧
      (NearFork t s ∨ (WindowOk s ∧ (max (slot t) (slot s) < 1440 ∨ Fits t s) ∧ relDensity t s = relDensity s t)) := by
  have hs : top [s] = some s := rfl
  unfold comparesHashes
  rw [MinaRs.Consensus.consensusState_some ht]
  simp only
  cases hr : isShortRange (header H sha digest) self [s] with
  | error e =>
    have hp := MinaRs.Consensus.isShortRange_err ht hs hr
    cases e with
    | panic m => exact absurd ((clash_iff H sha digest ht).mp ⟨m, hr⟩) h1
    | _ => cases hp
  | ok b =>
    have hb := MinaRs.Consensus.isShortRange_ok ht hs hr
    cases b with
    | true =>
      have hn : NearFork t s := (short_near H sha digest t s).mp (of_decide_eq_true hb.symm)
      simp only
      rw [even_iff]
      simp [hn]
    | false =>
      have hn : ¬ NearFork t s := fun h => of_decide_eq_false hb.symm ((short_near H sha digest t s).mpr h)
      simp only [hn, false_or]
      have hwin : (((header H sha digest).consensusState s).subWindowDensities.any (fun s => decide (s > 7)) = true ∨
          ((header H sha digest).consensusState s).subWindowDensities.length ≠ 11) ↔ ¬ WindowOk s := by
        rw [← window_iff H sha digest]
        unfold MinaRs.Consensus.Spec.WindowOk
        simp only [List.any_eq_true, decide_eq_true_eq]
        constructor
        · rintro (⟨d, hd, h7⟩ | h) ⟨h3, h4⟩
          · have := h4 d hd; omega
          · exact h h3
        · intro h
          by_cases hl : ((header H sha digest).consensusState s).subWindowDensities.length = 11
          · left
            apply Classical.byContradiction
            intro hx
            refine h ⟨hl, fun d hd => ?_⟩
            apply Classical.byContradiction
            intro h7
            exact hx ⟨d, hd, by omega⟩
          · exact .inr hl
      by_cases hw : WindowOk s
      · rw [if_neg (fun h => hwin.mp h hw)]
        obtain ⟨d1, d2, d3⟩ := density_full H sha digest ht hs
        have e2 := (density_full H sha digest hs ht).1 (.inr (window_fits t hw))
        by_cases hc : max (slot t) (slot s) < 1440 ∨ Fits t s
        · have e1 := d1 (by
            by_cases he : max (slot t) (slot s) < 1440
            · exact .inl he
            · refine .inr ⟨hc.resolve_left he, ?_⟩
              apply Classical.byContradiction
              intro hl
              exact h2 ⟨hn, hw, by omega, hc.resolve_left he, by omega⟩)
          rw [e1, e2]
          simp only
          rw [Bool.and_eq_true, even_iff]
          simp only [decide_eq_true_eq, hw, hc, true_and]
          constructor
          · rintro ⟨a, b, c⟩; exact ⟨b, c, a⟩
          · rintro ⟨b, c, a⟩; exact ⟨a, b, c⟩
        · rw [d2 (fun h => hc (.inl h)) (fun h => hc (.inr h))]
          simp [hc]
      · rw [if_pos (hwin.mpr hw)]
        simp [hw]

theorem hashable_iff (s : ProtocolStateLegacy) :
    hashable H sha s = true ↔ Spec.Hashable s := by
  unfold Spec.Hashable hashable
  rw [← Hash.C70_no_panic_iff H sha]
  cases s.stateHash H sha <;> simp

end MinaRs.Frontier.Mainnet
