import Verif.Consensus.Lemmas

/-! Helper lemmas: the ring shift, densities, one selection step. -/

namespace MinaRs.Consensus
open Spec

variable {T : Type} {h : Header T}

/-- The window after clearing. -/
def clearW (n rel : Nat) (w : List Nat) : List Nat :=
  w.zipIdx.map fun (d, i) => if cleared n rel i then 0 else d

theorem clearW_length (n rel : Nat) (w : List Nat) : (clearW n rel w).length = w.length := by simp [clearW]

theorem clearW_get (n rel : Nat) (w : List Nat) (i : Nat) (hi : i < w.length) :
    (clearW n rel w)[i]'(by rw [clearW_length]; exact hi) = if cleared n rel i then 0 else w[i] := by
  simp [clearW]

theorem cleared_zero (rel i : Nat) : cleared 0 rel i = false := by simp [cleared]

theorem cleared_succ (n rel i : Nat) :
    cleared (n + 1) rel i = (((rel + 1) % 11 == i) || cleared n ((rel + 1) % 11) i) := by
  unfold cleared
  rw [List.range_succ_eq_map, List.any_cons, List.any_map]
  have e : ∀ j, (rel + 1 + (j + 1)) % 11 = ((rel + 1) % 11 + 1 + j) % 11 := by intro j; omega
  simp only [Nat.add_zero]
  congr 1
  apply List.any_congr rfl
  intro j
  simp only [Function.comp, Nat.succ_eq_add_one, e]

theorem clearW_zero (rel : Nat) (w : List Nat) : clearW 0 rel w = w := by
  apply List.ext_getElem (clearW_length ..)
  intro i h1 h2
  rw [clearW_get _ _ _ _ h2, cleared_zero]; rfl

theorem ringShift_eq (n rel : Nat) (w : List Nat) (hw : 11 ≤ w.length) :
    ringShift n rel w = .ok (clearW n rel w) := by
  induction n generalizing rel w with
  | zero => rw [ringShift, clearW_zero]
  | succ n ih =>
    have hlt : (rel + 1) % 11 < w.length := by omega
    have hs : subWindowsPerWindow = 11 := rfl
    simp only [ringShift, hs, hlt, if_true]
    rw [ih _ _ (by simpa using hw)]
    congr 1
    apply List.ext_getElem (by simp [clearW_length])
    intro i h1 h2
    have hi : i < w.length := by simpa [clearW_length] using h2
    rw [clearW_get _ _ _ _ (by simpa using hi), clearW_get _ _ _ _ hi, cleared_succ, List.getElem_set]
    by_cases e : (rel + 1) % 11 = i
    · simp [e]
    · simp [e]

theorem sum_set_zero_le (w : List Nat) (i : Nat) : (w.set i 0).sum ≤ w.sum := by
  induction w generalizing i with
  | nil => simp
  | cons d ds ih =>
    cases i with
    | zero => simp
    | succ i => simp only [List.set_cons_succ, List.sum_cons]; have := ih i; omega

theorem ringShift_ok {n rel : Nat} {w w' : List Nat} (hh : ringShift n rel w = .ok w') : w'.sum ≤ w.sum := by
  induction n generalizing rel w with
  | zero => rw [ringShift] at hh; rw [← Except.ok.inj hh]; exact Nat.le_refl _
  | succ n ih =>
    simp only [ringShift] at hh
    split at hh
    · have := ih hh; have := sum_set_zero_le w ((rel + 1) % subWindowsPerWindow); omega
    · cases hh

theorem ringShift_err {n rel : Nat} {w : List Nat} {e : Err} (hh : ringShift n rel w = .error e) :
    e = .candidatesMissingSubWindowDensities ∧ w.length < 11 := by
  by_cases hw : 11 ≤ w.length
  · rw [ringShift_eq _ _ _ hw] at hh; cases hh
  · refine ⟨?_, by omega⟩
    clear hw
    induction n generalizing rel w with
    | zero => rw [ringShift] at hh; cases hh
    | succ n ih =>
      simp only [ringShift] at hh
      split at hh
      · exact ih hh
      · exact (Except.error.inj hh).symm

theorem sum32_eq (acc : Nat) (l : List Nat) (hb : acc + l.sum < 2 ^ 32) : sum32 acc l = .ok (acc + l.sum) := by
  induction l generalizing acc with
  | nil => simp [sum32]
  | cons d ds ih =>
    simp only [List.sum_cons] at hb
    have : acc + d < 2 ^ 32 := by omega
    simp only [sum32, add32, this, if_true, bind, Except.bind]
    rw [ih _ (by omega)]
    simp only [List.sum_cons]; congr 1; omega

theorem sum_map_le {α : Type} (l : List α) (f g : α → Nat) (hfg : ∀ x ∈ l, f x ≤ g x) : (l.map f).sum ≤ (l.map g).sum := by
  induction l with
  | nil => simp
  | cons x xs ih =>
    simp only [List.map_cons, List.sum_cons]
    have := hfg x (by simp)
    have := ih (fun y hy => hfg y (by simp [hy]))
    omega

theorem cleared_mono {n m rel i : Nat} (hnm : n ≤ m) (hc : cleared n rel i = true) : cleared m rel i = true := by
  simp only [cleared, List.any_eq_true, List.mem_range] at *
  obtain ⟨j, h1, h2⟩ := hc
  exact ⟨j, by omega, h2⟩

theorem shiftedDensity_mono {n m : Nat} (hnm : n ≤ m) (rel : Nat) (w : List Nat) :
    shiftedDensity m rel w ≤ shiftedDensity n rel w := by
  apply sum_map_le
  rintro ⟨d, i⟩ _
  by_cases h1 : cleared n rel i = true
  · simp [h1, cleared_mono hnm h1]
  · simp only [h1]; split <;> simp

theorem shiftedDensity_clearW (n rel : Nat) (w : List Nat) : shiftedDensity n rel w = (clearW n rel w).sum := rfl

theorem shiftedDensity_le (n rel : Nat) (w : List Nat) : shiftedDensity n rel w ≤ w.sum := by
  have := shiftedDensity_mono (Nat.zero_le n) rel w
  rw [shiftedDensity_clearW 0, clearW_zero] at this
  exact this

/-- The shift count of the code. -/
def codeShift (s other : ConsensusState) : Nat :=
  min (max s.currGlobalSlot.slotNumber other.currGlobalSlot.slotNumber - (s.currGlobalSlot.slotNumber - 1)) 11

/-- The starting sub-window of the code. -/
def codeStart (s : ConsensusState) : Nat := s.currGlobalSlot.slotNumber / 11 % 11

theorem relDensity_eq {self c : Chain T} {ts tc : T} (hs : top self = some ts) (hc : top c = some tc)
    (hw : 11 ≤ (h.consensusState ts).subWindowDensities.length)
    (hb : (h.consensusState ts).subWindowDensities.sum < 2 ^ 32) :
    relativeMinWindowDensity h self c = .ok (density (codeShift (h.consensusState ts) (h.consensusState tc))
      (codeStart (h.consensusState ts)) (h.consensusState ts) (h.consensusState tc)) := by
  unfold relativeMinWindowDensity density
  rw [consensusState_some hs, consensusState_some hc]
  simp only [gracePeriodEnd, subWindowsPerWindow, Nat.max_zero]
  split
  · rfl
  · rw [ringShift_eq _ _ _ hw]
    simp only [bind, Except.bind]
    rw [sum32_eq _ _ (by
      have := shiftedDensity_le (codeShift (h.consensusState ts) (h.consensusState tc)) (codeStart (h.consensusState ts)) (h.consensusState ts).subWindowDensities
      rw [shiftedDensity_clearW] at this
      simp only [codeShift, codeStart] at this
      omega)]
    simp only [Nat.zero_add]
    rfl

/-- Without a panic, the only error is a window that is too short. -/
theorem relDensity_cases {self c : Chain T} {ts tc : T} (hs : top self = some ts) (hc : top c = some tc)
    (hb : (h.consensusState ts).subWindowDensities.sum < 2 ^ 32) :
    (∃ d, relativeMinWindowDensity h self c = .ok d) ∨
    (relativeMinWindowDensity h self c = .error .candidatesMissingSubWindowDensities ∧
      (h.consensusState ts).subWindowDensities.length < 11) := by
  unfold relativeMinWindowDensity
  rw [consensusState_some hs, consensusState_some hc]
  simp only [Nat.max_zero]
  split
  · exact .inl ⟨_, rfl⟩
  · simp only [bind, Except.bind]
    generalize hr : ringShift _ _ _ = r
    cases r with
    | error e =>
      obtain ⟨h1, h2⟩ := ringShift_err hr
      subst h1
      exact .inr ⟨rfl, h2⟩
    | ok w =>
      have := ringShift_ok hr
      simp only
      rw [sum32_eq _ _ (by omega)]
      exact .inl ⟨_, rfl⟩

theorem ringShift_mono {n m rel : Nat} {w w1 w2 : List Nat} (hnm : n ≤ m) (h1 : ringShift n rel w = .ok w1)
    (h2 : ringShift m rel w = .ok w2) : w2.sum ≤ w1.sum := by
  induction n generalizing m rel w with
  | zero => rw [ringShift] at h1; rw [← Except.ok.inj h1]; exact ringShift_ok h2
  | succ n ih =>
    cases m with
    | zero => omega
    | succ m =>
      simp only [ringShift] at h1 h2
      split at h1
      · rename_i hlt
        rw [if_pos hlt] at h2
        exact ih (by omega) h1 h2
      · cases h1

theorem sum32_ok {acc : Nat} {l : List Nat} {s : Nat} (hh : sum32 acc l = .ok s) : s = acc + l.sum := by
  induction l generalizing acc with
  | nil => rw [sum32] at hh; simp [← Except.ok.inj hh]
  | cons d ds ih =>
    simp only [sum32, add32, bind, Except.bind] at hh
    split at hh
    · cases hh
    · rename_i heq
      split at heq
      · have := ih hh
        rw [← Except.ok.inj heq] at this
        simp only [List.sum_cons]; omega
      · cases heq

/-- What the value is made of, for any window. -/
theorem relDensity_ok {self c : Chain T} {ts tc : T} (hs : top self = some ts) (hc : top c = some tc) {d : Nat}
    (hh : relativeMinWindowDensity h self c = .ok d) :
    (max (h.consensusState ts).currGlobalSlot.slotNumber (h.consensusState tc).currGlobalSlot.slotNumber < 1440 ∧
      d = (h.consensusState ts).minWindowDensity) ∨
    (¬ max (h.consensusState ts).currGlobalSlot.slotNumber (h.consensusState tc).currGlobalSlot.slotNumber < 1440 ∧
      ∃ w, ringShift (codeShift (h.consensusState ts) (h.consensusState tc)) (codeStart (h.consensusState ts))
        (h.consensusState ts).subWindowDensities = .ok w ∧ d = min (h.consensusState ts).minWindowDensity w.sum) := by
  unfold relativeMinWindowDensity at hh
  rw [consensusState_some hs, consensusState_some hc] at hh
  simp only [Nat.max_zero, gracePeriodEnd, bind, Except.bind] at hh
  split at hh
  · rename_i h1; exact .inl ⟨h1, (Except.ok.inj hh).symm⟩
  · rename_i h1
    refine .inr ⟨h1, ?_⟩
    split at hh
    · cases hh
    · rename_i w hw
      refine ⟨w, hw, ?_⟩
      split at hh
      · cases hh
      · rename_i v hv
        have := sum32_ok hv
        rw [← Except.ok.inj hh, this, Nat.zero_add]

theorem relDensity_err {self c : Chain T} {e : Err} (hne : self ≠ []) (hnc : c ≠ [])
    (hh : relativeMinWindowDensity h self c = .error e) : e = .candidatesMissingSubWindowDensities ∨ e.isPanic = true := by
  unfold relativeMinWindowDensity at hh
  have hs : ∃ ts, top self = some ts := ⟨self.getLast hne, List.getLast?_eq_some_getLast hne⟩
  have hc : ∃ tc, top c = some tc := ⟨c.getLast hnc, List.getLast?_eq_some_getLast hnc⟩
  obtain ⟨ts, hs⟩ := hs
  obtain ⟨tc, hc⟩ := hc
  rw [consensusState_some hs, consensusState_some hc] at hh
  simp only [Nat.max_zero] at hh
  split at hh
  · cases hh
  · simp only [bind, Except.bind] at hh
    generalize hr : ringShift _ _ _ = r at hh
    cases r with
    | error e' =>
      have := ringShift_err hr
      simp only [Except.error.injEq] at hh
      exact .inl (hh ▸ this.1)
    | ok w =>
      simp only at hh
      cases hsum : sum32 0 w with
      | ok d => simp [hsum] at hh
      | error e' =>
        simp only [hsum, Except.error.injEq] at hh
        subst hh
        right
        have key : ∀ (acc : Nat) (l : List Nat), sum32 acc l = .error e' → e'.isPanic = true := by
          intro acc l
          induction l generalizing acc with
          | nil => intro hx; cases hx
          | cons d ds ih =>
            intro hx
            simp only [sum32, add32, bind, Except.bind] at hx
            split at hx
            · rename_i heq; split at heq
              · cases heq
              · rw [← Except.error.inj hx, ← Except.error.inj heq]; rfl
            · exact ih _ hx
        exact key _ _ hsum

/-! ## One candidate -/

theorem selectLongerChain_mem {self c r : Chain T} (hh : selectLongerChain h self c = .ok r) : r = self ∨ r = c := by
  cases hs : top self with
  | none => simp [selectLongerChain, consensusState, hs] at hh
  | some ts =>
    cases hc : top c with
    | none => simp [selectLongerChain, consensusState, hs, hc] at hh
    | some tc =>
      rw [selectLongerChain_eq hs hc] at hh
      have := Except.ok.inj hh
      split at this
      · exact .inr this.symm
      · exact .inl this.symm

theorem selectOne_mem {self c r : Chain T} (hh : selectOne h self c = .ok r) : r = self ∨ r = c := by
  unfold selectOne at hh
  simp only [bind, Except.bind] at hh
  split at hh
  · cases hh
  · split at hh
    · exact selectLongerChain_mem hh
    · split at hh
      · cases hh
      · split at hh
        · exact .inl (Except.ok.inj hh).symm
        · split at hh
          · exact .inl (Except.ok.inj hh).symm
          · split at hh
            · cases hh
            · split at hh
              · cases hh
              · split at hh
                · exact .inr (Except.ok.inj hh).symm
                · exact selectLongerChain_mem hh
                · exact .inl (Except.ok.inj hh).symm

theorem selectOne_short {self c : Chain T} {ts tc : T} (hs : top self = some ts) (hc : top c = some tc)
    (hh : isShortRange h self c = .ok true) :
    selectOne h self c = .ok (if Beats (key h tc) (key h ts) then c else self) := by
  unfold selectOne
  simp only [hh, bind, Except.bind, if_true]
  exact selectLongerChain_eq hs hc

theorem selectOne_long_bad {self c : Chain T} {tc : T} (hc : top c = some tc)
    (hh : isShortRange h self c = .ok false) (hbad : ¬ WindowOk (h.consensusState tc)) : selectOne h self c = .ok self := by
  unfold selectOne
  simp only [hh, bind, Except.bind, if_false, consensusState_some hc, Bool.false_eq_true]
  split
  · rfl
  · rename_i h1
    split
    · rfl
    · rename_i h2
      refine absurd ?_ hbad
      refine ⟨by simpa [subWindowsPerWindow] using h2, fun d hd => ?_⟩
      apply Decidable.byContradiction
      intro hgt
      exact h1 (List.any_eq_true.mpr ⟨d, hd, decide_eq_true (by unfold slotsPerSubWindow; omega)⟩)

theorem selectOne_long {self c : Chain T} {ts tc : T} (hs : top self = some ts) (hc : top c = some tc)
    (hh : isShortRange h self c = .ok false) (hok : WindowOk (h.consensusState tc)) {dt dc : Nat}
    (hdt : relativeMinWindowDensity h self c = .ok dt) (hdc : relativeMinWindowDensity h c self = .ok dc) :
    selectOne h self c = .ok (if dt < dc ∨ (dt = dc ∧ Beats (key h tc) (key h ts)) then c else self) := by
  obtain ⟨h1, h2⟩ := hok
  have e1 : (h.consensusState tc).subWindowDensities.any (fun s => decide (s > slotsPerSubWindow)) = false := by
    rw [List.any_eq_false]
    intro d hd
    have := h2 d hd
    simp only [slotsPerSubWindow, gt_iff_lt, decide_eq_true_eq]; omega
  unfold selectOne
  simp only [hh, bind, Except.bind, if_false, consensusState_some hc, Bool.false_eq_true, e1, h1, subWindowsPerWindow,
    ne_eq, not_true_eq_false, hdt, hdc]
  cases hcmp : compare dc dt with
  | lt =>
    have := Nat.compare_eq_lt.mp hcmp
    have a : ¬ dt < dc := by omega
    have b : ¬ dt = dc := by omega
    simp [a, b]
  | eq =>
    have := Nat.compare_eq_eq.mp hcmp
    subst this
    simp only [Nat.lt_irrefl, false_or, true_and]
    exact selectLongerChain_eq hs hc
  | gt =>
    have := Nat.compare_eq_gt.mp hcmp
    simp [this]

theorem windowOk_any {s : ConsensusState} (hok : WindowOk s) :
    s.subWindowDensities.any (fun s => decide (s > slotsPerSubWindow)) = false := by
  rw [List.any_eq_false]
  intro d hd
  have := hok.2 d hd
  simp only [slotsPerSubWindow, gt_iff_lt, decide_eq_true_eq]; omega

theorem selectOne_long_err1 {self c : Chain T} {tc : T} {e : Err} (hc : top c = some tc)
    (hh : isShortRange h self c = .ok false) (hok : WindowOk (h.consensusState tc))
    (hdt : relativeMinWindowDensity h self c = .error e) : selectOne h self c = .error e := by
  unfold selectOne
  simp only [hh, bind, Except.bind, if_false, consensusState_some hc, Bool.false_eq_true, windowOk_any hok, hok.1,
    subWindowsPerWindow, ne_eq, not_true_eq_false, hdt]

theorem selectOne_long_err2 {self c : Chain T} {tc : T} {e : Err} {dt : Nat} (hc : top c = some tc)
    (hh : isShortRange h self c = .ok false) (hok : WindowOk (h.consensusState tc))
    (hdt : relativeMinWindowDensity h self c = .ok dt) (hdc : relativeMinWindowDensity h c self = .error e) :
    selectOne h self c = .error e := by
  unfold selectOne
  simp only [hh, bind, Except.bind, if_false, consensusState_some hc, Bool.false_eq_true, windowOk_any hok, hok.1,
    subWindowsPerWindow, ne_eq, not_true_eq_false, hdt, hdc]

theorem epochSlot_err {c : Chain T} {e : Err} (hh : epochSlot h c = .error e) : e.isPanic = true := by
  unfold epochSlot at hh
  split at hh
  · cases hh
  · simp only [rem32, bind, Except.bind] at hh
    split at hh
    · rename_i heq
      split at heq
      · rw [← Except.error.inj hh, ← Except.error.inj heq]; rfl
      · cases heq
    · cases hh

theorem check_err {s1 s2 : ConsensusState} {o : Option Nat} {e : Err} (hh : check s1 s2 o = .error e) : e.isPanic = true := by
  simp only [check, add32, bind, Except.bind] at hh
  split at hh
  · rename_i heq
    split at heq
    · cases heq
    · rw [← Except.error.inj hh, ← Except.error.inj heq]; rfl
  · split at hh <;> cases hh

theorem isShortRange_err {self c : Chain T} {ts tc : T} {e : Err} (hs : top self = some ts) (hc : top c = some tc)
    (hh : isShortRange h self c = .error e) : e.isPanic = true := by
  unfold isShortRange at hh
  rw [consensusState_some hs, consensusState_some hc] at hh
  simp only [bind, Except.bind] at hh
  split at hh
  · cases hh
  · split at hh
    · rename_i heq; rw [← Except.error.inj hh]; exact epochSlot_err heq
    · split at hh
      · rename_i heq; rw [← Except.error.inj hh]; exact check_err heq
      · split at hh
        · cases hh
        · split at hh
          · rename_i heq; rw [← Except.error.inj hh]; exact epochSlot_err heq
          · exact check_err hh

/-- One step on well-formed tips: no panic, and an error only for a window of the current chain
that is too short. -/
theorem selectOne_wf {self c : Chain T} {ts tc : T} (hs : top self = some ts) (hc : top c = some tc)
    (ws : WellFormed (h.consensusState ts)) (wc : WellFormed (h.consensusState tc)) :
    (∃ r, selectOne h self c = .ok r) ∨
    (selectOne h self c = .error .candidatesMissingSubWindowDensities ∧
      (h.consensusState ts).subWindowDensities.length < 11) := by
  have hsr := isShortRange_eq hs hc ws.slots wc.slots ws.epoch wc.epoch
  by_cases hp : shortProp (h.consensusState ts) (h.consensusState tc)
  · rw [decide_eq_true hp] at hsr
    exact .inl ⟨_, selectOne_short hs hc hsr⟩
  · rw [decide_eq_false hp] at hsr
    by_cases hok : WindowOk (h.consensusState tc)
    · have hdc := relDensity_eq (h := h) hc hs (by rw [hok.1]; exact Nat.le_refl _) wc.window
      rcases relDensity_cases (h := h) hs hc ws.window with ⟨dt, hdt⟩ | ⟨hdt, hlen⟩
      · exact .inl ⟨_, selectOne_long hs hc hsr hok hdt hdc⟩
      · right
        refine ⟨?_, hlen⟩
        obtain ⟨h1, h2⟩ := hok
        have e1 : (h.consensusState tc).subWindowDensities.any (fun s => decide (s > slotsPerSubWindow)) = false := by
          rw [List.any_eq_false]
          intro d hd
          have := h2 d hd
          simp only [slotsPerSubWindow, gt_iff_lt, decide_eq_true_eq]; omega
        unfold selectOne
        simp only [hsr, bind, Except.bind, if_false, consensusState_some hc, Bool.false_eq_true, e1, h1,
          subWindowsPerWindow, ne_eq, not_true_eq_false, hdt]
    · exact .inl ⟨_, selectOne_long_bad hc hsr hok⟩

theorem selectSecureChain_mem (self : Chain T) (cs : List (Chain T)) : (selectSecureChain h self cs).1 ∈ self :: cs := by
  induction cs generalizing self with
  | nil => simp [selectSecureChain]
  | cons c cs ih =>
    rw [selectSecureChain]
    cases hh : selectOne h self c with
    | error e => simp
    | ok r =>
      simp only
      rcases selectOne_mem hh with e | e <;> subst e
      · have := ih r; simp only [List.mem_cons] at *; rcases this with h1 | h1 <;> simp [h1]
      · have := ih r; simp only [List.mem_cons] at *; rcases this with h1 | h1 <;> simp [h1]

theorem selectSecureChain_append (self : Chain T) (xs ys : List (Chain T)) (hx : (selectSecureChain h self xs).2 = .ok ()) :
    selectSecureChain h self (xs ++ ys) = selectSecureChain h (selectSecureChain h self xs).1 ys := by
  induction xs generalizing self with
  | nil => rfl
  | cons c cs ih =>
    rw [selectSecureChain] at hx
    simp only [List.cons_append, selectSecureChain]
    cases hh : selectOne h self c with
    | error e => simp [hh] at hx
    | ok r =>
      simp only [hh] at hx ⊢
      exact ih r hx

end MinaRs.Consensus
