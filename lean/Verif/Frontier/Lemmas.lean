import Verif.Frontier.Spec
import Verif.Consensus.Density

/-! Helper lemmas for verification, frontiers and the processor. -/

namespace MinaRs.Frontier
open Spec MinaRs.Consensus

variable {T K Pt S P Proof : Type} {h : Header T}

theorem command_true (crypto : Crypto K Pt S P) (c : SignedCommand K S P) :
    c.verify crypto = .ok true ↔ ValidCommand crypto c := by
  unfold SignedCommand.verify ValidCommand
  cases crypto.uncompress c.signer with
  | none => simp
  | some pk => simp

theorem verifyAll_true (crypto : Crypto K Pt S P) (cs : List (SignedCommand K S P)) :
    verifyAll crypto cs = .ok true ↔ ∀ c ∈ cs, ValidCommand crypto c := by
  induction cs with
  | nil => simp [verifyAll]
  | cons c cs ih =>
    rw [verifyAll]
    cases hc : c.verify crypto with
    | error e =>
      have : ¬ ValidCommand crypto c := by rw [← command_true, hc]; simp
      simp [bind, Except.bind, this]
    | ok b =>
      cases b with
      | true =>
        have : ValidCommand crypto c := by rw [← command_true, hc]
        simp [bind, Except.bind, this, ih]
      | false =>
        have : ¬ ValidCommand crypto c := by rw [← command_true, hc]; simp
        simp [bind, Except.bind, this]

theorem verify_true (crypto : Crypto K Pt S P) (b : ExternalTransition T K S P) :
    b.verify crypto = .ok true ↔ ValidBlock crypto b := by
  unfold ExternalTransition.verify Diff.verify ValidBlock commands
  cases b.stagedLedgerDiff.diffOne with
  | none => simp [verifyAll_true]
  | some one =>
    simp only [bind, Except.bind, List.mem_append]
    cases ho : verifyAll crypto one with
    | error e =>
      have : ¬ ∀ c ∈ one, ValidCommand crypto c := by rw [← verifyAll_true, ho]; simp
      simp only [reduceCtorEq, false_iff]
      intro hh; exact this fun c hc => hh c (.inr hc)
    | ok x =>
      cases x with
      | true =>
        have : ∀ c ∈ one, ValidCommand crypto c := by rw [← verifyAll_true, ho]
        simp only [if_true, verifyAll_true]
        constructor
        · rintro hh c (hc | hc)
          · exact hh c hc
          · exact this c hc
        · intro hh c hc; exact hh c (.inl hc)
      | false =>
        have : ¬ ∀ c ∈ one, ValidCommand crypto c := by rw [← verifyAll_true, ho]; simp
        simp only [Bool.false_eq_true, if_false, Except.ok.injEq, false_iff]
        intro hh; exact this fun c hc => hh c (.inr hc)

theorem command_total (crypto : Crypto K Pt S P) (c : SignedCommand K S P) (hk : crypto.uncompress c.signer ≠ none) :
    ∃ b, c.verify crypto = .ok b := by
  unfold SignedCommand.verify
  cases hu : crypto.uncompress c.signer with
  | none => exact absurd hu hk
  | some pk => exact ⟨_, rfl⟩

theorem verifyAll_total (crypto : Crypto K Pt S P) (cs : List (SignedCommand K S P))
    (hk : ∀ c ∈ cs, crypto.uncompress c.signer ≠ none) : ∃ b, verifyAll crypto cs = .ok b := by
  induction cs with
  | nil => exact ⟨_, rfl⟩
  | cons c cs ih =>
    obtain ⟨b, hb⟩ := command_total crypto c (hk c (by simp))
    obtain ⟨b', hb'⟩ := ih (fun c hc => hk c (by simp [hc]))
    rw [verifyAll]
    cases b <;> simp [hb, bind, Except.bind, hb']

theorem verify_total (crypto : Crypto K Pt S P) (b : ExternalTransition T K S P)
    (hk : ∀ c ∈ commands b, crypto.uncompress c.signer ≠ none) : ∃ r, b.verify crypto = .ok r := by
  unfold ExternalTransition.verify Diff.verify
  unfold commands at hk
  cases ho : b.stagedLedgerDiff.diffOne with
  | none => exact verifyAll_total crypto _ fun c hc => hk c (by simp [hc])
  | some one =>
    rw [ho] at hk
    obtain ⟨x, hx⟩ := verifyAll_total crypto one fun c hc => hk c (by simp [hc])
    obtain ⟨y, hy⟩ := verifyAll_total crypto _ fun c hc => hk c (List.mem_append_left _ hc)
    cases x <;> simp [hx, hy, bind, Except.bind]

/-! ## Extending a chain by a block -/

theorem push_first (c : Chain T) (b : T) : (push h c b).1 = c ++ [b] ∧ (push h c b).2 = .ok () ∨
    (push h c b).1 = c ∧ ∃ e, (push h c b).2 = .error e := by
  unfold push
  cases c.getLast? with
  | none => left; exact ⟨rfl, rfl⟩
  | some last =>
    simp only
    cases add32 (h.getHeight last) 1 with
    | error e => right; exact ⟨rfl, e, rfl⟩
    | ok n =>
      simp only
      by_cases he : h.getHeight b = n
      · left; simp [he]
      · right; simp [he]

theorem selectOneChain (c : Chain T) (b : T) :
    (((selectSecureChain h c [[b]]).1 = c ∨ (selectSecureChain h c [[b]]).1 = [b]) ∧ (selectSecureChain h c [[b]]).2 = .ok ()) ∨
    ((selectSecureChain h c [[b]]).1 = c ∧ ∃ e, (selectSecureChain h c [[b]]).2 = .error e) := by
  rw [selectSecureChain]
  cases hs : selectOne h c [b] with
  | error e => right; exact ⟨rfl, e, rfl⟩
  | ok r =>
    left
    simp only [selectSecureChain, and_true]
    exact selectOne_mem hs

theorem extend_cases (c : Chain T) (b : T) :
    ((extend h c b).2 = .ok () ∧ ((extend h c b).1 = c ∨ (extend h c b).1 = [b] ∨ (extend h c b).1 = c ++ [b])) ∨
    ((extend h c b).1 = c ∧ ∃ e, (extend h c b).2 = .error e) := by
  unfold extend
  split
  · rcases push_first (h := h) c b with ⟨h1, h2⟩ | ⟨h1, e, h2⟩
    · left; simp [h1, h2, liftResult]
    · right; simp [h1, h2, liftResult]
  · rcases selectOneChain (h := h) c b with ⟨h1, h2⟩ | ⟨h1, e, h2⟩
    · left
      refine ⟨by simp [h2, liftResult], ?_⟩
      rcases h1 with h1 | h1 <;> simp [h1]
    · right; simp [h1, h2, liftResult]

theorem extend_mem (c : Chain T) (b x : T) (hx : x ∈ (extend h c b).1) : x ∈ c ∨ x = b := by
  rcases extend_cases (h := h) c b with ⟨-, h1 | h1 | h1⟩ | ⟨h1, -⟩ <;> rw [h1] at hx
  · exact .inl hx
  · exact .inr (by simpa using hx)
  · simpa using hx
  · exact .inl hx

end MinaRs.Frontier
