import Verif.Frontier.BerkeleySpec
import Verif.Frontier.QueryProps
import Verif.GraphQL.AbortsProps
import Verif.Consensus.Props

/-!
# The Berkeley node end to end (C126)

`Spec.Stops`, `Spec.Harmless` and `Spec.Right` are in `Frontier/BerkeleySpec.lean`.  The checksum of base58check is the one that is
used; Poseidon, the hash of the body reference, the VRF digest and the rendering of field elements are arbitrary functions.
-/

namespace MinaRs.Frontier

/-! ## Two ways to handle blocks that are the same -/

section
variable {N B B' St : Type} {c : N → Except Err B} {a : St → B → St × Except Err Unit}
  {c' : N → Except Err B'} {a' : St → B' → St × Except Err Unit}

theorem step_congr (hh : ∀ s n, handle c a s n = handle c' a' s n) (p : Proc N St) (e : Ev N) :
    p.step c a e = p.step c' a' e := by
  unfold Proc.step
  simp only [hh]

theorem run_congr (hh : ∀ s n, handle c a s n = handle c' a' s n) (es : List (Ev N)) :
    ∀ p : Proc N St, p.run c a es = p.run c' a' es := by
  induction es with
  | nil => intro p; rfl
  | cons e es ih =>
    intro p
    rw [Proc.run, Proc.run, step_congr hh]
    split
    · rfl
    · exact ih _

theorem page_run_congr {Q A : Type} (view : Q → St → A) (hh : ∀ s n, handle c a s n = handle c' a' s n) (es : List (PageEv N Q)) :
    ∀ p : Page N St Q A, p.run c a view es = p.run c' a' view es := by
  induction es with
  | nil => intro p; rfl
  | cons e es ih =>
    intro p
    have hs : p.step c a view e = p.step c' a' view e := by
      unfold Page.step
      simp only [step_congr hh]
    rw [Page.run, Page.run, hs]
    split
    · rfl
    · exact ih _

theorem after_congr (hh : ∀ s n, handle c a s n = handle c' a' s n) (s : St) (ns : List N) :
    Spec.after c a s ns = Spec.after c' a' s ns := by
  rw [← sequential_after, ← sequential_after]
  unfold sequential
  congr 1
  funext s n
  rw [hh]

end

namespace Berkeley

open Json (J JErr Env)
open Hash (ProtocolState Fp B32)
open Hash.Spec (stateHashes IsField)
open GraphQL (LedgerProof index bestChain)
open GraphQL.Spec
open Genesis (env env_nil)
open MinaRs.Consensus (Header top selectOne selectSecureChain isShortRange)
open Berkeley.Spec

variable (checks : Bool) (H : String → List Fp → Fp) (sha : List UInt8 → B32) (digest : List UInt8 → List UInt8)

/-- The conversion together with the hashing. -/
def convertHashed (E : Env) (j : J) : Except Err (ProtocolState × List LedgerProof) :=
  match convert E j with
  | .error e => .error e
  | .ok b =>
    match b.1.stateHash H sha with
    | .ok _ => .ok b
    | .error _ => .error (.panic "called `Result::unwrap()` on an `Err` value")

theorem handle_hashed (E : Env) (s : State ProtocolState LedgerProof) (j : J) :
    handle (convert E) (add H sha digest) s j = handle (convertHashed H sha E) (addBlockBerkeley (header H sha digest)) s j := by
  unfold handle convertHashed
  cases convert E j with
  | error e => rfl
  | ok b =>
    simp only [add]
    cases b.1.stateHash H sha <;> rfl

theorem convert_ok {E : Env} {j : J} {b : ProtocolState × List LedgerProof} (h : bestChain E j = .ok b) : convert E j = .ok b := by
  unfold convert
  rw [h]

theorem readAs_iff (j : J) (s : ProtocolState) (l : List LedgerProof) :
    convert (env checks) j = .ok (s, l) ↔ ReadAs (env checks) j s l := by
  unfold ReadAs ProofsOf
  rw [← GraphQL.C77_accepted_iff (env checks) (env_nil checks 0x15 (by decide)) j s l]
  unfold convert
  split <;> simp [*]

theorem import_error (j : J) (e : JErr) (h : bestChain (env checks) j = .error e) : e = .err ∨ e = .panic := by
  simp only [bestChain, bind, Except.bind] at h
  split at h
  · rename_i e' he
    cases h
    exact .inl (GraphQL.calm_protocolState _ (env_nil checks) _ _ he)
  · split at h
    · rename_i e' he
      cases h
      exact GraphQL.sparse_error _ _ _ he
    · cases h

theorem convert_panics (j : J) : (∃ e, convert (env checks) j = .error e ∧ Frontier.Spec.Panics e) ↔ ReadingEnds (env checks) j := by
  unfold ReadingEnds ProofsOf
  rw [← GraphQL.C119_import_fails checks j]
  constructor
  · rintro ⟨e, h, hp⟩
    unfold convert at h
    split at h
    · cases h
    · cases h
      rcases hp with ⟨_, h⟩ | ⟨_, h⟩ <;> cases h
    · rename_i e' he h2
      rcases import_error checks j _ h2 with rfl | rfl
      · exact absurd rfl he
      · exact h2
  · intro h
    refine ⟨_, by unfold convert; rw [h], .inl ⟨_, rfl⟩⟩

theorem hashable_iff (s : ProtocolState) : (∃ f, s.stateHash H sha = .ok f) ↔ Hashable s := Hash.C67_no_panic_iff H sha s

theorem hashed_iff (j : J) (s : ProtocolState) (l : List LedgerProof) :
    convertHashed H sha (env checks) j = .ok (s, l) ↔ ReadAs (env checks) j s l ∧ Hashable s := by
  rw [← readAs_iff, ← hashable_iff H sha]
  unfold convertHashed
  constructor
  · intro h
    split at h
    · cases h
    · rename_i b hb
      split at h
      · rename_i f hf
        cases h
        exact ⟨hb, f, hf⟩
      · cases h
  · rintro ⟨h, f, hf⟩
    simp only [h, hf]

/-! ## Chain selection between imported states -/

/-- What every imported state has. -/
def Imported (s : ProtocolState) : Prop :=
  s.body.consensusState.subWindowDensities = [1, 7, 7, 7, 7, 7, 7, 7, 7, 7, 7] ∧
  s.body.consensusState.currGlobalSlot.slotsPerEpoch = 7140

theorem imported_of_read {E : Env} {j : J} {s : ProtocolState} {l : List LedgerProof} (h : ReadAs E j s l) : Imported s := by
  obtain ⟨_, _, _, _, _, _, h, _⟩ := h
  exact ⟨h.consensus.subWindowDensities, h.consensus.slotsPerEpoch⟩

theorem densities_of {s : ProtocolState} (h : Imported s) :
    ((header H sha digest).consensusState s).subWindowDensities = [1, 7, 7, 7, 7, 7, 7, 7, 7, 7, 7] := by
  show s.body.consensusState.subWindowDensities.map (·.toNat) = _
  rw [h.1]; rfl

theorem selectOne_panics {self : MinaRs.Consensus.Chain ProtocolState} {t s : ProtocolState} (ht : top self = some t) (h1 : Imported t) (h2 : Imported s) :
    (∃ m, selectOne (header H sha digest) self [s] = .error (.panic m)) ↔
    (∃ m, isShortRange (header H sha digest) self [s] = .error (.panic m)) := by
  have hs : top [s] = some s := rfl
  have d1 := densities_of H sha digest h1
  have d2 := densities_of H sha digest h2
  constructor
  · rintro ⟨m, h⟩
    cases hr : isShortRange (header H sha digest) self [s] with
    | error e =>
      have := MinaRs.Consensus.isShortRange_err ht hs hr
      cases e with
      | panic m => exact ⟨m, rfl⟩
      | _ => cases this
    | ok b =>
      exfalso
      cases b with
      | true =>
        rw [MinaRs.Consensus.selectOne_short ht hs hr] at h
        cases h
      | false =>
        have hok : MinaRs.Consensus.Spec.WindowOk ((header H sha digest).consensusState s) := by
          unfold MinaRs.Consensus.Spec.WindowOk; rw [d2]; exact ⟨rfl, by decide⟩
        have e1 := MinaRs.Consensus.relDensity_eq (h := header H sha digest) ht hs (by rw [d1]; exact Nat.le_refl _) (by rw [d1]; decide)
        have e2 := MinaRs.Consensus.relDensity_eq (h := header H sha digest) hs ht (by rw [d2]; exact Nat.le_refl _) (by rw [d2]; decide)
        rw [MinaRs.Consensus.selectOne_long ht hs hr hok e1 e2] at h
        cases h
  · rintro ⟨m, h⟩
    exact ⟨m, by unfold selectOne; rw [h]; rfl⟩

theorem clash_iff {self : MinaRs.Consensus.Chain ProtocolState} {t s : ProtocolState} (ht : top self = some t) (h1 : Imported t) (h2 : Imported s)
    (hl : 0 < t.body.consensusState.blockchainLength.toNat) :
    (∃ m, isShortRange (header H sha digest) self [s] = .error (.panic m)) ↔ EpochClash t s := by
  have hs : top [s] = some s := rfl
  rw [MinaRs.Consensus.C33_zero_epoch_length_fails (header H sha digest) self [s] t s ht hs]
  have e1 : t.body.consensusState.currGlobalSlot.slotsPerEpoch.toNat = 7140 := by rw [h1.2]; rfl
  have e2 : s.body.consensusState.currGlobalSlot.slotsPerEpoch.toNat = 7140 := by rw [h2.2]; rfl
  have b1 := t.body.consensusState.epochCount.toNat_lt
  have b2 := s.body.consensusState.epochCount.toNat_lt
  have hb : ∀ a b : B32, a.bytes = b.bytes ↔ a = b := by
    intro a b
    constructor
    · intro h; cases a; cases b; cases h; rfl
    · rintro rfl; rfl
  have ha : ∀ n : Nat, n < 2 ^ 32 → (2 ^ 32 ≤ n + 1 ↔ n = 2 ^ 32 - 1) := by intro n hn; omega
  unfold EpochClash
  simp only [header, e1, e2, hb, ne_eq, UInt32.toNat_inj, ha _ b1, ha _ b2, hl, true_and]
  simp

theorem add_panics (st : State ProtocolState LedgerProof) (hst : ∀ t, top st.bestChain = some t → Imported t)
    (s : ProtocolState) (l : List LedgerProof) (hs : Imported s) :
    (∃ e, (addBlockBerkeley (header H sha digest) st (s, l)).2 = .error e ∧ Frontier.Spec.Panics e) ↔
      ∃ t, top st.bestChain = some t ∧ EpochClash t s := by
  cases ht : top st.bestChain with
  | none =>
    have he : st.bestChain = [] := by simpa [top] using ht
    have hok : (addBlockBerkeley (header H sha digest) st (s, l)).2 = .ok () := by
      obtain ⟨bc, lg⟩ := st
      dsimp only at he
      subst he
      rfl
    rw [hok]
    constructor
    · rintro ⟨e, h, -⟩; cases h
    · rintro ⟨t, h, -⟩; cases h
  | some t =>
    have hlen : MinaRs.Consensus.length (header H sha digest) st.bestChain = t.body.consensusState.blockchainLength.toNat := by
      unfold MinaRs.Consensus.length MinaRs.Consensus.consensusState
      rw [ht]; rfl
    have hit := hst t ht
    constructor
    · rintro ⟨e, h, hp⟩
      refine ⟨t, rfl, ?_⟩
      unfold addBlockBerkeley at h
      simp only [hlen] at h
      split at h
      · rename_i hlt
        exfalso
        have hlast : st.bestChain.getLast? = some t := ht
        have hg : (header H sha digest).getHeight t = 0 := by
          show t.body.consensusState.blockchainLength.toNat = 0
          omega
        simp only [MinaRs.Consensus.push, hlast, hg, MinaRs.Consensus.add32] at h
        simp only [show (0 + 1 < 2 ^ 32) from by decide, if_true] at h
        split at h
        · rename_i c e' he
          split at he
          · cases he; cases h
            rcases hp with ⟨_, h⟩ | ⟨_, h⟩ <;> cases h
          · cases he
        · cases h
      · rename_i hlt
        refine (clash_iff H sha digest ht hit hs (by omega)).mp ((selectOne_panics H sha digest ht hit hs).mp ?_)
        cases ho : selectOne (header H sha digest) st.bestChain [s] with
        | ok r =>
          rw [selectSecureChain, ho] at h
          simp only [selectSecureChain] at h
          split at h <;> cases h
        | error e' =>
          rw [selectSecureChain, ho] at h
          cases h
          rcases hp with ⟨m, h⟩ | ⟨m, h⟩
          · cases h
          · cases h; exact ⟨m, rfl⟩
    · rintro ⟨t', h, hc⟩
      cases h
      obtain ⟨m, hm⟩ := (selectOne_panics H sha digest ht hit hs).mpr ((clash_iff H sha digest ht hit hs hc.1).mpr hc)
      refine ⟨.consensus (.panic m), ?_, .inr ⟨m, rfl⟩⟩
      unfold addBlockBerkeley
      have : ¬ t.body.consensusState.blockchainLength.toNat < 1 := by have := hc.1; omega
      simp only [hlen, this, if_false, selectSecureChain, hm]

/-- The tip of the node that has handled these documents, if it has one. -/
theorem tip_imported (js : List J) (t : ProtocolState)
    (ht : top (Frontier.Spec.after (convert (env checks)) (add H sha digest) State.new js).bestChain = some t) :
    ∃ j ∈ js, ∃ l, ReadAs (env checks) j t l ∧ Hashable t := by
  rw [after_congr (handle_hashed H sha digest (env checks))] at ht
  have hm := berkeley_top (header H sha digest) (convertHashed H sha (env checks)) js _ rfl
  rw [sequential_after, ht] at hm
  obtain ⟨⟨⟨s, l⟩, ⟨j, hj, hb⟩, rfl⟩, -⟩ := hm
  exact ⟨j, hj, l, (hashed_iff checks H sha j s l).mp hb⟩

/-- **C126.** Which documents stop a node, whatever documents it has handled before: those that end the process while they are read, those
with a hash that is not a field element, and those whose epoch clashes with the tip's. -/
theorem C126_stops_iff (js : List J) (j : J) :
    Frontier.Spec.PanicsOn (convert (env checks)) (add H sha digest)
      (Frontier.Spec.after (convert (env checks)) (add H sha digest) State.new js) j ↔
    Spec.Stops (env checks) (top (Frontier.Spec.after (convert (env checks)) (add H sha digest) State.new js).bestChain) j := by
  have hst : ∀ t, top (Frontier.Spec.after (convert (env checks)) (add H sha digest) State.new js).bestChain = some t → Imported t := by
    intro t ht
    obtain ⟨_, _, _, h, _⟩ := tip_imported checks H sha digest js t ht
    exact imported_of_read h
  revert hst
  generalize Frontier.Spec.after (convert (env checks)) (add H sha digest) State.new js = st
  intro hst
  unfold Frontier.Spec.PanicsOn Spec.Stops
  rw [convert_panics]
  apply or_congr Iff.rfl
  constructor
  · rintro ⟨⟨s, l⟩, e, hc, he, hp⟩
    have hr := (readAs_iff checks j s l).mp hc
    refine ⟨s, l, hr, ?_⟩
    cases hh : s.stateHash H sha with
    | error m =>
      left
      rw [← hashable_iff H sha]
      rintro ⟨f, hf⟩
      rw [hf] at hh; cases hh
    | ok f =>
      right
      simp only [add, hh] at he
      exact (add_panics H sha digest st hst s l (imported_of_read hr)).mp ⟨e, he, hp⟩
  · rintro ⟨s, l, hr, h⟩
    have hc := (readAs_iff checks j s l).mpr hr
    cases hh : s.stateHash H sha with
    | error m =>
      refine ⟨(s, l), .panic "called `Result::unwrap()` on an `Err` value", hc, ?_, .inl ⟨_, rfl⟩⟩
      simp only [add, hh]
    | ok f =>
      rcases h with h | h
      · exact absurd ((hashable_iff H sha s).mp ⟨f, hh⟩) h
      · obtain ⟨e, he, hp⟩ := (add_panics H sha digest st hst s l (imported_of_read hr)).mpr h
        exact ⟨(s, l), e, hc, by simp only [add, hh]; exact he, hp⟩

/-- **C126 fails** for the documents that stop a node: under every schedule, once such a document has been handled, it is the last one
for ever, whatever is sent afterwards. -/
theorem C126_stopped_fails (es es' : List (Ev J)) (p p' : Proc J (State ProtocolState LedgerProof))
    (hrun : (Proc.init State.new).run (convert (env checks)) (add H sha digest) es = some p)
    (hrun' : p.run (convert (env checks)) (add H sha digest) es' = some p') (pre : List J) (j : J) (post : List J)
    (hj : p.handled = pre ++ j :: post)
    (hstops : Spec.Stops (env checks) (top (Frontier.Spec.after (convert (env checks)) (add H sha digest) State.new pre).bestChain) j) :
    p'.handled = pre ++ [j] :=
  C43_panic_stops_fails _ _ State.new es es' p p' hrun hrun' pre j post hj ((C126_stops_iff checks H sha digest pre j).mpr hstops)

/-- **C126.** Nothing else stops it: under every schedule, when the node has stopped before its channel was closed, the last
document handled is one that stops a node with the tip of that moment. -/
theorem C126_only_these_stop (es : List (Ev J)) (p : Proc J (State ProtocolState LedgerProof))
    (hrun : (Proc.init State.new).run (convert (env checks)) (add H sha digest) es = some p) (hcrash : p.loop = .crashed) :
    ∃ pre j, p.handled = pre ++ [j] ∧
      Spec.Stops (env checks) (top (Frontier.Spec.after (convert (env checks)) (add H sha digest) State.new pre).bestChain) j := by
  obtain ⟨pre, j, h1, h2⟩ := C43_only_panics_stop _ _ State.new es p hrun hcrash
  exact ⟨pre, j, h1, (C126_stops_iff checks H sha digest pre j).mp h2⟩

theorem harmless_not_stops (E : Env) (tip : Option ProtocolState) (j : J) (hj : Harmless E j)
    (ht : ∀ t, tip = some t → t.body.consensusState.epochCount.toNat < 2 ^ 32 - 1) : ¬ Spec.Stops E tip j := by
  rintro (h | ⟨s, l, hr, h⟩)
  · exact hj.1 h
  · obtain ⟨h1, h2⟩ := hj.2 s l hr
    rcases h with h | ⟨t, htip, -, -, hc⟩
    · exact h h1
    · have := ht t htip
      rcases hc with hc | ⟨hc, -⟩ <;> omega

/-- **C126.** A node that is only sent harmless documents keeps going under every schedule: it never stops before its channel is
closed, and while a document is waiting and no page holds the frontier it can take a step.  Missing: the other documents, see
`C126_stopped_fails`. -/
theorem C126_keeps_going_partial (es : List (Ev J)) (p : Proc J (State ProtocolState LedgerProof))
    (hrun : (Proc.init State.new).run (convert (env checks)) (add H sha digest) es = some p)
    (hharm : ∀ j ∈ p.sent, Harmless (env checks) j) :
    p.loop ≠ .crashed ∧
    (p.handled ≠ p.sent → p.readers = 0 → ∃ p', p.step (convert (env checks)) (add H sha digest) .loop = some p') := by
  have hnc : p.loop ≠ .crashed := by
    intro hcrash
    obtain ⟨pre, j, h1, h2⟩ := C126_only_these_stop checks H sha digest es p hrun hcrash
    obtain ⟨⟨rest, hr⟩, -, -⟩ := C43_in_order_exactly_once _ _ State.new es p hrun
    rw [h1] at hr
    refine harmless_not_stops _ _ j (hharm j (by rw [← hr]; simp)) (fun t ht => ?_) h2
    obtain ⟨j', hj', l, hra, -⟩ := tip_imported checks H sha digest pre t ht
    exact ((hharm j' (by rw [← hr]; simp [hj'])).2 t l hra).2
  exact ⟨hnc, fun h1 h2 => C43_progress _ _ State.new es p hrun h1 h2 hnc⟩

/-- **C126.** Under every schedule, whatever the page is told is right of the first few documents sent. -/
theorem C126_told (render : Nat → String) (es : List (PageEv J BerkeleyQ))
    (p : Page J (State ProtocolState LedgerProof) BerkeleyQ (BerkeleyA ProtocolState LedgerProof))
    (hrun : (Page.init State.new).run (convert (env checks)) (add H sha digest) (berkeleyView (header H sha digest) render) es = some p)
    (q : BerkeleyQ) (a : BerkeleyA ProtocolState LedgerProof) (ha : (q, a) ∈ p.told) :
    ∃ js, js <+: p.proc.sent ∧ Right (env checks) H sha render js q a := by
  rw [page_run_congr _ (handle_hashed H sha digest (env checks))] at hrun
  obtain ⟨js, h1, h2⟩ := C98_berkeley (header H sha digest) render _ es p hrun q a ha
  refine ⟨js, h1, ?_⟩
  have hnone : (∀ n ∈ js, ∀ b, convertHashed H sha (env checks) n ≠ .ok b) →
      ∀ j ∈ js, ∀ s l, ReadAs (env checks) j s l → ¬ Hashable s :=
    fun h j hj s l hr hh => h j hj (s, l) ((hashed_iff checks H sha j s l).mpr ⟨hr, hh⟩)
  have hsome : ∀ b, Frontier.Spec.Delivered (convertHashed H sha (env checks)) js b →
      ∃ j ∈ js, ReadAs (env checks) j b.1 b.2 ∧ Hashable b.1 :=
    fun b ⟨j, hj, hb⟩ => ⟨j, hj, (hashed_iff checks H sha j b.1 b.2).mp hb⟩
  cases q <;> cases a <;> try exact h2.elim
  · rename_i t
    cases t with
    | none => exact hnone h2
    | some t =>
      obtain ⟨b, hb, rfl⟩ := h2
      obtain ⟨j, hj, hr, hh⟩ := hsome b hb
      obtain ⟨f, hf⟩ := (hashable_iff H sha b.1).mpr hh
      exact ⟨j, hj, b.1, b.2, f, hr, hh, hf, by simp only [header, hf]⟩
  · rename_i s
    cases s with
    | none => exact hnone h2
    | some s =>
      obtain ⟨b, hb, rfl⟩ := h2
      obtain ⟨j, hj, hr, hh⟩ := hsome b hb
      exact ⟨j, hj, b.2, hr, hh⟩
  · rcases h2 with ⟨h, rfl⟩ | ⟨b, hb, rfl⟩
    · exact .inl ⟨hnone h, rfl⟩
    · obtain ⟨j, hj, hr, hh⟩ := hsome b hb
      exact .inr ⟨j, hj, b.1, hr, hh⟩

/-- **C126.** Answering never panics: under every schedule the state hash of the tip can be computed. -/
theorem C126_answers (es : List (Ev J)) (p : Proc J (State ProtocolState LedgerProof))
    (hrun : (Proc.init State.new).run (convert (env checks)) (add H sha digest) es = some p) (t : ProtocolState)
    (ht : top p.frontier.bestChain = some t) : ∃ f, t.stateHash H sha = .ok f := by
  obtain ⟨-, -, h⟩ := C43_in_order_exactly_once _ _ State.new es p hrun
  rw [h] at ht
  obtain ⟨_, _, _, _, hh⟩ := tip_imported checks H sha digest _ t ht
  exact (hashable_iff H sha t).mpr hh

/-! ## Which block becomes the tip -/

theorem bytes_inj (a b : B32) : a.bytes = b.bytes ↔ a = b := by
  constructor
  · intro h; cases a; cases b; cases h; rfl
  · rintro rfl; rfl

theorem short_near {t s : ProtocolState} (h1 : Imported t) (h2 : Imported s) :
    MinaRs.Consensus.shortProp ((header H sha digest).consensusState t) ((header H sha digest).consensusState s) ↔ NearFork t s := by
  have e1 : t.body.consensusState.currGlobalSlot.slotsPerEpoch.toNat = 7140 := by rw [h1.2]; rfl
  have e2 : s.body.consensusState.currGlobalSlot.slotsPerEpoch.toNat = 7140 := by rw [h2.2]; rfl
  simp only [MinaRs.Consensus.shortProp, MinaRs.Consensus.checkProp, NearFork, Follows, header, e1, e2, bytes_inj, UInt32.toNat_inj]

theorem beats_wins {t s : ProtocolState} {f g : Fp} (hf : s.stateHash H sha = .ok f) (hg : t.stateHash H sha = .ok g) :
    MinaRs.Consensus.Spec.Beats (MinaRs.Consensus.Spec.key (header H sha digest) s) (MinaRs.Consensus.Spec.key (header H sha digest) t) ↔
      Wins H sha digest s t := by
  have e1 : (header H sha digest).stateHash s = f.val := by simp only [header, hf]
  have e2 : (header H sha digest).stateHash t = g.val := by simp only [header, hg]
  have : (∃ f' g' : Fp, s.stateHash H sha = .ok f' ∧ t.stateHash H sha = .ok g' ∧ g'.val < f'.val) ↔ g.val < f.val := by
    rw [hf, hg]
    constructor
    · rintro ⟨_, _, h1, h2, h3⟩; cases h1; cases h2; exact h3
    · intro h; exact ⟨f, g, rfl, rfl, h⟩
  unfold MinaRs.Consensus.Spec.Beats Wins MinaRs.Consensus.Spec.key
  rw [e1, e2, this]
  exact Iff.rfl

theorem relDensity_spec {a b : MinaRs.Consensus.Chain ProtocolState} {t s : ProtocolState} (ha : top a = some t) (hb : top b = some s)
    (h1 : Imported t) :
    MinaRs.Consensus.relativeMinWindowDensity (header H sha digest) a b = .ok (relDensity t s) := by
  have d1 := densities_of H sha digest h1
  rw [MinaRs.Consensus.relDensity_eq (h := header H sha digest) ha hb (by rw [d1]; exact Nat.le_refl _) (by rw [d1]; decide)]
  unfold MinaRs.Consensus.Spec.density relDensity
  rw [d1]
  rfl

theorem select_prefers {c : MinaRs.Consensus.Chain ProtocolState} {t s : ProtocolState} {f g : Fp} (ht : top c = some t) (h1 : Imported t) (h2 : Imported s)
    (hf : s.stateHash H sha = .ok f) (hg : t.stateHash H sha = .ok g)
    (hc : ¬ ∃ m, isShortRange (header H sha digest) c [s] = .error (.panic m)) :
    (Prefers H sha digest t s → selectSecureChain (header H sha digest) c [[s]] = ([s], .ok ())) ∧
    (¬ Prefers H sha digest t s → selectSecureChain (header H sha digest) c [[s]] = (c, .ok ())) := by
  have hs : top [s] = some s := rfl
  have hw := beats_wins H sha digest hf hg
  cases hr : isShortRange (header H sha digest) c [s] with
  | error e =>
    exfalso
    have := MinaRs.Consensus.isShortRange_err ht hs hr
    cases e with
    | panic m => exact hc ⟨m, hr⟩
    | _ => cases this
  | ok b =>
    have hb := MinaRs.Consensus.isShortRange_ok ht hs hr
    have hsn := short_near H sha digest h1 h2
    cases b with
    | true =>
      have hn : NearFork t s := hsn.mp (of_decide_eq_true hb.symm)
      rw [selectSecureChain, MinaRs.Consensus.selectOne_short ht hs hr]
      simp only [selectSecureChain]
      refine ⟨?_, fun hp => by rw [if_neg (fun h => hp (.inl ⟨hn, hw.mp h⟩))]⟩
      rintro (⟨-, h⟩ | ⟨h, -⟩)
      · rw [if_pos (hw.mpr h)]
      · exact absurd hn h
    | false =>
      have hn : ¬ NearFork t s := fun h => of_decide_eq_false hb.symm (hsn.mpr h)
      have d2 := densities_of H sha digest h2
      have hok : MinaRs.Consensus.Spec.WindowOk ((header H sha digest).consensusState s) := by
        unfold MinaRs.Consensus.Spec.WindowOk; rw [d2]; exact ⟨rfl, by decide⟩
      rw [selectSecureChain, MinaRs.Consensus.selectOne_long ht hs hr hok (relDensity_spec H sha digest ht hs h1)
        (relDensity_spec H sha digest hs ht h2)]
      simp only [selectSecureChain]
      refine ⟨?_, fun hp => by rw [if_neg (fun h => hp (.inr ⟨hn, h.imp id (fun h => ⟨h.1, hw.mp h.2⟩)⟩))]⟩
      rintro (⟨h, -⟩ | ⟨-, h⟩)
      · exact absurd h hn
      · rw [if_pos (h.imp id (fun h => ⟨h.1, hw.mpr h.2⟩))]

theorem add_becomes (st : State ProtocolState LedgerProof) (hst : ∀ t, top st.bestChain = some t → Imported t ∧ Hashable t)
    (s : ProtocolState) (l : List LedgerProof) (hs : Imported s) (hh : Hashable s)
    (hc : ¬ ∃ t, top st.bestChain = some t ∧ EpochClash t s) :
    Becomes H sha digest s l st (add H sha digest st (s, l)).1 := by
  obtain ⟨f, hf⟩ := (hashable_iff H sha s).mpr hh
  have hadd : add H sha digest st (s, l) = addBlockBerkeley (header H sha digest) st (s, l) := by simp only [add, hf]
  rw [hadd]
  obtain ⟨bc, l0⟩ := st
  rcases List.eq_nil_or_concat bc with rfl | ⟨c, t, rfl⟩
  · exact .first
  simp only [List.concat_eq_append] at hst hc ⊢
  have ht : top (c ++ [t]) = some t := by simp [top]
  obtain ⟨hi, hht⟩ := hst t ht
  obtain ⟨g, hg⟩ := (hashable_iff H sha t).mpr hht
  have hlen : MinaRs.Consensus.length (header H sha digest) (c ++ [t]) = t.body.consensusState.blockchainLength.toNat := by
    unfold MinaRs.Consensus.length MinaRs.Consensus.consensusState
    rw [ht]; rfl
  have hz : t.body.consensusState.blockchainLength.toNat < 1 ↔ t.body.consensusState.blockchainLength = 0 := by
    rw [← UInt32.toNat_inj]
    show _ ↔ _ = 0
    omega
  unfold addBlockBerkeley
  simp only [hlen]
  split
  · rename_i hlt
    have h0 := hz.mp hlt
    have hlast : (c ++ [t]).getLast? = some t := ht
    have hgt : (header H sha digest).getHeight t = 0 := by
      show t.body.consensusState.blockchainLength.toNat = 0
      rw [h0]; rfl
    have hgs : (header H sha digest).getHeight s = s.body.consensusState.blockchainLength.toNat := rfl
    have h1 : s.body.consensusState.blockchainLength.toNat = 1 ↔ s.body.consensusState.blockchainLength = 1 := by
      rw [← UInt32.toNat_inj]; exact Iff.rfl
    simp only [MinaRs.Consensus.push, hlast, hgt, MinaRs.Consensus.add32, show (0 + 1 < 2 ^ 32) from by decide, if_true, hgs]
    by_cases hone : s.body.consensusState.blockchainLength = 1
    · rw [if_neg (by simp only [ne_eq, Nat.zero_add, h1.mpr hone, not_true_eq_false, not_false_eq_true])]
      simp only [List.append_assoc, List.singleton_append]
      exact .appended h0 hone
    · rw [if_pos (by simpa only [ne_eq, Nat.zero_add, h1] using hone)]
      exact .refused h0 hone
  · rename_i hlt
    have h0 : t.body.consensusState.blockchainLength ≠ 0 := fun h => hlt (hz.mpr h)
    have hnc : ¬ ∃ m, isShortRange (header H sha digest) (c ++ [t]) [s] = .error (.panic m) := fun h =>
      hc ⟨t, ht, (clash_iff H sha digest ht hi hs (by omega)).mp h⟩
    obtain ⟨hp1, hp2⟩ := select_prefers H sha digest ht hi hs hf hg hnc
    have es : (header H sha digest).stateHash s = f.val := by simp only [header, hf]
    have et : (header H sha digest).stateHash t = g.val := by simp only [header, hg]
    by_cases hp : Prefers H sha digest t s
    · rw [hp1 hp]
      simp only
      rw [if_pos (by simp [MinaRs.Consensus.stateHash, top])]
      exact .replaced h0 hp
    · rw [hp2 hp]
      simp only
      have hst' : MinaRs.Consensus.stateHash (header H sha digest) (c ++ [t]) = some g.val := by
        unfold MinaRs.Consensus.stateHash
        rw [ht, ← et]; rfl
      rw [hst', es]
      by_cases he : f = g
      · subst he
        rw [if_pos rfl]
        exact .same h0 hp (by rw [hf, hg])
      · rw [if_neg (by intro h; exact he (Fin.ext (Option.some.inj h).symm))]
        exact .kept h0 hp (by rw [hf, hg]; intro h; exact he (Except.ok.inj h))

/-- **C126.** Which block is the tip: a document that can be read and does not stop the node changes it as the consensus rules say, and a
document that cannot be read does not change it, whatever was handled before. -/
theorem C126_tip (js : List J) (j : J) :
    let node := Frontier.Spec.after (convert (env checks)) (add H sha digest) State.new
    (∀ s l, ReadAs (env checks) j s l → ¬ Spec.Stops (env checks) (top (node js).bestChain) j →
      Becomes H sha digest s l (node js) (node (js ++ [j]))) ∧
    ((∀ s l, ¬ ReadAs (env checks) j s l) → node (js ++ [j]) = node js) := by
  intro node
  have hafter : node (js ++ [j]) = (handle (convert (env checks)) (add H sha digest) (node js) j).1 := by
    show Frontier.Spec.after _ _ _ _ = (handle _ _ (Frontier.Spec.after _ _ _ _) j).1
    rw [← sequential_after, ← sequential_after]
    simp [sequential]
  have hst : ∀ t, top (node js).bestChain = some t → Imported t ∧ Hashable t := by
    intro t ht
    obtain ⟨_, _, _, h, h'⟩ := tip_imported checks H sha digest js t ht
    exact ⟨imported_of_read h, h'⟩
  rw [hafter]
  constructor
  · intro s l hr hn
    have hcv := (readAs_iff checks j s l).mpr hr
    have hh : Hashable s := Classical.byContradiction fun h => hn (.inr ⟨s, l, hr, .inl h⟩)
    have hc : ¬ ∃ t, top (node js).bestChain = some t ∧ EpochClash t s := fun ⟨t, h1, h2⟩ => hn (.inr ⟨s, l, hr, .inr ⟨t, h1, h2⟩⟩)
    have := add_becomes H sha digest (node js) hst s l (imported_of_read hr) hh hc
    unfold handle
    rw [hcv]
    exact this
  · intro hn
    unfold handle
    cases hcv : convert (env checks) j with
    | error e => rfl
    | ok b => exact absurd ((readAs_iff checks j b.1 b.2).mp hcv) (hn _ _)

/-! ## Documents of each kind -/

/-- An empty merkle path in the answer to one account stops every node, at any time. -/
theorem C126_empty_path_fails (s : ProtocolState) (k : Hash.PubKey) (leaf : Fp) (tip : Option ProtocolState) :
    Spec.Stops (env checks) tip (.obj (GraphQL.bestChainDoc (env checks) s k [] leaf)) := by
  left
  unfold ReadingEnds ProofsOf
  exact (GraphQL.C119_import_fails checks _).mp (GraphQL.C77_panics_fails (env checks) s k leaf Hash.p (Nat.le_refl _)).1

/-- The document of a state and one account is read as the state with the fixed parts. -/
theorem readAs_doc (s : ProtocolState) (k : Hash.PubKey) (x : Fp) :
    ∃ l, ReadAs (env checks) (.obj (GraphQL.bestChainDoc (env checks) s k [(true, x)] x)) (GraphQL.Spec.importedState s) l := by
  obtain ⟨proofs, h, -⟩ := GraphQL.C77_import_partial (env checks) _ s _ (GraphQL.says_bestChainDoc (env checks) s k [(true, x)] x) (by simp)
  exact ⟨proofs, (readAs_iff checks _ _ _).mp (convert_ok h)⟩

/-- A state whose previous state hash is not a field element stops every node, at any time. -/
theorem C126_no_field_fails (s : ProtocolState) (k : Hash.PubKey) (x : Fp) (hs : ¬ IsField s.previousStateHash) (tip : Option ProtocolState) :
    Spec.Stops (env checks) tip (.obj (GraphQL.bestChainDoc (env checks) s k [(true, x)] x)) := by
  obtain ⟨l, h⟩ := readAs_doc checks s k x
  exact .inr ⟨_, l, h, .inl fun hh => hs (hh _ (.head _))⟩

/-- A state in the last epoch stops every node whose tip has a height and is in another epoch. -/
theorem C126_last_epoch_fails (s t : ProtocolState) (k : Hash.PubKey) (x : Fp) (hs : s.body.consensusState.epochCount = 0xffffffff)
    (ht : t.body.consensusState.epochCount ≠ 0xffffffff) (hl : 0 < t.body.consensusState.blockchainLength.toNat) :
    Spec.Stops (env checks) (some t) (.obj (GraphQL.bestChainDoc (env checks) s k [(true, x)] x)) := by
  obtain ⟨l, h⟩ := readAs_doc checks s k x
  refine .inr ⟨_, l, h, .inr ⟨t, rfl, hl, ?_, .inl ?_⟩⟩
  · show _ ≠ s.body.consensusState.epochCount
    rw [hs]; exact ht
  · show s.body.consensusState.epochCount.toNat = _
    rw [hs]; decide

/-- The document of a state whose hashes are field elements, not in the last epoch, is harmless. -/
theorem harmless_doc (s : ProtocolState) (k : Hash.PubKey) (x : Fp) (hs : Hashable (GraphQL.Spec.importedState s))
    (he : s.body.consensusState.epochCount.toNat < 2 ^ 32 - 1) :
    Harmless (env checks) (.obj (GraphQL.bestChainDoc (env checks) s k [(true, x)] x)) := by
  obtain ⟨l, h⟩ := readAs_doc checks s k x
  have hc := (readAs_iff checks _ _ _).mpr h
  constructor
  · intro hr
    obtain ⟨e, h', -⟩ := (convert_panics checks _).mpr hr
    rw [h'] at hc
    cases hc
  · intro s' l' h'
    rw [(readAs_iff checks _ _ _).mpr h'] at hc
    have := (Prod.mk.inj (Except.ok.inj hc)).1
    subst this
    exact ⟨hs, he⟩

/-- A state with this height and epoch. -/
def sampleState (height epoch : UInt32) : ProtocolState where
  previousStateHash := GraphQL.B32.zero
  body :=
    { genesisStateHash := GraphQL.B32.zero
      blockchainState :=
        { stagedLedgerHash := ⟨⟨GraphQL.B32.zero, [1], [2]⟩, GraphQL.B32.zero⟩, genesisLedgerHash := GraphQL.B32.zero
          registers := ⟨GraphQL.B32.zero, GraphQL.LocalState.default⟩, timestamp := 5, bodyReference := GraphQL.B32.zero }
      consensusState :=
        { blockchainLength := height, epochCount := epoch, minWindowDensity := 77, subWindowDensities := [], lastVrfOutput := [1, 2]
          totalCurrency := 9, currGlobalSlot := ⟨40, 7140⟩, globalSlotSinceGenesis := 40
          stakingEpochData := ⟨⟨GraphQL.B32.zero, 1⟩, GraphQL.B32.zero, GraphQL.B32.zero, GraphQL.B32.zero, 3⟩
          nextEpochData := ⟨⟨GraphQL.B32.zero, 1⟩, GraphQL.B32.zero, GraphQL.B32.zero, GraphQL.B32.zero, 4⟩
          hasAncestorInSameCheckpointWindow := true, blockStakeWinner := Hash.PubKey.empty, blockCreator := Hash.PubKey.empty
          coinbaseReceiver := Hash.PubKey.empty, superchargeCoinbase := false }
      constants := ⟨0, 0, 0, 0, 0⟩ }

theorem sample_hashable (height epoch : UInt32) : Hashable (GraphQL.Spec.importedState (sampleState height epoch)) := by
  have h0 : IsField GraphQL.B32.zero := by unfold IsField; decide +kernel
  have h1 : IsField GraphQL.genesisStateHash := by unfold IsField; decide +kernel
  have h2 : IsField GraphQL.LocalState.default.stackFrame := by unfold IsField; decide +kernel
  intro h hh
  simp only [stateHashes, Hash.Spec.epochHashes, GraphQL.Spec.importedState, sampleState, List.mem_append, List.mem_cons, List.not_mem_nil, or_false] at hh
  rcases hh with (hh | hh) | hh
  · rcases hh with rfl | rfl | rfl | rfl | rfl | rfl | rfl | rfl | rfl | rfl <;> first | exact h0 | exact h1 | exact h2
  · rcases hh with rfl | rfl | rfl | rfl <;> exact h0
  · rcases hh with rfl | rfl | rfl | rfl <;> exact h0

/-- A document of each kind. -/
example (k : Hash.PubKey) (x : Fp) :
    Harmless (env checks) (.obj (GraphQL.bestChainDoc (env checks) (sampleState 3 2) k [(true, x)] x)) ∧
    Spec.Stops (env checks) (some (sampleState 3 2)) (.obj (GraphQL.bestChainDoc (env checks) (sampleState 4 0xffffffff) k [(true, x)] x)) :=
  ⟨harmless_doc checks _ k x (sample_hashable 3 2) (by decide), C126_last_epoch_fails checks _ _ k x rfl (by decide) (by decide)⟩

/-- A longer block of the same epoch replaces the tip, a shorter one does not. -/
example (l l0 : List LedgerProof) : Becomes H sha digest (sampleState 4 2) l ⟨[sampleState 3 2], l0⟩ ⟨[sampleState 4 2], l⟩ ∧
    ¬ Prefers H sha digest (sampleState 4 2) (sampleState 3 2) := by
  refine ⟨.replaced (c := []) (by decide) (.inl ⟨.inl ⟨rfl, rfl⟩, .inl (by decide)⟩), ?_⟩
  rintro (⟨-, h | ⟨h, -⟩⟩ | ⟨h, -⟩)
  · revert h; decide
  · revert h; decide
  · exact h (.inl ⟨rfl, rfl⟩)

/-- A node that is sent a document, handles it and is asked. -/
example (render : Nat → String) (j : J) (hj : Harmless (env checks) j) : ∃ p,
    (Page.init State.new).run (convert (env checks)) (add H sha digest) (berkeleyView (header H sha digest) render)
      [.node (.send j), .node .loop, .node .loop, .node .loop, .node .acquireRead, .answer .state] = some p ∧
    p.proc.handled = [j] ∧ p.told.length = 1 := by
  have hnp : ¬ ∃ e, (handle (convert (env checks)) (add H sha digest) State.new j).2 = .error e ∧ e.isPanic = true := by
    rintro ⟨e, he, hp⟩
    have h1 := (handle_panics (convert (env checks)) (add H sha digest) State.new j).mp ⟨e, he, hp⟩
    exact harmless_not_stops _ none j hj (fun t ht => by cases ht) ((C126_stops_iff checks H sha digest [] j).mp h1)
  simp only [Page.run, Page.step, Proc.step, Page.init, Proc.init, capacity, List.length_nil, Option.map_some, List.nil_append,
    and_self, if_true, Nat.zero_lt_one]
  cases hh : handle (convert (env checks)) (add H sha digest) State.new j with
  | mk st r =>
    cases r with
    | ok u => exact ⟨_, rfl, rfl, rfl⟩
    | error e =>
      have : ¬ e.isPanic = true := fun h => hnp ⟨e, by rw [hh], h⟩
      simp only [this]
      exact ⟨_, rfl, rfl, rfl⟩

end Berkeley
end MinaRs.Frontier
