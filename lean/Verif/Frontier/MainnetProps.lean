import Verif.Frontier.MainnetLemmas
import Verif.Frontier.QueryProps
import Verif.Block.Samples

/-!
# The mainnet node end to end (C128)

`Spec.Stops` and `Spec.look` are in `Frontier/MainnetSpec.lean`.  Poseidon, SHA-256, the VRF digest and the signature scheme are arbitrary
functions.
-/

namespace MinaRs.Frontier.Mainnet

open Block (Blk BTy BTys Key Sig fromWire toWire)
open Hash (B32 Fp ProtocolStateLegacy)
open MinaRs.Consensus (Header Chain top selectOne selectSecureChain)
open Mainnet.Spec
open Frontier.Spec (ValidCommand Panics PanicsOn)

variable (H : String → List Fp → Fp) (sha : List UInt8 → B32) (digest : List UInt8 → List UInt8)
variable {Pt Proof : Type} (crypto : Crypto Key Pt Sig Payload)

theorem valid_iff (u : ExternalTransition ProtocolStateLegacy Key Sig Payload) :
    u.verify crypto = .ok true ↔ ∀ c ∈ u.stagedLedgerDiff.diffOne.getD [] ++ u.stagedLedgerDiff.diffTwo, ValidCommand crypto c := by
  rw [verify_true]
  unfold Frontier.Spec.ValidBlock Frontier.Spec.commands
  cases u.stagedLedgerDiff.diffOne with
  | none => simp
  | some one =>
    simp only [Option.getD_some, List.mem_append]
    exact ⟨fun h c hc => h c hc.symm, fun h c hc => h c hc.symm⟩

theorem verifyAll_error {cs : List (SignedCommand Key Sig Payload)} {e : Err} (h : verifyAll crypto cs = .error e) : ∃ m, e = .panic m := by
  induction cs with
  | nil => cases h
  | cons c cs ih =>
    simp only [verifyAll, bind, Except.bind] at h
    split at h
    · rename_i e' he
      cases h
      unfold SignedCommand.verify at he
      split at he
      · cases he; exact ⟨_, rfl⟩
      · cases he
    · split at h
      · exact ih h
      · cases h

theorem verify_error {u : ExternalTransition ProtocolStateLegacy Key Sig Payload} {e : Err} (h : u.verify crypto = .error e) :
    ∃ m, e = .panic m := by
  unfold ExternalTransition.verify Diff.verify at h
  split at h
  · simp only [bind, Except.bind] at h
    split at h
    · rename_i h'
      cases h
      exact verifyAll_error crypto h'
    · split at h
      · exact verifyAll_error crypto h
      · cases h
  · exact verifyAll_error crypto h

theorem extend_panics (st : State ProtocolStateLegacy Proof) (s : ProtocolStateLegacy) :
    (∃ e, (extend (header H sha digest) st.bestChain s).2 = .error e ∧ Panics e) ↔
      ∃ t, top st.bestChain = some t ∧ t.body.consensusState.blockchainLength ≠ 0 ∧ (EpochClash t s ∨ WindowOverflow t s) := by
  unfold extend
  cases ht : top st.bestChain with
  | none =>
    have he : st.bestChain = [] := by simpa [top] using ht
    rw [he]
    constructor
    · rintro ⟨e, h, -⟩; cases h
    · rintro ⟨t, h, -⟩; cases h
  | some t =>
    have hlen : MinaRs.Consensus.length (header H sha digest) st.bestChain = t.body.consensusState.blockchainLength.toNat := by
      unfold MinaRs.Consensus.length
      rw [MinaRs.Consensus.consensusState_some ht]; rfl
    rw [hlen]
    have hz : t.body.consensusState.blockchainLength.toNat < 1 ↔ t.body.consensusState.blockchainLength = 0 := by
      rw [← UInt32.toNat_inj]
      show _ ↔ _ = 0
      omega
    by_cases h0 : t.body.consensusState.blockchainLength = 0
    · rw [if_pos (hz.mpr h0)]
      constructor
      · rintro ⟨e, h, hp⟩
        exfalso
        have hlast : st.bestChain.getLast? = some t := ht
        have hg : (header H sha digest).getHeight t = 0 := by
          show t.body.consensusState.blockchainLength.toNat = 0
          rw [h0]; rfl
        simp only [MinaRs.Consensus.push, hlast, hg, MinaRs.Consensus.add32, show (0 + 1 < 2 ^ 32) from by decide, if_true] at h
        split at h
        · cases h
          rcases hp with ⟨_, h⟩ | ⟨_, h⟩ <;> cases h
        · cases h
      · rintro ⟨t', h, hn, -⟩
        cases h
        exact absurd h0 hn
    · rw [if_neg (fun h => h0 (hz.mp h))]
      have hp := selectOne_panics H sha digest (s := s) ht
      constructor
      · rintro ⟨e, h, hpan⟩
        refine ⟨t, rfl, h0, ?_⟩
        cases ho : selectOne (header H sha digest) st.bestChain [s] with
        | ok r =>
          rw [selectSecureChain, ho] at h
          cases h
        | error e' =>
          rw [selectSecureChain, ho] at h
          cases h
          rcases hpan with ⟨m, h⟩ | ⟨m, h⟩
          · cases h
          · cases h
            rcases hp.mp ⟨m, ho⟩ with h | h
            · exact .inl h
            · exact .inr h.2
      · rintro ⟨t', h, -, hc⟩
        cases h
        have : EpochClash t s ∨ (¬ EpochClash t s ∧ WindowOverflow t s) := by
          by_cases h1 : EpochClash t s
          · exact .inl h1
          · exact .inr ⟨h1, hc.resolve_left h1⟩
        obtain ⟨m, hm⟩ := hp.mpr this
        refine ⟨.consensus (.panic m), ?_, .inr ⟨m, rfl⟩⟩
        rw [selectSecureChain, hm]
        rfl

theorem addUsed_panics (st : State ProtocolStateLegacy Proof) (u : ExternalTransition ProtocolStateLegacy Key Sig Payload) :
    (∃ e, (addUsed H sha digest crypto st u).2 = .error e ∧ Panics e) ↔
      (∃ pre c post, u.stagedLedgerDiff.diffOne.getD [] ++ u.stagedLedgerDiff.diffTwo = pre ++ c :: post ∧
        (∀ x ∈ pre, ValidCommand crypto x) ∧ crypto.uncompress c.signer = none) ∨
      ((∀ c ∈ u.stagedLedgerDiff.diffOne.getD [] ++ u.stagedLedgerDiff.diffTwo, ValidCommand crypto c) ∧
        ∃ t, top st.bestChain = some t ∧ t.body.consensusState.blockchainLength ≠ 0 ∧
          (EpochClash t u.protocolState ∨ WindowOverflow t u.protocolState ∨ HashClash digest t u.protocolState)) := by
  have hbad := C40_invalid_key_fails crypto u
  have hval := valid_iff crypto u
  rw [← hbad, ← hval]
  unfold addUsed
  cases hv : u.verify crypto with
  | error e =>
    simp only [addBlockMainnet, hv, reduceCtorEq, false_and, or_false]
    constructor
    · rintro ⟨e', h, hp⟩
      cases h
      rcases hp with ⟨m, rfl⟩ | ⟨m, rfl⟩
      · exact ⟨m, rfl⟩
      · exfalso
        obtain ⟨_, h⟩ := verify_error crypto hv
        cases h
    · rintro ⟨m, h⟩
      cases h
      exact ⟨_, rfl, .inl ⟨m, rfl⟩⟩
  | ok r =>
    cases r with
    | false =>
      simp only [addBlockMainnet, hv]
      constructor
      · rintro ⟨e, h, hp⟩
        cases h
        rcases hp with ⟨_, h⟩ | ⟨_, h⟩ <;> cases h
      · rintro (⟨m, h⟩ | ⟨h, -⟩) <;> cases h
    | true =>
      simp only [addBlockMainnet, hv, true_and]
      have hext := extend_panics H sha digest st u.protocolState
      have hlen : ∀ t, top st.bestChain = some t →
          MinaRs.Consensus.length (header H sha digest) st.bestChain = t.body.consensusState.blockchainLength.toNat := by
        intro t ht
        unfold MinaRs.Consensus.length
        rw [MinaRs.Consensus.consensusState_some ht]; rfl
      have hz : ∀ n : UInt32, n.toNat < 1 ↔ n = 0 := by
        intro n
        rw [← UInt32.toNat_inj]
        show _ ↔ _ = 0
        omega
      cases ht : top st.bestChain with
      | none =>
        have hl : MinaRs.Consensus.length (header H sha digest) st.bestChain < 1 := by
          unfold MinaRs.Consensus.length MinaRs.Consensus.consensusState
          rw [ht]; exact Nat.zero_lt_one
        rw [if_neg (fun h => h.1 hl)]
        constructor
        · intro h
          obtain ⟨t, h, -⟩ := hext.mp h
          rw [ht] at h; cases h
        · rintro (⟨m, h⟩ | ⟨t, h, -⟩) <;> cases h
      | some t =>
        rw [hlen t ht]
        by_cases h0 : t.body.consensusState.blockchainLength = 0
        · rw [if_neg (fun h => h.1 ((hz _).mpr h0))]
          constructor
          · intro h
            obtain ⟨t', h, hn, -⟩ := hext.mp h
            rw [ht] at h; cases h
            exact absurd h0 hn
          · rintro (⟨m, h⟩ | ⟨t', h, hn, -⟩) <;> cases h
            exact absurd h0 hn
        · have hl : ¬ t.body.consensusState.blockchainLength.toNat < 1 := fun h => h0 ((hz _).mp h)
          have hext' : (EpochClash t u.protocolState ∨ WindowOverflow t u.protocolState) →
              ∃ e, (extend (header H sha digest) st.bestChain u.protocolState).2 = .error e ∧ Panics e :=
            fun h => hext.mpr ⟨t, ht, h0, h⟩
          by_cases hc : EpochClash t u.protocolState ∨ WindowOverflow t u.protocolState
          · constructor
            · intro _
              exact .inr ⟨t, rfl, h0, hc.imp id .inl⟩
            · intro _
              split
              · exact ⟨_, rfl, .inl ⟨_, rfl⟩⟩
              · exact hext' hc
          · have hcmp := compares_iff H sha digest ht (fun h => hc (.inl h)) (fun h => hc (.inr h))
            simp only [Option.some.injEq, forall_eq']
            constructor
            · intro h
              split at h
              · rename_i hh
                have hq := hcmp.mp hh.2.1
                exact .inr ⟨t, rfl, h0, .inr (.inr ⟨hq.1, hq.2.1, hq.2.2,
                  fun hx => hh.2.2 ⟨(hashable_iff H sha _).mpr hx.2, (hashable_iff H sha _).mpr hx.1⟩⟩)⟩
              · obtain ⟨t', h1, -, h2⟩ := hext.mp h
                rw [ht] at h1; cases h1
                exact absurd h2 hc
            · rintro (⟨m, h⟩ | ⟨t', h, -, h1 | h1 | h1⟩)
              · cases h
              all_goals cases h
              · exact absurd (.inl h1) hc
              · exact absurd (.inr h1) hc
              · rw [if_pos ⟨hl, hcmp.mpr ⟨h1.1, h1.2.1, h1.2.2.1⟩,
                  fun hx => h1.2.2.2 ⟨(hashable_iff H sha _).mp hx.2, (hashable_iff H sha _).mp hx.1⟩⟩]
                exact ⟨_, rfl, .inl ⟨_, rfl⟩⟩

theorem add_panics (st : State ProtocolStateLegacy Proof) (b : Blk) :
    (∃ e, (add H sha digest crypto st b).2 = .error e ∧ Panics e) ↔
      BadSigner crypto b ∨
      ((∀ c ∈ checked b, ValidCommand crypto c) ∧
        ∃ t, top st.bestChain = some t ∧ t.body.consensusState.blockchainLength ≠ 0 ∧
          (EpochClash t (used b).protocolState ∨ WindowOverflow t (used b).protocolState ∨
            HashClash digest t (used b).protocolState)) := by
  unfold add BadSigner checked
  exact addUsed_panics H sha digest crypto st (used b)

theorem convert_iff (v : Block.block.wire.denote) (b : Blk) : convert v = .ok b ↔ fromWire Block.block v = .ok b := by
  unfold convert
  cases fromWire Block.block v <;> simp

/-- **C128.** Which blocks stop a node, whatever its frontier is. -/
theorem C128_stops_iff (st : State ProtocolStateLegacy Proof) (v : Block.block.wire.denote) :
    PanicsOn convert (add H sha digest crypto) st v ↔ Spec.Stops digest crypto (top st.bestChain) v := by
  unfold PanicsOn Spec.Stops
  refine or_congr ?_ ?_
  · unfold convert
    rcases Block.from_cases Block.block v with ⟨hc, b, hb⟩ | ⟨hc, m, hb⟩
    · rw [hb]
      constructor
      · rintro ⟨e, h, -⟩; cases h
      · intro h; exact absurd hc h
    · rw [hb]
      exact ⟨fun _ => hc, fun _ => ⟨_, rfl, .inl ⟨_, rfl⟩⟩⟩
  · constructor
    · rintro ⟨b, e, hb, he, hp⟩
      exact ⟨b, (convert_iff v b).mp hb, (add_panics H sha digest crypto st b).mp ⟨e, he, hp⟩⟩
    · rintro ⟨b, hb, h⟩
      obtain ⟨e, he, hp⟩ := (add_panics H sha digest crypto st b).mpr h
      exact ⟨b, e, (convert_iff v b).mpr hb, he, hp⟩

/-- **C128 fails** for the blocks that stop a node: under every schedule, once such a block has been handled, it is the last one for
ever, whatever is sent afterwards. -/
theorem C128_stopped_fails (es es' : List (Ev Block.block.wire.denote)) (p p' : Proc Block.block.wire.denote (State ProtocolStateLegacy Proof))
    (hrun : (Proc.init State.new).run convert (add H sha digest crypto) es = some p)
    (hrun' : p.run convert (add H sha digest crypto) es' = some p') (pre : List Block.block.wire.denote) (v : Block.block.wire.denote)
    (post : List Block.block.wire.denote) (hv : p.handled = pre ++ v :: post)
    (hstops : Spec.Stops digest crypto (top (Frontier.Spec.after convert (add H sha digest crypto) (State.new (Proof := Proof)) pre).bestChain) v) :
    p'.handled = pre ++ [v] :=
  C43_panic_stops_fails _ _ State.new es es' p p' hrun hrun' pre v post hv ((C128_stops_iff H sha digest crypto _ v).mpr hstops)

/-- **C128.** Nothing else stops it: under every schedule, when the node has stopped before its channel was closed, the last block
handled is one that stops a node with the tip of that moment. -/
theorem C128_only_these_stop (es : List (Ev Block.block.wire.denote)) (p : Proc Block.block.wire.denote (State ProtocolStateLegacy Proof))
    (hrun : (Proc.init State.new).run convert (add H sha digest crypto) es = some p) (hcrash : p.loop = .crashed) :
    ∃ pre v, p.handled = pre ++ [v] ∧
      Spec.Stops digest crypto (top (Frontier.Spec.after convert (add H sha digest crypto) (State.new (Proof := Proof)) pre).bestChain) v := by
  obtain ⟨pre, v, h1, h2⟩ := C43_only_panics_stop _ _ State.new es p hrun hcrash
  exact ⟨pre, v, h1, (C128_stops_iff H sha digest crypto _ v).mp h2⟩

/-! ## The best chain -/

theorem beats_wins {t s : ProtocolStateLegacy}
    (hh : t.body.consensusState.blockchainLength = s.body.consensusState.blockchainLength →
      digest t.body.consensusState.lastVrfOutput = digest s.body.consensusState.lastVrfOutput → Spec.Hashable t ∧ Spec.Hashable s) :
    MinaRs.Consensus.Spec.Beats (MinaRs.Consensus.Spec.key (header H sha digest) s) (MinaRs.Consensus.Spec.key (header H sha digest) t) ↔
      Wins H sha digest s t := by
  unfold MinaRs.Consensus.Spec.Beats Wins MinaRs.Consensus.Spec.key
  refine or_congr Iff.rfl ?_
  show (t.body.consensusState.blockchainLength.toNat = s.body.consensusState.blockchainLength.toNat ∧ _) ↔ _
  rw [UInt32.toNat_inj]
  refine and_congr_right fun h1 => or_congr Iff.rfl ?_
  show (digest t.body.consensusState.lastVrfOutput = digest s.body.consensusState.lastVrfOutput ∧ _) ↔ _
  refine and_congr_right fun h2 => ?_
  obtain ⟨ht, hs⟩ := hh h1 h2
  obtain ⟨g, hg⟩ := (Hash.C70_no_panic_iff H sha t).mpr ht
  obtain ⟨f, hf⟩ := (Hash.C70_no_panic_iff H sha s).mpr hs
  have e1 : (header H sha digest).stateHash s = f.val := by simp only [header, hf]
  have e2 : (header H sha digest).stateHash t = g.val := by simp only [header, hg]
  have : (∃ f' g' : Fp, s.stateHash H sha = .ok f' ∧ t.stateHash H sha = .ok g' ∧ g'.val < f'.val) ↔ g.val < f.val := by
    rw [hf, hg]
    constructor
    · rintro ⟨_, _, h1, h2, h3⟩; cases h1; cases h2; exact h3
    · intro h; exact ⟨f, g, rfl, rfl, h⟩
  rw [this]
  simp only [e1, e2]

theorem select_prefers {c : Chain ProtocolStateLegacy} {t s : ProtocolStateLegacy} (ht : top c = some t)
    (h1 : ¬ EpochClash t s) (h2 : ¬ WindowOverflow t s) (h3 : ¬ HashClash digest t s) :
    (Prefers H sha digest t s → (selectSecureChain (header H sha digest) c [[s]]).1 = [s]) ∧
    (¬ Prefers H sha digest t s → (selectSecureChain (header H sha digest) c [[s]]).1 = c) := by
  have hs : top [s] = some s := rfl
  cases hr : MinaRs.Consensus.isShortRange (header H sha digest) c [s] with
  | error e =>
    exfalso
    have := MinaRs.Consensus.isShortRange_err ht hs hr
    cases e with
    | panic m => exact h1 ((clash_iff H sha digest ht).mp ⟨m, hr⟩)
    | _ => cases this
  | ok r =>
    have hb := MinaRs.Consensus.isShortRange_ok ht hs hr
    have hsn := short_near H sha digest t s
    cases r with
    | true =>
      have hn : NearFork t s := hsn.mp (of_decide_eq_true hb.symm)
      have hw := beats_wins H sha digest (t := t) (s := s) fun a b => Classical.byContradiction fun hx => h3 ⟨a, b, .inl hn, hx⟩
      rw [selectSecureChain, MinaRs.Consensus.selectOne_short ht hs hr]
      simp only [selectSecureChain]
      refine ⟨?_, fun hp => if_neg (fun h => hp (.inl ⟨hn, hw.mp h⟩))⟩
      rintro (⟨-, h⟩ | ⟨h, -⟩)
      · exact if_pos (hw.mpr h)
      · exact absurd hn h
    | false =>
      have hn : ¬ NearFork t s := fun h => of_decide_eq_false hb.symm (hsn.mpr h)
      by_cases hwin : WindowOk s
      · have hw' := (window_iff H sha digest s).mpr hwin
        obtain ⟨d1, d2, d3⟩ := density_full H sha digest ht hs
        have e2 := (density_full H sha digest hs ht).1 (.inr (window_fits t hwin))
        by_cases hc : max (slot t) (slot s) < 1440 ∨ Fits t s
        · have e1 := d1 (by
            by_cases he : max (slot t) (slot s) < 1440
            · exact .inl he
            · refine .inr ⟨hc.resolve_left he, ?_⟩
              apply Classical.byContradiction
              intro hl
              exact h2 ⟨hn, hwin, by omega, hc.resolve_left he, by omega⟩)
          rw [selectSecureChain, MinaRs.Consensus.selectOne_long ht hs hr hw' e1 e2]
          simp only [selectSecureChain]
          have hw : relDensity t s = relDensity s t → (MinaRs.Consensus.Spec.Beats (MinaRs.Consensus.Spec.key (header H sha digest) s)
              (MinaRs.Consensus.Spec.key (header H sha digest) t) ↔ Wins H sha digest s t) := fun hd =>
            beats_wins H sha digest fun a b => Classical.byContradiction fun hx => h3 ⟨a, b, .inr ⟨hwin, hc, hd⟩, hx⟩
          refine ⟨?_, fun hp => if_neg (fun h => hp (.inr ⟨hn, hwin, hc, h.imp id (fun h => ⟨h.1, (hw h.1).mp h.2⟩)⟩))⟩
          rintro (⟨h, -⟩ | ⟨-, -, -, h⟩)
          · exact absurd h hn
          · exact if_pos (h.imp id (fun h => ⟨h.1, (hw h.1).mpr h.2⟩))
        · rw [selectSecureChain, MinaRs.Consensus.selectOne_long_err1 hs hr hw' (d2 (fun h => hc (.inl h)) (fun h => hc (.inr h)))]
          refine ⟨?_, fun _ => rfl⟩
          rintro (⟨h, -⟩ | ⟨-, -, h, -⟩)
          · exact absurd h hn
          · exact absurd h hc
      · rw [selectSecureChain, MinaRs.Consensus.selectOne_long_bad hs hr (fun h => hwin ((window_iff H sha digest s).mp h))]
        refine ⟨?_, fun _ => rfl⟩
        rintro (⟨h, -⟩ | ⟨-, h, -⟩)
        · exact absurd h hn
        · exact absurd h hwin

theorem add_becomes (st : State ProtocolStateLegacy Proof) (b : Blk)
    (hn : ¬ ∃ e, (add H sha digest crypto st b).2 = .error e ∧ Panics e) :
    Becomes H sha digest crypto b st.bestChain (add H sha digest crypto st b).1.bestChain ∧ (add H sha digest crypto st b).1.ledger = st.ledger := by
  have hp := fun h => hn ((add_panics H sha digest crypto st b).mpr h)
  have hval := valid_iff crypto (used b)
  have hnot : (∃ e, (addUsed H sha digest crypto st (used b)).2 = .error e ∧ Panics e) → False := hn
  have mk1 := @Becomes.invalid _ H sha digest crypto b
  have mk2 := @Becomes.first _ H sha digest crypto b
  have mk3 := @Becomes.appended _ H sha digest crypto b
  have mk4 := @Becomes.refused _ H sha digest crypto b
  have mk5 := @Becomes.replaced _ H sha digest crypto b
  have mk6 := @Becomes.kept _ H sha digest crypto b
  unfold add
  unfold checked at hp mk1 mk2 mk3 mk4 mk5 mk6
  generalize hB : Becomes H sha digest crypto b = B at mk1 mk2 mk3 mk4 mk5 mk6 ⊢
  clear hB
  have hp2 := fun h => hp (.inr h)
  clear hp hn
  revert hp2 hval hnot mk1 mk2 mk3 mk4 mk5 mk6
  generalize used b = u
  intro hval hnot mk1 mk2 mk3 mk4 mk5 mk6 hp
  by_cases hv : u.verify crypto = .ok true
  · have hok := hval.mp hv
    have hadd : addUsed H sha digest crypto st u = addBlockMainnet (header H sha digest) crypto st u := by
      unfold addUsed at hnot ⊢
      simp only [hv] at hnot ⊢
      split at hnot
      · exact (hnot ⟨_, rfl, .inl ⟨_, rfl⟩⟩).elim
      · rename_i h
        rw [if_neg h]
    rw [hadd]
    simp only [addBlockMainnet, hv]
    refine ⟨?_, trivial⟩
    obtain ⟨bc, l0⟩ := st
    rcases List.eq_nil_or_concat bc with rfl | ⟨c, t, rfl⟩
    · exact mk2 hok
    simp only [List.concat_eq_append] at hp ⊢
    have ht : top (c ++ [t]) = some t := by simp [top]
    have hlen : MinaRs.Consensus.length (header H sha digest) (c ++ [t]) = t.body.consensusState.blockchainLength.toNat := by
      unfold MinaRs.Consensus.length
      rw [MinaRs.Consensus.consensusState_some ht]; rfl
    have hz : t.body.consensusState.blockchainLength.toNat < 1 ↔ t.body.consensusState.blockchainLength = 0 := by
      rw [← UInt32.toNat_inj]
      show _ ↔ _ = 0
      omega
    unfold extend
    rw [hlen]
    by_cases h0 : t.body.consensusState.blockchainLength = 0
    · rw [if_pos (hz.mpr h0)]
      have hlast : (c ++ [t]).getLast? = some t := ht
      have hgt : (header H sha digest).getHeight t = 0 := by
        show t.body.consensusState.blockchainLength.toNat = 0
        rw [h0]; rfl
      have hgs : (header H sha digest).getHeight u.protocolState = u.protocolState.body.consensusState.blockchainLength.toNat := rfl
      have h1 : u.protocolState.body.consensusState.blockchainLength.toNat = 1 ↔ u.protocolState.body.consensusState.blockchainLength = 1 := by
        rw [← UInt32.toNat_inj]; exact Iff.rfl
      simp only [MinaRs.Consensus.push, hlast, hgt, MinaRs.Consensus.add32, show (0 + 1 < 2 ^ 32) from by decide, if_true, hgs]
      by_cases hone : u.protocolState.body.consensusState.blockchainLength = 1
      · rw [if_neg (by simp only [ne_eq, Nat.zero_add, h1.mpr hone, not_true_eq_false, not_false_eq_true])]
        simp only [List.append_assoc, List.singleton_append]
        exact mk3 hok h0 hone
      · rw [if_pos (by simpa only [ne_eq, Nat.zero_add, h1] using hone)]
        exact mk4 hok h0 hone
    · rw [if_neg (fun h => h0 (hz.mp h))]
      obtain ⟨p1, p2⟩ := select_prefers H sha digest (s := u.protocolState) ht (fun h => hp ⟨hok, t, ht, h0, .inl h⟩)
        (fun h => hp ⟨hok, t, ht, h0, .inr (.inl h)⟩) (fun h => hp ⟨hok, t, ht, h0, .inr (.inr h)⟩)
      show B (c ++ [t]) (selectSecureChain (header H sha digest) (c ++ [t]) [[u.protocolState]]).1
      by_cases hpr : Prefers H sha digest t u.protocolState
      · rw [p1 hpr]; exact mk5 hok h0 hpr
      · rw [p2 hpr]; exact mk6 hok h0 hpr
  · have hbad : ¬ ∀ c ∈ u.stagedLedgerDiff.diffOne.getD [] ++ u.stagedLedgerDiff.diffTwo, ValidCommand crypto c := fun h => hv (hval.mpr h)
    have hadd : (addUsed H sha digest crypto st u).1 = st := by
      unfold addUsed addBlockMainnet
      cases hr : u.verify crypto with
      | error e => rfl
      | ok r =>
        cases r with
        | true => exact absurd hr hv
        | false => rfl
    rw [hadd]
    exact ⟨mk1 hbad, rfl⟩

/-- **C128.** Which block is the tip: a block that does not stop the node changes its best chain as the consensus rules say, whatever
was handled before, and never its ledger. -/
theorem C128_tip (vs : List Block.block.wire.denote) (v : Block.block.wire.denote) :
    let node := Frontier.Spec.after convert (add H sha digest crypto) (State.new (Proof := Proof))
    ¬ Spec.Stops digest crypto (top (node vs).bestChain) v →
    ∃ b, fromWire Block.block v = .ok b ∧ Becomes H sha digest crypto b (node vs).bestChain (node (vs ++ [v])).bestChain ∧
      (node (vs ++ [v])).ledger = (node vs).ledger := by
  intro node hn
  have hafter : node (vs ++ [v]) = (handle convert (add H sha digest crypto) (node vs) v).1 := by
    show Frontier.Spec.after _ _ _ _ = (handle _ _ (Frontier.Spec.after _ _ _ _) v).1
    rw [← sequential_after, ← sequential_after]
    simp [sequential]
  rw [hafter]
  rcases Block.from_cases Block.block v with ⟨-, b, hb⟩ | ⟨hc, -⟩
  · refine ⟨b, hb, ?_⟩
    have := add_becomes H sha digest crypto (node vs) b fun ⟨e, he, hp⟩ =>
      hn ((C128_stops_iff H sha digest crypto (node vs) v).mp (.inr ⟨b, e, (convert_iff v b).mpr hb, he, hp⟩))
    unfold handle
    rw [(convert_iff v b).mpr hb]
    exact this
  · exact absurd (.inl hc) hn

/-- **C128.** Every block of the best chain was sent, and all its commands are valid: their signers are points of the curve and their
signatures verify. -/
theorem C128_chain_valid (vs : List Block.block.wire.denote) (t : ProtocolStateLegacy)
    (ht : t ∈ (Frontier.Spec.after convert (add H sha digest crypto) (State.new (Proof := Proof)) vs).bestChain) :
    ∃ v ∈ vs, ∃ b, fromWire Block.block v = .ok b ∧ (used b).protocolState = t ∧ ∀ c ∈ checked b, ValidCommand crypto c := by
  have step : ∀ (st : State ProtocolStateLegacy Proof) (b : Blk), t ∈ (add H sha digest crypto st b).1.bestChain →
      t ∈ st.bestChain ∨ ((used b).protocolState = t ∧ ∀ c ∈ checked b, ValidCommand crypto c) := by
    intro st b
    unfold add checked
    rw [← valid_iff]
    generalize used b = u
    intro h
    unfold addUsed at h
    split at h
    · rename_i hv
      dsimp only at h
      split at h
      · exact .inl h
      · simp only [addBlockMainnet, hv] at h
        exact (extend_mem _ _ _ h).imp id (fun h => ⟨h.symm, hv⟩)
    · rename_i hv
      left
      unfold addBlockMainnet at h
      cases hr : u.verify crypto with
      | error e => rw [hr] at h; exact h
      | ok r =>
        cases r with
        | true => exact absurd hr hv
        | false => rw [hr] at h; exact h
  have all : ∀ (bs : List Blk) (st : State ProtocolStateLegacy Proof), t ∈ (bs.foldl (fun s b => (add H sha digest crypto s b).1) st).bestChain →
      t ∈ st.bestChain ∨ ∃ b ∈ bs, (used b).protocolState = t ∧ ∀ c ∈ checked b, ValidCommand crypto c := by
    intro bs
    induction bs with
    | nil => intro st h; exact .inl h
    | cons b bs ih =>
      intro st h
      rcases ih _ h with h | ⟨b', hb', h⟩
      · rcases step st b h with h | h
        · exact .inl h
        · exact .inr ⟨b, .head _, h⟩
      · exact .inr ⟨b', .tail _ hb', h⟩
  rcases all _ _ ht with h | ⟨b, hb, h⟩
  · cases h
  · obtain ⟨v, hv, hc⟩ := List.mem_filterMap.mp hb
    refine ⟨v, hv, b, ?_, h⟩
    unfold Frontier.Spec.converted at hc
    rw [← convert_iff]
    split at hc
    · rename_i hx
      rw [hx, Option.some.inj hc]
    · cases hc

theorem harmless_not_stops (tip : Option ProtocolStateLegacy) (v : Block.block.wire.denote) (hv : Harmless crypto v)
    (ht : ∀ t, tip = some t → Spec.Hashable t ∧ t.body.consensusState.currGlobalSlot.slotsPerEpoch.toNat ≠ 0 ∧
      t.body.consensusState.epochCount.toNat ≠ 2 ^ 32 - 1 ∧ WindowOk t) : ¬ Spec.Stops digest crypto tip v := by
  obtain ⟨b, hb, hk, hh, hs, he, hw⟩ := hv
  rintro (h | ⟨b', hb', h⟩)
  · rcases Block.from_cases Block.block v with ⟨hc, -⟩ | ⟨-, m, hm⟩
    · exact h hc
    · rw [hb] at hm; cases hm
  · rw [hb] at hb'
    cases hb'
    rcases h with ⟨pre, c, post, h1, -, h3⟩ | ⟨-, t, h1, -, h2⟩
    · exact hk c (by rw [h1]; simp) h3
    · obtain ⟨t1, t2, t3, t4⟩ := ht t h1
      rcases h2 with ⟨-, (h | h) | ⟨h | h, -⟩⟩ | ⟨-, -, -, -, h⟩ | ⟨-, -, -, h⟩
      · exact hs h
      · exact he h
      · exact t2 h
      · exact t3 h
      · have := (window_fits (used b).protocolState t4).2
        omega
      · exact h ⟨t1, hh⟩

/-- **C128.** A node that is only sent harmless blocks keeps going under every schedule: it never stops before its channel is closed,
and while a block is waiting and no page holds the frontier it can take a step.  Missing: the other blocks, see
`C128_stopped_fails`. -/
theorem C128_keeps_going_partial (es : List (Ev Block.block.wire.denote)) (p : Proc Block.block.wire.denote (State ProtocolStateLegacy Proof))
    (hrun : (Proc.init State.new).run convert (add H sha digest crypto) es = some p) (hharm : ∀ v ∈ p.sent, Harmless crypto v) :
    p.loop ≠ .crashed ∧
    (p.handled ≠ p.sent → p.readers = 0 → ∃ p', p.step convert (add H sha digest crypto) .loop = some p') := by
  have hnc : p.loop ≠ .crashed := by
    intro hcrash
    obtain ⟨pre, v, h1, h2⟩ := C128_only_these_stop H sha digest crypto es p hrun hcrash
    obtain ⟨⟨rest, hr⟩, -, -⟩ := C43_in_order_exactly_once _ _ State.new es p hrun
    rw [h1] at hr
    refine harmless_not_stops digest crypto _ v (hharm v (by rw [← hr]; simp)) (fun t ht => ?_) h2
    obtain ⟨v', hv', b, hb, rfl, -⟩ := C128_chain_valid H sha digest crypto pre t (List.mem_of_getLast? ht)
    obtain ⟨b', hb', -, hh⟩ := hharm v' (by rw [← hr]; simp [hv'])
    rw [hb] at hb'
    cases hb'
    exact hh
  exact ⟨hnc, fun h1 h2 => C43_progress _ _ State.new es p hrun h1 h2 hnc⟩

/-- **C128 fails** for a first block that is sent again, as every poll does: if a hash in it is not a field element the node takes it
without a complaint, and stops when it comes again. -/
theorem C128_repeat_fails (v : Block.block.wire.denote) (b : Blk) (hb : fromWire Block.block v = .ok b)
    (hval : ∀ c ∈ checked b, ValidCommand crypto c) (hpos : (used b).protocolState.body.consensusState.blockchainLength ≠ 0)
    (hh : ¬ Spec.Hashable (used b).protocolState) :
    let node := Frontier.Spec.after convert (add H sha digest crypto) (State.new (Proof := Proof))
    ¬ Spec.Stops digest crypto (top (node []).bestChain) v ∧ (node [v]).bestChain = [(used b).protocolState] ∧
    Spec.Stops digest crypto (top (node [v]).bestChain) v := by
  intro node
  have hn : ¬ Spec.Stops digest crypto (top (node []).bestChain) v := by
    rintro (h | ⟨b', hb', h⟩)
    · rcases Block.from_cases Block.block v with ⟨hc, -⟩ | ⟨-, m, hm⟩
      · exact h hc
      · rw [hb] at hm; cases hm
    · rw [hb] at hb'
      cases hb'
      rcases h with ⟨pre, c, post, h1, -, h3⟩ | ⟨-, t, h1, -⟩
      · obtain ⟨pk, hpk, -⟩ := hval c (by rw [h1]; simp)
        rw [hpk] at h3; cases h3
      · cases h1
  have hc : (node [v]).bestChain = [(used b).protocolState] := by
    obtain ⟨b', hb', hbec, -⟩ := C128_tip H sha digest crypto (Proof := Proof) [] v hn
    rw [hb] at hb'
    cases hb'
    have hnil : (node []).bestChain = [] := rfl
    change Becomes H sha digest crypto b (node []).bestChain (node [v]).bestChain at hbec
    rw [hnil] at hbec
    generalize hx : (node [v]).bestChain = x at hbec
    generalize hy : ([] : Chain ProtocolStateLegacy) = y at hbec
    cases hbec with
    | invalid h => exact absurd hval h
    | first _ => rfl
    | appended => simp at hy
    | refused => simp at hy
    | replaced => simp at hy
    | kept => simp at hy
  refine ⟨hn, hc, .inr ⟨b, hb, .inr ⟨hval, _, by rw [hc]; rfl, hpos, .inr (.inr ⟨rfl, rfl, .inl (.inl ⟨rfl, rfl⟩), fun h => hh h.1⟩)⟩⟩⟩

/-- **C128 fails** for a block whose first command has a signer that is not on the curve: it stops every node, at any time. -/
theorem C128_bad_signer_fails (v : Block.block.wire.denote) (b : Blk) (hb : fromWire Block.block v = .ok b)
    (c : SignedCommand Key Sig Payload) (cs : List (SignedCommand Key Sig Payload)) (hc : checked b = c :: cs)
    (hk : crypto.uncompress c.signer = none) (tip : Option ProtocolStateLegacy) : Spec.Stops digest crypto tip v :=
  .inr ⟨b, hb, .inl ⟨[], c, cs, hc, fun _ h => (by cases h), hk⟩⟩

/-! ## What the page is told -/

theorem empty_iff (vs : List Block.block.wire.denote)
    (he : (Frontier.Spec.after convert (add H sha digest crypto) (State.new (Proof := Proof)) vs).bestChain = []) (b : Blk) :
    ¬ Usable crypto vs b := by
  have step : ∀ (st : State ProtocolStateLegacy Proof) (b : Blk), (add H sha digest crypto st b).1.bestChain = [] →
      st.bestChain = [] ∧ ¬ ∀ c ∈ checked b, ValidCommand crypto c := by
    intro st b
    unfold add checked
    rw [← valid_iff]
    generalize used b = u
    intro h
    unfold addUsed at h
    split at h
    · rename_i hv
      exfalso
      dsimp only at h
      split at h
      · rename_i hc
        dsimp only at h
        apply hc.1
        rw [h]
        exact Nat.zero_lt_one
      · simp only [addBlockMainnet, hv] at h
        exact extend_nonempty _ _ _ h
    · rename_i hv
      refine ⟨?_, fun h' => hv h'⟩
      unfold addBlockMainnet at h
      cases hr : u.verify crypto with
      | error e => rw [hr] at h; exact h
      | ok r =>
        cases r with
        | true => exact absurd hr hv
        | false => rw [hr] at h; exact h
  have all : ∀ (bs : List Blk) (st : State ProtocolStateLegacy Proof), (bs.foldl (fun s b => (add H sha digest crypto s b).1) st).bestChain = [] →
      st.bestChain = [] ∧ ∀ b ∈ bs, ¬ ∀ c ∈ checked b, ValidCommand crypto c := by
    intro bs
    induction bs with
    | nil => intro st h; exact ⟨h, fun _ h => by cases h⟩
    | cons b bs ih =>
      intro st h
      obtain ⟨h1, h2⟩ := ih _ h
      obtain ⟨h3, h4⟩ := step st b h1
      refine ⟨h3, fun b' hb' => ?_⟩
      cases hb' with
      | head => exact h4
      | tail _ hb' => exact h2 b' hb'
  rintro ⟨v, hv, hb, hval⟩
  refine (all _ _ he).2 b (List.mem_filterMap.mpr ⟨v, hv, ?_⟩) hval
  unfold Frontier.Spec.converted
  rw [(convert_iff v b).mpr hb]

/-- **C128.** Under every schedule, whatever the page is told of the state hash is right of the first few blocks sent. -/
theorem C128_told (render : Nat → String) (es : List (PageEv Block.block.wire.denote Unit))
    (p : Page Block.block.wire.denote (State ProtocolStateLegacy Proof) Unit (Option (Except Err String)))
    (hrun : (Page.init State.new).run convert (add H sha digest crypto) (tipHash H sha render) es = some p)
    (q : Unit) (a : Option (Except Err String)) (ha : (q, a) ∈ p.told) :
    ∃ vs, vs <+: p.proc.sent ∧ RightHash H sha render crypto vs a := by
  obtain ⟨h1, h2⟩ := C98_moments _ _ _ _ es p hrun
  obtain ⟨vs, h3, h4⟩ := told_mem h2 (q, a) ha
  refine ⟨vs, h3.trans h1, ?_⟩
  dsimp only at h4
  rw [h4]
  unfold tipHash
  cases ht : top (Frontier.Spec.after convert (add H sha digest crypto) State.new vs).bestChain with
  | none =>
    have he : (Frontier.Spec.after convert (add H sha digest crypto) (State.new (Proof := Proof)) vs).bestChain = [] := by simpa [top] using ht
    exact empty_iff H sha digest crypto vs he
  | some t =>
    obtain ⟨v, hv, b, hb, rfl, hval⟩ := C128_chain_valid H sha digest crypto vs t (List.mem_of_getLast? ht)
    simp only [Option.map_some]
    cases hh : (used b).protocolState.stateHash H sha with
    | ok f => exact ⟨b, f, ⟨v, hv, hb, hval⟩, hh, rfl⟩
    | error m =>
      refine ⟨b, ⟨v, hv, hb, hval⟩, fun h => ?_⟩
      obtain ⟨f, hf⟩ := (Hash.C70_no_panic_iff H sha _).mpr h
      rw [hh] at hf; cases hf

theorem asked_once {N B St Q A : Type} (convert : N → Except Err B) (add : St → B → St × Except Err Unit) (view : Q → St → A) (s : St) (v : N)
    (q : Q) : ∃ p, (Page.init s).run convert add view [.node (.send v), .node .loop, .node .loop, .node .loop, .node .acquireRead, .answer q] =
      some p ∧ p.told = [(q, view q (Frontier.Spec.after convert add s [v]))] := by
  have ha : Frontier.Spec.after convert add s [v] = (handle convert add s v).1 := by
    unfold Frontier.Spec.after Frontier.Spec.converted handle
    cases hc : convert v <;> simp [hc]
  rw [ha]
  cases hh : handle convert add s v with
  | mk s' r =>
    cases r with
    | ok u => simp [Page.run, Page.step, Page.init, Proc.init, Proc.step, capacity, hh]
    | error e =>
      cases hp : e.isPanic with
      | true => simp [Page.run, Page.step, Page.init, Proc.init, Proc.step, capacity, hh, hp]
      | false => simp [Page.run, Page.step, Page.init, Proc.init, Proc.step, capacity, hh, hp]

/-- **C128 fails** for the question: a page that asks after a usable first block without a state hash was handled makes the module
panic. -/
theorem C128_asking_fails (render : Nat → String) (v : Block.block.wire.denote) (b : Blk) (hb : fromWire Block.block v = .ok b)
    (hval : ∀ c ∈ checked b, ValidCommand crypto c) (hpos : (used b).protocolState.body.consensusState.blockchainLength ≠ 0)
    (hh : ¬ Spec.Hashable (used b).protocolState) :
    ∃ p m, (Page.init (State.new (Proof := Proof))).run convert (add H sha digest crypto) (tipHash H sha render)
      [.node (.send v), .node .loop, .node .loop, .node .loop, .node .acquireRead, .answer ()] = some p ∧
      p.told = [((), some (.error (.panic m)))] := by
  obtain ⟨-, hc, -⟩ := C128_repeat_fails H sha digest crypto (Proof := Proof) v b hb hval hpos hh
  obtain ⟨p, hp, ht⟩ := asked_once convert (add H sha digest crypto) (tipHash H sha render) (State.new (Proof := Proof)) v ()
  unfold tipHash at ht
  rw [hc] at ht
  generalize (used b).protocolState = t at hh ht
  simp only [top, List.getLast?_singleton, Option.map_some] at ht
  cases hx : t.stateHash H sha with
  | ok f => exact absurd ((Hash.C70_no_panic_iff H sha _).mp ⟨f, hx⟩) hh
  | error m => rw [hx] at ht; exact ⟨p, _, hp, ht⟩

/-! ## Where the parts are in a block -/

theorem num32_toNat (v : (BTy.int .u32).base) : ((num32 v).toNat : Int) = (show {n : Int // BinProt.IntKind.u32.range.holds n} from v).val := by
  obtain ⟨n, h⟩ : {n : Int // BinProt.IntKind.u32.range.holds n} := v
  have h' : 0 ≤ n ∧ n < 2 ^ 32 := by
    simp only [BinProt.IntKind.range, BinProt.u32, BinProt.IntTy.holds] at h
    omega
  show ((UInt32.ofNat n.toNat).toNat : Int) = n
  rw [UInt32.toNat_ofNat_of_lt' (by show n.toNat < 2 ^ 32; omega)]
  omega

theorem num64_toNat (v : (BTy.int .u64).base) : ((num64 v).toNat : Int) = (show {n : Int // BinProt.IntKind.u64.range.holds n} from v).val := by
  obtain ⟨n, h⟩ : {n : Int // BinProt.IntKind.u64.range.holds n} := v
  have h' : 0 ≤ n ∧ n < 2 ^ 64 := by
    simp only [BinProt.IntKind.range, BinProt.u64, BinProt.IntTy.holds] at h
    omega
  show ((UInt64.ofNat n.toNat).toNat : Int) = n
  rw [UInt64.toNat_ofNat_of_lt' (by show n.toNat < 2 ^ 64; omega)]
  omega

theorem flatMap_look {α : Type} (l : List α) (f : α → List Seen) (g : α → Seen) (h : ∀ x, f x = [g x]) : l.flatMap f = l.map g := by
  induction l with
  | nil => rfl
  | cons x xs ih => rw [List.flatMap_cons, h, ih]; rfl

theorem look_windows (l : List (BTy.int .u32).base) :
    l.flatMap (fun x => look Block.u32 x []) = (l.map num32).map (fun x => Seen.num x.toNat) := by
  rw [List.map_map]
  exact flatMap_look _ _ _ fun x => congrArg (fun n => [Seen.num n]) (num32_toNat x).symm

/-- **C128.** What the node uses of the protocol state is what the block says under the same names. -/
theorem C128_state_parts (b : Blk) :
    let s := (used b).protocolState
    look Block.block b ["protocol_state", "previous_state_hash"] = [.bytes s.previousStateHash.bytes] ∧
    look Block.block b ["protocol_state", "body", "genesis_state_hash"] = [.bytes s.body.genesisStateHash.bytes] ∧
    look Block.block b ["protocol_state", "body", "blockchain_state", "staged_ledger_hash", "non_snark", "ledger_hash"] = [.bytes s.body.blockchainState.stagedLedgerHash.nonSnark.ledgerHash.bytes] ∧
    look Block.block b ["protocol_state", "body", "blockchain_state", "staged_ledger_hash", "non_snark", "aux_hash"] = [.bytes s.body.blockchainState.stagedLedgerHash.nonSnark.auxHash] ∧
    look Block.block b ["protocol_state", "body", "blockchain_state", "staged_ledger_hash", "non_snark", "pending_coinbase_aux"] = [.bytes s.body.blockchainState.stagedLedgerHash.nonSnark.pendingCoinbaseAux] ∧
    look Block.block b ["protocol_state", "body", "blockchain_state", "staged_ledger_hash", "pending_coinbase_hash"] = [.bytes s.body.blockchainState.stagedLedgerHash.pendingCoinbaseHash.bytes] ∧
    look Block.block b ["protocol_state", "body", "blockchain_state", "snarked_ledger_hash"] = [.bytes s.body.blockchainState.snarkedLedgerHash.bytes] ∧
    look Block.block b ["protocol_state", "body", "blockchain_state", "genesis_ledger_hash"] = [.bytes s.body.blockchainState.genesisLedgerHash.bytes] ∧
    look Block.block b ["protocol_state", "body", "blockchain_state", "snarked_next_available_token"] = [.num s.body.blockchainState.snarkedNextAvailableToken.toNat] ∧
    look Block.block b ["protocol_state", "body", "blockchain_state", "timestamp"] = [.num s.body.blockchainState.timestamp.toNat] ∧
    look Block.block b ["protocol_state", "body", "consensus_state", "blockchain_length"] = [.num s.body.consensusState.blockchainLength.toNat] ∧
    look Block.block b ["protocol_state", "body", "consensus_state", "epoch_count"] = [.num s.body.consensusState.epochCount.toNat] ∧
    look Block.block b ["protocol_state", "body", "consensus_state", "min_window_density"] = [.num s.body.consensusState.minWindowDensity.toNat] ∧
    look Block.block b ["protocol_state", "body", "consensus_state", "sub_window_densities"] = s.body.consensusState.subWindowDensities.map (.num ·.toNat) ∧
    look Block.block b ["protocol_state", "body", "consensus_state", "last_vrf_output"] = [.bytes s.body.consensusState.lastVrfOutput] ∧
    look Block.block b ["protocol_state", "body", "consensus_state", "total_currency"] = [.num s.body.consensusState.totalCurrency.toNat] ∧
    look Block.block b ["protocol_state", "body", "consensus_state", "curr_global_slot", "slot_number"] = [.num s.body.consensusState.currGlobalSlot.slotNumber.toNat] ∧
    look Block.block b ["protocol_state", "body", "consensus_state", "curr_global_slot", "slots_per_epoch"] = [.num s.body.consensusState.currGlobalSlot.slotsPerEpoch.toNat] ∧
    look Block.block b ["protocol_state", "body", "consensus_state", "global_slot_since_genesis"] = [.num s.body.consensusState.globalSlotSinceGenesis.toNat] ∧
    look Block.block b ["protocol_state", "body", "consensus_state", "staking_epoch_data", "ledger", "hash"] = [.bytes s.body.consensusState.stakingEpochData.ledger.hash.bytes] ∧
    look Block.block b ["protocol_state", "body", "consensus_state", "staking_epoch_data", "ledger", "total_currency"] = [.num s.body.consensusState.stakingEpochData.ledger.totalCurrency.toNat] ∧
    look Block.block b ["protocol_state", "body", "consensus_state", "staking_epoch_data", "seed"] = [.bytes s.body.consensusState.stakingEpochData.seed.bytes] ∧
    look Block.block b ["protocol_state", "body", "consensus_state", "staking_epoch_data", "start_checkpoint"] = [.bytes s.body.consensusState.stakingEpochData.startCheckpoint.bytes] ∧
    look Block.block b ["protocol_state", "body", "consensus_state", "staking_epoch_data", "lock_checkpoint"] = [.bytes s.body.consensusState.stakingEpochData.lockCheckpoint.bytes] ∧
    look Block.block b ["protocol_state", "body", "consensus_state", "staking_epoch_data", "epoch_length"] = [.num s.body.consensusState.stakingEpochData.epochLength.toNat] ∧
    look Block.block b ["protocol_state", "body", "consensus_state", "next_epoch_data", "ledger", "hash"] = [.bytes s.body.consensusState.nextEpochData.ledger.hash.bytes] ∧
    look Block.block b ["protocol_state", "body", "consensus_state", "next_epoch_data", "ledger", "total_currency"] = [.num s.body.consensusState.nextEpochData.ledger.totalCurrency.toNat] ∧
    look Block.block b ["protocol_state", "body", "consensus_state", "next_epoch_data", "seed"] = [.bytes s.body.consensusState.nextEpochData.seed.bytes] ∧
    look Block.block b ["protocol_state", "body", "consensus_state", "next_epoch_data", "start_checkpoint"] = [.bytes s.body.consensusState.nextEpochData.startCheckpoint.bytes] ∧
    look Block.block b ["protocol_state", "body", "consensus_state", "next_epoch_data", "lock_checkpoint"] = [.bytes s.body.consensusState.nextEpochData.lockCheckpoint.bytes] ∧
    look Block.block b ["protocol_state", "body", "consensus_state", "next_epoch_data", "epoch_length"] = [.num s.body.consensusState.nextEpochData.epochLength.toNat] ∧
    look Block.block b ["protocol_state", "body", "consensus_state", "has_ancestor_in_same_checkpoint_window"] = [.flag s.body.consensusState.hasAncestorInSameCheckpointWindow] ∧
    look Block.block b ["protocol_state", "body", "consensus_state", "supercharge_coinbase"] = [.flag s.body.consensusState.superchargeCoinbase] ∧
    look Block.block b ["protocol_state", "body", "consensus_state", "block_stake_winner"] = [.key s.body.consensusState.blockStakeWinner] ∧
    look Block.block b ["protocol_state", "body", "consensus_state", "block_creator"] = [.key s.body.consensusState.blockCreator] ∧
    look Block.block b ["protocol_state", "body", "consensus_state", "coinbase_receiver"] = [.key s.body.consensusState.coinbaseReceiver] ∧
    look Block.block b ["protocol_state", "body", "constants", "k"] = [.num s.body.constants.k.toNat] ∧
    look Block.block b ["protocol_state", "body", "constants", "slots_per_epoch"] = [.num s.body.constants.slotsPerEpoch.toNat] ∧
    look Block.block b ["protocol_state", "body", "constants", "slots_per_sub_window"] = [.num s.body.constants.slotsPerSubWindow.toNat] ∧
    look Block.block b ["protocol_state", "body", "constants", "delta"] = [.num s.body.constants.delta.toNat] ∧
    look Block.block b ["protocol_state", "body", "constants", "genesis_state_timestamp"] = [.num s.body.constants.genesisStateTimestamp.toNat] := by
  intro s
  refine ⟨?_, ?_, ?_, ?_, ?_, ?_, ?_, ?_, ?_, ?_, ?_, ?_, ?_, ?_, ?_, ?_, ?_, ?_, ?_, ?_, ?_, ?_, ?_, ?_, ?_, ?_, ?_, ?_, ?_, ?_, ?_, ?_, ?_, ?_, ?_, ?_, ?_, ?_, ?_, ?_, ?_⟩
  all_goals first
    | rfl
    | exact congrArg (fun n => [Seen.num n]) (num32_toNat _).symm
    | exact congrArg (fun n => [Seen.num n]) (num64_toNat _).symm
    | exact look_windows _

/-- The values at a path of a command. -/
theorem look_command (v : Block.userCommand.base) :
    look Block.userCommand v ["data", "Signed_command", "signer"] = [.key (command v).signer] ∧
    look Block.userCommand v ["data", "Signed_command", "signature"] = [.sig (command v).signature] ∧
    ∀ p, look Block.userCommand v ("data" :: "Signed_command" :: "payload" :: p) =
      look (.struct (Block.fields [("common", Block.common), ("body", Block.body)])) (command v).payload p := by
  obtain ⟨c, status, u⟩ : ((Payload × Key × Sig × Unit) ⊕ Empty) × Block.status.base × Unit := v
  cases c with
  | inl c => exact ⟨rfl, rfl, fun p => rfl⟩
  | inr e => cases e

theorem look_commands (v : Block.preDiff.base) :
    look Block.preDiff v ["commands", "data", "Signed_command", "signer"] = (commands v).map (.key ·.signer) ∧
    look Block.preDiff v ["commands", "data", "Signed_command", "signature"] = (commands v).map (.sig ·.signature) ∧
    ∀ p, look Block.preDiff v ("commands" :: "data" :: "Signed_command" :: "payload" :: p) =
      (commands v).flatMap (fun c => look (.struct (Block.fields [("common", Block.common), ("body", Block.body)])) c.payload p) := by
  unfold commands
  refine ⟨?_, ?_, fun p => ?_⟩
  · rw [List.map_map]
    exact flatMap_look _ _ _ fun x => (look_command x).1
  · rw [List.map_map]
    exact flatMap_look _ _ _ fun x => (look_command x).2.1
  · rw [List.flatMap_map]
    show List.flatMap _ _ = _
    congr 1
    funext x
    exact (look_command x).2.2 p

/-- **C128.** What the node checks of the commands is what the block says under the same names: those of the second pre-diff are checked
before those of the first. -/
theorem C128_command_parts (b : Blk) :
    let at' := fun p => look Block.block b ("staged_ledger_diff" :: "diff" :: "1" :: "commands" :: "data" :: "Signed_command" :: p) ++
      look Block.block b ("staged_ledger_diff" :: "diff" :: "0" :: "commands" :: "data" :: "Signed_command" :: p)
    at' ["signer"] = (checked b).map (.key ·.signer) ∧
    at' ["signature"] = (checked b).map (.sig ·.signature) ∧
    ∀ p, at' ("payload" :: p) =
      (checked b).flatMap (fun c => look (.struct (Block.fields [("common", Block.common), ("body", Block.body)])) c.payload p) := by
  obtain ⟨ps, pr, ⟨⟨d2, d1, u1⟩, u2⟩, rest⟩ : Block.protocolState.base × Block.proof.base ×
    ((Block.preDiff.base × Option Block.preDiff.base × Unit) × Unit) × Block.deltaProof.base × Block.protocolVersion.base ×
    Option Block.protocolVersion.base × Unit × Unit := b
  have one : ∀ p q, look Block.block (show Blk from (ps, pr, ((d2, d1, u1), u2), rest)) ("staged_ledger_diff" :: "diff" :: "1" :: p) ++
      look Block.block (show Blk from (ps, pr, ((d2, d1, u1), u2), rest)) ("staged_ledger_diff" :: "diff" :: "0" :: q) =
      (match d1 with | none => [] | some d => look Block.preDiff d p) ++ look Block.preDiff d2 q := by
    intro p q
    cases d1 <;> rfl
  refine ⟨(one _ _).trans ?_, (one _ _).trans ?_, fun p => (one _ _).trans ?_⟩
  · show _ = List.map _ ((d1.map commands).getD [] ++ commands d2)
    rw [List.map_append, ← (look_commands d2).1]
    cases d1 with
    | none => rfl
    | some d => exact congrArg (· ++ _) (look_commands d).1
  · show _ = List.map _ ((d1.map commands).getD [] ++ commands d2)
    rw [List.map_append, ← (look_commands d2).2.1]
    cases d1 with
    | none => rfl
    | some d => exact congrArg (· ++ _) (look_commands d).2.1
  · show _ = List.flatMap _ ((d1.map commands).getD [] ++ commands d2)
    rw [List.flatMap_append, ← (look_commands d2).2.2]
    cases d1 with
    | none => rfl
    | some d => exact congrArg (· ++ _) ((look_commands d).2.2 p)

/-! ## Blocks of each kind -/

/-- The sample block with this previous state hash and this window. -/
def sampleWith (prev : BTy.bytes32.base) (windows : List (BTy.int .u32).base) : Blk :=
  let x : Block.protocolState.base × Block.proof.base × ((Block.preDiff.base × Option Block.preDiff.base × Unit) × Unit) ×
    Block.deltaProof.base × Block.protocolVersion.base × Option Block.protocolVersion.base × Unit × Unit := Block.sampleBlock.1
  let ps : BTy.bytes32.base × (BTy.bytes32.base × Block.blockchainState.base × Block.consensusState.base × Block.constants.base × Unit) × Unit := x.1
  let cs : (BTy.int .u32).base × (BTy.int .u32).base × (BTy.int .u32).base × List (BTy.int .u32).base × List UInt8 × (BTy.int .u64).base ×
    ((BTy.int .u32).base × (BTy.int .u32).base × Unit) × (BTy.int .u32).base × Block.epochData.base × Block.epochData.base × Bool ×
    Key × Key × Key × Bool × Unit := ps.2.1.2.2.1
  (((prev, (ps.2.1.1, ps.2.1.2.1, (cs.1, cs.2.1, cs.2.2.1, windows, cs.2.2.2.2), ps.2.1.2.2.2), ps.2.2), x.2) :
    (BTy.bytes32.base × (BTy.bytes32.base × Block.blockchainState.base × ((BTy.int .u32).base × (BTy.int .u32).base × (BTy.int .u32).base ×
      List (BTy.int .u32).base × List UInt8 × (BTy.int .u64).base ×
      ((BTy.int .u32).base × (BTy.int .u32).base × Unit) × (BTy.int .u32).base × Block.epochData.base × Block.epochData.base × Bool ×
      Key × Key × Key × Bool × Unit) × Block.constants.base × Unit) × Unit) × _)

/-- All keys are on the curve, and all signatures verify. -/
def trusting : Crypto Key Key Sig Payload := ⟨some, fun _ _ _ => true⟩

/-- No key is on the curve. -/
def distrusting : Crypto Key Key Sig Payload := ⟨fun _ => none, fun _ _ _ => true⟩

instance (s : ProtocolStateLegacy) : Decidable (Spec.Hashable s) :=
  inferInstanceAs (Decidable (∀ h ∈ Hash.Spec.stateHashesLegacy s, MinaRs.leNat h.bytes < Hash.p))

instance (s : ProtocolStateLegacy) : Decidable (WindowOk s) :=
  inferInstanceAs (Decidable (_ ∧ ∀ d ∈ s.body.consensusState.subWindowDensities, d.toNat ≤ 7))

/-- A harmless block with two commands, one in each pre-diff. -/
example : Harmless trusting (toWire Block.block (sampleWith (Block.leArr 32 5) (List.replicate 11 (Block.intSample .u32)))) ∧
    (checked (sampleWith (Block.leArr 32 5) (List.replicate 11 (Block.intSample .u32)))).length = 2 := by
  refine ⟨⟨_, Block.from_to Block.block _, fun _ _ => (by intro h; cases h), ?_, ?_, ?_, ?_⟩, ?_⟩
  all_goals decide +kernel

/-- A block that stops the node when it comes again. -/
example : let b := sampleWith (Block.leArr 32 Hash.p) [Block.intSample .u32]
    Spec.Stops digest trusting (top (Frontier.Spec.after convert (add H sha digest trusting) (State.new (Proof := Proof))
      [toWire Block.block b]).bestChain) (toWire Block.block b) :=
  (C128_repeat_fails H sha digest trusting (Proof := Proof) _ _ (Block.from_to Block.block (sampleWith (Block.leArr 32 Hash.p) [Block.intSample .u32]))
    (fun c _ => ⟨c.signer, rfl, rfl⟩) (by decide +kernel) (by decide +kernel)).2.2

/-- A block that stops every node. -/
example (tip : Option ProtocolStateLegacy) : Spec.Stops digest distrusting tip (toWire Block.block Block.sampleBlock.1) := by
  have hne : checked Block.sampleBlock.1 ≠ [] := by
    intro h
    have : (checked Block.sampleBlock.1).length = 2 := by decide +kernel
    rw [h] at this; cases this
  obtain ⟨c, cs, hc⟩ := List.exists_cons_of_ne_nil hne
  exact C128_bad_signer_fails digest distrusting _ _ (Block.from_to Block.block _) c cs hc rfl tip

/-- The block with the same window, slot and length as the tip, in the same epoch, does not replace it; the first block is taken. -/
example : Becomes H sha digest trusting Block.sampleBlock.1 [] [(used Block.sampleBlock.1).protocolState] :=
  .first fun c _ => ⟨c.signer, rfl, rfl⟩

/-- A page that asks after that block gets a panic. -/
example (render : Nat → String) : ∃ p m, (Page.init (State.new (Proof := Proof))).run convert (add H sha digest trusting) (tipHash H sha render)
      [.node (.send (toWire Block.block (sampleWith (Block.leArr 32 Hash.p) [Block.intSample .u32]))), .node .loop, .node .loop, .node .loop,
        .node .acquireRead, .answer ()] = some p ∧ p.told = [((), some (.error (.panic m)))] :=
  C128_asking_fails H sha digest trusting render _ _ (Block.from_to Block.block _) (fun c _ => ⟨c.signer, rfl, rfl⟩) (by decide +kernel)
    (by decide +kernel)

end MinaRs.Frontier.Mainnet
