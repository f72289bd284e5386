import Verif.Genesis.Spec
import Verif.Hash.NoPanicProps
import Verif.Consensus.Props

/-!
# C86: genesis blocks
-/

namespace MinaRs.Genesis

open Json (J JErr Env)
open Text (Text)
open Hash GraphQL Spec

/-! ## Blocks from a configuration -/

/-- **C86.** A configuration gives the block that it describes, with the start values and the minimum window
density of full sub-windows, whenever that density fits 32 bits. -/
theorem C86_from_config (checks : Bool) (c : Config)
    (h : c.subWindowsPerWindow.toNat * c.constants.slotsPerSubWindow.toNat < 2 ^ 32) :
    ∃ s, fromConfig checks c = .ok s ∧
      GenesisOf c (c.subWindowsPerWindow.toNat * c.constants.slotsPerSubWindow.toNat) s := by
  refine ⟨_, by rw [fromConfig, mul32, if_pos h]; rfl, ⟨rfl, rfl, rfl, rfl, rfl, rfl⟩, ?_, rfl, rfl, rfl, rfl, rfl, rfl, rfl, rfl,
    rfl, rfl, rfl, rfl, rfl⟩
  show (c.subWindowsPerWindow * c.constants.slotsPerSubWindow).toNat = _
  rw [UInt32.toNat_mul, Nat.mod_eq_of_lt h]

/-- **C86.** When the density does not fit 32 bits, a build that checks overflow panics and another one silently
takes the low 32 bits. -/
theorem C86_density_overflow (c : Config)
    (h : 2 ^ 32 ≤ c.subWindowsPerWindow.toNat * c.constants.slotsPerSubWindow.toNat) :
    fromConfig true c = .error .panic ∧
    ∃ s, fromConfig false c = .ok s ∧
      GenesisOf c (c.subWindowsPerWindow.toNat * c.constants.slotsPerSubWindow.toNat % 2 ^ 32) s := by
  have hn : ¬ c.subWindowsPerWindow.toNat * c.constants.slotsPerSubWindow.toNat < 2 ^ 32 := by omega
  refine ⟨by rw [fromConfig, mul32, if_neg hn]; rfl, ?_⟩
  refine ⟨_, by rw [fromConfig, mul32, if_neg hn]; rfl, ⟨rfl, rfl, rfl, rfl, rfl, rfl⟩, ?_, rfl, rfl, rfl, rfl, rfl, rfl, rfl, rfl,
    rfl, rfl, rfl, rfl, rfl⟩
  show (c.subWindowsPerWindow * c.constants.slotsPerSubWindow).toNat = _
  rw [UInt32.toNat_mul]

/-! ## The shipped blocks -/

/-- Eleven sub-windows of seven slots fit, as does every configuration with fewer than 2^16 of each; 2^16 of each do not. -/
example (c : Config) (h : c.subWindowsPerWindow = 11) (h' : c.constants.slotsPerSubWindow = 7) :
    c.subWindowsPerWindow.toNat * c.constants.slotsPerSubWindow.toNat < 2 ^ 32 := by rw [h, h']; decide
example (c : Config) (h : c.subWindowsPerWindow = 65536) (h' : c.constants.slotsPerSubWindow = 65536) :
    fromConfig true c = .error .panic := (C86_density_overflow c (by rw [h, h']; decide)).1

/-- The mainnet genesis block that the library gives -/
def mainnetState (checks : Bool) : R ProtocolStateLegacy := do fromConfig checks (← mainnet (env checks))

def check {α : Type} (q : α → Bool) : R α → Bool
  | .ok a => q a
  | .error _ => false

theorem of_check {α : Type} {q : α → Prop} [DecidablePred q] {x : R α} (h : check (fun a => decide (q a)) x = true) :
    ∃ a, x = .ok a ∧ q a := by
  cases x with
  | error e => cases h
  | ok a => exact ⟨a, rfl, of_decide_eq_true h⟩

theorem hash_env (checks : Bool) (ver : UInt8) (s : Text) : hash (env checks) ver s = hash (env true) ver s := rfl
theorem byteHash_env (checks : Bool) (ver : UInt8) (s : Text) : byteHash (env checks) ver s = byteHash (env true) ver s := rfl
theorem vrf64_env (checks : Bool) (s : Text) : vrf64 (env checks) s = vrf64 (env true) s := rfl
theorem pubKey_env (checks : Bool) (s : Text) : pubKey (env checks) s = pubKey (env true) s := rfl
theorem fromUnixEpoch_small (checks : Bool) {ts : UInt64} (h : ts.toNat * 1000 < 2 ^ 64) :
    fromUnixEpoch checks ts = fromUnixEpoch true ts := by
  simp only [fromUnixEpoch, if_pos h]

/-- The build mode makes no difference. -/
theorem mainnet_env (checks : Bool) : mainnet (env checks) = mainnet (env true) := by
  unfold mainnet
  rw [show (env checks).checks = checks from rfl, show (env true).checks = true from rfl,
    fromUnixEpoch_small checks (by decide)]
  simp only [hash_env checks, byteHash_env checks, vrf64_env checks, pubKey_env checks]

theorem berkeley_env (checks : Bool) : berkeley (env checks) = berkeley (env true) := by
  unfold berkeley gen localState
  simp only [hash_env checks, byteHash_env checks, vrf64_env checks, pubKey_env checks]

theorem mainnet_facts' : ∃ c, mainnet (env true) = .ok c ∧
    (c.subWindowsPerWindow.toNat * c.constants.slotsPerSubWindow.toNat < 2 ^ 32 ∧
      ∃ s, fromConfig true c = .ok s ∧ (Mainnet s ∧ ∀ h ∈ stateHashesLegacy s, leNat h.bytes < p)) := by
  have : check (fun c => decide (c.subWindowsPerWindow.toNat * c.constants.slotsPerSubWindow.toNat < 2 ^ 32) &&
      check (fun s => decide (Mainnet s ∧ ∀ h ∈ stateHashesLegacy s, leNat h.bytes < p)) (fromConfig true c))
      (mainnet (env true)) = true := by decide +kernel
  cases h : mainnet (env true) with
  | error e => rw [h] at this; cases this
  | ok c =>
    rw [h] at this
    obtain ⟨h1, h2⟩ := Bool.and_eq_true_iff.1 this
    exact ⟨c, rfl, of_decide_eq_true h1, of_check h2⟩

theorem mainnet_facts (checks : Bool) : ∃ s, mainnetState checks = .ok s ∧
    (Mainnet s ∧ ∀ h ∈ stateHashesLegacy s, leNat h.bytes < p) := by
  obtain ⟨c, h1, h2, s, h3, h4⟩ := mainnet_facts'
  refine ⟨s, ?_, h4⟩
  unfold mainnetState
  rw [mainnet_env, h1]
  rw [← h3]
  show fromConfig checks c = fromConfig true c
  simp only [fromConfig, mul32, if_pos h2]

theorem berkeley_facts (checks : Bool) : ∃ s, berkeley (env checks) = .ok s ∧
    (Berkeley s ∧ ∀ h ∈ stateHashes s, leNat h.bytes < p) := by
  rw [berkeley_env]
  apply of_check
  decide +kernel

/-- **C86.** Every text hard-coded for the mainnet (and devnet) genesis block is well-formed, with the right
checksum, and is the text of the value in the block: building it never panics, and the block has the documented
values; its state hash can be computed. -/
theorem C86_mainnet (checks : Bool) : ∃ s, mainnetState checks = .ok s ∧ Mainnet s ∧
    ∀ H, ∃ f, s.stateHash H sha = .ok f := by
  obtain ⟨s, h1, h2, h3⟩ := mainnet_facts checks
  exact ⟨s, h1, h2, fun H => (C70_no_panic_iff H sha s).2 h3⟩

/-- **C86.** The same of the Berkeley genesis state. -/
theorem C86_berkeley (checks : Bool) : ∃ s, berkeley (env checks) = .ok s ∧ Berkeley s ∧
    ∀ H, ∃ f, s.stateHash H sha = .ok f := by
  obtain ⟨s, h1, h2, h3⟩ := berkeley_facts checks
  exact ⟨s, h1, h2, fun H => (C67_no_panic_iff H sha s).2 h3⟩

/-! ## Chains that start with a genesis block -/

variable {T : Type} (h : Consensus.Header T)

/-- **C86.** A genesis block of any configuration starts a chain of length one, at epoch slot zero, to which exactly
blocks of height two can be added. -/
theorem C86_starts_chain (g : T) (c : ConsensusState) (hc : Starts c) (he : c.currGlobalSlot.slotsPerEpoch ≠ 0)
    (hg : h.consensusState g = seen c) :
    Consensus.push h [] g = ([g], .ok ()) ∧ Consensus.length h [g] = 1 ∧ Consensus.epochSlot h [g] = .ok (some 0) ∧
    ∀ b, Consensus.push h [g] b =
      if (h.consensusState b).blockchainLength = 2 then ([g, b], .ok ()) else ([g], .error .invalidHeight) := by
  obtain ⟨h1, -, h3, -⟩ := hc
  refine ⟨rfl, ?_, ?_, fun b => ?_⟩
  · simp [Consensus.length, Consensus.consensusState, Consensus.top, hg, seen, h1]
  · have : c.currGlobalSlot.slotsPerEpoch.toNat ≠ 0 := fun e => he (UInt32.toNat_inj.1 e)
    simp only [Consensus.epochSlot, Consensus.globalSlot, Consensus.top, List.getLast?_singleton, Option.map_some, hg, seen,
      Consensus.rem32, h3, this, if_false]
    rfl
  · rw [Consensus.C30_push_rule_partial]
    · simp [Consensus.top, Consensus.Header.getHeight, hg, seen, h1]
    · intro last hl
      cases hl
      simp [Consensus.Header.getHeight, hg, seen, h1]

/-- **C86.** From the mainnet or Berkeley genesis block, every well-formed chain of the first epoch with the same staking
lock checkpoint and more than one block is selected, and no chain of one block replaces it unless its VRF digest
or state hash is greater. -/
theorem C86_selection (g : T) (c : ConsensusState) (hc : Starts c) (hw : Windows c) (hg : h.consensusState g = seen c)
    (cand : Consensus.Chain T) (t : T) (ht : Consensus.top cand = some t)
    (hwf : Consensus.Spec.WellFormed (h.consensusState t))
    (hs : (h.consensusState t).currGlobalSlot.slotsPerEpoch = 7140) (he : (h.consensusState t).epochCount = 0)
    (hl : (h.consensusState t).stakingEpochData.lockCheckpoint = c.stakingEpochData.lockCheckpoint.bytes) :
    ((h.consensusState t).blockchainLength > 1 → Consensus.selectSecureChain h [g] [cand] = (cand, .ok ())) ∧
    ((h.consensusState t).blockchainLength = 1 →
      h.digest (h.consensusState t).lastVrfOutput < h.digest c.lastVrfOutput →
      Consensus.selectSecureChain h [g] [cand] = ([g], .ok ())) := by
  obtain ⟨h1, h2, h3, -⟩ := hc
  obtain ⟨w1, w2, w3, -⟩ := hw
  have wg : Consensus.Spec.WellFormed (h.consensusState g) := by
    rw [hg]
    refine ⟨by simp only [seen, w3]; decide, by simp only [seen, h2]; decide, ?_⟩
    simp only [seen, w2]; decide
  have hsr : Consensus.Spec.ShortRange (h.consensusState g) (h.consensusState t) := by
    refine .inl ⟨?_, ?_⟩
    · rw [hg, he]; exact h2
    · rw [hg, hl]; rfl
  have key := Consensus.C35_selected_iff_preferred h [g] cand g t rfl ht wg hwf (by rw [hg]; exact w3) hs
    (by rw [hg]; simp only [seen, w2]; decide)
  have hk : (Consensus.Spec.key h g).length = 1 := by simp only [Consensus.Spec.key, hg, seen, h1]
  refine ⟨fun hgt => key.1 (.inl ⟨hsr, .inl ?_⟩), fun heq hlt => key.2 ?_⟩
  · rw [hk]; exact hgt
  · rintro (⟨-, hb⟩ | ⟨hn, -⟩)
    · rcases hb with hb | ⟨-, hb⟩
      · rw [hk] at hb; simp only [Consensus.Spec.key] at hb; omega
      · simp only [Consensus.Spec.key, hg, seen] at hb
        rcases hb with hb | ⟨hb, -⟩
        · exact List.lt_irrefl _ (List.lt_trans hlt hb)
        · rw [hb] at hlt; exact List.lt_irrefl _ hlt
    · exact hn hsr

/-- The genesis blocks that the library gives meet the conditions on the genesis block. -/
theorem C86_selection_applies (checks : Bool) :
    (∃ s, mainnetState checks = .ok s ∧ Starts s.body.consensusState ∧ Windows s.body.consensusState) ∧
    (∃ s, berkeley (env checks) = .ok s ∧ Starts s.body.consensusState ∧ Windows s.body.consensusState) := by
  obtain ⟨s, h1, ⟨-, -, -, -, -, -, -, -, -, -, h2, h3, -⟩, -⟩ := C86_mainnet checks
  obtain ⟨s', h1', ⟨-, -, -, -, -, -, -, -, -, -, -, -, -, -, -, -, -, -, -, -, h2', h3', -⟩, -⟩ := C86_berkeley checks
  exact ⟨⟨s, h1, h2, h3⟩, ⟨s', h1', h2', h3'⟩⟩

end MinaRs.Genesis
