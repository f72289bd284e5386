import Verif.Hash.StateSpec
import Verif.Hash.AccountProps
/-!
# C62, C66, C67: the hash inputs of VRF outputs and protocol states
-/

namespace MinaRs.Hash

open Spec Chunked

/-! ## C62: VRF outputs -/

theorem lowFive_length (b : UInt8) : (lowFive b).length = 5 := by simp [lowFive]

theorem bitsNat_lowFive (b : UInt8) : bitsNat (lowFive b) = b.toNat % 32 := by
  rw [lowFive, bitsNat_testBits]

theorem lowFive_eq {a b : UInt8} : lowFive a = lowFive b ↔ a.toNat % 32 = b.toNat % 32 := by
  rw [← bitsNat_lowFive, ← bitsNat_lowFive]
  exact ⟨fun h => by rw [h], fun h => bitsNat_inj (by rw [lowFive_length, lowFive_length]) h⟩

theorem vrfBits_length (v : Bytes) : (vrfBits v).length = if v.length ≤ 31 then 8 * v.length else 253 := by
  unfold vrfBits
  by_cases h : v.length ≤ 31
  · rw [if_pos h, if_pos h, bytesBits_length]
  · rw [if_neg h, if_neg h]
    simp only [List.length_append, bytesBits_length, lowFive_length, List.length_take]; omega

theorem vrfBits_eq {v w : Bytes} (hl : v.length = w.length) : vrfBits v = vrfBits w ↔ VrfAgree v w := by
  unfold vrfBits VrfAgree
  by_cases h : v.length ≤ 31
  · have hw : w.length ≤ 31 := hl ▸ h
    rw [if_pos h, if_pos hw, List.take_of_length_le h, List.take_of_length_le hw]
    constructor
    · intro e; have := bytesBits_inj e; simp [this]
    · rintro ⟨rfl, _⟩; rfl
  · have hw : ¬ w.length ≤ 31 := hl ▸ h
    rw [if_neg h, if_neg hw]
    constructor
    · intro e
      obtain ⟨e1, e2⟩ := List.append_inj e (by simp; omega)
      exact ⟨bytesBits_inj e1, lowFive_eq.1 e2⟩
    · rintro ⟨e1, e2⟩; rw [e1, lowFive_eq.2 e2]

/-- **C62.** Exactly which VRF outputs of the same length share a hash input: those that agree on the
first 31 bytes and the five low bits of the 32nd. -/
theorem C62_exact_partial (v w : Bytes) (hl : v.length = w.length) :
    (vrfLegacy v = vrfLegacy w ↔ VrfAgree v w) ∧
    ((vrfLegacy v).toFields = (vrfLegacy w).toFields ↔ VrfAgree v w) ∧
    (packFields (vrfChunked v) = packFields (vrfChunked w) ↔ VrfAgree v w) := by
  have h1 : vrfLegacy v = vrfLegacy w ↔ VrfAgree v w := by
    rw [← vrfBits_eq hl]; simp [vrfLegacy]
  have hl2 : (vrfBits v).length = (vrfBits w).length := by rw [vrfBits_length, vrfBits_length, hl]
  refine ⟨h1, ?_, ?_⟩
  · rw [← h1]
    exact ⟨fun h => Legacy.toFields_inj hl2 h, fun h => by rw [h]⟩
  · unfold vrfChunked
    rw [pack_eq_iff (shape_bools _) (hl2 ▸ shape_bools _) ⟨_, bools_eq _⟩, same_bools, vrfBits_eq hl]

theorem take31_ext {v w : Bytes} (hl : v.length = w.length) (h32 : v.length ≤ 32) (h : v.take 31 = w.take 31)
    (h2 : v.getD 31 0 = w.getD 31 0) : v = w := by
  apply List.ext_getElem? ; intro i
  rcases Nat.lt_trichotomy i 31 with hi | rfl | hi
  · have := congrArg (·[i]?) h
    simpa [List.getElem?_take, hi] using this
  · by_cases hv : 31 < v.length
    · have hw : 31 < w.length := hl ▸ hv
      simp only [List.getD_eq_getElem?_getD, List.getElem?_eq_getElem hv, List.getElem?_eq_getElem hw,
        Option.getD_some] at h2
      rw [List.getElem?_eq_getElem hv, List.getElem?_eq_getElem hw, h2]
    · rw [List.getElem?_eq_none (by omega), List.getElem?_eq_none (by omega)]
  · rw [List.getElem?_eq_none (by omega), List.getElem?_eq_none (by omega)]

/-- **C62.** Two outputs of the same length up to 31, or of 32 bytes holding 253 bits as truncated VRF
outputs do, are equal when their hash inputs are. Missing: longer outputs and outputs of 32 bytes
with one of the top three bits set. -/
theorem C62_distinguishes_partial (v w : Bytes)
    (h : (v.length ≤ 31 ∧ v.length = w.length) ∨ (Vrf253 v ∧ Vrf253 w))
    (he : (vrfLegacy v).toFields = (vrfLegacy w).toFields ∨
      packFields (vrfChunked v) = packFields (vrfChunked w)) : v = w := by
  have hl : v.length = w.length := by
    rcases h with h | h
    · exact h.2
    · rw [h.1.1, h.2.1]
  have ha : VrfAgree v w := by
    obtain ⟨_, h2, h3⟩ := C62_exact_partial v w hl
    exact he.elim h2.1 h3.1
  rcases h with ⟨h1, _⟩ | ⟨h1, h2⟩
  · have := ha.1
    rwa [List.take_of_length_le h1, List.take_of_length_le (hl ▸ h1)] at this
  · refine take31_ext hl (by rw [h1.1]; decide) ha.1 ?_
    have := ha.2
    rw [Nat.mod_eq_of_lt h1.2, Nat.mod_eq_of_lt h2.2] at this
    exact UInt8.toNat_inj.1 this

example : Vrf253 (List.replicate 31 7 ++ [31]) := ⟨by decide, by decide⟩

/-- **C62.** The top three bits of the 32nd byte are not hashed. -/
theorem C62_top_bits_fails :
    ∃ v w : Bytes, v.length = 32 ∧ w.length = 32 ∧ v ≠ w ∧
      vrfLegacy v = vrfLegacy w ∧ packFields (vrfChunked v) = packFields (vrfChunked w) := by
  refine ⟨List.replicate 32 0, List.replicate 31 0 ++ [32], by decide, by decide, by decide, ?_⟩
  obtain ⟨h1, _, h3⟩ := C62_exact_partial (List.replicate 32 0) (List.replicate 31 0 ++ [32]) (by decide)
  have : VrfAgree (List.replicate 32 0) (List.replicate 31 0 ++ [32]) := ⟨by decide, by decide⟩
  exact ⟨h1.2 this, h3.2 this⟩

/-- **C62** is false of every output of 32 bytes: another last byte with the same five low bits, of which there are seven, gives another
output with the same hash input. -/
theorem C62_every_output_fails (first : Bytes) (x y : UInt8) (hl : first.length = 31) (hxy : x ≠ y) (h5 : x.toNat % 32 = y.toNat % 32) :
    first ++ [x] ≠ first ++ [y] ∧ vrfLegacy (first ++ [x]) = vrfLegacy (first ++ [y]) ∧
      packFields (vrfChunked (first ++ [x])) = packFields (vrfChunked (first ++ [y])) := by
  obtain ⟨h1, _, h3⟩ := C62_exact_partial (first ++ [x]) (first ++ [y]) (by simp)
  have ha : VrfAgree (first ++ [x]) (first ++ [y]) := by
    refine ⟨?_, ?_⟩
    · rw [List.take_append_of_le_length (by omega), List.take_append_of_le_length (by omega)]
    · have hg : ∀ z : UInt8, (first ++ [z]).getD 31 0 = z := by
        intro z
        rw [List.getD_eq_getElem?_getD, List.getElem?_append_right (by omega), hl]
        rfl
      rw [hg, hg]
      exact h5
  refine ⟨?_, h1.2 ha, h3.2 ha⟩
  intro h
  exact hxy (List.singleton_inj.mp (List.append_cancel_left h))

example : (List.replicate 31 (7 : UInt8)).length = 31 ∧ (1 : UInt8) ≠ 0xE1 ∧ (1 : UInt8).toNat % 32 = (0xE1 : UInt8).toNat % 32 := by decide

/-! ## C66: protocol state bodies -/

theorem shape_vrf (v : Bytes) : Shape (vrfChunked v) 0 (List.replicate (vrfBits v).length 1) := shape_bools _

theorem same_vrf {v w : Bytes} (hl : v.length = w.length) : Same (vrfChunked v) (vrfChunked w) ↔ VrfAgree v w := by
  unfold vrfChunked; rw [same_bools, vrfBits_eq hl]

theorem shape_bytes (bs : Bytes) : Shape (bytes bs) 0 (List.replicate (8 * bs.length) 1) := by
  have := shape_bools (bytesBits bs)
  rwa [bytesBits_length] at this

theorem same_bytes {a b : Bytes} : Same (bytes a) (bytes b) ↔ a = b := by
  unfold bytes
  rw [same_bools]
  exact ⟨bytesBits_inj, fun h => by rw [h]⟩

theorem shape_epochLedger (e : EpochLedger) : Shape e.chunked 1 [64] :=
  Shape.cons (shape_b32 _) (Shape.cons (shape_u64 _) Shape.nil)

theorem same_epochLedger {a b : EpochLedger} (h : Same a.chunked b.chunked) : a = b := by
  obtain ⟨h1, h⟩ := Same.cons (shape_b32 _) (shape_b32 _) h
  obtain ⟨h2, _⟩ := Same.cons (shape_u64 _) (shape_u64 _) h
  have := same_b32 h1; have := same_u64.1 h2
  cases a; cases b; simp_all

theorem shape_epochData (e : EpochData) : Shape e.chunked 4 [32, 64] :=
  Shape.cons (shape_b32 _) (Shape.cons (shape_b32 _) (Shape.cons (shape_u32 _)
    (Shape.cons (shape_epochLedger _) (Shape.cons (shape_b32 _) Shape.nil))))

theorem same_epochData {a b : EpochData} (h : Same a.chunked b.chunked) : a = b := by
  obtain ⟨h1, h⟩ := Same.cons (shape_b32 _) (shape_b32 _) h
  obtain ⟨h2, h⟩ := Same.cons (shape_b32 _) (shape_b32 _) h
  obtain ⟨h3, h⟩ := Same.cons (shape_u32 _) (shape_u32 _) h
  obtain ⟨h4, h⟩ := Same.cons (shape_epochLedger _) (shape_epochLedger _) h
  obtain ⟨h5, _⟩ := Same.cons (shape_b32 _) (shape_b32 _) h
  have := same_b32 h1; have := same_b32 h2; have := same_u32.1 h3; have := same_epochLedger h4
  have := same_b32 h5
  cases a; cases b; simp_all

theorem shape_globalSlot (g : GlobalSlot) : Shape g.chunked 0 [32, 32] :=
  Shape.cons (shape_u32 _) (Shape.cons (shape_u32 _) Shape.nil)

theorem same_globalSlot {a b : GlobalSlot} (h : Same a.chunked b.chunked) : a = b := by
  obtain ⟨h1, h⟩ := Same.cons (shape_u32 _) (shape_u32 _) h
  obtain ⟨h2, _⟩ := Same.cons (shape_u32 _) (shape_u32 _) h
  have := same_u32.1 h1; have := same_u32.1 h2
  cases a; cases b; simp_all

theorem same_u32s {l k : List UInt32} (hl : l.length = k.length)
    (h : Same (build (l.map u32)) (build (k.map u32))) : l = k :=
  List.ext_getElem hl fun i h1 h2 => same_u32.1 (Same.map shape_u32 hl h i h1 h2)

theorem shape_u32s (l : List UInt32) : Shape (build (l.map u32)) 0 (List.replicate l.length 32) := by
  have := Shape.map shape_u32 l
  have e : (l.flatMap fun _ => [32]) = List.replicate l.length 32 := by
    clear this
    induction l with
    | nil => rfl
    | cons _ l ih => simp [List.replicate_succ, ih]
  rw [e, Nat.mul_zero] at this; exact this

/-- The widths of the pieces of a consensus state with `n` sub-windows and `m` VRF bits. -/
def consensusWidths (n m : Nat) : List Nat :=
  [32, 32, 32] ++ List.replicate n 32 ++
    (List.replicate m 1 ++ [64, 32, 32, 32, 1, 1, 32, 64, 32, 64, 1, 1, 1])

theorem shape_consensusTail (c : ConsensusState) :
    Shape (build [vrfChunked c.lastVrfOutput, Chunked.u64 c.totalCurrency, c.currGlobalSlot.chunked,
     Chunked.u32 c.globalSlotSinceGenesis, Chunked.bool c.hasAncestorInSameCheckpointWindow,
     Chunked.bool c.superchargeCoinbase, c.stakingEpochData.chunked, c.nextEpochData.chunked,
     c.blockStakeWinner.chunked, c.blockCreator.chunked, c.coinbaseReceiver.chunked]) 11
     (List.replicate (vrfBits c.lastVrfOutput).length 1 ++ [64, 32, 32, 32, 1, 1, 32, 64, 32, 64, 1, 1, 1]) :=
  Shape.cons (shape_vrf _) <| Shape.cons (shape_u64 _) <| Shape.cons (shape_globalSlot _) <|
  Shape.cons (shape_u32 _) <| Shape.cons (shape_bool _) <| Shape.cons (shape_bool _) <|
  Shape.cons (shape_epochData _) <| Shape.cons (shape_epochData _) <| Shape.cons (shape_pubKey _) <|
  Shape.cons (shape_pubKey _) <| Shape.cons (shape_pubKey _) Shape.nil

theorem shape_head3 (a b c : UInt32) : Shape (build [u32 a, u32 b, u32 c]) 0 [32, 32, 32] :=
  Shape.cons (shape_u32 _) (Shape.cons (shape_u32 _) (Shape.cons (shape_u32 _) Shape.nil))

theorem shape_consensus (c : ConsensusState) : Shape c.chunked 11
    (consensusWidths c.subWindowDensities.length (vrfBits c.lastVrfOutput).length) := by
  have := Shape.append (Shape.append (shape_head3 c.blockchainLength c.epochCount c.minWindowDensity)
    (shape_u32s c.subWindowDensities)) (shape_consensusTail c)
  simpa [ConsensusState.chunked, consensusWidths] using this

theorem same_consensus {a b : ConsensusState} (hn : a.subWindowDensities.length = b.subWindowDensities.length)
    (hv : a.lastVrfOutput.length = b.lastVrfOutput.length) (h : Same a.chunked b.chunked) : ConsensusAgree a b := by
  have hvl : (vrfBits a.lastVrfOutput).length = (vrfBits b.lastVrfOutput).length := by
    rw [vrfBits_length, vrfBits_length, hv]
  unfold ConsensusState.chunked at h
  obtain ⟨h0, h⟩ := Same.append (Shape.append (shape_head3 _ _ _) (shape_u32s _))
    (hn ▸ Shape.append (shape_head3 _ _ _) (shape_u32s _)) h
  obtain ⟨g0, g4⟩ := Same.append (shape_head3 _ _ _) (shape_head3 _ _ _) h0
  obtain ⟨g1, g⟩ := Same.cons (shape_u32 _) (shape_u32 _) g0
  obtain ⟨g2, g⟩ := Same.cons (shape_u32 _) (shape_u32 _) g
  obtain ⟨g3, _⟩ := Same.cons (shape_u32 _) (shape_u32 _) g
  obtain ⟨k1, h⟩ := Same.cons (shape_vrf _) (hvl ▸ shape_vrf _) h
  obtain ⟨k2, h⟩ := Same.cons (shape_u64 _) (shape_u64 _) h
  obtain ⟨k3, h⟩ := Same.cons (shape_globalSlot _) (shape_globalSlot _) h
  obtain ⟨k4, h⟩ := Same.cons (shape_u32 _) (shape_u32 _) h
  obtain ⟨k5, h⟩ := Same.cons (shape_bool _) (shape_bool _) h
  obtain ⟨k6, h⟩ := Same.cons (shape_bool _) (shape_bool _) h
  obtain ⟨k7, h⟩ := Same.cons (shape_epochData _) (shape_epochData _) h
  obtain ⟨k8, h⟩ := Same.cons (shape_epochData _) (shape_epochData _) h
  obtain ⟨k9, h⟩ := Same.cons (shape_pubKey _) (shape_pubKey _) h
  obtain ⟨k10, h⟩ := Same.cons (shape_pubKey _) (shape_pubKey _) h
  obtain ⟨k11, _⟩ := Same.cons (shape_pubKey _) (shape_pubKey _) h
  refine ⟨(same_vrf hv).1 k1, ?_⟩
  have := same_u32.1 g1; have := same_u32.1 g2; have := same_u32.1 g3; have := same_u32s hn g4
  have := same_u64.1 k2; have := same_globalSlot k3; have := same_u32.1 k4; have := same_bool.1 k5
  have := same_bool.1 k6; have := same_epochData k7; have := same_epochData k8; have := same_pubKey k9
  have := same_pubKey k10; have := same_pubKey k11
  cases a; cases b; simp_all

/-- The widths of 256 one-bit pieces. -/
@[irreducible] def w256 : List Nat := List.replicate 256 1

theorem shape_32bytes (x : B32) : Shape (bytes x.bytes) 0 w256 := by
  have := shape_bytes x.bytes
  rw [x.len] at this
  unfold w256; exact this

theorem shape_staged (sha : Bytes → B32) (s : StagedLedgerHash) :
    Shape (s.chunked sha) 1 (w256) := by
  have := Shape.cons (shape_32bytes (sha s.nonSnark.preimage))
    (Shape.cons (shape_b32 s.pendingCoinbaseHash) Shape.nil)
  simpa [StagedLedgerHash.chunked] using this

theorem same_staged (sha : Bytes → B32) {a b : StagedLedgerHash} (h : Same (a.chunked sha) (b.chunked sha)) :
    sha a.nonSnark.preimage = sha b.nonSnark.preimage ∧ a.pendingCoinbaseHash = b.pendingCoinbaseHash := by
  unfold StagedLedgerHash.chunked at h
  obtain ⟨h1, h⟩ := Same.cons (shape_32bytes _) (shape_32bytes _) h
  obtain ⟨h2, _⟩ := Same.cons (shape_b32 _) (shape_b32 _) h
  refine ⟨?_, same_b32 h2⟩
  have := same_bytes.1 h1
  exact B32.ext_leNat (by rw [this])

theorem shape_localState (l : LocalState) : Shape l.chunked 6 [64, 1, 32, 1] :=
  Shape.cons (shape_b32 _) <| Shape.cons (shape_b32 _) <| Shape.cons (shape_b32 _) <|
  Shape.cons (shape_b32 _) <| Shape.cons (shape_tokenId _) <|
  Shape.cons (Shape.cons (shape_u64 _) (Shape.cons (shape_bool _) Shape.nil)) <|
  Shape.cons (shape_b32 _) <| Shape.cons (shape_u32 _) <| Shape.cons (shape_bool _) Shape.nil

theorem same_localState {a b : LocalState} (h : Same a.chunked b.chunked) :
    a = { b with failureStatusTbl := a.failureStatusTbl } := by
  obtain ⟨h1, h⟩ := Same.cons (shape_b32 _) (shape_b32 _) h
  obtain ⟨h2, h⟩ := Same.cons (shape_b32 _) (shape_b32 _) h
  obtain ⟨h3, h⟩ := Same.cons (shape_b32 _) (shape_b32 _) h
  obtain ⟨h4, h⟩ := Same.cons (shape_b32 _) (shape_b32 _) h
  obtain ⟨h5, h⟩ := Same.cons (shape_tokenId _) (shape_tokenId _) h
  have e : ∀ (x : UInt64) (b : Bool), Shape (build [u64 x, bool b]) 0 [64, 1] :=
    fun x b => Shape.cons (shape_u64 _) (Shape.cons (shape_bool _) Shape.nil)
  obtain ⟨h6, h⟩ := Same.cons (e _ _) (e _ _) h
  obtain ⟨h7, h⟩ := Same.cons (shape_b32 _) (shape_b32 _) h
  obtain ⟨h8, h⟩ := Same.cons (shape_u32 _) (shape_u32 _) h
  obtain ⟨h9, _⟩ := Same.cons (shape_bool _) (shape_bool _) h
  obtain ⟨k1, k⟩ := Same.cons (shape_u64 _) (shape_u64 _) h6
  obtain ⟨k2, _⟩ := Same.cons (shape_bool _) (shape_bool _) k
  have := same_b32 h1; have := same_b32 h2; have := same_b32 h3; have := same_b32 h4
  have := same_tokenId h5; have := same_u64.1 k1; have := same_bool.1 k2; have := same_b32 h7
  have := same_u32.1 h8; have := same_bool.1 h9
  obtain ⟨_, _, _, _, _, ⟨_, _⟩, _, _, _, _⟩ := a
  obtain ⟨_, _, _, _, _, ⟨_, _⟩, _, _, _, _⟩ := b
  simp_all

theorem shape_registers (r : Registers) : Shape r.chunked 7 [64, 1, 32, 1] :=
  Shape.cons (shape_b32 _) <| Shape.cons (shape_localState _) Shape.nil

theorem shape_blockchainState (sha : Bytes → B32) (b : BlockchainState) : Shape (b.chunked sha) 9
    (w256 ++ ([64, 1, 32, 1] ++ ([64] ++ (w256)))) := by
  have := Shape.cons (shape_staged sha b.stagedLedgerHash) <| Shape.cons (shape_b32 b.genesisLedgerHash) <|
    Shape.cons (shape_registers b.registers) <| Shape.cons (shape_u64 b.timestamp) <|
    Shape.cons (shape_32bytes b.bodyReference) Shape.nil
  simpa [BlockchainState.chunked] using this

theorem same_blockchainState (sha : Bytes → B32) {a b : BlockchainState} (h : Same (a.chunked sha) (b.chunked sha)) :
    sha a.stagedLedgerHash.nonSnark.preimage = sha b.stagedLedgerHash.nonSnark.preimage ∧
    a.stagedLedgerHash.pendingCoinbaseHash = b.stagedLedgerHash.pendingCoinbaseHash ∧
    a.genesisLedgerHash = b.genesisLedgerHash ∧ a.registers.ledger = b.registers.ledger ∧
    a.registers.localState = { b.registers.localState with
      failureStatusTbl := a.registers.localState.failureStatusTbl } ∧
    a.timestamp = b.timestamp ∧ a.bodyReference = b.bodyReference := by
  unfold BlockchainState.chunked at h
  obtain ⟨h1, h⟩ := Same.cons (shape_staged sha _) (shape_staged sha _) h
  obtain ⟨h2, h⟩ := Same.cons (shape_b32 _) (shape_b32 _) h
  obtain ⟨h3, h⟩ := Same.cons (shape_registers _) (shape_registers _) h
  obtain ⟨h4, h⟩ := Same.cons (shape_u64 _) (shape_u64 _) h
  obtain ⟨h5, _⟩ := Same.cons (shape_32bytes _) (shape_32bytes _) h
  unfold Registers.chunked at h3
  obtain ⟨k1, k⟩ := Same.cons (shape_b32 _) (shape_b32 _) h3
  obtain ⟨k2, _⟩ := Same.cons (shape_localState _) (shape_localState _) k
  obtain ⟨g1, g2⟩ := same_staged sha h1
  exact ⟨g1, g2, same_b32 h2, same_b32 k1, same_localState k2, same_u64.1 h4,
    B32.ext_leNat (by rw [same_bytes.1 h5])⟩

theorem shape_constants (c : Constants) : Shape c.chunked 0 [32, 32, 32, 32, 64] :=
  Shape.cons (shape_u32 _) <| Shape.cons (shape_u32 _) <| Shape.cons (shape_u32 _) <|
  Shape.cons (shape_u32 _) <| Shape.cons (shape_u64 _) Shape.nil

theorem same_constants {a b : Constants} (h : Same a.chunked b.chunked) : a = b := by
  obtain ⟨h1, h⟩ := Same.cons (shape_u32 _) (shape_u32 _) h
  obtain ⟨h2, h⟩ := Same.cons (shape_u32 _) (shape_u32 _) h
  obtain ⟨h3, h⟩ := Same.cons (shape_u32 _) (shape_u32 _) h
  obtain ⟨h4, h⟩ := Same.cons (shape_u32 _) (shape_u32 _) h
  obtain ⟨h5, _⟩ := Same.cons (shape_u64 _) (shape_u64 _) h
  have := same_u32.1 h1; have := same_u32.1 h2; have := same_u32.1 h3; have := same_u32.1 h4
  have := same_u64.1 h5
  cases a; cases b; simp_all

/-- The widths of the pieces of a body with `n` sub-windows and `m` VRF bits. -/
def bodyWidths (n m : Nat) : List Nat :=
  [32, 32, 32, 32, 64] ++ ((w256 ++ ([64, 1, 32, 1] ++ ([64] ++ (w256)))) ++
    consensusWidths n m)

theorem shape_body (sha : Bytes → B32) (b : Body) : Shape (b.chunked sha) 21
    (bodyWidths b.consensusState.subWindowDensities.length (vrfBits b.consensusState.lastVrfOutput).length) := by
  have := Shape.cons (shape_constants b.constants) <| Shape.cons (shape_b32 b.genesisStateHash) <|
    Shape.cons (shape_blockchainState sha b.blockchainState) <|
    Shape.cons (shape_consensus b.consensusState) Shape.nil
  simpa [Body.chunked, bodyWidths] using this

/-- The bytes under the staged ledger digest determine the three hashes, when the auxiliary ones have
the right length. -/
theorem preimage_inj {a b : NonSnark} (ha : a.auxHash.length = 32) (hb : b.auxHash.length = 32)
    (h : a.preimage = b.preimage) : a = b := by
  unfold NonSnark.preimage at h
  rw [List.append_assoc, List.append_assoc] at h
  obtain ⟨h1, h2⟩ := List.append_inj h (by simp [a.ledgerHash.len, b.ledgerHash.len])
  obtain ⟨h3, h4⟩ := List.append_inj h2 (by rw [ha, hb])
  have h5 : a.ledgerHash = b.ledgerHash := B32.ext_leNat (by rw [List.reverse_inj.1 h1])
  cases a; cases b; simp_all

/-- **C66.** Two protocol state bodies with the same numbers of sub-windows and VRF bytes and the same
hash input are equal, up to the unhashed bits of the VRF output, the unhashed failure table, and what
SHA-256 identifies in the staged ledger hash. -/
theorem C66_exact_partial (sha : Bytes → B32) (a b : Body)
    (hn : a.consensusState.subWindowDensities.length = b.consensusState.subWindowDensities.length)
    (hv : a.consensusState.lastVrfOutput.length = b.consensusState.lastVrfOutput.length)
    (r : List Fp) (h1 : packFields (a.chunked sha) = .ok r) (h2 : packFields (b.chunked sha) = .ok r) :
    a.constants = b.constants ∧ a.genesisStateHash = b.genesisStateHash ∧
    ConsensusAgree a.consensusState b.consensusState ∧
    sha a.blockchainState.stagedLedgerHash.nonSnark.preimage =
      sha b.blockchainState.stagedLedgerHash.nonSnark.preimage ∧
    a.blockchainState.stagedLedgerHash.pendingCoinbaseHash =
      b.blockchainState.stagedLedgerHash.pendingCoinbaseHash ∧
    a.blockchainState.genesisLedgerHash = b.blockchainState.genesisLedgerHash ∧
    a.blockchainState.registers.ledger = b.blockchainState.registers.ledger ∧
    a.blockchainState.registers.localState = { b.blockchainState.registers.localState with
      failureStatusTbl := a.blockchainState.registers.localState.failureStatusTbl } ∧
    a.blockchainState.timestamp = b.blockchainState.timestamp ∧
    a.blockchainState.bodyReference = b.blockchainState.bodyReference := by
  have hvl : (vrfBits a.consensusState.lastVrfOutput).length = (vrfBits b.consensusState.lastVrfOutput).length := by
    rw [vrfBits_length, vrfBits_length, hv]
  have sb := shape_body sha b
  rw [← hn, ← hvl] at sb
  have h := (shape_body sha a).unpack sb h1 h2
  unfold Body.chunked at h
  obtain ⟨k1, h⟩ := Same.cons (shape_constants _) (shape_constants _) h
  obtain ⟨k2, h⟩ := Same.cons (shape_b32 _) (shape_b32 _) h
  obtain ⟨k3, h⟩ := Same.cons (shape_blockchainState sha _) (shape_blockchainState sha _) h
  have sc := shape_consensus b.consensusState
  rw [← hn, ← hvl] at sc
  obtain ⟨k4, _⟩ := Same.cons (shape_consensus _) sc h
  exact ⟨same_constants k1, same_b32 k2, same_consensus hn hv k4, same_blockchainState sha k3⟩

theorem blockchainState_ext {a b : BlockchainState}
    (h1 : a.stagedLedgerHash.nonSnark = b.stagedLedgerHash.nonSnark)
    (h2 : a.stagedLedgerHash.pendingCoinbaseHash = b.stagedLedgerHash.pendingCoinbaseHash)
    (h3 : a.genesisLedgerHash = b.genesisLedgerHash) (h4 : a.registers.ledger = b.registers.ledger)
    (h5 : a.registers.localState = b.registers.localState) (h6 : a.timestamp = b.timestamp)
    (h7 : a.bodyReference = b.bodyReference) : a = b := by
  obtain ⟨⟨_, _⟩, _, ⟨_, _⟩, _, _⟩ := a
  obtain ⟨⟨_, _⟩, _, ⟨_, _⟩, _, _⟩ := b
  simp_all

/-- **C66.** Bodies as in real blocks are told apart by their hash input, unless SHA-256 collides on
the two staged ledger hashes. Missing: bodies with other numbers of sub-windows or VRF bytes. -/
theorem C66_distinguishes_partial (sha : Bytes → B32) (a b : Body) (ha : RealBody a) (hb : RealBody b)
    (hsha : sha a.blockchainState.stagedLedgerHash.nonSnark.preimage =
      sha b.blockchainState.stagedLedgerHash.nonSnark.preimage →
      a.blockchainState.stagedLedgerHash.nonSnark.preimage = b.blockchainState.stagedLedgerHash.nonSnark.preimage)
    (r : List Fp) (h1 : packFields (a.chunked sha) = .ok r) (h2 : packFields (b.chunked sha) = .ok r) :
    a = b := by
  obtain ⟨e1, e2, e3, e4, e5, e6, e7, e8, e9, e10⟩ := C66_exact_partial sha a b
    (ha.windows.trans hb.windows.symm) (ha.vrf.1.trans hb.vrf.1.symm) r h1 h2
  have f1 := preimage_inj ha.aux.1 hb.aux.1 (hsha e4)
  have f2 : a.consensusState.lastVrfOutput = b.consensusState.lastVrfOutput := by
    refine take31_ext (ha.vrf.1.trans hb.vrf.1.symm) (by rw [ha.vrf.1]; decide) e3.1.1 ?_
    have := e3.1.2
    rw [Nat.mod_eq_of_lt ha.vrf.2, Nat.mod_eq_of_lt hb.vrf.2] at this
    exact UInt8.toNat_inj.1 this
  have f3 : a.consensusState = b.consensusState := by rw [e3.2, f2]
  have f4 : a.blockchainState.registers.localState = b.blockchainState.registers.localState := by
    rw [e8, ha.failures, ← hb.failures]
  have f5 := blockchainState_ext f1 e5 e6 e7 f4 e9 e10
  clear e3 e8 h1 h2 hsha ha hb e4
  cases a; cases b; simp_all

theorem shape_protocolState (H : String → List Fp → Fp) (sha : Bytes → B32) (s : ProtocolState) :
    Shape (s.chunked H sha) 2 [] := by
  intro c h
  unfold ProtocolState.chunked at h
  cases e : hashChunked H "CodaProtoStateBody" (s.body.chunked sha) with
  | error x => rw [e] at h; exact nomatch h
  | ok f => rw [e] at h; exact Shape.cons (shape_b32 _) (Shape.cons (shape_field f) Shape.nil) c h

theorem hashChunked_eq_ok {H : String → List Fp → Fp} {d : String} {x : M Chunked} {f : Fp} :
    hashChunked H d x = .ok f ↔ ∃ r, packFields x = .ok r ∧ f = H d r := by
  unfold hashChunked packFields
  cases x with
  | error e => simp [bind, Except.bind]
  | ok c =>
    simp only [bind, Except.bind, pure, Except.pure]
    cases c.intoFields with
    | error e => simp
    | ok r => simp [eq_comm]

/-- **C67.** The state hash commits to the previous state hash and the whole body: two states as in
real blocks with the same state hash are equal, unless Poseidon collides on the two inputs it is
given for the states or for their bodies, or SHA-256 on the two staged ledger hashes. -/
theorem C67_state_hash_commits (H : String → List Fp → Fp) (sha : Bytes → B32) (a b : ProtocolState) (f : Fp)
    (ha : RealBody a.body) (hb : RealBody b.body)
    (hsha : sha a.body.blockchainState.stagedLedgerHash.nonSnark.preimage =
        sha b.body.blockchainState.stagedLedgerHash.nonSnark.preimage →
      a.body.blockchainState.stagedLedgerHash.nonSnark.preimage =
        b.body.blockchainState.stagedLedgerHash.nonSnark.preimage)
    (hH : ∀ x y, packFields (a.chunked H sha) = .ok x → packFields (b.chunked H sha) = .ok y →
      H "CodaProtoState" x = H "CodaProtoState" y → x = y)
    (hB : ∀ x y, packFields (a.body.chunked sha) = .ok x → packFields (b.body.chunked sha) = .ok y →
      H "CodaProtoStateBody" x = H "CodaProtoStateBody" y → x = y)
    (h1 : a.stateHash H sha = .ok f) (h2 : b.stateHash H sha = .ok f) : a = b := by
  obtain ⟨x, hx, e1⟩ := hashChunked_eq_ok.1 h1
  obtain ⟨y, hy, e2⟩ := hashChunked_eq_ok.1 h2
  have hxy := hH x y hx hy (e1 ▸ e2)
  subst hxy
  obtain ⟨c, g1, g2⟩ := (shape_protocolState H sha a).unpack (shape_protocolState H sha b) hx hy
  unfold ProtocolState.chunked at g1 g2
  cases u : hashChunked H "CodaProtoStateBody" (a.body.chunked sha) with
  | error e => rw [u] at g1; exact nomatch g1
  | ok fa =>
    cases v : hashChunked H "CodaProtoStateBody" (b.body.chunked sha) with
    | error e => rw [v] at g2; exact nomatch g2
    | ok fb =>
      rw [u] at g1; rw [v] at g2
      obtain ⟨k1, k⟩ := Same.cons (shape_b32 _) (shape_b32 _) ⟨c, g1, g2⟩
      obtain ⟨k2, _⟩ := Same.cons (shape_field _) (shape_field _) k
      obtain ⟨ra, ua, va⟩ := hashChunked_eq_ok.1 u
      obtain ⟨rb, ub, vb⟩ := hashChunked_eq_ok.1 v
      have := hB ra rb ua ub (by rw [← va, ← vb]; exact same_field k2)
      subst this
      have hbody := C66_distinguishes_partial sha a.body b.body ha hb hsha ra ua ub
      have hprev := same_b32 k1
      cases a; cases b; simp_all

/-! ### A concrete state, and collisions -/

def sampleEpoch : EpochData := ⟨⟨zero32, 5⟩, zero32, zero32, zero32, 9⟩

def sampleConsensus : ConsensusState :=
  ⟨1, 2, 3, [1, 7, 7, 7, 7, 7, 7, 7, 7, 7, 7], List.replicate 31 7 ++ [31], 100, ⟨8, 7140⟩, 8, sampleEpoch, sampleEpoch,
    true, ⟨5, true⟩, ⟨6, false⟩, ⟨7, true⟩, false⟩

def sampleBody : Body :=
  ⟨zero32, ⟨⟨⟨zero32, List.replicate 32 1, List.replicate 32 2⟩, zero32⟩, zero32,
      ⟨zero32, ⟨zero32, zero32, zero32, zero32, 1, (0, true), zero32, true, 0, 0⟩⟩, 77, ones32⟩,
    sampleConsensus, ⟨290, 7140, 7, 0, 1655755201000⟩⟩

example : RealBody sampleBody := ⟨⟨by decide, by decide⟩, by decide, ⟨by decide, by decide⟩, rfl⟩

/-- The sample is hashed without a panic, so the hypotheses of C66 and C67 are met by it. -/
example : ∃ r, packFields (sampleBody.chunked fun _ => zero32) = .ok r := by
  have h : (sampleBody.chunked fun _ => zero32).isOk = true := by decide +kernel
  cases e : sampleBody.chunked fun _ => zero32 with
  | error x => rw [e] at h; exact nomatch h
  | ok c => rw [← e]; exact (shape_body _ sampleBody).pack_ok e

/-- **C66.** Neither the number of sub-windows nor the length of the VRF output is hashed: a state with
one more sub-window shares its hash input with one whose VRF output is four bytes longer. -/
theorem C66_lengths_fails :
    let a := { sampleConsensus with subWindowDensities := [0x01020304], lastVrfOutput := [] }
    let b := { sampleConsensus with
      subWindowDensities := [], lastVrfOutput := [0x80, 0x40, 0xc0, 0x20] }
    a ≠ b ∧ packFields a.chunked = packFields b.chunked ∧ (packFields a.chunked).isOk ∧
    (let A := { sampleBody with consensusState := a }
     let B := { sampleBody with consensusState := b }
     packFields (A.chunked fun _ => zero32) = packFields (B.chunked fun _ => zero32) ∧
       (packFields (A.chunked fun _ => zero32)).isOk) := by
  refine ⟨by decide, by decide +kernel, by decide +kernel, by decide +kernel, by decide +kernel⟩

/-- **C66.** The failure table of the local state is not hashed. -/
theorem C66_failure_table_fails (sha : Bytes → B32) (b : Body) :
    let ls := b.blockchainState.registers.localState
    let b' := { b with blockchainState := { b.blockchainState with registers :=
      { b.blockchainState.registers with localState := { ls with failureStatusTbl := ls.failureStatusTbl + 1 } } } }
    b' ≠ b ∧ b'.chunked sha = b.chunked sha := by
  refine ⟨fun h => ?_, rfl⟩
  have := congrArg (fun b => b.blockchainState.registers.localState.failureStatusTbl) h
  simp at this

end MinaRs.Hash
