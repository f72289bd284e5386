import Verif.Hash.LegacyState
import Verif.Hash.StateProps
import Verif.Hash.CommandProps
/-!
# C70, C71: the hash inputs of legacy protocol states and accounts
-/

namespace MinaRs.Hash

open Spec

namespace Spec

/-- A legacy body as in a real mainnet block. -/
structure RealBodyLegacy (b : BodyLegacy) : Prop where
  vrf : Vrf253 b.consensusState.lastVrfOutput
  windows : b.consensusState.subWindowDensities.length = 11
  aux : AuxSized b.blockchainState.stagedLedgerHash

end Spec

/-! ## Shapes of legacy inputs -/

/-- Whenever `x` is an input, it has `nf` fields and `nb` bits. -/
def LShape (x : M Legacy) (nf nb : Nat) : Prop :=
  ∀ c, x = .ok c → c.fields.length = nf ∧ c.bits.length = nb

/-- Both succeed and give the same input. -/
def LSame (x y : M Legacy) : Prop := ∃ c, x = .ok c ∧ y = .ok c

theorem buildL_split {x : M Legacy} {xs : List (M Legacy)} {c : Legacy} (h : buildL (x :: xs) = .ok c) :
    ∃ a b, x = .ok a ∧ buildL xs = .ok b ∧ c = a.append b := by
  unfold buildL at h
  cases x with
  | error e => exact nomatch h
  | ok a =>
    simp only [bind, Except.bind] at h
    cases e : buildL xs with
    | error e' => rw [e] at h; exact nomatch h
    | ok b => rw [e] at h; exact ⟨a, b, rfl, rfl, (Except.ok.inj h).symm⟩

theorem LShape.nil : LShape (buildL []) 0 0 := by
  intro c h; cases Except.ok.inj h; exact ⟨rfl, rfl⟩

theorem LShape.cons {x : M Legacy} {xs : List (M Legacy)} {n m k l : Nat}
    (h1 : LShape x n k) (h2 : LShape (buildL xs) m l) : LShape (buildL (x :: xs)) (n + m) (k + l) := by
  intro c h
  obtain ⟨a, b, e1, e2, rfl⟩ := buildL_split h
  obtain ⟨a1, a2⟩ := h1 _ e1
  obtain ⟨b1, b2⟩ := h2 _ e2
  exact ⟨by simp [Legacy.append, a1, b1], by simp [Legacy.append, a2, b2]⟩

theorem LSame.cons {x y : M Legacy} {xs ys : List (M Legacy)} {n k : Nat}
    (hx : LShape x n k) (hy : LShape y n k) (h : LSame (buildL (x :: xs)) (buildL (y :: ys))) :
    LSame x y ∧ LSame (buildL xs) (buildL ys) := by
  obtain ⟨c, h1, h2⟩ := h
  obtain ⟨a1, b1, e1, f1, rfl⟩ := buildL_split h1
  obtain ⟨a2, b2, e2, f2, g⟩ := buildL_split h2
  obtain ⟨l1, l2⟩ := hx _ e1
  obtain ⟨l3, l4⟩ := hy _ e2
  simp only [Legacy.append, Legacy.mk.injEq] at g
  obtain ⟨g1, g2⟩ := List.append_inj g.1 (by rw [l1, l3])
  obtain ⟨g3, g4⟩ := List.append_inj g.2 (by rw [l2, l4])
  have ha : a1 = a2 := by cases a1; cases a2; simp_all
  have hb : b1 = b2 := by cases b1; cases b2; simp_all
  subst ha; subst hb
  exact ⟨⟨_, e1, e2⟩, ⟨_, f1, f2⟩⟩

/-- The packed fields of a legacy input. -/
def packLegacy (x : M Legacy) : M (List Fp) := do
  let c ← x
  pure c.toFields

theorem LShape.unpack {x y : M Legacy} {n m k : Nat} (hx : LShape x n k) (hy : LShape y m k) {r : List Fp}
    (h1 : packLegacy x = .ok r) (h2 : packLegacy y = .ok r) : LSame x y := by
  cases x with
  | error e => exact nomatch h1
  | ok a =>
    cases y with
    | error e => exact nomatch h2
    | ok b =>
      have e1 : a.toFields = r := Except.ok.inj h1
      have e2 : b.toFields = r := Except.ok.inj h2
      have := Legacy.toFields_inj ((hx a rfl).2.trans (hy b rfl).2.symm) (e1.trans e2.symm)
      subst this
      exact ⟨_, rfl, rfl⟩

theorem lshape_ok {c : Legacy} {n k : Nat} (h : c.fields.length = n ∧ c.bits.length = k) : LShape (.ok c) n k := by
  intro d e; cases Except.ok.inj e; exact h

theorem lshape_u32 (x : UInt32) : LShape (.ok (Legacy.u32 x)) 0 32 :=
  lshape_ok ⟨rfl, by simp [Legacy.u32, Legacy.bytes, bytesBits_length]⟩
theorem lshape_u64 (x : UInt64) : LShape (.ok (Legacy.u64 x)) 0 64 :=
  lshape_ok ⟨rfl, by simp [Legacy.u64, Legacy.bytes, bytesBits_length]⟩
theorem lshape_bool (b : Bool) : LShape (.ok (Legacy.bool b)) 0 1 := lshape_ok ⟨rfl, rfl⟩
theorem lshape_field (f : Fp) : LShape (.ok (Legacy.field f)) 1 0 := lshape_ok ⟨rfl, rfl⟩
theorem lshape_vrf (v : Bytes) : LShape (.ok (vrfLegacy v)) 0 (vrfBits v).length := lshape_ok ⟨rfl, rfl⟩
theorem lshape_32bytes (h : B32) : LShape (.ok (Legacy.bytes h.bytes)) 0 256 :=
  lshape_ok ⟨rfl, by simp [Legacy.bytes, bytesBits_length, h.len]⟩

theorem b32_legacy_eq_ok {h : B32} {c : Legacy} : h.legacy = .ok c ↔
    ∃ f : Fp, f.val = leNat h.bytes ∧ c = Legacy.field f := by
  unfold B32.legacy
  simp only [bind, Except.bind, pure, Except.pure]
  cases e : h.toFp with
  | error x =>
    simp only [reduceCtorEq, false_iff, not_exists, not_and]
    intro f hf _
    rw [toFp_eq_ok.2 hf] at e; exact nomatch e
  | ok f =>
    have := toFp_eq_ok.1 e
    constructor
    · intro h; exact ⟨f, this, (Except.ok.inj h).symm⟩
    · rintro ⟨g, hg, rfl⟩
      have : f = g := Fin.ext (by rw [this, hg])
      rw [this]

theorem lshape_b32 (h : B32) : LShape h.legacy 1 0 := by
  intro c e
  obtain ⟨f, _, rfl⟩ := b32_legacy_eq_ok.1 e
  exact ⟨rfl, rfl⟩

theorem lsame_ok {a b : Legacy} (h : LSame (.ok a) (.ok b)) : a = b := by
  obtain ⟨c, h1, h2⟩ := h
  rw [Except.ok.inj h1, Except.ok.inj h2]

theorem lsame_u32 {a b : UInt32} (h : LSame (.ok (Legacy.u32 a)) (.ok (Legacy.u32 b))) : a = b :=
  u32bits_inj (congrArg Legacy.bits (lsame_ok h))
theorem lsame_u64 {a b : UInt64} (h : LSame (.ok (Legacy.u64 a)) (.ok (Legacy.u64 b))) : a = b :=
  u64bits_inj (congrArg Legacy.bits (lsame_ok h))
theorem lsame_bool {a b : Bool} (h : LSame (.ok (Legacy.bool a)) (.ok (Legacy.bool b))) : a = b :=
  (List.cons.inj (congrArg Legacy.bits (lsame_ok h))).1
theorem lsame_field {a b : Fp} (h : LSame (.ok (Legacy.field a)) (.ok (Legacy.field b))) : a = b :=
  (List.cons.inj (congrArg Legacy.fields (lsame_ok h))).1
theorem lsame_32bytes {a b : B32} (h : LSame (.ok (Legacy.bytes a.bytes)) (.ok (Legacy.bytes b.bytes))) : a = b :=
  B32.ext_leNat (by rw [bytesBits_inj (congrArg Legacy.bits (lsame_ok h))])
theorem lsame_vrf {a b : Bytes} (hl : a.length = b.length) (h : LSame (.ok (vrfLegacy a)) (.ok (vrfLegacy b))) :
    VrfAgree a b := (vrfBits_eq hl).1 (congrArg Legacy.bits (lsame_ok h))
theorem lsame_b32 {a b : B32} (h : LSame a.legacy b.legacy) : a = b := by
  obtain ⟨c, h1, h2⟩ := h
  obtain ⟨f, hf, rfl⟩ := b32_legacy_eq_ok.1 h1
  obtain ⟨g, hg, e⟩ := b32_legacy_eq_ok.1 h2
  have : f = g := (List.cons.inj (congrArg Legacy.fields e)).1
  exact B32.ext_leNat (by rw [← hf, ← hg, this])

/-! ## Components -/

theorem lshape_epochLedger (e : EpochLedger) : LShape e.legacy 1 64 :=
  LShape.cons (lshape_b32 _) (LShape.cons (lshape_u64 _) LShape.nil)

theorem lsame_epochLedger {a b : EpochLedger} (h : LSame a.legacy b.legacy) : a = b := by
  obtain ⟨h1, h⟩ := LSame.cons (lshape_b32 _) (lshape_b32 _) h
  obtain ⟨h2, _⟩ := LSame.cons (lshape_u64 _) (lshape_u64 _) h
  have := lsame_b32 h1; have := lsame_u64 h2
  cases a; cases b; simp_all

theorem lshape_epochData (e : EpochData) : LShape e.legacy 4 96 :=
  LShape.cons (lshape_b32 _) (LShape.cons (lshape_b32 _) (LShape.cons (lshape_u32 _)
    (LShape.cons (lshape_epochLedger _) (LShape.cons (lshape_b32 _) LShape.nil))))

theorem lsame_epochData {a b : EpochData} (h : LSame a.legacy b.legacy) : a = b := by
  obtain ⟨h1, h⟩ := LSame.cons (lshape_b32 _) (lshape_b32 _) h
  obtain ⟨h2, h⟩ := LSame.cons (lshape_b32 _) (lshape_b32 _) h
  obtain ⟨h3, h⟩ := LSame.cons (lshape_u32 _) (lshape_u32 _) h
  obtain ⟨h4, h⟩ := LSame.cons (lshape_epochLedger _) (lshape_epochLedger _) h
  obtain ⟨h5, _⟩ := LSame.cons (lshape_b32 _) (lshape_b32 _) h
  have := lsame_b32 h1; have := lsame_b32 h2; have := lsame_u32 h3; have := lsame_epochLedger h4
  have := lsame_b32 h5
  cases a; cases b; simp_all

theorem lshape_globalSlot (g : GlobalSlot) : LShape g.legacy 0 64 :=
  LShape.cons (lshape_u32 _) (LShape.cons (lshape_u32 _) LShape.nil)

theorem lsame_globalSlot {a b : GlobalSlot} (h : LSame a.legacy b.legacy) : a = b := by
  obtain ⟨h1, h⟩ := LSame.cons (lshape_u32 _) (lshape_u32 _) h
  obtain ⟨h2, _⟩ := LSame.cons (lshape_u32 _) (lshape_u32 _) h
  have := lsame_u32 h1; have := lsame_u32 h2
  cases a; cases b; simp_all

theorem lshape_windows : ∀ (l : List UInt32) (xs : List (M Legacy)) (n k : Nat), LShape (buildL xs) n k →
    LShape (buildL (l.map (fun d => .ok (Legacy.u32 d)) ++ xs)) n (32 * l.length + k)
  | [], xs, n, k, h => by simpa using h
  | d :: l, xs, n, k, h => by
    have := LShape.cons (lshape_u32 d) (lshape_windows l xs n k h)
    rw [List.map_cons, List.cons_append, List.length_cons]
    have e : 32 * (l.length + 1) + k = 32 + (32 * l.length + k) := by omega
    rw [e]; rwa [Nat.zero_add] at this

theorem lsame_windows {xs ys : List (M Legacy)} : ∀ {l m : List UInt32}, l.length = m.length →
    LSame (buildL (l.map (fun d => .ok (Legacy.u32 d)) ++ xs)) (buildL (m.map (fun d => .ok (Legacy.u32 d)) ++ ys)) →
    l = m ∧ LSame (buildL xs) (buildL ys) := by
  intro l
  induction l with
  | nil =>
    intro m hl h
    cases m with
    | nil => exact ⟨rfl, h⟩
    | cons _ _ => simp at hl
  | cons a l ih =>
    intro m hl h
    cases m with
    | nil => simp at hl
    | cons b m =>
      simp only [List.map_cons, List.cons_append] at h
      obtain ⟨h1, h2⟩ := LSame.cons (lshape_u32 _) (lshape_u32 _) h
      obtain ⟨h3, h4⟩ := ih (by simpa using hl) h2
      exact ⟨by rw [lsame_u32 h1, h3], h4⟩

theorem consensus_legacy_eq (c : ConsensusState) : c.legacy =
    buildL (.ok (Legacy.u32 c.blockchainLength) :: .ok (Legacy.u32 c.epochCount) ::
      .ok (Legacy.u32 c.minWindowDensity) :: (c.subWindowDensities.map (fun d => .ok (Legacy.u32 d)) ++
    [.ok (vrfLegacy c.lastVrfOutput), .ok (Legacy.u64 c.totalCurrency), c.currGlobalSlot.legacy,
     .ok (Legacy.u32 c.globalSlotSinceGenesis), .ok (Legacy.bool c.hasAncestorInSameCheckpointWindow),
     .ok (Legacy.bool c.superchargeCoinbase), c.stakingEpochData.legacy, c.nextEpochData.legacy,
     .ok (Legacy.field c.blockStakeWinner.x), .ok (Legacy.bool c.blockStakeWinner.isOdd),
     .ok (Legacy.field c.blockCreator.x), .ok (Legacy.bool c.blockCreator.isOdd),
     .ok (Legacy.field c.coinbaseReceiver.x), .ok (Legacy.bool c.coinbaseReceiver.isOdd)])) := by
  simp [ConsensusState.legacy]

theorem lshape_consensus (c : ConsensusState) : LShape c.legacy 11
    (453 + (32 * c.subWindowDensities.length + (vrfBits c.lastVrfOutput).length)) := by
  rw [consensus_legacy_eq]
  have := LShape.cons (lshape_u32 c.blockchainLength) <| LShape.cons (lshape_u32 c.epochCount) <|
    LShape.cons (lshape_u32 c.minWindowDensity) <| lshape_windows c.subWindowDensities _ _ _ <|
    LShape.cons (lshape_vrf c.lastVrfOutput) <| LShape.cons (lshape_u64 c.totalCurrency) <|
    LShape.cons (lshape_globalSlot c.currGlobalSlot) <| LShape.cons (lshape_u32 c.globalSlotSinceGenesis) <|
    LShape.cons (lshape_bool c.hasAncestorInSameCheckpointWindow) <| LShape.cons (lshape_bool c.superchargeCoinbase) <|
    LShape.cons (lshape_epochData c.stakingEpochData) <| LShape.cons (lshape_epochData c.nextEpochData) <|
    LShape.cons (lshape_field c.blockStakeWinner.x) <| LShape.cons (lshape_bool c.blockStakeWinner.isOdd) <|
    LShape.cons (lshape_field c.blockCreator.x) <| LShape.cons (lshape_bool c.blockCreator.isOdd) <|
    LShape.cons (lshape_field c.coinbaseReceiver.x) <| LShape.cons (lshape_bool c.coinbaseReceiver.isOdd) LShape.nil
  intro d hd
  obtain ⟨h1, h2⟩ := this d hd
  exact ⟨h1, by omega⟩

theorem lsame_consensus {a b : ConsensusState} (hn : a.subWindowDensities.length = b.subWindowDensities.length)
    (hv : a.lastVrfOutput.length = b.lastVrfOutput.length) (h : LSame a.legacy b.legacy) : ConsensusAgree a b := by
  have hvl : (vrfBits a.lastVrfOutput).length = (vrfBits b.lastVrfOutput).length := by
    rw [vrfBits_length, vrfBits_length, hv]
  rw [consensus_legacy_eq, consensus_legacy_eq] at h
  obtain ⟨g1, h⟩ := LSame.cons (lshape_u32 _) (lshape_u32 _) h
  obtain ⟨g2, h⟩ := LSame.cons (lshape_u32 _) (lshape_u32 _) h
  obtain ⟨g3, h⟩ := LSame.cons (lshape_u32 _) (lshape_u32 _) h
  obtain ⟨g4, h⟩ := lsame_windows hn h
  obtain ⟨k1, h⟩ := LSame.cons (lshape_vrf _) (hvl ▸ lshape_vrf _) h
  obtain ⟨k2, h⟩ := LSame.cons (lshape_u64 _) (lshape_u64 _) h
  obtain ⟨k3, h⟩ := LSame.cons (lshape_globalSlot _) (lshape_globalSlot _) h
  obtain ⟨k4, h⟩ := LSame.cons (lshape_u32 _) (lshape_u32 _) h
  obtain ⟨k5, h⟩ := LSame.cons (lshape_bool _) (lshape_bool _) h
  obtain ⟨k6, h⟩ := LSame.cons (lshape_bool _) (lshape_bool _) h
  obtain ⟨k7, h⟩ := LSame.cons (lshape_epochData _) (lshape_epochData _) h
  obtain ⟨k8, h⟩ := LSame.cons (lshape_epochData _) (lshape_epochData _) h
  obtain ⟨k9, h⟩ := LSame.cons (lshape_field _) (lshape_field _) h
  obtain ⟨k10, h⟩ := LSame.cons (lshape_bool _) (lshape_bool _) h
  obtain ⟨k11, h⟩ := LSame.cons (lshape_field _) (lshape_field _) h
  obtain ⟨k12, h⟩ := LSame.cons (lshape_bool _) (lshape_bool _) h
  obtain ⟨k13, h⟩ := LSame.cons (lshape_field _) (lshape_field _) h
  obtain ⟨k14, _⟩ := LSame.cons (lshape_bool _) (lshape_bool _) h
  refine ⟨lsame_vrf hv k1, ?_⟩
  have := lsame_u32 g1; have := lsame_u32 g2; have := lsame_u32 g3
  have := lsame_u64 k2; have := lsame_globalSlot k3; have := lsame_u32 k4; have := lsame_bool k5
  have := lsame_bool k6; have := lsame_epochData k7; have := lsame_epochData k8
  have := lsame_field k9; have := lsame_bool k10; have := lsame_field k11; have := lsame_bool k12
  have := lsame_field k13; have := lsame_bool k14
  clear g1 g2 g3 k1 k2 k3 k4 k5 k6 k7 k8 k9 k10 k11 k12 k13 k14 h hvl
  obtain ⟨_, _, _, _, _, _, _, _, _, _, _, ⟨_, _⟩, ⟨_, _⟩, ⟨_, _⟩, _⟩ := a
  obtain ⟨_, _, _, _, _, _, _, _, _, _, _, ⟨_, _⟩, ⟨_, _⟩, ⟨_, _⟩, _⟩ := b
  simp_all

theorem lshape_staged (sha : Bytes → B32) (s : StagedLedgerHash) : LShape (s.legacy sha) 1 256 :=
  LShape.cons (lshape_32bytes _) (LShape.cons (lshape_b32 _) LShape.nil)

theorem lsame_staged (sha : Bytes → B32) {a b : StagedLedgerHash} (h : LSame (a.legacy sha) (b.legacy sha)) :
    sha a.nonSnark.preimage = sha b.nonSnark.preimage ∧ a.pendingCoinbaseHash = b.pendingCoinbaseHash := by
  obtain ⟨h1, h⟩ := LSame.cons (lshape_32bytes _) (lshape_32bytes _) h
  obtain ⟨h2, _⟩ := LSame.cons (lshape_b32 _) (lshape_b32 _) h
  exact ⟨lsame_32bytes h1, lsame_b32 h2⟩

theorem lshape_blockchainState (sha : Bytes → B32) (b : BlockchainStateLegacy) : LShape (b.legacy sha) 3 384 :=
  LShape.cons (lshape_staged sha _) <| LShape.cons (lshape_b32 _) <| LShape.cons (lshape_b32 _) <|
    LShape.cons (lshape_u64 _) <| LShape.cons (lshape_u64 _) LShape.nil

theorem lshape_constants (c : Constants) : LShape c.legacy 0 192 :=
  LShape.cons (lshape_u32 _) <| LShape.cons (lshape_u32 _) <| LShape.cons (lshape_u32 _) <|
    LShape.cons (lshape_u32 _) <| LShape.cons (lshape_u64 _) LShape.nil

theorem lsame_constants {a b : Constants} (h : LSame a.legacy b.legacy) : a = b := by
  obtain ⟨h1, h⟩ := LSame.cons (lshape_u32 _) (lshape_u32 _) h
  obtain ⟨h2, h⟩ := LSame.cons (lshape_u32 _) (lshape_u32 _) h
  obtain ⟨h3, h⟩ := LSame.cons (lshape_u32 _) (lshape_u32 _) h
  obtain ⟨h4, h⟩ := LSame.cons (lshape_u32 _) (lshape_u32 _) h
  obtain ⟨h5, _⟩ := LSame.cons (lshape_u64 _) (lshape_u64 _) h
  have := lsame_u32 h1; have := lsame_u32 h2; have := lsame_u32 h3; have := lsame_u32 h4
  have := lsame_u64 h5
  cases a; cases b; simp_all

/-- The number of bits of a body. -/
def bodyBits (b : BodyLegacy) : Nat :=
  1029 + (32 * b.consensusState.subWindowDensities.length + (vrfBits b.consensusState.lastVrfOutput).length)

theorem lshape_body (sha : Bytes → B32) (b : BodyLegacy) : LShape (b.legacy sha) 15 (bodyBits b) := by
  have := LShape.cons (lshape_constants b.constants) <| LShape.cons (lshape_b32 b.genesisStateHash) <|
    LShape.cons (lshape_blockchainState sha b.blockchainState) <|
    LShape.cons (lshape_consensus b.consensusState) LShape.nil
  intro d hd
  obtain ⟨h1, h2⟩ := this d hd
  exact ⟨h1, by unfold bodyBits; omega⟩

/-! ## C70 -/

/-- **C70.** Two legacy bodies with the same numbers of sub-windows and VRF bytes and the same hash
input are equal, up to the unhashed bits of the VRF output and what SHA-256 identifies in the staged
ledger hash. -/
theorem C70_exact_partial (sha : Bytes → B32) (a b : BodyLegacy)
    (hn : a.consensusState.subWindowDensities.length = b.consensusState.subWindowDensities.length)
    (hv : a.consensusState.lastVrfOutput.length = b.consensusState.lastVrfOutput.length)
    (r : List Fp) (h1 : packLegacy (a.legacy sha) = .ok r) (h2 : packLegacy (b.legacy sha) = .ok r) :
    a.constants = b.constants ∧ a.genesisStateHash = b.genesisStateHash ∧
    ConsensusAgree a.consensusState b.consensusState ∧
    sha a.blockchainState.stagedLedgerHash.nonSnark.preimage =
      sha b.blockchainState.stagedLedgerHash.nonSnark.preimage ∧
    a.blockchainState.stagedLedgerHash.pendingCoinbaseHash =
      b.blockchainState.stagedLedgerHash.pendingCoinbaseHash ∧
    a.blockchainState.snarkedLedgerHash = b.blockchainState.snarkedLedgerHash ∧
    a.blockchainState.genesisLedgerHash = b.blockchainState.genesisLedgerHash ∧
    a.blockchainState.snarkedNextAvailableToken = b.blockchainState.snarkedNextAvailableToken ∧
    a.blockchainState.timestamp = b.blockchainState.timestamp := by
  have hvl : (vrfBits a.consensusState.lastVrfOutput).length = (vrfBits b.consensusState.lastVrfOutput).length := by
    rw [vrfBits_length, vrfBits_length, hv]
  have sb := lshape_body sha b
  have hbb : bodyBits b = bodyBits a := by unfold bodyBits; rw [hn, hvl]
  rw [hbb] at sb
  have h := (lshape_body sha a).unpack sb h1 h2
  unfold BodyLegacy.legacy at h
  obtain ⟨k1, h⟩ := LSame.cons (lshape_constants _) (lshape_constants _) h
  obtain ⟨k2, h⟩ := LSame.cons (lshape_b32 _) (lshape_b32 _) h
  obtain ⟨k3, h⟩ := LSame.cons (lshape_blockchainState sha _) (lshape_blockchainState sha _) h
  have sc := lshape_consensus b.consensusState
  rw [← hn, ← hvl] at sc
  obtain ⟨k4, _⟩ := LSame.cons (lshape_consensus _) sc h
  obtain ⟨g1, g⟩ := LSame.cons (lshape_staged sha _) (lshape_staged sha _) k3
  obtain ⟨g2, g⟩ := LSame.cons (lshape_b32 _) (lshape_b32 _) g
  obtain ⟨g3, g⟩ := LSame.cons (lshape_b32 _) (lshape_b32 _) g
  obtain ⟨g4, g⟩ := LSame.cons (lshape_u64 _) (lshape_u64 _) g
  obtain ⟨g5, _⟩ := LSame.cons (lshape_u64 _) (lshape_u64 _) g
  obtain ⟨m1, m2⟩ := lsame_staged sha g1
  exact ⟨lsame_constants k1, lsame_b32 k2, lsame_consensus hn hv k4, m1, m2, lsame_b32 g2, lsame_b32 g3,
    lsame_u64 g4, lsame_u64 g5⟩

/-- Bodies as in real blocks are told apart. -/
theorem C70_distinguishes_partial (sha : Bytes → B32) (a b : BodyLegacy) (ha : RealBodyLegacy a) (hb : RealBodyLegacy b)
    (hsha : sha a.blockchainState.stagedLedgerHash.nonSnark.preimage =
      sha b.blockchainState.stagedLedgerHash.nonSnark.preimage →
      a.blockchainState.stagedLedgerHash.nonSnark.preimage = b.blockchainState.stagedLedgerHash.nonSnark.preimage)
    (r : List Fp) (h1 : packLegacy (a.legacy sha) = .ok r) (h2 : packLegacy (b.legacy sha) = .ok r) :
    a = b := by
  obtain ⟨e1, e2, e3, e4, e5, e6, e7, e8, e9⟩ := C70_exact_partial sha a b
    (ha.windows.trans hb.windows.symm) (ha.vrf.1.trans hb.vrf.1.symm) r h1 h2
  have f1 := preimage_inj ha.aux.1 hb.aux.1 (hsha e4)
  have f2 : a.consensusState.lastVrfOutput = b.consensusState.lastVrfOutput := by
    refine take31_ext (ha.vrf.1.trans hb.vrf.1.symm) (by rw [ha.vrf.1]; decide) e3.1.1 ?_
    have := e3.1.2
    rw [Nat.mod_eq_of_lt ha.vrf.2, Nat.mod_eq_of_lt hb.vrf.2] at this
    exact UInt8.toNat_inj.1 this
  have f3 : a.consensusState = b.consensusState := by rw [e3.2, f2]
  have f4 : a.blockchainState = b.blockchainState := by
    have ext : ∀ x y : BlockchainStateLegacy, x.stagedLedgerHash.nonSnark = y.stagedLedgerHash.nonSnark →
        x.stagedLedgerHash.pendingCoinbaseHash = y.stagedLedgerHash.pendingCoinbaseHash →
        x.snarkedLedgerHash = y.snarkedLedgerHash → x.genesisLedgerHash = y.genesisLedgerHash →
        x.snarkedNextAvailableToken = y.snarkedNextAvailableToken → x.timestamp = y.timestamp → x = y := by
      rintro ⟨⟨_, _⟩, _, _, _, _⟩ ⟨⟨_, _⟩, _, _, _, _⟩
      intros; simp_all
    exact ext _ _ f1 e5 e6 e7 e8 e9
  clear e3 h1 h2 hsha ha hb e4
  cases a; cases b; simp_all

/-- **C70.** The legacy state hash commits to the previous state hash and the body: two states as in
real blocks with the same state hash are equal, unless one of the hash functions collides on the
inputs it is given for them. -/
theorem C70_state_hash_commits_partial (H : String → List Fp → Fp) (sha : Bytes → B32) (a b : ProtocolStateLegacy) (f : Fp)
    (ha : RealBodyLegacy a.body) (hb : RealBodyLegacy b.body)
    (hsha : sha a.body.blockchainState.stagedLedgerHash.nonSnark.preimage =
        sha b.body.blockchainState.stagedLedgerHash.nonSnark.preimage →
      a.body.blockchainState.stagedLedgerHash.nonSnark.preimage =
        b.body.blockchainState.stagedLedgerHash.nonSnark.preimage)
    (hH : ∀ x y, packLegacy (a.legacy H sha) = .ok x → packLegacy (b.legacy H sha) = .ok y →
      H "CodaProtoState" x = H "CodaProtoState" y → x = y)
    (hB : ∀ x y, packLegacy (a.body.legacy sha) = .ok x → packLegacy (b.body.legacy sha) = .ok y →
      H "CodaProtoStateBody" x = H "CodaProtoStateBody" y → x = y)
    (h1 : a.stateHash H sha = .ok f) (h2 : b.stateHash H sha = .ok f) : a = b := by
  have key : ∀ {d : String} {x : M Legacy} {f : Fp}, hashLegacy H d x = .ok f → ∃ r, packLegacy x = .ok r ∧ f = H d r := by
    intro d x f h
    cases x with
    | error e => exact nomatch h
    | ok c => exact ⟨c.toFields, rfl, (Except.ok.inj h).symm⟩
  obtain ⟨x, hx, e1⟩ := key h1
  obtain ⟨y, hy, e2⟩ := key h2
  have hxy := hH x y hx hy (e1 ▸ e2)
  subst hxy
  have shape : ∀ s : ProtocolStateLegacy, LShape (s.legacy H sha) 2 0 := by
    intro s c h
    unfold ProtocolStateLegacy.legacy at h
    cases e : hashLegacy H "CodaProtoStateBody" (s.body.legacy sha) with
    | error x => rw [e] at h; exact nomatch h
    | ok f => rw [e] at h; exact LShape.cons (lshape_b32 _) (LShape.cons (lshape_field f) LShape.nil) c h
  obtain ⟨c, g1, g2⟩ := (shape a).unpack (shape b) hx hy
  unfold ProtocolStateLegacy.legacy at g1 g2
  cases u : hashLegacy H "CodaProtoStateBody" (a.body.legacy sha) with
  | error e => rw [u] at g1; exact nomatch g1
  | ok fa =>
    cases v : hashLegacy H "CodaProtoStateBody" (b.body.legacy sha) with
    | error e => rw [v] at g2; exact nomatch g2
    | ok fb =>
      rw [u] at g1; rw [v] at g2
      obtain ⟨k1, k⟩ := LSame.cons (lshape_b32 _) (lshape_b32 _) ⟨c, g1, g2⟩
      obtain ⟨k2, _⟩ := LSame.cons (lshape_field _) (lshape_field _) k
      obtain ⟨ra, ua, va⟩ := key u
      obtain ⟨rb, ub, vb⟩ := key v
      have := hB ra rb ua ub (by rw [← va, ← vb]; exact lsame_field k2)
      subst this
      have hbody := C70_distinguishes_partial sha a.body b.body ha hb hsha ra ua ub
      have hprev := lsame_b32 k1
      cases a; cases b; simp_all

def sampleBodyLegacy : BodyLegacy :=
  ⟨zero32, ⟨⟨⟨zero32, List.replicate 32 1, List.replicate 32 2⟩, zero32⟩, zero32, zero32, 2, 77⟩,
    sampleConsensus, ⟨290, 7140, 7, 0, 1655755201000⟩⟩

example : RealBodyLegacy sampleBodyLegacy := ⟨⟨by decide, by decide⟩, by decide, ⟨by decide, by decide⟩⟩

example : (packLegacy (sampleBodyLegacy.legacy fun _ => zero32)).isOk = true := by
  have h : (sampleBodyLegacy.legacy fun _ => zero32).isOk = true := by decide +kernel
  cases e : sampleBodyLegacy.legacy fun _ => zero32 with
  | error x => rw [e] at h; exact nomatch h
  | ok c => rfl

/-- **C70.** Neither the number of sub-windows nor the length of the VRF output is hashed: for every
state, moving the last sub-window density into an empty VRF output leaves the hash input unchanged. -/
theorem C70_lengths_fails (c : ConsensusState) (ds : List UInt32) (d : UInt32) :
    let a := { c with subWindowDensities := ds ++ [d], lastVrfOutput := [] }
    let b := { c with subWindowDensities := ds, lastVrfOutput := leBytes 4 d.toNat }
    a ≠ b ∧ a.legacy = b.legacy := by
  refine ⟨fun h => ?_, ?_⟩
  · have := congrArg (fun c : ConsensusState => c.lastVrfOutput.length) h
    simp at this
  · have e1 : vrfLegacy (leBytes 4 d.toNat) = Legacy.u32 d := by
      simp [vrfLegacy, vrfBits, Legacy.u32, Legacy.bytes]
    have e2 : vrfLegacy [] = Legacy.new := rfl
    have e3 : ∀ x : M Legacy, ∀ xs, buildL (x :: .ok Legacy.new :: xs) = buildL (x :: xs) := by
      intro x xs
      have : buildL (.ok Legacy.new :: xs) = buildL xs := by
        conv => lhs; unfold buildL
        simp only [bind, Except.bind]
        cases buildL xs with
        | error e => rfl
        | ok b => cases b; rfl
      conv => lhs; unfold buildL
      conv => rhs; unfold buildL
      rw [this]
    have e4 : ∀ (pre xs : List (M Legacy)) (x : M Legacy),
        buildL (pre ++ (x :: .ok Legacy.new :: xs)) = buildL (pre ++ (x :: xs)) := by
      intro pre xs x
      induction pre with
      | nil => exact e3 x xs
      | cons p pre ih => simp only [List.cons_append, buildL, ih]
    simp only [ConsensusState.legacy, e1, e2, List.map_append, List.map_cons, List.map_nil, List.append_assoc,
      List.cons_append, List.nil_append]
    have := e4 ([.ok (Legacy.u32 c.blockchainLength), .ok (Legacy.u32 c.epochCount),
      .ok (Legacy.u32 c.minWindowDensity)] ++ ds.map fun d => .ok (Legacy.u32 d))
    simp only [List.append_assoc, List.cons_append, List.nil_append] at this
    exact this _ _

/-! ## C71 -/

/-- **C71.** Two legacy accounts have the same hash input exactly when they have the same token and
balance. Missing: every other field. -/
theorem C71_exact_partial (a b : AccountLegacy) :
    (a.legacy = b.legacy ↔ a.tokenId = b.tokenId ∧ a.balance = b.balance) ∧
    (a.legacy.toFields = b.legacy.toFields ↔ a.tokenId = b.tokenId ∧ a.balance = b.balance) := by
  have e : ∀ a : AccountLegacy, a.legacy = ⟨[], u64bits a.tokenId ++ u64bits a.balance⟩ := by
    intro a; simp [AccountLegacy.legacy, Legacy.build, Legacy.append, Legacy.new, Legacy.u64, Legacy.bytes, u64bits]
  have h1 : a.legacy = b.legacy ↔ a.tokenId = b.tokenId ∧ a.balance = b.balance := by
    rw [e, e, Legacy.mk.injEq]
    constructor
    · rintro ⟨_, h⟩
      obtain ⟨h1, h2⟩ := List.append_inj h (by rw [u64bits_length, u64bits_length])
      exact ⟨u64bits_inj h1, u64bits_inj h2⟩
    · rintro ⟨h1, h2⟩; rw [h1, h2]; exact ⟨rfl, rfl⟩
  refine ⟨h1, ?_⟩
  rw [← h1]
  refine ⟨fun h => Legacy.toFields_inj ?_ h, fun h => by rw [h]⟩
  rw [e, e]; simp [u64bits_length]

/-- **C71.** So the hash does not commit to the owner, the nonce, the delegate or the permissions. -/
theorem C71_owner_fails (a : AccountLegacy) (k : PubKey) (n : UInt32) (hk : k ≠ a.publicKey) :
    { a with publicKey := k, nonce := n } ≠ a ∧ ({ a with publicKey := k, nonce := n } : AccountLegacy).legacy = a.legacy := by
  refine ⟨fun h => hk ?_, rfl⟩
  have := congrArg AccountLegacy.publicKey h
  exact this

end MinaRs.Hash
