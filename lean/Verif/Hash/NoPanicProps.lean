import Verif.Hash.LegacyStateProps
import Verif.Hash.AccountProps

/-!
# C67, C70: exactly which protocol states can be hashed
-/

namespace MinaRs.Hash.Spec

/-- The 32-byte hashes of epoch data -/
def epochHashes (e : EpochData) : List B32 := [e.ledger.hash, e.seed, e.startCheckpoint, e.lockCheckpoint]

/-- The 32-byte values of a protocol state that are hashed as field elements: every hash in it except the
ledger hash inside the staged ledger hash and the body reference, which are hashed as bytes. -/
def stateHashes (s : ProtocolState) : List B32 :=
  let b := s.body.blockchainState
  let l := b.registers.localState
  let c := s.body.consensusState
  [s.previousStateHash, s.body.genesisStateHash, b.stagedLedgerHash.pendingCoinbaseHash, b.genesisLedgerHash,
   b.registers.ledger, l.stackFrame, l.callStack, l.transactionCommitment, l.fullTransactionCommitment, l.ledger] ++
  epochHashes c.stakingEpochData ++ epochHashes c.nextEpochData

/-- The same of a mainnet protocol state -/
def stateHashesLegacy (s : ProtocolStateLegacy) : List B32 :=
  let b := s.body.blockchainState
  let c := s.body.consensusState
  [s.previousStateHash, s.body.genesisStateHash, b.stagedLedgerHash.pendingCoinbaseHash, b.snarkedLedgerHash,
   b.genesisLedgerHash] ++
  epochHashes c.stakingEpochData ++ epochHashes c.nextEpochData

end MinaRs.Hash.Spec

namespace MinaRs.Hash

open Chunked Spec

/-- The computation does not panic. -/
abbrev Runs {α : Type} (x : M α) : Prop := ∃ c, x = .ok c

theorem runs_ok {α : Type} (c : α) : Runs (.ok c : M α) := ⟨c, rfl⟩

theorem runs_nil : Runs (build []) := ⟨_, rfl⟩

theorem runs_cons {x : M Chunked} {xs : List (M Chunked)} : Runs (build (x :: xs)) ↔ Runs x ∧ Runs (build xs) := by
  constructor
  · rintro ⟨c, h⟩
    obtain ⟨c1, c2, h1, h2, _⟩ := build_split h
    exact ⟨⟨_, h1⟩, _, h2⟩
  · rintro ⟨⟨c, rfl⟩, d, h⟩
    exact ⟨c.append d, by rw [build_cons_ok, h]; rfl⟩

theorem runs_append {xs ys : List (M Chunked)} : Runs (build (xs ++ ys)) ↔ Runs (build xs) ∧ Runs (build ys) := by
  induction xs with
  | nil => exact ⟨fun h => ⟨runs_nil, h⟩, And.right⟩
  | cons x xs ih => rw [List.cons_append, runs_cons, runs_cons, ih, and_assoc]

theorem runs_map {α : Type} {f : α → M Chunked} (h : ∀ a, Runs (f a)) (l : List α) : Runs (build (l.map f)) := by
  induction l with
  | nil => exact runs_nil
  | cons a l ih => exact runs_cons.2 ⟨h a, ih⟩

theorem runs_bool (b : Bool) : Runs (bool b) := by
  obtain ⟨c, h, _⟩ := (same_bool (a := b) (b := b)).2 rfl
  exact ⟨c, h⟩

theorem runs_u32 (x : UInt32) : Runs (u32 x) := by
  obtain ⟨c, h, _⟩ := (same_u32 (a := x) (b := x)).2 rfl
  exact ⟨c, h⟩

theorem runs_u64 (x : UInt64) : Runs (u64 x) := by
  obtain ⟨c, h, _⟩ := (same_u64 (a := x) (b := x)).2 rfl
  exact ⟨c, h⟩

theorem runs_b32 {h : B32} : Runs h.chunked ↔ IsField h := by
  constructor
  · rintro ⟨c, e⟩
    exact (same_b32_iff.1 ⟨c, e, e⟩).1
  · intro hf
    obtain ⟨c, e, _⟩ := (same_b32_iff (a := h) (b := h)).2 ⟨hf, rfl⟩
    exact ⟨c, e⟩

theorem runs_pubKey (k : PubKey) : Runs k.chunked := by
  obtain ⟨c, e, _⟩ := (same_pubKey_iff (a := k) (b := k)).2 rfl
  exact ⟨c, e⟩

theorem runs_bytes (bs : Bytes) : Runs (bytes bs) := runs_map runs_bool _

theorem runs_vrf (v : Bytes) : Runs (vrfChunked v) := runs_map runs_bool _

theorem runs_tokenId (t : UInt64) : Runs (tokenIdChunked t) := ⟨_, rfl⟩

theorem runs_constants (c : Constants) : Runs c.chunked := by
  simp only [Constants.chunked, runs_cons, runs_u32, runs_u64, runs_nil, and_self]

theorem runs_globalSlot (g : GlobalSlot) : Runs g.chunked := by
  simp only [GlobalSlot.chunked, runs_cons, runs_u32, runs_nil, and_self]

theorem runs_epochData {e : EpochData} : Runs e.chunked ↔ ∀ h ∈ epochHashes e, IsField h := by
  simp only [EpochData.chunked, EpochLedger.chunked, runs_cons, runs_u32, runs_u64, runs_nil, runs_b32, and_true, true_and,
    epochHashes, List.forall_mem_cons, List.not_mem_nil, false_imp_iff, implies_true]
  constructor
  · rintro ⟨h1, h2, h3, h4⟩
    simp only [*, and_self]
  · rintro ⟨h1, h2, h3, h4⟩
    simp only [*, and_self]

theorem runs_body {sha : Bytes → B32} {s : ProtocolState} :
    Runs (s.body.chunked sha) ∧ IsField s.previousStateHash ↔ ∀ h ∈ stateHashes s, IsField h := by
  simp only [Body.chunked, BlockchainState.chunked, StagedLedgerHash.chunked, Registers.chunked, LocalState.chunked,
    ConsensusState.chunked, runs_cons, runs_append, runs_map runs_u32, runs_u32, runs_u64, runs_bool, runs_nil, runs_b32,
    runs_pubKey, runs_bytes, runs_vrf, runs_tokenId, runs_constants, runs_globalSlot, runs_epochData, and_true, true_and,
    stateHashes, List.forall_mem_cons, List.forall_mem_append, List.not_mem_nil, false_imp_iff, implies_true, and_self]
  constructor
  · rintro ⟨⟨h1, ⟨h2, h3, h4, h5, h6, h7, h8, h9⟩, h10, h11⟩, h12⟩
    exact ⟨⟨⟨h12, h1, h2, h3, h4, h5, h6, h7, h8, h9⟩, h10⟩, h11⟩
  · rintro ⟨⟨⟨h12, h1, h2, h3, h4, h5, h6, h7, h8, h9⟩, h10⟩, h11⟩
    exact ⟨⟨h1, ⟨h2, h3, h4, h5, h6, h7, h8, h9⟩, h10, h11⟩, h12⟩

theorem runs_hashChunked (H : String → List Fp → Fp) (d : String) {x : M Chunked} {n : Nat} {ws : List Nat}
    (hs : Shape x n ws) : Runs (hashChunked H d x) ↔ Runs x := by
  constructor
  · rintro ⟨f, h⟩
    cases x with
    | error e => exact nomatch h
    | ok c => exact ⟨c, rfl⟩
  · rintro ⟨c, rfl⟩
    obtain ⟨r, hr⟩ := hs.pack_ok rfl
    refine ⟨H d r, ?_⟩
    have hr' : c.intoFields = .ok r := hr
    show (c.intoFields >>= fun fs => pure (H d fs)) = _
    rw [hr']; rfl

/-- **C67.** The state hash of a Berkeley protocol state is computed without a panic exactly when every hash in
it that is hashed as a field element is the encoding of one. -/
theorem C67_no_panic_iff (H : String → List Fp → Fp) (sha : Bytes → B32) (s : ProtocolState) :
    (∃ f, s.stateHash H sha = .ok f) ↔ ∀ h ∈ stateHashes s, IsField h := by
  rw [← runs_body (sha := sha)]
  unfold ProtocolState.stateHash
  refine (runs_hashChunked H _ (shape_protocolState H sha s)).trans ?_
  unfold ProtocolState.chunked
  constructor
  · rintro ⟨c, h⟩
    cases hb : hashChunked H "CodaProtoStateBody" (s.body.chunked sha) with
    | error e => rw [hb] at h; exact nomatch h
    | ok f =>
      rw [hb] at h
      refine ⟨(runs_hashChunked H _ (shape_body sha s.body)).1 ⟨f, hb⟩, ?_⟩
      exact runs_b32.1 (runs_cons.1 ⟨c, h⟩).1
  · rintro ⟨h1, h2⟩
    obtain ⟨f, hf⟩ := (runs_hashChunked H "CodaProtoStateBody" (shape_body sha s.body)).2 h1
    rw [hf]
    exact runs_cons.2 ⟨runs_b32.2 h2, runs_cons.2 ⟨runs_ok _, runs_nil⟩⟩

/-! ## Mainnet states -/

theorem runsL_nil : Runs (buildL []) := ⟨_, rfl⟩

theorem runsL_cons {x : M Legacy} {xs : List (M Legacy)} : Runs (buildL (x :: xs)) ↔ Runs x ∧ Runs (buildL xs) := by
  constructor
  · rintro ⟨c, h⟩
    obtain ⟨c1, c2, h1, h2, _⟩ := buildL_split h
    exact ⟨⟨_, h1⟩, _, h2⟩
  · rintro ⟨⟨c, rfl⟩, d, h⟩
    exact ⟨c.append d, by simp only [buildL, h]; rfl⟩

theorem runsL_append {xs ys : List (M Legacy)} : Runs (buildL (xs ++ ys)) ↔ Runs (buildL xs) ∧ Runs (buildL ys) := by
  induction xs with
  | nil => exact ⟨fun h => ⟨runsL_nil, h⟩, And.right⟩
  | cons x xs ih => rw [List.cons_append, runsL_cons, runsL_cons, ih, and_assoc]

theorem runsL_map {α : Type} {f : α → Legacy} (l : List α) : Runs (buildL (l.map fun a => .ok (f a))) := by
  induction l with
  | nil => exact runsL_nil
  | cons a l ih => exact runsL_cons.2 ⟨⟨_, rfl⟩, ih⟩

theorem runsL_b32 {h : B32} : Runs h.legacy ↔ IsField h := by
  constructor
  · rintro ⟨c, e⟩
    obtain ⟨f, hf, _⟩ := b32_legacy_eq_ok.1 e
    unfold IsField; rw [← hf]; exact f.isLt
  · intro hf
    exact ⟨_, b32_legacy_eq_ok.2 ⟨⟨_, hf⟩, rfl, rfl⟩⟩

theorem runsL_epochData {e : EpochData} : Runs e.legacy ↔ ∀ h ∈ epochHashes e, IsField h := by
  simp only [EpochData.legacy, EpochLedger.legacy, runsL_cons, runs_ok, runsL_nil, runsL_b32, and_true, true_and,
    epochHashes, List.forall_mem_cons, List.not_mem_nil, false_imp_iff, implies_true]
  constructor
  · rintro ⟨h1, h2, h3, h4⟩
    simp only [*, and_self]
  · rintro ⟨h1, h2, h3, h4⟩
    simp only [*, and_self]

theorem runsL_body {sha : Bytes → B32} {s : ProtocolStateLegacy} :
    Runs (s.body.legacy sha) ∧ IsField s.previousStateHash ↔ ∀ h ∈ stateHashesLegacy s, IsField h := by
  simp only [BodyLegacy.legacy, BlockchainStateLegacy.legacy, StagedLedgerHash.legacy, ConsensusState.legacy, Constants.legacy,
    GlobalSlot.legacy, runsL_cons, runsL_append, runsL_map, runs_ok, runsL_nil, runsL_b32, runsL_epochData, and_true, true_and,
    stateHashesLegacy, List.forall_mem_cons, List.forall_mem_append, List.not_mem_nil, false_imp_iff, implies_true, and_self]
  constructor
  · rintro ⟨⟨h1, ⟨h2, h3, h4⟩, h5, h6⟩, h7⟩
    exact ⟨⟨⟨h7, h1, h2, h3, h4⟩, h5⟩, h6⟩
  · rintro ⟨⟨⟨h7, h1, h2, h3, h4⟩, h5⟩, h6⟩
    exact ⟨⟨h1, ⟨h2, h3, h4⟩, h5, h6⟩, h7⟩

theorem runs_hashLegacy (H : String → List Fp → Fp) (d : String) {x : M Legacy} : Runs (hashLegacy H d x) ↔ Runs x := by
  cases x with
  | error e =>
    constructor
    · rintro ⟨_, h⟩; cases h
    · rintro ⟨_, h⟩; cases h
  | ok c => exact ⟨fun _ => ⟨c, rfl⟩, fun _ => ⟨_, rfl⟩⟩

/-- **C70.** The state hash of a mainnet protocol state is computed without a panic exactly when every hash in
it that is hashed as a field element is the encoding of one. -/
theorem C70_no_panic_iff (H : String → List Fp → Fp) (sha : Bytes → B32) (s : ProtocolStateLegacy) :
    (∃ f, s.stateHash H sha = .ok f) ↔ ∀ h ∈ stateHashesLegacy s, IsField h := by
  rw [← runsL_body (sha := sha)]
  unfold ProtocolStateLegacy.stateHash
  refine (runs_hashLegacy H _).trans ?_
  unfold ProtocolStateLegacy.legacy
  constructor
  · rintro ⟨c, h⟩
    cases hb : hashLegacy H "CodaProtoStateBody" (s.body.legacy sha) with
    | error e => rw [hb] at h; exact nomatch h
    | ok f =>
      rw [hb] at h
      refine ⟨(runs_hashLegacy H _).1 ⟨f, hb⟩, ?_⟩
      exact runsL_b32.1 (runsL_cons.1 ⟨c, h⟩).1
  · rintro ⟨h1, h2⟩
    obtain ⟨f, hf⟩ := (runs_hashLegacy H "CodaProtoStateBody").2 h1
    rw [hf]
    exact runsL_cons.2 ⟨runsL_b32.2 h2, runsL_cons.2 ⟨runs_ok _, runsL_nil⟩⟩

/-- A state whose previous state hash is no field element cannot be hashed. -/
example (H : String → List Fp → Fp) (sha : Bytes → B32) (s : ProtocolState) :
    ¬ ∃ f, ProtocolState.stateHash H sha { s with previousStateHash := ones32 } = .ok f := fun h =>
  absurd ((C67_no_panic_iff H sha _).1 h ones32 (.head _)) (by unfold IsField; decide +kernel)

end MinaRs.Hash
