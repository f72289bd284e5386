import Verif.Block.JsonLemmas
import Verif.Json.RereadProps

/-! The JSON documents of the node's blocks (C92). -/

namespace MinaRs.Block

open BinProt (Ty Tys IntKind Fits FitsProd FitsSum)
open Json (Env J JErr JTy JTys JVars JPay Leaf Leaves LeavesAll LeavesVar LeavesPay norm normAll arr32 u8s versionedTy version1)
open Spec

/-! ## Specification -/

namespace Spec

/-- The parts of a block, in the order of `ExternalTransition`. -/
abbrev BlkParts : Type :=
  protocolState.base × proof.base × stagedLedgerDiff.base × deltaProof.base × protocolVersion.base ×
    Option protocolVersion.base × Unit × Unit

/-- The block with current protocol version 2.0.0 and no proposed one. -/
def plainVersions (b : Blk) : Blk :=
  let p : BlkParts := b
  ((p.1, p.2.1, p.2.2.1, p.2.2.2.1,
    (((⟨2, by decide⟩ : {n : Int // BinProt.u32.holds n}), (⟨0, by decide⟩ : {n : Int // BinProt.u32.holds n}),
      (⟨0, by decide⟩ : {n : Int // BinProt.u32.holds n}), ()) : _ × _ × _ × Unit), none, (), ()) : BlkParts)

/-- The one or two parts of the staged ledger diff. -/
def preDiffs (b : Blk) : List preDiff.base :=
  let d : (preDiff.base × Option preDiff.base × Unit) × Unit := (show BlkParts from b).2.2.1
  d.1.1 :: d.1.2.1.toList

/-- The completed works of a part. -/
def completedWorks (d : preDiff.base) : List snarkWork.base :=
  (show List snarkWork.base × List userCommand.base × coinbase.base × List internalBalance.base × Unit from d).1

/-- The one or two proofs of a completed work. -/
def workProofs (w : snarkWork.base) : List ledgerProof.base :=
  match (show u64.base × (ledgerProof.base ⊕ (ledgerProof.base × ledgerProof.base × Unit) ⊕ Empty) × publicKey.base × Unit from w).2.1 with
  | .inl p => [p]
  | .inr (.inl (p, q, _)) => [p, q]

/-- The statement of a proof and the proof itself. -/
def proofParts (p : ledgerProof.base) : statement.base × proof.base := ((show statement.base × proof.base × Unit from p).1,
  (show statement.base × proof.base × Unit from p).2.1)

/-- The digest at the end of a statement. -/
def sokDigest (s : statement.base) : Bytes :=
  (show hash.base × hash.base × u64.base × (coinbaseStack.base × coinbaseStack.base × Unit) ×
    (feeExcess.base × feeExcess.base × Unit) × u64x3.base × u64x3.base × List UInt8 × Unit from s).2.2.2.2.2.2.2.1

/-- The branch character of a proof. -/
def whichBranch (p : proof.base) : UInt8 :=
  (show (((plonk.base × shiftedValue.base × shiftedValue.base × preChallenge.base × tuple18.base × UInt8 × Unit) ×
    spongeDigest.base × meOnly.base × Unit) × passThrough.base × Unit) ×
      (evaluations.base × evaluations.base × Unit) × point.base × innerProof.base × Unit from p).1.1.1.2.2.2.2.2.1

/-- The digests of all completed works are texts, and their branches are ASCII characters. -/
def Shown (b : Blk) : Prop :=
  ∀ d ∈ preDiffs b, ∀ w ∈ completedWorks d, ∀ p ∈ workProofs w,
    Json.IsUtf8 (sokDigest (proofParts p).1) ∧ (whichBranch (proofParts p).2).toNat < 128

end Spec

/-! ## Lemmas -/

/-- What is shown as text is a text. -/
def ShownText : (c : Leaf) → c.wire.denote → Prop
  | .char, v => (v : UInt8).toNat < 128
  | .byteVec, v => Json.IsUtf8 (v : Bytes)
  | _, _ => True

/-- The leaf is not shown as text of its own bytes. -/
def noText : Leaf → Bool
  | .char => false
  | .byteVec => false
  | _ => true

mutual
theorem leaves_of_all {q : Leaf → Bool} {P : (c : Leaf) → c.wire.denote → Prop} (h : ∀ c v, q c = true → P c v) :
    (t : JTy) → (v : t.wire.denote) → t.all q = true → Leaves P t v
  | .leaf c, v, ha => h c v ha
  | .unit, _, _ => trivial
  | .bool, _, _ => trivial
  | .option t, _, ha => fun w _ => leaves_of_all h t w ha
  | .newtype t, v, ha => leaves_of_all h t v ha
  | .seq t, _, ha => fun w _ => leaves_of_all h t w ha
  | .tuple ts, v, ha => leavesAll_of_all h ts v ha
  | .struct ts, v, ha => leavesAll_of_all h ts v ha
  | .versioned t, _, ha => leaves_of_all h t _ ha
  | .listEnum _ _ vs, _, ha => leavesVar_of_all h vs _ ha
  | .tagEnum vs, v, ha => leavesVar_of_all h vs v ha
theorem leavesAll_of_all {q : Leaf → Bool} {P : (c : Leaf) → c.wire.denote → Prop} (h : ∀ c v, q c = true → P c v) :
    (ts : JTys) → (v : ts.wire.prod) → ts.all q = true → LeavesAll P ts v
  | .nil, _, _ => trivial
  | .cons _ t ts, _, ha => by
    simp only [JTys.all, Bool.and_eq_true] at ha
    exact ⟨leaves_of_all h t _ ha.1, leavesAll_of_all h ts _ ha.2⟩
  | .skip _ _ ts, _, ha => leavesAll_of_all h ts _ ha
theorem leavesVar_of_all {q : Leaf → Bool} {P : (c : Leaf) → c.wire.denote → Prop} (h : ∀ c v, q c = true → P c v) :
    (vs : JVars) → (v : vs.wire.sum) → vs.all q = true → LeavesVar P vs v
  | .nil, v, _ => nomatch (show Empty from v)
  | .cons _ p vs, v, ha => by
    simp only [JVars.all, Bool.and_eq_true] at ha
    obtain w | w : p.wire.denote ⊕ vs.wire.sum := v
    · exact leavesPay_of_all h p w ha.1
    · exact leavesVar_of_all h vs w ha.2
theorem leavesPay_of_all {q : Leaf → Bool} {P : (c : Leaf) → c.wire.denote → Prop} (h : ∀ c v, q c = true → P c v) :
    (p : JPay) → (v : p.wire.denote) → p.all q = true → LeavesPay P p v
  | .unit, _, _ => trivial
  | .newtype t, v, ha => leaves_of_all h t v ha
  | .tuple ts, v, ha => leavesAll_of_all h ts v ha
  | .struct ts, v, ha => leavesAll_of_all h ts v ha
end

/-- One proof is shown, under a condition on digests and characters. -/
def ProofShown (P : (c : Leaf) → c.wire.denote → Prop) (p : ledgerProof.base) : Prop :=
  P .byteVec (sokDigest (proofParts p).1) ∧ P .char (whichBranch (proofParts p).2)

theorem toJsonForm_parts (b : Blk) : toJsonForm b = (version1 (t := Json.Block.externalTransition.wire) (let p : BlkParts := b
    ((toWire protocolState p.1, toWire proof p.2.1, toWire stagedLedgerDiff p.2.2.1, toWire deltaProof p.2.2.2.1,
      toWire protocolVersion p.2.2.2.2.1, p.2.2.2.2.2.1.map (toWire protocolVersion), (), ()) : Json.Block.Parts))) := rfl

section
variable {P : (c : Leaf) → c.wire.denote → Prop} (hP : ∀ c v, noText c = true → P c v)
include hP

theorem shown_noText (t : JTy) (v : t.wire.denote) (h : t.all noText = true) : Leaves P t v := leaves_of_all hP t v h

theorem shown_statement (s : statement.base) :
    Leaves P Json.Block.statement (toWire statement s) ↔ P .byteVec (sokDigest s) := by
  constructor
  · intro h
    exact h.2.2.2.2.2.2.2.1
  · intro h
    exact ⟨shown_noText hP Json.Block.ledgerHash _ rfl, shown_noText hP Json.Block.ledgerHash _ rfl, shown_noText hP Json.Block.u64 _ rfl,
      shown_noText hP _ _ rfl, shown_noText hP _ _ rfl, shown_noText hP _ _ rfl, shown_noText hP _ _ rfl, h, trivial⟩

theorem shown_proof (p : proof.base) :
    Leaves P Json.Block.proof (toWire proof p) ↔ P .char (whichBranch p) := by
  constructor
  · intro h
    exact h.1.1.1.2.2.2.2.2.1
  · intro h
    refine ⟨⟨⟨⟨shown_noText hP _ _ rfl, shown_noText hP _ _ rfl, shown_noText hP _ _ rfl, shown_noText hP _ _ rfl, shown_noText hP _ _ rfl, h, trivial⟩,
      shown_noText hP _ _ rfl, shown_noText hP _ _ rfl, trivial⟩, shown_noText hP _ _ rfl, trivial⟩, shown_noText hP _ _ rfl, shown_noText hP _ _ rfl,
      shown_noText hP _ _ rfl, trivial⟩

theorem shown_ledgerProof (p : ledgerProof.base) :
    Leaves P Json.Block.ledgerProof (toWire ledgerProof p) ↔ ProofShown P p := by
  obtain ⟨s, q, u⟩ : statement.base × proof.base × Unit := p
  constructor
  · intro h
    exact ⟨(shown_statement hP s).mp h.1, (shown_proof hP q).mp h.2.1⟩
  · intro h
    exact ⟨(shown_statement hP s).mpr h.1, (shown_proof hP q).mpr h.2, trivial⟩

theorem shown_work (w : snarkWork.base) :
    Leaves P Json.Block.snarkWork (toWire snarkWork w) ↔ ∀ p ∈ workProofs w, ProofShown P p := by
  obtain ⟨f, o, k, u⟩ : u64.base × (ledgerProof.base ⊕ (ledgerProof.base × ledgerProof.base × Unit) ⊕ Empty) × publicKey.base × Unit := w
  rcases o with p | ⟨p, q, u'⟩ | e
  · have e1 : workProofs ((f, .inl p, k, u) : u64.base × (ledgerProof.base ⊕ (ledgerProof.base × ledgerProof.base × Unit) ⊕ Empty) × publicKey.base × Unit) = [p] := rfl
    rw [e1]
    simp only [List.mem_singleton, forall_eq]
    constructor
    · intro h
      exact (shown_ledgerProof hP p).mp h.2.1
    · intro h
      exact ⟨shown_noText hP Json.Block.fee _ rfl, (shown_ledgerProof hP p).mpr h, shown_noText hP Json.Block.publicKey _ rfl, trivial⟩
  · have e1 : workProofs ((f, .inr (.inl (p, q, u')), k, u) : u64.base × (ledgerProof.base ⊕ (ledgerProof.base × ledgerProof.base × Unit) ⊕ Empty) × publicKey.base × Unit) = [p, q] := rfl
    rw [e1]
    simp only [List.mem_cons, List.not_mem_nil, or_false, forall_eq_or_imp, forall_eq]
    constructor
    · intro h
      exact ⟨(shown_ledgerProof hP p).mp h.2.1.1, (shown_ledgerProof hP q).mp h.2.1.2.1⟩
    · intro h
      exact ⟨shown_noText hP Json.Block.fee _ rfl, ⟨(shown_ledgerProof hP p).mpr h.1, (shown_ledgerProof hP q).mpr h.2, trivial⟩,
        shown_noText hP Json.Block.publicKey _ rfl, trivial⟩
  · cases e

theorem shown_preDiff (d : preDiff.base) :
    Leaves P Json.Block.preDiff (toWire preDiff d) ↔ ∀ w ∈ completedWorks d, ∀ p ∈ workProofs w, ProofShown P p := by
  obtain ⟨ws, cs, cb, ib, u⟩ : List snarkWork.base × List userCommand.base × coinbase.base × List internalBalance.base × Unit := d
  constructor
  · intro h w hw
    exact (shown_work hP w).mp (h.1 (toWire snarkWork w) (List.mem_map_of_mem hw))
  · intro h
    refine ⟨fun v hv => ?_, shown_noText hP (.seq Json.Block.userCommand) _ rfl, shown_noText hP Json.Block.coinbase _ rfl,
      shown_noText hP (.seq Json.Block.internalBalance) _ rfl, trivial⟩
    have hv' : v ∈ ws.map (toWire snarkWork) := hv
    obtain ⟨w, hw, rfl⟩ := List.mem_map.mp hv'
    exact (shown_work hP w).mpr (h w hw)

theorem shown_diff (d : stagedLedgerDiff.base) :
    Leaves P Json.Block.stagedLedgerDiff (toWire stagedLedgerDiff d) ↔
      ∀ e ∈ (show (preDiff.base × Option preDiff.base × Unit) × Unit from d).1.1 ::
        (show (preDiff.base × Option preDiff.base × Unit) × Unit from d).1.2.1.toList,
      ∀ w ∈ completedWorks e, ∀ p ∈ workProofs w, ProofShown P p := by
  obtain ⟨⟨a, o, u⟩, u'⟩ : (preDiff.base × Option preDiff.base × Unit) × Unit := d
  constructor
  · intro h e he
    rcases List.mem_cons.mp he with rfl | he
    · exact (shown_preDiff hP _).mp h.1.1
    · have he' : e ∈ o.toList := he
      have ho : o = some e := Option.mem_toList.mp he'
      subst ho
      exact (shown_preDiff hP e).mp (h.1.2.1 _ rfl)
  · intro h
    refine ⟨⟨(shown_preDiff hP a).mpr (h a List.mem_cons_self), fun v hv => ?_, trivial⟩, trivial⟩
    have hv' : o.map (toWire preDiff) = some v := hv
    obtain ⟨e, he, rfl⟩ := Option.map_eq_some_iff.mp hv'
    subst he
    exact (shown_preDiff hP e).mpr (h e (by simp))

theorem shown_parts (b : Blk) : Leaves P Json.Block.block (toJsonForm b) ↔
    ∀ d ∈ preDiffs b, ∀ w ∈ completedWorks d, ∀ p ∈ workProofs w, ProofShown P p := by
  rw [toJsonForm_parts]
  obtain ⟨ps, pf, d, dp, v, o, u⟩ : BlkParts := b
  constructor
  · intro h
    exact (shown_diff hP d).mp h.2.2.1
  · intro h
    exact ⟨shown_noText hP Json.Block.protocolState _ rfl, hP (.base64Bin Json.Block.proof.wire) _ rfl, (shown_diff hP d).mpr h, shown_noText hP Json.Block.deltaProof _ rfl, trivial⟩

end

theorem shownText_noText (c : Leaf) (v : c.wire.denote) (h : noText c = true) : ShownText c v := by
  cases c <;> first | trivial | cases h

theorem shown_block (b : Blk) : Leaves ShownText Json.Block.block (toJsonForm b) ↔ Shown b :=
  shown_parts shownText_noText b

mutual
/-- Values of the type always fit the wire: no lists, no 64-bit numbers, no variants. -/
def alwaysFits : Ty → Bool
  | .unit => true
  | .bool => true
  | .u8 => true
  | .int k => k != .u64
  | .newtype t => alwaysFits t
  | .tuple ts => alwaysFitsAll ts
  | .struct ts => alwaysFitsAll ts
  | _ => false
def alwaysFitsAll : Tys → Bool
  | .nil => true
  | .cons _ t ts => alwaysFits t && alwaysFitsAll ts
end

mutual
theorem fits_always : (t : Ty) → alwaysFits t = true → (v : t.denote) → Fits t v
  | .unit, _, _ => trivial
  | .bool, _, _ => trivial
  | .u8, _, _ => trivial
  | .int k, h, _ => fun hk => by rw [hk] at h; cases h
  | .newtype t, h, v => fits_always t h v
  | .tuple ts, h, v => fitsAll_always ts h v
  | .struct ts, h, v => fitsAll_always ts h v
theorem fitsAll_always : (ts : Tys) → alwaysFitsAll ts = true → (v : ts.prod) → FitsProd ts v
  | .nil, _, _ => trivial
  | .cons _ t ts, h, v => by
    simp only [alwaysFitsAll, Bool.and_eq_true] at h
    exact ⟨fits_always t h.1 _, fitsAll_always ts h.2 _⟩
end

/-- The leaf is not a whole structure in one text. -/
def easy : Leaf → Bool
  | .base58Bin _ t => alwaysFits t
  | .base64Bin _ => false
  | _ => true

theorem carried_of : (c : Leaf) → (v : c.wire.denote) → easy c = true → ShownText c v → KeyLeaf c v → c.Carried v
  | .u32, _, _, _, _ => trivial
  | .extU32, _, _, _, _ => trivial
  | .u64, _, _, _, _ => trivial
  | .decimal, _, _, _, _ => trivial
  | .i64, _, _, _, _ => trivial
  | .char, _, _, h, _ => h
  | .byteVec, _, _, h, _ => h
  | .field, _, _, _, _ => trivial
  | .base58Bin _ t, v, he, _, _ => fits_always t he v
  | .base58Bytes _, _, _, _, _ => trivial
  | .memo, _, _, _, _ => trivial
  | .base64Bytes, _, _, _, _ => trivial
  | .vrfBase58, _, _, _, _ => trivial
  | .base64Bin _, _, he, _, _ => nomatch he
  | .publicKey, _, _, _, h => h

theorem carried_part (t : BTy) (hx : NoX t = true) (j : JTy) (hj : j.all easy = true) (e : t.wire = j.wire) (b : t.base)
    (h : Leaves ShownText j (cast (congrArg Ty.denote e) (toWire t b))) :
    Leaves Leaf.Carried j (cast (congrArg Ty.denote e) (toWire t b)) :=
  Leaves.combine carried_of j _ hj h (keyLeaves_toWire t hx j e b)

mutual
/-- The description has no 64-bit unsigned numbers. -/
def no64 : BTy → Bool
  | .int k => k != .u64
  | .option t => no64 t
  | .newtype t => no64 t
  | .seq t => no64 t
  | .tuple ts => no64All ts
  | .struct ts => no64All ts
  | .versioned t => no64 t
  | .enum vs => no64All vs
  | .polyvar vs => no64All vs
  | _ => true
def no64All : BTys → Bool
  | .nil => true
  | .cons _ t ts => no64 t && no64All ts
end

mutual
theorem small_of_no64 : (t : BTy) → no64 t = true → (b : t.base) → Small t b
  | .unit, _, _ => trivial
  | .bool, _, _ => trivial
  | .u8, _, _ => trivial
  | .int k, h, _ => fun hk => by rw [hk] at h; cases h
  | .ext32, _, _ => trivial
  | .bytes32, _, _ => trivial
  | .bytes, _, _ => trivial
  | .key, _, _ => trivial
  | .sig, _, _ => trivial
  | .option t, h, _ => fun w _ => small_of_no64 t h w
  | .newtype t, h, b => small_of_no64 t h b
  | .seq t, h, _ => fun w _ => small_of_no64 t h w
  | .tuple ts, h, b => smallAll_of_no64 ts h b
  | .struct ts, h, b => smallAll_of_no64 ts h b
  | .versioned t, h, b => small_of_no64 t h b
  | .enum vs, h, b => smallVar_of_no64 vs h b
  | .polyvar vs, h, b => smallVar_of_no64 vs h b
theorem smallAll_of_no64 : (ts : BTys) → no64All ts = true → (b : ts.prod) → SmallAll ts b
  | .nil, _, _ => trivial
  | .cons _ t ts, h, _ => by
    simp only [no64All, Bool.and_eq_true] at h
    exact ⟨small_of_no64 t h.1 _, smallAll_of_no64 ts h.2 _⟩
theorem smallVar_of_no64 : (vs : BTys) → no64All vs = true → (b : vs.sum) → SmallVar vs b
  | .nil, _, b => nomatch (show Empty from b)
  | .cons _ t ts, h, b => by
    simp only [no64All, Bool.and_eq_true] at h
    obtain w | w : t.base ⊕ ts.sum := b
    · exact small_of_no64 t h.1 w
    · exact smallVar_of_no64 ts h.2 w
end

set_option maxRecDepth 20000 in
theorem proof_fits (p : proof.base) (h : InMemory proof p) : Fits proof.wire (toWire proof p) :=
  (fits_iff proof (by decide +kernel) p).mpr ⟨h, small_of_no64 proof (by decide +kernel) p⟩

set_option maxRecDepth 20000 in
theorem carried_block (b : Blk) (hm : InMemory block b) (h : Shown b) : Leaves Leaf.Carried Json.Block.block (toJsonForm b) := by
  have h' := (shown_block b).mpr h
  rw [toJsonForm_parts] at h' ⊢
  obtain ⟨ps, pf, d, dp, v, o, u⟩ : BlkParts := b
  exact ⟨carried_part protocolState (by decide +kernel) Json.Block.protocolState (by decide +kernel) rfl ps h'.1,
    proof_fits pf hm.2.1,
    carried_part stagedLedgerDiff (by decide +kernel) Json.Block.stagedLedgerDiff (by decide +kernel) rfl d h'.2.2.1,
    carried_part deltaProof (by decide +kernel) Json.Block.deltaProof (by decide +kernel) rfl dp h'.2.2.2.1, trivial⟩

theorem pair_eq {α β : Type} {a a' : α} {b b' : β} (h1 : a = a') (h2 : b = b') : (a, b) = (a', b') := by rw [h1, h2]

set_option maxRecDepth 20000 in
theorem norm_block (b : Blk) : norm Json.Block.block (toJsonForm b) = toJsonForm (plainVersions b) := by
  rw [toJsonForm_parts, toJsonForm_parts]
  obtain ⟨ps, pf, d, dp, v, o, u⟩ : BlkParts := b
  refine congrArg (version1 (t := Json.Block.externalTransition.wire)) ?_
  exact pair_eq (norm_toWire protocolState (by decide +kernel) Json.Block.protocolState (by decide +kernel) rfl ps)
    (pair_eq rfl (pair_eq (norm_toWire stagedLedgerDiff (by decide +kernel) Json.Block.stagedLedgerDiff (by decide +kernel) rfl d)
      (pair_eq (norm_toWire deltaProof (by decide +kernel) Json.Block.deltaProof (by decide +kernel) rfl dp) rfl)))

theorem from_toJsonForm (b : Blk) : fromJsonForm (toJsonForm b) = .ok b := by
  unfold fromJsonForm toJsonForm
  rw [cast_cast, cast_eq, from_to]

/-! ## Writing and reading back -/

/-- **C92 (writing then reading).** Every block whose digests and branches are texts is written to a document, and
the document is read back as the block with protocol version 2.0.0 and none proposed.  Missing: the protocol
versions (`C92_protocol_version_fails`) and the blocks that cannot be written (`C92_unwritable`). -/
theorem C92_write_then_read_partial (E : Env) (b : Blk) (hm : InMemory block b) (h : Shown b) :
    ∃ j, tryIntoJson E b = .ok j ∧ tryFromJson E j = .ok (plainVersions b) := by
  obtain ⟨j, h1, h2⟩ := Json.Block.C61_roundtrip_partial E (toJsonForm b) (carried_block b hm h)
  refine ⟨j, h1, ?_⟩
  unfold tryFromJson
  rw [h2, norm_block]
  exact from_toJsonForm _

/-- **C92 (what cannot be written).** For every other block the process aborts or, in a build without checks, makes
a text that is not UTF-8. -/
theorem C92_unwritable (E : Env) (b : Blk) (h : ¬ Shown b) :
    tryIntoJson E b = .error .panic ∨ tryIntoJson E b = .error .ub := by
  refine (Json.Block.C61_written_iff E (toJsonForm b)).2 (fun hw => h ((shown_block b).mp ?_))
  exact Leaves.mono (fun c v hv => by cases c <;> first | trivial | exact hv) _ _ hw

/-- **C92 (documents determine blocks).** Two blocks have the same document exactly when they differ at most in their
protocol versions. -/
theorem C92_same_document_iff (E : Env) (b c : Blk) (hb : InMemory block b) (hc : InMemory block c) (h : Shown b) (h' : Shown c) :
    tryIntoJson E b = tryIntoJson E c ↔ plainVersions b = plainVersions c := by
  constructor
  · intro he
    obtain ⟨j, h1, h2⟩ := C92_write_then_read_partial E b hb h
    obtain ⟨k, h3, h4⟩ := C92_write_then_read_partial E c hc h'
    rw [h1, h3] at he
    rw [Except.ok.inj he, h4] at h2
    exact (Except.ok.inj h2).symm
  · intro he
    have e : ∀ x : Blk, tryIntoJson E x = Json.ser E Json.Block.block (toJsonForm (plainVersions x)) := fun x => by
      rw [← norm_block, Json.ser_norm]; rfl
    rw [e b, e c, he]

/-! ## Reading -/

/-- A digest is a text. -/
def DigestText : (c : Leaf) → c.wire.denote → Prop
  | .byteVec, v => Json.IsUtf8 (v : Bytes)
  | _, _ => True

theorem digest_setVersions (c : Leaf) (v : c.wire.denote) (h : DigestText c v) : DigestText c (setVersions c.wire v) := by
  cases c with
  | byteVec =>
    have e : setVersions Leaf.byteVec.wire v = v := List.map_id' (show List UInt8 from v)
    rw [e]
    exact h
  | _ => trivial

theorem digest_noText (c : Leaf) (v : c.wire.denote) (h : noText c = true) : DigestText c v := by
  cases c <;> first | trivial | cases h

theorem form_of_read (v : Json.Block.block.wire.denote) (b : Blk) (h : fromJsonForm v = .ok b) :
    toJsonForm b = setVersions Json.Block.block.wire v := by
  unfold fromJsonForm at h
  cases e : fromWire block (cast (congrArg Ty.denote wire_eq_json.symm) v) with
  | error e' => rw [e] at h; cases h
  | ok b' =>
    rw [e] at h
    obtain rfl := Except.ok.inj h
    have h1 := to_from block block_ordinary _ _ e
    unfold toJsonForm
    rw [h1]
    have : ∀ (w w' : Ty) (e : w = w') (v : w'.denote),
        cast (congrArg Ty.denote e) (setVersions w (cast (congrArg Ty.denote e.symm) v)) = setVersions w' v := by
      intro w w' e v
      subst e
      rfl
    exact this _ _ wire_eq_json v

set_option maxRecDepth 20000 in
/-- What is read has protocol version 2.0.0 and none proposed. -/
theorem read_plain (v : Json.Block.block.wire.denote) (hn : norm Json.Block.block v = v) (b : Blk) (h : fromJsonForm v = .ok b) :
    plainVersions b = b := by
  have hp := Json.Block.norm_protocol_version v
  rw [hn] at hp
  obtain ⟨n, ⟨p1, p2, p3, p4, pv, o, u, u'⟩, u2⟩ : {n : Int // BinProt.u16.holds n} × Json.Block.Parts × Unit := v
  have hpv : pv = Json.Block.version2 := hp.1
  have ho : o = none := hp.2.1
  subst hpv ho
  unfold fromJsonForm at h
  cases e : fromWire block (cast (congrArg Ty.denote wire_eq_json.symm)
      ((n, (p1, p2, p3, p4, Json.Block.version2, none, u, u'), u2) : {n : Int // BinProt.u16.holds n} × Json.Block.Parts × Unit)) with
  | error e' => rw [e] at h; cases h
  | ok b' =>
    rw [e] at h
    obtain rfl := Except.ok.inj h
    obtain ⟨x1, y1, rfl, -, h1⟩ := fromWireAll_cons (t := protocolState) (a := p1) e
    obtain ⟨x2, y2, rfl, -, h2⟩ := fromWireAll_cons (t := proof) (a := p2) h1
    obtain ⟨x3, y3, rfl, -, h3⟩ := fromWireAll_cons (t := stagedLedgerDiff) (a := p3) h2
    obtain ⟨x4, y4, rfl, -, h4⟩ := fromWireAll_cons (t := deltaProof) (a := p4) h3
    have h5 := Except.ok.inj h4
    subst h5
    rfl

/-- **C92 (reading then writing).** Whatever document a block was read from: its digests are texts, and if its
branches are ASCII characters it is written to a document that is read as the same block.  Missing: other branches,
see `C92_unwritable`. -/
theorem C92_read_then_write_partial (E : Env) (j : J) (b : Blk) (hm : InMemory block b) (h : tryFromJson E j = .ok b)
    (ha : ∀ d ∈ preDiffs b, ∀ w ∈ completedWorks d, ∀ p ∈ workProofs w, (whichBranch (proofParts p).2).toNat < 128) :
    ∃ k, tryIntoJson E b = .ok k ∧ tryFromJson E k = .ok b := by
  unfold tryFromJson at h
  cases e : Json.de E Json.Block.block j with
  | error e' => rw [e] at h; cases h
  | ok v =>
    rw [e] at h
    obtain ⟨h1, h2⟩ := Json.de_ok E _ j v e
    have hd : Leaves DigestText Json.Block.block v :=
      Leaves.mono (fun c v hc => by cases c <;> first | trivial | exact hc rfl trivial) _ _ h1
    have hd' := leaves_setVersions digest_setVersions Json.Block.block (by decide +kernel) v hd
    rw [← form_of_read v b h] at hd'
    have hd2 := (shown_parts digest_noText b).mp hd'
    have hs : Shown b := fun d h1 w h2 p h3 => ⟨(hd2 d h1 w h2 p h3).1, ha d h1 w h2 p h3⟩
    obtain ⟨k, h3, h4⟩ := C92_write_then_read_partial E b hm hs
    exact ⟨k, h3, by rw [h4, read_plain v h2 b h]⟩

/-- **C92 (formats agree).** A block read from the wire with the default protocol versions and passed on as JSON is
read there as the same block, so it is the same bytes on the wire again. -/
theorem C92_formats_agree_partial (E : Env) (data : Bytes) (sched : List BinProt.REv) (b : Blk)
    (_ : tryFromBinprot block ⟨data, sched⟩ = .ok b) (hm : InMemory block b) (h : Shown b) (hv : plainVersions b = b) :
    ∃ j c, tryIntoJson E b = .ok j ∧ tryFromJson E j = .ok c ∧ tryIntoBinprot block c = tryIntoBinprot block b := by
  obtain ⟨j, h1, h2⟩ := C92_write_then_read_partial E b hm h
  exact ⟨j, b, h1, hv ▸ h2, rfl⟩

/-! ## Examples and disagreements -/

/-- The proofs of all completed works. -/
def allProofs (b : Blk) : List ledgerProof.base := (preDiffs b).flatMap (fun d => (completedWorks d).flatMap workProofs)

theorem mem_allProofs {b : Blk} {p : ledgerProof.base} :
    p ∈ allProofs b ↔ ∃ d ∈ preDiffs b, ∃ w ∈ completedWorks d, p ∈ workProofs w := by
  simp only [allProofs, List.mem_flatMap]

set_option maxRecDepth 20000 in
theorem sample_digests : (allProofs sampleBlock.1).all (fun p => (sokDigest (proofParts p).1 == [1, 3, 104, 105, 33]) &&
    decide ((whichBranch (proofParts p).2).toNat < 128)) = true := by decide +kernel

/-- The sample block, which has completed works, can be written. -/
theorem sample_shown : Shown sampleBlock.1 := by
  intro d hd w hw p hp
  have := List.all_eq_true.mp sample_digests p (mem_allProofs.mpr ⟨d, hd, w, hw, hp⟩)
  simp only [Bool.and_eq_true, beq_iff_eq, decide_eq_true_eq] at this
  rw [this.1]
  exact ⟨⟨String.ofList [Char.ofNat 1, Char.ofNat 3, 'h', 'i', '!'], by decide +kernel⟩, this.2⟩

set_option maxRecDepth 20000 in
example : (allProofs sampleBlock.1).length = 2 := by decide +kernel

example (E : Env) : ∃ j, tryIntoJson E sampleBlock.1 = .ok j ∧ tryFromJson E j = .ok (plainVersions sampleBlock.1) :=
  C92_write_then_read_partial E _ sampleBlock.2.1 sample_shown

/-- The current major protocol version. -/
def majorVersion (b : Blk) : Int :=
  (show {n : Int // BinProt.u32.holds n} × {n : Int // BinProt.u32.holds n} × {n : Int // BinProt.u32.holds n} × Unit from
    (show BlkParts from b).2.2.2.2.1).1.val

set_option maxRecDepth 20000 in
theorem sample_major : majorVersion sampleBlock.1 = 7 := by decide +kernel

/-- **C92** is false of the code: the protocol version of a block is lost. -/
theorem C92_protocol_version_fails (E : Env) : ∃ b c : Blk, ∃ j, tryIntoJson E b = .ok j ∧ tryFromJson E j = .ok c ∧
    majorVersion b = 7 ∧ majorVersion c = 2 := by
  obtain ⟨j, h1, h2⟩ := C92_write_then_read_partial E _ sampleBlock.2.1 sample_shown
  exact ⟨_, _, j, h1, h2, sample_major, rfl⟩

/-- A block with the fixed protocol versions is in memory if the original is. -/
theorem inMemory_plain (b : Blk) (h : InMemory block b) : InMemory block (plainVersions b) := by
  obtain ⟨ps, pf, d, dp, v, o, u, u'⟩ : BlkParts := b
  obtain ⟨h1, h2, h3, h4, h5⟩ := h
  exact ⟨h1, h2, h3, h4, ⟨trivial, trivial, trivial, trivial⟩, (fun w h => by cases h), trivial, trivial⟩

/-- The hypotheses of the theorems on reading are met. -/
example (E : Env) : ∃ j b, InMemory block b ∧ tryFromJson E j = .ok b ∧ Shown b ∧ plainVersions b = b := by
  obtain ⟨j, h1, h2⟩ := C92_write_then_read_partial E _ sampleBlock.2.1 sample_shown
  exact ⟨j, _, inMemory_plain _ sampleBlock.2.1, h2, sample_shown, rfl⟩

set_option maxRecDepth 20000 in
theorem sampleB255_isSome : (sampleB 255 block).isSome = true := by decide +kernel

/-- A block whose proofs have branch 255. -/
def oddBlock : {b : Blk // InMemory block b ∧ Small block b} := (sampleB 255 block).get sampleB255_isSome

set_option maxRecDepth 20000 in
theorem odd_branch : (allProofs oddBlock.1).any (fun p => decide (¬ (whichBranch (proofParts p).2).toNat < 128)) = true := by
  decide +kernel

/-- **C92** is false of the code: there are blocks the node can hold, write to the wire and read from it but not write to
a document. -/
theorem C92_unwritable_fails (E : Env) : ∃ b : Blk, tryFromBinprot block ⟨tryIntoBinprot block b, []⟩ = .ok b ∧
    (tryIntoJson E b = .error .panic ∨ tryIntoJson E b = .error .ub) := by
  refine ⟨oddBlock.1, (C89_write_then_read_partial _ oddBlock.2.1 [] (by simp [BinProt.NoReadErrors])).1 oddBlock.2.2,
    C92_unwritable E _ (fun h => ?_)⟩
  obtain ⟨p, hp, hb⟩ := List.any_eq_true.mp odd_branch
  obtain ⟨d, hd, w, hw, hp⟩ := mem_allProofs.mp hp
  exact absurd (h d hd w hw p hp).2 (of_decide_eq_true hb)

set_option maxRecDepth 20000 in
theorem sample255_isSome : (Json.sample 255 Json.Block.block).isSome = true := by decide +kernel

/-- A document's block all of whose hashes and signatures are bytes 255. -/
def badSignatures : {v : Json.Block.Blk // Leaves Leaf.Carried Json.Block.block v} :=
  (Json.sample 255 Json.Block.block).get sample255_isSome

def refused : Except JErr Blk → Bool
  | .error .panic => true
  | _ => false

set_option maxRecDepth 20000 in
theorem badSignatures_refused : refused (fromJsonForm (norm Json.Block.block badSignatures.1)) = true := by decide +kernel

/-- **C92** is false of the code: a document with a signature outside the field aborts the process. -/
theorem C92_reading_aborts_fails (E : Env) : ∃ j, tryFromJson E j = .error .panic := by
  obtain ⟨j, -, h2⟩ := Json.Block.C61_roundtrip_partial E badSignatures.1 badSignatures.2
  refine ⟨j, ?_⟩
  unfold tryFromJson
  rw [h2]
  have h := badSignatures_refused
  dsimp only
  cases e : fromJsonForm (norm Json.Block.block badSignatures.1) with
  | ok b => rw [e] at h; cases h
  | error e' =>
    rw [e] at h
    cases e' with
    | panic => rfl
    | _ => cases h

end MinaRs.Block
