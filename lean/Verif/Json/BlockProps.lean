import Verif.Json.Block
import Verif.Json.Bad
import Verif.Json.Lemmas

/-! C57 and C61: list-tagged enums and the JSON form of blocks. -/

namespace MinaRs.Json

open BinProt (Ty Tys Fits)

/-! ## C57: list-tagged enums -/

/-- The list-tagged enums of the code (`impl_mina_enum_json_serde!` and `..._with_option!`), without
version layers. -/
def listEnums : List JTy := [
  .listEnum false false (Block.variants [("Infinite", .unit), ("Finite", .newtype Block.point)]),
  .listEnum false false (Block.variants [("Scalar_challenge", .newtype Block.scalarChallenge)]),
  .listEnum false true (Block.variants [("Shifted_value", .newtype Block.field)]),
  .listEnum false true (Block.variants [("Set_delegate",
    .struct (Block.fields [("delegator", Block.publicKey), ("new_delegate", Block.publicKey)]))]),
  .listEnum false false (Block.variants [("Payment", .newtype Block.payment), ("Stake_delegation", .newtype Block.stakeDelegation)]),
  .listEnum false true (Block.variants [("Signed_command", .newtype Block.signedCommand)]),
  .listEnum false true (Block.variants [("Applied", .tuple (Block.items [Block.auxiliaryData, Block.balanceData])),
    ("Failed", .tuple (Block.items [.seq Block.failure, Block.balanceData]))]),
  .listEnum false true (Block.variants [("Zero", .unit), ("One", .newtype (.option Block.feeTransfer)),
    ("Two", .tuple (Block.items [.option Block.feeTransfer, .option Block.feeTransfer]))]),
  .listEnum false true (Block.variants
    [("Coinbase", .newtype (Block.v1 (.struct (Block.fields
        [("coinbase_receiver_balance", Block.balance), ("fee_transfer_receiver_balance", .option Block.balance)])))),
      ("Fee_transfer", .newtype (Block.v1 (.struct (Block.fields
        [("receiver1_balance", Block.balance), ("receiver2_balance", .option Block.balance)]))))]),
  .listEnum false true (Block.variants [("Pos", .unit), ("Neg", .unit)]),
  .listEnum true true (Block.variants [("One", .newtype Block.ledgerProof), ("Two", .tuple (Block.items [Block.ledgerProof, Block.ledgerProof]))])]

set_option maxRecDepth 20000 in
theorem listEnums_sound : ∀ t ∈ listEnums, t.Sound = true := by
  have : listEnums.all JTy.Sound = true := by decide +kernel
  exact List.all_eq_true.mp this

/-- **C57.** Every value of every list-tagged enum of the code whose parts can be carried is written to
JSON, and reading the document returns it, up to what JSON leaves out. -/
theorem C57_roundtrip_partial (E : Env) (t : JTy) (ht : t ∈ listEnums) (v : t.wire.denote) (hv : Leaves Leaf.Carried t v) :
    ∃ j, ser E t v = .ok j ∧ de E t j = .ok (norm t v) := by
  obtain ⟨j, h1, h2, -⟩ := roundtrip E t (listEnums_sound t ht) v hv
  exact ⟨j, h1, h2⟩

/-- Each of them has a value that meets the condition. -/
example : listEnums.all (fun t => (sample 7 t).isSome) = true := by decide +kernel

theorem variantName_cons_inl (n : String) (p : JPay) (vs : JVars) (w : p.wire.denote) :
    (JVars.cons n p vs).wire.variantName (.inl w : p.wire.denote ⊕ vs.wire.sum) = n := rfl
theorem variantName_cons_inr (n : String) (p : JPay) (vs : JVars) (w : vs.wire.sum) :
    (JVars.cons n p vs).wire.variantName (.inr w : p.wire.denote ⊕ vs.wire.sum) = vs.wire.variantName w := rfl

/-- An externally tagged document with this tag. -/
def TaggedBy (n : String) (j : J) : Prop := j = .str n ∨ ∃ v, j = .obj [(n, v)]

theorem serPay_tag {E : Env} {n : String} {p : JPay} {w : p.wire.denote} {j : J} (h : serPay E n p w = .ok j) : TaggedBy n j := by
  cases p with
  | unit => exact .inl (Except.ok.inj h).symm
  | newtype t =>
    rw [serPay_newtype] at h
    split at h
    · exact .inr ⟨_, (Except.ok.inj h).symm⟩
    · cases h
  | tuple ts =>
    rw [serPay_tuple] at h
    split at h
    · exact .inr ⟨_, (Except.ok.inj h).symm⟩
    · cases h
  | struct ts =>
    rw [serPay_struct] at h
    split at h
    · exact .inr ⟨_, (Except.ok.inj h).symm⟩
    · cases h

theorem serTagged_tag {E : Env} : {vs : JVars} → {w : vs.wire.sum} → {j : J} → serTagged E vs w = .ok j →
    TaggedBy (vs.wire.variantName w) j
  | .nil, w, _, _ => nomatch (show Empty from w)
  | .cons n p vs, w, j, h => by
    obtain w | w : p.wire.denote ⊕ vs.wire.sum := w
    · rw [variantName_cons_inl]; exact serPay_tag h
    · rw [variantName_cons_inr]; exact serTagged_tag h

/-- **C57.** The document of a list-tagged enum is an array whose first item is the variant's name. -/
theorem C57_form (E : Env) (poly expand : Bool) (vs : JVars) (v : (JTy.listEnum poly expand vs).wire.denote) (j : J)
    (h : ser E (.listEnum poly expand vs) v = .ok j) :
    ∃ rest, j = .arr (.str (vs.wire.variantName (cast (denote_listEnum poly expand vs) v)) :: rest) := by
  rw [ser_listEnum] at h
  cases hj : serTagged E vs (cast (denote_listEnum poly expand vs) v) with
  | error e => rw [hj] at h; cases h
  | ok k =>
    rw [hj] at h
    rcases serTagged_tag hj with rfl | ⟨w, rfl⟩
    · exact ⟨[], (Except.ok.inj h).symm⟩
    · have h : toListTagged expand (.obj [(_, asValue w)]) = .ok j := h
      generalize asValue w = w at h
      cases expand <;> cases w <;> exact ⟨_, (Except.ok.inj h).symm⟩

theorem deTagged_unknown (E : Env) : (vs : JVars) → (n : String) → (c : Option J) → n ∉ vs.names →
    deTagged E vs n c = .error .err
  | .nil, _, _, _ => rfl
  | .cons m p vs, n, c, hn => by
    simp only [JVars.names, List.mem_cons, not_or] at hn
    rw [deTagged_cons, if_neg (fun h => hn.1 h.symm), deTagged_unknown E vs n c hn.2]

/-- **C57 (malformed documents).** Proved: a tag that names no variant, and a first item that is not a
string, are refused with an error.  Missing: documents that are not arrays and empty arrays, see
`C57_malformed_fails`. -/
theorem C57_malformed_partial (E : Env) (poly expand : Bool) (vs : JVars) :
    (∀ n rest, n ∉ vs.names → de E (.listEnum poly expand vs) (.arr (.str n :: rest)) = .error .err) ∧
    (∀ j k rest, (∀ n, j ≠ .str n) → de E (.listEnum poly expand vs) (.arr (j :: k :: rest)) = .error .err) := by
  have hu := deTagged_unknown E
  constructor
  · intro n rest hn
    rw [de_listEnum]
    cases rest with
    | nil =>
      simp only [asValue, asValueItems, fromListTagged, taggedParts]
      rw [hu vs n none hn]
    | cons a rest =>
      cases rest with
      | nil =>
        simp only [asValue, asValueItems, fromListTagged, taggedParts]
        rw [hu vs n _ hn]
      | cons b rest =>
        simp only [asValue, asValueItems, fromListTagged, taggedParts]
        rw [hu vs n _ hn]
  · intro j k rest hj
    rw [de_listEnum]
    cases j with
    | str n => exact absurd rfl (hj n)
    | _ => cases rest <;> rfl

/-- **C57 fails** for malformed documents: anything but an array is a panic, and so is an empty array. -/
theorem C57_malformed_fails (E : Env) (poly expand : Bool) (vs : JVars) :
    de E (.listEnum poly expand vs) (.arr []) = .error .panic ∧
    ∀ j, (∀ items, j ≠ .arr items) → de E (.listEnum poly expand vs) j = .error .panic := by
  refine ⟨rfl, fun j hj => ?_⟩
  cases j with
  | arr items => exact absurd rfl (hj items)
  | _ => rfl

/-- **C57 fails** for the macro in general: with array expansion, a variant that carries a list loses
lists with fewer than two items.  None of the enums of the code is like this (`listEnums_sound`). -/
theorem C57_short_lists_fail (E : Env) (b : Bool) :
    let t : JTy := .listEnum false true (.cons "L" (.newtype (.seq .bool)) .nil)
    (∃ j, ser E t (.inl ([] : List Bool) : List Bool ⊕ Empty) = .ok j ∧ de E t j = .error .err) ∧
    (∃ j, ser E t (.inl ([b] : List Bool) : List Bool ⊕ Empty) = .ok j ∧ de E t j = .error .err) :=
  ⟨⟨_, rfl, rfl⟩, ⟨_, rfl, rfl⟩⟩

/-- What the list form adds: a one-item array around an externally tagged object is also accepted. -/
theorem C57_also_accepted (E : Env) (poly expand : Bool) (vs : JVars) (n : String) (c : J) (v : (JTy.listEnum poly expand vs).wire.denote)
    (h : de E (.listEnum poly expand vs) (.arr [.str n, c]) = .ok v) :
    de E (.listEnum poly expand vs) (.arr [.obj [(n, c)]]) = .ok v := h

/-- **C57.** Behind a tag, members may be in any order. -/
theorem C57_any_order (E : Env) (poly expand : Bool) (vs : JVars) (n : String) (es es' : List (String × J))
    (h : es.Perm es') (hn : (es.map Prod.fst).Nodup) :
    de E (.listEnum poly expand vs) (.arr [.str n, .obj es]) = de E (.listEnum poly expand vs) (.arr [.str n, .obj es']) := by
  rw [de_listEnum, de_listEnum]
  simp only [asValue, asValueItems, asValueMembers_reordered h hn]

/-- **C57 fails** for repeated members: behind a tag the last member of a name counts and the earlier one, whatever it is, is passed
over without an error … -/
theorem C57_repeated_fails (E : Env) (poly expand : Bool) (vs : JVars) (n k : String) (x y : J) (pre mid post : List (String × J)) :
    de E (.listEnum poly expand vs) (.arr [.str n, .obj (pre ++ (k, x) :: mid ++ (k, y) :: post)]) =
      de E (.listEnum poly expand vs) (.arr [.str n, .obj (pre ++ mid ++ (k, y) :: post)]) := by
  rw [de_listEnum, de_listEnum]
  simp only [asValue, asValueItems, asValueMembers_repeated]

theorem deStruct_repeated (E : Env) : (ts : JTys) → (es : List (String × J)) → (k : String) → k ∈ ts.names → 2 ≤ (lookup k es).length →
    ∃ e, deStruct E ts es = .error e
  | .cons n t ts, es, k, hk, hl => by
    rw [deStruct_cons]
    by_cases hn : n = k
    · subst hn
      match h : lookup n es, hl with
      | _ :: _ :: _, _ => exact ⟨.err, rfl⟩
    · obtain ⟨e, he⟩ := deStruct_repeated E ts es k (by
        simp only [JTys.names, List.mem_cons] at hk
        exact hk.resolve_left (fun h => hn h.symm)) hl
      rw [he]
      split
      · split <;> exact ⟨_, rfl⟩
      · split <;> exact ⟨_, rfl⟩
      · exact ⟨_, rfl⟩
  | .skip n s ts, es, k, hk, hl => by
    obtain ⟨e, he⟩ := deStruct_repeated E ts es k hk hl
    exact ⟨e, by rw [deStruct_skip, he]⟩

/-- … while an object that is read directly may not repeat a member. -/
theorem C57_repeated_refused (E : Env) (ts : JTys) (k : String) (x y : J) (pre mid post : List (String × J)) (hk : k ∈ ts.names) :
    ∃ e, de E (.struct ts) (.obj (pre ++ (k, x) :: mid ++ (k, y) :: post)) = .error e := by
  apply deStruct_repeated E ts _ k hk
  simp only [Json.lookup_app, lookup_cons, if_pos, List.length_append, List.length_cons]
  omega

/-- **C57.** What is behind a tag is written with its members in the order of their names, at every depth. -/
theorem C57_sorted (E : Env) (poly expand : Bool) (vs : JVars) (v : (JTy.listEnum poly expand vs).wire.denote) (j : J)
    (h : ser E (.listEnum poly expand vs) v = .ok j) : ∃ items, j = .arr items ∧ Sorted j := by
  obtain ⟨rest, rfl⟩ := C57_form E poly expand vs v j h
  refine ⟨_, rfl, ?_⟩
  rw [ser_listEnum] at h
  split at h
  · rw [← toListTagged_asValue expand _ _ h]
    exact asValue_sorted _
  · cases h

/-- A tagged object with a repeated member that is accepted, with the last one. -/
example (E : Env) : de E (.listEnum false false (.cons "A" (.struct (.cons "x" .bool .nil)) .nil))
    (.arr [.str "A", .obj [("x", .num 7), ("x", .bool true)]]) = .ok (.inl (true, ()) : (Bool × Unit) ⊕ Empty) := by rfl

/-! ## C61: blocks -/

namespace Block

/-- Blocks (`ExternalTransitionV1`) as a record: the version number and the fields of
`ExternalTransition` (`external_transition.rs:22-44`). -/
abbrev Blk : Type := block.wire.denote

/-- `ProtocolVersionV1` (`protocol_version.rs:11-28`) -/
abbrev PV : Type := (versionedTy protoVersionTy).denote

/-- The parts of a block. -/
abbrev Parts : Type :=
  protocolState.wire.denote × proof.wire.denote × stagedLedgerDiff.wire.denote × deltaProof.wire.denote ×
    PV × Option PV × Unit × Unit

def parts (v : Blk) : Parts := (show {n : Int // BinProt.u16.holds n} × Parts × Unit from v).2.1
def versionNumber (v : Blk) : Int := (show {n : Int // BinProt.u16.holds n} × Parts × Unit from v).1.val
def currentProtocolVersion (v : Blk) : PV := (parts v).2.2.2.2.1
def proposedProtocolVersion (v : Blk) : Option PV := (parts v).2.2.2.2.2.1
/-- Protocol version 2.0.0, in a version-1 wrapper. -/
def version2 : PV :=
  version1 (t := protoVersionTy)
    ((⟨2, by decide⟩ : {n : Int // BinProt.u32.holds n}), (⟨0, by decide⟩ : {n : Int // BinProt.u32.holds n}),
      (⟨0, by decide⟩ : {n : Int // BinProt.u32.holds n}), ())

/-- A block with another current protocol version. -/
def withProtocolVersion (v : Blk) (pv : PV) : Blk :=
  let q : {n : Int // BinProt.u16.holds n} × Parts × Unit := v
  ((q.1, (q.2.1.1, q.2.1.2.1, q.2.1.2.2.1, q.2.1.2.2.2.1, pv, q.2.1.2.2.2.2.2), ()) :
    {n : Int // BinProt.u16.holds n} × Parts × Unit)

/-- **C61.** Writing a block to JSON and reading it back returns the block with every version number 1
and every skipped field at its default (`norm`).  Missing: these parts, see
`C61_protocol_version_fails`; and blocks that cannot be written, see `C61_written_iff`. -/
theorem C61_roundtrip_partial (E : Env) (v : Blk) (hv : Leaves Leaf.Carried block v) :
    ∃ j, ser E block v = .ok j ∧ de E block j = .ok (norm block v) := by
  obtain ⟨j, h1, h2, -⟩ := roundtrip E block block_sound v hv
  exact ⟨j, h1, h2⟩

/-- **C61.** Blocks with all version numbers 1 and default protocol versions survive unchanged. -/
theorem C61_roundtrip_plain_partial (E : Env) (v : Blk) (hv : Leaves Leaf.Carried block v) (hn : norm block v = v) :
    ∃ j, ser E block v = .ok j ∧ de E block j = .ok v := by
  obtain ⟨j, h1, h2⟩ := C61_roundtrip_partial E v hv
  exact ⟨j, h1, hn ▸ h2⟩

/-- **C61.** Two blocks have the same document exactly when they differ only in version numbers and
skipped fields. -/
theorem C61_same_document_iff (E : Env) (v w : Blk) (hv : Leaves Leaf.Carried block v) (hw : Leaves Leaf.Carried block w) :
    ser E block v = ser E block w ↔ norm block v = norm block w := by
  constructor
  · intro h
    obtain ⟨j, h1, h2⟩ := C61_roundtrip_partial E v hv
    obtain ⟨k, h3, h4⟩ := C61_roundtrip_partial E w hw
    rw [h1, h3] at h
    cases h
    rw [h2] at h4
    exact Except.ok.inj h4
  · intro h
    rw [← ser_norm E block v, ← ser_norm E block w, h]

/-- **C61 (writing).** A block is written exactly when all its leaves have a text form; otherwise the
outcome is a panic or undefined behaviour, never an error. -/
theorem C61_written_iff (E : Env) (v : Blk) :
    ((∃ j, ser E block v = .ok j) ↔ Leaves Leaf.Writable block v) ∧
    (¬ Leaves Leaf.Writable block v → ser E block v = .error .panic ∨ ser E block v = .error .ub) := by
  rcases ser_decides E block v with ⟨j, h1, h2, -⟩ | ⟨e, h1, h2, h3⟩
  · exact ⟨⟨fun _ => h2, fun _ => ⟨j, h1⟩⟩, fun h => absurd h2 h⟩
  · refine ⟨⟨fun ⟨j, hj⟩ => ?_, fun h => absurd h h3⟩, fun _ => ?_⟩
    · rw [h1] at hj; cases hj
    · cases e with
      | err => exact absurd rfl h2
      | panic => exact .inl h1
      | ub => exact .inr h1

theorem sample_isSome : (sample 7 block).isSome = true := by decide +kernel

/-- A block with something in every list and option. -/
def sampleBlock : {v : Blk // Leaves Leaf.Carried block v} := (sample 7 block).get sample_isSome

/-- It meets the conditions of the round trip, and it is written and read back. -/
example (E : Env) : ∃ j, ser E block sampleBlock.1 = .ok j ∧ de E block j = .ok (norm block sampleBlock.1) :=
  C61_roundtrip_partial E _ sampleBlock.2

theorem norm_protocol_version (v : Blk) :
    currentProtocolVersion (norm block v) = version2 ∧ proposedProtocolVersion (norm block v) = none ∧
    versionNumber (norm block v) = 1 := ⟨rfl, rfl, rfl⟩

/-- **C61 fails**: reading back any block gives protocol version 2.0.0 and no proposed version, whatever
they were. -/
theorem C61_protocol_version_fails (E : Env) (v w : Blk) (hv : Leaves Leaf.Carried block v) (j : J)
    (hj : ser E block v = .ok j) (hw : de E block j = .ok w) :
    currentProtocolVersion w = version2 ∧ proposedProtocolVersion w = none ∧ versionNumber w = 1 := by
  obtain ⟨k, h1, h2⟩ := C61_roundtrip_partial E v hv
  rw [hj] at h1
  cases h1
  rw [hw] at h2
  rw [Except.ok.inj h2]
  exact norm_protocol_version v

/-- Protocol version 3.0.0. -/
def version3 : PV :=
  version1 (t := protoVersionTy)
    ((⟨3, by decide⟩ : {n : Int // BinProt.u32.holds n}), (⟨0, by decide⟩ : {n : Int // BinProt.u32.holds n}),
      (⟨0, by decide⟩ : {n : Int // BinProt.u32.holds n}), ())

theorem version3_ne : version3 ≠ version2 := by
  intro h
  have h1 := congrArg (fun x : PV => (show {n : Int // BinProt.u16.holds n} ×
    ({n : Int // BinProt.u32.holds n} × {n : Int // BinProt.u32.holds n} × {n : Int // BinProt.u32.holds n} × Unit) × Unit
      from x).2.1.1.val) h
  exact absurd h1 (by decide)

/-- **C61 fails**: a block that is written and read back as another block, and two different blocks with
the same document. -/
theorem C61_roundtrip_fails (E : Env) :
    ∃ v w : Blk, ∃ j, ser E block v = .ok j ∧ ser E block w = .ok j ∧ de E block j = .ok w ∧ v ≠ w := by
  have hk : Leaves Leaf.Carried block (withProtocolVersion sampleBlock.1 version3) := sampleBlock.2
  obtain ⟨j, h1, h2⟩ := C61_roundtrip_partial E _ hk
  refine ⟨_, _, j, h1, by rw [ser_norm]; exact h1, h2, fun h => ?_⟩
  have := (norm_protocol_version (withProtocolVersion sampleBlock.1 version3)).1
  rw [← h] at this
  exact version3_ne this

def isKey : Leaf → Bool | .publicKey => true | _ => false
def isChar : Leaf → Bool | .char => true | _ => false
def isDigest : Leaf → Bool | .byteVec => true | _ => false

set_option maxRecDepth 20000 in
theorem bad_isSome : (bad isKey block).isSome = true ∧ (bad isChar block).isSome = true ∧
    (bad isDigest block).isSome = true := by decide +kernel

/-- **C61 fails**: there are blocks that cannot be written only because of public keys whose coordinate is
not a field element, only because of characters that are not ASCII, and only because of digests that are
not UTF-8.  The outcome is a panic or undefined behaviour. -/
theorem C61_unwritable_fails (E : Env) (pick : Leaf → Bool) (h : pick = isKey ∨ pick = isChar ∨ pick = isDigest) :
    ∃ v : Blk, Leaves (fun c w => pick c = false → c.Writable w) block v ∧
      (ser E block v = .error .panic ∨ ser E block v = .error .ub) := by
  have hs : (bad pick block).isSome = true := by
    rcases h with rfl | rfl | rfl
    · exact bad_isSome.1
    · exact bad_isSome.2.1
    · exact bad_isSome.2.2
  obtain ⟨v, hv⟩ := Option.isSome_iff_exists.mp hs
  exact ⟨v.1, v.2.2, (C61_written_iff E v.1).2 v.2.1⟩

end Block

end MinaRs.Json
