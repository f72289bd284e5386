import Verif.Block.Samples
import Verif.Block.Codec

/-! The blocks a node works with, read from and written to the wire (C89). -/

namespace MinaRs.Block

open BinProt (Ty Tys IntKind Fits FitsProd FitsSum Err NoReadErrors REv toBytes decode)
open BinProt.Spec (Wire WfTy WfTys)
open Json (arr32 u8s versionedTy version1)
open Spec

set_option maxRecDepth 20000 in
theorem block_ordinary : Ordinary block = true := by decide +kernel

theorem block_wf : WfTy block.wire := wf_of_ordinary block block_ordinary

set_option maxRecDepth 20000 in
/-- The layout of a block here is the layout used for its JSON (C61). -/
theorem block_wire : block.wire = Json.Block.block.wire := by rfl

/-! ## Writing and reading back -/

/-- **C89 (writing then reading).** Whatever block the node holds and however the reader cuts the bytes up:
if its 64-bit numbers are all below 2^63, what the node writes is read back as the same block; and if one is
not, the bytes the node wrote are rejected. -/
theorem C89_write_then_read_partial (b : Blk) (hm : InMemory block b) (sched : List REv) (hs : NoReadErrors sched) :
    (Small block b → tryFromBinprot block ⟨tryIntoBinprot block b, sched⟩ = .ok b) ∧
    (¬ Small block b → tryFromBinprot block ⟨tryIntoBinprot block b, sched⟩ = .error .destinationIntegerOverflow) :=
  codec_write_then_read block block_ordinary b hm sched hs

example : InMemory block sampleBlock.1 ∧ Small block sampleBlock.1 ∧ NoReadErrors [] :=
  ⟨sampleBlock.2.1, sampleBlock.2.2, by simp [NoReadErrors]⟩

/-- Two different blocks are never written as the same bytes when both can be read back. -/
theorem C89_bytes_determine_block_partial (b c : Blk) (hb : InMemory block b) (hc : InMemory block c) (h : Small block b)
    (he : tryIntoBinprot block b = tryIntoBinprot block c) : b = c :=
  codec_bytes_determine block block_ordinary b c hb hc h he

/-! ## Reading -/

/-- **C89 (reading).** Every byte string, cut up in any way, has one of these outcomes: an error value; a
block, and then a prefix of the bytes is a wire form of a block whose keys and signatures are field elements
and writing the block gives that form with all version numbers set to 1; or an abort of the process, and
then a prefix of the bytes is a wire form in which a key or signature is not made of field elements. -/
theorem C89_outcomes_partial (data : Bytes) (sched : List REv) (hs : NoReadErrors sched) :
    (∃ e, (∀ m, e ≠ .panic m) ∧ tryFromBinprot block ⟨data, sched⟩ = .error e) ∨
    (∃ b enc r v, tryFromBinprot block ⟨data, sched⟩ = .ok b ∧ data = enc ++ r ∧ Wire block.wire enc v ∧
      Canonical block v ∧ tryIntoBinprot block b = toBytes block.wire (setVersions block.wire v)) ∨
    (∃ m enc r v, tryFromBinprot block ⟨data, sched⟩ = .error (.panic m) ∧ data = enc ++ r ∧
      Wire block.wire enc v ∧ ¬ Canonical block v) :=
  codec_outcomes block block_ordinary data sched hs

/-- **C89 (what is accepted).** A wire form of a block is read exactly when its keys and signatures are made
of field elements; otherwise reading it aborts the process. -/
theorem C89_accepts_iff_canonical (data : Bytes) (v : block.wire.denote) (hw : Wire block.wire data v)
    (sched : List REv) (hs : NoReadErrors sched) :
    (Canonical block v → ∃ b, tryFromBinprot block ⟨data, sched⟩ = .ok b ∧
      tryIntoBinprot block b = toBytes block.wire (setVersions block.wire v)) ∧
    (¬ Canonical block v → ∃ m, tryFromBinprot block ⟨data, sched⟩ = .error (.panic m)) :=
  codec_accepts_iff_canonical block block_ordinary data v hw sched hs

theorem wire_toBytes (v : block.wire.denote) (hf : Fits block.wire v) : Wire block.wire (toBytes block.wire v) v :=
  codec_wire_toBytes block block_ordinary v hf

/-- The wire form of the sample block is accepted. -/
example : Wire block.wire (toBytes block.wire (toWire block sampleBlock.1)) (toWire block sampleBlock.1) ∧
    Canonical block (toWire block sampleBlock.1) :=
  ⟨wire_toBytes _ ((fits_iff block block_ordinary _).mpr sampleBlock.2), codec_canonical_toWire block _⟩

/-- **C89 (what a block remembers).** Two wire forms are read as the same block exactly when they agree
after every version number is set to 1: version numbers are not kept, and nothing else is lost. -/
theorem C89_forgets_only_versions (dv dw : Bytes) (v w : block.wire.denote) (hv : Wire block.wire dv v)
    (hw : Wire block.wire dw w) (cv : Canonical block v) (cw : Canonical block w) (sched : List REv)
    (hs : NoReadErrors sched) :
    tryFromBinprot block ⟨dv, sched⟩ = tryFromBinprot block ⟨dw, sched⟩ ↔
      setVersions block.wire v = setVersions block.wire w :=
  codec_forgets_only_versions block block_ordinary dv dw v w hv hw cv cw sched hs

/-! ## What goes wrong -/

/-- **C89** is false of the code: reading a block from the network can abort the process. -/
theorem C89_reading_never_aborts_fails :
    ∃ data : Bytes, ∃ m, tryFromBinprot block ⟨data, []⟩ = .error (.panic m) := by
  obtain ⟨m, h⟩ := (C89_accepts_iff_canonical _ badBlock.1 (wire_toBytes _ badBlock.2.1) []
    (by simp [NoReadErrors])).2 badBlock.2.2
  exact ⟨_, m, h⟩

/-- The wire form of a value in a version layer, with 2 as its outermost version number. -/
def withVersion2 (t : BTy) (b : t.base) : (BTy.versioned t).wire.denote :=
  ((⟨2, by decide⟩, toWire t b, ()) : {n : Int // BinProt.u16.holds n} × t.wire.denote × Unit)

theorem withVersion2_ne (t : BTy) (b : t.base) : withVersion2 t b ≠ toWire (.versioned t) b := by
  intro h
  have h1 := congrArg (fun v : {n : Int // BinProt.u16.holds n} × t.wire.denote × Unit => v.1.val) h
  exact absurd h1 (by show ¬ (2 : Int) = 1; decide)

theorem withVersion2_from (t : BTy) (b : t.base) : fromWire (.versioned t) (withVersion2 t b) = .ok b := by
  exact from_to t b

theorem withVersion2_fits (t : BTy) (b : t.base) (h : Fits t.wire (toWire t b)) :
    Fits (BTy.versioned t).wire (withVersion2 t b) := ⟨fun h => (nomatch h), h, trivial⟩

/-- What the outermost version layer of a block contains. -/
def blockBody : BTy :=
  match block with
  | .versioned t => t
  | t => t

theorem block_eq : block = .versioned blockBody := rfl

/-- **C89** is false of the code: a block labelled with another version of the format is accepted as if it
were labelled with version 1, so what a node passes on need not be what it received. -/
theorem C89_relay_keeps_bytes_fails :
    ∃ (d d' : Bytes) (b : Blk), d ≠ d' ∧ tryFromBinprot block ⟨d, []⟩ = .ok b ∧ tryFromBinprot block ⟨d', []⟩ = .ok b ∧
      tryIntoBinprot block b = d := by
  have hn : NoReadErrors ([] : List REv) := by simp [NoReadErrors]
  obtain ⟨b, hm, hs⟩ := sampleBlock
  have hf := (fits_iff block block_ordinary b).mpr ⟨hm, hs⟩
  have hf2 : Fits block.wire (withVersion2 blockBody b) := withVersion2_fits blockBody b hf.2.1
  have hr := BinProt.C07_typed_roundtrip_partial _ _ hf2 []
  rw [List.append_nil] at hr
  refine ⟨tryIntoBinprot block b, toBytes block.wire (withVersion2 blockBody b), b, ?_, ?_, ?_, rfl⟩
  · intro h
    exact withVersion2_ne blockBody b (BinProt.C08_self_delimiting_partial block.wire _ _ hf2 hf [] []
      (congrArg (· ++ []) h.symm)).1
  · exact (C89_write_then_read_partial b hm [] hn).1 hs
  · have := (BinProt.C10_strict_partial block.wire _ [] hn).2.1 _ hr
    unfold tryFromBinprot
    rw [this]
    exact withVersion2_from blockBody b

/-- The wire form of a value in a version layer, with any outermost version number. -/
def relabelled (t : BTy) (b : t.base) (k : {n : Int // BinProt.u16.holds n}) : (BTy.versioned t).wire.denote :=
  ((k, toWire t b, ()) : {n : Int // BinProt.u16.holds n} × t.wire.denote × Unit)

theorem relabelled_bytes (t : BTy) (b : t.base) (k : {n : Int // BinProt.u16.holds n}) :
    toBytes (BTy.versioned t).wire (relabelled t b k) = toBytes (.int .u16) k ++ toBytes t.wire (toWire t b) := by
  show BinProt.flush (BinProt.encode (.int .u16) k ++ (BinProt.encode t.wire (toWire t b) ++ [])) = _
  rw [List.append_nil, BinProt.flush_append]
  rfl

/-- **C89** is false of the code at every block: what the node writes starts with the version number 1, and with any other version
number in its place the bytes are read as the same block. -/
theorem C89_every_label_accepted_fails (b : Blk) (hm : InMemory block b) (hs : Small block b) (k : {n : Int // BinProt.u16.holds n})
    (sched : List REv) (hn : NoReadErrors sched) :
    ∃ body : Bytes, tryIntoBinprot block b = 0x01 :: body ∧
      tryFromBinprot block ⟨toBytes (.int .u16) k ++ body, sched⟩ = .ok b := by
  have hf := (fits_iff block block_ordinary b).mpr ⟨hm, hs⟩
  have hf2 : Fits block.wire (relabelled blockBody b k) := ⟨fun h => (nomatch h), hf.2.1, trivial⟩
  have hr := BinProt.C07_typed_roundtrip_partial _ _ hf2 []
  rw [List.append_nil] at hr
  refine ⟨toBytes blockBody.wire (toWire blockBody b), ?_, ?_⟩
  · have := relabelled_bytes blockBody b ⟨1, by decide⟩
    rw [show toBytes (.int .u16) (⟨1, by decide⟩ : {n : Int // BinProt.u16.holds n}) = [0x01] by rfl] at this
    exact this
  · have h1 : toBytes block.wire (relabelled blockBody b k) = _ := relabelled_bytes blockBody b k
    rw [← h1]
    have := (BinProt.C10_strict_partial block.wire _ sched hn).2.1 _ hr
    unfold tryFromBinprot
    rw [this]
    exact from_to blockBody b

example : InMemory block sampleBlock.1 ∧ Small block sampleBlock.1 ∧ BinProt.u16.holds 300 ∧
    toBytes (.int .u16) (⟨300, by decide⟩ : {n : Int // BinProt.u16.holds n}) = [0xfe, 0x2c, 0x01] :=
  ⟨sampleBlock.2.1, sampleBlock.2.2, by decide, by decide +kernel⟩

end MinaRs.Block
