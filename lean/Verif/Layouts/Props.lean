import Verif.Layouts.Check
import Verif.Layouts.Samples

/-!
# The block types and the layout files (C117)

`protocol/layouts` describes the OCaml types of protocol states, completed snark work and blocks.  The typed reader
(`decode` with the wire form of the Rust types) and the layout-driven reader (`decodeLoose` with the layout) are compared on the same
bytes.
-/

namespace MinaRs.Layouts
open BinProt Layouts.Spec
open BinProt.Spec (content contentOf Avoids TypedAvoids)

/-! ## Protocol states -/

/-- **C117 (states, typed to layout).** Bytes that are read as a protocol state are read under the layout of protocol states too, the
same number of bytes, and with the same content under the same field names. -/
theorem C117_state_typed (s rest : Bytes) (hs : s.length < 2 ^ 57) (v : Block.protocolState.wire.denote)
    (h : (decode Block.protocolState.wire).run s = .ok (v, rest)) :
    ∃ w it, (decodeLoose ProtocolState.rule).run s = .ok ((w, it), rest) ∧
      content plainNames [] w = contentOf plainNames [] Block.protocolState.wire v :=
  layout_follows state_agrees state_wf state_solid state_scoped hs h (avoids_nothing _ v)

/-- **C117 (states, layout to typed).** Bytes that are read under the layout are read as a protocol state with the same content, unless
a number in them does not fit the Rust type. -/
theorem C117_state_layout_partial (s rest : Bytes) (w : Value) (it : Iter)
    (h : (decodeLoose ProtocolState.rule).run s = .ok ((w, it), rest)) :
    (∃ v, (decode Block.protocolState.wire).run s = .ok (v, rest) ∧
      contentOf plainNames [] Block.protocolState.wire v = content plainNames [] w) ∨
    (decode Block.protocolState.wire).run s = .error .destinationIntegerOverflow :=
  typed_follows state_agrees state_scoped h (layout_avoids_nothing w)

/-! ## Completed snark work -/

/-- **C117 (snark work, typed to layout).** -/
theorem C117_work_typed (s rest : Bytes) (hs : s.length < 2 ^ 57) (v : Block.snarkWork.wire.denote)
    (h : (decode Block.snarkWork.wire).run s = .ok (v, rest)) :
    ∃ w it, (decodeLoose SnarkWork.rule).run s = .ok ((w, it), rest) ∧
      content layoutNames [] w = contentOf typeNames [] Block.snarkWork.wire v :=
  layout_follows work_agrees work_wf work_solid work_scoped hs h (avoids_nothing _ v)

/-- **C117 (snark work, layout to typed).** -/
theorem C117_work_layout_partial (s rest : Bytes) (w : Value) (it : Iter)
    (h : (decodeLoose SnarkWork.rule).run s = .ok ((w, it), rest)) :
    (∃ v, (decode Block.snarkWork.wire).run s = .ok (v, rest) ∧
      contentOf typeNames [] Block.snarkWork.wire v = content layoutNames [] w) ∨
    (decode Block.snarkWork.wire).run s = .error .destinationIntegerOverflow :=
  typed_follows work_agrees work_scoped h (layout_avoids_nothing w)

/-! ## Blocks -/

/-- **C117 (blocks, typed to layout).** Bytes that are read as a block with no failed command and no coinbase `Two` are read under the
layout of blocks too, the same number of bytes, and with the same content under the same names. -/
theorem C117_block_typed_partial (s rest : Bytes) (hs : s.length < 2 ^ 57) (v : Block.block.wire.denote)
    (h : (decode Block.block.wire).run s = .ok (v, rest)) (ha : TypedAvoids differing Block.block.wire v) :
    ∃ w it, (decodeLoose ExternalTransition.rule).run s = .ok ((w, it), rest) ∧
      content layoutNames [] w = contentOf typeNames [] Block.block.wire v :=
  layout_follows block_agrees Block.block_wf block_solid block_scoped hs h ha

/-- **C117 (blocks, layout to typed).** Bytes that are read under the layout as a block with none of the differing constructors are read
as a block with the same content, unless a number in them does not fit the Rust type. -/
theorem C117_block_layout_partial (s rest : Bytes) (w : Value) (it : Iter)
    (h : (decodeLoose ExternalTransition.rule).run s = .ok ((w, it), rest)) (ha : Avoids differing w) :
    (∃ v, (decode Block.block.wire).run s = .ok (v, rest) ∧
      contentOf typeNames [] Block.block.wire v = content layoutNames [] w) ∨
    (decode Block.block.wire).run s = .error .destinationIntegerOverflow :=
  typed_follows block_agrees block_scoped h ha

/-! ## The hypotheses are met

The readers read all of these bytes; `Layouts/Differ.lean` has the blocks on which they part. -/

/-- The typed reader reads a value from all of the bytes (`protocol/bin-prot/src/de.rs:38-52`). -/
def typedReads (t : Ty) (s : Bytes) : Bool :=
  match (decode t).run s with
  | .ok (_, []) => true
  | _ => false

/-- The layout-driven reader reads a value from all of the bytes (`protocol/bin-prot/src/loose_deserializer.rs:22-130`). -/
def layoutReads (r : Rule) (s : Bytes) : Bool :=
  match (decodeLoose r).run s with
  | .ok (_, []) => true
  | _ => false

theorem typedReads_iff (t : Ty) (s : Bytes) : typedReads t s = true ↔ ∃ v, (decode t).run s = .ok (v, []) := by
  unfold typedReads
  split
  · exact iff_of_true rfl ⟨_, by assumption⟩
  · rename_i h
    exact iff_of_false (by simp) (fun ⟨v, hv⟩ => h v hv)

theorem layoutReads_iff (r : Rule) (s : Bytes) : layoutReads r s = true ↔ ∃ w it, (decodeLoose r).run s = .ok ((w, it), []) := by
  unfold layoutReads
  split
  · rename_i x h
    exact iff_of_true rfl ⟨x.1, x.2, h⟩
  · rename_i h
    exact iff_of_false (by simp) (fun ⟨w, it, hv⟩ => h (w, it) hv)

set_option maxRecDepth 20000

/-- The bytes of a protocol state (`protocol/layouts/protocol_state.json:8-3509`). -/
def stateBytes : Bytes := (head.drop 1).take 655

example : ∃ v, (decode Block.protocolState.wire).run stateBytes = .ok (v, []) :=
  (typedReads_iff _ _).mp (by decide +kernel)

example : ∃ w it, (decodeLoose ProtocolState.rule).run stateBytes = .ok ((w, it), []) :=
  (layoutReads_iff _ _).mp (by decide +kernel)

example : ∃ v, (decode Block.snarkWork.wire).run workBytes = .ok (v, []) :=
  (typedReads_iff _ _).mp (by decide +kernel)

example : ∃ w it, (decodeLoose SnarkWork.rule).run workBytes = .ok ((w, it), []) :=
  (layoutReads_iff _ _).mp (by decide +kernel)

/-- A number that does not fit: the version 65536 is read under the layout, not as a state. -/
theorem C117_state_overflow_fails :
    ∃ s w it, (decodeLoose ProtocolState.rule).run s = .ok ((w, it), []) ∧
      (decode Block.protocolState.wire).run s = .error .destinationIntegerOverflow := by
  obtain ⟨w, it, h⟩ := (layoutReads_iff ProtocolState.rule ([0xfd, 0x00, 0x00, 0x01, 0x00] ++ stateBytes.drop 1)).mp (by decide +kernel)
  refine ⟨_, w, it, h, ?_⟩
  rcases C117_state_layout_partial _ _ w it h with ⟨v, hv, _⟩ | h
  · exact absurd ((typedReads_iff _ _).mpr ⟨v, hv⟩) (by decide +kernel)
  · exact h

end MinaRs.Layouts
