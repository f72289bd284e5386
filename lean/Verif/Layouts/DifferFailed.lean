import Verif.Layouts.Differ

/-! # Blocks with failed commands (C117) -/

namespace MinaRs.Layouts
open BinProt

set_option maxRecDepth 20000

/-- A block with a payment that was applied meets the hypotheses of `C117_block_typed_partial` and `C117_block_layout_partial`. -/
theorem applied_typed :
    typedReadsWithout Spec.differing Block.block.wire (blockOf ([1] ++ payment ++ applied) [1, 0] [0]) = true := by decide +kernel
theorem applied_layout :
    layoutReadsWithout Spec.differing ExternalTransition.rule (blockOf ([1] ++ payment ++ applied) [1, 0] [0]) = true := by decide +kernel

example : ∃ v, (decode Block.block.wire).run (blockOf ([1] ++ payment ++ applied) [1, 0] [0]) = .ok (v, []) ∧
    BinProt.Spec.TypedAvoids Spec.differing Block.block.wire v :=
  typedReadsWithout_of applied_typed

example : ∃ w it, (decodeLoose ExternalTransition.rule).run (blockOf ([1] ++ payment ++ applied) [1, 0] [0]) = .ok ((w, it), []) ∧
    BinProt.Spec.Avoids Spec.differing w :=
  layoutReadsWithout_of applied_layout

theorem reason_layout : layoutReads ExternalTransition.rule (blockOf ([1] ++ payment ++ failedReason) [1, 0] [0]) = true := by decide +kernel
theorem reason_typed : typedReads Block.block.wire (blockOf ([1] ++ payment ++ failedReason) [1, 0] [0]) = false := by decide +kernel
theorem reasons_typed : typedReads Block.block.wire (blockOf ([1] ++ payment ++ failedReasons) [1, 0] [0]) = true := by decide +kernel
theorem reasons_layout : layoutReads ExternalTransition.rule (blockOf ([1] ++ payment ++ failedReasons) [1, 0] [0]) = false := by decide +kernel

/-- **C117 fails for blocks with a failed command.** The layout has one reason, the data type a list of them: a block with such a
command that follows the layout is not read, and one that is read does not follow the layout. -/
theorem C117_failed_command_fails :
    LayoutOnly (blockOf ([1] ++ payment ++ failedReason) [1, 0] [0]) ∧
    TypedOnly (blockOf ([1] ++ payment ++ failedReasons) [1, 0] [0]) :=
  ⟨layoutOnly reason_layout reason_typed, typedOnly reasons_typed reasons_layout⟩

end MinaRs.Layouts
