import Verif.Layouts.Differ

/-! # Coinbases that differ (C117) -/

namespace MinaRs.Layouts
open BinProt

set_option maxRecDepth 20000

theorem none_layout : layoutReads ExternalTransition.rule (blockOf [0] [1, 2, 0] [0]) = true := by decide +kernel
theorem none_typed : typedReads Block.block.wire (blockOf [0] [1, 2, 0] [0]) = false := by decide +kernel
theorem nones_typed : typedReads Block.block.wire (blockOf [0] [1, 2, 0, 0] [0]) = true := by decide +kernel
theorem nones_layout : layoutReads ExternalTransition.rule (blockOf [0] [1, 2, 0, 0] [0]) = false := by decide +kernel
theorem second_typed : typedReads Block.block.wire (blockOf [0] [1, 0] [1, 1, 1, 0, 0, 1, 2, 0, 0, 0]) = true := by decide +kernel
theorem second_layout : layoutReads ExternalTransition.rule (blockOf [0] [1, 0] [1, 1, 1, 0, 0, 1, 2, 0, 0, 0]) = false := by decide +kernel

/-- **C117 fails for the coinbase `Two` without fee transfers.** It is two bytes in the layout and three in the data type; and in the
second part of the diff the layout has no `Two` at all. -/
theorem C117_coinbase_fails :
    LayoutOnly (blockOf [0] [1, 2, 0] [0]) ∧ TypedOnly (blockOf [0] [1, 2, 0, 0] [0]) ∧
    TypedOnly (blockOf [0] [1, 0] [1, 1, 1, 0, 0, 1, 2, 0, 0, 0]) :=
  ⟨layoutOnly none_layout none_typed, typedOnly nones_typed nones_layout, typedOnly second_typed second_layout⟩

end MinaRs.Layouts
