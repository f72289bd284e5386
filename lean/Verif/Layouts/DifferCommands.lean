import Verif.Layouts.Differ

/-! # Commands the data types lack (C117) -/

namespace MinaRs.Layouts
open BinProt

set_option maxRecDepth 20000

theorem token_layout : layoutReads ExternalTransition.rule (blockOf ([1] ++ newToken ++ applied) [1, 0] [0]) = true := by decide +kernel
theorem token_typed : typedReads Block.block.wire (blockOf ([1] ++ newToken ++ applied) [1, 0] [0]) = false := by decide +kernel

/-- **C117 fails for commands the data types do not have**, such as the creation of a token. -/
theorem C117_new_token_fails : LayoutOnly (blockOf ([1] ++ newToken ++ applied) [1, 0] [0]) :=
  layoutOnly token_layout token_typed

end MinaRs.Layouts
