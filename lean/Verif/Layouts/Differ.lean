import Verif.Layouts.Props
import Verif.BinProt.AgreeAvoids

/-! Blocks on which the two readers differ (for C117). -/

namespace MinaRs.Layouts
open BinProt Layouts.Spec
open BinProt.Spec (content contentOf Avoids TypedAvoids)

set_option maxRecDepth 20000

/-- The typed reader reads these bytes as a whole block, the layout-driven reader does not. -/
def TypedOnly (s : Bytes) : Prop :=
  (∃ v, (decode Block.block.wire).run s = .ok (v, [])) ∧
    ¬ ∃ w it, (decodeLoose ExternalTransition.rule).run s = .ok ((w, it), [])

/-- The layout-driven reader reads these bytes as a whole block, the typed reader does not. -/
def LayoutOnly (s : Bytes) : Prop :=
  (∃ w it, (decodeLoose ExternalTransition.rule).run s = .ok ((w, it), [])) ∧
    ¬ ∃ v, (decode Block.block.wire).run s = .ok (v, [])

theorem typedOnly {s : Bytes} (h : typedReads Block.block.wire s = true) (h' : layoutReads ExternalTransition.rule s = false) :
    TypedOnly s :=
  ⟨(typedReads_iff _ _).mp h, fun hl => by rw [(layoutReads_iff _ _).mpr hl] at h'; cases h'⟩

theorem layoutOnly {s : Bytes} (h : layoutReads ExternalTransition.rule s = true) (h' : typedReads Block.block.wire s = false) :
    LayoutOnly s :=
  ⟨(layoutReads_iff _ _).mp h, fun hl => by rw [(typedReads_iff _ _).mpr hl] at h'; cases h'⟩

/-- The status of a command that was applied, and of one that failed: with one reason, as in the layout, and with a list of one
reason, as in the data type (`base/src/staged_ledger_diff.rs:97-105`). -/
def applied : Bytes := [1, 0, 1, 0, 0, 0, 1, 0, 0, 0]
def failedReason : Bytes := [1, 1, 1, 5, 1, 0, 0, 0]
def failedReasons : Bytes := [1, 1, 1, 1, 5, 1, 0, 0, 0]

end MinaRs.Layouts
