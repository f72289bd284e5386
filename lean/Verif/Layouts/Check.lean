import Verif.Block.Props
import Verif.BinProt.AgreeRead
import Verif.Layouts.Spec
import Verif.Layouts.ProtocolState
import Verif.Layouts.SnarkWork
import Verif.Layouts.ExternalTransition

/-! The comparison of the block types with the layout files, evaluated by the kernel (helper facts for C117). -/

namespace MinaRs.Layouts
open BinProt Layouts.Spec
open BinProt.Spec (SolidLists WfTy)

set_option maxRecDepth 20000

theorem state_agrees : agree [] plainNames plainNames 40 [] Block.protocolState.wire ProtocolState.rule none = true := by
  decide +kernel

theorem work_agrees : agree [] typeNames layoutNames 40 [] Block.snarkWork.wire SnarkWork.rule none = true := by decide +kernel

theorem block_agrees : agree differing typeNames layoutNames 40 [] Block.block.wire ExternalTransition.rule none = true := by
  decide +kernel

theorem state_scoped : scopedB ProtocolState.rule false = true := by decide +kernel

theorem work_scoped : scopedB SnarkWork.rule false = true := by decide +kernel

theorem block_scoped : scopedB ExternalTransition.rule false = true := by decide +kernel

theorem state_solid : SolidLists Block.protocolState.wire = true := by decide +kernel

theorem work_solid : SolidLists Block.snarkWork.wire = true := by decide +kernel

theorem block_solid : SolidLists Block.block.wire = true := by decide +kernel

theorem state_wf : WfTy Block.protocolState.wire := Block.wf_of_ordinary Block.protocolState (by decide +kernel)

theorem work_wf : WfTy Block.snarkWork.wire := Block.wf_of_ordinary Block.snarkWork (by decide +kernel)

end MinaRs.Layouts
