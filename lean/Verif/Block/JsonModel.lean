import Verif.Block.Model
import Verif.Json.Reread
import Verif.Json.DocText

/-!
# The JSON documents of the node's blocks

`ExternalTransition::try_into_json` and `try_from_json`: the conversions of the wire format (`Block/Model.lean`)
followed or preceded by serde (`Json/Model.lean`).  `tryIntoJson` and `tryFromJson` end and begin at
the tree of the document, `tryIntoJsonText` and `tryFromJsonText` at its text (`Json/DocText.lean`).
-/

namespace MinaRs.Block

open BinProt (Ty)

set_option maxRecDepth 20000 in
/-- Both descriptions of a block are about the same wire type. -/
theorem wire_eq_json : block.wire = Json.Block.block.wire := by rfl

/-- `From<ExternalTransition> for ExternalTransitionJson` (`base/src/external_transition.rs:34-38`,
`protocol/versioned/src/macros.rs:56-72`): through `ExternalTransitionV1`. -/
def toJsonForm (b : Blk) : Json.Block.block.wire.denote := cast (congrArg Ty.denote wire_eq_json) (toWire block b)

/-- `From<ExternalTransitionJson> for ExternalTransition` (`base/src/external_transition.rs:34-38`,
`protocol/versioned/src/macros.rs:56-72`); a panic of the
conversion is an error value. -/
def fromJsonForm (v : Json.Block.block.wire.denote) : Except Json.JErr Blk :=
  match fromWire block (cast (congrArg Ty.denote wire_eq_json.symm) v) with
  | .ok b => .ok b
  | .error _ => .error .panic

/-- `try_into_json` (`protocol/serialization-types/src/type_annotations.rs:44-48`, `base/src/external_transition.rs:44-46`),
up to the text of the document. -/
def tryIntoJson (E : Json.Env) (b : Blk) : Except Json.JErr Json.J := Json.ser E Json.Block.block (toJsonForm b)

/-- `try_from_json` (`type_annotations.rs:38-42`, `base/src/external_transition.rs:44-46`), from the tree of the
document. -/
def tryFromJson (E : Json.Env) (j : Json.J) : Except Json.JErr Blk :=
  match Json.de E Json.Block.block j with
  | .error e => .error e
  | .ok v => fromJsonForm v

/-- `try_into_json` (`type_annotations.rs:44-48`, `base/src/external_transition.rs:44-46`) with the text. -/
def tryIntoJsonText (F : Json.Floats) (E : Json.Env) (b : Blk) : Except Json.JErr Text.Text :=
  match tryIntoJson E b with
  | .ok j => .ok (Json.print F j)
  | .error e => .error e

/-- `try_from_json` (`type_annotations.rs:38-42`, `base/src/external_transition.rs:44-46`) from the text. -/
def tryFromJsonText (F : Json.Floats) (E : Json.Env) (s : Text.Text) : Except Json.JErr Blk :=
  match Json.parse F s with
  | some j => tryFromJson E j
  | none => .error .err

end MinaRs.Block
