import Verif.Frontier.Mainnet
import Verif.Block.JsonModel

/-!
# Model of the answers of the mainnet server

`/repo/network/src/processor/js/graphql_api_v1.rs`: the text of a block is read as an `ExternalTransitionJson`, which is sent to the
message processor of `Frontier/Mainnet.lean`.
-/

namespace MinaRs.Frontier.Mainnet

open BinProt (Ty)

/-- `fetch_block` (`network/src/processor/js/graphql_api_v1.rs:24-35`) from the text that the server answered: `serde_json::from_str`.
`ExternalTransitionJson` has the shape of `ExternalTransitionV1` (`protocol/versioned/src/macros.rs:56-72`). -/
def fetchBlock (F : Json.Floats) (E : Json.Env) (s : Text.Text) : Except Json.JErr Block.block.wire.denote :=
  match Json.parse F s with
  | none => .error .err
  | some j =>
    match Json.de E Json.Block.block j with
    | .error e => .error e
    | .ok v => .ok (cast (congrArg Ty.denote Block.wire_eq_json.symm) v)

/-- The blocks of `poll_latest_once` (`network/src/processor/js/graphql_api_v1.rs:73-86`) that are sent, from the answers to
`fetch_block`; those that are refused are passed over.  The result is an error where reading panics. -/
def pollBlocks (F : Json.Floats) (E : Json.Env) : List Text.Text → Except Json.JErr (List Block.block.wire.denote)
  | [] => .ok []
  | s :: ss =>
    match fetchBlock F E s with
    | .ok v => (pollBlocks F E ss).map (v :: ·)
    | .error .err => pollBlocks F E ss
    | .error e => .error e

end MinaRs.Frontier.Mainnet
