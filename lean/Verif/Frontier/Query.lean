import Verif.Frontier.Model
import Verif.Block.JsonModel

/-!
# Model of what a page is told about the best chain

`/repo/apps/wasm/mvp/src/js_exports.rs` and `/repo/apps/wasm/mina-berkeley/src/js_exports.rs`: every question takes a
read guard of the frontier (`transition_frontier().await`), computes its answer from the frontier and releases the
guard.  Questions run beside the message processor of `Frontier/Model.lean`.
-/

namespace MinaRs.Frontier

open MinaRs.Consensus (Header)

variable {N B St Q A : Type}

/-- The processor and the pages that use it (`apps/wasm/mvp/src/js_exports.rs:26-52`).  `told` is a ghost log of all answers, in the order in which they were
computed. -/
structure Page (N St Q A : Type) where
  proc : Proc N St
  told : List (Q × A)

/-- Scheduling events: those of the processor (also taking and releasing the guard,
`network/src/processor/processor_impl.rs:38-40`), and a question that is answered. -/
inductive PageEv (N Q : Type) where
  | node (e : Ev N)
  | answer (q : Q)
  deriving DecidableEq, Repr

/-- One event; `none` when it cannot happen.  Computing an answer needs a guard
(`apps/wasm/mvp/src/js_exports.rs:28`, `apps/wasm/mina-berkeley/src/js_exports.rs:42`).  Simplification: guards are not told apart, so an answer can
be computed whenever any guard is held; there are more schedules in the model than in the code. -/
def Page.step (convert : N → Except Err B) (add : St → B → St × Except Err Unit) (view : Q → St → A) (p : Page N St Q A) :
    PageEv N Q → Option (Page N St Q A)
  | .node e => (p.proc.step convert add e).map fun x => { p with proc := x }
  | .answer q => if 0 < p.proc.readers then some { p with told := p.told ++ [(q, view q p.proc.frontier)] } else none

/-- The start of the module: nothing was asked (`network/src/processor/processor_impl.rs:20-35`). -/
def Page.init (s : St) : Page N St Q A := ⟨Proc.init s, []⟩

/-- A schedule of `apps/wasm/mvp/src/js_exports.rs:26-52`; events that cannot happen end it with `none`. -/
def Page.run (convert : N → Except Err B) (add : St → B → St × Except Err Unit) (view : Q → St → A) (p : Page N St Q A) :
    List (PageEv N Q) → Option (Page N St Q A)
  | [] => some p
  | e :: es =>
    match p.step convert add view e with
    | none => none
    | some p' => p'.run convert add view es

/-! ## Mainnet -/

/-- The protocol states of mainnet blocks (`base/src/protocol_state.rs:85-93`). -/
abbrev MainnetState := Block.protocolState.base

set_option maxRecDepth 20000 in
/-- Both descriptions of a protocol state are about the same wire type. -/
theorem state_wire_eq_json : Block.protocolState.wire = Json.Block.protocolState.wire := by rfl

/-- `From<ProtocolStateLegacy> for ProtocolStateJson` (`base/src/protocol_state.rs:95`,
`protocol/versioned/src/macros.rs:56-72`): through `ProtocolStateV1`. -/
def stateForm (ps : MainnetState) : Json.Block.protocolState.wire.denote :=
  cast (congrArg BinProt.Ty.denote state_wire_eq_json) (Block.toWire Block.protocolState ps)

/-- `serde_json::to_string(&json).unwrap_or_default()` (`apps/wasm/mvp/src/js_exports.rs:38-39`): the document, or `none` for the empty
string in place of an error; a panic stays one.  Simplification: the document is a tree, its text is the work of
`serde_json`. -/
def stateText (E : Json.Env) (ps : MainnetState) : Except Json.JErr (Option Json.J) :=
  match Json.ser E Json.Block.protocolState (stateForm ps) with
  | .ok j => .ok (some j)
  | .error .err => .ok none
  | .error e => .error e

/-- Reading such a document: `serde_json::from_str::<ProtocolStateJson>` and
`From<ProtocolStateJson> for ProtocolStateLegacy` (`base/src/protocol_state.rs:95`, `protocol/versioned/src/macros.rs:56-72`). -/
def readState (E : Json.Env) (j : Json.J) : Except Json.JErr MainnetState :=
  match Json.de E Json.Block.protocolState j with
  | .error e => .error e
  | .ok v =>
    match Block.fromWire Block.protocolState (cast (congrArg BinProt.Ty.denote state_wire_eq_json.symm) v) with
    | .ok ps => .ok ps
    | .error _ => .error .panic

/-- The questions of the mainnet page (`apps/wasm/mvp/src/js_exports.rs:26-41`). -/
inductive MainnetQ where
  | hash
  | json
  deriving DecidableEq, Repr

/-- What the page gets: `null` or a text (`apps/wasm/mvp/src/js_exports.rs:27,34`). -/
inductive MainnetA where
  | hash (text : Option String)
  | json (text : Option (Except Json.JErr (Option Json.J)))

/-- `get_best_chain_state_hash` and `get_best_chain_state_json` (`apps/wasm/mvp/src/js_exports.rs:26-41`).  `render` is `to_string` of a
field element. -/
def mainnetView {Proof : Type} (h : Header MainnetState) (render : Nat → String) (E : Json.Env) :
    MainnetQ → State MainnetState Proof → MainnetA
  | .hash, s => .hash ((MinaRs.Consensus.stateHash h s.bestChain).map render)
  | .json, s => .json ((MinaRs.Consensus.top s.bestChain).map (stateText E))

/-! ## Berkeley -/

/-- The questions of the Berkeley page (`apps/wasm/mina-berkeley/src/js_exports.rs:40-66`). -/
inductive BerkeleyQ where
  | hash
  | state
  | ledger
  deriving DecidableEq, Repr

/-- What the page gets (`apps/wasm/mina-berkeley/src/js_exports.rs:41,48,58`). -/
inductive BerkeleyA (T Proof : Type) where
  | hash (text : Option String)
  | state (state : Option T)
  | ledger (proofs : List Proof)
  deriving DecidableEq, Repr

/-- `get_best_chain_state_hash`, `get_best_chain_state` and `get_sparse_merkle_ledger`
(`apps/wasm/mina-berkeley/src/js_exports.rs:40-66`); the conversions to the classes of the page copy the fields
(`apps/wasm/mina-berkeley/src/protocol_state.rs:15-22`, `apps/wasm/mina-berkeley/src/proof.rs:21-36`). -/
def berkeleyView {T Proof : Type} (h : Header T) (render : Nat → String) : BerkeleyQ → State T Proof → BerkeleyA T Proof
  | .hash, s => .hash ((MinaRs.Consensus.stateHash h s.bestChain).map render)
  | .state, s => .state (MinaRs.Consensus.top s.bestChain)
  | .ledger, s => .ledger s.ledger

end MinaRs.Frontier
