import Verif.Base.Text
import Verif.Json.Model

/-!
# The settings of the Berkeley page and the requests it sends

Model of `setApiList`, `setTrackingAccounts` and `pollLatestBlocks` (`apps/wasm/mina-berkeley/src/js_exports.rs:16-38`), of the
backend behind them (`network/src/processor/js/graphql_api_berkeley.rs:24-95`) and of the script that sends the requests
(`network/js/graphql_berkeley_utils.js`).  The answers of the endpoints are parameters, and so is the order in which a hash
set yields its items.
-/

namespace MinaRs.Page

open Text (Text)
open Json (J)

/-- An item of an array the page passes: a string, or any other value (`js_exports.rs:20, 29`: `as_string`). -/
inductive Item where
  | string (t : Text)
  | other
  deriving DecidableEq, Repr

/-- `as_string().unwrap()` of every item (`js_exports.rs:20, 29`); `none` when one is no string. -/
def strings : List Item → Option (List Text)
  | [] => some []
  | .string t :: rest =>
    match strings rest with
    | none => none
    | some ts => some (t :: ts)
  | .other :: _ => none

/-- `HashSet::from_iter` (`graphql_api_berkeley.rs:56, 61`): the items without repetitions.  The list is one order of them. -/
def collect (ts : List Text) : List Text := ts.foldl (fun set t => if t ∈ set then set else set ++ [t]) []

/-- `NonConsensusGraphQLBerkeleyBackend` (`graphql_api_berkeley.rs:41-46`), without the responder, which is always set
(`network/src/processor/processor_impl.rs:23`). -/
structure Settings where
  apiList : List Text
  trackingAccounts : List Text
  deriving DecidableEq, Repr

/-- `set_api_list` (`graphql_api_berkeley.rs:55-57`) -/
def Settings.setApiList (b : Settings) (urls : List Text) : Settings := { b with apiList := collect urls }

/-- `set_tracking_accounts` (`graphql_api_berkeley.rs:60-62`) -/
def Settings.setTrackingAccounts (b : Settings) (accounts : List Text) : Settings :=
  { b with trackingAccounts := collect accounts }

/-- The backend and its lock (`js_exports.rs:17, 26, 35`).  A panic aborts (there is no unwinding on wasm), so that the guard
taken before it is never released: `stuck`. -/
structure Page where
  settings : Settings
  stuck : Bool
  deriving DecidableEq, Repr

/-- How a call of the page ends: with `true` (or nothing), with an abort, or never. -/
inductive Outcome where
  | returned
  | rejected
  | aborted
  | pending
  deriving DecidableEq, Repr

/-- `setApiList` (`js_exports.rs:16-23`): the guard is taken first. -/
def setApiList (p : Page) (items : List Item) : Page × Outcome :=
  if p.stuck then (p, .pending)
  else match strings items with
    | none => ({ p with stuck := true }, .aborted)
    | some urls => ({ p with settings := p.settings.setApiList urls }, .returned)

/-- `setTrackingAccounts` (`js_exports.rs:25-32`) -/
def setTrackingAccounts (p : Page) (items : List Item) : Page × Outcome :=
  if p.stuck then (p, .pending)
  else match strings items with
    | none => ({ p with stuck := true }, .aborted)
    | some accounts => ({ p with settings := p.settings.setTrackingAccounts accounts }, .returned)

/-- The boxes of the page (`apps/wasm/mina-berkeley/web/pages/graphql.vue:7-10, 20-23, 84-85`): a list until something is typed,
and from then on the text, because `v-model` assigns what the box holds. -/
inductive Box where
  | untouched (lines : List Text)
  | edited (t : Text)
  deriving DecidableEq, Repr

/-- What `Array::to_vec` (`js_exports.rs:19, 28`) makes of the value of a box that the page passes as it is
(`graphql.vue:106, 109`): the items of a list, and of a text, which has a length and can be indexed as well, its UTF-16
units, of which those of a pair become replacement characters. -/
def Box.items : Box → List Item
  | .untouched lines => lines.map .string
  | .edited t => t.flatMap fun c =>
    if c.val ≤ 0xFFFF then [.string [c]] else [.string ['\uFFFD'], .string ['\uFFFD']]

/-! ## The request -/

/-- `graphql_berkeley_utils.js:29`: what follows the alias of an account. -/
def accountOpen : Text := ": account(publicKey: \"".toList

/-- `graphql_berkeley_utils.js:29-36`: what follows the account itself. -/
def accountClose : Text :=
  "\") {\n                merklePath {\n                  left\n                  right\n                }\n".toList ++
    "                leafHash\n              }\n            ".toList

/-- `graphql_berkeley_utils.js:26-36`: one round of the loop over the accounts. -/
def addAccount (accountQuery account : Text) : Text :=
  "\n            ".toList ++ accountQuery ++ "\n            \n            ".toList ++ account ++ accountOpen ++ account ++
    accountClose

/-- `graphql_berkeley_utils.js:21-38`: the part of the request about the accounts. -/
def accountQuery (accounts : List Text) : Text := accounts.foldl addAccount []

/-- `graphql_berkeley_utils.js:39-99`: the request up to the accounts. -/
def queryHead : Text :=
  ["\n    query Query {\n        bestChain(maxLength: 1000000) {\n          protocolState {\n",
    "            previousStateHash\n            consensusState {\n              blockCreator\n",
    "              blockHeight\n              blockStakeWinner\n              epoch\n",
    "              blockchainLength\n              coinbaseReceiever\n              epochCount\n",
    "              hasAncestorInSameCheckpointWindow\n              lastVrfOutput\n",
    "              minWindowDensity\n              slot\n              slotSinceGenesis\n",
    "              superchargedCoinbase\n              totalCurrency\n              nextEpochData {\n",
    "                epochLength\n                lockCheckpoint\n                seed\n",
    "                startCheckpoint\n                ledger {\n                  hash\n",
    "                  totalCurrency\n                }\n              }\n              stakingEpochData {\n",
    "                epochLength\n                lockCheckpoint\n                seed\n",
    "                startCheckpoint\n                ledger {\n                  hash\n",
    "                  totalCurrency\n                }\n              }\n            }\n",
    "            blockchainState {\n              bodyReference\n              date\n",
    "              snarkedLedgerHash\n              stagedLedgerAuxHash\n              stagedLedgerHash\n",
    "              stagedLedgerPendingCoinbaseAux\n              stagedLedgerPendingCoinbaseHash\n",
    "              stagedLedgerProofEmitted\n              utcDate\n            }\n          }\n        }\n",
    "        genesisBlock {\n          protocolState {\n            blockchainState {\n",
    "              snarkedLedgerHash\n            }\n          }\n        }\n        "].flatMap String.toList

/-- `graphql_berkeley_utils.js:100-102`: the rest of the request. -/
def queryTail : Text := "\n      }\n    ".toList

/-- `graphql_berkeley_utils.js:39-102`: the text of the request. -/
def query (accounts : List Text) : Text := queryHead ++ accountQuery accounts ++ queryTail

/-! ## Polling -/

/-- What the requests to an endpoint give, attempt by attempt: the JSON document in the answer, or `none` when `fetch` or
`response.json()` throws (`graphql_berkeley_utils.js:103-113`). -/
abbrev Net : Type := Text → Text → Nat → Option J

/-- `value.key` of a script (`graphql_berkeley_utils.js:115-117`).  The inner `none` is `undefined`; the outer one is the
exception for a member of `undefined` or `null`. -/
def member (value : Option J) (key : String) : Option (Option J) :=
  match value with
  | none => none
  | some .null => none
  | some (.obj es) => some (es.lookup key)
  | some _ => some none

/-- `value[0]` of a script (`graphql_berkeley_utils.js:116`).  The first character of a string has no members, like
`undefined`. -/
def first (value : Option J) : Option (Option J) :=
  match value with
  | none => none
  | some .null => none
  | some (.arr js) => some js[0]?
  | some (.obj es) => some (es.lookup "0")
  | some _ => some none

/-- The effect on `value` of an assignment inside its member `key` (`graphql_berkeley_utils.js:116`). -/
def inMember (key : String) (change : J → J) : J → J
  | .obj es => .obj (es.map fun e => if e.1 = key then (e.1, change e.2) else e)
  | j => j

/-- The effect on `value` of an assignment inside `value[0]` (`graphql_berkeley_utils.js:116`). -/
def inFirst (change : J → J) : J → J
  | .arr (j :: js) => .arr (change j :: js)
  | .obj es => inMember "0" change (.obj es)
  | j => j

/-- `value.key = …` of a script, as `JSON.stringify` shows the value afterwards (`graphql_berkeley_utils.js:116-117, 129`): a
new member comes last, a member that is `undefined` is left out, and members of an array or a plain value are not shown. -/
def assign (key : String) (new : Option J) : J → J
  | .obj es =>
    match new with
    | none => .obj (es.filter fun e => e.1 ≠ key)
    | some v => if (es.lookup key).isSome then .obj (es.map fun e => if e.1 = key then (e.1, v) else e) else .obj (es ++ [(key, v)])
  | j => j

/-- `graphql_berkeley_utils.js:113-118`: the end of `fetch_best_chain_json_inner`; `none` when it throws. -/
def patch (json : J) : Option J :=
  match member (some json) "data" with
  | none => none
  | some data =>
    match (member data "bestChain").bind first |>.bind (member · "protocolState") |>.bind (member · "blockchainState"),
      (member data "genesisBlock").bind (member · "protocolState") |>.bind (member · "blockchainState") |>.bind
        (member · "snarkedLedgerHash") with
    | some (some .null), _ => none
    | some (some _), some hash =>
      data.map (inMember "bestChain" (inFirst (inMember "protocolState" (inMember "blockchainState"
        (assign "genesisLedgerHash" hash)))))
    | _, _ => none

/-- One attempt: `fetch_best_chain_json_inner` (`graphql_berkeley_utils.js:20-119`) for the text of the request. -/
def attempt (net : Net) (endpoint q : Text) (k : Nat) : Option J := (net endpoint q k).bind patch

/-- `retry` (`graphql_berkeley_utils.js:8-19`): the attempts `k`, `k + 1`, … up to the third; the number of requests made, and
the answer. -/
def retry (attempt : Nat → Option J) : (fuel k : Nat) → Nat × Option J
  | 0, _ => (0, none)
  | fuel + 1, k =>
    match attempt k with
    | some doc => (1, some doc)
    | none => ((retry attempt fuel (k + 1)).1 + 1, (retry attempt fuel (k + 1)).2)

/-- What a poll did: the requests (endpoint and text) in order, the documents handed to the processor in order, and whether
it returned `Ok`. -/
structure PollResult where
  requests : List (Text × Text)
  handed : List J
  ok : Bool

/-- The loop of `poll_latest_once` (`graphql_api_berkeley.rs:68-72`) and of `query_block` (`graphql_api_berkeley.rs:88-92`).
Writing a document as text and parsing it again gives the document. -/
def pollLoop (net : Net) (q : Text) : List Text → PollResult
  | [] => ⟨[], [], true⟩
  | endpoint :: rest =>
    match retry (attempt net endpoint q) 3 0 with
    | (n, none) => ⟨List.replicate n (endpoint, q), [], false⟩
    | (n, some doc) =>
      let r := pollLoop net q rest
      ⟨List.replicate n (endpoint, q) ++ r.requests, doc :: r.handed, r.ok⟩

/-- `poll_latest_once` (`graphql_api_berkeley.rs:65-75`).  `order` is how the hash sets are walked. -/
def Settings.poll (order : List Text → List Text) (net : Net) (b : Settings) : PollResult :=
  pollLoop net (query (order b.trackingAccounts)) (order b.apiList)

/-- `pollLatestBlocks` (`js_exports.rs:34-38`) -/
def poll (order : List Text → List Text) (net : Net) (p : Page) : PollResult × Outcome :=
  if p.stuck then (⟨[], [], false⟩, .pending)
  else
    let r := p.settings.poll order net
    (r, if r.ok then .returned else .rejected)

/-- A call the page makes before a poll (`js_exports.rs:16-38`). -/
inductive Call where
  | setApiList (items : List Item)
  | setTrackingAccounts (items : List Item)
  | poll
  deriving DecidableEq, Repr

/-- One call (`js_exports.rs:16-38`).  Polling changes no setting. -/
def Page.call (p : Page) : Call → Page
  | .setApiList items => (MinaRs.Page.setApiList p items).1
  | .setTrackingAccounts items => (MinaRs.Page.setTrackingAccounts p items).1
  | .poll => p

/-- The page at the beginning: no endpoints and no accounts (`graphql_api_berkeley.rs:41, 50-52`). -/
def Page.initial : Page := ⟨⟨[], []⟩, false⟩

/-- The calls of a session, one after the other (`js_exports.rs:16-38`). -/
def Page.after (calls : List Call) : Page := calls.foldl Page.call Page.initial

end MinaRs.Page
