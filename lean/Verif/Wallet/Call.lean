import Verif.Wallet.Query
import Verif.Json.DocText

/-!
# The wallet functions

Model of `accountInfo`, `lockAccount`, `unlockAccount` and `sendPayment` as the page sees them
(`apps/wasm/mvp/src/payment.rs:75-156`, `apps/wasm/mina-berkeley/src/js_exports.rs:76-141`): what is sent, and how the call ends.
The node is a parameter; its answer is read into a `serde_json::Value` and printed again.
-/

namespace MinaRs.Wallet

open MinaRs.Text
open Json (J Floats escapeChar parse print asValue)

/-- `.json(&serde_json::json!({ "query": query }))` (`payment.rs:86, 105, 124, 147`, `js_exports.rs:88, 110, 135`): the body of
the request. -/
def body (query : Text) : Text := "{\"query\":\"".toList ++ query.flatMap escapeChar ++ "\"}".toList

/-- What the node and the network do with a request to an endpoint: the text of the answer, whatever its status, or `none` when
the request fails (`payment.rs:84-90`, `js_exports.rs:86-93`). -/
abbrev Node := Text → Text → Option Text

/-- How a call ends: its promise is resolved with a text or rejected, or the program aborts (`unwrap`). -/
inductive Ending where
  | resolved (t : Text)
  | rejected
  | aborted
  deriving DecidableEq, Repr

/-- The requests a call made (endpoint and body) and its end (`payment.rs:75-156`, `js_exports.rs:76-141`). -/
structure Result where
  requests : List (Text × Text)
  ending : Ending
  deriving DecidableEq, Repr

/-- What every function does with its query (`payment.rs:83-92, 102-111, 121-130, 144-153`, `js_exports.rs:85-94, 107-116,
132-141`). -/
def post (node : Node) (F : Floats) (endpoint query : Text) : Result :=
  ⟨[(endpoint, body query)],
    match node endpoint (body query) with
    | none => .aborted
    | some answer =>
      match parse F answer with
      | none => .aborted
      | some j => .resolved (print F (asValue j))⟩

/-- A call of the page (`js_exports.rs:76-141`, `payment.rs:75-156`). -/
inductive WalletCall where
  | accountInfo (key : Text)
  | lockAccount (key : Text)
  | unlockAccount (key password : Text)
  | sendPayment (p : Payment)
  deriving DecidableEq, Repr

/-- `apps/wasm/mina-berkeley/src/js_exports.rs:76-141`, with the endpoint the page gives.  `accountInfo` exists in the other page
only (`apps/wasm/mvp/src/payment.rs:75-93`). -/
def walletCall (node : Node) (F : Floats) (endpoint : Text) : WalletCall → Result
  | .accountInfo key => post node F endpoint (accountQuery key)
  | .lockAccount key => post node F endpoint (lockQuery key)
  | .unlockAccount key password => post node F endpoint (unlockQuery key password)
  | .sendPayment p =>
    match paymentQuery p with
    | .error _ => ⟨[], .rejected⟩
    | .ok query => post node F endpoint query

/-- `apps/wasm/mvp/src/payment.rs:85, 104, 123, 146` -/
def localNode : Text := "http://localhost:3085/graphql".toList

/-- `apps/wasm/mvp/src/payment.rs:74-156`: the same with a fixed endpoint. -/
def mvpCall (node : Node) (F : Floats) (c : WalletCall) : Result :=
  walletCall node F localNode c

end MinaRs.Wallet
