import Verif.Wallet.Spec
import Verif.Json.Model

/-!
# What the request for the best chain asks for

Selection sets of GraphQL (GraphQL specification, October 2021, section 2.4), their texts as tokens, and the answer to them.
-/

namespace MinaRs.Page.Spec

open Text (Text)
open Json (J)
open Wallet.Spec (Tok n)

/-- Selected fields: the key of the field in the answer, what follows it (arguments, or the field an alias stands for), and
what is selected below it. -/
inductive Sels where
  | nil
  | cons (key : String) (args : List Tok) (below rest : Sels)

/-- A field without arguments. -/
def field (key : String) (below : Sels := .nil) (rest : Sels) : Sels := .cons key [] below rest

/-- Fields without arguments and without selections below them. -/
def leaves : List String → Sels → Sels
  | [], rest => rest
  | k :: ks, rest => .cons k [] .nil (leaves ks rest)

/-- The tokens of a selection set, without its outermost braces. -/
def Sels.tokens : Sels → List Tok
  | .nil => []
  | .cons key args .nil rest => .name key.toList :: (args ++ rest.tokens)
  | .cons key args below rest => .name key.toList :: (args ++ .punct '{' :: (below.tokens ++ .punct '}' :: rest.tokens))

/-- What is asked about epoch data. -/
def epochData : Sels :=
  leaves ["epochLength", "lockCheckpoint", "seed", "startCheckpoint"] <|
  field "ledger" (leaves ["hash", "totalCurrency"] .nil) .nil

/-- What is asked about a consensus state. -/
def consensusState : Sels :=
  leaves ["blockCreator", "blockHeight", "blockStakeWinner", "epoch", "blockchainLength", "coinbaseReceiever", "epochCount",
    "hasAncestorInSameCheckpointWindow", "lastVrfOutput", "minWindowDensity", "slot", "slotSinceGenesis",
    "superchargedCoinbase", "totalCurrency"] <|
  field "nextEpochData" epochData <| field "stakingEpochData" epochData .nil

/-- What is asked about a blockchain state. -/
def blockchainState : Sels :=
  leaves ["bodyReference", "date", "snarkedLedgerHash", "stagedLedgerAuxHash", "stagedLedgerHash",
    "stagedLedgerPendingCoinbaseAux", "stagedLedgerPendingCoinbaseHash", "stagedLedgerProofEmitted", "utcDate"] .nil

/-- What is asked about the blocks of the best chain. -/
def block : Sels :=
  field "protocolState" (leaves ["previousStateHash"] <|
    field "consensusState" consensusState <| field "blockchainState" blockchainState .nil) .nil

/-- What is asked about an account, under its own name. -/
def accountSels : List Text → Sels
  | [] => .nil
  | a :: as =>
    .cons (String.ofList a) [.punct ':', n "account", .punct '(', n "publicKey", .punct ':', .str a, .punct ')']
      (field "merklePath" (leaves ["left", "right"] .nil) <| leaves ["leafHash"] .nil) (accountSels as)

/-- The whole request: the best chain, the genesis block and the accounts. -/
def request (accounts : List Text) : Sels :=
  .cons "bestChain" [.punct '(', n "maxLength", .punct ':', .int "1000000".toList, .punct ')'] block <|
  field "genesisBlock" (field "protocolState" (field "blockchainState" (leaves ["snarkedLedgerHash"] .nil) .nil) .nil) <|
  accountSels accounts

/-- The tokens of the document `query Query { … }`. -/
def document (sels : Sels) : List Tok := n "query" :: n "Query" :: .punct '{' :: (sels.tokens ++ [.punct '}'])

/-- A name of GraphQL (section 2.1.9). -/
def Name (s : Text) : Prop :=
  ∃ c cs, s = c :: cs ∧ Wallet.Spec.isNameStart c = true ∧ ∀ d ∈ cs, Wallet.Spec.isNameContinue d = true

/-- What is left of a value when only the selected fields of its objects are kept, in the order they are selected. -/
def keep (below : Sels) (fields : List (String × J) → List (String × J)) : J → J
  | .obj es => match below with | .nil => .obj es | _ => .obj (fields es)
  | .arr js => match below with
    | .nil => .arr js
    | _ => .arr (js.map fun | .obj es => .obj (fields es) | j => j)
  | j => j

/-- The selected fields of an object. -/
def Sels.pick : Sels → List (String × J) → List (String × J)
  | .nil, _ => []
  | .cons key _ below rest, es =>
    (es.filter fun e => e.1 = key).map (fun e => (e.1, keep below (fun es' => below.pick es') e.2)) ++ rest.pick es

/-- The part of a document that a request asks for. -/
def answered (sels : Sels) : J → J := keep sels sels.pick

end MinaRs.Page.Spec
