import Verif.Page.Settings
import Verif.GraphQL.BestChain
import Verif.Frontier.Model

/-!
# The calls of a page, interleaved

Model of the asynchronous calls of the Berkeley page (`apps/wasm/mina-berkeley/src/js_exports.rs:11-72`) and of the loop
that takes over the documents (`network/src/processor/processor_impl.rs:54-85`).  A page has one thread: calls interleave only
where they wait, for the lock on the backend, for an answer, for room in the channel, or for the lock on the frontier.  The
lock on the frontier is never held while waiting (`processor_impl.rs:63-71`, `js_exports.rs:41-66`), so that it is free
between steps unless a panic kept it.  Nothing ever sends a request for a block
(`network/src/processor/naive_transition_frontier.rs:69`: the requester is stored and never used), so that the second
loop (`processor_impl.rs:77-85`) waits for ever and holds no lock on the backend.
-/

namespace MinaRs.Page

open Text (Text)
open Json (J)

/-- Where a call stands. -/
inductive Task (F : Type) where
  /-- waiting for the lock on the backend (`js_exports.rs:17, 26, 35`) -/
  | waiting (c : Call)
  /-- a poll that waits for the answer of `endpoint` to its request number `k` (`graphql_api_berkeley.rs:68-70`); `b` is the
  backend it reads, `rest` the endpoints that come next -/
  | asking (b : Settings) (q endpoint : Text) (rest : List Text) (k : Nat)
  /-- a poll that waits for room in the channel (`graphql_api_berkeley.rs:71`) -/
  | sending (b : Settings) (q : Text) (doc : J) (rest : List Text)
  /-- a poll that returned (`js_exports.rs:36-37`) -/
  | polled (b : Settings) (ok : Bool)
  /-- a setting that returned (`js_exports.rs:22, 31`) -/
  | set
  /-- a setting that aborted (`js_exports.rs:20, 29`) -/
  | aborted
  /-- a question about the best chain, waiting for the lock on the frontier (`js_exports.rs:42, 49, 59`) -/
  | look
  /-- the question was answered from this frontier (`js_exports.rs:43-45, 50-55, 60-66`) -/
  | looked (f : F)

/-- The page: `backendStuck` and `frontierStuck` say that a panic kept the lock (`js_exports.rs:17, 26`,
`processor_impl.rs:63`); the channel holds one document (`processor_impl.rs:22`). -/
structure Sys (F : Type) where
  settings : Settings
  backendStuck : Bool
  running : Bool
  frontierStuck : Bool
  channel : List J
  frontier : F
  tasks : List (Task F)

/-- What happens: the page calls a function, starts the processor (`js_exports.rs:11-14`), the request of a poll is answered,
a call goes on, or the loop takes a document from the channel (`processor_impl.rs:61-72`). -/
inductive SysEv where
  | call (c : Call)
  | callLook
  | start
  | answer (i : Nat) (r : Option J)
  | goOn (i : Nat)
  | receive

/-- The call waits for the lock on the backend (`js_exports.rs:17, 26, 35`). -/
def Task.isWaiting {F : Type} : Task F → Bool
  | .waiting _ => true
  | _ => false

/-- The call holds the lock on the backend for reading (`js_exports.rs:35-36`). -/
def Task.isReading {F : Type} : Task F → Bool
  | .asking .. => true
  | .sending .. => true
  | _ => false

/-- The next endpoint of a poll, or its end (`graphql_api_berkeley.rs:68-74`). -/
def nextEndpoint {F : Type} (b : Settings) (q : Text) : List Text → Task F
  | [] => .polled b true
  | endpoint :: rest => .asking b q endpoint rest 0

/-- The page at the beginning (`apps/wasm/mina-berkeley/src/frontier.rs:22-26`). -/
def Sys.init {F : Type} (f : F) : Sys F := ⟨⟨[], []⟩, false, false, false, [], f, []⟩

/-- A call goes on (`js_exports.rs:16-66`): tokio's lock is fair, so that a call gets the lock on the backend only when no earlier
call waits for it; writing excludes reading.  The settings are changed in one step with the lock. -/
def Sys.goOn {F : Type} (order : List Text → List Text) (s : Sys F) (i : Nat) : Option (Sys F) :=
  match s.tasks[i]? with
  | some (.waiting c) =>
    if s.backendStuck || (s.tasks.take i).any Task.isWaiting then none
    else match c with
      | .poll => some { s with tasks := s.tasks.set i (nextEndpoint s.settings (query (order s.settings.trackingAccounts)) (order s.settings.apiList)) }
      | .setApiList items =>
        if s.tasks.any Task.isReading then none
        else match strings items with
          | none => some { s with backendStuck := true, tasks := s.tasks.set i .aborted }
          | some urls => some { s with settings := s.settings.setApiList urls, tasks := s.tasks.set i .set }
      | .setTrackingAccounts items =>
        if s.tasks.any Task.isReading then none
        else match strings items with
          | none => some { s with backendStuck := true, tasks := s.tasks.set i .aborted }
          | some accounts => some { s with settings := s.settings.setTrackingAccounts accounts, tasks := s.tasks.set i .set }
  | some (.sending b q doc rest) =>
    if s.channel.length < 1 then some { s with channel := s.channel ++ [doc], tasks := s.tasks.set i (nextEndpoint b q rest) }
    else none
  | some .look => if s.frontierStuck then none else some { s with tasks := s.tasks.set i (.looked s.frontier) }
  | _ => none

/-- One event (`js_exports.rs:11-66`, `processor_impl.rs:54-72`); `add` is `try_into` and `add_block`, `none` when they panic. -/
def Sys.step {F : Type} (order : List Text → List Text) (add : F → J → Option F) (s : Sys F) : SysEv → Option (Sys F)
  | .call c => some { s with tasks := s.tasks ++ [.waiting c] }
  | .callLook => some { s with tasks := s.tasks ++ [.look] }
  | .start => some { s with running := true }
  | .answer i r =>
    match s.tasks[i]? with
    | some (.asking b q endpoint rest k) =>
      match r.bind patch with
      | some doc => some { s with tasks := s.tasks.set i (.sending b q doc rest) }
      | none => some { s with tasks := s.tasks.set i (if k + 1 < 3 then .asking b q endpoint rest (k + 1) else .polled b false) }
    | _ => none
  | .goOn i => s.goOn order i
  | .receive =>
    if s.running && !s.frontierStuck then
      match s.channel with
      | [] => none
      | doc :: rest =>
        match add s.frontier doc with
        | none => some { s with channel := rest, frontierStuck := true }
        | some f => some { s with channel := rest, frontier := f }
    else none

/-- The events of a session, one after the other; `none` when one of them is not possible. -/
def Sys.run {F : Type} (order : List Text → List Text) (add : F → J → Option F) (s : Sys F) : List SysEv → Option (Sys F)
  | [] => some s
  | e :: es =>
    match s.step order add e with
    | none => none
    | some s' => s'.run order add es

/-- What the loop does with a document (`processor_impl.rs:64-71`): import it (`try_into`) and offer the block; `none` when one
of them panics. -/
def addJson (E : Json.Env) (h : Consensus.Header Hash.ProtocolState) (f : Frontier.State Hash.ProtocolState GraphQL.LedgerProof)
    (doc : J) : Option (Frontier.State Hash.ProtocolState GraphQL.LedgerProof) :=
  match GraphQL.bestChain E doc with
  | .error .err => some f
  | .error _ => none
  | .ok b =>
    match Frontier.addBlockBerkeley h f b with
    | (f', .ok ()) => some f'
    | (f', .error e) => if e.isPanic = true then none else some f'

end MinaRs.Page
