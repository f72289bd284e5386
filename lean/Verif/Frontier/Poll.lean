import Verif.Frontier.Model

/-!
# Polling the GraphQL backends

Model of `poll_latest_once` of the two backends (`network/src/processor/js/graphql_api_v1.rs`,
`graphql_api_berkeley.rs`, `network/js/graphql_v1_utils.js`, `graphql_berkeley_utils.js`), running
concurrently with the message processor and with callers that change the backend's settings.
-/

namespace MinaRs.Frontier

variable {D N B St : Type}

/-- `graphql_v1_utils.js:8-18`, `graphql_berkeley_utils.js:8-18` (`retry`): the loop makes three attempts and
returns the first answer.  An attempt is its answer, or `none` when it throws. -/
def retryLoop : Nat → List (Option D) → Option D
  | 0, _ => none
  | _, [] => none
  | _ + 1, some d :: _ => some d
  | n + 1, none :: rest => retryLoop n rest

/-- `retry` (`network/src/processor/js/graphql_api_v1.rs:24-35`) -/
def retry (attempts : List (Option D)) : Option D := retryLoop 3 attempts

/-- `graphql_api_v1.rs:24-35` (`fetch_block`), `graphql_api_berkeley.rs:25-37` (`fetch_best_chain_json`): the
answer is parsed outside the retries. -/
def fetch (parse : D → Option N) (attempts : List (Option D)) : Option N :=
  match retry attempts with
  | none => none
  | some d => parse d

/-- The two backends (`network/src/processor/js/graphql_api_v1.rs`,
`network/src/processor/js/graphql_api_berkeley.rs`). -/
inductive Backend where
  | v1
  | berkeley
  deriving DecidableEq, Repr

/-- The items of a poll, each with the attempts to fetch it: for `v1` the blocks listed by
`query_latest_blocks(10)`, `none` when that fails (`graphql_api_v1.rs:75`); for `berkeley` the endpoints, in the
order the hash set yields them (`graphql_api_berkeley.rs:68`). -/
abbrev Listing (D : Type) := Option (List (List (Option D)))

/-- One call of `poll_latest_once` together with the guard its caller holds
(`apps/wasm/mvp/src/js_exports.rs:44-47`, `apps/wasm/mina-berkeley/src/js_exports.rs:34-38`). -/
inductive Poll (D N : Type) where
  /-- waiting for the read guard of the backend -/
  | waiting (l : Listing D)
  /-- at the head of the loop -/
  | running (todo : List (List (Option D)))
  /-- in `block_responder.send(block).await` -/
  | sending (b : N) (todo : List (List (Option D)))
  /-- returned; whether the result is `Ok` -/
  | finished (ok : Bool)
  deriving DecidableEq, Repr

/-- A poll that holds the read guard of the backend (`apps/wasm/mvp/src/js_exports.rs:44-47`). -/
def Poll.holds : Poll D N → Bool
  | .running _ => true
  | .sending _ _ => true
  | _ => false

/-- The caller of `set_api_list` or `set_tracking_accounts` (`apps/wasm/mina-berkeley/src/js_exports.rs:16-32`),
who needs the write guard of the backend. -/
inductive Setter where
  | idle
  | waiting
  | holding
  deriving DecidableEq, Repr

/-- The processor, whether `run` has been called, the polls, the setter; `log` is a ghost log of which poll sent
which block (`apps/wasm/mina-berkeley/src/js_exports.rs:16-38`). -/
structure Sys (D N St : Type) where
  proc : Proc N St
  started : Bool
  polls : List (Poll D N)
  setter : Setter
  log : List (Nat × N)

/-- Scheduling events (`apps/wasm/mina-berkeley/src/js_exports.rs:16-38`). -/
inductive SysEv where
  /-- `processor.run()` is called -/
  | run
  /-- the receiving loop takes a step -/
  | loop
  /-- a caller acquires a read guard of the frontier -/
  | acquireRead
  /-- a caller releases a read guard of the frontier -/
  | releaseRead
  /-- a poll takes a step -/
  | poll (i : Nat)
  /-- a caller asks for the write guard of the backend -/
  | setterAsks
  /-- and gets it -/
  | setterEnters
  /-- and releases it -/
  | setterLeaves
  deriving DecidableEq, Repr

variable (convert : N → Except Err B) (add : St → B → St × Except Err Unit) (backend : Backend) (parse : D → Option N)

/-- The processor's part of an event (`network/src/processor/processor_impl.rs:38-73`). -/
def Sys.procStep (s : Sys D N St) (e : Ev N) : Option (Sys D N St) :=
  match s.proc.step convert add e with
  | none => none
  | some p => some { s with proc := p }

/-- `graphql_api_v1.rs:73-86`, `graphql_api_berkeley.rs:65-75` (`poll_latest_once`), one step between two awaits
of the `i`-th poll.  The responder is always set (`processor_impl.rs:23`).  The receiver lives as long as the
processor, so that sending does not fail. -/
def Sys.pollStep (s : Sys D N St) (i : Nat) : Option (Sys D N St) :=
  match s.polls[i]? with
  | none => none
  | some (.waiting l) =>
    if s.setter = .idle then
      match l with
      | none => some { s with polls := s.polls.set i (.finished false) }
      | some todo => some { s with polls := s.polls.set i (.running todo) }
    else none
  | some (.running []) => some { s with polls := s.polls.set i (.finished true) }
  | some (.running (item :: todo)) =>
    match fetch parse item with
    | some b => some { s with polls := s.polls.set i (.sending b todo) }
    | none =>
      match backend with
      | .v1 => some { s with polls := s.polls.set i (.running todo) }
      | .berkeley => some { s with polls := s.polls.set i (.finished false) }
  | some (.sending b todo) =>
    match s.proc.step convert add (.send b) with
    | none => none
    | some p => some { s with proc := p, polls := s.polls.set i (.running todo), log := s.log ++ [(i, b)] }
  | some (.finished _) => none

/-- One event; `none` when it cannot happen.  The guards of the backend are `tokio`'s fair lock: a reader waits
for a writer that is waiting (`network/src/processor/processor_impl.rs:38-73`,
`apps/wasm/mina-berkeley/src/js_exports.rs:16-38`). -/
def Sys.step (s : Sys D N St) : SysEv → Option (Sys D N St)
  | .run => some { s with started := true }
  | .loop => if s.started then s.procStep convert add .loop else none
  | .acquireRead => s.procStep convert add .acquireRead
  | .releaseRead => s.procStep convert add .releaseRead
  | .poll i => s.pollStep convert add backend parse i
  | .setterAsks => if s.setter = .idle then some { s with setter := .waiting } else none
  | .setterEnters =>
    if s.setter = .waiting ∧ s.polls.all (fun q => !q.holds) then some { s with setter := .holding } else none
  | .setterLeaves => if s.setter = .holding then some { s with setter := .idle } else none

/-- A schedule (`apps/wasm/mina-berkeley/src/js_exports.rs:16-38`). -/
def Sys.run (s : Sys D N St) : List SysEv → Option (Sys D N St)
  | [] => some s
  | e :: es =>
    match s.step convert add backend parse e with
    | none => none
    | some s' => s'.run es

/-- The start: a new processor and polls that have not begun (`network/src/processor/processor_impl.rs:20-35`). -/
def Sys.init (s0 : St) (ls : List (Listing D)) : Sys D N St :=
  ⟨Proc.init s0, false, ls.map .waiting, .idle, []⟩

end MinaRs.Frontier
