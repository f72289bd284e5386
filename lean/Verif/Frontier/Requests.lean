import Verif.Frontier.Model

/-!
# Model of the two loops of the message processor

`run` joins the loop that hands received blocks to the frontier and the loop that hands the frontier's requests for blocks to
the backend (`/repo/network/src/processor/processor_impl.rs:54-84`).  The frontier is any implementation of the trait
(`/repo/network/src/processor/mod.rs:41-53`): while it adds a block it may send requests.  Polls of the backend
run beside the loops.  Simplification: nobody reads the frontier, see `Frontier/Model.lean` for that, the backend's settings are not changed, see
`Frontier/Poll.lean`, and a frontier sends its requests after it has changed its state.
-/

namespace MinaRs.Frontier

variable {N B St R : Type}

/-- What the receiving loop is doing (`network/src/processor/processor_impl.rs:60-73`). -/
inductive Recv (N R : Type) where
  /-- waiting in `block_receiver.recv().await` -/
  | receiving
  /-- has a block and the write lock on the frontier -/
  | adding (b : N)
  /-- in `add_block`, with these requests still to be sent -/
  | asking (b : N) (todo : List R)
  /-- the conversion or `add_block` panicked -/
  | crashed
  deriving DecidableEq, Repr

/-- What the requesting loop is doing (`network/src/processor/processor_impl.rs:77-85`). -/
inductive Query (N R : Type) where
  /-- waiting in `query_block_request_receiver.recv().await` -/
  | receiving
  /-- has a request, waiting for the write lock on the backend -/
  | locking (r : R)
  /-- in `query_block`, with the write lock and with these blocks still to be sent -/
  | sending (todo : List N)
  deriving DecidableEq, Repr

/-- The processor, and the polls under way, each of which holds a read guard of the backend and has blocks to send
(`network/src/processor/processor_impl.rs:20-35`, `network/src/processor/js/graphql_api_v1.rs:72-86`).  `sent`, `handled`, `asked`, `queried` and `answered`
are ghost logs: blocks put into their channel, blocks finished, requests put into their channel, requests queried with the
blocks that were fetched for each, and blocks put into their channel by the requesting loop. -/
structure Duo (N St R : Type) where
  frontier : St
  blocks : List N
  requests : List R
  recv : Recv N R
  query : Query N R
  polls : List (List N)
  sent : List N
  handled : List N
  asked : List R
  queried : List (R × List N)
  answered : List N

/-- What can be fetched at the moment: a block for a request (`network/src/processor/js/graphql_api_v1.rs:24-35`), and the best chain at each
endpoint (`network/src/processor/js/graphql_api_berkeley.rs:25-37`); `none` when that fails. -/
structure World (N R : Type) where
  block : R → Option N
  endpoints : List (Option N)

/-- The two backends (`network/src/processor/js/mod.rs`). -/
inductive Ops where
  | v1
  | berkeley
  deriving DecidableEq, Repr

/-- `query_block`: the blocks it sends (`network/src/processor/js/graphql_api_v1.rs:96-102`,
`network/src/processor/js/graphql_api_berkeley.rs:86-96`).  The error of a fetch that fails ends it and is logged by the loop.  Simplification: all
fetches are made at once. -/
def queryBlock (ops : Ops) (w : World N R) (r : R) : List N :=
  match ops with
  | .v1 =>
    match w.block r with
    | some b => [b]
    | none => []
  | .berkeley => untilFailure w.endpoints
where
  untilFailure : List (Option N) → List N
    | some b :: rest => b :: untilFailure rest
    | _ => []

/-- Scheduling events (`network/src/processor/processor_impl.rs:54-85`). -/
inductive DuoEv (N R : Type) where
  /-- the receiving loop takes a step -/
  | recv
  /-- the requesting loop takes a step -/
  | query (w : World N R)
  /-- a poll of the backend begins, having these blocks to send -/
  | pollStarts (bs : List N)
  /-- a poll sends its next block, or ends -/
  | poll (i : Nat)

variable (convert : N → Except Err B) (add : St → B → St × List R × Except Err Unit) (ops : Ops)

/-- A block, if there is room for it in the channel (`mpsc::channel(1)`, `network/src/processor/processor_impl.rs:22`). -/
def Duo.put (d : Duo N St R) (b : N) : Option (Duo N St R) :=
  if d.blocks.length < capacity then some { d with blocks := d.blocks ++ [b], sent := d.sent ++ [b] } else none

/-- `network/src/processor/processor_impl.rs:60-73` -/
def Duo.recvStep (d : Duo N St R) : Option (Duo N St R) :=
  match d.recv with
  | .receiving =>
    match d.blocks with
    | b :: rest => some { d with blocks := rest, recv := .adding b }
    | [] => none
  | .adding b =>
    match convert b with
    | .error e =>
      if e.isPanic = true then some { d with recv := .crashed, handled := d.handled ++ [b] }
      else some { d with recv := .receiving, handled := d.handled ++ [b] }
    | .ok x =>
      match add d.frontier x with
      | (s, rs, .ok ()) => some { d with frontier := s, recv := .asking b rs }
      | (s, rs, .error e) =>
        if e.isPanic = true then some { d with frontier := s, recv := .crashed, handled := d.handled ++ [b] }
        else some { d with frontier := s, recv := .asking b rs }
  | .asking b [] => some { d with recv := .receiving, handled := d.handled ++ [b] }
  | .asking b (r :: rs) =>
    if d.requests.length < capacity then
      some { d with requests := d.requests ++ [r], asked := d.asked ++ [r], recv := .asking b rs }
    else none
  | .crashed => none

/-- `network/src/processor/processor_impl.rs:77-85`; the write lock is given when no poll holds a read guard. -/
def Duo.queryStep (d : Duo N St R) (w : World N R) : Option (Duo N St R) :=
  match d.query with
  | .receiving =>
    match d.requests with
    | r :: rest => some { d with requests := rest, query := .locking r }
    | [] => none
  | .locking r =>
    if d.polls = [] then
      some { d with query := .sending (queryBlock ops w r), queried := d.queried ++ [(r, queryBlock ops w r)] }
    else none
  | .sending [] => some { d with query := .receiving }
  | .sending (b :: bs) =>
    match d.put b with
    | none => none
    | some d' => some { d' with query := .sending bs, answered := d'.answered ++ [b] }

/-- One event; `none` when it cannot happen.  A poll needs a read guard of the backend; `tokio`'s lock is fair, so that it waits for
the requesting loop also if that is still waiting.  The loops are one task: a panic of one ends both (`network/src/processor/processor_impl.rs:43-45,77-85`). -/
def Duo.step (d : Duo N St R) : DuoEv N R → Option (Duo N St R)
  | .recv => d.recvStep convert add
  | .query w =>
    match d.recv with
    | .crashed => none
    | _ => d.queryStep ops w
  | .pollStarts bs =>
    match d.query with
    | .receiving => some { d with polls := d.polls ++ [bs] }
    | _ => none
  | .poll i =>
    match d.polls[i]? with
    | none => none
    | some [] => some { d with polls := d.polls.eraseIdx i }
    | some (b :: bs) =>
      match d.put b with
      | none => none
      | some d' => some { d' with polls := d'.polls.set i bs }

/-- A schedule (`network/src/processor/processor_impl.rs:54-85`). -/
def Duo.run (d : Duo N St R) : List (DuoEv N R) → Option (Duo N St R)
  | [] => some d
  | e :: es =>
    match d.step convert add ops e with
    | none => none
    | some d' => d'.run es

/-- `network/src/processor/processor_impl.rs:20-35` (`new`) -/
def Duo.init (s : St) : Duo N St R := ⟨s, [], [], .receiving, .receiving, [], [], [], [], [], []⟩

/-- A frontier that sends no requests: that of mainnet and that of Berkeley net
(`network/src/processor/naive_transition_frontier.rs:110-122,169-184`). -/
def silent (add : St → B → St × Except Err Unit) (s : St) (b : B) : St × List R × Except Err Unit :=
  ((add s b).1, [], (add s b).2)

end MinaRs.Frontier
