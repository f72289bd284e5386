import Verif.Consensus.Model

/-!
# Model of block verification, the transition frontiers and the message processor

`/repo/base/src/{external_transition,staged_ledger_diff}.rs`, `/repo/base/src/user_commands`,
`/repo/network/src/processor`.  Signature verification and public-key decompression are
arbitrary functions.  Chain selection is the one of `Verif.Consensus.Model`.
-/

namespace MinaRs.Frontier

open MinaRs.Consensus (Header Chain)

/-- Errors of `add_block` (`network/src/processor/naive_transition_frontier.rs:110-122, 169-184`). -/
inductive Err where
  | verificationFailure
  | consensus (e : MinaRs.Consensus.Err)
  /-- the network block cannot be converted (`network/src/processor/processor_impl.rs:70`) -/
  | conversion
  | panic (msg : String)
  deriving DecidableEq, Repr

/-! ## Verification -/

/-- The cryptography: `PubKey::from_address(pk.into_address())`, which fails for an `x` coordinate
that is not on the curve, and `Signer::verify`.  Simplification: the signer context is mutable in
the code, as a cache; here verification is a function (`base/src/user_commands/signed_command/mod.rs:56-61`). -/
structure Crypto (K Pt S P : Type) where
  uncompress : K → Option Pt
  verify : S → Pt → P → Bool

/-- `signed_command/mod.rs:24-31` (`SignedCommand`); `UserCommand` has this one variant. -/
structure SignedCommand (K S P : Type) where
  payload : P
  signer : K
  signature : S
  deriving DecidableEq, Repr

variable {K Pt S P : Type}

/-- `signed_command/mod.rs:56-61` and `user_commands/mod.rs:44-48` -/
def SignedCommand.verify (crypto : Crypto K Pt S P) (c : SignedCommand K S P) : Except Err Bool :=
  match crypto.uncompress c.signer with
  | none => .error (.panic "called `Result::unwrap()` on an `Err` value")
  | some pk => .ok (crypto.verify c.signature pk c.payload)

/-- `staged_ledger_diff.rs:77-81` (`all` over the commands, stopping at the first failure) -/
def verifyAll (crypto : Crypto K Pt S P) : List (SignedCommand K S P) → Except Err Bool
  | [] => .ok true
  | c :: cs => do
    let ok ← c.verify crypto
    if ok = true then verifyAll crypto cs else .ok false

/-- `staged_ledger_diff.rs:47-50` (`StagedLedgerDiffTuple`), the commands of the two pre-diffs. -/
structure Diff (K S P : Type) where
  diffTwo : List (SignedCommand K S P)
  diffOne : Option (List (SignedCommand K S P))
  deriving DecidableEq, Repr

/-- `staged_ledger_diff.rs:36-42` -/
def Diff.verify (crypto : Crypto K Pt S P) (d : Diff K S P) : Except Err Bool :=
  match d.diffOne with
  | some one => do
    let ok ← verifyAll crypto one
    if ok = true then verifyAll crypto d.diffTwo else .ok false
  | none => verifyAll crypto d.diffTwo

/-- `external_transition.rs:17-32`; the fields that `add_block` uses. -/
structure ExternalTransition (T K S P : Type) where
  protocolState : T
  stagedLedgerDiff : Diff K S P
  deriving DecidableEq, Repr

variable {T : Type}

/-- `external_transition.rs:55-57` -/
def ExternalTransition.verify (crypto : Crypto K Pt S P) (b : ExternalTransition T K S P) : Except Err Bool :=
  b.stagedLedgerDiff.verify crypto

/-! ## The frontiers (`naive_transition_frontier.rs`) -/

/-- `naive_transition_frontier.rs:64-75` (the block requester is never used by `add_block`). -/
structure State (T Proof : Type) where
  bestChain : Chain T
  ledger : List Proof
  deriving DecidableEq, Repr

/-- `naive_transition_frontier.rs:83-89` (`new`) -/
def State.new {T Proof : Type} : State T Proof := ⟨[], []⟩

variable {Proof : Type} (h : Header T)

/-- The result of a consensus operation, as an `anyhow` result
(`network/src/processor/naive_transition_frontier.rs:113-119`). -/
def liftResult : Except MinaRs.Consensus.Err Unit → Except Err Unit
  | .ok () => .ok ()
  | .error e => .error (.consensus e)

/-- `naive_transition_frontier.rs:113-119` and `:173-179`, the part common to both frontiers. -/
def extend (chain : Chain T) (b : T) : Chain T × Except Err Unit :=
  if MinaRs.Consensus.length h chain < 1 then
    let (c, r) := MinaRs.Consensus.push h chain b
    (c, liftResult r)
  else
    let (c, r) := MinaRs.Consensus.selectSecureChain h chain [[b]]
    (c, liftResult r)

/-- `naive_transition_frontier.rs:110-122` (`add_block` on mainnet): the state afterwards, and the
result. -/
def addBlockMainnet (crypto : Crypto K Pt S P) (s : State T Proof) (b : ExternalTransition T K S P) :
    State T Proof × Except Err Unit :=
  match b.verify crypto with
  | .error e => (s, .error e)
  | .ok false => (s, .error .verificationFailure)
  | .ok true =>
    let (c, r) := extend h s.bestChain b.protocolState
    ({ s with bestChain := c }, r)

/-- `naive_transition_frontier.rs:169-184` (`add_block` on Berkeley net): the state afterwards, and
the result. -/
def addBlockBerkeley (s : State T Proof) (b : T × List Proof) : State T Proof × Except Err Unit :=
  let (block, proofs) := b
  let hashOfNew := h.stateHash block
  if MinaRs.Consensus.length h s.bestChain < 1 then
    match MinaRs.Consensus.push h s.bestChain block with
    | (c, .error e) => ({ s with bestChain := c }, .error (.consensus e))
    | (c, .ok ()) => (⟨c, proofs⟩, .ok ())
  else
    match MinaRs.Consensus.selectSecureChain h s.bestChain [[block]] with
    | (c, .error e) => ({ s with bestChain := c }, .error (.consensus e))
    | (c, .ok ()) =>
      if MinaRs.Consensus.stateHash h c = some hashOfNew then (⟨c, proofs⟩, .ok ())
      else ({ s with bestChain := c }, .ok ())

/-- Offering blocks one after another (`processor_impl.rs:60-75`: errors are logged). -/
def offers {B St : Type} (add : St → B → St × Except Err Unit) (s : St) : List B → St
  | [] => s
  | b :: bs => offers add (add s b).1 bs

/-! ## The message processor (`processor_impl.rs`) -/

/-- What the loop is doing (`network/src/processor/processor_impl.rs:60-73`). -/
inductive Loop (N : Type) where
  /-- waiting in `block_receiver.recv().await` (line 62) -/
  | receiving
  /-- has a block, waiting for the write lock on the frontier (line 63) -/
  | locking (b : N)
  /-- has a block and the write lock (lines 64-71) -/
  | adding (b : N)
  /-- the loop has ended because the channel is closed and empty -/
  | done
  /-- the conversion or `add_block` panicked -/
  | crashed
  deriving DecidableEq, Repr

/-- The processor: the frontier, the bounded channel of network blocks (capacity one,
`processor_impl.rs:22`), the loop, and how many read guards of the frontier are held by callers of
`transition_frontier()` (`processor_impl.rs:38-40`).  `sent` and `handled` are ghost logs of the
blocks accepted by the channel and of the blocks finished by the loop. -/
structure Proc (N St : Type) where
  frontier : St
  queue : List N
  closed : Bool
  loop : Loop N
  readers : Nat
  sent : List N
  handled : List N

/-- `mpsc::channel(1)` (`network/src/processor/processor_impl.rs:22`) -/
def capacity : Nat := 1

/-- Scheduling events (`network/src/processor/processor_impl.rs:38-73`). -/
inductive Ev (N : Type) where
  /-- some sender puts a block in the channel -/
  | send (b : N)
  /-- the last sender is dropped -/
  | close
  /-- the loop takes a step -/
  | loop
  /-- a caller acquires a read guard of the frontier -/
  | acquireRead
  /-- a caller releases a read guard of the frontier -/
  | releaseRead
  deriving DecidableEq, Repr

/-- Whether the error stands for a panic (`base/src/user_commands/signed_command/mod.rs:59`). -/
def Err.isPanic : Err → Bool
  | .panic _ => true
  | .consensus (.panic _) => true
  | _ => false

variable {N B St : Type}

/-- `processor_impl.rs:64-71`: convert and add; errors are logged and dropped.  Both the conversion and the adding may panic. -/
def handle (convert : N → Except Err B) (add : St → B → St × Except Err Unit) (s : St) (b : N) : St × Except Err Unit :=
  match convert b with
  | .error e => (s, .error e)
  | .ok block => add s block

/-- One scheduling event; `none` when it cannot happen in this state.  A writer waits for all
readers; a reader waits for the writer, also for one that is still waiting (`tokio`'s lock is
fair) (`network/src/processor/processor_impl.rs:38-73`). -/
def Proc.step (convert : N → Except Err B) (add : St → B → St × Except Err Unit) (p : Proc N St) : Ev N → Option (Proc N St)
  | .send b =>
    if p.closed = false ∧ p.queue.length < capacity then
      some { p with queue := p.queue ++ [b], sent := p.sent ++ [b] }
    else none
  | .close => if p.closed = false then some { p with closed := true } else none
  | .acquireRead =>
    match p.loop with
    | .locking _ => none
    | .adding _ => none
    | _ => some { p with readers := p.readers + 1 }
  | .releaseRead => if 0 < p.readers then some { p with readers := p.readers - 1 } else none
  | .loop =>
    match p.loop with
    | .receiving =>
      match p.queue with
      | b :: rest => some { p with queue := rest, loop := .locking b }
      | [] => if p.closed = true then some { p with loop := .done } else none
    | .locking b => if p.readers = 0 then some { p with loop := .adding b } else none
    | .adding b =>
      let (s, r) := handle convert add p.frontier b
      match r with
      | .ok () => some { p with frontier := s, loop := .receiving, handled := p.handled ++ [b] }
      | .error e =>
        if e.isPanic = true then some { p with frontier := s, loop := .crashed, handled := p.handled ++ [b] }
        else some { p with frontier := s, loop := .receiving, handled := p.handled ++ [b] }
    | .done => none
    | .crashed => none

/-- `processor_impl.rs:20-35` (`new`) and the start of `run`. -/
def Proc.init (s : St) : Proc N St := ⟨s, [], false, .receiving, 0, [], []⟩

/-- A schedule; events that cannot happen end it with `none` (`network/src/processor/processor_impl.rs:54-73`). -/
def Proc.run (convert : N → Except Err B) (add : St → B → St × Except Err Unit) (p : Proc N St) : List (Ev N) → Option (Proc N St)
  | [] => some p
  | e :: es =>
    match p.step convert add e with
    | none => none
    | some p' => p'.run convert add es

end MinaRs.Frontier
