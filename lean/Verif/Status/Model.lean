import Verif.BinProt.Prim

/-!
# The node status stream of the browser node

`apps/wasm/mvp/src/lib.rs`: the codec that reads status lines from a peer (`read_response`) and the connection loop.
What a line says is the parameter `meaning`; `Status/Line.lean` has the one of the code.
-/

namespace MinaRs.Status

/-- What the stream of a peer does next: some bytes arrive, or reading fails.  When the events are used up the peer has
closed the stream, and every further read returns nothing.  (The `AsyncRead` of `lib.rs:145-152`.) -/
inductive Ev where
  | data (b : UInt8) (bs : Bytes)
  | error

/-- A line up to and with its line feed, and the rest (part of `read_line`, used at `lib.rs:157`). -/
def splitLine : Bytes → Option (Bytes × Bytes)
  | [] => none
  | b :: bs =>
    if b = 10 then some ([b], bs)
    else match splitLine bs with
      | some (l, rest) => some (b :: l, rest)
      | none => none

/-- The bytes of `AsyncBufReadExt::read_line` (`apps/wasm/mvp/src/lib.rs:153-157`): to the next line feed or to the end of the
stream; nothing when reading fails.  `buf` is what has been received and not been read. -/
def readLine : Bytes → List Ev → Option (Bytes × Bytes × List Ev)
  | buf, [] =>
    match splitLine buf with
    | some (l, rest) => some (l, rest, [])
    | none => some (buf, [], [])
  | buf, .error :: evs =>
    match splitLine buf with
    | some (l, rest) => some (l, rest, .error :: evs)
    | none => none
  | buf, .data b bs :: evs =>
    match splitLine buf with
    | some (l, rest) => some (l, rest, .data b bs :: evs)
    | none => readLine (buf ++ b :: bs) evs

/-- White space of `str::trim` (Unicode `White_Space`, used at `lib.rs:159`). -/
def isSpace (c : Char) : Bool :=
  (9 ≤ c.toNat && c.toNat ≤ 13) || c.toNat == 0x20 || c.toNat == 0x85 || c.toNat == 0xa0 || c.toNat == 0x1680 ||
  (0x2000 ≤ c.toNat && c.toNat ≤ 0x200a) || c.toNat == 0x2028 || c.toNat == 0x2029 || c.toNat == 0x202f ||
  c.toNat == 0x205f || c.toNat == 0x3000

/-- `str::trim` (`lib.rs:159`) -/
def trim (s : List Char) : List Char := ((s.dropWhile isSpace).reverse.dropWhile isSpace).reverse

variable {St : Type}

/-- What one line makes the codec report (`lib.rs:159-184`): nothing for an empty line. -/
def lineStatus (meaning : List Char → Option St) (s : String) : Option St :=
  let t := trim s.toList
  if t = [] then none else meaning t

/-- `n` rounds of the loop of `read_response` (`lib.rs:153-198`), from round `i` on: the statuses handed to the listener and
whether the loop has ended.  `listening i` tells whether a listener is set in round `i` (`event_emitter.rs:9-16`).  A line
that is not UTF-8 is a read error (`lib.rs:193-196`).  Turning a status into a message does not fail. -/
def run (meaning : List Char → Option St) (listening : Nat → Bool) : Nat → Nat → Bytes → List Ev → List St × Bool
  | 0, _, _, _ => ([], false)
  | n + 1, i, buf, evs =>
    match readLine buf evs with
    | none => ([], true)
    | some (l, buf', evs') =>
      match String.fromUTF8? ⟨l.toArray⟩ with
      | none => ([], true)
      | some s =>
        let r := run meaning listening n (i + 1) buf' evs'
        ((if listening i then (lineStatus meaning s).toList else []) ++ r.1, r.2)

/-- What the network does while `connect` runs (`SwarmEvent`, `lib.rs:50-52`). -/
inductive NetEv where
  | established (peer : Nat)
  | other

/-- The outcome of `connect_async` (`lib.rs:29-68`) so far. -/
inductive Conn where
  | panicked
  | failed
  | returned (success : Bool)
  | running (requests : List Nat)
  deriving DecidableEq

/-- `connect_async` (`lib.rs:29-68`) after the given events: `built` tells whether the transport can be set up, `parsed`
whether the address is well formed, `dialled` whether dialling was accepted.  Setting up the behaviour does not fail. -/
def connect (built parsed dialled : Bool) (evs : List NetEv) : Conn :=
  if !built then .failed
  else if !parsed then .panicked
  else if dialled then
    .running (evs.filterMap (fun e => match e with | .established p => some p | .other => none))
  else .returned true

/-! ## The other side: a page that is asked -/

/-- What the request-response behaviour tells the page (`RequestResponseEvent`, `lib.rs:90-96`): a request has been read and can
be answered on a channel, or something else. -/
inductive ReqEv where
  | request (channel : Nat)
  | other
  deriving DecidableEq, Repr

/-- `write_request` (`lib.rs:201-213`): the bytes of a request, after which the stream is closed. -/
def writeRequest : Bytes := []

/-- `read_request` (`lib.rs:133-143`): every stream is a request, and nothing is read from it. -/
def readRequest (_ : List Ev) : Bool := true

/-- `write_response` (`lib.rs:215-228`): the bytes of a response, after which the stream is closed. -/
def writeResponse (json : String) : Bytes := BinProt.utf8 json

/-- `inject_event` (`lib.rs:93-95`): the responses that the page sends on account of an event.  The event is only logged; the
channel in it is dropped, and libp2p then closes the stream. -/
def respond (_ : ReqEv) : List (Nat × String) := []

/-- The bytes that are written to each channel while the events are handled (`lib.rs:76-96, 215-228`). -/
def written (evs : List ReqEv) : List (Nat × Bytes) :=
  evs.flatMap fun e => (respond e).map fun r => (r.1, writeResponse r.2)

/-- What arrives at a page that has sent a request to a page with these events, on the channel of its request: the bytes written to it,
and then the end of the stream (`lib.rs:77-96`). -/
def arrives (evs : List ReqEv) (channel : Nat) : List Ev :=
  (written evs).filterMap fun w =>
    if w.1 = channel then
      match w.2 with
      | [] => none
      | b :: bs => some (.data b bs)
    else none

end MinaRs.Status
