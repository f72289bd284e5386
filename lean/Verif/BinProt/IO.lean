import Verif.BinProt.Serde

/-!
# Streams: buffered readers and sinks under arbitrary schedules

`Deserializer` wraps its reader in a `std::io::BufReader` (`de.rs:24-42`).  The underlying
reader is a byte stream with a *schedule*: how each call of `read` behaves.  A schedule is a
finite list (a decode makes finitely many calls unless the reader interrupts forever, in which
case the Rust code does not return); when it is used up, calls deliver all that is asked for.
-/

namespace MinaRs.BinProt

/-- What one call of the underlying `Read::read` does (below `protocol/bin-prot/src/de.rs:28`). -/
inductive REv where
  /-- at most `n + 1` bytes are returned -/
  | chunk (n : Nat)
  /-- `ErrorKind::Interrupted` -/
  | interrupted
  /-- any other error -/
  | error
  deriving DecidableEq, Repr

/-- A byte stream and the behaviour of the calls to come (below `protocol/bin-prot/src/de.rs:28`). -/
structure Source where
  data : Bytes
  sched : List REv

/-- Result of one `read` call (below `protocol/bin-prot/src/de.rs:28`). -/
inductive RRes where
  | bytes (bs : Bytes)
  | interrupted
  | error
  deriving DecidableEq, Repr

/-- `Read::read` into a buffer of `k` bytes. `Ok(0)` only at the end of the stream (below
`protocol/bin-prot/src/de.rs:28`). -/
def Source.read (s : Source) (k : Nat) : RRes × Source :=
  match s.sched with
  | [] => (.bytes (s.data.take k), ⟨s.data.drop k, []⟩)
  | .chunk n :: es =>
    let m := min k (n + 1)
    (.bytes (s.data.take m), ⟨s.data.drop m, es⟩)
  | .interrupted :: es => (.interrupted, ⟨s.data, es⟩)
  | .error :: es => (.error, ⟨s.data, es⟩)

/-- `std::io::BufReader` with its unread buffer (`protocol/bin-prot/src/de.rs:28, 37`). -/
structure BufReader where
  buf : Bytes
  src : Source

/-- Default capacity of a `BufReader` (std `DEFAULT_BUF_SIZE`, 8 KiB) (`protocol/bin-prot/src/de.rs:37`). -/
def bufCapacity : Nat := 8192

/-- `BufReader::new` (`de.rs:37`). -/
def BufReader.new (src : Source) : BufReader := ⟨[], src⟩

/-- std `impl Read for BufReader::read`: large reads with an empty buffer bypass it, otherwise
the buffer is refilled if empty and bytes are copied out of it (`protocol/bin-prot/src/de.rs:28`). -/
def BufReader.read (b : BufReader) (k : Nat) : RRes × BufReader :=
  if b.buf = [] then
    if bufCapacity ≤ k then
      match b.src.read k with
      | (r, s) => (r, ⟨[], s⟩)
    else
      match b.src.read bufCapacity with
      | (.bytes bs, s) => (.bytes (bs.take k), ⟨bs.drop k, s⟩)
      | (r, s) => (r, ⟨[], s⟩)
  else (.bytes (b.buf.take k), ⟨b.buf.drop k, b.src⟩)

/-- std `default_read_exact`: loop until the buffer is full; `Ok(0)` ends with `UnexpectedEof`,
`Interrupted` is retried, other errors are returned.  `fuel` bounds the number of rounds; it
is never used up (`readExactLoop_eq`) (`protocol/bin-prot/src/read_ext.rs:45, 80, 115, 123, 133`). -/
def BufReader.readExactLoop : Nat → BufReader → Nat → Bytes → Except Err (Bytes × BufReader)
  | 0, _, _, _ => .error (.panic "out of fuel")
  | fuel + 1, b, k, acc =>
    if k = 0 then .ok (acc, b)
    else match b.read k with
      | (.bytes bs, b') =>
        if bs = [] then .error .eof
        else readExactLoop fuel b' (k - bs.length) (acc ++ bs)
      | (.interrupted, b') => readExactLoop fuel b' k acc
      | (.error, _) => .error .io

/-- std `BufReader::read_exact`: from the buffer if it holds enough, else the default loop
(`protocol/bin-prot/src/read_ext.rs:45, 80, 115, 123, 133`). -/
def BufReader.readExact (b : BufReader) (k : Nat) : Except Err (Bytes × BufReader) :=
  if k ≤ b.buf.length then .ok (b.buf.take k, ⟨b.buf.drop k, b.src⟩)
  else b.readExactLoop (k + b.src.sched.length + 1) k []

/-- Running a decoder on a buffered reader (`protocol/bin-prot/src/de.rs:28`). -/
def Prog.runBuf {α : Type} : Prog α → BufReader → Except Err (α × BufReader)
  | .ret a, b => .ok (a, b)
  | .fail e, _ => .error e
  | .read k c, b =>
    match b.readExact k with
    | .ok (bs, b') => (c bs).runBuf b'
    | .error e => .error e

/-- `from_reader` (`de.rs:59-63`) on a stream; the buffered reader is dropped afterwards, what
is left of the stream itself is `src` of the result. -/
def fromReader (t : Ty) (src : Source) : Except Err (t.denote × BufReader) :=
  (decode t).runBuf (BufReader.new src)

/-- `from_reader_strict` (`de.rs:68-75`): additionally the internal buffer must be empty. -/
def fromReaderStrict (t : Ty) (src : Source) : Except Err t.denote :=
  match fromReader t src with
  | .ok (v, b) => if b.buf.length = 0 then .ok v else .error (.streamNotFullyConsumed b.buf.length)
  | .error e => .error e

/-! ## Sinks -/

/-- What one call of the underlying `Write::write` does (below `protocol/bin-prot/src/ser.rs:29`). -/
inductive WEv where
  /-- at most `n` bytes are accepted (0: the sink is full) -/
  | accept (n : Nat)
  | interrupted
  | error
  deriving DecidableEq, Repr

/-- A sink: what it has received and the behaviour of the calls to come (when the schedule is
used up, everything is accepted) (below `protocol/bin-prot/src/ser.rs:29`). -/
structure Sink where
  got : Bytes
  sched : List WEv

/-- One call of `Write::write` (`protocol/bin-prot/src/write_ext.rs:101, 106, 126`). -/
def Sink.write (s : Sink) (bs : Bytes) : Except WEv Nat × Sink :=
  match s.sched with
  | [] => (.ok bs.length, ⟨s.got ++ bs, []⟩)
  | .accept n :: es => (.ok (min n bs.length), ⟨s.got ++ bs.take n, es⟩)
  | .interrupted :: es => (.error .interrupted, ⟨s.got, es⟩)
  | .error :: es => (.error .error, ⟨s.got, es⟩)

/-- std `Write::write_all`: retry until everything is accepted; `Ok(0)` is `WriteZero`.
`fuel` is never used up (`writeAll_fuel`) (`protocol/bin-prot/src/ser.rs:29`). -/
def Sink.writeAllLoop : Nat → Sink → Bytes → Except Err Unit × Sink
  | 0, s, _ => (.error (.panic "out of fuel"), s)
  | fuel + 1, s, bs =>
    if bs = [] then (.ok (), s)
    else match s.write bs with
      | (.ok 0, s') => (.error .writeZero, s')
      | (.ok n, s') => writeAllLoop fuel s' (bs.drop n)
      | (.error .interrupted, s') => writeAllLoop fuel s' bs
      | (.error _, s') => (.error .io, s')

/-- One writer call: `write_all`, or a bare `write` whose byte count is ignored
(`write_ext.rs:101,106,126`: `.write(..).map(|_| n)`). -/
def Sink.step (s : Sink) : WOp → Except Err Unit × Sink
  | .all bs => s.writeAllLoop (bs.length + s.sched.length + 1) bs
  | .once bs =>
    match s.write bs with
    | (.ok _, s') => (.ok (), s')
    | (.error _, s') => (.error .io, s')

/-- All writer calls of a serialization, stopping at the first error (`?`) (`protocol/bin-prot/src/ser.rs:28-35`). -/
def Sink.runOps : Sink → List WOp → Except Err Unit × Sink
  | s, [] => (.ok (), s)
  | s, op :: ops =>
    match s.step op with
    | (.ok _, s') => s'.runOps ops
    | (.error e, s') => (.error e, s')

/-- `to_writer` (`ser.rs:59-65`) into a sink. -/
def toWriter (t : Ty) (v : t.denote) (s : Sink) : Except Err Unit × Sink := s.runOps (encode t v)

end MinaRs.BinProt
