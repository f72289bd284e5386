import Verif.BinProt.Bytes

/-!
# Reader and writer programs

The bin_prot readers only touch their input through `Read::read_exact` (directly or via
`byteorder`).  A decoder is therefore modelled as a *reader program*: a tree of
`read_exact k` requests.  The same program is run on a byte list (`Prog.run`), and, in
`Verif/BinProt/IO.lean`, on a buffered reader over an arbitrarily chunked stream.

The writers are modelled as the sequence of `write_all` / `write` calls they make.
-/

namespace MinaRs.BinProt

/-- `protocol/bin-prot/src/error.rs:19-126`, plus `panic` for Rust panics.
Simplification: an `Io` error is reduced to its kind (`eof` = `UnexpectedEof`,
`invalidUtf8` = the `InvalidInput` raised by `bin_read_string`, `io` = any other error of
the underlying stream), and `allowed`/`dtype` payloads of `InvalidByte` are dropped. -/
inductive Err where
  | eof
  | invalidUtf8
  | io
  | writeZero
  | seqSizeNotProvided
  | invalidByte (byte : UInt8)
  | invalidOptionByte (got : UInt8)
  | invalidIntegerByte (byte : UInt8)
  | destinationIntegerOverflow
  | wontImplement
  | unexpectedEndOfLayout
  | layoutIteratorError
  | unknownCustomType (path : String)
  | unimplementedRule
  | unknownPolyvarTag (tag : Nat)
  | streamNotFullyConsumed (n : Nat)
  | custom (message : String)
  | panic (message : String)
  deriving DecidableEq, Repr

/-- A reader program: a decoder seen through its `read_exact` calls (`protocol/bin-prot/src/read_ext.rs:11-145`). -/
inductive Prog (α : Type) where
  | ret (a : α)
  | fail (e : Err)
  | read (k : Nat) (cont : Bytes → Prog α)

namespace Prog

/-- Sequencing (`?` and `;` in the Rust code) (`protocol/bin-prot/src/read_ext.rs:11-145`). -/
def bind {α β : Type} : Prog α → (α → Prog β) → Prog β
  | .ret a, f => f a
  | .fail e, _ => .fail e
  | .read k c, f => .read k (fun bs => (c bs).bind f)

instance : Monad Prog where
  pure := .ret
  bind := Prog.bind

/-- `Read::read_exact` into a buffer of `k` bytes (`protocol/bin-prot/src/read_ext.rs:45, 80, 115, 123, 133`). -/
def readExact (k : Nat) : Prog Bytes := .read k .ret

/-- Running a program on an in-memory byte slice (`impl Read for &[u8]`): `read_exact` takes
the next `k` bytes or fails with `UnexpectedEof`.  Returns the value and the unread rest
(`protocol/bin-prot/src/read_ext.rs:11-145`). -/
def run {α : Type} : Prog α → Bytes → Except Err (α × Bytes)
  | .ret a, s => .ok (a, s)
  | .fail e, _ => .error e
  | .read k c, s => if s.length < k then .error .eof else (c (s.take k)).run (s.drop k)

@[simp] theorem run_ret {α : Type} (a : α) (s : Bytes) : (ret a).run s = .ok (a, s) := rfl
@[simp] theorem run_pure {α : Type} (a : α) (s : Bytes) :
    (pure a : Prog α).run s = .ok (a, s) := rfl
@[simp] theorem run_fail {α : Type} (e : Err) (s : Bytes) :
    (fail e : Prog α).run s = .error e := rfl

theorem run_bind {α β : Type} (p : Prog α) (f : α → Prog β) (s : Bytes) :
    (p >>= f).run s = match p.run s with
      | .ok (a, s') => (f a).run s'
      | .error e => .error e := by
  show (Prog.bind p f).run s = _
  induction p generalizing s with
  | ret a => rfl
  | fail e => rfl
  | read k c ih =>
    simp only [Prog.bind, run]
    split
    · rfl
    · exact ih _ _

theorem run_bind_ok {α β : Type} {p : Prog α} {f : α → Prog β} {s s' : Bytes} {a : α}
    (h : p.run s = .ok (a, s')) : (p >>= f).run s = (f a).run s' := by
  rw [run_bind, h]

theorem run_bind_error {α β : Type} {p : Prog α} {f : α → Prog β} {s : Bytes} {e : Err}
    (h : p.run s = .error e) : (p >>= f).run s = .error e := by
  rw [run_bind, h]

theorem run_readExact (k : Nat) (s : Bytes) :
    (readExact k).run s = if s.length < k then .error .eof else .ok (s.take k, s.drop k) := by
  simp only [readExact, run]

theorem run_readExact_append {k : Nat} {bs r : Bytes} (h : bs.length = k) :
    (readExact k).run (bs ++ r) = .ok (bs, r) := by
  subst h
  rw [run_readExact, if_neg (by simp)]
  simp

end Prog

/-- One call on the sink: `write_all` (retries until everything is written) or a bare
`write` (a single call that may accept fewer bytes) (`protocol/bin-prot/src/ser.rs:29`,
`protocol/bin-prot/src/write_ext.rs:101, 106, 126`). -/
inductive WOp where
  | all (bs : Bytes)
  | once (bs : Bytes)
  deriving DecidableEq, Repr

/-- The bytes a writer call hands to the sink (`protocol/bin-prot/src/ser.rs:29`,
`protocol/bin-prot/src/write_ext.rs:101, 106, 126`). -/
def WOp.bytes : WOp → Bytes
  | .all bs => bs
  | .once bs => bs

/-- The bytes an in-memory sink (`Vec<u8>`, which always accepts everything) ends up with
(`protocol/bin-prot/src/ser.rs:28-31`). -/
def flush (ops : List WOp) : Bytes := (ops.map WOp.bytes).flatten

@[simp] theorem flush_nil : flush [] = [] := rfl
@[simp] theorem flush_cons (o : WOp) (ops : List WOp) : flush (o :: ops) = o.bytes ++ flush ops := by
  simp [flush]
@[simp] theorem flush_append (a b : List WOp) : flush (a ++ b) = flush a ++ flush b := by
  simp [flush]

end MinaRs.BinProt
