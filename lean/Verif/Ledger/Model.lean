import Verif.BinProt.IOProps
import Verif.Merkle.Props

/-!
# Genesis ledgers

`ledger/src/rocksdb_genesis_ledger.rs` and `ledger/src/genesis_ledger.rs`.

The RocksDB library is not modelled beyond its contract: a database is the list of its entries in
key order, an iterator started from a key walks the entries from the first key that is not smaller,
and a read error ends the walk after being delivered once.
-/

namespace MinaRs.Ledger

open BinProt

/-- `rocksdb_genesis_ledger.rs:17` -/
def ACCOUNT_PREFIX : UInt8 := 0xfe

/-- A key and its value (`rocksdb_genesis_ledger.rs:33-39`). -/
abbrev Entry := Bytes × Bytes

/-- `rocksdb_genesis_ledger.rs:33-39` (`Error`). The database error is a text. -/
inductive LedgerErr where
  | disconnect (err : Err) (key value : Bytes)
  | rocksDb (msg : String)

/-- The rest of a walk over `entries`; `fail = some (n, msg)` is a read error after `n` entries
(`rocksdb_genesis_ledger.rs:68-88`). -/
def walk : Option (Nat × String) → List Entry → List (Except String Entry)
  | some (0, msg), _ => [.error msg]
  | _, [] => []
  | some (n + 1, msg), e :: es => .ok e :: walk (some (n, msg)) es
  | none, e :: es => .ok e :: walk none es

/-- `rocksdb_genesis_ledger.rs:76-78` (`prefix_iterator`): the walk starts at the first key that is
not smaller than the prefix.  No prefix extractor is configured, so it does not end by itself
where the prefix ends. -/
def prefixIterator (db : List Entry) (fail : Option (Nat × String)) : List (Except String Entry) :=
  walk fail (db.dropWhile (fun e => decide (e.1 < [ACCOUNT_PREFIX])))

/-- `rocksdb_genesis_ledger.rs:79-85`: the predicate of `take_while`. -/
def isAccount : Except String Entry → Bool
  | .ok (k, _) => k.head? == some ACCOUNT_PREFIX
  | .error _ => false

section
variable {A : Type} (t : Ty) (into : t.denote → Except Merkle.Panic A)

/-- `rocksdb_genesis_ledger.rs:53-60` (`decode_account_from_kv`); `t` is the serialization type of the
account and `into` its conversion, which can panic. -/
def decodeAccount : Except String Entry → Except Merkle.Panic (Except LedgerErr A)
  | .error msg => .ok (.error (.rocksDb msg))
  | .ok (k, v) =>
    match fromReaderStrict t ⟨v, []⟩ with
    | .error err => .ok (.error (.disconnect err k v))
    | .ok account =>
      match into account with
      | .error p => .error p
      | .ok a => .ok (.ok a)

/-- `rocksdb_genesis_ledger.rs:68-88` (`into_iter`), `genesis_ledger.rs:57-59` (`accounts`): what each call of
`next` gives, or the panic it ends in. -/
def accounts (db : List Entry) (fail : Option (Nat × String)) : List (Except Merkle.Panic (Except LedgerErr A)) :=
  ((prefixIterator db fail).takeWhile isAccount).map (decodeAccount t into)

end

/-- `Iterator::flatten` over results keeps the `Ok` values only; a panic of the iterator is a panic here
(`genesis_ledger.rs:61-79`). -/
def flattenOk {E A : Type} : List (Except Merkle.Panic (Except E A)) → Except Merkle.Panic (List A)
  | [] => .ok []
  | .error p :: _ => .error p
  | .ok (.error _) :: rs => flattenOk rs
  | .ok (.ok a) :: rs => (flattenOk rs).map (a :: ·)

/-- `genesis_ledger.rs:61-79` (`to_mina_merkle_ledger_legacy`, `to_mina_merkle_ledger`): both are this
with their own hasher and merger, which only matter when the tree is asked for its root. -/
def toMinaMerkleLedger {E A H : Type} (results : List (Except Merkle.Panic (Except E A))) :
    Except Merkle.Panic (Merkle.Tree A H) := do
  let accounts ← flattenOk results
  (Merkle.Tree.new (some 20)).addBatch accounts

end MinaRs.Ledger
