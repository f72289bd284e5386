import Verif.BinProt.Serde

/-!
# All of the serde data model

`Ty` (BinProt/Serde.lean) describes the types that bin_prot handles.  Here is what `to_writer` does with a value of any type that
implements `Serialize`, and what `from_reader` does for the remaining requests of the serde data model: maps, borrowed texts, bytes,
identifiers, self-describing data and integers of 128 bits (`protocol/bin-prot/src/ser.rs:69-474`, `de.rs:98-368`).
-/

namespace MinaRs.BinProt

mutual
/-- A value as a type presents it to a serializer: the methods of `ser::Serializer` (`ser.rs:94-327`). -/
inductive SVal where
  | bool (b : Bool)
  | u8 (b : UInt8)
  | int (k : IntKind) (n : Int)
  /-- `i128`, `u128`: serde's default methods -/
  | wide (n : Int)
  | f32 (bits : UInt32)
  | f64 (bits : UInt64)
  | char (c : Char)
  | str (s : String)
  | bytes (bs : Bytes)
  | none
  | some (v : SVal)
  | unit
  | unitStruct
  | unitVariant (name variant : String) (index : Nat)
  | newtypeStruct (v : SVal)
  | newtypeVariant (name variant : String) (index : Nat) (v : SVal)
  /-- the length is what the type announces -/
  | seq (len : Option Nat) (vs : SVals)
  | tuple (vs : SVals)
  | tupleStruct (vs : SVals)
  | tupleVariant (name variant : String) (index : Nat) (vs : SVals)
  /-- keys and values in turn -/
  | map (len : Option Nat) (vs : SVals)
  | struct (vs : SVals)
  | structVariant (name variant : String) (index : Nat) (vs : SVals)
/-- Values one after the other (`ser.rs:333-473`). -/
inductive SVals where
  | nil
  | cons (v : SVal) (vs : SVals)
end

/-- What a writer has received, and why writing stopped, if it did (`ser.rs:59-65`). -/
structure Written where
  bytes : Bytes
  stop : Option Err
  deriving DecidableEq, Repr

/-- `?` and `;` (`ser.rs:94-327`): the next part is written when the part before was. -/
def Written.next (a b : Written) : Written :=
  match a.stop with
  | .none => ⟨a.bytes ++ b.bytes, b.stop⟩
  | .some _ => a

/-- Calls on the writer that succeed (`ser.rs:94-327`). -/
def Written.done (ops : List WOp) : Written := ⟨flush ops, .none⟩

/-- An error or a panic before anything is written (`ser.rs:228, 253`). -/
def Written.stopped (e : Err) : Written := ⟨[], .some e⟩

/-- `write_variant_index_or_tag` (`ser.rs:42-54`). -/
def writeTag (name variant : String) (index : Nat) : List WOp :=
  if name = "Polyvar" then writePolyvar variant else writeVariantIndex index

mutual
/-- `to_writer` into a `Vec<u8>` (`ser.rs:59-65, 94-327`). -/
def write : SVal → Written
  | .bool b => .done (binWriteBool b)
  | .u8 b => .done [.all [b]]
  | .int k n => .done (binWriteInteger (k.wire n)).1
  | .wide _ => .stopped (.custom "i128 is not supported")
  | .f32 f => .done (binWriteFloat32 f).1
  | .f64 f => .done (binWriteFloat64 f).1
  | .char c => .done (binWriteChar c).1
  | .str s => .done (binWriteString s)
  | .bytes bs => .done [.all bs]
  | .none => .done binWriteUnit
  | .some v => (Written.done [.all [0x01]]).next (write v)
  | .unit => .done binWriteUnit
  | .unitStruct => .done binWriteUnit
  | .unitVariant name variant index => .done (writeTag name variant index)
  | .newtypeStruct v => write v
  | .newtypeVariant name variant index v => (Written.done (writeTag name variant index)).next (write v)
  | .seq .none _ => .stopped .seqSizeNotProvided
  | .seq (.some n) vs => (Written.done (binWriteNat0 n).1).next (writeAll vs)
  | .tuple vs => writeAll vs
  | .tupleStruct vs => writeAll vs
  | .tupleVariant name variant index vs => (Written.done (writeTag name variant index)).next (writeAll vs)
  | .map _ _ => .stopped (.panic "not implemented")
  | .struct vs => writeAll vs
  | .structVariant name variant index vs => (Written.done (writeTag name variant index)).next (writeAll vs)
/-- Elements and fields (`ser.rs:333-473`). -/
def writeAll : SVals → Written
  | .nil => .done []
  | .cons v vs => (write v).next (writeAll vs)
end

/-- The elements of a list (`ser.rs:333-341`). -/
def SVals.ofList : List SVal → SVals
  | [] => .nil
  | v :: vs => .cons v (ofList vs)

mutual
/-- How a value of a described type presents itself: serde's derived `Serialize` and its implementations for the types of the
standard library (external; the methods they call are those of `ser.rs:94-327`). -/
def present : (t : Ty) → t.denote → SVal
  | .unit, _ => .unit
  | .bool, b => .bool b
  | .u8, b => .u8 b
  | .int k, n => .int k n.val
  | .f32, f => .f32 f
  | .f64, f => .f64 f
  | .char, c => .char c
  | .string, s => .str s
  | .option t, o =>
    match (show Option _ from o) with
    | .none => .none
    | .some v => .some (present t v)
  | .newtype t, v => .newtypeStruct (present t v)
  | .seq t, vs => .seq (.some (show List t.denote from vs).length) (.ofList ((show List t.denote from vs).map (present t)))
  | .tuple ts, v => .tuple (presentAll ts v)
  | .struct ts, v => .struct (presentAll ts v)
  | .enum vs, v => presentVariant "Enum" vs 0 v
  | .polyvar vs, v => presentVariant "Polyvar" vs 0 v
/-- The fields in order (`ser.rs:345-440`). -/
def presentAll : (ts : Tys) → ts.prod → SVals
  | .nil, _ => .nil
  | .cons _ t ts, v => .cons (present t (show t.denote × ts.prod from v).1) (presentAll ts (show t.denote × ts.prod from v).2)
/-- The variant of an enum: a tuple variant (a unit variant when it has no fields), a struct variant or a newtype variant
(`ser.rs:270-327`). -/
def presentVariant (name : String) : (vs : Tys) → Nat → vs.sum → SVal
  | .nil, _, v => nomatch (show Empty from v)
  | .cons variant t ts, i, v =>
    match (show t.denote ⊕ ts.sum from v) with
    | .inl w =>
      match t, w with
      | .tuple .nil, _ => .unitVariant name variant i
      | .tuple (.cons n t' fs), w => .tupleVariant name variant i (presentAll (.cons n t' fs) w)
      | .struct fs, w => .structVariant name variant i (presentAll fs w)
      | t, w => .newtypeVariant name variant i (present t w)
    | .inr w => presentVariant name ts (i + 1) w
end

/-! ## Reading -/

/-- The requests of a type that `Ty` has no description for (`de.rs:99-104, 194-199, 208-220, 343-367`). -/
inductive Req where
  | any | ignored | str | bytes | byteBuf | identifier
  /-- `i128`, `u128`: serde's default methods -/
  | wide
  deriving DecidableEq, Repr

/-- What happens to them (`de.rs:99-104, 194-199, 208-220, 343-367`). -/
def answer : Req → Prog Unit
  | .any => .fail (.panic "not implemented")
  | .ignored => .fail (.panic "not implemented")
  | .str => .fail (.panic "not yet implemented")
  | .bytes => .fail .wontImplement
  | .byteBuf => .fail .wontImplement
  | .identifier => .fail .wontImplement
  | .wide => .fail (.custom "i128 is not supported")

/-- `MapAccess` asked for entries until it is exhausted (`de.rs:503-545`): the key is read from an empty text, the value from the
stream. -/
def decodeEntries {α : Type} (p : Prog α) : Nat → Prog (List (String × α))
  | 0 => .ret []
  | n + 1 => do
    let a ← p
    let as ← decodeEntries p n
    .ret (("", a) :: as)

/-- `deserialize_map` (`de.rs:296-305`) for maps from texts: the entries in the order in which they are inserted.  The dummy names
are made first, 24 bytes each. -/
def decodeMap (t : Ty) : Prog (List (String × t.denote)) := do
  let len ← binReadLen
  claim (24 * len)
  decodeEntries (decode t) len

end MinaRs.BinProt
