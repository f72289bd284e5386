import Verif.BinProt.Serde

/-!
# Model of layout-driven ("loose") decoding

`protocol/bin-prot/src/value/{mod,ser,index,visitor}.rs`, `value/layout/{mod,traverse}.rs` and
`loose_deserializer.rs`.  A decoder driven by a layout is a stack machine: the layout iterator
keeps a stack of rules, `deserialize_loose` takes the next rule off it, and pushes the rules of
the variant, option payload or list elements it has just read.
-/

namespace MinaRs.BinProt

/-- `value/layout/mod.rs:46-52`: the four integer rules. -/
inductive IntRule where
  | int | int32 | int64 | nativeInt
  deriving DecidableEq, Repr

/-- The rules the iterator refuses (`traverse.rs:56-59, 80`).  Simplification: their payloads are
dropped, because no code ever looks at them. -/
inductive OtherRule where
  | vec | hashtable | bigstring | typeVar | selfReference | typeAbstraction | typeClosure
  | unresolvedReference
  deriving DecidableEq, Repr

mutual
/-- `value/layout/mod.rs:34-88` (`BinProtRule`), with `RecordField` (164-168) as a pair and
`Reference(Resolved(..))` reduced to its module path and rule (the other members are never read
by the decoder). -/
inductive Rule where
  | nat0 | unit | bool | string | char
  | int (k : IntRule)
  | float
  | option (r : Rule)
  | record (fs : List (String × Rule))
  | tuple (rs : List Rule)
  | sum (ss : List Summand)
  | polyvar (ps : List Polyvar)
  | list (r : Rule)
  | reference (path : String) (r : Rule)
  | custom (rs : List Rule)
  | customForPath (path : String) (rs : List Rule)
  | other (k : OtherRule)
/-- `value/layout/mod.rs:168-176` `Summand { ctor_name, index: i32, ctor_args }`. -/
inductive Summand where
  | mk (ctorName : String) (index : Int) (ctorArgs : List Rule)
/-- `value/layout/mod.rs:185-202` `Polyvar::{Tagged, Inherited}`. -/
inductive Polyvar where
  | tagged (polyvarName : String) (hash : UInt32) (polyvarArgs : List Rule)
  | inherited (r : Rule)
end

/-- `value/mod.rs:24-64`.  Floats are their bit patterns; `Int` holds an `i64`. -/
inductive Value where
  | unit
  | nat0 (n : UInt32)
  | bool (b : Bool)
  | string (bs : List UInt8)
  | char (c : UInt8)
  | int (n : Int)
  | float (bits : UInt64)
  | none
  | some (v : Value)
  | record (fs : List (String × Value))
  | tuple (vs : List Value)
  | sum (name : String) (index : UInt8) (value : Value)
  | polyvar (name : String) (tag : UInt32) (value : Value)
  | list (vs : List Value)

/-! ## The layout iterator (`value/layout/traverse.rs`) -/

/-- `traverse.rs:25-28`: `BinProtRuleIterator`, top of the stack first. -/
structure Iter where
  stack : List Rule
  path : Option String

/-- `traverse.rs:98-108` (`into_iter`). -/
def Rule.intoIter (r : Rule) : Iter := ⟨[r], none⟩

/-- `traverse.rs:86-88` (`push`), for the one-element vectors it is called with. -/
def Iter.push (it : Iter) (r : Rule) : Iter := { it with stack := r :: it.stack }

/-- `traverse.rs:91-93` (`push_n`).  Simplification: the clones always fit in memory. -/
def Iter.pushN (it : Iter) (r : Rule) (n : Nat) : Iter :=
  { it with stack := List.replicate n r ++ it.stack }

/-- `traverse.rs:36-82`: what `next` does with the rule it has popped, `st` being the rest of
the stack. -/
def Iter.handle : Rule → List Rule → Option String → Except Err (Rule × Iter)
  | .record fs, st, p => .ok (.record fs, ⟨fs.map Prod.snd ++ st, p⟩)       -- 42-45
  | .tuple rs, st, p => .ok (.tuple rs, ⟨rs ++ st, p⟩)                      -- 46-48
  | .reference path r, st, _ => Iter.handle r st (some path)               -- 60-64
  | .custom rs, st, p =>                                                   -- 75-79
    match p with
    | some path => .ok (.customForPath path rs, ⟨st, p⟩)
    | none => .ok (.custom rs, ⟨st, p⟩)
  | .customForPath _ _, _, _ => .error (.panic "not implemented")          -- 80
  | .other _, _, _ => .error (.panic "not implemented")                    -- 57, 80
  | r, st, p => .ok (r, ⟨st, p⟩)                                           -- 38-41, 49-56, 66-74

/-- `traverse.rs:33-85` (`next`): `none` at the end of the traversal. -/
def Iter.next (it : Iter) : Except Err (Option (Rule × Iter)) :=
  match it.stack with
  | [] => .ok none
  | r :: st => (Iter.handle r st it.path).map some

/-! ## The decoder (`loose_deserializer.rs`) -/

/-- The custom types known by path (`loose_deserializer.rs:129-165`). -/
inductive CustomKind where
  | vector (n : Nat)
  | bigInt
  | unknown
  deriving DecidableEq, Repr

/-- `loose_deserializer.rs:131-146` -/
def vectorLen (path : String) : Option Nat :=
  if path = "Pickles_type.Vector.Vector2" then some 2
  else if path = "Pickles_types.Vector.Vector2" then some 2
  else if path = "Pickles_types.Vector.Vector4" then some 4
  else if path = "Pickles_types.Vector.Vector8" then some 8
  else if path = "Pickles_types.Vector.Vector17" then some 17
  else if path = "Pickles_types.Vector.Vector18" then some 18
  else none

/-- `loose_deserializer.rs:151-160` -/
def bigIntPaths : List String :=
  ["Ledger_hash0", "State_hash", "Pending_coinbase.Stack_hash", "State_body_hash",
   "Pending_coinbase.Hash_builder", "Snark_params.Make_inner_curve_scalar", "Snark_params.Tick",
   "Epoch_seed", "Zexe_backend.Zexe_backend_common.Stable.Field", "Pending_coinbase.Coinbase_stack"]

/-- `loose_deserializer.rs:129-165` -/
def customKind (path : String) : CustomKind :=
  match vectorLen path with
  | some n => .vector n
  | none => if path ∈ bigIntPaths then .bigInt else .unknown

/-- `SeqAccess`/`MapAccess` over the machine (`de.rs:503-605`): decode `n` elements one after
the other, threading the iterator state. -/
def iterN (f : Iter → Prog (Value × Iter)) : Nat → Iter → Prog (List Value × Iter)
  | 0, it => .ret ([], it)
  | n + 1, it => do
    let (v, it) ← f it
    let (vs, it) ← iterN f n it
    .ret (v :: vs, it)

/-- `loose_deserializer.rs:60-76`: the first tagged variant with this hash; an `Inherited`
entry met before it panics. -/
def findPolyvar : List Polyvar → UInt32 → Except Err (String × UInt32 × List Rule)
  | [], tag => .error (.unknownPolyvarTag tag.toNat)
  | .tagged name hash args :: ps, tag => if hash = tag then .ok (name, hash, args) else findPolyvar ps tag
  | .inherited _ :: _, _ => .error (.panic "not implemented")

/-- The bytes of one rule on the stack of the iterator, as `push_n` claims them (`value/layout/traverse.rs:98-100`): those of its
largest variant (`value/layout/mod.rs:240-247`).  Simplification: the compiler may
add up to 16 more, and the rules already on the stack are not counted. -/
def ruleSize : Nat := 64

/-- `deserialize_loose` (`loose_deserializer.rs:22-172`) with `ValueVisitor`
(`visitor.rs:15-141`) and `ValueEnum` (`loose_deserializer.rs:212-247`).  The first argument
bounds the recursion depth; running out of it is a panic which the theorems show never happens
from the depth of the layout on.  `EnumData` (187-200, 241-244) is passed through unchanged here:
its in-memory bin_prot round trip is lossless by `enumData_roundtrip` in `LooseTyped.lean`. -/
def deserLoose : Nat → Iter → Prog (Value × Iter)
  | 0, _ => .fail (.panic "recursion depth")
  | fuel + 1, it =>
    match it.next with
    | .error e => .fail e
    | .ok none => .fail .unexpectedEndOfLayout                                     -- 170
    | .ok (some (rule, it)) =>
      match rule with
      | .unit => do binReadUnit; .ret (.unit, it)                                  -- 29-32
      | .record fs => do                                                           -- 33-39
        let (vs, it) ← iterN (deserLoose fuel) fs.length it
        .ret (.record ((fs.map Prod.fst).zip vs), it)
      | .tuple rs => do                                                            -- 40-42
        let (vs, it) ← iterN (deserLoose fuel) rs.length it
        .ret (.tuple vs, it)
      | .bool => do let b ← binReadBool; .ret (.bool b, it)                        -- 43
      | .sum ss => do                                                              -- 44-57, 221-229
        let index ← binReadVariantIndex
        match ss[index.toNat]? with
        | none => .fail (.panic "index out of bounds")
        | some (.mk name i args) =>
          if 0 ≤ i ∧ i < 256 then do
            let (v, it) ← deserLoose fuel (it.push (.tuple args))
            .ret (.sum name (UInt8.ofNat i.toNat) v, it)
          else .fail (.panic "called `Result::unwrap()` on an `Err` value")
      | .polyvar ps => do                                                          -- 58-84, 230-238
        let tag ← binReadPolyvarTag
        match findPolyvar ps tag with
        | .error e => .fail e
        | .ok (name, hash, args) => do
          let (v, it) ← deserLoose fuel (it.push (.tuple args))
          .ret (.polyvar name hash v, it)
      | .option r => do                                                            -- 85-95
        let index ← binReadVariantIndex
        if index = 0 then .ret (.none, it)
        else if index = 1 then do
          let (v, it) ← deserLoose fuel (it.push r)
          .ret (.some v, it)
        else .fail (.invalidOptionByte index)
      | .string => do let bs ← binReadBytes; .ret (.list (bs.map .char), it)       -- 96
      | .float => do let f ← readF64; .ret (.float f, it)                          -- 97
      | .char => do let c ← readU8; .ret (.char c, it)                             -- 98-101
      | .list r => do                                                              -- 102-109
        let len ← binReadLen
        claim (len * ruleSize)
        let (vs, it) ← iterN (deserLoose fuel) len (it.pushN r len)
        .ret (.list vs, it)
      | .int _ => do let n ← binReadInteger i64; .ret (.int n, it)                 -- 110-113
      | .nat0 => .fail .unimplementedRule                                          -- 115
      | .other _ => .fail .unimplementedRule                                       -- 114-122
      | .reference _ _ => .fail .unimplementedRule                                 -- 122
      | .custom _ => .fail .layoutIteratorError                                    -- 123-126
      | .customForPath path rs =>                                                  -- 127-167
        match customKind path with
        | .vector n =>
          match rs with
          | [] => .fail (.panic "called `Option::unwrap()` on a `None` value")
          | r :: _ => do
            let (vs, it) ← iterN (deserLoose fuel) (n + 1) ((it.push .unit).pushN r n)
            .ret (.tuple vs, it)
        | .bigInt => do
          let (vs, it) ← iterN (deserLoose fuel) 32 (it.pushN .char 32)
          .ret (.tuple vs, it)
        | .unknown => .fail (.unknownCustomType path)

mutual
/-- The nesting depth of a layout, in calls of `deserialize_loose`
(`protocol/bin-prot/src/loose_deserializer.rs:22-130`). -/
def Rule.depth : Rule → Nat
  | .option r => r.depth + 1
  | .record fs => depthFields fs + 1
  | .tuple rs => depthRules rs + 1
  | .sum ss => depthSummands ss + 2
  | .polyvar ps => depthPolyvars ps + 2
  | .list r => r.depth + 1
  | .reference _ r => r.depth
  | .custom rs => depthRules rs + 2
  | .customForPath _ rs => depthRules rs + 2
  | _ => 1
/-- The same for the parts of a tuple (`protocol/bin-prot/src/loose_deserializer.rs:22-130`). -/
def depthRules : List Rule → Nat
  | [] => 0
  | r :: rs => max r.depth (depthRules rs)
/-- The same for the fields of a record (`protocol/bin-prot/src/loose_deserializer.rs:22-130`). -/
def depthFields : List (String × Rule) → Nat
  | [] => 0
  | (_, r) :: fs => max r.depth (depthFields fs)
/-- The same for the constructors of a sum (`protocol/bin-prot/src/loose_deserializer.rs:22-130`). -/
def depthSummands : List Summand → Nat
  | [] => 0
  | .mk _ _ args :: ss => max (depthRules args) (depthSummands ss)
/-- The same for the constructors of a polymorphic variant (`protocol/bin-prot/src/loose_deserializer.rs:22-130`). -/
def depthPolyvars : List Polyvar → Nat
  | [] => 0
  | .tagged _ _ args :: ps => max (depthRules args) (depthPolyvars ps)
  | .inherited _ :: ps => depthPolyvars ps
end

/-- `Value::deserialize` with a deserializer made by
`Deserializer::from_reader(..).with_layout(rule)` (`de.rs:79-96`, `value/mod.rs:78-86`); the final
iterator state is returned too. -/
def decodeLoose (r : Rule) : Prog (Value × Iter) := deserLoose r.depth r.intoIter

/-! ## Serializing a `Value` (`value/ser.rs`) -/

mutual
/-- `value/ser.rs:11-60` through `ser.rs`. -/
def encodeValue : Value → List WOp
  | .unit => binWriteUnit
  | .nat0 n => (binWriteInteger n.toNat).1
  | .bool b => binWriteBool b
  | .string bs => (binWriteNat0 bs.length).1 ++ bs.map (fun b => .all [b])
  | .char c => (binWriteChar (Char.ofNat c.toNat)).1
  | .int n => (binWriteInteger n).1
  | .float f => (binWriteFloat64 f).1
  | .none => binWriteUnit
  | .some v => .all [0x01] :: encodeValue v
  | .record fs => encodeFields fs
  | .tuple vs => encodeValues vs
  | .sum _ index v => writeVariantIndex index.toNat ++ encodeValue v
  | .polyvar _ tag v => writeVariantIndex tag.toNat ++ encodeValue v
  | .list vs => (binWriteNat0 vs.length).1 ++ encodeValues vs
/-- One after the other (`protocol/bin-prot/src/value/ser.rs:11-60`). -/
def encodeValues : List Value → List WOp
  | [] => []
  | v :: vs => encodeValue v ++ encodeValues vs
/-- One after the other, without their names (`protocol/bin-prot/src/value/ser.rs:11-60`). -/
def encodeFields : List (String × Value) → List WOp
  | [] => []
  | (_, v) :: fs => encodeValue v ++ encodeFields fs
end

/-- The bytes of a serialized `Value` (`protocol/bin-prot/src/value/ser.rs:11-60`). -/
def valueBytes (v : Value) : Bytes := flush (encodeValue v)

/-! ## Indexing (`value/index.rs`) -/

/-- The two kinds of index (`protocol/bin-prot/src/value/index.rs:14, 28`). -/
inductive Key where
  | pos (i : Nat)
  | name (s : String)
  deriving DecidableEq, Repr

/-- `index.rs:15-26` -/
def indexPos (i : Nat) (v : Value) : Option Value :=
  match v with
  | .list vs => vs[i]?
  | .tuple vs => vs[i]?
  | .sum _ _ w =>
    match w with
    | .list vs => vs[i]?
    | .tuple vs => vs[i]?
    | _ => none
  | _ => none

/-- `index.rs:29-40` -/
def indexName (s : String) (v : Value) : Option Value :=
  match v with
  | .record fs => (fs.find? (fun e => e.1 == s)).map Prod.snd
  | .sum _ _ w =>
    match w with
    | .record fs => (fs.find? (fun e => e.1 == s)).map Prod.snd
    | _ => none
  | _ => none

/-- `Index::index_into` (`protocol/bin-prot/src/value/index.rs:14-54`) -/
def indexInto : Key → Value → Option Value
  | .pos i, v => indexPos i v
  | .name s, v => indexName s v

/-- `ops::Index` (`index.rs:57-71`): panics when there is nothing at the index. -/
def opsIndex (k : Key) (v : Value) : Except Err Value :=
  match indexInto k v with
  | some w => .ok w
  | none => .error (.panic "No value for index")

/-- `value/mod.rs:90-98` (`inner`). -/
def Value.inner : Value → Except Err (Option Value)
  | .none => .ok Option.none
  | .some v => .ok (Option.some v)
  | _ => .error (.panic "Called inner on a non-option variant")

end MinaRs.BinProt
