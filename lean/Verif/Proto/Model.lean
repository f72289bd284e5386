import Verif.BinProt.Prim

/-!
# Protobuf messages between the page and the program

The page of `apps/wasm/mvp` and the program behind it exchange three protobuf messages (`apps/wasm/mvp/proto`).  The page
reads and writes them with the TypeScript code in `apps/wasm/mvp/web/pb` (modelled here function by function; the three
files differ only in their tables), the program with the `protobuf` crate through `apps/wasm/mvp/src/utils.rs:10-20`.

Numbers of the page are modelled as natural numbers, with `% 2 ^ 32` where JavaScript works on 32 bits; `|` of numbers
without common bits is written as `+`, `& 0x7f` as `% 128`, `>>>` as division.  A JavaScript string is its list of UTF-16
code units.
-/

namespace MinaRs.Proto

/-- The types of fields in use (`apps/wasm/mvp/proto/*.proto`). -/
inductive Kind where
  | bool
  | string
  | int64
  deriving DecidableEq

/-- `Long` (`apps/wasm/mvp/web/pb/messages.ts:120-124`). -/
structure Long where
  low : Int
  high : Int
  unsigned : Bool
  deriving DecidableEq

/-- A value of a property of a message of the page (`web/pb/messages.ts:3-10`). -/
inductive JsVal where
  | bool (b : Bool)
  | text (units : List Nat)
  | long (l : Long)
  deriving DecidableEq

/-- A message of the page: a JavaScript object, its properties by name (`web/pb/messages.ts:3-10`). -/
abbrev Obj := List (String × JsVal)

/-- Reading a property; `none` is `undefined` (`web/pb/messages.ts:20`). -/
def get (m : Obj) (name : String) : Option JsVal :=
  match m with
  | [] => none
  | (n, v) :: m => if n = name then some v else get m name

/-- Setting a property (`web/pb/messages.ts:77`); the newest value comes first. -/
def put (m : Obj) (name : String) (v : JsVal) : Obj := (name, v) :: m

/-! ## Writing, on the page -/

/-- `writeVarint32` (`web/pb/messages.ts:496-503`); 32 bits take at most five rounds. -/
def writeVarint32Loop : Nat → Nat → Bytes
  | 0, value => [UInt8.ofNat value]
  | n + 1, value =>
    if 0x80 ≤ value then UInt8.ofNat (value % 128 + 128) :: writeVarint32Loop n (value / 128) else [UInt8.ofNat value]

/-- `writeVarint32` (`web/pb/messages.ts:496-503`) -/
def writeVarint32 (value : Nat) : Bytes := writeVarint32Loop 5 (value % 2 ^ 32)

/-- The low 32 bits of a number (`>>> 0`, `web/pb/messages.ts:541-543`). -/
def bits32 (n : Int) : Nat := (n % 2 ^ 32).toNat

/-- The number of bytes `writeVarint64` takes (`web/pb/messages.ts:546-555`). -/
def size64 (part0 part1 part2 : Nat) : Nat :=
  if part2 = 0 then
    if part1 = 0 then
      if part0 < 2 ^ 14 then (if part0 < 2 ^ 7 then 1 else 2) else (if part0 < 2 ^ 21 then 3 else 4)
    else if part1 < 2 ^ 14 then (if part1 < 2 ^ 7 then 5 else 6) else (if part1 < 2 ^ 21 then 7 else 8)
  else if part2 < 2 ^ 7 then 9 else 10

/-- One byte of `writeVarint64` (`web/pb/messages.ts:559-571`): with the top bit unless it is the last. -/
def byte64 (last : Bool) (part : Nat) : UInt8 :=
  if last then UInt8.ofNat (part % 128) else UInt8.ofNat (part % 128 + 128)

/-- `writeVarint64` (`web/pb/messages.ts:540-572`). -/
def writeVarint64 (l : Long) : Bytes :=
  let low := bits32 l.low
  let high := bits32 l.high
  let part0 := low
  let part1 := low / 2 ^ 28 + high * 16 % 2 ^ 32
  let part2 := high / 2 ^ 24
  let size := size64 part0 part1 part2
  ([byte64 (size == 1) part0, byte64 (size == 2) (part0 / 2 ^ 7), byte64 (size == 3) (part0 / 2 ^ 14),
    byte64 (size == 4) (part0 / 2 ^ 21), byte64 (size == 5) part1, byte64 (size == 6) (part1 / 2 ^ 7),
    byte64 (size == 7) (part1 / 2 ^ 14), byte64 (size == 8) (part1 / 2 ^ 21), byte64 (size == 9) part2,
    UInt8.ofNat (part2 / 2 ^ 7 % 2)] : Bytes).take size

/-- The code points `writeString` makes of the code units (`web/pb/messages.ts:339-342, 352-355`): two units when the first
lies in the range of leading surrogates, whatever the second is. -/
def points : List Nat → List Nat
  | [] => []
  | [c] => [c]
  | c :: d :: t =>
    if 0xD800 ≤ c ∧ c ≤ 0xDBFF then (c * 2 ^ 10 + d - 0x35FDC00) :: points t else c :: points (d :: t)

/-- The bytes `writeString` counts for a code point (`web/pb/messages.ts:350`). -/
def pointSize (c : Nat) : Nat := if c < 0x80 then 1 else if c < 0x800 then 2 else if c < 0x10000 then 3 else 4

/-- The bytes `writeString` writes for a code point (`web/pb/messages.ts:356-371`). -/
def pointBytes (c : Nat) : Bytes :=
  if c < 0x80 then [UInt8.ofNat c]
  else if c < 0x800 then [UInt8.ofNat (c / 2 ^ 6 % 32 + 0xC0), UInt8.ofNat (c % 64 + 0x80)]
  else if c < 0x10000 then
    [UInt8.ofNat (c / 2 ^ 12 % 16 + 0xE0), UInt8.ofNat (c / 2 ^ 6 % 64 + 0x80), UInt8.ofNat (c % 64 + 0x80)]
  else
    [UInt8.ofNat (c / 2 ^ 18 % 8 + 0xF0), UInt8.ofNat (c / 2 ^ 12 % 64 + 0x80), UInt8.ofNat (c / 2 ^ 6 % 64 + 0x80),
      UInt8.ofNat (c % 64 + 0x80)]

/-- `writeString` (`web/pb/messages.ts:332-373`): the number of bytes, then the bytes. -/
def writeString (t : List Nat) : Bytes :=
  writeVarint32 ((points t).map pointSize).sum ++ (points t).flatMap pointBytes

/-- What follows the tag of a field (`web/pb/messages.ts:23, 30, 58`). -/
def writeVal : JsVal → Bytes
  | .bool b => [if b then 1 else 0]
  | .text t => writeString t
  | .long l => writeVarint64 l

/-- `_encodePeerStatus` and its like (`web/pb/messages.ts:18-60`, `requests.ts:13-20`, `responses.ts:14-28`): the table has the tag
and the name of each property.  The buffer is the list of bytes written so far. -/
def encode (table : List (Nat × String)) (m : Obj) : Bytes :=
  table.flatMap (fun (tag, name) =>
    match get m name with
    | some v => writeVarint32 tag ++ writeVal v
    | none => [])

/-- The tags of `_encodePeerStatus` (`web/pb/messages.ts:18-60`). -/
def encodePeerStatus : Obj → Bytes :=
  encode [(8, "connected"), (18, "peer_id"), (26, "sync_status"), (34, "protocol_state_hash"), (42, "git_commit"),
    (48, "uptime_minutes")]

/-- The tag of `_encodeConnectRequest` (`web/pb/requests.ts:13-20`). -/
def encodeConnectRequest : Obj → Bytes := encode [(10, "address")]

/-- The tags of `_encodeCommonResponse` (`web/pb/responses.ts:14-28`). -/
def encodeCommonResponse : Obj → Bytes := encode [(8, "success"), (18, "error_message")]

/-! ## Reading, on the page -/

/-- An exception of the reader (`web/pb/messages.ts:145, 210, 239`). -/
inductive Thrown where
  | pastLimit
  | skipPastLimit
  | unimplemented (type : Nat)
  deriving DecidableEq

/-- `bb.bytes[i]` used as a number (`web/pb/messages.ts:387`); outside of the array `undefined`, which every use here treats as 0. -/
def byteAt (bs : Bytes) (i : Int) : Nat :=
  if i < 0 then 0 else match bs[i.toNat]? with
    | some b => b.toNat
    | none => 0

/-- The bytes from an offset to the limit (`bb.limit` is the length, `web/pb/messages.ts:198-200`). -/
def left (bs : Bytes) (o : Int) : Nat := (bs.length - o).toNat

/-- The loop of `readVarint32` (`web/pb/messages.ts:484-494`), with the number of bytes left: when there are none, `readByte`
throws (`web/pb/messages.ts:236-243`). -/
def readVarint32Loop (bs : Bytes) : Nat → Nat → Nat → Int → Except Thrown (Nat × Int)
  | 0, _, _, _ => .error .pastLimit
  | n + 1, c, value, o =>
    let b := byteAt bs o
    let value := if c < 32 then value + b % 128 * 2 ^ c % 2 ^ 32 else value
    if 128 ≤ b then readVarint32Loop bs n (c + 7) value (o + 1) else .ok (value, o + 1)

/-- `readVarint32` (`web/pb/messages.ts:484-494`) as an unsigned number of 32 bits, and the new offset. -/
def readVarint32 (bs : Bytes) (o : Int) : Except Thrown (Nat × Int) := readVarint32Loop bs (left bs o) 0 0 o

/-- The same number as JavaScript has it: signed (`|=`, `<<` at `web/pb/messages.ts:494`). -/
def int32 (n : Nat) : Int := toSigned 32 n

/-- `while (readByte(bb) & 0x80)` (`web/pb/messages.ts:133`). -/
def skipVarint (bs : Bytes) : Nat → Int → Except Thrown Int
  | 0, _ => .error .pastLimit
  | n + 1, o => if 128 ≤ byteAt bs o then skipVarint bs n (o + 1) else .ok (o + 1)

/-- `skip` (`web/pb/messages.ts:208-213`). -/
def skip (bs : Bytes) (o count : Int) : Except Thrown Int :=
  if o + count > bs.length then .error .skipPastLimit else .ok (o + count)

/-- `skipUnknownField` (`web/pb/messages.ts:139-147`). -/
def skipUnknownField (bs : Bytes) (o : Int) (type : Nat) : Except Thrown Int :=
  match type with
  | 0 => skipVarint bs (left bs o) o
  | 2 => do
    let (n, o) ← readVarint32 bs o
    skip bs o (int32 n)
  | 5 => skip bs o 4
  | 1 => skip bs o 8
  | t => .error (.unimplemented t)

/-- The text `readString` makes of the bytes (`web/pb/messages.ts:264-327`): `0xFFFD` for a byte that starts no character. -/
def text : List Nat → List Nat
  | [] => []
  | c1 :: rest =>
    if c1 < 0x80 then c1 :: text rest
    else if c1 / 32 = 6 then
      match rest with
      | c2 :: rest' =>
        if c2 / 64 = 2 then
          let c := c1 % 32 * 2 ^ 6 + c2 % 64
          if c < 0x80 then 0xFFFD :: text (c2 :: rest') else c :: text rest'
        else 0xFFFD :: text (c2 :: rest')
      | [] => [0xFFFD]
    else if c1 / 16 = 14 then
      match rest with
      | c2 :: c3 :: rest' =>
        if c2 / 64 = 2 ∧ c3 / 64 = 2 then
          let c := c1 % 16 * 2 ^ 12 + c2 % 64 * 2 ^ 6 + c3 % 64
          if c < 0x800 ∨ (0xD800 ≤ c ∧ c ≤ 0xDFFF) then 0xFFFD :: text (c2 :: c3 :: rest') else c :: text rest'
        else 0xFFFD :: text (c2 :: c3 :: rest')
      | [c2] => 0xFFFD :: text [c2]
      | [] => [0xFFFD]
    else if c1 / 8 = 30 then
      match rest with
      | c2 :: c3 :: c4 :: rest' =>
        if c2 / 64 = 2 ∧ c3 / 64 = 2 ∧ c4 / 64 = 2 then
          let c := c1 % 8 * 2 ^ 18 + c2 % 64 * 2 ^ 12 + c3 % 64 * 2 ^ 6 + c4 % 64
          if c < 0x10000 ∨ 0x10FFFF < c then 0xFFFD :: text (c2 :: c3 :: c4 :: rest')
          else ((c - 0x10000) / 2 ^ 10 + 0xD800) :: ((c - 0x10000) % 2 ^ 10 + 0xDC00) :: text rest'
        else 0xFFFD :: text (c2 :: c3 :: c4 :: rest')
      | [c2, c3] => 0xFFFD :: text [c2, c3]
      | [c2] => 0xFFFD :: text [c2]
      | [] => [0xFFFD]
    else 0xFFFD :: text rest

/-- `readString` (`web/pb/messages.ts:255-330`): no character when the count is negative. -/
def readString (bs : Bytes) (o count : Int) : Except Thrown (List Nat × Int) :=
  if o + count > bs.length then .error .pastLimit
  else .ok (text ((List.range count.toNat).map (fun i : Nat => byteAt bs (o + i))), o + count)

/-- The bytes of `readVarint64` (`web/pb/messages.ts:505-531`): at most ten; the number they make, seven bits each. -/
def readVarint64Loop (bs : Bytes) : Nat → Int → Except Thrown (Nat × Int)
  | 0, o => .ok (0, o)
  | n + 1, o =>
    if o + 1 > bs.length then .error .pastLimit
    else
      let b := byteAt bs o
      if 128 ≤ b then do
        let (r, o) ← readVarint64Loop bs n (o + 1)
        .ok (b % 128 + 128 * r, o)
      else .ok (b % 128, o + 1)

/-- `readVarint64` (`web/pb/messages.ts:505-538`): the three parts are 28, 28 and 14 bits of the number. -/
def readVarint64 (bs : Bytes) (o : Int) : Except Thrown (Long × Int) := do
  let (n, o) ← readVarint64Loop bs 10 o
  let part0 := n % 2 ^ 28
  let part1 := n / 2 ^ 28 % 2 ^ 28
  let part2 := n / 2 ^ 56
  .ok (⟨int32 (part0 + part1 % 16 * 2 ^ 28), int32 (part1 / 16 + part2 % 256 * 2 ^ 24), false⟩, o)

/-- The value of a known field (`web/pb/messages.ts:78, 84, 108`). -/
def readVal (bs : Bytes) (o : Int) : Kind → Except Thrown (JsVal × Int)
  | .bool => if o + 1 > bs.length then .error .pastLimit else .ok (.bool (byteAt bs o != 0), o + 1)
  | .string => do
    let (n, o) ← readVarint32 bs o
    let (t, o) ← readString bs o (int32 n)
    .ok (.text t, o)
  | .int64 => do
    let (l, o) ← readVarint64 bs o
    .ok (.long l, o)

/-- What a `switch (tag >>> 3)` knows about a number (`web/pb/messages.ts:72-110`). -/
def fieldOf (table : List (Nat × String × Kind)) (f : Nat) : Option (String × Kind) :=
  match table with
  | [] => none
  | (g, name, kind) :: rest => if g = f then some (name, kind) else fieldOf rest f

/-- How far a reader has come. -/
inductive Reading where
  | returned (m : Obj)
  | threw (e : Thrown)
  | running (o : Int) (m : Obj)
  deriving DecidableEq

/-- One round of the loop of `_decodePeerStatus` and its like (`web/pb/messages.ts:69-115`, `requests.ts:29-46`,
`responses.ts:37-60`). -/
def round (table : List (Nat × String × Kind)) (bs : Bytes) (o : Int) (m : Obj) : Reading :=
  if o ≥ bs.length then .returned m
  else match readVarint32 bs o with
    | .error e => .threw e
    | .ok (tag, o) =>
      if tag / 8 = 0 then .returned m
      else match fieldOf table (tag / 8) with
        | some (name, kind) =>
          match readVal bs o kind with
          | .error e => .threw e
          | .ok (v, o) => .running o (put m name v)
        | none =>
          match skipUnknownField bs o (tag % 8) with
          | .error e => .threw e
          | .ok o => .running o m

/-- The loop after some rounds (`web/pb/messages.ts:69-115`). -/
def rounds (table : List (Nat × String × Kind)) (bs : Bytes) : Nat → Int → Obj → Reading
  | 0, o, m => .running o m
  | n + 1, o, m =>
    match round table bs o m with
    | .running o m => rounds table bs n o m
    | r => r

/-- A reader of the page after some rounds of its loop (`web/pb/messages.ts:62-118`). -/
def decode (table : List (Nat × String × Kind)) (bs : Bytes) (n : Nat) : Reading := rounds table bs n 0 []

/-- The cases of `_decodePeerStatus` (`web/pb/messages.ts:72-110`). -/
def peerStatusTable : List (Nat × String × Kind) :=
  [(1, "connected", .bool), (2, "peer_id", .string), (3, "sync_status", .string), (4, "protocol_state_hash", .string),
    (5, "git_commit", .string), (6, "uptime_minutes", .int64)]

/-- The case of `_decodeConnectRequest` (`web/pb/requests.ts:32-41`). -/
def connectRequestTable : List (Nat × String × Kind) := [(1, "address", .string)]

/-- The cases of `_decodeCommonResponse` (`web/pb/responses.ts:40-55`). -/
def commonResponseTable : List (Nat × String × Kind) := [(1, "success", .bool), (2, "error_message", .string)]

/-! ## The program's side

The code that `protobuf_codegen` 3 generates from `apps/wasm/mvp/proto` (`apps/wasm/mvp/build.rs:9-17`) and the `protobuf` crate
it uses are not in the repository; this is how they read and write the three messages. -/

/-- A value of a field of a message of the program (`apps/wasm/mvp/src/lib.rs:165-172`). -/
inductive RVal where
  | bool (b : Bool)
  | str (s : String)
  | int (n : Int)
  deriving DecidableEq

/-- A number as base-128 groups (`write_raw_varint64` of the `protobuf` crate, used by `apps/wasm/mvp/src/utils.rs:11`); 64 bits take
at most ten rounds. -/
def varintLoop : Nat → Nat → Bytes
  | 0, n => [UInt8.ofNat n]
  | k + 1, n => if n < 128 then [UInt8.ofNat n] else UInt8.ofNat (n % 128 + 128) :: varintLoop k (n / 128)

/-- A number as base-128 groups (`apps/wasm/mvp/src/utils.rs:11`). -/
def varint (n : Nat) : Bytes := varintLoop 9 n

/-- One field as `write_to_bytes` writes it (`apps/wasm/mvp/src/utils.rs:11`): nothing for `false`, the empty text and 0. -/
def writeField (f : Nat) : RVal → Bytes
  | .bool b => if b then varint (8 * f) ++ [1] else []
  | .str s => if s = "" then [] else varint (8 * f + 2) ++ varint (BinProt.utf8 s).length ++ BinProt.utf8 s
  | .int n => if n = 0 then [] else varint (8 * f) ++ varint (wrapU 64 n)

/-- A message of the program: the fields in order (`apps/wasm/mvp/proto/*.proto`), numbered from 1, each with its value. -/
def writeFields : Nat → List RVal → Bytes
  | _, [] => []
  | f, v :: vs => writeField f v ++ writeFields (f + 1) vs

/-- `proto_msg_to_u8array` (`apps/wasm/mvp/src/utils.rs:10-15`). -/
def writeMessage (vs : List RVal) : Bytes := writeFields 1 vs

/-- How the `protobuf` crate treats numbers beyond 64 bits, and tags and lengths beyond 32: some versions cut them, some refuse
them (`protobuf = "3"`, `apps/wasm/mvp/Cargo.toml:28`). -/
structure Lib where
  cuts : Bool

/-- `read_raw_varint64` (used by `apps/wasm/mvp/src/utils.rs:19`): at most ten bytes. -/
def takeVarintLoop : Nat → Bytes → Option (Nat × Bytes)
  | 0, _ => none
  | _ + 1, [] => none
  | k + 1, b :: bs =>
    if 128 ≤ b.toNat then do
      let (r, rest) ← takeVarintLoop k bs
      some (b.toNat % 128 + 128 * r, rest)
    else some (b.toNat, bs)

/-- A number of `w` bits (`apps/wasm/mvp/src/utils.rs:19`). -/
def takeVarint (L : Lib) (w : Nat) (bs : Bytes) : Option (Nat × Bytes) := do
  let (n, rest) ← takeVarintLoop 10 bs
  if n < 2 ^ w then some (n, rest) else if L.cuts then some (n % 2 ^ w, rest) else none

/-- Some bytes (`apps/wasm/mvp/src/utils.rs:19`). -/
def takeBytes (n : Nat) (bs : Bytes) : Option (Bytes × Bytes) :=
  if n ≤ bs.length then some (bs.take n, bs.drop n) else none

/-- Skipping the value of an unknown field that is not a group (`apps/wasm/mvp/src/utils.rs:19`). -/
def skipValue (L : Lib) (w : Nat) (bs : Bytes) : Option Bytes :=
  match w with
  | 0 => (takeVarint L 64 bs).map (·.2)
  | 1 => (takeBytes 8 bs).map (·.2)
  | 2 => do
    let (n, rest) ← takeVarint L 32 bs
    (takeBytes n rest).map (·.2)
  | 5 => (takeBytes 4 bs).map (·.2)
  | _ => none

/-- Skipping groups: to the tag that ends the outermost one (`apps/wasm/mvp/src/utils.rs:19`).  The first argument bounds the number
of fields by the number of bytes. -/
def skipGroup (L : Lib) : Nat → Nat → Bytes → Option Bytes
  | 0, _, _ => none
  | k + 1, depth, bs => do
    let (tag, rest) ← takeVarint L 32 bs
    if tag / 8 = 0 then none
    else if tag % 8 = 4 then (if depth = 1 then some rest else skipGroup L k (depth - 1) rest)
    else if tag % 8 = 3 then skipGroup L k (depth + 1) rest
    else do
      let rest ← skipValue L (tag % 8) rest
      skipGroup L k depth rest

/-- The value of a known field (`apps/wasm/mvp/src/utils.rs:19`): `read_bool`, `read_string`, `read_int64`. -/
def takeVal (L : Lib) (kind : Kind) (bs : Bytes) : Option (RVal × Bytes) :=
  match kind with
  | .bool => do
    let (n, rest) ← takeVarint L 64 bs
    some (.bool (n != 0), rest)
  | .string => do
    let (n, rest) ← takeVarint L 32 bs
    let (b, rest) ← takeBytes n rest
    let s ← String.fromUTF8? ⟨b.toArray⟩
    some (.str s, rest)
  | .int64 => do
    let (n, rest) ← takeVarint L 64 bs
    some (.int (toSigned 64 n), rest)

/-- The wire type of a declared type (`apps/wasm/mvp/proto/*.proto`). -/
def wireType : Kind → Nat
  | .bool => 0
  | .string => 2
  | .int64 => 0

/-- The loop of `merge_from` (generated code, called through `apps/wasm/mvp/src/utils.rs:19`): a tag that is exactly that of a declared
field sets it, everything else is skipped.  `kinds f` is the declared type of field `f`. -/
def parseLoop (L : Lib) (kinds : Nat → Option Kind) : Nat → Bytes → List (Nat × RVal) → Option (List (Nat × RVal))
  | _, [], m => some m
  | 0, _ :: _, _ => none
  | k + 1, b :: bs, m => do
    let (tag, rest) ← takeVarint L 32 (b :: bs)
    match kinds (tag / 8) with
    | some kind =>
      if tag % 8 = wireType kind then do
        let (v, rest) ← takeVal L kind rest
        parseLoop L kinds k rest ((tag / 8, v) :: m)
      else do
        let rest ← (if tag % 8 = 3 then skipGroup L rest.length 1 rest else skipValue L (tag % 8) rest)
        parseLoop L kinds k rest m
    | none =>
      if tag / 8 = 0 then none
      else do
        let rest ← (if tag % 8 = 3 then skipGroup L rest.length 1 rest else skipValue L (tag % 8) rest)
        parseLoop L kinds k rest m

/-- The value of a field after reading (`apps/wasm/mvp/src/utils.rs:19`): the one read last. -/
def fieldVal (m : List (Nat × RVal)) (f : Nat) : Option RVal :=
  match m with
  | [] => none
  | (g, v) :: m => if g = f then some v else fieldVal m f

/-- `u8array_to_proto_msg` for `ConnectRequest` (`apps/wasm/mvp/src/utils.rs:17-20`, `js_exports.rs:64-65`): the address, empty when it
is absent. -/
def parseConnectRequest (L : Lib) (bs : Bytes) : Option String :=
  (parseLoop L (fun f => if f = 1 then some .string else none) bs.length bs []).map (fun m =>
    match fieldVal m 1 with
    | some (.str s) => s
    | _ => "")

/-! ## The messages of the program -/

/-- `pb::messages::PeerStatus` (`apps/wasm/mvp/proto/messages.proto:4-18`). -/
structure PeerStatus where
  connected : Bool
  peerId : String
  syncStatus : String
  protocolStateHash : String
  gitCommit : String
  uptimeMinutes : Int
  deriving DecidableEq

/-- `proto_msg_to_u8array` of a status (`apps/wasm/mvp/src/utils.rs:10-15`, `proto/messages.proto:4-18`). -/
def PeerStatus.write (s : PeerStatus) : Bytes :=
  writeMessage [.bool s.connected, .str s.peerId, .str s.syncStatus, .str s.protocolStateHash, .str s.gitCommit,
    .int s.uptimeMinutes]

/-- `proto_msg_to_u8array` of a response (`apps/wasm/mvp/src/utils.rs:10-15`, `proto/responses.proto:4-10`). -/
def writeCommonResponse (success : Bool) (errorMessage : String) : Bytes :=
  writeMessage [.bool success, .str errorMessage]

end MinaRs.Proto
