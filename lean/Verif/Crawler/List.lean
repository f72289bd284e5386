import Verif.Crawler.Model
import Verif.Wallet.Call

/-!
# How the blocks crawler gets its list of blocks, and where it puts files

Model of `fetch_block_info` and of the paths of `check_block` and `write_json` (`apps/tools/blocks-crawler/src/blocks.rs:10-31,
35, 43, 73-92, 114-122`) and of their use in `main` (`main.rs:25-38`).

Simplifications.  The answer is a text (the crate reads its bytes, whatever the status of the answer); links and limits on the
length of names are left out of the file system, and folders do not disappear while the program runs.
-/

namespace MinaRs.Crawler

open MinaRs.Text
open Json (J Floats parse)

/-! ## The request -/

/-- The text before the limit (`blocks.rs:76-77`). -/
def queryHead : Text := "query Fetch {\n            blocks(limit: ".toList

/-- The text after the limit (`blocks.rs:77-81`). -/
def queryTail : Text :=
  ", sortBy: RECEIVEDTIME_DESC) {\n                blockHeight\n                stateHash\n            }\n        }".toList

/-- The query for a limit, the text given on the command line (`blocks.rs:75-83`, `main.rs:15-16, 30`). -/
def listQuery (limit : Text) : Text := queryHead ++ limit ++ queryTail

/-! ## The answer -/

/-- The value of the one member with this name; a repeated member is an error of the derived `Deserialize`
(`blocks.rs:11-25`). -/
def only (k : String) (es : List (String × J)) : Option J :=
  match es.filter fun e => e.1 == k with
  | [e] => some e.2
  | _ => none

/-- A structure with one field, which may be written as an array (derived `Deserialize`, `blocks.rs:11-18`). -/
def field (k : String) : J → Option J
  | .obj es => only k es
  | .arr [j] => some j
  | _ => none

/-- The two fields of a listed block as `usize` and `String` (`blocks.rs:22, 24`). -/
def info : J → J → Option BlockInfo
  | .num n, .str s => if 0 ≤ n ∧ n < 2 ^ 64 then some ⟨n.toNat, s.toList⟩ else none
  | _, _ => none

/-- `BlockInfo` (`blocks.rs:19-25`). -/
def readInfo : J → Option BlockInfo
  | .obj es =>
    match only "blockHeight" es, only "stateHash" es with
    | some h, some s => info h s
    | _, _ => none
  | .arr [h, s] => info h s
  | _ => none

/-- `Vec<BlockInfo>` (`blocks.rs:17`). -/
def readInfos : List J → Option (List BlockInfo)
  | [] => some []
  | j :: js =>
    match readInfo j, readInfos js with
    | some b, some bs => some (b :: bs)
    | _, _ => none

/-- `QueryResponse` (`blocks.rs:11-18`). -/
def readListing (j : J) : Option (List BlockInfo) :=
  match field "data" j with
  | none => none
  | some d =>
    match field "blocks" d with
    | some (.arr js) => readInfos js
    | _ => none

/-- How getting the list ends: with the blocks, or with the end of the process (`unwrap`, `main.rs:33`). -/
inductive Listing where
  | blocks (bs : List BlockInfo)
  | aborted
  deriving DecidableEq, Repr

/-- `fetch_block_info` (`blocks.rs:73-92`) and its use at `main.rs:30-34`: the body that is sent, and how it ends.  The explorer
answers a body with a text, or not at all. -/
def fetchBlockInfo (explorer : Text → Option Text) (F : Floats) (limit : Text) : Text × Listing :=
  (Wallet.body (listQuery limit),
    match explorer (Wallet.body (listQuery limit)) with
    | none => .aborted
    | some answer =>
      match parse F answer with
      | none => .aborted
      | some j =>
        match readListing j with
        | none => .aborted
        | some bs => .blocks bs)

/-! ## The files -/

/-- A file: the names of the folders from the root, and its own name (`blocks.rs:115`). -/
structure Place where
  folder : List Text
  name : Text
  deriving DecidableEq, Repr

/-- Following the components of a path from a folder (path resolution of the operating system, used at `blocks.rs:36, 44, 117`):
empty components and `.` stay, `..` goes up, every other one but the last must be a folder, and the last must not be one. -/
def walk (isDir : List Text → Bool) : List Text → List Text → Option Place
  | _, [] => none
  | cur, [last] =>
    if last = [] ∨ last = ['.'] ∨ last = ['.', '.'] ∨ isDir (cur ++ [last]) = true then none else some ⟨cur, last⟩
  | cur, c :: cs =>
    if c = [] ∨ c = ['.'] then walk isDir cur cs
    else if c = ['.', '.'] then walk isDir cur.dropLast cs
    else if isDir (cur ++ [c]) then walk isDir (cur ++ [c]) cs
    else none

/-- The file a relative path leads to, seen from the working folder; a path with a null character leads nowhere
(`std::fs::write`, external, used at `blocks.rs:117`). -/
def resolve (isDir : List Text → Bool) (cwd : List Text) (path : Text) : Option Place :=
  if Char.ofNat 0 ∈ path then none else walk isDir cwd (split '/' path)

/-- The path of `write_json` (`blocks.rs:115`). -/
def writePath (op : Text) (b : BlockInfo) : Text := "./output/".toList ++ op ++ ('/' :: fileName b)

/-- The paths `check_block` looks at (`blocks.rs:35, 43`). -/
def lookPath (op : Text) (b : BlockInfo) : Text := "output/".toList ++ op ++ ('/' :: fileName b)

/-- `write_json` (`blocks.rs:114-122`): the file that is written, or `none`: the process ends (`unwrap`). -/
def writeJson (isDir : List Text → Bool) (cwd : List Text) (op : Text) (b : BlockInfo) : Option Place :=
  resolve isDir cwd (writePath op b)

end MinaRs.Crawler
