import Verif.Base.Text
import Verif.Block.JsonModel

/-!
# The blocks crawler

Model of `apps/tools/blocks-crawler/src/blocks.rs` and `main.rs`: a run checks every listed block that is not yet in
the folder of succeeded blocks, retrieves it and files it under `succeeded` or `failed`.  The checks of one run are
polled by one task (`for_each_concurrent`), so that they interleave only while waiting for an answer; the process can
be killed at any point.
-/

namespace MinaRs.Crawler

open MinaRs.Text

/-- `blocks.rs:19-25` (`BlockInfo`) -/
structure BlockInfo where
  blockHeight : Nat
  stateHash : Text
  deriving DecidableEq, Repr

/-- `blocks.rs:27-31` (`Display for BlockInfo`) and the file names of `blocks.rs:35`, `44`, `114`, for network
`mainnet` (`main.rs:38`). -/
def fileName (b : BlockInfo) : Text :=
  "mainnet-".toList ++ (decimal b.blockHeight ++ ('-' :: b.stateHash)) ++ ".json".toList

/-- The two output folders.  File names contain no path separator (with one the process ends, C120)
(`apps/tools/blocks-crawler/src/blocks.rs:35, 43, 115`). -/
structure Folders where
  succeeded : Text → Option Bytes
  failed : Text → Option Bytes

/-- Writing or deleting a file (`apps/tools/blocks-crawler/src/blocks.rs:37, 114-122`). -/
def put (f : Text → Option Bytes) (name : Text) (c : Option Bytes) : Text → Option Bytes :=
  fun x => if x = name then c else f x

/-- The outcome of `parse_block_json` (`blocks.rs:108-112`). -/
inductive Verdict where
  | accepted
  | refused
  | panics
  deriving DecidableEq, Repr

/-- One call of `check_block` (`apps/tools/blocks-crawler/src/blocks.rs:33-71`). -/
inductive Job where
  | pending (b : BlockInfo)
  /-- waiting for `retrieve_block_json` -/
  | fetching (b : BlockInfo)
  | done
  deriving DecidableEq, Repr

/-- The folders and the calls of the current run; no calls when no run is under way.  `got` is a ghost log of the
documents retrieved, with the names of their blocks (`apps/tools/blocks-crawler/src/main.rs:22-39`). -/
structure St (D : Type) where
  folders : Folders
  jobs : List Job
  got : List (Text × D)

/-- What happens (`apps/tools/blocks-crawler/src/blocks.rs:33-71`). -/
inductive Ev (D : Type) where
  /-- a run is started with this list of blocks -/
  | launch (blocks : List BlockInfo)
  /-- a check begins -/
  | start (i : Nat)
  /-- the document of a check is retrieved, or not (`none`) -/
  | answer (i : Nat) (r : Option D)
  /-- the process is killed while it waits -/
  | kill
  /-- the document of a check is retrieved and the process is killed after so many bytes of the file are written -/
  | killWriting (i : Nat) (d : D) (bytes : Nat)
  deriving DecidableEq, Repr

/-- Parsing a document as a block, and `serde_json::to_string_pretty`
(`apps/tools/blocks-crawler/src/blocks.rs:108-122`). -/
structure Env (D : Type) where
  judge : D → Verdict
  print : D → Bytes

variable {D : Type} (E : Env D)

/-- `blocks.rs:33-46` (`check_block` up to the request): a failed block is deleted, a succeeded one is not checked
again. -/
def begin (f : Folders) (b : BlockInfo) : Folders × Job :=
  let f' : Folders := { f with failed := put f.failed (fileName b) none }
  match f'.succeeded (fileName b) with
  | some _ => (f', .done)
  | none => (f', .fetching b)

/-- `blocks.rs:54-63`, `114-121` (`check_block` after the request, `write_json`): `content` is what gets written of
the document. -/
def finish (f : Folders) (b : BlockInfo) (v : Verdict) (content : Bytes) : Folders :=
  match v with
  | .accepted => { f with succeeded := put f.succeeded (fileName b) (some content) }
  | .refused => { f with failed := put f.failed (fileName b) (some content) }
  | .panics => f

/-- One event; `none` when it cannot happen (`apps/tools/blocks-crawler/src/blocks.rs:33-71`). -/
def step (s : St D) : Ev D → Option (St D)
  | .launch blocks =>
    if s.jobs.all (fun j => j == .done) then some { s with jobs := blocks.map .pending } else none
  | .start i =>
    match s.jobs[i]? with
    | some (.pending b) => some { s with folders := (begin s.folders b).1, jobs := s.jobs.set i (begin s.folders b).2 }
    | _ => none
  | .answer i r =>
    match s.jobs[i]? with
    | some (.fetching b) =>
      match r with
      | none => some { s with jobs := s.jobs.set i .done }
      | some d =>
        match E.judge d with
        -- the panic ends the process
        | .panics => some { s with jobs := [], got := s.got ++ [(fileName b, d)] }
        | v => some { folders := finish s.folders b v (E.print d), jobs := s.jobs.set i .done, got := s.got ++ [(fileName b, d)] }
    | _ => none
  | .kill => some { s with jobs := [] }
  | .killWriting i d k =>
    match s.jobs[i]? with
    | some (.fetching b) =>
      some { folders := finish s.folders b (E.judge d) ((E.print d).take k), jobs := [], got := s.got ++ [(fileName b, d)] }
    | _ => none

/-- A history (`apps/tools/blocks-crawler/src/main.rs:22-39`). -/
def run (s : St D) : List (Ev D) → Option (St D)
  | [] => some s
  | e :: es =>
    match step E s e with
    | none => none
    | some s' => run s' es

/-- Empty folders (`apps/tools/blocks-crawler/src/main.rs:22-39`). -/
def init : St D := ⟨⟨fun _ => none, fun _ => none⟩, [], []⟩

/-- `blocks.rs:95-105` (`retrieve_block_json`): the member `scheduled_time` is removed. -/
def withoutTime : Json.J → Json.J
  | .obj es => .obj (es.filter fun e => e.1 != "scheduled_time")
  | j => j

/-- `blocks.rs:108-112` (`parse_block_json`): the document is read and converted. -/
def blockVerdict (E : Json.Env) (j : Json.J) : Verdict :=
  match Block.tryFromJson E j with
  | .ok _ => .accepted
  | .error .err => .refused
  | .error _ => .panics

end MinaRs.Crawler
