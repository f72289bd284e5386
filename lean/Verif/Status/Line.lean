import Verif.Status.Model
import Verif.Json.DocText
import Verif.Json.Text
import Verif.Proto.Model

/-!
# What one line of the node status stream says

`apps/wasm/mvp/src/lib.rs:159-184`: base64 of a JSON document with the status of a peer, which is handed to the page as a
protobuf message.
-/

namespace MinaRs.Status

open Json (J Floats)
open Text (Text)

/-- The symbols of the standard base64 alphabet as those of the URL-safe one, in which alone they differ; `-` and `_` are no symbols
of the standard alphabet (`base64::decode`, external, used at `lib.rs:161`). -/
def toUrl (c : Char) : Char :=
  if c = '+' then '-' else if c = '/' then '_' else if c = '-' ∨ c = '_' then '!' else c

/-- `base64::decode` (external, used at `lib.rs:161`). -/
def decodeStandard (t : Text) : Except Codec.CodecErr Bytes := Codec.decode64 (t.map toUrl)

/-- `PeerStatusJson` (`lib.rs:117-125`). -/
structure PeerStatusJson where
  connected : Bool
  peerId : String
  syncStatus : String
  protocolStateHash : String
  gitCommit : String
  uptimeMinutes : Int
  deriving DecidableEq

/-- The member of an object with this name, if there is one and only one (derived `Deserialize`, `lib.rs:117-125`). -/
def member (es : List (String × J)) (name : String) : Option J :=
  match Json.lookup name es with
  | [j] => some j
  | _ => none

/-- `bool` of serde (`lib.rs:119`). -/
def deBool : J → Option Bool
  | .bool b => some b
  | _ => none

/-- `String` of serde (`lib.rs:120-123`). -/
def deString : J → Option String
  | .str s => some s
  | _ => none

/-- `i64` of serde (`lib.rs:124`). -/
def deI64 : J → Option Int
  | .num n => if -(2 ^ 63) ≤ n ∧ n < 2 ^ 63 then some n else none
  | _ => none

/-- The six fields (`lib.rs:117-125`). -/
def deFields (f1 f2 f3 f4 f5 f6 : J) : Option PeerStatusJson := do
  let a ← deBool f1
  let b ← deString f2
  let c ← deString f3
  let d ← deString f4
  let e ← deString f5
  let f ← deI64 f6
  some ⟨a, b, c, d, e, f⟩

/-- Derived `Deserialize for PeerStatusJson` (`lib.rs:117-125`): from an object or from a list. -/
def deStatus : J → Option PeerStatusJson
  | .obj es => do
    let f1 ← member es "connected"
    let f2 ← member es "peer_id"
    let f3 ← member es "sync_status"
    let f4 ← member es "protocol_state_hash"
    let f5 ← member es "git_commit"
    let f6 ← member es "uptime_minutes"
    deFields f1 f2 f3 f4 f5 f6
  | .arr [f1, f2, f3, f4, f5, f6] => deFields f1 f2 f3 f4 f5 f6
  | _ => none

/-- `serde_json::from_slice::<PeerStatusJson>` (`lib.rs:163`).  Simplification: the bytes are decoded as UTF-8 first; `serde_json` does
not look at the bytes of strings in members that it ignores. -/
def fromSlice (F : Floats) (bs : Bytes) : Option PeerStatusJson :=
  match String.fromUTF8? ⟨bs.toArray⟩ with
  | none => none
  | some s =>
    match Json.parse F s.toList with
    | none => none
    | some j => deStatus j

/-- The message made of a status (`lib.rs:166-175`). -/
def toMessage (s : PeerStatusJson) : Proto.PeerStatus :=
  { connected := s.connected, peerId := s.peerId, syncStatus := s.syncStatus, protocolStateHash := s.protocolStateHash,
    gitCommit := s.gitCommit, uptimeMinutes := s.uptimeMinutes }

/-- What a line that is not empty says (`lib.rs:161-175`). -/
def statusOf (F : Floats) (line : Text) : Option Proto.PeerStatus :=
  match decodeStandard line with
  | .error _ => none
  | .ok bs =>
    match fromSlice F bs with
    | none => none
    | some s => some (toMessage s)

/-- The byte messages handed to the listener in `n` rounds of the loop of `read_response` (`lib.rs:153-198`): each status
as protobuf (`lib.rs:176-179`, `utils.rs:10-15`). -/
def emitted (F : Floats) (listening : Nat → Bool) (n : Nat) (evs : List Ev) : List Bytes :=
  (run (statusOf F) listening n 0 [] evs).1.map Proto.PeerStatus.write

end MinaRs.Status
