import Verif.Proto.Model

/-!
# The page that lists the peers

`apps/wasm/mvp/web/pages/libp2p.vue`: the handler of `update` events, `connect` and the counts.
-/

namespace MinaRs.Proto

/-- `this.peers` (`apps/wasm/mvp/web/pages/libp2p.vue:71`): messages by key, a key being a JavaScript string. -/
abbrev Peers := List (List Nat × Obj)

/-- The code units of an ASCII text. -/
def ascii (s : String) : List Nat := s.toList.map Char.toNat

/-- A value used as a property key (`libp2p.vue:87`): its text. -/
def jsKey : Option JsVal → List Nat
  | none => ascii "undefined"
  | some (.bool b) => if b then ascii "true" else ascii "false"
  | some (.text t) => t
  | some (.long _) => ascii "[object Object]"

/-- `this.peers[key] = ps` (`libp2p.vue:87`) -/
def setPeer (peers : Peers) (key : List Nat) (ps : Obj) : Peers :=
  match peers with
  | [] => [(key, ps)]
  | (k, p) :: rest => if k = key then (k, ps) :: rest else (k, p) :: setPeer rest key ps

/-- The handler of `update` (`libp2p.vue:82-94`): `none` when reading does not end (a reader that ends does so within as many
rounds as there are bytes, and one more). -/
def onUpdate (peers : Peers) (msg : Bytes) : Option Peers :=
  match decode peerStatusTable msg (msg.length + 1) with
  | .returned ps => some (setPeer peers (jsKey (get ps "peerId")) ps)
  | .threw _ => some peers
  | .running _ _ => none

/-- What happens on the page: a status arrives, or the button is pressed (`libp2p.vue:82, 23`). -/
inductive PageEv where
  | status (s : PeerStatus)
  | connect

/-- `this.peers` after some events (`libp2p.vue:82-94, 105-118, 119-122`). -/
def page : Peers → List PageEv → Option Peers
  | peers, [] => some peers
  | peers, .status s :: evs => (onUpdate peers s.write).bind (fun p => page p evs)
  | _, .connect :: evs => page [] evs

/-- `getPeerCount` (`libp2p.vue:119-121`). -/
def getPeerCount (peers : Peers) : Nat := peers.length

/-- Whether JavaScript takes a value for true (`libp2p.vue:128`). -/
def truthy : Option JsVal → Bool
  | none => false
  | some (.bool b) => b
  | some (.text t) => t != []
  | some (.long _) => true

/-- `getConnectedPeerCount` (`libp2p.vue:122-127`). -/
def getConnectedPeerCount (peers : Peers) : Nat := (peers.filter (fun p => truthy (get p.2 "connected"))).length

/-- The cells of a row (`libp2p.vue:41-46`), by column: the label and five properties. -/
def cells (row : List Nat × Obj) : List Nat × List (Option JsVal) :=
  (row.1, [get row.2 "connected", get row.2 "syncStatus", get row.2 "protocolStateHash", get row.2 "gitCommit",
    get row.2 "uptimeMinutes"])

end MinaRs.Proto
