/-!
# The transport of a node

Model of `network/src/p2p/config.rs` and `network/src/p2p/builder.rs`.

`libp2p` is not modelled: a transport is the list of what it is built from.  Blake2b (of the `multihash` crate) and the
peer id of a key are parameters.
-/
namespace MinaRs.P2P

/-- Bytes (`network/src/p2p/config.rs:28-30`). -/
abbrev Bytes := List UInt8

/-- The functions of other crates: `Blake2b256`, `PeerId::from(keypair.public())` (`network/src/p2p/config.rs:28-30`,
`network/src/p2p/builder.rs:44`). -/
structure Env (Key PeerId : Type) where
  blake2b : Bytes → Bytes
  blake2b_length : ∀ bs, (blake2b bs).length = 32
  peerId : Key → PeerId

/-- `config.rs:18-24` (`TransportConfig`) -/
structure Config where
  rendezvous : Bytes
  mplexName : Bytes
  deriving DecidableEq, Repr

/-- The bytes of an ASCII literal, `b"..."` (`network/src/p2p/config.rs:11, 47-48`). -/
def ascii (s : String) : Bytes := s.toList.map fun c => UInt8.ofNat c.toNat

/-- `config.rs:45-52` (`Default`) -/
def Config.default : Config := ⟨ascii "", ascii "/coda/mplex/1.0.0"⟩

/-- `config.rs:9-13` (`MAINNET_CONFIG`) -/
def Config.mainnet : Config :=
  { Config.default with
    rendezvous := ascii "/coda/0.0.1/5f704cc0c82e0ed70e873f0893d7e06f148524e3f0bdae2afb02e7819a0c24d1" }

variable {Key PeerId : Type}

/-- `config.rs:28-35` (`get_shared_key`); `copy_from_slice` panics for another length than 32. -/
def Config.sharedKey (E : Env Key PeerId) (c : Config) : Bytes := E.blake2b c.rendezvous

/-- `builder.rs:22-28` (`TransportBuilder`).  Simplification: the static key of the noise protocol is a fresh key signed
with the node's key; the model keeps the latter. -/
structure Builder (Key PeerId : Type) where
  pnet : Bytes
  mplex : Bytes
  noise : Key
  timeout : Nat
  peerId : PeerId
  deriving DecidableEq, Repr

/-- `builder.rs:43-59` (`new_with_key_and_config`); the timeout is in seconds. -/
def Builder.newWithKeyAndConfig (E : Env Key PeerId) (key : Key) (c : Config) : Builder Key PeerId :=
  ⟨c.sharedKey E, c.mplexName, key, 60, E.peerId key⟩

/-- `builder.rs:38-40` (`new_with_key`); `new` (`builder.rs:32-35`) is this with a random key. -/
def Builder.newWithKey (E : Env Key PeerId) (key : Key) : Builder Key PeerId :=
  Builder.newWithKeyAndConfig E key Config.default

/-- `builder.rs:62-67` (`with_config`) -/
def Builder.withConfig (E : Env Key PeerId) (b : Builder Key PeerId) (c : Config) : Builder Key PeerId :=
  { b with pnet := c.sharedKey E, mplex := c.mplexName }

/-- `builder.rs:70-72` (`with_mainnet_config`) -/
def Builder.withMainnetConfig (E : Env Key PeerId) (b : Builder Key PeerId) : Builder Key PeerId :=
  b.withConfig E Config.mainnet

/-- `builder.rs:75-78` (`with_timeout`) -/
def Builder.withTimeout (b : Builder Key PeerId) (t : Nat) : Builder Key PeerId := { b with timeout := t }

/-- The layers of a transport, from the socket upwards (`network/src/p2p/builder.rs:99-114`). -/
inductive Layer (Key : Type) where
  | privateNetwork (key : Bytes)
  | noiseXX (identity : Key)
  | multiplex (name : Bytes)
  | timeout (seconds : Nat)
  deriving DecidableEq, Repr

/-- `builder.rs:81-117` (`build`); `dns` says whether the system's DNS configuration can be read (`builder.rs:100`; it is
not looked at in a browser). -/
def Builder.build (b : Builder Key PeerId) (dns : Bool) : Option (List (Layer Key) × PeerId) :=
  if dns then
    some ([.privateNetwork b.pnet, .noiseXX b.noise, .multiplex b.mplex, .timeout b.timeout], b.peerId)
  else none

/-- The calls between the making of a builder and `build` (`network/src/p2p/builder.rs:61-77`). -/
inductive Call where
  | config (c : Config)
  | mainnet
  | timeout (t : Nat)
  deriving DecidableEq, Repr

/-- One of these calls (`network/src/p2p/builder.rs:61-77`). -/
def Builder.call (E : Env Key PeerId) (b : Builder Key PeerId) : Call → Builder Key PeerId
  | .config c => b.withConfig E c
  | .mainnet => b.withMainnetConfig E
  | .timeout t => b.withTimeout t

end MinaRs.P2P
