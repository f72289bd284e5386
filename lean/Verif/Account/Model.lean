import Verif.Block.Model
import Verif.Hash.LegacyState

/-!
# Accounts on the wire

`base/src/account` holds accounts as the node works with them, `protocol/serialization-types/src/account.rs`
as they are stored in a ledger database: `AccountV0` (no version layers) for `Account` and `AccountV1` for
`AccountLegacy`.  The conversions are derived by `AutoFrom`, as for blocks: a description gives the wire type
and both conversions, and `parts` / `ofParts` go between the nested pairs of a description and the structs of
the hash model.
-/

namespace MinaRs.Account

open BinProt (IntKind)
open Json (u8s)
open Block (BTy BTys fields items plain v1 v2 v3 u64 u64x3 hash publicKey)

/-! ## Descriptions -/

/-- `AuthRequired` (`protocol/serialization-types/src/account.rs:149-166`, `base/src/account/permissions.rs:12-28`) -/
def auth : BTy := .enum (plain ["None", "Either", "Proof", "Signature", "Both", "Impossible"])

/-- `TokenPermissions` (`account.rs:81-94`, `base/src/account/token_permissions.rs:9-23`) -/
def tokenPermissions : BTy := .enum
  (.cons "NotOwned" (.struct (fields [("account_disabled", .bool)]))
    (.cons "TokenOwned" (.struct (fields [("disable_new_accounts", .bool)])) .nil))

/-- `Permissions` (`account.rs:118-144`, `base/src/account/permissions.rs:66-91`) -/
def permissions : BTy := .struct (fields
  [("edit_state", auth), ("send", auth), ("receive", auth), ("set_delegate", auth), ("set_permissions", auth),
    ("set_verification_key", auth), ("set_zkapp_uri", auth), ("edit_sequence_state", auth),
    ("set_token_symbol", auth), ("increment_nonce", auth), ("set_voting_for", auth)])

/-- `PermissionsLegacy` (`account.rs:99-116`, `base/src/account/permissions.rs:45-64`) with `PermissionsV1`
(`account.rs:146-147`) -/
def permissionsLegacy : BTy := v2 (.struct (fields
  [("stake", .bool), ("edit_state", v1 auth), ("send", v1 auth), ("receive", v1 auth), ("set_delegate", v1 auth),
    ("set_permissions", v1 auth), ("set_verification_key", v1 auth)]))

/-- `TimedDataV0` (`account.rs:205-218`, `base/src/account/timing.rs:16-31`) -/
def timedData : BTy := .struct (fields
  [("initial_minimum_balance", .int .u64), ("cliff_time", .int .u64), ("cliff_amount", .int .u64),
    ("vesting_period", .int .u64), ("vesting_increment", .int .u64)])

/-- `TimingV0` (`account.rs:181-188`, `base/src/account/timing.rs:82-92`) -/
def timing : BTy := .enum (.cons "Untimed" (.tuple .nil) (.cons "Timed" (.newtype timedData) .nil))

/-- `TimedDataV1` (`account.rs:190-204, 220-222`, `base/src/account/timing.rs:16-31`): the last two fields are
the other way round. -/
def timedDataV1 : BTy := v1 (.struct (fields
  [("initial_minimum_balance", u64), ("cliff_time", u64), ("cliff_amount", u64), ("vesting_increment", u64),
    ("vesting_period", u64)]))

/-- `TimingV1` (`account.rs:171-179, 224-225`, `base/src/account/timing.rs:82-92`) -/
def timingV1 : BTy := v2 (.enum (.cons "Untimed" (.tuple .nil) (.cons "Timed" (.newtype timedDataV1) .nil)))

/-- `AccountV0` (`account.rs:47-79`, `base/src/account/mod.rs:91-122`) -/
def account : BTy := .struct (fields
  [("public_key", .key), ("token_id", .int .u64), ("token_permissions", tokenPermissions), ("token_symbol", .bytes32),
    ("balance", .int .u64), ("nonce", .int .u32), ("receipt_chain_hash", .bytes32), ("delegate", .option .key),
    ("voting_for", .bytes32), ("timing", timing), ("permissions", permissions), ("zkapp", .option .unit),
    ("zkapp_uri", .option .unit)])

/-- `AccountV1` (`account.rs:14-45`, `base/src/account/mod.rs:33-63`) -/
def accountLegacy : BTy := v3 (.struct (fields
  [("public_key", .newtype (v1 publicKey)), ("token_id", u64x3), ("token_permissions", v2 tokenPermissions),
    ("balance", u64), ("nonce", v2 (.int .u32)), ("receipt_chain_hash", hash), ("delegate", .option publicKey),
    ("voting_for", hash), ("timing", timingV1), ("permissions", permissionsLegacy), ("snapp", .option .unit)]))

/-! ## Structs and nested pairs -/

/-- A 64-bit number (`base/src/numbers.rs:17-19, 88-98, 226-228`). -/
def ofU64 (n : UInt64) : {n : Int // IntKind.u64.range.holds n} :=
  ⟨n.toNat, by
    have := n.toNat_lt
    show (0 : Int) ≤ n.toNat ∧ (n.toNat : Int) ≤ 18446744073709551615
    omega⟩

/-- See `ofU64` (`base/src/numbers.rs:17-19, 88-98, 226-228`). -/
def toU64 (n : {n : Int // IntKind.u64.range.holds n}) : UInt64 := UInt64.ofNat n.val.toNat

/-- A 32-bit number (`base/src/numbers.rs:156-158`). -/
def ofU32 (n : UInt32) : {n : Int // IntKind.u32.range.holds n} :=
  ⟨n.toNat, by
    have := n.toNat_lt
    show (0 : Int) ≤ n.toNat ∧ (n.toNat : Int) ≤ 4294967295
    omega⟩

/-- See `ofU32` (`base/src/numbers.rs:156-158`). -/
def toU32 (n : {n : Int // IntKind.u32.range.holds n}) : UInt32 := UInt32.ofNat n.val.toNat

/-- `[u8; 32]` as the fixed-size array of the wire model (`crypto/src/hash/types.rs:49-56`,
`base/src/account/token_symbol.rs:10-12`). -/
def ofB32 (h : Hash.B32) : (u8s 32).prod := Block.leArr 32 (leNat h.bytes)

theorem arrBytes_length32 : (n : Nat) → (v : (u8s n).prod) → (Json.arrBytes n v).length = n
  | 0, _ => rfl
  | n + 1, v => congrArg (· + 1) (arrBytes_length32 n (show UInt8 × (u8s n).prod from v).2)

/-- See `ofB32` (`crypto/src/hash/types.rs:49-56`, `base/src/account/token_symbol.rs:10-12`). -/
def toB32 (v : (u8s 32).prod) : Hash.B32 := ⟨Json.arrBytes 32 v, arrBytes_length32 32 v⟩

/-- `AuthRequired` (`base/src/account/permissions.rs:15-28`) -/
def authParts : Hash.Auth → auth.base
  | .none => (.inl () : Unit ⊕ _)
  | .either => (.inr (.inl ()) : Unit ⊕ Unit ⊕ _)
  | .proof => (.inr (.inr (.inl ())) : Unit ⊕ Unit ⊕ Unit ⊕ _)
  | .signature => (.inr (.inr (.inr (.inl ()))) : Unit ⊕ Unit ⊕ Unit ⊕ Unit ⊕ _)
  | .both => (.inr (.inr (.inr (.inr (.inl ())))) : Unit ⊕ Unit ⊕ Unit ⊕ Unit ⊕ Unit ⊕ _)
  | .impossible => (.inr (.inr (.inr (.inr (.inr (.inl ()))))) : Unit ⊕ Unit ⊕ Unit ⊕ Unit ⊕ Unit ⊕ Unit ⊕ Empty)

/-- See `authParts` (`base/src/account/permissions.rs:15-28`). -/
def authOf (v : auth.base) : Hash.Auth :=
  match (show Unit ⊕ Unit ⊕ Unit ⊕ Unit ⊕ Unit ⊕ Unit ⊕ Empty from v) with
  | .inl _ => .none
  | .inr (.inl _) => .either
  | .inr (.inr (.inl _)) => .proof
  | .inr (.inr (.inr (.inl _))) => .signature
  | .inr (.inr (.inr (.inr (.inl _)))) => .both
  | .inr (.inr (.inr (.inr (.inr (.inl _))))) => .impossible

/-- `TokenPermissions` (`base/src/account/token_permissions.rs:12-23`) -/
def tokenParts : Hash.TokenPermissions → tokenPermissions.base
  | .notOwned b => (.inl (b, ()) : (Bool × Unit) ⊕ _)
  | .tokenOwned b => (.inr (.inl (b, ())) : (Bool × Unit) ⊕ (Bool × Unit) ⊕ Empty)

/-- See `tokenParts` (`base/src/account/token_permissions.rs:12-23`). -/
def tokenOf (v : tokenPermissions.base) : Hash.TokenPermissions :=
  match (show (Bool × Unit) ⊕ (Bool × Unit) ⊕ Empty from v) with
  | .inl b => .notOwned b.1
  | .inr (.inl b) => .tokenOwned b.1

/-- `Permissions` (`base/src/account/permissions.rs:66-91`) -/
def permissionsParts (q : Hash.Permissions) : permissions.base :=
  (authParts q.editState, authParts q.send, authParts q.receive, authParts q.setDelegate, authParts q.setPermissions,
    authParts q.setVerificationKey, authParts q.setZkappUri, authParts q.editSequenceState,
    authParts q.setTokenSymbol, authParts q.incrementNonce, authParts q.setVotingFor, ())

/-- See `permissionsParts` (`base/src/account/permissions.rs:66-91`). -/
def permissionsOf : permissions.base → Hash.Permissions
  | (a, b, c, d, e, f, g, h, i, j, k, ()) => ⟨authOf a, authOf b, authOf c, authOf d, authOf e, authOf f, authOf g, authOf h,
      authOf i, authOf j, authOf k⟩

/-- `PermissionsLegacy` (`base/src/account/permissions.rs:45-64`) -/
def legacyPermissionsParts (q : Hash.PermissionsLegacy) : permissionsLegacy.base :=
  (q.stake, authParts q.editState, authParts q.send, authParts q.receive, authParts q.setDelegate, authParts q.setPermissions,
    authParts q.setVerificationKey, ())

/-- See `legacyPermissionsParts` (`base/src/account/permissions.rs:45-64`). -/
def legacyPermissionsOf : permissionsLegacy.base → Hash.PermissionsLegacy
  | (s, a, b, c, d, e, f, ()) => ⟨s, authOf a, authOf b, authOf c, authOf d, authOf e, authOf f⟩

/-- `Timing` for `TimingV0` (`base/src/account/timing.rs:16-31, 82-92`): fields by name. -/
def timingParts : Hash.Timing → timing.base
  | .untimed => (.inl () : Unit ⊕ _)
  | .timed d => (.inr (.inl (ofU64 d.initialMinimumBalance, ofU64 d.cliffTime, ofU64 d.cliffAmount, ofU64 d.vestingPeriod,
      ofU64 d.vestingIncrement, ())) : Unit ⊕ timedData.base ⊕ Empty)

/-- See `timingParts` (`base/src/account/timing.rs:16-31, 82-92`). -/
def timingOf (v : timing.base) : Hash.Timing :=
  match (show Unit ⊕ timedData.base ⊕ Empty from v) with
  | .inl _ => .untimed
  | .inr (.inl (a, b, c, d, e, ())) => .timed ⟨toU64 a, toU64 b, toU64 c, toU64 d, toU64 e⟩

/-- `Timing` for `TimingV1` (`base/src/account/timing.rs:16-31, 82-92`): fields by name. -/
def timingV1Parts : Hash.Timing → timingV1.base
  | .untimed => (.inl () : Unit ⊕ _)
  | .timed d => (.inr (.inl (ofU64 d.initialMinimumBalance, ofU64 d.cliffTime, ofU64 d.cliffAmount, ofU64 d.vestingIncrement,
      ofU64 d.vestingPeriod, ())) : Unit ⊕ timedDataV1.base ⊕ Empty)

/-- See `timingV1Parts` (`base/src/account/timing.rs:16-31, 82-92`). -/
def timingV1Of (v : timingV1.base) : Hash.Timing :=
  match (show Unit ⊕ timedDataV1.base ⊕ Empty from v) with
  | .inl _ => .untimed
  | .inr (.inl (a, b, c, d, e, ())) => .timed
      { initialMinimumBalance := toU64 a, cliffTime := toU64 b, cliffAmount := toU64 c, vestingIncrement := toU64 d,
        vestingPeriod := toU64 e }

/-- `Account` (`base/src/account/mod.rs:91-122`) -/
def parts (a : Hash.Account) : account.base :=
  (a.publicKey, ofU64 a.tokenId, tokenParts a.tokenPermissions, ofB32 a.tokenSymbol, ofU64 a.balance, ofU32 a.nonce,
    ofB32 a.receiptChainHash, a.delegate, ofB32 a.votingFor, timingParts a.timing, permissionsParts a.permissions, a.zkapp,
    a.zkappUri, ())

/-- See `parts` (`base/src/account/mod.rs:91-122`). -/
def ofParts : account.base → Hash.Account
  | (pk, tid, tp, sym, bal, n, rch, dl, vf, tm, pm, z, zu, ()) =>
    { publicKey := pk, tokenId := toU64 tid, balance := toU64 bal, tokenPermissions := tokenOf tp, tokenSymbol := toB32 sym,
      nonce := toU32 n, receiptChainHash := toB32 rch, delegate := dl, votingFor := toB32 vf, timing := timingOf tm,
      permissions := permissionsOf pm, zkapp := z, zkappUri := zu }

/-- `AccountLegacy` (`base/src/account/mod.rs:33-59`) -/
def legacyParts (a : Hash.AccountLegacy) : accountLegacy.base :=
  (a.publicKey, ofU64 a.tokenId, tokenParts a.tokenPermissions, ofU64 a.balance, ofU32 a.nonce, ofB32 a.receiptChainHash,
    a.delegate, ofB32 a.votingFor, timingV1Parts a.timing, legacyPermissionsParts a.permissions, a.snapp, ())

/-- See `legacyParts` (`base/src/account/mod.rs:33-59`). -/
def ofLegacyParts : accountLegacy.base → Hash.AccountLegacy
  | (pk, tid, tp, bal, n, rch, dl, vf, tm, pm, z, ()) =>
    { publicKey := pk, tokenId := toU64 tid, balance := toU64 bal, tokenPermissions := tokenOf tp, nonce := toU32 n,
      receiptChainHash := toB32 rch, delegate := dl, votingFor := toB32 vf, timing := timingV1Of tm,
      permissions := legacyPermissionsOf pm, snapp := z }

/-! ## Reading and writing -/

/-- `Account::try_from_binprot` (`type_annotations.rs:16-19`, `base/src/account/mod.rs:207-209`) -/
def readAccount (src : BinProt.Source) : Except BinProt.Err Hash.Account := (Block.tryFromBinprot account src).map ofParts

/-- `Account::try_into_binprot` (`type_annotations.rs:21-27`, `base/src/account/mod.rs:207-209`) -/
def writeAccount (a : Hash.Account) : Bytes := Block.tryIntoBinprot account (parts a)

/-- `AccountLegacy::try_from_binprot` (`type_annotations.rs:16-19`, `base/src/account/mod.rs:61-63`) -/
def readLegacy (src : BinProt.Source) : Except BinProt.Err Hash.AccountLegacy :=
  (Block.tryFromBinprot accountLegacy src).map ofLegacyParts

/-- `AccountLegacy::try_into_binprot` (`type_annotations.rs:21-27`, `base/src/account/mod.rs:61-63`) -/
def writeLegacy (a : Hash.AccountLegacy) : Bytes := Block.tryIntoBinprot accountLegacy (legacyParts a)

end MinaRs.Account
