import Verif.BinProt.SerdeSpec
import Verif.Hash.LegacyState

/-! The byte layout of a stored account, written down field by field. -/

namespace MinaRs.Account.Spec

open BinProt.Spec (WireInt)

/-- A set of byte strings. -/
abbrev Layout := Bytes → Prop

/-- Exactly these bytes. -/
def exactly (bs : Bytes) : Layout := fun enc => enc = bs

/-- A number, in any of the forms the wire format has for it. -/
def number (n : Nat) : Layout := fun enc => WireInt enc n

/-- One layout after the other. -/
def inOrder : List Layout → Layout
  | [], enc => enc = []
  | l :: ls, enc => ∃ e₁ e₂, enc = e₁ ++ e₂ ∧ l e₁ ∧ inOrder ls e₂

/-- `k` version numbers before the rest. -/
def behind (ver : Layout) : Nat → Layout → Layout
  | 0, l => l
  | k + 1, l => fun enc => ∃ e₁ e₂, enc = e₁ ++ e₂ ∧ ver e₁ ∧ behind ver k l e₂

/-- 0 for nothing, 1 and then the layout for something. -/
def maybe {α : Type} (l : α → Layout) : Option α → Layout
  | none, enc => enc = [0x00]
  | some a, enc => ∃ e, enc = 0x01 :: e ∧ l a e

/-- A byte for yes or no. -/
def yesNo (b : Bool) : Bytes := [if b then 0x01 else 0x00]

/-- The x coordinate, little endian, and whether y is odd. -/
def keyBytes (k : Hash.PubKey) : Bytes := leBytes 32 k.x.val ++ yesNo k.isOdd

/-- The kinds of permission are numbered from 0. -/
def authBytes : Hash.Auth → Bytes
  | .none => [0]
  | .either => [1]
  | .proof => [2]
  | .signature => [3]
  | .both => [4]
  | .impossible => [5]

/-- Whether the account owns its token, and the flag that goes with the answer. -/
def tokenPermissionBytes : Hash.TokenPermissions → Bytes
  | .notOwned disabled => 0x00 :: yesNo disabled
  | .tokenOwned disableNew => 0x01 :: yesNo disableNew

/-- The eleven permissions. -/
def permissionBytes (q : Hash.Permissions) : Bytes :=
  authBytes q.editState ++ authBytes q.send ++ authBytes q.receive ++ authBytes q.setDelegate ++ authBytes q.setPermissions ++
    authBytes q.setVerificationKey ++ authBytes q.setZkappUri ++ authBytes q.editSequenceState ++
    authBytes q.setTokenSymbol ++ authBytes q.incrementNonce ++ authBytes q.setVotingFor

/-- Nothing, or a vesting schedule. -/
def timingLayout : Hash.Timing → Layout
  | .untimed => exactly [0x00]
  | .timed d => inOrder [exactly [0x01], number d.initialMinimumBalance.toNat, number d.cliffTime.toNat,
      number d.cliffAmount.toNat, number d.vestingPeriod.toNat, number d.vestingIncrement.toNat]

/-- An account. -/
def accountLayout (a : Hash.Account) : Layout := inOrder
  [exactly (keyBytes a.publicKey),
   number a.tokenId.toNat,
   exactly (tokenPermissionBytes a.tokenPermissions),
   exactly a.tokenSymbol.bytes,
   number a.balance.toNat,
   number a.nonce.toNat,
   exactly a.receiptChainHash.bytes,
   maybe (fun k => exactly (keyBytes k)) a.delegate,
   exactly a.votingFor.bytes,
   timingLayout a.timing,
   exactly (permissionBytes a.permissions),
   maybe (fun _ => exactly [0x00]) a.zkapp,
   maybe (fun _ => exactly [0x00]) a.zkappUri]

/-! ## Accounts of the older format -/

/-- Seven permissions, each but the first behind a version number. -/
def legacyPermissionLayout (ver : Layout) (q : Hash.PermissionsLegacy) : Layout := behind ver 2 (inOrder
  [exactly (yesNo q.stake),
   behind ver 1 (exactly (authBytes q.editState)),
   behind ver 1 (exactly (authBytes q.send)),
   behind ver 1 (exactly (authBytes q.receive)),
   behind ver 1 (exactly (authBytes q.setDelegate)),
   behind ver 1 (exactly (authBytes q.setPermissions)),
   behind ver 1 (exactly (authBytes q.setVerificationKey))])

/-- Nothing, or a vesting schedule; the increment comes before the period. -/
def legacyTimingLayout (ver : Layout) : Hash.Timing → Layout
  | .untimed => behind ver 2 (exactly [0x00])
  | .timed d => behind ver 2 (inOrder [exactly [0x01], behind ver 1 (inOrder
     [behind ver 2 (number d.initialMinimumBalance.toNat),
      behind ver 2 (number d.cliffTime.toNat),
      behind ver 2 (number d.cliffAmount.toNat),
      behind ver 2 (number d.vestingIncrement.toNat),
      behind ver 2 (number d.vestingPeriod.toNat)])])

/-- An account of the older format, with version numbers from `ver`. -/
def legacyLayout (ver : Layout) (a : Hash.AccountLegacy) : Layout := behind ver 3 (inOrder
  [behind ver 3 (exactly (keyBytes a.publicKey)),
   behind ver 3 (number a.tokenId.toNat),
   behind ver 2 (exactly (tokenPermissionBytes a.tokenPermissions)),
   behind ver 2 (number a.balance.toNat),
   behind ver 2 (number a.nonce.toNat),
   behind ver 1 (exactly a.receiptChainHash.bytes),
   maybe (fun k => behind ver 2 (exactly (keyBytes k))) a.delegate,
   behind ver 1 (exactly a.votingFor.bytes),
   legacyTimingLayout ver a.timing,
   legacyPermissionLayout ver a.permissions,
   maybe (fun _ => exactly [0x00]) a.snapp])

/-- Any version number from 0 to 65535, in any form. -/
def anyVersion : Layout := fun enc => ∃ n : Int, 0 ≤ n ∧ n < 65536 ∧ WireInt enc n

/-- The version number 1, as one byte. -/
def version1 : Layout := exactly [0x01]

/-! ## Numbers that can be read back -/

/-- The numbers of a vesting schedule are below 2^63. -/
def SmallTiming : Hash.Timing → Prop
  | .untimed => True
  | .timed d => d.initialMinimumBalance.toNat < 2 ^ 63 ∧ d.cliffTime.toNat < 2 ^ 63 ∧ d.cliffAmount.toNat < 2 ^ 63 ∧
      d.vestingPeriod.toNat < 2 ^ 63 ∧ d.vestingIncrement.toNat < 2 ^ 63

/-- The 64-bit numbers of the account are below 2^63. -/
def SmallAccount (a : Hash.Account) : Prop :=
  a.tokenId.toNat < 2 ^ 63 ∧ a.balance.toNat < 2 ^ 63 ∧ SmallTiming a.timing

/-- See `SmallAccount`. -/
def SmallLegacy (a : Hash.AccountLegacy) : Prop :=
  a.tokenId.toNat < 2 ^ 63 ∧ a.balance.toNat < 2 ^ 63 ∧ SmallTiming a.timing

instance : (t : Hash.Timing) → Decidable (SmallTiming t)
  | .untimed => .isTrue trivial
  | .timed _ => by unfold SmallTiming; infer_instance

instance (a : Hash.Account) : Decidable (SmallAccount a) := by unfold SmallAccount; infer_instance
instance (a : Hash.AccountLegacy) : Decidable (SmallLegacy a) := by unfold SmallLegacy; infer_instance

end MinaRs.Account.Spec
