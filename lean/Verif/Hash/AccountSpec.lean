import Verif.Hash.Types
/-!
# What the hash input of an account can and cannot distinguish
-/

namespace MinaRs.Hash.Spec

/-- The hash input does not tell `Both` from `Proof`. -/
def mergeBoth (a : Auth) : Auth := if a = .both then .proof else a

/-- The eleven settings of a permission record, in order. -/
def settings (q : Permissions) : List Auth :=
  [q.editState, q.send, q.receive, q.setDelegate, q.setPermissions, q.setVerificationKey, q.setZkappUri,
    q.editSequenceState, q.setTokenSymbol, q.incrementNonce, q.setVotingFor]

/-- Both times of a vesting schedule are below `2^32`. -/
def Short : Timing → Prop
  | .untimed => True
  | .timed d => d.cliffTime.toNat < 2 ^ 32 ∧ d.vestingPeriod.toNat < 2 ^ 32

/-- Two timings agree on everything but the high halves of the two times. -/
def TimingAgree : Timing → Timing → Prop
  | .untimed, .untimed => True
  | .timed d, .timed e => d.initialMinimumBalance = e.initialMinimumBalance ∧
      d.cliffTime.toNat % 2 ^ 32 = e.cliffTime.toNat % 2 ^ 32 ∧ d.cliffAmount = e.cliffAmount ∧
      d.vestingPeriod.toNat % 2 ^ 32 = e.vestingPeriod.toNat % 2 ^ 32 ∧
      d.vestingIncrement = e.vestingIncrement
  | _, _ => False

/-- A hash is the encoding of a field element. -/
def IsField (h : B32) : Prop := leNat h.bytes < p

/-- Two accounts agree on everything except: a missing delegate against the empty key, the token
symbol after its sixth byte, the high halves of the times, `Both` against `Proof`, and the presence
of zkapp data. -/
structure Agree (a b : Account) : Prop where
  publicKey : a.publicKey = b.publicKey
  tokenId : a.tokenId = b.tokenId
  balance : a.balance = b.balance
  tokenPermissions : a.tokenPermissions = b.tokenPermissions
  tokenSymbol : a.tokenSymbol.bytes.take 6 = b.tokenSymbol.bytes.take 6
  nonce : a.nonce = b.nonce
  receiptChainHash : a.receiptChainHash = b.receiptChainHash
  delegate : a.delegate.getD ⟨0, false⟩ = b.delegate.getD ⟨0, false⟩
  votingFor : a.votingFor = b.votingFor
  timing : TimingAgree a.timing b.timing
  permissions : (settings a.permissions).map mergeBoth = (settings b.permissions).map mergeBoth

/-- An account as the API makes them: the delegate, if any, is a real key, times are slot numbers
below `2^32`, the symbol has at most six bytes, and no permission is `Both`; zkapp data is absent. -/
structure Plain (a : Account) : Prop where
  delegate : a.delegate ≠ some ⟨0, false⟩
  timing : Short a.timing
  symbol : a.tokenSymbol.bytes.drop 6 = List.replicate 26 0
  permissions : .both ∉ settings a.permissions
  zkapp : a.zkapp = none
  zkappUri : a.zkappUri = none

end MinaRs.Hash.Spec
