import Verif.Consensus.Model

/-!
# Specification of chain selection

Written from the English properties and from the consensus specification the code cites
(<https://github.com/MinaProtocol/mina/blob/02dfc3ff/docs/specs/consensus/README.md>), over the
tips of the chains.
-/

namespace MinaRs.Consensus.Spec

open MinaRs.Consensus

/-- What the short-range comparison looks at: blockchain length, VRF digest, state hash. -/
structure Key where
  length : Nat
  digest : List UInt8
  hash : Nat
  deriving DecidableEq, Repr

/-- The key of a block. -/
def key {T : Type} (h : Header T) (b : T) : Key :=
  ⟨(h.consensusState b).blockchainLength, h.digest (h.consensusState b).lastVrfOutput, h.stateHash b⟩

/-- `c` is strictly preferred to `t`: it is longer; or equally long with the larger digest (as a
byte string, lexicographically); or equal in both with the larger state hash. -/
def Beats (c t : Key) : Prop :=
  t.length < c.length ∨
  (t.length = c.length ∧ (t.digest < c.digest ∨ (t.digest = c.digest ∧ t.hash < c.hash)))

/-- `lead` is exactly one epoch ahead of `trail`, `trail` is in the last third of its epoch, and
the two agree on the checkpoint that becomes the staking lock checkpoint of the new epoch. -/
def OneEpochAhead (lead trail : ConsensusState) : Prop :=
  lead.epochCount = trail.epochCount + 1 ∧
  2 * trail.currGlobalSlot.slotsPerEpoch ≤ 3 * (trail.currGlobalSlot.slotNumber % trail.currGlobalSlot.slotsPerEpoch) ∧
  lead.stakingEpochData.lockCheckpoint = trail.nextEpochData.lockCheckpoint

/-- Two chains (given by the states of their tips) form a short-range fork. -/
def ShortRange (a b : ConsensusState) : Prop :=
  (a.epochCount = b.epochCount ∧ a.stakingEpochData.lockCheckpoint = b.stakingEpochData.lockCheckpoint) ∨
  OneEpochAhead a b ∨ OneEpochAhead b a

/-- The window has eleven sub-windows, none with more than seven blocks. -/
def WindowOk (s : ConsensusState) : Prop :=
  s.subWindowDensities.length = 11 ∧ ∀ d ∈ s.subWindowDensities, d ≤ 7

/-- The sub-windows that a shift by `shift` starting after sub-window `start` clears. -/
def cleared (shift start i : Nat) : Bool := (List.range shift).any fun j => (start + 1 + j) % 11 == i

/-- The number of blocks left in the window after the shift. -/
def shiftedDensity (shift start : Nat) (window : List Nat) : Nat :=
  (window.zipIdx.map fun (d, i) => if cleared shift start i then 0 else d).sum

/-- The relative minimum window density of the specification, for given shift count and start. -/
def density (shift start : Nat) (s other : ConsensusState) : Nat :=
  if max s.currGlobalSlot.slotNumber other.currGlobalSlot.slotNumber < 1440 then s.minWindowDensity
  else min s.minWindowDensity (shiftedDensity shift start s.subWindowDensities)

/-- The cited specification: the shift count is the number of slots strictly between the chain's
slot and the greater of the two slots, clamped to the window, and the shift starts after the
sub-window of the chain's slot, a sub-window being seven slots. -/
def citedDensity (s other : ConsensusState) : Nat :=
  let slot := s.currGlobalSlot.slotNumber
  let maxSlot := max slot other.currGlobalSlot.slotNumber
  density (min (maxSlot - slot - 1) 11) (slot / 7 % 11) s other

/-- Counters below their type's maximum and a positive epoch length. -/
structure WellFormed (s : ConsensusState) : Prop where
  slots : 0 < s.currGlobalSlot.slotsPerEpoch
  epoch : s.epochCount + 1 < 2 ^ 32
  window : s.subWindowDensities.sum < 2 ^ 32

/-- Heights increase by exactly one along the chain. -/
def Consecutive : List Nat → Prop
  | [] => True
  | [_] => True
  | a :: b :: rest => b = a + 1 ∧ Consecutive (b :: rest)

end MinaRs.Consensus.Spec
