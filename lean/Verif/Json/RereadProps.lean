import Verif.Json.Reread
import Verif.Json.BlockProps

/-!
# Accepted block documents can be written again (C72)

Any document, from any writer, that is accepted as a block.
-/

namespace MinaRs.Json.Block

set_option maxRecDepth 20000 in
theorem block_narrow : block.all Leaf.narrow = true := by decide +kernel

/-- **C72.** Every accepted document gives a block that can be written, provided its characters are ASCII,
and the document written is read as the same block.  Missing: other characters, see
`C72_not_ascii_fails`. -/
theorem C72_rewrite_partial (E : Env) (j : J) (v : Blk) (h : de E block j = .ok v) (ha : Leaves AsciiChar block v) :
    ∃ k, ser E block v = .ok k ∧ de E block k = .ok v :=
  reread E block block_sound block_narrow j v h ha

theorem ascii_of_writable (c : Leaf) (v : c.wire.denote) (h : c.Writable v) : AsciiChar c v := by
  cases c <;> first | exact h | trivial

/-- **C72.** Whatever document a block was read from: if the block is written at all, the new document is
read as the same block. -/
theorem C72_same_block (E : Env) (j k : J) (v : Blk) (h : de E block j = .ok v) (hk : ser E block v = .ok k) :
    de E block k = .ok v := by
  have hw := (C61_written_iff E v).1.mp ⟨k, hk⟩
  obtain ⟨k', h1, h2⟩ := C72_rewrite_partial E j v h (Leaves.mono ascii_of_writable block v hw)
  rw [hk] at h1
  cases h1
  exact h2

/-- **C72.** Two accepted documents give the same block exactly when the blocks are written the same. -/
theorem C72_same_document_iff (E : Env) (j₁ j₂ k₁ k₂ : J) (v₁ v₂ : Blk) (h₁ : de E block j₁ = .ok v₁)
    (h₂ : de E block j₂ = .ok v₂) (w₁ : ser E block v₁ = .ok k₁) (w₂ : ser E block v₂ = .ok k₂) :
    k₁ = k₂ ↔ v₁ = v₂ := by
  constructor
  · intro h
    subst h
    have h3 := C72_same_block E j₁ k₁ v₁ h₁ w₁
    rw [C72_same_block E j₂ k₁ v₂ h₂ w₂] at h3
    exact (Except.ok.inj h3).symm
  · intro h
    subst h
    rw [w₁] at w₂
    exact Except.ok.inj w₂

/-- **C72.** Nothing in a document sets the protocol versions: every accepted document gives version 1
wrappers, current protocol version 2.0.0 and no proposed one. -/
theorem C72_protocol_version (E : Env) (j : J) (v : Blk) (h : de E block j = .ok v) :
    norm block v = v ∧ currentProtocolVersion v = version2 ∧ proposedProtocolVersion v = none ∧
    versionNumber v = 1 := by
  have hn := (de_ok E block j v h).2
  have := norm_protocol_version v
  rw [hn] at this
  exact ⟨hn, this⟩

/-- The hypotheses are met: a block with something in every list and option has an accepted document. -/
example (E : Env) : ∃ j v, de E block j = .ok v ∧ Leaves AsciiChar block v := by
  obtain ⟨j, h1, h2⟩ := C61_roundtrip_partial E _ sampleBlock.2
  refine ⟨j, _, h2, Leaves.mono ascii_of_writable block _ ?_⟩
  exact (C61_written_iff E _).1.mp ⟨j, by rw [ser_norm]; exact h1⟩

/-- **C72 fails** for characters (`which_branch` of a proof): `"é"` is accepted, as the first byte of its
UTF-8 form, which is then written as a string that is not UTF-8. -/
theorem C72_not_ascii_fails (E : Env) :
    ∃ b : UInt8, de E (.leaf .char) (.str "é") = .ok b ∧ ser E (.leaf .char) b = .error .ub :=
  ⟨0xC3, rfl, rfl⟩

end MinaRs.Json.Block
