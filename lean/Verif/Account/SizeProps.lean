import Verif.Account.Props
import Verif.Block.Props
import Verif.BinProt.WordsProps

/-! # C109 and C110 for blocks and accounts -/

namespace MinaRs.Account
open BinProt (decode decode32 Ty)
open BinProt.Spec Block

/-- The three stored types: blocks, accounts of the Berkeley and of the main network. -/
def stored : List BTy := [block, account, accountLegacy]

set_option maxRecDepth 20000 in
theorem stored_solid : ∀ t ∈ stored, SolidLists t.wire = true := by decide +kernel

theorem stored_wf (t : BTy) (h : t ∈ stored) : WfTy t.wire := by
  simp only [stored, List.mem_cons, List.not_mem_nil, or_false] at h
  rcases h with rfl | rfl | rfl
  · exact block_wf
  · exact wf_of_ordinary _ account_ordinary
  · exact wf_of_ordinary _ legacy_ordinary

/-- **C109 (blocks and accounts).** On any bytes the browser's build decodes a block or an account as the native build does, or
refuses bytes in which a number of at least 2^32 stands; it accepts nothing else. -/
theorem C109_blocks_and_accounts (t : BTy) (_ : t ∈ stored) (s : Bytes) :
    ((decode32 t.wire).run s = (decode t.wire).run s ∨
      (Names (2 ^ 32) s ∧ (decode32 t.wire).run s = .error .destinationIntegerOverflow)) ∧
    ∀ v r, (decode32 t.wire).run s = .ok (v, r) → (decode t.wire).run s = .ok (v, r) :=
  BinProt.C109_without_strings t.wire (wire_stringFree t) s

/-- **C110 (blocks and accounts).** Decoding any bytes as a block or an account asks the reader at most twice for each byte and once
more, each time for at most eight bytes, and the value has no more list items than bytes were used up. -/
theorem C110_blocks_and_accounts (t : BTy) (ht : t ∈ stored) (s : Bytes) :
    ((decode t.wire).requests s).length ≤ 2 * s.length + 1 ∧
    (∀ k ∈ (decode t.wire).requests s, k ≤ 8) ∧
    ∀ v r, (decode t.wire).run s = .ok (v, r) → items t.wire v + r.length ≤ s.length :=
  ⟨BinProt.C110_reads_bounded_by_input t.wire s,
   fun k hk => BinProt.C110_small_buffers_partial t.wire (wire_stringFree t) s k hk,
   fun v r h => BinProt.C110_value_no_larger_than_bytes_partial t.wire (stored_wf t ht) (stored_solid t ht) s v r h⟩

example : block ∈ stored ∧ account ∈ stored ∧ accountLegacy ∈ stored := by simp [stored]

end MinaRs.Account
