import Verif.Crawler.Props
import Verif.Json.BlockProps
import Verif.Block.JsonProps

/-! # The crawler on block documents (C83) -/

namespace MinaRs.Crawler

open MinaRs.Json MinaRs.Json.Block

theorem lookup_filter (n k : String) (es : List (String × J)) (h : n ≠ k) :
    lookup n (es.filter fun e => e.1 != k) = lookup n es := by
  unfold lookup
  rw [List.filter_filter]
  congr 1
  apply List.filter_congr
  intro e _
  by_cases he : e.1 = n
  · simp [he, h]
  · simp [he]

/-- The names of the members that are read. -/
def names : JTys → List String
  | .nil => []
  | .cons n _ ts => n :: names ts
  | .skip _ _ ts => names ts

theorem deStruct_filter (E : Json.Env) (k : String) : (ts : JTys) → k ∉ names ts → (es : List (String × J)) →
    deStruct E ts (es.filter fun e => e.1 != k) = deStruct E ts es
  | .nil, _, _ => rfl
  | .cons n t ts, h, es => by
    simp only [names, List.mem_cons, not_or] at h
    rw [deStruct_cons, deStruct_cons, lookup_filter n k es (fun e => h.1 e.symm), deStruct_filter E k ts h.2 es]
  | .skip n s ts, h, es => by
    rw [deStruct_skip, deStruct_skip, deStruct_filter E k ts h es]

/-- **C83.** Dropping the member `scheduled_time` of a retrieved document does not change whether it is a block. -/
theorem C83_time_irrelevant (E : Json.Env) (j : J) : blockVerdict E (withoutTime j) = blockVerdict E j := by
  cases j with
  | obj es =>
    have : de E block (withoutTime (.obj es)) = de E block (.obj es) := by
      show de E (.versioned externalTransition) (.obj (es.filter fun e => e.1 != "scheduled_time")) = _
      show _ = de E (.versioned externalTransition) (.obj es)
      rw [de_versioned, de_versioned]
      unfold externalTransition
      rw [de_struct_obj, de_struct_obj, deStruct_filter E "scheduled_time" _ (by decide +kernel) es]
    unfold blockVerdict Block.tryFromJson
    rw [this]
  | _ => rfl

/-- **C83.** The document of a block, with or without a scheduled time, is filed as succeeded. -/
theorem C83_blocks_accepted (E : Json.Env) (b : Block.Blk) (hm : Block.Spec.InMemory Block.block b) (hs : Block.Spec.Shown b) (j j' : J)
    (h : Block.tryIntoJson E b = .ok j) (ht : withoutTime j' = withoutTime j) : blockVerdict E j' = .accepted := by
  obtain ⟨k, h1, h2⟩ := Block.C92_write_then_read_partial E b hm hs
  rw [h] at h1
  cases h1
  rw [← C83_time_irrelevant, ht, C83_time_irrelevant]
  unfold blockVerdict
  rw [h2]

/-- There are such blocks. -/
example (E : Json.Env) : ∃ (b : Block.Blk) (j : J), Block.Spec.InMemory Block.block b ∧ Block.Spec.Shown b ∧ Block.tryIntoJson E b = .ok j := by
  obtain ⟨j, h1, -⟩ := Block.C92_write_then_read_partial E _ Block.sampleBlock.2.1 Block.sample_shown
  exact ⟨_, j, Block.sampleBlock.2.1, Block.sample_shown, h1⟩

/-- **C83.** A document is filed as failed exactly if it cannot be read as a block, and as succeeded exactly if it is a block. -/
theorem C83_verdict (E : Json.Env) (j : J) : (blockVerdict E j = .accepted ↔ ∃ b, Block.tryFromJson E j = .ok b) ∧
    (blockVerdict E j = .refused ↔ Block.tryFromJson E j = .error .err) := by
  unfold blockVerdict
  cases h : Block.tryFromJson E j with
  | ok b => exact ⟨⟨fun _ => ⟨b, rfl⟩, fun _ => rfl⟩, ⟨fun h => (by cases h), fun h => (by cases h)⟩⟩
  | error e =>
    cases e <;> exact ⟨⟨fun h => (by cases h), fun ⟨_, h⟩ => (by cases h)⟩, ⟨fun h => (by first | rfl | cases h), fun h => (by first | rfl | cases h)⟩⟩

/-- **C83 fails** for some documents: with a signature outside the field the run ends (`C83_panic_fails`), and the document is
filed nowhere. -/
theorem C83_signature_fails (E : Json.Env) : ∃ j, blockVerdict E j = .panics := by
  obtain ⟨j, h⟩ := Block.C92_reading_aborts_fails E
  exact ⟨j, by unfold blockVerdict; rw [h]⟩

/-- Other documents are refused: no object, or an object without a protocol state. -/
theorem C83_others_refused (E : Json.Env) : blockVerdict E .null = .refused ∧ blockVerdict E (.obj []) = .refused := ⟨rfl, rfl⟩

end MinaRs.Crawler
