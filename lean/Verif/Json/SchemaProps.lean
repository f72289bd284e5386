import Verif.Json.SchemaLemmas
import Verif.Json.PrefixProps
import Verif.Json.DocProps

/-!
# C112: the documents of blocks have the published form

The form of a block and what it means to have it are in `Json/SchemaSpec.lean`.
-/

namespace MinaRs.Json.Form

open Text (Text)
open Codec (encodeCheck decodeCheck_encode decodeCheck_other)
open Grammar (Says)
open StrConv.Spec (Looks)

/-! ## C112: writing -/

/-- **C112 (blocks).** Whatever a block is written to has the form of a block. -/
theorem C112_blocks (E : Env) (v : Block.Blk) (j : J) (h : ser E Block.block v = .ok j) : block.Is E j :=
  block_form ▸ ser_form E Block.block Block.block_sound block_regular v j h

/-- **C112 (text).** The text a block is written to says a document of this form. -/
theorem C112_text (F : Floats) (E : Env) (v : Block.Blk) (s : Text) (h : intoJsonText F E Block.block v = .ok s) :
    ∃ j, Says F.read s j ∧ block.Is E j := by
  obtain ⟨j, h1, h2, -⟩ := C111_values F E Block.block block_deep v s h
  exact ⟨j, h2, C112_blocks E v j h1⟩

/-- **C112 (the node's blocks).** The same of the blocks the node holds. -/
theorem C112_node_blocks (F : Floats) (E : Env) (b : MinaRs.Block.Blk) (s : Text)
    (h : MinaRs.Block.tryIntoJsonText F E b = .ok s) : ∃ j, Says F.read s j ∧ block.Is E j := by
  unfold MinaRs.Block.tryIntoJsonText at h
  split at h
  · rename_i j hj
    cases h
    obtain ⟨p, -⟩ := ser_flat E Block.block _ j hj
    exact ⟨j, (C111_written F j p).1, C112_blocks E _ j hj⟩
  · cases h

/-- **C112 (the answers of the node).** The protocol state the node answers with has the form of a block's protocol state. -/
theorem C112_states (E : Env) (ps : Frontier.MainnetState) (j : J) (h : Frontier.stateText E ps = .ok (some j)) :
    protocolState.Is E j := by
  unfold Frontier.stateText at h
  split at h
  · rename_i j' hj
    cases h
    exact state_form ▸ ser_form E Block.protocolState state_sound state_regular _ j hj
  · cases h
  · cases h

/-! ## C112: the kinds of texts -/

/-- **C112 (no text is of two base58 kinds).** Texts of different version bytes differ: a ledger hash is no state hash. -/
theorem C112_kinds (E : Env) (ver ver' : UInt8) (h : ver ≠ ver') (s : Text) :
    ¬ ((Kind.base58 ver).Is E s ∧ (Kind.base58 ver').Is E s) := by
  rintro ⟨⟨bs, rfl⟩, ⟨bs', e⟩⟩
  have h1 := decodeCheck_other E.chk_length h bs
  rw [e, decodeCheck_encode E.chk_length] at h1
  cases h1

/-- **C112 (keys).** Public keys are the texts of 55 characters that begin with `B62q`. -/
theorem C112_keys (E : Env) (s : Text) (h : Kind.key.Is E s) : Looks s ("B62q", 55) := by
  obtain ⟨x, odd, hx, -, rfl⟩ := h
  exact StrConv.looks_address E x hx odd

/-! ## C112: reading -/

/-- **C112 (reading).** Whatever is read as a block has the parts of a block. -/
theorem C112_read (E : Env) (j : J) (v : Block.Blk) (h : de E Block.block j = .ok v) : block.Covers j :=
  block_form ▸ de_covers E Block.block j v h

/-- **C112 (the node's blocks).** And so has whatever the node reads as a block. -/
theorem C112_node_read (F : Floats) (E : Env) (s : Text) (b : MinaRs.Block.Blk) (h : MinaRs.Block.tryFromJsonText F E s = .ok b) :
    ∃ j, Says F.read s j ∧ block.Covers j := by
  unfold MinaRs.Block.tryFromJsonText at h
  split at h
  · rename_i j hj
    refine ⟨j, ((C111_read_iff F s j).mp hj).1, ?_⟩
    unfold MinaRs.Block.tryFromJson at h
    split at h
    · cases h
    rename_i v hv
    exact C112_read E j v hv
  · cases h

/-- **C112 (no block without its parts).** An object that does not have each of the four parts of a block exactly once is refused. -/
theorem C112_missing (E : Env) (es : List (String × J)) (name : String)
    (hn : name ∈ ["protocol_state", "protocol_state_proof", "staged_ledger_diff", "delta_transition_chain_proof"])
    (h : (es.filter (fun e => e.1 == name)).length ≠ 1) : ∃ e, de E Block.block (.obj es) = .error e := by
  cases hd : de E Block.block (.obj es) with
  | error e => exact ⟨e, rfl⟩
  | ok v =>
    exfalso
    rcases C112_read E _ v hd with ⟨es', e, h1⟩ | ⟨js, e, -⟩
    · cases e
      have one : ∀ (d : Doc) (n : String), (∀ d', d ≠ .orNull d') →
          ((∃ x, es.filter (fun e => e.1 == n) = [(n, x)] ∧ d.Covers x) ∨
            ((∃ d', d = .orNull d') ∧ es.filter (fun e => e.1 == n) = [])) → (es.filter (fun e => e.1 == n)).length = 1 := by
        intro d n hd h
        rcases h with ⟨x, h, -⟩ | ⟨⟨d', h⟩, -⟩
        · rw [h]; rfl
        · exact absurd h (hd d')
      obtain ⟨a, b, c, d, -⟩ := h1
      simp only [List.mem_cons, List.not_mem_nil, or_false] at hn
      rcases hn with rfl | rfl | rfl | rfl
      · exact h (one _ _ (fun d' e => by cases e) a)
      · exact h (one _ _ (fun d' e => by cases e) b)
      · exact h (one _ _ (fun d' e => by cases e) c)
      · exact h (one _ _ (fun d' e => by cases e) d)
    · cases e

/-! ## Examples -/

example (E : Env) : ∃ j, ser E Block.block Block.sampleBlock.1 = .ok j ∧ block.Is E j :=
  let ⟨j, h, _⟩ := Block.C61_roundtrip_partial E _ Block.sampleBlock.2
  ⟨j, h, C112_blocks E _ j h⟩

example (E : Env) : ∃ s j, MinaRs.Block.tryIntoJsonText noFloats E MinaRs.Block.sampleBlock.1 = .ok s ∧ Says noFloats.read s j ∧
    block.Is E j ∧ block.Covers j := by
  obtain ⟨s, j, h, h1, -, h2⟩ := C111_node_blocks noFloats E _ MinaRs.Block.sampleBlock.2.1 MinaRs.Block.sample_shown
  obtain ⟨j', h3, h4⟩ := C112_node_blocks noFloats E _ s h
  obtain ⟨j'', h5, h6⟩ := C112_node_read noFloats E s _ h2
  cases C111_unambiguous noFloats s j j' h1 h3
  cases C111_unambiguous noFloats s j j'' h1 h5
  exact ⟨s, j, h, h1, h4, h6⟩

example (E : Env) : ∃ e, de E Block.block (.obj [("protocol_state", .null)]) = .error e :=
  C112_missing E _ "protocol_state_proof" (by decide) (by decide)

/-- The form is no empty demand. -/
example (E : Env) : ¬ block.Is E (.obj []) ∧ ¬ block.Covers (.obj []) := by
  constructor
  · rintro ⟨es, es', h, hp, x, rest, rfl, -⟩
    cases h
    exact absurd hp.length_eq (by simp)
  · rintro (⟨es, h, ⟨⟨x, hx, -⟩ | ⟨⟨d, hd⟩, -⟩, -⟩⟩ | ⟨js, h, -⟩)
    · cases h; cases hx
    · cases hd
    · cases h

end MinaRs.Json.Form
