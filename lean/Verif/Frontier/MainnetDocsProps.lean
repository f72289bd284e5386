import Verif.Frontier.MainnetDocs
import Verif.Frontier.MainnetProps
import Verif.Json.DocProps
import Verif.Json.AbortsProps

/-!
# The mainnet node and the texts that the server answers (C128)

Which texts stop a node: those of the blocks of `Frontier/MainnetProps.lean`, and such texts exist.
-/

namespace MinaRs.Frontier.Mainnet

open MinaRs.Consensus (top)
open MinaRs.Hash (ProtocolStateLegacy Fp B32)
open MinaRs.Block (Blk Key Sig fromWire toWire tryIntoJsonText tryFromJsonText tryFromJson fromJsonForm wire_eq_json)
open MinaRs.Block.Spec (InMemory Shown plainVersions)
open Mainnet.Spec
open Frontier.Spec (ValidCommand)

variable {Proof Pt : Type} (F : Json.Floats) (E : Json.Env) (H : String → List Fp → Fp) (sha : List UInt8 → B32) (digest : List UInt8 → List UInt8)
  (crypto : Crypto Key Pt Sig Payload)

/-- The two ways of reading a text agree. -/
theorem fetch_then (s : Text.Text) (b : Blk) :
    tryFromJsonText F E s = .ok b ↔ ∃ v, fetchBlock F E s = .ok v ∧ fromWire Block.block v = .ok b := by
  unfold tryFromJsonText tryFromJson fetchBlock fromJsonForm
  cases Json.parse F s with
  | none => exact ⟨fun h => (by cases h), fun ⟨_, h, _⟩ => (by cases h)⟩
  | some j =>
    dsimp only
    cases Json.de E Json.Block.block j with
    | error e => exact ⟨fun h => (by cases h), fun ⟨_, h, _⟩ => (by cases h)⟩
    | ok v =>
      dsimp only
      generalize cast (congrArg BinProt.Ty.denote wire_eq_json.symm) v = w
      cases hw : fromWire Block.block w with
      | ok c =>
        dsimp only
        constructor
        · intro h
          cases h
          exact ⟨w, rfl, hw⟩
        · rintro ⟨w', h, h'⟩
          cases h
          rw [hw] at h'
          rw [Except.ok.inj h']
      | error e =>
        dsimp only
        constructor
        · intro h; cases h
        · rintro ⟨w', h, h'⟩
          cases h
          rw [hw] at h'
          cases h'

/-- The protocol versions of a block are not used. -/
theorem used_plain (b : Blk) : used (plainVersions b) = used b := rfl

theorem checked_plain (b : Blk) : checked (plainVersions b) = checked b := rfl

/-- **C128 fails** for texts: the text of any block whose first command has a signer that is not on the curve is read, and stops every
node. -/
theorem C128_text_bad_signer_fails (b : Blk) (hm : InMemory Block.block b) (hs : Shown b) (c : SignedCommand Key Sig Payload)
    (cs : List (SignedCommand Key Sig Payload)) (hc : checked b = c :: cs) (hk : crypto.uncompress c.signer = none) :
    ∃ s v, tryIntoJsonText F E b = .ok s ∧ fetchBlock F E s = .ok v ∧ ∀ tip, Spec.Stops digest crypto tip v := by
  obtain ⟨s, -, h1, -, -, h2⟩ := Json.C111_node_blocks F E b hm hs
  obtain ⟨v, h3, h4⟩ := (fetch_then F E s _).mp h2
  exact ⟨s, v, h1, h3, fun tip => C128_bad_signer_fails digest crypto v _ h4 c cs ((checked_plain b).trans hc) hk tip⟩

/-- **C128 fails** for texts: the text of any block with valid commands and a hash that is not a field element is read and taken by a
fresh node, which stops when the server answers it again. -/
theorem C128_text_repeat_fails (b : Blk) (hm : InMemory Block.block b) (hs : Shown b) (hval : ∀ c ∈ checked b, ValidCommand crypto c)
    (hpos : (used b).protocolState.body.consensusState.blockchainLength ≠ 0) (hh : ¬ Spec.Hashable (used b).protocolState) :
    let node := Frontier.Spec.after convert (add H sha digest crypto) (State.new (Proof := Proof))
    ∃ s v, tryIntoJsonText F E b = .ok s ∧ fetchBlock F E s = .ok v ∧ ¬ Spec.Stops digest crypto (top (node []).bestChain) v ∧
      (node [v]).bestChain = [(used b).protocolState] ∧ Spec.Stops digest crypto (top (node [v]).bestChain) v := by
  intro node
  obtain ⟨s, -, h1, -, -, h2⟩ := Json.C111_node_blocks F E b hm hs
  obtain ⟨v, h3, h4⟩ := (fetch_then F E s _).mp h2
  rw [← used_plain b] at hpos hh
  obtain ⟨h5, h6, h7⟩ := C128_repeat_fails H sha digest crypto (Proof := Proof) v _ h4 hval hpos hh
  exact ⟨s, v, h1, h3, h5, h6, h7⟩

/-- **C128.** A poll sends the blocks of the texts that are read, in order, passing over those that are refused, exactly if reading ends
for every text. -/
theorem C128_poll_partial (ss : List Text.Text) (vs : List Block.block.wire.denote) :
    pollBlocks F E ss = .ok vs ↔
      (∀ s ∈ ss, (∃ v, fetchBlock F E s = .ok v) ∨ fetchBlock F E s = .error .err) ∧ vs = ss.filterMap fun s => (fetchBlock F E s).toOption := by
  induction ss generalizing vs with
  | nil => exact ⟨fun h => ⟨fun _ h => (by cases h), (Except.ok.inj h).symm⟩, fun h => by rw [h.2]; rfl⟩
  | cons s ss ih =>
    rw [List.forall_mem_cons, List.filterMap_cons]
    unfold pollBlocks
    cases hf : fetchBlock F E s with
    | ok v =>
      simp only [Except.toOption]
      constructor
      · intro h
        cases hp : pollBlocks F E ss with
        | error e => rw [hp] at h; cases h
        | ok ws =>
          rw [hp] at h
          obtain ⟨h1, h2⟩ := (ih ws).mp hp
          cases h
          exact ⟨⟨.inl ⟨v, rfl⟩, h1⟩, by rw [h2]; rfl⟩
      · rintro ⟨⟨-, h1⟩, rfl⟩
        rw [(ih _).mpr ⟨h1, rfl⟩]
        rfl
    | error e =>
      cases e with
      | err =>
        simp only [Except.toOption]
        rw [ih]
        exact ⟨fun ⟨h1, h2⟩ => ⟨⟨.inr trivial, h1⟩, h2⟩, fun ⟨⟨_, h1⟩, h2⟩ => ⟨h1, h2⟩⟩
      | panic => exact ⟨fun h => (by cases h), fun ⟨⟨h, _⟩, _⟩ => by rcases h with ⟨v, h⟩ | h <;> cases h⟩
      | ub => exact ⟨fun h => (by cases h), fun ⟨⟨h, _⟩, _⟩ => by rcases h with ⟨v, h⟩ | h <;> cases h⟩

/-- **C128.** The reading of a poll ends if no text has one of the parts of C118. -/
theorem C128_poll_ends_partial (ss : List Text.Text)
    (h : ∀ s ∈ ss, ∀ j, Json.parse F s = some j → ∀ t' j', Json.Spec.Part Json.Block.block j t' j' → ¬ Json.Spec.Aborting E t' j') :
    ∃ vs, pollBlocks F E ss = .ok vs := by
  refine ⟨_, (C128_poll_partial F E ss _).mpr ⟨fun s hs => ?_, rfl⟩⟩
  unfold fetchBlock
  cases hp : Json.parse F s with
  | none => exact .inr rfl
  | some j =>
    dsimp only
    rcases Json.C118_reading_ends_partial E Json.Block.block j (h s hs j hp) with ⟨v, hv⟩ | he
    · rw [hv]; exact .inl ⟨_, rfl⟩
    · rw [he]; exact .inr rfl

/-! ## The hypotheses are met -/

/-- The text of a block that stops every node. -/
example : ∃ s v, tryIntoJsonText F E Block.sampleBlock.1 = .ok s ∧ fetchBlock F E s = .ok v ∧ ∀ tip, Spec.Stops digest distrusting tip v := by
  have hne : checked Block.sampleBlock.1 ≠ [] := by
    intro h
    have : (checked Block.sampleBlock.1).length = 2 := by decide +kernel
    rw [h] at this; cases this
  obtain ⟨c, cs, hc⟩ := List.exists_cons_of_ne_nil hne
  exact C128_text_bad_signer_fails F E digest distrusting _ Block.sampleBlock.2.1 Block.sample_shown c cs hc rfl

/-- The block of C128 that stops the node when it comes again can be held and shown. -/
theorem sampleWith_shown (prev : Block.BTy.bytes32.base) (windows : List (Block.BTy.int .u32).base) (hw : windows.length < 2 ^ 64) :
    InMemory Block.block (sampleWith prev windows) ∧ Shown (sampleWith prev windows) := by
  refine ⟨?_, Block.sample_shown⟩
  have h := Block.sampleBlock.2.1
  obtain ⟨h1, h2⟩ := h
  obtain ⟨h3, ⟨h4, h5, h6, h7⟩, h8⟩ := h1
  obtain ⟨h9, h10, h11, -, h12⟩ := h6
  exact ⟨⟨trivial, ⟨h4, h5, ⟨h9, h10, h11, ⟨hw, fun _ _ => trivial⟩, h12⟩, h7⟩, h8⟩, h2⟩

example : let b := sampleWith (Block.leArr 32 Hash.p) [Block.intSample .u32]
    let node := Frontier.Spec.after convert (add H sha digest trusting) (State.new (Proof := Proof))
    ∃ s v, tryIntoJsonText F E b = .ok s ∧ fetchBlock F E s = .ok v ∧ ¬ Spec.Stops digest trusting (top (node []).bestChain) v ∧
      (node [v]).bestChain = [(used b).protocolState] ∧ Spec.Stops digest trusting (top (node [v]).bestChain) v := by
  obtain ⟨h1, h2⟩ := sampleWith_shown (Block.leArr 32 Hash.p) [Block.intSample .u32] (by decide)
  exact C128_text_repeat_fails F E H sha digest trusting _ h1 h2 (fun c _ => ⟨c.signer, rfl, rfl⟩) (by decide +kernel) (by decide +kernel)

/-- A poll of a text that is no JSON and the text of a block. -/
example : ∃ s v, tryIntoJsonText F E Block.sampleBlock.1 = .ok s ∧ pollBlocks F E [[], s] = .ok [v] := by
  obtain ⟨s, -, h1, -, -, h2⟩ := Json.C111_node_blocks F E _ Block.sampleBlock.2.1 Block.sample_shown
  obtain ⟨v, h3, -⟩ := (fetch_then F E s _).mp h2
  refine ⟨s, v, h1, ?_⟩
  have hn : Json.parse F [] = none := by
    simp [Json.parse, Json.readValue, Json.skipSpace, Json.readNumber, Json.readUnsigned]
  have h0 : fetchBlock F E [] = .error .err := by unfold fetchBlock; rw [hn]
  simp only [pollBlocks, h0, h3]
  rfl

end MinaRs.Frontier.Mainnet
