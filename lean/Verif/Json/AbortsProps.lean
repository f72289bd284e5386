import Verif.Json.Aborts
import Verif.Block.JsonProps

/-!
# Reading JSON documents does not end the process (C118)

`Spec.Part` and `Spec.Aborting` are in `Json/AbortsSpec.lean`.
-/

namespace MinaRs.Json

open Spec
open Text (Text)

/-- **C118.** Reading a document gives a value or an error, unless a part of it is one of the listed ones: something else than a
list where an enumeration is expected, a field element of the wrong length, an empty text for a character, an amount of 2^64 or
more, or the bare checksum of nothing. -/
theorem C118_reading_ends_partial (E : Env) (t : JTy) (j : J) (h : ∀ t' j', Part t j t' j' → ¬ Aborting E t' j') :
    (∃ v, de E t j = .ok v) ∨ de E t j = .error .err := by
  cases hd : de E t j with
  | ok v => exact .inl ⟨v, rfl⟩
  | error e =>
    rcases de_error E t j e hd with rfl | ⟨-, t', j', h1, h2⟩
    · exact .inr rfl
    · exact absurd h2 (h t' j' h1)

/-- **C118 fails** at the listed parts: each of them, read on its own, ends the process. -/
theorem C118_listed_parts_fails (E : Env) (t : JTy) (j : J) (h : Aborting E t j) : de E t j = .error .panic := by
  cases t with
  | leaf c => exact leaf_aborts h
  | listEnum poly expand vs =>
    rw [de_listEnum]
    cases h with
    | noList h =>
      cases j with
      | arr items =>
        cases items with
        | nil => rfl
        | cons a as => exact absurd rfl (h a as)
      | _ => rfl
  | _ => cases h

/-- **C118.** No document that is read has such a part: every part of it is read too. -/
theorem C118_read_documents (E : Env) (t : JTy) (j : J) (v : t.wire.denote) (h : de E t j = .ok v) (t' : JTy) (j' : J)
    (hp : Part t j t' j') : (∃ w, de E t' j' = .ok w) ∧ ¬ Aborting E t' j' := by
  obtain ⟨w, hw⟩ := part_read hp ⟨v, h⟩
  refine ⟨⟨w, hw⟩, fun ha => ?_⟩
  rw [C118_listed_parts_fails E t' j' ha] at hw
  cases hw

/-- **C118.** Reading never makes a text of bytes that are none. -/
theorem C118_no_undefined_behaviour (E : Env) (t : JTy) (j : J) : de E t j ≠ .error .ub := by
  intro h
  rcases de_error E t j _ h with h | ⟨h, -⟩ <;> cases h

/-- **C118 for blocks.** Reading the text of a block gives a block or an error, unless it is JSON with one of the listed parts, or
with a key or a signature outside its field. -/
theorem C118_block_text_partial (F : Floats) (E : Env) (s : Text)
    (h : ∀ j, parse F s = some j → (∀ t' j', Part Block.block j t' j' → ¬ Aborting E t' j') ∧
      ∀ v, de E Block.block j = .ok v → MinaRs.Block.Spec.Canonical MinaRs.Block.block (cast (congrArg BinProt.Ty.denote MinaRs.Block.wire_eq_json.symm) v)) :
    (∃ b, MinaRs.Block.tryFromJsonText F E s = .ok b) ∨ MinaRs.Block.tryFromJsonText F E s = .error .err := by
  unfold MinaRs.Block.tryFromJsonText
  cases hp : parse F s with
  | none => exact .inr rfl
  | some j =>
    dsimp only
    unfold MinaRs.Block.tryFromJson
    obtain ⟨h1, h2⟩ := h j hp
    rcases C118_reading_ends_partial E Block.block j h1 with ⟨v, hv⟩ | he
    · rw [hv]
      dsimp only
      unfold MinaRs.Block.fromJsonForm
      rcases MinaRs.Block.from_cases MinaRs.Block.block (cast (congrArg BinProt.Ty.denote MinaRs.Block.wire_eq_json.symm) v) with
        ⟨-, b, hb⟩ | ⟨hn, -⟩
      · rw [hb]; exact .inl ⟨b, rfl⟩
      · exact absurd (h2 v hv) hn
    · rw [he]; exact .inr rfl

/-! ## The hypotheses are met -/

/-- Parts with their types: a status that is no list, too short a field element, no character, 2^64 units. -/
example (E : Env) (hE : E.checks = true) (vs : JVars) :
    Aborting E (.listEnum false true vs) (.str "Applied") ∧ Aborting E (.leaf .field) (.str "0x00") ∧
    Aborting E (.leaf .char) (.str "") ∧ Aborting E (.leaf .decimal) (.str "18446744073.709551616") := by
  refine ⟨.noList (fun _ _ h => by cases h), ?_, .letter, ?_⟩
  · exact .hex (body := ['0', '0']) (bs := [0]) (.inr (.inl rfl))
      (.cons (x := 0) (y := 0) (by decide +kernel) (by decide +kernel) .nil) (by decide)
  · refine .amount (q := "18446744073".toList) (f := "709551616".toList) (w := 18446744073) (r := 709551616) hE (by decide +kernel)
      ⟨_, .inl rfl, by decide +kernel, by decide +kernel, by decide +kernel, by decide⟩
      ⟨_, .inl rfl, by decide +kernel, by decide +kernel, by decide +kernel, by decide⟩ (by decide)

/-- A deeper part: the second item of a list of records. -/
example (E : Env) : Part (.seq (.struct (.cons "c" (.leaf .char) .nil))) (.arr [.obj [("c", .str "a")], .obj [("c", .str "")]])
    (.leaf .char) (.str "") :=
  .item (j := .obj [("c", .str "")]) (List.mem_cons_of_mem _ List.mem_cons_self)
    (.struct (.field (n := "c") (t := .leaf .char) (j := .str "") List.mem_cons_self List.mem_cons_self) (.here _ _))

/-- The documents of blocks have none of these parts. -/
example (E : Env) : ∃ j, ∀ t' j', Part Block.block j t' j' → ¬ Aborting E t' j' := by
  obtain ⟨j, -, h⟩ := Block.C61_roundtrip_partial E MinaRs.Block.badSignatures.1 MinaRs.Block.badSignatures.2
  exact ⟨j, fun t' j' hp => (C118_read_documents E _ j _ h t' j' hp).2⟩

/-- Documents without such parts: every text is read as a number or refused. -/
example (E : Env) (s : String) : ∀ t' j', Part (.leaf .u64) (.str s) t' j' → ¬ Aborting E t' j' := by
  intro t' j' h ha
  cases h
  cases ha

end MinaRs.Json
