import Verif.Secrets.Props

/-! # The texts of wallet files (C60) -/

namespace MinaRs.Secrets

open Json (J JErr Env Floats)
open Text (Text)
open Spec

theorem file_plain (E : Env) (w : Wallet) (h1 : IsI64 w.memLimit) (h2 : IsI64 w.opsLimit) : Json.Grammar.Plain (file E w) := by
  have h : ∀ n, IsI64 n → -2 ^ 63 ≤ n ∧ n < 2 ^ 64 := fun n hn => ⟨hn.1, Int.lt_trans hn.2 (by decide)⟩
  exact ⟨trivial, trivial, trivial, trivial, ⟨h _ h1, h _ h2, trivial⟩, trivial, trivial⟩

theorem file_depth (E : Env) (w : Wallet) : Json.Grammar.depth (file E w) ≤ Json.maxDepth := by
  simp [file, text, Json.Grammar.depth, Json.Grammar.depthMembers, Json.Grammar.depthAll, Json.maxDepth]

/-- **C60 (texts).** A text is read as a wallet exactly when it is JSON, nested at most 127 deep, of a document that is read as
this wallet; any other text is an error. -/
theorem C60_text (F : Floats) (E : Env) (C : Crypto) (s : Text) :
    (∀ sb, readText F E C s = .ok sb ↔
      ∃ j, Json.Grammar.Says F.read s j ∧ Json.Grammar.depth j ≤ 127 ∧ read E C j = .ok sb) ∧
    ((∀ j, ¬ Json.Grammar.Says F.read s j) → readText F E C s = .error .err) := by
  constructor
  · intro sb
    unfold readText
    constructor
    · intro h
      cases hp : Json.parse F s with
      | none => rw [hp] at h; cases h
      | some j =>
        rw [hp] at h
        obtain ⟨h1, h2⟩ := (Json.parse_iff F s j).mp hp
        exact ⟨j, h1, h2, h⟩
    · rintro ⟨j, h1, h2, h3⟩
      rw [(Json.parse_iff F s j).mpr ⟨h1, h2⟩]
      exact h3
  · intro h
    unfold readText
    cases hp : Json.parse F s with
    | none => rfl
    | some j => exact absurd ((Json.parse_iff F s j).mp hp).1 (h j)

/-- **C60 (texts).** A text that says a wallet file with a salt of 16 bytes and an operations limit of 32 bits, however it is
laid out, is read as a wallet; the wallet is written as a text that says the same file and nothing else, and that text is read
as the same wallet.  As a JSON value the wallet is that file, its members in the order of their names.
Missing: as in `C60_reread_partial`. -/
theorem C60_text_reread_partial (F : Floats) (E : Env) (C : Crypto) (s : Text) (j : J) (w : Wallet)
    (hs : Json.Grammar.Says F.read s j) (hd : Json.Grammar.depth j ≤ 127) (h : Says E j w) (h1 : IsI64 w.memLimit)
    (h2 : 0 ≤ w.opsLimit ∧ w.opsLimit < 2 ^ 32) (h3 : w.salt.length = 16) :
    ∃ sb t, readText F E C s = .ok sb ∧ writeText F E C sb = .ok t ∧ Json.Grammar.Says F.read t (file E w) ∧
      readText F E C t = .ok sb ∧ writeValue F E C sb = .ok (Json.asValue (file E w)) := by
  obtain ⟨sb, h4, h5⟩ := C60_reread_partial E C j w h h1 h2 h3
  have hi : IsI64 w.opsLimit := ⟨by have := h2.1; omega, by have := h2.2; omega⟩
  have hp := Json.pretty_says F _ (file_plain E w h1 hi)
  have ht : writeText F E C sb = .ok (Json.pretty F 0 (file E w)) := by
    simp only [writeText, h5, bind, Except.bind]
  have hparse := (Json.parse_iff F _ _).mpr ⟨hp, file_depth E w⟩
  refine ⟨sb, _, ((C60_text F E C s).1 sb).mpr ⟨j, hs, hd, h4⟩, ht, hp, ?_, ?_⟩
  · unfold readText
    rw [hparse]
    exact C60_rewrite E C j _ sb h4 h5
  · simp only [writeValue, ht, bind, Except.bind, hparse]

/-- **C60 (texts).** A document that lacks a field or has it twice is refused. -/
theorem C60_once (E : Env) (C : Crypto) (es : List (String × J)) (sb : SecretBox C.Salt) (h : read E C (.obj es) = .ok sb) :
    ∀ name ∈ ["box_primitive", "pw_primitive", "nonce", "pwsalt", "pwdiff", "ciphertext"], ∃ v, Once (.obj es) name v := by
  obtain ⟨w, hw, -⟩ := C60_read_says E C es sb h
  intro name hn
  simp only [List.mem_cons, List.not_mem_nil, or_false] at hn
  rcases hn with rfl | rfl | rfl | rfl | rfl | rfl
  · exact ⟨_, hw.box⟩
  · exact ⟨_, hw.pw⟩
  · exact ⟨_, hw.nonce⟩
  · exact ⟨_, hw.salt⟩
  · exact ⟨_, hw.pwdiff⟩
  · exact ⟨_, hw.ciphertext⟩

/-- The text of a file, and of the same file with another layout, meet the hypotheses of `C60_text_reread_partial`. -/
example (F : Floats) (E : Env) : let w : Wallet := ⟨List.replicate 24 1, List.replicate 16 2, 134217728, 6, [9, 9]⟩
    Json.Grammar.Says F.read (Json.pretty F 0 (file E w)) (file E w) ∧ Json.Grammar.Says F.read (Json.print F (file E w)) (file E w) ∧
    Json.Grammar.depth (file E w) ≤ 127 ∧ Says E (file E w) w :=
  ⟨Json.pretty_says F _ (file_plain E _ (by decide) (by decide)),
    ⟨[], _, [], by simp, Json.noSpace, Json.print_value F _ (file_plain E _ (by decide) (by decide)), Json.noSpace⟩,
    file_depth E _, says_file E _⟩

/-- The layout of `to_string_pretty`. -/
example : String.ofList (Json.pretty ⟨fun _ => [], fun _ => none⟩ 0 (.obj [("a", .arr [.num 1, .arr []]), ("b", .obj [])])) =
    "{\n  \"a\": [\n    1,\n    []\n  ],\n  \"b\": {}\n}" := by decide +kernel

end MinaRs.Secrets
