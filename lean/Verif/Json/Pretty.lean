import Verif.Json.DocPrint

/-!
# The indented text form of JSON documents

`serde_json::to_string_pretty` (external crate, transcribed from its documentation), with which key files are written
(`secrets/src/secret_box/types_impls.rs:73`).
-/

namespace MinaRs.Json

open Text (Text)
open Grammar

/-- A new line with `n` indentations of two spaces (`PrettyFormatter`, external, used at
`secrets/src/secret_box/types_impls.rs:73`). -/
def newLine (n : Nat) : Text := '\n' :: List.replicate (2 * n) ' '

mutual
/-- `serde_json::to_string_pretty` of a document `n` levels deep in another (external, used at
`secrets/src/secret_box/types_impls.rs:73`). -/
def pretty (F : Floats) (n : Nat) : J → Text
  | .arr (j :: js) => '[' :: (newLine (n + 1) ++ (pretty F (n + 1) j ++ prettyItems F n js))
  | .obj ((k, j) :: es) =>
    '{' :: (newLine (n + 1) ++ (printString k ++ ':' :: ' ' :: (pretty F (n + 1) j ++ prettyEntries F n es)))
  | .arr [] => ['[', ']']
  | .obj [] => ['{', '}']
  | .null => print F .null
  | .bool b => print F (.bool b)
  | .num m => print F (.num m)
  | .float bits => print F (.float bits)
  | .str s => print F (.str s)
/-- The further items of a list, and its end (external, used at `secrets/src/secret_box/types_impls.rs:73`). -/
def prettyItems (F : Floats) (n : Nat) : List J → Text
  | [] => newLine n ++ [']']
  | j :: js => ',' :: (newLine (n + 1) ++ (pretty F (n + 1) j ++ prettyItems F n js))
/-- The further members of an object, and its end (external, used at `secrets/src/secret_box/types_impls.rs:73`). -/
def prettyEntries (F : Floats) (n : Nat) : List (String × J) → Text
  | [] => newLine n ++ ['}']
  | (k, j) :: es =>
    ',' :: (newLine (n + 1) ++ (printString k ++ ':' :: ' ' :: (pretty F (n + 1) j ++ prettyEntries F n es)))
end

/-! ## Lemmas -/

theorem newLine_space (n : Nat) : Space (newLine n) := by
  intro c hc
  rcases List.mem_cons.mp hc with rfl | hc
  · exact .inr (.inr (.inl rfl))
  · exact .inl (List.eq_of_mem_replicate hc)

theorem noSpace : Space [] := fun c h => by cases h

theorem oneSpace : Space [' '] := by
  intro c hc
  exact .inl (List.mem_singleton.mp hc)

mutual
theorem pretty_value (F : Floats) : (n : Nat) → (j : J) → Plain j → Value F.read (pretty F n j) j
  | _, .null, h => by rw [pretty]; exact print_value F _ h
  | _, .bool _, h => by rw [pretty]; exact print_value F _ h
  | _, .num _, h => by rw [pretty]; exact print_value F _ h
  | _, .float _, h => h.elim
  | _, .str _, h => by rw [pretty]; exact print_value F _ h
  | _, .arr [], _ => by rw [pretty]; exact .noItems [] noSpace
  | n, .arr (j :: js), h => by
    simp only [Plain, PlainAll] at h
    obtain ⟨t, h1, h2⟩ := prettyItems_tail F n js h.2
    rw [pretty, h1]
    have := Value.arr (float := F.read) _ _ (items_cons F _ _ t j js (newLine_space (n + 1)) (pretty_value F (n + 1) j h.1) h2)
    simpa using this
  | _, .obj [], _ => by rw [pretty]; exact .noMembers [] noSpace
  | n, .obj ((k, j) :: es), h => by
    simp only [Plain, PlainMembers] at h
    obtain ⟨t, h1, h2⟩ := prettyEntries_tail F n es h.2
    have hm := Member.mk (float := F.read) _ [] [' '] _ k j (printString_str k) noSpace oneSpace (pretty_value F (n + 1) j h.1)
    rw [pretty, h1]
    have := Value.obj (float := F.read) _ _ (members_cons F _ _ t _ es (newLine_space (n + 1)) hm h2)
    simpa using this
theorem prettyItems_tail (F : Floats) : (n : Nat) → (js : List J) → PlainAll js →
    ∃ t, prettyItems F n js = t ++ [']'] ∧ ItemsTail F t js
  | n, [], _ => ⟨newLine n, by rw [prettyItems], .inl ⟨rfl, newLine_space n⟩⟩
  | n, j :: js, h => by
    simp only [PlainAll] at h
    obtain ⟨t, h1, h2⟩ := prettyItems_tail F n js h.2
    refine ⟨',' :: (newLine (n + 1) ++ (pretty F (n + 1) j ++ t)), by rw [prettyItems, h1]; simp,
      .inr ⟨[], _, rfl, noSpace, ?_⟩⟩
    exact items_cons F _ _ t j js (newLine_space (n + 1)) (pretty_value F (n + 1) j h.1) h2
theorem prettyEntries_tail (F : Floats) : (n : Nat) → (es : List (String × J)) → PlainMembers es →
    ∃ t, prettyEntries F n es = t ++ ['}'] ∧ MembersTail F t es
  | n, [], _ => ⟨newLine n, by rw [prettyEntries], .inl ⟨rfl, newLine_space n⟩⟩
  | n, (k, j) :: es, h => by
    simp only [PlainMembers] at h
    obtain ⟨t, h1, h2⟩ := prettyEntries_tail F n es h.2
    have hm := Member.mk (float := F.read) _ [] [' '] _ k j (printString_str k) noSpace oneSpace (pretty_value F (n + 1) j h.1)
    refine ⟨',' :: (newLine (n + 1) ++ ((printString k ++ ':' :: ' ' :: pretty F (n + 1) j) ++ t)),
      by rw [prettyEntries, h1]; simp, .inr ⟨[], _, rfl, noSpace, ?_⟩⟩
    simpa using members_cons F _ _ t _ es (newLine_space (n + 1)) hm h2
end

theorem pretty_says (F : Floats) (j : J) (h : Plain j) : Says F.read (pretty F 0 j) j :=
  ⟨[], _, [], by simp, noSpace, pretty_value F 0 j h, noSpace⟩

end MinaRs.Json
