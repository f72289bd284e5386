import Verif.Hash.Display
import Verif.Base.TextLemmas

/-!
# C122: the printed form of a hash input determines it
-/

namespace MinaRs.Hash

open Text (Text decimal decimal_digits value_decimal)
open Text.Spec (IsDigit)

/-- The lines of a text with every line ended. -/
def Spec.text (ls : List Text) : Text := ls.flatMap fun l => l ++ ['\n']

/-- What is printed: the number of fields, the fields, the number of pieces, and the pieces with their widths, all in decimal. -/
def Spec.lines (c : Chunked) : List Text :=
  ["fields (".toList ++ decimal c.fields.length ++ "):".toList] ++ c.fields.map (fun f => '\t' :: decimal f.val) ++
  ["packed: (".toList ++ decimal c.packed.length ++ "):".toList] ++
  c.packed.map (fun p => '\t' :: decimal p.2 ++ ':' :: decimal p.1.val)

/-- **C122.** These lines are printed. -/
theorem C122_lines (c : Chunked) : c.display = Spec.text (Spec.lines c) := by
  simp only [Chunked.display, Spec.text, Spec.lines, line, fpToStr, List.flatMap_append, List.flatMap_map, List.flatMap_cons,
    List.flatMap_nil, List.append_nil, List.nil_append, List.cons_append, List.append_assoc]

theorem cut_unique {s : Char} : ∀ (a b x y : Text), s ∉ a → s ∉ b → a ++ s :: x = b ++ s :: y → a = b ∧ x = y
  | [], [], _, _, _, _, h => ⟨rfl, (List.cons.inj h).2⟩
  | [], c :: b, _, _, _, hb, h => by
    have := (List.cons.inj h).1
    exact absurd (this ▸ List.mem_cons_self) hb
  | c :: a, [], _, _, ha, _, h => by
    have := (List.cons.inj h).1
    exact absurd (this ▸ List.mem_cons_self) ha
  | c :: a, d :: b, x, y, ha, hb, h => by
    obtain ⟨h1, h2⟩ := List.cons.inj h
    obtain ⟨h3, h4⟩ := cut_unique a b x y (fun h => ha (List.mem_cons_of_mem _ h)) (fun h => hb (List.mem_cons_of_mem _ h)) h2
    exact ⟨by rw [h1, h3], h4⟩

theorem text_inj : ∀ (a b : List Text), (∀ l ∈ a, '\n' ∉ l) → (∀ l ∈ b, '\n' ∉ l) → Spec.text a = Spec.text b → a = b
  | [], [], _, _, _ => rfl
  | [], l :: b, _, _, h => by simp [Spec.text] at h
  | l :: a, [], _, _, h => by simp [Spec.text] at h
  | l :: a, m :: b, ha, hb, h => by
    have h' : l ++ '\n' :: Spec.text a = m ++ '\n' :: Spec.text b := by simpa [Spec.text] using h
    obtain ⟨h1, h2⟩ := cut_unique _ _ _ _ (ha l List.mem_cons_self) (hb m List.mem_cons_self) h'
    rw [h1, text_inj a b (fun l hl => ha l (List.mem_cons_of_mem _ hl)) (fun l hl => hb l (List.mem_cons_of_mem _ hl)) h2]

theorem not_digit {s : Char} (h : ¬ IsDigit s) (n : Nat) : s ∉ decimal n := fun hm => h (decimal_digits n s hm)

theorem decimal_inj {m n : Nat} (h : decimal m = decimal n) : m = n := by
  rw [← value_decimal m, h, value_decimal]

theorem lines_plain (c : Chunked) : ∀ l ∈ Spec.lines c, '\n' ∉ l := by
  have hd : ∀ n, '\n' ∉ decimal n := not_digit (by decide)
  have h1 : '\n' ∉ "fields (".toList := by decide +kernel
  have h2 : '\n' ∉ "packed: (".toList := by decide +kernel
  have h3 : '\n' ∉ "):".toList := by decide +kernel
  intro l hl
  simp only [Spec.lines, List.mem_append, List.mem_singleton, List.mem_map] at hl
  rcases hl with ((rfl | ⟨f, -, rfl⟩) | rfl) | ⟨p, -, rfl⟩
  · simp only [List.mem_append, h1, hd, h3, or_self, not_false_eq_true]
  · simp [hd]
  · simp only [List.mem_append, h2, hd, h3, or_self, not_false_eq_true]
  · simp [hd]

theorem map_inj {α : Type} (f : α → Text) (hf : ∀ a b, f a = f b → a = b) : ∀ (l m : List α), l.map f = m.map f → l = m
  | [], [], _ => rfl
  | [], _ :: _, h => by cases h
  | _ :: _, [], h => by cases h
  | a :: l, b :: m, h => by
    obtain ⟨h1, h2⟩ := List.cons.inj h
    rw [hf a b h1, map_inj f hf l m h2]

/-- **C122.** Two inputs that print alike are the same. -/
theorem C122_display (c c' : Chunked) (h : c.display = c'.display) : c = c' := by
  rw [C122_lines, C122_lines] at h
  have hl := text_inj _ _ (lines_plain c) (lines_plain c') h
  unfold Spec.lines at hl
  simp only [List.cons_append, List.nil_append, List.append_assoc] at hl
  obtain ⟨e1, e2⟩ := List.cons.inj hl
  have n1 : c.fields.length = c'.fields.length := decimal_inj (List.append_cancel_right (List.append_cancel_left e1))
  obtain ⟨e3, e4⟩ := List.append_inj e2 (by simp [n1])
  obtain ⟨-, e5⟩ := List.cons.inj e4
  cases c with
  | mk fields packed =>
  cases c' with
  | mk fields' packed' =>
  simp only at e3 e5
  have r1 : fields = fields' := map_inj _ (fun a b h => Fin.ext (decimal_inj (List.cons.inj h).2)) _ _ e3
  have r2 : packed = packed' := by
    refine map_inj _ ?_ _ _ e5
    intro a b h
    obtain ⟨h1, h2⟩ := cut_unique _ _ _ _ (not_digit (by decide) _) (not_digit (by decide) _) (List.cons.inj h).2
    exact Prod.ext (Fin.ext (decimal_inj h2)) (decimal_inj h1)
  rw [r1, r2]

example : (⟨[3], [(5, 8)]⟩ : Chunked).display ≠ (⟨[3], [(8, 5)]⟩ : Chunked).display := by
  intro h
  have := C122_display _ _ h
  revert this
  decide +kernel

end MinaRs.Hash
