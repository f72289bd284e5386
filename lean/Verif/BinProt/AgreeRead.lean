import Verif.BinProt.AgreeLemmas
import Verif.BinProt.LooseProps
import Verif.BinProt.WordsLemmas

/-! The two readers on a type and a layout that agree: helper lemmas for C117. -/

namespace MinaRs.BinProt
open Prog Spec

mutual
/-- `Scoped`, computed. -/
def scopedB : Rule → Bool → Bool
  | .option r, _ => scopedB r false
  | .record fs, _ => scopedFieldsB fs
  | .tuple rs, _ => scopedRulesB rs
  | .sum ss, _ => scopedSummandsB ss
  | .polyvar ps, _ => scopedPolyvarsB ps
  | .list r, _ => scopedB r false
  | .reference _ r, _ => scopedB r true
  | .custom rs, d => d && scopedRulesB rs
  | _, _ => true
def scopedRulesB : List Rule → Bool
  | [] => true
  | r :: rs => scopedB r false && scopedRulesB rs
def scopedFieldsB : List (String × Rule) → Bool
  | [] => true
  | (_, r) :: fs => scopedB r false && scopedFieldsB fs
def scopedSummandsB : List Summand → Bool
  | [] => true
  | .mk _ _ args :: ss => scopedRulesB args && scopedSummandsB ss
def scopedPolyvarsB : List Polyvar → Bool
  | [] => true
  | .tagged _ _ args :: ps => scopedRulesB args && scopedPolyvarsB ps
  | .inherited _ :: ps => scopedPolyvarsB ps
end

mutual
theorem scoped_of : (r : Rule) → (d : Bool) → scopedB r d = true → Scoped r d
  | .option r, _, h => scoped_of r false h
  | .record fs, _, h => scopedFields_of fs h
  | .tuple rs, _, h => scopedRules_of rs h
  | .sum ss, _, h => scopedSummands_of ss h
  | .polyvar ps, _, h => scopedPolyvars_of ps h
  | .list r, _, h => scoped_of r false h
  | .reference _ r, _, h => scoped_of r true h
  | .custom rs, d, h => by
    simp only [scopedB, Bool.and_eq_true] at h
    exact ⟨h.1, scopedRules_of rs h.2⟩
  | .nat0, _, _ => trivial
  | .unit, _, _ => trivial
  | .bool, _, _ => trivial
  | .string, _, _ => trivial
  | .char, _, _ => trivial
  | .int _, _, _ => trivial
  | .float, _, _ => trivial
  | .customForPath _ _, _, _ => trivial
  | .other _, _, _ => trivial
theorem scopedRules_of : (rs : List Rule) → scopedRulesB rs = true → ScopedRules rs
  | [], _ => trivial
  | r :: rs, h => by
    simp only [scopedRulesB, Bool.and_eq_true] at h
    exact ⟨scoped_of r false h.1, scopedRules_of rs h.2⟩
theorem scopedFields_of : (fs : List (String × Rule)) → scopedFieldsB fs = true → ScopedFields fs
  | [], _ => trivial
  | (_, r) :: fs, h => by
    simp only [scopedFieldsB, Bool.and_eq_true] at h
    exact ⟨scoped_of r false h.1, scopedFields_of fs h.2⟩
theorem scopedSummands_of : (ss : List Summand) → scopedSummandsB ss = true → ScopedSummands ss
  | [], _ => trivial
  | .mk _ _ args :: ss, h => by
    simp only [scopedSummandsB, Bool.and_eq_true] at h
    exact ⟨scopedRules_of args h.1, scopedSummands_of ss h.2⟩
theorem scopedPolyvars_of : (ps : List Polyvar) → scopedPolyvarsB ps = true → ScopedPolyvars ps
  | [], _ => trivial
  | .tagged _ _ args :: ps, h => by
    simp only [scopedPolyvarsB, Bool.and_eq_true] at h
    exact ⟨scopedRules_of args h.1, scopedPolyvars_of ps h.2⟩
  | .inherited _ :: ps, h => scopedPolyvars_of ps h
end

theorem total_mem {α : Type} {f : α → Nat} : ∀ {l : List α} {a : α}, a ∈ l → f a ≤ total (l.map f)
  | b :: l, a, h => by
    simp only [List.map_cons, total]
    rcases List.mem_cons.mp h with rfl | h
    · omega
    · have := total_mem (f := f) h; omega

mutual
theorem below_items (n : Nat) : (t : Ty) → (v : t.denote) → items t v < n → ListsBelow n t v
  | .option t, v, h => by
    intro w hw
    obtain rfl : v = some w := hw
    exact below_items n t w (by simpa only [items] using h)
  | .newtype t, v, h => below_items n t v (by simpa only [items] using h)
  | .seq t, vs, h => by
    simp only [items] at h
    exact ⟨Nat.lt_of_le_of_lt (Nat.le_add_right _ _) h, fun w hw => below_items n t w
      (Nat.lt_of_le_of_lt (Nat.le_trans (total_mem (f := items t) hw) (Nat.le_add_left _ _)) h)⟩
  | .tuple ts, v, h => belowProd_items n ts v (by simpa only [items] using h)
  | .struct ts, v, h => belowProd_items n ts v (by simpa only [items] using h)
  | .enum vs, v, h => belowSum_items n vs v (by simpa only [items] using h)
  | .polyvar vs, v, h => belowSum_items n vs v (by simpa only [items] using h)
  | .unit, _, _ => trivial
  | .bool, _, _ => trivial
  | .u8, _, _ => trivial
  | .int _, _, _ => trivial
  | .f32, _, _ => trivial
  | .f64, _, _ => trivial
  | .char, _, _ => trivial
  | .string, _, _ => trivial
theorem belowProd_items (n : Nat) : (ts : Tys) → (v : ts.prod) → itemsProd ts v < n → ListsBelowProd n ts v
  | .nil, _, _ => trivial
  | .cons _ t ts, v, h => by
    simp only [itemsProd] at h
    exact ⟨below_items n t _ (Nat.lt_of_le_of_lt (Nat.le_add_right _ _) h),
      belowProd_items n ts _ (Nat.lt_of_le_of_lt (Nat.le_add_left _ _) h)⟩
theorem belowSum_items (n : Nat) : (vs : Tys) → (v : vs.sum) → itemsSum vs v < n → ListsBelowSum n vs v
  | .nil, _, _ => trivial
  | .cons _ t ts, v, h => by
    obtain w | w : t.denote ⊕ ts.sum := v
    · exact below_items n t w (by simpa only [itemsSum] using h)
    · exact belowSum_items n ts w (by simpa only [itemsSum] using h)
end

mutual
theorem avoids_nothing : (t : Ty) → (v : t.denote) → TypedAvoids [] t v
  | .option t, _ => fun w _ => avoids_nothing t w
  | .newtype t, v => avoids_nothing t v
  | .seq t, _ => fun w _ => avoids_nothing t w
  | .tuple ts, v => avoids_nothing_prod ts v
  | .struct ts, v => avoids_nothing_prod ts v
  | .enum vs, v => ⟨by simp, avoids_nothing_sum vs v⟩
  | .polyvar vs, v => avoids_nothing_sum vs v
  | .unit, _ => trivial
  | .bool, _ => trivial
  | .u8, _ => trivial
  | .int _, _ => trivial
  | .f32, _ => trivial
  | .f64, _ => trivial
  | .char, _ => trivial
  | .string, _ => trivial
theorem avoids_nothing_prod : (ts : Tys) → (v : ts.prod) → TypedAvoidsProd [] ts v
  | .nil, _ => trivial
  | .cons _ t ts, v => ⟨avoids_nothing t _, avoids_nothing_prod ts _⟩
theorem avoids_nothing_sum : (vs : Tys) → (v : vs.sum) → TypedAvoidsSum [] vs v
  | .nil, _ => trivial
  | .cons _ t ts, v => by
    obtain w | w : t.denote ⊕ ts.sum := v
    · exact avoids_nothing t w
    · exact avoids_nothing_sum ts w
end

mutual
theorem layout_avoids_nothing : (w : Value) → Avoids [] w
  | .some v => layout_avoids_nothing v
  | .record fs => layout_avoids_nothing_fields fs
  | .tuple vs => layout_avoids_nothing_all vs
  | .sum _ _ v => ⟨by simp, layout_avoids_nothing v⟩
  | .polyvar _ _ v => layout_avoids_nothing v
  | .list vs => layout_avoids_nothing_all vs
  | .unit => trivial
  | .nat0 _ => trivial
  | .bool _ => trivial
  | .string _ => trivial
  | .char _ => trivial
  | .int _ => trivial
  | .float _ => trivial
  | .none => trivial
theorem layout_avoids_nothing_all : (vs : List Value) → AvoidsAll [] vs
  | [] => trivial
  | v :: vs => ⟨layout_avoids_nothing v, layout_avoids_nothing_all vs⟩
theorem layout_avoids_nothing_fields : (fs : List (String × Value)) → AvoidsFields [] fs
  | [] => trivial
  | (_, v) :: fs => ⟨layout_avoids_nothing v, layout_avoids_nothing_fields fs⟩
end

/-- What the typed reader reads, the layout-driven reader reads too. -/
theorem layout_follows {bad : List String} {nm mn : Naming} {n : Nat} {t : Ty} {r : Rule} (h : agree bad nm mn n [] t r none = true)
    (hw : WfTy t) (hsl : SolidLists t = true) (hsc : scopedB r false = true) {s rest : Bytes} {v : t.denote} (hs : s.length < 2 ^ 57)
    (hd : (decode t).run s = .ok (v, rest)) (ha : TypedAvoids bad t v) :
    ∃ w it, (decodeLoose r).run s = .ok ((w, it), rest) ∧ content mn [] w = contentOf nm [] t v := by
  obtain ⟨enc, rfl, hwire⟩ := (decode_ok_iff t hw s v rest).mp hd
  have hi := wire_items t hsl enc v hwire
  rw [List.length_append] at hs
  obtain ⟨w, hg, hc⟩ := agree_typed h (is := contentOf nm [] t v) ⟨v, hwire, ha, below_items _ t v (by omega), rfl⟩
  obtain ⟨it, hr⟩ := (C15_accepts_exactly_the_grammar_partial r (scoped_of r false hsc) (enc ++ rest) rest w).mpr ⟨enc, rfl, hg⟩
  exact ⟨w, it, hr, hc⟩

/-- What the layout-driven reader reads, the typed reader reads too, unless a number does not fit. -/
theorem typed_follows {bad : List String} {nm mn : Naming} {n : Nat} {t : Ty} {r : Rule} (h : agree bad nm mn n [] t r none = true)
    (hsc : scopedB r false = true) {s rest : Bytes} {w : Value} {it : Iter}
    (hd : (decodeLoose r).run s = .ok ((w, it), rest)) (ha : Avoids bad w) :
    (∃ v, (decode t).run s = .ok (v, rest) ∧ contentOf nm [] t v = content mn [] w) ∨
      (decode t).run s = .error .destinationIntegerOverflow := by
  obtain ⟨enc, rfl, hg⟩ := (C15_accepts_exactly_the_grammar_partial r (scoped_of r false hsc) s rest w).mp ⟨it, hd⟩
  exact agree_reads h ⟨w, hg, ha, rfl⟩ rest

end MinaRs.BinProt
