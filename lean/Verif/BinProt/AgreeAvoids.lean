import Verif.BinProt.AgreeSpec

/-! # Evaluating whether a value avoids constructors -/

namespace MinaRs.BinProt
open Spec

mutual
/-- `Spec.Avoids`, as a check. -/
def avoidsB (bad : List String) : Value → Bool
  | .some v => avoidsB bad v
  | .record fs => avoidsFieldsB bad fs
  | .tuple vs => avoidsAllB bad vs
  | .sum name _ v => !bad.contains name && avoidsB bad v
  | .polyvar _ _ v => avoidsB bad v
  | .list vs => avoidsAllB bad vs
  | _ => true
def avoidsAllB (bad : List String) : List Value → Bool
  | [] => true
  | v :: vs => avoidsB bad v && avoidsAllB bad vs
def avoidsFieldsB (bad : List String) : List (String × Value) → Bool
  | [] => true
  | (_, v) :: fs => avoidsB bad v && avoidsFieldsB bad fs
end

mutual
theorem avoids_of {bad : List String} : (v : Value) → avoidsB bad v = true → Avoids bad v
  | .some v, h => by
    simp only [avoidsB] at h; simp only [Avoids]; exact avoids_of v h
  | .record fs, h => by
    simp only [avoidsB] at h; simp only [Avoids]; exact avoidsFields_of fs h
  | .tuple vs, h => by
    simp only [avoidsB] at h; simp only [Avoids]; exact avoidsAll_of vs h
  | .sum name _ v, h => by
    simp only [avoidsB, Bool.and_eq_true, Bool.not_eq_true'] at h; simp only [Avoids]
    exact ⟨fun hm => by simp at h; exact h.1 hm, avoids_of v h.2⟩
  | .polyvar _ _ v, h => by
    simp only [avoidsB] at h; simp only [Avoids]; exact avoids_of v h
  | .list vs, h => by
    simp only [avoidsB] at h; simp only [Avoids]; exact avoidsAll_of vs h
  | .unit, _ | .nat0 _, _ | .bool _, _ | .string _, _ | .char _, _ | .int _, _ | .float _, _ | .none, _ => by simp only [Avoids]
theorem avoidsAll_of {bad : List String} : (vs : List Value) → avoidsAllB bad vs = true → AvoidsAll bad vs
  | [], _ => by simp only [AvoidsAll]
  | v :: vs, h => by
    simp only [avoidsAllB, Bool.and_eq_true] at h; simp only [AvoidsAll]
    exact ⟨avoids_of v h.1, avoidsAll_of vs h.2⟩
theorem avoidsFields_of {bad : List String} : (fs : List (String × Value)) → avoidsFieldsB bad fs = true → AvoidsFields bad fs
  | [], _ => by simp only [AvoidsFields]
  | (_, v) :: fs, h => by
    simp only [avoidsFieldsB, Bool.and_eq_true] at h; simp only [AvoidsFields]
    exact ⟨avoids_of v h.1, avoidsFields_of fs h.2⟩
end

mutual
/-- `Spec.TypedAvoids`, as a check. -/
def typedAvoidsB (bad : List String) : (t : Ty) → t.denote → Bool
  | .option t, o =>
    match (show Option t.denote from o) with
    | none => true
    | some v => typedAvoidsB bad t v
  | .newtype t, v => typedAvoidsB bad t v
  | .seq t, vs => (show List t.denote from vs).all (typedAvoidsB bad t)
  | .tuple ts, v => typedAvoidsProdB bad ts v
  | .struct ts, v => typedAvoidsProdB bad ts v
  | .enum vs, v => !bad.contains (vs.variantName v) && typedAvoidsSumB bad vs v
  | .polyvar vs, v => typedAvoidsSumB bad vs v
  | _, _ => true
def typedAvoidsProdB (bad : List String) : (ts : Tys) → ts.prod → Bool
  | .nil, _ => true
  | .cons _ t ts, v => typedAvoidsB bad t (show _ × _ from v).1 && typedAvoidsProdB bad ts (show _ × _ from v).2
def typedAvoidsSumB (bad : List String) : (vs : Tys) → vs.sum → Bool
  | .nil, _ => true
  | .cons _ t ts, v =>
    match (show t.denote ⊕ ts.sum from v) with
    | .inl w => typedAvoidsB bad t w
    | .inr w => typedAvoidsSumB bad ts w
end

mutual
theorem typedAvoids_of {bad : List String} : (t : Ty) → (v : t.denote) → typedAvoidsB bad t v = true → TypedAvoids bad t v
  | .option t, o, h => by
    simp only [typedAvoidsB] at h
    simp only [TypedAvoids]
    intro v hv
    rw [hv] at h
    exact typedAvoids_of t v h
  | .newtype t, v, h => by
    simp only [typedAvoidsB] at h; simp only [TypedAvoids]; exact typedAvoids_of t v h
  | .seq t, vs, h => by
    simp only [typedAvoidsB] at h; simp only [TypedAvoids]
    exact fun v hv => typedAvoids_of t v (List.all_eq_true.mp h v hv)
  | .tuple ts, v, h => by
    simp only [typedAvoidsB] at h; simp only [TypedAvoids]; exact typedAvoidsProd_of ts v h
  | .struct ts, v, h => by
    simp only [typedAvoidsB] at h; simp only [TypedAvoids]; exact typedAvoidsProd_of ts v h
  | .enum vs, v, h => by
    simp only [typedAvoidsB, Bool.and_eq_true, Bool.not_eq_true'] at h; simp only [TypedAvoids]
    exact ⟨fun hm => by simp at h; exact h.1 hm, typedAvoidsSum_of vs v h.2⟩
  | .polyvar vs, v, h => by
    simp only [typedAvoidsB] at h; simp only [TypedAvoids]; exact typedAvoidsSum_of vs v h
  | .unit, _, _ | .bool, _, _ | .u8, _, _ | .int _, _, _ | .f32, _, _ | .f64, _, _ | .char, _, _ | .string, _, _ => by
    simp only [TypedAvoids]
theorem typedAvoidsProd_of {bad : List String} :
    (ts : Tys) → (v : ts.prod) → typedAvoidsProdB bad ts v = true → TypedAvoidsProd bad ts v
  | .nil, _, _ => by simp only [TypedAvoidsProd]
  | .cons _ t ts, v, h => by
    simp only [typedAvoidsProdB, Bool.and_eq_true] at h; simp only [TypedAvoidsProd]
    exact ⟨typedAvoids_of t _ h.1, typedAvoidsProd_of ts _ h.2⟩
theorem typedAvoidsSum_of {bad : List String} :
    (vs : Tys) → (v : vs.sum) → typedAvoidsSumB bad vs v = true → TypedAvoidsSum bad vs v
  | .nil, _, _ => by simp only [TypedAvoidsSum]
  | .cons _ t ts, .inl w, h => by
    simp only [typedAvoidsSumB] at h; simp only [TypedAvoidsSum]; exact typedAvoids_of t w h
  | .cons _ t ts, .inr w, h => by
    simp only [typedAvoidsSumB] at h; simp only [TypedAvoidsSum]; exact typedAvoidsSum_of ts w h
end

/-- Whether these bytes are read as a typed value without the constructors. -/
def typedReadsWithout (bad : List String) (t : Ty) (s : Bytes) : Bool :=
  match (decode t).run s with
  | .ok (v, []) => typedAvoidsB bad t v
  | _ => false

/-- Whether these bytes are read under a layout as a value without the constructors. -/
def layoutReadsWithout (bad : List String) (r : Rule) (s : Bytes) : Bool :=
  match (decodeLoose r).run s with
  | .ok ((w, _), []) => avoidsB bad w
  | _ => false

theorem typedReadsWithout_of {bad : List String} {t : Ty} {s : Bytes} (h : typedReadsWithout bad t s = true) :
    ∃ v, (decode t).run s = .ok (v, []) ∧ TypedAvoids bad t v := by
  unfold typedReadsWithout at h
  split at h
  · exact ⟨_, by assumption, typedAvoids_of _ _ h⟩
  · cases h

theorem layoutReadsWithout_of {bad : List String} {r : Rule} {s : Bytes} (h : layoutReadsWithout bad r s = true) :
    ∃ w it, (decodeLoose r).run s = .ok ((w, it), []) ∧ Avoids bad w := by
  unfold layoutReadsWithout at h
  split at h
  · exact ⟨_, _, by assumption, avoids_of _ h⟩
  · cases h

end MinaRs.BinProt
