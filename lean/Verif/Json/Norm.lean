import Verif.Json.Eqns
import Verif.Json.Outcome

/-! `norm` removes exactly what the JSON form leaves out: a value and its normal form have the same
document, and normalizing twice changes nothing. -/

namespace MinaRs.Json

open BinProt (Ty Tys Fits)

theorem collect_map {α β : Type} (f : α → Except JErr β) (g : α → α) (h : ∀ a, f (g a) = f a) :
    ∀ as : List α, collect f (as.map g) = collect f as
  | [] => rfl
  | a :: as => by simp only [List.map_cons, collect, h a, collect_map f g h as]

mutual
theorem ser_norm (E : Env) : (t : JTy) → (v : t.wire.denote) → ser E t (norm t v) = ser E t v
  | .leaf c, v => rfl
  | .unit, _ => rfl
  | .bool, v => rfl
  | .option t, v => by
    obtain _ | w : Option t.wire.denote := v
    · rfl
    · exact ser_norm E t w
  | .newtype t, v => ser_norm E t v
  | .seq t, v => by
    rw [ser_seq E t v]
    have : norm (.seq t) v = ((show List t.wire.denote from v).map (norm t) : List t.wire.denote) := rfl
    rw [this, ser_seq E t _, collect_map _ _ (ser_norm E t)]
  | .tuple ts, v => by
    rw [ser_tuple, ser_tuple]
    exact congrArg (fun r => match r with | .ok js => Except.ok (J.arr js) | .error e => .error e) (serTuple_norm E ts v)
  | .struct ts, v => by
    rw [ser_struct, ser_struct]
    exact congrArg (fun r => match r with | .ok js => Except.ok (J.obj js) | .error e => .error e) (serStruct_norm E ts v)
  | .versioned t, v => ser_norm E t _
  | .listEnum poly expand vs, v => by
    rw [ser_listEnum, ser_listEnum]
    have e : cast (denote_listEnum poly expand vs) (norm (.listEnum poly expand vs) v) =
        normVar vs (cast (denote_listEnum poly expand vs) v) := by
      cases poly <;> rfl
    rw [e, serTagged_norm]
  | .tagEnum vs, v => serTagged_norm E vs v
theorem serTuple_norm (E : Env) : (ts : JTys) → (v : ts.wire.prod) → serTuple E ts (normAll ts v) = serTuple E ts v
  | .nil, _ => rfl
  | .cons n t ts, v => by
    obtain ⟨a, b⟩ : t.wire.denote × ts.wire.prod := v
    rw [serTuple_cons E n t ts (a, b)]
    have e : normAll (.cons n t ts) ((a, b) : t.wire.denote × ts.wire.prod) =
      ((norm t a, normAll ts b) : t.wire.denote × ts.wire.prod) := rfl
    rw [e, serTuple_cons E n t ts (norm t a, normAll ts b), ser_norm E t a, serTuple_norm E ts b]
  | .skip n s ts, v => serTuple_norm E ts _
theorem serStruct_norm (E : Env) : (ts : JTys) → (v : ts.wire.prod) → serStruct E ts (normAll ts v) = serStruct E ts v
  | .nil, _ => rfl
  | .cons n t ts, v => by
    obtain ⟨a, b⟩ : t.wire.denote × ts.wire.prod := v
    rw [serStruct_cons E n t ts (a, b)]
    have e : normAll (.cons n t ts) ((a, b) : t.wire.denote × ts.wire.prod) =
      ((norm t a, normAll ts b) : t.wire.denote × ts.wire.prod) := rfl
    rw [e, serStruct_cons E n t ts (norm t a, normAll ts b), ser_norm E t a, serStruct_norm E ts b]
  | .skip n s ts, v => serStruct_norm E ts _
theorem serTagged_norm (E : Env) : (vs : JVars) → (v : vs.wire.sum) → serTagged E vs (normVar vs v) = serTagged E vs v
  | .nil, v => nomatch (show Empty from v)
  | .cons n p vs, v => by
    obtain w | w : p.wire.denote ⊕ vs.wire.sum := v
    · exact serPay_norm E n p w
    · exact serTagged_norm E vs w
theorem serPay_norm (E : Env) (n : String) : (p : JPay) → (v : p.wire.denote) → serPay E n p (normPay p v) = serPay E n p v
  | .unit, _ => rfl
  | .newtype t, v => by
    rw [serPay_newtype, serPay_newtype]
    exact congrArg (fun r => match r with | .ok j => Except.ok (J.obj [(n, j)]) | .error e => .error e) (ser_norm E t v)
  | .tuple ts, v => by
    rw [serPay_tuple, serPay_tuple]
    exact congrArg (fun r => match r with | .ok js => Except.ok (J.obj [(n, .arr js)]) | .error e => .error e) (serTuple_norm E ts v)
  | .struct ts, v => by
    rw [serPay_struct, serPay_struct]
    exact congrArg (fun r => match r with | .ok js => Except.ok (J.obj [(n, .obj js)]) | .error e => .error e) (serStruct_norm E ts v)
end

mutual
theorem norm_norm : (t : JTy) → (v : t.wire.denote) → norm t (norm t v) = norm t v
  | .leaf c, v => rfl
  | .unit, _ => rfl
  | .bool, v => rfl
  | .option t, v => by
    obtain _ | w : Option t.wire.denote := v
    · rfl
    · exact congrArg (some : t.wire.denote → Option t.wire.denote) (norm_norm t w)
  | .newtype t, v => norm_norm t v
  | .seq t, v => by
    change List t.wire.denote at v
    show List.map (norm t) (List.map (norm t) v) = List.map (norm t) v
    rw [List.map_map]
    exact List.map_congr_left (fun a _ => norm_norm t a)
  | .tuple ts, v => normAll_norm ts v
  | .struct ts, v => normAll_norm ts v
  | .versioned t, v => congrArg version1 (norm_norm t _)
  | .listEnum poly expand vs, v => by
    have e := normVar_norm vs (cast (denote_listEnum poly expand vs) v)
    cases poly
    · exact e
    · exact e
  | .tagEnum vs, v => normVar_norm vs v
theorem normAll_norm : (ts : JTys) → (v : ts.wire.prod) → normAll ts (normAll ts v) = normAll ts v
  | .nil, _ => rfl
  | .cons n t ts, v => by
    obtain ⟨a, b⟩ : t.wire.denote × ts.wire.prod := v
    show ((norm t (norm t a), normAll ts (normAll ts b)) : t.wire.denote × ts.wire.prod) = (norm t a, normAll ts b)
    rw [norm_norm t a, normAll_norm ts b]
  | .skip n s ts, v => by
    obtain ⟨a, b⟩ : s.wire.denote × ts.wire.prod := v
    show ((s.default, normAll ts (normAll ts b)) : s.wire.denote × ts.wire.prod) = (s.default, normAll ts b)
    rw [normAll_norm ts b]
theorem normVar_norm : (vs : JVars) → (v : vs.wire.sum) → normVar vs (normVar vs v) = normVar vs v
  | .nil, v => nomatch (show Empty from v)
  | .cons n p vs, v => by
    obtain w | w : p.wire.denote ⊕ vs.wire.sum := v
    · exact congrArg (Sum.inl : p.wire.denote → p.wire.denote ⊕ vs.wire.sum) (normPay_norm p w)
    · exact congrArg (Sum.inr : vs.wire.sum → p.wire.denote ⊕ vs.wire.sum) (normVar_norm vs w)
theorem normPay_norm : (p : JPay) → (v : p.wire.denote) → normPay p (normPay p v) = normPay p v
  | .unit, _ => rfl
  | .newtype t, v => norm_norm t v
  | .tuple ts, v => normAll_norm ts v
  | .struct ts, v => normAll_norm ts v
end

end MinaRs.Json
