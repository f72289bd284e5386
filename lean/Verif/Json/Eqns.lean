import Verif.Json.LeafLemmas

/-! The defining equations of `ser` and `de`, one per case. -/

namespace MinaRs.Json

open BinProt (Ty Tys Fits)

theorem ser_leaf (E c v) : ser E (.leaf c) v = c.ser E v := rfl
theorem ser_unit (E v) : ser E .unit v = .ok .null := rfl
theorem ser_bool (E) (v : Bool) : ser E .bool v = .ok (.bool v) := rfl
theorem ser_none (E t) : ser E (.option t) (none : Option t.wire.denote) = .ok .null := rfl
theorem ser_some (E t w) : ser E (.option t) (some w : Option t.wire.denote) = ser E t w := rfl
theorem ser_newtype (E t v) : ser E (.newtype t) v = ser E t v := rfl
theorem ser_seq (E : Env) (t : JTy) (v : List t.wire.denote) : ser E (.seq t) v =
    match collect (ser E t) v with
    | .ok js => .ok (.arr js)
    | .error e => .error e := rfl
theorem ser_tuple (E ts v) : ser E (.tuple ts) v =
    match serTuple E ts v with
    | .ok js => .ok (.arr js)
    | .error e => .error e := rfl
theorem ser_struct (E ts v) : ser E (.struct ts) v =
    match serStruct E ts v with
    | .ok es => .ok (.obj es)
    | .error e => .error e := rfl
theorem ser_versioned (E : Env) (t : JTy) (v : {n : Int // BinProt.u16.holds n} × t.wire.denote × Unit) :
    ser E (.versioned t) v = ser E t v.2.1 := rfl
theorem ser_listEnum (E poly expand vs v) : ser E (.listEnum poly expand vs) v =
    match serTagged E vs (cast (denote_listEnum poly expand vs) v) with
    | .ok j => toListTagged expand (asValue j)
    | .error e => .error e := rfl
theorem ser_tagEnum (E vs v) : ser E (.tagEnum vs) v = serTagged E vs v := rfl

theorem serTuple_nil (E v) : serTuple E .nil v = .ok [] := rfl
theorem serTuple_cons (E : Env) (n : String) (t : JTy) (ts : JTys) (v : t.wire.denote × ts.wire.prod) : serTuple E (.cons n t ts) v =
    match ser E t v.1 with
    | .error e => .error e
    | .ok j =>
      match serTuple E ts v.2 with
      | .error e => .error e
      | .ok js => .ok (j :: js) := rfl
theorem serTuple_skip (E : Env) (n : String) (s : Skip) (ts : JTys) (v : s.wire.denote × ts.wire.prod) : serTuple E (.skip n s ts) v = serTuple E ts v.2 := rfl
theorem serStruct_nil (E v) : serStruct E .nil v = .ok [] := rfl
theorem serStruct_cons (E : Env) (n : String) (t : JTy) (ts : JTys) (v : t.wire.denote × ts.wire.prod) : serStruct E (.cons n t ts) v =
    match ser E t v.1 with
    | .error e => .error e
    | .ok j =>
      match serStruct E ts v.2 with
      | .error e => .error e
      | .ok js => .ok ((n, j) :: js) := rfl
theorem serStruct_skip (E : Env) (n : String) (s : Skip) (ts : JTys) (v : s.wire.denote × ts.wire.prod) : serStruct E (.skip n s ts) v = serStruct E ts v.2 := rfl
theorem serTagged_inl (E n p) (vs : JVars) (w : p.wire.denote) :
    serTagged E (.cons n p vs) (.inl w : p.wire.denote ⊕ vs.wire.sum) = serPay E n p w := rfl
theorem serTagged_inr (E n) (p : JPay) (vs : JVars) (w : vs.wire.sum) :
    serTagged E (.cons n p vs) (.inr w : p.wire.denote ⊕ vs.wire.sum) = serTagged E vs w := rfl
theorem serPay_unit (E n v) : serPay E n .unit v = .ok (.str n) := rfl
theorem serPay_newtype (E n t v) : serPay E n (.newtype t) v =
    match ser E t v with
    | .ok j => .ok (.obj [(n, j)])
    | .error e => .error e := rfl
theorem serPay_tuple (E n ts v) : serPay E n (.tuple ts) v =
    match serTuple E ts v with
    | .ok js => .ok (.obj [(n, .arr js)])
    | .error e => .error e := rfl
theorem serPay_struct (E n ts v) : serPay E n (.struct ts) v =
    match serStruct E ts v with
    | .ok es => .ok (.obj [(n, .obj es)])
    | .error e => .error e := rfl

theorem de_leaf (E c j) : de E (.leaf c) j = c.de E j := rfl
theorem de_unit_null (E) : de E .unit .null = .ok () := rfl
theorem de_bool_bool (E b) : de E .bool (.bool b) = .ok b := rfl
theorem de_option_null (E t) : de E (.option t) .null = .ok (none : Option t.wire.denote) := rfl
theorem de_option (E t j) (h : j ≠ .null) : de E (.option t) j =
    match de E t j with
    | .ok v => .ok (some v : Option t.wire.denote)
    | .error e => .error e := by
  cases j with
  | null => exact absurd rfl h
  | _ => rfl
theorem de_newtype (E t j) : de E (.newtype t) j = de E t j := rfl
theorem de_seq_arr (E t js) : de E (.seq t) (.arr js) = collect (de E t) js := rfl
theorem de_tuple_arr (E ts js) : de E (.tuple ts) (.arr js) = deTuple E ts js := rfl
theorem de_struct_obj (E ts es) : de E (.struct ts) (.obj es) = deStruct E ts es := rfl
theorem de_versioned (E t j) : de E (.versioned t) j =
    match de E t j with
    | .ok v => .ok (version1 v)
    | .error e => .error e := rfl
theorem de_listEnum (E poly expand vs j) : de E (.listEnum poly expand vs) j =
    match fromListTagged (asValue j) with
    | .error e => .error e
    | .ok j =>
      match taggedParts j with
      | .error e => .error e
      | .ok (n, c) =>
        match deTagged E vs n c with
        | .ok v => .ok (cast (denote_listEnum poly expand vs).symm v)
        | .error e => .error e := rfl
theorem de_tagEnum (E vs j) : de E (.tagEnum vs) j =
    match taggedParts j with
    | .error e => .error e
    | .ok (n, c) => deTagged E vs n c := rfl
theorem deTuple_nil (E) : deTuple E .nil [] = .ok () := rfl
theorem deTuple_cons (E n t ts j js) : deTuple E (.cons n t ts) (j :: js) =
    match de E t j with
    | .error e => .error e
    | .ok v =>
      match deTuple E ts js with
      | .error e => .error e
      | .ok w => .ok ((v, w) : t.wire.denote × ts.wire.prod) := rfl
theorem deTuple_skip (E n s ts js) : deTuple E (.skip n s ts) js =
    match deTuple E ts js with
    | .error e => .error e
    | .ok w => .ok ((s.default, w) : s.wire.denote × ts.wire.prod) := rfl
theorem deStruct_nil (E es) : deStruct E .nil es = .ok () := rfl
theorem deStruct_cons (E n t ts es) : deStruct E (.cons n t ts) es =
    match lookup n es with
    | [] =>
      match absent t with
      | .error e => .error e
      | .ok v =>
        match deStruct E ts es with
        | .error e => .error e
        | .ok w => .ok ((v, w) : t.wire.denote × ts.wire.prod)
    | [j] =>
      match de E t j with
      | .error e => .error e
      | .ok v =>
        match deStruct E ts es with
        | .error e => .error e
        | .ok w => .ok ((v, w) : t.wire.denote × ts.wire.prod)
    | _ => .error .err := rfl
theorem deStruct_skip (E n s ts es) : deStruct E (.skip n s ts) es =
    match deStruct E ts es with
    | .error e => .error e
    | .ok w => .ok ((s.default, w) : s.wire.denote × ts.wire.prod) := rfl
theorem deTagged_nil (E n c) : deTagged E .nil n c = .error .err := rfl
theorem deTagged_cons (E n p vs name c) : deTagged E (.cons n p vs) name c =
    if n = name then
      match dePay E p c with
      | .ok v => .ok (.inl v : p.wire.denote ⊕ vs.wire.sum)
      | .error e => .error e
    else
      match deTagged E vs name c with
      | .ok v => .ok (.inr v : p.wire.denote ⊕ vs.wire.sum)
      | .error e => .error e := rfl
theorem dePay_unit (E) : dePay E .unit none = .ok () := rfl
theorem dePay_newtype (E t j) : dePay E (.newtype t) (some j) = de E t j := rfl
theorem dePay_tuple (E ts j js) : dePay E (.tuple ts) (some (.arr (j :: js))) = deTuple E ts (j :: js) := rfl
theorem dePay_struct (E ts es) : dePay E (.struct ts) (some (.obj es)) = deStruct E ts es := rfl

end MinaRs.Json
