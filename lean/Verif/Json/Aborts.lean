import Verif.Json.AbortsLemmas
import Verif.Json.Eqns

/-! Lemmas for C118: where in a document reading ends the process. -/

namespace MinaRs.Json

open Spec

/-- There is a part that ends the process. -/
def Bad (E : Env) (t : JTy) (j : J) : Prop := ∃ t' j', Part t j t' j' ∧ Aborting E t' j'

/-- An error, or the end of the process for a reason. -/
def Why (e : JErr) (P : Prop) : Prop := e = .err ∨ (e = .panic ∧ P)

theorem Why.mono {e : JErr} {P Q : Prop} (h : Why e P) (f : P → Q) : Why e Q :=
  h.imp id fun ⟨h1, h2⟩ => ⟨h1, f h2⟩

theorem why_err {e : JErr} {α : Type} {P : Prop} (h : (.error .err : Except JErr α) = .error e) : Why e P :=
  .inl (Except.error.inj h).symm

theorem collect_error {α β : Type} {f : α → Except JErr β} {P : α → Prop} (hf : ∀ a e, f a = .error e → Why e (P a)) :
    (as : List α) → (e : JErr) → collect f as = .error e → Why e (∃ a ∈ as, P a)
  | [], e, h => by simp only [collect] at h; cases h
  | a :: as, e, h => by
    simp only [collect] at h
    cases ha : f a with
    | error e' =>
      rw [ha] at h
      cases h
      exact (hf a e ha).mono fun hp => ⟨a, List.mem_cons_self, hp⟩
    | ok b =>
      rw [ha] at h
      dsimp only at h
      cases hr : collect f as with
      | ok bs => rw [hr] at h; cases h
      | error e' =>
        rw [hr] at h
        cases h
        exact (collect_error hf as e hr).mono fun ⟨a', hm, hp⟩ => ⟨a', List.mem_cons_of_mem _ hm, hp⟩

theorem absent_error {t : JTy} {e : JErr} (h : absent t = .error e) : e = .err := by
  unfold absent at h
  split at h
  · cases h
  · exact (Except.error.inj h).symm

theorem mem_of_lookup_part {n : String} {es : List (String × J)} {j : J} (h : j ∈ lookup n es) : (n, j) ∈ es := by
  unfold lookup at h
  obtain ⟨⟨k, v⟩, h1, h2⟩ := List.mem_map.mp h
  obtain ⟨h3, h4⟩ := List.mem_filter.mp h1
  simp only [beq_iff_eq] at h4
  simp only at h2
  rw [← h4, ← h2]
  exact h3

theorem fromListTagged_error {d : J} {e : JErr} (h : fromListTagged (asValue d) = .error e) :
    Why e (∀ i is, d ≠ .arr (i :: is)) := by
  cases d with
  | arr items =>
    cases items with
    | nil =>
      simp only [asValue, asValueItems, fromListTagged] at h
      exact .inr ⟨(Except.error.inj h).symm, fun _ _ h => by cases h⟩
    | cons a as =>
      simp only [asValue, asValueItems] at h
      unfold fromListTagged at h
      split at h <;> first | (cases h; done) | exact why_err h | skip
      · rename_i h'; simp at h'
      · rename_i h'; exact absurd rfl (h' _)
  | _ =>
    simp only [asValue, fromListTagged] at h
    exact .inr ⟨(Except.error.inj h).symm, fun _ _ h => by cases h⟩

theorem listed_of {v w c : J} {n : String} (h : fromListTagged v = .ok w) (h' : taggedParts w = .ok (n, some c)) : Listed v n c := by
  unfold fromListTagged at h
  split at h
  · cases h
  · cases h
    unfold taggedParts at h'
    split at h'
    · cases h'
    · cases h'; exact .object _ _
    · cases h'
  · cases h
    simp only [taggedParts] at h'
    cases h'
    exact .one _ _
  · rename_i k rest h1 h2
    cases h
    simp only [taggedParts] at h'
    cases h'
    cases rest with
    | nil => exact (h1 rfl).elim
    | cons a rest =>
      cases rest with
      | nil => exact (h2 _ rfl).elim
      | cons b rest => exact .more _ _ _ _
  · cases h
  · cases h

theorem taggedParts_error {j : J} {e : JErr} (h : taggedParts j = .error e) : e = .err := by
  unfold taggedParts at h
  split at h
  · cases h
  · cases h
  · exact (Except.error.inj h).symm

theorem leaf_why {E : Env} {c : Leaf} {j : J} {e : JErr} (h : c.de E j = .error e) : Why e (Bad E (.leaf c) j) := by
  rcases leaf_error h with h1 | ⟨h1, h2⟩
  · exact .inl h1
  · exact .inr ⟨h1, .leaf c, j, .here _ _, h2⟩

theorem de_unit_eq (E j) : de E .unit j =
    match j with
    | .null => .ok ()
    | _ => .error .err := rfl
theorem de_bool_eq (E j) : de E .bool j =
    match j with
    | .bool b => .ok b
    | _ => .error .err := rfl
theorem de_option_eq (E t j) : de E (.option t) j =
    match j with
    | .null => .ok (none : Option t.wire.denote)
    | j =>
      match de E t j with
      | .ok v => .ok (some v : Option t.wire.denote)
      | .error e => .error e := rfl
theorem de_seq_eq (E t j) : de E (.seq t) j =
    match j with
    | .arr js => collect (de E t) js
    | _ => .error .err := rfl
theorem de_tuple_eq (E ts j) : de E (.tuple ts) j =
    match j with
    | .arr js => deTuple E ts js
    | _ => .error .err := rfl
theorem de_struct_eq (E ts j) : de E (.struct ts) j =
    match j with
    | .obj es => deStruct E ts es
    | .arr js => deTuple E ts js
    | _ => .error .err := rfl
theorem deTuple_nil_eq (E js) : deTuple E .nil js =
    match js with
    | [] => .ok ()
    | _ :: _ => .error .err := rfl
theorem deTuple_cons_eq (E n t ts js) : deTuple E (.cons n t ts) js =
    match js with
    | [] => .error .err
    | j :: js =>
      match de E t j with
      | .error e => .error e
      | .ok v =>
        match deTuple E ts js with
        | .error e => .error e
        | .ok w => .ok ((v, w) : t.wire.denote × ts.wire.prod) := rfl
theorem dePay_unit_eq (E c) : dePay E .unit c =
    match c with
    | none => .ok ()
    | some .null => .ok ()
    | some _ => .error .err := rfl
theorem dePay_newtype_eq (E t c) : dePay E (.newtype t) c =
    match c with
    | none => .error .err
    | some j => de E t j := rfl
theorem dePay_tuple_eq (E ts c) : dePay E (.tuple ts) c =
    match c with
    | some (.arr (j :: js)) => deTuple E ts (j :: js)
    | _ => .error .err := rfl
theorem dePay_struct_eq (E ts c) : dePay E (.struct ts) c =
    match c with
    | some (.obj es) => deStruct E ts es
    | _ => .error .err := rfl

mutual
theorem de_error (E : Env) : (t : JTy) → (j : J) → (e : JErr) → de E t j = .error e → Why e (Bad E t j)
  | .leaf c, j, e, h => by
    exact leaf_why h
  | .unit, j, e, h => by
    rw [de_unit_eq] at h
    split at h
    · cases h
    · exact why_err h
  | .bool, j, e, h => by
    rw [de_bool_eq] at h
    split at h
    · cases h
    · exact why_err h
  | .option t, j, e, h => by
    rw [de_option_eq] at h
    split at h
    · cases h
    · rename_i hn
      split at h
      · cases h
      · rename_i e' he
        cases h
        exact (de_error E t j _ he).mono fun ⟨t', j', h1, h2⟩ => ⟨t', j', .option (fun e => hn e) h1, h2⟩
  | .newtype t, j, e, h => by
    rw [de_newtype] at h
    exact (de_error E t j e h).mono fun ⟨t', j', h1, h2⟩ => ⟨t', j', .newtype h1, h2⟩
  | .versioned t, j, e, h => by
    rw [de_versioned] at h
    split at h
    · cases h
    · rename_i e' he
      cases h
      exact (de_error E t j _ he).mono fun ⟨t', j', h1, h2⟩ => ⟨t', j', .versioned h1, h2⟩
  | .seq t, j, e, h => by
    rw [de_seq_eq] at h
    cases j with
    | arr js =>
      exact (collect_error (P := Bad E t) (fun a e => de_error E t a e) js e h).mono
        fun ⟨a, hm, t', j', h1, h2⟩ => ⟨t', j', .item hm h1, h2⟩
    | _ => exact why_err h
  | .tuple ts, j, e, h => by
    rw [de_tuple_eq] at h
    cases j with
    | arr js => exact (deTuple_error E ts js e h).mono fun ⟨t, a, hm, t', j', h1, h2⟩ => ⟨t', j', .tuple hm h1, h2⟩
    | _ => exact why_err h
  | .struct ts, j, e, h => by
    rw [de_struct_eq] at h
    cases j with
    | obj es => exact (deStruct_error E ts es e h).mono fun ⟨t, a, hm, t', j', h1, h2⟩ => ⟨t', j', .struct hm h1, h2⟩
    | arr js => exact (deTuple_error E ts js e h).mono fun ⟨t, a, hm, t', j', h1, h2⟩ => ⟨t', j', .struct hm h1, h2⟩
    | _ => exact why_err h
  | .listEnum poly expand vs, j, e, h => by
    rw [de_listEnum] at h
    split at h
    · rename_i e' he
      cases h
      exact (fromListTagged_error he).mono fun hn => ⟨_, _, .here _ _, .noList hn⟩
    · rename_i w hw
      split at h
      · rename_i e' he
        cases h
        exact .inl (taggedParts_error he)
      · rename_i n c hc
        split at h
        · cases h
        · rename_i e' he
          cases h
          refine (deTagged_error E vs n c _ he).mono ?_
          rintro ⟨p, cc, t, a, rfl, hm, hcont, t', j', h1, h2⟩
          exact ⟨t', j', .listed (listed_of hw hc) hm hcont h1, h2⟩
  | .tagEnum vs, j, e, h => by
    rw [de_tagEnum] at h
    split at h
    · rename_i e' he
      cases h
      exact .inl (taggedParts_error he)
    · rename_i n c hc
      refine (deTagged_error E vs n c _ h).mono ?_
      rintro ⟨p, cc, t, a, rfl, hm, hcont, t', j', h1, h2⟩
      have : j = .obj [(n, cc)] := by
        unfold taggedParts at hc
        split at hc
        · cases hc
        · cases hc; rfl
        · cases hc
      subst this
      exact ⟨t', j', .tagged hm hcont h1, h2⟩
theorem deTuple_error (E : Env) : (ts : JTys) → (js : List J) → (e : JErr) → deTuple E ts js = .error e →
    Why e (∃ t a, Member ts (.arr js) t a ∧ Bad E t a)
  | .nil, js, e, h => by
    rw [deTuple_nil_eq] at h
    split at h
    · cases h
    · exact why_err h
  | .cons n t ts, js, e, h => by
    rw [deTuple_cons_eq] at h
    split at h
    · exact why_err h
    · rename_i j js
      split at h
      · rename_i e' he
        cases h
        exact (de_error E t j _ he).mono fun hb => ⟨t, j, .item (n := n) List.mem_cons_self, hb⟩
      · split at h
        · rename_i e' he
          cases h
          refine (deTuple_error E ts js _ he).mono ?_
          rintro ⟨t', a, hm, hb⟩
          cases hm with
          | item hm => exact ⟨t', a, .item (List.mem_cons_of_mem _ hm), hb⟩
        · cases h
  | .skip _ s ts, js, e, h => by
    rw [deTuple_skip] at h
    split at h
    · rename_i e' he
      cases h
      refine (deTuple_error E ts js _ he).mono ?_
      rintro ⟨t', a, hm, hb⟩
      cases hm with
      | item hm => exact ⟨t', a, .item hm, hb⟩
    · cases h
theorem deStruct_error (E : Env) : (ts : JTys) → (es : List (String × J)) → (e : JErr) → deStruct E ts es = .error e →
    Why e (∃ t a, Member ts (.obj es) t a ∧ Bad E t a)
  | .nil, es, e, h => by rw [deStruct_nil] at h; cases h
  | .cons n t ts, es, e, h => by
    have rest : ∀ e', deStruct E ts es = .error e' → Why e' (∃ t' a, Member (.cons n t ts) (.obj es) t' a ∧ Bad E t' a) := by
      intro e' he
      refine (deStruct_error E ts es _ he).mono ?_
      rintro ⟨t', a, hm, hb⟩
      cases hm with
      | field hm hm' => exact ⟨t', a, .field (List.mem_cons_of_mem _ hm) hm', hb⟩
    rw [deStruct_cons] at h
    split at h
    · split at h
      · rename_i e' he
        cases h
        exact .inl (absent_error he)
      · split at h
        · rename_i e' he
          cases h
          exact rest _ he
        · cases h
    · rename_i j hl
      split at h
      · rename_i e' he
        cases h
        refine (de_error E t j _ he).mono fun hb => ⟨t, j, .field (n := n) List.mem_cons_self (mem_of_lookup_part ?_), hb⟩
        rw [hl]; exact List.mem_cons_self
      · split at h
        · rename_i e' he
          cases h
          exact rest _ he
        · cases h
    · exact why_err h
  | .skip _ s ts, es, e, h => by
    rw [deStruct_skip] at h
    split at h
    · rename_i e' he
      cases h
      refine (deStruct_error E ts es _ he).mono ?_
      rintro ⟨t', a, hm, hb⟩
      cases hm with
      | field hm hm' => exact ⟨t', a, .field hm hm', hb⟩
    · cases h
theorem deTagged_error (E : Env) : (vs : JVars) → (n : String) → (c : Option J) → (e : JErr) → deTagged E vs n c = .error e →
    Why e (∃ p cc t a, c = some cc ∧ (variants vs).lookup n = some p ∧ Content p cc t a ∧ Bad E t a)
  | .nil, n, c, e, h => by rw [deTagged_nil] at h; exact why_err h
  | .cons m p vs, n, c, e, h => by
    rw [deTagged_cons] at h
    split at h
    · rename_i hn
      subst hn
      split at h
      · cases h
      · rename_i e' he
        cases h
        refine (dePay_error E p c _ he).mono ?_
        rintro ⟨cc, t, a, h1, h2, h3⟩
        exact ⟨p, cc, t, a, h1, by simp only [variants, List.lookup_cons, beq_self_eq_true], h2, h3⟩
    · rename_i hn
      split at h
      · cases h
      · rename_i e' he
        cases h
        refine (deTagged_error E vs n c _ he).mono ?_
        rintro ⟨p, cc, t, a, h1, h2, h3⟩
        exact ⟨p, cc, t, a, h1, by simpa only [variants, List.lookup_cons, beq_false_of_ne (Ne.symm hn)] using h2, h3⟩
theorem dePay_error (E : Env) : (p : JPay) → (c : Option J) → (e : JErr) → dePay E p c = .error e →
    Why e (∃ cc t a, c = some cc ∧ Content p cc t a ∧ Bad E t a)
  | .unit, c, e, h => by
    rw [dePay_unit_eq] at h
    split at h
    · cases h
    · cases h
    · exact why_err h
  | .newtype t, c, e, h => by
    rw [dePay_newtype_eq] at h
    split at h
    · exact why_err h
    · rename_i j
      exact (de_error E t j e h).mono fun hb => ⟨j, t, j, rfl, .whole _ _, hb⟩
  | .tuple ts, c, e, h => by
    rw [dePay_tuple_eq] at h
    cases c with
    | none => exact why_err h
    | some c =>
      cases c with
      | arr js =>
        cases js with
        | nil => exact why_err h
        | cons j js => exact (deTuple_error E ts (j :: js) e h).mono fun ⟨t, a, hm, hb⟩ => ⟨_, t, a, rfl, .tuple hm, hb⟩
      | _ => exact why_err h
  | .struct ts, c, e, h => by
    rw [dePay_struct_eq] at h
    cases c with
    | none => exact why_err h
    | some c =>
      cases c with
      | obj es => exact (deStruct_error E ts es e h).mono fun ⟨t, a, hm, hb⟩ => ⟨_, t, a, rfl, .struct hm, hb⟩
      | _ => exact why_err h
end

/-! Parts of documents that are read are read. -/

theorem collect_ok_part {α β : Type} {f : α → Except JErr β} : {as : List α} → {bs : List β} → collect f as = .ok bs →
    ∀ a ∈ as, ∃ b, f a = .ok b
  | a :: as, bs, h, x, hx => by
    simp only [collect] at h
    cases ha : f a with
    | error e => rw [ha] at h; cases h
    | ok b =>
      rw [ha] at h
      dsimp only at h
      cases hr : collect f as with
      | error e => rw [hr] at h; cases h
      | ok bs' =>
        rcases List.mem_cons.mp hx with rfl | hm
        · exact ⟨b, ha⟩
        · exact collect_ok_part hr x hm

theorem deTuple_ok_part {E : Env} : {ts : JTys} → {js : List J} → {v : ts.wire.prod} → deTuple E ts js = .ok v →
    ∀ {n : String} {t : JTy} {j : J}, ((n, t), j) ∈ (fields ts).zip js → ∃ w, de E t j = .ok w
  | .cons n t ts, js, v, h, m, t', j', hm => by
    rw [deTuple_cons_eq] at h
    cases js with
    | nil => cases h
    | cons j js =>
      dsimp only at h
      cases hd : de E t j with
      | error e => rw [hd] at h; cases h
      | ok a =>
        rw [hd] at h
        dsimp only at h
        cases hr : deTuple E ts js with
        | error e => rw [hr] at h; cases h
        | ok b =>
          simp only [fields, List.zip_cons_cons] at hm
          rcases List.mem_cons.mp hm with he | hm
          · cases he; exact ⟨a, hd⟩
          · exact deTuple_ok_part hr hm
  | .skip _ s ts, js, v, h, m, t', j', hm => by
    rw [deTuple_skip] at h
    cases hr : deTuple E ts js with
    | error e => rw [hr] at h; cases h
    | ok b => exact deTuple_ok_part hr hm

theorem lookup_of_mem_part {n : String} {es : List (String × J)} {j : J} (h : (n, j) ∈ es) : j ∈ lookup n es := by
  unfold lookup
  exact List.mem_map.mpr ⟨(n, j), List.mem_filter.mpr ⟨h, by simp⟩, rfl⟩

theorem deStruct_ok_part {E : Env} : {ts : JTys} → {es : List (String × J)} → {v : ts.wire.prod} → deStruct E ts es = .ok v →
    ∀ {n : String} {t : JTy} {j : J}, (n, t) ∈ fields ts → (n, j) ∈ es → ∃ w, de E t j = .ok w
  | .cons n t ts, es, v, h, m, t', j', hm, hj => by
    rw [deStruct_cons] at h
    simp only [fields] at hm
    have rest : ∀ b, deStruct E ts es = .ok b → (m, t') ∈ fields ts → ∃ w, de E t' j' = .ok w :=
      fun b hb hm => deStruct_ok_part hb hm hj
    have hmem := lookup_of_mem_part hj
    split at h
    · rename_i hl
      cases ha : absent t with
      | error e => rw [ha] at h; cases h
      | ok a =>
        rw [ha] at h
        dsimp only at h
        cases hr : deStruct E ts es with
        | error e => rw [hr] at h; cases h
        | ok b =>
          rcases List.mem_cons.mp hm with he | hm
          · cases he; rw [hl] at hmem; cases hmem
          · exact rest b hr hm
    · rename_i j hl
      cases ha : de E t j with
      | error e => rw [ha] at h; cases h
      | ok a =>
        rw [ha] at h
        dsimp only at h
        cases hr : deStruct E ts es with
        | error e => rw [hr] at h; cases h
        | ok b =>
          rcases List.mem_cons.mp hm with he | hm
          · cases he
            rw [hl] at hmem
            rw [List.mem_singleton.mp hmem]
            exact ⟨a, ha⟩
          · exact rest b hr hm
    · cases h
  | .skip _ s ts, es, v, h, m, t', j', hm, hj => by
    rw [deStruct_skip] at h
    cases hr : deStruct E ts es with
    | error e => rw [hr] at h; cases h
    | ok b => exact deStruct_ok_part hr hm hj

theorem dePay_ok_part {E : Env} {p : JPay} {c j : J} {t : JTy} {v : p.wire.denote} (h : dePay E p (some c) = .ok v)
    (hc : Content p c t j) : ∃ w, de E t j = .ok w := by
  cases hc with
  | whole => exact ⟨v, h⟩
  | tuple hm =>
    rw [dePay_tuple_eq] at h
    cases hm with
    | field _ _ => cases h
    | @item js _ _ _ hm =>
      cases js with
      | nil => cases h
      | cons a as => exact deTuple_ok_part h hm
  | struct hm =>
    rw [dePay_struct_eq] at h
    cases hm with
    | field h1 h2 => exact deStruct_ok_part h h1 h2
    | item _ => cases h

theorem deTagged_ok_part {E : Env} : {vs : JVars} → {n : String} → {c : Option J} → {v : vs.wire.sum} → {p : JPay} →
    deTagged E vs n c = .ok v → (variants vs).lookup n = some p → ∃ w, dePay E p c = .ok w
  | .cons m p vs, n, c, v, p', h, hl => by
    rw [deTagged_cons] at h
    by_cases hn : m = n
    · subst hn
      rw [if_pos rfl] at h
      have : p = p' := by simpa [variants, List.lookup_cons] using hl
      subst this
      cases hd : dePay E p c with
      | error e => rw [hd] at h; cases h
      | ok w => exact ⟨w, rfl⟩
    · rw [if_neg hn] at h
      have hl' : (variants vs).lookup n = some p' := by
        simpa only [variants, List.lookup_cons, beq_false_of_ne (Ne.symm hn)] using hl
      cases hd : deTagged E vs n c with
      | error e => rw [hd] at h; cases h
      | ok w => exact deTagged_ok_part hd hl'

theorem of_listed_part {v c : J} {n : String} (h : Listed v n c) : ∃ w, fromListTagged v = .ok w ∧ taggedParts w = .ok (n, some c) := by
  cases h with
  | one => exact ⟨_, rfl, rfl⟩
  | more => exact ⟨_, rfl, rfl⟩
  | object => exact ⟨_, rfl, rfl⟩

theorem member_ok_part {E : Env} {ts : JTys} {c j : J} {t : JTy} (hm : Member ts c t j) :
    ((∃ v, de E (.tuple ts) c = .ok v) → ∃ w, de E t j = .ok w) ∧ ((∃ v, de E (.struct ts) c = .ok v) → ∃ w, de E t j = .ok w) := by
  rw [de_tuple_eq, de_struct_eq]
  cases hm with
  | item hm =>
    exact ⟨fun ⟨v, h⟩ => deTuple_ok_part (ts := ts) (v := v) h hm, fun ⟨v, h⟩ => deTuple_ok_part (ts := ts) (v := v) h hm⟩
  | field h1 h2 =>
    exact ⟨fun ⟨v, h⟩ => (by cases h), fun ⟨v, h⟩ => deStruct_ok_part (ts := ts) (v := v) h h1 h2⟩

theorem part_read {E : Env} {t t' : JTy} {j j' : J} (hp : Part t j t' j') (h : ∃ v, de E t j = .ok v) : ∃ w, de E t' j' = .ok w := by
  induction hp with
  | here => exact h
  | option hn _ ih =>
    obtain ⟨v, h⟩ := h
    rw [de_option _ _ _ hn] at h
    apply ih
    split at h
    · exact ⟨_, by assumption⟩
    · cases h
  | newtype _ ih => exact ih h
  | @versioned t _ j _ _ ih =>
    obtain ⟨v, h⟩ := h
    rw [de_versioned] at h
    apply ih
    split at h
    · exact ⟨_, by assumption⟩
    · cases h
  | item hm _ ih =>
    obtain ⟨v, h⟩ := h
    exact ih (collect_ok_part h _ hm)
  | tuple hm _ ih => exact ih ((member_ok_part hm).1 h)
  | struct hm _ ih => exact ih ((member_ok_part hm).2 h)
  | @listed poly expand vs n p t _ d c j _ hl hv hc _ ih =>
    obtain ⟨v, h⟩ := h
    rw [de_listEnum] at h
    obtain ⟨w, h1, h2⟩ := of_listed_part hl
    rw [h1] at h
    dsimp only at h
    rw [h2] at h
    dsimp only at h
    cases hd : deTagged E vs n (some c) with
    | error e => rw [hd] at h; cases h
    | ok a =>
      obtain ⟨b, hb⟩ := deTagged_ok_part hd hv
      exact ih (dePay_ok_part hb hc)
  | @tagged vs n p t _ c j _ hv hc _ ih =>
    obtain ⟨v, h⟩ := h
    rw [de_tagEnum] at h
    obtain ⟨b, hb⟩ := deTagged_ok_part (vs := vs) (v := v) h hv
    exact ih (dePay_ok_part hb hc)

end MinaRs.Json
