import Verif.Json.ValueLemmas

/-! Round trip of the JSON forms, for every description of a type. -/

namespace MinaRs.Json

open BinProt (Ty Tys Fits)
open Codec

theorem distinct_cons {n : String} {ns : List String} (h : distinct (n :: ns) = true) : n ∉ ns ∧ distinct ns = true := by
  simp only [distinct, Bool.and_eq_true, Bool.not_eq_true'] at h
  refine ⟨?_, h.2⟩
  intro hm
  have := List.contains_iff_mem.mpr hm
  rw [h.1] at this
  cases this

theorem lookup_append (n : String) (xs ys : List (String × J)) : lookup n (xs ++ ys) = lookup n xs ++ lookup n ys := by
  simp [lookup]

theorem lookup_eq_nil {n : String} {es : List (String × J)} (h : n ∉ es.map Prod.fst) : lookup n es = [] := by
  unfold lookup
  rw [List.map_eq_nil_iff, List.filter_eq_nil_iff]
  intro e he hn
  apply h
  rw [← (beq_iff_eq.mp hn)]
  exact List.mem_map_of_mem he

theorem collect_roundtrip {α β : Type} (f : α → Except JErr β) (g : β → Except JErr α) (r : α → α) (P : α → Prop)
    (h : ∀ a, P a → ∃ b, f a = .ok b ∧ g b = .ok (r a)) :
    ∀ as, (∀ a ∈ as, P a) → ∃ bs, collect f as = .ok bs ∧ collect g bs = .ok (as.map r)
  | [], _ => ⟨[], rfl, rfl⟩
  | a :: as, hp => by
    obtain ⟨b, h1, h2⟩ := h a (hp a (by simp))
    obtain ⟨bs, h3, h4⟩ := collect_roundtrip f g r P h as (fun x hx => hp x (by simp [hx]))
    exact ⟨b :: bs, by simp only [collect, h1, h3], by simp only [collect, h2, h4, List.map_cons]⟩

/-- What a document of a sound type looks like. -/
def Shape (t : JTy) (j : J) : Prop :=
  (t.mayBeNull = false → j ≠ .null) ∧
  (t.mayBeShort = false → ∀ items, j = .arr items → 2 ≤ items.length)

/-- What an externally tagged document looks like. -/
def TagShape (expand : Bool) (hasUnit : Bool) (n : String) (j : J) (c : Option J) : Prop :=
  (j = .str n ∧ c = none ∧ hasUnit = true) ∨
  (∃ v, j = .obj [(n, v)] ∧ c = some v ∧ (expand = true → ∀ items, v = .arr items → 2 ≤ items.length))

theorem TagShape.taggedParts {expand hu : Bool} {n : String} {j : J} {c : Option J} (h : TagShape expand hu n j c) :
    taggedParts j = .ok (n, c) := by
  rcases h with ⟨rfl, rfl, -⟩ | ⟨v, rfl, rfl, -⟩ <;> rfl

theorem TagShape.value {expand hu : Bool} {n : String} {j : J} {c : Option J} (h : TagShape expand hu n j c) :
    TagShape expand hu n (asValue j) (c.map asValue) := by
  rcases h with ⟨rfl, rfl, hu⟩ | ⟨v, rfl, rfl, hv⟩
  · exact .inl ⟨rfl, rfl, hu⟩
  · refine .inr ⟨asValue v, rfl, rfl, fun he items hi => ?_⟩
    cases v with
    | arr js =>
      have : asValueItems js = items := J.arr.inj hi
      rw [← this, asValueItems_length]
      exact hv he js rfl
    | _ => cases hi

theorem TagShape.tidy {expand hu : Bool} {n : String} {j : J} {c : Option J} (h : TagShape expand hu n j c) (ht : Tidy j) :
    ∀ v, c = some v → Tidy v := by
  rcases h with ⟨rfl, rfl, hu⟩ | ⟨v, rfl, rfl, hv⟩
  · intro v h; cases h
  · intro w hw; cases hw; exact ht.2.1

theorem TagShape.list {expand hu : Bool} {n : String} {j : J} {c : Option J} (h : TagShape expand hu n j c) :
    ∃ items, toListTagged expand j = .ok (.arr items) ∧ fromListTagged (.arr items) = .ok j ∧
      (hu = false → 2 ≤ items.length) := by
  rcases h with ⟨rfl, rfl, hu⟩ | ⟨v, rfl, rfl, hv⟩
  · exact ⟨[.str n], rfl, rfl, by intro h; rw [hu] at h; cases h⟩
  · cases expand with
    | false => exact ⟨[.str n, v], rfl, rfl, by simp⟩
    | true =>
      cases v with
      | arr items =>
        have := hv rfl items rfl
        match items, this with
        | a :: b :: rest, _ => exact ⟨.str n :: a :: b :: rest, rfl, rfl, by simp⟩
      | null => exact ⟨[.str n, _], rfl, rfl, by simp⟩
      | bool => exact ⟨[.str n, _], rfl, rfl, by simp⟩
      | num => exact ⟨[.str n, _], rfl, rfl, by simp⟩
      | float => exact ⟨[.str n, _], rfl, rfl, by simp⟩
      | str => exact ⟨[.str n, _], rfl, rfl, by simp⟩
      | obj => exact ⟨[.str n, _], rfl, rfl, by simp⟩

mutual
theorem roundtrip (E : Env) : (t : JTy) → t.Sound = true → (v : t.wire.denote) → Leaves Leaf.Carried t v →
    ∃ j, ser E t v = .ok j ∧ de E t j = .ok (norm t v) ∧ Shape t j
  | .leaf c, _, v, hk => by
    simp only [Leaves] at hk
    obtain ⟨j, h1, h2, h3, h4⟩ := leaf_roundtrip E c v hk
    exact ⟨j, by simp only [ser_leaf]; exact h1, by simp only [de_leaf]; exact h2, fun _ => h3, fun _ items h => absurd h (h4 items)⟩
  | .unit, _, v, _ => by
    refine ⟨.null, by simp only [ser_unit], by simp only [de_unit_null]; rfl, ?_, ?_⟩
    · intro h; cases h
    · intro _ items h; cases h
  | .bool, _, v, _ => by
    refine ⟨.bool v, rfl, rfl, ?_, ?_⟩
    · intro _ h; cases h
    · intro _ items h; cases h
  | .option t, hs, v, hk => by
    simp only [JTy.Sound, Bool.and_eq_true, Bool.not_eq_true'] at hs
    simp only [Leaves] at hk
    obtain _ | w : Option t.wire.denote := v
    · refine ⟨.null, by simp only [ser_none, ser_some], by simp only [de_option_null]; rfl, ?_, ?_⟩
      · intro h; cases h
      · intro _ items h; cases h
    · obtain ⟨j, h1, h2, h3, h4⟩ := roundtrip E t hs.2 w (hk w rfl)
      refine ⟨j, by simp only [ser_none, ser_some]; exact h1, ?_, ?_, ?_⟩
      · have hn := h3 hs.1
        cases j with
        | null => exact absurd rfl hn
        | _ => rw [de_option _ _ _ hn, h2]; rfl
      · intro h; cases h
      · intro h; exact h4 h
  | .newtype t, hs, v, hk => by
    simp only [JTy.Sound] at hs
    simp only [Leaves] at hk
    obtain ⟨j, h1, h2, h3⟩ := roundtrip E t hs v hk
    exact ⟨j, by simp only [ser_newtype]; exact h1, by simp only [de_newtype]; exact h2, h3⟩
  | .seq t, hs, v, hk => by
    simp only [JTy.Sound] at hs
    simp only [Leaves] at hk
    obtain ⟨js, h1, h2⟩ := collect_roundtrip (ser E t) (de E t) (norm t) (Leaves Leaf.Carried t)
      (fun a ha => by obtain ⟨j, h1, h2, -⟩ := roundtrip E t hs a ha; exact ⟨j, h1, h2⟩) v hk
    refine ⟨.arr js, by rw [ser_seq E t v, h1], by simp only [de_seq_arr]; exact h2, ?_, ?_⟩
    · intro _ h; cases h
    · intro h; cases h
  | .tuple ts, hs, v, hk => by
    simp only [JTy.Sound] at hs
    simp only [Leaves] at hk
    obtain ⟨js, h1, h2, h3⟩ := roundtripTuple E ts hs v hk
    refine ⟨.arr js, by simp only [ser_tuple, h1], by simp only [de_tuple_arr]; exact h2, ?_, ?_⟩
    · intro _ h; cases h
    · intro h items hi
      cases hi
      simp only [JTy.mayBeShort, decide_eq_false_iff_not] at h
      omega
  | .struct ts, hs, v, hk => by
    simp only [JTy.Sound, Bool.and_eq_true] at hs
    simp only [Leaves] at hk
    obtain ⟨es, h1, h2, h3⟩ := roundtripStruct E ts hs.2 hs.1 v hk
    refine ⟨.obj es, by simp only [ser_struct, h1], by simp only [de_struct_obj]; exact h3 [] (by simp), ?_, ?_⟩
    · intro _ h; cases h
    · intro _ items h; cases h
  | .versioned t, hs, v, hk => by
    simp only [JTy.Sound] at hs
    simp only [Leaves] at hk
    obtain ⟨n, w, u⟩ : {n : Int // BinProt.u16.holds n} × t.wire.denote × Unit := v
    obtain ⟨j, h1, h2, h3⟩ := roundtrip E t hs w hk
    refine ⟨j, by simp only [ser_versioned]; exact h1, ?_, h3⟩
    simp only [de_versioned, h2]
    rfl
  | .listEnum poly expand vs, hs, v, hk => by
    simp only [JTy.Sound, Bool.and_eq_true] at hs
    simp only [Leaves] at hk
    obtain ⟨j, n, c, h1, h2, h3, -⟩ := roundtripTagged E expand vs hs.2 hs.1 _ hk
    obtain ⟨items, h4, h5, h6⟩ := h3.value.list
    have h7 := deTagged_asValue E vs n c (h3.tidy (serTagged_tidy E expand vs hs.2 _ j h1))
    refine ⟨.arr items, by simp only [ser_listEnum, h1]; exact h4, ?_, ?_, ?_⟩
    · simp only [de_listEnum, toListTagged_asValue expand j _ h4, h5, h3.value.taggedParts, h7, h2]; rfl
    · intro _ h; cases h
    · intro h items' hi; cases hi; exact h6 h
  | .tagEnum vs, hs, v, hk => by
    simp only [JTy.Sound, Bool.and_eq_true] at hs
    simp only [Leaves] at hk
    obtain ⟨j, n, c, h1, h2, h3, -⟩ := roundtripTagged E false vs hs.2 hs.1 _ hk
    refine ⟨j, by simp only [ser_tagEnum]; exact h1, by simp only [de_tagEnum, h3.taggedParts]; exact h2, ?_, ?_⟩
    · rintro _ rfl
      rcases h3 with ⟨h, -⟩ | ⟨_, h, -⟩ <;> cases h
    · rintro _ items rfl
      rcases h3 with ⟨h, -⟩ | ⟨_, h, -⟩ <;> cases h
theorem roundtripTuple (E : Env) : (ts : JTys) → ts.Sound = true → (v : ts.wire.prod) → LeavesAll Leaf.Carried ts v →
    ∃ js, serTuple E ts v = .ok js ∧ deTuple E ts js = .ok (normAll ts v) ∧ js.length = ts.visible
  | .nil, _, v, _ => ⟨[], by simp only [serTuple_nil], by simp only [deTuple_nil]; rfl, rfl⟩
  | .cons n t ts, hs, v, hk => by
    simp only [JTys.Sound, Bool.and_eq_true] at hs
    simp only [LeavesAll] at hk
    obtain ⟨a, b⟩ : t.wire.denote × ts.wire.prod := v
    obtain ⟨j, h1, h2, -⟩ := roundtrip E t hs.1 a hk.1
    obtain ⟨js, h3, h4, h5⟩ := roundtripTuple E ts hs.2 b hk.2
    exact ⟨j :: js, by simp only [serTuple_cons, h1, h3], by simp only [deTuple_cons, h2, h4]; rfl, by simp [JTys.visible, h5]⟩
  | .skip n s ts, hs, v, hk => by
    simp only [JTys.Sound] at hs
    simp only [LeavesAll] at hk
    obtain ⟨a, b⟩ : s.wire.denote × ts.wire.prod := v
    obtain ⟨js, h3, h4, h5⟩ := roundtripTuple E ts hs b hk
    refine ⟨js, by simp only [serTuple_skip]; exact h3, ?_, h5⟩
    simp only [deTuple_skip, h4]
    rfl
theorem roundtripStruct (E : Env) : (ts : JTys) → ts.Sound = true → distinct ts.names = true → (v : ts.wire.prod) →
    LeavesAll Leaf.Carried ts v →
    ∃ es, serStruct E ts v = .ok es ∧ es.map Prod.fst = ts.names ∧
      ∀ pre : List (String × J), (∀ n ∈ ts.names, n ∉ pre.map Prod.fst) → deStruct E ts (pre ++ es) = .ok (normAll ts v)
  | .nil, _, _, v, _ => ⟨[], by simp only [serStruct_nil], rfl, fun pre _ => by simp only [deStruct_nil]; rfl⟩
  | .cons n t ts, hs, hd, v, hk => by
    simp only [JTys.Sound, Bool.and_eq_true] at hs
    simp only [LeavesAll] at hk
    obtain ⟨a, b⟩ : t.wire.denote × ts.wire.prod := v
    obtain ⟨hn, hd⟩ := distinct_cons hd
    obtain ⟨j, h1, h2, -⟩ := roundtrip E t hs.1 a hk.1
    obtain ⟨es, h3, h4, h5⟩ := roundtripStruct E ts hs.2 hd b hk.2
    refine ⟨(n, j) :: es, by simp only [serStruct_cons, h1, h3], by simp [JTys.names, h4], ?_⟩
    intro pre hpre
    have hl : lookup n (pre ++ (n, j) :: es) = [j] := by
      rw [lookup_append, lookup_eq_nil (hpre n (by simp [JTys.names])), List.nil_append,
        show (n, j) :: es = [(n, j)] ++ es from rfl, lookup_append,
        lookup_eq_nil (es := es) (by rw [h4]; exact hn)]
      simp [lookup]
    have hr : deStruct E ts (pre ++ (n, j) :: es) = .ok (normAll ts b) := by
      have := h5 (pre ++ [(n, j)]) (by
        intro m hm hmem
        simp only [List.map_append, List.map_cons, List.map_nil, List.mem_append, List.mem_singleton] at hmem
        rcases hmem with hmem | rfl
        · exact hpre m (by simp [JTys.names, hm]) hmem
        · exact hn hm)
      rw [List.append_assoc] at this
      exact this
    simp only [deStruct_cons, hl, h2, hr]; rfl
  | .skip n s ts, hs, hd, v, hk => by
    simp only [JTys.Sound] at hs
    simp only [LeavesAll] at hk
    obtain ⟨a, b⟩ : s.wire.denote × ts.wire.prod := v
    obtain ⟨es, h3, h4, h5⟩ := roundtripStruct E ts hs hd b hk
    refine ⟨es, by simp only [serStruct_skip]; exact h3, h4, ?_⟩
    intro pre hpre
    simp only [deStruct_skip, h5 pre hpre]
    rfl
theorem roundtripTagged (E : Env) (expand : Bool) : (vs : JVars) → vs.Sound expand = true → distinct vs.names = true →
    (v : vs.wire.sum) → LeavesVar Leaf.Carried vs v →
    ∃ j n c, serTagged E vs v = .ok j ∧ deTagged E vs n c = .ok (normVar vs v) ∧ TagShape expand vs.hasUnit n j c ∧ n ∈ vs.names
  | .nil, _, _, v, _ => nomatch (show Empty from v)
  | .cons n p vs, hs, hd, v, hk => by
    simp only [JVars.Sound, Bool.and_eq_true] at hs
    obtain ⟨hn, hd⟩ := distinct_cons hd
    obtain w | w : p.wire.denote ⊕ vs.wire.sum := v
    · simp only [LeavesVar] at hk
      obtain ⟨j, c, h1, h2, h3⟩ := roundtripPay E expand n p hs.1 w hk
      refine ⟨j, n, c, by simp only [serTagged_inl, serTagged_inr]; exact h1, by simp only [deTagged_cons, if_pos, h2]; rfl, ?_, by simp [JVars.names]⟩
      cases p with
      | unit => exact h3
      | _ =>
        rcases h3 with ⟨-, -, h⟩ | h
        · cases h
        · exact .inr h
    · simp only [LeavesVar] at hk
      obtain ⟨j, m, c, h1, h2, h3, h4⟩ := roundtripTagged E expand vs hs.2 hd w hk
      have hne : ¬ n = m := fun h => hn (h ▸ h4)
      refine ⟨j, m, c, by simp only [serTagged_inl, serTagged_inr]; exact h1, by simp only [deTagged_cons, if_neg hne, h2]; rfl, ?_,
        by simp [JVars.names, h4]⟩
      rcases h3 with ⟨h5, h6, h7⟩ | h
      · refine .inl ⟨h5, h6, ?_⟩
        cases p <;> first | rfl | exact h7
      · exact .inr h
theorem roundtripPay (E : Env) (expand : Bool) (n : String) : (p : JPay) → p.Sound expand = true →
    (v : p.wire.denote) → LeavesPay Leaf.Carried p v →
    ∃ j c, serPay E n p v = .ok j ∧ dePay E p c = .ok (normPay p v) ∧
      TagShape expand (match p with | .unit => true | _ => false) n j c
  | .unit, _, v, _ => ⟨.str n, none, by simp only [serPay_unit], by simp only [dePay_unit]; rfl, .inl ⟨rfl, rfl, rfl⟩⟩
  | .newtype t, hs, v, hk => by
    simp only [JPay.Sound, Bool.and_eq_true, Bool.not_eq_true', Bool.and_eq_false_iff] at hs
    simp only [LeavesPay] at hk
    obtain ⟨j, h1, h2, h3, h4⟩ := roundtrip E t hs.2 v hk
    refine ⟨.obj [(n, j)], some j, by simp only [serPay_newtype, h1], by simp only [dePay_newtype]; exact h2, .inr ⟨j, rfl, rfl, ?_⟩⟩
    intro he
    exact h4 (by rcases hs.1 with h | h; · rw [he] at h; cases h
                 · exact h)
  | .tuple ts, hs, v, hk => by
    simp only [JPay.Sound, Bool.and_eq_true, decide_eq_true_eq] at hs
    simp only [LeavesPay] at hk
    obtain ⟨js, h1, h2, h3⟩ := roundtripTuple E ts hs.2 v hk
    have hpos : 1 ≤ js.length := by
      have := hs.1
      rw [← h3] at this
      cases expand <;> simp at this <;> omega
    refine ⟨.obj [(n, .arr js)], some (.arr js), by simp only [serPay_tuple, h1], ?_, .inr ⟨_, rfl, rfl, ?_⟩⟩
    · match js, hpos with
      | j :: js, _ => simp only [dePay_tuple]; exact h2
    · intro he items hi
      cases hi
      have := hs.1
      rw [he, ← h3] at this
      simpa using this
  | .struct ts, hs, v, hk => by
    simp only [JPay.Sound, Bool.and_eq_true] at hs
    simp only [LeavesPay] at hk
    obtain ⟨es, h1, h2, h3⟩ := roundtripStruct E ts hs.2 hs.1 v hk
    refine ⟨.obj [(n, .obj es)], some (.obj es), by simp only [serPay_struct, h1], by simp only [dePay_struct]; exact h3 [] (by simp),
      .inr ⟨_, rfl, rfl, ?_⟩⟩
    intro _ items h; cases h
end

end MinaRs.Json
