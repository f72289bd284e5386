import Verif.Json.Eqns

/-! Lemmas on `asValue`, the document as `serde_json::Value` keeps it. -/

namespace MinaRs.Json

open BinProt (Ty Tys Fits)

theorem string_lt_of {a b : String} (h : a ≠ b) (h' : ¬ a < b) : b < a := by
  rcases Classical.em (b < a) with h1 | h1
  · exact h1
  · exact absurd (String.le_antisymm (String.not_lt.mp h1) (String.not_lt.mp h')) h

theorem sortedMembers_iff : ∀ es : List (String × J), SortedMembers es ↔ ∀ e ∈ es, Sorted e.2
  | [] => by simp [SortedMembers]
  | (k, j) :: es => by simp [SortedMembers, sortedMembers_iff es]

/-- The members are in the order of their names, and no name is repeated. -/
def Ordered (es : List (String × J)) : Prop := es.Pairwise (fun a b => a.1 < b.1)

theorem insert_mem {k : String} {j : J} {e : String × J} : ∀ {es : List (String × J)}, e ∈ insertMember k j es → e = (k, j) ∨ e ∈ es
  | [], h => by
    simp only [insertMember, List.mem_singleton] at h
    exact .inl h
  | (k', j') :: es, h => by
    unfold insertMember at h
    split at h
    · rcases List.mem_cons.mp h with h | h
      · exact .inl h
      · exact .inr (List.mem_cons_of_mem _ h)
    · split at h
      · rcases List.mem_cons.mp h with h | h
        · exact .inl h
        · exact .inr h
      · rcases List.mem_cons.mp h with h | h
        · exact .inr (h ▸ List.mem_cons_self ..)
        · rcases insert_mem h with h | h
          · exact .inl h
          · exact .inr (List.mem_cons_of_mem _ h)

theorem insert_ordered (k : String) (j : J) : ∀ es : List (String × J), Ordered es → Ordered (insertMember k j es)
  | [], _ => by simp [insertMember, Ordered]
  | (k', j') :: es, h => by
    obtain ⟨h1, h2⟩ := List.pairwise_cons.mp h
    unfold insertMember
    split
    · rename_i hk
      exact List.pairwise_cons.mpr ⟨fun e he => hk ▸ h1 e he, h2⟩
    · rename_i hk
      split
      · rename_i hl
        refine List.pairwise_cons.mpr ⟨?_, h⟩
        intro e he
        rcases List.mem_cons.mp he with rfl | he
        · exact hl
        · exact String.lt_trans hl (h1 e he)
      · rename_i hl
        refine List.pairwise_cons.mpr ⟨?_, insert_ordered k j es h2⟩
        intro e he
        rcases insert_mem he with rfl | he
        · exact string_lt_of hk hl
        · exact h1 e he

theorem insert_last (k : String) (j : J) : ∀ es : List (String × J), (∀ e ∈ es, e.1 < k) → insertMember k j es = es ++ [(k, j)]
  | [], _ => rfl
  | (k', j') :: es, h => by
    have h1 := h (k', j') (List.mem_cons_self ..)
    unfold insertMember
    rw [if_neg (fun e => by subst e; exact String.lt_irrefl _ h1), if_neg (String.lt_asymm h1),
      insert_last k j es (fun e he => h e (List.mem_cons_of_mem _ he))]
    rfl

theorem members_ordered : ∀ (es done : List (String × J)), Ordered done → Ordered (asValueMembers done es)
  | [], done, h => by unfold asValueMembers; exact h
  | (k, j) :: es, done, h => by
    unfold asValueMembers
    exact members_ordered es _ (insert_ordered k _ done h)

theorem members_mem {e : String × J} : ∀ {es done : List (String × J)}, e ∈ asValueMembers done es →
    e ∈ done ∨ ∃ e' ∈ es, e = (e'.1, asValue e'.2)
  | [], done, h => by unfold asValueMembers at h; exact .inl h
  | (k, j) :: es, done, h => by
    unfold asValueMembers at h
    rcases members_mem h with h | ⟨e', he, h⟩
    · rcases insert_mem h with rfl | h
      · exact .inr ⟨(k, j), List.mem_cons_self .., rfl⟩
      · exact .inl h
    · exact .inr ⟨e', List.mem_cons_of_mem _ he, h⟩

theorem members_fixed : ∀ (es done : List (String × J)), Ordered (done ++ es) → (∀ e ∈ es, asValue e.2 = e.2) →
    asValueMembers done es = done ++ es
  | [], done, _, _ => by unfold asValueMembers; simp
  | (k, j) :: es, done, h, hf => by
    have hj : asValue j = j := hf (k, j) (List.mem_cons_self ..)
    have h1 : insertMember k (asValue j) done = done ++ [(k, j)] := by
      rw [hj]
      exact insert_last k j done (fun e he => (List.pairwise_append.mp h).2.2 e he (k, j) (List.mem_cons_self ..))
    unfold asValueMembers
    rw [h1, members_fixed es (done ++ [(k, j)]) (by rw [List.append_assoc]; exact h) (fun e he => hf e (List.mem_cons_of_mem _ he)),
      List.append_assoc]
    rfl

mutual
theorem asValue_asValue : (j : J) → asValue (asValue j) = asValue j
  | .null => rfl
  | .bool _ => rfl
  | .num _ => rfl
  | .float _ => rfl
  | .str _ => rfl
  | .arr js => by simp only [asValue, asValueItems_asValueItems js]
  | .obj es => by
    simp only [asValue]
    rw [members_fixed (asValueMembers [] es) []]
    · rfl
    · exact members_ordered es [] .nil
    · intro e he
      rcases members_mem he with h | ⟨e', he', rfl⟩
      · cases h
      · exact asValueMembers_asValue es e' he'
theorem asValueItems_asValueItems : (js : List J) → asValueItems (asValueItems js) = asValueItems js
  | [] => rfl
  | j :: js => by simp only [asValueItems, asValue_asValue j, asValueItems_asValueItems js]
theorem asValueMembers_asValue : (es : List (String × J)) → ∀ e ∈ es, asValue (asValue e.2) = asValue e.2
  | [], _, h => by cases h
  | (k, j) :: es, e, h => by
    rcases List.mem_cons.mp h with rfl | h
    · exact asValue_asValue j
    · exact asValueMembers_asValue es e h
end

theorem lookup_cons (n k : String) (j : J) (es : List (String × J)) :
    lookup n ((k, j) :: es) = if k = n then j :: lookup n es else lookup n es := by
  unfold lookup
  by_cases h : k = n
  · rw [if_pos h, List.filter_cons_of_pos (by simpa using h)]; rfl
  · rw [if_neg h, List.filter_cons_of_neg (by simpa using h)]

theorem lookup_none {n : String} {es : List (String × J)} (h : ∀ e ∈ es, e.1 ≠ n) : lookup n es = [] := by
  unfold lookup
  rw [List.map_eq_nil_iff, List.filter_eq_nil_iff]
  intro e he hn
  exact h e he (beq_iff_eq.mp hn)

theorem insert_lookup (n k : String) (j : J) : ∀ es : List (String × J), Ordered es →
    lookup n (insertMember k j es) = if k = n then [j] else lookup n es
  | [], _ => by
    unfold insertMember
    rw [lookup_cons]
    rfl
  | (k', j') :: es, h => by
    obtain ⟨h1, h2⟩ := List.pairwise_cons.mp h
    have none_of : ∀ m : String, (m = k' ∨ m < k') → lookup m es = [] := by
      intro m hm
      apply lookup_none
      rintro e he rfl
      rcases hm with hm | hm
      · have := h1 e he; rw [hm] at this; exact String.lt_irrefl _ this
      · exact String.lt_asymm hm (h1 e he)
    unfold insertMember
    split
    · rename_i hk
      rw [lookup_cons, lookup_cons]
      by_cases hn : k = n
      · rw [if_pos hn, if_pos hn, none_of n (.inl (hn.symm.trans hk))]
      · rw [if_neg hn, if_neg hn, if_neg (fun e => hn (hk.trans e))]
    · rename_i hk
      split
      · rename_i hl
        rw [lookup_cons]
        by_cases hn : k = n
        · rw [if_pos hn, if_pos hn, lookup_cons, if_neg (fun e => hk (hn.trans e.symm)), none_of n (.inr (hn ▸ hl))]
        · rw [if_neg hn, if_neg hn]
      · rw [lookup_cons, lookup_cons, insert_lookup n k j es h2]
        by_cases hn : k = n
        · simp only [if_pos hn, if_neg (fun e : k' = n => hk (hn.trans e.symm))]
        · simp only [if_neg hn]

/-- The last of several members of a name counts. -/
theorem members_lookup (n : String) : ∀ (es done : List (String × J)), Ordered done →
    lookup n (asValueMembers done es) =
      match (lookup n es).getLast? with
      | some j => [asValue j]
      | none => lookup n done
  | [], done, _ => by unfold asValueMembers; rfl
  | (k, j) :: es, done, h => by
    unfold asValueMembers
    rw [members_lookup n es _ (insert_ordered k _ done h), insert_lookup n k _ done h, lookup_cons]
    by_cases hk : k = n
    · rw [if_pos hk, if_pos hk]
      cases hl : lookup n es with
      | nil => rfl
      | cons x xs =>
        rw [List.getLast?_cons_cons]
        cases hx : (x :: xs).getLast? with
        | none => simp at hx
        | some y => rfl
    · rw [if_neg hk, if_neg hk]

mutual
theorem asValue_sorted : (j : J) → Sorted (asValue j)
  | .null | .bool _ | .num _ | .float _ | .str _ => trivial
  | .arr js => asValueItems_sorted js
  | .obj es => by
    simp only [asValue, Sorted]
    refine ⟨members_ordered es [] .nil, (sortedMembers_iff _).mpr ?_⟩
    intro e he
    rcases members_mem he with h | ⟨e', he', rfl⟩
    · cases h
    · exact asValueMembers_sorted es e' he'
theorem asValueItems_sorted : (js : List J) → SortedItems (asValueItems js)
  | [] => trivial
  | j :: js => ⟨asValue_sorted j, asValueItems_sorted js⟩
theorem asValueMembers_sorted : (es : List (String × J)) → ∀ e ∈ es, Sorted (asValue e.2)
  | [], _, h => by cases h
  | (k, j) :: es, e, h => by
    rcases List.mem_cons.mp h with rfl | h
    · exact asValue_sorted j
    · exact asValueMembers_sorted es e h
end

mutual
/-- No object of the document repeats a name. -/
def Tidy : J → Prop
  | .arr js => TidyItems js
  | .obj es => (es.map Prod.fst).Nodup ∧ TidyMembers es
  | .null | .bool _ | .num _ | .float _ | .str _ => True
def TidyItems : List J → Prop
  | [] => True
  | j :: js => Tidy j ∧ TidyItems js
def TidyMembers : List (String × J) → Prop
  | [] => True
  | (_, j) :: es => Tidy j ∧ TidyMembers es
end

theorem tidyMembers_iff : ∀ es : List (String × J), TidyMembers es ↔ ∀ e ∈ es, Tidy e.2
  | [] => by simp [TidyMembers]
  | (k, j) :: es => by simp [TidyMembers, tidyMembers_iff es]

theorem tidyItems_iff : ∀ js : List J, TidyItems js ↔ ∀ j ∈ js, Tidy j
  | [] => by simp [TidyItems]
  | j :: js => by simp [TidyItems, tidyItems_iff js]

theorem Ordered.nodup {es : List (String × J)} (h : Ordered es) : (es.map Prod.fst).Nodup := by
  unfold List.Nodup
  rw [List.pairwise_map]
  refine List.Pairwise.imp ?_ h
  intro a b hab e
  rw [e] at hab
  exact String.lt_irrefl _ hab

mutual
theorem asValue_tidy : (j : J) → Tidy (asValue j)
  | .null | .bool _ | .num _ | .float _ | .str _ => trivial
  | .arr js => asValueItems_tidy js
  | .obj es => by
    simp only [asValue, Tidy]
    refine ⟨(members_ordered es [] .nil).nodup, (tidyMembers_iff _).mpr ?_⟩
    intro e he
    rcases members_mem he with h | ⟨e', he', rfl⟩
    · cases h
    · exact asValueMembers_tidy es e' he'
theorem asValueItems_tidy : (js : List J) → TidyItems (asValueItems js)
  | [] => trivial
  | j :: js => ⟨asValue_tidy j, asValueItems_tidy js⟩
theorem asValueMembers_tidy : (es : List (String × J)) → ∀ e ∈ es, Tidy (asValue e.2)
  | [], _, h => by cases h
  | (k, j) :: es, e, h => by
    rcases List.mem_cons.mp h with rfl | h
    · exact asValue_tidy j
    · exact asValueMembers_tidy es e h
end

theorem insert_perm (k : String) (j : J) : ∀ es : List (String × J), k ∉ es.map Prod.fst → (insertMember k j es).Perm ((k, j) :: es)
  | [], _ => .refl _
  | (k', j') :: es, h => by
    simp only [List.map_cons, List.mem_cons, not_or] at h
    unfold insertMember
    rw [if_neg h.1]
    split
    · exact .refl _
    · exact ((insert_perm k j es h.2).cons _).trans (.swap ..)

theorem members_perm : ∀ (es done : List (String × J)), ((done ++ es).map Prod.fst).Nodup →
    (asValueMembers done es).Perm (done ++ es.map (fun e => (e.1, asValue e.2)))
  | [], done, _ => by unfold asValueMembers; simp
  | (k, j) :: es, done, h => by
    unfold asValueMembers
    have hk : k ∉ done.map Prod.fst := by
      rw [List.map_append, List.nodup_append] at h
      intro hm
      exact h.2.2 k hm k (by simp) rfl
    have hp := insert_perm k (asValue j) done hk
    have hn : ((insertMember k (asValue j) done ++ es).map Prod.fst).Nodup := by
      have : ((insertMember k (asValue j) done ++ es).map Prod.fst).Perm ((done ++ (k, j) :: es).map Prod.fst) := by
        refine ((hp.append_right es).map Prod.fst).trans ?_
        simp only [List.cons_append, List.map_cons, List.map_append]
        exact List.perm_middle.symm
      exact this.nodup_iff.mpr h
    refine (members_perm es _ hn).trans ?_
    refine (hp.append_right _).trans ?_
    simp only [List.cons_append, List.map_cons]
    exact List.perm_middle.symm

theorem lookup_short {n : String} : ∀ {es : List (String × J)}, (es.map Prod.fst).Nodup → lookup n es = [] ∨ ∃ j, lookup n es = [j]
  | [], _ => .inl rfl
  | (k, j) :: es, h => by
    obtain ⟨h1, h2⟩ := List.nodup_cons.mp h
    rw [lookup_cons]
    by_cases hk : k = n
    · rw [if_pos hk, lookup_none (n := n) (es := es)]
      · exact .inr ⟨j, rfl⟩
      · rintro e he rfl
        exact h1 (List.mem_map.mpr ⟨e, he, hk.symm⟩)
    · rw [if_neg hk]
      exact lookup_short h2

theorem lookup_asValue {n : String} {es : List (String × J)} (h : (es.map Prod.fst).Nodup) :
    lookup n (asValueMembers [] es) = (lookup n es).map asValue := by
  rw [members_lookup n es [] .nil]
  rcases lookup_short (n := n) h with e | ⟨j, e⟩ <;> rw [e] <;> rfl

theorem lookup_tidy {n : String} {es : List (String × J)} (h : TidyMembers es) : ∀ j ∈ lookup n es, Tidy j := by
  intro j hj
  unfold lookup at hj
  obtain ⟨e, he, rfl⟩ := List.mem_map.mp hj
  exact (tidyMembers_iff es).mp h e (List.mem_filter.mp he).1

theorem taggedParts_asValue (j : J) : taggedParts (asValue j) =
    match taggedParts j with
    | .ok (n, c) => .ok (n, c.map asValue)
    | .error e => match j with
      | .obj es => taggedParts (.obj (asValueMembers [] es))
      | _ => .error e := by
  cases j with
  | obj es =>
    match es with
    | [] => rfl
    | [(k, v)] => rfl
    | _ :: _ :: _ => rfl
  | _ => rfl

theorem members_length : ∀ (es done : List (String × J)), done.length ≤ (asValueMembers done es).length ∧
    (es ≠ [] → done = [] → (asValueMembers done es) ≠ [])
  | [], done => by unfold asValueMembers; simp
  | (k, j) :: es, done => by
    have hi : ∀ done : List (String × J), done.length ≤ (insertMember k (asValue j) done).length ∧
        0 < (insertMember k (asValue j) done).length := by
      intro done
      induction done with
      | nil => simp [insertMember]
      | cons e done ih =>
        obtain ⟨k', j'⟩ := e
        unfold insertMember
        split
        · simp
        · split
          · simp
          · simp only [List.length_cons]; omega
    unfold asValueMembers
    obtain ⟨h1, -⟩ := members_length es (insertMember k (asValue j) done)
    refine ⟨Nat.le_trans (hi done).1 h1, fun _ _ e => ?_⟩
    rw [e] at h1
    have := (hi done).2
    simp at h1
    rw [h1] at this
    simp at this

theorem leaf_asValue (E : Env) (c : Leaf) (j : J) : c.de E (asValue j) = c.de E j := by
  cases j with
  | arr js => cases c <;> rfl
  | obj es => cases c <;> rfl
  | _ => rfl

theorem collect_asValue {α : Type} (f : J → Except JErr α) (hf : ∀ j, Tidy j → f (asValue j) = f j) :
    ∀ js : List J, TidyItems js → collect f (asValueItems js) = collect f js
  | [], _ => rfl
  | j :: js, h => by
    simp only [asValueItems, collect, hf j h.1, collect_asValue f hf js h.2]

mutual
/-- Without repeated names nothing is read differently from a `serde_json::Value`. -/
theorem de_asValue (E : Env) : (t : JTy) → (j : J) → Tidy j → de E t (asValue j) = de E t j
  | .leaf c, j, _ => leaf_asValue E c j
  | .unit, j, _ => by cases j <;> rfl
  | .bool, j, _ => by cases j <;> rfl
  | .option t, j, h => by
    by_cases hj : j = .null
    · subst hj; rfl
    · rw [de_option E t j hj, de_option E t (asValue j) (by cases j <;> first | exact absurd rfl hj | exact fun e => by cases e),
        de_asValue E t j h]
  | .newtype t, j, h => de_asValue E t j h
  | .seq t, j, h => by
    cases j with
    | arr js => exact collect_asValue (de E t) (fun j h => de_asValue E t j h) js h
    | _ => rfl
  | .tuple ts, j, h => by
    cases j with
    | arr js => exact deTuple_asValue E ts js h
    | _ => rfl
  | .struct ts, j, h => by
    cases j with
    | arr js => exact deTuple_asValue E ts js h
    | obj es => exact deStruct_asValue E ts es h.1 h.2
    | _ => rfl
  | .versioned t, j, h => by rw [de_versioned, de_versioned, de_asValue E t j h]
  | .listEnum poly expand vs, j, _ => by rw [de_listEnum, de_listEnum, asValue_asValue]
  | .tagEnum vs, j, h => by
    rw [de_tagEnum, de_tagEnum]
    cases j with
    | str s => rfl
    | obj es =>
      match es, h with
      | [], _ => rfl
      | [(k, v)], h => exact deTagged_asValue E vs k (some v) (fun w hw => by cases hw; exact h.2.1)
      | a :: b :: es, h =>
        have hp := (members_perm (a :: b :: es) [] h.1).length_eq
        have hp : (asValueMembers [] (a :: b :: es)).length = es.length + 2 := by simpa using hp
        simp only [asValue]
        match hm : asValueMembers [] (a :: b :: es), hp with
        | x :: y :: rest, _ => rfl
    | _ => rfl
theorem deTuple_asValue (E : Env) : (ts : JTys) → (js : List J) → TidyItems js → deTuple E ts (asValueItems js) = deTuple E ts js
  | .nil, js, _ => by cases js <;> rfl
  | .cons n t ts, js, h => by
    cases js with
    | nil => rfl
    | cons j js =>
      simp only [asValueItems]
      rw [deTuple_cons, deTuple_cons, de_asValue E t j h.1, deTuple_asValue E ts js h.2]
  | .skip n s ts, js, h => by rw [deTuple_skip, deTuple_skip, deTuple_asValue E ts js h]
theorem deStruct_asValue (E : Env) : (ts : JTys) → (es : List (String × J)) → (es.map Prod.fst).Nodup → TidyMembers es →
    deStruct E ts (asValueMembers [] es) = deStruct E ts es
  | .nil, _, _, _ => rfl
  | .cons n t ts, es, hn, h => by
    rw [deStruct_cons, deStruct_cons, deStruct_asValue E ts es hn h, lookup_asValue hn]
    rcases lookup_short (n := n) hn with e | ⟨j, e⟩
    · rw [e]; rfl
    · have := lookup_tidy (n := n) h j (by rw [e]; exact List.mem_singleton.mpr rfl)
      rw [e]
      simp only [List.map_cons, List.map_nil, de_asValue E t j this]
  | .skip n s ts, es, hn, h => by rw [deStruct_skip, deStruct_skip, deStruct_asValue E ts es hn h]
theorem deTagged_asValue (E : Env) : (vs : JVars) → (n : String) → (c : Option J) → (∀ j, c = some j → Tidy j) →
    deTagged E vs n (c.map asValue) = deTagged E vs n c
  | .nil, _, _, _ => rfl
  | .cons m p vs, n, c, h => by
    rw [deTagged_cons, deTagged_cons, dePay_asValue E p c h, deTagged_asValue E vs n c h]
theorem dePay_asValue (E : Env) : (p : JPay) → (c : Option J) → (∀ j, c = some j → Tidy j) → dePay E p (c.map asValue) = dePay E p c
  | .unit, c, _ => by
    cases c with
    | none => rfl
    | some j => cases j <;> rfl
  | .newtype t, c, h => by
    cases c with
    | none => rfl
    | some j => exact de_asValue E t j (h j rfl)
  | .tuple ts, c, h => by
    cases c with
    | none => rfl
    | some j =>
      cases j with
      | arr js =>
        cases js with
        | nil => rfl
        | cons j js => exact deTuple_asValue E ts (j :: js) (h _ rfl)
      | _ => rfl
  | .struct ts, c, h => by
    cases c with
    | none => rfl
    | some j =>
      cases j with
      | obj es => exact deStruct_asValue E ts es (h _ rfl).1 (h _ rfl).2
      | _ => rfl
end

/-! ## Documents that are written -/

theorem nodup_of_distinct : ∀ ns : List String, distinct ns = true → ns.Nodup
  | [], _ => List.nodup_nil
  | n :: ns, h => by
    simp only [distinct, Bool.and_eq_true, Bool.not_eq_true'] at h
    refine List.nodup_cons.mpr ⟨fun hm => ?_, nodup_of_distinct ns h.2⟩
    have := List.contains_iff_mem.mpr hm
    rw [h.1] at this
    cases this

theorem leaf_tidy (E : Env) (c : Leaf) (v : c.wire.denote) (j : J) (h : c.ser E v = .ok j) : Tidy j := by
  have un : ∀ bs, uncheckedString bs = .ok j → Tidy j := by
    intro bs h
    unfold uncheckedString at h
    split at h
    · cases h; trivial
    · cases h
  cases c with
  | i64 => cases h; trivial
  | char => exact un _ h
  | byteVec => exact un _ h
  | publicKey =>
    simp only [Leaf.ser] at h
    split at h
    · cases h; trivial
    · cases h
  | _ => cases h; trivial

theorem collect_tidy {α : Type} (f : α → Except JErr J) (hf : ∀ a j, f a = .ok j → Tidy j) :
    ∀ (as : List α) (js : List J), collect f as = .ok js → TidyItems js
  | [], _, h => by cases h; trivial
  | a :: as, js, h => by
    unfold collect at h
    split at h
    · cases h
    rename_i j hj
    split at h
    · cases h
    rename_i js' hjs
    cases h
    exact ⟨hf a j hj, collect_tidy f hf as js' hjs⟩

theorem listTagged_tidy (expand : Bool) (j k : J) (h : toListTagged expand j = .ok k) (hp : Tidy j) : Tidy k := by
  unfold toListTagged at h
  split at h
  · cases h; exact ⟨trivial, trivial⟩
  · have hp := hp.2
    split at h
    · cases h; exact ⟨trivial, hp.1⟩
    · cases h; exact ⟨trivial, hp.1, trivial⟩
  · cases h
  · cases h; exact hp

theorem tidy_tag {n : String} {j : J} (h : Tidy j) : Tidy (.obj [(n, j)]) := ⟨by simp, h, trivial⟩

mutual
theorem ser_tidy (E : Env) : (t : JTy) → t.Sound = true → (v : t.wire.denote) → (j : J) → ser E t v = .ok j → Tidy j
  | .leaf c, _, v, j, h => leaf_tidy E c v j h
  | .unit, _, _, j, h => by cases h; trivial
  | .bool, _, v, j, h => by cases h; trivial
  | .option t, hs, v, j, h => by
    simp only [JTy.Sound, Bool.and_eq_true] at hs
    obtain _ | w : Option t.wire.denote := v
    · cases h; trivial
    · exact ser_tidy E t hs.2 w j h
  | .newtype t, hs, v, j, h => ser_tidy E t hs v j h
  | .seq t, hs, v, j, h => by
    simp only [ser] at h
    split at h
    · rename_i js hjs
      cases h
      exact collect_tidy (ser E t) (fun a j h => ser_tidy E t hs a j h) _ _ hjs
    · cases h
  | .tuple ts, hs, v, j, h => by
    simp only [ser] at h
    split at h
    · rename_i js hjs
      cases h
      exact serTuple_tidy E ts hs v js hjs
    · cases h
  | .struct ts, hs, v, j, h => by
    simp only [JTy.Sound, Bool.and_eq_true] at hs
    simp only [ser] at h
    split at h
    · rename_i es hes
      cases h
      obtain ⟨h1, h2⟩ := serStruct_tidy E ts hs.2 v es hes
      exact ⟨h2 ▸ nodup_of_distinct _ hs.1, h1⟩
    · cases h
  | .versioned t, hs, v, j, h => ser_tidy E t hs _ j h
  | .listEnum poly expand vs, _, v, j, h => by
    rw [ser_listEnum] at h
    split at h
    · exact listTagged_tidy expand _ j h (asValue_tidy _)
    · cases h
  | .tagEnum vs, hs, v, j, h => by
    simp only [JTy.Sound, Bool.and_eq_true] at hs
    exact serTagged_tidy E false vs hs.2 v j h
theorem serTuple_tidy (E : Env) : (ts : JTys) → ts.Sound = true → (v : ts.wire.prod) → (js : List J) → serTuple E ts v = .ok js →
    TidyItems js
  | .nil, _, _, js, h => by cases h; trivial
  | .cons n t ts, hs, v, js, h => by
    simp only [JTys.Sound, Bool.and_eq_true] at hs
    simp only [serTuple] at h
    split at h
    · cases h
    rename_i j hj
    split at h
    · cases h
    rename_i js' hjs
    cases h
    exact ⟨ser_tidy E t hs.1 _ j hj, serTuple_tidy E ts hs.2 _ js' hjs⟩
  | .skip n s ts, hs, v, js, h => serTuple_tidy E ts hs _ js h
theorem serStruct_tidy (E : Env) : (ts : JTys) → ts.Sound = true → (v : ts.wire.prod) → (es : List (String × J)) →
    serStruct E ts v = .ok es → TidyMembers es ∧ es.map Prod.fst = ts.names
  | .nil, _, _, js, h => by cases h; exact ⟨trivial, rfl⟩
  | .cons n t ts, hs, v, js, h => by
    simp only [JTys.Sound, Bool.and_eq_true] at hs
    simp only [serStruct] at h
    split at h
    · cases h
    rename_i j hj
    split at h
    · cases h
    rename_i js' hjs
    cases h
    obtain ⟨h1, h2⟩ := serStruct_tidy E ts hs.2 _ js' hjs
    exact ⟨⟨ser_tidy E t hs.1 _ j hj, h1⟩, by simp [JTys.names, h2]⟩
  | .skip n s ts, hs, v, js, h => serStruct_tidy E ts hs _ js h
theorem serTagged_tidy (E : Env) (expand : Bool) : (vs : JVars) → vs.Sound expand = true → (v : vs.wire.sum) → (j : J) →
    serTagged E vs v = .ok j → Tidy j
  | .nil, _, v, _, _ => nomatch (show Empty from v)
  | .cons n p vs, hs, v, j, h => by
    simp only [JVars.Sound, Bool.and_eq_true] at hs
    obtain w | w : p.wire.denote ⊕ vs.wire.sum := v
    · exact serPay_tidy E expand n p hs.1 w j h
    · exact serTagged_tidy E expand vs hs.2 w j h
theorem serPay_tidy (E : Env) (expand : Bool) (n : String) : (p : JPay) → p.Sound expand = true → (v : p.wire.denote) → (j : J) →
    serPay E n p v = .ok j → Tidy j
  | .unit, _, _, j, h => by cases h; trivial
  | .newtype t, hs, v, j, h => by
    simp only [JPay.Sound, Bool.and_eq_true] at hs
    simp only [serPay] at h
    split at h
    · rename_i j' hj
      cases h
      exact tidy_tag (ser_tidy E t hs.2 v j' hj)
    · cases h
  | .tuple ts, hs, v, j, h => by
    simp only [JPay.Sound, Bool.and_eq_true] at hs
    simp only [serPay] at h
    split at h
    · rename_i js hjs
      cases h
      exact tidy_tag (j := .arr js) (serTuple_tidy E ts hs.2 v js hjs)
    · cases h
  | .struct ts, hs, v, j, h => by
    simp only [JPay.Sound, Bool.and_eq_true] at hs
    simp only [serPay] at h
    split at h
    · rename_i es hes
      cases h
      obtain ⟨h1, h2⟩ := serStruct_tidy E ts hs.2 v es hes
      exact tidy_tag (j := .obj es) ⟨h2 ▸ nodup_of_distinct _ hs.1, h1⟩
    · cases h
end

theorem asValueItems_length : ∀ js : List J, (asValueItems js).length = js.length
  | [] => rfl
  | _ :: js => by simp only [asValueItems, List.length_cons, asValueItems_length js]

/-- The list form of a value is a value. -/
theorem toListTagged_asValue (expand : Bool) (j k : J) (h : toListTagged expand (asValue j) = .ok k) : asValue k = k := by
  have hf := asValue_asValue j
  generalize asValue j = v at h hf
  unfold toListTagged at h
  split at h
  · cases h; rfl
  · rename_i key w
    have hw : asValue w = w := by
      simp only [asValue, asValueMembers, insertMember, J.obj.injEq, List.cons.injEq, Prod.mk.injEq, true_and, and_true] at hf
      exact hf
    split at h
    · cases h
      simp only [asValue, J.arr.injEq] at hw ⊢
      simp only [asValueItems, asValue, hw]
    · cases h
      simp only [asValue, asValueItems, hw]
  · cases h
  · cases h; exact hf

/-! ## What a value depends on -/

theorem ordered_ext : ∀ {es es' : List (String × J)}, Ordered es → Ordered es' → (∀ n, lookup n es = lookup n es') → es = es'
  | [], [], _, _, _ => rfl
  | [], (k, j) :: es, _, _, h => by
    have := h k
    rw [lookup_cons, if_pos rfl] at this
    cases this
  | (k, j) :: es, [], _, _, h => by
    have := h k
    rw [lookup_cons, if_pos rfl] at this
    cases this
  | (k, j) :: es, (k', j') :: es', ho, ho', h => by
    obtain ⟨h1, h2⟩ := List.pairwise_cons.mp ho
    obtain ⟨h1', h2'⟩ := List.pairwise_cons.mp ho'
    have far : ∀ {m k : String} {es : List (String × J)}, (∀ e ∈ es, k < e.1) → (m = k ∨ m < k) → lookup m es = [] := by
      intro m k es h hm
      refine lookup_none fun e he hk => ?_
      rcases hm with rfl | hm
      · have := h e he; rw [hk] at this; exact String.lt_irrefl _ this
      · have := h e he; rw [hk] at this; exact String.lt_asymm hm this
    by_cases hk : k = k'
    · subst hk
      have hh := h k
      rw [lookup_cons, lookup_cons, if_pos rfl, if_pos rfl] at hh
      have hr : ∀ n, lookup n es = lookup n es' := by
        intro n
        by_cases hn : k = n
        · rw [far h1 (.inl hn.symm), far h1' (.inl hn.symm)]
        · have := h n
          rwa [lookup_cons, lookup_cons, if_neg hn, if_neg hn] at this
      rw [(List.cons.inj hh).1, ordered_ext h2 h2' hr]
    · by_cases hl : k < k'
      · have hh := h k
        rw [lookup_cons, lookup_cons, if_pos rfl, if_neg (fun e => hk e.symm), far h1' (.inr hl)] at hh
        cases hh
      · have hl := string_lt_of hk hl
        have hh := h k'
        rw [lookup_cons, lookup_cons, if_neg hk, if_pos rfl, far h1 (.inr hl)] at hh
        cases hh

/-- An object as a value depends on the last member of each name only. -/
theorem asValueMembers_eq {es es' : List (String × J)} (h : ∀ n, (lookup n es).getLast? = (lookup n es').getLast?) :
    asValueMembers [] es = asValueMembers [] es' :=
  ordered_ext (members_ordered es [] .nil) (members_ordered es' [] .nil) (fun n => by
    rw [members_lookup n es [] .nil, members_lookup n es' [] .nil, h n])

theorem lookup_app (n : String) (xs ys : List (String × J)) : lookup n (xs ++ ys) = lookup n xs ++ lookup n ys := by
  simp [lookup]

theorem asValueMembers_repeated (pre mid post : List (String × J)) (k : String) (x y : J) :
    asValueMembers [] (pre ++ (k, x) :: mid ++ (k, y) :: post) = asValueMembers [] (pre ++ mid ++ (k, y) :: post) := by
  apply asValueMembers_eq
  intro n
  simp only [lookup_app, lookup_cons]
  by_cases hn : k = n
  · simp only [if_pos hn, List.getLast?_append, List.getLast?_cons, Option.some_or]
  · simp only [if_neg hn]

theorem asValueMembers_reordered {es es' : List (String × J)} (h : es.Perm es') (hn : (es.map Prod.fst).Nodup) :
    asValueMembers [] es = asValueMembers [] es' := by
  apply asValueMembers_eq
  intro n
  have hp : (lookup n es).Perm (lookup n es') := (h.filter _).map _
  rcases lookup_short (n := n) hn with e | ⟨j, e⟩
  · rw [e] at hp ⊢
    rw [List.nil_perm.mp hp]
  · rw [e] at hp ⊢
    rw [List.singleton_perm.mp hp]

end MinaRs.Json
