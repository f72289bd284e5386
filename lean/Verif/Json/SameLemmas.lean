import Verif.Json.SameSpec
import Verif.Json.ValueLemmas

/-! A document and its `serde_json::Value` say the same. -/

namespace MinaRs.Json

open Grammar (Same member)

theorem member_eq (n : String) (es : List (String × J)) : member n es = (lookup n es).getLast? := by
  unfold member lookup
  rw [List.getLast?_map]

theorem member_asValue (n : String) (es : List (String × J)) : member n (asValueMembers [] es) = (member n es).map asValue := by
  rw [member_eq, member_eq, members_lookup n es [] .nil]
  cases h : (lookup n es).getLast? with
  | none => rfl
  | some j => rfl

theorem member_mem {n : String} {es : List (String × J)} {j : J} (h : member n es = some j) : ∃ e ∈ es, e.2 = j := by
  rw [member_eq] at h
  have := List.mem_of_getLast? h
  unfold lookup at this
  obtain ⟨e, he, rfl⟩ := List.mem_map.mp this
  exact ⟨e, (List.mem_filter.mp he).1, rfl⟩

mutual
theorem same_asValue : (j : J) → Same j (asValue j)
  | .null => .null
  | .bool b => .bool b
  | .num n => .num n
  | .float b => .float b
  | .str s => .str s
  | .arr js => by
    refine .arr js (asValueItems js) (asValueItems_length js).symm fun i j k hj hk => ?_
    have := sameItems_asValue js i j hj
    rw [hk] at this
    cases this.1
    exact this.2
  | .obj es => by
    have ih := sameMembers_asValue es
    refine .obj es (asValueMembers [] es) (fun n => ?_) fun n j k hj hk => ?_
    · rw [member_asValue]; cases member n es <;> simp
    · rw [member_asValue, hj] at hk
      cases hk
      obtain ⟨e, he, rfl⟩ := member_mem hj
      exact ih e he
theorem sameItems_asValue : (js : List J) → ∀ (i : Nat) j, js[i]? = some j → (asValueItems js)[i]? = some (asValue j) ∧ Same j (asValue j)
  | [], i, _, h => by cases h
  | a :: js, 0, j, h => by
    simp only [List.getElem?_cons_zero, Option.some.injEq] at h
    subst h
    exact ⟨rfl, same_asValue a⟩
  | a :: js, i + 1, j, h => by
    simp only [List.getElem?_cons_succ] at h
    exact sameItems_asValue js i j h
theorem sameMembers_asValue : (es : List (String × J)) → ∀ e ∈ es, Same e.2 (asValue e.2)
  | [], _, h => by cases h
  | (k, j) :: es, e, h => by
    rcases List.mem_cons.mp h with rfl | h
    · exact same_asValue j
    · exact sameMembers_asValue es e h
end

theorem asValueItems_eq : ∀ (js ks : List J), js.length = ks.length → (∀ (i : Nat) j k, js[i]? = some j → ks[i]? = some k → asValue j = asValue k) →
    asValueItems js = asValueItems ks
  | [], [], _, _ => rfl
  | j :: js, k :: ks, h, hi => by
    simp only [asValueItems]
    rw [hi 0 j k rfl rfl, asValueItems_eq js ks (by simpa using h) (fun i j k hj hk => hi (i + 1) j k hj hk)]

/-- Documents that say the same are the same value. -/
theorem asValue_eq_of_same {j k : J} (h : Same j k) : asValue j = asValue k := by
  induction h with
  | null => rfl
  | bool => rfl
  | num => rfl
  | float => rfl
  | str => rfl
  | arr js ks hl hi ih => simp only [asValue]; rw [asValueItems_eq js ks hl ih]
  | obj es fs h1 h2 ih =>
    simp only [asValue]
    congr 1
    refine ordered_ext (members_ordered es [] .nil) (members_ordered fs [] .nil) fun n => ?_
    rw [members_lookup n es [] .nil, members_lookup n fs [] .nil, ← member_eq, ← member_eq]
    cases hj : member n es with
    | none => rw [(h1 n).mp hj]
    | some j =>
      cases hk : member n fs with
      | none => rw [(h1 n).mpr hk] at hj; cases hj
      | some k => simp only [ih n j k hj hk]

mutual
theorem asValue_of_sorted : (j : J) → Sorted j → asValue j = j
  | .null, _ | .bool _, _ | .num _, _ | .float _, _ | .str _, _ => rfl
  | .arr js, h => by simp only [asValue, asValueItems_of_sorted js h]
  | .obj es, h => by
    simp only [asValue]
    rw [members_fixed es [] h.1 (asValueMembers_of_sorted es h.2)]
    rfl
theorem asValueItems_of_sorted : (js : List J) → SortedItems js → asValueItems js = js
  | [], _ => rfl
  | j :: js, h => by simp only [asValueItems, asValue_of_sorted j h.1, asValueItems_of_sorted js h.2]
theorem asValueMembers_of_sorted : (es : List (String × J)) → SortedMembers es → ∀ e ∈ es, asValue e.2 = e.2
  | [], _, _, h => by cases h
  | (k, j) :: es, hs, e, h => by
    rcases List.mem_cons.mp h with rfl | h
    · exact asValue_of_sorted j hs.1
    · exact asValueMembers_of_sorted es hs.2 e h
end

/-- Exactly one document says the same with its members in order. -/
theorem same_sorted_iff (j k : J) : (Same j k ∧ Sorted k) ↔ k = asValue j := by
  constructor
  · rintro ⟨h1, h2⟩
    rw [asValue_eq_of_same h1, asValue_of_sorted k h2]
  · rintro rfl
    exact ⟨same_asValue j, asValue_sorted j⟩

end MinaRs.Json
