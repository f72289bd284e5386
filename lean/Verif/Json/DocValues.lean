import Verif.Json.DocNumbers

/-! Lemmas on the text form of JSON (C111): values, lists and objects. -/

namespace MinaRs.Json

open Text (Text decimal)
open Text.Spec (IsDigit value)
open Grammar

/-! ## White space -/

theorem isSpace_iff (c : Char) : isSpace c = true ↔ c = ' ' ∨ c = '\t' ∨ c = '\n' ∨ c = '\r' := by
  simp only [isSpace, Bool.or_eq_true, decide_eq_true_eq]
  constructor
  · rintro (((h | h) | h) | h) <;> simp [h]
  · rintro (h | h | h | h) <;> simp [h]

theorem skipSpace_split (s : Text) : ∃ w, s = w ++ skipSpace s ∧ Space w := by
  induction s with
  | nil => exact ⟨[], rfl, fun c h => by cases h⟩
  | cons c s ih =>
    unfold skipSpace
    rw [List.dropWhile_cons]
    split
    · rename_i hc
      obtain ⟨w, h1, h2⟩ := ih
      refine ⟨c :: w, ?_, ?_⟩
      · rw [List.cons_append]; exact congrArg (c :: ·) h1
      · intro x hx
        rcases List.mem_cons.mp hx with rfl | hx
        · exact (isSpace_iff _).mp hc
        · exact h2 x hx
    · exact ⟨[], rfl, fun c h => by cases h⟩

theorem skipSpace_space (w s : Text) (hw : Space w) : skipSpace (w ++ s) = skipSpace s := by
  induction w with
  | nil => rfl
  | cons c w ih =>
    have hc := (isSpace_iff c).mpr (hw c (List.mem_cons_self ..))
    show List.dropWhile isSpace (c :: (w ++ s)) = _
    rw [List.dropWhile_cons, if_pos hc]
    exact ih fun x hx => hw x (List.mem_cons_of_mem _ hx)

theorem skipSpace_cons (c : Char) (s : Text) (h : isSpace c = false) : skipSpace (c :: s) = c :: s := by
  show List.dropWhile isSpace (c :: s) = _
  rw [List.dropWhile_cons, if_neg (by simp [h])]

theorem skip_to (w : Text) (c : Char) (s : Text) (hw : Space w) (h : isSpace c = false) : skipSpace (w ++ c :: s) = c :: s := by
  rw [skipSpace_space w _ hw, skipSpace_cons c s h]

theorem skipSpace_nil (w : Text) (hw : Space w) : skipSpace w = [] := by
  have := skipSpace_space w [] hw
  rwa [List.append_nil] at this

theorem space_append {w w' : Text} (h : Space w) (h' : Space w') : Space (w ++ w') := by
  intro c hc
  rcases List.mem_append.mp hc with hc | hc
  · exact h c hc
  · exact h' c hc

theorem stops_cons (c : Char) (s : Text) (h : ¬ IsDigit c ∧ c ≠ '.' ∧ c ≠ 'e' ∧ c ≠ 'E') : Stops (c :: s) := by
  intro x hx
  cases hx
  exact h

theorem stops_space (w s : Text) (hw : Space w) (hs : Stops s) : Stops (w ++ s) := by
  cases w with
  | nil => exact hs
  | cons c w =>
    refine stops_cons c _ ?_
    rcases hw c (List.mem_cons_self ..) with rfl | rfl | rfl | rfl <;> decide

theorem stops_nil : Stops [] := fun c h => by cases h

theorem stops_of_space (w : Text) (hw : Space w) : Stops w := by
  have := stops_space w [] hw stops_nil
  rwa [List.append_nil] at this

/-! ## What is read is JSON -/

/-- The rest of a list. -/
def ItemsTail (F : Floats) (t : Text) (js : List J) : Prop :=
  (js = [] ∧ Space t) ∨ ∃ w u, t = w ++ ',' :: u ∧ Space w ∧ Items F.read u js

/-- The rest of an object. -/
def MembersTail (F : Floats) (t : Text) (es : List (String × J)) : Prop :=
  (es = [] ∧ Space t) ∨ ∃ w u, t = w ++ ',' :: u ∧ Space w ∧ Members F.read u es

theorem items_cons (F : Floats) (w v t : Text) (j : J) (js : List J) (hw : Space w) (hv : Value F.read v j) (ht : ItemsTail F t js) :
    Items F.read (w ++ (v ++ t)) (j :: js) := by
  rcases ht with ⟨rfl, h⟩ | ⟨w', u, rfl, hw', hu⟩
  · exact .one w v t j hw hv h
  · exact .more w v w' u j js hw hv hw' hu

theorem members_cons (F : Floats) (w m t : Text) (e : String × J) (es : List (String × J)) (hw : Space w) (hm : Member F.read m e)
    (ht : MembersTail F t es) : Members F.read (w ++ (m ++ t)) (e :: es) := by
  rcases ht with ⟨rfl, h⟩ | ⟨w', u, rfl, hw', hu⟩
  · exact .one w m t e hw hm h
  · exact .more w m w' u e es hw hm hw' hu

theorem read_sound (F : Floats) : ∀ n : Nat,
    (∀ d s j r, readValue F n d s = some (j, r) → ∃ w v, s = w ++ (v ++ r) ∧ Space w ∧ Value F.read v j ∧ depth j ≤ d) ∧
    (∀ d s js r, readItems F n d s = some (js, r) → ∃ t, s = t ++ ']' :: r ∧ ItemsTail F t js ∧ depthAll js ≤ d) ∧
    (∀ d s e r, readMember F n d s = some (e, r) → ∃ w m, s = w ++ (m ++ r) ∧ Space w ∧ Member F.read m e ∧ depth e.2 ≤ d) ∧
    (∀ d s es r, readMembers F n d s = some (es, r) → ∃ t, s = t ++ '}' :: r ∧ MembersTail F t es ∧ depthMembers es ≤ d)
  | 0 => by
    refine ⟨?_, ?_, ?_, ?_⟩ <;> (intro d s x r h; simp only [readValue, readItems, readMember, readMembers] at h; cases h)
  | n + 1 => by
    obtain ⟨ihV, ihI, ihM, ihMs⟩ := read_sound F n
    refine ⟨?_, ?_, ?_, ?_⟩
    · intro d s j r h
      obtain ⟨w, hs, hw⟩ := skipSpace_split s
      suffices hv : ∃ v, skipSpace s = v ++ r ∧ Value F.read v j ∧ depth j ≤ d by
        obtain ⟨v, h0, h1, h2⟩ := hv
        exact ⟨w, v, by rw [← h0]; exact hs, hw, h1, h2⟩
      rw [readValue] at h
      split at h
      · rename_i r' he; cases h; exact ⟨_, he, .null, Nat.zero_le _⟩
      · rename_i r' he; cases h; exact ⟨_, he, .true, Nat.zero_le _⟩
      · rename_i r' he; cases h; exact ⟨_, he, .false, Nat.zero_le _⟩
      · rename_i r' he
        cases hx : readString (r'.length + 1) r' with
        | none => rw [hx] at h; cases h
        | some x =>
          rw [hx] at h
          cases h
          obtain ⟨t, h1, h2⟩ := (readQuoted_iff r' x.1 x.2).mp hx
          exact ⟨t, he.trans h1, .str t _ h2, Nat.zero_le _⟩
      · rename_i r' he
        split at h
        · cases h
        rename_i hd
        split at h
        · rename_i r'' he'
          cases h
          obtain ⟨w', h1, h2⟩ := skipSpace_split r'
          rw [he'] at h1
          refine ⟨'[' :: (w' ++ [']']), ?_, .noItems w' h2, ?_⟩
          · rw [he, h1]; simp
          · simp only [depth, depthAll]; omega
        · cases hx : readValue F n (d - 1) r' with
          | none => rw [hx] at h; cases h
          | some x =>
            rw [hx] at h
            simp only at h
            cases hy : readItems F n (d - 1) x.2 with
            | none => rw [hy] at h; cases h
            | some y =>
              rw [hy] at h
              cases h
              obtain ⟨w1, v, h1, h2, h3, h4⟩ := ihV _ _ _ _ hx
              obtain ⟨t, h5, h6, h7⟩ := ihI _ _ _ _ hy
              refine ⟨'[' :: (w1 ++ (v ++ t) ++ [']']), ?_, .arr _ _ (items_cons F w1 v t x.1 y.1 h2 h3 h6), ?_⟩
              · rw [he, h1, h5]; simp
              · simp only [depth, depthAll]; omega
      · rename_i r' he
        split at h
        · cases h
        rename_i hd
        split at h
        · rename_i r'' he'
          cases h
          obtain ⟨w', h1, h2⟩ := skipSpace_split r'
          rw [he'] at h1
          refine ⟨'{' :: (w' ++ ['}']), ?_, .noMembers w' h2, ?_⟩
          · rw [he, h1]; simp
          · simp only [depth, depthMembers]; omega
        · cases hx : readMember F n (d - 1) r' with
          | none => rw [hx] at h; cases h
          | some x =>
            rw [hx] at h
            simp only at h
            cases hy : readMembers F n (d - 1) x.2 with
            | none => rw [hy] at h; cases h
            | some y =>
              rw [hy] at h
              cases h
              obtain ⟨w1, m, h1, h2, h3, h4⟩ := ihM _ _ _ _ hx
              obtain ⟨t, h5, h6, h7⟩ := ihMs _ _ _ _ hy
              refine ⟨'{' :: (w1 ++ (m ++ t) ++ ['}']), ?_, .obj _ _ (members_cons F w1 m t x.1 y.1 h2 h3 h6), ?_⟩
              · rw [he, h1, h5]; simp
              · obtain ⟨⟨k, j⟩, q⟩ := x
                simp only [depth, depthMembers] at h4 ⊢; omega
      · obtain ⟨t, h1, h2⟩ := readNumber_sound F _ r j h
        exact ⟨t, h1, .number t j h2, by rw [number_depth h2]; exact Nat.zero_le _⟩
    · intro d s js r h
      obtain ⟨w, hs, hw⟩ := skipSpace_split s
      rw [readItems] at h
      split at h
      · rename_i r' he; cases h; rw [he] at hs; exact ⟨w, hs, .inl ⟨rfl, hw⟩, Nat.zero_le _⟩
      · rename_i r' he
        rw [he] at hs
        cases hx : readValue F n d r' with
        | none => rw [hx] at h; cases h
        | some x =>
          rw [hx] at h
          simp only at h
          cases hy : readItems F n d x.2 with
          | none => rw [hy] at h; cases h
          | some y =>
            rw [hy] at h
            cases h
            obtain ⟨w1, v, h1, h2, h3, h4⟩ := ihV _ _ _ _ hx
            obtain ⟨t, h5, h6, h7⟩ := ihI _ _ _ _ hy
            refine ⟨w ++ ',' :: (w1 ++ (v ++ t)), ?_, .inr ⟨w, _, rfl, hw, items_cons F w1 v t x.1 y.1 h2 h3 h6⟩, ?_⟩
            · rw [hs, h1, h5]; simp
            · simp only [depthAll]; omega
      · cases h
    · intro d s e r h
      obtain ⟨w, hs, hw⟩ := skipSpace_split s
      rw [readMember] at h
      split at h
      · rename_i r' he
        rw [he] at hs
        split at h
        · cases h
        rename_i k q hk
        obtain ⟨t, h1, h2⟩ := (readQuoted_iff r' k q).mp hk
        obtain ⟨w1, h3, h4⟩ := skipSpace_split q
        split at h
        · rename_i q' hq
          rw [hq] at h3
          cases hx : readValue F n d q' with
          | none => rw [hx] at h; cases h
          | some x =>
            rw [hx] at h
            cases h
            obtain ⟨w2, v, h5, h6, h7, h8⟩ := ihV _ _ _ _ hx
            refine ⟨w, t ++ (w1 ++ ':' :: (w2 ++ v)), ?_, hw, .mk t w1 w2 v _ _ h2 h4 h6 h7, h8⟩
            rw [hs, h1, h3, h5]; simp
        · cases h
      · cases h
    · intro d s es r h
      obtain ⟨w, hs, hw⟩ := skipSpace_split s
      rw [readMembers] at h
      split at h
      · rename_i r' he; cases h; rw [he] at hs; exact ⟨w, hs, .inl ⟨rfl, hw⟩, Nat.zero_le _⟩
      · rename_i r' he
        rw [he] at hs
        cases hx : readMember F n d r' with
        | none => rw [hx] at h; cases h
        | some x =>
          rw [hx] at h
          simp only at h
          cases hy : readMembers F n d x.2 with
          | none => rw [hy] at h; cases h
          | some y =>
            rw [hy] at h
            cases h
            obtain ⟨w1, m, h1, h2, h3, h4⟩ := ihM _ _ _ _ hx
            obtain ⟨t, h5, h6, h7⟩ := ihMs _ _ _ _ hy
            refine ⟨w ++ ',' :: (w1 ++ (m ++ t)), ?_, .inr ⟨w, _, rfl, hw, members_cons F w1 m t x.1 y.1 h2 h3 h6⟩, ?_⟩
            · rw [hs, h1, h5]; simp
            · obtain ⟨⟨k, j⟩, q⟩ := x
              simp only [depthMembers] at h4 ⊢; omega
      · cases h

/-! ## What is JSON is read -/

theorem readValue_bracket (F : Floats) (n d : Nat) (s : Text) (c : Char) (q : Text) (h : skipSpace s = c :: q)
    (hc : c = ']' ∨ c = '}') : readValue F n d s = none := by
  cases n with
  | zero => rw [readValue]
  | succ n =>
    rw [readValue, h]
    rcases hc with rfl | rfl
    · rfl
    · rfl

theorem readMember_bracket (F : Floats) (n d : Nat) (s : Text) (c : Char) (q : Text) (h : skipSpace s = c :: q)
    (hc : c = ']' ∨ c = '}') : readMember F n d s = none := by
  cases n with
  | zero => rw [readMember]
  | succ n =>
    rw [readMember, h]
    rcases hc with rfl | rfl
    · rfl
    · rfl

theorem str_read {t : Text} {s : String} (h : Str t s) (r : Text) : ∃ q, t ++ r = '"' :: q ∧ readString (q.length + 1) q = some (s.toList, r) := by
  obtain ⟨u, rfl, hu⟩ := h
  refine ⟨u ++ '"' :: r, by simp, ?_⟩
  exact (readQuoted_iff _ _ _).mpr ⟨'"' :: (u ++ ['"']), by simp, u, rfl, by rw [String.toList_ofList]; exact hu⟩

mutual
theorem value_read (F : Floats) : ∀ {t : Text} {j : J}, Value F.read t j → ∀ (n d : Nat) (w r : Text), Space w → Stops r →
    (w ++ (t ++ r)).length < n → depth j ≤ d → readValue F n d (w ++ (t ++ r)) = some (j, r)
  | _, _, .null, n + 1, d, w, r, hw, _, _, _ => by
    rw [readValue, show w ++ (['n', 'u', 'l', 'l'] ++ r) = w ++ 'n' :: ('u' :: 'l' :: 'l' :: r) from rfl, skip_to w _ _ hw (by decide)]
    rfl
  | _, _, .true, n + 1, d, w, r, hw, _, _, _ => by
    rw [readValue, show w ++ (['t', 'r', 'u', 'e'] ++ r) = w ++ 't' :: ('r' :: 'u' :: 'e' :: r) from rfl, skip_to w _ _ hw (by decide)]
    rfl
  | _, _, .false, n + 1, d, w, r, hw, _, _, _ => by
    rw [readValue, show w ++ (['f', 'a', 'l', 's', 'e'] ++ r) = w ++ 'f' :: ('a' :: 'l' :: 's' :: 'e' :: r) from rfl,
      skip_to w _ _ hw (by decide)]
    rfl
  | _, _, .number t j hn, n + 1, d, w, r, hw, hr, _, _ => by
    obtain ⟨c, t', rfl, hc⟩ := number_head hn
    have hsp : isSpace c = false := by
      cases h : isSpace c with
      | false => rfl
      | true =>
        exfalso
        rcases (isSpace_iff c).mp h with rfl | rfl | rfl | rfl <;> (revert hc; decide)
    rw [readValue, List.cons_append, skip_to w _ _ hw hsp]
    have hne : ∀ x : Char, x ≠ '-' → ¬ IsDigit x → c ≠ x := by
      rintro x h1 h2 rfl
      rcases hc with rfl | hc
      · exact h1 rfl
      · exact h2 hc
    have := readNumber_complete F (c :: t') r j hn hr
    rw [List.cons_append] at this
    split
    · rename_i h; exact absurd (List.cons.inj h).1 (hne _ (by decide) (by decide))
    · rename_i h; exact absurd (List.cons.inj h).1 (hne _ (by decide) (by decide))
    · rename_i h; exact absurd (List.cons.inj h).1 (hne _ (by decide) (by decide))
    · rename_i h; exact absurd (List.cons.inj h).1 (hne _ (by decide) (by decide))
    · rename_i h; exact absurd (List.cons.inj h).1 (hne _ (by decide) (by decide))
    · rename_i h; exact absurd (List.cons.inj h).1 (hne _ (by decide) (by decide))
    · exact this
  | _, _, .str t s hs, n + 1, d, w, r, hw, _, _, _ => by
    obtain ⟨q, h1, h2⟩ := str_read hs r
    rw [readValue, h1, skip_to w _ _ hw (by decide)]
    simp only [h2, Option.map_some, String.ofList_toList]
  | _, _, .noItems v hv, n + 1, d, w, r, hw, _, _, hd => by
    have e : w ++ ('[' :: (v ++ [']']) ++ r) = w ++ '[' :: (v ++ ']' :: r) := by simp
    simp only [depth, depthAll] at hd
    rw [readValue, e, skip_to w _ _ hw (by decide)]
    simp only [if_neg (show ¬ d = 0 by omega), skip_to v ']' r hv (by decide)]
  | _, _, .arr t js ht, n + 1, d, w, r, hw, _, hl, hd => by
    have e : w ++ ('[' :: (t ++ [']']) ++ r) = w ++ '[' :: (t ++ ']' :: r) := by simp
    simp only [depth] at hd
    rw [e] at hl
    obtain ⟨j, js', r', rfl, h1, h2⟩ := items_read F ht n (d - 1) r
      (by simp only [List.length_append, List.length_cons] at hl ⊢; omega) (by omega)
    rw [readValue, e, skip_to w _ _ hw (by decide)]
    simp only [if_neg (show ¬ d = 0 by omega)]
    split
    · rename_i q hq
      rw [readValue_bracket F n _ _ _ _ hq (.inl rfl)] at h1
      cases h1
    · simp only [h1, h2, Option.map_some]
  | _, _, .noMembers v hv, n + 1, d, w, r, hw, _, _, hd => by
    have e : w ++ ('{' :: (v ++ ['}']) ++ r) = w ++ '{' :: (v ++ '}' :: r) := by simp
    simp only [depth, depthMembers] at hd
    rw [readValue, e, skip_to w _ _ hw (by decide)]
    simp only [if_neg (show ¬ d = 0 by omega), skip_to v '}' r hv (by decide)]
  | _, _, .obj t es ht, n + 1, d, w, r, hw, _, hl, hd => by
    have e : w ++ ('{' :: (t ++ ['}']) ++ r) = w ++ '{' :: (t ++ '}' :: r) := by simp
    simp only [depth] at hd
    rw [e] at hl
    obtain ⟨m, es', r', rfl, h1, h2⟩ := members_read F ht n (d - 1) r
      (by simp only [List.length_append, List.length_cons] at hl ⊢; omega) (by omega)
    rw [readValue, e, skip_to w _ _ hw (by decide)]
    simp only [if_neg (show ¬ d = 0 by omega)]
    split
    · rename_i q hq
      rw [readMember_bracket F n _ _ _ _ hq (.inr rfl)] at h1
      cases h1
    · simp only [h1, h2, Option.map_some]
  | _, _, _, 0, _, _, _, _, _, hl, _ => absurd hl (Nat.not_lt_zero _)
theorem items_read (F : Floats) : ∀ {t : Text} {js : List J}, Items F.read t js → ∀ (n d : Nat) (r : Text),
    (t ++ ']' :: r).length < n → depthAll js ≤ d →
    ∃ j js' r', js = j :: js' ∧ readValue F n d (t ++ ']' :: r) = some (j, r') ∧ readItems F n d r' = some (js', r)
  | _, _, .one w v w' j hw hv hw', n + 1, d, r, hl, hd => by
    have e : w ++ (v ++ w') ++ ']' :: r = w ++ (v ++ (w' ++ ']' :: r)) := by simp
    rw [e] at hl ⊢
    refine ⟨j, [], w' ++ ']' :: r, rfl, ?_, ?_⟩
    · exact value_read F hv (n + 1) d w _ hw (stops_space w' _ hw' (stops_cons _ _ (by decide))) hl (by simpa [depthAll] using hd)
    · rw [readItems, skip_to w' _ _ hw' (by decide)]
      rfl
  | _, _, .more w v w' t j js hw hv hw' ht, n + 1, d, r, hl, hd => by
    have e : w ++ (v ++ (w' ++ ',' :: t)) ++ ']' :: r = w ++ (v ++ (w' ++ ',' :: (t ++ ']' :: r))) := by simp
    rw [e] at hl ⊢
    simp only [depthAll] at hd
    obtain ⟨j', js', r', rfl, h1, h2⟩ := items_read F ht n d r
      (by simp only [List.length_append, List.length_cons] at hl ⊢; omega) (by omega)
    refine ⟨j, j' :: js', w' ++ ',' :: (t ++ ']' :: r), rfl, ?_, ?_⟩
    · exact value_read F hv (n + 1) d w _ hw (stops_space w' _ hw' (stops_cons _ _ (by decide))) hl (by omega)
    · rw [readItems, skip_to w' _ _ hw' (by decide)]
      simp only [h1, h2, Option.map_some]
  | _, _, _, 0, _, _, hl, _ => absurd hl (Nat.not_lt_zero _)
theorem members_read (F : Floats) : ∀ {t : Text} {es : List (String × J)}, Members F.read t es → ∀ (n d : Nat) (r : Text),
    (t ++ '}' :: r).length < n → depthMembers es ≤ d →
    ∃ e es' r', es = e :: es' ∧ readMember F n d (t ++ '}' :: r) = some (e, r') ∧ readMembers F n d r' = some (es', r)
  | _, _, .one w m w' (k, j) hw hm hw', n + 1, d, r, hl, hd => by
    have e : w ++ (m ++ w') ++ '}' :: r = w ++ (m ++ (w' ++ '}' :: r)) := by simp
    rw [e] at hl ⊢
    refine ⟨(k, j), [], w' ++ '}' :: r, rfl, ?_, ?_⟩
    · exact member_read F hm (n + 1) d w _ hw (stops_space w' _ hw' (stops_cons _ _ (by decide))) hl (by simpa [depthMembers] using hd)
    · rw [readMembers, skip_to w' _ _ hw' (by decide)]
      rfl
  | _, _, .more w m w' t (k, j) es hw hm hw' ht, n + 1, d, r, hl, hd => by
    have e : w ++ (m ++ (w' ++ ',' :: t)) ++ '}' :: r = w ++ (m ++ (w' ++ ',' :: (t ++ '}' :: r))) := by simp
    rw [e] at hl ⊢
    simp only [depthMembers] at hd
    obtain ⟨e', es', r', rfl, h1, h2⟩ := members_read F ht n d r
      (by simp only [List.length_append, List.length_cons] at hl ⊢; omega) (by omega)
    refine ⟨(k, j), e' :: es', w' ++ ',' :: (t ++ '}' :: r), rfl, ?_, ?_⟩
    · exact member_read F hm (n + 1) d w _ hw (stops_space w' _ hw' (stops_cons _ _ (by decide))) hl (by simp only; omega)
    · rw [readMembers, skip_to w' _ _ hw' (by decide)]
      simp only [h1, h2, Option.map_some]
  | _, _, _, 0, _, _, hl, _ => absurd hl (Nat.not_lt_zero _)
theorem member_read (F : Floats) : ∀ {m : Text} {e : String × J}, Member F.read m e → ∀ (n d : Nat) (w r : Text), Space w → Stops r →
    (w ++ (m ++ r)).length < n → depth e.2 ≤ d → readMember F n d (w ++ (m ++ r)) = some (e, r)
  | _, _, .mk k w1 w2 v key j hk h1 h2 hv, n + 1, d, w, r, hw, hr, hl, hd => by
    have e : w ++ (k ++ (w1 ++ ':' :: (w2 ++ v)) ++ r) = w ++ (k ++ (w1 ++ ':' :: (w2 ++ (v ++ r)))) := by simp
    rw [e] at hl ⊢
    obtain ⟨q, h3, h4⟩ := str_read hk (w1 ++ ':' :: (w2 ++ (v ++ r)))
    have h5 := value_read F hv n d w2 r h2 hr (by simp only [List.length_append, List.length_cons] at hl ⊢; omega) hd
    rw [readMember, h3, skip_to w _ _ hw (by decide)]
    simp only [h4, skip_to w1 ':' _ h1 (by decide), h5, Option.map_some, String.ofList_toList]
  | _, _, _, 0, _, _, _, _, _, hl, _ => absurd hl (Nat.not_lt_zero _)
end

/-- The reader accepts exactly the JSON texts whose document is nested no deeper than it allows. -/
theorem parse_iff (F : Floats) (s : Text) (j : J) : parse F s = some j ↔ Says F.read s j ∧ depth j ≤ maxDepth := by
  unfold parse
  constructor
  · intro h
    split at h
    · rename_i j' r hv
      split at h
      · rename_i hr
        cases h
        obtain ⟨w, v, rfl, h1, h2, h3⟩ := (read_sound F _).1 _ _ _ _ hv
        obtain ⟨w', h4, h5⟩ := skipSpace_split r
        rw [hr, List.append_nil] at h4
        exact ⟨⟨w, v, r, rfl, h1, h2, by rw [h4]; exact h5⟩, h3⟩
      · cases h
    · cases h
  · rintro ⟨⟨w, v, w', rfl, h1, h2, h3⟩, h4⟩
    rw [value_read F h2 _ maxDepth w w' h1 (stops_of_space w' h3) (Nat.lt_succ_self _) h4]
    simp only [skipSpace_nil w' h3, if_true]

end MinaRs.Json
