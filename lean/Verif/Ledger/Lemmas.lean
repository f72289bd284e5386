import Verif.Ledger.Spec

namespace MinaRs.Ledger

open BinProt Spec

theorem head_eq_iff (k : Bytes) : (k.head? == some ACCOUNT_PREFIX) = decide (AccountKey k) := by
  cases k with
  | nil => rfl
  | cons b r =>
    by_cases h : b = 0xfe
    · subst h
      have : AccountKey (0xfe :: r) := ⟨r, rfl⟩
      simp [ACCOUNT_PREFIX, this]
    · have : ¬ AccountKey (b :: r) := by rintro ⟨_, h'⟩; injection h' with h1 _; exact h h1
      simp [ACCOUNT_PREFIX, this, h]

theorem lt_prefix_iff (k : Bytes) : k < [ACCOUNT_PREFIX] ↔ k = [] ∨ ∃ b r, k = b :: r ∧ b.toNat < 0xfe := by
  cases k with
  | nil => simp
  | cons b r =>
    rw [List.cons_lt_cons_iff]
    simp only [List.not_lt_nil, and_false, or_false, UInt8.lt_iff_toNat_lt, reduceCtorEq, false_or]
    exact ⟨fun h => ⟨b, r, rfl, h⟩, fun ⟨b', r', h, h'⟩ => by injection h with h1 _; rw [h1]; exact h'⟩

theorem lt_of_lt_account {a b : Bytes} (h : a < b) (hb : AccountKey b) : AccountKey a ∨ a < [ACCOUNT_PREFIX] := by
  obtain ⟨r, rfl⟩ := hb
  cases a with
  | nil => right; simp
  | cons x xs =>
    rw [List.cons_lt_cons_iff] at h
    rcases h with h | ⟨h, _⟩
    · right; rw [List.cons_lt_cons_iff]; exact .inl h
    · left; exact ⟨xs, by rw [h]⟩

theorem account_not_lt {k : Bytes} (h : AccountKey k) : ¬ k < [ACCOUNT_PREFIX] := by
  obtain ⟨r, rfl⟩ := h
  rw [lt_prefix_iff]
  rintro (h | ⟨b, r', h, h'⟩)
  · cases h
  · injection h with h1 _; subst h1; exact absurd h' (by decide)

/-- Dropping the smaller keys and keeping while the prefix matches selects the account entries. -/
theorem select_eq_stored {db : List Entry} (h : KeyOrder db) :
    (db.dropWhile (fun e => decide (e.1 < [ACCOUNT_PREFIX]))).takeWhile (fun e => e.1.head? == some ACCOUNT_PREFIX) =
      stored db := by
  induction db with
  | nil => rfl
  | cons e es ih =>
    obtain ⟨h1, h2⟩ := List.pairwise_cons.mp h
    by_cases hlt : e.1 < [ACCOUNT_PREFIX]
    · have hna : ¬ AccountKey e.1 := fun ha => account_not_lt ha hlt
      rw [List.dropWhile_cons_of_pos (by simpa using hlt), ih h2]
      simp [stored, hna]
    · rw [List.dropWhile_cons_of_neg (by simpa using hlt)]
      -- nothing after `e` is below the prefix
      have hrest : ∀ x ∈ es, ¬ x.1 < [ACCOUNT_PREFIX] := by
        intro x hx hx'
        exact hlt (List.lt_trans (h1 x hx) hx')
      clear ih
      have key : ∀ l : List Entry, KeyOrder l → (∀ x ∈ l, ¬ x.1 < [ACCOUNT_PREFIX]) →
          l.takeWhile (fun e => e.1.head? == some ACCOUNT_PREFIX) = stored l := by
        intro l
        induction l with
        | nil => intros; rfl
        | cons x xs ih =>
          intro ho hn
          obtain ⟨o1, o2⟩ := List.pairwise_cons.mp ho
          rw [List.takeWhile_cons, head_eq_iff]
          by_cases ha : AccountKey x.1
          · rw [if_pos (by simpa using ha), ih o2 (fun y hy => hn y (List.mem_cons_of_mem _ hy))]
            simp [stored, ha]
          · rw [if_neg (by simpa using ha)]
            symm
            unfold stored
            rw [List.filter_eq_nil_iff]
            intro y hy
            rcases List.mem_cons.mp hy with rfl | hy
            · simpa using ha
            · intro hya
              rcases lt_of_lt_account (o1 y hy) (by simpa using hya) with h | h
              · exact ha h
              · exact hn x List.mem_cons_self h
      refine key _ h ?_
      intro x hx
      rcases List.mem_cons.mp hx with rfl | hx
      · exact hlt
      · exact hrest x hx

theorem walk_none (es : List Entry) : walk none es = es.map .ok := by
  induction es with
  | nil => rfl
  | cons e es ih => rw [walk, ih]; rfl

theorem takeWhile_ok (es : List Entry) :
    ((es.map .ok : List (Except String Entry)).takeWhile isAccount) =
      (es.takeWhile (fun e => e.1.head? == some ACCOUNT_PREFIX)).map .ok := by
  induction es with
  | nil => rfl
  | cons e es ih =>
    obtain ⟨k, v⟩ := e
    rw [List.map_cons, List.takeWhile_cons, List.takeWhile_cons]
    by_cases h : (k.head? == some ACCOUNT_PREFIX) = true
    · rw [if_pos (by simpa [isAccount] using h), if_pos (by simpa using h), ih]; rfl
    · rw [if_neg (by simpa [isAccount] using h), if_neg (by simpa using h)]; rfl

/-- A walk with a read error after `n` entries. -/
theorem walk_some (n : Nat) (msg : String) (es : List Entry) :
    (walk (some (n, msg)) es).takeWhile isAccount = ((es.take n).map .ok).takeWhile isAccount := by
  induction n generalizing es with
  | zero => simp [walk, isAccount]
  | succ n ih =>
    cases es with
    | nil => rfl
    | cons e es =>
      rw [walk, List.take_succ_cons, List.map_cons, List.takeWhile_cons, List.takeWhile_cons, ih]

theorem takeWhile_take {α : Type} (p : α → Bool) (n : Nat) (l : List α) :
    (l.take n).takeWhile p = (l.takeWhile p).take n := by
  induction l generalizing n with
  | nil => simp
  | cons x xs ih =>
    cases n with
    | zero => simp
    | succ n =>
      rw [List.take_succ_cons, List.takeWhile_cons, List.takeWhile_cons]
      by_cases h : p x
      · simp [h, ih]
      · simp [h]

theorem mem_takeWhile {α : Type} (p : α → Bool) (l : List α) (x : α) (h : x ∈ l.takeWhile p) : p x = true := by
  induction l with
  | nil => cases h
  | cons y ys ih =>
    rw [List.takeWhile_cons] at h
    split at h
    · rcases List.mem_cons.mp h with rfl | h
      · assumption
      · exact ih h
    · cases h

theorem flattenOk_map_ok {E A : Type} (xs : List A) :
    flattenOk (xs.map (fun x => (.ok (.ok x) : Except Merkle.Panic (Except E A)))) = .ok xs := by
  induction xs with
  | nil => rfl
  | cons x xs ih => rw [List.map_cons, flattenOk, ih]; rfl

theorem flattenOk_append {E A : Type} (xs ys : List (Except Merkle.Panic (Except E A))) :
    flattenOk (xs ++ ys) = (do
      let a ← flattenOk xs
      let b ← flattenOk ys
      .ok (a ++ b)) := by
  induction xs with
  | nil => rw [List.nil_append, flattenOk]; cases flattenOk ys <;> rfl
  | cons x xs ih =>
    rw [List.cons_append]
    match x with
    | .error p => rfl
    | .ok (.error e) => rw [flattenOk, flattenOk, ih]
    | .ok (.ok a) =>
      rw [flattenOk, flattenOk, ih]
      cases flattenOk xs with
      | error p => rfl
      | ok b => cases flattenOk ys <;> rfl

end MinaRs.Ledger
