import Verif.Json.DocValues
import Verif.Json.ValueLemmas

/-! Lemmas on the text form of JSON (C111): what is printed is JSON that says the document, and how deep the documents of a type are. -/

namespace MinaRs.Json

open Text (Text decimal)
open Text.Spec (IsDigit value)
open Grammar

/-! ## Printing -/

theorem hexChar_hex (n : Nat) (h : n < 16) : Hex (hexChar n) n :=
  .inl ((by decide +kernel : ∀ n : Fin 16, "0123456789abcdef".toList[n.1]? = some (hexChar n.1)) ⟨n, h⟩)

theorem escapeChar_chr (c : Char) : Chr (escapeChar c) c := by
  have sh : ∀ n x : Nat, c.toNat = n → (Char.ofNat x, Char.ofNat n) ∈ short → Chr ['\\', Char.ofNat x] c := by
    intro n x hn h
    rw [char_ofNat_toNat c n hn]
    exact .short _ _ h
  unfold escapeChar
  split
  · rename_i hc; subst hc; exact .short _ _ (by decide)
  split
  · rename_i hc; subst hc; exact .short _ _ (by decide)
  split
  · rename_i hc; exact sh 8 98 hc (by decide)
  split
  · rename_i hc; exact sh 9 116 hc (by decide)
  split
  · rename_i hc; exact sh 10 110 hc (by decide)
  split
  · rename_i hc; exact sh 12 102 hc (by decide)
  split
  · rename_i hc; exact sh 13 114 hc (by decide)
  split
  · rename_i hlt
    have := Chr.unit ['0', '0', hexChar (c.toNat / 16), hexChar (c.toNat % 16)] c.toNat
      ⟨_, _, _, _, 0, 0, c.toNat / 16, c.toNat % 16, rfl, .inl (by decide +kernel), .inl (by decide +kernel), hexChar_hex _ (by omega),
        hexChar_hex _ (by omega), by omega⟩ (.inl (by omega))
    rwa [Char.ofNat_toNat] at this
  · rename_i h1 h2 _ _ _ _ _ h3
    exact .plain c h1 h2 (by omega)

theorem escape_chars (s : Text) : Chars (s.flatMap escapeChar) s := by
  induction s with
  | nil => exact .nil
  | cons c s ih => rw [List.flatMap_cons]; exact .cons _ _ _ _ (escapeChar_chr c) ih

theorem printString_str (s : String) : Str (printString s) s := ⟨_, rfl, escape_chars s.toList⟩

theorem printInt_number (float : Text → Option UInt64) (n : Int) (h : -2 ^ 63 ≤ n ∧ n < 2 ^ 64) : Number float (printInt n) (.num n) := by
  have hd : ∀ m, IntPart (decimal m) := fun m => ⟨⟨Text.decimal_ne_nil m, Text.decimal_digits m⟩, Text.decimal_head m⟩
  unfold printInt
  split
  · rename_i hn
    have := Number.int (float := float) ['-'] (decimal n.natAbs) true rfl (hd _) (by
      show 0 < value _ ∧ value _ ≤ 2 ^ 63
      rw [Text.value_decimal]; omega)
    rw [Text.value_decimal] at this
    simp only [if_true] at this
    rwa [show -(n.natAbs : Int) = n by omega] at this
  · rename_i hn
    have := Number.int (float := float) [] (decimal n.natAbs) false rfl (hd _) (by
      show value _ < 2 ^ 64
      rw [Text.value_decimal]; omega)
    rw [Text.value_decimal] at this
    simp only [Bool.false_eq_true, if_false] at this
    rwa [show (n.natAbs : Int) = n by omega] at this

mutual
theorem print_value (F : Floats) : (j : J) → Plain j → Value F.read (print F j) j
  | .null, _ => by rw [print]; exact .null
  | .bool true, _ => by rw [print]; exact .true
  | .bool false, _ => by rw [print]; exact .false
  | .num n, h => by rw [print]; exact .number _ _ (printInt_number F.read n h)
  | .float _, h => h.elim
  | .str s, _ => by rw [print]; exact .str _ _ (printString_str s)
  | .arr [], _ => by rw [print]; exact .noItems [] (fun c h => by cases h)
  | .arr (j :: js), h => by
    simp only [Plain, PlainAll] at h
    obtain ⟨t, h1, h2⟩ := printItems_tail F js h.2
    rw [print, h1]
    have := Value.arr (float := F.read) _ _ (items_cons F [] _ t j js (fun c h => by cases h) (print_value F j h.1) h2)
    simpa using this
  | .obj [], _ => by rw [print]; exact .noMembers [] (fun c h => by cases h)
  | .obj ((k, j) :: es), h => by
    simp only [Plain, PlainMembers] at h
    obtain ⟨t, h1, h2⟩ := printEntries_tail F es h.2
    have hm := Member.mk (float := F.read) _ [] [] _ k j (printString_str k) (fun c h => by cases h) (fun c h => by cases h)
      (print_value F j h.1)
    rw [print, h1]
    have := Value.obj (float := F.read) _ _ (members_cons F [] _ t _ es (fun c h => by cases h) hm h2)
    simpa using this
theorem printItems_tail (F : Floats) : (js : List J) → PlainAll js → ∃ t, printItems F js = t ++ [']'] ∧ ItemsTail F t js
  | [], _ => ⟨[], by rw [printItems]; rfl, .inl ⟨rfl, fun c h => by cases h⟩⟩
  | j :: js, h => by
    simp only [PlainAll] at h
    obtain ⟨t, h1, h2⟩ := printItems_tail F js h.2
    refine ⟨',' :: (print F j ++ t), by rw [printItems, h1]; simp, .inr ⟨[], print F j ++ t, rfl, (fun c h => by cases h), ?_⟩⟩
    simpa using items_cons F [] _ t j js (fun c h => by cases h) (print_value F j h.1) h2
theorem printEntries_tail (F : Floats) : (es : List (String × J)) → PlainMembers es →
    ∃ t, printEntries F es = t ++ ['}'] ∧ MembersTail F t es
  | [], _ => ⟨[], by rw [printEntries]; rfl, .inl ⟨rfl, fun c h => by cases h⟩⟩
  | (k, j) :: es, h => by
    simp only [PlainMembers] at h
    obtain ⟨t, h1, h2⟩ := printEntries_tail F es h.2
    have hm := Member.mk (float := F.read) _ [] [] _ k j (printString_str k) (fun c h => by cases h) (fun c h => by cases h)
      (print_value F j h.1)
    refine ⟨',' :: ((printString k ++ ':' :: print F j) ++ t), by rw [printEntries, h1]; simp, .inr ⟨[], _, rfl, (fun c h => by cases h), ?_⟩⟩
    simpa using members_cons F [] _ t _ es (fun c h => by cases h) hm h2
end

/-! ## One line -/

theorem escapeChar_line (c x : Char) (h : x ∈ escapeChar c) : 32 ≤ x.toNat := by
  unfold escapeChar at h
  have two : ∀ a b : Char, 32 ≤ a.toNat → 32 ≤ b.toNat → x ∈ [a, b] → 32 ≤ x.toNat := by
    intro a b ha hb h
    simp only [List.mem_cons, List.not_mem_nil, or_false] at h
    rcases h with rfl | rfl <;> assumption
  have hx : ∀ n, n < 16 → 32 ≤ (hexChar n).toNat := fun n hn =>
    (by decide +kernel : ∀ n : Fin 16, 32 ≤ (hexChar n.1).toNat) ⟨n, hn⟩
  split at h
  · exact two _ _ (by decide) (by decide) h
  split at h
  · exact two _ _ (by decide) (by decide) h
  split at h
  · exact two _ _ (by decide) (by decide) h
  split at h
  · exact two _ _ (by decide) (by decide) h
  split at h
  · exact two _ _ (by decide) (by decide) h
  split at h
  · exact two _ _ (by decide) (by decide) h
  split at h
  · exact two _ _ (by decide) (by decide) h
  split at h
  · simp only [List.mem_cons, List.not_mem_nil, or_false] at h
    rcases h with rfl | rfl | rfl | rfl | rfl | rfl
    · decide
    · decide
    · decide
    · decide
    · exact hx _ (by omega)
    · exact hx _ (by omega)
  · simp only [List.mem_cons, List.not_mem_nil, or_false] at h
    subst h
    omega

theorem printString_line (s : String) : ∀ x ∈ printString s, 32 ≤ x.toNat := by
  intro x hx
  simp only [printString, List.mem_cons, List.mem_append, List.mem_flatMap, List.not_mem_nil, or_false] at hx
  rcases hx with rfl | ⟨c, -, hc⟩ | rfl
  · decide
  · exact escapeChar_line c x hc
  · decide

theorem printInt_line (n : Int) : ∀ x ∈ printInt n, 32 ≤ x.toNat := by
  have hd : ∀ m, ∀ x ∈ decimal m, 32 ≤ x.toNat := by
    intro m x hx
    have := (Text.isDigit_iff x).mp (Text.decimal_digits m x hx)
    omega
  intro x hx
  unfold printInt at hx
  split at hx
  · rcases List.mem_cons.mp hx with rfl | hx
    · decide
    · exact hd _ x hx
  · exact hd _ x hx

/-- Nothing below the space. -/
def Line (t : Text) : Prop := ∀ x ∈ t, 32 ≤ x.toNat

theorem line_cons {c : Char} {t : Text} (hc : 32 ≤ c.toNat) (h : Line t) : Line (c :: t) := by
  intro x hx
  rcases List.mem_cons.mp hx with rfl | hx
  · exact hc
  · exact h x hx

theorem line_append {s t : Text} (hs : Line s) (ht : Line t) : Line (s ++ t) := by
  intro x hx
  rcases List.mem_append.mp hx with hx | hx
  · exact hs x hx
  · exact ht x hx

mutual
theorem print_line (F : Floats) : (j : J) → Plain j → Line (print F j)
  | .null, _ => by rw [print]; unfold Line; decide
  | .bool true, _ => by rw [print]; unfold Line; decide
  | .bool false, _ => by rw [print]; unfold Line; decide
  | .num n, h => by rw [print]; exact printInt_line n
  | .float _, h => h.elim
  | .str s, _ => by rw [print]; exact printString_line s
  | .arr [], _ => by rw [print]; unfold Line; decide
  | .arr (j :: js), h => by
    simp only [Plain, PlainAll] at h
    rw [print]
    exact line_cons (by decide) (line_append (print_line F j h.1) (printItems_line F js h.2))
  | .obj [], _ => by rw [print]; unfold Line; decide
  | .obj ((k, j) :: es), h => by
    simp only [Plain, PlainMembers] at h
    rw [print]
    exact line_cons (by decide) (line_append (printString_line k) (line_cons (by decide) (line_append (print_line F j h.1)
      (printEntries_line F es h.2))))
theorem printItems_line (F : Floats) : (js : List J) → PlainAll js → Line (printItems F js)
  | [], _ => by rw [printItems]; unfold Line; decide
  | j :: js, h => by
    simp only [PlainAll] at h
    rw [printItems]
    exact line_cons (by decide) (line_append (print_line F j h.1) (printItems_line F js h.2))
theorem printEntries_line (F : Floats) : (es : List (String × J)) → PlainMembers es → Line (printEntries F es)
  | [], _ => by rw [printEntries]; unfold Line; decide
  | (k, j) :: es, h => by
    simp only [PlainMembers] at h
    rw [printEntries]
    exact line_cons (by decide) (line_append (printString_line k) (line_cons (by decide) (line_append (print_line F j h.1)
      (printEntries_line F es h.2))))
end

/-! ## The documents of a type -/

mutual
/-- How deep the documents of a type are nested at most. -/
def JTy.deep : JTy → Nat
  | .leaf _ | .unit | .bool => 0
  | .option t | .newtype t | .versioned t => t.deep
  | .seq t => t.deep + 1
  | .tuple ts | .struct ts => ts.deep + 1
  | .listEnum _ _ vs => max 1 vs.deep
  | .tagEnum vs => vs.deep
def JTys.deep : JTys → Nat
  | .nil => 0
  | .cons _ t ts => max t.deep ts.deep
  | .skip _ _ ts => ts.deep
def JVars.deep : JVars → Nat
  | .nil => 0
  | .cons _ p vs => max p.deep vs.deep
def JPay.deep : JPay → Nat
  | .unit => 0
  | .newtype t => t.deep + 1
  | .tuple ts | .struct ts => ts.deep + 2
end

theorem leaf_flat (E : Env) (c : Leaf) (v : c.wire.denote) (j : J) (h : c.ser E v = .ok j) : Plain j ∧ depth j = 0 := by
  have str : ∀ s : String, Plain (.str s) ∧ depth (.str s) = 0 := fun s => ⟨trivial, rfl⟩
  have un : ∀ bs, uncheckedString bs = .ok j → Plain j ∧ depth j = 0 := by
    intro bs h
    unfold uncheckedString at h
    split at h
    · cases h; exact str _
    · cases h
  cases c with
  | i64 =>
    cases h
    have hv : -2 ^ 63 ≤ (Subtype.val v : Int) ∧ (Subtype.val v : Int) ≤ 2 ^ 63 - 1 := v.2
    exact ⟨⟨hv.1, by have := hv.2; omega⟩, rfl⟩
  | char => exact un _ h
  | byteVec => exact un _ h
  | publicKey =>
    simp only [Leaf.ser] at h
    split at h
    · cases h; exact str _
    · cases h
  | _ => cases h; exact str _

theorem collect_flat {α : Type} (f : α → Except JErr J) (d : Nat) (hf : ∀ a j, f a = .ok j → Plain j ∧ depth j ≤ d) :
    ∀ (as : List α) (js : List J), collect f as = .ok js → PlainAll js ∧ depthAll js ≤ d
  | [], _, h => by cases h; exact ⟨trivial, Nat.zero_le _⟩
  | a :: as, js, h => by
    unfold collect at h
    split at h
    · cases h
    rename_i j hj
    split at h
    · cases h
    rename_i js' hjs
    cases h
    obtain ⟨h1, h2⟩ := hf a j hj
    obtain ⟨h3, h4⟩ := collect_flat f d hf as js' hjs
    exact ⟨⟨h1, h3⟩, by simp only [depthAll]; omega⟩

theorem plainMembers_iff : ∀ es : List (String × J), PlainMembers es ↔ ∀ e ∈ es, Plain e.2
  | [] => by simp [PlainMembers]
  | (k, j) :: es => by simp [PlainMembers, plainMembers_iff es]

theorem depthMembers_le {d : Nat} : ∀ es : List (String × J), depthMembers es ≤ d ↔ ∀ e ∈ es, depth e.2 ≤ d
  | [] => by simp [depthMembers]
  | (k, j) :: es => by simp [depthMembers, Nat.max_le, depthMembers_le es]

mutual
/-- A value is no deeper than its document, and its numbers are those of the document. -/
theorem asValue_flat : (j : J) → (Plain j → Plain (asValue j)) ∧ depth (asValue j) ≤ depth j
  | .null | .bool _ | .num _ | .float _ | .str _ => ⟨id, Nat.le_refl _⟩
  | .arr js => by
    obtain ⟨h1, h2⟩ := asValueItems_flat js
    exact ⟨h1, by simp only [asValue, depth]; omega⟩
  | .obj es => by
    have ih := asValueMembers_flat es
    constructor
    · intro hp
      refine (plainMembers_iff _).mpr fun e he => ?_
      rcases members_mem he with h | ⟨e', he', rfl⟩
      · cases h
      · exact (ih e' he').1 ((plainMembers_iff es).mp hp e' he')
    · have : depthMembers (asValueMembers [] es) ≤ depthMembers es := by
        refine (depthMembers_le _).mpr fun e he => ?_
        rcases members_mem he with h | ⟨e', he', rfl⟩
        · cases h
        · exact Nat.le_trans (ih e' he').2 ((depthMembers_le es).mp (Nat.le_refl _) e' he')
      simp only [asValue, depth]
      omega
theorem asValueItems_flat : (js : List J) → (PlainAll js → PlainAll (asValueItems js)) ∧ depthAll (asValueItems js) ≤ depthAll js
  | [] => ⟨id, Nat.le_refl _⟩
  | j :: js => by
    obtain ⟨h1, h2⟩ := asValue_flat j
    obtain ⟨h3, h4⟩ := asValueItems_flat js
    exact ⟨fun h => ⟨h1 h.1, h3 h.2⟩, by simp only [asValueItems, depthAll]; omega⟩
theorem asValueMembers_flat : (es : List (String × J)) → ∀ e ∈ es, (Plain e.2 → Plain (asValue e.2)) ∧ depth (asValue e.2) ≤ depth e.2
  | [], _, h => by cases h
  | (k, j) :: es, e, h => by
    rcases List.mem_cons.mp h with rfl | h
    · exact asValue_flat j
    · exact asValueMembers_flat es e h
end

theorem listTagged_flat (expand : Bool) (j k : J) (d : Nat) (h : toListTagged expand j = .ok k) (hp : Plain j) (hd : depth j ≤ d) :
    Plain k ∧ depth k ≤ max 1 d := by
  unfold toListTagged at h
  split at h
  · cases h; exact ⟨⟨trivial, trivial⟩, by simp only [depth, depthAll]; omega⟩
  · rename_i key v
    simp only [Plain, PlainMembers] at hp
    simp only [depth, depthMembers] at hd
    split at h
    · rename_i items
      cases h
      exact ⟨⟨trivial, hp.1⟩, by simp only [depth, depthAll] at hd ⊢; omega⟩
    · cases h
      exact ⟨⟨trivial, hp.1, trivial⟩, by simp only [depth, depthAll] at hd ⊢; omega⟩
  · cases h
  · cases h; exact ⟨hp, by omega⟩

mutual
theorem ser_flat (E : Env) : (t : JTy) → (v : t.wire.denote) → (j : J) → ser E t v = .ok j → Plain j ∧ depth j ≤ t.deep
  | .leaf c, v, j, h => by
    obtain ⟨h1, h2⟩ := leaf_flat E c v j h
    exact ⟨h1, by rw [h2]; exact Nat.zero_le _⟩
  | .unit, _, j, h => by cases h; exact ⟨trivial, Nat.zero_le _⟩
  | .bool, v, j, h => by cases h; exact ⟨trivial, Nat.zero_le _⟩
  | .option t, v, j, h => by
    obtain _ | w : Option t.wire.denote := v
    · cases h; exact ⟨trivial, Nat.zero_le _⟩
    · exact ser_flat E t w j h
  | .newtype t, v, j, h => ser_flat E t v j h
  | .seq t, v, j, h => by
    simp only [ser] at h
    split at h
    · rename_i js hjs
      cases h
      obtain ⟨h1, h2⟩ := collect_flat (ser E t) t.deep (fun a j h => ser_flat E t a j h) _ _ hjs
      exact ⟨h1, by simp only [depth, JTy.deep]; omega⟩
    · cases h
  | .tuple ts, v, j, h => by
    simp only [ser] at h
    split at h
    · rename_i js hjs
      cases h
      obtain ⟨h1, h2⟩ := serTuple_flat E ts v js hjs
      exact ⟨h1, by simp only [depth, JTy.deep]; omega⟩
    · cases h
  | .struct ts, v, j, h => by
    simp only [ser] at h
    split at h
    · rename_i es hes
      cases h
      obtain ⟨h1, h2⟩ := serStruct_flat E ts v es hes
      exact ⟨h1, by simp only [depth, JTy.deep]; omega⟩
    · cases h
  | .versioned t, v, j, h => ser_flat E t _ j h
  | .listEnum poly expand vs, v, j, h => by
    simp only [ser] at h
    split at h
    · rename_i j' hj
      obtain ⟨h1, h2⟩ := serTagged_flat E vs _ j' hj
      exact listTagged_flat expand (asValue j') j _ h ((asValue_flat j').1 h1) (Nat.le_trans (asValue_flat j').2 h2)
    · cases h
  | .tagEnum vs, v, j, h => serTagged_flat E vs v j h
theorem serTuple_flat (E : Env) : (ts : JTys) → (v : ts.wire.prod) → (js : List J) → serTuple E ts v = .ok js →
    PlainAll js ∧ depthAll js ≤ ts.deep
  | .nil, _, js, h => by cases h; exact ⟨trivial, Nat.zero_le _⟩
  | .cons n t ts, v, js, h => by
    simp only [serTuple] at h
    split at h
    · cases h
    rename_i j hj
    split at h
    · cases h
    rename_i js' hjs
    cases h
    obtain ⟨h1, h2⟩ := ser_flat E t _ j hj
    obtain ⟨h3, h4⟩ := serTuple_flat E ts _ js' hjs
    exact ⟨⟨h1, h3⟩, by simp only [depthAll, JTys.deep]; omega⟩
  | .skip n s ts, v, js, h => serTuple_flat E ts _ js h
theorem serStruct_flat (E : Env) : (ts : JTys) → (v : ts.wire.prod) → (es : List (String × J)) → serStruct E ts v = .ok es →
    PlainMembers es ∧ depthMembers es ≤ ts.deep
  | .nil, _, js, h => by cases h; exact ⟨trivial, Nat.zero_le _⟩
  | .cons n t ts, v, js, h => by
    simp only [serStruct] at h
    split at h
    · cases h
    rename_i j hj
    split at h
    · cases h
    rename_i js' hjs
    cases h
    obtain ⟨h1, h2⟩ := ser_flat E t _ j hj
    obtain ⟨h3, h4⟩ := serStruct_flat E ts _ js' hjs
    exact ⟨⟨h1, h3⟩, by simp only [depthMembers, JTys.deep]; omega⟩
  | .skip n s ts, v, js, h => serStruct_flat E ts _ js h
theorem serTagged_flat (E : Env) : (vs : JVars) → (v : vs.wire.sum) → (j : J) → serTagged E vs v = .ok j → Plain j ∧ depth j ≤ vs.deep
  | .nil, v, _, _ => nomatch (show Empty from v)
  | .cons n p vs, v, j, h => by
    obtain w | w : p.wire.denote ⊕ vs.wire.sum := v
    · obtain ⟨h1, h2⟩ := serPay_flat E n p w j h
      exact ⟨h1, by simp only [JVars.deep]; omega⟩
    · obtain ⟨h1, h2⟩ := serTagged_flat E vs w j h
      exact ⟨h1, by simp only [JVars.deep]; omega⟩
theorem serPay_flat (E : Env) (n : String) : (p : JPay) → (v : p.wire.denote) → (j : J) → serPay E n p v = .ok j →
    Plain j ∧ depth j ≤ p.deep
  | .unit, _, j, h => by cases h; exact ⟨trivial, Nat.zero_le _⟩
  | .newtype t, v, j, h => by
    simp only [serPay] at h
    split at h
    · rename_i j' hj
      cases h
      obtain ⟨h1, h2⟩ := ser_flat E t v j' hj
      exact ⟨⟨h1, trivial⟩, by simp only [depth, depthMembers, JPay.deep]; omega⟩
    · cases h
  | .tuple ts, v, j, h => by
    simp only [serPay] at h
    split at h
    · rename_i js hjs
      cases h
      obtain ⟨h1, h2⟩ := serTuple_flat E ts v js hjs
      exact ⟨⟨h1, trivial⟩, by simp only [depth, depthMembers, JPay.deep]; omega⟩
    · cases h
  | .struct ts, v, j, h => by
    simp only [serPay] at h
    split at h
    · rename_i es hes
      cases h
      obtain ⟨h1, h2⟩ := serStruct_flat E ts v es hes
      exact ⟨⟨h1, trivial⟩, by simp only [depth, depthMembers, JPay.deep]; omega⟩
    · cases h
end

end MinaRs.Json
