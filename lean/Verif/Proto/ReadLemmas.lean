import Verif.Proto.TextLemmas

/-! # Lemmas: the page's reader on protobuf messages -/

namespace MinaRs.Proto

open Spec

theorem byteAt_mid (pre r : Bytes) (b : UInt8) : byteAt (pre ++ b :: r) (pre.length : Int) = b.toNat := by
  unfold byteAt
  rw [if_neg (by omega)]
  simp

theorem left_mid (pre r : Bytes) : left (pre ++ r) (pre.length : Int) = r.length := by
  unfold left
  rw [List.length_append]
  omega

theorem isVarint_ne_nil {enc : Bytes} (h : IsVarint enc) : enc ≠ [] := by cases h <;> simp

theorem pre_cons (pre r : Bytes) (b : UInt8) : pre ++ b :: r = (pre ++ [b]) ++ r := by simp

theorem length_snoc (pre : Bytes) (b : UInt8) : ((pre ++ [b]).length : Int) = (pre.length : Int) + 1 := by simp

theorem readVarint32Loop_enc {enc : Bytes} (h : IsVarint enc) : ∀ (pre rest : Bytes) (c v : Nat),
    v + number enc * 2 ^ c < 2 ^ 32 →
    readVarint32Loop (pre ++ (enc ++ rest)) (enc ++ rest).length c v pre.length =
      .ok (v + number enc * 2 ^ c, ((pre ++ enc).length : Int)) := by
  induction h with
  | last b hb =>
    intro pre rest c v hv
    simp only [number, Nat.mul_zero, Nat.add_zero] at hv ⊢
    simp only [List.cons_append, List.nil_append, List.length_cons]
    rw [readVarint32Loop]
    simp only [byteAt_mid]
    rw [if_neg (by omega), ← length_snoc, Nat.mod_eq_of_lt hb] at *
    congr 2
    split
    · rw [Nat.mod_eq_of_lt (by omega)]
    · rename_i hc
      have h32 : 2 ^ 32 ≤ 2 ^ c := Nat.pow_le_pow_right (by omega) (by omega)
      have : b.toNat = 0 := by
        rcases Nat.eq_zero_or_pos b.toNat with h | h
        · exact h
        · have := Nat.le_mul_of_pos_left (2 ^ c) h
          omega
      rw [this, Nat.zero_mul, Nat.add_zero]
  | more b bs hb hbs ih =>
    intro pre rest c v hv
    have he : number (b :: bs) * 2 ^ c = b.toNat % 128 * 2 ^ c + number bs * 2 ^ (c + 7) := by
      rw [number, Nat.add_mul, Nat.pow_add, Nat.mul_comm 128, Nat.mul_assoc, Nat.mul_comm (2 ^ c)]
    rw [he] at hv ⊢
    have hadd : (if c < 32 then v + b.toNat % 128 * 2 ^ c % 2 ^ 32 else v) = v + b.toNat % 128 * 2 ^ c := by
      split
      · rw [Nat.mod_eq_of_lt (by omega)]
      · rename_i hc
        have h32 : 2 ^ 32 ≤ 2 ^ c := Nat.pow_le_pow_right (by omega) (by omega)
        have : b.toNat % 128 = 0 := by
          rcases Nat.eq_zero_or_pos (b.toNat % 128) with h | h
          · exact h
          · have := Nat.le_mul_of_pos_left (2 ^ c) h
            omega
        rw [this, Nat.zero_mul, Nat.add_zero]
    have := ih (pre ++ [b]) rest (c + 7) (v + b.toNat % 128 * 2 ^ c) (by omega)
    simp only [List.cons_append, List.length_cons]
    rw [readVarint32Loop]
    simp only [byteAt_mid]
    rw [if_pos hb, hadd, pre_cons, ← length_snoc, this]
    congr 2
    · omega
    · simp

theorem readVarint32_enc {enc : Bytes} (h : IsVarint enc) (pre rest : Bytes) (hn : number enc < 2 ^ 32) :
    readVarint32 (pre ++ (enc ++ rest)) pre.length = .ok (number enc, ((pre ++ enc).length : Int)) := by
  unfold readVarint32
  rw [left_mid]
  have := readVarint32Loop_enc h pre rest 0 0 (by omega)
  simpa using this

theorem skipVarint_enc {enc : Bytes} (h : IsVarint enc) : ∀ (pre rest : Bytes),
    skipVarint (pre ++ (enc ++ rest)) (enc ++ rest).length pre.length = .ok ((pre ++ enc).length : Int) := by
  induction h with
  | last b hb =>
    intro pre rest
    simp only [List.cons_append, List.nil_append, List.length_cons]
    rw [skipVarint, byteAt_mid, if_neg (by omega), ← length_snoc]
  | more b bs hb hbs ih =>
    intro pre rest
    simp only [List.cons_append, List.length_cons]
    rw [skipVarint, byteAt_mid, if_pos hb, pre_cons, ← length_snoc, ih (pre ++ [b]) rest]
    simp

theorem readVarint64Loop_enc {enc : Bytes} (h : IsVarint enc) : ∀ (pre rest : Bytes) (n : Nat), enc.length ≤ n →
    readVarint64Loop (pre ++ (enc ++ rest)) n pre.length = .ok (number enc, ((pre ++ enc).length : Int)) := by
  induction h with
  | last b hb =>
    intro pre rest n hn
    obtain ⟨n, rfl⟩ : ∃ k, n = k + 1 := ⟨n - 1, by simp at hn; omega⟩
    simp only [List.cons_append, List.nil_append]
    rw [readVarint64Loop, if_neg (by simp; omega)]
    simp only [byteAt_mid]
    rw [if_neg (by omega), ← length_snoc]
    rfl
  | more b bs hb hbs ih =>
    intro pre rest n hn
    obtain ⟨n, rfl⟩ : ∃ k, n = k + 1 := ⟨n - 1, by simp at hn; omega⟩
    simp only [List.cons_append]
    rw [readVarint64Loop, if_neg (by simp; omega)]
    simp only [byteAt_mid]
    rw [if_pos hb, pre_cons, ← length_snoc, ih (pre ++ [b]) rest n (by simpa using hn)]
    simp [number, bind, Except.bind]

theorem isLong_parts {n : Nat} (hn : n < 2 ^ 64) :
    IsLong ⟨int32 (n % 2 ^ 28 + n / 2 ^ 28 % 2 ^ 28 % 16 * 2 ^ 28),
      int32 (n / 2 ^ 28 % 2 ^ 28 / 16 + n / 2 ^ 56 % 256 * 2 ^ 24), false⟩ (toSigned 64 n) := by
  have h1 : n % 2 ^ 28 + n / 2 ^ 28 % 2 ^ 28 % 16 * 2 ^ 28 = n % 2 ^ 32 := by omega
  have h2 : n / 2 ^ 28 % 2 ^ 28 / 16 + n / 2 ^ 56 % 256 * 2 ^ 24 = n / 2 ^ 32 := by omega
  rw [h1, h2]
  unfold IsLong int32 toSigned
  dsimp only
  refine ⟨?_, ?_, ?_, ?_, ?_, rfl⟩
  · split <;> split <;> split <;> omega
  · split <;> omega
  · split <;> omega
  · split <;> omega
  · split <;> omega

theorem isLong_unique {l l' : Long} {n : Int} (h : IsLong l n) (h' : IsLong l' n) : l = l' := by
  obtain ⟨a, b, u⟩ := l
  obtain ⟨a', b', u'⟩ := l'
  obtain ⟨h1, h2, h3, h4, h5, h6⟩ := h
  obtain ⟨g1, g2, g3, g4, g5, g6⟩ := h'
  dsimp only at *
  subst h6 g6
  have : b = b' := by omega
  have : a = a' := by omega
  subst_vars
  rfl

theorem readVarint64_enc {enc : Bytes} (h : IsVarint enc) (hl : enc.length ≤ 10) (hn : number enc < 2 ^ 64) (pre rest : Bytes)
    {l : Long} (hs : IsLong l (toSigned 64 (number enc))) :
    readVarint64 (pre ++ (enc ++ rest)) pre.length = .ok (l, ((pre ++ enc).length : Int)) := by
  unfold readVarint64
  rw [readVarint64Loop_enc h pre rest 10 hl]
  rw [isLong_unique hs (isLong_parts hn)]
  rfl

theorem range_bytes (bs rest : Bytes) : ∀ pre : Bytes,
    (List.range bs.length).map (fun i : Nat => byteAt (pre ++ (bs ++ rest)) ((pre.length : Int) + i)) = bs.map UInt8.toNat := by
  intro pre
  apply List.ext_getElem
  · simp
  · intro i h1 h2
    simp only [List.length_map, List.length_range] at h1
    simp only [List.getElem_map, List.getElem_range]
    unfold byteAt
    rw [if_neg (by omega)]
    have : ((pre.length : Int) + i).toNat = pre.length + i := by omega
    rw [this, List.getElem?_append_right (by omega), Nat.add_sub_cancel_left, List.getElem?_append_left h1,
      List.getElem?_eq_getElem h1]

theorem int32_small {n : Nat} (h : n < 2 ^ 31) : int32 n = n := by
  unfold int32 toSigned
  rw [if_pos h]

theorem readString_bytes (pre bs rest : Bytes) :
    readString (pre ++ (bs ++ rest)) pre.length (bs.length : Int) =
      .ok (text (bs.map UInt8.toNat), ((pre ++ bs).length : Int)) := by
  unfold readString
  rw [if_neg (by simp only [List.length_append]; omega), Int.toNat_natCast, range_bytes]
  simp

theorem skip_bytes (pre bs rest : Bytes) {n : Int} (h : n = bs.length) :
    skip (pre ++ (bs ++ rest)) pre.length n = .ok ((pre ++ bs).length : Int) := by
  subst h
  unfold skip
  rw [if_neg (by simp only [List.length_append]; omega)]
  simp

theorem tag_read {f w : Nat} {tag : Bytes} (h : Tag f w tag) (hw : w < 8) (pre rest : Bytes) :
    readVarint32 (pre ++ (tag ++ rest)) pre.length = .ok (8 * f + w, ((pre ++ tag).length : Int)) := by
  obtain ⟨h1, -, h3, -, h5⟩ := h
  rw [readVarint32_enc h1 pre rest (by omega), h3]

theorem round_start {table : List (Nat × String × Kind)} {f w : Nat} {tag : Bytes} (h : Tag f w tag) (hw : w < 8)
    (pre rest : Bytes) (m : Obj) :
    round table (pre ++ (tag ++ rest)) pre.length m =
      match fieldOf table f with
      | some (name, kind) =>
        match readVal ((pre ++ tag) ++ rest) ((pre ++ tag).length : Int) kind with
        | .error e => .threw e
        | .ok (v, o) => .running o (put m name v)
      | none =>
        match skipUnknownField ((pre ++ tag) ++ rest) ((pre ++ tag).length : Int) w with
        | .error e => .threw e
        | .ok o => .running o m := by
  have hne : tag ≠ [] := isVarint_ne_nil h.1
  have hlen : 0 < tag.length := List.length_pos_iff.mpr hne
  unfold round
  rw [if_neg (by simp only [List.length_append]; omega), tag_read h hw]
  have hd : (8 * f + w) / 8 = f := by omega
  have hm : (8 * f + w) % 8 = w := by omega
  dsimp only
  rw [hd, hm, if_neg (by have := h.2.2.2.1; omega), List.append_assoc]
  rfl

theorem readVal_says {kind : Kind} {f : Nat} {p : Piece} {v : JsVal} {w : Bytes} (hw : Written f p w) (hs : Says kind p v)
    (hb : ShortBool kind p) :
    ∃ tag body wt, w = tag ++ body ∧ wt < 8 ∧ Tag f wt tag ∧ ∀ pre rest : Bytes,
      readVal (pre ++ (body ++ rest)) pre.length kind = .ok (v, ((pre ++ body).length : Int)) := by
  cases hs with
  | bool enc =>
    cases hw with
    | varint tag _ ht he hl hn =>
      refine ⟨tag, enc, 0, rfl, by omega, ht, fun pre rest => ?_⟩
      have hb : enc.length = 1 := hb
      cases he with
      | last b hb =>
        unfold readVal
        simp only [List.cons_append, List.nil_append]
        have hn : number [b] = b.toNat := by simp only [number]; omega
        have hd : (b.toNat != 0) = decide (number [b] ≠ 0) := by
          rw [hn]
          by_cases h0 : b.toNat = 0 <;> simp [h0]
        rw [if_neg (by simp only [List.length_append, List.length_cons]; omega), byteAt_mid, ← length_snoc _ b, hd]
      | more b bs hb' hbs =>
        have := List.length_pos_iff.mpr (isVarint_ne_nil hbs)
        simp only [List.length_cons] at hb
        omega
  | string s =>
    cases hw with
    | bytes tag len _ ht he hl hn hlt =>
      refine ⟨tag, len ++ BinProt.utf8 s, 2, by simp, by omega, ht, fun pre rest => ?_⟩
      unfold readVal
      rw [List.append_assoc, readVarint32_enc he pre _ (by omega), hn]
      simp only [bind, Except.bind]
      rw [int32_small hlt]
      have := readString_bytes (pre ++ len) (BinProt.utf8 s) rest
      simp only [List.append_assoc] at this ⊢
      rw [this]
      simp only
      rw [text_utf8]
  | int64 enc l hl' =>
    cases hw with
    | varint tag _ ht he hl hn =>
      refine ⟨tag, enc, 0, rfl, by omega, ht, fun pre rest => ?_⟩
      unfold readVal
      rw [readVarint64_enc he hl hn pre rest hl']
      rfl

theorem round_known {table : List (Nat × String × Kind)} {f : Nat} {name : String} {kind : Kind} {p : Piece} {v : JsVal} {w : Bytes}
    (hf : fieldOf table f = some (name, kind)) (hw : Written f p w) (hs : Says kind p v) (hb : ShortBool kind p)
    (pre rest : Bytes) (m : Obj) :
    round table (pre ++ (w ++ rest)) pre.length m = .running ((pre ++ w).length : Int) (put m name v) := by
  obtain ⟨tag, body, wt, rfl, hwt, ht, hr⟩ := readVal_says hw hs hb
  rw [List.append_assoc, round_start ht hwt, hf]
  dsimp only
  rw [hr (pre ++ tag) rest, List.append_assoc]

theorem skip_written {f : Nat} {p : Piece} {w : Bytes} (hw : Written f p w) :
    ∃ tag body wt, w = tag ++ body ∧ wt < 8 ∧ Tag f wt tag ∧ ∀ pre rest : Bytes,
      skipUnknownField (pre ++ (body ++ rest)) pre.length wt = .ok ((pre ++ body).length : Int) := by
  cases hw with
  | varint tag enc ht he hl hn =>
    refine ⟨tag, enc, 0, rfl, by omega, ht, fun pre rest => ?_⟩
    unfold skipUnknownField
    rw [left_mid]
    exact skipVarint_enc he pre rest
  | fixed64 tag bs ht hl =>
    exact ⟨tag, bs, 1, rfl, by omega, ht, fun pre rest => skip_bytes pre bs rest (by omega)⟩
  | bytes tag len bs ht he hl hn hlt =>
    refine ⟨tag, len ++ bs, 2, rfl, by omega, ht, fun pre rest => ?_⟩
    unfold skipUnknownField
    rw [List.append_assoc, readVarint32_enc he pre _ (by omega), hn]
    simp only [bind, Except.bind]
    rw [int32_small hlt]
    have := skip_bytes (pre ++ len) bs rest rfl
    simp only [List.append_assoc] at this ⊢
    exact this
  | fixed32 tag bs ht hl =>
    exact ⟨tag, bs, 5, rfl, by omega, ht, fun pre rest => skip_bytes pre bs rest (by omega)⟩

theorem round_unknown {table : List (Nat × String × Kind)} {f : Nat} {p : Piece} {w : Bytes} (hf : fieldOf table f = none)
    (hw : Written f p w) (pre rest : Bytes) (m : Obj) :
    round table (pre ++ (w ++ rest)) pre.length m = .running ((pre ++ w).length : Int) m := by
  obtain ⟨tag, body, wt, rfl, hwt, ht, hr⟩ := skip_written hw
  rw [List.append_assoc, round_start ht hwt, hf]
  dsimp only
  rw [hr (pre ++ tag) rest, List.append_assoc]

theorem get_put (m : Obj) (name name' : String) (v : JsVal) :
    get (put m name v) name' = if name = name' then some v else get m name' := rfl

/-- No two numbers have the same property. -/
def Distinct (table : List (Nat × String × Kind)) : Prop :=
  ∀ f g name k k', fieldOf table f = some (name, k) → fieldOf table g = some (name, k') → f = g

/-- What the properties of a message are, given what they were. -/
def Reads (table : List (Nat × String × Kind)) (fs : List (Nat × Piece)) (m m' : Obj) : Prop :=
  (∀ f name kind, fieldOf table f = some (name, kind) →
    (field fs f = none ∧ get m' name = get m name) ∨
      ∃ p v, field fs f = some p ∧ Says kind p v ∧ get m' name = some v) ∧
  ∀ name, (∀ f kind, fieldOf table f ≠ some (name, kind)) → get m' name = get m name

/-- The fields that the table knows have the declared type. -/
def Fits (table : List (Nat × String × Kind)) (fs : List (Nat × Piece)) : Prop :=
  ∀ f p, (f, p) ∈ fs → ∀ name kind, fieldOf table f = some (name, kind) → ShortBool kind p ∧ ∃ v, Says kind p v

theorem rounds_prefix {table : List (Nat × String × Kind)} (hd : Distinct table) {fs : List (Nat × Piece)} {bs : Bytes}
    (h : Message fs bs) : Fits table fs → ∀ (pre : Bytes) (m : Obj),
    ∃ m', (∀ (rest : Bytes) (n : Nat), rounds table (pre ++ (bs ++ rest)) (n + fs.length) pre.length m =
      rounds table (pre ++ (bs ++ rest)) n ((pre ++ bs).length : Int) m') ∧ Reads table fs m m' := by
  induction h with
  | nil =>
    intro _ pre m
    refine ⟨m, ?_, ?_, fun _ _ => rfl⟩
    · intro rest n
      simp
    · intro f name kind _
      exact .inl ⟨rfl, rfl⟩
  | cons f p fs w rest hw _ ih =>
    intro hf pre m
    cases hk : fieldOf table f with
    | none =>
      obtain ⟨m', h1, h2, h3⟩ := ih (fun g q hg => hf g q (List.mem_cons_of_mem _ hg)) (pre ++ w) m
      refine ⟨m', ?_, ?_, h3⟩
      · intro rest' n
        rw [List.length_cons, ← Nat.add_assoc, rounds, List.append_assoc w, round_unknown hk hw]
        dsimp only
        have := h1 rest' n
        simp only [List.append_assoc] at this ⊢
        exact this
      · intro g name kind hg
        have hne : f ≠ g := by
          rintro rfl
          rw [hk] at hg
          cases hg
        rcases h2 g name kind hg with ⟨h4, h5⟩ | ⟨q, v, h4, h5, h6⟩
        · refine .inl ⟨?_, h5⟩
          rw [field, h4]
          exact if_neg hne
        · refine .inr ⟨q, v, ?_, h5, h6⟩
          rw [field, h4]
    | some nk =>
      obtain ⟨name, kind⟩ := nk
      obtain ⟨hb, v, hv⟩ := hf f p (List.mem_cons_self ..) name kind hk
      obtain ⟨m', h1, h2, h3⟩ := ih (fun g q hg => hf g q (List.mem_cons_of_mem _ hg)) (pre ++ w) (put m name v)
      refine ⟨m', ?_, ?_, ?_⟩
      · intro rest' n
        rw [List.length_cons, ← Nat.add_assoc, rounds, List.append_assoc w, round_known hk hw hv hb]
        dsimp only
        have := h1 rest' n
        simp only [List.append_assoc] at this ⊢
        exact this
      · intro g name' kind' hg
        rcases h2 g name' kind' hg with ⟨h4, h5⟩ | ⟨q, v', h4, h5, h6⟩
        · by_cases hfg : f = g
          · subst hfg
            rw [hk] at hg
            cases hg
            refine .inr ⟨p, v, ?_, hv, ?_⟩
            · rw [field, h4]
              exact if_pos rfl
            · rw [h5, get_put, if_pos rfl]
          · refine .inl ⟨?_, ?_⟩
            · rw [field, h4]
              exact if_neg hfg
            · rw [h5, get_put, if_neg]
              rintro rfl
              exact hfg (hd f g name kind kind' hk hg)
        · refine .inr ⟨q, v', ?_, h5, h6⟩
          rw [field, h4]
      · intro name' hn
        rw [h3 name' hn, get_put, if_neg]
        rintro rfl
        exact hn f kind hk

theorem rounds_message {table : List (Nat × String × Kind)} (hd : Distinct table) {fs : List (Nat × Piece)} {bs : Bytes}
    (h : Message fs bs) (hf : Fits table fs) (pre : Bytes) (m : Obj) :
    ∃ m', rounds table (pre ++ bs) (fs.length + 1) pre.length m = .returned m' ∧ Reads table fs m m' := by
  obtain ⟨m', h1, h2⟩ := rounds_prefix hd h hf pre m
  refine ⟨m', ?_, h2⟩
  have := h1 [] 1
  rw [List.append_nil] at this
  rw [Nat.add_comm, this, rounds, round, if_pos (by omega)]

theorem decode_message {table : List (Nat × String × Kind)} (hd : Distinct table) {fs : List (Nat × Piece)} {bs : Bytes}
    (h : Message fs bs) (hf : Fits table fs) :
    ∃ m, decode table bs (fs.length + 1) = .returned m ∧ Reads table fs [] m :=
  rounds_message hd h hf [] []

end MinaRs.Proto
