import Verif.Proto.WriteLemmas
import Verif.BinProt.PrimLemmas
import Verif.BinProt.SerdeWire

/-! # Lemmas: messages that one side writes and the other reads -/

namespace MinaRs.Proto

open Spec

theorem utf8_injective {s t : String} (h : BinProt.utf8 s = BinProt.utf8 t) : s = t := by
  have h1 := BinProt.fromUTF8?_utf8 s
  rw [h, BinProt.fromUTF8?_utf8 t] at h1
  exact (Option.some.inj h1).symm

theorem says_unique {kind : Kind} {p : Piece} {v v' : JsVal} (h : Says kind p v) (h' : Says kind p v') : v = v' := by
  cases h with
  | bool enc => cases h'; rfl
  | string s =>
    generalize hp : Piece.bytes (BinProt.utf8 s) = p at h'
    cases h' with
    | string s' =>
      cases utf8_injective (Piece.bytes.inj hp)
      rfl
  | int64 enc l hl =>
    cases h' with
    | int64 _ l' hl' => rw [isLong_unique hl hl']

/-! ## The page's writer -/

theorem tag32 {f w : Nat} (h1 : 1 ≤ f) (h2 : f < 2 ^ 29) (hw : w < 8) : Tag f w (writeVarint32 (8 * f + w)) := by
  obtain ⟨a, b, c⟩ := writeVarint32_spec (n := 8 * f + w) (by omega)
  exact ⟨a, c, b, h1, h2⟩

theorem isLong_bits {l : Long} {n : Int} (h : IsLong l n) : toSigned 64 (bits32 l.low + bits32 l.high * 2 ^ 32) = n := by
  obtain ⟨h1, h2, h3, h4, h5, h6⟩ := h
  unfold toSigned bits32
  split <;> omega

theorem writeVal_written {f : Nat} {kind : Kind} {v : JsVal} (h1 : 1 ≤ f) (h2 : f < 2 ^ 29) (hv : FitsJs kind v) :
    ∃ p, Written f p (writeVarint32 (8 * f + wireType kind) ++ writeVal v) ∧ Says kind p v ∧ ShortBool kind p := by
  cases kind with
  | bool =>
    cases v with
    | bool b =>
      refine ⟨.varint [if b then 1 else 0], .varint f _ _ (tag32 h1 h2 (by decide)) ?_ (by simp) ?_, ?_, rfl⟩
      · cases b
        · exact .last _ (by decide)
        · exact .last _ (by decide)
      · cases b <;> decide
      · cases b
        · exact Says.bool [0]
        · exact Says.bool [1]
    | text t => exact hv.elim
    | long l => exact hv.elim
  | string =>
    cases v with
    | bool b => exact hv.elim
    | text t =>
      obtain ⟨s, rfl, hs⟩ := hv
      unfold FitsText at hs
      obtain ⟨a, b, c⟩ := writeVarint32_spec (n := (BinProt.utf8 s).length) (by omega)
      refine ⟨.bytes (BinProt.utf8 s), ?_, .string s, trivial⟩
      rw [writeVal, writeString_utf16]
      exact .bytes f _ _ _ (tag32 h1 h2 (by decide)) a c b hs
    | long l => exact hv.elim
  | int64 =>
    cases v with
    | bool b => exact hv.elim
    | text t => exact hv.elim
    | long l =>
      obtain ⟨n, hn⟩ := hv
      obtain ⟨a, b, c⟩ := writeVarint64_spec l
      have h3 := bits32_lt l.low
      have h4 := bits32_lt l.high
      refine ⟨.varint (writeVarint64 l), .varint f _ _ (tag32 h1 h2 (by decide)) a c (by rw [b]; omega), .int64 _ l ?_, trivial⟩
      rw [b, isLong_bits hn]
      exact hn

/-- The tags that go with a table. -/
def tags (table : List (Nat × String × Kind)) : List (Nat × String) :=
  table.map (fun e => (8 * e.1 + wireType e.2.2, e.2.1))

theorem encode_message (m : Obj) (l : List (Nat × String × Kind))
    (h : ∀ e ∈ l, 1 ≤ e.1 ∧ e.1 < 2 ^ 29 ∧ ∀ v, get m e.2.1 = some v → FitsJs e.2.2 v) :
    ∃ fs, Message fs (encode (tags l) m) ∧
      (∀ f p, (f, p) ∈ fs → ∃ name kind v, (f, name, kind) ∈ l ∧ get m name = some v ∧ Says kind p v ∧ ShortBool kind p) ∧
      ∀ f name kind v, (f, name, kind) ∈ l → get m name = some v → ∃ p, (f, p) ∈ fs := by
  induction l with
  | nil =>
    exact ⟨[], .nil, by simp, by simp⟩
  | cons e l ih =>
    obtain ⟨f, name, kind⟩ := e
    obtain ⟨fs, h1, h2, h3⟩ := ih (fun e he => h e (List.mem_cons_of_mem _ he))
    obtain ⟨hf1, hf2, hv⟩ := h (f, name, kind) (List.mem_cons_self ..)
    dsimp only at hf1 hf2 hv
    have he : encode (tags ((f, name, kind) :: l)) m =
        (match get m name with
          | some v => writeVarint32 (8 * f + wireType kind) ++ writeVal v
          | none => []) ++ encode (tags l) m := by
      unfold encode tags
      rw [List.map_cons, List.flatMap_cons]
      rfl
    rw [he]
    cases hg : get m name with
    | none =>
      refine ⟨fs, h1, ?_, ?_⟩
      · intro g p hp
        obtain ⟨n', k', v, a, b⟩ := h2 g p hp
        exact ⟨n', k', v, List.mem_cons_of_mem _ a, b⟩
      · intro g n' k' v hm hgv
        rcases List.mem_cons.mp hm with hm | hm
        · cases hm
          rw [hg] at hgv
          cases hgv
        · exact h3 g n' k' v hm hgv
    | some v =>
      obtain ⟨p, hw, hs, hb⟩ := writeVal_written hf1 hf2 (hv v hg)
      refine ⟨(f, p) :: fs, .cons f p fs _ _ hw h1, ?_, ?_⟩
      · intro g q hq
        rcases List.mem_cons.mp hq with hq | hq
        · cases hq
          exact ⟨name, kind, v, List.mem_cons_self .., hg, hs, hb⟩
        · obtain ⟨n', k', v', a, b⟩ := h2 g q hq
          exact ⟨n', k', v', List.mem_cons_of_mem _ a, b⟩
      · intro g n' k' v' hm hgv
        rcases List.mem_cons.mp hm with hm | hm
        · cases hm
          exact ⟨p, List.mem_cons_self ..⟩
        · obtain ⟨q, hq⟩ := h3 g n' k' v' hm hgv
          exact ⟨q, List.mem_cons_of_mem _ hq⟩

theorem field_some {fs : List (Nat × Piece)} {f : Nat} {p : Piece} (h : field fs f = some p) : (f, p) ∈ fs := by
  induction fs with
  | nil => cases h
  | cons e fs ih =>
    obtain ⟨g, q⟩ := e
    rw [field] at h
    cases hr : field fs f with
    | some r =>
      rw [hr] at h
      cases h
      exact List.mem_cons_of_mem _ (ih hr)
    | none =>
      rw [hr] at h
      dsimp only at h
      split at h
      · rename_i hg
        cases h
        subst hg
        exact List.mem_cons_self ..
      · cases h

theorem field_none {fs : List (Nat × Piece)} {f : Nat} (h : field fs f = none) (p : Piece) : (f, p) ∉ fs := by
  induction fs with
  | nil => simp
  | cons e fs ih =>
    obtain ⟨g, q⟩ := e
    rw [field] at h
    cases hr : field fs f with
    | some r =>
      rw [hr] at h
      cases h
    | none =>
      rw [hr] at h
      dsimp only at h
      split at h
      · cases h
      · rename_i hg
        intro hm
        rcases List.mem_cons.mp hm with hm | hm
        · cases hm
          exact hg rfl
        · exact ih hr hm

theorem fieldOf_mem {table : List (Nat × String × Kind)} {f : Nat} {name : String} {kind : Kind}
    (h : fieldOf table f = some (name, kind)) : (f, name, kind) ∈ table := by
  induction table with
  | nil => cases h
  | cons e table ih =>
    obtain ⟨g, n, k⟩ := e
    rw [fieldOf] at h
    split at h
    · rename_i hg
      subst hg
      cases h
      exact List.mem_cons_self ..
    · exact List.mem_cons_of_mem _ (ih h)

theorem mem_fieldOf {table : List (Nat × String × Kind)} (hn : (table.map (·.1)).Nodup) {f : Nat} {name : String} {kind : Kind}
    (h : (f, name, kind) ∈ table) : fieldOf table f = some (name, kind) := by
  induction table with
  | nil => cases h
  | cons e table ih =>
    obtain ⟨g, n, k⟩ := e
    rw [List.map_cons, List.nodup_cons] at hn
    rw [fieldOf]
    rcases List.mem_cons.mp h with h | h
    · cases h
      rw [if_pos rfl]
    · rw [if_neg, ih hn.2 h]
      rintro rfl
      exact hn.1 (List.mem_map.mpr ⟨_, h, rfl⟩)

/-- A message that the page writes and the page reads. -/
theorem decode_encode {table : List (Nat × String × Kind)} (hd : Distinct table) (hn : (table.map (·.1)).Nodup) (m : Obj)
    (h : ∀ e ∈ table, 1 ≤ e.1 ∧ e.1 < 2 ^ 29 ∧ ∀ v, get m e.2.1 = some v → FitsJs e.2.2 v) :
    ∃ n m', decode table (encode (tags table) m) n = .returned m' ∧
      (∀ e ∈ table, get m' e.2.1 = get m e.2.1) ∧ ∀ name, (∀ e ∈ table, e.2.1 ≠ name) → get m' name = none := by
  obtain ⟨fs, h1, h2, h3⟩ := encode_message m table h
  have hfit : Fits table fs := by
    intro f p hp name kind hf
    obtain ⟨n', k', v, a, -, b, c⟩ := h2 f p hp
    have := mem_fieldOf hn a
    rw [hf] at this
    cases this
    exact ⟨c, v, b⟩
  obtain ⟨m', g1, g2, g3⟩ := decode_message hd h1 hfit
  refine ⟨_, m', g1, ?_, ?_⟩
  · rintro ⟨f, name, kind⟩ he
    have hf := mem_fieldOf hn he
    rcases g2 f name kind hf with ⟨a, b⟩ | ⟨p, v, a, b, c⟩
    · dsimp only
      rw [b]
      cases hg : get m name with
      | none => rfl
      | some v =>
        obtain ⟨p, hp⟩ := h3 f name kind v he hg
        exact absurd hp (field_none a p)
    · dsimp only
      rw [c]
      obtain ⟨n', k', v', a', hg, b', -⟩ := h2 f p (field_some a)
      have := mem_fieldOf hn a'
      rw [hf] at this
      cases this
      rw [hg, says_unique b b']
  · intro name hne
    rw [g3 name]
    · rfl
    · intro f kind hf
      exact hne _ (fieldOf_mem hf) rfl

/-! ## The program's writer -/

theorem tagR {f w : Nat} (h1 : 1 ≤ f) (h2 : f < 2 ^ 29) (hw : w < 8) : Tag f w (varint (8 * f + w)) := by
  obtain ⟨a, b, c⟩ := varint_spec (n := 8 * f + w) (by omega)
  exact ⟨a, c, b, h1, h2⟩

theorem signed_wrap {n : Int} (h : -2 ^ 63 ≤ n ∧ n < 2 ^ 63) : toSigned 64 (wrapU 64 n) = n := by
  unfold toSigned wrapU
  split <;> omega

theorem wrap_lt (n : Int) : wrapU 64 n < 2 ^ 64 := by
  unfold wrapU
  omega

theorem isLong_exists {n : Int} (h : -2 ^ 63 ≤ n ∧ n < 2 ^ 63) : ∃ l, IsLong l n := by
  have := isLong_parts (wrap_lt n)
  rw [signed_wrap h] at this
  exact ⟨_, this⟩

/-- The declared type of a value. -/
def kindOf : RVal → Kind
  | .bool _ => .bool
  | .str _ => .string
  | .int _ => .int64

theorem writeField_written {f : Nat} (h1 : 1 ≤ f) (h2 : f < 2 ^ 29) {v : RVal} (hv : FitsR v) :
    (writeField f v = [] ∧ Shown v none) ∨
      ∃ p j, Written f p (writeField f v) ∧ Shown v (some j) ∧ Says (kindOf v) p j ∧ Tells (kindOf v) p v ∧
        ShortBool (kindOf v) p := by
  cases v with
  | bool b =>
    cases b with
    | false => exact .inl ⟨rfl, .no⟩
    | true =>
      refine .inr ⟨.varint [1], .bool true, ?_, .yes, Says.bool [1], Tells.bool [1], rfl⟩
      exact .varint f _ _ (tagR h1 h2 (w := 0) (by omega)) (.last _ (by decide)) (by simp) (by decide)
  | str s =>
    rw [writeField]
    by_cases hs : s = ""
    · subst hs
      rw [if_pos rfl]
      exact .inl ⟨rfl, .empty⟩
    · rw [if_neg hs]
      have hv : (BinProt.utf8 s).length < 2 ^ 31 := hv
      obtain ⟨a, b, c⟩ := varint_spec (n := (BinProt.utf8 s).length) (by omega)
      refine .inr ⟨.bytes (BinProt.utf8 s), .text (utf16 s), ?_, .text s hs, .string s, .string s, trivial⟩
      rw [List.append_assoc]
      exact .bytes f _ _ _ (tagR h1 h2 (by omega)) a c b hv
  | int n =>
    rw [writeField]
    by_cases hn : n = 0
    · subst hn
      rw [if_pos rfl]
      exact .inl ⟨rfl, .zero⟩
    · rw [if_neg hn]
      obtain ⟨a, b, c⟩ := varint_spec (wrap_lt n)
      obtain ⟨l, hl⟩ := isLong_exists hv
      refine .inr ⟨.varint (varint (wrapU 64 n)), .long l, ?_, .int n l hn hl, .int64 _ l ?_, ?_, trivial⟩
      · exact .varint f _ _ (tagR h1 h2 (w := 0) (by omega)) a c (by rw [b]; exact wrap_lt n)
      · rw [b, signed_wrap hv]
        exact hl
      · have := Tells.int64 (varint (wrapU 64 n))
        rw [b, signed_wrap hv] at this
        exact this

theorem writeFields_message (vs : List RVal) (hv : ∀ v ∈ vs, FitsR v) : ∀ f, 1 ≤ f → f + vs.length < 2 ^ 29 →
    ∃ fs, Message fs (writeFields f vs) ∧
      (∀ g p, (g, p) ∈ fs → ∃ i v j, g = f + i ∧ vs[i]? = some v ∧ Shown v (some j) ∧ Says (kindOf v) p j ∧
        Tells (kindOf v) p v ∧ ShortBool (kindOf v) p) ∧
      ∀ (i : Nat) v, vs[i]? = some v → Shown v none ∨ ∃ p, (f + i, p) ∈ fs := by
  induction vs with
  | nil =>
    intro f _ _
    exact ⟨[], .nil, by simp, by simp⟩
  | cons v vs ih =>
    intro f h1 h2
    rw [List.length_cons] at h2
    obtain ⟨fs, g1, g2, g3⟩ := ih (fun w hw => hv w (List.mem_cons_of_mem _ hw)) (f + 1) (by omega) (by omega)
    have hold : ∀ g p, (g, p) ∈ fs → ∃ i w j, g = f + i ∧ (v :: vs)[i]? = some w ∧ Shown w (some j) ∧ Says (kindOf w) p j ∧
        Tells (kindOf w) p w ∧ ShortBool (kindOf w) p := by
      intro g p hp
      obtain ⟨i, w, j, hi, hw, hr⟩ := g2 g p hp
      exact ⟨i + 1, w, j, by omega, by simpa using hw, hr⟩
    rcases writeField_written h1 (by omega) (hv v (List.mem_cons_self ..)) with ⟨he, hs⟩ | ⟨p, j, hw, hr⟩
    · refine ⟨fs, ?_, hold, ?_⟩
      · rw [writeFields, he]
        exact g1
      · intro i w hi
        cases i with
        | zero =>
          simp only [List.getElem?_cons_zero, Option.some.injEq] at hi
          subst hi
          exact .inl hs
        | succ i =>
          simp only [List.getElem?_cons_succ] at hi
          rcases g3 i w hi with h | ⟨q, hq⟩
          · exact .inl h
          · refine .inr ⟨q, ?_⟩
            rw [Nat.add_comm i 1, ← Nat.add_assoc]
            exact hq
    · refine ⟨(f, p) :: fs, .cons f p fs _ _ hw g1, ?_, ?_⟩
      · intro g q hq
        rcases List.mem_cons.mp hq with hq | hq
        · cases hq
          exact ⟨0, v, j, rfl, rfl, hr⟩
        · exact hold g q hq
      · intro i w hi
        cases i with
        | zero => exact .inr ⟨p, List.mem_cons_self ..⟩
        | succ i =>
          simp only [List.getElem?_cons_succ] at hi
          rcases g3 i w hi with h | ⟨q, hq⟩
          · exact .inl h
          · refine .inr ⟨q, List.mem_cons_of_mem _ ?_⟩
            rw [Nat.add_comm i 1, ← Nat.add_assoc]
            exact hq

theorem shown_unique {v : RVal} {j k : Option JsVal} (h : Shown v j) (h' : Shown v k) : j = k := by
  cases h with
  | yes => cases h'; rfl
  | no => cases h'; rfl
  | text s hs =>
    cases h' with
    | text => rfl
    | empty => exact absurd rfl hs
  | empty =>
    cases h' with
    | text _ hs => exact absurd rfl hs
    | empty => rfl
  | int n l hn hl =>
    cases h' with
    | int _ l' _ hl' => rw [isLong_unique hl hl']
    | zero => exact absurd rfl hn
  | zero =>
    cases h' with
    | int _ _ hn _ => exact absurd rfl hn
    | zero => rfl

/-- A message that the program writes and the page reads. -/
theorem decode_write {table : List (Nat × String × Kind)} (hd : Distinct table) (vs : List RVal) (hv : ∀ v ∈ vs, FitsR v)
    (hl : vs.length < 2 ^ 28)
    (hk : ∀ f name kind, fieldOf table f = some (name, kind) → ∃ i v, f = 1 + i ∧ vs[i]? = some v ∧ kindOf v = kind) :
    ∃ n m, decode table (writeMessage vs) n = .returned m ∧
      (∀ (i : Nat) v name kind, vs[i]? = some v → fieldOf table (1 + i) = some (name, kind) → Shown v (get m name)) ∧
      ∀ name, (∀ e ∈ table, e.2.1 ≠ name) → get m name = none := by
  obtain ⟨fs, h1, h2, h3⟩ := writeFields_message vs hv 1 (by omega) (by omega)
  have hfit : Fits table fs := by
    intro f p hp name kind hf
    obtain ⟨i, v, j, hi, hvi, -, hs, -, hb⟩ := h2 f p hp
    obtain ⟨i', v', hi', hvi', hk'⟩ := hk f name kind hf
    have : i = i' := by omega
    subst this
    rw [hvi] at hvi'
    cases hvi'
    rw [← hk']
    exact ⟨hb, j, hs⟩
  obtain ⟨m, g1, g2, g3⟩ := decode_message hd h1 hfit
  refine ⟨_, m, g1, ?_, ?_⟩
  · intro i v name kind hi hf
    obtain ⟨i', v', hi', hvi', hk'⟩ := hk _ name kind hf
    have : i = i' := by omega
    subst this
    rw [hi] at hvi'
    cases hvi'
    rcases g2 (1 + i) name kind hf with ⟨a, b⟩ | ⟨p, j, a, b, c⟩
    · rw [b]
      rcases h3 i v hi with hs | ⟨p, hp⟩
      · exact hs
      · exact absurd hp (field_none a p)
    · rw [c]
      obtain ⟨i', v', j', hi', hvi', hsh, hs, -⟩ := h2 (1 + i) p (field_some a)
      have : i = i' := by omega
      subst this
      rw [hi] at hvi'
      cases hvi'
      subst hk'
      rw [says_unique b hs]
      exact hsh
  · intro name hne
    rw [g3 name]
    · rfl
    · intro f kind hf
      exact hne _ (fieldOf_mem hf) rfl

/-! ## The program's reader -/

theorem takeVarintLoop_enc {enc : Bytes} (h : IsVarint enc) : ∀ (k : Nat) (rest : Bytes), enc.length ≤ k →
    takeVarintLoop k (enc ++ rest) = some (number enc, rest) := by
  induction h with
  | last b hb =>
    intro k rest hk
    obtain ⟨k, rfl⟩ : ∃ j, k = j + 1 := ⟨k - 1, by simp at hk; omega⟩
    rw [List.cons_append, List.nil_append, takeVarintLoop, if_neg (by omega)]
    simp only [number]
    congr 2
    omega
  | more b bs hb hbs ih =>
    intro k rest hk
    obtain ⟨k, rfl⟩ : ∃ j, k = j + 1 := ⟨k - 1, by simp at hk; omega⟩
    rw [List.cons_append, takeVarintLoop, if_pos hb, ih k rest (by simpa using hk)]
    rfl

theorem takeVarint_enc (L : Lib) {enc : Bytes} (h : IsVarint enc) (hl : enc.length ≤ 10) {w : Nat} (hn : number enc < 2 ^ w)
    (rest : Bytes) : takeVarint L w (enc ++ rest) = some (number enc, rest) := by
  unfold takeVarint
  rw [takeVarintLoop_enc h 10 rest hl]
  simp only [bind, Option.bind]
  rw [if_pos hn]

theorem takeBytes_append (bs rest : Bytes) {n : Nat} (h : n = bs.length) : takeBytes n (bs ++ rest) = some (bs, rest) := by
  subst h
  unfold takeBytes
  rw [if_pos (by simp)]
  simp

theorem tag_take (L : Lib) {f w : Nat} {tag : Bytes} (h : Tag f w tag) (hw : w < 8) (rest : Bytes) :
    takeVarint L 32 (tag ++ rest) = some (8 * f + w, rest) := by
  obtain ⟨h1, h2, h3, -, h5⟩ := h
  rw [takeVarint_enc L h1 h2 (by omega) rest, h3]

theorem takeVal_tells (L : Lib) {kind : Kind} {f : Nat} {p : Piece} {v : RVal} {w : Bytes} (hw : Written f p w)
    (ht : Tells kind p v) :
    ∃ tag body, w = tag ++ body ∧ Tag f (wireType kind) tag ∧ ∀ rest : Bytes,
      takeVal L kind (body ++ rest) = some (v, rest) := by
  cases ht with
  | bool enc =>
    cases hw with
    | varint tag _ ht he hl hn =>
      refine ⟨tag, enc, rfl, ht, fun rest => ?_⟩
      unfold takeVal
      simp only
      rw [takeVarint_enc L he hl hn]
      simp only [bind, Option.bind]
      congr 3
      by_cases h0 : number enc = 0 <;> simp [h0]
  | string s =>
    cases hw with
    | bytes tag len _ ht he hl hn hlt =>
      refine ⟨tag, len ++ BinProt.utf8 s, rfl, ht, fun rest => ?_⟩
      unfold takeVal
      simp only
      rw [List.append_assoc, takeVarint_enc L he hl (by omega)]
      simp only [bind, Option.bind]
      rw [takeBytes_append _ rest hn]
      simp only
      rw [BinProt.fromUTF8?_utf8]
  | int64 enc =>
    cases hw with
    | varint tag _ ht he hl hn =>
      refine ⟨tag, enc, rfl, ht, fun rest => ?_⟩
      unfold takeVal
      simp only
      rw [takeVarint_enc L he hl hn]
      rfl

theorem skipValue_written (L : Lib) {f : Nat} {p : Piece} {w : Bytes} (hw : Written f p w) :
    ∃ tag body wt, w = tag ++ body ∧ wt < 8 ∧ wt ≠ 3 ∧ wt ≠ 4 ∧ Tag f wt tag ∧ ∀ rest : Bytes,
      skipValue L wt (body ++ rest) = some rest := by
  cases hw with
  | varint tag enc ht he hl hn =>
    refine ⟨tag, enc, 0, rfl, by omega, by omega, by omega, ht, fun rest => ?_⟩
    unfold skipValue
    simp only
    rw [takeVarint_enc L he hl hn]
    rfl
  | fixed64 tag bs ht hl =>
    refine ⟨tag, bs, 1, rfl, by omega, by omega, by omega, ht, fun rest => ?_⟩
    unfold skipValue
    simp only
    rw [takeBytes_append bs rest hl.symm]
    rfl
  | bytes tag len bs ht he hl hn hlt =>
    refine ⟨tag, len ++ bs, 2, rfl, by omega, by omega, by omega, ht, fun rest => ?_⟩
    unfold skipValue
    simp only
    rw [List.append_assoc, takeVarint_enc L he hl (by omega)]
    simp only [bind, Option.bind]
    rw [takeBytes_append bs rest hn]
    rfl
  | fixed32 tag bs ht hl =>
    refine ⟨tag, bs, 5, rfl, by omega, by omega, by omega, ht, fun rest => ?_⟩
    unfold skipValue
    simp only
    rw [takeBytes_append bs rest hl.symm]
    rfl

theorem withGroups_of_message {fs : List (Nat × Piece)} {bs : Bytes} (h : Message fs bs) : WithGroups fs bs := by
  induction h with
  | nil => exact .nil
  | cons f p fs w rest hw _ ih => exact .cons f p fs w rest hw ih

theorem skipGroup_start (L : Lib) {f w : Nat} {tag : Bytes} (h : Tag f w tag) (hw : w < 8) (k depth : Nat) (rest : Bytes) :
    skipGroup L (k + 1) depth (tag ++ rest) =
      if w = 4 then (if depth = 1 then some rest else skipGroup L k (depth - 1) rest)
      else if w = 3 then skipGroup L k (depth + 1) rest
      else (do
        let rest ← skipValue L w rest
        skipGroup L k depth rest) := by
  have hd : (8 * f + w) / 8 = f := by omega
  have hm : (8 * f + w) % 8 = w := by omega
  have hf : ¬ f = 0 := by have := h.2.2.2.1; omega
  rw [skipGroup, tag_take L h hw rest]
  simp only [bind, Option.bind, hd, hm, if_neg hf]

/-- The fields and groups within a group are passed over. -/
theorem skipGroup_inside (L : Lib) {fs : List (Nat × Piece)} {bs : Bytes} (h : WithGroups fs bs) :
    ∀ (k depth : Nat) (rest : Bytes), 1 ≤ depth → bs.length + rest.length ≤ k →
    ∃ k', rest.length ≤ k' ∧ skipGroup L k depth (bs ++ rest) = skipGroup L k' depth rest := by
  induction h with
  | nil => exact fun k depth rest _ hk => ⟨k, by simpa using hk, rfl⟩
  | cons f p fs w more hw _ ih =>
    intro k depth rest hd hk
    obtain ⟨tag, body, wt, rfl, hwt, h3, h4, ht, hs⟩ := skipValue_written L hw
    have hpos := List.length_pos_iff.mpr (isVarint_ne_nil ht.1)
    simp only [List.length_append] at hk
    obtain ⟨k, rfl⟩ : ∃ j, k = j + 1 := ⟨k - 1, by omega⟩
    obtain ⟨k', g1, g2⟩ := ih k depth rest hd (by omega)
    refine ⟨k', g1, ?_⟩
    rw [List.append_assoc, List.append_assoc, skipGroup_start L ht hwt, if_neg h4, if_neg h3, hs]
    exact g2
  | group f inner fs start inside stop more h3 _ h4 _ ih1 ih2 =>
    intro k depth rest hd hk
    have hpos := List.length_pos_iff.mpr (isVarint_ne_nil h3.1)
    have hpos' := List.length_pos_iff.mpr (isVarint_ne_nil h4.1)
    simp only [List.length_append] at hk
    obtain ⟨k, rfl⟩ : ∃ j, k = j + 1 := ⟨k - 1, by omega⟩
    obtain ⟨k1, g1, g2⟩ := ih1 k (depth + 1) (stop ++ (more ++ rest)) (by omega) (by simp only [List.length_append]; omega)
    simp only [List.length_append] at g1
    obtain ⟨k1, rfl⟩ : ∃ j, k1 = j + 1 := ⟨k1 - 1, by omega⟩
    obtain ⟨k2, g3, g4⟩ := ih2 k1 depth rest hd (by omega)
    refine ⟨k2, g3, ?_⟩
    rw [List.append_assoc, List.append_assoc, List.append_assoc, skipGroup_start L h3 (by decide), if_neg (by decide), if_pos rfl, g2,
      skipGroup_start L h4 (by decide), if_pos rfl, if_neg (by omega), Nat.add_sub_cancel, g4]

/-- A whole group is skipped. -/
theorem skipGroup_group (L : Lib) {f : Nat} {fs : List (Nat × Piece)} {inside stop : Bytes} (h : WithGroups fs inside) (h4 : Tag f 4 stop)
    (rest : Bytes) : skipGroup L (inside ++ (stop ++ rest)).length 1 (inside ++ (stop ++ rest)) = some rest := by
  have hpos := List.length_pos_iff.mpr (isVarint_ne_nil h4.1)
  obtain ⟨k, g1, g2⟩ := skipGroup_inside L h (inside ++ (stop ++ rest)).length 1 (stop ++ rest) (Nat.le_refl _)
    (by simp only [List.length_append]; omega)
  simp only [List.length_append] at g1
  obtain ⟨k, rfl⟩ : ∃ j, k = j + 1 := ⟨k - 1, by omega⟩
  rw [g2, skipGroup_start L h4 (by decide), if_pos rfl, if_pos rfl]

theorem parseLoop_start (L : Lib) (kinds : Nat → Option Kind) {f w : Nat} {tag : Bytes} (h : Tag f w tag) (hw : w < 8)
    (k : Nat) (rest : Bytes) (m : List (Nat × RVal)) :
    parseLoop L kinds (k + 1) (tag ++ rest) m =
      (match kinds f with
      | some kind =>
        if w = wireType kind then do
          let (v, rest) ← takeVal L kind rest
          parseLoop L kinds k rest ((f, v) :: m)
        else do
          let rest ← (if w = 3 then skipGroup L rest.length 1 rest else skipValue L w rest)
          parseLoop L kinds k rest m
      | none => do
          let rest ← (if w = 3 then skipGroup L rest.length 1 rest else skipValue L w rest)
          parseLoop L kinds k rest m) := by
  have ht := tag_take L h hw rest
  have hd : (8 * f + w) / 8 = f := by omega
  have hm : (8 * f + w) % 8 = w := by omega
  have hf : ¬ f = 0 := by have := h.2.2.2.1; omega
  obtain ⟨b, bs, hb⟩ : ∃ b bs, tag ++ rest = b :: bs := by
    cases hc : tag ++ rest with
    | nil => exact absurd (List.append_eq_nil_iff.mp hc).1 (isVarint_ne_nil h.1)
    | cons b bs => exact ⟨b, bs, rfl⟩
  rw [hb] at ht ⊢
  rw [parseLoop, ht]
  simp only [bind, Option.bind, hd, hm, if_neg hf]
  rfl

/-- The fields that the program knows have the declared type. -/
def FitsP (kinds : Nat → Option Kind) (fs : List (Nat × Piece)) : Prop :=
  ∀ f p, (f, p) ∈ fs → ∀ kind, kinds f = some kind → ∃ v, Tells kind p v

theorem parseLoop_message (L : Lib) (kinds : Nat → Option Kind) {fs : List (Nat × Piece)} {bs : Bytes} (h : WithGroups fs bs) :
    FitsP kinds fs → ∀ (k : Nat) (m : List (Nat × RVal)), bs.length ≤ k →
    ∃ m', parseLoop L kinds k bs m = some m' ∧
      ∀ f kind, kinds f = some kind →
        (field fs f = none ∧ fieldVal m' f = fieldVal m f) ∨
          ∃ p v, field fs f = some p ∧ Tells kind p v ∧ fieldVal m' f = some v := by
  induction h with
  | nil =>
    intro _ k m _
    refine ⟨m, ?_, fun f kind _ => .inl ⟨rfl, rfl⟩⟩
    cases k <;> rfl
  | cons f p fs w rest hw _ ih =>
    intro hf k m hk
    have ih := ih (fun g q hg => hf g q (List.mem_cons_of_mem _ hg))
    have hskip : ∀ (tag body : Bytes) (k' : Nat), w = tag ++ body → tag ≠ [] → k = k' + 1 → rest.length ≤ k' := by
      intro tag body k' hwe hne hke
      have := List.length_pos_iff.mpr hne
      rw [List.length_append, hwe, List.length_append] at hk
      omega
    have hpos : 0 < k := by
      obtain ⟨tag, body, wt, rfl, -, -, -, ht, -⟩ := skipValue_written L hw
      have := List.length_pos_iff.mpr (isVarint_ne_nil ht.1)
      simp only [List.length_append] at hk
      omega
    obtain ⟨k, rfl⟩ : ∃ j, k = j + 1 := ⟨k - 1, by omega⟩
    cases hkf : kinds f with
    | none =>
      obtain ⟨tag, body, wt, hwe, hwt, h3, -, ht, hs⟩ := skipValue_written L hw
      obtain ⟨m', g1, g2⟩ := ih k m (hskip tag body k hwe (isVarint_ne_nil ht.1) rfl)
      refine ⟨m', ?_, ?_⟩
      · rw [hwe, List.append_assoc, parseLoop_start L kinds ht hwt, hkf]
        simp only [if_neg h3, hs, bind, Option.bind]
        exact g1
      · intro g kind hg
        have hne : f ≠ g := by
          rintro rfl
          rw [hkf] at hg
          cases hg
        rcases g2 g kind hg with ⟨a, b⟩ | ⟨q, v, a, b⟩
        · refine .inl ⟨?_, b⟩
          rw [field, a]
          exact if_neg hne
        · refine .inr ⟨q, v, ?_, b⟩
          rw [field, a]
    | some kind =>
      obtain ⟨v, hv⟩ := hf f p (List.mem_cons_self ..) kind hkf
      obtain ⟨tag, body, hwe, ht, hs⟩ := takeVal_tells L hw hv
      obtain ⟨m', g1, g2⟩ := ih k ((f, v) :: m) (hskip tag body k hwe (isVarint_ne_nil ht.1) rfl)
      refine ⟨m', ?_, ?_⟩
      · rw [hwe, List.append_assoc, parseLoop_start L kinds ht (by cases kind <;> decide), hkf]
        simp only [if_true, hs, bind, Option.bind]
        exact g1
      · intro g kind' hg
        rcases g2 g kind' hg with ⟨a, b⟩ | ⟨q, v', a, b⟩
        · by_cases hfg : f = g
          · subst hfg
            rw [hkf] at hg
            cases hg
            refine .inr ⟨p, v, ?_, hv, ?_⟩
            · rw [field, a]
              exact if_pos rfl
            · rw [b, fieldVal, if_pos rfl]
          · refine .inl ⟨?_, ?_⟩
            · rw [field, a]
              exact if_neg hfg
            · rw [b, fieldVal, if_neg hfg]
        · refine .inr ⟨q, v', ?_, b⟩
          rw [field, a]
  | group f inner fs start inside stop rest h3 h4 h5 _ _ ih =>
    intro hf k m hk
    have hpos := List.length_pos_iff.mpr (isVarint_ne_nil h3.1)
    simp only [List.length_append] at hk
    obtain ⟨k, rfl⟩ : ∃ j, k = j + 1 := ⟨k - 1, by omega⟩
    obtain ⟨m', g1, g2⟩ := ih hf k m (by omega)
    refine ⟨m', ?_, g2⟩
    rw [parseLoop_start L kinds h3 (by decide)]
    cases kinds f with
    | none =>
      simp only [if_true, skipGroup_group L h4 h5, bind, Option.bind]
      exact g1
    | some kind =>
      have hk3 : ¬ 3 = wireType kind := by cases kind <;> decide
      simp only [if_neg hk3, if_true, skipGroup_group L h4 h5, bind, Option.bind]
      exact g1

end MinaRs.Proto
