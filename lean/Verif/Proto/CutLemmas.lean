import Verif.Proto.Props

/-! # Lemmas: messages that end within a field -/

namespace MinaRs.Proto

open Spec

/-- All bytes have their top bit set: a number that is cut short. -/
def AllHigh (bs : Bytes) : Prop := ∀ b ∈ bs, 128 ≤ b.toNat

theorem isVarint_prefix {enc : Bytes} (h : IsVarint enc) : ∀ {a b : Bytes}, enc = a ++ b → b ≠ [] → AllHigh a := by
  induction h with
  | last c hc =>
    intro a b he hb
    cases a with
    | nil => intro x hx; cases hx
    | cons x a =>
      rw [List.cons_append] at he
      have := (List.cons.inj he).2
      exact absurd (List.append_eq_nil_iff.mp this.symm).2 hb
  | more c bs hc hbs ih =>
    intro a b he hb
    cases a with
    | nil => intro x hx; cases hx
    | cons x a =>
      rw [List.cons_append] at he
      obtain ⟨rfl, he'⟩ := List.cons.inj he
      intro y hy
      rcases List.mem_cons.mp hy with rfl | hy
      · exact hc
      · exact ih he' hb y hy

theorem readVarint32Loop_high (a : Bytes) : AllHigh a → ∀ (pre : Bytes) (c v : Nat),
    readVarint32Loop (pre ++ a) a.length c v pre.length = .error .pastLimit := by
  induction a with
  | nil => intro _ pre c v; rfl
  | cons b a ih =>
    intro h pre c v
    rw [List.length_cons, readVarint32Loop]
    simp only [byteAt_mid]
    rw [if_pos (h b (List.mem_cons_self ..)), pre_cons, ← length_snoc]
    exact ih (fun x hx => h x (List.mem_cons_of_mem _ hx)) _ _ _

theorem readVarint32_high {a : Bytes} (h : AllHigh a) (pre : Bytes) :
    readVarint32 (pre ++ a) pre.length = .error .pastLimit := by
  unfold readVarint32
  rw [left_mid]
  exact readVarint32Loop_high a h pre 0 0

theorem skipVarint_high (a : Bytes) : AllHigh a → ∀ (pre : Bytes),
    skipVarint (pre ++ a) a.length pre.length = .error .pastLimit := by
  induction a with
  | nil => intro _ pre; rfl
  | cons b a ih =>
    intro h pre
    rw [List.length_cons, skipVarint, byteAt_mid, if_pos (h b (List.mem_cons_self ..)), pre_cons, ← length_snoc]
    exact ih (fun x hx => h x (List.mem_cons_of_mem _ hx)) _

theorem readVarint64Loop_high (a : Bytes) : AllHigh a → ∀ (pre : Bytes) (n : Nat), a.length < n →
    readVarint64Loop (pre ++ a) n pre.length = .error .pastLimit := by
  induction a with
  | nil =>
    intro _ pre n hn
    obtain ⟨n, rfl⟩ : ∃ k, n = k + 1 := ⟨n - 1, by simp at hn; omega⟩
    rw [readVarint64Loop, if_pos (by simp only [List.append_nil]; omega)]
  | cons b a ih =>
    intro h pre n hn
    obtain ⟨n, rfl⟩ : ∃ k, n = k + 1 := ⟨n - 1, by simp at hn; omega⟩
    rw [readVarint64Loop, if_neg (by simp; omega)]
    simp only [byteAt_mid]
    rw [if_pos (h b (List.mem_cons_self ..)), pre_cons, ← length_snoc,
      ih (fun x hx => h x (List.mem_cons_of_mem _ hx)) _ n (by simpa using hn)]
    rfl

/-- A prefix of two parts ends in the first or in the second. -/
theorem prefix_cases {x y a b : Bytes} (h : x ++ y = a ++ b) :
    (∃ c, x = a ++ c ∧ c ≠ []) ∨ ∃ c, a = x ++ c ∧ y = c ++ b := by
  rcases List.append_eq_append_iff.mp h with ⟨c, h1, h2⟩ | ⟨c, h1, h2⟩
  · exact .inr ⟨c, h1, h2⟩
  · by_cases hc : c = []
    · subst hc
      refine .inr ⟨[], by simpa using h1.symm, by simpa using h2.symm⟩
    · exact .inl ⟨c, h1, hc⟩

theorem length_prefix {x a b : Bytes} (h : x = a ++ b) (hb : b ≠ []) : a.length < x.length := by
  have := List.length_pos_iff.mpr hb
  rw [h, List.length_append]
  omega

theorem readVal_cut {kind : Kind} {f : Nat} {p : Piece} {v : JsVal} {w : Bytes} (hw : Written f p w) (hs : Says kind p v)
    (hb : ShortBool kind p) :
    ∃ tag body wt, w = tag ++ body ∧ wt < 8 ∧ Tag f wt tag ∧ ∀ pre a b : Bytes, body = a ++ b → b ≠ [] →
      readVal (pre ++ a) pre.length kind = .error .pastLimit := by
  cases hs with
  | bool enc =>
    cases hw with
    | varint tag _ ht he hl hn =>
      refine ⟨tag, enc, 0, rfl, by omega, ht, fun pre a b hab hne => ?_⟩
      have hlen : enc.length = 1 := hb
      have := length_prefix hab hne
      have ha : a = [] := List.eq_nil_of_length_eq_zero (by omega)
      subst ha
      unfold readVal
      rw [if_pos (by simp only [List.append_nil]; omega)]
  | string s =>
    cases hw with
    | bytes tag len _ ht he hl hn hlt =>
      refine ⟨tag, len ++ BinProt.utf8 s, 2, rfl, by omega, ht, fun pre a b hab hne => ?_⟩
      unfold readVal
      rcases prefix_cases hab with ⟨c, hc, hcn⟩ | ⟨c, rfl, hc⟩
      · rw [readVarint32_high (isVarint_prefix he hc hcn)]
        rfl
      · rw [readVarint32_enc he pre _ (by omega), hn]
        simp only [bind, Except.bind]
        rw [int32_small hlt]
        unfold readString
        have := length_prefix hc hne
        rw [if_pos (by simp only [List.length_append]; omega)]
  | int64 enc l hl' =>
    cases hw with
    | varint tag _ ht he hl hn =>
      refine ⟨tag, enc, 0, rfl, by omega, ht, fun pre a b hab hne => ?_⟩
      unfold readVal readVarint64
      have := length_prefix hab hne
      rw [readVarint64Loop_high a (isVarint_prefix he hab hne) pre 10 (by omega)]
      rfl

theorem skip_cut {f : Nat} {p : Piece} {w : Bytes} (hw : Written f p w) :
    ∃ tag body wt, w = tag ++ body ∧ wt < 8 ∧ Tag f wt tag ∧ ∀ pre a b : Bytes, body = a ++ b → b ≠ [] →
      ∃ e, skipUnknownField (pre ++ a) pre.length wt = .error e := by
  cases hw with
  | varint tag enc ht he hl hn =>
    refine ⟨tag, enc, 0, rfl, by omega, ht, fun pre a b hab hne => ⟨.pastLimit, ?_⟩⟩
    unfold skipUnknownField
    rw [left_mid]
    exact skipVarint_high a (isVarint_prefix he hab hne) pre
  | fixed64 tag bs ht hl =>
    refine ⟨tag, bs, 1, rfl, by omega, ht, fun pre a b hab hne => ⟨.skipPastLimit, ?_⟩⟩
    have := length_prefix hab hne
    unfold skipUnknownField skip
    exact if_pos (by rw [List.length_append]; omega)
  | bytes tag len bs ht he hl hn hlt =>
    refine ⟨tag, len ++ bs, 2, rfl, by omega, ht, fun pre a b hab hne => ?_⟩
    unfold skipUnknownField
    rcases prefix_cases hab with ⟨c, hc, hcn⟩ | ⟨c, rfl, hc⟩
    · refine ⟨.pastLimit, ?_⟩
      rw [readVarint32_high (isVarint_prefix he hc hcn)]
      rfl
    · refine ⟨.skipPastLimit, ?_⟩
      rw [readVarint32_enc he pre _ (by omega), hn]
      simp only [bind, Except.bind]
      rw [int32_small hlt]
      unfold skip
      have := length_prefix hc hne
      exact if_pos (by simp only [List.length_append]; omega)
  | fixed32 tag bs ht hl =>
    refine ⟨tag, bs, 5, rfl, by omega, ht, fun pre a b hab hne => ⟨.skipPastLimit, ?_⟩⟩
    have := length_prefix hab hne
    unfold skipUnknownField skip
    exact if_pos (by rw [List.length_append]; omega)

theorem round_cut {table : List (Nat × String × Kind)} {f : Nat} {p : Piece} {w : Bytes} (hw : Written f p w)
    (hk : ∀ name kind, fieldOf table f = some (name, kind) → ShortBool kind p ∧ ∃ v, Says kind p v)
    (pre a b : Bytes) (m : Obj) (hab : w = a ++ b) (ha : a ≠ []) (hb : b ≠ []) :
    ∃ e, round table (pre ++ a) pre.length m = .threw e := by
  have hcut : ∀ (tag body : Bytes) (wt : Nat), w = tag ++ body → Tag f wt tag → wt < 8 →
      (∀ c, body = c ++ b → ∃ e, (match fieldOf table f with
        | some (name, kind) =>
          match readVal ((pre ++ tag) ++ c) ((pre ++ tag).length : Int) kind with
          | .error e => Reading.threw e
          | .ok (v, o) => .running o (put m name v)
        | none =>
          match skipUnknownField ((pre ++ tag) ++ c) ((pre ++ tag).length : Int) wt with
          | .error e => .threw e
          | .ok o => .running o m) = .threw e) →
      ∃ e, round table (pre ++ a) pre.length m = .threw e := by
    intro tag body wt hwe ht hwt h
    rw [hwe] at hab
    rcases prefix_cases hab with ⟨c, hc, hcn⟩ | ⟨c, rfl, hc⟩
    · refine ⟨.pastLimit, ?_⟩
      have hpos := List.length_pos_iff.mpr ha
      unfold round
      rw [if_neg (by rw [List.length_append]; omega), readVarint32_high (isVarint_prefix ht.1 hc hcn)]
    · obtain ⟨e, he⟩ := h c hc
      refine ⟨e, ?_⟩
      rw [round_start ht hwt]
      exact he
  cases hf : fieldOf table f with
  | none =>
    obtain ⟨tag, body, wt, hwe, hwt, ht, hr⟩ := skip_cut hw
    refine hcut tag body wt hwe ht hwt (fun c hc => ?_)
    obtain ⟨e, he⟩ := hr (pre ++ tag) c b hc hb
    refine ⟨e, ?_⟩
    rw [hf]
    dsimp only
    rw [he]
  | some nk =>
    obtain ⟨name, kind⟩ := nk
    obtain ⟨hsb, v, hv⟩ := hk name kind hf
    obtain ⟨tag, body, wt, hwe, hwt, ht, hr⟩ := readVal_cut hw hv hsb
    refine hcut tag body wt hwe ht hwt (fun c hc => ?_)
    refine ⟨.pastLimit, ?_⟩
    rw [hf]
    dsimp only
    rw [hr (pre ++ tag) c b hc hb]

theorem rounds_cut {table : List (Nat × String × Kind)} {fs : List (Nat × Piece)} {bs : Bytes} (h : Message fs bs) :
    Fits table fs → ∀ (f : Nat) (p : Piece) (w a b : Bytes), Written f p w →
    (∀ name kind, fieldOf table f = some (name, kind) → ShortBool kind p ∧ ∃ v, Says kind p v) →
    w = a ++ b → a ≠ [] → b ≠ [] → ∀ (pre : Bytes) (m : Obj),
    ∃ e, rounds table (pre ++ (bs ++ a)) (fs.length + 1) pre.length m = .threw e := by
  induction h with
  | nil =>
    intro _ f p w a b hw hk hab ha hb pre m
    obtain ⟨e, he⟩ := round_cut hw hk pre a b m hab ha hb
    refine ⟨e, ?_⟩
    rw [rounds, List.nil_append, he]
  | cons g q fs x rest hx _ ih =>
    intro hf f p w a b hw hk hab ha hb pre m
    have ih := fun m => ih (fun g q hg => hf g q (List.mem_cons_of_mem _ hg)) f p w a b hw hk hab ha hb (pre ++ x) m
    rw [List.length_cons, rounds, List.append_assoc]
    cases hkg : fieldOf table g with
    | none =>
      obtain ⟨e, he⟩ := ih m
      refine ⟨e, ?_⟩
      rw [round_unknown hkg hx]
      dsimp only
      rw [← List.append_assoc]
      exact he
    | some nk =>
      obtain ⟨name, kind⟩ := nk
      obtain ⟨hsb, v, hv⟩ := hf g q (List.mem_cons_self ..) name kind hkg
      obtain ⟨e, he⟩ := ih (put m name v)
      refine ⟨e, ?_⟩
      rw [round_known hkg hx hv hsb]
      dsimp only
      rw [← List.append_assoc]
      exact he

end MinaRs.Proto
