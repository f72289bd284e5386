import Verif.Json.SchemaSpec
import Verif.Json.Block
import Verif.Json.TextProps
import Verif.Json.Outcome
import Verif.Json.ValueLemmas
import Verif.Base.AmountProps

/-! Lemmas on the form of documents (C112): the form of a type, and that its documents have it. -/

namespace MinaRs.Json

open Text (Text decimal)
open Form
open Codec

/-- The kind of text of a leaf; numbers are no texts. -/
def Leaf.form : Leaf → Doc
  | .u32 | .extU32 => .text (.number 32)
  | .u64 => .text (.number 64)
  | .decimal => .text .mina
  | .i64 => .int
  | .char => .text .letter
  | .byteVec => .text .any
  | .field => .text .field
  | .base58Bin ver _ | .base58Bytes ver => .text (.base58 ver)
  | .memo => .text (.base58 0x14)
  | .base64Bytes | .base64Bin _ => .text .base64
  | .vrfBase58 => .text (.base58 0x15)
  | .publicKey => .text .key

/-- No document of this form is a list. -/
def Form.Doc.flat : Doc → Bool
  | .text _ | .int | .bool | .null | .object _ | .oneOf _ => true
  | .orNull d => d.flat
  | .list _ | .row _ | .tagged _ => false

mutual
def JTy.form : JTy → Doc
  | .leaf c => c.form
  | .unit => .null
  | .bool => .bool
  | .option t => .orNull t.form
  | .newtype t | .versioned t => t.form
  | .seq t => .list t.form
  | .tuple ts => .row ts.docs
  | .struct ts => .object ts.members
  | .listEnum _ expand vs => .tagged (vs.cases expand)
  | .tagEnum vs => .oneOf vs.names'
def JTys.docs : JTys → Docs
  | .nil => .nil
  | .cons _ t ts => .cons t.form ts.docs
  | .skip _ _ ts => ts.docs
def JTys.members : JTys → Members
  | .nil => .nil
  | .cons n t ts => .cons n t.form ts.members
  | .skip _ _ ts => ts.members
def JVars.cases (expand : Bool) : JVars → Cases
  | .nil => .nil
  | .cons n p vs => .cons n (p.docs expand) (vs.cases expand)
def JPay.docs (expand : Bool) : JPay → Docs
  | .unit => .nil
  | .newtype t => .cons t.form .nil
  | .tuple ts => if expand then ts.docs else .cons (.row ts.docs) .nil
  | .struct ts => .cons (.object ts.members) .nil
def JVars.names' : JVars → List String
  | .nil => []
  | .cons n _ vs => n :: vs.names'
end

mutual
/-- What the forms above do not express is absent: what a variant of an expanded enum carries is no list, and enums tagged by serde
carry nothing. -/
def JTy.regular : JTy → Bool
  | .leaf _ | .unit | .bool => true
  | .option t | .newtype t | .versioned t | .seq t => t.regular
  | .tuple ts | .struct ts => ts.regular
  | .listEnum _ expand vs => vs.regular expand
  | .tagEnum vs => vs.bare
def JTys.regular : JTys → Bool
  | .nil => true
  | .cons _ t ts => t.regular && ts.regular
  | .skip _ _ ts => ts.regular
def JVars.regular (expand : Bool) : JVars → Bool
  | .nil => true
  | .cons _ p vs => p.regular expand && vs.regular expand
def JPay.regular (expand : Bool) : JPay → Bool
  | .unit => true
  | .newtype t => t.regular && (!expand || t.form.flat)
  | .tuple ts | .struct ts => ts.regular
def JVars.bare : JVars → Bool
  | .nil => true
  | .cons _ .unit vs => vs.bare
  | .cons _ _ _ => false
end

/-! ## Leaves -/

theorem ofText_is (E : Env) (k : Kind) (s : Text) (h : k.Is E s) : (Doc.text k).Is E (ofText s) :=
  ⟨String.ofList s, rfl, by rw [String.toList_ofList]; exact h⟩

theorem hexDigit_mem (n : Nat) (h : n < 16) : hexDigit n ∈ "0123456789abcdef".toList :=
  (by decide +kernel : ∀ n : Fin 16, hexDigit n.1 ∈ "0123456789abcdef".toList) ⟨n, h⟩

theorem hexEncode_mem (bs : Bytes) : ∀ c ∈ hexEncode bs, c ∈ "0123456789abcdef".toList := by
  intro c hc
  obtain ⟨b, -, hb⟩ := List.mem_flatMap.mp hc
  have := b.toNat_lt
  simp only [List.mem_cons, List.not_mem_nil, or_false] at hb
  rcases hb with rfl | rfl
  · exact hexDigit_mem _ (by omega)
  · exact hexDigit_mem _ (by omega)

theorem fieldText_is (E : Env) (v : arr32.denote) : Kind.field.Is E (fieldToHex v) :=
  ⟨_, rfl, (hexEncode_length _).trans (congrArg (2 * ·) (arrBytes_length 32 v)), hexEncode_mem _⟩

theorem leaf_form (E : Env) (c : Leaf) (v : c.wire.denote) (j : J) (h : c.ser E v = .ok j) : c.form.Is E j := by
  cases c with
  | u32 =>
    cases h
    obtain ⟨n, h0, h1⟩ : {n : Int // BinProt.u32.holds n} := v
    have h1 : n ≤ 2 ^ 32 - 1 := h1
    exact ofText_is E _ _ ⟨n.toNat, by omega, Text.isDecimalOf_decimal _⟩
  | extU32 =>
    cases h
    refine ofText_is E _ _ ⟨_, ?_, Text.isDecimalOf_decimal _⟩
    unfold wrapU
    omega
  | u64 =>
    cases h
    obtain ⟨n, h0, h1⟩ : {n : Int // BinProt.u64.holds n} := v
    have h1 : n ≤ 2 ^ 64 - 1 := h1
    exact ofText_is E _ _ ⟨n.toNat, by omega, Text.isDecimalOf_decimal _⟩
  | decimal =>
    cases h
    obtain ⟨n, h0, h1⟩ : {n : Int // BinProt.u64.holds n} := v
    have h1 : n ≤ 2 ^ 64 - 1 := h1
    obtain ⟨int, frac, a1, -, a3, a4, a5⟩ := Base.C49_form n.toNat
    exact ofText_is E _ _ ⟨n.toNat, int, frac, by omega, a1, a3, a4, a5⟩
  | i64 =>
    cases h
    obtain ⟨n, h0, h1⟩ : {n : Int // BinProt.i64.holds n} := v
    have h0 : -2 ^ 63 ≤ n := h0
    have h1 : n ≤ 2 ^ 63 - 1 := h1
    exact ⟨n, rfl, h0, by omega⟩
  | char =>
    have h : uncheckedString [(show UInt8 from v)] = .ok j := h
    rcases uncheckedString_decides [(show UInt8 from v)] with ⟨a, h1, h2, -⟩ | ⟨e, h1, h2, h3⟩
    · rw [← utf8_ascii (utf8_singleton_ascii.mp h2), uncheckedString_utf8] at h
      cases h
      exact ofText_is E .letter _ rfl
    · rw [h1] at h; cases h
  | byteVec =>
    have h : uncheckedString (show Bytes from v) = .ok j := h
    unfold uncheckedString at h
    split at h
    · cases h; exact ⟨_, rfl, trivial⟩
    · cases h
  | field =>
    cases h
    exact ofText_is E .field _ (fieldText_is E v)
  | base58Bin ver t => cases h; exact ofText_is E (.base58 ver) _ ⟨_, rfl⟩
  | base58Bytes ver => cases h; exact ofText_is E (.base58 ver) _ ⟨_, rfl⟩
  | memo => cases h; exact ofText_is E (.base58 0x14) _ ⟨_, rfl⟩
  | base64Bytes => cases h; exact ofText_is E .base64 _ ⟨_, rfl⟩
  | vrfBase58 => cases h; exact ofText_is E (.base58 0x15) _ ⟨_, rfl⟩
  | base64Bin t => cases h; exact ofText_is E .base64 _ ⟨_, rfl⟩
  | publicKey =>
    obtain ⟨x, odd, u⟩ : arr32.denote × Bool × Unit := v
    simp only [Leaf.ser] at h
    by_cases hp : leNat (arrBytes 32 x) < Hash.p
    · have h' := (if_pos hp).symm.trans h
      rw [← Except.ok.inj h']
      exact ofText_is E .key _ ⟨_, odd, arrBytes_length 32 x, hp, rfl⟩
    · have h' := (if_neg hp).symm.trans h
      cases h'

/-! ## Values -/

theorem collect_form {α : Type} (E : Env) (d : Doc) (f : α → Except JErr J) (hf : ∀ a j, f a = .ok j → d.Is E j) :
    ∀ (as : List α) (js : List J), collect f as = .ok js → ∀ x ∈ js, d.Is E x
  | [], _, h => by cases h; intro x hx; cases hx
  | a :: as, js, h => by
    unfold collect at h
    split at h
    · cases h
    rename_i j hj
    split at h
    · cases h
    rename_i js' hjs
    cases h
    intro x hx
    rcases List.mem_cons.mp hx with rfl | hx
    · exact hf a _ hj
    · exact collect_form E d f hf as js' hjs x hx

theorem flat_not_list (E : Env) : (d : Doc) → d.flat = true → (js : List J) → ¬ d.Is E (.arr js)
  | .text _, _, _, ⟨_, h, _⟩ => by cases h
  | .int, _, _, ⟨_, h, _⟩ => by cases h
  | .bool, _, _, ⟨_, h⟩ => by cases h
  | .null, _, _, h => by cases h
  | .object _, _, _, ⟨_, _, h, _⟩ => by cases h
  | .oneOf _, _, _, ⟨_, _, h⟩ => by cases h
  | .orNull d, hf, js, .inl h => by cases h
  | .orNull d, hf, js, .inr h => flat_not_list E d hf js h
  | .list _, hf, _, _ => by cases hf
  | .row _, hf, _, _ => by cases hf
  | .tagged _, hf, _, _ => by cases hf

theorem tidyMembers_perm {es es' : List (String × J)} (h : es.Perm es') (ht : TidyMembers es) : TidyMembers es' :=
  (tidyMembers_iff es').mpr fun e he => (tidyMembers_iff es).mp ht e (h.mem_iff.mpr he)

mutual
/-- A document keeps its form as a value. -/
theorem is_asValue (E : Env) : (d : Doc) → (j : J) → Tidy j → d.Is E j → d.Is E (asValue j)
  | .text _, _, _, ⟨s, h, hk⟩ => ⟨s, by rw [h]; rfl, hk⟩
  | .int, _, _, ⟨n, h, hn⟩ => ⟨n, by rw [h]; rfl, hn⟩
  | .bool, _, _, ⟨b, h⟩ => ⟨b, by rw [h]; rfl⟩
  | .null, _, _, h => by
    have h : _ = J.null := h
    rw [h]; rfl
  | .orNull d, j, ht, h => by
    rcases h with h | h
    · exact .inl (by rw [h]; rfl)
    · exact .inr (is_asValue E d j ht h)
  | .list d, j, ht, ⟨js, h, hi⟩ => by
    subst h
    refine ⟨asValueItems js, rfl, ?_⟩
    have ht : TidyItems js := ht
    induction js with
    | nil => intro x hx; cases hx
    | cons a js ih =>
      intro x hx
      simp only [asValueItems, List.mem_cons] at hx
      rcases hx with rfl | hx
      · exact is_asValue E d a ht.1 (hi a (List.mem_cons_self ..))
      · exact ih (fun x hx => hi x (List.mem_cons_of_mem _ hx)) ht.2 ht.2 x hx
  | .row ds, j, ht, ⟨js, h, hi⟩ => by
    subst h
    exact ⟨asValueItems js, rfl, are_asValue E ds js ht hi⟩
  | .object ms, j, ht, ⟨es, es', h, hp, hi⟩ => by
    subst h
    obtain ⟨h1, h2⟩ : (es.map Prod.fst).Nodup ∧ TidyMembers es := ht
    refine ⟨asValueMembers [] es, es'.map (fun e => (e.1, asValue e.2)), rfl, ?_, members_asValue E ms es' (tidyMembers_perm hp h2) hi⟩
    exact (members_perm es [] h1).trans (by simpa using hp.map _)
  | .tagged cs, j, ht, ⟨name, js, h, hi⟩ => by
    subst h
    exact ⟨name, asValueItems js, rfl, has_asValue E cs name js ht.2 hi⟩
  | .oneOf _, _, _, ⟨s, hs, h⟩ => ⟨s, hs, by rw [h]; rfl⟩
theorem are_asValue (E : Env) : (ds : Docs) → (js : List J) → TidyItems js → ds.Are E js → ds.Are E (asValueItems js)
  | .nil, js, _, h => by
    have h : js = [] := h
    rw [h]; rfl
  | .cons d ds, js, ht, ⟨x, rest, h, hx, hr⟩ => by
    subst h
    exact ⟨asValue x, asValueItems rest, rfl, is_asValue E d x ht.1 hx, are_asValue E ds rest ht.2 hr⟩
theorem members_asValue (E : Env) : (ms : Members) → (es : List (String × J)) → TidyMembers es → ms.Are E es →
    ms.Are E (es.map (fun e => (e.1, asValue e.2)))
  | .nil, es, _, h => by
    have h : es = [] := h
    rw [h]; rfl
  | .cons name d ms, es, ht, ⟨x, rest, h, hx, hr⟩ => by
    subst h
    exact ⟨asValue x, _, rfl, is_asValue E d x ht.1 hx, members_asValue E ms rest ht.2 hr⟩
theorem has_asValue (E : Env) : (cs : Cases) → (name : String) → (js : List J) → TidyItems js → cs.Has E name js →
    cs.Has E name (asValueItems js)
  | .nil, _, _, _, h => h
  | .cons n ds cs, name, js, ht, h => by
    rcases h with ⟨rfl, h⟩ | h
    · exact .inl ⟨rfl, are_asValue E ds js ht h⟩
    · exact .inr (has_asValue E cs name js ht h)
end

/-- What an externally tagged value is like before it becomes a list. -/
def Pre (E : Env) (expand : Bool) (cs : Cases) (j : J) : Prop :=
  ∃ k js, toListTagged expand (asValue j) = .ok k ∧ ∃ name, k = .arr (.str name :: js) ∧ cs.Has E name js

theorem bare_name (E : Env) : (vs : JVars) → vs.bare = true → (v : vs.wire.sum) → (j : J) → serTagged E vs v = .ok j →
    ∃ s ∈ vs.names', j = .str s
  | .nil, _, v, _, _ => nomatch (show Empty from v)
  | .cons n .unit vs, hb, v, j, h => by
    obtain w | w : JPay.unit.wire.denote ⊕ vs.wire.sum := v
    · cases h; exact ⟨n, List.mem_cons_self .., rfl⟩
    · obtain ⟨s, h1, h2⟩ := bare_name E vs hb w j h
      exact ⟨s, List.mem_cons_of_mem _ h1, h2⟩
  | .cons n (.newtype _) vs, hb, _, _, _ => by cases hb
  | .cons n (.tuple _) vs, hb, _, _, _ => by cases hb
  | .cons n (.struct _) vs, hb, _, _, _ => by cases hb

mutual
theorem ser_form (E : Env) : (t : JTy) → t.Sound = true → t.regular = true → (v : t.wire.denote) → (j : J) → ser E t v = .ok j → t.form.Is E j
  | .leaf c, _, _, v, j, h => leaf_form E c v j h
  | .unit, _, _, _, j, h => by cases h; rfl
  | .bool, _, _, v, j, h => by cases h; exact ⟨_, rfl⟩
  | .option t, hs, hr, v, j, h => by
    simp only [JTy.Sound, Bool.and_eq_true] at hs
    obtain _ | w : Option t.wire.denote := v
    · cases h; exact .inl rfl
    · exact .inr (ser_form E t hs.2 hr w j h)
  | .newtype t, hs, hr, v, j, h => ser_form E t hs hr v j h
  | .seq t, hs, hr, v, j, h => by
    simp only [ser] at h
    split at h
    · rename_i js hjs
      cases h
      exact ⟨js, rfl, collect_form E t.form (ser E t) (fun a j h => ser_form E t hs hr a j h) _ _ hjs⟩
    · cases h
  | .tuple ts, hs, hr, v, j, h => by
    simp only [ser] at h
    split at h
    · rename_i js hjs
      cases h
      exact ⟨js, rfl, serTuple_form E ts hs hr v js hjs⟩
    · cases h
  | .struct ts, hs, hr, v, j, h => by
    simp only [JTy.Sound, Bool.and_eq_true] at hs
    simp only [ser] at h
    split at h
    · rename_i es hes
      cases h
      exact ⟨es, es, rfl, List.Perm.refl _, serStruct_form E ts hs.2 hr v es hes⟩
    · cases h
  | .versioned t, hs, hr, v, j, h => ser_form E t hs hr _ j h
  | .listEnum poly expand vs, hs, hr, v, j, h => by
    simp only [JTy.Sound, Bool.and_eq_true] at hs
    simp only [ser] at h
    split at h
    · rename_i j' hj
      obtain ⟨k, js, h1, name, h2, h3⟩ := serTagged_form E expand vs hs.2 hr _ j' hj
      rw [h1] at h
      cases h
      exact ⟨name, js, h2, h3⟩
    · cases h
  | .tagEnum vs, hs, hr, v, j, h => bare_name E vs hr v j h
theorem serTuple_form (E : Env) : (ts : JTys) → ts.Sound = true → ts.regular = true → (v : ts.wire.prod) → (js : List J) → serTuple E ts v = .ok js →
    ts.docs.Are E js
  | .nil, _, _, _, js, h => by cases h; rfl
  | .cons n t ts, hs, hr, v, js, h => by
    simp only [JTys.Sound, Bool.and_eq_true] at hs
    simp only [JTys.regular, Bool.and_eq_true] at hr
    simp only [serTuple] at h
    split at h
    · cases h
    rename_i j hj
    split at h
    · cases h
    rename_i js' hjs
    cases h
    exact ⟨j, js', rfl, ser_form E t hs.1 hr.1 _ j hj, serTuple_form E ts hs.2 hr.2 _ js' hjs⟩
  | .skip n s ts, hs, hr, v, js, h => serTuple_form E ts hs hr _ js h
theorem serStruct_form (E : Env) : (ts : JTys) → ts.Sound = true → ts.regular = true → (v : ts.wire.prod) → (es : List (String × J)) →
    serStruct E ts v = .ok es → ts.members.Are E es
  | .nil, _, _, _, js, h => by cases h; rfl
  | .cons n t ts, hs, hr, v, js, h => by
    simp only [JTys.Sound, Bool.and_eq_true] at hs
    simp only [JTys.regular, Bool.and_eq_true] at hr
    simp only [serStruct] at h
    split at h
    · cases h
    rename_i j hj
    split at h
    · cases h
    rename_i js' hjs
    cases h
    exact ⟨j, js', rfl, ser_form E t hs.1 hr.1 _ j hj, serStruct_form E ts hs.2 hr.2 _ js' hjs⟩
  | .skip n s ts, hs, hr, v, js, h => serStruct_form E ts hs hr _ js h
theorem serTagged_form (E : Env) (expand : Bool) : (vs : JVars) → vs.Sound expand = true → vs.regular expand = true → (v : vs.wire.sum) → (j : J) →
    serTagged E vs v = .ok j → Pre E expand (vs.cases expand) j
  | .nil, _, _, v, _, _ => nomatch (show Empty from v)
  | .cons n p vs, hs, hr, v, j, h => by
    simp only [JVars.Sound, Bool.and_eq_true] at hs
    simp only [JVars.regular, Bool.and_eq_true] at hr
    obtain w | w : p.wire.denote ⊕ vs.wire.sum := v
    · obtain ⟨k, js, h1, h2, h3⟩ := serPay_form E expand n p hs.1 hr.1 w j h
      exact ⟨k, js, h1, n, h2, .inl ⟨rfl, h3⟩⟩
    · obtain ⟨k, js, h1, name, h2, h3⟩ := serTagged_form E expand vs hs.2 hr.2 w j h
      exact ⟨k, js, h1, name, h2, .inr h3⟩
theorem serPay_form (E : Env) (expand : Bool) (n : String) : (p : JPay) → p.Sound expand = true → p.regular expand = true → (v : p.wire.denote) → (j : J) →
    serPay E n p v = .ok j → ∃ k js, toListTagged expand (asValue j) = .ok k ∧ k = .arr (.str n :: js) ∧ (p.docs expand).Are E js
  | .unit, _, _, _, j, h => by cases h; exact ⟨_, _, rfl, rfl, rfl⟩
  | .newtype t, hs, hr, v, j, h => by
    simp only [JPay.Sound, Bool.and_eq_true] at hs
    simp only [JPay.regular, Bool.and_eq_true, Bool.or_eq_true, Bool.not_eq_true'] at hr
    simp only [serPay] at h
    split at h
    · rename_i j' hj
      cases h
      have hf := is_asValue E _ j' (ser_tidy E t hs.2 v j' hj) (ser_form E t hs.2 hr.1 v j' hj)
      refine ⟨.arr [.str n, asValue j'], [asValue j'], ?_, rfl, asValue j', [], rfl, hf, rfl⟩
      show toListTagged expand (.obj [(n, asValue j')]) = _
      generalize asValue j' = w at hf
      unfold toListTagged
      rcases hr.2 with rfl | hfl
      · rfl
      · cases expand <;> cases w <;> first | rfl | exact absurd hf (flat_not_list E _ hfl _)
    · cases h
  | .tuple ts, hs, hr, v, j, h => by
    simp only [JPay.Sound, Bool.and_eq_true] at hs
    simp only [serPay] at h
    split at h
    · rename_i js hjs
      cases h
      have hf := are_asValue E _ js (serTuple_tidy E ts hs.2 v js hjs) (serTuple_form E ts hs.2 hr v js hjs)
      cases expand
      · exact ⟨_, _, rfl, rfl, .arr (asValueItems js), [], rfl, ⟨_, rfl, hf⟩, rfl⟩
      · exact ⟨_, _, rfl, rfl, hf⟩
    · cases h
  | .struct ts, hs, hr, v, j, h => by
    simp only [JPay.Sound, Bool.and_eq_true] at hs
    simp only [serPay] at h
    split at h
    · rename_i es hes
      cases h
      obtain ⟨h1, h2⟩ := serStruct_tidy E ts hs.2 v es hes
      have ht : Tidy (.obj es) := ⟨h2 ▸ nodup_of_distinct _ hs.1, h1⟩
      have hf := is_asValue E (.object ts.members) (.obj es) ht ⟨es, es, rfl, List.Perm.refl _, serStruct_form E ts hs.2 hr v es hes⟩
      refine ⟨.arr [.str n, asValue (.obj es)], [asValue (.obj es)], ?_, rfl, asValue (.obj es), [], rfl, hf, rfl⟩
      cases expand <;> rfl
    · cases h
end

/-! ## Reading -/

theorem leaf_covers_text (c : Leaf) (h : c ≠ .i64) (s : String) : c.form.Covers (.str s) := by
  cases c with
  | i64 => exact absurd rfl h
  | _ => exact ⟨s, rfl⟩

theorem no_result {α : Type} {e : JErr} {v : α} (h : (Except.error e : Except JErr α) = .ok v) : False := by cases h

theorem int_of_num (n : Int) (v : (BinProt.Ty.int .i64).denote) (h : intOf .i64 n = .ok v) : -2 ^ 63 ≤ n ∧ n < 2 ^ 63 := by
  unfold intOf at h
  by_cases hn : BinProt.IntKind.i64.range.holds n
  · have h0 : -2 ^ 63 ≤ n := hn.1
    have h1 : n ≤ 2 ^ 63 - 1 := hn.2
    exact ⟨h0, by omega⟩
  · rw [dif_neg hn] at h
    cases h

theorem leaf_covers (E : Env) (c : Leaf) (v : c.wire.denote) (j : J) (h : c.de E j = .ok v) : c.form.Covers j := by
  by_cases hc : c = .i64
  · subst hc
    cases j with
    | num n => exact ⟨n, rfl, int_of_num n v h⟩
    | _ => exact (no_result h).elim
  · cases j with
    | str s => exact leaf_covers_text c hc s
    | num n => cases c <;> first | exact absurd rfl hc | exact (no_result h).elim
    | null => cases c <;> exact (no_result h).elim
    | bool _ => cases c <;> exact (no_result h).elim
    | float _ => cases c <;> exact (no_result h).elim
    | arr _ => cases c <;> exact (no_result h).elim
    | obj _ => cases c <;> exact (no_result h).elim

theorem collect_covers {α : Type} (d : Doc) (f : J → Except JErr α) (hf : ∀ j a, f j = .ok a → d.Covers j) :
    ∀ (js : List J) (as : List α), collect f js = .ok as → ∀ x ∈ js, d.Covers x
  | [], _, _ => by intro x hx; cases hx
  | j :: js, as, h => by
    unfold collect at h
    split at h
    · cases h
    rename_i a ha
    split at h
    · cases h
    rename_i as' has
    intro x hx
    rcases List.mem_cons.mp hx with rfl | hx
    · exact hf _ _ ha
    · exact collect_covers d f hf js as' has x hx

theorem lookup_nil {n : String} {es : List (String × J)} (h : lookup n es = []) : es.filter (fun e => e.1 == n) = [] :=
  List.map_eq_nil_iff.mp h

theorem lookup_one {n : String} {es : List (String × J)} {j : J} (h : lookup n es = [j]) :
    es.filter (fun e => e.1 == n) = [(n, j)] := by
  unfold lookup at h
  obtain ⟨e, he, rfl⟩ := List.map_eq_singleton_iff.mp h
  have : e ∈ es.filter (fun e => e.1 == n) := by rw [he]; exact List.mem_cons_self ..
  have := eq_of_beq (List.mem_filter.mp this).2
  rw [he, ← this]

theorem absent_option {t : JTy} {v : t.wire.denote} (h : absent t = .ok v) : ∃ d, t.form = .orNull d := by
  cases t <;> first | exact ⟨_, rfl⟩ | cases h

theorem tagged_name (E : Env) : (vs : JVars) → (n : String) → (c : Option J) → (v : vs.wire.sum) → deTagged E vs n c = .ok v →
    n ∈ vs.names'
  | .nil, _, _, _, h => by cases h
  | .cons m p vs, n, c, v, h => by
    rw [deTagged_cons] at h
    split at h
    · rename_i hm; rw [hm]; exact List.mem_cons_self ..
    · split at h
      · rename_i w hw
        exact List.mem_cons_of_mem _ (tagged_name E vs n c w hw)
      · cases h

mutual
theorem de_covers (E : Env) : (t : JTy) → (j : J) → (v : t.wire.denote) → de E t j = .ok v → t.form.Covers j
  | .leaf c, j, v, h => leaf_covers E c v j h
  | .unit, j, _, h => by
    cases j with
    | null => rfl
    | _ => cases h
  | .bool, j, _, h => by
    cases j with
    | bool b => exact ⟨b, rfl⟩
    | _ => cases h
  | .option t, j, v, h => by
    by_cases hj : j = .null
    · exact .inl hj
    · rw [de_option E t j hj] at h
      split at h
      · rename_i w hw
        exact .inr (de_covers E t j w hw)
      · cases h
  | .newtype t, j, v, h => de_covers E t j v h
  | .seq t, j, v, h => by
    cases j with
    | arr js => exact ⟨js, rfl, collect_covers t.form (de E t) (fun j a h => de_covers E t j a h) js v h⟩
    | _ => cases h
  | .tuple ts, j, v, h => by
    cases j with
    | arr js => exact ⟨js, rfl, (deTuple_covers E ts js v h).1⟩
    | _ => cases h
  | .struct ts, j, v, h => by
    cases j with
    | arr js => exact .inr ⟨js, rfl, (deTuple_covers E ts js v h).2⟩
    | obj es => exact .inl ⟨es, rfl, deStruct_covers E ts es v h⟩
    | _ => cases h
  | .versioned t, j, v, h => by
    rw [de_versioned] at h
    split at h
    · rename_i w hw; exact de_covers E t j w hw
    · cases h
  | .listEnum poly expand vs, j, v, h => by
    cases j with
    | arr js =>
      cases js with
      | nil => cases h
      | cons x js => exact ⟨x, js, rfl⟩
    | _ => cases h
  | .tagEnum vs, j, v, h => by
    rw [de_tagEnum] at h
    split at h
    · cases h
    rename_i n c hc
    have hn := tagged_name E vs n c v h
    unfold taggedParts at hc
    split at hc
    · cases hc; exact ⟨_, hn, .inl rfl⟩
    · cases hc; exact ⟨_, hn, .inr ⟨_, rfl⟩⟩
    · cases hc
theorem deTuple_covers (E : Env) : (ts : JTys) → (js : List J) → (v : ts.wire.prod) → deTuple E ts js = .ok v →
    ts.docs.Cover js ∧ ts.members.CoverRow js
  | .nil, js, _, h => by
    cases js with
    | nil => exact ⟨rfl, rfl⟩
    | cons _ _ => cases h
  | .cons n t ts, js, v, h => by
    cases js with
    | nil => cases h
    | cons j js =>
      rw [deTuple_cons] at h
      split at h
      · cases h
      rename_i a ha
      split at h
      · cases h
      rename_i w hw
      obtain ⟨h1, h2⟩ := deTuple_covers E ts js w hw
      have h3 := de_covers E t j a ha
      exact ⟨⟨j, js, rfl, h3, h1⟩, ⟨j, js, rfl, h3, h2⟩⟩
  | .skip n s ts, js, v, h => by
    rw [deTuple_skip] at h
    split at h
    · cases h
    rename_i w hw
    exact deTuple_covers E ts js w hw
theorem deStruct_covers (E : Env) : (ts : JTys) → (es : List (String × J)) → (v : ts.wire.prod) → deStruct E ts es = .ok v →
    ts.members.Cover es
  | .nil, _, _, _ => trivial
  | .cons n t ts, es, v, h => by
    rw [deStruct_cons] at h
    split at h
    · rename_i hl
      split at h
      · cases h
      rename_i a ha
      split at h
      · cases h
      rename_i w hw
      exact ⟨.inr ⟨absent_option ha, lookup_nil hl⟩, deStruct_covers E ts es w hw⟩
    · rename_i j hl
      split at h
      · cases h
      rename_i a ha
      split at h
      · cases h
      rename_i w hw
      exact ⟨.inl ⟨j, lookup_one hl, de_covers E t j a ha⟩, deStruct_covers E ts es w hw⟩
    · cases h
  | .skip n s ts, es, v, h => by
    rw [deStruct_skip] at h
    split at h
    · cases h
    rename_i w hw
    exact deStruct_covers E ts es w hw
end

set_option maxRecDepth 20000 in
/-- The description of the types gives the published form. -/
theorem block_form : Block.block.form = Form.block := by rfl

set_option maxRecDepth 20000 in
theorem block_regular : Block.block.regular = true := by decide +kernel

set_option maxRecDepth 20000 in
theorem state_form : Block.protocolState.form = Form.protocolState := by rfl

set_option maxRecDepth 20000 in
theorem state_sound : Block.protocolState.Sound = true := by decide +kernel

set_option maxRecDepth 20000 in
theorem state_regular : Block.protocolState.regular = true := by decide +kernel

end MinaRs.Json
