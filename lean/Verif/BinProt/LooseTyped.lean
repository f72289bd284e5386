import Verif.BinProt.LooseGram

/-! The layout of a data type, the loose reading of its values, and panics (helper lemmas for
C17 and C18; the definitions are part of C17's statement). -/

namespace MinaRs.BinProt
open Prog Spec

namespace Spec

/-- Arguments of a constructor: the parts of a tuple payload, else the payload itself. -/
def argRules : Ty → Rule → List Rule
  | .tuple _, .tuple rs => rs
  | _, r => [r]

/-- The same for values. -/
def argValues : Ty → Value → List Value
  | .tuple _, .tuple vs => vs
  | _, v => [v]

mutual
/-- The layout a data type has in the layout files: integers of any width are `Int`, bytes and
chars are `Char`, newtypes are transparent, enum summands carry their position and polymorphic
variants their hash.  There is no rule for a 32-bit float (excluded by `HasLayout`). -/
def layoutOf : Ty → Rule
  | .unit => .unit
  | .bool => .bool
  | .u8 => .char
  | .int _ => .int .int
  | .f32 => .other .bigstring
  | .f64 => .float
  | .char => .char
  | .string => .string
  | .option t => .option (layoutOf t)
  | .newtype t => layoutOf t
  | .seq t => .list (layoutOf t)
  | .tuple ts => .tuple (layoutRules ts)
  | .struct ts => .record (layoutFields ts)
  | .enum vs => .sum (layoutSummands vs 0)
  | .polyvar vs => .polyvar (layoutPolyvars vs)
def layoutRules : Tys → List Rule
  | .nil => []
  | .cons _ t ts => layoutOf t :: layoutRules ts
def layoutFields : Tys → List (String × Rule)
  | .nil => []
  | .cons n t ts => (n, layoutOf t) :: layoutFields ts
def layoutSummands : Tys → Nat → List Summand
  | .nil, _ => []
  | .cons n t ts, k => .mk n k (argRules t (layoutOf t)) :: layoutSummands ts (k + 1)
def layoutPolyvars : Tys → List Polyvar
  | .nil => []
  | .cons n t ts => .tagged n (camlHashVariant (utf8 n)) (argRules t (layoutOf t)) :: layoutPolyvars ts
end

mutual
/-- A typed value seen as a `Value`. -/
def toValue : (t : Ty) → t.denote → Value
  | .unit, _ => .unit
  | .bool, b => .bool b
  | .u8, c => .char c
  | .int _, n => .int n.val
  | .f32, _ => .unit
  | .f64, f => .float f
  | .char, c => .char (UInt8.ofNat (show Char from c).toNat)
  | .string, s => .list ((utf8 s).map .char)
  | .option t, o =>
    match (show Option t.denote from o) with
    | none => .none
    | some v => .some (toValue t v)
  | .newtype t, v => toValue t v
  | .seq t, vs => .list ((show List t.denote from vs).map (toValue t))
  | .tuple ts, v => .tuple (toValues ts v)
  | .struct ts, v => .record (toFields ts v)
  | .enum vs, v => toSum vs 0 v
  | .polyvar vs, v => toPolyvar vs v
def toValues : (ts : Tys) → ts.prod → List Value
  | .nil, _ => []
  | .cons _ t ts, v => toValue t (show _ × _ from v).1 :: toValues ts (show _ × _ from v).2
def toFields : (ts : Tys) → ts.prod → List (String × Value)
  | .nil, _ => []
  | .cons n t ts, v => (n, toValue t (show _ × _ from v).1) :: toFields ts (show _ × _ from v).2
def toSum : (vs : Tys) → Nat → vs.sum → Value
  | .nil, _, v => nomatch (show Empty from v)
  | .cons n t ts, k, v =>
    match (show t.denote ⊕ ts.sum from v) with
    | .inl w => .sum n (UInt8.ofNat k) (.tuple (argValues t (toValue t w)))
    | .inr w => toSum ts (k + 1) w
def toPolyvar : (vs : Tys) → vs.sum → Value
  | .nil, v => nomatch (show Empty from v)
  | .cons n t ts, v =>
    match (show t.denote ⊕ ts.sum from v) with
    | .inl w => .polyvar n (camlHashVariant (utf8 n)) (.tuple (argValues t (toValue t w)))
    | .inr w => toPolyvar ts w
end

mutual
/-- The type has a layout (no 32-bit floats) and its polymorphic variant tags do not fit a single
byte (single-character labels do). -/
def HasLayout : Ty → Prop
  | .f32 => False
  | .option t => HasLayout t
  | .newtype t => HasLayout t
  | .seq t => HasLayout t
  | .tuple ts => HasLayouts ts
  | .struct ts => HasLayouts ts
  | .enum vs => HasLayouts vs
  | .polyvar vs => (∀ n ∈ vs.names, 256 ≤ hash32 (utf8 n)) ∧ HasLayouts vs
  | _ => True
def HasLayouts : Tys → Prop
  | .nil => True
  | .cons _ t ts => HasLayout t ∧ HasLayouts ts
end

mutual
/-- Every list in the value has fewer than `n` items. -/
def ListsBelow (n : Nat) : (t : Ty) → t.denote → Prop
  | .option t, o => ∀ v, (show Option _ from o) = some v → ListsBelow n t v
  | .newtype t, v => ListsBelow n t v
  | .seq t, vs => (show List _ from vs).length < n ∧ ∀ v ∈ (show List t.denote from vs), ListsBelow n t v
  | .tuple ts, v => ListsBelowProd n ts v
  | .struct ts, v => ListsBelowProd n ts v
  | .enum vs, v => ListsBelowSum n vs v
  | .polyvar vs, v => ListsBelowSum n vs v
  | _, _ => True
def ListsBelowProd (n : Nat) : (ts : Tys) → ts.prod → Prop
  | .nil, _ => True
  | .cons _ t ts, v => ListsBelow n t (show _ × _ from v).1 ∧ ListsBelowProd n ts (show _ × _ from v).2
def ListsBelowSum (n : Nat) : (vs : Tys) → vs.sum → Prop
  | .nil, _ => True
  | .cons _ t ts, v =>
    match (show t.denote ⊕ ts.sum from v) with
    | .inl w => ListsBelow n t w
    | .inr w => ListsBelowSum n ts w
end

end Spec

theorem argRules_cases (t : Ty) : (∃ ts, t = .tuple ts) ∨ ∀ r v, argRules t r = [r] ∧ argValues t v = [v] := by
  cases t <;> first
    | exact .inl ⟨_, rfl⟩
    | exact .inr fun _ _ => ⟨rfl, rfl⟩

theorem gram_args {t : Ty} {p : Option String} {enc : Bytes} {v : t.denote}
    (h : Gram true (layoutOf t) p enc (toValue t v)) :
    GramTuple true (argRules t (layoutOf t)) p enc (argValues t (toValue t v)) := by
  rcases argRules_cases t with ⟨ts, rfl⟩ | ht
  · simp only [layoutOf, toValue, Gram] at h
    obtain ⟨vs, hv, h⟩ := h
    cases hv
    simpa only [layoutOf, toValue, argRules, argValues] using h
  · obtain ⟨h1, h2⟩ := ht (layoutOf t) (toValue t v)
    rw [h1, h2]
    simp only [GramTuple]
    exact ⟨enc, [], _, [], by simp, rfl, h, rfl, rfl⟩

theorem wireElems_flatMap {α : Type} {R : Bytes → Value → Prop} (f : α → Bytes) (g : α → Value) :
    ∀ (l : List α), (∀ a ∈ l, R (f a) (g a)) → WireElems R (l.flatMap f) (l.map g)
  | [], _ => rfl
  | a :: l, h => ⟨f a, l.flatMap f, rfl, h a (by simp), wireElems_flatMap f g l (fun b hb => h b (by simp [hb]))⟩

mutual
/-- The typed encoding is a canonical wire form of the loose value under the type's layout. -/
theorem gram_of_typed : (t : Ty) → HasLayout t → (v : t.denote) → Fits t v → ListsBelow (2 ^ 57) t v → (p : Option String) →
    Gram true (layoutOf t) p (flush (encode t v)) (toValue t v)
  | .unit, _, v, _, _, p => ⟨rfl, rfl⟩
  | .bool, _, v, _, _, p => by
    simp only [layoutOf, toValue, encode, Gram]
    exact ⟨v, rfl, by simp [binWriteBool, WOp.bytes]⟩
  | .u8, _, v, _, _, p => ⟨v, rfl, rfl⟩
  | .int k, _, v, hf, hb, p => by
    simp only [layoutOf, toValue, encode, Gram]
    simp only [Fits] at hf
    obtain ⟨hw, h64⟩ := IntKind.holds_i64 v.property hf
    rw [hw]
    exact ⟨v.val, rfl, wireInt_write h64, fun _ => rfl⟩
  | .f32, h, _, _, _, _ => by simp only [HasLayout] at h
  | .f64, _, v, _, _, p => by
    simp only [layoutOf, toValue, encode, Gram]
    refine ⟨v, rfl, ?_, ?_⟩
    · simp [binWriteFloat64, WOp.bytes, leBytes_length]
    · simp only [binWriteFloat64, flush_cons, flush_nil, WOp.bytes, List.append_nil]
      rw [leNat_leBytes, Nat.mod_eq_of_lt]
      have := UInt64.toNat_lt v
      have : (256:Nat) ^ 8 = 2 ^ 64 := by decide
      omega
  | .char, _, v, hf, hb, p => by
    simp only [layoutOf, toValue, encode, Gram]
    simp only [Fits] at hf
    refine ⟨_, rfl, ?_⟩
    simp only [binWriteChar, flush_cons, flush_nil, WOp.bytes, List.append_nil]
    rw [Nat.mod_eq_of_lt hf]
  | .string, _, v, hf, hb, p => by
    simp only [layoutOf, toValue, encode, Gram]
    simp only [Fits] at hf
    refine ⟨_, utf8 v, rfl, ?_, hf, wireNat_write (by omega), fun _ => rfl⟩
    simp [binWriteString, WOp.bytes]
  | .option t, hl, v, hf, hb, p => by
    simp only [layoutOf, Gram]
    simp only [HasLayout, Fits, ListsBelow] at hl hf hb
    rcases v with _ | w
    · exact .inl ⟨rfl, rfl⟩
    · refine .inr ⟨toValue t w, flush (encode t w), rfl, ?_, gram_of_typed t hl w (hf w rfl) (hb w rfl) p⟩
      simp only [encode, flush_cons, WOp.bytes]; rfl
  | .newtype t, hl, v, hf, hb, p => by
    simp only [HasLayout, Fits, ListsBelow] at hl hf hb
    simp only [layoutOf, toValue, encode]
    exact gram_of_typed t hl v hf hb p
  | .seq t, hl, v, hf, hb, p => by
    simp only [HasLayout, Fits, ListsBelow] at hl hf hb
    simp only [layoutOf, toValue, encode, Gram]
    refine ⟨flush (binWriteNat0 (List.length v)).1, List.flatMap (fun w => flush (encode t w)) v,
      List.map (toValue t) v, rfl, ?_, ?_, ?_, ?_, ?_⟩
    · rw [flush_append]; exact congrArg (flush (binWriteNat0 (List.length v)).1 ++ ·) (flush_flatMap _ _)
    · have e : (List.map (toValue t) v).length = List.length v := List.length_map ..
      rw [e]; exact hb.1
    · have := wireNat_write hf.1
      have e : (List.map (toValue t) v).length = List.length v := List.length_map ..
      rw [e]; exact this
    · intro _
      have e : (List.map (toValue t) v).length = List.length v := List.length_map ..
      rw [e]; rfl
    · exact wireElems_flatMap _ _ _ (fun w hw => gram_of_typed t hl w (hf.2 w hw) (hb.2 w hw) p)
  | .tuple ts, hl, v, hf, hb, p => by
    simp only [HasLayout, Fits, ListsBelow] at hl hf hb
    simp only [layoutOf, toValue, encode, Gram]
    exact ⟨_, rfl, gram_of_typed_rules ts hl v hf hb p⟩
  | .struct ts, hl, v, hf, hb, p => by
    simp only [HasLayout, Fits, ListsBelow] at hl hf hb
    simp only [layoutOf, toValue, encode, Gram]
    exact ⟨_, rfl, gram_of_typed_fields ts hl v hf hb p⟩
  | .enum vs, hl, v, hf, hb, p => by
    simp only [HasLayout, Fits, ListsBelow] at hl hf hb
    simp only [layoutOf, toValue, encode, Gram]
    have e1 : (UInt8.ofNat (vs.index v)).toNat = vs.index v := by
      have := hf.1; simp; omega
    refine ⟨UInt8.ofNat (vs.index v), flush (encodeSum vs v), ?_, ?_⟩
    · simp only [flush_append, writeVariantIndex, if_pos hf.1]; rfl
    · rw [e1]
      exact gram_of_typed_sum vs 0 hl v hf.2 hb p (by simpa using hf.1)
  | .polyvar vs, hl, v, hf, hb, p => by
    simp only [HasLayout, Fits, ListsBelow] at hl hf hb
    simp only [layoutOf, toValue, encode, Gram]
    obtain ⟨⟨_, h31, _, hfirst⟩, hf⟩ := hf
    have e1 : leNat (leBytes 4 (2 * (camlHashVariant (utf8 (vs.variantName v))).toNat + 1)) =
        2 * (camlHashVariant (utf8 (vs.variantName v))).toNat + 1 := by
      rw [leNat_leBytes, Nat.mod_eq_of_lt (by omega)]
    refine ⟨leBytes 4 (2 * (camlHashVariant (utf8 (vs.variantName v))).toNat + 1), flush (encodeSum vs v),
      ?_, leBytes_length _ _, fun _ => by omega, ?_⟩
    · simp only [flush_append, writePolyvar, binWritePolyvarTag, flush_cons, flush_nil, WOp.bytes,
        List.append_nil, shl1_or1_toNat]
      rw [Nat.mod_eq_of_lt h31]
    · rw [e1, show (2 * (camlHashVariant (utf8 (vs.variantName v))).toNat + 1) / 2 =
        (camlHashVariant (utf8 (vs.variantName v))).toNat by omega]
      exact gram_of_typed_polyvar vs hl.2 v hf hb hfirst p
theorem gram_of_typed_rules : (ts : Tys) → HasLayouts ts → (v : ts.prod) → FitsProd ts v → ListsBelowProd (2 ^ 57) ts v → (p : Option String) →
    GramTuple true (layoutRules ts) p (flush (encodeProd ts v)) (toValues ts v)
  | .nil, _, v, _, _, p => ⟨rfl, rfl⟩
  | .cons n t ts, hl, v, hf, hb, p => by
    simp only [HasLayouts, FitsProd, ListsBelowProd] at hl hf hb
    simp only [layoutRules, toValues, encodeProd, flush_append, GramTuple]
    exact ⟨_, _, _, _, rfl, rfl, gram_of_typed t hl.1 _ hf.1 hb.1 p, gram_of_typed_rules ts hl.2 _ hf.2 hb.2 p⟩
theorem gram_of_typed_fields : (ts : Tys) → HasLayouts ts → (v : ts.prod) → FitsProd ts v → ListsBelowProd (2 ^ 57) ts v → (p : Option String) →
    GramFields true (layoutFields ts) p (flush (encodeProd ts v)) (toFields ts v)
  | .nil, _, v, _, _, p => ⟨rfl, rfl⟩
  | .cons n t ts, hl, v, hf, hb, p => by
    simp only [HasLayouts, FitsProd, ListsBelowProd] at hl hf hb
    simp only [layoutFields, toFields, encodeProd, flush_append, GramFields]
    exact ⟨_, _, _, _, rfl, rfl, gram_of_typed t hl.1 _ hf.1 hb.1 p, gram_of_typed_fields ts hl.2 _ hf.2 hb.2 p⟩
theorem gram_of_typed_sum : (vs : Tys) → (k : Nat) → HasLayouts vs → (v : vs.sum) → FitsSum vs v → ListsBelowSum (2 ^ 57) vs v →
    (p : Option String) → k + vs.index v < 256 →
    GramSummand true (layoutSummands vs k) (vs.index v) p (flush (encodeSum vs v)) (toSum vs k v)
  | .nil, _, _, v, _, _, _, _ => nomatch (show Empty from v)
  | .cons n t ts, k, hl, v, hf, hb, p, hk => by
    simp only [HasLayouts] at hl
    rcases v with w | w
    · simp only [FitsSum, ListsBelowSum] at hf hb
      simp only [Tys.index] at hk
      simp only [Tys.index, layoutSummands, encodeSum, toSum, GramSummand]
      exact ⟨by omega, by omega, _, by simp, gram_args (gram_of_typed t hl.1 w hf hb p)⟩
    · simp only [FitsSum, ListsBelowSum] at hf hb
      simp only [Tys.index] at hk
      simp only [Tys.index, layoutSummands, encodeSum, toSum, GramSummand]
      exact gram_of_typed_sum ts (k + 1) hl.2 w hf hb p (by omega)
theorem gram_of_typed_polyvar : (vs : Tys) → HasLayouts vs → (v : vs.sum) → FitsSum vs v → ListsBelowSum (2 ^ 57) vs v →
    (∀ n ∈ vs.names.take (vs.index v), camlHashVariant (utf8 n) ≠ camlHashVariant (utf8 (vs.variantName v))) →
    (p : Option String) →
    GramPolyvar true (layoutPolyvars vs) (camlHashVariant (utf8 (vs.variantName v))).toNat p
      (flush (encodeSum vs v)) (toPolyvar vs v)
  | .nil, _, v, _, _, _, _ => nomatch (show Empty from v)
  | .cons n t ts, hl, v, hf, hb, hfirst, p => by
    simp only [HasLayouts] at hl
    rcases v with w | w
    · simp only [FitsSum, ListsBelowSum] at hf hb
      simp only [Tys.variantName, layoutPolyvars, encodeSum, toPolyvar, GramPolyvar]
      exact .inl ⟨trivial, _, rfl, gram_args (gram_of_typed t hl.1 w hf hb p)⟩
    · simp only [FitsSum, ListsBelowSum] at hf hb
      simp only [Tys.index, Tys.names, Tys.variantName, List.take_succ_cons, List.mem_cons, forall_eq_or_imp] at hfirst
      simp only [Tys.variantName, layoutPolyvars, encodeSum, toPolyvar, GramPolyvar]
      exact .inr ⟨by rw [Ne, UInt32.toNat_inj]; exact hfirst.1, gram_of_typed_polyvar ts hl.2 w hf hb hfirst.2 p⟩
end

theorem scoped_args {t : Ty} (h : Scoped (layoutOf t) false) : ScopedRules (argRules t (layoutOf t)) := by
  rcases argRules_cases t with ⟨ts, rfl⟩ | ht
  · simpa only [layoutOf, argRules, Scoped] using h
  · rw [(ht _ .unit).1]; exact ⟨h, trivial⟩

theorem rewritable_args {t : Ty} (h : Rewritable (layoutOf t)) : RewritableRules (argRules t (layoutOf t)) := by
  rcases argRules_cases t with ⟨ts, rfl⟩ | ht
  · simpa only [layoutOf, argRules, Rewritable] using h
  · rw [(ht _ .unit).1]; exact ⟨h, trivial⟩

mutual
theorem scoped_layoutOf : (t : Ty) → (d : Bool) → Scoped (layoutOf t) d
  | .unit, _ | .bool, _ | .u8, _ | .int _, _ | .f32, _ | .f64, _ | .char, _ | .string, _ => by
    simp only [layoutOf, Scoped]
  | .option t, _ => by simp only [layoutOf, Scoped]; exact scoped_layoutOf t false
  | .newtype t, d => by simp only [layoutOf]; exact scoped_layoutOf t d
  | .seq t, _ => by simp only [layoutOf, Scoped]; exact scoped_layoutOf t false
  | .tuple ts, _ => by simp only [layoutOf, Scoped]; exact scoped_layoutRules ts
  | .struct ts, _ => by simp only [layoutOf, Scoped]; exact scoped_layoutFields ts
  | .enum ts, _ => by simp only [layoutOf, Scoped]; exact scoped_layoutSummands ts 0
  | .polyvar ts, _ => by simp only [layoutOf, Scoped]; exact scoped_layoutPolyvars ts
theorem scoped_layoutRules : (ts : Tys) → ScopedRules (layoutRules ts)
  | .nil => trivial
  | .cons _ t ts => ⟨scoped_layoutOf t false, scoped_layoutRules ts⟩
theorem scoped_layoutFields : (ts : Tys) → ScopedFields (layoutFields ts)
  | .nil => trivial
  | .cons _ t ts => ⟨scoped_layoutOf t false, scoped_layoutFields ts⟩
theorem scoped_layoutSummands : (ts : Tys) → (k : Nat) → ScopedSummands (layoutSummands ts k)
  | .nil, _ => trivial
  | .cons _ t ts, k => ⟨scoped_args (scoped_layoutOf t false), scoped_layoutSummands ts (k + 1)⟩
theorem scoped_layoutPolyvars : (ts : Tys) → ScopedPolyvars (layoutPolyvars ts)
  | .nil => trivial
  | .cons _ t ts => ⟨scoped_args (scoped_layoutOf t false), scoped_layoutPolyvars ts⟩
end

mutual
theorem rewritable_layoutOf : (t : Ty) → HasLayout t → Rewritable (layoutOf t)
  | .unit, _ | .bool, _ | .u8, _ | .int _, _ | .f32, _ | .f64, _ | .char, _ | .string, _ => by
    simp only [layoutOf, Rewritable]
  | .option t, h => by simp only [layoutOf, Rewritable, HasLayout] at h ⊢; exact rewritable_layoutOf t h
  | .newtype t, h => by simp only [layoutOf, HasLayout] at h ⊢; exact rewritable_layoutOf t h
  | .seq t, h => by simp only [layoutOf, Rewritable, HasLayout] at h ⊢; exact rewritable_layoutOf t h
  | .tuple ts, h => by simp only [layoutOf, Rewritable, HasLayout] at h ⊢; exact rewritable_layoutRules ts h
  | .struct ts, h => by simp only [layoutOf, Rewritable, HasLayout] at h ⊢; exact rewritable_layoutFields ts h
  | .enum ts, h => by simp only [layoutOf, Rewritable, HasLayout] at h ⊢; exact rewritable_layoutSummands ts 0 h
  | .polyvar ts, h => by
    simp only [layoutOf, Rewritable, HasLayout] at h ⊢
    exact rewritable_layoutPolyvars ts h.2 h.1
theorem rewritable_layoutRules : (ts : Tys) → HasLayouts ts → RewritableRules (layoutRules ts)
  | .nil, _ => trivial
  | .cons _ t ts, h => ⟨rewritable_layoutOf t h.1, rewritable_layoutRules ts h.2⟩
theorem rewritable_layoutFields : (ts : Tys) → HasLayouts ts → RewritableFields (layoutFields ts)
  | .nil, _ => trivial
  | .cons _ t ts, h => ⟨rewritable_layoutOf t h.1, rewritable_layoutFields ts h.2⟩
theorem rewritable_layoutSummands : (ts : Tys) → (k : Nat) → HasLayouts ts → RewritableSummands (layoutSummands ts k) k
  | .nil, _, _ => trivial
  | .cons _ t ts, k, h => ⟨rfl, rewritable_args (rewritable_layoutOf t h.1), rewritable_layoutSummands ts (k + 1) h.2⟩
theorem rewritable_layoutPolyvars : (ts : Tys) → HasLayouts ts → (∀ n ∈ ts.names, 256 ≤ hash32 (utf8 n)) →
    RewritablePolyvars (layoutPolyvars ts)
  | .nil, _, _ => trivial
  | .cons n t ts, h, hn => ⟨by rw [← hash32_eq]; exact hn n (by simp [Tys.names]),
      rewritable_args (rewritable_layoutOf t h.1),
      rewritable_layoutPolyvars ts h.2 (fun m hm => hn m (by simp [Tys.names, hm]))⟩
end

/-! ### Panics -/

/-- The only panics the program can end in are an out-of-range constructor index, and that only
when sums may have fewer than 256 constructors, and the refusal of an announced length of at least 2^57. -/
abbrev OnlyIndexPanic {α : Type} (m : Nat) (p : Prog α) : Prop :=
  p.Panics (fun msg => msg = "index out of bounds" ∧ m < 256) (2 ^ 57)

theorem OnlyIndexPanic.bind {α β : Type} {m : Nat} {p : Prog α} {f : α → Prog β} (hp : OnlyIndexPanic m p)
    (hf : ∀ a, OnlyIndexPanic m (f a)) : OnlyIndexPanic m (p >>= f) :=
  Prog.Panics.bind hp fun _ a _ _ => hf a

theorem OnlyIndexPanic.ret {α : Type} {m : Nat} (a : α) : OnlyIndexPanic m (Prog.ret a) :=
  Prog.Panics.ret a

theorem OnlyIndexPanic.of_safe {α : Type} {m : Nat} {p : Prog α} (h : p.Safe) : OnlyIndexPanic m p :=
  h.weaken (fun _ h => h.elim) (by decide)

theorem OnlyIndexPanic.fail {α : Type} {m : Nat} {e : Err} (h : ∀ msg, e ≠ .panic msg) :
    OnlyIndexPanic m (Prog.fail e : Prog α) := by
  intro s msg hs; cases hs; exact (h _ rfl).elim

theorem OnlyIndexPanic.decodeN {α : Type} {m : Nat} {p : Prog α} (h : OnlyIndexPanic m p) (n : Nat) :
    OnlyIndexPanic m (decodeN p n) := by
  induction n with
  | zero => exact .ret _
  | succ n ih => exact OnlyIndexPanic.bind h fun _ => OnlyIndexPanic.bind ih fun _ => .ret _

theorem binReadUnit_safe : binReadUnit.Safe := decode_safe .unit
theorem readF64_safe : readF64.Safe := decode_safe .f64
theorem binReadBytes_safe : binReadBytes.Safe := by
  have e : binReadBytes = (binReadLen >>= fun n => claim (n * 1) >>= fun _ => readExact n) := by
    simp only [Nat.mul_one]; rfl
  rw [e]
  exact lenClaim_panics rfl (by decide) fun _ => readExact_safe _
theorem binReadPolyvarTag_safe : binReadPolyvarTag.Safe :=
  (readUintLE_safe 4).bind (fun _ _ _ _ => Prog.Panics.ret _)

mutual
theorem parse_only_index_panic (m : Nat) : (l : Rule) → (p : Option String) → Supported m l p →
    OnlyIndexPanic m (parse l p)
  | .unit, p, _ => by unfold parse; exact OnlyIndexPanic.bind (OnlyIndexPanic.of_safe binReadUnit_safe) fun _ => .ret _
  | .bool, p, _ => by unfold parse; exact OnlyIndexPanic.bind (OnlyIndexPanic.of_safe binReadBool_safe) fun _ => .ret _
  | .char, p, _ => by unfold parse; exact OnlyIndexPanic.bind (OnlyIndexPanic.of_safe readU8_safe) fun _ => .ret _
  | .int _, p, _ => by unfold parse; exact OnlyIndexPanic.bind (OnlyIndexPanic.of_safe (binReadInteger_safe _)) fun _ => .ret _
  | .float, p, _ => by unfold parse; exact OnlyIndexPanic.bind (OnlyIndexPanic.of_safe readF64_safe) fun _ => .ret _
  | .string, p, _ => by unfold parse; exact OnlyIndexPanic.bind (OnlyIndexPanic.of_safe binReadBytes_safe) fun _ => .ret _
  | .nat0, p, _ => by unfold parse; exact .fail (by simp)
  | .option l, p, h => by
    simp only [Supported] at h
    unfold parse
    refine OnlyIndexPanic.bind (OnlyIndexPanic.of_safe readU8_safe) fun b => ?_
    split
    · exact .ret _
    · split
      · exact OnlyIndexPanic.bind (parse_only_index_panic m l p h) fun _ => .ret _
      · exact .fail (by simp)
  | .record fs, p, h => by
    simp only [Supported] at h
    unfold parse
    exact OnlyIndexPanic.bind (parseFields_only_index_panic m fs p h) fun _ => .ret _
  | .tuple rs, p, h => by
    simp only [Supported] at h
    unfold parse
    exact OnlyIndexPanic.bind (parseTuple_only_index_panic m rs p h) fun _ => .ret _
  | .list l, p, h => by
    simp only [Supported] at h
    unfold parse
    exact lenClaim_panics rfl (by decide) fun n =>
      OnlyIndexPanic.bind (OnlyIndexPanic.decodeN (parse_only_index_panic m l p h) n) fun _ => .ret _
  | .sum ss, p, h => by
    simp only [Supported] at h
    unfold parse
    refine OnlyIndexPanic.bind (OnlyIndexPanic.of_safe readU8_safe) fun b => ?_
    intro s msg hs
    rcases parseSummand_only_index_panic m ss p h.2 b.toNat s msg hs with h' | ⟨h1, h2⟩
    · exact h'
    · have := b.toNat_lt
      exact .inl ⟨h1, by omega⟩
  | .polyvar ps, p, h => by
    simp only [Supported] at h
    unfold parse
    exact OnlyIndexPanic.bind (OnlyIndexPanic.of_safe binReadPolyvarTag_safe) fun tag => parsePolyvar_only_index_panic m ps p h tag
  | .reference path l, p, h => by
    simp only [Supported] at h
    unfold parse
    exact parse_only_index_panic m l _ h
  | .custom rs, p, h => by
    simp only [Supported] at h
    unfold parse
    cases p with
    | none => exact .fail (by simp)
    | some path =>
      simp only
      cases hk : customKind path with
      | vector n =>
        exact OnlyIndexPanic.bind (parseVector_only_index_panic m rs (h.1 path n rfl hk) _ h.2 n) fun _ =>
          OnlyIndexPanic.bind (OnlyIndexPanic.of_safe binReadUnit_safe) fun _ => .ret _
      | bigInt => exact OnlyIndexPanic.bind (OnlyIndexPanic.of_safe (decodeN_safe readU8_safe _)) fun _ => .ret _
      | unknown => exact .fail (by simp)
  | .customForPath _ _, p, h => by simp only [Supported] at h
  | .other _, p, h => by simp only [Supported] at h
theorem parseTuple_only_index_panic (m : Nat) : (ls : List Rule) → (p : Option String) → SupportedRules m ls p →
    OnlyIndexPanic m (parseTuple ls p)
  | [], p, _ => by unfold parseTuple; exact .ret _
  | l :: ls, p, h => by
    simp only [SupportedRules] at h
    unfold parseTuple
    exact OnlyIndexPanic.bind (parse_only_index_panic m l p h.1) fun _ => OnlyIndexPanic.bind (parseTuple_only_index_panic m ls p h.2) fun _ => .ret _
theorem parseFields_only_index_panic (m : Nat) : (ls : List (String × Rule)) → (p : Option String) →
    SupportedFields m ls p → OnlyIndexPanic m (parseFields ls p)
  | [], p, _ => by unfold parseFields; exact .ret _
  | (_, l) :: ls, p, h => by
    simp only [SupportedFields] at h
    unfold parseFields
    exact OnlyIndexPanic.bind (parse_only_index_panic m l p h.1) fun _ => OnlyIndexPanic.bind (parseFields_only_index_panic m ls p h.2) fun _ => .ret _
theorem parseSummand_only_index_panic (m : Nat) : (ss : List Summand) → (p : Option String) → SupportedSummands m ss p →
    (n : Nat) → ∀ s msg, (parseSummand ss n p).run s = .error (.panic msg) →
    ((msg = "index out of bounds" ∧ m < 256) ∨ (msg = "capacity overflow" ∧ Announces (2 ^ 57) s)) ∨
    (msg = "index out of bounds" ∧ ss.length ≤ n)
  | [], p, _, n => by
    intro s msg h
    simp only [parseSummand] at h
    cases h
    exact .inr ⟨rfl, Nat.zero_le _⟩
  | .mk name i args :: ss, p, h, 0 => by
    simp only [SupportedSummands] at h
    intro s msg hs
    simp only [parseSummand] at hs
    rw [if_pos ⟨h.1, h.2.1⟩] at hs
    exact .inl ((OnlyIndexPanic.bind (parseTuple_only_index_panic m args p h.2.2.1) fun _ => .ret _) s msg hs)
  | .mk name i args :: ss, p, h, n + 1 => by
    simp only [SupportedSummands] at h
    intro s msg hs
    simp only [parseSummand] at hs
    rcases parseSummand_only_index_panic m ss p h.2.2.2 n s msg hs with h' | ⟨h1, h2⟩
    · exact .inl h'
    · exact .inr ⟨h1, by simp; omega⟩
theorem parsePolyvar_only_index_panic (m : Nat) : (ps : List Polyvar) → (p : Option String) →
    SupportedPolyvars m ps p → (tag : UInt32) → OnlyIndexPanic m (parsePolyvar ps tag p)
  | [], p, _, tag => by unfold parsePolyvar; exact .fail (by simp)
  | .inherited _ :: _, p, h, tag => by simp only [SupportedPolyvars] at h
  | .tagged name hash args :: ps, p, h, tag => by
    simp only [SupportedPolyvars] at h
    unfold parsePolyvar
    split
    · exact OnlyIndexPanic.bind (parseTuple_only_index_panic m args p h.1) fun _ => .ret _
    · exact parsePolyvar_only_index_panic m ps p h.2 tag
theorem parseVector_only_index_panic (m : Nat) : (ls : List Rule) → ls ≠ [] → (p : Option String) →
    SupportedRules m ls p → (n : Nat) → OnlyIndexPanic m (parseVector ls n p)
  | [], hne, p, _, n => (hne rfl).elim
  | l :: ls, _, p, h, n => by
    simp only [SupportedRules] at h
    unfold parseVector
    exact OnlyIndexPanic.decodeN (parse_only_index_panic m l p h.1) n
end

/-! ### The in-memory copy of the variant data -/

/-- `EnumData` (`loose_deserializer.rs:187-200`) as a type of the typed layer. -/
def enumDataTy : Ty := .enum
  (.cons "Sum" (.struct (.cons "index" .u8 (.cons "name" .string (.cons "len" (.int .u64) .nil))))
  (.cons "Polyvar" (.struct (.cons "index" .u8 (.cons "tag" (.int .u32) (.cons "name" .string
    (.cons "len" (.int .u64) .nil))))) .nil))

/-- `variant_seed` serializes the variant data to memory and the visitor decodes it from there
(`loose_deserializer.rs:241-244`): it comes back unchanged (names shorter than 2^63 bytes, fewer
than 2^63 arguments). -/
theorem enumData_roundtrip (v : enumDataTy.denote) (h : Fits enumDataTy v) :
    (decode enumDataTy).run (toBytes enumDataTy v) = .ok (v, []) := by
  have := decode_encode enumDataTy v h []
  simpa only [List.append_nil, toBytes] using this

end MinaRs.BinProt
