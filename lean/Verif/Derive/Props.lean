import Verif.Derive.Lemmas

/-!
# Derived conversions carry every field to its namesake, and back (C125)
-/

namespace MinaRs.Derive
open Spec

/-- **C125.** For every definition the macro is meant for and every target type named in its attributes, the macro writes the
conversions both ways.  For every definition of the target with the same fields or variants, in any order, and every value,
whatever the conversions of the parts do: the conversion has a result, in which every field is the conversion of the field of
the same name or position, in the same variant, and there is nothing else. -/
theorem C125_derived_partial {i : Input} {t : String} (hm : Meant i.data) (ht : Target i.attrs t) :
    ∃ l b, derive i = .ok l ∧ ⟨⟨i.ident, 0⟩, ⟨t, 0⟩, b⟩ ∈ l ∧ ⟨⟨t, 0⟩, ⟨i.ident, 0⟩, b⟩ ∈ l ∧
      ∀ (V : Type) (into : Place → V → V) (d : Def) (v : Value V), SameType i.data d → ValueOf i.data v →
        ∃ w, b.run into d v = some w ∧ Carries into d v w := by
  rw [← mem_targets] at ht
  obtain ⟨b, hb⟩ := bodyOf_meant hm
  have he : (targets i.attrs).isEmpty = false := by
    cases h : targets i.attrs with
    | nil => rw [h] at ht; cases ht
    | cons _ _ => rfl
  refine ⟨_, b, by rw [derive, if_neg (by simp [he]), hb], ?_, ?_, ?_⟩
  · exact List.mem_flatMap.mpr ⟨t, ht, by simp [impls]⟩
  · exact List.mem_flatMap.mpr ⟨t, ht, by simp [impls]⟩
  · exact fun V into d v hs hv => body_run into hm hb hs hv

/-- **C125.** A value that is converted to a target type and back is the same value, if the conversions of its parts have that
property: `d` is the definition of the target, `own` that of the type itself. -/
theorem C125_back_partial {i : Input} {t : String} (hm : Meant i.data) (ht : Target i.attrs t) {V : Type}
    {into back : Place → V → V} (hinv : ∀ k v, back k (into k v) = v) {d own : Def} {v : Value V}
    (hs : SameType i.data d) (ho : SameType i.data own) (hv : ValueOf i.data v) (hi : InOrder own v) :
    ∃ l b b', derive i = .ok l ∧ ⟨⟨i.ident, 0⟩, ⟨t, 0⟩, b⟩ ∈ l ∧ ⟨⟨t, 0⟩, ⟨i.ident, 0⟩, b'⟩ ∈ l ∧
      ∃ w, b.run into d v = some w ∧ b'.run back own w = some v := by
  obtain ⟨l, b, hl, h1, h2, hrun⟩ := C125_derived_partial hm ht
  refine ⟨l, b, b, hl, h1, h2, ?_⟩
  obtain ⟨w, hw, hc⟩ := hrun V into d v hs hv
  refine ⟨w, hw, ?_⟩
  -- the result is a value of the type with the same fields
  have hvw : ValueOf i.data w := by
    revert hm hs hv hc
    cases i.data with
    | union => exact fun hm => hm.elim
    | struct fs =>
      intro hm hs hv hc
      cases v <;> simp only [ValueOf] at hv
      rename_i p
      cases w <;> simp only [Carries] at hc
      rename_i q
      obtain ⟨s, _, hc⟩ := hc
      exact carries_fieldsOf hm.2.1 hv hc
    | enum vs =>
      intro hm hs hv hc
      cases v <;> simp only [ValueOf] at hv
      rename_i n p
      cases w <;> simp only [Carries] at hc
      rename_i m q
      obtain ⟨rfl, ss, s, _, _, hc⟩ := hc
      obtain ⟨fs, hf, hp⟩ := hv
      exact ⟨fs, hf, carries_fieldsOf (hm.2.2 _ hf).2.1 hp hc⟩
  obtain ⟨r, hr, hc'⟩ := hrun V back own w ho hvw
  rw [hr]
  congr 1
  revert hm hv hi hc hc' ho
  cases i.data with
  | union => exact fun hm => hm.elim
  | struct fs =>
    intro hm ho hv hi hc hc'
    cases v <;> simp only [ValueOf] at hv
    rename_i p
    cases w <;> simp only [Carries] at hc
    cases r <;> simp only [Carries] at hc'
    obtain ⟨s, _, hc⟩ := hc
    obtain ⟨s', e, hc'⟩ := hc'
    subst e
    congr 1
    refine carriesFields_back (fun k v => hinv ⟨none, k⟩ v) ?_ hc hc' hi
    intro ps e; subst e
    exact fieldsOf_nodup hm.2.1 hv
  | enum vs =>
    intro hm ho hv hi hc hc'
    cases v <;> simp only [ValueOf] at hv
    rename_i n p
    cases w <;> simp only [Carries] at hc
    cases r <;> simp only [Carries] at hc'
    obtain ⟨rfl, ss, s, _, _, hc⟩ := hc
    obtain ⟨rfl, ss', s', e, hms, hc'⟩ := hc'
    subst e
    obtain ⟨fs, hf, hp⟩ := hv
    obtain ⟨s'', hms', hio⟩ := hi
    have hnd : (ss'.map (·.1)).Nodup := ho.1.nodup_iff.mpr hm.2.1
    rw [mem_unique hnd hms' hms] at hio
    congr 1
    refine carriesFields_back (fun k v => hinv ⟨some _, k⟩ v) ?_ hc hc' hio
    intro ps e; subst e
    exact fieldsOf_nodup (hm.2.2 _ hf).2.1 hp

/-- **C125.** Between which types there are conversions: the annotated type and each target within at most four layers of
versions, and no others. -/
theorem C125_which_partial {i : Input} {l : List Impl} (hm : Meant i.data) (hl : derive i = .ok l) (s t : TypeRef) :
    (∃ b, ⟨s, t, b⟩ ∈ l) ↔
      ∃ x, Target i.attrs x ∧ ∃ n ≤ 4, (s = ⟨i.ident, 0⟩ ∧ t = ⟨x, n⟩) ∨ (s = ⟨x, n⟩ ∧ t = ⟨i.ident, 0⟩) := by
  obtain ⟨b, hb⟩ := bodyOf_meant hm
  have el : l = (targets i.attrs).flatMap (impls i.ident b) := by
    unfold derive at hl
    split at hl
    · rename_i h
      rw [← Except.ok.inj hl, List.isEmpty_iff.mp h]; rfl
    · rw [hb] at hl; exact (Except.ok.inj hl).symm
  subst el
  simp only [← mem_targets]
  constructor
  · rintro ⟨b', h⟩
    obtain ⟨x, hx, hin⟩ := List.mem_flatMap.mp h
    refine ⟨x, hx, ?_⟩
    simp only [impls, versioned, List.flatMap_cons, List.flatMap_nil, List.mem_cons, List.mem_append, Impl.mk.injEq,
      List.not_mem_nil, or_false] at hin
    rcases hin with ⟨h1, h2, _⟩ | ⟨h1, h2, _⟩ | (⟨h1, h2, _⟩ | ⟨h1, h2, _⟩) | (⟨h1, h2, _⟩ | ⟨h1, h2, _⟩) |
      (⟨h1, h2, _⟩ | ⟨h1, h2, _⟩) | (⟨h1, h2, _⟩ | ⟨h1, h2, _⟩)
    · exact ⟨0, by omega, .inl ⟨h1, h2⟩⟩
    · exact ⟨0, by omega, .inr ⟨h1, h2⟩⟩
    · exact ⟨1, by omega, .inl ⟨h1, h2⟩⟩
    · exact ⟨1, by omega, .inr ⟨h1, h2⟩⟩
    · exact ⟨2, by omega, .inl ⟨h1, h2⟩⟩
    · exact ⟨2, by omega, .inr ⟨h1, h2⟩⟩
    · exact ⟨3, by omega, .inl ⟨h1, h2⟩⟩
    · exact ⟨3, by omega, .inr ⟨h1, h2⟩⟩
    · exact ⟨4, by omega, .inl ⟨h1, h2⟩⟩
    · exact ⟨4, by omega, .inr ⟨h1, h2⟩⟩
  · rintro ⟨x, hx, n, hn, ⟨rfl, rfl⟩ | ⟨rfl, rfl⟩⟩
    · refine ⟨if n = 0 then b else .wrap, List.mem_flatMap.mpr ⟨x, hx, ?_⟩⟩
      have : n = 0 ∨ n = 1 ∨ n = 2 ∨ n = 3 ∨ n = 4 := by omega
      rcases this with rfl | rfl | rfl | rfl | rfl <;> simp [impls, versioned]
    · refine ⟨if n = 0 then b else .unwrap, List.mem_flatMap.mpr ⟨x, hx, ?_⟩⟩
      have : n = 0 ∨ n = 1 ∨ n = 2 ∨ n = 3 ∨ n = 4 := by omega
      rcases this with rfl | rfl | rfl | rfl | rfl <;> simp [impls, versioned]

/-- **C125.** To a type with versions: the value is that of the type without, and each layer has the number of its type.  And from
such a type: any numbers are taken, so the numbers of a value that came in are not looked at. -/
theorem C125_versions {A B : Type} {there : A → Option B} (back : B → Option A) {a : A} {b : B} (h : there a = some b)
    (versions : List UInt16) :
    (∃ x, runWrap there versions a = some x ∧ numbers x = versions ∧ content x = b) ∧
      ∀ y : Layered B, runUnwrap back (numbers y).length y = back (content y) := by
  constructor
  · refine ⟨layers versions b, by simp [runWrap, h], ?_, ?_⟩
    · clear h; induction versions with
      | nil => rfl
      | cons v vs ih => simp [layers, numbers, ih]
    · clear h; induction versions with
      | nil => rfl
      | cons v vs ih => simp [layers, content, ih]
  · intro y
    have hp : peel (numbers y).length y = some (content y) := by
      induction y with
      | bare a => rfl
      | layer v t ih => simpa [numbers, peel, content] using ih
    simp [runUnwrap, hp]

/-- **C125** does not hold for every definition with a target: for a type without fields the macro writes nothing and says nothing
(braces, brackets or an enum without variants) or ends the compilation (a bare name, or a union), and these are all. -/
theorem C125_empty_fails (i : Input) :
    (derive i = .ok [] ↔ (∀ t, ¬ Target i.attrs t) ∨
      i.data = .struct (.named []) ∨ i.data = .struct (.unnamed []) ∨ i.data = .enum []) ∧
    ((∃ e, derive i = .error e) ↔ (∃ t, Target i.attrs t) ∧ (i.data = .struct .unit ∨ i.data = .union)) := by
  obtain ⟨attrs, ident, data⟩ := i
  rw [← targets_nil, show (∃ t, Target attrs t) ↔ targets attrs ≠ [] by
    rw [Ne, targets_nil]; simp]
  cases ht : targets attrs with
  | nil => simp [derive, ht]
  | cons t ts =>
    have hne : ∀ b, (impls ident b t ++ ts.flatMap (impls ident b)) ≠ [] := by intro b; simp [impls]
    cases data with
    | union => simp [derive, ht, bodyOf]
    | struct fs =>
      cases fs with
      | unit => simp [derive, ht, bodyOf]
      | named l =>
        by_cases hl : l = []
        · subst hl; simp [derive, ht, bodyOf, namedBody, pick]
        · have : (namedBody l).isEmpty = false := by
            have hp := (namedBody_perm l).length_eq
            rw [List.length_map] at hp
            cases hb : namedBody l with
            | nil => rw [hb] at hp; exact absurd (List.length_eq_zero_iff.mp hp.symm) hl
            | cons _ _ => rfl
          simp [derive, ht, bodyOf, this, hl, impls]
      | unnamed l =>
        cases l with
        | nil => simp [derive, ht, bodyOf, unnamedBody, unnamedLoop]
        | cons a l =>
          have : (unnamedBody (a :: l)).isEmpty = false := by rw [unnamedBody_eq]; rfl
          simp [derive, ht, bodyOf, this, impls]
    | enum vs =>
      cases vs with
      | nil => simp [derive, ht, bodyOf]
      | cons v vs => simp [derive, ht, bodyOf, impls]

/-- **C125** does not hold either for an enum with a variant whose brackets or braces are empty: what the macro writes for it is not
accepted by the compiler, whatever the target and the value. -/
theorem C125_brackets_fails {V : Type} (into : Place → V → V) {vs : List (String × Fields)} {n : String} {b : Body} {d : Def}
    {p : Payload V} (hd : (vs.map (·.1)).Nodup) (hb : bodyOf (.enum vs) = .ok (some b))
    (hv : ((n, .unnamed []) ∈ vs ∧ p = .unnamed []) ∨ ((n, .named []) ∈ vs ∧ p = .named [])) :
    ValueOf (.enum vs) (.variant n p) ∧ b.run into d (.variant n p) = none := by
  have e : b = .arms (vs.map fun v => arm v.1 v.2) := by
    simp only [bodyOf, Except.ok.injEq] at hb
    split at hb
    · cases hb
    · exact (Option.some.inj hb).symm
  subst e
  rcases hv with ⟨hm, rfl⟩ | ⟨hm, rfl⟩
  · refine ⟨⟨_, hm, rfl, fun i w p h => by simp at h⟩, ?_⟩
    cases d with
    | struct s => rfl
    | enum ss =>
      simp only [Body.run, find_arm hd hm]
      cases find n ss <;> rfl
  · refine ⟨⟨_, hm, List.Perm.refl _, fun n w p h => by cases h⟩, ?_⟩
    cases d with
    | struct s => rfl
    | enum ss =>
      simp only [Body.run, find_arm hd hm]
      cases find n ss <;> rfl

/-- **C125** does not hold for a field whose type is in a module, or in anything else on its path, that has the name of a
container: the field is taken for that container, and the code is not accepted by the compiler. -/
theorem C125_path_fails {V : Type} (into : Place → V → V) {fs : List (String × Written)} {n : String} {w : Written} {v : V}
    {names : List String} {ps : List (String × Part V)} {b : Body} (hd : (fs.map (·.1)).Nodup) (hw : (n, w) ∈ fs)
    (hno : ¬ Ordinary w) (hb : bodyOf (.struct (.named fs)) = .ok (some b)) (hs : names.Perm (fs.map (·.1)))
    (hp : (ps.map (·.1)).Perm (fs.map (·.1))) (hv : (n, .plain v) ∈ ps) :
    b.run into (.struct (.named names)) (.struct (.named ps)) = none := by
  have e : b = .named (namedBody fs) := by
    simp only [bodyOf, Except.ok.injEq] at hb
    split at hb
    · cases hb
    · exact (Option.some.inj hb).symm
  subst e
  have hc : convOf w ≠ .into := by
    cases w with
    | other => exact absurd trivial hno
    | path ss => exact segmentConv_container fun h => hno fun s hs => h s (List.dropLast_subset _ hs)
  have hev : (convOf w).eval (into ⟨none, .name n⟩) (.plain v) = none := by
    cases h : convOf w
    · exact absurd h hc
    · rfl
    · rfl
    · rfl
  have hbn : ((namedBody fs).map (·.1)).Nodup := by
    have := (namedBody_perm fs).map (·.1)
    rw [List.map_map] at this
    exact this.nodup_iff.mpr hd
  have hfb := find_mem hbn ((namedBody_perm fs).mem_iff.mpr (List.mem_map.mpr ⟨(n, w), hw, rfl⟩))
  have hfp := find_mem (hp.nodup_iff.mpr hd) hv
  have hnn : n ∈ names := hs.mem_iff.mpr (List.mem_map.mpr ⟨(n, w), hw, rfl⟩)
  simp only [Body.run, Option.map_eq_none_iff, runNamed]
  split
  · exact mapM_none hnn (by simp [hfb, hfp, hev])
  · rfl

/-! ## The hypotheses are met -/

/-- The struct of the example in the documentation of the macro (`serialization-types-macros/src/lib.rs:12-61`), with a field of each kind. -/
def sample : Input :=
  { attrs := [⟨true, some "derive", some "AutoFrom"⟩, ⟨true, some "auto_from", some "Bar"⟩]
    ident := "Foo"
    data := .struct (.named [("f", .path ["std", "vec", "Vec"]), ("i", .path ["i32"]), ("o", .path ["Option"]),
      ("b", .path ["Box"])]) }

example : Meant sample.data ∧ Target sample.attrs "Bar" := by
  refine ⟨⟨by simp [sample, types], by simp [sample, Distinct], ?_⟩, by simp [sample, Target]⟩
  intro w hw
  simp only [sample, types, List.map_cons, List.map_nil, List.mem_cons, List.not_mem_nil, or_false] at hw
  rcases hw with rfl | rfl | rfl | rfl <;> simp [Ordinary, containers]

/-- The target with its fields in another order, and a value: the vector is converted item by item, the others in their way. -/
example :
    SameType sample.data (.struct (.named ["i", "b", "o", "f"])) ∧
    ValueOf sample.data (.struct (.named [("f", .list [1, 2]), ("i", .plain 3), ("o", .opt (some 4)), ("b", .boxed 5)])) ∧
    (Body.named (namedBody [("f", .path ["std", "vec", "Vec"]), ("i", .path ["i32"]), ("o", .path ["Option"]),
      ("b", .path ["Box"])])).run (fun _ n => n + 10) (.struct (.named ["i", "b", "o", "f"]))
      (.struct (.named [("f", .list [1, 2]), ("i", .plain 3), ("o", .opt (some 4)), ("b", .boxed 5)])) =
      some (.struct (.named [("i", .plain 13), ("b", .boxed 15), ("o", .opt (some 14)), ("f", .list [11, 12])])) := by
  refine ⟨?_, ⟨List.Perm.refl _, ?_⟩, by decide +kernel⟩
  · simp only [SameType, sample, SameFields]; decide
  · intro n w p hw hp
    simp only [List.mem_cons, Prod.mk.injEq, List.not_mem_nil, or_false] at hw hp
    rcases hw with ⟨rfl, rfl⟩ | ⟨rfl, rfl⟩ | ⟨rfl, rfl⟩ | ⟨rfl, rfl⟩ <;>
      rcases hp with ⟨e, rfl⟩ | ⟨e, rfl⟩ | ⟨e, rfl⟩ | ⟨e, rfl⟩ <;> first
      | (exact absurd e (by decide))
      | simp [Holds, containers]

/-- An enum with three kinds of variants, as in `serialization-types-macros/tests/enum.rs`. -/
def sampleEnum : Input :=
  { attrs := [⟨true, some "auto_from", some "B"⟩, ⟨true, some "auto_from", some "C"⟩]
    ident := "A"
    data := .enum [("X", .unit), ("Y", .unnamed [.path ["u8"], .path ["Vec"]]), ("Z", .named [("a", .path ["Option"])])] }

example : Meant sampleEnum.data ∧ Target sampleEnum.attrs "C" ∧
    SameType sampleEnum.data (.enum [("Y", .unnamed 2), ("X", .unit), ("Z", .named ["a"])]) ∧
    ValueOf sampleEnum.data (.variant "Y" (.unnamed [.plain 1, .list [2, 3]])) ∧
    InOrder (.enum [("Y", .unnamed 2), ("X", .unit), ("Z", .named ["a"])]) (.variant "Y" (.unnamed [.plain 1, .list [2, 3]])) := by
  refine ⟨⟨by simp, by simp, ?_⟩, by simp [sampleEnum, Target], ⟨by decide, ?_⟩, ⟨.unnamed [.path ["u8"], .path ["Vec"]], by simp, rfl, ?_⟩,
    ⟨.unnamed 2, by simp, rfl⟩⟩
  · intro v hv
    simp only [List.mem_cons, List.not_mem_nil, or_false] at hv
    rcases hv with rfl | rfl | rfl <;> simp [types, Distinct, Ordinary]
  · intro n fs s h1 h2
    simp only [List.mem_cons, Prod.mk.injEq, List.not_mem_nil, or_false] at h1 h2
    rcases h1 with ⟨rfl, rfl⟩ | ⟨rfl, rfl⟩ | ⟨rfl, rfl⟩ <;>
      rcases h2 with ⟨e, rfl⟩ | ⟨e, rfl⟩ | ⟨e, rfl⟩ <;> first
      | (exact absurd e (by decide))
      | simp [SameFields]
  · intro k w p hw hp
    match k with
    | 0 => simp at hw hp; subst hw hp; simp [Holds, containers]
    | 1 => simp at hw hp; subst hw hp; simp [Holds]
    | k + 2 => simp at hw

/-- What is written for the second target of that enum, and that there are ten implementations for each. -/
example : (derive sampleEnum).toOption.map List.length = some 20 := by decide +kernel

/-- Layers with numbers of their own. -/
example : runWrap (fun n : Nat => some (n + 1)) [1, 2] 3 = some (.layer 1 (.layer 2 (.bare 4))) ∧
    runUnwrap (fun n : Nat => some (n - 1)) 2 (.layer 7 (.layer 9 (.bare 4))) = some 3 := by decide

/-- Conversions of parts that are inverse to each other. -/
example : ∀ (_ : Place) (v : Int), (fun (_ : Place) (n : Int) => n - 10) ⟨none, .pos 0⟩ (v + 10) = v := by
  intro _ v; simp

/-- A type in a module with the name of a container. -/
example : ¬ Ordinary (.path ["crate", "Box", "Size"]) ∧
    bodyOf (.struct (.named [("s", .path ["crate", "Box", "Size"])])) = .ok (some (.named [("s", .boxed)])) := by
  constructor
  · simp [Ordinary, containers]
  · rfl

end MinaRs.Derive
