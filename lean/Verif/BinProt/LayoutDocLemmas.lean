import Verif.BinProt.LayoutDoc
import Verif.BinProt.LayoutDocSpec

/-!
# Lemmas about reading layout documents
-/

namespace MinaRs.BinProt.LayoutDoc

open MinaRs.Json (J)
open Spec

theorem member_none_iff (key : String) : (es : List (String × J)) →
    (member key es = none ↔ ∀ e ∈ es, e.1 ≠ key)
  | [] => by simp [member]
  | (k, v) :: es => by
    have ih := member_none_iff key es
    unfold member
    cases h : member key es with
    | some w =>
      rw [h] at ih
      simp only [reduceCtorEq, false_iff] at ih ⊢
      intro hall
      exact ih fun e he => hall e (List.mem_cons_of_mem _ he)
    | none =>
      rw [h] at ih
      have ih := ih.mp rfl
      by_cases hk : k = key
      · simp [hk]
      · simp only [hk, if_false, true_iff]
        intro e he
        rcases List.mem_cons.mp he with rfl | he
        · exact hk
        · exact ih e he

theorem member_some_iff (key : String) (v : J) : (es : List (String × J)) →
    (member key es = some v ↔ LastUnder es key v)
  | [] => by simp [member, LastUnder]
  | (k, w) :: es => by
    have ih := member_some_iff key v es
    have ihn := member_none_iff key es
    unfold member
    cases h : member key es with
    | some x =>
      rw [h] at ih ihn
      simp only [ih]
      constructor
      · rintro ⟨b, a, rfl, ha⟩
        exact ⟨(k, w) :: b, a, rfl, ha⟩
      · rintro ⟨b, a, he, ha⟩
        cases b with
        | nil =>
          injection he with h1 h2
          subst h2
          exact absurd (ihn.mpr ha) (by simp)
        | cons x b =>
          injection he with h1 h2
          exact ⟨b, a, h2, ha⟩
    | none =>
      rw [h] at ih ihn
      have ihn := ihn.mp rfl
      by_cases hk : k = key
      · subst hk
        simp only [if_true]
        constructor
        · intro hv
          cases hv
          exact ⟨[], es, rfl, ihn⟩
        · rintro ⟨b, a, he, ha⟩
          cases b with
          | nil => injection he with h1 h2; injection h1 with h3 h4; rw [h4]
          | cons x b =>
            injection he with h1 h2
            subst h2
            exact absurd rfl (ihn (k, v) (by simp))
      · simp only [hk, if_false, reduceCtorEq, false_iff]
        rintro ⟨b, a, he, ha⟩
        cases b with
        | nil => injection he with h1 h2; injection h1 with h3 h4; exact hk h3
        | cons x b =>
          injection he with h1 h2
          subst h2
          exact ihn (key, v) (by simp) rfl

/-- What a list of optional members says about the document. -/
def Says (keys : List String) (j : J) (key : String) : Option J → Prop
  | some v => Holds keys j key v
  | none => Lacks j key

theorem parts_iff (keys : List String) (hn : keys.Nodup) (hne : keys ≠ []) (j : J) (l : List (Option J)) :
    parts keys j = some l ↔ l.length = keys.length ∧
      ∀ (i : Nat) (k : String) (o : Option J), keys[i]? = some k → l[i]? = some o → Says keys j k o := by
  constructor
  · intro h
    cases j with
    | obj es =>
      cases h
      refine ⟨by simp, ?_⟩
      intro i k o hk ho
      rw [List.getElem?_map, hk] at ho
      simp only [Option.map_some, Option.some.injEq] at ho
      cases o with
      | some v => exact Or.inl ⟨es, rfl, (member_some_iff _ _ _).mp ho⟩
      | none => exact ⟨es, rfl, (member_none_iff _ _).mp ho⟩
    | arr js =>
      simp only [parts] at h
      split at h
      · rename_i hl
        cases h
        refine ⟨by simp [hl], ?_⟩
        intro i k o hk ho
        rw [List.getElem?_map] at ho
        cases hj : js[i]? with
        | none => rw [hj] at ho; cases ho
        | some v =>
          rw [hj] at ho
          cases ho
          exact Or.inr ⟨js, i, rfl, hl, hk, hj⟩
      · cases h
    | _ => cases h
  · rintro ⟨hl, h⟩
    cases j with
    | obj es =>
      refine congrArg some ?_
      apply List.ext_getElem?
      intro i
      rw [List.getElem?_map]
      cases hk : keys[i]? with
      | none =>
        have : keys.length ≤ i := by simpa using hk
        rw [List.getElem?_eq_none (by omega)]; rfl
      | some k =>
        have hi : i < keys.length := (List.getElem?_eq_some_iff.mp hk).1
        obtain ⟨o, ho⟩ : ∃ o, l[i]? = some o := ⟨_, List.getElem?_eq_getElem (by omega)⟩
        rw [ho]
        simp only [Option.map_some, Option.some.injEq]
        have := h i k o hk ho
        cases o with
        | some v =>
          rcases this with ⟨es', he, hv⟩ | ⟨js, i', he, _⟩
          · injection he with he; subst he; exact (member_some_iff _ _ _).mpr hv
          · cases he
        | none =>
          obtain ⟨es', he, hv⟩ := this
          injection he with he; subst he; exact (member_none_iff _ _).mpr hv
    | arr js =>
      have key : ∀ (i : Nat) (k : String) (o : Option J), keys[i]? = some k → l[i]? = some o →
          js.length = keys.length ∧ ∃ v, o = some v ∧ js[i]? = some v := by
        intro i k o hk ho
        have := h i k o hk ho
        cases o with
        | none => obtain ⟨es, he, _⟩ := this; cases he
        | some v =>
          rcases this with ⟨es, he, _⟩ | ⟨js', i', he, h1, h2, h3⟩
          · cases he
          · injection he with he; subst he
            have : i = i' := (List.getElem?_inj (by exact (List.getElem?_eq_some_iff.mp hk).1) hn).mp (by rw [hk, h2])
            subst this
            exact ⟨h1, v, rfl, h3⟩
      have hlen : js.length = keys.length := by
        obtain ⟨k, ks, rfl⟩ := List.exists_cons_of_ne_nil hne
        cases l with
        | nil => simp at hl
        | cons o l => exact (key 0 k o rfl rfl).1
      simp only [parts, hlen, if_true, Option.some.injEq]
      apply List.ext_getElem?
      intro i
      rw [List.getElem?_map]
      by_cases hi : i < keys.length
      · obtain ⟨o, ho⟩ : ∃ o, l[i]? = some o := ⟨_, List.getElem?_eq_getElem (by omega)⟩
        obtain ⟨_, v, rfl, hv⟩ := key i keys[i] o (List.getElem?_eq_getElem hi) ho
        rw [ho, hv]; rfl
      · rw [List.getElem?_eq_none (l := l) (by omega), List.getElem?_eq_none (l := js) (by omega)]; rfl
    | _ =>
      exfalso
      obtain ⟨k, ks, rfl⟩ := List.exists_cons_of_ne_nil hne
      cases l with
      | nil => simp at hl
      | cons o l =>
        have := h 0 k o rfl rfl
        cases o with
        | none => obtain ⟨es, he, _⟩ := this; cases he
        | some v => rcases this with ⟨es, he, _⟩ | ⟨js', i', he, _⟩ <;> cases he

theorem parts2_iff (a b : String) (hab : a ≠ b) (j x y : J) :
    parts [a, b] j = some [some x, some y] ↔ Holds [a, b] j a x ∧ Holds [a, b] j b y := by
  rw [parts_iff _ (by simp [hab]) (by simp)]
  constructor
  · rintro ⟨-, h⟩
    exact ⟨h 0 a (some x) rfl rfl, h 1 b (some y) rfl rfl⟩
  · rintro ⟨h1, h2⟩
    refine ⟨rfl, ?_⟩
    intro i k o hk ho
    match i with
    | 0 => cases hk; cases ho; exact h1
    | 1 => cases hk; cases ho; exact h2
    | i + 2 => simp at hk

theorem parts3_iff (a b c : String) (hn : [a, b, c].Nodup) (j x y z : J) :
    parts [a, b, c] j = some [some x, some y, some z] ↔
      Holds [a, b, c] j a x ∧ Holds [a, b, c] j b y ∧ Holds [a, b, c] j c z := by
  rw [parts_iff _ hn (by simp)]
  constructor
  · rintro ⟨-, h⟩
    exact ⟨h 0 a (some x) rfl rfl, h 1 b (some y) rfl rfl, h 2 c (some z) rfl rfl⟩
  · rintro ⟨h1, h2, h3⟩
    refine ⟨rfl, ?_⟩
    intro i k o hk ho
    match i with
    | 0 => cases hk; cases ho; exact h1
    | 1 => cases hk; cases ho; exact h2
    | 2 => cases hk; cases ho; exact h3
    | i + 3 => simp at hk

theorem parts4_iff (a b c d : String) (hn : [a, b, c, d].Nodup) (j : J) (x y z w : Option J) :
    parts [a, b, c, d] j = some [x, y, z, w] ↔
      Says [a, b, c, d] j a x ∧ Says [a, b, c, d] j b y ∧ Says [a, b, c, d] j c z ∧ Says [a, b, c, d] j d w := by
  rw [parts_iff _ hn (by simp)]
  constructor
  · rintro ⟨-, h⟩
    exact ⟨h 0 a x rfl rfl, h 1 b y rfl rfl, h 2 c z rfl rfl, h 3 d w rfl rfl⟩
  · rintro ⟨h1, h2, h3, h4⟩
    refine ⟨rfl, ?_⟩
    intro i k o hk ho
    match i with
    | 0 => cases hk; cases ho; exact h1
    | 1 => cases hk; cases ho; exact h2
    | 2 => cases hk; cases ho; exact h3
    | 3 => cases hk; cases ho; exact h4
    | i + 4 => simp at hk

/-! ## Soundness -/

section
variable {R : J → Option Rule} (hR : ∀ j r, R j = some r → Describes j r)
include hR

theorem all_sound : (js : List J) → (rs : List Rule) → all R js = some rs → DescribesAll js rs
  | [], rs, h => by cases h; exact .nil
  | j :: js, rs, h => by
    unfold all at h
    split at h
    · cases h
    · rename_i r hr
      split at h
      · cases h
      · rename_i rs' hrs
        cases h
        exact .cons (hR _ _ hr) (all_sound js _ hrs)

theorem vec_sound (j : J) (rs : List Rule) (h : vec R j = some rs) : ∃ js, j = .arr js ∧ DescribesAll js rs := by
  cases j with
  | arr js => exact ⟨js, rfl, all_sound hR js rs h⟩
  | _ => cases h

omit hR in
theorem text_iff (j : J) (s : String) : text j = some s ↔ j = .str s := by
  cases j <;> simp [text]

omit hR in
theorem int_iff (lo hi : Int) (j : J) (n : Int) : int lo hi j = some n ↔ j = .num n ∧ lo ≤ n ∧ n ≤ hi := by
  cases j with
  | num m =>
    simp only [int, J.num.injEq]
    split
    · rename_i h
      simp only [Option.some.injEq]
      constructor
      · rintro rfl; exact ⟨rfl, h⟩
      · exact fun h => h.1
    · rename_i h
      simp only [reduceCtorEq, false_iff]
      rintro ⟨rfl, h'⟩; exact h h'
  | _ => simp [int]

theorem field_sound (j : J) (f : String × Rule) (h : field R j = some f) :
    ∃ jr, Holds ["field_name", "field_rule"] j "field_name" (.str f.1) ∧
      Holds ["field_name", "field_rule"] j "field_rule" jr ∧ Describes jr f.2 := by
  unfold field at h
  split at h
  · rename_i n r hp
    obtain ⟨h1, h2⟩ := (parts2_iff _ _ (by decide) _ _ _).mp hp
    simp only [Option.bind_eq_bind, Option.pure_def, Option.bind_eq_some_iff, Option.some.injEq] at h
    obtain ⟨s, hs, r', hr, rfl⟩ := h
    rw [(text_iff _ _).mp hs] at h1
    exact ⟨r, h1, h2, hR _ _ hr⟩
  · cases h

theorem fields_sound : (js : List J) → (fs : List (String × Rule)) → all (field R) js = some fs → DescribesFields js fs
  | [], fs, h => by cases h; exact .nil
  | j :: js, fs, h => by
    unfold all at h
    split at h
    · cases h
    · rename_i f hf
      split at h
      · cases h
      · rename_i fs' hfs
        cases h
        obtain ⟨jr, h1, h2, h3⟩ := field_sound hR j f hf
        exact .cons h1 h2 h3 (fields_sound js _ hfs)

theorem summands_sound : (js : List J) → (ss : List Summand) → all (summand R) js = some ss → DescribesSummands js ss
  | [], ss, h => by cases h; exact .nil
  | j :: js, ss, h => by
    unfold all at h
    split at h
    · cases h
    · rename_i s hs
      split at h
      · cases h
      · rename_i ss' hss
        cases h
        unfold summand at hs
        split at hs
        · rename_i n i as hp
          obtain ⟨h1, h2, h3⟩ := (parts3_iff _ _ _ (by decide) _ _ _ _).mp hp
          simp only [Option.bind_eq_bind, Option.pure_def, Option.bind_eq_some_iff, Option.some.injEq] at hs
          obtain ⟨nm, hnm, k, hk, rs, hrs, rfl⟩ := hs
          rw [(text_iff _ _).mp hnm] at h1
          obtain ⟨rfl, hk1, hk2⟩ := (int_iff _ _ _ _).mp hk
          obtain ⟨js', rfl, hrs2⟩ := vec_sound hR _ _ hrs
          exact .cons h1 h2 (by omega) (by omega) h3 hrs2 (summands_sound js _ hss)
        · cases hs

theorem polyvars_sound : (js : List J) → (ps : List Polyvar) → all (polyvar R) js = some ps → DescribesPolyvars js ps
  | [], ps, h => by cases h; exact .nil
  | j :: js, ps, h => by
    unfold all at h
    split at h
    · cases h
    · rename_i p hp
      split at h
      · cases h
      · rename_i ps' hps
        cases h
        have ih := polyvars_sound js _ hps
        unfold polyvar at hp
        split at hp
        · rename_i v
          split at hp
          · rename_i n i as hq
            obtain ⟨h1, h2, h3⟩ := (parts3_iff _ _ _ (by decide) _ _ _ _).mp hq
            simp only [Option.bind_eq_bind, Option.pure_def, Option.bind_eq_some_iff, Option.some.injEq] at hp
            obtain ⟨nm, hnm, k, hk, rs, hrs, rfl⟩ := hp
            rw [(text_iff _ _).mp hnm] at h1
            obtain ⟨rfl, hk1, hk2⟩ := (int_iff _ _ _ _).mp hk
            obtain ⟨js', rfl, hrs2⟩ := vec_sound hR _ _ hrs
            refine .tagged h1 ?_ h3 hrs2 ih
            have : (((UInt32.ofNat k.toNat).toNat : Nat) : Int) = k := by
              rw [UInt32.toNat_ofNat', Nat.mod_eq_of_lt (by omega)]; omega
            rw [this]; exact h2
          · cases hp
        · simp only [Option.bind_eq_bind, Option.pure_def, Option.bind_eq_some_iff, Option.some.injEq] at hp
          obtain ⟨r, hr, rfl⟩ := hp
          exact .inherited (hR _ _ hr) ih
        · cases hp

theorem bindings_sound : (js : List J) → (bs : List (String × Rule)) → all (binding R) js = some bs →
    DescribesBindings js bs
  | [], bs, h => by cases h; exact .nil
  | j :: js, bs, h => by
    unfold all at h
    split at h
    · cases h
    · rename_i b hb
      split at h
      · cases h
      · rename_i bs' hbs
        cases h
        have ih := bindings_sound js _ hbs
        unfold binding at hb
        split at hb
        · simp only [Option.bind_eq_bind, Option.pure_def, Option.bind_eq_some_iff, Option.some.injEq] at hb
          obtain ⟨s, hs, r, hr, rfl⟩ := hb
          rw [(text_iff _ _).mp hs]
          exact .cons (hR _ _ hr) ih
        · cases hb

omit hR in
theorem rule0_iff (t : String) (r : Rule) : rule0 t = some r ↔ (t, r) ∈ plainRules := by
  unfold rule0
  constructor
  · intro h
    split at h
    all_goals first | (cases h; done) | (cases h; simp [plainRules])
  · intro h
    simp only [plainRules, List.mem_cons, Prod.mk.injEq, List.not_mem_nil, or_false] at h
    rcases h with ⟨rfl, rfl⟩ | ⟨rfl, rfl⟩ | ⟨rfl, rfl⟩ | ⟨rfl, rfl⟩ | ⟨rfl, rfl⟩ | ⟨rfl, rfl⟩ | ⟨rfl, rfl⟩ | ⟨rfl, rfl⟩ |
      ⟨rfl, rfl⟩ | ⟨rfl, rfl⟩ | ⟨rfl, rfl⟩ <;> rfl

theorem reference_sound (j : J) (r : Rule) (h : reference R j = some r) :
    Describes (.arr [.str "Reference", j]) r := by
  unfold reference at h
  split at h
  · split at h
    · rename_i v ps i hp
      obtain ⟨h1, h2⟩ := (parts2_iff _ _ (by decide) _ _ _).mp hp
      simp only [Option.bind_eq_bind, Option.pure_def, Option.bind_eq_some_iff, Option.some.injEq] at h
      obtain ⟨rs, hrs, s, hs, rfl⟩ := h
      obtain ⟨js, rfl, hrs2⟩ := vec_sound hR _ _ hrs
      rw [(text_iff _ _).mp hs] at h2
      exact .unresolved h1 h2 hrs2
    · cases h
  · split at h
    · rename_i v d p b r' hp
      obtain ⟨h1, h2, h3, h4⟩ := (parts4_iff _ _ _ _ (by decide) _ _ _ _ _).mp hp
      simp only [Option.bind_eq_bind, Option.pure_def, Option.bind_eq_some_iff, Option.some.injEq] at h
      obtain ⟨s, hs, fl, hfl, pa, hpa, rr, hrr, rfl⟩ := h
      rw [(text_iff _ _).mp hs] at h1
      refine .resolved (b := fl) h1 ?_ ?_ h4 (hR _ _ hrr)
      · cases p with
        | none => cases hpa; exact Or.inr ⟨h2, rfl⟩
        | some p =>
          rw [(text_iff _ _).mp hpa] at h2
          exact Or.inl h2
      · cases b with
        | none => exact Or.inr h3
        | some b =>
          cases b with
          | bool b => cases hfl; exact Or.inl h3
          | _ => cases hfl
    · cases h
  · cases h

theorem rule1_sound (t : String) (v : J) (r : Rule) (h : rule1 R t v = some r) : Describes (.arr [.str t, v]) r := by
  have hv : ∀ (β : Type) (f : J → Option β) (j : J) (bs : List β), vec f j = some bs → ∃ js, j = .arr js ∧ all f js = some bs := by
    intro β f j bs h
    cases j with
    | arr js => exact ⟨js, rfl, h⟩
    | _ => cases h
  unfold rule1 at h
  split at h
  case h_8 => exact reference_sound hR v r h
  all_goals
    simp only [Option.bind_eq_bind, Option.pure_def, Option.bind_eq_some_iff, Option.some.injEq, reduceCtorEq] at h
  · obtain ⟨r', hr, rfl⟩ := h; exact .option (hR _ _ hr)
  · obtain ⟨fs, hf, rfl⟩ := h
    obtain ⟨js, rfl, hf⟩ := hv _ _ _ _ hf
    exact .record (fields_sound hR _ _ hf)
  · obtain ⟨fs, hf, rfl⟩ := h
    obtain ⟨js, rfl, hf2⟩ := vec_sound hR _ _ hf
    exact .tuple hf2
  · obtain ⟨fs, hf, rfl⟩ := h
    obtain ⟨js, rfl, hf⟩ := hv _ _ _ _ hf
    exact .sum (summands_sound hR _ _ hf)
  · obtain ⟨fs, hf, rfl⟩ := h
    obtain ⟨js, rfl, hf⟩ := hv _ _ _ _ hf
    exact .polyvar (polyvars_sound hR _ _ hf)
  · obtain ⟨r', hr, rfl⟩ := h; exact .list (hR _ _ hr)
  · obtain ⟨e, he, rfl⟩ := h
    unfold hashEntry at he
    split at he
    · rename_i k w hp
      obtain ⟨h1, h2⟩ := (parts2_iff _ _ (by decide) _ _ _).mp hp
      simp only [Option.bind_eq_bind, Option.pure_def, Option.bind_eq_some_iff, Option.some.injEq] at he
      obtain ⟨rk, hk, rv, hw, rfl⟩ := he
      exact .hashtable h1 h2 (hR _ _ hk) (hR _ _ hw)
    · cases he
  · obtain ⟨s, hs, rfl⟩ := h
    rw [(text_iff _ _).mp hs]; exact .typeVar
  · obtain ⟨fs, hf, rfl⟩ := h
    obtain ⟨js, rfl, hf2⟩ := vec_sound hR _ _ hf
    exact .selfReference hf2
  · obtain ⟨fs, hf, rfl⟩ := h
    obtain ⟨js, rfl, hf2⟩ := vec_sound hR _ _ hf
    exact .custom hf2

omit hR in
theorem texts_iff : (js : List J) → (ns : List String) → (all text js = some ns ↔ js = ns.map .str)
  | [], ns => by
    constructor
    · intro h; cases h; rfl
    · intro h
      cases ns with
      | nil => rfl
      | cons n ns => cases h
  | j :: js, ns => by
    unfold all
    cases ht : text j with
    | none =>
      simp only [reduceCtorEq, false_iff]
      intro h
      cases ns with
      | nil => cases h
      | cons n ns => injection h with h1 h2; subst h1; cases ht
    | some s =>
      have := (text_iff _ _).mp ht
      subst this
      cases ha : all text js with
      | none =>
        simp only [reduceCtorEq, false_iff]
        intro h
        cases ns with
        | nil => cases h
        | cons n ns =>
          injection h with h1 h2
          rw [(texts_iff js ns).mpr h2] at ha; cases ha
      | some ss =>
        simp only [Option.some.injEq]
        have := (texts_iff js ss).mp ha
        constructor
        · rintro rfl; rw [this]; rfl
        · intro h
          cases ns with
          | nil => cases h
          | cons n ns =>
            injection h with h1 h2
            injection h1 with h1
            have h3 := (texts_iff js ns).mpr h2
            rw [ha] at h3
            cases h3; subst h1; rfl

theorem rule2_sound (t : String) (v w : J) (r : Rule) (h : rule2 R t v w = some r) :
    Describes (.arr [.str t, v, w]) r := by
  unfold rule2 at h
  split at h
  all_goals
    simp only [Option.bind_eq_bind, Option.pure_def, Option.bind_eq_some_iff, Option.some.injEq, reduceCtorEq] at h
  · obtain ⟨n, hn, r', hr, rfl⟩ := h
    obtain ⟨rfl, h1, h2⟩ := (int_iff _ _ _ _).mp hn
    obtain ⟨m, rfl⟩ : ∃ m : Nat, n = m := ⟨n.toNat, by omega⟩
    exact .vec (by omega) (hR _ _ hr)
  · obtain ⟨ns, hns, r', hr, rfl⟩ := h
    cases v with
    | arr js =>
      rw [(texts_iff js ns).mp hns]
      exact .typeAbstraction (hR _ _ hr)
    | _ => cases hns
  · obtain ⟨bs, hbs, r', hr, rfl⟩ := h
    cases v with
    | arr js => exact .typeClosure (bindings_sound hR _ _ hbs) (hR _ _ hr)
    | _ => cases hbs
end

theorem ruleUpTo_sound : (n : Nat) → (j : J) → (r : Rule) → ruleUpTo n j = some r → Describes j r
  | 0, j, r, h => by cases h
  | n + 1, j, r, h => by
    unfold ruleUpTo at h
    split at h
    · exact .plain ((rule0_iff _ _).mp h)
    · exact rule1_sound (ruleUpTo_sound n) _ _ _ h
    · exact rule2_sound (ruleUpTo_sound n) _ _ _ _ h
    · cases h

/-! ## Completeness -/

theorem depth_mem : {js : List J} → {j : J} → j ∈ js → depth j ≤ depths js
  | x :: js, j, h => by
    rcases List.mem_cons.mp h with rfl | h
    · simp only [depths]; omega
    · have := depth_mem h
      simp only [depths]; omega

theorem depth_entry : {es : List (String × J)} → {k : String} → {v : J} → (k, v) ∈ es → depth v ≤ depthEntries es
  | (a, x) :: es, k, v, h => by
    rcases List.mem_cons.mp h with h | h
    · cases h; simp only [depthEntries]; omega
    · have := depth_entry h
      simp only [depthEntries]; omega

theorem depth_holds {keys : List String} {j : J} {k : String} {v : J} (h : Holds keys j k v) : depth v < depth j := by
  rcases h with ⟨es, rfl, b, a, rfl, -⟩ | ⟨js, i, rfl, -, -, h⟩
  · have : (k, v) ∈ b ++ (k, v) :: a := by simp
    have := depth_entry this
    simp only [depth]; omega
  · have := depth_mem (List.mem_of_getElem? h)
    simp only [depth]; omega

theorem vec_arr {β : Type} {f : J → Option β} {js : List J} {bs : List β} (h : all f js = some bs) :
    vec f (.arr js) = some bs := h

theorem all_cons {α β : Type} {f : α → Option β} {a : α} {as : List α} {b : β} {bs : List β} (h1 : f a = some b)
    (h2 : all f as = some bs) : all f (a :: as) = some (b :: bs) := by
  unfold all; rw [h1]; simp only [h2]

theorem ruleUpTo_one (n : Nat) (t : String) (v : J) :
    ruleUpTo (n + 1) (.arr [.str t, v]) = rule1 (ruleUpTo n) t v := rfl

theorem ruleUpTo_two (n : Nat) (t : String) (v w : J) :
    ruleUpTo (n + 1) (.arr [.str t, v, w]) = rule2 (ruleUpTo n) t v w := rfl

theorem int_num {lo hi n : Int} (h1 : lo ≤ n) (h2 : n ≤ hi) : int lo hi (.num n) = some n :=
  (int_iff _ _ _ _).mpr ⟨rfl, h1, h2⟩

mutual
theorem complete {j : J} {r : Rule} : Describes j r → ∀ n, depth j ≤ n → ruleUpTo n j = some r
  | .plain h, 0, hn => by simp [depth] at hn
  | .plain h, n + 1, hn => (rule0_iff _ _).mpr h
  | .option h, 0, hn => by simp [depth] at hn
  | .option (j := j) h, n + 1, hn => by
    have := complete h n (by simp only [depth, depths] at hn; omega)
    rw [ruleUpTo_one]
    simp only [rule1, this]; rfl
  | .list h, 0, hn => by simp [depth] at hn
  | .list h, n + 1, hn => by
    have := complete h n (by simp only [depth, depths] at hn; omega)
    rw [ruleUpTo_one]
    simp only [rule1, this]; rfl
  | .record h, 0, hn => by simp [depth] at hn
  | .record h, n + 1, hn => by
    have := completeFields h n (by simp only [depth, depths] at hn; omega)
    rw [ruleUpTo_one]
    simp only [rule1, vec_arr this]; rfl
  | .tuple h, 0, hn => by simp [depth] at hn
  | .tuple h, n + 1, hn => by
    have := completeAll h n (by simp only [depth, depths] at hn; omega)
    rw [ruleUpTo_one]
    simp only [rule1, vec_arr this]; rfl
  | .sum h, 0, hn => by simp [depth] at hn
  | .sum h, n + 1, hn => by
    have := completeSummands h n (by simp only [depth, depths] at hn; omega)
    rw [ruleUpTo_one]
    simp only [rule1, vec_arr this]; rfl
  | .polyvar h, 0, hn => by simp [depth] at hn
  | .polyvar h, n + 1, hn => by
    have := completePolyvars h n (by simp only [depth, depths] at hn; omega)
    rw [ruleUpTo_one]
    simp only [rule1, vec_arr this]; rfl
  | .custom h, 0, hn => by simp [depth] at hn
  | .custom h, n + 1, hn => by
    have := completeAll h n (by simp only [depth, depths] at hn; omega)
    rw [ruleUpTo_one]
    simp only [rule1, vec_arr this]; rfl
  | .resolved h1 h2 h3 h4 h, 0, hn => by simp [depth] at hn
  | .resolved (j := j) (jr := jr) (d := d) (p := p) (b := b) h1 h2 h3 h4 h, n + 1, hn => by
    have hd := depth_holds h4
    have ih := complete h n (by simp only [depth, depths] at hn; omega)
    obtain ⟨po, hp1, hp2⟩ : ∃ po, Says resolvedKeys j "source_module_path" po ∧ textOrDefault po = some p := by
      rcases h2 with h2 | ⟨h2, rfl⟩
      · exact ⟨some (.str p), h2, rfl⟩
      · exact ⟨none, h2, rfl⟩
    obtain ⟨bo, hb1, b', hb2⟩ : ∃ bo, Says resolvedKeys j "bin_io_derived" bo ∧ ∃ b', flagOrDefault bo = some b' := by
      rcases h3 with h3 | h3
      · exact ⟨some (.bool b), h3, b, rfl⟩
      · exact ⟨none, h3, false, rfl⟩
    have := (parts4_iff "source_type_decl" "source_module_path" "bin_io_derived" "ref_rule" (by decide) j
      (some (.str d)) po bo (some jr)).mpr ⟨h1, hp1, hb1, h4⟩
    show reference (ruleUpTo n) (.arr [.str "Resolved", j]) = _
    unfold reference
    simp only [this, ih, hp2, hb2, text]; rfl
  | .unresolved h1 h2 h, 0, hn => by simp [depth] at hn
  | .unresolved (j := j) h1 h2 h, n + 1, hn => by
    have hd := depth_holds h1
    have ih := completeAll h n (by simp only [depth, depths] at hn hd; omega)
    have := (parts2_iff _ _ (by decide) _ _ _).mpr ⟨h1, h2⟩
    show reference (ruleUpTo n) (.arr [.str "Unresolved", j]) = _
    unfold reference
    simp only [this, vec_arr ih, text]; rfl
  | .hashtable h1 h2 hk hv, 0, hn => by simp [depth] at hn
  | .hashtable (j := j) (k := k) (v := v) h1 h2 hk hv, n + 1, hn => by
    have hd1 := depth_holds h1
    have hd2 := depth_holds h2
    have ih1 := complete hk n (by simp only [depth, depths] at hn; omega)
    have ih2 := complete hv n (by simp only [depth, depths] at hn; omega)
    have := (parts2_iff _ _ (by decide) _ _ _).mpr ⟨h1, h2⟩
    have he : ∃ e, hashEntry (ruleUpTo n) j = some e := by
      refine ⟨(k, v), ?_⟩
      unfold hashEntry
      simp only [this, ih1, ih2]; rfl
    obtain ⟨e, he⟩ := he
    rw [ruleUpTo_one]
    simp only [rule1, he]; rfl
  | .typeVar, 0, hn => by simp [depth] at hn
  | .typeVar, n + 1, hn => rfl
  | .selfReference h, 0, hn => by simp [depth] at hn
  | .selfReference h, n + 1, hn => by
    have := completeAll h n (by simp only [depth, depths] at hn; omega)
    rw [ruleUpTo_one]
    simp only [rule1, vec_arr this]; rfl
  | .vec hm h, 0, hn => by simp [depth] at hn
  | .vec (n := m) hm h, n + 1, hn => by
    have := complete h n (by simp only [depth, depths] at hn; omega)
    rw [ruleUpTo_two]
    simp only [rule2, this, int_num (lo := 0) (hi := 18446744073709551615) (n := m) (by omega) (by omega)]; rfl
  | .typeAbstraction h, 0, hn => by simp [depth] at hn
  | .typeAbstraction (names := ns) h, n + 1, hn => by
    have := complete h n (by simp only [depth, depths] at hn; omega)
    rw [ruleUpTo_two]
    simp only [rule2, this, vec_arr ((texts_iff _ ns).mpr rfl)]; rfl
  | .typeClosure hb h, 0, hn => by simp [depth] at hn
  | .typeClosure hb h, n + 1, hn => by
    have := complete h n (by simp only [depth, depths] at hn; omega)
    have h2 := completeBindings hb n (by simp only [depth, depths] at hn; omega)
    rw [ruleUpTo_two]
    simp only [rule2, this, vec_arr h2]; rfl

theorem completeAll {js : List J} {rs : List Rule} : DescribesAll js rs → ∀ n, depths js ≤ n →
    all (ruleUpTo n) js = some rs
  | .nil, n, hn => rfl
  | .cons h hs, n, hn => by
    simp only [depths] at hn
    exact all_cons (complete h n (by omega)) (completeAll hs n (by omega))

theorem completeFields {js : List J} {fs : List (String × Rule)} : DescribesFields js fs → ∀ n, depths js ≤ n →
    all (field (ruleUpTo n)) js = some fs
  | .nil, n, hn => rfl
  | .cons h1 h2 h hs, n, hn => by
    simp only [depths] at hn
    have hd := depth_holds h2
    refine all_cons ?_ (completeFields hs n (by omega))
    unfold field
    simp only [(parts2_iff _ _ (by decide) _ _ _).mpr ⟨h1, h2⟩, complete h n (by omega), text]; rfl

theorem completeSummands {js : List J} {ss : List Summand} : DescribesSummands js ss → ∀ n, depths js ≤ n →
    all (summand (ruleUpTo n)) js = some ss
  | .nil, n, hn => rfl
  | .cons (i := i) h1 h2 hi1 hi2 h3 h hs, n, hn => by
    simp only [depths] at hn
    have hd := depth_holds h3
    simp only [depth] at hd
    refine all_cons ?_ (completeSummands hs n (by omega))
    unfold summand
    simp only [(parts3_iff _ _ _ (by decide) _ _ _ _).mpr ⟨h1, h2, h3⟩, vec_arr (completeAll h n (by omega)), text,
      int_num (lo := -2147483648) (hi := 2147483647) (n := i) (by omega) (by omega)]; rfl

theorem completePolyvars {js : List J} {ps : List Polyvar} : DescribesPolyvars js ps → ∀ n, depths js ≤ n →
    all (polyvar (ruleUpTo n)) js = some ps
  | .nil, n, hn => rfl
  | .tagged (h := u) h1 h2 h3 h hs, n, hn => by
    simp only [depths, depth] at hn
    have hd := depth_holds h3
    simp only [depth] at hd
    refine all_cons ?_ (completePolyvars hs n (by omega))
    have hu := u.toNat_lt
    unfold polyvar
    simp only [(parts3_iff _ _ _ (by decide) _ _ _ _).mpr ⟨h1, h2, h3⟩, vec_arr (completeAll h n (by omega)), text,
      int_num (lo := 0) (hi := 4294967295) (n := u.toNat) (by omega) (by omega)]
    simp only [Option.bind_eq_bind, Option.bind_some, Option.pure_def, Int.toNat_natCast, UInt32.ofNat_toNat]
  | .inherited h hs, n, hn => by
    simp only [depths, depth] at hn
    refine all_cons ?_ (completePolyvars hs n (by omega))
    unfold polyvar
    simp only [complete h n (by omega)]; rfl

theorem completeBindings {js : List J} {bs : List (String × Rule)} : DescribesBindings js bs → ∀ n, depths js ≤ n →
    all (binding (ruleUpTo n)) js = some bs
  | .nil, n, hn => rfl
  | .cons h hs, n, hn => by
    simp only [depths, depth] at hn
    refine all_cons ?_ (completeBindings hs n (by omega))
    unfold binding
    simp only [complete h n (by omega), text]; rfl
end

end MinaRs.BinProt.LayoutDoc
