import Verif.Derive.Spec
import Std.Data.String.ToNat

/-! # Lemmas on the derive macro -/

namespace MinaRs.Derive
open Spec

theorem mem_targets {attrs : List Attr} {t : String} : t ∈ targets attrs ↔ Target attrs t := by
  unfold targets Target
  rw [List.mem_filterMap]
  constructor
  · rintro ⟨⟨o, i, a⟩, hm, h⟩
    simp only [Bool.and_eq_true, beq_iff_eq] at h
    split at h
    · rename_i hc; obtain ⟨rfl, rfl⟩ := hc; subst h; exact hm
    · cases h
  · intro hm
    exact ⟨_, hm, by simp⟩

theorem targets_nil {attrs : List Attr} : targets attrs = [] ↔ ∀ t, ¬ Target attrs t := by
  rw [List.eq_nil_iff_forall_not_mem]
  exact forall_congr' fun t => not_congr mem_targets

theorem segmentConv_last {ss : List String} (ho : ∀ s ∈ ss.dropLast, s ∉ containers) :
    segmentConv ss = match ss.getLast? with
      | none => .into
      | some s => segmentConv [s] := by
  induction ss with
  | nil => rfl
  | cons a l ih =>
    cases l with
    | nil => rfl
    | cons b l =>
      have ha : a ∉ containers := ho a (by simp)
      have hr : ∀ s ∈ (b :: l).dropLast, s ∉ containers := fun s hs => ho s (by simp [hs])
      have hl : (a :: b :: l).getLast? = (b :: l).getLast? := by simp [List.getLast?_cons]
      have : segmentConv (a :: b :: l) = segmentConv (b :: l) := by
        simp only [containers, List.mem_cons, List.not_mem_nil, or_false, not_or] at ha
        rw [segmentConv]; simp [ha.1, ha.2.1, ha.2.2]
      rw [this, ih hr, hl]

theorem eval_holds {V : Type} {w : Written} {p : Part V} (f : V → V) (ho : Ordinary w) (hh : Holds w p) :
    (convOf w).eval f p = some (image f p) := by
  cases w with
  | other => cases p <;> simp [Holds] at hh <;> rfl
  | path ss =>
    have h := segmentConv_last (ss := ss) ho
    cases p with
    | list l => simp only [Holds] at hh; rw [hh] at h; simp only [convOf, h]; rfl
    | opt l => simp only [Holds] at hh; rw [hh] at h; simp only [convOf, h]; rfl
    | boxed l => simp only [Holds] at hh; rw [hh] at h; simp only [convOf, h]; rfl
    | plain v =>
      simp only [Holds] at hh
      cases hg : ss.getLast? with
      | none => rw [hg] at h; simp only [convOf, h]; rfl
      | some s =>
        rw [hg] at h
        have hs := hh s hg
        simp only [containers, List.mem_cons, List.not_mem_nil, or_false, not_or] at hs
        have : segmentConv [s] = .into := by simp [segmentConv, hs.1, hs.2.1, hs.2.2]
        simp only [convOf, h, this]; rfl

theorem find_mem {α : Type} {l : List (String × α)} (hd : (l.map (·.1)).Nodup) {n : String} {x : α} (hm : (n, x) ∈ l) :
    find n l = some x := by
  induction l with
  | nil => cases hm
  | cons a l ih =>
    simp only [List.map_cons, List.nodup_cons] at hd
    rw [find]
    rcases List.mem_cons.mp hm with h | h
    · subst h; simp
    · have : a.1 ≠ n := fun e => hd.1 (e ▸ List.mem_map.mpr ⟨(n, x), h, rfl⟩)
      rw [if_neg this]; exact ih hd.2 h

theorem namedBody_cons (f : String × Written) (fs : List (String × Written)) :
    (namedBody (f :: fs)).Perm ((f.1, convOf f.2) :: namedBody fs) := by
  unfold namedBody pick
  cases h : convOf f.2
  · simp [h]
  · simp only [List.filter_cons, h]
    simp only [show (Conv.items == Conv.into) = false from rfl, show (Conv.items == Conv.items) = true from rfl,
      show (Conv.items == Conv.option) = false from rfl, show (Conv.items == Conv.boxed) = false from rfl]
    simp only [Bool.false_eq_true, if_false, if_true, List.map_cons, List.append_assoc]
    exact List.perm_middle
  · simp only [List.filter_cons, h]
    simp only [show (Conv.option == Conv.into) = false from rfl, show (Conv.option == Conv.items) = false from rfl,
      show (Conv.option == Conv.option) = true from rfl, show (Conv.option == Conv.boxed) = false from rfl]
    simp only [Bool.false_eq_true, if_false, if_true, List.map_cons, List.cons_append]
    rw [List.append_assoc (_ ++ _)]
    exact (List.perm_middle (l₁ := _ ++ _)).trans (by simp [List.append_assoc])
  · simp only [List.filter_cons, h]
    simp only [show (Conv.boxed == Conv.into) = false from rfl, show (Conv.boxed == Conv.items) = false from rfl,
      show (Conv.boxed == Conv.option) = false from rfl, show (Conv.boxed == Conv.boxed) = true from rfl]
    simp only [Bool.false_eq_true, if_false, if_true, List.map_cons]
    exact List.perm_middle

theorem namedBody_perm (fs : List (String × Written)) :
    (namedBody fs).Perm (fs.map fun f => (f.1, convOf f.2)) := by
  induction fs with
  | nil => exact List.Perm.refl _
  | cons f fs ih => exact (namedBody_cons f fs).trans (ih.cons _)

theorem mapM_named {V : Type} {g : String → Option (String × Part V)} {R : String → Part V → Prop} {l : List String}
    (h : ∀ n ∈ l, ∃ q, g n = some (n, q) ∧ R n q) :
    ∃ qs, l.mapM g = some qs ∧ qs.map (·.1) = l ∧ ∀ n ∈ l, ∃ q, (n, q) ∈ qs ∧ R n q := by
  induction l with
  | nil => exact ⟨[], by simp, rfl, fun _ h => by cases h⟩
  | cons a l ih =>
    obtain ⟨q, hq, hr⟩ := h a (by simp)
    obtain ⟨qs, h1, h2, h3⟩ := ih fun n hn => h n (by simp [hn])
    refine ⟨(a, q) :: qs, ?_, by simp [h2], ?_⟩
    · simp [List.mapM_cons, hq, h1]
    · intro n hn
      rcases List.mem_cons.mp hn with e | e
      · subst e; exact ⟨q, by simp, hr⟩
      · obtain ⟨q', hm, hr'⟩ := h3 n e; exact ⟨q', by simp [hm], hr'⟩

/-- Any list of expressions, one for each field, in any order. -/
theorem runNamed_spec {V : Type} (into : Key → V → V) {fs : List (String × Written)} {body : List (String × Conv)}
    {names : List String} {ps : List (String × Part V)} (hd : (fs.map (·.1)).Nodup)
    (hb : body.Perm (fs.map fun f => (f.1, convOf f.2))) (hn : names.Perm (fs.map (·.1)))
    (hp : (ps.map (·.1)).Perm (fs.map (·.1))) (hh : ∀ n w p, (n, w) ∈ fs → (n, p) ∈ ps → Holds w p)
    (ho : ∀ w ∈ fs.map (·.2), Ordinary w) :
    ∃ qs, runNamed into body names ps = some qs ∧ qs.map (·.1) = names ∧
      ∀ n p, (n, p) ∈ ps → (n, image (into (.name n)) p) ∈ qs := by
  have hbn : (body.map (·.1)).Perm (fs.map (·.1)) := by
    have := hb.map (·.1)
    simpa [List.map_map, Function.comp_def] using this
  have hbd : (body.map (·.1)).Nodup := hbn.nodup_iff.mpr hd
  have hnd : names.Nodup := hn.nodup_iff.mpr hd
  have hpd : (ps.map (·.1)).Nodup := hp.nodup_iff.mpr hd
  have hsame : sameNames (body.map (·.1)) names = true := by
    have hbn' := hbn.trans hn.symm
    exact decide_eq_true ⟨hbd, hnd, fun x hx => hbn'.mem_iff.mp hx, fun x hx => hbn'.mem_iff.mpr hx⟩
  rw [runNamed, if_pos hsame]
  have key : ∀ n ∈ names, ∃ q, (do
      let c ← find n body
      let p ← find n ps
      let q ← c.eval (into (.name n)) p
      some (n, q)) = some (n, q) ∧ ∀ p, (n, p) ∈ ps → q = image (into (.name n)) p := by
    intro n hnn
    obtain ⟨⟨n1, w⟩, hm, e⟩ := List.mem_map.mp (hn.mem_iff.mp hnn)
    simp only at e; subst e
    obtain ⟨⟨n2, p⟩, hmp, e⟩ := List.mem_map.mp (hp.mem_iff.mpr (List.mem_map.mpr ⟨(n1, w), hm, rfl⟩))
    simp only at e; subst e
    have hmb : (n2, convOf w) ∈ body := hb.mem_iff.mpr (List.mem_map.mpr ⟨(n2, w), hm, rfl⟩)
    have he := eval_holds (into (.name n2)) (ho w (List.mem_map.mpr ⟨(n2, w), hm, rfl⟩)) (hh n2 w p hm hmp)
    refine ⟨image (into (.name n2)) p, ?_, ?_⟩
    · simp [find_mem hbd hmb, find_mem hpd hmp, he]
    · intro p' hp'
      have h1 := find_mem hpd hmp
      have h2 := find_mem hpd hp'
      rw [h1] at h2; rw [Option.some.inj h2]
  obtain ⟨qs, h1, h2, h3⟩ := mapM_named key
  refine ⟨qs, h1, h2, ?_⟩
  intro n p hm
  have hnn : n ∈ names := hn.mem_iff.mpr (hp.mem_iff.mp (List.mem_map.mpr ⟨(n, p), hm, rfl⟩))
  obtain ⟨q, hq, hr⟩ := h3 n hnn
  rw [← hr p hm]; exact hq

/-! ## Positions -/

/-- The fields with their positions, from `k` on. -/
def numbered : Nat → List Written → List (Nat × Conv)
  | _, [] => []
  | k, t :: ts => (k, convOf t) :: numbered (k + 1) ts

theorem unnamedLoop_eq (ts : List Written) (acc : List (Nat × Conv)) :
    unnamedLoop acc ts = acc ++ numbered acc.length ts := by
  induction ts generalizing acc with
  | nil => simp [unnamedLoop, numbered]
  | cons t ts ih => rw [unnamedLoop, ih]; simp [numbered]

theorem unnamedBody_eq (ts : List Written) : unnamedBody ts = numbered 0 ts := by
  rw [unnamedBody, unnamedLoop_eq]; rfl

theorem numbered_length (ts : List Written) (k : Nat) : (numbered k ts).length = ts.length := by
  induction ts generalizing k with
  | nil => rfl
  | cons t ts ih => simp [numbered, ih]

theorem numbered_run {V : Type} (into : Key → V → V) (item : List (Part V)) (ts : List Written) (k : Nat)
    (hl : item.length = k + ts.length) (hh : ∀ (i : Nat) w p, ts[i]? = some w → item[k + i]? = some p → Holds w p)
    (ho : ∀ w ∈ ts, Ordinary w) :
    ∃ qs : List (Part V), ((numbered k ts).mapM fun x => do
        let p ← item[x.1]?
        x.2.eval (into (.pos x.1)) p) = some qs ∧ qs.length = ts.length ∧
      ∀ (i : Nat) p, i < ts.length → item[k + i]? = some p → qs[i]? = some (image (into (.pos (k + i))) p) := by
  induction ts generalizing k with
  | nil => exact ⟨[], by simp [numbered], rfl, fun i p h => absurd h (Nat.not_lt_zero _)⟩
  | cons t ts ih =>
    simp only [List.length_cons] at hl
    obtain ⟨qs, h1, h2, h3⟩ := ih (k + 1) (by omega)
      (fun i w p hw hp => hh (i + 1) w p (by simpa using hw) (by rw [← hp]; congr 1; omega))
      (fun w hw => ho w (by simp [hw]))
    have hk : k < item.length := by omega
    have hp : item[k]? = some item[k] := List.getElem?_eq_getElem hk
    have he := eval_holds (into (.pos k)) (ho t (by simp)) (hh 0 t item[k] (by simp) (by simp [hp]))
    refine ⟨image (into (.pos k)) item[k] :: qs, ?_, by simp [h2], ?_⟩
    · rw [numbered, List.mapM_cons]
      simp only [hp, Option.bind_eq_bind, Option.bind_some, he] at h1 ⊢
      rw [h1]; rfl
    · intro i p hi hip
      cases i with
      | zero =>
        rw [Nat.add_zero, hp] at hip
        rw [← Option.some.inj hip]; simp
      | succ i =>
        have e : k + (i + 1) = k + 1 + i := by omega
        rw [e] at hip ⊢
        simpa using h3 i p (by simpa using hi) hip

theorem binder_inj {i j : Nat} (h : binder i = binder j) : i = j := by
  unfold binder at h
  have : (toString i).toList = (toString j).toList := by
    have := congrArg String.toList h
    simpa using this
  exact Nat.repr_injective (String.toList_injective this)

theorem tupleArm_length (ts : List Written) (k : Nat) : (tupleArm k ts).length = ts.length := by
  induction ts generalizing k with
  | nil => rfl
  | cons t ts ih => simp [tupleArm, ih]

/-- The names `v k`, `v (k+1)`, … with the values from there. -/
theorem find_binders {V : Type} (ts : List Written) (ps : List (Part V)) (k i : Nat) (p : Part V)
    (hi : i < ts.length) (hp : ps[i]? = some p) :
    find (binder (k + i)) (((tupleArm k ts).map (·.1)).zip ps) = some p := by
  induction ts generalizing k i ps with
  | nil => exact absurd hi (Nat.not_lt_zero _)
  | cons t ts ih =>
    cases ps with
    | nil => simp at hp
    | cons q ps =>
      simp only [tupleArm, List.map_cons, List.zip_cons_cons, find]
      cases i with
      | zero => simp at hp; simp [hp]
      | succ i =>
        have hne : binder k ≠ binder (k + (i + 1)) := fun e => by have := binder_inj e; omega
        rw [if_neg hne]
        have := ih ps (k + 1) i (by simpa using hi) (by simpa using hp)
        rw [show k + (i + 1) = k + 1 + i by omega]; exact this

theorem runResults_spec {V : Type} (into : Key → V → V) (env : List (String × Part V)) (item : List (Part V))
    (ts : List Written) (k : Nat)
    (henv : ∀ i p, i < ts.length → item[k + i]? = some p → find (binder (k + i)) env = some p)
    (hl : item.length = k + ts.length)
    (hh : ∀ (i : Nat) w p, ts[i]? = some w → item[k + i]? = some p → Holds w p) (ho : ∀ w ∈ ts, Ordinary w) :
    ∃ qs, runResults into env k (tupleArm k ts) = some qs ∧ qs.length = ts.length ∧
      ∀ (i : Nat) p, i < ts.length → item[k + i]? = some p → qs[i]? = some (image (into (.pos (k + i))) p) := by
  induction ts generalizing k with
  | nil => exact ⟨[], rfl, rfl, fun i p h => absurd h (Nat.not_lt_zero _)⟩
  | cons t ts ih =>
    simp only [List.length_cons] at hl
    obtain ⟨qs, h1, h2, h3⟩ := ih (k + 1)
      (fun i p hi hp => by
        have := henv (i + 1) p (by simpa using hi) (by rw [← hp]; congr 1; omega)
        rw [show k + 1 + i = k + (i + 1) by omega]; exact this)
      (by omega)
      (fun i w p hw hp => hh (i + 1) w p (by simpa using hw) (by rw [← hp]; congr 1; omega))
      (fun w hw => ho w (by simp [hw]))
    have hk : k < item.length := by omega
    have hp : item[k]? = some item[k] := List.getElem?_eq_getElem hk
    have hf := henv 0 item[k] (by simp) (by simp [hp])
    rw [Nat.add_zero] at hf
    have he := eval_holds (into (.pos k)) (ho t (by simp)) (hh 0 t item[k] (by simp) (by simp [hp]))
    refine ⟨image (into (.pos k)) item[k] :: qs, ?_, by simp [h2], ?_⟩
    · rw [tupleArm, runResults]
      simp [hf, he, h1]
    · intro i p hi hip
      cases i with
      | zero =>
        rw [Nat.add_zero, hp] at hip
        rw [← Option.some.inj hip]; simp
      | succ i =>
        have e : k + (i + 1) = k + 1 + i := by omega
        rw [e] at hip ⊢
        simpa using h3 i p (by simpa using hi) hip

/-! ## Arms -/

theorem arm_variant (n : String) (fs : Fields) : (arm n fs).variant = n := by
  cases fs with
  | unit => rfl
  | named l => cases l <;> rfl
  | unnamed l => cases l <;> rfl

theorem arm_run {V : Type} (into : Key → V → V) {n : String} {fs : Fields} {s : Shape} {p : Payload V}
    (hm : fs = .unit ∨ types fs ≠ []) (hd : Distinct fs) (ho : ∀ w ∈ types fs, Ordinary w) (hs : SameFields fs s)
    (hp : FieldsOf fs p) : ∃ q, (arm n fs).run into s p = some q ∧ CarriesFields into s p q := by
  cases fs with
  | unit =>
    cases p <;> simp only [FieldsOf] at hp
    cases s <;> simp only [SameFields] at hs
    exact ⟨.unit, by simp [arm, Arm.run], rfl⟩
  | unnamed ts =>
    cases p <;> simp only [FieldsOf] at hp
    rename_i ps
    cases s <;> simp only [SameFields] at hs
    subst hs
    cases ts with
    | nil => simp [types] at hm
    | cons t ts =>
      obtain ⟨hl, hh⟩ := hp
      have hbl : ((tupleArm 0 (t :: ts)).map (·.1)).length = ps.length := by
        rw [List.length_map, tupleArm_length, hl]
      obtain ⟨qs, h1, h2, h3⟩ := runResults_spec into (((tupleArm 0 (t :: ts)).map (·.1)).zip ps) ps (t :: ts) 0
        (fun i p hi hp => find_binders (t :: ts) ps 0 i p hi (by simpa using hp))
        (by omega) (fun i w p hw hp => hh i w p hw (by simpa using hp)) ho
      refine ⟨.unnamed qs, ?_, ?_, by omega, ?_⟩
      · simp only [arm, Arm.run, tupleArm_length, if_pos, bind, hbl]
        simp only [Option.bind_eq_bind, Option.bind_some]
        rw [h1]; rfl
      · rw [h2]
      · intro i p hip
        have hi : i < ps.length := by
          rcases Nat.lt_or_ge i ps.length with h | h
          · exact h
          · rw [List.getElem?_eq_none h] at hip; cases hip
        have := h3 i p (by omega) (by simpa using hip)
        simpa using this
  | named fs =>
    cases p <;> simp only [FieldsOf] at hp
    rename_i ps
    cases s <;> simp only [SameFields] at hs
    rename_i names
    cases fs with
    | nil => simp [types] at hm
    | cons f fs =>
      obtain ⟨hpp, hh⟩ := hp
      simp only [Distinct] at hd
      simp only [types] at ho
      obtain ⟨qs, h1, h2, h3⟩ := runNamed_spec into hd (List.Perm.refl _) hs hpp hh ho
      have hsame : sameNames ((f :: fs).map (·.1)) (ps.map (·.1)) = true :=
        decide_eq_true ⟨hd, hpp.nodup_iff.mpr hd, fun x hx => hpp.mem_iff.mpr hx, fun x hx => hpp.mem_iff.mp hx⟩
      refine ⟨.named qs, ?_, by rw [h2], ?_, h3⟩
      · simp only [arm, Arm.run]
        rw [if_pos hsame, h1]; rfl
      · rw [h2]; exact hs.trans hpp.symm

theorem find_arm {vs : List (String × Fields)} (hd : (vs.map (·.1)).Nodup) {n : String} {fs : Fields} (hm : (n, fs) ∈ vs) :
    (vs.map fun v => arm v.1 v.2).find? (fun a => a.variant == n) = some (arm n fs) := by
  induction vs with
  | nil => cases hm
  | cons v vs ih =>
    simp only [List.map_cons, List.nodup_cons] at hd
    rw [List.map_cons, List.find?_cons, arm_variant]
    rcases List.mem_cons.mp hm with h | h
    · subst h; simp
    · have : v.1 ≠ n := fun e => hd.1 (e ▸ List.mem_map.mpr ⟨(n, fs), h, rfl⟩)
      rw [show (v.1 == n) = false by simpa using this]
      exact ih hd.2 h

/-! ## The whole -/

theorem bodyOf_meant {d : Data} (hm : Meant d) : ∃ b, bodyOf d = .ok (some b) := by
  cases d with
  | union => exact hm.elim
  | struct fs =>
    cases fs with
    | unit => exact absurd rfl hm.1
    | named l =>
      have hl : l ≠ [] := fun e => hm.1 (by simp [types, e])
      have : (namedBody l).isEmpty = false := by
        have hp := (namedBody_perm l).length_eq
        rw [List.length_map] at hp
        cases hb : namedBody l with
        | nil => rw [hb] at hp; exact absurd (List.length_eq_zero_iff.mp hp.symm) hl
        | cons _ _ => rfl
      exact ⟨_, by simp [bodyOf, this]; rfl⟩
    | unnamed l =>
      have hl : l ≠ [] := hm.1
      have : (unnamedBody l).isEmpty = false := by
        rw [unnamedBody_eq]
        cases l with
        | nil => exact absurd rfl hl
        | cons _ _ => rfl
      exact ⟨_, by simp [bodyOf, this]; rfl⟩
  | enum vs =>
    have : vs.isEmpty = false := by
      cases vs with
      | nil => exact absurd rfl hm.1
      | cons _ _ => rfl
    exact ⟨_, by simp [bodyOf, this]; rfl⟩

theorem body_run {V : Type} (into : Place → V → V) {data : Data} {b : Body} {d : Def} {v : Value V} (hm : Meant data)
    (hb : bodyOf data = .ok (some b)) (hs : SameType data d) (hv : ValueOf data v) :
    ∃ w, b.run into d v = some w ∧ Carries into d v w := by
  cases data with
  | union => exact hm.elim
  | struct fs =>
    cases v <;> simp only [ValueOf] at hv
    rename_i p
    cases d <;> simp only [SameType] at hs
    rename_i s
    cases fs with
    | unit => exact absurd rfl hm.1
    | named l =>
      cases p <;> simp only [FieldsOf] at hv
      rename_i ps
      cases s <;> simp only [SameFields] at hs
      rename_i names
      obtain ⟨h0, hd, ho⟩ := hm
      simp only [Distinct] at hd
      simp only [types] at ho
      have e : b = .named (namedBody l) := by
        simp only [bodyOf, Except.ok.injEq] at hb
        split at hb
        · cases hb
        · exact (Option.some.inj hb).symm
      subst e
      obtain ⟨qs, h1, h2, h3⟩ := runNamed_spec (fun k => into ⟨none, k⟩) hd (namedBody_perm l) hs hv.1 hv.2 ho
      refine ⟨.struct (.named qs), by simp only [Body.run]; rw [h1]; rfl, _, rfl, by rw [h2], ?_, h3⟩
      rw [h2]; exact hs.trans hv.1.symm
    | unnamed ts =>
      cases p <;> simp only [FieldsOf] at hv
      rename_i ps
      cases s <;> simp only [SameFields] at hs
      subst hs
      obtain ⟨h0, hd, ho⟩ := hm
      simp only [types] at ho
      have e : b = .unnamed (numbered 0 ts) := by
        simp only [bodyOf, Except.ok.injEq, unnamedBody_eq] at hb
        split at hb
        · cases hb
        · exact (Option.some.inj hb).symm
      subst e
      obtain ⟨qs, h1, h2, h3⟩ := numbered_run (fun k => into ⟨none, k⟩) ps ts 0 (by omega)
        (fun i w p hw hp => hv.2 i w p hw (by simpa using hp)) ho
      refine ⟨.struct (.unnamed qs), ?_, _, rfl, by rw [h2], by omega, ?_⟩
      · simp only [Body.run, runUnnamed, numbered_length, if_pos]
        rw [h1]; rfl
      · intro i p hip
        have hi : i < ps.length := by
          rcases Nat.lt_or_ge i ps.length with h | h
          · exact h
          · rw [List.getElem?_eq_none h] at hip; cases hip
        have := h3 i p (by omega) (by simpa using hip)
        simpa using this
  | enum vs =>
    cases v <;> simp only [ValueOf] at hv
    rename_i n p
    cases d <;> simp only [SameType] at hs
    rename_i ss
    obtain ⟨fs, hf, hp⟩ := hv
    obtain ⟨h0, hd, hall⟩ := hm
    obtain ⟨hperm, hsame⟩ := hs
    have e : b = .arms (vs.map fun v => arm v.1 v.2) := by
      simp only [bodyOf, Except.ok.injEq] at hb
      split at hb
      · cases hb
      · exact (Option.some.inj hb).symm
    subst e
    obtain ⟨⟨n', s⟩, hms, e⟩ := List.mem_map.mp (hperm.mem_iff.mpr (List.mem_map.mpr ⟨(n, fs), hf, rfl⟩))
    simp only at e; subst e
    have hfind : find n' ss = some s := find_mem (hperm.nodup_iff.mpr hd) hms
    obtain ⟨ha, hb', hc⟩ := hall (n', fs) hf
    obtain ⟨q, h1, h2⟩ := arm_run (n := n') (fun k => into ⟨some n', k⟩) ha hb' hc (hsame n' fs s hf hms) hp
    refine ⟨.variant n' q, ?_, rfl, ss, s, rfl, hms, h2⟩
    simp [Body.run, find_arm hd hf, hfind, h1]

/-! ## And back -/

theorem image_image {V : Type} {f g : V → V} (h : ∀ v, g (f v) = v) (p : Part V) : image g (image f p) = p := by
  cases p with
  | plain v => simp [image, h]
  | list l => simp [image, List.map_map, Function.comp_def, h]
  | opt o => cases o <;> simp [image, h]
  | boxed v => simp [image, h]

theorem mem_unique {α : Type} {l : List (String × α)} (hd : (l.map (·.1)).Nodup) {n : String} {x y : α} (hx : (n, x) ∈ l)
    (hy : (n, y) ∈ l) : x = y := by
  have h1 := find_mem hd hx
  rw [find_mem hd hy] at h1
  exact (Option.some.inj h1).symm

/-- Two lists with the same distinct names in the same order and the same pairs. -/
theorem eq_of_names {α : Type} {a b : List (String × α)} (hn : b.map (·.1) = a.map (·.1)) (hd : (a.map (·.1)).Nodup)
    (h : ∀ n x, (n, x) ∈ a → (n, x) ∈ b) : b = a := by
  induction a generalizing b with
  | nil => exact List.map_eq_nil_iff.mp hn
  | cons x a ih =>
    cases b with
    | nil => simp at hn
    | cons y b =>
      have hdb : (((y :: b).map (·.1))).Nodup := by rw [hn]; exact hd
      simp only [List.map_cons, List.cons.injEq] at hn
      have hm := h x.1 x.2 (by simp)
      have e : y.2 = x.2 := mem_unique (n := x.1) hdb (by rw [← hn.1]; simp) hm
      have exy : y = x := Prod.ext hn.1 e
      subst exy
      simp only [List.map_cons, List.nodup_cons] at hd
      rw [ih hn.2 hd.2]
      intro n z hz
      rcases List.mem_cons.mp (h n z (by simp [hz])) with e | e
      · exfalso; apply hd.1; rw [← e]; exact List.mem_map.mpr ⟨(n, z), hz, rfl⟩
      · exact e

theorem carriesFields_back {V : Type} {into back : Key → V → V} {s s' : Shape} {p q r : Payload V}
    (hinv : ∀ k v, back k (into k v) = v) (hd : ∀ ps, p = .named ps → (ps.map (·.1)).Nodup)
    (h1 : CarriesFields into s p q) (h2 : CarriesFields back s' q r) (hp : InOrderFields s' p) : r = p := by
  cases p with
  | unit =>
    cases q <;> simp only [CarriesFields] at h1
    cases r <;> simp only [CarriesFields] at h2
    rfl
  | unnamed ps =>
    cases q <;> simp only [CarriesFields] at h1
    cases r <;> simp only [CarriesFields] at h2
    rename_i qs rs
    congr 1
    apply List.ext_getElem?
    intro i
    rcases Nat.lt_or_ge i ps.length with h | h
    · have e := List.getElem?_eq_getElem h
      have e1 := h1.2.2 i _ e
      have e2 := h2.2.2 i _ e1
      rw [e2, e, image_image (hinv _)]
    · rw [List.getElem?_eq_none h, List.getElem?_eq_none (by omega)]
  | named ps =>
    cases q <;> simp only [CarriesFields] at h1
    cases r <;> simp only [CarriesFields] at h2
    rename_i qs rs
    congr 1
    have hs := h2.1
    subst hs
    simp only [InOrderFields] at hp
    refine eq_of_names hp.symm (hd ps rfl) ?_
    intro n x hx
    have := h2.2.2 n _ (h1.2.2 n x hx)
    rwa [image_image (hinv _)] at this

theorem carries_holds {V : Type} {w : Written} {p : Part V} (f : V → V) (h : Holds w p) : Holds w (image f p) := by
  cases w <;> cases p <;> exact h

theorem fieldsOf_nodup {V : Type} {fs : Fields} {ps : List (String × Part V)} (hd : Distinct fs)
    (hp : FieldsOf fs (.named ps)) : (ps.map (·.1)).Nodup := by
  cases fs <;> simp only [FieldsOf] at hp
  exact hp.1.nodup_iff.mpr hd

theorem carries_fieldsOf {V : Type} {into : Key → V → V} {fs : Fields} {s : Shape} {p q : Payload V} (hd : Distinct fs)
    (hp : FieldsOf fs p) (hc : CarriesFields into s p q) : FieldsOf fs q := by
  cases p with
  | unit => cases q <;> simp only [CarriesFields] at hc; exact hp
  | unnamed ps =>
    cases q <;> simp only [CarriesFields] at hc
    rename_i qs
    cases fs <;> simp only [FieldsOf] at hp
    rename_i ts
    refine ⟨by omega, ?_⟩
    intro i w x hw hx
    have hi : i < ps.length := by
      rcases Nat.lt_or_ge i ps.length with h | h
      · exact h
      · rw [List.getElem?_eq_none (by omega)] at hx; cases hx
    have e := List.getElem?_eq_getElem hi
    have e1 := hc.2.2 i _ e
    rw [hx] at e1
    rw [Option.some.inj e1]
    exact carries_holds _ (hp.2 i w _ hw e)
  | named ps =>
    have hnd : (ps.map (·.1)).Nodup := fieldsOf_nodup hd hp
    cases q <;> simp only [CarriesFields] at hc
    rename_i qs
    cases fs <;> simp only [FieldsOf] at hp
    rename_i l
    refine ⟨hc.2.1.trans hp.1, ?_⟩
    intro n w x hw hx
    have hqd : (qs.map (·.1)).Nodup := hc.2.1.nodup_iff.mpr hnd
    obtain ⟨⟨n', y⟩, hm, e⟩ := List.mem_map.mp (hc.2.1.mem_iff.mp (List.mem_map.mpr ⟨(n, x), hx, rfl⟩))
    simp only at e; subst e
    rw [mem_unique hqd hx (hc.2.2 _ y hm)]
    exact carries_holds _ (hp.2 _ w y hw hm)

theorem segmentConv_container {ss : List String} (h : ¬ ∀ s ∈ ss, s ∉ containers) : segmentConv ss ≠ .into := by
  induction ss with
  | nil => exact absurd (fun s hs => by cases hs) h
  | cons a l ih =>
    rw [segmentConv]
    by_cases h1 : a = "Vec"
    · simp [h1]
    · by_cases h2 : a = "Option"
      · simp [h2]
      · by_cases h3 : a = "Box"
        · simp [h3]
        · simp only [beq_iff_eq, h1, h2, h3, if_false]
          refine ih fun hl => h fun s hs => ?_
          rcases List.mem_cons.mp hs with e | e
          · subst e; simp [containers, h1, h2, h3]
          · exact hl s e

theorem mapM_none {α β : Type} {g : α → Option β} {l : List α} {x : α} (hx : x ∈ l) (h : g x = none) : l.mapM g = none := by
  induction l with
  | nil => cases hx
  | cons a l ih =>
    rw [List.mapM_cons]
    rcases List.mem_cons.mp hx with e | e
    · subst e; simp [h]
    · cases g a with
      | none => rfl
      | some y => simp [ih e]

end MinaRs.Derive
