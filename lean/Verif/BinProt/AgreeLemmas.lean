import Verif.BinProt.Agree

/-! What `agree` establishes (helper lemmas for C117). -/

namespace MinaRs.BinProt
open Prog Spec

/-- Pieces back to back, with what they hold. -/
def Cat {α : Type} (L : α → Bytes → Held → Prop) : List α → Bytes → Held → Prop
  | [], enc, is => enc = [] ∧ is = []
  | a :: as, enc, is => ∃ e₁ e₂ i₁ i₂, enc = e₁ ++ e₂ ∧ is = i₁ ++ i₂ ∧ L a e₁ i₁ ∧ Cat L as e₂ i₂

theorem cat_append {α : Type} {L : α → Bytes → Held → Prop} : ∀ {as bs : List α} {enc : Bytes} {is : Held},
    Cat L (as ++ bs) enc is ↔ ∃ e₁ e₂ i₁ i₂, enc = e₁ ++ e₂ ∧ is = i₁ ++ i₂ ∧ Cat L as e₁ i₁ ∧ Cat L bs e₂ i₂
  | [], bs, enc, is => by
    constructor
    · intro h; exact ⟨[], enc, [], is, rfl, rfl, ⟨rfl, rfl⟩, h⟩
    · rintro ⟨_, e₂, _, i₂, rfl, rfl, ⟨rfl, rfl⟩, h⟩; exact h
  | a :: as, bs, enc, is => by
    simp only [List.cons_append, Cat, cat_append (as := as)]
    constructor
    · rintro ⟨e₁, _, i₁, _, rfl, rfl, ha, e₂, e₃, i₂, i₃, rfl, rfl, has, hbs⟩
      exact ⟨e₁ ++ e₂, e₃, i₁ ++ i₂, i₃, by simp, by simp, ⟨e₁, e₂, i₁, i₂, rfl, rfl, ha, has⟩, hbs⟩
    · rintro ⟨_, e₃, _, i₃, rfl, rfl, ⟨e₁, e₂, i₁, i₂, rfl, rfl, ha, has⟩, hbs⟩
      exact ⟨e₁, e₂ ++ e₃, i₁, i₂ ++ i₃, by simp, by simp, ha, e₂, e₃, i₂, i₃, rfl, rfl, has, hbs⟩

theorem cat_single {α : Type} {L : α → Bytes → Held → Prop} {a : α} {enc : Bytes} {is : Held} :
    Cat L [a] enc is ↔ L a enc is := by
  simp only [Cat]
  constructor
  · rintro ⟨e₁, _, i₁, _, rfl, rfl, h, rfl, rfl⟩; simpa using h
  · intro h; exact ⟨enc, [], is, [], by simp, by simp, h, rfl, rfl⟩

theorem cat_all2 {α β : Type} {L : α → Bytes → Held → Prop} {M : β → Bytes → Held → Prop} {f : α → β → Bool}
    (h : ∀ a b enc is, f a b = true → L a enc is → M b enc is) : ∀ {as : List α} {bs : List β} {enc : Bytes} {is : Held},
    all2 f as bs = true → Cat L as enc is → Cat M bs enc is
  | [], [], _, _, _, hc => hc
  | [], _ :: _, _, _, hf, _ => by cases hf
  | _ :: _, [], _, _, hf, _ => by cases hf
  | a :: as, b :: bs, _, _, hf, hc => by
    simp only [all2, Bool.and_eq_true] at hf
    obtain ⟨e₁, e₂, i₁, i₂, rfl, rfl, h₁, h₂⟩ := hc
    exact ⟨e₁, e₂, i₁, i₂, rfl, rfl, h _ _ _ _ hf.1 h₁, cat_all2 h hf.2 h₂⟩

theorem cat_all2' {α β : Type} {L : α → Bytes → Held → Prop} {M : β → Bytes → Held → Prop} {f : α → β → Bool}
    (h : ∀ a b enc is, f a b = true → M b enc is → L a enc is) : ∀ {as : List α} {bs : List β} {enc : Bytes} {is : Held},
    all2 f as bs = true → Cat M bs enc is → Cat L as enc is
  | [], [], _, _, _, hc => hc
  | [], _ :: _, _, _, hf, _ => by cases hf
  | _ :: _, [], _, _, hf, _ => by cases hf
  | a :: as, b :: bs, _, _, hf, hc => by
    simp only [all2, Bool.and_eq_true] at hf
    obtain ⟨e₁, e₂, i₁, i₂, rfl, rfl, h₁, h₂⟩ := hc
    exact ⟨e₁, e₂, i₁, i₂, rfl, rfl, h _ _ _ _ hf.1 h₁, cat_all2' h hf.2 h₂⟩

/-! ## From typed values to layout-driven values -/

/-- A wire form of the type that uses none of the constructors, and what it holds. -/
def TL (bad : List String) (nm : Naming) (x : Place × Ty) (enc : Bytes) (is : Held) : Prop :=
  ∃ v, Wire x.2 enc v ∧ TypedAvoids bad x.2 v ∧ ListsBelow (2 ^ 57) x.2 v ∧ contentOf nm x.1 x.2 v = is

/-- A wire form under the layout, and what it holds. -/
def RL (mn : Naming) (x : Place × Rule × Option String) (enc : Bytes) (is : Held) : Prop :=
  ∃ w, Gram false x.2.1 x.2.2 enc w ∧ content mn x.1 w = is

mutual
theorem partsT_cat (bad : List String) (nm : Naming) : (l : Place) → (t : Ty) → (enc : Bytes) → (is : Held) → TL bad nm (l, t) enc is →
    Cat (TL bad nm) (partsT nm l t) enc is
  | l, .newtype t, enc, is, ⟨v, h⟩ => by
    simp only [Wire, TypedAvoids, ListsBelow, contentOf] at h
    simp only [partsT]
    exact partsT_cat bad nm l t enc is ⟨v, h⟩
  | l, .tuple ts, enc, is, ⟨v, h⟩ => by
    simp only [Wire, TypedAvoids, ListsBelow, contentOf] at h
    simp only [partsT]
    exact partsTs_cat bad nm (fun _ => l) ts enc is v h.1 h.2.1 h.2.2.1 h.2.2.2
  | l, .struct ts, enc, is, ⟨v, h⟩ => by
    simp only [Wire, TypedAvoids, ListsBelow, contentOf] at h
    simp only [partsT]
    exact partsTs_cat bad nm (nm.inside l) ts enc is v h.1 h.2.1 h.2.2.1 h.2.2.2
  | _, .unit, _, _, h => cat_single.mpr h
  | _, .bool, _, _, h => cat_single.mpr h
  | _, .u8, _, _, h => cat_single.mpr h
  | _, .int _, _, _, h => cat_single.mpr h
  | _, .f32, _, _, h => cat_single.mpr h
  | _, .f64, _, _, h => cat_single.mpr h
  | _, .char, _, _, h => cat_single.mpr h
  | _, .string, _, _, h => cat_single.mpr h
  | _, .option _, _, _, h => cat_single.mpr h
  | _, .seq _, _, _, h => cat_single.mpr h
  | _, .enum _, _, _, h => cat_single.mpr h
  | _, .polyvar _, _, _, h => cat_single.mpr h
theorem partsTs_cat (bad : List String) (nm : Naming) (place : String → Place) : (ts : Tys) → (enc : Bytes) → (is : Held) → (v : ts.prod) → WireProd ts enc v →
    TypedAvoidsProd bad ts v → ListsBelowProd (2 ^ 57) ts v → contentOfProd nm place ts v = is →
    Cat (TL bad nm) (partsTs nm place ts) enc is
  | .nil, enc, is, v, h, _, _, hi => by
    simp only [WireProd, contentOfProd] at h hi
    exact ⟨h, hi.symm⟩
  | .cons n t ts, enc, is, v, h, ha, hl, hi => by
    obtain ⟨a, b⟩ := v
    simp only [WireProd, TypedAvoidsProd, ListsBelowProd, contentOfProd] at h ha hl hi
    obtain ⟨e₁, e₂, rfl, h₁, h₂⟩ := h
    simp only [partsTs]
    exact cat_append.mpr ⟨e₁, e₂, _, _, rfl, hi.symm, partsT_cat bad nm (place n) t e₁ _ ⟨a, h₁, ha.1, hl.1, rfl⟩,
      partsTs_cat bad nm place ts e₂ _ b h₂ ha.2 hl.2 rfl⟩
end

theorem contents_append {mn : Naming} {l : Place} : ∀ (vs ws : List Value),
    contents mn l (vs ++ ws) = contents mn l vs ++ contents mn l ws
  | [], _ => rfl
  | v :: vs, ws => by simp only [List.cons_append, contents, contents_append vs ws, List.append_assoc]

theorem contents_chars {mn : Naming} {l : Place} : ∀ (bs : Bytes), contents mn l (bs.map .char) = bs.map (fun b => (l, .byte b))
  | [] => rfl
  | b :: bs => by simp only [List.map_cons, contents, content, contents_chars bs]; rfl

theorem cat_chars {mn : Naming} {l : Place} {p : Option String} : ∀ {n : Nat} {enc : Bytes} {is : Held},
    Cat (RL mn) (List.replicate n (l, .char, p)) enc is → enc.length = n ∧ is = enc.map (fun b => (l, .byte b))
  | 0, _, _, ⟨he, hi⟩ => by subst he hi; exact ⟨rfl, rfl⟩
  | n + 1, _, _, h => by
    rw [List.replicate_succ] at h
    obtain ⟨e₁, e₂, i₁, i₂, rfl, rfl, ⟨w, hg, hi⟩, h₂⟩ := h
    simp only [Gram] at hg
    obtain ⟨c, rfl, rfl⟩ := hg
    obtain ⟨hl, rfl⟩ := cat_chars h₂
    simp only [content] at hi
    subst hi
    exact ⟨by simp [hl], by simp⟩

theorem rl_nat0 {mn : Naming} {l : Place} {p : Option String} {enc : Bytes} {is : Held} (h : Cat (RL mn) [(l, .nat0, p)] enc is) : False := by
  obtain ⟨w, hg, _⟩ := cat_single.mp h
  simp only [Gram] at hg

mutual
theorem partsR_cat (mn : Naming) : (l : Place) → (r : Rule) → (p : Option String) → (enc : Bytes) → (is : Held) →
    Cat (RL mn) (partsR mn l r p) enc is → RL mn (l, r, p) enc is
  | l, .reference path r, p, enc, is, h => by
    simp only [partsR] at h
    obtain ⟨w, hw, hi⟩ := partsR_cat mn l r (some path) enc is h
    exact ⟨w, by simpa only [Gram] using hw, hi⟩
  | l, .tuple rs, p, enc, is, h => by
    simp only [partsR] at h
    obtain ⟨ws, hw, hi⟩ := partsRs_cat mn l rs p enc is h
    exact ⟨.tuple ws, by simp only [Gram]; exact ⟨ws, rfl, hw⟩, by simpa only [content] using hi⟩
  | l, .record fs, p, enc, is, h => by
    simp only [partsR] at h
    obtain ⟨ws, hw, hi⟩ := partsFs_cat mn l fs p enc is h
    exact ⟨.record ws, by simp only [Gram]; exact ⟨ws, rfl, hw⟩, by simpa only [content] using hi⟩
  | l, .custom rs, p, enc, is, h => by
    simp only [partsR] at h
    cases p with
    | none => exact (rl_nat0 h).elim
    | some path =>
      simp only at h
      cases hk : customKind path with
      | unknown => rw [hk] at h; exact (rl_nat0 h).elim
      | bigInt =>
        rw [hk] at h
        obtain ⟨hl, hi⟩ := cat_chars h
        refine ⟨.tuple (enc.map .char), ?_, ?_⟩
        · simp only [Gram]
          exact ⟨path, rfl, .inr ⟨hk, trivial, hl⟩⟩
        · simp only [content, contents_chars, hi]
      | vector n =>
        rw [hk] at h
        obtain ⟨e₁, e₂, i₁, i₂, rfl, rfl, h₁, h₂⟩ := cat_append.mp h
        obtain ⟨u, hu, hui⟩ := cat_single.mp h₂
        simp only [Gram] at hu
        obtain ⟨rfl, rfl⟩ := hu
        obtain ⟨ws, hw, hi⟩ := partsVec_cat mn l rs n (some path) e₁ i₁ h₁
        refine ⟨.tuple (ws ++ [.unit]), ?_, ?_⟩
        · simp only [Gram]
          exact ⟨path, rfl, .inl ⟨n, e₁, ws, hk, rfl, rfl, hw⟩⟩
        · simp only [content, contents_append, contents, hi, List.append_nil]
          simp only [content] at hui
          rw [hui]
  | _, .nat0, _, _, _, h => cat_single.mp h
  | _, .unit, _, _, _, h => cat_single.mp h
  | _, .bool, _, _, _, h => cat_single.mp h
  | _, .string, _, _, _, h => cat_single.mp h
  | _, .char, _, _, _, h => cat_single.mp h
  | _, .int _, _, _, _, h => cat_single.mp h
  | _, .float, _, _, _, h => cat_single.mp h
  | _, .option _, _, _, _, h => cat_single.mp h
  | _, .sum _, _, _, _, h => cat_single.mp h
  | _, .polyvar _, _, _, _, h => cat_single.mp h
  | _, .list _, _, _, _, h => cat_single.mp h
  | _, .customForPath _ _, _, _, _, h => cat_single.mp h
  | _, .other _, _, _, _, h => cat_single.mp h
theorem partsRs_cat (mn : Naming) (l : Place) : (rs : List Rule) → (p : Option String) → (enc : Bytes) → (is : Held) → Cat (RL mn) (partsRs mn l rs p) enc is →
    ∃ ws, GramTuple false rs p enc ws ∧ contents mn l ws = is
  | [], p, enc, is, h => by
    obtain ⟨rfl, rfl⟩ := h
    exact ⟨[], by simp [GramTuple], rfl⟩
  | r :: rs, p, enc, is, h => by
    simp only [partsRs] at h
    obtain ⟨e₁, e₂, i₁, i₂, rfl, rfl, h₁, h₂⟩ := cat_append.mp h
    obtain ⟨w, hw, hi⟩ := partsR_cat mn l r p e₁ i₁ h₁
    obtain ⟨ws, hws, his⟩ := partsRs_cat mn l rs p e₂ i₂ h₂
    exact ⟨w :: ws, by simp only [GramTuple]; exact ⟨e₁, e₂, w, ws, rfl, rfl, hw, hws⟩, by simp only [contents, hi, his]⟩
theorem partsFs_cat (mn : Naming) (l : Place) : (fs : List (String × Rule)) → (p : Option String) → (enc : Bytes) → (is : Held) →
    Cat (RL mn) (partsFs mn l fs p) enc is → ∃ ws, GramFields false fs p enc ws ∧ contentFields mn l ws = is
  | [], p, enc, is, h => by
    obtain ⟨rfl, rfl⟩ := h
    exact ⟨[], by simp [GramFields], rfl⟩
  | (n, r) :: fs, p, enc, is, h => by
    simp only [partsFs] at h
    obtain ⟨e₁, e₂, i₁, i₂, rfl, rfl, h₁, h₂⟩ := cat_append.mp h
    obtain ⟨w, hw, hi⟩ := partsR_cat mn (mn.inside l n) r p e₁ i₁ h₁
    obtain ⟨ws, hws, his⟩ := partsFs_cat mn l fs p e₂ i₂ h₂
    exact ⟨(n, w) :: ws, by simp only [GramFields]; exact ⟨e₁, e₂, w, ws, rfl, rfl, hw, hws⟩,
      by simp only [contentFields, hi, his]⟩
theorem partsVec_cat (mn : Naming) (l : Place) : (rs : List Rule) → (n : Nat) → (p : Option String) → (enc : Bytes) → (is : Held) →
    Cat (RL mn) (partsVec mn l rs n p) enc is → ∃ ws, GramVector false rs n p enc ws ∧ contents mn l ws = is
  | [], n, p, enc, is, h => by simp only [partsVec] at h; exact (rl_nat0 h).elim
  | r :: rs, n, p, enc, is, h => by
    simp only [partsVec] at h
    have key : ∀ (n : Nat) (enc : Bytes) (is : Held), Cat (RL mn) (List.replicate n (partsR mn l r p)).flatten enc is →
        ∃ ws : List Value, ws.length = n ∧ WireElems (Gram false r p) enc ws ∧ contents mn l ws = is := by
      intro n
      induction n with
      | zero => rintro enc is ⟨rfl, rfl⟩; exact ⟨[], rfl, rfl, rfl⟩
      | succ n ih =>
        intro enc is h
        rw [List.replicate_succ, List.flatten_cons] at h
        obtain ⟨e₁, e₂, i₁, i₂, rfl, rfl, h₁, h₂⟩ := cat_append.mp h
        obtain ⟨w, hw, hi⟩ := partsR_cat mn l r p e₁ i₁ h₁
        obtain ⟨ws, hl, hws, his⟩ := ih e₂ i₂ h₂
        exact ⟨w :: ws, by simp [hl], ⟨e₁, e₂, rfl, hw, hws⟩, by simp only [contents, hi, his]⟩
    obtain ⟨ws, hl, hw, hi⟩ := key n enc is h
    exact ⟨ws, by simp only [GramVector]; exact ⟨hl, hw⟩, hi⟩
end

theorem payload_tuple {mn : Naming} {l : Place} {args : List Rule} {p : Option String} {enc : Bytes} {is : Held}
    (h : RL mn (l, .tuple args, p) enc is) : ∃ ws, GramTuple false args p enc ws ∧ contents mn l ws = is := by
  obtain ⟨w, hg, hi⟩ := h
  simp only [Gram] at hg
  obtain ⟨ws, rfl, hg⟩ := hg
  exact ⟨ws, hg, by simpa only [content] using hi⟩

theorem agreeSums_sound {bad : List String} {nm mn : Naming} {f : Place → Ty → Rule → Bool} {p : Option String} {l : Place}
    (hf : ∀ l t r enc is, f l t r = true → TL bad nm (l, t) enc is → RL mn (l, r, p) enc is) :
    (vs : Tys) → (ss : List Summand) → (k : Nat) → agreeSums bad f (nm.inside l) (mn.inside l) vs ss k = true → (enc : Bytes) → (v : vs.sum) →
    WireSum vs enc v → vs.variantName v ∉ bad → TypedAvoidsSum bad vs v → ListsBelowSum (2 ^ 57) vs v →
    ∃ w, GramSummand false ss (vs.index v) p enc w ∧ content mn l w = (l, .choice (k + vs.index v)) :: contentOfSum nm (nm.inside l) vs v
  | .nil, _, _, _, _, v, _, _, _, _ => nomatch (show Empty from v)
  | .cons n t ts, [], k, h, enc, v, hw, hn, ha, hl => by
    exfalso
    have all : ∀ (ts : Tys) (k : Nat) (v : ts.sum), agreeSums bad f (nm.inside l) (mn.inside l) ts [] k = true → ts.variantName v ∈ bad := by
      intro ts
      induction ts using Tys.rec (motive_1 := fun _ => True) with
      | nil => intro _ v; exact nomatch (show Empty from v)
      | cons n t ts _ ih =>
        intro k v h
        simp only [agreeSums, Bool.and_eq_true, List.contains_iff_mem] at h
        obtain w | w : t.denote ⊕ ts.sum := v
        · exact h.1
        · exact ih _ w h.2
      | _ => trivial
    exact hn (all _ k v h)
  | .cons n t ts, .mk m i args :: ss, k, h, enc, v, hw, hn, ha, hl => by
    simp only [agreeSums, Bool.and_eq_true, Bool.or_eq_true, List.contains_iff_mem, decide_eq_true_eq] at h
    obtain w | w : t.denote ⊕ ts.sum := v
    · rcases h.1 with hb | ⟨⟨⟨hi, hk⟩, hq⟩, hp⟩
      · exact (hn hb.1).elim
      · simp only [WireSum, TypedAvoidsSum, ListsBelowSum] at hw ha hl
        obtain ⟨ws, hg, hc⟩ := payload_tuple (hf _ _ _ enc _ hp ⟨w, hw, ha, hl, rfl⟩)
        refine ⟨.sum m (UInt8.ofNat i.toNat) (.tuple ws), ?_, ?_⟩
        · show GramSummand false (.mk m i args :: ss) 0 p enc _
          simp only [GramSummand]
          exact ⟨by omega, by omega, ws, rfl, hg⟩
        · subst hi
          have : (UInt8.ofNat k).toNat = k := by simp; omega
          simp only [content, hq, hc, contentOfSum, Tys.index, Int.toNat_natCast, this, Nat.add_zero]
    · simp only [WireSum, TypedAvoidsSum, ListsBelowSum] at hw ha hl
      obtain ⟨x, hg, hc⟩ := agreeSums_sound hf ts ss (k + 1) h.2 enc w hw hn ha hl
      refine ⟨x, ?_, ?_⟩
      · show GramSummand false (.mk m i args :: ss) (ts.index w + 1) p enc _
        simp only [GramSummand]
        exact hg
      · rw [hc]
        simp only [contentOfSum, Tys.index]
        rw [show k + 1 + ts.index w = k + (ts.index w + 1) by omega]

theorem agreePolys_sound {bad : List String} {nm mn : Naming} {f : Place → Ty → Rule → Bool} {p : Option String} {l : Place}
    (hf : ∀ l t r enc is, f l t r = true → TL bad nm (l, t) enc is → RL mn (l, r, p) enc is) :
    (vs : Tys) → (ps : List Polyvar) → agreePolys f (nm.inside l) (mn.inside l) vs ps = true → (enc : Bytes) → (v : vs.sum) →
    WireSum vs enc v → TypedAvoidsSum bad vs v → ListsBelowSum (2 ^ 57) vs v →
    (∀ n ∈ vs.names.take (vs.index v), hash32 (utf8 n) ≠ hash32 (utf8 (vs.variantName v))) →
    ∃ w, GramPolyvar false ps (hash32 (utf8 (vs.variantName v))) p enc w ∧
      content mn l w = (l, .choice (hash32 (utf8 (vs.variantName v)))) :: contentOfSum nm (nm.inside l) vs v
  | .nil, _, _, _, v, _, _, _, _ => nomatch (show Empty from v)
  | .cons _ _ _, [], h, _, _, _, _, _, _ => by cases h
  | .cons _ _ _, .inherited _ :: _, h, _, _, _, _, _, _ => by cases h
  | .cons n t ts, .tagged m hash args :: ps, h, enc, v, hw, ha, hl, hd => by
    simp only [agreePolys, Bool.and_eq_true, decide_eq_true_eq] at h
    obtain ⟨⟨⟨⟨hh, _⟩, hq⟩, hp⟩, hr⟩ := h
    subst hh
    obtain w | w : t.denote ⊕ ts.sum := v
    · simp only [WireSum, TypedAvoidsSum, ListsBelowSum] at hw ha hl
      obtain ⟨ws, hg, hc⟩ := payload_tuple (hf _ _ _ enc _ hp ⟨w, hw, ha, hl, rfl⟩)
      refine ⟨.polyvar m (camlHashVariant (utf8 n)) (.tuple ws), ?_, ?_⟩
      · simp only [GramPolyvar]
        exact .inl ⟨(hash32_eq _).symm, ws, rfl, hg⟩
      · simp only [content, hq, hc, contentOfSum, Tys.variantName, hash32_eq]
    · simp only [WireSum, TypedAvoidsSum, ListsBelowSum] at hw ha hl
      simp only [Tys.index, Tys.names, List.take_succ_cons, Tys.variantName] at hd
      obtain ⟨x, hg, hc⟩ := agreePolys_sound hf ts ps hr enc w hw ha hl (fun a h => hd a (List.mem_cons_of_mem _ h))
      refine ⟨x, ?_, ?_⟩
      · simp only [GramPolyvar]
        exact .inr ⟨by rw [← hash32_eq]; exact hd n List.mem_cons_self, hg⟩
      · rw [hc]; rfl

theorem elems_typed {bad : List String} {nm mn : Naming} {l : Place} {t : Ty} {r : Rule} {p : Option String}
    (hf : ∀ enc is, TL bad nm (l, t) enc is → RL mn (l, r, p) enc is) : ∀ (vs : List t.denote) (enc : Bytes),
    WireElems (fun e v => Wire t e v) enc vs → (∀ v ∈ vs, TypedAvoids bad t v) → (∀ v ∈ vs, ListsBelow (2 ^ 57) t v) →
    ∃ ws, ws.length = vs.length ∧ WireElems (Gram false r p) enc ws ∧ contents mn l ws = (vs.map (contentOf nm l t)).flatten
  | [], enc, h, _, _ => ⟨[], rfl, h, rfl⟩
  | v :: vs, enc, h, ha, hl => by
    obtain ⟨e₁, e₂, rfl, h₁, h₂⟩ := h
    obtain ⟨w, hg, hi⟩ := hf e₁ _ ⟨v, h₁, ha v List.mem_cons_self, hl v List.mem_cons_self, rfl⟩
    obtain ⟨ws, hlen, hws, his⟩ := elems_typed hf vs e₂ h₂ (fun a h => ha a (List.mem_cons_of_mem _ h))
      (fun a h => hl a (List.mem_cons_of_mem _ h))
    exact ⟨w :: ws, by simp [hlen], ⟨e₁, e₂, rfl, hg, hws⟩, by simp [contents, hi, his]⟩

theorem elems_u8 : ∀ (vs : List UInt8) (enc : Bytes), WireElems (fun e v => Wire .u8 e v) enc vs → enc = vs
  | [], _, h => h
  | v :: vs, enc, h => by
    obtain ⟨e₁, e₂, rfl, h₁, h₂⟩ := h
    simp only [Wire] at h₁
    rw [h₁, elems_u8 vs e₂ h₂]; rfl

theorem agreePart_sound {bad : List String} {nm mn : Naming} {f : Place → Ty → Rule → Option String → Bool}
    (hf : ∀ l t r p enc is, f l t r p = true → TL bad nm (l, t) enc is → RL mn (l, r, p) enc is) (l : Place) (t : Ty) (r : Rule)
    (p : Option String) (enc : Bytes) (is : Held) (h : agreePart bad nm mn f l t r p = true) (ht : TL bad nm (l, t) enc is) :
    RL mn (l, r, p) enc is := by
  obtain ⟨v, hw, ha, hl, hi⟩ := ht
  simp only at v hw ha hl hi
  unfold agreePart at h
  split at h
  · simp only [Wire, contentOf] at hw hi
    exact ⟨.unit, by simp only [Gram]; exact ⟨trivial, hw⟩, hi⟩
  · simp only [Wire, contentOf] at hw hi
    exact ⟨.bool v, by simp only [Gram]; exact ⟨v, rfl, hw⟩, hi⟩
  · simp only [Wire, contentOf] at hw hi
    exact ⟨.char v, by simp only [Gram]; exact ⟨v, rfl, hw⟩, hi⟩
  · simp only [Wire, contentOf] at hw hi
    obtain ⟨b, rfl, hb⟩ := hw
    refine ⟨.char b, by simp only [Gram]; exact ⟨b, rfl, rfl⟩, ?_⟩
    rw [← hi]
    simp only [content]
    rw [hb, UInt8.ofNat_toNat]
  · simp only [Wire, contentOf] at hw hi
    exact ⟨.int v.val, by simp only [Gram]; exact ⟨_, rfl, hw, by simp⟩, hi⟩
  · simp only [Wire, contentOf] at hw hi
    exact ⟨.float v, by simp only [Gram]; exact ⟨v, rfl, hw.1, hw.2⟩, hi⟩
  · simp only [Wire, contentOf, ListsBelow] at hw hi hl
    obtain ⟨len, es, rfl, hlen, hes⟩ := hw
    have := elems_u8 _ _ hes
    subst this
    refine ⟨.list (es.map .char), by simp only [Gram]; exact ⟨len, es, rfl, rfl, Nat.lt_trans hl.1 (by decide), hlen, by simp⟩, ?_⟩
    rw [← hi]
    simp only [content, contents_chars, List.length_map]
    congr 1
    clear hlen hl hes hi ha
    induction es with
    | nil => rfl
    | cons e es ih => exact congrArg ((l, Item.byte e) :: ·) ih
  · rename_i t r
    simp only [Wire, contentOf, ListsBelow, TypedAvoids] at hw hi hl ha
    obtain _ | v : Option t.denote := v
    · exact ⟨.none, by simp only [Gram]; exact .inl ⟨trivial, hw⟩, hi⟩
    · obtain ⟨e, rfl, hw⟩ := hw
      obtain ⟨w, hg, hc⟩ := hf l t r p e _ h ⟨v, hw, ha v rfl, hl v rfl, rfl⟩
      exact ⟨.some w, by simp only [Gram]; exact .inr ⟨w, e, rfl, rfl, hg⟩, by simp only [content, hc]; exact hi⟩
  · rename_i t r
    simp only [Wire, contentOf, ListsBelow, TypedAvoids] at hw hi hl ha
    obtain ⟨len, es, rfl, hlen, hes⟩ := hw
    obtain ⟨ws, hwl, hws, hc⟩ := elems_typed (fun enc is => hf l t r p enc is h) _ _ hes ha hl.2
    refine ⟨.list ws, ?_, ?_⟩
    · simp only [Gram]
      exact ⟨len, es, ws, rfl, rfl, by rw [hwl]; exact hl.1, by rw [hwl]; exact hlen, by simp, hws⟩
    · rw [← hi]
      simp only [content, hc, hwl]
  · rename_i vs ss
    simp only [Wire, contentOf, ListsBelow, TypedAvoids] at hw hi hl ha
    obtain ⟨b, e, rfl, hb, hw⟩ := hw
    obtain ⟨w, hg, hc⟩ := agreeSums_sound (fun l t r enc is => hf l t r p enc is) vs ss 0 h e v hw ha.1 ha.2 hl
    refine ⟨w, ?_, ?_⟩
    · simp only [Gram]
      exact ⟨b, e, rfl, by rw [hb]; exact hg⟩
    · rw [hc, ← hi, Nat.zero_add]
  · rename_i vs ps
    simp only [Bool.and_eq_true] at h
    simp only [Wire, contentOf, ListsBelow, TypedAvoids] at hw hi hl ha
    obtain ⟨tag, e, rfl, htag, hh, hd, hw⟩ := hw
    obtain ⟨w, hg, hc⟩ := agreePolys_sound (fun l t r enc is => hf l t r p enc is) vs ps h.2 e v hw ha hl hd
    refine ⟨w, ?_, ?_⟩
    · simp only [Gram]
      exact ⟨tag, e, rfl, htag, by simp, by rw [hh]; exact hg⟩
    · rw [hc, ← hi]
  · cases h

/-- Wire forms of a type that agrees with a layout are wire forms under the layout. -/
theorem agree_typed {bad : List String} {nm mn : Naming} : ∀ {n : Nat} {l : Place} {t : Ty} {r : Rule} {p : Option String}
    {enc : Bytes} {is : Held}, agree bad nm mn n l t r p = true → TL bad nm (l, t) enc is → RL mn (l, r, p) enc is
  | 0, _, _, _, _, _, _, h, _ => by cases h
  | n + 1, l, t, r, p, enc, is, h, ht =>
    partsR_cat mn l r p enc is (cat_all2 (fun x y enc is hp ht => by
      simp only [Bool.and_eq_true, decide_eq_true_eq] at hp
      obtain ⟨l, t⟩ := x
      obtain ⟨_, r, p⟩ := y
      obtain ⟨rfl, hp⟩ := hp
      exact agreePart_sound (fun _ _ _ _ _ _ h' ht' => agree_typed h' ht') _ t r p enc is hp ht) h (partsT_cat bad nm l t enc is ht))

/-! ## From layout-driven values to typed values -/

/-- A wire form under the layout that uses none of the constructors, and what it holds. -/
def GL (bad : List String) (mn : Naming) (x : Place × Rule × Option String) (enc : Bytes) (is : Held) : Prop :=
  ∃ w, Gram false x.2.1 x.2.2 enc w ∧ Avoids bad w ∧ content mn x.1 w = is

/-- The reader reads exactly these bytes and returns a value holding these items, unless a number does not fit its type. -/
def Reads {α : Type} (p : Prog α) (c : α → Held) (enc : Bytes) (is : Held) : Prop :=
  ∀ rest, (∃ v, p.run (enc ++ rest) = .ok (v, rest) ∧ c v = is) ∨
    p.run (enc ++ rest) = .error .destinationIntegerOverflow

theorem Reads.bind {α β : Type} {p : Prog α} {f : α → Prog β} {c : α → Held} {d : β → Held} {e₁ e₂ : Bytes}
    {i₁ i : Held} (h₁ : Reads p c e₁ i₁) (h₂ : ∀ a, c a = i₁ → Reads (f a) d e₂ i) :
    Reads (p >>= f) d (e₁ ++ e₂) i := by
  intro rest
  rw [List.append_assoc]
  rcases h₁ (e₂ ++ rest) with ⟨a, hr, hc⟩ | hr
  · rw [run_bind_ok hr]; exact h₂ a hc rest
  · exact .inr (run_bind_error hr)

theorem Reads.ret {α : Type} {c : α → Held} {a : α} {is : Held} (h : c a = is) : Reads (Prog.ret a) c [] is :=
  fun _ => .inl ⟨a, rfl, h⟩

theorem Reads.of_ok {α : Type} {p : Prog α} {c : α → Held} {enc : Bytes} {is : Held} (a : α)
    (h : ∀ rest, p.run (enc ++ rest) = .ok (a, rest)) (hc : c a = is) : Reads p c enc is :=
  fun rest => .inl ⟨a, h rest, hc⟩

/-- The typed reader. -/
def RB (nm : Naming) (x : Place × Ty) (enc : Bytes) (is : Held) : Prop := Reads (decode x.2) (contentOf nm x.1 x.2) enc is

theorem Reads.prod {n : String} {t : Ty} {ts : Tys} {e₁ e₂ : Bytes} {i₁ i₂ : Held} {nm : Naming} {place : String → Place}
    (h₁ : RB nm (place n, t) e₁ i₁) (h₂ : Reads (decodeProd ts) (contentOfProd nm place ts) e₂ i₂) :
    Reads (decodeProd (.cons n t ts)) (contentOfProd nm place (.cons n t ts)) (e₁ ++ e₂) (i₁ ++ i₂) := by
  simp only [decodeProd]
  refine Reads.bind h₁ (fun a ha => ?_)
  rw [← List.append_nil e₂]
  refine Reads.bind h₂ (fun b hb => ?_)
  refine Reads.ret ?_
  simp only [contentOfProd, ha, hb]

mutual
theorem partsT_reads (nm : Naming) : (l : Place) → (t : Ty) → (enc : Bytes) → (is : Held) → Cat (RB nm) (partsT nm l t) enc is →
    RB nm (l, t) enc is
  | l, .newtype t, enc, is, h => by
    simp only [partsT] at h
    have := partsT_reads nm l t enc is h
    simp only [RB, decode, contentOf]
    exact this
  | l, .tuple ts, enc, is, h => by
    simp only [partsT] at h
    have := partsTs_reads nm (fun _ => l) ts enc is h
    simp only [RB, decode, contentOf]
    exact this
  | l, .struct ts, enc, is, h => by
    simp only [partsT] at h
    have := partsTs_reads nm (nm.inside l) ts enc is h
    simp only [RB, decode, contentOf]
    exact this
  | _, .unit, _, _, h => cat_single.mp h
  | _, .bool, _, _, h => cat_single.mp h
  | _, .u8, _, _, h => cat_single.mp h
  | _, .int _, _, _, h => cat_single.mp h
  | _, .f32, _, _, h => cat_single.mp h
  | _, .f64, _, _, h => cat_single.mp h
  | _, .char, _, _, h => cat_single.mp h
  | _, .string, _, _, h => cat_single.mp h
  | _, .option _, _, _, h => cat_single.mp h
  | _, .seq _, _, _, h => cat_single.mp h
  | _, .enum _, _, _, h => cat_single.mp h
  | _, .polyvar _, _, _, h => cat_single.mp h
theorem partsTs_reads (nm : Naming) (place : String → Place) : (ts : Tys) → (enc : Bytes) → (is : Held) →
    Cat (RB nm) (partsTs nm place ts) enc is → Reads (decodeProd ts) (contentOfProd nm place ts) enc is
  | .nil, enc, is, h => by
    obtain ⟨rfl, rfl⟩ := h
    exact Reads.ret rfl
  | .cons _ t ts, enc, is, h => by
    simp only [partsTs] at h
    obtain ⟨e₁, e₂, i₁, i₂, rfl, rfl, h₁, h₂⟩ := cat_append.mp h
    exact Reads.prod (partsT_reads nm _ t _ _ h₁) (partsTs_reads nm place ts _ _ h₂)
end

theorem avoidsAll_append {bad : List String} : ∀ {vs ws : List Value}, AvoidsAll bad (vs ++ ws) → AvoidsAll bad vs ∧ AvoidsAll bad ws
  | [], _, h => ⟨trivial, h⟩
  | v :: vs, ws, h => by
    simp only [List.cons_append, AvoidsAll] at h
    have := avoidsAll_append h.2
    exact ⟨⟨h.1, this.1⟩, this.2⟩

theorem cat_chars' {bad : List String} {mn : Naming} {l : Place} {p : Option String} : ∀ (enc : Bytes),
    Cat (GL bad mn) (List.replicate enc.length (l, .char, p)) enc (enc.map (fun b => (l, .byte b)))
  | [] => ⟨rfl, rfl⟩
  | b :: enc => by
    rw [List.length_cons, List.replicate_succ]
    exact ⟨[b], enc, [(l, .byte b)], enc.map (fun b => (l, .byte b)), rfl, rfl,
      ⟨.char b, by simp only [Gram]; exact ⟨b, rfl, rfl⟩, by simp only [Avoids], rfl⟩, cat_chars' enc⟩

mutual
theorem partsR_cat' (bad : List String) (mn : Naming) : (l : Place) → (r : Rule) → (p : Option String) → (enc : Bytes) → (w : Value) → Gram false r p enc w →
    Avoids bad w → Cat (GL bad mn) (partsR mn l r p) enc (content mn l w)
  | l, .reference path r, p, enc, w, h, ha => by
    simp only [Gram] at h
    simp only [partsR]
    exact partsR_cat' bad mn l r (some path) enc w h ha
  | l, .tuple rs, p, enc, w, h, ha => by
    simp only [Gram] at h
    obtain ⟨ws, rfl, h⟩ := h
    simp only [partsR, content]
    exact partsRs_cat' bad mn l rs p enc ws h ha
  | l, .record fs, p, enc, w, h, ha => by
    simp only [Gram] at h
    obtain ⟨ws, rfl, h⟩ := h
    simp only [partsR, content]
    exact partsFs_cat' bad mn l fs p enc ws h ha
  | l, .custom rs, p, enc, w, h, ha => by
    simp only [Gram] at h
    obtain ⟨path, rfl, ⟨n, es, vs, hk, rfl, rfl, h⟩ | ⟨hk, rfl, hl⟩⟩ := h
    · simp only [partsR, hk, content, contents_append]
      simp only [Avoids] at ha
      refine cat_append.mpr ⟨es, [0x00], _, _, rfl, rfl, partsVec_cat' bad mn l rs n _ es vs h (avoidsAll_append ha).1, ?_⟩
      exact cat_single.mpr ⟨.unit, by simp [Gram], by simp only [Avoids], by simp [contents, content]⟩
    · simp only [partsR, hk, content, contents_chars]
      rw [← hl]
      exact cat_chars' enc
  | _, .nat0, _, _, w, h, ha => cat_single.mpr ⟨w, h, ha, rfl⟩
  | _, .unit, _, _, w, h, ha => cat_single.mpr ⟨w, h, ha, rfl⟩
  | _, .bool, _, _, w, h, ha => cat_single.mpr ⟨w, h, ha, rfl⟩
  | _, .string, _, _, w, h, ha => cat_single.mpr ⟨w, h, ha, rfl⟩
  | _, .char, _, _, w, h, ha => cat_single.mpr ⟨w, h, ha, rfl⟩
  | _, .int _, _, _, w, h, ha => cat_single.mpr ⟨w, h, ha, rfl⟩
  | _, .float, _, _, w, h, ha => cat_single.mpr ⟨w, h, ha, rfl⟩
  | _, .option _, _, _, w, h, ha => cat_single.mpr ⟨w, h, ha, rfl⟩
  | _, .sum _, _, _, w, h, ha => cat_single.mpr ⟨w, h, ha, rfl⟩
  | _, .polyvar _, _, _, w, h, ha => cat_single.mpr ⟨w, h, ha, rfl⟩
  | _, .list _, _, _, w, h, ha => cat_single.mpr ⟨w, h, ha, rfl⟩
  | _, .customForPath _ _, _, _, w, h, ha => cat_single.mpr ⟨w, h, ha, rfl⟩
  | _, .other _, _, _, w, h, ha => cat_single.mpr ⟨w, h, ha, rfl⟩
theorem partsRs_cat' (bad : List String) (mn : Naming) (l : Place) : (rs : List Rule) → (p : Option String) → (enc : Bytes) → (ws : List Value) →
    GramTuple false rs p enc ws → AvoidsAll bad ws → Cat (GL bad mn) (partsRs mn l rs p) enc (contents mn l ws)
  | [], p, enc, ws, h, _ => by
    simp only [GramTuple] at h
    obtain ⟨rfl, rfl⟩ := h
    exact ⟨rfl, rfl⟩
  | r :: rs, p, enc, ws, h, ha => by
    simp only [GramTuple] at h
    obtain ⟨e₁, e₂, w, ws, rfl, rfl, h₁, h₂⟩ := h
    simp only [partsRs, contents]
    exact cat_append.mpr ⟨e₁, e₂, _, _, rfl, rfl, partsR_cat' bad mn l r p e₁ w h₁ ha.1, partsRs_cat' bad mn l rs p e₂ ws h₂ ha.2⟩
theorem partsFs_cat' (bad : List String) (mn : Naming) (l : Place) : (fs : List (String × Rule)) → (p : Option String) → (enc : Bytes) →
    (ws : List (String × Value)) → GramFields false fs p enc ws → AvoidsFields bad ws →
    Cat (GL bad mn) (partsFs mn l fs p) enc (contentFields mn l ws)
  | [], p, enc, ws, h, _ => by
    simp only [GramFields] at h
    obtain ⟨rfl, rfl⟩ := h
    exact ⟨rfl, rfl⟩
  | (n, r) :: fs, p, enc, ws, h, ha => by
    simp only [GramFields] at h
    obtain ⟨e₁, e₂, w, ws, rfl, rfl, h₁, h₂⟩ := h
    simp only [partsFs, contentFields]
    exact cat_append.mpr ⟨e₁, e₂, _, _, rfl, rfl, partsR_cat' bad mn (mn.inside l n) r p e₁ w h₁ ha.1, partsFs_cat' bad mn l fs p e₂ ws h₂ ha.2⟩
theorem partsVec_cat' (bad : List String) (mn : Naming) (l : Place) : (rs : List Rule) → (n : Nat) → (p : Option String) → (enc : Bytes) → (ws : List Value) →
    GramVector false rs n p enc ws → AvoidsAll bad ws → Cat (GL bad mn) (partsVec mn l rs n p) enc (contents mn l ws)
  | [], n, p, enc, ws, h, _ => by simp only [GramVector] at h
  | r :: rs, n, p, enc, ws, h, ha => by
    simp only [GramVector] at h
    obtain ⟨rfl, h⟩ := h
    simp only [partsVec]
    have key : ∀ (ws : List Value) (enc : Bytes), WireElems (Gram false r p) enc ws → AvoidsAll bad ws →
        Cat (GL bad mn) (List.replicate ws.length (partsR mn l r p)).flatten enc (contents mn l ws) := by
      intro ws
      induction ws with
      | nil => rintro enc h _; exact ⟨h, rfl⟩
      | cons w ws ih =>
        rintro enc ⟨e₁, e₂, rfl, h₁, h₂⟩ ha
        rw [List.length_cons, List.replicate_succ, List.flatten_cons]
        simp only [contents]
        exact cat_append.mpr ⟨e₁, e₂, _, _, rfl, rfl, partsR_cat' bad mn l r p e₁ w h₁ ha.1, ih e₂ h₂ ha.2⟩
    exact key ws enc h ha
end

theorem reads_index (b : UInt8) : Reads binReadVariantIndex (fun c => [([], .byte c)]) [b] [([], .byte b)] :=
  Reads.of_ok b (fun rest => (readU8_ok_iff _ _ _).mpr rfl) rfl

theorem agreeSums_reads {bad : List String} {nm mn : Naming} {f : Place → Ty → Rule → Bool} {p : Option String} {l : Place}
    (hf : ∀ l t r enc is, f l t r = true → GL bad mn (l, r, p) enc is → RB nm (l, t) enc is) :
    (vs : Tys) → (ss : List Summand) → (k j : Nat) → agreeSums bad f (nm.inside l) (mn.inside l) vs ss k = true → (enc : Bytes) → (w : Value) →
    GramSummand false ss j p enc w → Avoids bad w →
    Reads (decodeSum vs j) (fun v => (l, .choice (k + vs.index v)) :: contentOfSum nm (nm.inside l) vs v) enc (content mn l w)
  | .nil, [], _, _, _, _, _, h, _ => by simp only [GramSummand] at h
  | .nil, .mk m i args :: ss, k, 0, h, enc, w, hg, ha => by
    simp only [GramSummand] at hg
    obtain ⟨_, _, vs, rfl, _⟩ := hg
    simp only [agreeSums, List.all_cons, Bool.and_eq_true, List.contains_iff_mem] at h
    simp only [Avoids] at ha
    exact (ha.1 h.1).elim
  | .nil, .mk m i args :: ss, k, j + 1, h, enc, w, hg, ha => by
    simp only [GramSummand] at hg
    simp only [agreeSums, List.all_cons, Bool.and_eq_true] at h
    intro rest
    rcases agreeSums_reads (l := l) hf .nil ss k j (by simpa only [agreeSums] using h.2) enc w hg ha rest with ⟨v, _⟩ | h
    · exact nomatch (show Empty from v)
    · simp only [decodeSum, run_fail, Except.error.injEq, reduceCtorEq] at h
  | .cons n t ts, [], k, j, h, enc, w, hg, ha => by simp only [GramSummand] at hg
  | .cons n t ts, .mk m i args :: ss, k, 0, h, enc, w, hg, ha => by
    simp only [agreeSums, Bool.and_eq_true, Bool.or_eq_true, List.contains_iff_mem, decide_eq_true_eq] at h
    simp only [GramSummand] at hg
    obtain ⟨_, _, vs, rfl, hg⟩ := hg
    simp only [Avoids] at ha
    rcases h.1 with hb | ⟨⟨⟨rfl, hk⟩, hq⟩, hp⟩
    · exact (ha.1 hb.2).elim
    · have := hf _ t (.tuple args) enc (contents mn (nm.inside l n) vs) hp
        ⟨.tuple vs, by simp only [Gram]; exact ⟨vs, rfl, hg⟩, by simp only [Avoids]; exact ha.2, by simp only [content]⟩
      have hk' : (UInt8.ofNat k).toNat = k := by simp; omega
      simp only [decodeSum, content, hq, Int.toNat_natCast, hk']
      rw [← List.append_nil enc]
      refine Reads.bind this (fun a hc => Reads.ret ?_)
      simp only [Tys.index, contentOfSum, hc, Nat.add_zero]
  | .cons n t ts, .mk m i args :: ss, k, j + 1, h, enc, w, hg, ha => by
    simp only [agreeSums, Bool.and_eq_true] at h
    simp only [GramSummand] at hg
    have := agreeSums_reads hf ts ss (k + 1) j h.2 enc w hg ha
    simp only [decodeSum]
    rw [← List.append_nil enc]
    refine Reads.bind this (fun a hc => Reads.ret ?_)
    simp only [Tys.index, contentOfSum]
    rw [← hc, show k + 1 + ts.index a = k + (ts.index a + 1) by omega]

theorem agreePolys_ascii {f : Place → Ty → Rule → Bool} {p q : String → Place} : (vs : Tys) → (ps : List Polyvar) →
    agreePolys f p q vs ps = true →
    ∀ n ∈ vs.names, IsAsciiName n
  | .nil, _, _, n, hn => by simp [Tys.names] at hn
  | .cons _ _ _, [], h, _, _ => by cases h
  | .cons _ _ _, .inherited _ :: _, h, _, _ => by cases h
  | .cons m t ts, .tagged _ _ _ :: ps, h, n, hn => by
    simp only [agreePolys, Bool.and_eq_true, decide_eq_true_eq, List.all_eq_true] at h
    simp only [Tys.names, List.mem_cons] at hn
    rcases hn with rfl | hn
    · exact h.1.1.1.2
    · exact agreePolys_ascii ts ps h.2 n hn

theorem agreePolys_reads {bad : List String} {nm mn : Naming} {f : Place → Ty → Rule → Bool} {p : Option String} {l : Place}
    (hf : ∀ l t r enc is, f l t r = true → GL bad mn (l, r, p) enc is → RB nm (l, t) enc is) :
    (vs : Tys) → (ps : List Polyvar) → agreePolys f (nm.inside l) (mn.inside l) vs ps = true → (hash : UInt32) → (enc : Bytes) → (w : Value) →
    GramPolyvar false ps hash.toNat p enc w → Avoids bad w →
    ∃ j, j < vs.length ∧ vs.names.findIdx? (fun n => camlHashVariant (utf8 n) == hash) = some j ∧
      Reads (decodeSum vs j) (fun v => (l, .choice (hash32 (utf8 (vs.variantName v)))) :: contentOfSum nm (nm.inside l) vs v) enc
        (content mn l w)
  | .nil, [], _, _, _, _, h, _ => by simp only [GramPolyvar] at h
  | .nil, _ :: _, h, _, _, _, _, _ => by cases h
  | .cons _ _ _, [], h, _, _, _, _, _ => by cases h
  | .cons _ _ _, .inherited _ :: _, h, _, _, _, _, _ => by cases h
  | .cons n t ts, .tagged m hash args :: ps, h, tag, enc, w, hg, ha => by
    simp only [agreePolys, Bool.and_eq_true, decide_eq_true_eq] at h
    obtain ⟨⟨⟨⟨hh, _⟩, hq⟩, hp⟩, hr⟩ := h
    subst hh
    simp only [GramPolyvar] at hg
    rcases hg with ⟨he, vs, rfl, hg⟩ | ⟨hne, hg⟩
    · have he := UInt32.toNat_inj.mp he
      subst he
      refine ⟨0, by simp [Tys.length], by simp [Tys.names, List.findIdx?_cons], ?_⟩
      simp only [Avoids] at ha
      have := hf _ t (.tuple args) enc (contents mn (nm.inside l n) vs) hp
        ⟨.tuple vs, by simp only [Gram]; exact ⟨vs, rfl, hg⟩, by simp only [Avoids]; exact ha, by simp only [content]⟩
      simp only [decodeSum, content, hq]
      rw [← List.append_nil enc]
      refine Reads.bind this (fun a hc => Reads.ret ?_)
      simp only [Tys.variantName, contentOfSum, hc, hash32_eq]
    · obtain ⟨j, hj, hi, hrd⟩ := agreePolys_reads hf ts ps hr tag enc w hg ha
      refine ⟨j + 1, by simp only [Tys.length]; omega, ?_, ?_⟩
      · simp only [Tys.names, List.findIdx?_cons]
        have : (camlHashVariant (utf8 n) == tag) = false := by
          simp only [beq_eq_false_iff_ne, ne_eq]
          intro h
          exact hne (congrArg _ h)
        rw [this, hi]
        rfl
      · simp only [decodeSum]
        rw [← List.append_nil enc]
        refine Reads.bind hrd (fun a hc => Reads.ret ?_)
        simpa only [Tys.variantName, contentOfSum] using hc

theorem reads_len {len : Bytes} {n : Nat} (h : WireNat len n) : Reads binReadLen (fun m => [([], .length m)]) len [([], .length n)] :=
  Reads.of_ok n (fun rest => (binReadLen_ok_iff _ _ _).mpr ⟨len, rfl, h⟩) rfl

theorem reads_elems {bad : List String} {nm mn : Naming} {l : Place} {t : Ty} {r : Rule} {p : Option String}
    (hf : ∀ enc is, GL bad mn (l, r, p) enc is → RB nm (l, t) enc is) :
    ∀ (ws : List Value) (enc : Bytes), WireElems (Gram false r p) enc ws → AvoidsAll bad ws →
    Reads (decodeN (decode t) ws.length) (fun vs => (l, .length vs.length) :: (vs.map (contentOf nm l t)).flatten) enc
      ((l, .length ws.length) :: contents mn l ws)
  | [], enc, h, _ => by
    have h : enc = [] := h
    subst h
    exact Reads.ret rfl
  | w :: ws, enc, h, ha => by
    obtain ⟨e₁, e₂, rfl, h₁, h₂⟩ := h
    rw [List.length_cons, decodeN]
    refine Reads.bind (hf e₁ _ ⟨w, h₁, ha.1, rfl⟩) (fun a hc => ?_)
    rw [← List.append_nil e₂]
    refine Reads.bind (reads_elems hf ws e₂ h₂ ha.2) (fun as hcs => Reads.ret ?_)
    simp only [List.cons.injEq, Prod.mk.injEq, Item.length.injEq, true_and] at hcs
    simp only [List.length_cons, hcs.1, List.map_cons, List.flatten_cons, hc, hcs.2, contents]

theorem reads_bytes (nm : Naming) (l : Place) (bs : Bytes) : Reads (decodeN (decode .u8) bs.length)
    (fun vs => (l, .length (show List UInt8 from vs).length) :: ((show List UInt8 from vs).map (contentOf nm l .u8)).flatten) bs
    ((l, .length bs.length) :: bs.map (fun b => (l, .byte b))) := by
  induction bs with
  | nil => exact Reads.ret rfl
  | cons b bs ih =>
    rw [List.length_cons, decodeN]
    refine Reads.bind (e₁ := [b]) (e₂ := bs) (c := contentOf nm l .u8) (i₁ := [(l, .byte b)])
      (Reads.of_ok b (fun rest => by simp only [decode]; exact (readU8_ok_iff _ _ _).mpr rfl) (by simp only [contentOf])) (fun a hc => ?_)
    have e : Reads (decodeN (decode .u8) bs.length >>= fun as => Prog.ret (a :: as)) (fun vs => (l, .length (show List UInt8 from vs).length) ::
        ((show List UInt8 from vs).map (contentOf nm l .u8)).flatten) (bs ++ []) ((l, .length (bs.length + 1)) :: (b :: bs).map (fun b => (l, .byte b))) := by
      refine Reads.bind ih (fun as hcs => Reads.ret ?_)
      simp only [List.cons.injEq, Prod.mk.injEq, Item.length.injEq, true_and] at hcs
      have h1 : List.length as + 1 = bs.length + 1 := congrArg (· + 1) hcs.1
      exact congr (congrArg (fun n is => (l, Item.length n) :: is) h1) ((congr (congrArg (· ++ ·) hc) hcs.2).trans rfl)
    rw [List.append_nil] at e
    exact e

theorem agreePart_reads {bad : List String} {nm mn : Naming} {f : Place → Ty → Rule → Option String → Bool}
    (hf : ∀ l t r p enc is, f l t r p = true → GL bad mn (l, r, p) enc is → RB nm (l, t) enc is) (l : Place) (t : Ty) (r : Rule)
    (p : Option String) (enc : Bytes) (is : Held) (h : agreePart bad nm mn f l t r p = true) (hx : GL bad mn (l, r, p) enc is) :
    RB nm (l, t) enc is := by
  obtain ⟨w, hg, ha, hi⟩ := hx
  simp only at hg
  subst hi
  unfold agreePart at h
  unfold RB
  split at h
  · simp only [Gram] at hg
    obtain ⟨rfl, rfl⟩ := hg
    exact Reads.of_ok () (fun rest => by simp only [decode]; exact (binReadUnit_ok_iff _ _ _).mpr rfl) (by simp [contentOf, content])
  · simp only [Gram] at hg
    obtain ⟨b, rfl, rfl⟩ := hg
    exact Reads.of_ok b (fun rest => by simp only [decode]; exact (binReadBool_ok_iff _ _ _).mpr ⟨_, rfl, rfl⟩) (by simp [contentOf, content])
  · simp only [Gram] at hg
    obtain ⟨c, rfl, rfl⟩ := hg
    exact Reads.of_ok c (fun rest => by simp only [decode]; exact (readU8_ok_iff _ _ _).mpr rfl) (by simp [contentOf, content])
  · simp only [Gram] at hg
    obtain ⟨c, rfl, rfl⟩ := hg
    refine Reads.of_ok (Char.ofNat c.toNat) (fun rest => ?_) ?_
    · simp only [decode]
      exact run_bind_ok (f := fun b => Prog.ret (Char.ofNat b.toNat)) ((readU8_ok_iff _ _ _).mpr rfl)
    · simp only [contentOf, content, char_ofNat_toNat, UInt8.ofNat_toNat]
  · rename_i k _
    simp only [Gram] at hg
    obtain ⟨n, rfl, hw, _⟩ := hg
    intro rest
    simp only [decode]
    by_cases hn : k.range.holds n
    · refine .inl ⟨⟨n, hn⟩, ?_, by simp only [contentOf, content]⟩
      rw [run_bind_ok ((binReadInteger_ok_iff _ _ _ _).mpr ⟨enc, rfl, hw, hn⟩), dif_pos hn]
      rfl
    · refine .inr (run_bind_error ?_)
      rw [binReadInteger_wire _ hw, if_neg hn]
  · simp only [Gram] at hg
    obtain ⟨g, rfl, h1, h2⟩ := hg
    exact Reads.of_ok g (fun rest => by simp only [decode]; exact (readF64_ok_iff _ _ _).mpr ⟨enc, rfl, h1, h2⟩) (by simp [contentOf, content])
  · simp only [Gram] at hg
    obtain ⟨len, bs, rfl, rfl, hb, hlen, _⟩ := hg
    simp only [decode, contentOf, content, contents_chars, List.length_map]
    refine Reads.bind (reads_len hlen) (fun n hn => ?_)
    simp only [List.cons.injEq, Prod.mk.injEq, Item.length.injEq, true_and, and_true] at hn
    subst hn
    exact reads_bytes nm l bs
  · rename_i t r
    simp only [Gram] at hg
    simp only [decode]
    obtain ⟨rfl, rfl⟩ | ⟨w, e, rfl, rfl, hg⟩ := hg
    · exact Reads.of_ok (none : Option t.denote) (fun rest =>
        (run_bind_ok ((binReadBool_ok_iff ([0] ++ rest) false rest).mpr ⟨_, rfl, rfl⟩)).trans rfl) (by simp only [contentOf, content])
    · simp only [Avoids] at ha
      have := hf l t r p e _ h ⟨w, hg, ha, rfl⟩
      refine Reads.bind (e₁ := [0x01]) (e₂ := e) (c := fun b => [([], .bool b)]) (i₁ := [([], .bool true)])
        (Reads.of_ok true (fun rest => (binReadBool_ok_iff _ true _).mpr ⟨_, rfl, rfl⟩) rfl) (fun b hb => ?_)
      simp only [List.cons.injEq, Prod.mk.injEq, Item.bool.injEq, true_and, and_true] at hb
      subst hb
      rw [← List.append_nil e]
      refine Reads.bind this (fun a hc => Reads.ret ?_)
      simp only [contentOf, content, hc]
  · rename_i t r
    simp only [Gram] at hg
    obtain ⟨len, es, ws, rfl, rfl, _, hlen, _, hes⟩ := hg
    simp only [Avoids] at ha
    simp only [decode, contentOf, content]
    refine Reads.bind (reads_len hlen) (fun n hn => ?_)
    simp only [List.cons.injEq, Prod.mk.injEq, Item.length.injEq, true_and, and_true] at hn
    subst hn
    exact reads_elems (fun enc is => hf l t r p enc is h) ws es hes ha
  · rename_i vs ss
    simp only [Gram] at hg
    obtain ⟨b, e, rfl, hg⟩ := hg
    simp only [decode, contentOf]
    refine Reads.bind (e₁ := [b]) (e₂ := e) (reads_index b) (fun c hc => ?_)
    simp only [List.cons.injEq, Prod.mk.injEq, Item.byte.injEq, true_and, and_true] at hc
    subst hc
    have := agreeSums_reads (fun l t r enc is => hf l t r p enc is) vs ss 0 c.toNat h e w hg ha
    simp only [Nat.zero_add] at this
    exact this
  · rename_i vs ps
    simp only [Bool.and_eq_true, decide_eq_true_eq] at h
    simp only [Gram] at hg
    obtain ⟨tag, e, rfl, htag, _, hg⟩ := hg
    simp only [decode, contentOf]
    obtain ⟨hash, hrun⟩ : ∃ hash : UInt32, hash.toNat = leNat tag / 2 :=
      ⟨UInt32.ofNat (leNat tag / 2), by
        have := leNat_lt tag
        rw [htag] at this
        simp only [UInt32.toNat_ofNat']
        omega⟩
    obtain ⟨j, hj, hfi, hr⟩ := agreePolys_reads (fun l t r enc is => hf l t r p enc is) vs ps h.2 hash e w (by rw [hrun]; exact hg) ha
    refine Reads.bind (e₁ := tag) (e₂ := e) (c := fun n => [([], .int n.toNat)]) (i₁ := [([], .int hash.toNat)])
      (Reads.of_ok hash (fun rest => (binReadPolyvarTag_ok_iff _ _ _).mpr ⟨tag, rfl, htag, hrun⟩) rfl) (fun b hb => ?_)
    simp only [List.cons.injEq, Prod.mk.injEq, Item.int.injEq, true_and, and_true, Int.natCast_inj, UInt32.toNat_inj] at hb
    subst hb
    have hp : polyvarIndex vs.names b = some j := by
      unfold polyvarIndex
      rw [asciiFilter_eq (agreePolys_ascii vs ps h.2), hfi]
    simp only [hp]
    have hj' : (UInt8.ofNat j).toNat = j := by simp; omega
    rw [hj']
    exact hr
  · cases h

/-- The typed reader reads what the layout describes, unless a number does not fit. -/
theorem agree_reads {bad : List String} {nm mn : Naming} : ∀ {n : Nat} {l : Place} {t : Ty} {r : Rule} {p : Option String}
    {enc : Bytes} {is : Held}, agree bad nm mn n l t r p = true → GL bad mn (l, r, p) enc is → RB nm (l, t) enc is
  | 0, _, _, _, _, _, _, h, _ => by cases h
  | n + 1, l, t, r, p, enc, is, h, ⟨w, hg, ha, hi⟩ => by
    subst hi
    exact partsT_reads nm l t enc _ (cat_all2' (fun x y enc is hp ht => by
      simp only [Bool.and_eq_true, decide_eq_true_eq] at hp
      obtain ⟨l, t⟩ := x
      obtain ⟨_, r, p⟩ := y
      obtain ⟨rfl, hp⟩ := hp
      exact agreePart_reads (fun _ _ _ _ _ _ h' ht' => agree_reads h' ht') _ t r p enc is hp ht) h (partsR_cat' bad mn l r p enc w hg ha))

end MinaRs.BinProt
