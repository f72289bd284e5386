import Verif.Json.Bad
import Verif.Json.Lemmas
import Verif.BinProt.SerdeWire
import Verif.BinProt.IOProps

/-! What values read from JSON look like. -/

namespace MinaRs.Json

open BinProt (Ty Tys Fits FitsProd FitsSum)
open BinProt.Spec
open Codec
open Text (Text)

/-! ## Values read from the wire fit the wire -/

mutual
/-- No part is a `u64` or a polymorphic variant: the only types with wire forms whose value cannot be
written. -/
def Narrow : Ty → Bool
  | .int k => k != .u64
  | .option t => Narrow t
  | .newtype t => Narrow t
  | .seq t => Narrow t
  | .tuple ts => Narrows ts
  | .struct ts => Narrows ts
  | .enum vs => Narrows vs
  | .polyvar _ => false
  | _ => true
def Narrows : Tys → Bool
  | .nil => true
  | .cons _ t ts => Narrow t && Narrows ts
end

mutual
theorem wf_of_narrow : (t : Ty) → Narrow t = true → WfTy t
  | .unit, _ | .bool, _ | .u8, _ | .int _, _ | .f32, _ | .f64, _ | .char, _ | .string, _ => trivial
  | .option t, h => wf_of_narrow t h
  | .newtype t, h => wf_of_narrow t h
  | .seq t, h => wf_of_narrow t h
  | .tuple ts, h => wfs_of_narrow ts h
  | .struct ts, h => wfs_of_narrow ts h
  | .enum vs, h => wfs_of_narrow vs h
  | .polyvar _, h => by cases h
theorem wfs_of_narrow : (ts : Tys) → Narrows ts = true → WfTys ts
  | .nil, _ => trivial
  | .cons _ t ts, h => by
    simp only [Narrows, Bool.and_eq_true] at h
    exact ⟨wf_of_narrow t h.1, wfs_of_narrow ts h.2⟩
end

theorem wireElems_mem {α : Type} {R : Bytes → α → Prop} : {enc : Bytes} → {vs : List α} → WireElems R enc vs →
    ∀ v ∈ vs, ∃ e, R e v
  | _, [], _, v, hv => by cases hv
  | _, w :: ws, h, v, hv => by
    obtain ⟨e₁, e₂, -, h1, h2⟩ := h
    rcases List.mem_cons.mp hv with rfl | hv
    · exact ⟨e₁, h1⟩
    · exact wireElems_mem h2 v hv

mutual
theorem fits_of_wire : (t : Ty) → Narrow t = true → (enc : Bytes) → (v : t.denote) → Wire t enc v → Fits t v
  | .unit, _, _, _, _ | .bool, _, _, _, _ | .u8, _, _, _, _ | .f32, _, _, _, _ | .f64, _, _, _, _ => trivial
  | .int k, hn, _, v, _ => fun h => by subst h; exact absurd hn (by decide)
  | .char, _, _, v, h => by
    obtain ⟨b, -, hb⟩ := h
    have := b.toNat_lt
    simp only [Fits]
    rw [hb]; omega
  | .string, _, _, v, h => by
    obtain ⟨len, -, hl, -⟩ := h
    exact hl
  | .option t, hn, enc, v, h => by
    intro w hw
    change v = some w at hw
    subst hw
    obtain ⟨e, -, he⟩ := h
    exact fits_of_wire t hn e w he
  | .newtype t, hn, enc, v, h => fits_of_wire t hn enc v h
  | .seq t, hn, enc, v, h => by
    obtain ⟨len, es, -, hl, he⟩ := h
    refine ⟨BinProt.wireNat_lt hl, fun w hw => ?_⟩
    obtain ⟨e, he⟩ := wireElems_mem he w hw
    exact fits_of_wire t hn e w he
  | .tuple ts, hn, enc, v, h => fitsProd_of_wire ts hn enc v h
  | .struct ts, hn, enc, v, h => fitsProd_of_wire ts hn enc v h
  | .enum vs, hn, enc, v, h => by
    obtain ⟨b, e, -, hb, he⟩ := h
    have := b.toNat_lt
    exact ⟨by rw [← hb]; omega, fitsSum_of_wire vs hn e v he⟩
  | .polyvar _, hn, _, _, _ => by cases hn
theorem fitsProd_of_wire : (ts : Tys) → Narrows ts = true → (enc : Bytes) → (v : ts.prod) → WireProd ts enc v → FitsProd ts v
  | .nil, _, _, _, _ => trivial
  | .cons _ t ts, hn, enc, v, h => by
    simp only [Narrows, Bool.and_eq_true] at hn
    obtain ⟨e₁, e₂, -, h1, h2⟩ := h
    exact ⟨fits_of_wire t hn.1 e₁ _ h1, fitsProd_of_wire ts hn.2 e₂ _ h2⟩
theorem fitsSum_of_wire : (vs : Tys) → Narrows vs = true → (enc : Bytes) → (v : vs.sum) → WireSum vs enc v → FitsSum vs v
  | .nil, _, _, v, _ => nomatch (show Empty from v)
  | .cons _ t ts, hn, enc, v, h => by
    simp only [Narrows, Bool.and_eq_true] at hn
    obtain w | w : t.denote ⊕ ts.sum := v
    · exact fits_of_wire t hn.1 enc w h
    · exact fitsSum_of_wire ts hn.2 enc w h
end

theorem fits_of_strict {t : Ty} (hn : Narrow t = true) {bs : Bytes} {v : t.denote}
    (h : BinProt.fromReaderStrict t ⟨bs, []⟩ = .ok v) : Fits t v := by
  obtain ⟨h1, h2, h3⟩ := BinProt.C10_strict_partial t bs [] (by simp [BinProt.NoReadErrors])
  cases hd : (BinProt.decode t).run bs with
  | error e => rw [h1 e hd] at h; cases h
  | ok w =>
    obtain ⟨w, r⟩ := w
    have hw : w = v := by
      by_cases hr : r = []
      · subst hr; rw [h2 w hd] at h; exact Except.ok.inj h
      · rcases h3 w r hd hr with h4 | ⟨n, -, -, h4⟩
        · rw [h4] at h; exact Except.ok.inj h
        · rw [h4] at h; cases h
    subst hw
    obtain ⟨enc, -, hwire⟩ := (BinProt.decode_ok_iff t (wf_of_narrow t hn) _ _ _).mp hd
    exact fits_of_wire t hn enc w hwire

/-! ## Leaves read from text -/

/-- The leaf holds nothing that could be read but not written, except characters. -/
def Leaf.narrow : Leaf → Bool
  | .base58Bin _ t => Narrow t
  | .base64Bin t => Narrow t
  | _ => true

/-- A character, if it is one, is ASCII. -/
def AsciiChar : (c : Leaf) → c.wire.denote → Prop
  | .char, v => (v : UInt8).toNat < 128
  | _, _ => True

/-- What a leaf read from text satisfies. -/
def FromText (c : Leaf) (v : c.wire.denote) : Prop := c.narrow = true → AsciiChar c v → c.Carried v

theorem fromText_of_de (E : Env) (c : Leaf) (j : J) (v : c.wire.denote) (h : c.de E j = .ok v) : FromText c v := by
  intro hn ha
  have ht : c ≠ .i64 → ∃ s : Text, c.deText E s = .ok v := by
    intro hc
    cases j with
    | str s => exact ⟨s.toList, by rw [← de_str E c s hc]; exact h⟩
    | _ => cases c <;> first | exact absurd rfl hc | cases h
  cases c with
  | char => exact ha
  | byteVec =>
    obtain ⟨s, hs⟩ := ht (fun h => by cases h)
    exact ⟨String.ofList s, Except.ok.inj hs⟩
  | publicKey =>
    obtain ⟨s, hs⟩ := ht (fun h => by cases h)
    simp only [Leaf.deText] at hs
    cases hf : fromAddress E s with
    | none => rw [hf] at hs; cases hs
    | some p =>
      obtain ⟨x, odd⟩ := p
      simp only [hf] at hs
      cases hb : bytesArr 32 x with
      | none => simp only [hb] at hs; cases hs
      | some w =>
        simp only [hb] at hs
        have hv := Except.ok.inj hs
        have hlt : leNat x < Hash.p := by
          unfold fromAddress at hf
          split at hf
          · cases hf
          · split at hf
            · cases hf
            · split at hf
              · cases hf
              · split at hf
                · cases hf
                · split at hf
                  · cases hf
                  · split at hf
                    · rename_i hlt
                      have := congrArg Prod.fst (Option.some.inj hf)
                      simp only at this
                      rw [← this]; exact hlt
                    · cases hf
        subst hv
        show leNat (arrBytes 32 w) < Hash.p
        rw [bytesArr_some hb]
        exact hlt
  | base58Bin ver t =>
    obtain ⟨s, hs⟩ := ht (fun h => by cases h)
    simp only [Leaf.deText] at hs
    cases hd : decodeCheck E.chk ver s with
    | error e => rw [hd] at hs; cases hs
    | ok bs =>
      rw [hd] at hs
      simp only at hs
      cases bs with
      | nil => cases hs
      | cons b bs =>
        simp only [strictAfterVersion] at hs
        cases hr : BinProt.fromReaderStrict t ⟨bs, []⟩ with
        | error e => rw [hr] at hs; cases hs
        | ok w =>
          rw [hr] at hs
          have := Except.ok.inj hs
          subst this
          exact fits_of_strict hn hr
  | base64Bin t =>
    obtain ⟨s, hs⟩ := ht (fun h => by cases h)
    simp only [Leaf.deText] at hs
    cases hd : decode64 s with
    | error e => rw [hd] at hs; cases hs
    | ok bs =>
      rw [hd] at hs
      simp only at hs
      cases hr : BinProt.fromReaderStrict t ⟨bs, []⟩ with
      | error e => rw [hr] at hs; cases hs
      | ok w =>
        rw [hr] at hs
        have := Except.ok.inj hs
        subst this
        exact fits_of_strict hn hr
  | _ => trivial

/-! ## All values read from JSON -/

theorem collect_ok {α β : Type} {f : α → Except JErr β} {P : β → Prop} (h : ∀ a b, f a = .ok b → P b) :
    ∀ {as : List α} {bs : List β}, collect f as = .ok bs → ∀ b ∈ bs, P b
  | [], bs, hc, b, hb => by cases hc; cases hb
  | a :: as, bs, hc, b, hb => by
    simp only [collect] at hc
    cases ha : f a with
    | error e => rw [ha] at hc; cases hc
    | ok b' =>
      rw [ha] at hc
      simp only at hc
      cases hr : collect f as with
      | error e => rw [hr] at hc; cases hc
      | ok bs' =>
        rw [hr] at hc
        cases hc
        rcases List.mem_cons.mp hb with rfl | hb
        · exact h a _ ha
        · exact collect_ok h hr b hb

mutual
theorem de_ok (E : Env) : (t : JTy) → (j : J) → (v : t.wire.denote) → de E t j = .ok v →
    Leaves FromText t v ∧ norm t v = v
  | .leaf c, j, v, h => ⟨fromText_of_de E c j v h, rfl⟩
  | .unit, _, _, _ => ⟨trivial, rfl⟩
  | .bool, _, _, _ => ⟨trivial, rfl⟩
  | .option t, j, v, h => by
    by_cases hj : j = .null
    · subst hj
      have hv : (none : Option t.wire.denote) = v := Except.ok.inj h
      subst hv
      exact ⟨(fun _ h => by cases h), rfl⟩
    · rw [de_option E t j hj] at h
      cases hd : de E t j with
      | error e => rw [hd] at h; cases h
      | ok w =>
        rw [hd] at h
        have hv := Except.ok.inj h
        subst hv
        obtain ⟨h1, h2⟩ := de_ok E t j w hd
        refine ⟨fun x hx => ?_, congrArg (some : t.wire.denote → Option t.wire.denote) h2⟩
        cases hx
        exact h1
  | .newtype t, j, v, h => de_ok E t j v h
  | .seq t, j, v, h => by
    cases j with
    | arr js =>
      rw [de_seq_arr] at h
      have := collect_ok (fun a b hab => de_ok E t a b hab) h
      refine ⟨fun w hw => (this w hw).1, ?_⟩
      change List t.wire.denote at v
      show List.map (norm t) v = v
      exact (List.map_congr_left (g := id) (fun a ha => (this a ha).2)).trans (List.map_id v)
    | _ => cases h
  | .tuple ts, j, v, h => by
    cases j with
    | arr js => exact deTuple_ok E ts js v h
    | _ => cases h
  | .struct ts, j, v, h => by
    cases j with
    | obj es => exact deStruct_ok E ts es v h
    | arr js => exact deTuple_ok E ts js v h
    | _ => cases h
  | .versioned t, j, v, h => by
    rw [de_versioned] at h
    cases hd : de E t j with
    | error e => rw [hd] at h; cases h
    | ok w =>
      rw [hd] at h
      have hv := Except.ok.inj h
      subst hv
      obtain ⟨h1, h2⟩ := de_ok E t j w hd
      exact ⟨h1, congrArg version1 h2⟩
  | .listEnum poly expand vs, j, v, h => by
    rw [de_listEnum] at h
    split at h
    · cases h
    · split at h
      · cases h
      · rename_i n c _
        cases hd : deTagged E vs n c with
        | error e => rw [hd] at h; cases h
        | ok w =>
          rw [hd] at h
          have hv := Except.ok.inj h
          subst hv
          obtain ⟨h1, h2⟩ := deTagged_ok E vs n c w hd
          cases poly
          · exact ⟨h1, h2⟩
          · exact ⟨h1, h2⟩
  | .tagEnum vs, j, v, h => by
    rw [de_tagEnum] at h
    split at h
    · cases h
    · exact deTagged_ok E vs _ _ v h
theorem deTuple_ok (E : Env) : (ts : JTys) → (js : List J) → (v : ts.wire.prod) → deTuple E ts js = .ok v →
    LeavesAll FromText ts v ∧ normAll ts v = v
  | .nil, _, _, _ => ⟨trivial, rfl⟩
  | .cons n t ts, js, v, h => by
    cases js with
    | nil => cases h
    | cons j js =>
      rw [deTuple_cons] at h
      cases hd : de E t j with
      | error e => rw [hd] at h; cases h
      | ok a =>
        rw [hd] at h
        simp only at h
        cases hr : deTuple E ts js with
        | error e => rw [hr] at h; cases h
        | ok b =>
          rw [hr] at h
          have hv := Except.ok.inj h
          subst hv
          obtain ⟨h1, h2⟩ := de_ok E t j a hd
          obtain ⟨h3, h4⟩ := deTuple_ok E ts js b hr
          refine ⟨⟨h1, h3⟩, ?_⟩
          show ((norm t a, normAll ts b) : t.wire.denote × ts.wire.prod) = (a, b)
          rw [h2, h4]
  | .skip n s ts, js, v, h => by
    rw [deTuple_skip] at h
    cases hr : deTuple E ts js with
    | error e => rw [hr] at h; cases h
    | ok b =>
      rw [hr] at h
      have hv := Except.ok.inj h
      subst hv
      obtain ⟨h3, h4⟩ := deTuple_ok E ts js b hr
      refine ⟨h3, ?_⟩
      show ((s.default, normAll ts b) : s.wire.denote × ts.wire.prod) = (s.default, b)
      rw [h4]
theorem deStruct_ok (E : Env) : (ts : JTys) → (es : List (String × J)) → (v : ts.wire.prod) → deStruct E ts es = .ok v →
    LeavesAll FromText ts v ∧ normAll ts v = v
  | .nil, _, _, _ => ⟨trivial, rfl⟩
  | .cons n t ts, es, v, h => by
    rw [deStruct_cons] at h
    have fin : ∀ a : t.wire.denote, Leaves FromText t a → norm t a = a →
        (match deStruct E ts es with
          | .error e => .error e
          | .ok w => .ok ((a, w) : t.wire.denote × ts.wire.prod)) = (.ok v : Except JErr (t.wire.denote × ts.wire.prod)) →
        LeavesAll FromText (.cons n t ts) v ∧ normAll (.cons n t ts) v = v := by
      intro a h1 h2 h
      cases hr : deStruct E ts es with
      | error e => rw [hr] at h; cases h
      | ok b =>
        rw [hr] at h
        have hv := Except.ok.inj h
        subst hv
        obtain ⟨h3, h4⟩ := deStruct_ok E ts es b hr
        refine ⟨⟨h1, h3⟩, ?_⟩
        show ((norm t a, normAll ts b) : t.wire.denote × ts.wire.prod) = (a, b)
        rw [h2, h4]
    split at h
    · cases ha : absent t with
      | error e => rw [ha] at h; cases h
      | ok a =>
        rw [ha] at h
        have hab : Leaves FromText t a ∧ norm t a = a := by
          cases t with
          | option t =>
            have hv : (none : Option t.wire.denote) = a := Except.ok.inj ha
            subst hv
            exact ⟨(fun _ h => by cases h), rfl⟩
          | _ => cases ha
        exact fin a hab.1 hab.2 h
    · rename_i j _
      cases hd : de E t j with
      | error e => rw [hd] at h; cases h
      | ok a =>
        rw [hd] at h
        obtain ⟨h1, h2⟩ := de_ok E t j a hd
        exact fin a h1 h2 h
    · cases h
  | .skip n s ts, es, v, h => by
    rw [deStruct_skip] at h
    cases hr : deStruct E ts es with
    | error e => rw [hr] at h; cases h
    | ok b =>
      rw [hr] at h
      have hv := Except.ok.inj h
      subst hv
      obtain ⟨h3, h4⟩ := deStruct_ok E ts es b hr
      refine ⟨h3, ?_⟩
      show ((s.default, normAll ts b) : s.wire.denote × ts.wire.prod) = (s.default, b)
      rw [h4]
theorem deTagged_ok (E : Env) : (vs : JVars) → (n : String) → (c : Option J) → (v : vs.wire.sum) →
    deTagged E vs n c = .ok v → LeavesVar FromText vs v ∧ normVar vs v = v
  | .nil, _, _, v, _ => nomatch (show Empty from v)
  | .cons m p vs, n, c, v, h => by
    rw [deTagged_cons] at h
    split at h
    · cases hp : dePay E p c with
      | error e => rw [hp] at h; cases h
      | ok w =>
        rw [hp] at h
        have hv := Except.ok.inj h
        subst hv
        obtain ⟨h1, h2⟩ := dePay_ok E p c w hp
        exact ⟨h1, congrArg (Sum.inl : p.wire.denote → p.wire.denote ⊕ vs.wire.sum) h2⟩
    · cases hp : deTagged E vs n c with
      | error e => rw [hp] at h; cases h
      | ok w =>
        rw [hp] at h
        have hv := Except.ok.inj h
        subst hv
        obtain ⟨h1, h2⟩ := deTagged_ok E vs n c w hp
        exact ⟨h1, congrArg (Sum.inr : vs.wire.sum → p.wire.denote ⊕ vs.wire.sum) h2⟩
theorem dePay_ok (E : Env) : (p : JPay) → (c : Option J) → (v : p.wire.denote) → dePay E p c = .ok v →
    LeavesPay FromText p v ∧ normPay p v = v
  | .unit, _, _, _ => ⟨trivial, rfl⟩
  | .newtype t, c, v, h => by
    cases c with
    | none => cases h
    | some j => exact de_ok E t j v h
  | .tuple ts, c, v, h => by
    cases c with
    | none => cases h
    | some j =>
      cases j with
      | arr js =>
        cases js with
        | nil => cases h
        | cons j js => exact deTuple_ok E ts (j :: js) v h
      | _ => cases h
  | .struct ts, c, v, h => by
    cases c with
    | none => cases h
    | some j =>
      cases j with
      | obj es => exact deStruct_ok E ts es v h
      | _ => cases h
end

/-! ## Conditions on all leaves of a type -/

mutual
/-- All leaves of the type satisfy a test. -/
def JTy.all (p : Leaf → Bool) : JTy → Bool
  | .leaf c => p c
  | .unit => true
  | .bool => true
  | .option t => t.all p
  | .newtype t => t.all p
  | .seq t => t.all p
  | .tuple ts => ts.all p
  | .struct ts => ts.all p
  | .versioned t => t.all p
  | .listEnum _ _ vs => vs.all p
  | .tagEnum vs => vs.all p
def JTys.all (p : Leaf → Bool) : JTys → Bool
  | .nil => true
  | .cons _ t ts => t.all p && ts.all p
  | .skip _ _ ts => ts.all p
def JVars.all (p : Leaf → Bool) : JVars → Bool
  | .nil => true
  | .cons _ q vs => q.all p && vs.all p
def JPay.all (p : Leaf → Bool) : JPay → Bool
  | .unit => true
  | .newtype t => t.all p
  | .tuple ts => ts.all p
  | .struct ts => ts.all p
end

mutual
theorem Leaves.combine {p : Leaf → Bool} {P Q R : (c : Leaf) → c.wire.denote → Prop}
    (h : ∀ c v, p c = true → P c v → Q c v → R c v) :
    (t : JTy) → (v : t.wire.denote) → t.all p = true → Leaves P t v → Leaves Q t v → Leaves R t v
  | .leaf c, v, ha, hp, hq => h c v ha hp hq
  | .unit, _, _, _, _ => trivial
  | .bool, _, _, _, _ => trivial
  | .option t, _, ha, hp, hq => fun w hw => Leaves.combine h t w ha (hp w hw) (hq w hw)
  | .newtype t, v, ha, hp, hq => Leaves.combine h t v ha hp hq
  | .seq t, _, ha, hp, hq => fun w hw => Leaves.combine h t w ha (hp w hw) (hq w hw)
  | .tuple ts, v, ha, hp, hq => LeavesAll.combine h ts v ha hp hq
  | .struct ts, v, ha, hp, hq => LeavesAll.combine h ts v ha hp hq
  | .versioned t, v, ha, hp, hq => Leaves.combine h t _ ha hp hq
  | .listEnum _ _ vs, _, ha, hp, hq => LeavesVar.combine h vs _ ha hp hq
  | .tagEnum vs, v, ha, hp, hq => LeavesVar.combine h vs v ha hp hq
theorem LeavesAll.combine {p : Leaf → Bool} {P Q R : (c : Leaf) → c.wire.denote → Prop}
    (h : ∀ c v, p c = true → P c v → Q c v → R c v) :
    (ts : JTys) → (v : ts.wire.prod) → ts.all p = true → LeavesAll P ts v → LeavesAll Q ts v → LeavesAll R ts v
  | .nil, _, _, _, _ => trivial
  | .cons _ t ts, _, ha, hp, hq => by
    simp only [JTys.all, Bool.and_eq_true] at ha
    exact ⟨Leaves.combine h t _ ha.1 hp.1 hq.1, LeavesAll.combine h ts _ ha.2 hp.2 hq.2⟩
  | .skip _ _ ts, _, ha, hp, hq => LeavesAll.combine h ts _ ha hp hq
theorem LeavesVar.combine {p : Leaf → Bool} {P Q R : (c : Leaf) → c.wire.denote → Prop}
    (h : ∀ c v, p c = true → P c v → Q c v → R c v) :
    (vs : JVars) → (v : vs.wire.sum) → vs.all p = true → LeavesVar P vs v → LeavesVar Q vs v → LeavesVar R vs v
  | .nil, v, _, _, _ => nomatch (show Empty from v)
  | .cons _ q vs, v, ha, hp, hq => by
    simp only [JVars.all, Bool.and_eq_true] at ha
    obtain w | w : q.wire.denote ⊕ vs.wire.sum := v
    · exact LeavesPay.combine h q w ha.1 hp hq
    · exact LeavesVar.combine h vs w ha.2 hp hq
theorem LeavesPay.combine {p : Leaf → Bool} {P Q R : (c : Leaf) → c.wire.denote → Prop}
    (h : ∀ c v, p c = true → P c v → Q c v → R c v) :
    (q : JPay) → (v : q.wire.denote) → q.all p = true → LeavesPay P q v → LeavesPay Q q v → LeavesPay R q v
  | .unit, _, _, _, _ => trivial
  | .newtype t, v, ha, hp, hq => Leaves.combine h t v ha hp hq
  | .tuple ts, v, ha, hp, hq => LeavesAll.combine h ts v ha hp hq
  | .struct ts, v, ha, hp, hq => LeavesAll.combine h ts v ha hp hq
end

/-- A value read from JSON with ASCII characters can be written and read again. -/
theorem reread (E : Env) (t : JTy) (hs : t.Sound = true) (hn : t.all Leaf.narrow = true) (j : J) (v : t.wire.denote)
    (h : de E t j = .ok v) (ha : Leaves AsciiChar t v) : ∃ k, ser E t v = .ok k ∧ de E t k = .ok v := by
  obtain ⟨h1, h2⟩ := de_ok E t j v h
  have hc : Leaves Leaf.Carried t v := Leaves.combine (fun c v hp h1 h2 => h1 hp h2) t v hn h1 ha
  obtain ⟨k, h3, h4, -⟩ := roundtrip E t hs v hc
  exact ⟨k, h3, h2 ▸ h4⟩

end MinaRs.Json
