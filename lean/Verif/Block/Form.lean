import Verif.Block.Codec

/-! The byte layouts of the node's types: `Form ver t enc b` says that the bytes `enc` are a form of the value
`b`, where the version numbers have forms allowed by `ver`.  Nothing here mentions the reader, the writer or
the wire types. -/

namespace MinaRs.Block

open BinProt (Ty Tys IntKind Fits FitsProd FitsSum Err NoReadErrors REv toBytes decode)
open BinProt.Spec (Wire WireProd WireSum WireElems WireInt WireNat hash32)
open Json (arr32 u8s versionedTy version1)

namespace Spec

/-- The place of a value's variant. -/
def position : (vs : BTys) → vs.sum → Nat
  | .nil, v => nomatch (show Empty from v)
  | .cons _ t ts, v =>
    match (show t.base ⊕ ts.sum from v) with
    | .inl _ => 0
    | .inr w => position ts w + 1

/-- The name of a value's variant. -/
def label : (vs : BTys) → vs.sum → String
  | .nil, v => nomatch (show Empty from v)
  | .cons n t ts, v =>
    match (show t.base ⊕ ts.sum from v) with
    | .inl _ => n
    | .inr w => label ts w

/-- The names of all variants. -/
def labels : BTys → List String
  | .nil => []
  | .cons n _ ts => n :: labels ts

/-- A form of any version number from 0 to 65535. -/
def AnyVersion (enc : Bytes) : Prop := ∃ n : Int, 0 ≤ n ∧ n < 65536 ∧ WireInt enc n

/-- One byte, the version number 1. -/
def Version1 (enc : Bytes) : Prop := enc = [0x01]

/-- A byte for yes or no. -/
def flag (b : Bool) : UInt8 := if b then 0x01 else 0x00

mutual
/-- The bytes are a form of the value. -/
def Form (ver : Bytes → Prop) : (t : BTy) → Bytes → t.base → Prop
  | .unit, enc, _ => enc = [0x00]
  | .bool, enc, b => enc = [flag b]
  | .u8, enc, b => enc = [show UInt8 from b]
  | .int k, enc, n => WireInt enc (show {n : Int // k.range.holds n} from n).val
  | .ext32, enc, n => WireInt enc (toSigned 32 (show UInt32 from n).toNat)
  | .bytes32, enc, v => enc = Json.arrBytes 32 v
  | .bytes, enc, v => ∃ len, enc = len ++ (show Bytes from v) ∧ WireNat len (show Bytes from v).length
  | .key, enc, k => enc = leBytes 32 (show Key from k).x.val ++ [flag (show Key from k).isOdd]
  | .sig, enc, k => enc = leBytes 32 (show Sig from k).rx.val ++ leBytes 32 (show Sig from k).s.val
  | .option t, enc, o =>
    match (show Option t.base from o) with
    | none => enc = [0x00]
    | some v => ∃ e, enc = 0x01 :: e ∧ Form ver t e v
  | .newtype t, enc, v => Form ver t enc v
  | .seq t, enc, vs =>
    ∃ len es, enc = len ++ es ∧ WireNat len (show List t.base from vs).length ∧
      WireElems (fun e v => Form ver t e v) es (show List t.base from vs)
  | .tuple ts, enc, v => FormAll ver ts enc v
  | .struct ts, enc, v => FormAll ver ts enc v
  | .versioned t, enc, v => ∃ e₁ e₂, enc = e₁ ++ e₂ ∧ ver e₁ ∧ Form ver t e₂ v
  | .enum vs, enc, v => ∃ (b : UInt8) (e : Bytes), enc = b :: e ∧ b.toNat = position vs v ∧ FormVar ver vs e v
  | .polyvar vs, enc, v =>
    ∃ tag e, enc = tag ++ e ∧ tag.length = 4 ∧ leNat tag / 2 = hash32 (BinProt.utf8 (label vs v)) ∧
      (∀ n ∈ (labels vs).take (position vs v), hash32 (BinProt.utf8 n) ≠ hash32 (BinProt.utf8 (label vs v))) ∧
      FormVar ver vs e v
/-- Forms of the fields, back to back. -/
def FormAll (ver : Bytes → Prop) : (ts : BTys) → Bytes → ts.prod → Prop
  | .nil, enc, _ => enc = []
  | .cons _ t ts, enc, v =>
    ∃ e₁ e₂, enc = e₁ ++ e₂ ∧ Form ver t e₁ (show t.base × ts.prod from v).1 ∧
      FormAll ver ts e₂ (show t.base × ts.prod from v).2
/-- A form of the data of the variant. -/
def FormVar (ver : Bytes → Prop) : (vs : BTys) → Bytes → vs.sum → Prop
  | .nil, _, _ => False
  | .cons _ t ts, enc, v =>
    match (show t.base ⊕ ts.sum from v) with
    | .inl w => Form ver t enc w
    | .inr w => FormVar ver ts enc w
end

end Spec

open Spec

/-! ## Forms and wire forms -/

theorem wire_u8s : (n : Nat) → (enc : Bytes) → (v : (u8s n).prod) → (WireProd (u8s n) enc v ↔ enc = Json.arrBytes n v)
  | 0, _, _ => Iff.rfl
  | n + 1, enc, v => by
    obtain ⟨a, b⟩ : UInt8 × (u8s n).prod := v
    constructor
    · rintro ⟨e₁, e₂, rfl, h1, h2⟩
      have h1 : e₁ = [a] := h1
      have h2 := (wire_u8s n e₂ b).mp h2
      rw [h1, h2]
      rfl
    · rintro rfl
      exact ⟨[a], Json.arrBytes n b, rfl, rfl, (wire_u8s n _ b).mpr rfl⟩

theorem wire_arr32 (enc : Bytes) (v : (u8s 32).prod) : Wire arr32 enc v ↔ enc = Json.arrBytes 32 v := wire_u8s 32 enc v

theorem wireElems_u8 : (enc : Bytes) → (v : Bytes) → (WireElems (fun e v => Wire .u8 e v) enc v ↔ enc = v)
  | enc, [] => Iff.rfl
  | enc, b :: bs => by
    constructor
    · rintro ⟨e₁, e₂, rfl, h1, h2⟩
      have h1 : e₁ = [b] := h1
      have h2 := (wireElems_u8 e₂ bs).mp h2
      rw [h1, h2]
      rfl
    · rintro rfl
      exact ⟨[b], bs, rfl, rfl, (wireElems_u8 bs bs).mpr rfl⟩

theorem readField_iff {m : Nat} (hm : m < 256 ^ 32) (v : (u8s 32).prod) (x : Fin m) :
    readField m v = .ok x ↔ Json.arrBytes 32 v = leBytes 32 x.val := by
  constructor
  · intro h
    obtain ⟨_, h2⟩ := readField_ok h
    rw [← h2, arrBytes_leArr]
  · intro h
    have : v = leArr 32 x.val := arrBytes_inj (by rw [h, arrBytes_leArr])
    rw [this]
    exact readField_leArr hm x

theorem readKey_iff (v : (u8s 32).prod × Bool × Unit) (k : Key) :
    readKey v = .ok k ↔ Json.arrBytes 32 v.1 = leBytes 32 k.x.val ∧ v.2.1 = k.isOdd := by
  obtain ⟨x, o⟩ := k
  unfold readKey
  dsimp only
  constructor
  · intro e
    split at e
    · rename_i y hy
      have e := Except.ok.inj e
      injection e with e1 e2
      rw [e1] at hy
      exact ⟨(readField_iff p_lt v.1 x).mp hy, e2⟩
    · cases e
  · rintro ⟨h1, h2⟩
    simp only [(readField_iff p_lt v.1 x).mpr h1]
    rw [h2]

theorem readSig_iff (v : (u8s 32).prod × (u8s 32).prod × Unit) (k : Sig) :
    readSig v = .ok k ↔ Json.arrBytes 32 v.1 = leBytes 32 k.rx.val ∧ Json.arrBytes 32 v.2.1 = leBytes 32 k.s.val := by
  obtain ⟨x, s⟩ := k
  unfold readSig
  dsimp only
  constructor
  · intro e
    split at e
    · cases e
    · rename_i y hy
      split at e
      · cases e
      · rename_i z hz
        have e := Except.ok.inj e
        injection e with e1 e2
        rw [e1] at hy
        rw [e2] at hz
        exact ⟨(readField_iff p_lt v.1 x).mp hy, (readField_iff q_lt v.2.1 s).mp hz⟩
  · rintro ⟨h1, h2⟩
    simp only [(readField_iff p_lt v.1 x).mpr h1, (readField_iff q_lt v.2.1 s).mpr h2]

theorem key_iff (enc : Bytes) (k : Key) :
    enc = leBytes 32 k.x.val ++ [flag k.isOdd] ↔ ∃ v, Wire keyTy enc v ∧ readKey v = .ok k := by
  constructor
  · intro h
    refine ⟨writeKey k, ⟨leBytes 32 k.x.val, [flag k.isOdd], h, (wire_arr32 _ _).mpr ?_, ⟨[flag k.isOdd], [], rfl, rfl, rfl⟩⟩,
      from_to .key k⟩
    exact (arrBytes_leArr 32 k.x.val).symm
  · rintro ⟨v, hw, e⟩
    obtain ⟨h1, h2⟩ := (readKey_iff v k).mp e
    obtain ⟨e₁, e₂, rfl, h3, e₃, e₄, rfl, h4, h5⟩ := hw
    have h3 := (wire_arr32 _ _).mp h3
    have h4 : e₃ = [flag (show (u8s 32).prod × Bool × Unit from v).2.1] := h4
    have h5 : e₄ = [] := h5
    rw [h3, h4, h5, h1, h2]
    rfl

theorem sig_iff (enc : Bytes) (k : Sig) :
    enc = leBytes 32 k.rx.val ++ leBytes 32 k.s.val ↔ ∃ v, Wire sigTy enc v ∧ readSig v = .ok k := by
  constructor
  · intro h
    refine ⟨writeSig k, ⟨leBytes 32 k.rx.val, leBytes 32 k.s.val, h, (wire_arr32 _ _).mpr ?_,
      ⟨leBytes 32 k.s.val, [], (List.append_nil _).symm, (wire_arr32 _ _).mpr ?_, rfl⟩⟩, from_to .sig k⟩
    · exact (arrBytes_leArr 32 k.rx.val).symm
    · exact (arrBytes_leArr 32 k.s.val).symm
  · rintro ⟨v, hw, e⟩
    obtain ⟨h1, h2⟩ := (readSig_iff v k).mp e
    obtain ⟨e₁, e₂, rfl, h3, e₃, e₄, rfl, h4, h5⟩ := hw
    have h3 := (wire_arr32 _ _).mp h3
    have h4 := (wire_arr32 _ _).mp h4
    have h5 : e₄ = [] := h5
    rw [h3, h4, h5, h1, h2, List.append_nil]

/-! ### Variants -/

theorem names_wire : (vs : BTys) → vs.wire.names = labels vs
  | .nil => rfl
  | .cons n _ ts => by
    show n :: ts.wire.names = n :: labels ts
    rw [names_wire ts]

theorem fromVar_place : (vs : BTys) → (v : vs.wire.sum) → (b : vs.sum) → fromWireVar vs v = .ok b →
    vs.wire.index v = position vs b ∧ vs.wire.variantName v = label vs b
  | .nil, v, _, _ => nomatch (show Empty from v)
  | .cons n t ts, v, b, h => by
    obtain w | w : t.wire.denote ⊕ ts.wire.sum := v
    · have h' : (match fromWire t w with
        | .ok a => Except.ok (.inl a : t.base ⊕ ts.sum)
        | .error e => .error e) = .ok b := h
      split at h'
      · rw [← Except.ok.inj h']
        exact ⟨rfl, rfl⟩
      · cases h'
    · have h' : (match fromWireVar ts w with
        | .ok a => Except.ok (.inr a : t.base ⊕ ts.sum)
        | .error e => .error e) = .ok b := h
      split at h'
      · rename_i c hc
        rw [← Except.ok.inj h']
        obtain ⟨h1, h2⟩ := fromVar_place ts w c hc
        exact ⟨congrArg (· + 1) h1, h2⟩
      · cases h'

/-! ### The equivalence -/

theorem elems_iff {α β : Type} (R : Bytes → α → Prop) (S : Bytes → β → Prop) (f : α → Except Err β)
    (h : ∀ e b, S e b ↔ ∃ a, R e a ∧ f a = .ok b) :
    ∀ (bs : List β) (enc : Bytes), WireElems S enc bs ↔ ∃ as : List α, WireElems R enc as ∧ each f as = .ok bs
  | [], enc => by
    constructor
    · intro he
      exact ⟨[], he, rfl⟩
    · rintro ⟨as, he, hf⟩
      cases as with
      | nil => exact he
      | cons a as =>
        simp only [each] at hf
        split at hf
        · cases hf
        · split at hf
          · cases hf
          · exact (nomatch (Except.ok.inj hf))
  | b :: bs, enc => by
    constructor
    · rintro ⟨e₁, e₂, rfl, h1, h2⟩
      obtain ⟨a, ha, hfa⟩ := (h e₁ b).mp h1
      obtain ⟨as, has, hfas⟩ := (elems_iff R S f h bs e₂).mp h2
      exact ⟨a :: as, ⟨e₁, e₂, rfl, ha, has⟩, by simp only [each, hfa, hfas]⟩
    · rintro ⟨as, he, hf⟩
      cases as with
      | nil => exact (nomatch (Except.ok.inj hf))
      | cons a as =>
        obtain ⟨e₁, e₂, rfl, h1, h2⟩ := he
        simp only [each] at hf
        split at hf
        · cases hf
        · rename_i c hc
          split at hf
          · cases hf
          · rename_i cs hcs
            obtain ⟨rfl, rfl⟩ := List.cons.inj (Except.ok.inj hf)
            exact ⟨e₁, e₂, rfl, (h e₁ c).mpr ⟨a, h1, hc⟩, (elems_iff R S f h cs e₂).mpr ⟨as, h2, hcs⟩⟩

theorem each_length {α β : Type} (f : α → Except Err β) : ∀ (as : List α) (bs : List β), each f as = .ok bs → as.length = bs.length
  | [], bs, h => by rw [← Except.ok.inj h]; rfl
  | a :: as, bs, h => by
    simp only [each] at h
    split at h
    · cases h
    · split at h
      · cases h
      · rename_i cs hcs
        rw [← Except.ok.inj h, List.length_cons, List.length_cons, each_length f as cs hcs]

set_option maxHeartbeats 1000000 in
mutual
/-- The bytes are a form of a value exactly when they are a wire form of something that converts to it. -/
theorem form_iff : (t : BTy) → (enc : Bytes) → (b : t.base) →
    (Form AnyVersion t enc b ↔ ∃ v, Wire t.wire enc v ∧ fromWire t v = .ok b)
  | .unit, enc, b => ⟨fun h => ⟨(), h, rfl⟩, fun ⟨_, h, _⟩ => h⟩
  | .bool, enc, b => ⟨fun h => ⟨b, h, rfl⟩, fun ⟨_, h, e⟩ => Except.ok.inj e ▸ h⟩
  | .u8, enc, b => ⟨fun h => ⟨b, h, rfl⟩, fun ⟨_, h, e⟩ => Except.ok.inj e ▸ h⟩
  | .int _, enc, b => ⟨fun h => ⟨b, h, rfl⟩, fun ⟨_, h, e⟩ => Except.ok.inj e ▸ h⟩
  | .ext32, enc, b => by
    constructor
    · intro h
      exact ⟨writeExt b, h, congrArg Except.ok (readExt_writeExt b)⟩
    · rintro ⟨v, h, e⟩
      have e : readExt v = b := Except.ok.inj e
      have h2 := writeExt_readExt v
      rw [e] at h2
      rw [← h2] at h
      exact h
  | .bytes32, enc, b => ⟨fun h => ⟨b, (wire_arr32 enc b).mpr h, rfl⟩,
      fun ⟨v, h, e⟩ => (Except.ok.inj e : v = b) ▸ (wire_arr32 enc v).mp h⟩
  | .bytes, enc, b => by
    constructor
    · rintro ⟨len, rfl, h⟩
      exact ⟨b, ⟨len, _, rfl, h, (wireElems_u8 _ _).mpr rfl⟩, rfl⟩
    · rintro ⟨v, ⟨len, es, rfl, h1, h2⟩, e⟩
      have e : v = b := Except.ok.inj e
      subst e
      have h2 := (wireElems_u8 _ _).mp h2
      subst h2
      exact ⟨len, rfl, h1⟩
  | .key, enc, b => key_iff enc b
  | .sig, enc, b => sig_iff enc b
  | .option t, enc, b => by
    obtain _ | w : Option t.base := b
    · constructor
      · intro h
        exact ⟨(none : Option t.wire.denote), h, rfl⟩
      · rintro ⟨v, hw, e⟩
        obtain _ | v : Option t.wire.denote := v
        · exact hw
        · have e : (match fromWire t v with
            | .ok b => Except.ok (some b : Option t.base)
            | .error e => .error e) = .ok none := e
          split at e
          · exact (nomatch (Except.ok.inj e))
          · cases e
    · constructor
      · rintro ⟨e, rfl, h⟩
        obtain ⟨v, hv, hb⟩ := (form_iff t e w).mp h
        refine ⟨(some v : Option t.wire.denote), ⟨e, rfl, hv⟩, ?_⟩
        show (match fromWire t v with | .ok b => Except.ok (some b : Option t.base) | .error e => .error e) = _
        rw [hb]
        rfl
      · rintro ⟨v, hw, e⟩
        obtain _ | v : Option t.wire.denote := v
        · exact (nomatch (Except.ok.inj e))
        · have e : (match fromWire t v with
            | .ok b => Except.ok (some b : Option t.base)
            | .error e => .error e) = .ok (some w) := e
          split at e
          · rename_i y hy
            obtain ⟨en, rfl, hen⟩ := hw
            have e := Option.some.inj (Except.ok.inj e)
            subst e
            exact ⟨en, rfl, (form_iff t en y).mpr ⟨v, hen, hy⟩⟩
          · cases e
  | .newtype t, enc, b => form_iff t enc b
  | .seq t, enc, b => by
    constructor
    · rintro ⟨len, es, rfl, h1, h2⟩
      obtain ⟨as, ha, hf⟩ := (elems_iff (fun e v => Wire t.wire e v) _ (fromWire t) (form_iff t) _ es).mp h2
      refine ⟨as, ⟨len, es, rfl, ?_, ha⟩, hf⟩
      rw [each_length _ _ _ hf]
      exact h1
    · rintro ⟨as, ⟨len, es, rfl, h1, h2⟩, hf⟩
      refine ⟨len, es, rfl, ?_, (elems_iff (fun e v => Wire t.wire e v) _ (fromWire t) (form_iff t) _ es).mpr ⟨as, h2, hf⟩⟩
      rw [each_length _ _ _ hf] at h1
      exact h1
  | .tuple ts, enc, b => formAll_iff ts enc b
  | .struct ts, enc, b => formAll_iff ts enc b
  | .versioned t, enc, b => by
    constructor
    · rintro ⟨e₁, e₂, rfl, ⟨n, h0, h1, hn⟩, h⟩
      obtain ⟨v, hv, hb⟩ := (form_iff t e₂ b).mp h
      refine ⟨((⟨n, ?_⟩, v, ()) : {n : Int // BinProt.u16.holds n} × t.wire.denote × Unit),
        ⟨e₁, e₂, rfl, hn, ⟨e₂, [], (List.append_nil _).symm, hv, rfl⟩⟩, hb⟩
      exact ⟨h0, Int.le_of_lt_add_one h1⟩
    · rintro ⟨v, hw, e⟩
      obtain ⟨⟨n, hn⟩, v, u⟩ : {n : Int // BinProt.u16.holds n} × t.wire.denote × Unit := v
      obtain ⟨e₁, e₂, rfl, h1, e₃, e₄, rfl, h3, h4⟩ := hw
      have h4 : e₄ = [] := h4
      subst h4
      rw [List.append_nil]
      exact ⟨e₁, e₃, rfl, ⟨n, hn.1, Int.lt_add_one_of_le hn.2, h1⟩, (form_iff t e₃ b).mpr ⟨v, h3, e⟩⟩
  | .enum vs, enc, b => by
    constructor
    · rintro ⟨i, e, rfl, hi, h⟩
      obtain ⟨v, hv, hb⟩ := (formVar_iff vs e b).mp h
      exact ⟨v, ⟨i, e, rfl, by rw [(fromVar_place vs v b hb).1]; exact hi, hv⟩, hb⟩
    · rintro ⟨v, ⟨i, e, rfl, hi, hv⟩, hb⟩
      exact ⟨i, e, rfl, by rw [← (fromVar_place vs v b hb).1]; exact hi, (formVar_iff vs e b).mpr ⟨v, hv, hb⟩⟩
  | .polyvar vs, enc, b => by
    constructor
    · rintro ⟨tag, e, rfl, hl, ht, hn, h⟩
      obtain ⟨v, hv, hb⟩ := (formVar_iff vs e b).mp h
      obtain ⟨p1, p2⟩ := fromVar_place vs v b hb
      refine ⟨v, ⟨tag, e, rfl, hl, ?_, ?_, hv⟩, hb⟩
      · rw [p2]; exact ht
      · rw [p1, p2, names_wire]; exact hn
    · rintro ⟨v, ⟨tag, e, rfl, hl, ht, hn, hv⟩, hb⟩
      obtain ⟨p1, p2⟩ := fromVar_place vs v b hb
      rw [p2] at ht
      rw [p1, p2, names_wire] at hn
      exact ⟨tag, e, rfl, hl, ht, hn, (formVar_iff vs e b).mpr ⟨v, hv, hb⟩⟩
theorem formAll_iff : (ts : BTys) → (enc : Bytes) → (b : ts.prod) →
    (FormAll AnyVersion ts enc b ↔ ∃ v, WireProd ts.wire enc v ∧ fromWireAll ts v = .ok b)
  | .nil, enc, b => ⟨fun h => ⟨(), h, rfl⟩, fun ⟨_, h, _⟩ => h⟩
  | .cons n t ts, enc, b => by
    obtain ⟨b, c⟩ : t.base × ts.prod := b
    constructor
    · rintro ⟨e₁, e₂, rfl, h1, h2⟩
      obtain ⟨v, hv, hb⟩ := (form_iff t e₁ b).mp h1
      obtain ⟨w, hw, hc⟩ := (formAll_iff ts e₂ c).mp h2
      refine ⟨((v, w) : t.wire.denote × ts.wire.prod), ⟨e₁, e₂, rfl, hv, hw⟩, ?_⟩
      show (match fromWire t v with
        | .error e => Except.error e
        | .ok a =>
          match fromWireAll ts w with
          | .error e => .error e
          | .ok b => .ok ((a, b) : t.base × ts.prod)) = _
      rw [hb, hc]
      rfl
    · rintro ⟨v, hw, e⟩
      obtain ⟨v, w⟩ : t.wire.denote × ts.wire.prod := v
      obtain ⟨e₁, e₂, rfl, h1, h2⟩ := hw
      have e : (match fromWire t v with
        | .error e => Except.error e
        | .ok a =>
          match fromWireAll ts w with
          | .error e => .error e
          | .ok b => .ok ((a, b) : t.base × ts.prod)) = .ok (b, c) := e
      split at e
      · cases e
      · rename_i y hy
        split at e
        · cases e
        · rename_i z hz
          have e := Except.ok.inj e
          injection e with e1 e2
          subst e1 e2
          exact ⟨e₁, e₂, rfl, (form_iff t e₁ y).mpr ⟨v, h1, hy⟩, (formAll_iff ts e₂ z).mpr ⟨w, h2, hz⟩⟩
theorem formVar_iff : (vs : BTys) → (enc : Bytes) → (b : vs.sum) →
    (FormVar AnyVersion vs enc b ↔ ∃ v, WireSum vs.wire enc v ∧ fromWireVar vs v = .ok b)
  | .nil, enc, b => nomatch (show Empty from b)
  | .cons n t ts, enc, b => by
    obtain b | b : t.base ⊕ ts.sum := b
    · constructor
      · intro h
        obtain ⟨v, hv, hb⟩ := (form_iff t enc b).mp h
        refine ⟨(.inl v : t.wire.denote ⊕ ts.wire.sum), hv, ?_⟩
        show (match fromWire t v with | .ok a => Except.ok (.inl a : t.base ⊕ ts.sum) | .error e => .error e) = _
        rw [hb]
        rfl
      · rintro ⟨v, hw, e⟩
        obtain v | v : t.wire.denote ⊕ ts.wire.sum := v
        · have e : (match fromWire t v with
            | .ok a => Except.ok (.inl a : t.base ⊕ ts.sum)
            | .error e => .error e) = .ok (.inl b) := e
          split at e
          · rename_i y hy
            have e := Sum.inl.inj (Except.ok.inj e)
            subst e
            exact (form_iff t enc y).mpr ⟨v, hw, hy⟩
          · cases e
        · have e : (match fromWireVar ts v with
            | .ok a => Except.ok (.inr a : t.base ⊕ ts.sum)
            | .error e => .error e) = .ok (.inl b) := e
          split at e
          · exact (nomatch (Except.ok.inj e))
          · cases e
    · constructor
      · intro h
        obtain ⟨v, hv, hb⟩ := (formVar_iff ts enc b).mp h
        refine ⟨(.inr v : t.wire.denote ⊕ ts.wire.sum), hv, ?_⟩
        show (match fromWireVar ts v with | .ok a => Except.ok (.inr a : t.base ⊕ ts.sum) | .error e => .error e) = _
        rw [hb]
        rfl
      · rintro ⟨v, hw, e⟩
        obtain v | v : t.wire.denote ⊕ ts.wire.sum := v
        · have e : (match fromWire t v with
            | .ok a => Except.ok (.inl a : t.base ⊕ ts.sum)
            | .error e => .error e) = .ok (.inr b) := e
          split at e
          · exact (nomatch (Except.ok.inj e))
          · cases e
        · have e : (match fromWireVar ts v with
            | .ok a => Except.ok (.inr a : t.base ⊕ ts.sum)
            | .error e => .error e) = .ok (.inr b) := e
          split at e
          · rename_i y hy
            have e := Sum.inr.inj (Except.ok.inj e)
            subst e
            exact (formVar_iff ts enc y).mpr ⟨v, hw, hy⟩
          · cases e
end

end MinaRs.Block
