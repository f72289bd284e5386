import Verif.Block.FitsLemmas

/-! Blocks used as examples: one with something in every list and option, and one whose keys are not field
elements. -/

namespace MinaRs.Block

open BinProt (Ty Tys IntKind Fits FitsProd FitsSum)
open Json (arr32 u8s versionedTy version1)
open Spec

/-- A number of each kind. -/
def intSample (k : IntKind) : {n : Int // k.range.holds n} :=
  ⟨7, by cases k <;> decide⟩

theorem intSample_small (k : IntKind) : (intSample k).val < 2 ^ 63 := by
  show (7 : Int) < 2 ^ 63
  decide

mutual
/-- A value with one item in every list and every optional part present; all its characters are `c`. -/
def sampleB (c : UInt8) : (t : BTy) → Option {b : t.base // InMemory t b ∧ Small t b}
  | .unit => some ⟨(), trivial, trivial⟩
  | .bool => some ⟨true, trivial, trivial⟩
  | .u8 => some ⟨c, trivial, trivial⟩
  | .int k => some ⟨intSample k, trivial, fun _ => intSample_small k⟩
  | .ext32 => some ⟨(4294967295 : UInt32), trivial, trivial⟩
  | .bytes32 => some ⟨leArr 32 12345, trivial, trivial⟩
  | .bytes => some ⟨([1, 3, 104, 105, 33] : List UInt8), (by decide : 5 < 2 ^ 64), trivial⟩
  | .key => some ⟨(⟨Fin.ofNat Hash.p 99, true⟩ : Key), trivial, trivial⟩
  | .sig => some ⟨(⟨Fin.ofNat Hash.p 98, ⟨97, by decide⟩⟩ : Sig), trivial, trivial⟩
  | .option t =>
    match sampleB c t with
    | none => none
    | some b => some ⟨(some b.1 : Option t.base), fun _ h => Option.some.inj h ▸ b.2.1, fun _ h => Option.some.inj h ▸ b.2.2⟩
  | .newtype t =>
    match sampleB c t with
    | none => none
    | some b => some ⟨b.1, b.2⟩
  | .seq t =>
    match sampleB c t with
    | none => none
    | some b => some ⟨([b.1] : List t.base),
        ⟨(by decide : 1 < 2 ^ 64), fun w h => by rw [show w = b.1 from List.mem_singleton.mp h]; exact b.2.1⟩,
        fun w h => by rw [show w = b.1 from List.mem_singleton.mp h]; exact b.2.2⟩
  | .tuple ts =>
    match sampleBs c ts with
    | none => none
    | some b => some ⟨b.1, b.2⟩
  | .struct ts =>
    match sampleBs c ts with
    | none => none
    | some b => some ⟨b.1, b.2⟩
  | .versioned t =>
    match sampleB c t with
    | none => none
    | some b => some ⟨b.1, b.2⟩
  | .enum .nil => none
  | .enum (.cons _ t ts) =>
    match sampleB c t with
    | none => none
    | some b => some ⟨(.inl b.1 : t.base ⊕ ts.sum), b.2⟩
  | .polyvar .nil => none
  | .polyvar (.cons _ t ts) =>
    match sampleB c t with
    | none => none
    | some b => some ⟨(.inl b.1 : t.base ⊕ ts.sum), b.2⟩
def sampleBs (c : UInt8) : (ts : BTys) → Option {b : ts.prod // InMemoryAll ts b ∧ SmallAll ts b}
  | .nil => some ⟨(), trivial, trivial⟩
  | .cons _ t ts =>
    match sampleB c t, sampleBs c ts with
    | some a, some b => some ⟨((a.1, b.1) : t.base × ts.prod), ⟨a.2.1, b.2.1⟩, ⟨a.2.2, b.2.2⟩⟩
    | _, _ => none
end

set_option maxRecDepth 20000 in
theorem sampleB_isSome : (sampleB 65 block).isSome = true := by decide +kernel

/-- A block with something in every list and option. -/
def sampleBlock : {b : Blk // InMemory block b ∧ Small block b} := (sampleB 65 block).get sampleB_isSome

/-! ## A block whose keys are not field elements -/

mutual
/-- A key or signature outside lists and options. -/
def hasKey : BTy → Bool
  | .key => true
  | .sig => true
  | .newtype t => hasKey t
  | .tuple ts => hasKeys ts
  | .struct ts => hasKeys ts
  | .versioned t => hasKey t
  | _ => false
def hasKeys : BTys → Bool
  | .nil => false
  | .cons _ t ts => hasKey t || hasKeys ts
end

/-- 32 bytes that stand for the order of the base field. -/
def atOrder : arr32.denote := leArr 32 Hash.p

theorem atOrder_not : ¬ leNat (Json.arrBytes 32 atOrder) < Hash.p := by
  have h : leNat (Json.arrBytes 32 atOrder) = Hash.p := by
    unfold atOrder
    rw [arrBytes_leArr]
    exact leNat_leBytes_of_lt p_lt
  rw [h]
  exact Nat.lt_irrefl _

mutual
/-- A wire value with empty lists and options, whose keys have the order of the field as coordinate. -/
def badB : (t : BTy) → Option {v : t.wire.denote // Fits t.wire v ∧ (hasKey t = true → ¬ Canonical t v)}
  | .unit => some ⟨(), trivial, fun h => nomatch h⟩
  | .bool => some ⟨true, trivial, fun h => nomatch h⟩
  | .u8 => some ⟨(65 : UInt8), trivial, fun h => nomatch h⟩
  | .int k => some ⟨intSample k, fun _ => intSample_small k, fun h => nomatch h⟩
  | .ext32 => some ⟨writeExt 3, fun h => (nomatch h), fun h => nomatch h⟩
  | .bytes32 => some ⟨atOrder, fits_arr32 atOrder, fun h => nomatch h⟩
  | .bytes => some ⟨([] : List UInt8), ⟨(by decide : 0 < 2 ^ 64), fun _ _ => trivial⟩, fun h => nomatch h⟩
  | .key => some ⟨((atOrder, true, ()) : (u8s 32).prod × Bool × Unit), ⟨fits_arr32 atOrder, trivial, trivial⟩,
      fun _ h => atOrder_not h⟩
  | .sig => some ⟨((atOrder, atOrder, ()) : (u8s 32).prod × (u8s 32).prod × Unit),
      ⟨fits_arr32 atOrder, fits_arr32 atOrder, trivial⟩, fun _ h => atOrder_not h.1⟩
  | .option t => some ⟨(none : Option t.wire.denote), fun _ h => (nomatch h), fun h => nomatch h⟩
  | .newtype t =>
    match badB t with
    | none => none
    | some v => some ⟨(v.1 : t.wire.denote), v.2⟩
  | .seq t => some ⟨([] : List t.wire.denote), ⟨(by decide : 0 < 2 ^ 64), fun _ h => (nomatch h)⟩, fun h => nomatch h⟩
  | .tuple ts =>
    match badBs ts with
    | none => none
    | some v => some ⟨(v.1 : ts.wire.prod), v.2⟩
  | .struct ts =>
    match badBs ts with
    | none => none
    | some v => some ⟨(v.1 : ts.wire.prod), v.2⟩
  | .versioned t =>
    match badB t with
    | none => none
    | some v => some ⟨version1 v.1, (fits_versioned t.wire v.1).mpr v.2.1, v.2.2⟩
  | .enum .nil => none
  | .enum (.cons _ t ts) =>
    match badB t with
    | none => none
    | some v => some ⟨(.inl v.1 : t.wire.denote ⊕ ts.wire.sum), ⟨(by decide : (0 : Nat) < 256), v.2.1⟩, fun h => nomatch h⟩
  | .polyvar _ => none
def badBs : (ts : BTys) → Option {v : ts.wire.prod // FitsProd ts.wire v ∧ (hasKeys ts = true → ¬ CanonicalAll ts v)}
  | .nil => some ⟨(), trivial, fun h => nomatch h⟩
  | .cons _ t ts =>
    match badB t, badBs ts with
    | some a, some b => some ⟨((a.1, b.1) : t.wire.denote × ts.wire.prod), ⟨a.2.1, b.2.1⟩, fun h hc => by
        have h' : (hasKey t || hasKeys ts) = true := h
        rw [Bool.or_eq_true] at h'
        rcases h' with h' | h'
        · exact a.2.2 h' hc.1
        · exact b.2.2 h' hc.2⟩
    | _, _ => none
end

set_option maxRecDepth 20000 in
theorem badB_isSome : (badB block).isSome = true := by decide +kernel

set_option maxRecDepth 20000 in
theorem block_hasKey : hasKey block = true := by decide +kernel

/-- A block on the wire whose keys are not field elements. -/
def badBlock : {v : block.wire.denote // Fits block.wire v ∧ ¬ Canonical block v} :=
  let v := (badB block).get badB_isSome
  ⟨v.1, v.2.1, v.2.2 block_hasKey⟩

end MinaRs.Block
