import Verif.Json.LeafLemmas

/-! Values of described types, with the proof that they can be carried.  They show that the conditions
of the theorems about blocks are met by blocks with at least one item in every list and every optional
part present. -/

namespace MinaRs.Json

open BinProt (Ty Tys Fits FitsProd FitsSum)

mutual
/-- A value the wire format carries, if the type has an easily found one; all its bytes are `byte`. -/
def tySample (byte : UInt8) : (t : Ty) → Option {v : t.denote // Fits t v}
  | .unit => some ⟨(), trivial⟩
  | .bool => some ⟨true, trivial⟩
  | .u8 => some ⟨byte, trivial⟩
  | .int k =>
    if h : k.range.holds 7 then some ⟨(⟨7, h⟩ : {n : Int // k.range.holds n}), fun _ => (by decide : (7 : Int) < 2 ^ 63)⟩
    else none
  | .option t =>
    match tySample byte t with
    | none => none
    | some v => some ⟨(some v.1 : Option t.denote), fun _ h => Option.some.inj h ▸ v.2⟩
  | .newtype t =>
    match tySample byte t with
    | none => none
    | some v => some ⟨(v.1 : t.denote), v.2⟩
  | .seq t =>
    match tySample byte t with
    | none => none
    | some v => some ⟨([v.1] : List t.denote), (by decide : (1 : Nat) < 2 ^ 64), fun w h => by
        have h' : w = v.1 := List.mem_singleton.mp h
        rw [h']; exact v.2⟩
  | .tuple ts =>
    match tysSample byte ts with
    | none => none
    | some v => some ⟨(v.1 : ts.prod), v.2⟩
  | .struct ts =>
    match tysSample byte ts with
    | none => none
    | some v => some ⟨(v.1 : ts.prod), v.2⟩
  | .enum (.cons _ t ts) =>
    match tySample byte t with
    | none => none
    | some v => some ⟨(.inl v.1 : t.denote ⊕ ts.sum), (by decide : (0 : Nat) < 256), v.2⟩
  | _ => none
def tysSample (byte : UInt8) : (ts : Tys) → Option {v : ts.prod // FitsProd ts v}
  | .nil => some ⟨(), trivial⟩
  | .cons _ t ts =>
    match tySample byte t, tysSample byte ts with
    | some v, some w => some ⟨((v.1, w.1) : t.denote × ts.prod), v.2, w.2⟩
    | _, _ => none
end

theorem isUtf8_abc : IsUtf8 [97, 98, 99] := ⟨"abc", by decide +kernel⟩

/-- A leaf that can be carried. -/
def leafSample (byte : UInt8) : (c : Leaf) → Option {v : c.wire.denote // c.Carried v}
  | .u32 => some ⟨(⟨42, by decide⟩ : {n : Int // BinProt.u32.holds n}), trivial⟩
  | .extU32 => some ⟨(⟨-1, by decide⟩ : {n : Int // BinProt.IntKind.i32.range.holds n}), trivial⟩
  | .u64 => some ⟨(⟨2 ^ 64 - 1, by decide⟩ : {n : Int // BinProt.IntKind.u64.range.holds n}), trivial⟩
  | .decimal => some ⟨(⟨1500000001, by decide⟩ : {n : Int // BinProt.IntKind.u64.range.holds n}), trivial⟩
  | .i64 => some ⟨(⟨-5, by decide⟩ : {n : Int // BinProt.IntKind.i64.range.holds n}), trivial⟩
  | .char => some ⟨(65 : UInt8), (by decide : (65 : UInt8).toNat < 128)⟩
  | .byteVec => some ⟨([97, 98, 99] : Bytes), isUtf8_abc⟩
  | .field =>
    match bytesArr 32 (List.replicate 32 9) with
    | some v => some ⟨v, trivial⟩
    | none => none
  | .base58Bin _ t => tySample byte t
  | .base58Bytes _ => some ⟨([0, 1, 2] : Bytes), trivial⟩
  | .memo => some ⟨([1, 3, 104, 105, 33] : Bytes), trivial⟩
  | .base64Bytes => some ⟨([255, 1] : Bytes), trivial⟩
  | .vrfBase58 => some ⟨([255, 1] : Bytes), trivial⟩
  | .base64Bin t => tySample byte t
  | .publicKey =>
    match bytesArr 32 (List.replicate 32 9) with
    | some v =>
      if h : leNat (arrBytes 32 v) < Hash.p then some ⟨((v, true, ()) : arr32.denote × Bool × Unit), h⟩ else none
    | none => none

mutual
/-- A value that can be carried. -/
def sample (byte : UInt8) : (t : JTy) → Option {v : t.wire.denote // Leaves Leaf.Carried t v}
  | .leaf c =>
    match leafSample byte c with
    | some v => some ⟨v.1, v.2⟩
    | none => none
  | .unit => some ⟨(), trivial⟩
  | .bool => some ⟨true, trivial⟩
  | .option t =>
    match sample byte t with
    | none => none
    | some v => some ⟨(some v.1 : Option t.wire.denote), fun _ h => Option.some.inj h ▸ v.2⟩
  | .newtype t =>
    match sample byte t with
    | none => none
    | some v => some ⟨(v.1 : t.wire.denote), v.2⟩
  | .seq t =>
    match sample byte t with
    | none => none
    | some v => some ⟨([v.1] : List t.wire.denote), fun w h => by
        have h' : w = v.1 := List.mem_singleton.mp h
        rw [h']; exact v.2⟩
  | .tuple ts =>
    match samples byte ts with
    | none => none
    | some v => some ⟨(v.1 : ts.wire.prod), v.2⟩
  | .struct ts =>
    match samples byte ts with
    | none => none
    | some v => some ⟨(v.1 : ts.wire.prod), v.2⟩
  | .versioned t =>
    match sample byte t with
    | none => none
    | some v => some ⟨version1 v.1, v.2⟩
  | .listEnum poly expand vs =>
    match sampleVar byte vs with
    | none => none
    | some v => some ⟨cast (denote_listEnum poly expand vs).symm v.1, by
        cases poly <;> exact v.2⟩
  | .tagEnum vs =>
    match sampleVar byte vs with
    | none => none
    | some v => some ⟨(v.1 : vs.wire.sum), v.2⟩
def samples (byte : UInt8) : (ts : JTys) → Option {v : ts.wire.prod // LeavesAll Leaf.Carried ts v}
  | .nil => some ⟨(), trivial⟩
  | .cons _ t ts =>
    match sample byte t, samples byte ts with
    | some v, some w => some ⟨((v.1, w.1) : t.wire.denote × ts.wire.prod), v.2, w.2⟩
    | _, _ => none
  | .skip _ s ts =>
    match samples byte ts with
    | some w => some ⟨((s.default, w.1) : s.wire.denote × ts.wire.prod), w.2⟩
    | none => none
/-- The first variant that has a value. -/
def sampleVar (byte : UInt8) : (vs : JVars) → Option {v : vs.wire.sum // LeavesVar Leaf.Carried vs v}
  | .nil => none
  | .cons _ p vs =>
    match samplePay byte p with
    | some v => some ⟨(.inl v.1 : p.wire.denote ⊕ vs.wire.sum), v.2⟩
    | none => none
def samplePay (byte : UInt8) : (p : JPay) → Option {v : p.wire.denote // LeavesPay Leaf.Carried p v}
  | .unit => some ⟨(), trivial⟩
  | .newtype t =>
    match sample byte t with
    | none => none
    | some v => some ⟨(v.1 : t.wire.denote), v.2⟩
  | .tuple ts =>
    match samples byte ts with
    | none => none
    | some v => some ⟨(v.1 : ts.wire.prod), v.2⟩
  | .struct ts =>
    match samples byte ts with
    | none => none
    | some v => some ⟨(v.1 : ts.wire.prod), v.2⟩
end

end MinaRs.Json
