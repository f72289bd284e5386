import Verif.Json.Norm
import Verif.Json.Sample

/-! Values with one part that has no text form, to show that the conditions on writing blocks are
needed. -/

namespace MinaRs.Json

mutual
theorem Leaves.mono {P Q : (c : Leaf) → c.wire.denote → Prop} (h : ∀ c v, P c v → Q c v) :
    (t : JTy) → (v : t.wire.denote) → Leaves P t v → Leaves Q t v
  | .leaf c, v, hp => h c v hp
  | .unit, _, _ => trivial
  | .bool, _, _ => trivial
  | .option t, _, hp => fun w hw => Leaves.mono h t w (hp w hw)
  | .newtype t, v, hp => Leaves.mono h t v hp
  | .seq t, _, hp => fun w hw => Leaves.mono h t w (hp w hw)
  | .tuple ts, v, hp => LeavesAll.mono h ts v hp
  | .struct ts, v, hp => LeavesAll.mono h ts v hp
  | .versioned t, v, hp => Leaves.mono h t _ hp
  | .listEnum _ _ vs, _, hp => LeavesVar.mono h vs _ hp
  | .tagEnum vs, v, hp => LeavesVar.mono h vs v hp
theorem LeavesAll.mono {P Q : (c : Leaf) → c.wire.denote → Prop} (h : ∀ c v, P c v → Q c v) :
    (ts : JTys) → (v : ts.wire.prod) → LeavesAll P ts v → LeavesAll Q ts v
  | .nil, _, _ => trivial
  | .cons _ t ts, _, hp => ⟨Leaves.mono h t _ hp.1, LeavesAll.mono h ts _ hp.2⟩
  | .skip _ _ ts, _, hp => LeavesAll.mono h ts _ hp
theorem LeavesVar.mono {P Q : (c : Leaf) → c.wire.denote → Prop} (h : ∀ c v, P c v → Q c v) :
    (vs : JVars) → (v : vs.wire.sum) → LeavesVar P vs v → LeavesVar Q vs v
  | .nil, v, _ => nomatch (show Empty from v)
  | .cons _ p vs, v, hp =>
    match (show p.wire.denote ⊕ vs.wire.sum from v), hp with
    | .inl w, hp => LeavesPay.mono h p w hp
    | .inr w, hp => LeavesVar.mono h vs w hp
theorem LeavesPay.mono {P Q : (c : Leaf) → c.wire.denote → Prop} (h : ∀ c v, P c v → Q c v) :
    (p : JPay) → (v : p.wire.denote) → LeavesPay P p v → LeavesPay Q p v
  | .unit, _, _ => trivial
  | .newtype t, v, hp => Leaves.mono h t v hp
  | .tuple ts, v, hp => LeavesAll.mono h ts v hp
  | .struct ts, v, hp => LeavesAll.mono h ts v hp
end

theorem Leaf.writable_of_carried : (c : Leaf) → (v : c.wire.denote) → c.Carried v → c.Writable v
  | .base58Bin _ _, _, _ => trivial
  | .base64Bin _, _, _ => trivial
  | .u32, _, h => h | .extU32, _, h => h | .u64, _, h => h | .decimal, _, h => h | .i64, _, h => h
  | .char, _, h => h | .byteVec, _, h => h | .field, _, h => h | .base58Bytes _, _, h => h | .memo, _, h => h
  | .base64Bytes, _, h => h | .vrfBase58, _, h => h | .publicKey, _, h => h

/-- All leaves but those of a chosen kind have a text form. -/
def OthersWritable (pick : Leaf → Bool) (c : Leaf) (v : c.wire.denote) : Prop := pick c = false → c.Writable v

theorem others_of_carried {pick : Leaf → Bool} (c : Leaf) (v : c.wire.denote) (h : c.Carried v) :
    OthersWritable pick c v := fun _ => c.writable_of_carried v h

/-- A leaf of a chosen kind with a value that has no text form. -/
def leafBad (pick : Leaf → Bool) : (c : Leaf) → Option {v : c.wire.denote // ¬ c.Writable v ∧ OthersWritable pick c v}
  | .char =>
    if h : pick .char = true then
      some ⟨(200 : UInt8), (by decide : ¬ (200 : UInt8).toNat < 128), fun h' => by rw [h] at h'; cases h'⟩
    else none
  | .byteVec =>
    if h : pick .byteVec = true then
      some ⟨([255] : Bytes), fun h => (by decide : ¬ (255 : UInt8).toNat < 128) (utf8_singleton_ascii.mp h),
        fun h' => by rw [h] at h'; cases h'⟩
    else none
  | .publicKey =>
    match bytesArr 32 (List.replicate 32 255) with
    | some v =>
      if h : pick .publicKey = true ∧ ¬ leNat (arrBytes 32 v) < Hash.p then
        some ⟨((v, true, ()) : arr32.denote × Bool × Unit), h.2, fun h' => by rw [h.1] at h'; cases h'⟩ else none
    | none => none
  | _ => none

mutual
/-- A value that cannot be written, because of a leaf of a chosen kind. -/
def bad (pick : Leaf → Bool) : (t : JTy) → Option {v : t.wire.denote // ¬ Leaves Leaf.Writable t v ∧ Leaves (OthersWritable pick) t v}
  | .leaf c =>
    match leafBad pick c with
    | some v => some ⟨v.1, v.2⟩
    | none => none
  | .option t =>
    match bad pick t with
    | some v => some ⟨(some v.1 : Option t.wire.denote), fun h => v.2.1 (h v.1 rfl), fun _ h => Option.some.inj h ▸ v.2.2⟩
    | none => none
  | .newtype t =>
    match bad pick t with
    | some v => some ⟨(v.1 : t.wire.denote), v.2⟩
    | none => none
  | .seq t =>
    match bad pick t with
    | some v => some ⟨([v.1] : List t.wire.denote), fun h => v.2.1 (h v.1 (List.mem_singleton.mpr rfl)),
        fun w h => by
          have h' : w = v.1 := List.mem_singleton.mp h
          rw [h']; exact v.2.2⟩
    | none => none
  | .tuple ts =>
    match bads pick ts with
    | some v => some ⟨(v.1 : ts.wire.prod), v.2⟩
    | none => none
  | .struct ts =>
    match bads pick ts with
    | some v => some ⟨(v.1 : ts.wire.prod), v.2⟩
    | none => none
  | .versioned t =>
    match bad pick t with
    | some v => some ⟨version1 v.1, v.2⟩
    | none => none
  | .listEnum poly expand vs =>
    match badVar pick vs with
    | some v => some ⟨cast (denote_listEnum poly expand vs).symm v.1, by cases poly <;> exact v.2⟩
    | none => none
  | .tagEnum vs =>
    match badVar pick vs with
    | some v => some ⟨(v.1 : vs.wire.sum), v.2⟩
    | none => none
  | _ => none
def bads (pick : Leaf → Bool) : (ts : JTys) → Option {v : ts.wire.prod // ¬ LeavesAll Leaf.Writable ts v ∧ LeavesAll (OthersWritable pick) ts v}
  | .nil => none
  | .cons _ t ts =>
    match bad pick t, samples 7 ts with
    | some v, some w => some ⟨((v.1, w.1) : t.wire.denote × ts.wire.prod), fun h => v.2.1 h.1,
        v.2.2, LeavesAll.mono others_of_carried ts _ w.2⟩
    | _, _ =>
      match sample 7 t, bads pick ts with
      | some v, some w => some ⟨((v.1, w.1) : t.wire.denote × ts.wire.prod), fun h => w.2.1 h.2,
          Leaves.mono others_of_carried t _ v.2, w.2.2⟩
      | _, _ => none
  | .skip _ s ts =>
    match bads pick ts with
    | some w => some ⟨((s.default, w.1) : s.wire.denote × ts.wire.prod), w.2⟩
    | none => none
def badVar (pick : Leaf → Bool) : (vs : JVars) → Option {v : vs.wire.sum // ¬ LeavesVar Leaf.Writable vs v ∧ LeavesVar (OthersWritable pick) vs v}
  | .nil => none
  | .cons _ p vs =>
    match badPay pick p with
    | some v => some ⟨(.inl v.1 : p.wire.denote ⊕ vs.wire.sum), v.2⟩
    | none =>
      match badVar pick vs with
      | some v => some ⟨(.inr v.1 : p.wire.denote ⊕ vs.wire.sum), v.2⟩
      | none => none
def badPay (pick : Leaf → Bool) : (p : JPay) → Option {v : p.wire.denote // ¬ LeavesPay Leaf.Writable p v ∧ LeavesPay (OthersWritable pick) p v}
  | .unit => none
  | .newtype t =>
    match bad pick t with
    | some v => some ⟨(v.1 : t.wire.denote), v.2⟩
    | none => none
  | .tuple ts =>
    match bads pick ts with
    | some v => some ⟨(v.1 : ts.wire.prod), v.2⟩
    | none => none
  | .struct ts =>
    match bads pick ts with
    | some v => some ⟨(v.1 : ts.wire.prod), v.2⟩
    | none => none
end

end MinaRs.Json
