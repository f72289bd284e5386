import Verif.Block.JsonModel
import Verif.Block.Props

/-! Lemmas that connect the two descriptions of a block through their common wire type. -/

namespace MinaRs.Block

open BinProt (Ty Tys IntKind Fits FitsProd FitsSum)
open Json (JTy JTys JVars JPay Leaf Leaves LeavesAll LeavesVar LeavesPay norm normAll normVar normPay arr32 u8s versionedTy version1
  denote_listEnum)
open Spec

/-! ## Version numbers -/

mutual
/-- Nothing but `()` is skipped, and no field is called `version`. -/
def Plain : JTy → Bool
  | .option t => Plain t
  | .newtype t => Plain t
  | .seq t => Plain t
  | .tuple ts => PlainAll ts
  | .struct ts => PlainAll ts
  | .versioned t => Plain t
  | .listEnum _ _ vs => PlainVar vs
  | .tagEnum vs => PlainVar vs
  | _ => true
def PlainAll : JTys → Bool
  | .nil => true
  | .cons n t ts => decide (n ≠ "version") && Plain t && PlainAll ts
  | .skip n s ts => decide (n ≠ "version") && decide (s = .unit) && PlainAll ts
def PlainVar : JVars → Bool
  | .nil => true
  | .cons _ p vs => PlainPay p && PlainVar vs
def PlainPay : JPay → Bool
  | .unit => true
  | .newtype t => Plain t
  | .tuple ts => PlainAll ts
  | .struct ts => PlainAll ts
end

theorem map_fixed {α : Type} {f g : α → α} (h : ∀ a, f a = a → g a = a) : ∀ l : List α, l.map f = l → l.map g = l
  | [], _ => rfl
  | a :: l, e => by
    rw [List.map_cons] at e
    injection e with e1 e2
    rw [List.map_cons, h a e1, map_fixed h l e2]

mutual
/-- Where every version number is 1, leaving version numbers and units out loses nothing. -/
theorem norm_fixed : (t : JTy) → Plain t = true → (v : t.wire.denote) → setVersions t.wire v = v → norm t v = v
  | .leaf _, _, _, _ => rfl
  | .unit, _, _, _ => rfl
  | .bool, _, _, _ => rfl
  | .option t, hp, v, h => by
    obtain _ | w : Option t.wire.denote := v
    · rfl
    · have h' : (some (setVersions t.wire w) : Option t.wire.denote) = some w := h
      show (some (norm t w) : Option t.wire.denote) = some w
      rw [norm_fixed t hp w (Option.some.inj h')]
  | .newtype t, hp, v, h => norm_fixed t hp v h
  | .seq t, hp, v, h => map_fixed (fun a e => norm_fixed t hp a e) (show List t.wire.denote from v) h
  | .tuple ts, hp, v, h => normAll_fixed ts hp v h
  | .struct ts, hp, v, h => normAll_fixed ts hp v h
  | .versioned t, hp, v, h => by
    obtain ⟨n, w, u⟩ : {n : Int // BinProt.u16.holds n} × t.wire.denote × Unit := v
    have h' : ((⟨1, by decide⟩, setVersions t.wire w, ()) : {n : Int // BinProt.u16.holds n} × t.wire.denote × Unit) = (n, w, u) :=
      (setVersions_versioned t.wire ((n, w, u) : {n : Int // BinProt.u16.holds n} × t.wire.denote × Unit)).symm.trans h
    injection h' with h1 h2
    injection h2 with h2 h3
    show ((⟨1, by decide⟩, norm t w, ()) : {n : Int // BinProt.u16.holds n} × t.wire.denote × Unit) = (n, w, u)
    rw [norm_fixed t hp w h2, h1]
  | .listEnum true _ vs, hp, v, h => normVar_fixed vs hp v h
  | .listEnum false _ vs, hp, v, h => normVar_fixed vs hp v h
  | .tagEnum vs, hp, v, h => normVar_fixed vs hp v h
theorem normAll_fixed : (ts : JTys) → PlainAll ts = true → (v : ts.wire.prod) → setVersionsAll ts.wire v = v → normAll ts v = v
  | .nil, _, _, _ => rfl
  | .cons n t ts, hp, v, h => by
    simp only [PlainAll, Bool.and_eq_true, decide_eq_true_eq] at hp
    obtain ⟨a, b⟩ : t.wire.denote × ts.wire.prod := v
    have h' := (setVersionsAll_cons n t.wire ts.wire a b hp.1.1).symm.trans h
    injection h' with h1 h2
    show ((norm t a, normAll ts b) : t.wire.denote × ts.wire.prod) = (a, b)
    rw [norm_fixed t hp.1.2 a h1, normAll_fixed ts hp.2 b h2]
  | .skip n s ts, hp, v, h => by
    simp only [PlainAll, Bool.and_eq_true, decide_eq_true_eq] at hp
    obtain ⟨a, b⟩ : s.wire.denote × ts.wire.prod := v
    have h' := (setVersionsAll_cons n s.wire ts.wire a b hp.1.1).symm.trans h
    injection h' with h1 h2
    show ((s.default, normAll ts b) : s.wire.denote × ts.wire.prod) = (a, b)
    rw [normAll_fixed ts hp.2 b h2]
    obtain rfl := hp.1.2
    rfl
theorem normVar_fixed : (vs : JVars) → PlainVar vs = true → (v : vs.wire.sum) → setVersionsVar vs.wire v = v → normVar vs v = v
  | .nil, _, _, _ => rfl
  | .cons _ p vs, hp, v, h => by
    simp only [PlainVar, Bool.and_eq_true] at hp
    obtain w | w : p.wire.denote ⊕ vs.wire.sum := v
    · have h' : (.inl (setVersions p.wire w) : p.wire.denote ⊕ vs.wire.sum) = .inl w := h
      show (.inl (normPay p w) : p.wire.denote ⊕ vs.wire.sum) = .inl w
      rw [normPay_fixed p hp.1 w (Sum.inl.inj h')]
    · have h' : (.inr (setVersionsVar vs.wire w) : p.wire.denote ⊕ vs.wire.sum) = .inr w := h
      show (.inr (normVar vs w) : p.wire.denote ⊕ vs.wire.sum) = .inr w
      rw [normVar_fixed vs hp.2 w (Sum.inr.inj h')]
theorem normPay_fixed : (p : JPay) → PlainPay p = true → (v : p.wire.denote) → setVersions p.wire v = v → normPay p v = v
  | .unit, _, _, _ => rfl
  | .newtype t, hp, v, h => norm_fixed t hp v h
  | .tuple ts, hp, v, h => normAll_fixed ts hp v h
  | .struct ts, hp, v, h => normAll_fixed ts hp v h
end

theorem setVersions_toWire (t : BTy) (ho : Ordinary t = true) (b : t.base) : setVersions t.wire (toWire t b) = toWire t b :=
  (to_from t ho _ b (from_to t b)).symm

/-- The wire form of a value of the node is what remains of it in JSON. -/
theorem norm_toWire (t : BTy) (ho : Ordinary t = true) (j : JTy) (hp : Plain j = true) (e : t.wire = j.wire) (b : t.base) :
    norm j (cast (congrArg Ty.denote e) (toWire t b)) = cast (congrArg Ty.denote e) (toWire t b) := by
  have : ∀ (w : Ty) (e : w = j.wire) (v : w.denote), setVersions w v = v →
      norm j (cast (congrArg Ty.denote e) v) = cast (congrArg Ty.denote e) v := by
    intro w e v h
    subst e
    exact norm_fixed j hp v h
  exact this _ e _ (setVersions_toWire t ho b)

/-! ## Keys -/

mutual
/-- The bytes of a value made of bytes. -/
def bytesOf : (t : Ty) → t.denote → Bytes
  | .u8, v => [(v : UInt8)]
  | .tuple ts, v => bytesOfAll ts v
  | _, _ => []
def bytesOfAll : (ts : Tys) → ts.prod → Bytes
  | .nil, _ => []
  | .cons _ t ts, v => bytesOf t (show t.denote × ts.prod from v).1 ++ bytesOfAll ts (show t.denote × ts.prod from v).2
end

theorem bytesOf_u8s : (n : Nat) → (v : (u8s n).prod) → bytesOfAll (u8s n) v = Json.arrBytes n v
  | 0, _ => rfl
  | n + 1, v => by
    obtain ⟨a, b⟩ : UInt8 × (u8s n).prod := v
    show [a] ++ bytesOfAll (u8s n) b = a :: Json.arrBytes n b
    rw [bytesOf_u8s n b]
    rfl

theorem bytesOf_arr (n : Nat) (v : (u8s n).prod) : bytesOf (.tuple (u8s n)) v = Json.arrBytes n v := bytesOf_u8s n v

mutual
/-- Every field called `x` is a field element. -/
def KeysOk : (t : Ty) → t.denote → Prop
  | .option t, v => ∀ w, (show Option t.denote from v) = some w → KeysOk t w
  | .newtype t, v => KeysOk t v
  | .seq t, v => ∀ w ∈ (show List t.denote from v), KeysOk t w
  | .tuple ts, v => KeysOkAll ts v
  | .struct ts, v => KeysOkAll ts v
  | .enum vs, v => KeysOkVar vs v
  | .polyvar vs, v => KeysOkVar vs v
  | _, _ => True
def KeysOkAll : (ts : Tys) → ts.prod → Prop
  | .nil, _ => True
  | .cons n t ts, v => ((n = "x" → leNat (bytesOf t (show t.denote × ts.prod from v).1) < Hash.p) ∧
      KeysOk t (show t.denote × ts.prod from v).1) ∧ KeysOkAll ts (show t.denote × ts.prod from v).2
def KeysOkVar : (vs : Tys) → vs.sum → Prop
  | .nil, _ => True
  | .cons _ t ts, v =>
    match (show t.denote ⊕ ts.sum from v) with
    | .inl w => KeysOk t w
    | .inr w => KeysOkVar ts w
end

theorem keysOk_u8s : (n : Nat) → (v : (u8s n).prod) → KeysOkAll (u8s n) v
  | 0, _ => trivial
  | n + 1, v => ⟨⟨fun h => absurd h (by decide), trivial⟩, keysOk_u8s n _⟩

theorem keysOk_arr (n : Nat) (v : (u8s n).prod) : KeysOk (.tuple (u8s n)) v := keysOk_u8s n v

mutual
/-- No field but the coordinate of a key is called `x`. -/
def NoX : BTy → Bool
  | .option t => NoX t
  | .newtype t => NoX t
  | .seq t => NoX t
  | .tuple ts => NoXAll ts
  | .struct ts => NoXAll ts
  | .versioned t => NoX t
  | .enum vs => NoXVar vs
  | .polyvar vs => NoXVar vs
  | _ => true
def NoXAll : BTys → Bool
  | .nil => true
  | .cons n t ts => decide (n ≠ "x") && NoX t && NoXAll ts
def NoXVar : BTys → Bool
  | .nil => true
  | .cons _ t ts => NoX t && NoXVar ts
end

theorem keysOk_key (k : Key) : KeysOk keyTy (writeKey k) := by
  refine ⟨⟨fun _ => ?_, keysOk_arr 32 _⟩, ⟨fun h => absurd h (by decide), trivial⟩, trivial⟩
  have e : bytesOf arr32 (leArr 32 k.x.val) = Json.arrBytes 32 (leArr 32 k.x.val) := bytesOf_arr 32 _
  show leNat (bytesOf arr32 (leArr 32 k.x.val)) < Hash.p
  rw [e, arrBytes_leArr, leNat_leBytes_of_lt (Nat.lt_trans k.x.isLt p_lt)]
  exact k.x.isLt

mutual
theorem keysOk_toWire : (t : BTy) → NoX t = true → (b : t.base) → KeysOk t.wire (toWire t b)
  | .unit, _, _ => trivial
  | .bool, _, _ => trivial
  | .u8, _, _ => trivial
  | .int _, _, _ => trivial
  | .ext32, _, _ => trivial
  | .bytes32, _, b => keysOk_arr 32 b
  | .bytes, _, _ => fun _ _ => trivial
  | .key, _, b => keysOk_key b
  | .sig, _, b => ⟨⟨fun h => absurd h (by decide), keysOk_arr 32 _⟩, ⟨fun h => absurd h (by decide), keysOk_arr 32 _⟩, trivial⟩
  | .option t, hx, b => by
    obtain _ | b : Option t.base := b
    · exact fun w h => (nomatch h)
    · intro w h
      have h' : some (toWire t b) = some w := h
      rw [← Option.some.inj h']
      exact keysOk_toWire t hx b
  | .newtype t, hx, b => keysOk_toWire t hx b
  | .seq t, hx, b => by
    intro w h
    have h' : w ∈ (show List t.base from b).map (toWire t) := h
    obtain ⟨a, -, rfl⟩ := List.mem_map.mp h'
    exact keysOk_toWire t hx a
  | .tuple ts, hx, b => keysOkAll_toWire ts hx b
  | .struct ts, hx, b => keysOkAll_toWire ts hx b
  | .versioned t, hx, b => ⟨⟨fun h => absurd h (by decide), trivial⟩, ⟨fun h => absurd h (by decide), keysOk_toWire t hx b⟩, trivial⟩
  | .enum vs, hx, b => keysOkVar_toWire vs hx b
  | .polyvar vs, hx, b => keysOkVar_toWire vs hx b
theorem keysOkAll_toWire : (ts : BTys) → NoXAll ts = true → (b : ts.prod) → KeysOkAll ts.wire (toWireAll ts b)
  | .nil, _, _ => trivial
  | .cons n t ts, hx, b => by
    simp only [NoXAll, Bool.and_eq_true, decide_eq_true_eq] at hx
    exact ⟨⟨fun h => absurd h hx.1.1, keysOk_toWire t hx.1.2 _⟩, keysOkAll_toWire ts hx.2 _⟩
theorem keysOkVar_toWire : (vs : BTys) → NoXVar vs = true → (b : vs.sum) → KeysOkVar vs.wire (toWireVar vs b)
  | .nil, _, b => nomatch (show Empty from b)
  | .cons _ t ts, hx, b => by
    simp only [NoXVar, Bool.and_eq_true] at hx
    obtain w | w : t.base ⊕ ts.sum := b
    · exact keysOk_toWire t hx.1 w
    · exact keysOkVar_toWire ts hx.2 w
end

/-- The coordinate of a key is a field element. -/
def KeyLeaf : (c : Leaf) → c.wire.denote → Prop
  | .publicKey, v => leNat (Json.arrBytes 32 (show arr32.denote × Bool × Unit from v).1) < Hash.p
  | _, _ => True

theorem keyLeaf_of (c : Leaf) (v : c.wire.denote) (h : KeysOk c.wire v) : KeyLeaf c v := by
  cases c with
  | publicKey =>
    have h1 := h.1.1 rfl
    have e : ∀ x : arr32.denote, bytesOf arr32 x = Json.arrBytes 32 x := bytesOf_arr 32
    rw [e] at h1
    exact h1
  | _ => trivial

mutual
theorem keyLeaves : (t : JTy) → (v : t.wire.denote) → KeysOk t.wire v → Leaves KeyLeaf t v
  | .leaf c, v, h => keyLeaf_of c v h
  | .unit, _, _ => trivial
  | .bool, _, _ => trivial
  | .option t, _, h => fun w hw => keyLeaves t w (h w hw)
  | .newtype t, v, h => keyLeaves t v h
  | .seq t, _, h => fun w hw => keyLeaves t w (h w hw)
  | .tuple ts, v, h => keyLeavesAll ts v h
  | .struct ts, v, h => keyLeavesAll ts v h
  | .versioned t, _, h => keyLeaves t _ h.2.1.2
  | .listEnum true _ vs, v, h => keyLeavesVar vs v h
  | .listEnum false _ vs, v, h => keyLeavesVar vs v h
  | .tagEnum vs, v, h => keyLeavesVar vs v h
theorem keyLeavesAll : (ts : JTys) → (v : ts.wire.prod) → KeysOkAll ts.wire v → LeavesAll KeyLeaf ts v
  | .nil, _, _ => trivial
  | .cons _ t ts, _, h => ⟨keyLeaves t _ h.1.2, keyLeavesAll ts _ h.2⟩
  | .skip _ _ ts, _, h => keyLeavesAll ts _ h.2
theorem keyLeavesVar : (vs : JVars) → (v : vs.wire.sum) → KeysOkVar vs.wire v → LeavesVar KeyLeaf vs v
  | .nil, v, _ => nomatch (show Empty from v)
  | .cons _ p vs, v, h => by
    obtain w | w : p.wire.denote ⊕ vs.wire.sum := v
    · exact keyLeavesPay p w h
    · exact keyLeavesVar vs w h
theorem keyLeavesPay : (p : JPay) → (v : p.wire.denote) → KeysOk p.wire v → LeavesPay KeyLeaf p v
  | .unit, _, _ => trivial
  | .newtype t, v, h => keyLeaves t v h
  | .tuple ts, v, h => keyLeavesAll ts v h
  | .struct ts, v, h => keyLeavesAll ts v h
end

theorem keyLeaves_toWire (t : BTy) (hx : NoX t = true) (j : JTy) (e : t.wire = j.wire) (b : t.base) :
    Leaves KeyLeaf j (cast (congrArg Ty.denote e) (toWire t b)) := by
  have : ∀ (w : Ty) (e : w = j.wire) (v : w.denote), KeysOk w v → Leaves KeyLeaf j (cast (congrArg Ty.denote e) v) := by
    intro w e v h
    subst e
    exact keyLeaves j v h
  exact this _ e _ (keysOk_toWire t hx b)

/-! ## Conditions on leaves and version numbers -/

mutual
/-- No field is called `version`. -/
def NoVersion : JTy → Bool
  | .option t => NoVersion t
  | .newtype t => NoVersion t
  | .seq t => NoVersion t
  | .tuple ts => NoVersionAll ts
  | .struct ts => NoVersionAll ts
  | .versioned t => NoVersion t
  | .listEnum _ _ vs => NoVersionVar vs
  | .tagEnum vs => NoVersionVar vs
  | _ => true
def NoVersionAll : JTys → Bool
  | .nil => true
  | .cons n t ts => decide (n ≠ "version") && NoVersion t && NoVersionAll ts
  | .skip n _ ts => decide (n ≠ "version") && NoVersionAll ts
def NoVersionVar : JVars → Bool
  | .nil => true
  | .cons _ p vs => NoVersionPay p && NoVersionVar vs
def NoVersionPay : JPay → Bool
  | .unit => true
  | .newtype t => NoVersion t
  | .tuple ts => NoVersionAll ts
  | .struct ts => NoVersionAll ts
end

mutual
/-- Setting version numbers does not touch conditions on leaves without version numbers. -/
theorem leaves_setVersions {P : (c : Leaf) → c.wire.denote → Prop} (h : ∀ c v, P c v → P c (setVersions c.wire v)) :
    (t : JTy) → NoVersion t = true → (v : t.wire.denote) → Leaves P t v → Leaves P t (setVersions t.wire v)
  | .leaf c, _, v, hl => h c v hl
  | .unit, _, _, _ => trivial
  | .bool, _, _, _ => trivial
  | .option t, hp, v, hl => by
    obtain _ | w : Option t.wire.denote := v
    · exact fun w hw => (nomatch hw)
    · intro w' hw
      have hw' : (some (setVersions t.wire w) : Option t.wire.denote) = some w' := hw
      rw [← Option.some.inj hw']
      exact leaves_setVersions h t hp w (hl w rfl)
  | .newtype t, hp, v, hl => leaves_setVersions h t hp v hl
  | .seq t, hp, v, hl => by
    intro w hw
    have hw' : w ∈ (show List t.wire.denote from v).map (setVersions t.wire) := hw
    obtain ⟨a, ha, rfl⟩ := List.mem_map.mp hw'
    exact leaves_setVersions h t hp a (hl a ha)
  | .tuple ts, hp, v, hl => leavesAll_setVersions h ts hp v hl
  | .struct ts, hp, v, hl => leavesAll_setVersions h ts hp v hl
  | .versioned t, hp, v, hl => by
    obtain ⟨n, w, u⟩ : {n : Int // BinProt.u16.holds n} × t.wire.denote × Unit := v
    exact leaves_setVersions h t hp w hl
  | .listEnum true _ vs, hp, v, hl => leavesVar_setVersions h vs hp v hl
  | .listEnum false _ vs, hp, v, hl => leavesVar_setVersions h vs hp v hl
  | .tagEnum vs, hp, v, hl => leavesVar_setVersions h vs hp v hl
theorem leavesAll_setVersions {P : (c : Leaf) → c.wire.denote → Prop} (h : ∀ c v, P c v → P c (setVersions c.wire v)) :
    (ts : JTys) → NoVersionAll ts = true → (v : ts.wire.prod) → LeavesAll P ts v → LeavesAll P ts (setVersionsAll ts.wire v)
  | .nil, _, _, _ => trivial
  | .cons n t ts, hp, v, hl => by
    simp only [NoVersionAll, Bool.and_eq_true, decide_eq_true_eq] at hp
    obtain ⟨a, b⟩ : t.wire.denote × ts.wire.prod := v
    refine (congrArg (LeavesAll P (.cons n t ts)) (setVersionsAll_cons n t.wire ts.wire a b hp.1.1)).mpr ?_
    exact ⟨leaves_setVersions h t hp.1.2 a hl.1, leavesAll_setVersions h ts hp.2 b hl.2⟩
  | .skip n s ts, hp, v, hl => by
    simp only [NoVersionAll, Bool.and_eq_true, decide_eq_true_eq] at hp
    obtain ⟨a, b⟩ : s.wire.denote × ts.wire.prod := v
    refine (congrArg (LeavesAll P (.skip n s ts)) (setVersionsAll_cons n s.wire ts.wire a b hp.1)).mpr ?_
    exact leavesAll_setVersions h ts hp.2 b hl
theorem leavesVar_setVersions {P : (c : Leaf) → c.wire.denote → Prop} (h : ∀ c v, P c v → P c (setVersions c.wire v)) :
    (vs : JVars) → NoVersionVar vs = true → (v : vs.wire.sum) → LeavesVar P vs v → LeavesVar P vs (setVersionsVar vs.wire v)
  | .nil, _, v, _ => nomatch (show Empty from v)
  | .cons _ p vs, hp, v, hl => by
    simp only [NoVersionVar, Bool.and_eq_true] at hp
    obtain w | w : p.wire.denote ⊕ vs.wire.sum := v
    · exact leavesPay_setVersions h p hp.1 w hl
    · exact leavesVar_setVersions h vs hp.2 w hl
theorem leavesPay_setVersions {P : (c : Leaf) → c.wire.denote → Prop} (h : ∀ c v, P c v → P c (setVersions c.wire v)) :
    (p : JPay) → NoVersionPay p = true → (v : p.wire.denote) → LeavesPay P p v → LeavesPay P p (setVersions p.wire v)
  | .unit, _, _, _ => trivial
  | .newtype t, hp, v, hl => leaves_setVersions h t hp v hl
  | .tuple ts, hp, v, hl => leavesAll_setVersions h ts hp v hl
  | .struct ts, hp, v, hl => leavesAll_setVersions h ts hp v hl
end

theorem fromWireAll_cons {n : String} {t : BTy} {ts : BTys} {a : t.wire.denote} {c : ts.wire.prod} {r : (BTys.cons n t ts).prod}
    (h : fromWireAll (.cons n t ts) ((a, c) : t.wire.denote × ts.wire.prod) = .ok r) :
    ∃ x y, r = ((x, y) : t.base × ts.prod) ∧ fromWire t a = .ok x ∧ fromWireAll ts c = .ok y := by
  have h' : (match fromWire t a with
    | .error e => Except.error e
    | .ok a =>
      match fromWireAll ts c with
      | .error e => .error e
      | .ok b => .ok ((a, b) : t.base × ts.prod)) = .ok r := h
  split at h'
  · cases h'
  · rename_i x hx
    split at h'
    · cases h'
    · rename_i y hy
      exact ⟨x, y, (Except.ok.inj h').symm, hx, hy⟩

end MinaRs.Block
