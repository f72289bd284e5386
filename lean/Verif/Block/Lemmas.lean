import Verif.Block.Spec
import Verif.BinProt.SerdeProps
import Verif.Json.LeafLemmas

/-! Lemmas about the conversions between blocks and their wire form. -/

namespace MinaRs.Block

open BinProt (Ty Tys IntKind Fits FitsProd FitsSum)
open Json (arr32 u8s versionedTy version1)
open Spec

/-! ## Leaves -/

theorem arrBytes_leArr : (n k : Nat) → Json.arrBytes n (leArr n k) = leBytes n k
  | 0, _ => rfl
  | n + 1, k => by
    show UInt8.ofNat (k % 256) :: Json.arrBytes n (leArr n (k / 256)) = _
    rw [arrBytes_leArr n (k / 256)]
    rfl

theorem arrBytes_inj {n : Nat} {v w : (u8s n).prod} (h : Json.arrBytes n v = Json.arrBytes n w) : v = w := by
  have h1 := Json.bytesArr_arrBytes n v
  rw [h, Json.bytesArr_arrBytes n w] at h1
  exact (Option.some.inj h1).symm

theorem leArr_leNat {n : Nat} (v : (u8s n).prod) : leArr n (leNat (Json.arrBytes n v)) = v := by
  apply arrBytes_inj
  rw [arrBytes_leArr]
  have h := leBytes_leNat (Json.arrBytes n v)
  rwa [Json.arrBytes_length] at h

theorem p_lt : Hash.p < 256 ^ 32 := by decide +kernel
theorem q_lt : q < 256 ^ 32 := by decide +kernel

theorem readField_leArr {m : Nat} (hm : m < 256 ^ 32) (x : Fin m) : readField m (leArr 32 x.val) = .ok x := by
  have h : leNat (Json.arrBytes 32 (leArr 32 x.val)) = x.val := by
    rw [arrBytes_leArr]
    exact leNat_leBytes_of_lt (Nat.lt_trans x.isLt hm)
  unfold readField
  rw [dif_pos (by rw [h]; exact x.isLt)]
  exact congrArg Except.ok (Fin.ext h)

theorem readField_ok {m : Nat} {v : (u8s 32).prod} {x : Fin m} (h : readField m v = .ok x) :
    x.val = leNat (Json.arrBytes 32 v) ∧ leArr 32 x.val = v := by
  unfold readField at h
  split at h
  · have h1 := congrArg Fin.val (Except.ok.inj h)
    simp only at h1
    exact ⟨h1.symm, by rw [← h1]; exact leArr_leNat v⟩
  · cases h

theorem readField_cases (m : Nat) (v : (u8s 32).prod) :
    (leNat (Json.arrBytes 32 v) < m ∧ ∃ x, readField m v = .ok x) ∨
    (¬ leNat (Json.arrBytes 32 v) < m ∧ ∃ s, readField m v = .error (.panic s)) := by
  unfold readField
  split
  · exact .inl ⟨by assumption, _, rfl⟩
  · exact .inr ⟨by assumption, _, rfl⟩

theorem readExt_writeExt (n : UInt32) : readExt (writeExt n) = n := by
  show UInt32.ofNat (wrapU 32 (toSigned 32 n.toNat)) = n
  have h : wrapU 32 (toSigned 32 n.toNat) = n.toNat := by
    have := n.toNat_lt
    unfold toSigned wrapU
    split <;> omega
  rw [h]
  exact UInt32.ofNat_toNat

theorem writeExt_readExt (v : (Ty.int .i32).denote) : writeExt (readExt v) = v := by
  obtain ⟨n, hn⟩ : {n : Int // IntKind.i32.range.holds n} := v
  apply Subtype.ext
  show toSigned 32 (UInt32.ofNat (wrapU 32 n)).toNat = n
  have h1 : -2147483648 ≤ n ∧ n ≤ 2147483647 := hn
  have h2 : wrapU 32 n < 2 ^ 32 := by unfold wrapU; omega
  have h3 : (UInt32.ofNat (wrapU 32 n)).toNat = wrapU 32 n := by
    rw [UInt32.toNat_ofNat']
    exact Nat.mod_eq_of_lt h2
  rw [h3]
  unfold toSigned wrapU
  split <;> omega

/-! ## The conversions -/

theorem each_map {α β : Type} (f : α → Except BinProt.Err β) (g : β → α) (h : ∀ b, f (g b) = .ok b) :
    ∀ bs, each f (bs.map g) = .ok bs
  | [] => rfl
  | b :: bs => by simp only [List.map_cons, each, h b, each_map f g h bs]

mutual
/-- Converting to the wire type and back returns the same value. -/
theorem from_to : (t : BTy) → (b : t.base) → fromWire t (toWire t b) = .ok b
  | .unit, _ => rfl
  | .bool, _ => rfl
  | .u8, _ => rfl
  | .int _, _ => rfl
  | .ext32, b => congrArg Except.ok (readExt_writeExt b)
  | .bytes32, _ => rfl
  | .bytes, _ => rfl
  | .key, b => by
    obtain ⟨x, o⟩ : Key := b
    show readKey (writeKey ⟨x, o⟩) = _
    unfold readKey writeKey
    simp only [readField_leArr p_lt]
    rfl
  | .sig, b => by
    obtain ⟨x, s⟩ : Sig := b
    show readSig (writeSig ⟨x, s⟩) = _
    unfold readSig writeSig
    simp only [readField_leArr p_lt, readField_leArr q_lt]
    rfl
  | .option t, b => by
    obtain _ | w : Option t.base := b
    · rfl
    · show (match fromWire t (toWire t w) with | .ok b => Except.ok (some b : Option t.base) | .error e => .error e) = _
      rw [from_to t w]
      rfl
  | .newtype t, b => from_to t b
  | .seq t, b => each_map _ _ (from_to t) b
  | .tuple ts, b => fromAll_to ts b
  | .struct ts, b => fromAll_to ts b
  | .versioned t, b => from_to t b
  | .enum vs, b => fromVar_to vs b
  | .polyvar vs, b => fromVar_to vs b
theorem fromAll_to : (ts : BTys) → (b : ts.prod) → fromWireAll ts (toWireAll ts b) = .ok b
  | .nil, _ => rfl
  | .cons n t ts, b => by
    obtain ⟨a, b⟩ : t.base × ts.prod := b
    show (match fromWire t (toWire t a) with
      | .error e => Except.error e
      | .ok a =>
        match fromWireAll ts (toWireAll ts b) with
        | .error e => .error e
        | .ok b => .ok ((a, b) : t.base × ts.prod)) = _
    rw [from_to t a, fromAll_to ts b]
    rfl
theorem fromVar_to : (vs : BTys) → (b : vs.sum) → fromWireVar vs (toWireVar vs b) = .ok b
  | .nil, b => nomatch (show Empty from b)
  | .cons n t ts, b => by
    obtain w | w : t.base ⊕ ts.sum := b
    · show (match fromWire t (toWire t w) with | .ok a => Except.ok (.inl a : t.base ⊕ ts.sum) | .error e => .error e) = _
      rw [from_to t w]
      rfl
    · show (match fromWireVar ts (toWireVar ts w) with | .ok a => Except.ok (.inr a : t.base ⊕ ts.sum) | .error e => .error e) = _
      rw [fromVar_to ts w]
      rfl
end

theorem each_cases {α β : Type} (f : α → Except BinProt.Err β) (P : α → Prop)
    (h : ∀ a, (P a ∧ ∃ b, f a = .ok b) ∨ (¬ P a ∧ ∃ s, f a = .error (.panic s))) :
    ∀ as : List α, ((∀ a ∈ as, P a) ∧ ∃ bs, each f as = .ok bs) ∨ (¬ (∀ a ∈ as, P a) ∧ ∃ s, each f as = .error (.panic s))
  | [] => .inl ⟨by simp, [], rfl⟩
  | a :: as => by
    rcases h a with ⟨ha, b, hb⟩ | ⟨ha, s, hs⟩
    · rcases each_cases f P h as with ⟨h1, bs, h2⟩ | ⟨h1, s, h2⟩
      · exact .inl ⟨by simpa using ⟨ha, h1⟩, b :: bs, by simp only [each, hb, h2]⟩
      · exact .inr ⟨fun hh => h1 (fun x hx => hh x (List.mem_cons_of_mem _ hx)), s, by simp only [each, hb, h2]⟩
    · exact .inr ⟨fun hh => ha (hh a (List.mem_cons_self ..)), s, by simp only [each, hs]⟩

theorem readKey_cases (v : (u8s 32).prod × Bool × Unit) :
    (leNat (Json.arrBytes 32 v.1) < Hash.p ∧ ∃ b, readKey v = .ok b) ∨
    (¬ leNat (Json.arrBytes 32 v.1) < Hash.p ∧ ∃ s, readKey v = .error (.panic s)) := by
  unfold readKey
  rcases readField_cases Hash.p v.1 with ⟨h, y, hy⟩ | ⟨h, s, hs⟩
  · exact .inl ⟨h, _, by simp only [hy]; rfl⟩
  · exact .inr ⟨h, s, by simp only [hs]⟩

theorem readSig_cases (v : (u8s 32).prod × (u8s 32).prod × Unit) :
    ((leNat (Json.arrBytes 32 v.1) < Hash.p ∧ leNat (Json.arrBytes 32 v.2.1) < q) ∧ ∃ b, readSig v = .ok b) ∨
    (¬ (leNat (Json.arrBytes 32 v.1) < Hash.p ∧ leNat (Json.arrBytes 32 v.2.1) < q) ∧
      ∃ s, readSig v = .error (.panic s)) := by
  unfold readSig
  rcases readField_cases Hash.p v.1 with ⟨h, y, hy⟩ | ⟨h, s, hs⟩
  · rcases readField_cases q v.2.1 with ⟨h', y', hy'⟩ | ⟨h', s, hs⟩
    · exact .inl ⟨⟨h, h'⟩, _, by simp only [hy, hy']; rfl⟩
    · exact .inr ⟨fun hh => h' hh.2, s, by simp only [hy, hs]⟩
  · exact .inr ⟨fun hh => h hh.1, s, by simp only [hs]⟩

mutual
/-- Reading succeeds exactly on canonical values; otherwise the conversion panics. -/
theorem from_cases : (t : BTy) → (v : t.wire.denote) →
    (Canonical t v ∧ ∃ b, fromWire t v = .ok b) ∨ (¬ Canonical t v ∧ ∃ s, fromWire t v = .error (.panic s))
  | .unit, _ => .inl ⟨trivial, _, rfl⟩
  | .bool, _ => .inl ⟨trivial, _, rfl⟩
  | .u8, _ => .inl ⟨trivial, _, rfl⟩
  | .int _, _ => .inl ⟨trivial, _, rfl⟩
  | .ext32, _ => .inl ⟨trivial, _, rfl⟩
  | .bytes32, _ => .inl ⟨trivial, _, rfl⟩
  | .bytes, _ => .inl ⟨trivial, _, rfl⟩
  | .key, v => readKey_cases v
  | .sig, v => readSig_cases v
  | .option t, v => by
    obtain _ | w : Option t.wire.denote := v
    · exact .inl ⟨fun w h => (nomatch h), _, rfl⟩
    · rcases from_cases t w with ⟨h, b, hb⟩ | ⟨h, s, hs⟩
      · exact .inl ⟨fun w' h' => Option.some.inj h' ▸ h, some b, by
          show (match fromWire t w with | .ok b => Except.ok (some b : Option t.base) | .error e => .error e) = _
          rw [hb]
          rfl⟩
      · exact .inr ⟨fun hh => h (hh w rfl), s, by
          show (match fromWire t w with | .ok b => Except.ok (some b : Option t.base) | .error e => .error e) = _
          rw [hs]
          rfl⟩
  | .newtype t, v => from_cases t v
  | .seq t, v => each_cases _ _ (from_cases t) v
  | .tuple ts, v => fromAll_cases ts v
  | .struct ts, v => fromAll_cases ts v
  | .versioned t, v => from_cases t _
  | .enum vs, v => fromVar_cases vs v
  | .polyvar vs, v => fromVar_cases vs v
theorem fromAll_cases : (ts : BTys) → (v : ts.wire.prod) →
    (CanonicalAll ts v ∧ ∃ b, fromWireAll ts v = .ok b) ∨ (¬ CanonicalAll ts v ∧ ∃ s, fromWireAll ts v = .error (.panic s))
  | .nil, _ => .inl ⟨trivial, _, rfl⟩
  | .cons n t ts, v => by
    obtain ⟨a, b⟩ : t.wire.denote × ts.wire.prod := v
    have e : fromWireAll (.cons n t ts) ((a, b) : t.wire.denote × ts.wire.prod) = (match fromWire t a with
      | .error e => Except.error e
      | .ok a =>
        match fromWireAll ts b with
        | .error e => .error e
        | .ok b => .ok ((a, b) : t.base × ts.prod)) := rfl
    rcases from_cases t a with ⟨h, x, hx⟩ | ⟨h, s, hs⟩
    · rcases fromAll_cases ts b with ⟨h', y, hy⟩ | ⟨h', s, hs⟩
      · exact .inl ⟨⟨h, h'⟩, (x, y), by rw [e, hx, hy]⟩
      · exact .inr ⟨fun hh => h' hh.2, s, by rw [e, hx, hs]⟩
    · exact .inr ⟨fun hh => h hh.1, s, by rw [e, hs]⟩
theorem fromVar_cases : (vs : BTys) → (v : vs.wire.sum) →
    (CanonicalVar vs v ∧ ∃ b, fromWireVar vs v = .ok b) ∨ (¬ CanonicalVar vs v ∧ ∃ s, fromWireVar vs v = .error (.panic s))
  | .nil, v => nomatch (show Empty from v)
  | .cons n t ts, v => by
    obtain w | w : t.wire.denote ⊕ ts.wire.sum := v
    · have e : fromWireVar (.cons n t ts) (Sum.inl w : t.wire.denote ⊕ ts.wire.sum) =
        (match fromWire t w with | .ok a => Except.ok (.inl a : t.base ⊕ ts.sum) | .error e => .error e) := rfl
      rcases from_cases t w with ⟨h, x, hx⟩ | ⟨h, s, hs⟩
      · exact .inl ⟨h, .inl x, by rw [e, hx]⟩
      · exact .inr ⟨h, s, by rw [e, hs]⟩
    · have e : fromWireVar (.cons n t ts) (Sum.inr w : t.wire.denote ⊕ ts.wire.sum) =
        (match fromWireVar ts w with | .ok a => Except.ok (.inr a : t.base ⊕ ts.sum) | .error e => .error e) := rfl
      rcases fromVar_cases ts w with ⟨h, x, hx⟩ | ⟨h, s, hs⟩
      · exact .inl ⟨h, .inr x, by rw [e, hx]⟩
      · exact .inr ⟨h, s, by rw [e, hs]⟩
end

/-! ## Version numbers -/

theorem setVersionsAll_cons (n : String) (t : Ty) (ts : Tys) (a : t.denote) (b : ts.prod) (hn : n ≠ "version") :
    setVersionsAll (.cons n t ts) ((a, b) : t.denote × ts.prod) =
      ((setVersions t a, setVersionsAll ts b) : t.denote × ts.prod) := by
  show ((if n = "version" then one t a else setVersions t a, setVersionsAll ts b) : t.denote × ts.prod) = _
  rw [if_neg hn]

theorem setVersions_u8s : (n : Nat) → (v : (u8s n).prod) → setVersionsAll (u8s n) v = v
  | 0, _ => rfl
  | n + 1, v => by
    obtain ⟨a, b⟩ : UInt8 × (u8s n).prod := v
    refine (setVersionsAll_cons "" .u8 (u8s n) a b (by decide)).trans ?_
    rw [setVersions_u8s n b]
    rfl

theorem setVersions_u8s' (n : Nat) (v : (u8s n).prod) : setVersions (.tuple (u8s n)) v = v := setVersions_u8s n v

theorem setVersions_arr32 (v : arr32.denote) : setVersions arr32 v = v := setVersions_u8s' 32 v

theorem setVersions_versioned (t : Ty) (v : (versionedTy t).denote) :
    setVersions (versionedTy t) v =
      version1 (setVersions t (show {n : Int // BinProt.u16.holds n} × t.denote × Unit from v).2.1) := by
  obtain ⟨n, w, u⟩ : {n : Int // BinProt.u16.holds n} × t.denote × Unit := v
  rfl

theorem each_ok {α β : Type} (f : α → Except BinProt.Err β) (g : β → α) (s : α → α)
    (h : ∀ a b, f a = .ok b → g b = s a) : ∀ as bs, each f as = .ok bs → bs.map g = as.map s
  | [], bs, hh => by cases hh; rfl
  | a :: as, bs, hh => by
    unfold each at hh
    split at hh
    · cases hh
    · rename_i b hb
      split at hh
      · cases hh
      · rename_i bs' hbs
        cases hh
        rw [List.map_cons, List.map_cons, h a b hb, each_ok f g s h as bs' hbs]

theorem writeKey_readKey (v : (u8s 32).prod × Bool × Unit) (b : Key) (h : readKey v = .ok b) :
    writeKey b = setVersions keyTy v := by
  obtain ⟨x, o, u⟩ := v
  have e : setVersions keyTy ((x, o, u) : (u8s 32).prod × Bool × Unit) =
      ((setVersionsAll (u8s 32) x, o, u) : (u8s 32).prod × Bool × Unit) := by
    refine (setVersionsAll_cons "x" arr32 (.cons "is_odd" .bool .nil) x (o, u) (by decide)).trans ?_
    exact congrArg (Prod.mk (setVersionsAll (u8s 32) x)) (setVersionsAll_cons "is_odd" .bool .nil o u (by decide))
  rw [e, setVersions_u8s]
  unfold readKey at h
  simp only at h
  split at h
  · rename_i y hy
    rw [← Except.ok.inj h]
    unfold writeKey
    rw [(readField_ok hy).2]
  · cases h

theorem writeSig_readSig (v : (u8s 32).prod × (u8s 32).prod × Unit) (b : Sig) (h : readSig v = .ok b) :
    writeSig b = setVersions sigTy v := by
  obtain ⟨x, z, u⟩ := v
  have e : setVersions sigTy ((x, z, u) : (u8s 32).prod × (u8s 32).prod × Unit) =
      ((setVersionsAll (u8s 32) x, setVersionsAll (u8s 32) z, u) : (u8s 32).prod × (u8s 32).prod × Unit) := by
    refine (setVersionsAll_cons "" arr32 (.cons "" arr32 .nil) x (z, u) (by decide)).trans ?_
    exact congrArg (Prod.mk (setVersionsAll (u8s 32) x)) (setVersionsAll_cons "" arr32 .nil z u (by decide))
  rw [e, setVersions_u8s, setVersions_u8s]
  unfold readSig at h
  simp only at h
  split at h
  · cases h
  · rename_i y hy
    split at h
    · cases h
    · rename_i s hs
      rw [← Except.ok.inj h]
      unfold writeSig
      rw [(readField_ok hy).2, (readField_ok hs).2]

mutual
/-- A value read from the wire is written with all its versions set to 1 and otherwise unchanged. -/
theorem to_from : (t : BTy) → Ordinary t = true → (v : t.wire.denote) → (b : t.base) → fromWire t v = .ok b →
    toWire t b = setVersions t.wire v
  | .unit, _ => fun _ _ _ => rfl
  | .bool, _ => fun _ _ h => (Except.ok.inj h).symm
  | .u8, _ => fun _ _ h => (Except.ok.inj h).symm
  | .int k, _ => fun v b h => by
    have h1 : v = b := Except.ok.inj h
    rw [← h1]
    rfl
  | .ext32, _ => fun v b h => by
    have h1 : readExt v = b := Except.ok.inj h
    rw [← h1]
    exact writeExt_readExt v
  | .bytes32, _ => fun v b h => by
    have h1 : v = b := Except.ok.inj h
    rw [← h1]
    exact (setVersions_arr32 v).symm
  | .bytes, _ => fun v b h => by
    have h1 : v = b := Except.ok.inj h
    rw [← h1]
    change List UInt8 at v
    exact (List.map_id v).symm
  | .key, _ => fun v b h => writeKey_readKey v b h
  | .sig, _ => fun v b h => writeSig_readSig v b h
  | .option t, ho => fun v b h => by
    obtain _ | w : Option t.wire.denote := v
    · have h1 : (none : Option t.base) = b := Except.ok.inj h
      rw [← h1]
      rfl
    · have h' : (match fromWire t w with | .ok b => Except.ok (some b : Option t.base) | .error e => .error e) = .ok b := h
      split at h'
      · rename_i c hc
        rw [← Except.ok.inj h']
        exact congrArg (some : t.wire.denote → Option t.wire.denote) (to_from t ho w c hc)
      · cases h'
  | .newtype t, ho => fun v b h => to_from t ho v b h
  | .seq t, ho => fun v b h => each_ok _ (toWire t) (setVersions t.wire) (to_from t ho) v b h
  | .tuple ts, ho => fun v b h => toAll_from ts ho v b h
  | .struct ts, ho => fun v b h => toAll_from ts ho v b h
  | .versioned t, ho => fun v b h => by
    refine Eq.trans ?_ (setVersions_versioned t.wire v).symm
    exact congrArg version1 (to_from t ho _ b h)
  | .enum vs, ho => fun v b h => toVar_from vs (by simp only [Ordinary, Bool.and_eq_true] at ho; exact ho.2) v b h
  | .polyvar vs, ho => fun v b h => toVar_from vs (by simp only [Ordinary, Bool.and_eq_true] at ho; exact ho.2) v b h
theorem toAll_from : (ts : BTys) → OrdinaryAll ts = true → (v : ts.wire.prod) → (b : ts.prod) →
    fromWireAll ts v = .ok b → toWireAll ts b = setVersionsAll ts.wire v
  | .nil, _ => fun _ _ _ => rfl
  | .cons n t ts, ho => fun v b h => by
    obtain ⟨x, y⟩ : t.wire.denote × ts.wire.prod := v
    simp only [OrdinaryAll, Bool.and_eq_true, decide_eq_true_eq] at ho
    have h' : (match fromWire t x with
      | .error e => Except.error e
      | .ok a =>
        match fromWireAll ts y with
        | .error e => .error e
        | .ok b => .ok ((a, b) : t.base × ts.prod)) = .ok b := h
    refine Eq.trans ?_ (setVersionsAll_cons n t.wire ts.wire x y ho.1.1).symm
    split at h'
    · cases h'
    · rename_i a ha
      split at h'
      · cases h'
      · rename_i c hc
        rw [← Except.ok.inj h']
        show ((toWire t a, toWireAll ts c) : t.wire.denote × ts.wire.prod) = _
        rw [to_from t ho.1.2 x a ha, toAll_from ts ho.2 y c hc]
theorem toVar_from : (vs : BTys) → OrdinaryVar vs = true → (v : vs.wire.sum) → (b : vs.sum) →
    fromWireVar vs v = .ok b → toWireVar vs b = setVersionsVar vs.wire v
  | .nil, _ => fun v _ _ => nomatch (show Empty from v)
  | .cons n t ts, ho => fun v b h => by
    simp only [OrdinaryVar, Bool.and_eq_true] at ho
    obtain w | w : t.wire.denote ⊕ ts.wire.sum := v
    · have h' : (match fromWire t w with | .ok a => Except.ok (.inl a : t.base ⊕ ts.sum) | .error e => .error e) = .ok b := h
      split at h'
      · rename_i c hc
        rw [← Except.ok.inj h']
        exact congrArg (Sum.inl : t.wire.denote → t.wire.denote ⊕ ts.wire.sum) (to_from t ho.1 w c hc)
      · cases h'
    · have h' : (match fromWireVar ts w with | .ok a => Except.ok (.inr a : t.base ⊕ ts.sum) | .error e => .error e) = .ok b := h
      split at h'
      · rename_i c hc
        rw [← Except.ok.inj h']
        exact congrArg (Sum.inr : ts.wire.sum → t.wire.denote ⊕ ts.wire.sum) (toVar_from ts ho.2 w c hc)
      · cases h'
end

end MinaRs.Block
