import Verif.Block.Lemmas

/-! Which blocks the wire carries. -/

namespace MinaRs.Block

open BinProt (Ty Tys IntKind Fits FitsProd FitsSum encode decode encodeProd decodeProd encodeSum decodeSum flush)
open Json (arr32 u8s versionedTy version1)
open Spec

theorem fits_u8s : (n : Nat) → (v : (u8s n).prod) → FitsProd (u8s n) v
  | 0, _ => trivial
  | n + 1, v => by
    obtain ⟨a, b⟩ : UInt8 × (u8s n).prod := v
    exact ⟨trivial, fits_u8s n b⟩

theorem fits_u8s' (n : Nat) (v : (u8s n).prod) : Fits (.tuple (u8s n)) v := fits_u8s n v

theorem fits_arr32 (v : arr32.denote) : Fits arr32 v := fits_u8s' 32 v

theorem fits_key (k : Key) : Fits keyTy (writeKey k) := ⟨fits_arr32 (leArr 32 k.x.val), trivial, trivial⟩

theorem fits_sig (k : Sig) : Fits sigTy (writeSig k) :=
  ⟨fits_arr32 (leArr 32 k.rx.val), fits_arr32 (leArr 32 k.s.val), trivial⟩

theorem fits_versioned (t : Ty) (v : t.denote) : Fits (versionedTy t) (version1 v) ↔ Fits t v :=
  ⟨fun h => h.2.1, fun h => ⟨fun hk => (nomatch hk), h, trivial⟩⟩

theorem nodup_take {α β : Type} (f : α → β) : ∀ (l : List α) (i : Nat) (a : α), (l.map f).Nodup → l[i]? = some a →
    ∀ x ∈ l.take i, f x ≠ f a
  | [], _, _, _, h => by simp at h
  | b :: l, 0, a, _, _ => by simp
  | b :: l, i + 1, a, hd, h => by
    simp only [List.map_cons, List.nodup_cons] at hd
    simp only [List.getElem?_cons_succ] at h
    intro x hx
    simp only [List.take_succ_cons, List.mem_cons] at hx
    rcases hx with rfl | hx
    · intro e
      exact hd.1 (e ▸ List.mem_map_of_mem (List.mem_of_getElem? h))
    · exact nodup_take f l i a hd.2 h x hx

theorem polyvarOk (vs : Tys) (v : vs.sum) (h1 : vs.length ≤ 256)
    (h2 : ∀ n ∈ vs.names, (∀ b ∈ BinProt.utf8 n, b.toNat < 128) ∧ (BinProt.camlHashVariant (BinProt.utf8 n)).toNat < 2 ^ 31)
    (h3 : (vs.names.map (fun n => BinProt.camlHashVariant (BinProt.utf8 n))).Nodup) : BinProt.PolyvarOk vs v := by
  have hn := BinProt.Tys.names_index vs v
  refine ⟨Nat.lt_of_lt_of_le (BinProt.Tys.index_lt_length vs v) h1, (h2 _ (List.mem_of_getElem? hn)).2,
    fun n hn b hb => (h2 n hn).1 b hb, ?_⟩
  exact nodup_take _ _ _ _ h3 hn

theorem polyvar_facts {vs : BTys} (ho : Ordinary (.polyvar vs) = true) (v : vs.wire.sum) : BinProt.PolyvarOk vs.wire v := by
  simp only [Ordinary, Bool.and_eq_true, decide_eq_true_eq, List.all_eq_true] at ho
  exact polyvarOk _ _ ho.1.1.1 (fun n hn => ho.1.1.2 n hn) ho.1.2

mutual
/-- The wire carries exactly the values whose 64-bit numbers are below 2^63. -/
theorem fits_iff : (t : BTy) → Ordinary t = true → (b : t.base) → (Fits t.wire (toWire t b) ↔ InMemory t b ∧ Small t b)
  | .unit, _ => fun _ => ⟨fun _ => ⟨trivial, trivial⟩, fun _ => trivial⟩
  | .bool, _ => fun _ => ⟨fun _ => ⟨trivial, trivial⟩, fun _ => trivial⟩
  | .u8, _ => fun _ => ⟨fun _ => ⟨trivial, trivial⟩, fun _ => trivial⟩
  | .int k, _ => fun b => ⟨fun h => ⟨trivial, h⟩, fun h => h.2⟩
  | .ext32, _ => fun b => ⟨fun _ => ⟨trivial, trivial⟩, fun _ h => by cases h⟩
  | .bytes32, _ => fun b => ⟨fun _ => ⟨trivial, trivial⟩, fun _ => fits_arr32 b⟩
  | .bytes, _ => fun b => ⟨fun h => ⟨h.1, trivial⟩, fun h => ⟨h.1, fun _ _ => trivial⟩⟩
  | .key, _ => fun b => ⟨fun _ => ⟨trivial, trivial⟩, fun _ => fits_key b⟩
  | .sig, _ => fun b => ⟨fun _ => ⟨trivial, trivial⟩, fun _ => fits_sig b⟩
  | .option t, ho => fun b => by
    obtain _ | w : Option t.base := b
    · exact ⟨fun _ => ⟨fun _ h => (nomatch h), fun _ h => (nomatch h)⟩, fun _ _ h => (nomatch h)⟩
    · have ih := fits_iff t ho w
      constructor
      · intro h
        have := ih.mp (h _ rfl)
        exact ⟨fun x hx => Option.some.inj hx ▸ this.1, fun x hx => Option.some.inj hx ▸ this.2⟩
      · intro h x hx
        exact Option.some.inj hx ▸ ih.mpr ⟨h.1 w rfl, h.2 w rfl⟩
  | .newtype t, ho => fun b => fits_iff t ho b
  | .seq t, ho => fun b => by
    change List t.base at b
    have e : Fits (BTy.seq t).wire (toWire (.seq t) b) ↔
        (b.map (toWire t)).length < 2 ^ 64 ∧ ∀ v ∈ b.map (toWire t), Fits t.wire v := Iff.rfl
    rw [e, List.length_map]
    constructor
    · intro h
      exact ⟨⟨h.1, fun w hw => ((fits_iff t ho w).mp (h.2 _ (List.mem_map_of_mem hw))).1⟩,
        fun w hw => ((fits_iff t ho w).mp (h.2 _ (List.mem_map_of_mem hw))).2⟩
    · intro h
      refine ⟨h.1.1, fun v hv => ?_⟩
      obtain ⟨w, hw, rfl⟩ := List.mem_map.mp hv
      exact (fits_iff t ho w).mpr ⟨h.1.2 w hw, h.2 w hw⟩
  | .tuple ts, ho => fun b => fitsAll_iff ts ho b
  | .struct ts, ho => fun b => fitsAll_iff ts ho b
  | .versioned t, ho => fun b => (fits_versioned t.wire (toWire t b)).trans (fits_iff t ho b)
  | .enum vs, ho => fun b => by
    simp only [Ordinary, Bool.and_eq_true, decide_eq_true_eq] at ho
    have ih := fitsVar_iff vs ho.2 b
    exact ⟨fun h => ih.mp h.2, fun h =>
      ⟨Nat.lt_of_lt_of_le (BinProt.Tys.index_lt_length _ (toWireVar vs b)) ho.1, ih.mpr h⟩⟩
  | .polyvar vs, ho => fun b => by
    have hp := polyvar_facts ho (toWireVar vs b)
    simp only [Ordinary, Bool.and_eq_true, decide_eq_true_eq] at ho
    have ih := fitsVar_iff vs ho.2 b
    exact ⟨fun h => ih.mp h.2, fun h => ⟨hp, ih.mpr h⟩⟩
theorem fitsAll_iff : (ts : BTys) → OrdinaryAll ts = true → (b : ts.prod) →
    (FitsProd ts.wire (toWireAll ts b) ↔ InMemoryAll ts b ∧ SmallAll ts b)
  | .nil, _ => fun _ => ⟨fun _ => ⟨trivial, trivial⟩, fun _ => trivial⟩
  | .cons n t ts, ho => fun b => by
    simp only [OrdinaryAll, Bool.and_eq_true] at ho
    obtain ⟨a, b⟩ : t.base × ts.prod := b
    have h1 := fits_iff t ho.1.2 a
    have h2 := fitsAll_iff ts ho.2 b
    exact ⟨fun h => ⟨⟨(h1.mp h.1).1, (h2.mp h.2).1⟩, ⟨(h1.mp h.1).2, (h2.mp h.2).2⟩⟩,
      fun h => ⟨h1.mpr ⟨h.1.1, h.2.1⟩, h2.mpr ⟨h.1.2, h.2.2⟩⟩⟩
theorem fitsVar_iff : (vs : BTys) → OrdinaryVar vs = true → (b : vs.sum) →
    (FitsSum vs.wire (toWireVar vs b) ↔ InMemoryVar vs b ∧ SmallVar vs b)
  | .nil, _ => fun b => nomatch (show Empty from b)
  | .cons n t ts, ho => fun b => by
    simp only [OrdinaryVar, Bool.and_eq_true] at ho
    obtain w | w : t.base ⊕ ts.sum := b
    · exact fits_iff t ho.1 w
    · exact fitsVar_iff ts ho.2 w
end

/-! ## Values the wire does not carry -/

open BinProt in
theorem decodeN_flatMap_fails {α : Type} (p : Prog α) (enc : α → Bytes) (e : Err) :
    ∀ (l : List α), (∀ a ∈ l, (∀ r, p.run (enc a ++ r) = .ok (a, r)) ∨ ∀ r, p.run (enc a ++ r) = .error e) →
    (∃ a ∈ l, ∀ r, p.run (enc a ++ r) = .error e) → ∀ r, (decodeN p l.length).run (l.flatMap enc ++ r) = .error e
  | [], _, h, r => by simp at h
  | a :: l, hall, hex, r => by
    simp only [List.length_cons, decodeN, List.flatMap_cons, List.append_assoc]
    rcases hall a (by simp) with ha | ha
    · rw [Prog.run_bind_ok (ha _)]
      refine Prog.run_bind_error (decodeN_flatMap_fails p enc e l (fun b hb => hall b (by simp [hb])) ?_ r)
      obtain ⟨b, hb, he⟩ := hex
      rcases List.mem_cons.mp hb with rfl | hb
      · have := (ha []).symm.trans (he [])
        cases this
      · exact ⟨b, hb, he⟩
    · exact Prog.run_bind_error (ha _)

open BinProt in
theorem int_fails (k : IntKind) (v : (Ty.int k).denote) (h : ¬ (k = .u64 → (show {n : Int // k.range.holds n} from v).val < 2 ^ 63))
    (r : Bytes) : (decode (.int k)).run (flush (encode (.int k) v) ++ r) = .error .destinationIntegerOverflow := by
  obtain ⟨n, hn⟩ : {n : Int // k.range.holds n} := v
  simp only [Classical.not_imp] at h
  obtain ⟨rfl, h⟩ := h
  exact C07_u64_roundtrip_fails n hn (Int.not_lt.mp h) r

open BinProt in
mutual
/-- A value with a 64-bit number of 2^63 or more is written, and cannot be read. -/
theorem big_fails : (t : BTy) → Ordinary t = true → (b : t.base) → InMemory t b → ¬ Small t b → (r : Bytes) →
    (decode t.wire).run (flush (encode t.wire (toWire t b)) ++ r) = .error .destinationIntegerOverflow
  | .unit, _ => fun _ _ h => absurd trivial h
  | .bool, _ => fun _ _ h => absurd trivial h
  | .u8, _ => fun _ _ h => absurd trivial h
  | .int k, _ => fun b _ h => int_fails k b h
  | .ext32, _ => fun _ _ h => absurd trivial h
  | .bytes32, _ => fun _ _ h => absurd trivial h
  | .bytes, _ => fun _ _ h => absurd trivial h
  | .key, _ => fun _ _ h => absurd trivial h
  | .sig, _ => fun _ _ h => absurd trivial h
  | .option t, ho => fun b hm hs r => by
    obtain _ | w : Option t.base := b
    · exact absurd (fun _ h => nomatch h) hs
    · have hw : ¬ Small t w := fun h => hs (fun x hx => Option.some.inj hx ▸ h)
      have ih := big_fails t ho w (hm w rfl) hw r
      show (decode (.option t.wire)).run (flush (encode (.option t.wire) (some (toWire t w) : Option t.wire.denote)) ++ r) = _
      simp only [encode, decode, flush_cons, WOp.bytes, List.append_assoc]
      have : ∀ r, binReadBool.run ([0x01] ++ r) = .ok (true, r) := fun r => by
        have := binReadBool_write true r
        simpa [binWriteBool, WOp.bytes] using this
      rw [Prog.run_bind_ok (this _)]
      simp only [if_true]
      exact Prog.run_bind_error ih
  | .newtype t, ho => fun b hm hs r => big_fails t ho b hm hs r
  | .seq t, ho => fun b hm hs r => by
    change List t.base at b
    have hm' : b.length < 2 ^ 64 ∧ ∀ w ∈ b, InMemory t w := hm
    have hs' : ∃ w ∈ b, ¬ Small t w := by
      apply Classical.byContradiction
      intro hne
      refine hs (fun w hw => Classical.byContradiction fun hn => hne ⟨w, hw, hn⟩)
    show (decode (.seq t.wire)).run (flush (encode (.seq t.wire) (b.map (toWire t) : List t.wire.denote)) ++ r) = _
    simp only [encode, decode, flush_append, List.append_assoc]
    have h1 := binReadLen_write (n := (b.map (toWire t)).length) (by rw [List.length_map]; exact hm'.1)
      (flush (List.flatMap (encode t.wire) (b.map (toWire t))) ++ r)
    unfold natBytes at h1
    refine (Prog.run_bind_ok h1).trans ?_
    have e := flush_flatMap (encode t.wire) (b.map (toWire t))
    refine (congrArg (fun x => (decodeN (decode t.wire) (List.length (b.map (toWire t)))).run (x ++ r)) e).trans ?_
    refine decodeN_flatMap_fails _ (fun a => flush (encode t.wire a)) _ _ ?_ ?_ r
    · intro a ha
      obtain ⟨w, hw, rfl⟩ := List.mem_map.mp ha
      by_cases hsw : Small t w
      · exact .inl (fun r => decode_encode t.wire _ ((fits_iff t ho w).mpr ⟨hm'.2 w hw, hsw⟩) r)
      · exact .inr (fun r => big_fails t ho w (hm'.2 w hw) hsw r)
    · obtain ⟨w, hw, hsw⟩ := hs'
      exact ⟨toWire t w, List.mem_map_of_mem hw, fun r => big_fails t ho w (hm'.2 w hw) hsw r⟩
  | .tuple ts, ho => fun b hm hs r => bigAll_fails ts ho b hm hs r
  | .struct ts, ho => fun b hm hs r => bigAll_fails ts ho b hm hs r
  | .versioned t, ho => fun b hm hs r => by
    have ih := big_fails t ho b hm hs r
    have h1 := decode_encode (.int .u16) (⟨1, by decide⟩ : {n : Int // BinProt.u16.holds n}) (fun h => nomatch h)
      (flush (encode t.wire (toWire t b)) ++ r)
    show (decodeProd (.cons "version" (.int .u16) (.cons "t" t.wire .nil))).run (flush (encode (.int .u16)
      (⟨1, by decide⟩ : {n : Int // BinProt.u16.holds n}) ++ (encode t.wire (toWire t b) ++ [])) ++ r) = _
    rw [List.append_nil, flush_append, List.append_assoc]
    unfold decodeProd
    refine (Prog.run_bind_ok h1).trans ?_
    refine Prog.run_bind_error ?_
    unfold decodeProd
    exact Prog.run_bind_error ih
  | .enum vs, ho => fun b hm hs r => by
    simp only [Ordinary, Bool.and_eq_true, decide_eq_true_eq] at ho
    have hi := Nat.lt_of_lt_of_le (Tys.index_lt_length _ (toWireVar vs b)) ho.1
    show (decode (.enum vs.wire)).run (flush (encode (.enum vs.wire) (toWireVar vs b)) ++ r) = _
    simp only [encode, decode, writeVariantIndex, if_pos hi, flush_append, binWriteVariantIndex,
      flush_cons, flush_nil, WOp.bytes, List.nil_append, List.cons_append]
    unfold binReadVariantIndex
    refine (Prog.run_bind_ok (readU8_cons _ _)).trans ?_
    have : (UInt8.ofNat (vs.wire.index (toWireVar vs b))).toNat = vs.wire.index (toWireVar vs b) := by simp; omega
    rw [this]
    exact bigVar_fails vs ho.2 b hm hs r
  | .polyvar vs, ho => fun b hm hs r => by
    have hp := polyvar_facts ho (toWireVar vs b)
    simp only [Ordinary, Bool.and_eq_true, decide_eq_true_eq] at ho
    show (decode (.polyvar vs.wire)).run (flush (encode (.polyvar vs.wire) (toWireVar vs b)) ++ r) = _
    simp only [encode, decode, writePolyvar, flush_append, List.append_assoc]
    refine (Prog.run_bind_ok (binReadPolyvarTag_write hp.2.1 _)).trans ?_
    rw [polyvarIndex_of_ok hp]
    have : (UInt8.ofNat (vs.wire.index (toWireVar vs b))).toNat = vs.wire.index (toWireVar vs b) := by
      have := hp.1
      simp; omega
    simp only [this]
    exact bigVar_fails vs ho.2 b hm hs r
theorem bigAll_fails : (ts : BTys) → OrdinaryAll ts = true → (b : ts.prod) → InMemoryAll ts b → ¬ SmallAll ts b →
    (r : Bytes) →
    (decodeProd ts.wire).run (flush (encodeProd ts.wire (toWireAll ts b)) ++ r) = .error .destinationIntegerOverflow
  | .nil, _ => fun _ _ h => absurd trivial h
  | .cons n t ts, ho => fun b hm hs r => by
    simp only [OrdinaryAll, Bool.and_eq_true] at ho
    obtain ⟨a, b⟩ : t.base × ts.prod := b
    have hm' : InMemory t a ∧ InMemoryAll ts b := hm
    show (decodeProd (.cons n t.wire ts.wire)).run
      (flush (encode t.wire (toWire t a) ++ encodeProd ts.wire (toWireAll ts b)) ++ r) = _
    rw [flush_append, List.append_assoc]
    unfold decodeProd
    by_cases ha : Small t a
    · have hb : ¬ SmallAll ts b := fun h => hs ⟨ha, h⟩
      refine (Prog.run_bind_ok (decode_encode t.wire _ ((fits_iff t ho.1.2 a).mpr ⟨hm'.1, ha⟩) _)).trans ?_
      exact Prog.run_bind_error (bigAll_fails ts ho.2 b hm'.2 hb r)
    · exact Prog.run_bind_error (big_fails t ho.1.2 a hm'.1 ha _)
theorem bigVar_fails : (vs : BTys) → OrdinaryVar vs = true → (b : vs.sum) → InMemoryVar vs b → ¬ SmallVar vs b →
    (r : Bytes) → (decodeSum vs.wire (vs.wire.index (toWireVar vs b))).run
      (flush (encodeSum vs.wire (toWireVar vs b)) ++ r) = .error .destinationIntegerOverflow
  | .nil, _ => fun b => nomatch (show Empty from b)
  | .cons n t ts, ho => fun b hm hs r => by
    simp only [OrdinaryVar, Bool.and_eq_true] at ho
    obtain w | w : t.base ⊕ ts.sum := b
    · show (decodeSum (.cons n t.wire ts.wire) 0).run (flush (encode t.wire (toWire t w)) ++ r) = _
      unfold decodeSum
      exact Prog.run_bind_error (big_fails t ho.1 w hm hs r)
    · show (decodeSum (.cons n t.wire ts.wire) (ts.wire.index (toWireVar ts w) + 1)).run
        (flush (encodeSum ts.wire (toWireVar ts w)) ++ r) = _
      unfold decodeSum
      exact Prog.run_bind_error (bigVar_fails ts ho.2 w hm hs r)
end

end MinaRs.Block
