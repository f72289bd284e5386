import Verif.Block.FitsLemmas
import Verif.BinProt.IOProps

/-! What holds of every description of a type of the node and its wire type: writing and reading back, the
outcomes of reading, and what reading forgets.  The properties C89 and C90 are these for blocks and
accounts. -/

namespace MinaRs.Block

open BinProt (Ty Tys IntKind Fits FitsProd FitsSum Err NoReadErrors REv toBytes decode)
open BinProt.Spec (Wire WfTy WfTys)
open Json (arr32 u8s versionedTy version1)
open Spec

theorem wf_u8s : (n : Nat) → WfTys (u8s n)
  | 0 => trivial
  | n + 1 => ⟨trivial, wf_u8s n⟩

mutual
theorem wf_of_ordinary : (t : BTy) → Ordinary t = true → WfTy t.wire
  | .unit, _ => trivial
  | .bool, _ => trivial
  | .u8, _ => trivial
  | .int _, _ => trivial
  | .ext32, _ => trivial
  | .bytes32, _ => wf_u8s 32
  | .bytes, _ => trivial
  | .key, _ => ⟨wf_u8s 32, trivial, trivial⟩
  | .sig, _ => ⟨wf_u8s 32, wf_u8s 32, trivial⟩
  | .option t, h => wf_of_ordinary t h
  | .newtype t, h => wf_of_ordinary t h
  | .seq t, h => wf_of_ordinary t h
  | .tuple ts, h => wf_of_ordinaryAll ts h
  | .struct ts, h => wf_of_ordinaryAll ts h
  | .versioned t, h => ⟨trivial, wf_of_ordinary t h, trivial⟩
  | .enum vs, h => by
    simp only [Ordinary, Bool.and_eq_true, decide_eq_true_eq] at h
    exact wf_of_ordinaryVar vs h.2
  | .polyvar vs, h => by
    simp only [Ordinary, Bool.and_eq_true, decide_eq_true_eq, List.all_eq_true] at h
    exact ⟨fun n hn b hb => (h.1.1.2 n hn).1 b hb, h.1.1.1, wf_of_ordinaryVar vs h.2⟩
theorem wf_of_ordinaryAll : (ts : BTys) → OrdinaryAll ts = true → WfTys ts.wire
  | .nil, _ => trivial
  | .cons _ t ts, h => by
    simp only [OrdinaryAll, Bool.and_eq_true, decide_eq_true_eq] at h
    exact ⟨wf_of_ordinary t h.1.2, wf_of_ordinaryAll ts h.2⟩
theorem wf_of_ordinaryVar : (vs : BTys) → OrdinaryVar vs = true → WfTys vs.wire
  | .nil, _ => trivial
  | .cons _ t ts, h => by
    simp only [OrdinaryVar, Bool.and_eq_true] at h
    exact ⟨wf_of_ordinary t h.1, wf_of_ordinaryVar ts h.2⟩
end

/-! ## Writing and reading back -/

mutual
theorem wire_stringFree : (t : BTy) → BinProt.Spec.StringFree t.wire = true
  | .unit | .bool | .u8 | .int _ | .ext32 | .bytes32 | .bytes | .key | .sig => by rfl
  | .option t => by simp only [BTy.wire, BinProt.Spec.StringFree]; exact wire_stringFree t
  | .newtype t => by simp only [BTy.wire, BinProt.Spec.StringFree]; exact wire_stringFree t
  | .seq t => by simp only [BTy.wire, BinProt.Spec.StringFree]; exact wire_stringFree t
  | .versioned t => by
    simp only [BTy.wire, versionedTy, BinProt.Spec.StringFree, BinProt.Spec.StringFreeAll, wire_stringFree t]; rfl
  | .tuple ts => by simp only [BTy.wire, BinProt.Spec.StringFree]; exact wire_stringFreeAll ts
  | .struct ts => by simp only [BTy.wire, BinProt.Spec.StringFree]; exact wire_stringFreeAll ts
  | .enum ts => by simp only [BTy.wire, BinProt.Spec.StringFree]; exact wire_stringFreeAll ts
  | .polyvar ts => by simp only [BTy.wire, BinProt.Spec.StringFree]; exact wire_stringFreeAll ts
theorem wire_stringFreeAll : (ts : BTys) → BinProt.Spec.StringFreeAll ts.wire = true
  | .nil => rfl
  | .cons _ t ts => by simp only [BTys.wire, BinProt.Spec.StringFreeAll, wire_stringFree t, wire_stringFreeAll ts]; rfl
end

theorem codec_write_then_read (t : BTy) (ho : Ordinary t = true) (b : t.base) (hm : InMemory t b) (sched : List REv)
    (hs : NoReadErrors sched) :
    (Small t b → tryFromBinprot t ⟨tryIntoBinprot t b, sched⟩ = .ok b) ∧
    (¬ Small t b → tryFromBinprot t ⟨tryIntoBinprot t b, sched⟩ = .error .destinationIntegerOverflow) := by
  constructor
  · intro h
    have hf := (fits_iff t ho b).mpr ⟨hm, h⟩
    have hr := BinProt.C07_typed_roundtrip_partial _ _ hf []
    rw [List.append_nil] at hr
    have := (BinProt.C10_strict_partial t.wire (tryIntoBinprot t b) sched hs).2.1 _ hr
    unfold tryFromBinprot
    rw [this]
    exact from_to t b
  · intro h
    have hr := big_fails t ho b hm h []
    rw [List.append_nil] at hr
    have := (BinProt.C10_strict_partial t.wire (tryIntoBinprot t b) sched hs).1 _ hr
    unfold tryFromBinprot
    rw [this]

theorem codec_bytes_determine (t : BTy) (ho : Ordinary t = true) (b c : t.base) (hb : InMemory t b) (hc : InMemory t c)
    (h : Small t b) (he : tryIntoBinprot t b = tryIntoBinprot t c) : b = c := by
  have h1 := (codec_write_then_read t ho b hb [] (by simp [NoReadErrors])).1 h
  by_cases hs : Small t c
  · have h2 := (codec_write_then_read t ho c hc [] (by simp [NoReadErrors])).1 hs
    rw [he, h2] at h1
    exact (Except.ok.inj h1).symm
  · have h2 := (codec_write_then_read t ho c hc [] (by simp [NoReadErrors])).2 hs
    rw [he, h2] at h1
    exact (nomatch h1)

/-! ## Reading -/

theorem codec_outcomes (t : BTy) (ho : Ordinary t = true) (data : Bytes) (sched : List REv) (hs : NoReadErrors sched) :
    (∃ e, (∀ m, e ≠ .panic m) ∧ tryFromBinprot t ⟨data, sched⟩ = .error e) ∨
    (∃ b enc r v, tryFromBinprot t ⟨data, sched⟩ = .ok b ∧ data = enc ++ r ∧ Wire t.wire enc v ∧
      Canonical t v ∧ tryIntoBinprot t b = toBytes t.wire (setVersions t.wire v)) ∨
    (∃ m enc r v, tryFromBinprot t ⟨data, sched⟩ = .error (.panic m) ∧ data = enc ++ r ∧
      Wire t.wire enc v ∧ ¬ Canonical t v) := by
  have hwf := wf_of_ordinary t ho
  obtain ⟨h1, h2, h3⟩ := BinProt.C10_strict_partial t.wire data sched hs
  have fin : ∀ v r, (decode t.wire).run data = .ok (v, r) →
      BinProt.fromReaderStrict t.wire ⟨data, sched⟩ = .ok v →
      (∃ b enc r v, tryFromBinprot t ⟨data, sched⟩ = .ok b ∧ data = enc ++ r ∧ Wire t.wire enc v ∧
        Canonical t v ∧ tryIntoBinprot t b = toBytes t.wire (setVersions t.wire v)) ∨
      (∃ m enc r v, tryFromBinprot t ⟨data, sched⟩ = .error (.panic m) ∧ data = enc ++ r ∧
        Wire t.wire enc v ∧ ¬ Canonical t v) := by
    intro v r hd hf
    obtain ⟨enc, he, hw⟩ := (BinProt.C09_accepts_exactly_wire_forms t.wire hwf data v r).mp hd
    have ht : tryFromBinprot t ⟨data, sched⟩ = fromWire t v := by
      unfold tryFromBinprot
      rw [hf]
    rcases from_cases t v with ⟨hc, b, hb⟩ | ⟨hc, m, hb⟩
    · refine .inl ⟨b, enc, r, v, ht.trans hb, he, hw, hc, ?_⟩
      unfold tryIntoBinprot
      rw [to_from t ho v b hb]
    · exact .inr ⟨m, enc, r, v, ht.trans hb, he, hw, hc⟩
  cases hd : (decode t.wire).run data with
  | error e =>
    refine .inl ⟨e, ?_, ?_⟩
    · rintro m rfl
      exact BinProt.C09_never_aborts_without_strings t.wire (wire_stringFree t) data m hd
    · unfold tryFromBinprot
      rw [h1 e hd]
  | ok p =>
    obtain ⟨v, r⟩ := p
    by_cases hr : r = []
    · subst hr
      exact .inr (fin v [] hd (h2 v hd))
    · rcases h3 v r hd hr with h | ⟨n, _, _, h⟩
      · exact .inr (fin v r hd h)
      · refine .inl ⟨.streamNotFullyConsumed n, fun m he => (nomatch he), ?_⟩
        unfold tryFromBinprot
        rw [h]

theorem codec_read (t : BTy) (ho : Ordinary t = true) (data : Bytes) (v : t.wire.denote) (hw : Wire t.wire data v)
    (sched : List REv) (hs : NoReadErrors sched) : tryFromBinprot t ⟨data, sched⟩ = fromWire t v := by
  have hd := (BinProt.C09_accepts_exactly_wire_forms t.wire (wf_of_ordinary t ho) data v []).mpr ⟨data, by simp, hw⟩
  have hf := (BinProt.C10_strict_partial t.wire data sched hs).2.1 v hd
  unfold tryFromBinprot
  rw [hf]

theorem codec_accepts_iff_canonical (t : BTy) (ho : Ordinary t = true) (data : Bytes) (v : t.wire.denote)
    (hw : Wire t.wire data v) (sched : List REv) (hs : NoReadErrors sched) :
    (Canonical t v → ∃ b, tryFromBinprot t ⟨data, sched⟩ = .ok b ∧
      tryIntoBinprot t b = toBytes t.wire (setVersions t.wire v)) ∧
    (¬ Canonical t v → ∃ m, tryFromBinprot t ⟨data, sched⟩ = .error (.panic m)) := by
  have ht := codec_read t ho data v hw sched hs
  rcases from_cases t v with ⟨hc, b, hb⟩ | ⟨hc, m, hb⟩
  · refine ⟨fun _ => ⟨b, ht.trans hb, ?_⟩, fun h => absurd hc h⟩
    unfold tryIntoBinprot
    rw [to_from t ho v b hb]
  · exact ⟨fun h => absurd h hc, fun _ => ⟨m, ht.trans hb⟩⟩

theorem codec_wire_toBytes (t : BTy) (ho : Ordinary t = true) (v : t.wire.denote) (hf : Fits t.wire v) :
    Wire t.wire (toBytes t.wire v) v := by
  have hr := BinProt.C07_typed_roundtrip_partial _ _ hf []
  obtain ⟨enc, he, hw⟩ := (BinProt.C09_accepts_exactly_wire_forms t.wire (wf_of_ordinary t ho) _ v []).mp hr
  rw [List.append_nil, List.append_nil] at he
  exact he ▸ hw

theorem codec_canonical_toWire (t : BTy) (b : t.base) : Canonical t (toWire t b) := by
  rcases from_cases t (toWire t b) with ⟨h, _⟩ | ⟨_, m, h⟩
  · exact h
  · rw [from_to] at h
    exact (nomatch h)

theorem codec_forgets_only_versions (t : BTy) (ho : Ordinary t = true) (dv dw : Bytes) (v w : t.wire.denote)
    (hv : Wire t.wire dv v) (hw : Wire t.wire dw w) (cv : Canonical t v) (cw : Canonical t w) (sched : List REv)
    (hs : NoReadErrors sched) :
    tryFromBinprot t ⟨dv, sched⟩ = tryFromBinprot t ⟨dw, sched⟩ ↔ setVersions t.wire v = setVersions t.wire w := by
  have key : ∀ d u, Wire t.wire d u → Canonical t u → ∃ b, tryFromBinprot t ⟨d, sched⟩ = .ok b ∧
      toWire t b = setVersions t.wire u := by
    intro d u hu cu
    rcases from_cases t u with ⟨_, b, hb⟩ | ⟨hc, _⟩
    · exact ⟨b, (codec_read t ho d u hu sched hs).trans hb, to_from t ho u b hb⟩
    · exact absurd cu hc
  obtain ⟨b, hb, tb⟩ := key dv v hv cv
  obtain ⟨c, hc, tc⟩ := key dw w hw cw
  rw [hb, hc, ← tb, ← tc]
  constructor
  · intro h
    rw [Except.ok.inj h]
  · intro h
    have h1 := from_to t b
    rw [h, from_to t c] at h1
    exact h1.symm

end MinaRs.Block
