import Verif.Block.Form
import Verif.BinProt.LooseGram

/-! What the node writes is a form of the value with every version number 1; which forms are read. -/

namespace MinaRs.Block

open BinProt (Ty Tys IntKind Fits FitsProd FitsSum Err NoReadErrors REv toBytes decode encode encodeProd encodeSum flush)
open BinProt.Spec (Wire WireProd WireSum WireElems WireInt WireNat hash32)
open Json (arr32 u8s versionedTy version1)
open Spec

theorem written_form (t : BTy) (ho : Ordinary t = true) (b : t.base) (hf : Fits t.wire (toWire t b)) :
    Form AnyVersion t (toBytes t.wire (toWire t b)) b :=
  (form_iff t _ b).mpr ⟨_, codec_wire_toBytes t ho _ hf, from_to t b⟩

theorem written_elems {t : BTy} (hr : ∀ b, Fits t.wire (toWire t b) → Form Version1 t (toBytes t.wire (toWire t b)) b) :
    ∀ bs : List t.base, (∀ v ∈ bs.map (toWire t), Fits t.wire v) →
      WireElems (fun e v => Form Version1 t e v) (flush ((bs.map (toWire t)).flatMap (encode t.wire))) bs
  | [], _ => rfl
  | b :: bs, h => by
    refine ⟨toBytes t.wire (toWire t b), flush ((bs.map (toWire t)).flatMap (encode t.wire)), ?_,
      hr b (h _ (by simp)), written_elems hr bs (fun v hv => h v (by simp only [List.map_cons, List.mem_cons]; exact .inr hv))⟩
    simp only [List.map_cons, List.flatMap_cons, BinProt.flush_append]
    rfl

theorem position_toWire : (vs : BTys) → (b : vs.sum) → vs.wire.index (toWireVar vs b) = position vs b
  | .nil, b => nomatch (show Empty from b)
  | .cons _ t ts, b => by
    obtain w | w : t.base ⊕ ts.sum := b
    · rfl
    · exact congrArg (· + 1) (position_toWire ts w)

mutual
theorem form_written : (t : BTy) → Ordinary t = true → (b : t.base) → Fits t.wire (toWire t b) →
    Form Version1 t (toBytes t.wire (toWire t b)) b
  | .unit, ho => fun b hf => written_form .unit ho b hf
  | .bool, ho => fun b hf => written_form .bool ho b hf
  | .u8, ho => fun b hf => written_form .u8 ho b hf
  | .int k, ho => fun b hf => written_form (.int k) ho b hf
  | .ext32, ho => fun b hf => written_form .ext32 ho b hf
  | .bytes32, ho => fun b hf => written_form .bytes32 ho b hf
  | .bytes, ho => fun b hf => written_form .bytes ho b hf
  | .key, ho => fun b hf => written_form .key ho b hf
  | .sig, ho => fun b hf => written_form .sig ho b hf
  | .option t, ho => fun b hf => by
    obtain _ | w : Option t.base := b
    · rfl
    · refine ⟨toBytes t.wire (toWire t w), ?_, form_written t ho w (hf _ rfl)⟩
      show flush (.all [0x01] :: encode t.wire (toWire t w)) = _
      rw [BinProt.flush_cons]
      rfl
  | .newtype t, ho => fun b hf => form_written t ho b hf
  | .seq t, ho => fun b hf => by
    obtain ⟨h1, h2⟩ := hf
    refine ⟨flush (BinProt.binWriteNat0 (List.length (show List t.base from b))).1, _, ?_, ?_,
      written_elems (form_written t ho) b h2⟩
    · show flush ((BinProt.binWriteNat0 ((show List t.base from b).map (toWire t)).length).1 ++
        ((show List t.base from b).map (toWire t)).flatMap (encode t.wire)) = _
      rw [BinProt.flush_append, List.length_map]
    · have h1 : ((show List t.base from b).map (toWire t)).length < 2 ^ 64 := h1
      rw [List.length_map] at h1
      exact BinProt.wireNat_write h1
  | .tuple ts, ho => fun b hf => formAll_written ts ho b hf
  | .struct ts, ho => fun b hf => formAll_written ts ho b hf
  | .versioned t, ho => fun b hf => by
    refine ⟨[0x01], toBytes t.wire (toWire t b), ?_, rfl, form_written t ho b ((fits_versioned _ _).mp hf)⟩
    show flush ((BinProt.binWriteInteger 1).1 ++ (encode t.wire (toWire t b) ++ [])) = _
    rw [BinProt.flush_append, List.append_nil]
    rfl
  | .enum vs, ho => fun b hf => by
    have ho' : OrdinaryVar vs = true := by
      simp only [Ordinary, Bool.and_eq_true, decide_eq_true_eq] at ho
      exact ho.2
    obtain ⟨i, e, he, hi, _⟩ := written_form (.enum vs) ho b hf
    have hw : toBytes (BTy.enum vs).wire (toWire (.enum vs) b) =
        flush (BinProt.writeVariantIndex (vs.wire.index (toWireVar vs b))) ++ flush (encodeSum vs.wire (toWireVar vs b)) :=
      BinProt.flush_append _ _
    have hx : flush (BinProt.writeVariantIndex (vs.wire.index (toWireVar vs b))) = [i] := by
      have hp : vs.wire.index (toWireVar vs b) = i.toNat := (position_toWire vs b).trans hi.symm
      rw [hp]
      exact BinProt.flush_index i
    rw [hx] at hw
    rw [hw]
    exact ⟨i, _, rfl, hi, formVar_written vs ho' b hf.2⟩
  | .polyvar vs, ho => fun b hf => by
    have ho' : OrdinaryVar vs = true := by
      simp only [Ordinary, Bool.and_eq_true, decide_eq_true_eq] at ho
      exact ho.2
    obtain ⟨tag, e, he, hl, ht, hn, _⟩ := written_form (.polyvar vs) ho b hf
    have hw : toBytes (BTy.polyvar vs).wire (toWire (.polyvar vs) b) =
        flush (BinProt.writePolyvar (vs.wire.variantName (toWireVar vs b))) ++ flush (encodeSum vs.wire (toWireVar vs b)) :=
      BinProt.flush_append _ _
    have hx : (flush (BinProt.writePolyvar (vs.wire.variantName (toWireVar vs b)))).length = 4 := by
      simp [BinProt.writePolyvar, BinProt.binWritePolyvarTag, BinProt.WOp.bytes, leBytes_length]
    obtain ⟨h1, _⟩ := List.append_inj (hw.symm.trans he) (by rw [hx, hl])
    rw [hw, h1]
    exact ⟨tag, _, rfl, hl, ht, hn, formVar_written vs ho' b hf.2⟩
theorem formAll_written : (ts : BTys) → OrdinaryAll ts = true → (b : ts.prod) → FitsProd ts.wire (toWireAll ts b) →
    FormAll Version1 ts (flush (encodeProd ts.wire (toWireAll ts b))) b
  | .nil, _ => fun _ _ => rfl
  | .cons n t ts, ho => fun b hf => by
    simp only [OrdinaryAll, Bool.and_eq_true, decide_eq_true_eq] at ho
    obtain ⟨a, b⟩ : t.base × ts.prod := b
    refine ⟨toBytes t.wire (toWire t a), flush (encodeProd ts.wire (toWireAll ts b)), ?_,
      form_written t ho.1.2 a hf.1, formAll_written ts ho.2 b hf.2⟩
    exact BinProt.flush_append _ _
theorem formVar_written : (vs : BTys) → OrdinaryVar vs = true → (b : vs.sum) → FitsSum vs.wire (toWireVar vs b) →
    FormVar Version1 vs (flush (encodeSum vs.wire (toWireVar vs b))) b
  | .nil, _ => fun b _ => nomatch (show Empty from b)
  | .cons n t ts, ho => fun b hf => by
    simp only [OrdinaryVar, Bool.and_eq_true] at ho
    obtain w | w : t.base ⊕ ts.sum := b
    · exact form_written t ho.1 w hf
    · exact formVar_written ts ho.2 w hf
end

/-! ## Reading and writing -/

/-- What is written is a form with every version number 1. -/
theorem codec_written_form (t : BTy) (ho : Ordinary t = true) (b : t.base) (hm : InMemory t b) (hs : Small t b) :
    Form Version1 t (tryIntoBinprot t b) b := form_written t ho b ((fits_iff t ho b).mpr ⟨hm, hs⟩)

/-- Every form of a value is read as that value. -/
theorem codec_reads_forms (t : BTy) (ho : Ordinary t = true) (enc : Bytes) (b : t.base) (h : Form AnyVersion t enc b)
    (sched : List REv) (hs : NoReadErrors sched) : tryFromBinprot t ⟨enc, sched⟩ = .ok b := by
  obtain ⟨v, hv, hb⟩ := (form_iff t enc b).mp h
  rw [codec_read t ho enc v hv sched hs, hb]

/-- Whatever is read as a value starts with a form of it. -/
theorem codec_read_is_form (t : BTy) (ho : Ordinary t = true) (data : Bytes) (b : t.base) (sched : List REv)
    (hs : NoReadErrors sched) (h : tryFromBinprot t ⟨data, sched⟩ = .ok b) :
    ∃ enc r, data = enc ++ r ∧ Form AnyVersion t enc b := by
  obtain ⟨h1, h2, h3⟩ := BinProt.C10_strict_partial t.wire data sched hs
  have fin : ∀ v r, (decode t.wire).run data = .ok (v, r) → BinProt.fromReaderStrict t.wire ⟨data, sched⟩ = .ok v →
      ∃ enc r, data = enc ++ r ∧ Form AnyVersion t enc b := by
    intro v r hd hf
    obtain ⟨enc, he, hw⟩ := (BinProt.C09_accepts_exactly_wire_forms t.wire (wf_of_ordinary t ho) data v r).mp hd
    unfold tryFromBinprot at h
    rw [hf] at h
    exact ⟨enc, r, he, (form_iff t enc b).mpr ⟨v, hw, h⟩⟩
  cases hd : (decode t.wire).run data with
  | error e =>
    unfold tryFromBinprot at h
    rw [h1 e hd] at h
    cases h
  | ok p =>
    obtain ⟨v, r⟩ := p
    by_cases hr : r = []
    · subst hr
      exact fin v [] hd (h2 v hd)
    · rcases h3 v r hd hr with h' | ⟨n, _, _, h'⟩
      · exact fin v r hd h'
      · unfold tryFromBinprot at h
        rw [h'] at h
        cases h

end MinaRs.Block
