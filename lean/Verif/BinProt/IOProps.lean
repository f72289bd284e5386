import Verif.BinProt.SerdeProps
import Verif.BinProt.IOLemmas

/-!
# Properties C10, C11, C12, C63 (streams)

Model: `IO.lean`.  The reference behaviour is `Prog.run` on the whole byte list.
-/

namespace MinaRs.BinProt
open Prog Spec

/-- The reader never reports an error other than an interruption. -/
def NoReadErrors (sched : List REv) : Prop := REv.error ∉ sched

/-! ## C11 -/

/-- **C11.** For every type, every byte stream and every schedule of short and interrupted
reads: the decode gives the same value or the same error as on the whole byte string, and leaves
the same bytes unconsumed (in the buffer followed by the stream). -/
theorem C11_chunk_independent (t : Ty) (data : Bytes) (sched : List REv) (h : NoReadErrors sched) :
    (∀ e, (decode t).run data = .error e → fromReader t ⟨data, sched⟩ = .error e) ∧
    (∀ v r, (decode t).run data = .ok (v, r) →
      ∃ b, fromReader t ⟨data, sched⟩ = .ok (v, b) ∧ b.buf ++ b.src.data = r) := by
  have key := Prog.runBuf_eq (decode t) (BufReader.new ⟨data, sched⟩)
  have hr : (BufReader.new ⟨data, sched⟩).rest = data := rfl
  rw [hr] at key
  rcases key with ⟨-, hm⟩ | ⟨e, h1, h2⟩ | ⟨a, r, b', h1, h2, h3⟩
  · exact absurd hm h
  · refine ⟨fun e' he => ?_, fun v r hv => ?_⟩
    · rw [h1] at he; cases he; exact h2
    · rw [h1] at hv; cases hv
  · refine ⟨fun e' he => ?_, fun v r' hv => ?_⟩
    · rw [h1] at he; cases he
    · rw [h1] at hv; cases hv; exact ⟨b', h2, h3⟩

/-- **C11 (failing readers).** If the reader does fail, the decode gives the in-memory result or
reports the reader's error: never a different value. -/
theorem C11_failing_reader (t : Ty) (data : Bytes) (sched : List REv) (v : t.denote) (b : BufReader)
    (h : fromReader t ⟨data, sched⟩ = .ok (v, b)) :
    (decode t).run data = .ok (v, b.buf ++ b.src.data) := by
  have key := Prog.runBuf_eq (decode t) (BufReader.new ⟨data, sched⟩)
  have hr : (BufReader.new ⟨data, sched⟩).rest = data := rfl
  rw [hr] at key
  unfold fromReader at h
  rcases key with ⟨h1, -⟩ | ⟨e, h1, h2⟩ | ⟨a, r, b', h1, h2, h3⟩
  · rw [h] at h1; cases h1
  · rw [h] at h2; cases h2
  · rw [h] at h2; cases h2; rw [h1, ← h3]; rfl

example : NoReadErrors [.chunk 0, .interrupted, .chunk 0, .chunk 0] ∧
    fromReader (.int .u16) ⟨[0xfe, 0x2c, 0x01, 0x09], [.chunk 0, .interrupted, .chunk 0, .chunk 0]⟩ =
      .ok (⟨300, by decide⟩, ⟨[], ⟨[0x09], []⟩⟩) := ⟨by unfold NoReadErrors; decide, rfl⟩

/-! ## C10 -/

/-- **C10 (part, all schedules).** Exactly consumed input is accepted; input that does not
decode is refused with the same error; with bytes left over the result is the value or
`StreamNotFullyConsumed` with a positive count of left over bytes.  Missing: that left over
bytes are *always* reported (`C10_trailing_bytes_fails`). -/
theorem C10_strict_partial (t : Ty) (data : Bytes) (sched : List REv) (h : NoReadErrors sched) :
    (∀ e, (decode t).run data = .error e → fromReaderStrict t ⟨data, sched⟩ = .error e) ∧
    (∀ v, (decode t).run data = .ok (v, []) → fromReaderStrict t ⟨data, sched⟩ = .ok v) ∧
    (∀ v r, (decode t).run data = .ok (v, r) → r ≠ [] →
      fromReaderStrict t ⟨data, sched⟩ = .ok v ∨
      ∃ n, 0 < n ∧ n ≤ r.length ∧ fromReaderStrict t ⟨data, sched⟩ = .error (.streamNotFullyConsumed n)) := by
  obtain ⟨h1, h2⟩ := C11_chunk_independent t data sched h
  unfold fromReaderStrict
  refine ⟨fun e he => by rw [h1 e he], fun v hv => ?_, fun v r hv hr => ?_⟩
  · obtain ⟨b, hb, hrest⟩ := h2 v [] hv
    rw [hb]
    simp only
    rw [if_pos]
    have := congrArg List.length hrest
    simp at this
    simp [this.1]
  · obtain ⟨b, hb, hrest⟩ := h2 v r hv
    rw [hb]
    simp only
    by_cases hz : b.buf.length = 0
    · left; rw [if_pos hz]
    · right
      refine ⟨b.buf.length, by omega, ?_, by rw [if_neg hz]⟩
      rw [← hrest]; simp

/-- **C10 (part, whole input in one read).** When the reader hands out everything it is asked for
(a byte slice, a whole file), the input fits the 8 KiB buffer and the type reads at least one
byte, the strict decoder accepts exactly the inputs that are fully consumed and reports the
number of bytes left over otherwise. -/
theorem C10_strict_slice_partial (t : Ty) (data : Bytes) (hlen : data.length ≤ 8192)
    (v : t.denote) (r : Bytes) (h : (decode t).run data = .ok (v, r)) (hread : r.length < data.length) :
    fromReaderStrict t ⟨data, []⟩ = if r = [] then .ok v else .error (.streamNotFullyConsumed r.length) := by
  obtain ⟨b, hb, hrest⟩ := (C11_chunk_independent t data [] (by simp [NoReadErrors])).2 v r h
  have hf : (BufReader.new ⟨data, []⟩).Fresh := ⟨rfl, rfl, hlen⟩
  have hbuf : b.buf = r := by
    rcases Prog.runBuf_drained (decode t) (.inr hf) hb with hd | ⟨-, rfl⟩
    · rw [hd.2] at hrest; simpa using hrest
    · exfalso
      have : r = data := by rw [← hrest]; rfl
      subst this; omega
  unfold fromReaderStrict
  rw [hb]
  simp only [hbuf, List.length_eq_zero_iff]

example : (decode (.seq .bool)).run [0x01, 0x01, 0xff, 0xff] = .ok ([true], [0xff, 0xff]) ∧
    fromReaderStrict (.seq .bool) ⟨[0x01, 0x01, 0xff, 0xff], []⟩ = .error (.streamNotFullyConsumed 2) :=
  ⟨rfl, rfl⟩

/-- Reading fewer bytes than the buffer holds fills the buffer once. -/
theorem Prog.runBuf_small {α : Type} (p : Prog α) (data : Bytes) (a : α) (r : Bytes) (h : p.run data = .ok (a, r))
    (h0 : r.length < data.length) (h1 : data.length < r.length + 8192) :
    p.runBuf ⟨[], ⟨data, []⟩⟩ = .ok (a, ⟨(data.take 8192).drop (data.length - r.length), ⟨data.drop 8192, []⟩⟩) := by
  induction p generalizing data with
  | ret x => cases h; omega
  | fail e => cases h
  | read k c ih =>
    simp only [Prog.run] at h
    split at h
    · cases h
    rename_i hk
    by_cases hk0 : k = 0
    · subst hk0
      simp only [List.take_zero, List.drop_zero] at h
      simp only [Prog.runBuf, BufReader.readExact, List.length_nil, Nat.le_refl, ↓reduceIte, List.take_nil, List.drop_nil]
      exact ih [] data h h0 h1
    · obtain ⟨cc, h2, h3⟩ := Prog.prefix_stable _ _ _ _ h
      have hl := congrArg List.length h2
      simp only [List.length_drop, List.length_append] at hl
      have hne : data.take 8192 ≠ [] := by
        intro hd
        have := congrArg List.length hd
        simp only [List.length_take, List.length_nil] at this
        omega
      have hread : BufReader.readExact ⟨[], ⟨data, []⟩⟩ k =
          .ok (data.take k, ⟨(data.take 8192).drop k, ⟨data.drop 8192, []⟩⟩) := by
        have ht : (data.take 8192).take k = data.take k := by rw [List.take_take, Nat.min_eq_left (by omega)]
        have hlt : (data.take k).length = k := by rw [List.length_take]; omega
        have hnk : data.take k ≠ [] := by intro hd; rw [hd] at hlt; exact hk0 hlt.symm
        unfold BufReader.readExact
        rw [if_neg (by simp only [List.length_nil]; omega)]
        simp only [List.length_nil, Nat.add_zero]
        unfold BufReader.readExactLoop
        rw [if_neg hk0]
        have hcap : ¬ bufCapacity ≤ k := by simp only [bufCapacity]; omega
        simp only [BufReader.read, hcap, ↓reduceIte, Source.read]
        simp only [show bufCapacity = 8192 from rfl, ht]
        rw [if_neg hnk, hlt, Nat.sub_self]
        obtain ⟨k', rfl⟩ := Nat.exists_eq_succ_of_ne_zero hk0
        simp [BufReader.readExactLoop]
      simp only [Prog.runBuf, hread]
      have hd : (data.take 8192).drop k = cc ++ r.take (8192 - k - cc.length) := by
        rw [List.drop_take, h2, List.take_append, List.take_of_length_le (by omega)]
      rw [Prog.runBuf_inside _ _ _ _ _ (by rw [hd]; exact h3 _)]
      have he : List.drop (data.length - r.length) (List.take 8192 data) = r.take (8192 - k - cc.length) := by
        rw [show data.length - r.length = k + cc.length by omega, ← List.drop_drop, hd, List.drop_left]
      rw [he]

/-- **C10 (part, small values in memory).** However long the input, if the value takes at least one byte and
fewer than 8 KiB, the strict decoder accepts exactly the inputs that are fully consumed; otherwise it reports the bytes left
over in the first 8 KiB. -/
theorem C10_strict_small_partial (t : Ty) (data : Bytes) (v : t.denote) (r : Bytes) (h : (decode t).run data = .ok (v, r))
    (h0 : r.length < data.length) (h1 : data.length < r.length + 8192) :
    fromReaderStrict t ⟨data, []⟩ = if r = [] then .ok v else
      .error (.streamNotFullyConsumed (min data.length 8192 - (data.length - r.length))) := by
  have hb := Prog.runBuf_small (decode t) data v r h h0 h1
  unfold fromReaderStrict fromReader BufReader.new
  rw [hb]
  simp only [List.length_drop, List.length_take]
  by_cases hr : r = []
  · subst hr
    rw [if_pos (by simp; omega), if_pos rfl]
  · have : 0 < r.length := List.length_pos_iff.mpr hr
    rw [if_neg (by omega), if_neg hr, Nat.min_comm]

example (trailing : Bytes) (h : trailing ≠ []) : fromReaderStrict .bool ⟨0x01 :: trailing, []⟩ =
    .error (.streamNotFullyConsumed (min trailing.length 8191)) := by
  rw [C10_strict_small_partial .bool (0x01 :: trailing) true trailing rfl (by simp) (by simp), if_neg h]
  simp only [List.length_cons, Except.error.injEq, Err.streamNotFullyConsumed.injEq]
  omega

/-- **C10** is false when the reader's chunks end where the value ends: trailing bytes are not
noticed. -/
theorem C10_trailing_bytes_fails (trailing : Bytes) :
    fromReaderStrict .bool ⟨0x01 :: trailing, [.chunk 0]⟩ = .ok true := by
  cases trailing <;> rfl

/-- **C10** is false even for in-memory input when the value ends at the buffer boundary: a value
of 8192 bytes (a string of 8189 bytes with its length) followed by anything is accepted. -/
theorem C10_buffer_boundary_fails (s : String) (hs : (utf8 s).length = 8189) (trailing : Bytes) :
    fromReaderStrict .string ⟨toBytes .string s ++ trailing, []⟩ = .ok s := by
  have hrun := C07_typed_roundtrip_partial .string s (by show (utf8 s).length < 2 ^ 63; rw [hs]; decide) []
  simp only [List.append_nil] at hrun
  have hlen : (toBytes .string s).length = 8192 := by
    show (flush ((binWriteNat0 (utf8 s).length).1 ++ [.all (utf8 s)])).length = 8192
    rw [hs]
    simp [binWriteNat0, WOp.bytes, hs]
  generalize toBytes .string s = enc at hrun hlen
  obtain ⟨x, enc, rfl⟩ : ∃ x e, enc = x :: e := by
    cases enc with
    | nil => simp at hlen
    | cons x e => exact ⟨x, e, rfl⟩
  obtain ⟨c, hc⟩ : ∃ c, decode .string = .read 1 c := ⟨_, rfl⟩
  rw [hc] at hrun
  simp only [Prog.run, List.length_cons, List.drop_succ_cons, List.drop_zero, List.take_succ_cons, List.take_zero] at hrun
  rw [if_neg (by omega)] at hrun
  simp only [List.length_cons] at hlen
  unfold fromReaderStrict fromReader
  rw [hc]
  have hread : (BufReader.new ⟨x :: enc ++ trailing, []⟩).readExact 1 = .ok ([x], ⟨enc, ⟨trailing, []⟩⟩) := by
    have e1 : List.take bufCapacity (x :: enc ++ trailing) = x :: enc := by
      rw [List.take_append_of_le_length (by simp [bufCapacity]; omega), List.take_of_length_le (by simp [bufCapacity]; omega)]
    have e2 : List.drop bufCapacity (x :: enc ++ trailing) = trailing := by
      rw [List.drop_append_of_le_length (by simp [bufCapacity]; omega), List.drop_of_length_le (by simp [bufCapacity]; omega)]
      rfl
    have hb : (BufReader.new ⟨x :: enc ++ trailing, []⟩).read 1 = (.bytes [x], ⟨enc, ⟨trailing, []⟩⟩) := by
      unfold BufReader.read BufReader.new Source.read
      simp only [if_true]
      rw [if_neg (by decide), e1, e2]
      rfl
    unfold BufReader.readExact
    rw [if_neg (by simp [BufReader.new])]
    unfold BufReader.readExactLoop
    simp only [hb]
    rfl
  simp only [Prog.runBuf, hread]
  rw [Prog.runBuf_inside _ enc _ _ _ hrun]
  rfl

theorem utf8_replicate_length (n : Nat) : (utf8 (String.ofList (List.replicate n 'a'))).length = n := by
  induction n with
  | zero => rfl
  | succ n ih =>
    simp only [utf8, String.toUTF8, String.toByteArray_ofList] at ih ⊢
    rw [List.replicate_succ, List.utf8Encode_cons]
    simp at ih ⊢
    rw [ih]
    have : (List.utf8Encode ['a']).size = 1 := by decide
    omega

example : ∃ s : String, (utf8 s).length = 8189 := ⟨_, utf8_replicate_length 8189⟩

/-- **C10** is false for types that read nothing (a struct without fields): any input passes. -/
theorem C10_empty_struct_fails (data : Bytes) : fromReaderStrict (.struct .nil) ⟨data, []⟩ = .ok () := rfl

/-! ## C12 -/

mutual
/-- Types without floats and polymorphic variants, whose enums have at most 256 variants: their
serialization uses `write_all` only. -/
def WholeTy : Ty → Prop
  | .f32 => False
  | .f64 => False
  | .polyvar _ => False
  | .option t => WholeTy t
  | .newtype t => WholeTy t
  | .seq t => WholeTy t
  | .tuple ts => WholeTys ts
  | .struct ts => WholeTys ts
  | .enum vs => vs.length ≤ 256 ∧ WholeTys vs
  | _ => True
def WholeTys : Tys → Prop
  | .nil => True
  | .cons _ t ts => WholeTy t ∧ WholeTys ts
end

theorem AllWhole.append {a b : List WOp} (ha : AllWhole a) (hb : AllWhole b) : AllWhole (a ++ b) := by
  intro op h
  rcases List.mem_append.mp h with h | h
  · exact ha op h
  · exact hb op h

theorem binWriteNat0_whole (n : Nat) : AllWhole (binWriteNat0 n).1 := by
  unfold binWriteNat0 AllWhole
  repeat' split
  all_goals simp

theorem binWriteInteger_whole (n : Int) : AllWhole (binWriteInteger n).1 := by
  unfold binWriteInteger AllWhole
  repeat' split
  all_goals simp

theorem single_whole (bs : Bytes) : AllWhole [.all bs] := by simp [AllWhole]

mutual
theorem encode_whole : (t : Ty) → WholeTy t → (v : t.denote) → AllWhole (encode t v)
  | .unit, _, _ => single_whole _
  | .bool, _, _ => single_whole _
  | .u8, _, _ => single_whole _
  | .int _, _, _ => binWriteInteger_whole _
  | .f32, h, _ => by simp [WholeTy] at h
  | .f64, h, _ => by simp [WholeTy] at h
  | .char, _, _ => single_whole _
  | .string, _, _ => (binWriteNat0_whole _).append (single_whole _)
  | .option t, h, v => by
    rcases v with _ | v
    · exact single_whole _
    · simp only [encode]
      exact AllWhole.append (a := [.all [0x01]]) (single_whole _) (encode_whole t (by simpa [WholeTy] using h) v)
  | .newtype t, h, v => by
    simp only [encode]; exact encode_whole t (by simpa [WholeTy] using h) v
  | .seq t, h, v => by
    simp only [encode]
    refine (binWriteNat0_whole _).append ?_
    intro op hop
    obtain ⟨w, -, hw⟩ := List.mem_flatMap.mp hop
    exact encode_whole t (by simpa [WholeTy] using h) w op hw
  | .tuple ts, h, v => by
    simp only [encode]; exact encodeProd_whole ts (by simpa [WholeTy] using h) v
  | .struct ts, h, v => by
    simp only [encode]; exact encodeProd_whole ts (by simpa [WholeTy] using h) v
  | .enum vs, h, v => by
    simp only [WholeTy] at h
    simp only [encode, writeVariantIndex]
    have := Tys.index_lt_length vs v
    rw [if_pos (by omega)]
    exact AllWhole.append (single_whole _) (encodeSum_whole vs h.2 v)
  | .polyvar _, h, _ => by simp [WholeTy] at h
theorem encodeProd_whole : (ts : Tys) → WholeTys ts → (v : ts.prod) → AllWhole (encodeProd ts v)
  | .nil, _, _ => by intro op h; cases h
  | .cons _ t ts, h, v => by
    simp only [WholeTys] at h
    simp only [encodeProd]
    exact (encode_whole t h.1 _).append (encodeProd_whole ts h.2 _)
theorem encodeSum_whole : (vs : Tys) → WholeTys vs → (v : vs.sum) → AllWhole (encodeSum vs v)
  | .nil, _, v => nomatch (show Empty from v)
  | .cons _ t ts, h, v => by
    simp only [WholeTys] at h
    rcases v with w | w
    · simp only [encodeSum]; exact encode_whole t h.1 w
    · simp only [encodeSum]; exact encodeSum_whole ts h.2 w
end

/-- **C12 (part).** For types without floats and polymorphic variants: whenever serialization
reports success the sink received exactly the encoding, for every schedule of accepted byte
counts, interruptions and errors.  Missing: floats and polymorphic variants, written with a bare
`write` whose count is ignored (`C12_float_sink_fails`, `C12_polyvar_sink_fails`). -/
theorem C12_sink_independent_partial (t : Ty) (h : WholeTy t) (v : t.denote) (s s' : Sink)
    (hok : toWriter t v s = (.ok (), s')) : s'.got = s.got ++ toBytes t v :=
  runOps_whole _ s s' (encode_whole t h v) hok

/-- A sink that accepts at least 8 bytes whenever it accepts anything. -/
def Roomy (sched : List WEv) : Prop := ∀ n, WEv.accept n ∈ sched → 8 ≤ n

/-- Bare `write` calls are for at most 8 bytes. -/
def SmallOnce (ops : List WOp) : Prop := ∀ bs, WOp.once bs ∈ ops → bs.length ≤ 8

theorem SmallOnce.append {a b : List WOp} (ha : SmallOnce a) (hb : SmallOnce b) : SmallOnce (a ++ b) := by
  intro bs h
  rcases List.mem_append.mp h with h | h
  · exact ha bs h
  · exact hb bs h

theorem AllWhole.smallOnce {ops : List WOp} (h : AllWhole ops) : SmallOnce ops := by
  intro bs hb
  obtain ⟨_, h⟩ := h _ hb
  cases h

mutual
theorem encode_smallOnce : (t : Ty) → (v : t.denote) → SmallOnce (encode t v)
  | .unit, _ => (single_whole _).smallOnce
  | .bool, _ => (single_whole _).smallOnce
  | .u8, _ => (single_whole _).smallOnce
  | .int _, _ => (binWriteInteger_whole _).smallOnce
  | .f32, _ => by intro bs h; simp [encode, binWriteFloat32] at h; simp [h]
  | .f64, _ => by intro bs h; simp [encode, binWriteFloat64] at h; simp [h]
  | .char, _ => (single_whole _).smallOnce
  | .string, _ => ((binWriteNat0_whole _).append (single_whole _)).smallOnce
  | .option t, v => by
    rcases v with _ | v
    · exact (single_whole _).smallOnce
    · simp only [encode]
      exact SmallOnce.append (a := [.all [0x01]]) (single_whole _).smallOnce (encode_smallOnce t v)
  | .newtype t, v => by simp only [encode]; exact encode_smallOnce t v
  | .seq t, v => by
    simp only [encode]
    refine (binWriteNat0_whole _).smallOnce.append ?_
    intro op hop
    obtain ⟨w, -, hw⟩ := List.mem_flatMap.mp hop
    exact encode_smallOnce t w op hw
  | .tuple ts, v => by simp only [encode]; exact encodeProd_smallOnce ts v
  | .struct ts, v => by simp only [encode]; exact encodeProd_smallOnce ts v
  | .enum vs, v => by
    simp only [encode, writeVariantIndex]
    refine SmallOnce.append ?_ (encodeSum_smallOnce vs v)
    split
    · exact (single_whole _).smallOnce
    · intro bs h; simp [binWritePolyvarTag] at h; simp [h]
  | .polyvar vs, v => by
    simp only [encode, writePolyvar]
    refine SmallOnce.append ?_ (encodeSum_smallOnce vs v)
    intro bs h; simp [binWritePolyvarTag] at h; simp [h]
theorem encodeProd_smallOnce : (ts : Tys) → (v : ts.prod) → SmallOnce (encodeProd ts v)
  | .nil, _ => by intro op h; cases h
  | .cons _ t ts, v => by
    simp only [encodeProd]
    exact (encode_smallOnce t _).append (encodeProd_smallOnce ts _)
theorem encodeSum_smallOnce : (vs : Tys) → (v : vs.sum) → SmallOnce (encodeSum vs v)
  | .nil, v => nomatch (show Empty from v)
  | .cons _ t ts, v => by
    rcases v with w | w
    · simp only [encodeSum]; exact encode_smallOnce t w
    · simp only [encodeSum]; exact encodeSum_smallOnce ts w
end

theorem Sink.write_sched (s : Sink) (bs : Bytes) : (s.write bs).2.sched <:+ s.sched := by
  obtain ⟨got, sched⟩ := s
  rcases sched with _ | ⟨_ | _ | _, es⟩ <;> simp [Sink.write]

theorem writeAllLoop_sched (fuel : Nat) : ∀ (s : Sink) (bs : Bytes),
    (s.writeAllLoop fuel bs).2.sched <:+ s.sched := by
  induction fuel with
  | zero => intro s bs; exact List.suffix_refl _
  | succ fuel ih =>
    intro s bs
    unfold Sink.writeAllLoop
    split
    · exact List.suffix_refl _
    · have := s.write_sched bs
      cases hw : s.write bs with
      | mk r s1 =>
        rw [hw] at this
        rcases r with (_ | _ | _) | n
        · exact this
        · exact (ih _ _).trans this
        · exact this
        · rcases n with _ | n
          · exact this
          · exact (ih _ _).trans this

theorem runOps_roomy : ∀ (ops : List WOp) (s s' : Sink), SmallOnce ops → Roomy s.sched →
    s.runOps ops = (.ok (), s') → s'.got = s.got ++ flush ops := by
  intro ops
  induction ops with
  | nil => intro s s' _ _ h; simp only [Sink.runOps, Prod.mk.injEq, true_and] at h; subst h; simp
  | cons op ops ih =>
    intro s s' hs hroom h
    have hs' : SmallOnce ops := fun bs hb => hs bs (by simp [hb])
    cases op with
    | all bs =>
      simp only [Sink.runOps, Sink.step] at h
      have hsuf := writeAllLoop_sched (bs.length + s.sched.length + 1) s bs
      rcases writeAllLoop_spec _ s bs (Nat.le_refl _) with ⟨s'', h1, h2⟩ | ⟨e, s'', p, h1, -⟩
      · rw [h1] at h hsuf
        rw [ih s'' s' hs' (fun n hn => hroom n (hsuf.subset hn)) h, h2]
        simp [WOp.bytes, List.append_assoc]
      · rw [h1] at h; simp at h
    | once bs =>
      have hlen := hs bs (by simp)
      obtain ⟨got, sched⟩ := s
      simp only [Sink.runOps, Sink.step] at h
      rcases sched with _ | ⟨⟨n⟩ | _ | _, es⟩
      · simp only [Sink.write] at h
        rw [ih _ s' hs' (by intro n hn; cases hn) h]
        simp [WOp.bytes, List.append_assoc]
      · simp only [Sink.write] at h
        have hn : 8 ≤ n := hroom n (by simp)
        rw [ih _ s' hs' (fun m hm => hroom m (by simp [hm])) h]
        rw [List.take_of_length_le (by omega)]
        simp [WOp.bytes, List.append_assoc]
      · simp [Sink.write] at h
      · simp [Sink.write] at h

/-- **C12 (part).** For all types, with sinks that accept at least 8 bytes per call (or
interrupt, or fail): success means that the whole encoding arrived. -/
theorem C12_roomy_sink_partial (t : Ty) (v : t.denote) (s s' : Sink) (h : Roomy s.sched)
    (hok : toWriter t v s = (.ok (), s')) : s'.got = s.got ++ toBytes t v :=
  runOps_roomy _ s s' (encode_smallOnce t v) h hok

example : WholeTy (.seq (.int .i32)) ∧
    toWriter (.seq (.int .i32)) [⟨300, by decide⟩, ⟨-1, by decide⟩] ⟨[], [.accept 1, .interrupted, .accept 1, .accept 1, .accept 5]⟩ =
      (.ok (), ⟨[0x02, 0xfe, 0x2c, 0x01, 0xff, 0xff], []⟩) := ⟨by simp [WholeTy], rfl⟩

/-- **C12** is false for floats: whatever the number, a sink that takes `n` of its bytes in the first call gets these `n` bytes
(none, one, ...) and no more, and serialization reports success. -/
theorem C12_float_sink_fails (n : Nat) (got : Bytes) (sched : List WEv) :
    (∀ v : UInt64, (toBytes .f64 v).length = 8 ∧
      toWriter .f64 v ⟨got, .accept n :: sched⟩ = (.ok (), ⟨got ++ (toBytes .f64 v).take n, sched⟩)) ∧
    (∀ v : UInt32, (toBytes .f32 v).length = 4 ∧
      toWriter .f32 v ⟨got, .accept n :: sched⟩ = (.ok (), ⟨got ++ (toBytes .f32 v).take n, sched⟩)) := by
  refine ⟨fun v => ⟨?_, ?_⟩, fun v => ⟨?_, ?_⟩⟩
  · show (leBytes 8 v.toNat ++ []).length = 8; simp
  · show (_, (⟨got ++ (leBytes 8 v.toNat).take n, sched⟩ : Sink)) = (_, ⟨got ++ (leBytes 8 v.toNat ++ []).take n, sched⟩)
    rw [List.append_nil]
  · show (leBytes 4 v.toNat ++ []).length = 4; simp
  · show (_, (⟨got ++ (leBytes 4 v.toNat).take n, sched⟩ : Sink)) = (_, ⟨got ++ (leBytes 4 v.toNat ++ []).take n, sched⟩)
    rw [List.append_nil]

example : toWriter .f64 (0x0807060504030201 : UInt64) ⟨[], [.accept 1]⟩ = (.ok (), ⟨[0x01], []⟩) ∧
    toBytes .f64 (0x0807060504030201 : UInt64) = [0x01, 0x02, 0x03, 0x04, 0x05, 0x06, 0x07, 0x08] := ⟨rfl, rfl⟩

/-- **C12** is false for polymorphic variant tags, whatever the label. -/
theorem C12_polyvar_sink_fails (label : String) (n : Nat) (got : Bytes) (sched : List WEv) :
    (toBytes (.polyvar (.cons label (.tuple .nil) .nil)) (Sum.inl ())).length = 4 ∧
    toWriter (.polyvar (.cons label (.tuple .nil) .nil)) (Sum.inl ()) ⟨got, .accept n :: sched⟩ =
      (.ok (), ⟨got ++ (toBytes (.polyvar (.cons label (.tuple .nil) .nil)) (Sum.inl ())).take n, sched⟩) := by
  have e : toBytes (.polyvar (.cons label (.tuple .nil) .nil)) (Sum.inl ()) =
      leBytes 4 ((camlHashVariant (utf8 label) <<< 1) ||| 1).toNat ++ [] := rfl
  rw [e, List.append_nil]
  exact ⟨by simp, rfl⟩

example : toWriter (.polyvar (.cons "One" (.tuple .nil) .nil)) (Sum.inl ()) ⟨[], [.accept 0]⟩ = (.ok (), ⟨[], []⟩) ∧
    toBytes (.polyvar (.cons "One" (.tuple .nil) .nil)) (Sum.inl ()) = [0x8d, 0xa4, 0x78, 0x00] := ⟨rfl, rfl⟩

/-! ## C63 -/

/-- **C63 (part, one deserializer).** Reading a second value from the *same* `Deserializer` continues
exactly where the first ended: for every schedule the two values are those of the in-memory
decode, one after the other.  Missing: two `from_reader` calls on one reader
(`C63_second_from_reader_fails`). -/
theorem C63_reuse_deserializer_partial (t u : Ty) (v : t.denote) (w : u.denote) (hv : Fits t v)
    (hw : Fits u w) (rest : Bytes) (sched : List REv) (h : NoReadErrors sched) :
    ∃ b b', fromReader t ⟨toBytes t v ++ toBytes u w ++ rest, sched⟩ = .ok (v, b) ∧
      (decode u).runBuf b = .ok (w, b') ∧ b'.buf ++ b'.src.data = rest := by
  have hrun : (decode t >>= fun a => decode u >>= fun c => Prog.ret (a, c)).run
      (toBytes t v ++ toBytes u w ++ rest) = .ok ((v, w), rest) := by
    rw [List.append_assoc, run_bind_ok (C07_typed_roundtrip_partial t v hv _),
      run_bind_ok (C07_typed_roundtrip_partial u w hw _)]
    rfl
  rcases Prog.runBuf_eq (decode t >>= fun a => decode u >>= fun c => Prog.ret (a, c))
    (BufReader.new ⟨toBytes t v ++ toBytes u w ++ rest, sched⟩) with ⟨-, hm⟩ | ⟨e, h1, -⟩ | ⟨a, r, b', h1, h2, h3⟩
  · exact absurd hm h
  · have : (BufReader.new ⟨toBytes t v ++ toBytes u w ++ rest, sched⟩).rest = toBytes t v ++ toBytes u w ++ rest := rfl
    rw [this, hrun] at h1; cases h1
  · have : (BufReader.new ⟨toBytes t v ++ toBytes u w ++ rest, sched⟩).rest = toBytes t v ++ toBytes u w ++ rest := rfl
    rw [this, hrun] at h1
    cases h1
    rw [Prog.runBuf_bind] at h2
    unfold fromReader
    cases h4 : (decode t).runBuf (BufReader.new ⟨toBytes t v ++ toBytes u w ++ rest, sched⟩) with
    | error e => rw [h4] at h2; cases h2
    | ok x =>
      obtain ⟨v', b⟩ := x
      rw [h4] at h2
      simp only [Prog.runBuf_bind] at h2
      cases h5 : (decode u).runBuf b with
      | error e => rw [h5] at h2; cases h2
      | ok y =>
        obtain ⟨w', b2⟩ := y
        rw [h5] at h2
        simp only [Prog.runBuf, Except.ok.injEq, Prod.mk.injEq] at h2
        obtain ⟨⟨rfl, rfl⟩, rfl⟩ := h2
        exact ⟨b, b2, rfl, h5, h3⟩

/-- The program of a caller that reads a value of each of the given types, one after the other, from one `Deserializer`
(`protocol/bin-prot/src/de.rs:24-42`). -/
def readAll : List Ty → BufReader → Except Err (List ((t : Ty) × t.denote) × BufReader)
  | [], b => .ok ([], b)
  | t :: ts, b =>
    match (decode t).runBuf b with
    | .error e => .error e
    | .ok (v, b) =>
      match readAll ts b with
      | .error e => .error e
      | .ok (vs, b) => .ok (⟨t, v⟩ :: vs, b)

/-- The same in memory (`protocol/bin-prot/src/de.rs:24-42`). -/
def readAllProg : List Ty → Prog (List ((t : Ty) × t.denote))
  | [] => .ret []
  | t :: ts => decode t >>= fun v => readAllProg ts >>= fun vs => .ret (⟨t, v⟩ :: vs)

theorem readAll_eq : ∀ ts b, readAll ts b = (readAllProg ts).runBuf b
  | [], b => rfl
  | t :: ts, b => by
    rw [readAll, readAllProg, Prog.runBuf_bind]
    cases (decode t).runBuf b with
    | error e => rfl
    | ok x =>
      simp only [Prog.runBuf_bind, ← readAll_eq ts]
      cases readAll ts x.2 <;> rfl

theorem readAllProg_run : ∀ (ms : List ((t : Ty) × t.denote)), (∀ m ∈ ms, Fits m.1 m.2) → ∀ rest,
    (readAllProg (ms.map (·.1))).run (ms.flatMap (fun m => toBytes m.1 m.2) ++ rest) = .ok (ms, rest)
  | [], _, _ => rfl
  | ⟨t, v⟩ :: ms, h, rest => by
    simp only [List.map_cons, readAllProg, List.flatMap_cons, List.append_assoc]
    rw [run_bind_ok (C07_typed_roundtrip_partial t v (h _ List.mem_cons_self) _),
      run_bind_ok (readAllProg_run ms (fun m hm => h m (List.mem_cons_of_mem _ hm)) rest)]
    rfl

/-- **C63 (part, any number of messages).** Any list of messages, of whatever types, written back to back is read back from one
`Deserializer` as the same list, in whatever pieces the bytes arrive, and what follows is left. -/
theorem C63_stream_partial (ms : List ((t : Ty) × t.denote)) (hf : ∀ m ∈ ms, Fits m.1 m.2) (rest : Bytes) (sched : List REv)
    (h : NoReadErrors sched) :
    ∃ b, readAll (ms.map (·.1)) (BufReader.new ⟨ms.flatMap (fun m => toBytes m.1 m.2) ++ rest, sched⟩) = .ok (ms, b) ∧
      b.buf ++ b.src.data = rest := by
  have hrun := readAllProg_run ms hf rest
  rw [readAll_eq]
  rcases Prog.runBuf_eq (readAllProg (ms.map (·.1)))
    (BufReader.new ⟨ms.flatMap (fun m => toBytes m.1 m.2) ++ rest, sched⟩) with ⟨-, hm⟩ | ⟨e, h1, -⟩ | ⟨a, r, b', h1, h2, h3⟩
  · exact absurd hm h
  · have : (BufReader.new ⟨ms.flatMap (fun m => toBytes m.1 m.2) ++ rest, sched⟩).rest = ms.flatMap (fun m => toBytes m.1 m.2) ++ rest := rfl
    rw [this, hrun] at h1; cases h1
  · have : (BufReader.new ⟨ms.flatMap (fun m => toBytes m.1 m.2) ++ rest, sched⟩).rest = ms.flatMap (fun m => toBytes m.1 m.2) ++ rest := rfl
    rw [this, hrun] at h1
    cases h1
    exact ⟨b', h2, h3⟩

/-- Three messages of different types, arriving byte by byte. -/
example : ∃ b, readAll [.bool, .string, .int .i32] (BufReader.new ⟨toBytes .bool true ++ (toBytes .string "ab" ++
      (toBytes (.int .i32) ⟨300, by decide⟩ ++ [])) ++ [9], [.chunk 0, .chunk 0, .chunk 0]⟩) =
    .ok ([⟨.bool, true⟩, ⟨.string, "ab"⟩, ⟨.int .i32, ⟨300, by decide⟩⟩], b) ∧ b.buf ++ b.src.data = [9] :=
  C63_stream_partial [⟨.bool, true⟩, ⟨.string, "ab"⟩, ⟨.int .i32, ⟨300, by decide⟩⟩]
    (by intro m hm; simp only [List.mem_cons, List.not_mem_nil, or_false] at hm; rcases hm with rfl | rfl | rfl <;> simp [Fits]; decide)
    [9] _ (by unfold NoReadErrors; decide)

/-- **C63** is false: the first call's read-ahead buffer is dropped.  After any message, if what follows it in the stream ends
within the first 8 KiB, a second `from_reader` on the same reader finds the end of the stream, whatever type it reads. -/
theorem C63_second_from_reader_fails (t : Ty) (v : t.denote) (hv : Fits t v) (rest : Bytes) (h0 : toBytes t v ≠ [])
    (h1 : (toBytes t v ++ rest).length ≤ 8192) (h2 : (toBytes t v).length < 8192) :
    ∃ b, fromReader t ⟨toBytes t v ++ rest, []⟩ = .ok (v, b) ∧
      ∀ u : Ty, fromReader u b.src = fromReader u ⟨[], []⟩ := by
  have hlen : 0 < (toBytes t v).length := List.length_pos_iff.mpr h0
  refine ⟨_, Prog.runBuf_small (decode t) _ v rest (C07_typed_roundtrip_partial t v hv rest) (by simp; omega) (by simp; omega), ?_⟩
  intro u
  rw [List.drop_of_length_le h1]

example : ∃ b, fromReader .bool ⟨toBytes .bool true ++ toBytes .bool false, []⟩ = .ok (true, b) ∧
    fromReader .bool b.src = .error .eof := by
  obtain ⟨b, h1, h2⟩ := C63_second_from_reader_fails .bool true trivial (toBytes .bool false) (by decide) (by decide) (by decide)
  exact ⟨b, h1, by rw [h2]; rfl⟩

end MinaRs.BinProt
