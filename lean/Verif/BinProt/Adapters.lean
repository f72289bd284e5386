import Verif.BinProt.IOProps
import Verif.BinProt.SerdeProps
import Verif.BinProt.PrimProps

/-!
# C95: annotated integer fields, and the checker

`#[serde(with = "integer")]` and `#[serde(with = "nat0")]` (`protocol/bin-prot/src/integers/integer.rs`, `nat0.rs`), and the
command line tool that compares encodings with OCaml's (`protocol/bin_prot_checker/src/main.rs`).
-/

namespace MinaRs.BinProt

/-! ## Model -/

/-- `integer::serialize` (`integers/integer.rs:15-23`): the bytes are collected and handed over by `serialize_bytes`
(`ser.rs:176-178`), which writes them as they are.  Writing to a vector does not fail. -/
def writeAnnotated (n : Int) : List WOp := [.all (flush (binWriteInteger n).1)]

/-- `nat0::serialize` (`integers/nat0.rs:16-24`). -/
def writeAnnotatedNat0 (n : Nat) : List WOp := [.all (flush (binWriteNat0 n).1)]

/-- `integer::deserialize` (`integers/integer.rs:54-60`): `deserialize_bytes` (`de.rs:208-213`) is not implemented. -/
def readAnnotated (_ : IntTy) : Prog Int := .fail .wontImplement

/-- `nat0::deserialize` (`integers/nat0.rs:54-60`). -/
def readAnnotatedNat0 (_ : IntTy) : Prog Int := .fail .wontImplement

/-- `IntegerVisitor::visit_bytes` (`integers/integer.rs:43-51`): what a deserializer of another format would call. -/
def visitInteger (t : IntTy) (bs : Bytes) : Except Err Int :=
  match (binReadInteger t).run bs with
  | .ok (n, _) => .ok n
  | .error e => .error e

/-- `Nat0Visitor::visit_bytes` (`integers/nat0.rs:44-51`). -/
def visitNat0 (t : IntTy) (bs : Bytes) : Except Err Int :=
  match (binReadNat0 t).run bs with
  | .ok (n, _) => .ok n
  | .error e => .error e

namespace Checker

/-- `E` (`protocol/bin_prot_checker/src/main.rs:30-35`) -/
def enumTy : Ty := .enum (.cons "A" (.tuple .nil) (.cons "B" (.tuple .nil) (.cons "C" (.tuple .nil) .nil)))

/-- `S` (`main.rs:37-42`) -/
def recordTy : Ty := .struct (.cons "a" (.int .i32) (.cons "b" .bool (.cons "c" enumTy .nil)))

/-- `V` (`main.rs:44-49`) -/
def variantTy : Ty := .enum (.cons "A" (.int .i32) (.cons "B" .bool (.cons "C" enumTy .nil)))

/-- `Test` (`main.rs:51-62`) without its value -/
inductive Kind where
  | nat0 | bool | int | int32 | int64 | enum | record | variant

/-- The types of the tests (`main.rs:53-61`). -/
def Kind.ty : Kind → Ty
  | .nat0 => .seq .unit
  | .bool => .bool
  | .int => .int .i32
  | .int32 => .int .i32
  | .int64 => .int .i64
  | .enum => enumTy
  | .record => recordTy
  | .variant => variantTy

/-- Serializing a test (`main.rs:51-62, 141-153`): untagged, so only the value; two kinds are annotated. -/
def write : (k : Kind) → k.ty.denote → List WOp
  | .int32, v => writeAnnotated (show {n : Int // BinProt.i32.holds n} from v).val
  | .int64, v => writeAnnotated (show {n : Int // BinProt.i64.holds n} from v).val
  | k, v => encode k.ty v

/-- `deserialize_test` (`main.rs:124-135`): all kinds are read as plain values. -/
def read (k : Kind) (src : Source) : Except Err k.ty.denote :=
  match fromReader k.ty src with
  | .ok (v, _) => .ok v
  | .error e => .error e

end Checker

/-! ## C95 -/

/-- **C95 (what is written).** An annotated integer is written like a field of the plain integer type (`u64`, which has
another rule, cannot be annotated this way), and an annotated natural number like a length.  Whatever the sink accepts
at a time, a write that succeeds has written all of it. -/
theorem C95_written (s s' : Sink) :
    (∀ (k : IntKind) (n : Int) (h : k.range.holds n), k ≠ .u64 → flush (writeAnnotated n) = toBytes (.int k) ⟨n, h⟩) ∧
    (∀ (n : Nat) (vs : List Unit), vs.length = n → toBytes (.seq .unit) vs = flush (writeAnnotatedNat0 n) ++ List.replicate n 0) ∧
    (∀ n : Int, s.runOps (writeAnnotated n) = (.ok (), s') → s'.got = s.got ++ flush (writeAnnotated n)) ∧
    (∀ n : Nat, s.runOps (writeAnnotatedNat0 n) = (.ok (), s') → s'.got = s.got ++ flush (writeAnnotatedNat0 n)) := by
  refine ⟨fun k n h hk => ?_, fun n vs hl => ?_, fun n h => ?_, fun n h => ?_⟩
  · have hw : k.wire n = n := by cases k <;> first | rfl | exact absurd rfl hk
    show flush [WOp.all _] = flush (binWriteInteger (k.wire n)).1
    rw [hw]
    simp [WOp.bytes]
  · subst hl
    show flush ((binWriteNat0 vs.length).1 ++ vs.flatMap (encode .unit)) = _
    rw [flush_append]
    congr 1
    · simp [writeAnnotatedNat0, WOp.bytes]
    · induction vs with
      | nil => rfl
      | cons v vs ih =>
        show flush (encode .unit v ++ List.flatMap (encode .unit) vs) = 0 :: List.replicate vs.length 0
        rw [flush_append, ih]
        rfl
  · exact runOps_whole _ s s' (by simp [AllWhole, writeAnnotated]) h
  · exact runOps_whole _ s s' (by simp [AllWhole, writeAnnotatedNat0]) h

/-- **C95 (read as plain fields).** What an annotated field wrote is read back by a plain field of any integer type that
holds the value, and what an annotated natural number wrote by a length. -/
theorem C95_read_as_plain (k : IntKind) (n : Int) (hi : i64.holds n) (h : k.range.holds n) (m : Nat) (hm : m < 2 ^ 64)
    (t : IntTy) (ht : t.holds m) (rest : Bytes) :
    (decode (.int k)).run (flush (writeAnnotated n) ++ rest) = .ok (⟨n, h⟩, rest) ∧
    (binReadNat0 t).run (flush (writeAnnotatedNat0 m) ++ rest) = .ok ((m : Int), rest) := by
  constructor
  · have h1 : (binReadInteger k.range).run (flush (writeAnnotated n) ++ rest) = .ok (n, rest) := by
      have := (C01_integer_roundtrip n hi k.range h rest).1
      simpa [writeAnnotated, WOp.bytes] using this
    rw [decode, Prog.run_bind_ok h1, dif_pos h]
    rfl
  · have := (C03_nat0_roundtrip m hm t ht rest).1
    simpa [writeAnnotatedNat0, WOp.bytes] using this

/-- **C95 (other formats).** A deserializer that hands over the bytes gets the value back. -/
theorem C95_visitor (n : Int) (hi : i64.holds n) (t : IntTy) (h : t.holds n) (m : Nat) (hm : m < 2 ^ 64) (u : IntTy)
    (hu : u.holds m) :
    visitInteger t (flush (writeAnnotated n)) = .ok n ∧ visitNat0 u (flush (writeAnnotatedNat0 m)) = .ok (m : Int) := by
  constructor
  · have := (C01_integer_roundtrip n hi t h []).1
    rw [List.append_nil] at this
    unfold visitInteger
    rw [show flush (writeAnnotated n) = flush (binWriteInteger n).1 by simp [writeAnnotated, WOp.bytes], this]
  · have := (C03_nat0_roundtrip m hm u hu []).1
    rw [List.append_nil] at this
    unfold visitNat0
    rw [show flush (writeAnnotatedNat0 m) = flush (binWriteNat0 m).1 by simp [writeAnnotatedNat0, WOp.bytes], this]

/-- **C95 fails**: an annotated field is never read, whatever the bytes. -/
theorem C95_read_fails (t : IntTy) (s : Bytes) : (readAnnotated t).run s = .error .wontImplement ∧
    (readAnnotatedNat0 t).run s = .error .wontImplement := ⟨rfl, rfl⟩

/-- **C95 (the checker).** For every kind of test and every value of it, the tool reads what it writes, in whatever pieces
the file arrives and whatever follows. -/
theorem C95_checker (k : Checker.Kind) (v : k.ty.denote) (hl : ∀ vs : List Unit, k = .nat0 → HEq v vs → vs.length < 2 ^ 64)
    (rest : Bytes) (sched : List REv) (hs : NoReadErrors sched) :
    Checker.read k ⟨flush (Checker.write k v) ++ rest, sched⟩ = .ok v := by
  have hw : flush (Checker.write k v) = toBytes k.ty v := by
    cases k with
    | int32 => exact (C95_written ⟨[], []⟩ ⟨[], []⟩).1 .i32 _ _ (by decide)
    | int64 => exact (C95_written ⟨[], []⟩ ⟨[], []⟩).1 .i64 _ _ (by decide)
    | _ => rfl
  have hf : Fits k.ty v := by
    cases k with
    | nat0 => exact ⟨hl v rfl HEq.rfl, fun _ _ => trivial⟩
    | bool => trivial
    | int => exact fun h => by cases h
    | int32 => exact fun h => by cases h
    | int64 => exact fun h => by cases h
    | enum =>
      obtain u | u | u | u : Unit ⊕ Unit ⊕ Unit ⊕ Empty := v
      · exact ⟨show 0 < 256 by decide, trivial⟩
      · exact ⟨show 1 < 256 by decide, trivial⟩
      · exact ⟨show 2 < 256 by decide, trivial⟩
      · exact nomatch u
    | record =>
      obtain ⟨a, b, u | u | u | u, c⟩ : {n : Int // BinProt.i32.holds n} × Bool × (Unit ⊕ Unit ⊕ Unit ⊕ Empty) × Unit := v
      · exact ⟨(fun h => by cases h), trivial, ⟨show 0 < 256 by decide, trivial⟩, trivial⟩
      · exact ⟨(fun h => by cases h), trivial, ⟨show 1 < 256 by decide, trivial⟩, trivial⟩
      · exact ⟨(fun h => by cases h), trivial, ⟨show 2 < 256 by decide, trivial⟩, trivial⟩
      · exact nomatch u
    | variant =>
      obtain a | b | (u | u | u | u) | e : {n : Int // BinProt.i32.holds n} ⊕ Bool ⊕ (Unit ⊕ Unit ⊕ Unit ⊕ Empty) ⊕ Empty := v
      · exact ⟨show 0 < 256 by decide, fun h => by cases h⟩
      · exact ⟨show 1 < 256 by decide, trivial⟩
      · exact ⟨show 2 < 256 by decide, show 0 < 256 by decide, trivial⟩
      · exact ⟨show 2 < 256 by decide, show 1 < 256 by decide, trivial⟩
      · exact ⟨show 2 < 256 by decide, show 2 < 256 by decide, trivial⟩
      · exact nomatch u
      · exact nomatch e
  obtain ⟨b, h1, -⟩ := (C11_chunk_independent k.ty (toBytes k.ty v ++ rest) sched hs).2 v rest
    (C07_typed_roundtrip_partial k.ty v hf rest)
  unfold Checker.read
  rw [hw, h1]

/-! ## Examples -/

/-- The value of the tool's `int32` test, its bytes, and the bytes of a `u8` field, which differ when annotated. -/
example : flush (writeAnnotated 12345) = [0xfe, 0x39, 0x30] ∧ i64.holds 12345 ∧ IntKind.i32.range.holds 12345 ∧
    flush (writeAnnotated 200) = [0xfe, 0xc8, 0x00] ∧ toBytes .u8 (200 : UInt8) = [0xc8] ∧
    flush (writeAnnotatedNat0 200) = [0xfe, 0xc8, 0x00] := by
  refine ⟨rfl, by decide, by decide, rfl, rfl, rfl⟩

/-- The tool's `variant` test. -/
example : flush (Checker.write .variant (Sum.inl ⟨15, by decide⟩)) = [0x00, 0x0f] := rfl

end MinaRs.BinProt
