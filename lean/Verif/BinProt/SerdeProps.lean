import Verif.BinProt.SerdeWire

/-!
# Properties C07, C08, C09, C13, C14 (typed layer)

Model: `Serde.lean`.  Specification: `SerdeSpec.lean` (`Fits`, `Spec.Wire`, `Spec.WfTy`).
-/

namespace MinaRs.BinProt
open Prog Spec

/-! ## C07 -/

/-- **C07 (part).** At every type, every value the format can carry comes back equal, with
exactly its own bytes consumed.  Missing: values outside `Fits`, for which the claim is false
(`C07_*_fails` below, one for each clause of `Fits` that is not a 2^64 length limit). -/
theorem C07_typed_roundtrip_partial (t : Ty) (v : t.denote) (h : Fits t v) (rest : Bytes) :
    (decode t).run (toBytes t v ++ rest) = .ok (v, rest) :=
  decode_encode t v h rest

/-- **C07 (wire format).** The bytes written are a wire form of the value. -/
theorem C07_encoding_is_wire_form_partial (t : Ty) (hwf : WfTy t) (v : t.denote) (h : Fits t v) :
    Wire t (toBytes t v) v := by
  have h1 := decode_encode t v h []
  obtain ⟨enc, he, hw⟩ := (decode_ok_iff t hwf _ _ _).mp h1
  simp only [List.append_nil] at he
  unfold toBytes
  rw [he]; exact hw

/-- A type that uses every constructor, and a value of it. -/
def sampleTy : Ty :=
  .struct (.cons "a" (.option (.int .u64)) (.cons "b" (.seq (.enum
    (.cons "A" (.tuple .nil) (.cons "B" (.tuple (.cons "0" .string .nil)) .nil))))
    (.cons "c" (.polyvar (.cons "One" .unit (.cons "Two" (.newtype .f64) .nil)))
    (.cons "d" (.tuple (.cons "0" .char (.cons "1" .bool (.cons "2" .u8 (.cons "3" .f32 .nil))))) .nil))))

def sampleVal : sampleTy.denote :=
  ((some ⟨70000, by decide⟩ : Option {n : Int // BinProt.u64.holds n}),
   ([Sum.inl (), Sum.inr (Sum.inl ("hé", ()))] : List _),
   Sum.inr (Sum.inl (5 : UInt64)), (('x', true, (7 : UInt8), (1 : UInt32), ()) : Char × Bool × UInt8 × UInt32 × Unit), ())

example : Fits sampleTy sampleVal ∧ WfTy sampleTy := by
  refine ⟨⟨?_, ⟨by decide, ?_⟩, ⟨⟨by decide, by decide, ?_, by decide⟩, ?_⟩, ⟨by show Char.toNat 'x' < 256; decide, trivial, trivial, trivial, trivial⟩, trivial⟩, ?_⟩
  · rintro v h
    cases h
    intro _; decide
  · intro v hv
    rcases List.mem_cons.mp hv with rfl | hv
    · exact ⟨by decide, trivial⟩
    · rcases List.mem_cons.mp hv with rfl | hv
      · exact ⟨by decide, by show (utf8 "hé").length < 2 ^ 63; decide, trivial⟩
      · cases hv
  · intro n hn; simp only [Tys.names, List.mem_cons, List.not_mem_nil, or_false] at hn
    rcases hn with rfl | rfl <;> (unfold IsAsciiName; decide)
  · trivial
  · refine ⟨trivial, ⟨trivial, ⟨trivial, trivial⟩, trivial⟩, ⟨?_, by decide, trivial, trivial, trivial⟩,
      ⟨trivial, trivial, trivial, trivial, trivial⟩, trivial⟩
    intro n hn; simp only [Tys.names, List.mem_cons, List.not_mem_nil, or_false] at hn
    rcases hn with rfl | rfl <;> (unfold IsAsciiName; decide)

/-- **C07** is false for `u64` from 2^63 on: the value is written as a negative number, which
the reader refuses. -/
theorem C07_u64_roundtrip_fails (n : Int) (h : BinProt.u64.holds n) (hbig : 2 ^ 63 ≤ n) (rest : Bytes) :
    (decode (.int .u64)).run (toBytes (.int .u64) ⟨n, h⟩ ++ rest) = .error .destinationIntegerOverflow := by
  have hn : n < 2 ^ 64 := by have := h.2; simp only [BinProt.u64] at this; omega
  have hw : IntKind.wire .u64 n = n - 2 ^ 64 := by
    simp only [IntKind.wire, toSigned]; rw [if_neg (by omega)]; omega
  have hi : BinProt.i64.holds (n - 2 ^ 64) := by simp [IntTy.holds, BinProt.i64]; omega
  simp only [toBytes, encode, decode, hw]
  have h1 := binReadInteger_write hi (t := BinProt.i64) hi rest
  obtain ⟨enc, he, hwire, -⟩ := (binReadInteger_ok_iff _ _ _ _).mp h1
  apply run_bind_error
  unfold intBytes at he
  rw [he, binReadInteger_wire _ hwire, if_neg]
  simp [IntTy.holds, IntKind.range, BinProt.u64]; omega

/-- **C07** is false for every char above U+00FF: it comes back as the char of its low eight bits. -/
theorem C07_char_roundtrip_fails (c : Char) (hc : 0x100 ≤ c.toNat) (rest : Bytes) :
    ∃ d : Char, (decode .char).run (toBytes .char c ++ rest) = .ok (d, rest) ∧ d.toNat = c.toNat % 256 ∧ d ≠ c :=
  C05_char_roundtrip_fails c hc rest

/-- `n` unit-like variants. -/
def unitVariants : Nat → Tys
  | 0 => .nil
  | n + 1 => .cons "V" (.tuple .nil) (unitVariants n)

/-- The variant at position `i`. -/
def unitVariant : (n i : Nat) → i < n → (unitVariants n).sum
  | 0, _, h => absurd h (Nat.not_lt_zero _)
  | _ + 1, 0, _ => Sum.inl ()
  | n + 1, i + 1, h => Sum.inr (unitVariant n i (Nat.lt_of_succ_lt_succ h))

set_option maxRecDepth 8000 in
/-- **C07** is false beyond 256 enum variants: variant number 256 of an enum with 300 variants
is written as the four bytes `01 02 00 00` and comes back as variant number 1 with three bytes
left over. -/
theorem C07_large_enum_roundtrip_fails :
    toBytes (.enum (unitVariants 300)) (unitVariant 300 256 (by decide)) = [0x01, 0x02, 0x00, 0x00] ∧
    (decode (.enum (unitVariants 300))).run
      (toBytes (.enum (unitVariants 300)) (unitVariant 300 256 (by decide))) =
      .ok (unitVariant 300 1 (by decide), [0x02, 0x00, 0x00]) := ⟨rfl, rfl⟩

/-- A polymorphic variant type with one label. -/
def polyThree : Ty := .polyvar (.cons "Three" (.tuple .nil) .nil)

/-- **C07** is false for labels whose hash reaches 2^31 ("Three"): the reader does not
recognise its own writer's tag. -/
theorem C07_polyvar_large_hash_fails :
    (decode polyThree).run (toBytes polyThree (Sum.inl ())) = .error (.unknownPolyvarTag 582861886) := rfl

/-- A polymorphic variant type with a non-ASCII label before an ASCII one. -/
def polyAccent : Ty := .polyvar (.cons "é" (.tuple .nil) (.cons "A" (.tuple .nil) .nil))

/-- **C07** is false after a non-ASCII label: the second variant comes back as the first. -/
theorem C07_polyvar_non_ascii_fails :
    (decode polyAccent).run (toBytes polyAccent (Sum.inr (Sum.inl ()))) = .ok (Sum.inl (), []) := rfl

/-- Three labels, the last two with the same hash (leading zero bytes do not change it). -/
def polyClash : Ty := .polyvar (.cons "Z" (.tuple .nil) (.cons "A" (.tuple .nil)
  (.cons "\x00A" (.tuple .nil) .nil)))

/-- **C07** is false for labels that share a hash: the later one comes back as the earlier one. -/
theorem C07_polyvar_hash_clash_fails :
    (decode polyClash).run (toBytes polyClash (Sum.inr (Sum.inr (Sum.inl ())))) =
      .ok (Sum.inr (Sum.inl ()), []) := rfl

/-! ## C08 -/

/-- **C08 (part).** If one encoding followed by anything equals another encoding followed by
anything, both values and both continuations are the same: no encoding is a proper prefix of
another and encodings are unique.  Missing: values outside `Fits` (`C08_self_delimiting_fails`). -/
theorem C08_self_delimiting_partial (t : Ty) (v w : t.denote) (hv : Fits t v) (hw : Fits t w)
    (r r' : Bytes) (h : toBytes t v ++ r = toBytes t w ++ r') : v = w ∧ r = r' := by
  have h1 := C07_typed_roundtrip_partial t v hv r
  have h2 := C07_typed_roundtrip_partial t w hw r'
  rw [h, h2] at h1
  simp only [Except.ok.injEq, Prod.mk.injEq] at h1
  exact ⟨h1.1.symm, h1.2.symm⟩

/-- **C08 (part, streams).** Any list of messages of one type written back to back is read back
as the same list. -/
theorem C08_stream_partial (t : Ty) (vs : List t.denote) (h : ∀ v ∈ vs, Fits t v) (rest : Bytes) :
    (decodeN (decode t) vs.length).run (vs.flatMap (toBytes t) ++ rest) = .ok (vs, rest) :=
  decodeN_flatMap _ _ vs (fun v hv r => C07_typed_roundtrip_partial t v (h v hv) r) rest

/-- **C08** is false in general: two chars have the same encoding whenever their low eight bits agree, as those of U+0100 and
U+0000 do. -/
theorem C08_self_delimiting_fails (c d : Char) :
    toBytes .char c = toBytes .char d ↔ c.toNat % 256 = d.toNat % 256 := by
  have h : ∀ c : Char, toBytes .char c = [UInt8.ofNat (c.toNat % 256)] := fun _ => rfl
  rw [h, h]
  constructor
  · intro he
    have h1 := congrArg UInt8.toNat (List.cons.inj he).1
    rwa [UInt8.toNat_ofNat_mod, UInt8.toNat_ofNat_mod] at h1
  · intro he; rw [he]

example : toBytes .char 'Ā' = toBytes .char '\x00' ∧ 'Ā' ≠ '\x00' :=
  ⟨(C08_self_delimiting_fails _ _).mpr (by decide), by decide⟩

/-! ## C09 -/

/-- **C09.** On success the bytes consumed are a prefix, and every other continuation of that
prefix gives the same value and leaves exactly that continuation. -/
theorem C09_consumes_prefix (t : Ty) (s : Bytes) (v : t.denote) (r : Bytes)
    (h : (decode t).run s = .ok (v, r)) :
    ∃ c, s = c ++ r ∧ ∀ r', (decode t).run (c ++ r') = .ok (v, r') :=
  Prog.prefix_stable _ s v r h

/-- **C09 (part).** Decoding any bytes at any type gives a value or an error value, unless the
bytes announce a length of at least 2^63; then the one possible panic is the refusal to make room
for so many bytes.  Missing: no panic at all, which is false (`C09_huge_length_fails`). -/
theorem C09_never_aborts_partial (t : Ty) (s : Bytes) (m : String) (h : (decode t).run s = .error (.panic m)) :
    m = "capacity overflow" ∧ Announces (2 ^ 63) s :=
  (decode_safe t s m h).resolve_left id

/-- **C09.** At a type without strings decoding any bytes gives a value or an error value, never
a panic. -/
theorem C09_never_aborts_without_strings (t : Ty) (h : StringFree t = true) (s : Bytes) (m : String) :
    (decode t).run s ≠ .error (.panic m) :=
  decode_stringFree t h s m

example : StringFree (.struct (.cons "a" (.seq (.enum (.cons "A" (.option .u8) .nil))) (.cons "b" .f64 .nil))) = true := rfl

/-- **C09 (negation of "never a panic").** Nine bytes announcing a string of 2^63 bytes or more
abort the decoding of a string, whatever follows. -/
theorem C09_huge_length_fails (len rest : Bytes) (hl : len.length = 8) (hn : 2 ^ 63 ≤ leNat len) :
    (decode .string).run (0xfc :: (len ++ rest)) = .error (.panic "capacity overflow") := by
  have h := (binReadLen_ok_iff (0xfc :: (len ++ rest)) (leNat len) rest).mpr
    ⟨0xfc :: len, rfl, .wide 0xfc 8 len rfl (by decide) hl⟩
  show binReadString.run _ = _
  unfold binReadString
  rw [run_bind_ok h, run_bind]
  unfold claim
  rw [if_neg (by omega)]
  rfl

/-- One less is an ordinary end-of-input error, so the bound of `C09_never_aborts_partial` is the
exact one. -/
example : (decode .string).run [0xfc, 0, 0, 0, 0, 0, 0, 0, 0x80] = .error (.panic "capacity overflow") ∧
    (decode .string).run [0xfc, 0xff, 0xff, 0xff, 0xff, 0xff, 0xff, 0xff, 0x7f] = .error .eof := by
  constructor
  · exact C09_huge_length_fails [0, 0, 0, 0, 0, 0, 0, 0x80] [] rfl (by decide)
  · rfl

/-- **C09 (grammar).** At every well-formed type the decoder accepts exactly the wire grammar:
it returns `v` and leaves `r` iff the input is a wire form of `v` followed by `r`. -/
theorem C09_accepts_exactly_wire_forms (t : Ty) (hwf : WfTy t) (s : Bytes) (v : t.denote) (r : Bytes) :
    (decode t).run s = .ok (v, r) ↔ ∃ enc, s = enc ++ r ∧ Wire t enc v :=
  decode_ok_iff t hwf s v r

example : (decode (.seq .bool)).run [0x02, 0x01, 0x00, 0xaa] = .ok ([true, false], [0xaa]) ∧
    (decode (.seq .bool)).run [0x02, 0x01] = .error .eof ∧
    (decode (.seq .bool)).run [0x02, 0x01, 0x07] = .error (.invalidByte 0x07) := ⟨rfl, rfl, rfl⟩

/-! ## C13 -/

/-- `Versioned<T, V>` (`protocol/versioned/src/lib.rs:20-26`,
`protocol/serialization-types/src/common.rs:321-394`): a struct of a `u16` version and the
payload.  `V` is a type parameter and takes no part in (de)serialization. -/
def versionedTy (t : Ty) : Ty := .struct (.cons "version" (.int .u16) (.cons "t" t .nil))

/-- Any number of version layers. -/
def versionLayers : Nat → Ty → Ty
  | 0, t => t
  | n + 1, t => versionedTy (versionLayers n t)

/-- A payload under the given version numbers (outermost first). -/
def wrapVersions : (vs : List {n : Int // BinProt.u16.holds n}) → {t : Ty} → t.denote →
    (versionLayers vs.length t).denote
  | [], _, v => v
  | ver :: vs, _, v => ((ver, (wrapVersions vs v, ())) : _ × _ × Unit)

theorem fits_wrapVersions (vs : List {n : Int // BinProt.u16.holds n}) {t : Ty} (v : t.denote)
    (h : Fits t v) : Fits (versionLayers vs.length t) (wrapVersions vs v) := by
  induction vs with
  | nil => exact h
  | cons ver vs ih =>
    refine ⟨?_, ih, trivial⟩
    intro h; cases h

theorem toBytes_wrapVersions (vs : List {n : Int // BinProt.u16.holds n}) {t : Ty} (v : t.denote) :
    toBytes (versionLayers vs.length t) (wrapVersions vs v) =
      vs.flatMap (fun ver => flush (binWriteInteger ver.val).1) ++ toBytes t v := by
  induction vs with
  | nil => rfl
  | cons ver vs ih =>
    have : toBytes (versionLayers (vs.length + 1) t) (wrapVersions (ver :: vs) v) =
        flush (binWriteInteger ver.val).1 ++ (toBytes (versionLayers vs.length t) (wrapVersions vs v) ++ []) := by
      show flush ((binWriteInteger (IntKind.wire .u16 ver.val)).1 ++ (encode _ (wrapVersions vs v) ++ [])) = _
      simp [toBytes, IntKind.wire]
    refine Eq.trans this ?_
    rw [ih]
    simp

/-- **C13 (part).** Under any number of version layers the encoding is the version numbers
(outermost first) followed by the payload's encoding, and it reads back as the same versions and
payload.  Missing: rejection of other version numbers, which the code does not do
(`C13_version_check_fails`). -/
theorem C13_version_layers_partial (vs : List {n : Int // BinProt.u16.holds n}) {t : Ty} (v : t.denote)
    (h : Fits t v) (rest : Bytes) :
    toBytes (versionLayers vs.length t) (wrapVersions vs v) =
      vs.flatMap (fun ver => flush (binWriteInteger ver.val).1) ++ toBytes t v ∧
    (decode (versionLayers vs.length t)).run
      (vs.flatMap (fun ver => flush (binWriteInteger ver.val).1) ++ toBytes t v ++ rest) =
      .ok (wrapVersions vs v, rest) := by
  refine ⟨toBytes_wrapVersions vs v, ?_⟩
  rw [← toBytes_wrapVersions]
  exact C07_typed_roundtrip_partial _ _ (fits_wrapVersions vs v h) rest

/-- **C13** is false as to checking: at every type, every version number is accepted in front of every value. -/
theorem C13_version_check_fails {t : Ty} (v : t.denote) (h : Fits t v) (ver : {n : Int // BinProt.u16.holds n}) (rest : Bytes) :
    (decode (versionedTy t)).run (flush (binWriteInteger ver.val).1 ++ (toBytes t v ++ rest)) =
      .ok ((ver, v, ()), rest) := by
  have := (C13_version_layers_partial [ver] v h rest).2
  simp only [List.flatMap_cons, List.flatMap_nil, List.append_nil, List.append_assoc] at this
  exact this

example : (decode (versionedTy .bool)).run [7, 1, 9] = .ok ((⟨7, by decide⟩, true, ()), [9]) :=
  C13_version_check_fails (t := .bool) true trivial ⟨7, by decide⟩ [9]

example : toBytes (versionLayers 2 .bool) (wrapVersions [⟨1, by decide⟩, ⟨300, by decide⟩] true) =
    [0x01, 0xfe, 0x2c, 0x01, 0x01] := rfl

/-! ## C14 -/

/-- **C14 (part, stability).** Whatever bytes were accepted, re-encoding the value and decoding
again gives the same value; and the accepted value can always be carried by the format.  Stated
for types whose polymorphic variants have ASCII labels (otherwise false,
`C14_redecode_non_ascii_fails`). -/
theorem C14_redecode_partial (t : Ty) (hwf : WfTy t) (s : Bytes) (v : t.denote) (r : Bytes)
    (h : (decode t).run s = .ok (v, r)) (r' : Bytes) :
    Fits t v ∧ (decode t).run (toBytes t v ++ r') = .ok (v, r') := by
  obtain ⟨enc, -, hw⟩ := (decode_ok_iff t hwf _ _ _).mp h
  have hf := fits_of_wire t hwf enc v hw
  exact ⟨hf, C07_typed_roundtrip_partial t v hf r'⟩

/-- **C07 (exactly).** A value comes back from the bytes written for it exactly when it meets `Fits`; and a value that does not
meet it comes out of no bytes at all.  Stated for types whose polymorphic variants have ASCII labels. -/
theorem C07_roundtrip_exactly (t : Ty) (hwf : WfTy t) (v : t.denote) :
    (∀ rest, (decode t).run (toBytes t v ++ rest) = .ok (v, rest) ↔ Fits t v) ∧
    ((∃ s r, (decode t).run s = .ok (v, r)) ↔ Fits t v) :=
  ⟨fun rest => ⟨fun h => (C14_redecode_partial t hwf _ _ _ h []).1, fun h => C07_typed_roundtrip_partial t v h rest⟩,
   ⟨fun ⟨_, _, h⟩ => (C14_redecode_partial t hwf _ _ _ h []).1,
    fun h => ⟨_, _, C07_typed_roundtrip_partial t v h []⟩⟩⟩

/-- A list of numbers and a character that come back, and a list that does not. -/
example :
    (decode (.seq (.int .u64))).run (toBytes (.seq (.int .u64)) [⟨2 ^ 63 - 1, by decide⟩]) =
      .ok ([⟨2 ^ 63 - 1, by decide⟩], []) ∧
    ∀ s r, (decode (.seq (.int .u64))).run s ≠ .ok ([⟨2 ^ 63, by decide⟩], r) :=
  ⟨rfl, fun s r h => by
    have := ((C07_roundtrip_exactly (.seq (.int .u64)) (by simp [WfTy]) _).2).mp ⟨s, r, h⟩
    have h1 := this.2 ⟨2 ^ 63, by decide⟩ List.mem_cons_self
    revert h1
    simp [Fits]⟩

/-- Labels "é", "A": the bytes of "A" decode to the variant "é", whose own tag is not accepted. -/
theorem C14_redecode_non_ascii_fails :
    (decode polyAccent).run (toBytes polyAccent (Sum.inr (Sum.inl ()))) = .ok (Sum.inl (), []) ∧
    (decode polyAccent).run (toBytes polyAccent (Sum.inl ())) = .error (.unknownPolyvarTag 43654) := ⟨rfl, rfl⟩

mutual
/-- Types without integers, lengths or polymorphic tags. -/
def Rigid : Ty → Prop
  | .int _ => False
  | .string => False
  | .seq _ => False
  | .polyvar _ => False
  | .option t => Rigid t
  | .newtype t => Rigid t
  | .tuple ts => RigidAll ts
  | .struct ts => RigidAll ts
  | .enum vs => RigidAll vs
  | _ => True
def RigidAll : Tys → Prop
  | .nil => True
  | .cons _ t ts => Rigid t ∧ RigidAll ts
end

mutual
theorem wire_unique : (t : Ty) → Rigid t → (v : t.denote) → (a b : Bytes) → Wire t a v → Wire t b v → a = b
  | .unit, _, _, a, b, ha, hb => by simp only [Wire] at ha hb; rw [ha, hb]
  | .bool, _, _, a, b, ha, hb => by simp only [Wire] at ha hb; rw [ha, hb]
  | .u8, _, _, a, b, ha, hb => by simp only [Wire] at ha hb; rw [ha, hb]
  | .int _, h, _, _, _, _, _ => by simp [Rigid] at h
  | .f32, _, _, a, b, ha, hb => by
    simp only [Wire] at ha hb; exact leNat_inj (by omega) (by omega)
  | .f64, _, _, a, b, ha, hb => by
    simp only [Wire] at ha hb; exact leNat_inj (by omega) (by omega)
  | .char, _, _, a, b, ha, hb => by
    simp only [Wire] at ha hb
    obtain ⟨x, rfl, hx⟩ := ha
    obtain ⟨y, rfl, hy⟩ := hb
    have : x = y := UInt8.toNat_inj.mp (by omega)
    rw [this]
  | .string, h, _, _, _, _, _ => by simp [Rigid] at h
  | .option t, h, v, a, b, ha, hb => by
    rcases v with _ | v
    · simp only [Wire] at ha hb; rw [ha, hb]
    · simp only [Wire] at ha hb
      obtain ⟨x, rfl, hx⟩ := ha
      obtain ⟨y, rfl, hy⟩ := hb
      rw [wire_unique t (by simpa [Rigid] using h) v x y hx hy]
  | .newtype t, h, v, a, b, ha, hb => by
    simp only [Wire] at ha hb
    exact wire_unique t (by simpa [Rigid] using h) v a b ha hb
  | .seq _, h, _, _, _, _, _ => by simp [Rigid] at h
  | .tuple ts, h, v, a, b, ha, hb => by
    simp only [Wire] at ha hb
    exact wireProd_unique ts (by simpa [Rigid] using h) v a b ha hb
  | .struct ts, h, v, a, b, ha, hb => by
    simp only [Wire] at ha hb
    exact wireProd_unique ts (by simpa [Rigid] using h) v a b ha hb
  | .enum vs, h, v, a, b, ha, hb => by
    simp only [Wire] at ha hb
    obtain ⟨x, e, rfl, hx, he⟩ := ha
    obtain ⟨y, e', rfl, hy, he'⟩ := hb
    have : x = y := UInt8.toNat_inj.mp (by omega)
    rw [this, wireSum_unique vs (by simpa [Rigid] using h) v e e' he he']
  | .polyvar _, h, _, _, _, _, _ => by simp [Rigid] at h
theorem wireProd_unique : (ts : Tys) → RigidAll ts → (v : ts.prod) → (a b : Bytes) →
    WireProd ts a v → WireProd ts b v → a = b
  | .nil, _, _, a, b, ha, hb => by simp only [WireProd] at ha hb; rw [ha, hb]
  | .cons _ t ts, h, v, a, b, ha, hb => by
    simp only [RigidAll] at h
    simp only [WireProd] at ha hb
    obtain ⟨x, x', rfl, hx, hx'⟩ := ha
    obtain ⟨y, y', rfl, hy, hy'⟩ := hb
    rw [wire_unique t h.1 _ x y hx hy, wireProd_unique ts h.2 _ x' y' hx' hy']
theorem wireSum_unique : (vs : Tys) → RigidAll vs → (v : vs.sum) → (a b : Bytes) →
    WireSum vs a v → WireSum vs b v → a = b
  | .nil, _, _, _, _, ha, _ => by simp [WireSum] at ha
  | .cons _ t ts, h, v, a, b, ha, hb => by
    simp only [RigidAll] at h
    rcases v with w | w
    · simp only [WireSum] at ha hb; exact wire_unique t h.1 w a b ha hb
    · simp only [WireSum] at ha hb; exact wireSum_unique ts h.2 w a b ha hb
end

theorem wfTy_of_rigid_aux : ∀ t, Rigid t → WfTy t := by
  intro t
  apply Ty.rec (motive_1 := fun t => Rigid t → WfTy t) (motive_2 := fun ts => RigidAll ts → WfTys ts)
  all_goals simp_all [Rigid, RigidAll, WfTy, WfTys]

/-- **C14 (part, uniqueness).** For types without integers, lengths and polymorphic tags, the
consumed bytes are the encoding of the decoded value: no second byte string decodes to it.
Missing: the other types, where uniqueness is false (`C14_malleable_*`). -/
theorem C14_no_malleability_partial (t : Ty) (h : Rigid t) (s : Bytes) (v : t.denote) (r : Bytes)
    (hd : (decode t).run s = .ok (v, r)) : s = toBytes t v ++ r := by
  have hwf := wfTy_of_rigid_aux t h
  obtain ⟨enc, rfl, hw⟩ := (decode_ok_iff t hwf _ _ _).mp hd
  have hf := fits_of_wire t hwf enc v hw
  have hw' := C07_encoding_is_wire_form_partial t hwf v hf
  rw [wire_unique t h v enc _ hw hw']

/-- **C14** is false for integers: 5 may be sent in a wider form. -/
theorem C14_malleable_integer_fails :
    (decode (.int .u16)).run [0x05] = (decode (.int .u16)).run [0xfe, 0x05, 0x00] ∧
    (decode (.int .u16)).run [0x05] = .ok (⟨5, by decide⟩, []) := ⟨rfl, rfl⟩

/-- **C14** is false for lengths (strings, sequences): a wider length is accepted. -/
theorem C14_malleable_length_fails :
    (decode (.seq .bool)).run [0x01, 0x01] = .ok ([true], []) ∧
    (decode (.seq .bool)).run [0xfe, 0x01, 0x00, 0x01] = .ok ([true], []) := ⟨rfl, rfl⟩

/-- **C14** is false for polymorphic variants: the low bit of the tag is ignored. -/
theorem C14_malleable_polyvar_fails :
    (decode (.polyvar (.cons "One" .unit .nil))).run [0x8d, 0xa4, 0x78, 0x00, 0x00] = .ok (Sum.inl (), []) ∧
    (decode (.polyvar (.cons "One" .unit .nil))).run [0x8c, 0xa4, 0x78, 0x00, 0x00] = .ok (Sum.inl (), []) :=
  ⟨rfl, rfl⟩

example : Rigid (.option (.enum (.cons "A" (.tuple .nil) (.cons "B" .f64 .nil)))) ∧
    (decode (.option (.enum (.cons "A" (.tuple .nil) (.cons "B" .f64 .nil))))).run [0x01, 0x00, 0x09] =
      .ok (some (Sum.inl ()), [0x09]) := ⟨⟨trivial, trivial, trivial⟩, rfl⟩

end MinaRs.BinProt
