import Verif.Json.SpecText
import Verif.Json.Sample

/-! C56, C58 and C59: extended numbers, hexadecimal field elements, base58 texts. -/

namespace MinaRs.Json

open BinProt (Ty Tys Fits)
open Codec Spec
open Text (Text)

/-! ## C56: extended numbers -/

/-- `From<AccountNonce> for ExtendedU32`, `From<GlobalSlotNumber> for ExtendedU32`
(`base/src/serialization_type_conversions/numbers.rs:23-27, 37-41`): `(t.0 as i32).into()`. -/
def toExtended (n : UInt32) : (versionedTy (versionedTy (.int .i32))).denote :=
  version1 (t := versionedTy (.int .i32)) (version1 (t := .int .i32)
    (⟨toSigned 32 n.toNat, by
      have := n.toNat_lt
      show (-2147483648 : Int) ≤ toSigned 32 n.toNat ∧ toSigned 32 n.toNat ≤ 2147483647
      unfold toSigned
      split <;> omega⟩ : {n : Int // BinProt.IntKind.i32.range.holds n}))

/-- `From<ExtendedU32> for AccountNonce` and `GlobalSlotNumber`
(`base/src/serialization_type_conversions/numbers.rs:28-32, 42-46`): `t.t.t as u32`. -/
def ofExtended (v : (versionedTy (versionedTy (.int .i32))).denote) : UInt32 :=
  let p : {n : Int // BinProt.u16.holds n} × ({n : Int // BinProt.u16.holds n} ×
    {n : Int // BinProt.IntKind.i32.range.holds n} × Unit) × Unit := v
  UInt32.ofNat (wrapU 32 p.2.1.2.1.val)

theorem wrapU_toSigned32 (n : Nat) (h : n < 2 ^ 32) : wrapU 32 (toSigned 32 n) = n := by
  unfold toSigned wrapU
  split
  · omega
  · omega

/-- **C56.** Converting to the extended wire number and back is lossless. -/
theorem C56_roundtrip (n : UInt32) : ofExtended (toExtended n) = n := by
  show UInt32.ofNat (wrapU 32 (toSigned 32 n.toNat)) = n
  rw [wrapU_toSigned32 _ n.toNat_lt]
  simp

/-- **C56.** Every extended wire number of version 1 is the number of exactly one nonce or slot. -/
theorem C56_onto (v : {n : Int // BinProt.IntKind.i32.range.holds n}) :
    toExtended (ofExtended (version1 (t := versionedTy (.int .i32)) (version1 (t := .int .i32) v))) =
      version1 (t := versionedTy (.int .i32)) (version1 (t := .int .i32) v) := by
  have hv : (-2147483648 : Int) ≤ v.val ∧ v.val ≤ 2147483647 := v.property
  have hw : wrapU 32 v.val < 2 ^ 32 := wrapU_lt 32 v.val
  have h : toSigned 32 (UInt32.ofNat (wrapU 32 v.val)).toNat = v.val := by
    rw [UInt32.toNat_ofNat_of_lt' (by simpa using hw)]
    exact BinProt.toSigned_wrapU (by decide) (by omega) (by omega)
  have h2 : (⟨toSigned 32 (UInt32.ofNat (wrapU 32 v.val)).toNat, by rw [h]; exact v.property⟩ :
      {n : Int // BinProt.IntKind.i32.range.holds n}) = v := Subtype.ext h
  show version1 (t := versionedTy (.int .i32)) (version1 (t := .int .i32) _) = _
  exact congrArg (fun x => version1 (t := versionedTy (.int .i32)) (version1 (t := .int .i32) x)) h2

/-- **C56.** The wire encoding reads back to the same number. -/
theorem C56_wire (n : UInt32) (rest : Bytes) :
    (BinProt.decode (versionedTy (versionedTy (.int .i32)))).run
      (BinProt.toBytes (versionedTy (versionedTy (.int .i32))) (toExtended n) ++ rest) = .ok (toExtended n, rest) := by
  refine BinProt.C07_typed_roundtrip_partial _ _ ?_ rest
  refine ⟨(by intro h; cases h), ⟨(by intro h; cases h), (by intro h; cases h), trivial⟩, trivial⟩

/-- **C56.** The JSON text of the number is the decimal text of the nonce or slot. -/
theorem C56_json (E : Env) (n : UInt32) :
    ser E (.versioned (.versioned (.leaf .extU32))) (toExtended n) =
      .ok (.str (String.ofList (Base.UIntJson.serialize n.toNat))) := by
  show Except.ok (ofText (Base.UIntJson.serialize (wrapU 32 (toSigned 32 n.toNat)))) = _
  rw [wrapU_toSigned32 _ n.toNat_lt]
  rfl

/-- The sign changes at 2^31: the largest slot number is -1 on the wire. -/
example : (toExtended 0xffffffff).2.1.2.1.val = -1 := by decide +kernel

/-! ## C58: hexadecimal field elements -/

theorem digitValue_eq (c : Char) : digitValue c = hexVal c := by
  by_cases h : c.toNat < 128
  · have ht : ∀ n : Fin 128, digitValue (Char.ofNat n.1) = hexVal (Char.ofNat n.1) := by decide +kernel
    have := ht ⟨c.toNat, h⟩
    rwa [Char.ofNat_toNat] at this
  · have h1 : hexVal c = none := by
      unfold hexVal
      rw [if_neg (by omega), if_neg (by omega), if_neg (by omega)]
    have h2 : c.toLower = c := by
      unfold Char.toLower
      rw [dif_neg]
      rintro ⟨ha, hb⟩
      have hb' : c.toNat ≤ 90 := hb
      omega
    rw [h1]
    unfold digitValue
    rw [h2]
    rw [List.idxOf?_eq_none_iff]
    intro hm
    have : ∀ d ∈ "0123456789abcdef".toList, d.toNat < 128 := by decide +kernel
    exact h (this c hm)

theorem hexPairs_ok_iff (s : Text) (bs : Bytes) : hexPairs s = .ok bs ↔ Spells s bs := by
  constructor
  · intro h
    fun_induction hexPairs s generalizing bs with
    | case1 => cases h; exact .nil
    | case2 => cases h
    | case3 a b rest x y hx hy bs' h' ih =>
      cases h
      exact .cons (by rw [digitValue_eq, hy]) (by rw [digitValue_eq, hx]) (ih _ h')
    | case4 => cases h
    | case5 => cases h
  · intro h
    induction h with
    | nil => rfl
    | cons ha hb _ ih =>
      rw [digitValue_eq] at ha hb
      simp only [hexPairs, ha, hb, ih]

theorem spells_length {s : Text} {bs : Bytes} (h : Spells s bs) : s.length = 2 * bs.length := by
  induction h with
  | nil => rfl
  | cons _ _ _ ih => simp only [List.length_cons, ih]; omega

theorem hexDecode_ok_iff (s : Text) (bs : Bytes) : hexDecode s = .ok bs ↔ Spells s bs := by
  unfold hexDecode
  constructor
  · intro h
    split at h
    · cases h
    · exact (hexPairs_ok_iff s bs).mp h
  · intro h
    rw [if_neg (by rw [spells_length h]; omega)]
    exact (hexPairs_ok_iff s bs).mpr h

theorem digit_x : digitValue 'x' = none := by decide +kernel

theorem skipPrefix_of_spells {s : Text} {bs : Bytes} (h : Spells s bs) : skipPrefix s = s := by
  cases h with
  | nil => rfl
  | @cons a b x y rest bs ha hb _ =>
    by_cases hx : b = 'x'
    · subst hx; rw [digit_x] at hb; cases hb
    · unfold skipPrefix
      split
      · rename_i h; cases h; exact absurd rfl hx
      · rfl

/-- A text is its body, bare or after a prefix. -/
theorem skipPrefix_prefixed (s : Text) : Prefixed s (skipPrefix s) := by
  unfold skipPrefix
  split
  · rename_i a rest
    split
    · rename_i h
      rcases h with rfl | rfl
      · exact .inr (.inl rfl)
      · exact .inr (.inr rfl)
    · exact .inl rfl
  · exact .inl rfl

theorem skipPrefix_of_prefixed {s body : Text} {bs : Bytes} (h : Prefixed s body) (hs : Spells body bs) : skipPrefix s = body := by
  rcases h with rfl | rfl | rfl
  · exact skipPrefix_of_spells hs
  · rfl
  · rfl

/-- **C58.** A field element is written as `0x` and the digits of its bytes. -/
theorem C58_form (v : arr32.denote) : ∃ body, fieldToHex v = '0' :: 'x' :: body ∧ Spells body (arrBytes 32 v) ∧ body.length = 64 := by
  refine ⟨hexEncode (arrBytes 32 v), rfl, (hexDecode_ok_iff _ _).mp (hexDecode_encode _), ?_⟩
  rw [hexEncode_length, show (arrBytes 32 v).length = 32 from arrBytes_length 32 v]

/-- **C58.** A text is read as a field element exactly when it spells 32 bytes, with or without prefix. -/
theorem C58_accepted_iff (s : Text) (v : arr32.denote) :
    fieldFromHex s = .ok v ↔ ∃ body, Prefixed s body ∧ Spells body (arrBytes 32 v) := by
  unfold fieldFromHex
  constructor
  · intro h
    cases hd : hexDecode (skipPrefix s) with
    | error e => rw [hd] at h; cases h
    | ok bs =>
      rw [hd] at h
      cases hb : bytesArr 32 bs with
      | none => simp only [hb] at h; cases h
      | some w =>
        simp only [hb] at h
        cases h
        refine ⟨skipPrefix s, skipPrefix_prefixed s, ?_⟩
        rw [bytesArr_some hb]
        exact (hexDecode_ok_iff _ _).mp hd
  · rintro ⟨body, hp, hs⟩
    rw [skipPrefix_of_prefixed hp hs, (hexDecode_ok_iff _ _).mpr hs]
    simp only
    rw [show bytesArr 32 (arrBytes 32 v) = some v from bytesArr_arrBytes 32 v]

/-- **C58.** Writing and reading returns the same bytes. -/
theorem C58_roundtrip (v : arr32.denote) : fieldFromHex (fieldToHex v) = .ok v := by
  obtain ⟨body, h1, h2, -⟩ := C58_form v
  exact (C58_accepted_iff _ _).mpr ⟨body, .inr (.inl h1), h2⟩

/-- **C58.** The prefix is optional. -/
theorem C58_prefix_optional (body : Text) (v : arr32.denote) (h : fieldFromHex ('0' :: 'x' :: body) = .ok v) :
    fieldFromHex body = .ok v ∧ fieldFromHex ('\\' :: 'x' :: body) = .ok v := by
  have hs : Spells body (arrBytes 32 v) := by
    obtain ⟨b, hp, hs⟩ := (C58_accepted_iff _ _).mp h
    have e := skipPrefix_of_prefixed hp hs
    rw [show skipPrefix ('0' :: 'x' :: body) = body from rfl] at e
    rw [e]; exact hs
  exact ⟨(C58_accepted_iff _ _).mpr ⟨body, .inl rfl, hs⟩, (C58_accepted_iff _ _).mpr ⟨body, .inr (.inr rfl), hs⟩⟩

/-- **C58 (errors).** Proved: text whose body is not hexadecimal is refused with an error.
Missing: hexadecimal text of another length, see `C58_wrong_length_fails`. -/
theorem C58_refused_partial (s : Text) (h : ¬ ∃ body bs, Prefixed s body ∧ Spells body bs) : fieldFromHex s = .error .err := by
  unfold fieldFromHex
  cases hd : hexDecode (skipPrefix s) with
  | error e => rfl
  | ok bs => exact absurd ⟨_, bs, skipPrefix_prefixed s, (hexDecode_ok_iff _ _).mp hd⟩ h

/-- **C58 fails** for hexadecimal text of any other length: it is a panic, not an error. -/
theorem C58_wrong_length_fails (s body : Text) (bs : Bytes) (hp : Prefixed s body) (hs : Spells body bs) (hl : body.length ≠ 64) :
    fieldFromHex s = .error .panic := by
  unfold fieldFromHex
  rw [skipPrefix_of_prefixed hp hs, (hexDecode_ok_iff _ _).mpr hs]
  have : bs.length ≠ 32 := fun h => hl (by rw [spells_length hs, h])
  simp only [bytesArr_none this]

/-- The empty string is such a text, and so is `0x00`. -/
example : fieldFromHex [] = .error .panic ∧ fieldFromHex "0x00".toList = .error .panic :=
  ⟨C58_wrong_length_fails _ [] [] (.inl rfl) .nil (by decide),
    C58_wrong_length_fails _ ['0', '0'] [0] (.inr (.inl rfl))
      (.cons (x := 0) (y := 0) (by decide +kernel) (by decide +kernel) .nil) (by decide)⟩

/-- A text read without and with prefix. -/
example : ∃ v, fieldFromHex (List.replicate 64 'A') = .ok v ∧ fieldFromHex ("0x".toList ++ List.replicate 64 'a') = .ok v := by
  exact ⟨(bytesArr 32 (List.replicate 32 170)).get (by decide +kernel), rfl, rfl⟩

/-! ## C59: base58 texts -/

theorem fits_u8s : (n : Nat) → (v : (u8s n).prod) → BinProt.FitsProd (u8s n) v
  | 0, _ => trivial
  | n + 1, v => ⟨trivial, fits_u8s n _⟩

theorem fits_hash (v : hashV1.denote) : Fits hashV1 v :=
  ⟨(fun h => by cases h), fits_u8s 32 _, trivial⟩

theorem fits_signature (v : signatureTy.denote) : Fits signatureTy v :=
  ⟨(fun h => by cases h), ⟨fits_u8s 32 _, fits_u8s 32 _, trivial⟩, trivial⟩

/-- **C59.** Writing a value as text and reading the text as the same kind returns the value. -/
theorem C59_roundtrip (E : Env) (k : Kind) (v : k.leaf.wire.denote) :
    ∃ s, k.leaf.ser E v = .ok (.str s) ∧ k.leaf.de E (.str s) = .ok v := by
  have hc : k.leaf.Carried v := by
    cases k <;> first | exact fits_hash v | exact fits_signature v | trivial
  obtain ⟨j, h1, h2, -, -⟩ := leaf_roundtrip E k.leaf v hc
  cases k <;> exact ⟨_, rfl, by
    have e := Except.ok.inj h1
    rw [← e] at h2; exact h2⟩

/-- The version byte of a kind. -/
def Spec.Kind.byte : Kind → UInt8
  | .ledgerHash => 0x05 | .coinbaseHash => 0x0c | .epochSeed => 0x0d | .stateHash => 0x10 | .stateBodyHash => 0x11
  | .vrfOutput => 0x15 | .auxHash => 0x0e | .pendingCoinbaseAux => 0x0f | .memo => 0x14 | .signature => 0x9a
  | .coinbaseStackData => 0x17 | .coinbaseStackHash => 0x18

theorem kind_ser (E : Env) (k : Kind) (v : k.leaf.wire.denote) :
    ∃ bs, k.leaf.ser E v = .ok (ofText (encodeCheck E.chk k.byte bs)) := by
  cases k <;> exact ⟨_, rfl⟩

theorem kind_de_err (E : Env) (k : Kind) (s : Text) (e : CodecErr) (h : decodeCheck E.chk k.byte s = .error e) :
    k.leaf.deText E s = .error .err := by
  cases k <;> (simp only [Kind.byte] at h; simp only [Kind.leaf, Leaf.deText, h])

theorem kind_ne (k : Kind) : k.leaf ≠ .i64 := by cases k <;> (intro h; cases h)

theorem byte_injective {k k' : Kind} (h : k.byte = k'.byte) : k = k' := by
  cases k <;> cases k' <;> first | rfl | (exact absurd h (by decide))

/-- **C59.** A text of one kind is refused as any other kind. -/
theorem C59_other_kind_refused (E : Env) (k k' : Kind) (hne : k ≠ k') (v : k.leaf.wire.denote) (s : String)
    (hs : k.leaf.ser E v = .ok (.str s)) : k'.leaf.de E (.str s) = .error .err := by
  obtain ⟨bs, h1⟩ := kind_ser E k v
  rw [h1] at hs
  have e : String.ofList (encodeCheck E.chk k.byte bs) = s := by
    have := Except.ok.inj hs
    exact J.str.inj this
  rw [de_str _ _ _ (kind_ne k'), ← e, toList_ofList]
  exact kind_de_err E k' _ _ (decodeCheck_other E.chk_length (fun h => hne (byte_injective h)) bs)

/-- **C59.** Texts of different kinds differ. -/
theorem C59_no_collision (E : Env) (k k' : Kind) (hne : k ≠ k') (v : k.leaf.wire.denote) (w : k'.leaf.wire.denote) :
    k.leaf.ser E v ≠ k'.leaf.ser E w := by
  intro h
  obtain ⟨s, h1, h2⟩ := C59_roundtrip E k' w
  rw [h1] at h
  rw [C59_other_kind_refused E k k' hne v s h] at h2
  cases h2

/-- **C59.** A text of any kind is refused as a public key. -/
theorem C59_not_an_address (E : Env) (k : Kind) (v : k.leaf.wire.denote) (s : String)
    (hs : k.leaf.ser E v = .ok (.str s)) : Leaf.publicKey.de E (.str s) = .error .err := by
  obtain ⟨bs, h1⟩ := kind_ser E k v
  rw [h1] at hs
  have e : String.ofList (encodeCheck E.chk k.byte bs) = s := J.str.inj (Except.ok.inj hs)
  rw [de_str _ _ _ (fun h => by cases h), ← e, toList_ofList]
  have hn : fromAddress E (encodeCheck E.chk k.byte bs) = none := by
    unfold fromAddress
    by_cases hl : (encodeCheck E.chk k.byte bs).length ≠ 55
    · rw [if_pos hl]
    · rw [if_neg hl]
      unfold encodeCheck
      rw [decode58_encode]
      simp only
      split
      · rfl
      split
      · rfl
      · rw [if_pos]
        intro hh
        have : k.byte = 0xcb := by
          simp only [List.cons_append, List.take_succ_cons] at hh
          exact (List.cons.inj hh).1
        revert this
        cases k <;> decide
  simp only [Leaf.deText, hn]

/-- **C59.** A public key's text is refused as any of the kinds. -/
theorem C59_address_is_no_other_kind (E : Env) (k : Kind) (x : Bytes) (odd : Bool) :
    k.leaf.de E (ofText (address E x odd)) = .error .err := by
  rw [de_ofText _ _ _ (kind_ne k)]
  have e : address E x odd = encodeCheck E.chk 0xcb ([0x01, 0x01] ++ x ++ [if odd then 0x01 else 0x00]) := rfl
  rw [e]
  refine kind_de_err E k _ _ (decodeCheck_other E.chk_length ?_ _)
  cases k <;> decide

end MinaRs.Json
