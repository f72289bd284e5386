import Verif.Json.Spec
import Verif.Json.TextLemmas
import Verif.BinProt.IOProps
import Verif.Base.AmountProps

/-! Round trips of the leaves of the JSON forms. -/

namespace MinaRs.Json

open BinProt (Ty Tys Fits)
open Codec
open Text (Text)

theorem arrBytes_length : (n : Nat) → (v : (u8s n).prod) → (arrBytes n v).length = n
  | 0, _ => rfl
  | n + 1, v => by simp [arrBytes, arrBytes_length n]

theorem bytesArr_arrBytes : (n : Nat) → (v : (u8s n).prod) → bytesArr n (arrBytes n v) = some v
  | 0, v => by cases v; rfl
  | n + 1, v => by
    obtain ⟨b, r⟩ := v
    simp only [arrBytes, bytesArr]
    rw [bytesArr_arrBytes n r]; rfl

theorem bytesArr_some : {n : Nat} → {bs : Bytes} → {v : (u8s n).prod} → bytesArr n bs = some v → arrBytes n v = bs
  | 0, [], v, _ => rfl
  | 0, _ :: _, _, h => by simp [bytesArr] at h
  | n + 1, [], _, h => by simp [bytesArr] at h
  | n + 1, b :: bs, v, h => by
    simp only [bytesArr] at h
    cases hr : bytesArr n bs with
    | none => rw [hr] at h; cases h
    | some r =>
      rw [hr] at h
      cases h
      simp only [arrBytes]
      rw [bytesArr_some hr]

theorem bytesArr_isSome {n : Nat} {bs : Bytes} (h : bs.length = n) : ∃ v, bytesArr n bs = some v := by
  induction bs generalizing n with
  | nil => subst h; exact ⟨(), rfl⟩
  | cons b bs ih =>
    subst h
    obtain ⟨r, hr⟩ := ih rfl
    exact ⟨((b, r) : UInt8 × (u8s bs.length).prod), by simp only [List.length_cons, bytesArr, hr]; rfl⟩

theorem bytesArr_none {n : Nat} {bs : Bytes} (h : bs.length ≠ n) : bytesArr n bs = none := by
  cases hb : bytesArr n bs with
  | none => rfl
  | some v => exact absurd (by rw [← bytesArr_some hb, arrBytes_length]) h

theorem toList_ofList (s : Text) : (String.ofList s).toList = s := String.toList_ofList

/-- A text leaf other than `i64` reads the text of a string. -/
theorem de_str (E : Env) (c : Leaf) (s : String) (h : c ≠ .i64) : c.de E (.str s) = c.deText E s.toList := by
  cases c <;> first | exact absurd rfl h | rfl

theorem de_ofText (E : Env) (c : Leaf) (s : Text) (h : c ≠ .i64) : c.de E (ofText s) = c.deText E s := by
  rw [ofText, de_str E c _ h, toList_ofList]

theorem intOf_val {k : BinProt.IntKind} (v : {n : Int // k.range.holds n}) : intOf k v.val = .ok v := by
  unfold intOf
  rw [dif_pos v.property]

theorem skipPrefix_hex (v : arr32.denote) : skipPrefix (fieldToHex v) = hexEncode (arrBytes 32 v) := rfl

/-- The address of a key has 55 characters. -/
theorem address_length (E : Env) (x : Bytes) (hx : x.length = 32) (odd : Bool) : (address E x odd).length = 55 := by
  unfold address encode58
  simp only [List.length_map]
  generalize hp : (if odd = true then (0x01 : UInt8) else 0x00) = p
  generalize hraw : [0xcb, 0x01, 0x01] ++ x ++ [p] = raw
  generalize hrest : (x ++ [p] ++ E.chk raw).map UInt8.toNat = rest
  have hl : rest.length = 37 := by
    rw [← hrest, List.length_map, List.length_append, List.length_append, E.chk_length, hx]; rfl
  have hlt : ∀ d ∈ rest, d < 256 := by
    intro d hd
    rw [← hrest] at hd
    obtain ⟨b, -, rfl⟩ := List.mem_map.mp hd
    exact b.toNat_lt
  have hds : (raw ++ E.chk raw).map UInt8.toNat = 203 :: 1 :: 1 :: rest := by
    rw [← hrest, ← hraw]; simp
  rw [hds]
  have hz : leadingZeros (203 :: 1 :: 1 :: rest) = 0 := by simp [leadingZeros]
  unfold convert
  rw [hz]
  simp only [List.replicate_zero, List.nil_append]
  have hv := value_lt hlt
  rw [hl] at hv
  have hval : value 256 (203 :: 1 :: 1 :: rest) = 203 * 256 ^ 39 + (1 * 256 ^ 38 + (1 * 256 ^ 37 + value 256 rest)) := by
    rw [value_cons, value_cons, value_cons]; simp [hl]
  rw [hval]
  exact digits_length (k := 54) (by decide) (by omega) (by omega)

theorem fromAddress_address (E : Env) (x : Bytes) (hx : x.length = 32) (hp : leNat x < Hash.p) (odd : Bool) :
    fromAddress E (address E x odd) = some (x, odd) := by
  unfold fromAddress
  rw [if_neg (by simp [address_length E x hx odd])]
  have hdec : decode58 (address E x odd) =
      .ok (([0xcb, 0x01, 0x01] ++ x ++ [if odd then 0x01 else 0x00]) ++
        E.chk ([0xcb, 0x01, 0x01] ++ x ++ [if odd then 0x01 else 0x00])) := by
    unfold address; exact decode58_encode _
  rw [hdec]
  simp only
  generalize hq : (if odd = true then (0x01 : UInt8) else 0x00) = q
  have hrl : ([0xcb, 0x01, 0x01] ++ x ++ [q]).length = 36 := by simp [hx]
  have ht : (([0xcb, 0x01, 0x01] ++ x ++ [q]) ++ E.chk ([0xcb, 0x01, 0x01] ++ x ++ [q])).take 36 =
      [0xcb, 0x01, 0x01] ++ x ++ [q] := by
    rw [List.take_append_of_le_length (by omega), List.take_of_length_le (by omega)]
  have hd : (([0xcb, 0x01, 0x01] ++ x ++ [q]) ++ E.chk ([0xcb, 0x01, 0x01] ++ x ++ [q])).drop 36 =
      E.chk ([0xcb, 0x01, 0x01] ++ x ++ [q]) := by
    rw [List.drop_append, hrl, List.drop_of_length_le (by omega)]; simp
  rw [ht, hd]
  generalize hc : E.chk ([0xcb, 0x01, 0x01] ++ x ++ [q]) = c
  have hcl : c.length = 4 := by rw [← hc]; exact E.chk_length _
  have h3 : List.drop 3 ([0xcb, 0x01, 0x01] ++ x ++ [q] ++ c) = x ++ [q] ++ c := by simp
  have h32 : (x ++ [q] ++ c).take 32 = x := by
    rw [List.append_assoc, List.take_append_of_le_length (by omega), List.take_of_length_le (by omega)]
  have h35 : List.drop 35 ([0xcb, 0x01, 0x01] ++ x ++ [q] ++ c) = q :: c := by
    rw [show (35 : Nat) = 3 + 32 from rfl, ← List.drop_drop, h3, List.append_assoc, List.drop_append, hx,
      List.drop_of_length_le (by omega)]
    rfl
  rw [h3, h32, h35, if_neg (by simp [hx, hcl]), if_neg (by simp), if_neg (by simp), if_pos hp]
  cases odd <;> subst hq <;> rfl

theorem uncheckedString_utf8 (s : String) : uncheckedString (BinProt.utf8 s) = .ok (.str s) := by
  unfold uncheckedString
  rw [BinProt.fromUTF8?_utf8]

theorem utf8_ascii {b : UInt8} (h : b.toNat < 128) : BinProt.utf8 (String.ofList [Char.ofNat b.toNat]) = [b] := by
  have : ∀ n : Fin 128, BinProt.utf8 (String.ofList [Char.ofNat n.1]) = [UInt8.ofNat n.1] := by decide +kernel
  have h1 := this ⟨b.toNat, h⟩
  simpa using h1

theorem strict_toBytes (t : Ty) (v : t.denote) (h : Fits t v) :
    BinProt.fromReaderStrict t ⟨BinProt.toBytes t v, []⟩ = .ok v := by
  have h1 := BinProt.C07_typed_roundtrip_partial t v h []
  rw [List.append_nil] at h1
  exact (BinProt.C10_strict_partial t _ [] (by simp [BinProt.NoReadErrors])).2.1 v h1

theorem natCast_toNat {n : Int} (h : 0 ≤ n) : ((n.toNat : Nat) : Int) = n := by omega

/-- Every leaf is read back from its text. -/
theorem leaf_roundtrip (E : Env) (c : Leaf) (v : c.wire.denote) (h : c.Carried v) :
    ∃ j, c.ser E v = .ok j ∧ c.de E j = .ok v ∧ j ≠ .null ∧ ∀ items, j ≠ .arr items := by
  have hs : ∀ s : Text, ofText s ≠ .null ∧ ∀ items, ofText s ≠ .arr items := by
    intro s; constructor
    · intro h; cases h
    · intro items h; cases h
  cases c with
  | u32 =>
    refine ⟨_, rfl, ?_, hs _⟩
    rw [de_ofText _ _ _ (by intro h; cases h)]
    obtain ⟨n, hn⟩ := v
    obtain ⟨h0, h1⟩ := hn
    simp only [BinProt.IntKind.range, BinProt.u32] at h0 h1
    simp only [Leaf.deText]
    rw [(Base.C64_roundtrip Base.U32_MAX n.toNat (by simp only [Base.U32_MAX]; omega)).2]
    simp only [natCast_toNat h0]
    exact intOf_val (k := .u32) ⟨n, _⟩
  | extU32 =>
    refine ⟨_, rfl, ?_, hs _⟩
    rw [de_ofText _ _ _ (by intro h; cases h)]
    obtain ⟨n, hn⟩ := v
    have hn' := hn
    obtain ⟨h0, h1⟩ := hn'
    simp only [BinProt.IntKind.range, BinProt.i32] at h0 h1
    simp only [Leaf.deText]
    have hw := wrapU_lt 32 n
    rw [(Base.C64_roundtrip Base.U32_MAX (wrapU 32 n) (by simp only [Base.U32_MAX]; omega)).2]
    simp only
    rw [BinProt.toSigned_wrapU (by decide) (by omega) (by omega)]
    exact intOf_val (k := .i32) ⟨n, hn⟩
  | u64 =>
    refine ⟨_, rfl, ?_, hs _⟩
    rw [de_ofText _ _ _ (by intro h; cases h)]
    obtain ⟨n, hn⟩ := v
    obtain ⟨h0, h1⟩ := hn
    simp only [BinProt.IntKind.range, BinProt.u64] at h0 h1
    simp only [Leaf.deText]
    rw [(Base.C64_roundtrip Base.U64_MAX n.toNat (by simp only [Base.U64_MAX]; omega)).2]
    simp only [natCast_toNat h0]
    exact intOf_val (k := .u64) ⟨n, _⟩
  | decimal =>
    refine ⟨_, rfl, ?_, hs _⟩
    rw [de_ofText _ _ _ (by intro h; cases h)]
    obtain ⟨n, hn⟩ := v
    obtain ⟨h0, h1⟩ := hn
    simp only [BinProt.IntKind.range, BinProt.u64] at h0 h1
    simp only [Leaf.deText]
    rw [Base.C49_roundtrip E.checks n.toNat (by simp only [Base.U64_MAX]; omega)]
    simp only [natCast_toNat h0]
    exact intOf_val (k := .u64) ⟨n, _⟩
  | i64 =>
    refine ⟨_, rfl, ?_, (fun h => by cases h), (fun _ h => by cases h)⟩
    exact intOf_val (k := .i64) v
  | char =>
    have h' : UInt8.toNat v < 128 := h
    refine ⟨.str (String.ofList [Char.ofNat (UInt8.toNat v)]), ?_, ?_, (fun h => by cases h), (fun _ h => by cases h)⟩
    · show uncheckedString [(v : UInt8)] = _
      rw [← utf8_ascii h', uncheckedString_utf8]
    · rw [de_str _ _ _ (by intro h; cases h), toList_ofList]
      simp only [Leaf.deText]
      rw [utf8_ascii h']
  | byteVec =>
    obtain ⟨s, hs⟩ : IsUtf8 v := h
    refine ⟨.str s, ?_, ?_, (fun h => by cases h), (fun _ h => by cases h)⟩
    · show uncheckedString v = _
      rw [← hs, uncheckedString_utf8]
    · rw [de_str _ _ _ (by intro h; cases h)]
      simp only [Leaf.deText, String.ofList_toList]
      rw [hs]
  | field =>
    change arr32.denote at v
    refine ⟨_, rfl, ?_, hs _⟩
    rw [de_ofText _ _ _ (by intro h; cases h)]
    simp only [Leaf.deText, fieldFromHex]
    rw [skipPrefix_hex, hexDecode_encode]
    simp only
    rw [show bytesArr 32 (arrBytes 32 v) = some v from bytesArr_arrBytes 32 v]
    rfl
  | base58Bin ver t =>
    change t.denote at v
    refine ⟨_, rfl, ?_, hs _⟩
    rw [de_ofText _ _ _ (by intro h; cases h)]
    simp only [Leaf.deText]
    rw [decodeCheck_encode E.chk_length]
    simp only [strictAfterVersion]
    rw [strict_toBytes t v h]
    rfl
  | base58Bytes ver =>
    change Bytes at v
    refine ⟨_, rfl, ?_, hs _⟩
    rw [de_ofText _ _ _ (by intro h; cases h)]
    simp only [Leaf.deText]
    rw [decodeCheck_encode E.chk_length]
  | memo =>
    change Bytes at v
    refine ⟨_, rfl, ?_, hs _⟩
    rw [de_ofText _ _ _ (by intro h; cases h)]
    simp only [Leaf.deText]
    rw [decodeCheck_encode E.chk_length]
    rfl
  | base64Bytes =>
    change Bytes at v
    refine ⟨_, rfl, ?_, hs _⟩
    rw [de_ofText _ _ _ (by intro h; cases h)]
    simp only [Leaf.deText]
    rw [decode64_encode]
  | vrfBase58 =>
    change Bytes at v
    refine ⟨_, rfl, ?_, hs _⟩
    rw [de_ofText _ _ _ (by intro h; cases h)]
    simp only [Leaf.deText]
    rw [decodeCheck_encode E.chk_length]
    rfl
  | base64Bin t =>
    change t.denote at v
    refine ⟨_, rfl, ?_, hs _⟩
    rw [de_ofText _ _ _ (by intro h; cases h)]
    simp only [Leaf.deText]
    rw [decode64_encode]
    simp only
    rw [strict_toBytes t v h]
  | publicKey =>
    obtain ⟨x, odd, u⟩ : arr32.denote × Bool × Unit := v
    have h' : leNat (arrBytes 32 x) < Hash.p := h
    refine ⟨ofText (address E (arrBytes 32 x) odd), ?_, ?_, hs _⟩
    · simp only [Leaf.ser]; exact if_pos h'
    · rw [de_ofText _ _ _ (by intro h; cases h)]
      simp only [Leaf.deText]
      rw [fromAddress_address E _ (arrBytes_length 32 x) h']
      simp only
      rw [show bytesArr 32 (arrBytes 32 x) = some x from bytesArr_arrBytes 32 x]

end MinaRs.Json
