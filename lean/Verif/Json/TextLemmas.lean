import Verif.Json.Text

namespace MinaRs.Codec

open Text (Text)

/-! ## Hexadecimal -/

theorem hexVal_digit {n : Nat} (h : n < 16) : hexVal (hexDigit n) = some n := by
  have : ∀ n : Fin 16, hexVal (hexDigit n.1) = some n.1 := by decide
  exact this ⟨n, h⟩

theorem hexPairs_encode (bs : Bytes) : hexPairs (hexEncode bs) = .ok bs := by
  induction bs with
  | nil => rfl
  | cons b bs ih =>
    have hb := b.toNat_lt
    have e : hexEncode (b :: bs) = hexDigit (b.toNat / 16) :: hexDigit (b.toNat % 16) :: hexEncode bs := rfl
    rw [e, hexPairs, hexVal_digit (by omega), hexVal_digit (by omega), ih]
    have : 16 * (b.toNat / 16) + b.toNat % 16 = b.toNat := by omega
    simp [this]

theorem hexEncode_length (bs : Bytes) : (hexEncode bs).length = 2 * bs.length := by
  induction bs with
  | nil => rfl
  | cons b bs ih =>
    have e : hexEncode (b :: bs) = hexDigit (b.toNat / 16) :: hexDigit (b.toNat % 16) :: hexEncode bs := rfl
    rw [e]; simp [ih]; omega

theorem hexDecode_encode (bs : Bytes) : hexDecode (hexEncode bs) = .ok bs := by
  unfold hexDecode
  rw [if_neg (by rw [hexEncode_length]; omega), hexPairs_encode]

theorem hexPairs_ok {s : Text} {bs : Bytes} (h : hexPairs s = .ok bs) :
    s.length = 2 * bs.length ∧ ∀ c ∈ s, (hexVal c).isSome := by
  fun_induction hexPairs s generalizing bs with
  | case1 => cases h; simp
  | case2 => cases h
  | case3 a b rest x y hx hy bs' hbs ih =>
    cases h
    obtain ⟨h1, h2⟩ := ih hbs
    refine ⟨by simp [h1]; omega, ?_⟩
    intro c hc
    simp only [List.mem_cons] at hc
    rcases hc with rfl | rfl | hc
    · first | rw [hx]; rfl | rw [hy]; rfl
    · first | rw [hx]; rfl | rw [hy]; rfl
    · exact h2 c hc
  | case4 => cases h
  | case5 => cases h

/-! ## Base58 -/

theorem digit58_char {d : Nat} (h : d < 58) : digit58 (char58 d) = some d := by
  have : ∀ d : Fin 58, digit58 (char58 d.1) = some d.1 := by decide +kernel
  exact this ⟨d, h⟩

theorem digits58_map {ds : List Nat} (h : ∀ d ∈ ds, d < 58) : digits58 (ds.map char58) = .ok ds := by
  induction ds with
  | nil => rfl
  | cons d ds ih =>
    rw [List.map_cons, digits58, digit58_char (h d (by simp)), ih (fun x hx => h x (by simp [hx]))]

theorem map_ofNat_toNat (bs : Bytes) : (bs.map UInt8.toNat).map UInt8.ofNat = bs := by
  induction bs with
  | nil => rfl
  | cons b bs ih => rw [List.map_cons, List.map_cons, ih]; simp

/-- Base58 text decodes to the bytes it was made from. -/
theorem decode58_encode (bs : Bytes) : decode58 (encode58 bs) = .ok bs := by
  unfold decode58 encode58
  rw [digits58_map (convert_lt (by decide) _)]
  simp only
  rw [convert_convert (by decide) (by decide), map_ofNat_toNat]
  intro d hd
  obtain ⟨b, -, rfl⟩ := List.mem_map.mp hd
  exact b.toNat_lt

theorem char58_digit {c : Char} {d : Nat} (h : digit58 c = some d) : char58 d = c ∧ d < 58 := by
  unfold digit58 at h
  rw [List.findIdx?_eq_some_iff_getElem] at h
  obtain ⟨hl, h1, -⟩ := h
  have hlen : alphabet58.length = 58 := by decide +kernel
  refine ⟨?_, by omega⟩
  unfold char58
  rw [List.getD_eq_getElem?_getD, List.getElem?_eq_getElem hl]
  simpa using h1

theorem digits58_ok {s : Text} {ds : List Nat} (h : digits58 s = .ok ds) :
    ds.map char58 = s ∧ ∀ d ∈ ds, d < 58 := by
  induction s generalizing ds with
  | nil => cases h; simp
  | cons c cs ih =>
    rw [digits58] at h
    cases hc : digit58 c with
    | none => rw [hc] at h; cases h
    | some d =>
      rw [hc] at h
      simp only at h
      cases hcs : digits58 cs with
      | error e => rw [hcs] at h; cases h
      | ok ds' =>
        rw [hcs] at h
        cases h
        obtain ⟨h1, h2⟩ := ih hcs
        obtain ⟨h3, h4⟩ := char58_digit hc
        refine ⟨by simp [h1, h3], ?_⟩
        intro x hx
        rcases List.mem_cons.mp hx with rfl | hx
        · exact h4
        · exact h2 x hx

theorem map_toNat_ofNat {ds : List Nat} (h : ∀ d ∈ ds, d < 256) : (ds.map UInt8.ofNat).map UInt8.toNat = ds := by
  induction ds with
  | nil => rfl
  | cons d ds ih =>
    have : d < 256 := h d (by simp)
    simp only [List.map_cons]
    rw [ih (fun x hx => h x (by simp [hx]))]
    simp [Nat.mod_eq_of_lt this]

/-- Every text that decodes is the base58 text of its bytes: there is one text for each byte string. -/
theorem encode58_decode {s : Text} {bs : Bytes} (h : decode58 s = .ok bs) : encode58 bs = s := by
  unfold decode58 at h
  cases hd : digits58 s with
  | error e => rw [hd] at h; cases h
  | ok ds =>
    rw [hd] at h
    cases h
    obtain ⟨h1, h2⟩ := digits58_ok hd
    unfold encode58
    rw [map_toNat_ofNat (convert_lt (by decide) _), convert_convert (by decide) (by decide) h2, h1]

/-- What base58check text of a version decodes to. -/
theorem decodeCheck_encode {chk : Bytes → Bytes} (hchk : ∀ bs, (chk bs).length = 4) (ver : UInt8) (bs : Bytes) :
    decodeCheck chk ver (encodeCheck chk ver bs) = .ok (ver :: bs) := by
  unfold decodeCheck encodeCheck
  rw [decode58_encode]
  have hl : ((ver :: bs) ++ chk (ver :: bs)).length - 4 = (ver :: bs).length := by
    rw [List.length_append, hchk]; omega
  simp only
  rw [hl, List.take_left, List.drop_left, if_neg (by rw [List.length_append, hchk]; omega), if_neg (by simp)]
  simp

/-- Text of another version is refused. -/
theorem decodeCheck_other {chk : Bytes → Bytes} (hchk : ∀ bs, (chk bs).length = 4) {ver ver' : UInt8} (hne : ver ≠ ver')
    (bs : Bytes) : decodeCheck chk ver' (encodeCheck chk ver bs) = .error .invalidVersion := by
  unfold decodeCheck encodeCheck
  rw [decode58_encode]
  have hl : ((ver :: bs) ++ chk (ver :: bs)).length - 4 = (ver :: bs).length := by
    rw [List.length_append, hchk]; omega
  simp only
  rw [hl, List.take_left, List.drop_left, if_neg (by rw [List.length_append, hchk]; omega), if_neg (by simp)]
  simp [hne]

/-- Accepted base58check texts are exactly those written for the version, except that the text of no
bytes at all is accepted for the version that equals the first byte of its checksum. -/
theorem decodeCheck_ok_iff {chk : Bytes → Bytes} (hchk : ∀ bs, (chk bs).length = 4) (ver : UInt8) (s : Text) (out : Bytes) :
    decodeCheck chk ver s = .ok out ↔
      (∃ bs, out = ver :: bs ∧ s = encodeCheck chk ver bs) ∨
      (out = [] ∧ s = encode58 (chk []) ∧ (chk []).head? = some ver) := by
  constructor
  · intro h
    unfold decodeCheck at h
    cases hd : decode58 s with
    | error e => rw [hd] at h; cases h
    | ok o =>
      rw [hd] at h
      simp only at h
      by_cases h4 : o.length < 4
      · rw [if_pos h4] at h; cases h
      · rw [if_neg h4] at h
        by_cases hc : chk (o.take (o.length - 4)) ≠ o.drop (o.length - 4)
        · rw [if_pos hc] at h; cases h
        · rw [if_neg hc] at h
          by_cases hv : o.head? = some ver
          · rw [if_pos hv] at h
            cases h
            have hc' : chk (o.take (o.length - 4)) = o.drop (o.length - 4) := Classical.byContradiction (fun h => hc h)
            have hs := encode58_decode hd
            have hsplit := List.take_append_drop (o.length - 4) o
            rw [← hc'] at hsplit
            cases hb : o.take (o.length - 4) with
            | nil =>
              right
              rw [hb] at hsplit
              simp only [List.nil_append] at hsplit
              refine ⟨rfl, by rw [hsplit, hs], by rw [hsplit, hv]⟩
            | cons x bs =>
              left
              rw [hb] at hsplit
              rw [← hsplit] at hv
              simp at hv
              subst hv
              refine ⟨bs, rfl, ?_⟩
              unfold encodeCheck
              rw [hsplit, hs]
          · rw [if_neg hv] at h; cases h
  · rintro (⟨bs, rfl, rfl⟩ | ⟨rfl, rfl, hv⟩)
    · exact decodeCheck_encode hchk ver bs
    · unfold decodeCheck
      rw [decode58_encode]
      simp [hchk, hv]

/-! ## Base64 -/

theorem digit64_char {d : Nat} (h : d < 64) : digit64 (char64 d) = some d := by
  have : ∀ d : Fin 64, digit64 (char64 d.1) = some d.1 := by decide +kernel
  exact this ⟨d, h⟩

theorem char64_ne_pad {d : Nat} (h : d < 64) : char64 d ≠ '=' := by
  have : ∀ d : Fin 64, char64 d.1 ≠ '=' := by decide +kernel
  exact this ⟨d, h⟩

theorem quad_bytes (x y z : UInt8) :
    quad (char64 (x.toNat / 4)) (char64 (x.toNat % 4 * 16 + y.toNat / 16)) (char64 (y.toNat % 16 * 4 + z.toNat / 64))
      (char64 (z.toNat % 64)) = .ok [x, y, z] := by
  have hx := x.toNat_lt
  have hy := y.toNat_lt
  have hz := z.toNat_lt
  unfold quad
  rw [digit64_char (by omega), digit64_char (by omega), digit64_char (by omega), digit64_char (by omega)]
  simp only
  have e1 : x.toNat / 4 * 4 + (x.toNat % 4 * 16 + y.toNat / 16) / 16 = x.toNat := by omega
  have e2 : (x.toNat % 4 * 16 + y.toNat / 16) % 16 * 16 + (y.toNat % 16 * 4 + z.toNat / 64) / 4 = y.toNat := by omega
  have e3 : (y.toNat % 16 * 4 + z.toNat / 64) % 4 * 64 + z.toNat % 64 = z.toNat := by omega
  rw [e1, e2, e3]
  simp

theorem decode64_encode (bs : Bytes) : decode64 (encode64 bs) = .ok bs := by
  fun_induction encode64 bs with
  | case1 => rfl
  | case2 x =>
    have hx := x.toNat_lt
    rw [decode64, if_pos rfl, if_pos rfl]
    unfold tail2
    rw [digit64_char (by omega), digit64_char (by omega)]
    simp only
    rw [if_pos (by omega)]
    have : x.toNat / 4 * 4 + x.toNat % 4 * 16 / 16 = x.toNat := by omega
    rw [this]; simp
  | case3 x y =>
    have hx := x.toNat_lt
    have hy := y.toNat_lt
    rw [decode64, if_pos rfl, if_neg (char64_ne_pad (by omega))]
    unfold tail3
    rw [digit64_char (by omega), digit64_char (by omega), digit64_char (by omega)]
    simp only
    rw [if_pos (by omega)]
    have e1 : x.toNat / 4 * 4 + (x.toNat % 4 * 16 + y.toNat / 16) / 16 = x.toNat := by omega
    have e2 : (x.toNat % 4 * 16 + y.toNat / 16) % 16 * 16 + y.toNat % 16 * 4 / 4 = y.toNat := by omega
    rw [e1, e2]; simp
  | case4 x y z rest ih =>
    have hz := z.toNat_lt
    have hq := quad_bytes x y z
    cases hr : encode64 rest with
    | nil =>
      rw [hr] at ih
      cases ih
      rw [decode64, if_neg (char64_ne_pad (by omega)), hq]
    | cons c cs =>
      rw [decode64, hq, ← hr, ih]
      · rfl
      · intro h; simp at h

end MinaRs.Codec
