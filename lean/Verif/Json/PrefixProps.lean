import Verif.Json.Prefix
import Verif.Json.StrConv

/-!
# C105: the first characters of a text say what it is

The theorems use the models of the conversions in `Json/StrConv.lean` and of addresses in `Json/Model.lean`.
-/

namespace MinaRs.Json.StrConv

open Codec Spec
open Text (Text)

/-- How the texts of a type begin, and how long they are, for hashes of 32 bytes and addresses. -/
def Spec.look : Named → Option (String × Nat)
  | .ledgerHash => some ("j", 51) | .chainHash => some ("j", 51) | .coinbaseHash => some ("2", 52)
  | .epochSeed => some ("2v", 52) | .stateHash => some ("3N", 52) | .stateBodyHash => some ("3W", 52)
  | .vrfOutputHash => some ("47", 52) | .curvePoint => some ("B62q", 55)
  | _ => none

/-- The text begins with the characters and has the length. -/
def Spec.Looks (s : Text) (look : String × Nat) : Prop := look.1.toList <+: s ∧ s.length = look.2

open Spec (look Looks)

/-! ## Lemmas -/

theorem looks_of (pre : Bytes) (P : List Nat) (m k : Nat) (l : String × Nat) (hpre : pre.head? ≠ some 0) (hpne : pre ≠ [])
    (hP : ∀ d ∈ P, d < 58) (h0 : P.head? ≠ some 0) (hne : P ≠ [])
    (hlo : value 58 P * 58 ^ k ≤ value 256 (pre.map UInt8.toNat) * 256 ^ m)
    (hhi : (value 256 (pre.map UInt8.toNat) + 1) * 256 ^ m ≤ (value 58 P + 1) * 58 ^ k)
    (h1 : P.map char58 = l.1.toList) (h2 : P.length + k = l.2)
    (bs : Bytes) (hl : bs.length = m) : Looks (encode58 (pre ++ bs)) l := by
  obtain ⟨rest, h3, h4⟩ := encode58_prefix pre P m k hpre hpne hP h0 hne hlo hhi bs hl
  have h5 : P.length = (P.map char58).length := by simp
  refine ⟨⟨rest, ?_⟩, ?_⟩
  · rw [h3, h1]
  · rw [h3, List.length_append, h4, ← h5, h2]

theorem looks_hash (E : Env) (ver : UInt8) (P : List Nat) (k : Nat) (l : String × Nat) (h : Bytes) (hh : h.length = 32)
    (hpre : ver ≠ 0) (hP : ∀ d ∈ P, d < 58) (h0 : P.head? ≠ some 0) (hne : P ≠ [])
    (hlo : value 58 P * 58 ^ k ≤ value 256 [ver.toNat, 1] * 256 ^ 36)
    (hhi : (value 256 [ver.toNat, 1] + 1) * 256 ^ 36 ≤ (value 58 P + 1) * 58 ^ k)
    (h1 : P.map char58 = l.1.toList) (h2 : P.length + k = l.2) : Looks (encodeCheck E.chk ver (1 :: h)) l := by
  have := looks_of [ver, 1] P 36 k l (by simpa using hpre) (by simp) hP h0 hne hlo hhi h1 h2
    (h ++ E.chk (ver :: 1 :: h)) (by rw [List.length_append, hh, E.chk_length])
  exact this

theorem toStr_hash (E : Env) (h : arr32.denote) (t : Named) (b : UInt8) (hb : byte t = some b)
    (ht : t.leaf = .base58Bin b hashV1) (v : t.Val) (hv : HEq (t.into v) (version1 (t := arr32) h)) :
    toStr E t v = .ok (String.ofList (encodeCheck E.chk b (1 :: arrBytes 32 h))) := by
  have hb' : BinProt.toBytes hashV1 (version1 (t := arr32) h) = 1 :: arrBytes 32 h := GraphQL.toBytes_hash h
  unfold toStr
  revert hv
  generalize t.into v = w
  revert w
  rw [ht]
  intro w hw
  rw [eq_of_heq hw]
  simp only [Leaf.ser, ofText, hb']

theorem looks_address (E : Env) (x : Bytes) (hx : x.length = 32) (odd : Bool) : Looks (address E x odd) ("B62q", 55) := by
  have := looks_of [0xcb, 0x01, 0x01] [10, 5, 1, 48] 37 51 ("B62q", 55) (by decide) (by decide) (by decide) (by decide) (by decide)
    (by decide +kernel) (by decide +kernel) (by decide +kernel) rfl
    (x ++ [if odd then 0x01 else 0x00] ++ E.chk ([0xcb, 0x01, 0x01] ++ x ++ [if odd then 0x01 else 0x00]))
    (by rw [List.length_append, List.length_append, hx, E.chk_length]; rfl)
  unfold address
  simpa only [List.append_assoc] using this

/-! ## C105 -/

/-- **C105.** The text of a hash, or of a public key, has the length and the first characters of its type. -/
theorem C105_written (E : Env) (t : Named) (l : String × Nat) (hl : look t = some l) (v : t.Val) (s : String)
    (h : toStr E t v = .ok s) : Looks s.toList l := by
  cases t <;> simp only [look, Option.some.injEq, reduceCtorEq] at hl
  case stateBodyHash =>
    rw [toStr_hash E v .stateBodyHash 0x11 rfl rfl v HEq.rfl] at h
    rw [← Except.ok.inj h, ← hl, toList_ofList]
    exact looks_hash E _ [2, 29] 50 _ _ (arrBytes_length 32 _) (by decide) (by decide) (by decide) (by decide)
      (by decide +kernel) (by decide +kernel) (by decide +kernel) rfl
  case stateHash =>
    rw [toStr_hash E v .stateHash 0x10 rfl rfl v HEq.rfl] at h
    rw [← Except.ok.inj h, ← hl, toList_ofList]
    exact looks_hash E _ [2, 21] 50 _ _ (arrBytes_length 32 _) (by decide) (by decide) (by decide) (by decide)
      (by decide +kernel) (by decide +kernel) (by decide +kernel) rfl
  case ledgerHash =>
    rw [toStr_hash E v .ledgerHash 0x05 rfl rfl v HEq.rfl] at h
    rw [← Except.ok.inj h, ← hl, toList_ofList]
    exact looks_hash E _ [42] 50 _ _ (arrBytes_length 32 _) (by decide) (by decide) (by decide) (by decide)
      (by decide +kernel) (by decide +kernel) (by decide +kernel) rfl
  case chainHash =>
    rw [toStr_hash E v .chainHash 0x05 rfl rfl v HEq.rfl] at h
    rw [← Except.ok.inj h, ← hl, toList_ofList]
    exact looks_hash E _ [42] 50 _ _ (arrBytes_length 32 _) (by decide) (by decide) (by decide) (by decide)
      (by decide +kernel) (by decide +kernel) (by decide +kernel) rfl
  case coinbaseHash =>
    rw [toStr_hash E v .coinbaseHash 0x0c rfl rfl v HEq.rfl] at h
    rw [← Except.ok.inj h, ← hl, toList_ofList]
    exact looks_hash E _ [1] 51 _ _ (arrBytes_length 32 _) (by decide) (by decide) (by decide) (by decide)
      (by decide +kernel) (by decide +kernel) (by decide +kernel) rfl
  case epochSeed =>
    rw [toStr_hash E v .epochSeed 0x0d rfl rfl v HEq.rfl] at h
    rw [← Except.ok.inj h, ← hl, toList_ofList]
    exact looks_hash E _ [1, 53] 50 _ _ (arrBytes_length 32 _) (by decide) (by decide) (by decide) (by decide)
      (by decide +kernel) (by decide +kernel) (by decide +kernel) rfl
  case vrfOutputHash =>
    rw [toStr_hash E v .vrfOutputHash 0x15 rfl rfl v HEq.rfl] at h
    rw [← Except.ok.inj h, ← hl, toList_ofList]
    exact looks_hash E _ [3, 6] 50 _ _ (arrBytes_length 32 _) (by decide) (by decide) (by decide) (by decide)
      (by decide +kernel) (by decide +kernel) (by decide +kernel) rfl
  case curvePoint =>
    have e : toStr E .curvePoint v = if leNat (arrBytes 32 v.1) < Hash.p then
        .ok (String.ofList (address E (arrBytes 32 v.1) v.2)) else .error .panic := by
      unfold toStr
      simp only [Named.leaf, Leaf.ser, Named.into]
      split
      · rename_i e he
        split at he
        · cases he
        · rename_i hn; rw [if_neg hn]; cases he; rfl
      · rename_i t he
        split at he
        · rename_i hy; rw [if_pos hy]; cases he; rfl
        · cases he
      · rename_i j hj he
        split at he
        · cases he; exact absurd rfl (hj _)
        · cases he
    rw [e] at h
    split at h
    · rw [← Except.ok.inj h, ← hl, toList_ofList]
      exact looks_address E _ (arrBytes_length 32 _) _
    · cases h

/-- **C105.** Every text that is read as a public key begins with `B62q` and has 55 characters. -/
theorem C105_address_read (E : Env) (s : Text) (x : Bytes) (odd : Bool) (h : fromAddress E s = some (x, odd)) :
    Looks s ("B62q", 55) := by
  unfold fromAddress at h
  split at h
  · cases h
  split at h
  · cases h
  rename_i out hd
  split at h
  · cases h
  rename_i hlen
  split at h
  · cases h
  split at h
  · cases h
  rename_i hpre
  have hs := encode58_decode hd
  have := looks_of [0xcb, 0x01, 0x01] [10, 5, 1, 48] 37 51 ("B62q", 55) (by decide) (by decide) (by decide) (by decide) (by decide)
    (by decide +kernel) (by decide +kernel) (by decide +kernel) rfl (out.drop 3) (by
      rw [List.length_drop]; omega)
  have e : [0xcb, 0x01, 0x01] ++ out.drop 3 = out := by
    have hp : out.take 3 = [0xcb, 0x01, 0x01] := by simpa using hpre
    rw [← hp]; exact List.take_append_drop 3 out
  rw [e, hs] at this
  exact this

/-- Bytes after the number 127. -/
theorem toBytes_127 (v : (u8s 32).prod) (h : BinProt.u16.holds 127) :
    BinProt.toBytes hashV1 ((⟨127, h⟩, v, ()) : {n : Int // BinProt.u16.holds n} × arr32.denote × Unit) = 0x7f :: arrBytes 32 v := by
  have h : BinProt.toBytes hashV1 ((⟨127, h⟩, v, ()) : {n : Int // BinProt.u16.holds n} × arr32.denote × Unit) =
      BinProt.flush ((BinProt.binWriteInteger 127).1 ++ (BinProt.encodeProd (u8s 32) v ++ [])) := rfl
  rw [h, BinProt.flush_append, BinProt.flush_append, GraphQL.flush_u8s]
  show [0x7f] ++ (_ ++ []) = _
  simp

/-- **C105 fails** for texts that are read: every state hash is also read from a text that begins with `3S`. -/
theorem C105_read_fails (E : Env) (h : arr32.denote) :
    ∃ s : String, fromStr E .stateHash s = .ok h ∧ Looks s.toList ("3S", 52) ∧ ¬ "3N".toList <+: s.toList := by
  have hu : BinProt.u16.holds 127 := by decide
  let v : hashV1.denote := ((⟨127, hu⟩, h, ()) : {n : Int // BinProt.u16.holds n} × arr32.denote × Unit)
  obtain ⟨j, h1, h2, -, -⟩ := leaf_roundtrip E (.base58Bin 0x10 hashV1) v (fits_hash v)
  have e := Except.ok.inj h1
  rw [← e] at h2
  have hl : Looks (encodeCheck E.chk 0x10 (BinProt.toBytes hashV1 v)) ("3S", 52) := by
    rw [toBytes_127 h hu]
    exact looks_of [0x10, 0x7f] [2, 25] 36 50 ("3S", 52) (by decide) (by decide) (by decide) (by decide) (by decide)
      (by decide +kernel) (by decide +kernel) (by decide +kernel) rfl
      (arrBytes 32 h ++ E.chk (0x10 :: 0x7f :: arrBytes 32 h)) (by
        rw [List.length_append, E.chk_length, show (arrBytes 32 h).length = 32 from arrBytes_length 32 _])
  refine ⟨String.ofList (encodeCheck E.chk 0x10 (BinProt.toBytes hashV1 v)), ?_, by rw [toList_ofList]; exact hl, ?_⟩
  · have h3 : Leaf.de E Named.stateHash.leaf (.str (String.ofList (encodeCheck E.chk 0x10 (BinProt.toBytes hashV1 v)))) = .ok v := h2
    unfold fromStr
    rw [h3]
    rfl
  · rintro ⟨r, hr⟩
    have hr := hr.trans (toList_ofList _)
    obtain ⟨⟨r', hr'⟩, -⟩ := hl
    rw [← hr] at hr'
    have e3 : "3N".toList = ['3', 'N'] := by decide +kernel
    have e4 : ("3S", 52).1.toList = ['3', 'S'] := by decide +kernel
    rw [e3, e4] at hr'
    cases hr'

/-- Every kind of text exists: zero bytes as a state hash, and a key with the coordinate zero. -/
example (E : Env) : (∃ s, toStr E .stateHash ((bytesArr 32 (List.replicate 32 0)).get (by decide +kernel)) = .ok s) ∧
    ∃ s, toStr E .curvePoint ((bytesArr 32 (List.replicate 32 0)).get (by decide +kernel), true) = .ok s := by
  refine ⟨?_, ?_⟩
  · obtain ⟨s, h, -⟩ := C94_roundtrip_partial E .stateHash ((bytesArr 32 (List.replicate 32 0)).get (by decide +kernel)) trivial
    exact ⟨s, h⟩
  · obtain ⟨s, h, -⟩ := C94_roundtrip_partial E .curvePoint ((bytesArr 32 (List.replicate 32 0)).get (by decide +kernel), true)
      (show leNat (arrBytes 32 ((bytesArr 32 (List.replicate 32 0)).get (by decide +kernel))) < Hash.p by decide +kernel)
    exact ⟨s, h⟩

end MinaRs.Json.StrConv
