import Verif.GraphQL.Model
import Verif.GraphQL.Spec
import Verif.Json.TextProps

/-! Reading canonical texts. -/

namespace MinaRs.GraphQL

open Json (J JErr Env)
open Text (Text)
open Hash
open Spec

theorem lookup_of_mem {es : List (String × J)} {k : String} {v : J} (hn : (es.map Prod.fst).Nodup) (h : (k, v) ∈ es) :
    es.lookup k = some v := by
  induction es with
  | nil => cases h
  | cons e es ih =>
    obtain ⟨k', v'⟩ := e
    simp only [List.map_cons, List.nodup_cons] at hn
    rcases List.mem_cons.mp h with h | h'
    · cases h
      rw [List.lookup_cons]
      simp
    · have hne : (k == k') = false := by
        rw [beq_eq_false_iff_ne]
        rintro rfl
        exact hn.1 (List.mem_map.mpr ⟨(k, v), h', rfl⟩)
      rw [List.lookup_cons, hne]
      exact ih hn.2 h'

theorem index_of_has {j : J} {k : String} {v : J} (h : Has j k v) : index j k = v := by
  obtain ⟨es, rfl, hn, hm⟩ := h
  simp only [index, lookup_of_mem hn hm, Option.getD_some]

theorem index_of_lacks {j : J} {k : String} (h : Lacks j k) : index j k = .null := by
  unfold index
  split
  · rename_i es
    cases hl : es.lookup k with
    | none => rfl
    | some v =>
      exfalso
      refine h es rfl v ?_
      have := List.lookup_eq_some_iff.mp hl
      obtain ⟨l, r, rfl, -⟩ := this
      simp
  · rfl

theorem str_ofList (s : Text) : str (.str (String.ofList s)) = s := by
  simp [str]

theorem u32_number (n : UInt32) : u32 (str (number n.toNat)) = .ok n := by
  unfold u32 number
  have := n.toNat_lt
  rw [str_ofList, Text.parseUnsigned_decimal (by omega)]
  simp

theorem u64_number (n : UInt64) : u64 (str (number n.toNat)) = .ok n := by
  unfold u64 number
  have := n.toNat_lt
  rw [str_ofList, Text.parseUnsigned_decimal (by omega)]
  simp

theorem flush_u8s : (n : Nat) → (v : (Json.u8s n).prod) → BinProt.flush (BinProt.encodeProd (Json.u8s n) v) = Json.arrBytes n v
  | 0, _ => rfl
  | n + 1, v => by
    obtain ⟨b, r⟩ := v
    show BinProt.flush ([.all [b]] ++ BinProt.encodeProd (Json.u8s n) r) = b :: Json.arrBytes n r
    rw [BinProt.flush_append, flush_u8s n r]
    rfl

theorem toBytes_hash (v : (Json.u8s 32).prod) :
    BinProt.toBytes Json.hashV1 (Json.version1 (t := Json.arr32) v) = 1 :: Json.arrBytes 32 v := by
  have h : BinProt.toBytes Json.hashV1 (Json.version1 (t := Json.arr32) v) =
      BinProt.flush ((BinProt.binWriteInteger 1).1 ++ (BinProt.encodeProd (Json.u8s 32) v ++ [])) := rfl
  rw [h, BinProt.flush_append, BinProt.flush_append, flush_u8s]
  show [1] ++ (_ ++ []) = _
  simp

theorem hash_text (E : Env) (ver : UInt8) (h : B32) : hash E ver (str (hashText E ver h)) = .ok h := by
  obtain ⟨v, hv⟩ := Json.bytesArr_isSome h.len
  have hb := Json.bytesArr_some hv
  obtain ⟨j, h1, h2, -⟩ := Json.leaf_roundtrip E (.base58Bin ver Json.hashV1) (Json.version1 (t := Json.arr32) v)
    (Json.fits_hash _)
  have e := Except.ok.inj h1
  rw [← e, Json.de_ofText _ _ _ (fun h => by cases h), toBytes_hash v, hb] at h2
  unfold hash hashText
  rw [str_ofList, h2]
  show Except.ok (⟨Json.arrBytes 32 v, _⟩ : B32) = _
  congr 1
  cases h
  congr 1

theorem byteHash_text (E : Env) (ver : UInt8) (bs : Bytes) : byteHash E ver (str (bytesText E ver bs)) = .ok bs := by
  obtain ⟨j, h1, h2, -⟩ := Json.leaf_roundtrip E (.base58Bytes ver) bs trivial
  have e := Except.ok.inj h1
  rw [← e, Json.de_ofText _ _ _ (fun h => by cases h)] at h2
  unfold byteHash bytesText
  rw [str_ofList, h2]

theorem vrf_text (E : Env) (bs : Bytes) : vrf E (str (vrfText E bs)) = .ok bs := by
  obtain ⟨j, h1, h2, -⟩ := Json.leaf_roundtrip E .vrfBase58 bs trivial
  have e := Except.ok.inj h1
  rw [← e, Json.de_ofText _ _ _ (fun h => by cases h)] at h2
  have h3 : Json.Leaf.vrfBase58.deText E (Codec.encodeCheck E.chk 0x15 (UInt8.ofNat bs.length :: bs)) =
      (.ok bs : Except JErr Bytes) := h2
  unfold vrf vrfText
  rw [str_ofList]
  exact congrArg (fun r : Except JErr Bytes => match r with | .ok v => Except.ok v | .error e => .error e) h3

theorem p_lt : p < 256 ^ 32 := by decide +kernel

theorem pubKey_text (E : Env) (k : PubKey) : pubKey E (str (keyText E k)) = .ok k := by
  obtain ⟨x, odd⟩ := k
  have hx : x.val < 256 ^ 32 := Nat.lt_trans x.isLt p_lt
  unfold pubKey keyText
  rw [str_ofList, Json.fromAddress_address E _ (by simp) (by rw [leNat_leBytes_of_lt hx]; exact x.isLt)]
  simp only [leNat_leBytes_of_lt hx]
  congr 2
  exact Fin.ext (Nat.mod_eq_of_lt x.isLt)

theorem hashValue_str {α : Type} (f : Text → R α) (s : String) : hashValue f (.str s) = f (str (.str s)) := rfl

theorem bodyReference_text (h : B32) : bodyReference (str (.str (String.ofList (Codec.hexEncode h.bytes)))) = .ok h := by
  unfold bodyReference
  rw [str_ofList, Codec.hexDecode_encode]
  simp only [h.len, dite_true]

theorem auth_name (a : Auth) : auth (str (.str (authName a))) = .ok a := by
  cases a <;> rfl

/-- The names of `AuthRequired` are the only texts accepted. -/
theorem auth_ok {s : Text} {a : Auth} (h : auth s = .ok a) : s = (authName a).toList := by
  unfold auth at h
  repeat' split at h
  all_goals first | (cases h; assumption) | cases h

end MinaRs.GraphQL
