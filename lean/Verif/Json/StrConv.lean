import Verif.Json.TextProps
import Verif.Json.Outcome
import Verif.GraphQL.Lemmas
import Verif.Json.Reread

/-!
# C94: text forms of hashes, memos, keys, outputs and characters

The conversions `impl_strconv_via_json!` generates (`protocol/serialization-types/src/macros.rs:13-55`).  `serde_json` quotes a
text and reads the quoted text as the same text, so that both directions are the serde implementations of the JSON type on
a single string (`Json/StrText.lean` has the quoted texts, `C111_named` shows that this is the same).
-/

namespace MinaRs.Json.StrConv

open BinProt (Fits)
open Codec Spec
open Text (Text)

/-! ## Model -/

/-- The types with these conversions (`crypto/src/hash/types.rs:158, 173, 227, 270, 318, 346, 436, 445, 455`,
`base/src/user_commands/memo.rs:17`, `base/src/consensus_state.rs:75`, `base/src/numbers.rs:212`,
`protocol/serialization-types/src/signatures.rs:34`), and the second text form of VRF outputs
(`base/src/consensus_state.rs:57-72`). -/
inductive Named where
  | stateBodyHash | stateHash | ledgerHash | chainHash | coinbaseHash | epochSeed | vrfOutputHash
  | auxHash | pendingCoinbaseAux | memo
  | vrfOutput | vrfOutput58
  | char
  | curvePoint
  deriving DecidableEq

/-- The JSON types (`protocol/serialization-types/src/common.rs:419-451`, `staged_ledger_diff.rs:244-246`,
`consensus_state.rs:25-56`, `common.rs:187`, `signatures.rs:24-26`; the version bytes are those of `version_bytes.rs`). -/
def Named.leaf : Named → Leaf
  | .stateBodyHash => .base58Bin 0x11 hashV1
  | .stateHash => .base58Bin 0x10 hashV1
  | .ledgerHash => .base58Bin 0x05 hashV1
  | .chainHash => .base58Bin 0x05 hashV1
  | .coinbaseHash => .base58Bin 0x0c hashV1
  | .epochSeed => .base58Bin 0x0d hashV1
  | .vrfOutputHash => .base58Bin 0x15 hashV1
  | .auxHash => .base58Bytes 0x0e
  | .pendingCoinbaseAux => .base58Bytes 0x0f
  | .memo => .memo
  | .vrfOutput => .base64Bytes
  | .vrfOutput58 => .vrfBase58
  | .char => .char
  | .curvePoint => .publicKey

/-- The values: 32 bytes, a byte string, a byte, a coordinate and a parity (`crypto/src/hash/types.rs:66, 433, 442`,
`base/src/user_commands/memo.rs:15`, `base/src/consensus_state.rs:34`, `base/src/numbers.rs:211`,
`protocol/serialization-types/src/signatures.rs:17-22`). -/
def Named.Val : Named → Type
  | .auxHash | .pendingCoinbaseAux | .memo | .vrfOutput | .vrfOutput58 => Bytes
  | .char => UInt8
  | .curvePoint => arr32.denote × Bool
  | _ => arr32.denote

/-- Into the JSON type (`crypto/src/hash/types.rs:107-126`, `protocol/versioned/src/macros.rs:27-54`): hashes get version 1. -/
def Named.into : (t : Named) → t.Val → t.leaf.wire.denote
  | .stateBodyHash, v | .stateHash, v | .ledgerHash, v | .chainHash, v | .coinbaseHash, v | .epochSeed, v | .vrfOutputHash, v =>
    version1 (t := arr32) v
  | .auxHash, v | .pendingCoinbaseAux, v | .memo, v | .vrfOutput, v | .vrfOutput58, v => v
  | .char, v => v
  | .curvePoint, v => ((v.1, v.2, ()) : arr32.denote × Bool × Unit)

/-- From the JSON type (`crypto/src/hash/types.rs:107-126`, `protocol/versioned/src/macros.rs:27-54`): the version of a hash is dropped. -/
def Named.from : (t : Named) → t.leaf.wire.denote → t.Val
  | .stateBodyHash, v | .stateHash, v | .ledgerHash, v | .chainHash, v | .coinbaseHash, v | .epochSeed, v | .vrfOutputHash, v =>
    (show {n : Int // BinProt.u16.holds n} × arr32.denote × Unit from v).2.1
  | .auxHash, v | .pendingCoinbaseAux, v | .memo, v | .vrfOutput, v | .vrfOutput58, v => v
  | .char, v => v
  | .curvePoint, v => ((show arr32.denote × Bool × Unit from v).1, (show arr32.denote × Bool × Unit from v).2.1)

/-- `FromStr` (`protocol/serialization-types/src/macros.rs:15-29`). -/
def fromStr (E : Env) (t : Named) (s : String) : Except JErr t.Val :=
  match t.leaf.de E (.str s) with
  | .error e => .error e
  | .ok v => .ok (t.from v)

/-- `Display` and `String::try_from` (`protocol/serialization-types/src/macros.rs:31-53`). -/
def toStr (E : Env) (t : Named) (v : t.Val) : Except JErr String :=
  match t.leaf.ser E (t.into v) with
  | .error e => .error e
  | .ok (.str s) => .ok s
  | .ok _ => .error .err

/-! ## Specification -/

/-- The values with a text: ASCII characters and coordinates in the field; all values of the other types. -/
def Spec.Shows : (t : Named) → t.Val → Prop
  | .char, v => (show UInt8 from v).toNat < 128
  | .curvePoint, v => leNat (arrBytes 32 v.1) < Hash.p
  | _, _ => True

/-- The version byte of a text, for the types with base58 texts other than addresses. -/
def Spec.byte : Named → Option UInt8
  | .stateBodyHash => some 0x11 | .stateHash => some 0x10 | .ledgerHash => some 0x05 | .chainHash => some 0x05
  | .coinbaseHash => some 0x0c | .epochSeed => some 0x0d | .vrfOutputHash => some 0x15 | .auxHash => some 0x0e
  | .pendingCoinbaseAux => some 0x0f | .memo => some 0x14 | .vrfOutput58 => some 0x15
  | _ => none

open Spec (Shows byte)

/-! ## Lemmas -/

theorem from_into : (t : Named) → (v : t.Val) → t.from (t.into v) = v
  | .stateBodyHash, _ | .stateHash, _ | .ledgerHash, _ | .chainHash, _ | .coinbaseHash, _ | .epochSeed, _
  | .vrfOutputHash, _ | .auxHash, _ | .pendingCoinbaseAux, _ | .memo, _ | .vrfOutput, _ | .vrfOutput58, _ | .char, _
  | .curvePoint, _ => rfl

theorem carried : (t : Named) → (v : t.Val) → Shows t v → t.leaf.Carried (t.into v)
  | .stateBodyHash, _, _ | .stateHash, _, _ | .ledgerHash, _, _ | .chainHash, _, _ | .coinbaseHash, _, _
  | .epochSeed, _, _ | .vrfOutputHash, _, _ => fits_hash _
  | .auxHash, _, _ | .pendingCoinbaseAux, _, _ | .memo, _, _ | .vrfOutput, _, _ | .vrfOutput58, _, _ => trivial
  | .char, _, h => h
  | .curvePoint, _, h => h

theorem unchecked_str {bs : Bytes} {j : J} (h : uncheckedString bs = .ok j) : ∃ s, j = .str s := by
  unfold uncheckedString at h
  split at h
  · exact ⟨_, (Except.ok.inj h).symm⟩
  · cases h

theorem leaf_str (E : Env) (c : Leaf) (hc : c ≠ .i64) (v : c.wire.denote) (j : J) (h : c.ser E v = .ok j) : ∃ s, j = .str s := by
  cases c with
  | i64 => exact absurd rfl hc
  | char => exact unchecked_str (bs := [(show UInt8 from v)]) h
  | byteVec => exact unchecked_str (bs := v) h
  | publicKey =>
    obtain ⟨x, odd, u⟩ : arr32.denote × Bool × Unit := v
    simp only [Leaf.ser] at h
    by_cases hp : leNat (arrBytes 32 x) < Hash.p
    · have h' := (if_pos hp).symm.trans h
      exact ⟨_, (Except.ok.inj h').symm⟩
    · have h' := (if_neg hp).symm.trans h
      cases h'
  | _ => simp only [Leaf.ser] at h; exact ⟨_, (Except.ok.inj h).symm⟩

theorem leaf_ne (t : Named) : t.leaf ≠ .i64 := by cases t <;> (intro h; cases h)

theorem ser_str (E : Env) (t : Named) (v : t.Val) (j : J) (h : t.leaf.ser E (t.into v) = .ok j) : ∃ s, j = .str s :=
  leaf_str E _ (leaf_ne t) _ j h

theorem toStr_error {E : Env} {t : Named} {v : t.Val} {e : JErr} (h : t.leaf.ser E (t.into v) = .error e) :
    toStr E t v = .error e := by
  unfold toStr; rw [h]

/-! ## C94 -/

/-- **C94 (round trip).** Every value with a text is read back from it. -/
theorem C94_roundtrip_partial (E : Env) (t : Named) (v : t.Val) (h : Shows t v) :
    ∃ s, toStr E t v = .ok s ∧ fromStr E t s = .ok v := by
  obtain ⟨j, h1, h2, -, -⟩ := leaf_roundtrip E t.leaf (t.into v) (carried t v h)
  obtain ⟨s, rfl⟩ := ser_str E t v j h1
  refine ⟨s, ?_, ?_⟩
  · unfold toStr; rw [h1]
  · unfold fromStr; rw [h2]; exact congrArg _ (from_into t v)

/-- **C94 (texts determine values).** -/
theorem C94_injective (E : Env) (t : Named) (v w : t.Val) (s : String) (hv : Shows t v) (hw : Shows t w)
    (h : toStr E t v = .ok s) (h' : toStr E t w = .ok s) : v = w := by
  obtain ⟨s1, a1, b1⟩ := C94_roundtrip_partial E t v hv
  obtain ⟨s2, a2, b2⟩ := C94_roundtrip_partial E t w hw
  rw [h] at a1; rw [h'] at a2
  rw [← Except.ok.inj a1] at b1; rw [← Except.ok.inj a2, b1] at b2
  exact Except.ok.inj b2

theorem toStr_char_high (E : Env) (v : UInt8) (h : ¬ v.toNat < 128) : toStr E .char v = .error .ub := by
  refine toStr_error (t := .char) ?_
  show uncheckedString [v] = _
  unfold uncheckedString
  split
  · rename_i s hs
    refine absurd (utf8_singleton_ascii.mp ?_) h
    rcases uncheckedString_decides [v] with ⟨a, h1, h2, -⟩ | ⟨e, h1, h2, h3⟩
    · exact h2
    · unfold uncheckedString at h1; rw [hs] at h1; cases h1
  · rfl

/-- **C94 fails**: the other characters make an ill-formed text, and the other points abort. -/
theorem C94_unshown_fails (E : Env) :
    (∀ v : UInt8, ¬ v.toNat < 128 → toStr E .char v = .error .ub) ∧
    (∀ v : arr32.denote × Bool, ¬ leNat (arrBytes 32 v.1) < Hash.p → toStr E .curvePoint v = .error .panic) := by
  refine ⟨toStr_char_high E, fun v h => toStr_error (t := .curvePoint) ?_⟩
  simp only [Leaf.ser, Named.leaf]
  exact if_neg h

theorem byte_ser (E : Env) : (t : Named) → (b : UInt8) → byte t = some b → (v : t.Val) →
    ∃ bs, toStr E t v = .ok (String.ofList (encodeCheck E.chk b bs))
  | .stateBodyHash, _, h, _ | .stateHash, _, h, _ | .ledgerHash, _, h, _ | .chainHash, _, h, _ | .coinbaseHash, _, h, _
  | .epochSeed, _, h, _ | .vrfOutputHash, _, h, _ | .auxHash, _, h, _ | .pendingCoinbaseAux, _, h, _ | .memo, _, h, _
  | .vrfOutput58, _, h, _ => by cases h; exact ⟨_, rfl⟩

theorem byte_de_err (E : Env) : (t : Named) → (b : UInt8) → byte t = some b → (s : Text) → (e : CodecErr) →
    decodeCheck E.chk b s = .error e → fromStr E t (String.ofList s) = .error .err
  | .stateBodyHash, _, h, s, e, he | .stateHash, _, h, s, e, he | .ledgerHash, _, h, s, e, he | .chainHash, _, h, s, e, he
  | .coinbaseHash, _, h, s, e, he | .epochSeed, _, h, s, e, he | .vrfOutputHash, _, h, s, e, he => by
    cases h
    unfold fromStr
    rw [de_str _ _ _ (fun h => by cases h), toList_ofList]
    simp only [Named.leaf, Leaf.deText, he]
  | .auxHash, _, h, s, e, he | .pendingCoinbaseAux, _, h, s, e, he | .memo, _, h, s, e, he | .vrfOutput58, _, h, s, e, he => by
    cases h
    unfold fromStr
    rw [de_str _ _ _ (fun h => by cases h), toList_ofList]
    simp only [Named.leaf, Leaf.deText, he]

/-- **C94 (kinds are told apart).** The text of a value is refused as a value of a type with another version byte. -/
theorem C94_other_kind_refused_partial (E : Env) (t t' : Named) (b b' : UInt8) (ht : byte t = some b) (ht' : byte t' = some b')
    (hne : b ≠ b') (v : t.Val) (s : String) (h : toStr E t v = .ok s) : fromStr E t' s = .error .err := by
  obtain ⟨bs, h1⟩ := byte_ser E t b ht v
  rw [h1] at h
  rw [← Except.ok.inj h]
  exact byte_de_err E t' b' ht' _ _ (decodeCheck_other E.chk_length hne bs)

/-- **C94 fails**: the text of a hash of a VRF output is read as a VRF output, the hash itself. -/
theorem C94_vrf_confused_fails (E : Env) (h : arr32.denote) (s : String) (hs : toStr E .vrfOutputHash h = .ok s) :
    fromStr E .vrfOutput58 s = .ok (arrBytes 32 h) := by
  have e : toStr E .vrfOutputHash h = .ok (String.ofList (encodeCheck E.chk 0x15 (BinProt.toBytes hashV1 (version1 (t := arr32) h)))) := rfl
  rw [e] at hs
  rw [← Except.ok.inj hs]
  unfold fromStr
  rw [de_str _ _ _ (fun h => by cases h), toList_ofList]
  have hb : BinProt.toBytes hashV1 (version1 (t := arr32) h) = 1 :: arrBytes 32 h := GraphQL.toBytes_hash h
  simp only [Named.leaf, Leaf.deText, decodeCheck_encode E.chk_length, hb]
  rfl

/-- **C94 fails**: ledger hashes and chain hashes have the same texts. -/
theorem C94_chain_ledger_confused_fails (E : Env) (h : arr32.denote) :
    ∃ s, toStr E .ledgerHash h = .ok s ∧ fromStr E .chainHash s = .ok h :=
  C94_roundtrip_partial E .chainHash h trivial

/-- **C94 fails**: a character is read from texts that are longer, and from texts whose first byte has no text. -/
theorem C94_char_fails (E : Env) : fromStr E .char "ab" = .ok (97 : UInt8) ∧ toStr E .char (97 : UInt8) = .ok "a" ∧
    fromStr E .char "é" = .ok (0xc3 : UInt8) ∧ toStr E .char (0xc3 : UInt8) = .error .ub ∧
    fromStr E .char "" = .error .panic := by
  refine ⟨?_, ?_, ?_, toStr_char_high E _ (by decide), ?_⟩
  · rfl
  · rfl
  · rfl
  · rfl

theorem shows_of_from (E : Env) : (t : Named) → t ≠ .char → (w : t.leaf.wire.denote) → FromText t.leaf w → Shows t (t.from w)
  | .stateBodyHash, _, _, _ | .stateHash, _, _, _ | .ledgerHash, _, _, _ | .chainHash, _, _, _ | .coinbaseHash, _, _, _
  | .epochSeed, _, _, _ | .vrfOutputHash, _, _, _ | .auxHash, _, _, _ | .pendingCoinbaseAux, _, _, _ | .memo, _, _, _
  | .vrfOutput, _, _, _ | .vrfOutput58, _, _, _ => trivial
  | .char, h, _, _ => absurd rfl h
  | .curvePoint, _, _, h => h rfl trivial

/-- **C94 (what was read can be shown).** Whatever text a value of any type but characters was read from, the value has a
text, and is read back from it. -/
theorem C94_read_then_shown_partial (E : Env) (t : Named) (ht : t ≠ .char) (s : String) (v : t.Val) (h : fromStr E t s = .ok v) :
    ∃ s', toStr E t v = .ok s' ∧ fromStr E t s' = .ok v := by
  refine C94_roundtrip_partial E t v ?_
  unfold fromStr at h
  cases e : t.leaf.de E (.str s) with
  | error e' => rw [e] at h; cases h
  | ok w =>
    rw [e] at h
    rw [← Except.ok.inj h]
    exact shows_of_from E t ht w (fromText_of_de E _ _ _ e)

/-! ## Examples -/

/-- A hash of 32 bytes 7, a point with that coordinate, and the letter A have texts. -/
example : ∃ b : arr32.denote, arrBytes 32 b = List.replicate 32 7 ∧ Shows .stateHash b ∧ Shows .curvePoint (b, true) ∧
    Shows .char (65 : UInt8) := by
  refine ⟨(bytesArr 32 (List.replicate 32 7)).get (by decide +kernel), rfl, trivial, ?_, ?_⟩
  · exact show leNat (List.replicate 32 7) < Hash.p by decide +kernel
  · show (65 : UInt8).toNat < 128
    decide

/-- State hashes and ledger hashes have different version bytes. -/
example : byte .stateHash = some 0x10 ∧ byte .ledgerHash = some 0x05 ∧ (0x10 : UInt8) ≠ 0x05 := by decide

end MinaRs.Json.StrConv
