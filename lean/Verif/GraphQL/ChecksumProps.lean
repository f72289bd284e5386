import Verif.GraphQL.AcceptedLemmas

/-!
# Base58 text is protected by its checksum (C80)
-/

namespace MinaRs.GraphQL

open Json (J JErr Env Leaf)
open Json.Spec (Kind)
open Text (Text)
open Hash

/-- The text is base58 of some bytes and their checksum. -/
def Spec.HasChecksum (E : Env) (s : Text) : Prop := ∃ bytes, s = Codec.encode58 (bytes ++ E.chk bytes)

/-- The text is base58 of some bytes and four bytes that are not their checksum. -/
def Spec.Corrupted (E : Env) (s : Text) : Prop :=
  ∃ bytes sum, s = Codec.encode58 (bytes ++ sum) ∧ sum.length = 4 ∧ sum ≠ E.chk bytes

open Spec

theorem decodeCheck_ok_hasChecksum {E : Env} {ver : UInt8} {s : Text} {out : Bytes}
    (h : Codec.decodeCheck E.chk ver s = .ok out) : HasChecksum E s := by
  rcases (Codec.decodeCheck_ok_iff E.chk_length ver s out).mp h with ⟨bs, -, rfl⟩ | ⟨-, rfl, -⟩
  · exact ⟨ver :: bs, rfl⟩
  · exact ⟨[], rfl⟩

theorem decodeCheck_corrupted {E : Env} {s : Text} (h : Corrupted E s) (ver : UInt8) :
    Codec.decodeCheck E.chk ver s = .error .invalidChecksum := by
  obtain ⟨bytes, sum, rfl, hl, hne⟩ := h
  unfold Codec.decodeCheck
  rw [Codec.decode58_encode]
  simp only
  have h1 : (bytes ++ sum).length - 4 = bytes.length := by rw [List.length_append]; omega
  rw [if_neg (by rw [List.length_append]; omega), h1, List.take_left, List.drop_left, if_pos (fun h => hne h.symm)]

theorem fromAddress_corrupted {E : Env} {s : Text} (h : Corrupted E s) : Json.fromAddress E s = none := by
  obtain ⟨bytes, sum, rfl, hl, hne⟩ := h
  cases hf : Json.fromAddress E (Codec.encode58 (bytes ++ sum)) with
  | none => rfl
  | some r =>
    obtain ⟨x, odd⟩ := r
    obtain ⟨-, -, q, -, he⟩ := (fromAddress_iff E _ x odd).mp hf
    have hd := congrArg Codec.decode58 he
    rw [Codec.decode58_encode, Codec.decode58_encode] at hd
    obtain ⟨h1, h2⟩ := List.append_inj' (Except.ok.inj hd) (by rw [hl, E.chk_length])
    exact absurd (by rw [h1]; exact h2) hne

/-- **C80.** Whatever the kind, a text is accepted only if it ends with the checksum of the rest. -/
theorem C80_checksum (E : Env) (k : Kind) (s : String) (v : k.leaf.wire.denote) (h : k.leaf.de E (.str s) = .ok v) :
    HasChecksum E s.toList := by
  rw [Json.de_str _ _ _ (Json.kind_ne k)] at h
  cases hd : Codec.decodeCheck E.chk k.byte s.toList with
  | ok out => exact decodeCheck_ok_hasChecksum hd
  | error e => rw [Json.kind_de_err E k _ e hd] at h; cases h

/-- **C80.** A public key's text is accepted only if it ends with the checksum of the rest. -/
theorem C80_address_checksum (E : Env) (s : String) (v : Leaf.publicKey.wire.denote)
    (h : Leaf.publicKey.de E (.str s) = .ok v) : HasChecksum E s.toList := by
  rw [Json.de_str _ _ _ (fun h => by cases h)] at h
  simp only [Leaf.deText] at h
  cases hf : Json.fromAddress E s.toList with
  | none => rw [hf] at h; cases h
  | some r =>
    obtain ⟨x, odd⟩ := r
    obtain ⟨-, -, q, -, he⟩ := (fromAddress_iff E _ x odd).mp hf
    exact ⟨_, he⟩

/-- **C80.** A text with a wrong checksum is refused with an error, as every kind and as a key. -/
theorem C80_corrupted_refused (E : Env) (s : String) (h : Corrupted E s.toList) :
    (∀ k : Kind, k.leaf.de E (.str s) = .error .err) ∧ Leaf.publicKey.de E (.str s) = .error .err := by
  constructor
  · intro k
    rw [Json.de_str _ _ _ (Json.kind_ne k)]
    exact Json.kind_de_err E k _ _ (decodeCheck_corrupted h k.byte)
  · rw [Json.de_str _ _ _ (fun h => by cases h)]
    simp only [Leaf.deText, fromAddress_corrupted h]

/-- Every text with a checksum has corruptions: any other four bytes. -/
example (E : Env) (bytes : Bytes) : ∃ sum, Corrupted E (Codec.encode58 (bytes ++ sum)) := by
  by_cases h : E.chk bytes = [0, 0, 0, 0]
  · exact ⟨[0, 0, 0, 1], bytes, _, rfl, rfl, fun e => absurd (e.trans h) (by decide)⟩
  · exact ⟨[0, 0, 0, 0], bytes, _, rfl, rfl, fun e => h e.symm⟩

/-! ## One text for each value? -/

/-- **C80 (uniqueness).** Each memo and each byte-string hash has one accepted text.  Missing: the other
kinds, see the theorems below.  (The checksum of no bytes does not start with the version byte; that of
SHA-256 starts with 0x5d.) -/
theorem C80_unique_partial (E : Env) (c : Leaf) (ver : UInt8) (hc : c = .base58Bytes ver ∨ (c = .memo ∧ ver = 0x14))
    (hE : (E.chk []).head? ≠ some ver) (s s' : String) (v : c.wire.denote)
    (h : c.de E (.str s) = .ok v) (h' : c.de E (.str s') = .ok v) : s = s' := by
  have hne : c ≠ .i64 := by rcases hc with rfl | ⟨rfl, -⟩ <;> (intro h; cases h)
  have key : ∀ t : String, c.de E (.str t) = .ok v → ∃ bs, t.toList = Codec.encodeCheck E.chk ver bs ∧ HEq v bs := by
    intro t ht
    rw [Json.de_str _ _ _ hne] at ht
    rcases hc with rfl | ⟨rfl, rfl⟩
    · simp only [Leaf.deText] at ht
      split at ht
      · cases ht
      · cases ht
      rename_i hd
      rcases (Codec.decodeCheck_ok_iff E.chk_length _ _ _).mp hd with ⟨bs, he, hs⟩ | ⟨he, -, -⟩
      · obtain ⟨-, rfl⟩ := List.cons.inj he
        cases ht
        exact ⟨_, hs, HEq.rfl⟩
      · cases he
    · simp only [Leaf.deText] at ht
      split at ht
      · cases ht
      rename_i hd
      rcases (Codec.decodeCheck_ok_iff E.chk_length _ _ _).mp hd with ⟨bs, he, hs⟩ | ⟨-, -, h0⟩
      · subst he
        cases ht
        exact ⟨bs, hs, HEq.rfl⟩
      · exact absurd h0 hE
  obtain ⟨bs, h1, h2⟩ := key s h
  obtain ⟨bs', h1', h2'⟩ := key s' h'
  have : bs = bs' := eq_of_heq (h2.symm.trans h2')
  exact String.toList_inj.mp (by rw [h1, h1', this])

example (E : Env) (memo : Bytes) : ∃ s, Leaf.memo.de E (.str s) = .ok memo := by
  obtain ⟨s, -, h⟩ := Json.C59_roundtrip E .memo memo
  exact ⟨s, h⟩

/-- **C80 fails** for public keys: every key of even parity has 255 texts, one for each parity byte other
than 1. -/
theorem C80_address_fails (E : Env) (x : Bytes) (hx : x.length = 32) (hp : leNat x < p) (q : UInt8) (hq : q ≠ 1) :
    Json.fromAddress E (Codec.encode58 (([0xcb, 0x01, 0x01] ++ x ++ [q]) ++ E.chk ([0xcb, 0x01, 0x01] ++ x ++ [q]))) =
      some (x, false) :=
  (fromAddress_iff E _ x false).mpr ⟨hx, hp, q, by simp [hq], rfl⟩

/-- These texts differ. -/
theorem address_texts_differ (E : Env) (x : Bytes) (q q' : UInt8) (h : q ≠ q') :
    Codec.encode58 (([0xcb, 0x01, 0x01] ++ x ++ [q]) ++ E.chk ([0xcb, 0x01, 0x01] ++ x ++ [q])) ≠
      Codec.encode58 (([0xcb, 0x01, 0x01] ++ x ++ [q']) ++ E.chk ([0xcb, 0x01, 0x01] ++ x ++ [q'])) := by
  intro he
  have hd := congrArg Codec.decode58 he
  rw [Codec.decode58_encode, Codec.decode58_encode] at hd
  obtain ⟨h1, -⟩ := List.append_inj' (Except.ok.inj hd) (by rw [E.chk_length, E.chk_length])
  have := List.append_inj_right' h1 (by simp)
  exact h (by simpa using this)

/-- **C80 fails**: one key with two accepted texts. -/
theorem C80_two_addresses_fails (E : Env) : ∃ s s' k, s ≠ s' ∧ Json.fromAddress E s = some k ∧ Json.fromAddress E s' = some k :=
  ⟨_, _, _, address_texts_differ E (List.replicate 32 0) 0 2 (by decide),
    C80_address_fails E (List.replicate 32 0) rfl (by decide +kernel) 0 (by decide),
    C80_address_fails E (List.replicate 32 0) rfl (by decide +kernel) 2 (by decide)⟩

/-- **C80 fails** for VRF outputs: the length byte is not looked at. -/
theorem C80_vrf_fails (E : Env) (b : UInt8) (bs : Bytes) :
    Leaf.vrfBase58.de E (.str (String.ofList (Codec.encodeCheck E.chk 0x15 (b :: bs)))) = .ok bs := by
  rw [Json.de_str _ _ _ (fun h => by cases h), Json.toList_ofList]
  simp only [Leaf.deText, Codec.decodeCheck_encode E.chk_length]
  rfl

/-- **C80 fails** for hashes: any version number is accepted. -/
theorem C80_hash_fails (E : Env) (ver : UInt8) (num : Bytes) (n : Int) (hn : BinProt.Spec.WireInt num n) (h0 : 0 ≤ n)
    (h1 : n < 2 ^ 16) (h : B32) : hash E ver (Codec.encodeCheck E.chk ver (num ++ h.bytes)) = .ok h := by
  have := (hash_iff E ver (.str (String.ofList (Codec.encodeCheck E.chk ver (num ++ h.bytes)))) h).mpr
    ⟨num, n, hn, h0, h1, rfl⟩
  rwa [str_ofList] at this

/-- The version number 7, for instance, or the number 1 in its two-byte form. -/
example : BinProt.Spec.WireInt [0x07] 7 ∧ BinProt.Spec.WireInt [0xff, 0x01] 1 :=
  ⟨.small 0x07 (by decide), .wide 0xff 1 [0x01] 1 rfl (by decide) rfl ⟨by decide, by decide, by decide⟩⟩

end MinaRs.GraphQL
