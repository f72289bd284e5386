import Verif.GraphQL.Lemmas
import Verif.GraphQL.AcceptedSpec
import Verif.Json.TextProps

/-! What each leaf of the import accepts. -/

namespace MinaRs.GraphQL

open Json (J JErr Env)
open Text (Text)
open Hash
open Spec

theorem parseUnsigned_iff {max n : Nat} {s : Text} : Text.parseUnsigned max s = .ok n ↔
    ∃ ds, (s = ds ∨ s = '+' :: ds) ∧ ds ≠ [] ∧ (∀ c ∈ ds, Text.Spec.IsDigit c) ∧ n = Text.Spec.value ds ∧ n ≤ max := by
  constructor
  · exact Text.parseUnsigned_inv
  · rintro ⟨ds, hs, hne, hd, rfl, hm⟩
    have h := Text.parseDigits_ok (max := max) (acc := 0) hd (by simpa using hm)
    rcases hs with rfl | rfl
    · rw [Text.parseUnsigned_digits hne hd, h]; simp
    · obtain ⟨d, ds, rfl⟩ := List.exists_cons_of_ne_nil hne
      show Text.parseDigits max 0 (d :: ds) = _
      rw [h]; simp

theorem str_eq_of_ne {v : J} (h : str v ≠ []) : ∃ s, v = .str s ∧ str v = s.toList := by
  cases v with
  | str s => exact ⟨s, rfl, rfl⟩
  | _ => exact absurd rfl h

theorem parse_iff (max n : Nat) (v : J) : Text.parseUnsigned max (str v) = .ok n ↔ ReadsNumber v n ∧ n ≤ max := by
  rw [parseUnsigned_iff]
  constructor
  · rintro ⟨ds, hs, hne, hd, rfl, hm⟩
    obtain ⟨s, rfl, he⟩ : ∃ s, v = .str s ∧ str v = s.toList := by
      apply str_eq_of_ne
      rcases hs with h | h
      · rw [h]; exact hne
      · rw [h]; simp
    exact ⟨⟨s, ds, rfl, by rw [← he]; exact hs, hne, hd, rfl⟩, hm⟩
  · rintro ⟨⟨s, ds, rfl, hs, hne, hd, rfl⟩, hm⟩
    exact ⟨ds, hs, hne, hd, rfl, hm⟩

theorem u32_iff (v : J) (n : UInt32) : u32 (str v) = .ok n ↔ ReadsNumber v n.toNat := by
  unfold u32
  constructor
  · intro h
    split at h
    · rename_i m hm
      cases h
      obtain ⟨h1, h2⟩ := (parse_iff _ _ _).mp hm
      rwa [show (UInt32.ofNat m).toNat = m by simp; omega]
    · cases h
  · intro h
    have := n.toNat_lt
    rw [(parse_iff _ _ _).mpr ⟨h, by omega⟩]
    simp

theorem u64_iff (v : J) (n : UInt64) : u64 (str v) = .ok n ↔ ReadsNumber v n.toNat := by
  unfold u64
  constructor
  · intro h
    split at h
    · rename_i m hm
      cases h
      obtain ⟨h1, h2⟩ := (parse_iff _ _ _).mp hm
      rwa [show (UInt64.ofNat m).toNat = m by simp; omega]
    · cases h
  · intro h
    have := n.toNat_lt
    rw [(parse_iff _ _ _).mpr ⟨h, by omega⟩]
    simp

theorem u64_error (v : J) (e : JErr) (h : u64 (str v) = .error e) : ∀ n : UInt64, ¬ ReadsNumber v n.toNat := by
  intro n hn
  rw [(u64_iff v n).mpr hn] at h
  cases h

theorem wire_u8s : (n : Nat) → (enc : Bytes) → (v : (Json.u8s n).prod) →
    (BinProt.Spec.WireProd (Json.u8s n) enc v ↔ enc = Json.arrBytes n v)
  | 0, enc, v => Iff.rfl
  | n + 1, enc, v => by
    obtain ⟨b, r⟩ := v
    show (∃ e₁ e₂, enc = e₁ ++ e₂ ∧ e₁ = [b] ∧ BinProt.Spec.WireProd (Json.u8s n) e₂ r) ↔ enc = b :: Json.arrBytes n r
    constructor
    · rintro ⟨e₁, e₂, rfl, rfl, h⟩
      rw [(wire_u8s n e₂ r).mp h]; rfl
    · rintro rfl
      exact ⟨[b], _, rfl, rfl, (wire_u8s n _ r).mpr rfl⟩

theorem wf_u8s : (n : Nat) → BinProt.Spec.WfTys (Json.u8s n)
  | 0 => trivial
  | n + 1 => ⟨trivial, wf_u8s n⟩

theorem wf_hash : BinProt.Spec.WfTy Json.hashV1 := ⟨trivial, wf_u8s 32, trivial⟩

theorem wire_hash (enc : Bytes) (ver : {n : Int // BinProt.u16.holds n}) (v : (Json.u8s 32).prod) :
    BinProt.Spec.Wire Json.hashV1 enc ((ver, v, ()) : {n : Int // BinProt.u16.holds n} × (Json.u8s 32).prod × Unit) ↔
      ∃ num, BinProt.Spec.WireInt num ver.val ∧ enc = num ++ Json.arrBytes 32 v := by
  show (∃ e₁ e₂, enc = e₁ ++ e₂ ∧ BinProt.Spec.WireInt e₁ ver.val ∧
    ∃ e₃ e₄, e₂ = e₃ ++ e₄ ∧ BinProt.Spec.WireProd (Json.u8s 32) e₃ v ∧ e₄ = []) ↔ _
  constructor
  · rintro ⟨e₁, e₂, rfl, h1, e₃, e₄, rfl, h2, rfl⟩
    exact ⟨e₁, h1, by rw [(wire_u8s 32 e₃ v).mp h2]; simp⟩
  · rintro ⟨num, h1, rfl⟩
    exact ⟨num, _, rfl, h1, _, [], by simp, (wire_u8s 32 _ v).mpr rfl, rfl⟩

theorem wireInt_length {enc : Bytes} {n : Int} (h : BinProt.Spec.WireInt enc n) : 0 < enc.length ∧ enc.length ≤ 9 := by
  cases h with
  | small => simp
  | wide lead k p v hl hk hp hv =>
    unfold BinProt.Spec.intPayload at hl
    simp only [List.length_cons]
    repeat' split at hl
    all_goals first | (cases hl; omega) | cases hl

/-- Strict decoding of a hash: a number and 32 bytes, nothing else. -/
theorem strict_hash_iff (bs : Bytes) (v : Json.hashV1.denote) :
    BinProt.fromReaderStrict Json.hashV1 ⟨bs, []⟩ = .ok v ↔ BinProt.Spec.Wire Json.hashV1 bs v := by
  have hdec := BinProt.C09_accepts_exactly_wire_forms Json.hashV1 wf_hash bs
  have hlen : ∀ enc (w : Json.hashV1.denote), BinProt.Spec.Wire Json.hashV1 enc w → 0 < enc.length ∧ enc.length < 8192 := by
    intro enc w hw
    obtain ⟨ver, a, u⟩ := w
    obtain ⟨num, h1, rfl⟩ := (wire_hash enc ver a).mp hw
    have := wireInt_length h1
    have := Json.arrBytes_length 32 a
    simp only [List.length_append]
    omega
  constructor
  · intro h
    cases hr : (BinProt.decode Json.hashV1).run bs with
    | error e =>
      have := (BinProt.C10_strict_partial Json.hashV1 bs [] (by simp [BinProt.NoReadErrors])).1 e hr
      rw [this] at h; cases h
    | ok p =>
      obtain ⟨w, r⟩ := p
      obtain ⟨enc, he, hw⟩ := (hdec w r).mp hr
      have hl := hlen enc w hw
      have hbl := congrArg List.length he
      rw [List.length_append] at hbl
      rw [BinProt.C10_strict_small_partial Json.hashV1 bs w r hr (by omega) (by omega)] at h
      by_cases hr0 : r = []
      · rw [if_pos hr0] at h
        cases h
        subst hr0
        rw [he, List.append_nil]; exact hw
      · rw [if_neg hr0] at h; cases h
  · intro h
    exact (BinProt.C10_strict_partial Json.hashV1 bs [] (by simp [BinProt.NoReadErrors])).2.1 v
      ((hdec v []).mpr ⟨bs, by simp, h⟩)

theorem decode58_nil : Codec.decode58 [] = .ok [] := by decide +kernel

theorem decodeCheck_nil (chk : Bytes → Bytes) (ver : UInt8) : Codec.decodeCheck chk ver [] = .error .noChecksum := by
  simp [Codec.decodeCheck, decode58_nil]

theorem check_text_ne (E : Env) (ver : UInt8) (v : J) (out : Bytes) (h : Codec.decodeCheck E.chk ver (str v) = .ok out) :
    ∃ s, v = .str s ∧ str v = s.toList := by
  refine str_eq_of_ne (fun h0 => ?_)
  rw [h0, decodeCheck_nil] at h
  cases h

theorem str_eq_ofList {s : String} {t : Text} (h : s.toList = t) : J.str s = .str (String.ofList t) := by
  rw [← h, String.ofList_toList]

theorem hash_iff (E : Env) (ver : UInt8) (v : J) (h : B32) : hash E ver (str v) = .ok h ↔ ReadsHash E ver v h := by
  have hd : ∀ s, (Json.Leaf.base58Bin ver Json.hashV1).deText E s = match Codec.decodeCheck E.chk ver s with
      | .error _ => .error .err
      | .ok bs => Json.strictAfterVersion Json.hashV1 bs := fun _ => rfl
  constructor
  · intro hh
    unfold hash at hh
    rw [hd] at hh
    cases hc : Codec.decodeCheck E.chk ver (str v) with
    | error e => rw [hc] at hh; cases hh
    | ok out =>
      obtain ⟨s, rfl, hs⟩ := check_text_ne E ver v out hc
      rw [hc] at hh
      rcases (Codec.decodeCheck_ok_iff E.chk_length ver _ out).mp hc with ⟨bs, rfl, he⟩ | ⟨rfl, -, -⟩
      · cases hr : BinProt.fromReaderStrict Json.hashV1 ⟨bs, []⟩ with
        | error e => simp only [Json.strictAfterVersion, hr] at hh; cases hh
        | ok w =>
          simp only [Json.strictAfterVersion, hr] at hh
          have hw := (strict_hash_iff bs w).mp hr
          obtain ⟨n, a, u⟩ := w
          obtain ⟨num, h1, rfl⟩ := (wire_hash bs n a).mp hw
          have hh := Except.ok.inj hh
          subst hh
          have hn : BinProt.u16.holds n.val := n.property
          have hn2 : n.val ≤ 2 ^ 16 - 1 := hn.2
          exact ⟨num, n.val, h1, hn.1, by generalize n.val = m at *; omega,
            str_eq_ofList (hs.symm.trans he)⟩
      · cases hh
  · rintro ⟨num, n, h1, h2, h3, rfl⟩
    obtain ⟨a, ha⟩ := Json.bytesArr_isSome h.len
    have hb := Json.bytesArr_some ha
    have hn : BinProt.u16.holds n := ⟨h2, by simp [BinProt.u16]; omega⟩
    have hw := (strict_hash_iff _ _).mpr ((wire_hash (num ++ h.bytes) ⟨n, hn⟩ a).mpr ⟨num, h1, by rw [hb]⟩)
    unfold hash
    rw [hd, str_ofList, Codec.decodeCheck_encode E.chk_length]
    simp only [Json.strictAfterVersion, hw]
    show Except.ok (⟨Json.arrBytes 32 a, _⟩ : B32) = _
    congr 1
    cases h
    congr 1

theorem byteHash_iff (E : Env) (ver : UInt8) (v : J) (bs : Bytes) :
    byteHash E ver (str v) = .ok bs ↔ v = bytesText E ver bs := by
  constructor
  · intro hh
    have hd : byteHash E ver (str v) = match Codec.decodeCheck E.chk ver (str v) with
        | .error _ => .error .err
        | .ok [] => .error .panic
        | .ok (_ :: bs) => .ok bs := by
      unfold byteHash
      simp only [Json.Leaf.deText]
      cases Codec.decodeCheck E.chk ver (str v) with
      | error e => rfl
      | ok o => cases o <;> rfl
    rw [hd] at hh
    cases hc : Codec.decodeCheck E.chk ver (str v) with
    | error e => rw [hc] at hh; cases hh
    | ok out =>
      obtain ⟨s, rfl, hs⟩ := check_text_ne E ver v out hc
      rw [hc] at hh
      rcases (Codec.decodeCheck_ok_iff E.chk_length ver _ out).mp hc with ⟨bs, rfl, he⟩ | ⟨rfl, -, -⟩
      · cases hh
        exact str_eq_ofList (hs.symm.trans he)
      · cases hh
  · rintro rfl
    exact byteHash_text E ver bs

theorem vrf_iff (E : Env) (hE : (E.chk []).head? ≠ some 0x15) (v : J) (bs : Bytes) :
    vrf E (str v) = .ok bs ↔ ReadsVrf E v bs := by
  have hd : vrf E (str v) = match Codec.decodeCheck E.chk 0x15 (str v) with
      | .error _ => .error .err
      | .ok bs => .ok (bs.drop 2) := by
    unfold vrf
    simp only [Json.Leaf.deText]
    cases Codec.decodeCheck E.chk 0x15 (str v) <;> rfl
  rw [hd]
  constructor
  · intro hh
    cases hc : Codec.decodeCheck E.chk 0x15 (str v) with
    | error e => rw [hc] at hh; cases hh
    | ok out =>
      obtain ⟨s, rfl, hs⟩ := check_text_ne E 0x15 v out hc
      rw [hc] at hh
      rcases (Codec.decodeCheck_ok_iff E.chk_length 0x15 _ out).mp hc with ⟨all, rfl, he⟩ | ⟨-, -, h0⟩
      · have hh := Except.ok.inj hh
        exact ⟨all, by rw [← hh]; simp, str_eq_ofList (hs.symm.trans he)⟩
      · exact absurd h0 hE
  · rintro ⟨all, rfl, rfl⟩
    rw [str_ofList, Codec.decodeCheck_encode E.chk_length]
    simp

/-- The text of a key has 55 characters. -/
theorem keyBytes_length (E : Env) (x : Bytes) (hx : x.length = 32) (q : UInt8) :
    (Codec.encode58 (([0xcb, 0x01, 0x01] ++ x ++ [q]) ++ E.chk ([0xcb, 0x01, 0x01] ++ x ++ [q]))).length = 55 := by
  unfold Codec.encode58
  simp only [List.length_map]
  generalize hraw : [0xcb, 0x01, 0x01] ++ x ++ [q] = raw
  generalize hrest : (x ++ [q] ++ E.chk raw).map UInt8.toNat = rest
  have hl : rest.length = 37 := by
    rw [← hrest, List.length_map, List.length_append, List.length_append, E.chk_length, hx]; rfl
  have hlt : ∀ d ∈ rest, d < 256 := by
    intro d hd
    rw [← hrest] at hd
    obtain ⟨b, -, rfl⟩ := List.mem_map.mp hd
    exact b.toNat_lt
  have hds : (raw ++ E.chk raw).map UInt8.toNat = 203 :: 1 :: 1 :: rest := by
    rw [← hrest, ← hraw]; simp
  rw [hds]
  have hz : Codec.leadingZeros (203 :: 1 :: 1 :: rest) = 0 := by simp [Codec.leadingZeros]
  unfold Codec.convert
  rw [hz]
  simp only [List.replicate_zero, List.nil_append]
  have hv := Codec.value_lt hlt
  rw [hl] at hv
  have hval : Codec.value 256 (203 :: 1 :: 1 :: rest) = 203 * 256 ^ 39 + (1 * 256 ^ 38 + (1 * 256 ^ 37 + Codec.value 256 rest)) := by
    rw [Codec.value_cons, Codec.value_cons, Codec.value_cons]; simp [hl]
  rw [hval]
  exact Codec.digits_length (k := 54) (by decide) (by omega) (by omega)

theorem fromAddress_iff (E : Env) (s : Text) (x : Bytes) (odd : Bool) : Json.fromAddress E s = some (x, odd) ↔
    x.length = 32 ∧ leNat x < p ∧ ∃ q : UInt8, odd = (q == 1) ∧
      s = Codec.encode58 (([0xcb, 0x01, 0x01] ++ x ++ [q]) ++ E.chk ([0xcb, 0x01, 0x01] ++ x ++ [q])) := by
  constructor
  · intro h
    unfold Json.fromAddress at h
    split at h
    · cases h
    split at h
    · cases h
    rename_i out hd
    split at h
    · cases h
    rename_i hl
    split at h
    · cases h
    rename_i hc
    split at h
    · cases h
    rename_i h3
    split at h
    case isFalse => cases h
    rename_i hp
    have hl : out.length = 40 := Classical.byContradiction hl
    have hc : E.chk (out.take 36) = out.drop 36 := Classical.byContradiction hc
    have h3 : out.take 3 = [0xcb, 0x01, 0x01] := Classical.byContradiction h3
    have hinj := Option.some.inj h
    have hx : (out.drop 3).take 32 = x := congrArg Prod.fst hinj
    have ho : ((out.drop 35).head? == some 0x01) = odd := congrArg Prod.snd hinj
    obtain ⟨q, hq⟩ : ∃ q, (out.drop 35).take 1 = [q] := by
      match hm : out.drop 35 with
      | [] => have := congrArg List.length hm; simp at this; omega
      | q :: _ => exact ⟨q, rfl⟩
    have hraw : out.take 36 = [0xcb, 0x01, 0x01] ++ x ++ [q] := by
      rw [← h3, ← hx, ← hq, show (36 : Nat) = 3 + (32 + 1) from rfl, List.take_add, List.take_add, List.drop_drop]
      simp
    refine ⟨by rw [← hx]; simp; omega, by rw [← hx]; exact hp, q, ?_, ?_⟩
    · rw [← ho]
      have : (out.drop 35).head? = some q := by
        match hm : out.drop 35, hq with
        | a :: _, hq => simp at hq; simp [hq]
      rw [this]; rfl
    · rw [← hraw, hc, List.take_append_drop, Codec.encode58_decode hd]
  · rintro ⟨hx, hp, q, rfl, rfl⟩
    unfold Json.fromAddress
    rw [if_neg (fun h => h (keyBytes_length E x hx q)), Codec.decode58_encode]
    simp only
    have hrl : ([0xcb, 0x01, 0x01] ++ x ++ [q]).length = 36 := by simp [hx]
    have ht : (([0xcb, 0x01, 0x01] ++ x ++ [q]) ++ E.chk ([0xcb, 0x01, 0x01] ++ x ++ [q])).take 36 =
        [0xcb, 0x01, 0x01] ++ x ++ [q] := by
      rw [List.take_append_of_le_length (by omega), List.take_of_length_le (by omega)]
    have hd : (([0xcb, 0x01, 0x01] ++ x ++ [q]) ++ E.chk ([0xcb, 0x01, 0x01] ++ x ++ [q])).drop 36 =
        E.chk ([0xcb, 0x01, 0x01] ++ x ++ [q]) := by
      rw [List.drop_append, hrl, List.drop_of_length_le (by omega)]; simp
    rw [ht, hd]
    generalize hc : E.chk ([0xcb, 0x01, 0x01] ++ x ++ [q]) = c
    have hcl : c.length = 4 := by rw [← hc]; exact E.chk_length _
    have h3 : List.drop 3 ([0xcb, 0x01, 0x01] ++ x ++ [q] ++ c) = x ++ [q] ++ c := by simp
    have h32 : (x ++ [q] ++ c).take 32 = x := by
      rw [List.append_assoc, List.take_append_of_le_length (by omega), List.take_of_length_le (by omega)]
    have h35 : List.drop 35 ([0xcb, 0x01, 0x01] ++ x ++ [q] ++ c) = q :: c := by
      rw [show (35 : Nat) = 3 + 32 from rfl, ← List.drop_drop, h3, List.append_assoc, List.drop_append, hx,
        List.drop_of_length_le (by omega)]
      rfl
    rw [h3, h32, h35, if_neg (by simp [hx, hcl]), if_neg (by simp), if_neg (by simp), if_pos hp]
    rfl

theorem key_text_ne (E : Env) (v : J) (r : Bytes × Bool) (h : Json.fromAddress E (str v) = some r) :
    ∃ s, v = .str s ∧ str v = s.toList := by
  cases v with
  | str s => exact ⟨s, rfl, rfl⟩
  | _ => cases h

theorem pubKey_iff (E : Env) (v : J) (k : PubKey) : pubKey E (str v) = .ok k ↔ ReadsKey E v k := by
  unfold pubKey
  constructor
  · intro h
    split at h
    · rename_i x odd hx
      obtain ⟨s, rfl, hs⟩ := key_text_ne E v _ hx
      obtain ⟨h1, h2, q, h3, h4⟩ := (fromAddress_iff E _ x odd).mp hx
      cases h
      have hv : (Fin.ofNat p (leNat x)).val = leNat x := Nat.mod_eq_of_lt h2
      refine ⟨q, h3, ?_⟩
      simp only [hv]
      rw [← h1, leBytes_leNat]
      exact str_eq_ofList (hs.symm.trans h4)
    · cases h
  · rintro ⟨q, h1, rfl⟩
    have hx : k.x.val < 256 ^ 32 := Nat.lt_trans k.x.isLt p_lt
    rw [str_ofList, (fromAddress_iff E _ (leBytes 32 k.x.val) k.isOdd).mpr
      ⟨by simp, by rw [leNat_leBytes_of_lt hx]; exact k.x.isLt, q, h1, rfl⟩]
    simp only [leNat_leBytes_of_lt hx]
    cases k with
    | mk x odd =>
      congr 2
      exact Fin.ext (Nat.mod_eq_of_lt x.isLt)

theorem delegate_iff (E : Env) (v : J) (d : Option PubKey) : delegate E v = .ok d ↔ ReadsDelegate E v d := by
  cases v with
  | str s =>
    have := pubKey_iff E (.str s)
    simp only [str] at this
    cases d with
    | none =>
      simp only [delegate, ReadsDelegate]
      constructor
      · intro h; split at h <;> cases h
      · intro h; exact absurd rfl (h s)
    | some k =>
      simp only [delegate, ReadsDelegate]
      rw [← this]
      cases pubKey E s.toList with
      | ok k' =>
        constructor
        · intro h; cases h; rfl
        · intro h; cases h; rfl
      | error e => constructor <;> intro h <;> cases h
  | _ =>
    cases d with
    | none =>
      constructor
      · intro _ s h; cases h
      · intro _; rfl
    | some k =>
      constructor
      · intro h; cases h
      · rintro ⟨_, _, h⟩; cases h

theorem bodyReference_iff (v : J) (h : B32) : bodyReference (str v) = .ok h ↔ ReadsHex v h := by
  unfold bodyReference
  constructor
  · intro hh
    split at hh
    · rename_i bs hb
      split at hh
      · rename_i hl
        cases hh
        have hs := (Json.hexDecode_ok_iff _ _).mp hb
        obtain ⟨s, rfl, he⟩ := str_eq_of_ne (v := v) (by
          intro h0; rw [h0] at hs; cases hs; cases hl)
        exact ⟨s, rfl, by rw [← he]; exact hs⟩
      · cases hh
    · cases hh
  · rintro ⟨s, rfl, hs⟩
    rw [show str (.str s) = s.toList from rfl, (Json.hexDecode_ok_iff _ _).mpr hs]
    simp only [h.len, dite_true]

theorem hashValue_iff {α : Type} (f : Text → R α) (v : J) (a : α) (h0 : ∀ w : J, f (str w) = .ok a → ∃ s, w = .str s) :
    hashValue f v = .ok a ↔ f (str v) = .ok a := by
  cases v with
  | str s => exact Iff.rfl
  | _ =>
    constructor
    · intro h; cases h
    · intro h; obtain ⟨s, hs⟩ := h0 _ h; cases hs

theorem hashValue_hash_iff (E : Env) (ver : UInt8) (v : J) (h : B32) :
    hashValue (hash E ver) v = .ok h ↔ ReadsHash E ver v h := by
  rw [hashValue_iff _ v h (fun w hw => by obtain ⟨_, _, _, _, _, hs⟩ := (hash_iff E ver w h).mp hw; exact ⟨_, hs⟩)]
  exact hash_iff E ver v h

theorem hashValue_byteHash_iff (E : Env) (ver : UInt8) (v : J) (bs : Bytes) :
    hashValue (byteHash E ver) v = .ok bs ↔ v = bytesText E ver bs := by
  rw [hashValue_iff _ v bs (fun w hw => ⟨_, (byteHash_iff E ver w bs).mp hw⟩)]
  exact byteHash_iff E ver v bs

end MinaRs.GraphQL
