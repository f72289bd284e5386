import Verif.Hash.CommandSpec
import Verif.Hash.ROLemmas
import Verif.Hash.AccountProps
import Verif.BinProt.PrimLemmas
/-!
# C50, C51, C68, C69: memos, signed payloads, the transfer builder
-/

namespace MinaRs.Hash

open Spec
open MinaRs.BinProt (utf8 fromUTF8?_utf8)

/-! ## C50: memo text -/

theorem writeAt2_eq : ∀ (s : Bytes) (i : Nat) (pre post : Bytes), pre.length = i + 2 → s.length ≤ post.length →
    writeAt2 (pre ++ post) i s = pre ++ s ++ post.drop s.length
  | [], i, pre, post, _, _ => by simp [writeAt2]
  | b :: s, i, pre, [], _, h => by simp at h
  | b :: s, i, pre, x :: post, hp, hs => by
    have e : (pre ++ x :: post).set (i + 2) b = (pre ++ [b]) ++ post := by
      rw [List.set_append_right _ _ (by omega), hp]; simp
    rw [writeAt2, e, writeAt2_eq s (i + 1) (pre ++ [b]) post (by simp; omega) (by simpa using hs)]
    simp

theorem tryFromText_ok {s : Bytes} (h : s.length ≤ 32) :
    tryFromText s = .ok ([1, UInt8.ofNat s.length] ++ s ++ List.replicate (32 - s.length) 0) := by
  unfold tryFromText
  rw [if_neg (by omega)]
  have e : ((List.replicate 34 (0 : UInt8)).set 0 1).set 1 (UInt8.ofNat s.length) =
      [1, UInt8.ofNat s.length] ++ List.replicate 32 0 := rfl
  rw [e, writeAt2_eq s 0 _ _ rfl (by simpa using h), List.drop_replicate]

/-- **C50.** The memo of every byte string of at most 32 bytes: tag, length, text, zero padding; longer
ones are refused. -/
theorem C50_memo_of_text (s : Bytes) :
    (s.length ≤ 32 → ∃ m, tryFromText s = .ok m ∧ IsMemoOf m s ∧ m.length = 34) ∧
    (32 < s.length → tryFromText s = .error .stringTooLong) := by
  refine ⟨fun h => ⟨_, tryFromText_ok h, rfl, by simp; omega⟩, fun h => ?_⟩
  unfold tryFromText; rw [if_pos h]

theorem toText_memo (repl : Bytes → String) {s : Bytes} (h : s.length ≤ 32) :
    toText repl ([1, UInt8.ofNat s.length] ++ s ++ List.replicate (32 - s.length) 0) =
      .ok (lossy repl s) := by
  have hl : (UInt8.ofNat s.length).toNat = s.length := by
    simp only [UInt8.toNat_ofNat']; omega
  unfold toText
  simp only [List.cons_append, List.nil_append, List.getElem?_cons_succ, List.getElem?_cons_zero, hl]
  rw [if_pos (by simp; omega)]
  simp

/-- **C50.** Every text of at most 32 bytes is read back unchanged. -/
theorem C50_round_trip (repl : Bytes → String) (s : String) (h : (utf8 s).length ≤ 32) :
    ∃ m, tryFromText (utf8 s) = .ok m ∧ toText repl m = .ok s := by
  refine ⟨_, tryFromText_ok h, ?_⟩
  rw [toText_memo repl h, lossy, fromUTF8?_utf8]

example : (utf8 "01234567890123456789012345678901").length ≤ 32 := by decide +kernel
example : tryFromText (List.replicate 33 65) = .error .stringTooLong := (C50_memo_of_text _).2 (by decide)

/-- **C50.** Different byte strings give different memos. -/
theorem C50_injective (s t : Bytes) (m : Memo) (hs : tryFromText s = .ok m) (ht : tryFromText t = .ok m) :
    s = t := by
  have ls : s.length ≤ 32 := by
    by_cases h : s.length ≤ 32
    · exact h
    · rw [(C50_memo_of_text s).2 (by omega)] at hs; exact nomatch hs
  have lt : t.length ≤ 32 := by
    by_cases h : t.length ≤ 32
    · exact h
    · rw [(C50_memo_of_text t).2 (by omega)] at ht; exact nomatch ht
  rw [tryFromText_ok ls] at hs
  rw [tryFromText_ok lt] at ht
  have e := (Except.ok.inj hs).trans (Except.ok.inj ht).symm
  simp only [List.cons_append, List.nil_append, List.cons.injEq, true_and] at e
  have hl : s.length = t.length := by
    have := congrArg UInt8.toNat e.1
    simp only [UInt8.toNat_ofNat'] at this; omega
  exact (List.append_inj e.2 hl).1

/-! ## C69: reading the text of any memo -/

/-- **C69.** Exactly when the text of a memo can be read: it has a length byte and that many bytes
after it. Missing: the other memos, for which the code panics. -/
theorem C69_readable_iff_partial (repl : Bytes → String) (m : Memo) :
    (∃ s, toText repl m = .ok s) ↔ ∃ tag len rest, m = tag :: len :: rest ∧ len.toNat ≤ rest.length := by
  unfold toText
  constructor
  · rintro ⟨s, h⟩
    match m, h with
    | [], h => exact nomatch h
    | [_], h => exact nomatch h
    | tag :: len :: rest, h =>
      refine ⟨tag, len, rest, rfl, ?_⟩
      simp only [List.getElem?_cons_succ, List.getElem?_cons_zero, List.length_cons] at h
      by_cases hl : 2 + len.toNat ≤ rest.length + 1 + 1
      · omega
      · rw [if_neg hl] at h; exact nomatch h
  · rintro ⟨tag, len, rest, rfl, h⟩
    simp only [List.getElem?_cons_succ, List.getElem?_cons_zero, List.length_cons]
    rw [if_pos (by omega)]
    exact ⟨_, rfl⟩

/-- **C69.** Memos that arrive in blocks can be unreadable: one with 34 bytes and too large a length
byte, and an empty one. -/
theorem C69_panics_fails (repl : Bytes → String) :
    toText repl ([1, 33] ++ List.replicate 32 65) = .error .slice ∧ toText repl [] = .error .index :=
  ⟨rfl, rfl⟩

/-- **C69.** Every command the transfer builder makes without a call to `memo` has an unreadable memo. -/
theorem C69_builder_default_fails (repl : Bytes → String) (frm to : PubKey) (amount fee : UInt64) (nonce : UInt32)
    (calls : List Setter) (h : ∀ c ∈ calls, ∀ m, c ≠ .memo m) :
    toText repl (calls.foldl Builder.set (Builder.new frm to amount fee nonce)).build.common.memo =
      .error .index := by
  have : ∀ (calls : List Setter) (b : Builder), (∀ c ∈ calls, ∀ m, c ≠ .memo m) →
      (calls.foldl Builder.set b).memo = b.memo := by
    intro calls
    induction calls with
    | nil => intro b _; rfl
    | cons c cs ih =>
      intro b hb
      rw [List.foldl_cons, ih _ fun d hd => hb d (by simp [hd])]
      cases c with
      | memo m => exact absurd rfl (hb _ (by simp) m)
      | _ => rfl
  simp only [Builder.build, this _ _ h]
  rfl

/-! ## C68: the transfer builder -/

theorem lastSet_cons {α : Type} (get : Setter → Option α) (c : Setter) (cs : List Setter) (d : α) :
    lastSet get (c :: cs) d = lastSet get cs ((get c).getD d) := by
  unfold lastSet
  rw [List.filterMap_cons]
  cases get c with
  | none => rfl
  | some a =>
    simp only [Option.getD_some]
    rw [List.getLast?_cons, Option.getD_some]

theorem foldl_lastSet {α : Type} (f : Builder → α) (get : Setter → Option α)
    (h : ∀ b c, f (b.set c) = (get c).getD (f b)) :
    ∀ (calls : List Setter) (b : Builder), f (calls.foldl Builder.set b) = lastSet get calls (f b)
  | [], b => rfl
  | c :: cs, b => by
    rw [List.foldl_cons, foldl_lastSet f get h cs, h, lastSet_cons]

/-- **C68.** For every sequence of setter calls, the built payload is a payment with the required values
given to `new` and, for each optional value, the last one set, or else: no memo, the sender as fee
payer, token 1, no expiry. -/
theorem C68_builder (frm to : PubKey) (amount fee : UInt64) (nonce : UInt32) (calls : List Setter) :
    (calls.foldl Builder.set (Builder.new frm to amount fee nonce)).build =
      { common :=
          { fee := fee
            feeToken := lastSet (fun | .feeToken t => some t | _ => none) calls 1
            feePayer := lastSet (fun | .feePayer k => some k | _ => none) calls frm
            nonce := nonce
            validUntil := lastSet (fun | .validUntil s => some s | _ => none) calls 0xFFFFFFFF
            memo := lastSet (fun | .memo m => some m | _ => none) calls [] }
        body := .payment frm to (lastSet (fun | .transferToken t => some t | _ => none) calls 1) amount } := by
  have hc : ∀ {α : Type} (f : Builder → α), (∀ b c, f (Builder.set b c) = f b) →
      f (calls.foldl Builder.set (Builder.new frm to amount fee nonce)) = f (Builder.new frm to amount fee nonce) := by
    intro α f h
    have : ∀ (cs : List Setter) b, f (cs.foldl Builder.set b) = f b := by
      intro cs
      induction cs with
      | nil => intro b; rfl
      | cons c cs ih => intro b; rw [List.foldl_cons, ih, h]
    exact this _ _
  unfold Builder.build
  rw [hc Builder.fee (by rintro b (_ | _ | _ | _ | _) <;> rfl),
    hc Builder.nonce (by rintro b (_ | _ | _ | _ | _) <;> rfl),
    hc Builder.to (by rintro b (_ | _ | _ | _ | _) <;> rfl),
    hc Builder.frm (by rintro b (_ | _ | _ | _ | _) <;> rfl),
    hc Builder.amount (by rintro b (_ | _ | _ | _ | _) <;> rfl),
    foldl_lastSet Builder.feeToken (fun | .feeToken t => some t | _ => none)
      (by rintro b (_ | _ | _ | _ | _) <;> rfl),
    foldl_lastSet Builder.feePayer (fun | .feePayer k => some k | _ => none)
      (by rintro b (_ | _ | _ | _ | _) <;> rfl),
    foldl_lastSet Builder.validUntil (fun | .validUntil k => some k | _ => none)
      (by rintro b (_ | _ | _ | _ | _) <;> rfl),
    foldl_lastSet Builder.memo (fun | .memo k => some k | _ => none)
      (by rintro b (_ | _ | _ | _ | _) <;> rfl),
    foldl_lastSet Builder.transferToken (fun | .transferToken k => some k | _ => none)
      (by rintro b (_ | _ | _ | _ | _) <;> rfl)]
  rfl

/-! ## C51: signed payloads -/

def u32bits (x : UInt32) : List Bool := bytesBits (leBytes 4 x.toNat)
def u64bits (x : UInt64) : List Bool := bytesBits (leBytes 8 x.toNat)

theorem u32bits_length (x : UInt32) : (u32bits x).length = 32 := by simp [u32bits, bytesBits_length]
theorem u64bits_length (x : UInt64) : (u64bits x).length = 64 := by simp [u64bits, bytesBits_length]

theorem u32bits_inj {x y : UInt32} (h : u32bits x = u32bits y) : x = y := by
  have := congrArg leNat (bytesBits_inj h)
  rw [leNat_leBytes_of_lt x.toNat_lt, leNat_leBytes_of_lt y.toNat_lt] at this
  exact UInt32.toNat_inj.1 this

theorem u64bits_inj {x y : UInt64} (h : u64bits x = u64bits y) : x = y := by
  have := congrArg leNat (bytesBits_inj h)
  rw [leNat_leBytes_of_lt x.toNat_lt, leNat_leBytes_of_lt y.toNat_lt] at this
  exact UInt64.toNat_inj.1 this

/-- The parts of a body as they enter the input. -/
def CmdBody.parts : CmdBody → Fp × Fp × Bool × Bool × Bool × UInt64 × UInt64
  | .payment s r t a => (s.x, r.x, false, s.isOdd, r.isOdd, t, a)
  | .delegation d n => (d.x, n.x, true, d.isOdd, n.isOdd, 1, 0)

theorem CmdBody.parts_inj {a b : CmdBody} (h : a.parts = b.parts) : a = b := by
  cases a <;> cases b <;> simp only [parts, Prod.mk.injEq] at h <;> obtain ⟨h1, h2, h3, h4, h5, h6, h7⟩ := h
  · rename_i s r t a s' r' t' a'
    cases s; cases r; cases s'; cases r'; simp_all
  · exact nomatch h3
  · exact nomatch h3
  · rename_i s r s' r'
    cases s; cases r; cases s'; cases r'; simp_all

theorem roinput_eq (c : Payload) : c.roinput =
    ⟨[c.common.feePayer.x, c.body.parts.1, c.body.parts.2.1],
     u64bits c.common.fee ++ (u64bits c.common.feeToken ++ (c.common.feePayer.isOdd ::
      (u32bits c.common.nonce ++ (u32bits c.common.validUntil ++ (bytesBits c.common.memo ++
      (false :: false :: c.body.parts.2.2.1 :: c.body.parts.2.2.2.1 :: c.body.parts.2.2.2.2.1 ::
      (u64bits c.body.parts.2.2.2.2.2.1 ++ (u64bits c.body.parts.2.2.2.2.2.2 ++ [false]))))))))⟩ := by
  obtain ⟨co, b⟩ := c
  cases b <;> simp [Payload.roinput, CmdBody.parts, Legacy.build, Legacy.append, Legacy.new, Legacy.field, Legacy.bool,
    Legacy.u64, Legacy.u32, Legacy.bytes, u64bits, u32bits]

theorem roinput_bits_length (c : Payload) : c.roinput.bits.length = 327 + 8 * c.common.memo.length := by
  rw [roinput_eq]
  simp only [List.length_append, List.length_cons, List.length_nil, u64bits_length, u32bits_length, bytesBits_length]
  omega

/-- **C51.** Two payloads with the same hash input are equal, whatever their memos. -/
theorem C51_injective (a b : Payload) (h : a.roinput = b.roinput) : a = b := by
  have hl := congrArg (fun r => r.bits.length) h
  simp only [roinput_bits_length] at hl
  rw [roinput_eq, roinput_eq, Legacy.mk.injEq] at h
  obtain ⟨hf, h⟩ := h
  simp only [List.cons.injEq, and_true] at hf
  obtain ⟨f1, f2, f3⟩ := hf
  obtain ⟨e1, h⟩ := List.append_inj h (by rw [u64bits_length, u64bits_length])
  obtain ⟨e2, h⟩ := List.append_inj h (by rw [u64bits_length, u64bits_length])
  obtain ⟨e3, h⟩ := List.cons.inj h
  obtain ⟨e4, h⟩ := List.append_inj h (by rw [u32bits_length, u32bits_length])
  obtain ⟨e5, h⟩ := List.append_inj h (by rw [u32bits_length, u32bits_length])
  obtain ⟨e6, h⟩ := List.append_inj h (by rw [bytesBits_length, bytesBits_length]; omega)
  simp only [List.cons.injEq, true_and] at h
  obtain ⟨e7, e8, e9, h⟩ := h
  obtain ⟨e10, h⟩ := List.append_inj h (by rw [u64bits_length, u64bits_length])
  obtain ⟨e11, _⟩ := List.append_inj h (by rw [u64bits_length, u64bits_length])
  have hb : a.body = b.body := CmdBody.parts_inj (by
    simp only [Prod.ext_iff]
    exact ⟨f2, f3, e7, e8, e9, u64bits_inj e10, u64bits_inj e11⟩)
  have k1 := u64bits_inj e1; have k2 := u64bits_inj e2; have k4 := u32bits_inj e4; have k5 := u32bits_inj e5
  have k6 := bytesBits_inj e6
  obtain ⟨⟨_, _, ⟨_, _⟩, _, _, _⟩, _⟩ := a
  obtain ⟨⟨_, _, ⟨_, _⟩, _, _, _⟩, _⟩ := b
  simp_all

/-- **C51.** Payments and delegations never have the same hash input. -/
theorem C51_kinds (c d : Common) (s r x y : PubKey) (t a : UInt64) :
    (Payload.mk c (.payment s r t a)).roinput ≠ (Payload.mk d (.delegation x y)).roinput := by
  intro h
  have := congrArg Payload.body (C51_injective _ _ h)
  exact nomatch this

theorem message_inj {c d : Payload} {x y r : Fp} {x' y' r' : Fp} (hm : c.common.memo.length = d.common.memo.length)
    (h : signedFields c x y r = signedFields d x' y' r') : c = d ∧ x = x' ∧ y = y' ∧ r = r' := by
  unfold signedFields at h
  have := Legacy.toFields_inj (by
    simp only [Legacy.build, Legacy.append, Legacy.new, Legacy.field, List.append_nil,
      roinput_bits_length, hm]) h
  simp only [Legacy.build, Legacy.append, Legacy.new, Legacy.field, List.append_nil, Legacy.mk.injEq] at this
  obtain ⟨hf, hb⟩ := this
  obtain ⟨h1, h2⟩ := List.append_inj hf (by rw [roinput_eq, roinput_eq]; rfl)
  simp only [List.cons_append, List.nil_append, List.cons.injEq, and_true] at h2
  refine ⟨C51_injective c d ?_, h2⟩
  cases hc : c.roinput; cases hd : d.roinput
  rw [hc, hd] at h1 hb; simp_all

/-- **C51.** What is signed for two payloads with memos of the same length, as all memos made from text
are, is the same only for the same payload, public key and signature point. Missing: memos of
different lengths. -/
theorem C51_signed_message_partial (c d : Payload) (x y r x' y' r' : Fp)
    (hm : c.common.memo.length = d.common.memo.length)
    (h : signedFields c x y r = signedFields d x' y' r') : c = d ∧ x = x' ∧ y = y' ∧ r = r' :=
  message_inj hm h

/-- **C51.** The two networks sign under different domains. -/
theorem C51_networks : Network.mainnet.domain ≠ Network.testnet.domain := by decide

theorem bitsNat_append_false (l : List Bool) (k : Nat) : bitsNat (l ++ List.replicate k false) = bitsNat l := by
  induction l with
  | nil =>
    induction k with
    | zero => rfl
    | succ k ih =>
      simp only [List.nil_append, bitsNat] at ih ⊢
      simp [List.replicate_succ, bitsNat, ih]
  | cons b l ih => simp only [List.cons_append, bitsNat, ih]

/-- Zero bits at the end that need no further chunk do not change the packed fields. -/
theorem chunks_pad (k : Nat) (l : List Bool) : (l.length + 253) / 254 = (l.length + k + 253) / 254 →
    (Legacy.chunks254 (l ++ List.replicate k false)).map (fun c => bitsNat (c.take 254)) =
      (Legacy.chunks254 l).map (fun c => bitsNat (c.take 254)) := by
  induction l using Legacy.chunks254.induct with
  | case1 =>
    intro h
    have : k = 0 := by simp at h; omega
    subst this; rfl
  | case2 l hne ih =>
    intro h
    have hpos : 0 < l.length := List.length_pos_iff.2 hne
    rw [Legacy.chunks254_ne hne, Legacy.chunks254_ne (l := l ++ List.replicate k false) (by simp [hne])]
    by_cases h254 : 254 ≤ l.length
    · have h1 : (l ++ List.replicate k false).take 254 = l.take 254 := by
        rw [List.take_append_of_le_length h254]
      have h2 : (l ++ List.replicate k false).drop 254 = l.drop 254 ++ List.replicate k false := by
        rw [List.drop_append_of_le_length h254]
      rw [h1, h2, List.map_cons, List.map_cons, ih (by simp only [List.length_drop]; omega)]
    · have hk : l.length + k ≤ 254 := by omega
      have h1 : (l ++ List.replicate k false).take 254 = l ++ List.replicate k false :=
        List.take_of_length_le (by simpa using hk)
      have h2 : (l ++ List.replicate k false).drop 254 = [] := List.drop_of_length_le (by simpa using hk)
      have h3 : l.take 254 = l := List.take_of_length_le (by omega)
      have h4 : l.drop 254 = [] := List.drop_of_length_le (by omega)
      rw [h1, h2, h3, h4, Legacy.chunks254_nil, List.map_cons, List.map_cons, h1, h3, bitsNat_append_false]

theorem toFields_pad (f : List Fp) (l : List Bool) (k : Nat) (h : (l.length + 253) / 254 = (l.length + k + 253) / 254) :
    Legacy.toFields ⟨f, l ++ List.replicate k false⟩ = Legacy.toFields ⟨f, l⟩ := by
  unfold Legacy.toFields
  congr 1
  have := chunks_pad k l h
  apply List.map_inj_right (f := Fin.val) (fun x y e => Fin.ext e) |>.1
  simpa [Function.comp_def] using this

theorem signed_pad {a b : Payload} (hf : a.roinput.fields = b.roinput.fields) (k : Nat)
    (hb : b.roinput.bits = a.roinput.bits ++ List.replicate k false)
    (hk : (a.roinput.bits.length + 253) / 254 = (a.roinput.bits.length + k + 253) / 254) (x y r : Fp) :
    signedFields b x y r = signedFields a x y r := by
  simp only [signedFields, Legacy.build, Legacy.append, Legacy.new, Legacy.field, List.append_nil, hb, ← hf]
  exact toFields_pad _ _ _ hk

theorem u64bits_high {b : Nat} (hb : b < 256) :
    u64bits (UInt64.ofNat (b * 2 ^ 56)) = List.replicate 56 false ++ byteBits (UInt8.ofNat b) := by
  unfold u64bits
  rw [UInt64.toNat_ofNat_of_lt' (by simp only [UInt64.size]; omega)]
  have : leBytes 8 (b * 2 ^ 56) = [0, 0, 0, 0, 0, 0, 0, UInt8.ofNat b] := by
    simp only [leBytes, Nat.reducePow]
    rw [show b * 72057594037927936 % 256 = 0 by omega, show b * 72057594037927936 / 256 % 256 = 0 by omega,
      show b * 72057594037927936 / 256 / 256 % 256 = 0 by omega,
      show b * 72057594037927936 / 256 / 256 / 256 % 256 = 0 by omega,
      show b * 72057594037927936 / 256 / 256 / 256 / 256 % 256 = 0 by omega,
      show b * 72057594037927936 / 256 / 256 / 256 / 256 / 256 % 256 = 0 by omega,
      show b * 72057594037927936 / 256 / 256 / 256 / 256 / 256 / 256 % 256 = 0 by omega,
      show b * 72057594037927936 / 256 / 256 / 256 / 256 / 256 / 256 / 256 % 256 = b by omega]
    rfl
  rw [this]
  rfl

theorem leBytes_small : ∀ (k n : Nat), n < 256 ^ k → leBytes (k + 1) n = leBytes k n ++ [0]
  | 0, n, h => by
    have : n = 0 := by simpa using h
    subst this; rfl
  | k + 1, n, h => by
    have h2 : n / 256 < 256 ^ k := by
      rw [Nat.pow_succ] at h
      exact Nat.div_lt_of_lt_mul (by omega)
    rw [leBytes, leBytes_small k (n / 256) h2]
    rfl

theorem u64bits_split (a : UInt64) :
    u64bits a = byteBits (UInt8.ofNat (a.toNat % 256)) ++ bytesBits (leBytes 7 (a.toNat / 256)) ∧
    u64bits (UInt64.ofNat (a.toNat / 256)) = bytesBits (leBytes 7 (a.toNat / 256)) ++ List.replicate 8 false := by
  have ha := a.toNat_lt
  refine ⟨rfl, ?_⟩
  unfold u64bits
  rw [UInt64.toNat_ofNat_of_lt' (by simp only [UInt64.size]; omega), leBytes_small 7 _ (by omega)]
  simp [bytesBits]
  rfl

/-- The payment that shares its signatures with the payment of `a` units of the default token: its memo has one byte more, the
token's number is a multiple of 2^56, and the amount is the 256th part. -/
def shiftedPayment (c : Common) (s r : PubKey) (a : UInt64) : Payload :=
  ⟨{ c with memo := c.memo ++ [UInt8.ofNat (8 * s.isOdd.toNat + 16 * r.isOdd.toNat + 32)] },
   .payment ⟨s.x, false⟩ ⟨r.x, false⟩ (UInt64.ofNat (a.toNat % 256 * 2 ^ 56)) (UInt64.ofNat (a.toNat / 256))⟩

/-- The payment that shares its signatures with a delegation. -/
def shiftedDelegation (c : Common) (d n : PubKey) : Payload :=
  ⟨{ c with memo := c.memo ++ [UInt8.ofNat (8 * d.isOdd.toNat + 16 * n.isOdd.toNat + 36)] },
   .payment ⟨d.x, false⟩ ⟨n.x, false⟩ 0 0⟩

/-- **C51.** The length of the memo is not part of what is signed: every signature on any payment of the default token is a
valid signature on another payment, of another amount and another token, with a memo that is a byte longer; and every signature
on any delegation is a valid signature on a payment; for every key, network, hash function and signature equation. -/
theorem C51_memo_length_fails (c : Common) (hm : c.memo.length = 34) :
    (∀ s r a, (⟨c, .payment s r 1 a⟩ : Payload) ≠ shiftedPayment c s r a) ∧
    (∀ d n, (⟨c, .delegation d n⟩ : Payload) ≠ shiftedDelegation c d n) ∧
    ∀ {σ : Type} (H : String → List Fp → Fp) (V : (Fp × Fp) → σ → Fp → Bool) (rx : σ → Fp)
      (n : Network) (pk : Fp × Fp) (sig : σ),
      (∀ s r a, verifyPayload H V rx n pk sig (shiftedPayment c s r a) =
        verifyPayload H V rx n pk sig ⟨c, .payment s r 1 a⟩) ∧
      ∀ d e, verifyPayload H V rx n pk sig (shiftedDelegation c d e) = verifyPayload H V rx n pk sig ⟨c, .delegation d e⟩ := by
  have hne : ∀ x : UInt8, c.memo ≠ c.memo ++ [x] := fun x h => by
    have := congrArg List.length h
    simp at this
  refine ⟨fun s r a h => hne _ (congrArg (fun p : Payload => p.common.memo) h),
    fun d n h => hne _ (congrArg (fun p : Payload => p.common.memo) h), fun H V rx n pk sig => ⟨fun s r a => ?_, fun d e => ?_⟩⟩
  · unfold verifyPayload
    rw [signed_pad (a := ⟨c, .payment s r 1 a⟩) (b := shiftedPayment c s r a) (by simp [roinput_eq, shiftedPayment, CmdBody.parts]) 8
      ?_ (by rw [roinput_bits_length]; simp only [hm])]
    obtain ⟨h1, h2⟩ := u64bits_split a
    simp only [roinput_eq, shiftedPayment, CmdBody.parts, h1, h2, u64bits_high (Nat.mod_lt _ (by decide : 0 < 256)), bytesBits,
      List.flatMap_append, List.flatMap_cons, List.flatMap_nil]
    rw [show u64bits 1 = true :: List.replicate 63 false by decide +kernel,
      show byteBits (UInt8.ofNat (8 * s.isOdd.toNat + 16 * r.isOdd.toNat + 32)) =
        [false, false, false, s.isOdd, r.isOdd, true, false, false] by cases s.isOdd <;> cases r.isOdd <;> decide +kernel]
    simp [List.replicate]
  · unfold verifyPayload
    rw [signed_pad (a := ⟨c, .delegation d e⟩) (b := shiftedDelegation c d e) (by simp [roinput_eq, shiftedDelegation, CmdBody.parts]) 8
      ?_ (by rw [roinput_bits_length]; simp only [hm])]
    simp only [roinput_eq, shiftedDelegation, CmdBody.parts, bytesBits, List.flatMap_append, List.flatMap_cons, List.flatMap_nil]
    rw [show u64bits 1 = true :: List.replicate 63 false by decide +kernel, show u64bits 0 = List.replicate 64 false by decide +kernel,
      show byteBits (UInt8.ofNat (8 * d.isOdd.toNat + 16 * e.isOdd.toNat + 36)) =
        [false, false, true, d.isOdd, e.isOdd, true, false, false] by cases d.isOdd <;> cases e.isOdd <;> decide +kernel]
    simp [List.replicate]

/-- A payment of 1.5 units of the default token, and the payment that shares its signatures. -/
example : shiftedPayment ⟨10, 1, ⟨5, true⟩, 7, 1000, List.replicate 34 0⟩ ⟨5, true⟩ ⟨6, false⟩ 1500000000 =
    ⟨⟨10, 1, ⟨5, true⟩, 7, 1000, List.replicate 34 0 ++ [40]⟩, .payment ⟨5, false⟩ ⟨6, false⟩ 0 5859375⟩ := by decide +kernel

end MinaRs.Hash
