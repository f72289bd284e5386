import Verif.Json.AbortsSpec
import Verif.Json.TextProps
import Verif.Base.AmountProps

/-! Lemmas for C118: which leaves end the process. -/

namespace MinaRs.Json

open Text (Text split parseUnsigned padRight9 split_of_notMem split_append split_spec split_ne_nil)
open Text.Spec (IsDigit value)
open Base
open Codec (encode58 decode58 decodeCheck hexDecode decode64 decode58_encode encode58_decode)
open Spec

theorem number_iff (t : Text) (n : Nat) : parseUnsigned U64_MAX t = .ok n ↔ Number t n := by
  have h := Base.C64_accepted_iff U64_MAX n t
  unfold Base.UIntJson.deserialize at h
  rw [h]
  unfold Number
  have e : n ≤ U64_MAX ↔ n < 2 ^ 64 := by unfold U64_MAX; omega
  constructor
  · rintro ⟨h1, ds, h2, h3, h4, h5⟩
    exact ⟨ds, h2, h3, h4, h5.symm, e.mp h1⟩
  · rintro ⟨ds, h2, h3, h4, h5, h6⟩
    exact ⟨e.mpr h6, ds, h2, h3, h4, h5.symm⟩

theorem number_noPoint {t : Text} {n : Nat} (h : Number t n) : '.' ∉ t := by
  obtain ⟨ds, h1, -, h3, -⟩ := h
  have := Base.notMem_of_digits h3
  rcases h1 with rfl | rfl
  · exact this
  · intro hm
    rcases List.mem_cons.mp hm with h | h
    · cases h
    · exact this h

theorem zeros : parseUnsigned U64_MAX (padRight9 ['0']) = .ok 0 := by
  have := Base.parse_frac (f := ['0']) (by decide) (by decide)
  simpa [Text.Spec.value] using this

theorem overflow_iff (s : Text) : Amount.fromStr true s = .error .overflowPanic ↔
    (∃ w, Number s w ∧ 2 ^ 64 ≤ w * 10 ^ 9) ∨
    ∃ q f w r, s = q ++ '.' :: f ∧ Number q w ∧ Number (f ++ List.replicate (9 - f.length) '0') r ∧ 2 ^ 64 ≤ w * 10 ^ 9 + r := by
  have hU : U64_MAX = 2 ^ 64 - 1 := rfl
  have hM : ∀ w, MINA_PRECISION * w = w * 10 ^ 9 := fun w => Nat.mul_comm _ _
  constructor
  · intro h
    unfold Amount.fromStr at h
    obtain ⟨h1, h2⟩ := split_spec '.' s
    cases hs : split '.' s with
    | nil => exact absurd hs (split_ne_nil _ _)
    | cons q rest =>
      rw [hs] at h1 h h2
      simp only [parseParts, bind, Except.bind] at h
      cases hq : parseUnsigned U64_MAX q with
      | error e => simp only [hq] at h; cases h
      | ok w =>
        simp only [hq] at h
        cases rest with
        | nil =>
          simp only [zeros] at h
          left
          refine ⟨w, ?_, ?_⟩
          · rw [← number_iff, ← hq]; congr 1; simpa [List.intercalate] using h1
          · split at h
            · cases h
            · have := hM w; omega
        | cons f rest =>
          cases hf : parseUnsigned U64_MAX (padRight9 f) with
          | error e => simp only [hf] at h; cases h
          | ok r =>
            simp only [hf] at h
            cases rest with
            | cons g rest => simp only [List.isEmpty_cons, Bool.not_false] at h; cases h
            | nil =>
              right
              refine ⟨q, f, w, r, by rw [h1]; simp [List.intercalate], (number_iff _ _).mp hq, (number_iff _ _).mp hf, ?_⟩
              simp only [List.isEmpty_nil, Bool.not_true] at h
              split at h
              · cases h
              · have := hM w; omega
  · rintro (⟨w, h1, h2⟩ | ⟨q, f, w, r, rfl, h1, h2, h3⟩)
    · unfold Amount.fromStr
      rw [split_of_notMem (number_noPoint h1)]
      simp only [parseParts, (number_iff _ _).mpr h1, zeros, bind, Except.bind]
      rw [if_neg (by have := hM w; omega)]; rfl
    · unfold Amount.fromStr
      have hp : '.' ∉ f := fun hm => number_noPoint h2 (List.mem_append_left _ hm)
      rw [split_append (number_noPoint h1), split_of_notMem hp]
      have h2' : parseUnsigned U64_MAX (padRight9 f) = .ok r := (number_iff _ _).mpr h2
      simp only [parseParts, (number_iff _ _).mpr h1, h2', bind, Except.bind, List.isEmpty_nil, Bool.not_true]
      rw [if_neg (by have := hM w; omega)]; rfl

theorem overflow_checks {checks : Bool} {s : Text} (h : Amount.fromStr checks s = .error .overflowPanic) :
    checks = true := by
  unfold Amount.fromStr at h
  split at h
  · cases h
  · cases h
  · split at h
    · cases h
    · split at h
      · assumption
      · cases h

theorem intOf_ne_panic {k : BinProt.IntKind} {n : Int} {e : JErr} (h : intOf k n = .error e) : e = .err := by
  unfold intOf at h
  split at h
  · cases h
  · cases h; rfl

/-- Only the checksum of nothing has no bytes before its checksum. -/
theorem decodeCheck_nil {chk : Bytes → Bytes} {ver : UInt8} {s : Text} (h : decodeCheck chk ver s = .ok []) :
    (chk []).head? = some ver ∧ s = encode58 (chk []) := by
  unfold decodeCheck at h
  cases hd : decode58 s with
  | error e => rw [hd] at h; cases h
  | ok out =>
    rw [hd] at h
    dsimp only at h
    split at h
    · cases h
    · split at h
      · cases h
      · rename_i hlen hchk
        split at h
        · rename_i hver
          have ht : out.take (out.length - 4) = [] := Except.ok.inj h
          have hl : out.length = 4 := by
            have := congrArg List.length ht
            simp only [List.length_take, List.length_nil] at this
            omega
          have hc := Decidable.not_not.mp hchk
          rw [ht, hl] at hc
          simp only [Nat.sub_self, List.drop_zero] at hc
          exact ⟨by rw [hc]; exact hver, by rw [hc]; exact (encode58_decode hd).symm⟩
        · cases h

theorem decodeCheck_nil' {chk : Bytes → Bytes} (hl : ∀ bs, (chk bs).length = 4) {ver : UInt8} (h : (chk []).head? = some ver) :
    decodeCheck chk ver (encode58 (chk [])) = .ok [] := by
  unfold decodeCheck
  rw [decode58_encode]
  simp [hl, h]

theorem strict_ne {t : BinProt.Ty} {bs : Bytes} {e : JErr} (h : strictAfterVersion t bs = .error e) :
    e = .err ∨ (e = .panic ∧ bs = []) := by
  unfold strictAfterVersion at h
  split at h
  · cases h; exact .inr ⟨rfl, rfl⟩
  · split at h
    · cases h
    · cases h; exact .inl rfl

theorem fromAddress_length {E : Env} {s : Text} {x : Bytes} {odd : Bool} (h : fromAddress E s = some (x, odd)) : x.length = 32 := by
  unfold fromAddress at h
  split at h
  · cases h
  · split at h
    · cases h
    · split at h
      · cases h
      · split at h
        · cases h
        · split at h
          · cases h
          · split at h
            · rename_i hl _ _ _
              cases h
              simp only [List.length_take, List.length_drop]
              omega
            · cases h

theorem utf8_nil {s : String} (h : BinProt.utf8 s = []) : s = "" := by
  have h1 := BinProt.fromUTF8?_utf8 s
  have h2 := BinProt.fromUTF8?_utf8 ""
  rw [h] at h1
  have e : BinProt.utf8 "" = [] := by decide +kernel
  rw [e, h1] at h2
  exact Option.some.inj h2

theorem Leaf.de_str (E : Env) (c : Leaf) (s : String) : c.de E (.str s) = c.deText E s.toList := by cases c <;> rfl

theorem Leaf.de_num (E : Env) (n : Int) : Leaf.i64.de E (.num n) = intOf .i64 n := rfl

theorem Leaf.de_other (E : Env) {c : Leaf} {j : J} (h : ∀ s, j ≠ .str s) (h' : c = .i64 → ∀ n, j ≠ .num n) :
    c.de E j = .error .err := by
  cases j with
  | str s => exact absurd rfl (h s)
  | num n =>
    cases c with
    | i64 => exact absurd rfl (h' rfl n)
    | _ => rfl
  | _ => cases c <;> rfl

/-- A leaf that is not read gives an error, or ends the process at one of the listed texts. -/
theorem leaf_error {E : Env} {c : Leaf} {j : J} {e : JErr} (h : c.de E j = .error e) :
    e = .err ∨ (e = .panic ∧ Aborting E (.leaf c) j) := by
  have key : ∀ s : String, c.deText E s.toList = .error e → e = .err ∨ (e = .panic ∧ Aborting E (.leaf c) (.str s)) := by
    intro s h
    cases c with
    | u32 | extU32 | u64 =>
      simp only [Leaf.deText] at h
      split at h
      · exact .inl (intOf_ne_panic h)
      · cases h; exact .inl rfl
    | decimal =>
      simp only [Leaf.deText] at h
      cases hd : Base.DecimalJson.deserialize E.checks s.toList with
      | ok n => rw [hd] at h; exact .inl (intOf_ne_panic h)
      | error a =>
        rw [hd] at h
        cases a with
        | parsingInteger _ | invalidFormat _ => exact .inl (Except.error.inj h).symm
        | overflowPanic =>
          refine .inr ⟨(Except.error.inj h).symm, ?_⟩
          unfold Base.DecimalJson.deserialize at hd
          have hc := overflow_checks hd
          rw [hc] at hd
          rcases (overflow_iff _).mp hd with ⟨w, h1, h2⟩ | ⟨q, f, w, r, h1, h2, h3, h4⟩
          · exact .whole hc h1 h2
          · exact .amount hc h1 h2 h3 h4
    | i64 => simp only [Leaf.deText] at h; cases h; exact .inl rfl
    | char =>
      simp only [Leaf.deText] at h
      split at h
      · rename_i hu
        cases h
        rw [String.ofList_toList] at hu
        rw [utf8_nil hu]
        exact .inr ⟨rfl, .letter⟩
      · cases h
    | byteVec => simp only [Leaf.deText] at h; cases h
    | field =>
      simp only [Leaf.deText] at h
      by_cases hb : ∃ body bs, Prefixed s.toList body ∧ Spells body bs
      · obtain ⟨body, bs, hp, hs⟩ := hb
        by_cases hl : bs.length = 32
        · obtain ⟨v, hv⟩ := bytesArr_isSome hl
          have : fieldFromHex s.toList = .ok (show arr32.denote from v) :=
            (C58_accepted_iff s.toList (show arr32.denote from v)).mpr ⟨body, hp, by
              rw [show arrBytes 32 (show arr32.denote from v) = bs from bytesArr_some hv]; exact hs⟩
          rw [this] at h; cases h
        · have := C58_wrong_length_fails s.toList body bs hp hs (by rw [spells_length hs]; omega)
          rw [this] at h
          cases h
          exact .inr ⟨rfl, .hex hp hs hl⟩
      · rw [C58_refused_partial _ hb] at h
        cases h; exact .inl rfl
    | base58Bin ver t =>
      simp only [Leaf.deText] at h
      split at h
      · cases h; exact .inl rfl
      · rename_i bs hd
        rcases strict_ne h with he | ⟨he, rfl⟩
        · exact .inl he
        · obtain ⟨h1, h2⟩ := decodeCheck_nil hd
          have e : s = String.ofList (encode58 (E.chk [])) := by rw [← h2, String.ofList_toList]
          rw [e]
          exact .inr ⟨he, .noBytes h1⟩
    | base58Bytes ver =>
      simp only [Leaf.deText] at h
      split at h
      · cases h; exact .inl rfl
      · rename_i hd
        cases h
        obtain ⟨h1, h2⟩ := decodeCheck_nil hd
        have e : s = String.ofList (encode58 (E.chk [])) := by rw [← h2, String.ofList_toList]
        rw [e]
        exact .inr ⟨rfl, .noContent h1⟩
      · cases h
    | memo | base64Bytes | vrfBase58 =>
      simp only [Leaf.deText] at h
      split at h
      · cases h; exact .inl rfl
      · cases h
    | base64Bin t =>
      simp only [Leaf.deText] at h
      split at h
      · cases h; exact .inl rfl
      · split at h
        · cases h
        · cases h; exact .inl rfl
    | publicKey =>
      simp only [Leaf.deText] at h
      split at h
      · cases h; exact .inl rfl
      · rename_i x odd hx
        obtain ⟨v, hv⟩ := bytesArr_isSome (fromAddress_length hx)
        rw [hv] at h
        cases h
  cases j with
  | str s => exact key s (by rw [← Leaf.de_str]; exact h)
  | num n =>
    by_cases hc : c = .i64
    · subst hc
      rw [Leaf.de_num] at h
      exact .inl (intOf_ne_panic h)
    · rw [Leaf.de_other E (fun _ => by simp) (fun e => absurd e hc)] at h
      exact .inl (Except.error.inj h).symm
  | null | bool _ | arr _ | obj _ | float _ =>
    rw [Leaf.de_other E (fun _ => by simp) (fun _ _ => by simp)] at h
    exact .inl (Except.error.inj h).symm

theorem letter_aborts (E : Env) : Leaf.char.deText E [] = .error .panic := by
  have e : BinProt.utf8 (String.ofList []) = [] := by decide +kernel
  simp only [Leaf.deText, e]

theorem leaf_aborts {E : Env} {c : Leaf} {j : J} (h : Aborting E (.leaf c) j) : c.de E j = .error .panic := by
  cases h with
  | hex hp hs hl =>
    rw [Leaf.de_str]
    exact C58_wrong_length_fails _ _ _ hp hs (by rw [spells_length hs]; omega)
  | letter => rw [Leaf.de_str]; exact letter_aborts E
  | whole hc h1 h2 =>
    rw [Leaf.de_str]
    simp only [Leaf.deText, Base.DecimalJson.deserialize, hc]
    rw [(overflow_iff _).mpr (.inl ⟨_, h1, h2⟩)]
  | amount hc h1 h2 h3 h4 =>
    rw [Leaf.de_str]
    simp only [Leaf.deText, Base.DecimalJson.deserialize, hc]
    rw [(overflow_iff _).mpr (.inr ⟨_, _, _, _, h1, h2, h3, h4⟩)]
  | noBytes h =>
    rw [Leaf.de_str]
    simp only [Leaf.deText, String.toList_ofList]
    rw [decodeCheck_nil' E.chk_length h]; rfl
  | noContent h =>
    rw [Leaf.de_str]
    simp only [Leaf.deText, String.toList_ofList]
    rw [decodeCheck_nil' E.chk_length h]

end MinaRs.Json
