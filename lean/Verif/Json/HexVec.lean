import Verif.Json.TextProps

/-!
# C93: vectors of field elements in hexadecimal

`FieldElementVec` of the base crate (`base/src/protocol_state_proof/field_and_curve_elements.rs:18-50`).  Its text is
bytes (`AsRef<[u8]>`); a character of the model stands for one byte.
-/

namespace MinaRs.Json

open Codec Spec
open Text (Text)

/-! ## Model -/

/-- `to_hex_string` of `BigInt256` (`base/src/numbers.rs:291-296`): the digits without prefix. -/
def bigToHex (v : arr32.denote) : Text := hexEncode (arrBytes 32 v)

/-- `to_hex_string` (`base/src/protocol_state_proof/field_and_curve_elements.rs:25-31`): the elements one after another. -/
def hexVec : List arr32.denote → Text
  | [] => []
  | v :: vs => bigToHex v ++ hexVec vs

/-- `s.chunks(n)` of the standard library, for `n > 0` (`field_and_curve_elements.rs:40`). -/
def chunks (n : Nat) (h : 0 < n) (s : Text) : List Text :=
  match s with
  | [] => []
  | a :: s => (a :: s).take n :: chunks n h ((a :: s).drop n)
termination_by s.length
decreasing_by simp only [List.length_drop, List.length_cons]; omega

/-- The loop over the chunks (`field_and_curve_elements.rs:40-42`): the first failure ends it. -/
def readChunks : List Text → Except JErr (List arr32.denote)
  | [] => .ok []
  | c :: cs =>
    match fieldFromHex c with
    | .error e => .error e
    | .ok v =>
      match readChunks cs with
      | .error e => .error e
      | .ok vs => .ok (v :: vs)

/-- `try_from_hex` (`field_and_curve_elements.rs:33-45`, `base/src/numbers.rs:298-301`); the capacity of the vector is
not observable. -/
def vecFromHex (s : Text) : Except JErr (List arr32.denote) := readChunks (chunks 64 (by decide) (skipPrefix s))

/-! ## Lemmas -/

theorem spells_append {s s' : Text} {bs bs' : Bytes} (h : Spells s bs) (h' : Spells s' bs') : Spells (s ++ s') (bs ++ bs') := by
  induction h with
  | nil => exact h'
  | cons ha hb _ ih => exact .cons ha hb ih

/-- A hexadecimal text can be cut after every byte. -/
theorem spells_split : (n : Nat) → {s : Text} → {bs : Bytes} → Spells s bs →
    Spells (s.take (2 * n)) (bs.take n) ∧ Spells (s.drop (2 * n)) (bs.drop n)
  | 0, _, _, h => ⟨.nil, h⟩
  | n + 1, _, _, .nil => ⟨by simp only [List.take_nil]; exact .nil, by simp only [List.drop_nil]; exact .nil⟩
  | n + 1, _, _, .cons ha hb h => by
    obtain ⟨h1, h2⟩ := spells_split n h
    rw [show 2 * (n + 1) = 2 * n + 1 + 1 by omega]
    simp only [List.take_succ_cons, List.drop_succ_cons]
    exact ⟨.cons ha hb h1, h2⟩

theorem chunks_nil (n : Nat) (h : 0 < n) : chunks n h [] = [] := by rw [chunks]

theorem chunks_cons (n : Nat) (h : 0 < n) (s : Text) (hs : s ≠ []) : chunks n h s = s.take n :: chunks n h (s.drop n) := by
  cases s with
  | nil => exact absurd rfl hs
  | cons a s => rw [chunks]

/-- A bare element is accepted exactly when it is spelled out: a prefix does not fit in 64 characters. -/
theorem bare_accepted (c : Text) (v : arr32.denote) (hl : c.length ≤ 64) (h : fieldFromHex c = .ok v) :
    Spells c (arrBytes 32 v) := by
  obtain ⟨body, hp, hs⟩ := (C58_accepted_iff c v).mp h
  have hb : body.length = 64 := by
    rw [spells_length hs, show (arrBytes 32 v).length = 32 from arrBytes_length 32 v]
  rcases hp with rfl | rfl | rfl
  · exact hs
  · simp only [List.length_cons, hb] at hl; omega
  · simp only [List.length_cons, hb] at hl; omega

/-! ## Specification -/

/-- The bytes of the elements, one element after another. -/
def Spec.allBytes (vs : List arr32.denote) : Bytes := vs.flatMap (arrBytes 32)

/-! ## C93 -/

theorem readChunks_ok (s : Text) (vs : List arr32.denote) (h : readChunks (chunks 64 (by decide) s) = .ok vs) :
    Spells s (allBytes vs) := by
  by_cases hs : s = []
  · subst hs
    rw [chunks_nil] at h
    cases h
    exact .nil
  · rw [chunks_cons _ _ _ hs, readChunks] at h
    cases e : fieldFromHex (s.take 64) with
    | error e' => rw [e] at h; cases h
    | ok v =>
      rw [e] at h
      cases e2 : readChunks (chunks 64 (by decide) (s.drop 64)) with
      | error e' => simp only [e2] at h; cases h
      | ok ws =>
        simp only [e2] at h
        cases h
        have := spells_append (bare_accepted _ v (by rw [List.length_take]; omega) e) (readChunks_ok (s.drop 64) ws e2)
        rw [List.take_append_drop] at this
        exact this
termination_by s.length
decreasing_by
  cases s with
  | nil => exact absurd rfl hs
  | cons a s => simp only [List.length_drop, List.length_cons]; omega

theorem readChunks_spelled : (vs : List arr32.denote) → (s : Text) → Spells s (allBytes vs) →
    readChunks (chunks 64 (by decide) s) = .ok vs
  | [], s, h => by
    have : s = [] := List.length_eq_zero_iff.mp (by rw [spells_length h]; rfl)
    rw [this, chunks_nil]; rfl
  | v :: vs, s, h => by
    have hl : (arrBytes 32 v).length = 32 := arrBytes_length 32 v
    have e : allBytes (v :: vs) = arrBytes 32 v ++ allBytes vs := List.flatMap_cons
    rw [e] at h
    have hs : s ≠ [] := fun hn => by
      subst hn
      have := spells_length h
      simp only [List.length_nil, List.length_append, hl] at this
      omega
    obtain ⟨h1, h2⟩ := spells_split 32 h
    rw [List.take_left' hl] at h1
    rw [List.drop_left' hl] at h2
    rw [chunks_cons _ _ _ hs, readChunks, (C58_accepted_iff _ v).mpr ⟨_, .inl rfl, h1⟩]
    simp only [readChunks_spelled vs _ h2]

theorem hexVec_spells : (vs : List arr32.denote) → Spells (hexVec vs) (allBytes vs)
  | [] => .nil
  | v :: vs => by
    have e : allBytes (v :: vs) = arrBytes 32 v ++ allBytes vs := List.flatMap_cons
    rw [e]
    exact spells_append ((hexDecode_ok_iff _ _).mp (hexDecode_encode _)) (hexVec_spells vs)

/-- **C93 (what is read).** A text is read as a vector exactly when, bare or after one prefix, it spells the bytes of the
elements one after another. -/
theorem C93_accepted_iff (s : Text) (vs : List arr32.denote) :
    vecFromHex s = .ok vs ↔ ∃ body, Prefixed s body ∧ Spells body (allBytes vs) := by
  constructor
  · intro h
    exact ⟨_, skipPrefix_prefixed s, readChunks_ok _ _ h⟩
  · rintro ⟨body, hp, hs⟩
    unfold vecFromHex
    rw [skipPrefix_of_prefixed hp hs]
    exact readChunks_spelled vs body hs

/-- **C93 (round trip).** The text of a vector spells its bytes and is read as the same vector. -/
theorem C93_roundtrip (vs : List arr32.denote) : Spells (hexVec vs) (allBytes vs) ∧ vecFromHex (hexVec vs) = .ok vs :=
  ⟨hexVec_spells vs, (C93_accepted_iff _ _).mpr ⟨_, .inl rfl, hexVec_spells vs⟩⟩

/-- **C93 (text determines the vector).** -/
theorem C93_injective (vs ws : List arr32.denote) (h : hexVec vs = hexVec ws) : vs = ws := by
  have h1 := (C93_roundtrip vs).2
  rw [h, (C93_roundtrip ws).2] at h1
  exact (Except.ok.inj h1).symm

/-- **C93 (refusals).** Proved: whatever does not spell a whole number of elements is not read.
Missing: that it is refused with an error, see `C93_ragged_fails`. -/
theorem C93_refused_partial (s : Text) (h : ¬ ∃ body bs, Prefixed s body ∧ Spells body bs ∧ bs.length % 32 = 0) :
    ∃ e, vecFromHex s = .error e := by
  cases e : vecFromHex s with
  | error e' => exact ⟨e', rfl⟩
  | ok vs =>
    obtain ⟨body, hp, hs⟩ := (C93_accepted_iff s vs).mp e
    refine absurd ⟨body, _, hp, hs, ?_⟩ h
    clear hs e
    induction vs with
    | nil => rfl
    | cons v vs ih =>
      have e : allBytes (v :: vs) = arrBytes 32 v ++ allBytes vs := List.flatMap_cons
      rw [e, List.length_append, show (arrBytes 32 v).length = 32 from arrBytes_length 32 v]
      omega

theorem exists_arr {bs : Bytes} (h : bs.length = 32) : ∃ v : arr32.denote, arrBytes 32 v = bs := by
  have : ∀ (n : Nat) (bs : Bytes), bs.length = n → ∃ v : (u8s n).prod, arrBytes n v = bs := by
    intro n
    induction n with
    | zero => intro bs h; exact ⟨(), (List.length_eq_zero_iff.mp h).symm⟩
    | succ n ih =>
      intro bs h
      cases bs with
      | nil => cases h
      | cons b bs =>
        obtain ⟨w, hw⟩ := ih bs (by simpa using h)
        exact ⟨((b, w) : UInt8 × (u8s n).prod), congrArg (b :: ·) hw⟩
  exact this 32 bs h

/-- **C93 (every whole number of elements is read).** -/
theorem C93_reads (s body : Text) (bs : Bytes) (hp : Prefixed s body) (hs : Spells body bs) (hl : bs.length % 32 = 0) :
    ∃ vs, vecFromHex s = .ok vs ∧ allBytes vs = bs := by
  have : ∀ (n : Nat) (bs : Bytes), bs.length = 32 * n → ∃ vs, allBytes vs = bs := by
    intro n
    induction n with
    | zero => intro bs h; exact ⟨[], (List.length_eq_zero_iff.mp h).symm⟩
    | succ n ih =>
      intro bs h
      obtain ⟨v, hv⟩ := exists_arr (bs := bs.take 32) (by rw [List.length_take]; omega)
      obtain ⟨vs, hvs⟩ := ih (bs.drop 32) (by rw [List.length_drop]; omega)
      refine ⟨v :: vs, ?_⟩
      have e : allBytes (v :: vs) = arrBytes 32 v ++ allBytes vs := List.flatMap_cons
      rw [e, hv, hvs, List.take_append_drop]
  obtain ⟨vs, hvs⟩ := this (bs.length / 32) bs (by omega)
  exact ⟨vs, (C93_accepted_iff s vs).mpr ⟨body, hp, hvs ▸ hs⟩, hvs⟩

theorem ragged (body : Text) (bs : Bytes) (hs : Spells body bs) (hl : bs.length % 32 ≠ 0) :
    readChunks (chunks 64 (by decide) body) = .error .panic := by
  have hb := spells_length hs
  have hne : body ≠ [] := fun h => by subst h; simp only [List.length_nil] at hb; omega
  obtain ⟨h1, h2⟩ := spells_split 32 hs
  rw [chunks_cons _ _ _ hne, readChunks]
  by_cases hlt : bs.length < 32
  · rw [C58_wrong_length_fails _ _ _ (.inl rfl) h1 (by rw [List.length_take]; omega)]
  · obtain ⟨v, hv⟩ := exists_arr (bs := bs.take 32) (by rw [List.length_take]; omega)
    rw [(C58_accepted_iff _ v).mpr ⟨_, .inl rfl, hv ▸ h1⟩]
    simp only
    rw [show 2 * 32 = 64 from rfl] at h2
    rw [ragged (body.drop 64) (bs.drop 32) h2 (by rw [List.length_drop]; omega)]
termination_by body.length
decreasing_by rw [List.length_drop]; omega

/-- **C93 fails** for every hexadecimal text that is not a whole number of elements: the process aborts. -/
theorem C93_ragged_fails (s body : Text) (bs : Bytes) (hp : Prefixed s body) (hs : Spells body bs) (hl : bs.length % 32 ≠ 0) :
    vecFromHex s = .error .panic := by
  unfold vecFromHex
  rw [skipPrefix_of_prefixed hp hs]
  exact ragged body bs hs hl

/-! ## Examples -/

/-- Two elements, with a prefix; and a text of a single byte. -/
example : (∃ vs, vecFromHex ('0' :: 'x' :: List.replicate 128 'A') = .ok vs ∧ allBytes vs = List.replicate 64 170) ∧
    vecFromHex ['0', 'x', '0', '7'] = .error .panic := by
  refine ⟨C93_reads _ _ _ (.inr (.inl rfl)) ?_ (by decide), C93_ragged_fails _ ['0', '7'] [7] (.inr (.inl rfl)) ?_ (by decide)⟩
  · exact (hexDecode_ok_iff _ _).mp (by decide +kernel)
  · exact (hexDecode_ok_iff _ _).mp (by decide +kernel)

/-- Text that is not hexadecimal is an instance of the refusals. -/
example : ¬ ∃ body bs, Prefixed ['z'] body ∧ Spells body bs ∧ bs.length % 32 = 0 := by
  rintro ⟨body, bs, hp, hs, -⟩
  rcases hp with h | h | h
  · subst h; have := spells_length hs; simp only [List.length_cons, List.length_nil] at this; omega
  · cases h
  · cases h

end MinaRs.Json
