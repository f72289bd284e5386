import Verif.Hash.AccountSpec
import Verif.Hash.Shape
/-!
# C53, C54, C65: the hash input of accounts
-/

namespace MinaRs.Hash

open Spec Chunked

/-! ## C53: permissions -/

theorem shape_auth (a : Auth) : Shape a.chunked 0 [1, 1, 1] :=
  Shape.cons (shape_bool _) (Shape.cons (shape_bool _) (Shape.cons (shape_bool _) Shape.nil))

theorem same_auth {a b : Auth} : Same a.chunked b.chunked ↔ mergeBoth a = mergeBoth b := by
  unfold Auth.chunked
  simp only [Same.consIff (shape_bool _) (shape_bool _), same_bool, Same.nil, and_true]
  cases a <;> cases b <;> decide

def permShape : List Nat := List.replicate 33 1

theorem shape_permissions (q : Permissions) : Shape q.chunked 0 permShape := by
  have := Shape.map (f := Auth.chunked) shape_auth (settings q)
  exact this

theorem same_auths : ∀ {l k : List Auth}, Same (build (l.map Auth.chunked)) (build (k.map Auth.chunked)) →
    l.length = k.length → l.map mergeBoth = k.map mergeBoth
  | [], [], _, _ => rfl
  | a :: l, b :: k, h, hl => by
    obtain ⟨h1, h2⟩ := Same.cons (shape_auth a) (shape_auth b) h
    simp only [List.map_cons, same_auth.1 h1, same_auths h2 (by simpa using hl)]

theorem auths_same : ∀ {l k : List Auth}, l.map mergeBoth = k.map mergeBoth →
    Same (build (l.map Auth.chunked)) (build (k.map Auth.chunked))
  | [], [], _ => Same.nil
  | [], b :: k, h => nomatch h
  | a :: l, [], h => nomatch h
  | a :: l, b :: k, h => by
    simp only [List.map_cons, List.cons.injEq] at h
    exact (Same.consIff (shape_auth a) (shape_auth b)).2 ⟨same_auth.2 h.1, auths_same h.2⟩

theorem same_permissions {a b : Permissions} : Same a.chunked b.chunked ↔
    (settings a).map mergeBoth = (settings b).map mergeBoth :=
  ⟨fun h => same_auths (l := settings a) (k := settings b) h rfl,
   fun h => auths_same (l := settings a) (k := settings b) h⟩

theorem permissions_ok (q : Permissions) : ∃ c, q.chunked = .ok c := by
  obtain ⟨c, h, _⟩ := same_permissions.2 (rfl : (settings q).map mergeBoth = _)
  exact ⟨c, h⟩

/-- Equal packed fields against equal inputs. -/
theorem pack_eq_iff {x y : M Chunked} {n : Nat} {ws : List Nat} (hx : Shape x n ws) (hy : Shape y n ws)
    (ox : ∃ c, x = .ok c) : packFields x = packFields y ↔ Same x y := by
  constructor
  · intro h
    obtain ⟨c, hc⟩ := ox
    obtain ⟨r, hr⟩ := hx.pack_ok hc
    exact hx.unpack hy hr (h ▸ hr)
  · rintro ⟨c, rfl, rfl⟩; rfl

/-- **C53.** Two permission records share their hash input exactly when they differ at most in `Both`
against `Proof`. -/
theorem C53_exact_partial (a b : Permissions) :
    packFields a.chunked = packFields b.chunked ↔
      (settings a).map mergeBoth = (settings b).map mergeBoth :=
  (pack_eq_iff (shape_permissions a) (shape_permissions b) (permissions_ok a)).trans same_permissions

theorem map_mergeBoth {l k : List Auth} (hl : .both ∉ l) (hk : .both ∉ k)
    (h : l.map mergeBoth = k.map mergeBoth) : l = k := by
  have e : ∀ {l : List Auth}, .both ∉ l → l.map mergeBoth = l := by
    intro l hl
    induction l with
    | nil => rfl
    | cons a l ih =>
      simp only [List.mem_cons, not_or] at hl
      rw [List.map_cons, ih hl.2, mergeBoth, if_neg (fun h => hl.1 h.symm)]
  rw [e hl, e hk] at h; exact h

theorem settings_inj {a b : Permissions} (h : settings a = settings b) : a = b := by
  cases a; cases b; simpa [settings] using h

/-- **C53.** Permission records without `Both` are told apart by their hash input. Missing: records
with `Both`. -/
theorem C53_distinguishes_partial (a b : Permissions) (ha : .both ∉ settings a) (hb : .both ∉ settings b)
    (h : packFields a.chunked = packFields b.chunked) : a = b :=
  settings_inj (map_mergeBoth ha hb ((C53_exact_partial a b).1 h))

/-- The same setting for everything. -/
def uniform (x : Auth) : Permissions := ⟨x, x, x, x, x, x, x, x, x, x, x⟩

example : Auth.both ∉ settings (uniform .signature) ∧ Auth.both ∉ settings (uniform .proof) := by decide

/-- **C53.** Permissions for some of whose actions a proof and a signature are needed have the same hash input as others, namely
as the permissions that need only a proof there. -/
theorem C53_proof_both_fails (a : Permissions) (h : Auth.both ∈ settings a) :
    ∃ b : Permissions, b ≠ a ∧ settings b = (settings a).map (fun x => if x = .both then .proof else x) ∧
      packFields b.chunked = packFields a.chunked := by
  let f : Auth → Auth := fun x => if x = .both then .proof else x
  refine ⟨⟨f a.editState, f a.send, f a.receive, f a.setDelegate, f a.setPermissions, f a.setVerificationKey, f a.setZkappUri,
    f a.editSequenceState, f a.setTokenSymbol, f a.incrementNonce, f a.setVotingFor⟩, ?_, rfl, (C53_exact_partial _ _).2 ?_⟩
  · intro he
    have : settings a = (settings a).map f := congrArg settings he.symm
    rw [this] at h
    obtain ⟨x, -, hx⟩ := List.mem_map.mp h
    cases x <;> simp [f] at hx
  · have : ∀ x, mergeBoth (f x) = mergeBoth x := by intro x; cases x <;> rfl
    simp only [settings, List.map_cons, List.map_nil, this]

example : ∃ b, b ≠ uniform .both ∧ packFields b.chunked = packFields (uniform .both).chunked :=
  let ⟨b, h1, _, h2⟩ := C53_proof_both_fails (uniform .both) (by decide)
  ⟨b, h1, h2⟩

/-! ## C54: timing -/

def timedShape : List Nat := [64, 32, 64, 32, 64]

theorem shape_timedData (d : TimedData) : Shape d.chunked 0 timedShape :=
  Shape.cons (shape_u64 _) (Shape.cons (shape_u32 _) (Shape.cons (shape_u64 _) (Shape.cons (shape_u32 _)
    (Shape.cons (shape_u64 _) Shape.nil))))

theorem toUInt32_inj {a b : UInt64} : a.toUInt32 = b.toUInt32 ↔ a.toNat % 2 ^ 32 = b.toNat % 2 ^ 32 := by
  rw [← UInt32.toNat_inj, UInt64.toNat_toUInt32, UInt64.toNat_toUInt32]

theorem same_timedData {d e : TimedData} : Same d.chunked e.chunked ↔ TimingAgree (.timed d) (.timed e) := by
  unfold TimedData.chunked TimingAgree
  simp only [Same.consIff (shape_u64 _) (shape_u64 _), Same.consIff (shape_u32 _) (shape_u32 _), same_u64,
    same_u32, Same.nil, and_true, toUInt32_inj]

theorem shape_timing (t : Timing) : Shape t.chunked 0 (1 :: timedShape) := by
  cases t with
  | untimed => exact Shape.cons (shape_piece (by decide) (by decide)) (Shape.cons (shape_timedData _) Shape.nil)
  | timed d => exact Shape.cons (shape_piece (by decide) (by decide)) (Shape.cons (shape_timedData _) Shape.nil)

theorem zero_one_piece : ¬ Same (.ok (piece 0 1)) (.ok (piece 1 1)) := by
  rintro ⟨c, h1, h2⟩
  exact absurd ((Except.ok.inj h1).trans (Except.ok.inj h2).symm) (by decide)

theorem same_timing {s t : Timing} : Same s.chunked t.chunked ↔ TimingAgree s t := by
  have s0 : Shape (.ok (piece 0 1)) 0 [1] := shape_piece (by decide) (by decide)
  have s1 : Shape (.ok (piece 1 1)) 0 [1] := shape_piece (by decide) (by decide)
  have refl : ∀ {c : Chunked}, Same (.ok c) (.ok c) := ⟨_, rfl, rfl⟩
  cases s with
  | untimed => cases t with
    | untimed =>
      refine ⟨fun _ => trivial, fun _ => ?_⟩
      simp only [Timing.chunked]
      exact (Same.consIff s0 s0).2 ⟨refl, (Same.consIff (shape_timedData _) (shape_timedData _)).2
        ⟨same_timedData.2 ⟨rfl, rfl, rfl, rfl, rfl⟩, Same.nil⟩⟩
    | timed e =>
      refine ⟨fun h => ?_, fun h => h.elim⟩
      exact zero_one_piece (Same.cons s0 s1 h).1
  | timed d => cases t with
    | untimed =>
      refine ⟨fun h => ?_, fun h => h.elim⟩
      exact zero_one_piece (Same.cons s1 s0 h).1.symm
    | timed e =>
      simp only [Timing.chunked]
      rw [Same.consIff s1 s1, Same.consIff (shape_timedData _) (shape_timedData _), same_timedData]
      simp [refl, Same.nil]

theorem timing_ok (t : Timing) : ∃ c, t.chunked = .ok c := by
  have : TimingAgree t t := by cases t <;> simp [TimingAgree]
  obtain ⟨c, h, _⟩ := same_timing.2 this
  exact ⟨c, h⟩

/-- **C54.** Two timings share their hash input exactly when they agree up to the high halves of the
cliff time and the vesting period; in particular an untimed account never shares it with a timed
one. -/
theorem C54_exact_partial (s t : Timing) :
    packFields s.chunked = packFields t.chunked ↔ TimingAgree s t :=
  (pack_eq_iff (shape_timing s) (shape_timing t) (timing_ok s)).trans same_timing

/-- **C54.** Vesting schedules with times below `2^32` are told apart by their hash input. Missing:
longer times. -/
theorem C54_distinguishes_partial (s t : Timing) (hs : Short s) (ht : Short t)
    (h : packFields s.chunked = packFields t.chunked) : s = t := by
  have := (C54_exact_partial s t).1 h
  cases s with
  | untimed => cases t with
    | untimed => rfl
    | timed e => exact this.elim
  | timed d => cases t with
    | untimed => exact this.elim
    | timed e =>
      obtain ⟨h1, h2, h3, h4, h5⟩ := this
      rw [Nat.mod_eq_of_lt hs.1, Nat.mod_eq_of_lt ht.1] at h2
      rw [Nat.mod_eq_of_lt hs.2, Nat.mod_eq_of_lt ht.2] at h4
      cases d; cases e
      simp_all [UInt64.toNat_inj]

example : Short (.timed ⟨5, 7, 3, 1, 0xffffffffffffffff⟩) := ⟨by decide, by decide⟩

/-- **C54.** Every timed account shares its hash input with one whose cliff comes `2^32` time units
later, and with one whose vesting period is as much longer: the times are cut to 32 bits. -/
theorem C54_time_fails (d : TimedData) (hd : d.cliffTime.toNat + 2 ^ 32 < 2 ^ 64) (hv : d.vestingPeriod.toNat + 2 ^ 32 < 2 ^ 64) :
    ∃ c v : UInt64, c.toNat = d.cliffTime.toNat + 2 ^ 32 ∧ v.toNat = d.vestingPeriod.toNat + 2 ^ 32 ∧
      packFields (Timing.timed { d with cliffTime := c }).chunked = packFields (Timing.timed d).chunked ∧
      packFields (Timing.timed { d with vestingPeriod := v }).chunked = packFields (Timing.timed d).chunked := by
  refine ⟨UInt64.ofNat (d.cliffTime.toNat + 2 ^ 32), UInt64.ofNat (d.vestingPeriod.toNat + 2 ^ 32),
    UInt64.toNat_ofNat_of_lt' hd, UInt64.toNat_ofNat_of_lt' hv, (C54_exact_partial _ _).2 ?_, (C54_exact_partial _ _).2 ?_⟩
  · refine ⟨rfl, ?_, rfl, rfl, rfl⟩
    show (UInt64.ofNat _).toNat % _ = _
    rw [UInt64.toNat_ofNat_of_lt' hd]; omega
  · refine ⟨rfl, rfl, rfl, ?_, rfl⟩
    show (UInt64.ofNat _).toNat % _ = _
    rw [UInt64.toNat_ofNat_of_lt' hv]; omega

example : ∃ c : UInt64, c.toNat = 7 + 2 ^ 32 ∧
    packFields (Timing.timed ⟨5, c, 3, 1, 2⟩).chunked = packFields (Timing.timed ⟨5, 7, 3, 1, 2⟩).chunked :=
  let ⟨c, _, h1, _, h2, _⟩ := C54_time_fails ⟨5, 7, 3, 1, 2⟩ (by decide) (by decide)
  ⟨c, h1, h2⟩

/-! ## C65: whole accounts -/

theorem leNat_zeros (l : Bytes) (n : Nat) : leNat (l ++ List.replicate n 0) = leNat l := by
  induction l with
  | nil => induction n with
    | zero => rfl
    | succ n ih => simp only [List.nil_append] at ih ⊢; simp [List.replicate_succ, leNat, ih]
  | cons b l ih => simp [leNat, ih]

theorem take6_length (s : B32) : (s.bytes.take 6).length = 6 := by simp [s.len]

theorem symbol_lt (s : B32) : leNat (s.bytes.take 6) < 2 ^ 48 := by
  have := leNat_lt (s.bytes.take 6)
  rw [take6_length] at this; exact this

theorem symbol_eq (s : B32) : symbolChunked s =
    .ok (piece ⟨leNat (s.bytes.take 6), lt_p_of_lt (Nat.lt_trans (symbol_lt s) (by decide))⟩ 48) := by
  unfold symbolChunked fpOfNat
  have := lt_p_of_lt (Nat.lt_trans (symbol_lt s) (by decide))
  simp only [leNat_zeros, this, dif_pos]
  rfl

theorem shape_symbol (s : B32) : Shape (symbolChunked s) 0 [48] := by
  rw [symbol_eq]; exact shape_piece (symbol_lt s) (by decide)

theorem same_symbol {s t : B32} : Same (symbolChunked s) (symbolChunked t) ↔ s.bytes.take 6 = t.bytes.take 6 := by
  constructor
  · rintro ⟨c, h1, h2⟩
    rw [symbol_eq] at h1 h2
    have := (Except.ok.inj h1).trans (Except.ok.inj h2).symm
    simp only [piece, mk.injEq, List.cons.injEq, Prod.mk.injEq, Fin.mk.injEq, and_true, true_and] at this
    exact leNat_inj (by rw [take6_length, take6_length]) this
  · intro h
    refine ⟨_, symbol_eq s, ?_⟩
    rw [symbol_eq]; simp only [h]

theorem tokenPermissions_eq (t : TokenPermissions) : t.chunked = .ok (piece
    (match t with
      | .notOwned false => 0 | .notOwned true => 2 | .tokenOwned false => 1 | .tokenOwned true => 3) 2) := by
  rcases t with (_ | _) | (_ | _) <;> decide +kernel

theorem shape_tokenPermissions (t : TokenPermissions) : Shape t.chunked 0 [2] := by
  rw [tokenPermissions_eq]
  refine shape_piece ?_ (by decide)
  rcases t with (_ | _) | (_ | _) <;> decide

theorem same_tokenPermissions {s t : TokenPermissions} : Same s.chunked t.chunked ↔ s = t := by
  constructor
  · rintro ⟨c, h1, h2⟩
    rw [tokenPermissions_eq] at h1 h2
    have := (Except.ok.inj h1).trans (Except.ok.inj h2).symm
    revert this
    rcases s with (_ | _) | (_ | _) <;> rcases t with (_ | _) | (_ | _) <;> decide
  · rintro rfl; exact ⟨_, tokenPermissions_eq s, tokenPermissions_eq s⟩

theorem shape_zkApp (H : String → List Fp → Fp) (z : Option Unit) : Shape (zkAppOptChunked H z) 1 [] := by
  intro c h
  unfold zkAppOptChunked at h
  cases e : hashChunked H "CodaZkappAccount" zkAppChunked with
  | error x => rw [e] at h; exact nomatch h
  | ok f => rw [e] at h; exact shape_field f c h

theorem shape_zkAppUri (H : String → List Fp → Fp) (z : Option Unit) : Shape (zkAppUriOptChunked H z) 1 [] := by
  intro c h
  unfold zkAppUriOptChunked at h
  cases e : hashChunked H "MinaZkappUri" zkAppUriChunked with
  | error x => rw [e] at h; exact nomatch h
  | ok f => rw [e] at h; exact shape_field f c h

theorem same_zkApp (H : String → List Fp → Fp) (z w : Option Unit) : Same (zkAppOptChunked H z) (zkAppOptChunked H w) := by
  have : ∃ r, packFields zkAppChunked = .ok r := ⟨_, by
    show packFields zkAppChunked = .ok [zkFp1, zkFp1, zkFp1, zkFp1, zkFp1, zkFp2, 0, 0, 0, 0, 0, 0, 0, 0, 0]
    decide +kernel⟩
  obtain ⟨r, hr⟩ := this
  refine ⟨field (H "CodaZkappAccount" r), ?_, ?_⟩ <;>
  · unfold zkAppOptChunked hashChunked
    unfold packFields at hr
    simp only [bind, Except.bind, pure, Except.pure] at hr ⊢
    simp only [zkAppChunked] at hr ⊢
    rw [hr]

theorem same_zkAppUri (H : String → List Fp → Fp) (z w : Option Unit) :
    Same (zkAppUriOptChunked H z) (zkAppUriOptChunked H w) := by
  have : packFields zkAppUriChunked = .ok [1] := by decide +kernel
  refine ⟨field (H "MinaZkappUri" [1]), ?_, ?_⟩ <;>
  · unfold zkAppUriOptChunked hashChunked
    unfold packFields at this
    simp only [bind, Except.bind, pure, Except.pure] at this ⊢
    simp only [zkAppUriChunked] at this ⊢
    rw [this]

def accountWidths : List Nat := permShape ++ (1 :: timedShape) ++ [1, 32, 64, 48, 2, 1]

theorem shape_account (H : String → List Fp → Fp) (a : Account) : Shape (a.chunked H) 7 accountWidths :=
  Shape.cons (shape_zkAppUri H _) <| Shape.cons (shape_zkApp H _) <| Shape.cons (shape_permissions _) <|
  Shape.cons (shape_timing _) <| Shape.cons (shape_b32 _) <| Shape.cons (shape_pubKey _) <|
  Shape.cons (shape_b32 _) <| Shape.cons (shape_u32 _) <| Shape.cons (shape_u64 _) <|
  Shape.cons (shape_symbol _) <| Shape.cons (shape_tokenPermissions _) <| Shape.cons (shape_tokenId _) <|
  Shape.cons (shape_pubKey _) Shape.nil

theorem same_b32_iff {a b : B32} : Same a.chunked b.chunked ↔ IsField a ∧ a = b := by
  constructor
  · intro h
    refine ⟨?_, same_b32 h⟩
    obtain ⟨c, h1, _⟩ := h
    obtain ⟨f, hf, _⟩ := b32_chunked_eq_ok.1 h1
    unfold IsField; rw [← hf]; exact f.isLt
  · rintro ⟨h, rfl⟩
    have := b32_chunked_eq_ok.2 ⟨⟨_, h⟩, rfl, rfl⟩
    exact ⟨_, this, this⟩

theorem same_pubKey_iff {a b : PubKey} : Same a.chunked b.chunked ↔ a = b := by
  refine ⟨same_pubKey, ?_⟩
  rintro rfl
  unfold PubKey.chunked
  exact (Same.consIff (shape_field _) (shape_field _)).2 ⟨⟨_, rfl, rfl⟩,
    (Same.consIff (shape_bool _) (shape_bool _)).2 ⟨same_bool.2 rfl, Same.nil⟩⟩

theorem same_tokenId_iff {a b : UInt64} : Same (tokenIdChunked a) (tokenIdChunked b) ↔ a = b :=
  ⟨same_tokenId, by rintro rfl; exact ⟨_, rfl, rfl⟩⟩

theorem same_account (H : String → List Fp → Fp) {a b : Account} :
    Same (a.chunked H) (b.chunked H) ↔ (IsField a.votingFor ∧ IsField a.receiptChainHash) ∧ Agree a b := by
  unfold Account.chunked
  simp only [Same.consIff (shape_zkAppUri H _) (shape_zkAppUri H _), Same.consIff (shape_zkApp H _) (shape_zkApp H _),
    Same.consIff (shape_permissions _) (shape_permissions _), Same.consIff (shape_timing _) (shape_timing _),
    Same.consIff (shape_b32 _) (shape_b32 _), Same.consIff (shape_u32 _) (shape_u32 _),
    Same.consIff (shape_u64 _) (shape_u64 _), Same.consIff (shape_symbol _) (shape_symbol _),
    Same.consIff (shape_tokenPermissions _) (shape_tokenPermissions _),
    Same.consIff (shape_tokenId _) (shape_tokenId _), Same.consIff (shape_pubKey _) (shape_pubKey _),
    PubKey.optChunked, same_zkApp, same_zkAppUri, same_permissions, same_timing, same_b32_iff, same_pubKey_iff,
    same_u32, same_u64, same_symbol, same_tokenPermissions, same_tokenId_iff, Same.nil, and_true, true_and,
    PubKey.empty]
  constructor
  · rintro ⟨h1, h2, ⟨h3, h4⟩, h5, ⟨h6, h7⟩, h8, h9, h10, h11, h12, h13⟩
    exact ⟨⟨h3, h6⟩, ⟨h13, h12, h9, h11, h10, h8, h7, h5, h4, h2, h1⟩⟩
  · rintro ⟨⟨h3, h6⟩, h⟩
    exact ⟨h.permissions, h.timing, ⟨h3, h.votingFor⟩, h.delegate, ⟨h6, h.receiptChainHash⟩, h.nonce, h.balance,
      h.tokenSymbol, h.tokenPermissions, h.tokenId, h.publicKey⟩

/-- **C65.** Hashing an account never panics exactly when its two hashes are encodings of field
elements. -/
theorem C65_no_panic_iff (H : String → List Fp → Fp) (a : Account) :
    (∃ r, packFields (a.chunked H) = .ok r) ↔ IsField a.votingFor ∧ IsField a.receiptChainHash := by
  have hrefl : Agree a a := by
    refine ⟨rfl, rfl, rfl, rfl, rfl, rfl, rfl, rfl, rfl, ?_, rfl⟩
    cases a.timing <;> simp [TimingAgree]
  constructor
  · rintro ⟨r, hr⟩
    cases e : a.chunked H with
    | error x => rw [e] at hr; exact nomatch hr
    | ok c => exact ((same_account H).1 ⟨c, e, e⟩).1
  · intro h
    obtain ⟨c, hc, _⟩ := (same_account H).2 ⟨h, hrefl⟩
    exact (shape_account H a).pack_ok hc

/-- **C65.** Exactly which accounts share a hash input. -/
theorem C65_exact_partial (H : String → List Fp → Fp) (a b : Account)
    (ha : IsField a.votingFor ∧ IsField a.receiptChainHash) :
    packFields (a.chunked H) = packFields (b.chunked H) ↔ Agree a b := by
  have hok : ∃ c, a.chunked H = .ok c := by
    obtain ⟨r, hr⟩ := (C65_no_panic_iff H a).2 ha
    cases e : a.chunked H with
    | error x => rw [e] at hr; exact nomatch hr
    | ok c => exact ⟨c, rfl⟩
  rw [pack_eq_iff (shape_account H a) (shape_account H b) hok, same_account]
  simp [ha]

theorem symbol_ext {s t : B32} (h : s.bytes.take 6 = t.bytes.take 6)
    (hs : s.bytes.drop 6 = t.bytes.drop 6) : s = t := by
  have : s.bytes = t.bytes := by rw [← List.take_append_drop 6 s.bytes, h, hs, List.take_append_drop]
  cases s; cases t; simp_all

/-- **C65.** Accounts as the API makes them are told apart by their hash input. Missing: accounts with
zkapp data, with long token symbols, with `Both` permissions, with times from `2^32` on or delegated
to the empty key. -/
theorem C65_distinguishes_partial (H : String → List Fp → Fp) (a b : Account) (ha : Plain a) (hb : Plain b)
    (r : List Fp) (h1 : packFields (a.chunked H) = .ok r) (h2 : packFields (b.chunked H) = .ok r) : a = b := by
  have h := (C65_exact_partial H a b ((C65_no_panic_iff H a).1 ⟨r, h1⟩)).1 (h1.trans h2.symm)
  have hd : a.delegate = b.delegate := by
    have := h.delegate
    have h3 := ha.delegate
    have h4 := hb.delegate
    cases e : a.delegate <;> cases f : b.delegate <;> simp_all
  have hs := symbol_ext h.tokenSymbol (ha.symbol.trans hb.symbol.symm)
  have ht := C54_distinguishes_partial _ _ ha.timing hb.timing ((C54_exact_partial _ _).2 h.timing)
  have hp := settings_inj (map_mergeBoth ha.permissions hb.permissions h.permissions)
  have hz := ha.zkapp.trans hb.zkapp.symm
  have hu := ha.zkappUri.trans hb.zkappUri.symm
  have := h.publicKey; have := h.tokenId; have := h.balance; have := h.tokenPermissions; have := h.nonce
  have := h.receiptChainHash; have := h.votingFor
  cases a; cases b; simp_all

/-- The account hash is Poseidon of the packed fields: accounts with different hash inputs share a
hash only if Poseidon collides on these inputs. -/
theorem C65_hash (H : String → List Fp → Fp) (a b : Account) (ha : Plain a) (hb : Plain b) (fa fb : List Fp)
    (h1 : packFields (a.chunked H) = .ok fa) (h2 : packFields (b.chunked H) = .ok fb)
    (hH : H "CodaAccount" fa = H "CodaAccount" fb → fa = fb) :
    a.hash H = b.hash H ↔ a = b := by
  have e : ∀ {a : Account} {f : List Fp}, packFields (a.chunked H) = .ok f → a.hash H = .ok (H "CodaAccount" f) := by
    intro a f h
    unfold Account.hash hashChunked
    unfold packFields at h
    cases e : a.chunked H with
    | error x => rw [e] at h; exact nomatch h
    | ok c => rw [e] at h; simp only [bind, Except.bind] at h ⊢; rw [h]; rfl
  rw [e h1, e h2]
  constructor
  · intro h
    have := hH (Except.ok.inj h)
    exact C65_distinguishes_partial H a b ha hb fa h1 (this ▸ h2)
  · rintro rfl; rw [Except.ok.inj (h1.symm.trans h2)]

def zero32 : B32 := ⟨List.replicate 32 0, by decide⟩
def ones32 : B32 := ⟨List.replicate 32 255, by decide⟩

/-- A plain account. -/
def plainAccount : Account :=
  ⟨⟨5, true⟩, 1, 1000, .notOwned false, zero32, 3, zero32, some ⟨5, true⟩, zero32,
    .timed ⟨10, 20, 30, 40, 50⟩, uniform .signature, none, none⟩

example : Plain plainAccount ∧ IsField plainAccount.votingFor ∧ IsField plainAccount.receiptChainHash :=
  ⟨⟨by decide, ⟨by decide, by decide⟩, by decide, by decide, rfl, rfl⟩, by unfold IsField; decide, by unfold IsField; decide⟩

/-- **C65.** An account without delegate shares its hash input with the one delegated to the empty
key; bytes of the token symbol after the sixth and the presence of zkapp data are not hashed. -/
theorem C65_delegate_fails (H : String → List Fp → Fp) :
    let a := { plainAccount with delegate := none }
    let b := { plainAccount with delegate := some ⟨0, false⟩ }
    a ≠ b ∧ packFields (a.chunked H) = packFields (b.chunked H) :=
  ⟨by decide, (C65_exact_partial H _ _ ⟨by unfold IsField; decide, by unfold IsField; decide⟩).2
    ⟨rfl, rfl, rfl, rfl, rfl, rfl, rfl, rfl, rfl, ⟨rfl, rfl, rfl, rfl, rfl⟩, rfl⟩⟩

theorem C65_symbol_fails (H : String → List Fp → Fp) :
    let a := plainAccount
    let b := { plainAccount with tokenSymbol := ⟨List.replicate 6 0 ++ List.replicate 26 65, by decide⟩ }
    a ≠ b ∧ packFields (a.chunked H) = packFields (b.chunked H) :=
  ⟨by decide, (C65_exact_partial H _ _ ⟨by unfold IsField; decide, by unfold IsField; decide⟩).2
    ⟨rfl, rfl, rfl, rfl, by decide, rfl, rfl, rfl, rfl, ⟨rfl, rfl, rfl, rfl, rfl⟩, rfl⟩⟩

theorem C65_zkapp_fails (H : String → List Fp → Fp) :
    let a := plainAccount
    let b := { plainAccount with zkapp := some () }
    a ≠ b ∧ packFields (a.chunked H) = packFields (b.chunked H) :=
  ⟨by decide, (C65_exact_partial H _ _ ⟨by unfold IsField; decide, by unfold IsField; decide⟩).2
    ⟨rfl, rfl, rfl, rfl, rfl, rfl, rfl, rfl, rfl, ⟨rfl, rfl, rfl, rfl, rfl⟩, rfl⟩⟩

/-- **C65.** An account with a hash that is not the encoding of a field element makes hashing panic. -/
theorem C65_panic_fails (H : String → List Fp → Fp) :
    packFields (Account.chunked H { plainAccount with votingFor := ones32 }) = .error .badFieldBytes := by
  have h := mt (C65_no_panic_iff H { plainAccount with votingFor := ones32 }).1
    (by rintro ⟨h, _⟩; exact absurd h (by unfold IsField; decide))
  obtain ⟨c1, u1, _⟩ := same_zkAppUri H none none
  obtain ⟨c2, u2, _⟩ := same_zkApp H none none
  obtain ⟨c3, u3⟩ := permissions_ok (uniform .signature)
  obtain ⟨c4, u4⟩ := timing_ok (.timed ⟨10, 20, 30, 40, 50⟩)
  have u5 : ones32.chunked = .error .badFieldBytes := by decide +kernel
  unfold packFields Account.chunked
  simp only [plainAccount, build, u1, u2, u3, u4, u5, bind, Except.bind]

end MinaRs.Hash
