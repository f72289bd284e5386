import Verif.Account.Lemmas
import Verif.Json.HexVec

/-! Accounts read from and written to a ledger database (C90). -/

namespace MinaRs.Account

open Block (BTy BTys fields items plain)
open Block.Spec (Form FormAll FormVar AnyVersion Version1 InMemory InMemoryAll InMemoryVar Small SmallAll SmallVar Canonical
  setVersions Ordinary)
open BinProt (IntKind NoReadErrors REv Err)
open BinProt.Spec (Wire)
open Json (u8s)
open Spec

theorem account_ordinary : Ordinary account = true := by decide +kernel
theorem legacy_ordinary : Ordinary accountLegacy = true := by decide +kernel

/-! ## Sizes -/

mutual
/-- No lists. -/
def flat : BTy → Bool
  | .bytes => false
  | .seq _ => false
  | .option t => flat t
  | .newtype t => flat t
  | .tuple ts => flatAll ts
  | .struct ts => flatAll ts
  | .versioned t => flat t
  | .enum vs => flatAll vs
  | .polyvar vs => flatAll vs
  | _ => true
def flatAll : BTys → Bool
  | .nil => true
  | .cons _ t ts => flat t && flatAll ts
end

mutual
theorem inMemory_of_flat : (t : BTy) → flat t = true → (b : t.base) → InMemory t b
  | .unit, _, _ => trivial
  | .bool, _, _ => trivial
  | .u8, _, _ => trivial
  | .int _, _, _ => trivial
  | .ext32, _, _ => trivial
  | .bytes32, _, _ => trivial
  | .bytes, h, _ => (nomatch (show false = true from h))
  | .key, _, _ => trivial
  | .sig, _, _ => trivial
  | .option t, h, _ => fun w _ => inMemory_of_flat t h w
  | .newtype t, h, b => inMemory_of_flat t h b
  | .seq _, h, _ => (nomatch (show false = true from h))
  | .tuple ts, h, b => inMemoryAll_of_flat ts h b
  | .struct ts, h, b => inMemoryAll_of_flat ts h b
  | .versioned t, h, b => inMemory_of_flat t h b
  | .enum vs, h, b => inMemoryVar_of_flat vs h b
  | .polyvar vs, h, b => inMemoryVar_of_flat vs h b
theorem inMemoryAll_of_flat : (ts : BTys) → flatAll ts = true → (b : ts.prod) → InMemoryAll ts b
  | .nil, _, _ => trivial
  | .cons _ t ts, h, b => by
    simp only [flatAll, Bool.and_eq_true] at h
    exact ⟨inMemory_of_flat t h.1 _, inMemoryAll_of_flat ts h.2 _⟩
theorem inMemoryVar_of_flat : (vs : BTys) → flatAll vs = true → (b : vs.sum) → InMemoryVar vs b
  | .nil, _, _ => trivial
  | .cons _ t ts, h, b => by
    simp only [flatAll, Bool.and_eq_true] at h
    obtain w | w : t.base ⊕ ts.sum := b
    · exact inMemory_of_flat t h.1 w
    · exact inMemoryVar_of_flat ts h.2 w
end

theorem account_inMemory (b : account.base) : InMemory account b := inMemory_of_flat account (by decide +kernel) b
theorem legacy_inMemory (b : accountLegacy.base) : InMemory accountLegacy b := inMemory_of_flat accountLegacy (by decide +kernel) b

theorem small_u64 (n : UInt64) : Small (.int .u64) (ofU64 n) ↔ n.toNat < 2 ^ 63 := by
  constructor
  · intro h
    have h : (n.toNat : Int) < 2 ^ 63 := h rfl
    omega
  · intro h _
    show (n.toNat : Int) < 2 ^ 63
    omega

theorem small_u32 (n : UInt32) : Small (.int .u32) (ofU32 n) := fun h => (nomatch h)

theorem small_auth (a : Hash.Auth) : Small auth (authParts a) := by cases a <;> trivial
theorem small_token (a : Hash.TokenPermissions) : Small tokenPermissions (tokenParts a) := by
  cases a
  · exact ⟨trivial, trivial⟩
  · exact ⟨trivial, trivial⟩

theorem small_timing (a : Hash.Timing) : Small timing (timingParts a) ↔ SmallTiming a := by
  cases a with
  | untimed => exact ⟨fun _ => trivial, fun _ => trivial⟩
  | timed d =>
    constructor
    · rintro ⟨h1, h2, h3, h4, h5, _⟩
      exact ⟨(small_u64 _).mp h1, (small_u64 _).mp h2, (small_u64 _).mp h3, (small_u64 _).mp h4, (small_u64 _).mp h5⟩
    · rintro ⟨h1, h2, h3, h4, h5⟩
      exact ⟨(small_u64 _).mpr h1, (small_u64 _).mpr h2, (small_u64 _).mpr h3, (small_u64 _).mpr h4, (small_u64 _).mpr h5, trivial⟩

theorem small_timingV1 (a : Hash.Timing) : Small timingV1 (timingV1Parts a) ↔ SmallTiming a := by
  cases a with
  | untimed => exact ⟨fun _ => trivial, fun _ => trivial⟩
  | timed d =>
    constructor
    · rintro ⟨h1, h2, h3, h4, h5, _⟩
      exact ⟨(small_u64 _).mp h1, (small_u64 _).mp h2, (small_u64 _).mp h3, (small_u64 _).mp h5, (small_u64 _).mp h4⟩
    · rintro ⟨h1, h2, h3, h4, h5⟩
      exact ⟨(small_u64 _).mpr h1, (small_u64 _).mpr h2, (small_u64 _).mpr h3, (small_u64 _).mpr h5, (small_u64 _).mpr h4, trivial⟩

theorem small_permissions (q : Hash.Permissions) : Small permissions (permissionsParts q) :=
  ⟨small_auth _, small_auth _, small_auth _, small_auth _, small_auth _, small_auth _, small_auth _, small_auth _,
    small_auth _, small_auth _, small_auth _, trivial⟩

theorem small_legacyPermissions (q : Hash.PermissionsLegacy) : Small permissionsLegacy (legacyPermissionsParts q) :=
  ⟨trivial, small_auth _, small_auth _, small_auth _, small_auth _, small_auth _, small_auth _, trivial⟩

theorem small_account (a : Hash.Account) : Small account (parts a) ↔ SmallAccount a := by
  constructor
  · rintro ⟨_, h1, _, _, h2, _, _, _, _, h3, _⟩
    exact ⟨(small_u64 _).mp h1, (small_u64 _).mp h2, (small_timing _).mp h3⟩
  · rintro ⟨h1, h2, h3⟩
    exact ⟨trivial, (small_u64 _).mpr h1, small_token _, trivial, (small_u64 _).mpr h2, small_u32 _, trivial,
      fun _ _ => trivial, trivial, (small_timing _).mpr h3, small_permissions _, fun _ _ => trivial, fun _ _ => trivial, trivial⟩

theorem small_legacy (a : Hash.AccountLegacy) : Small accountLegacy (legacyParts a) ↔ SmallLegacy a := by
  constructor
  · rintro ⟨_, h1, _, h2, _, _, _, _, h3, _⟩
    exact ⟨(small_u64 _).mp h1, (small_u64 _).mp h2, (small_timingV1 _).mp h3⟩
  · rintro ⟨h1, h2, h3⟩
    exact ⟨trivial, (small_u64 _).mpr h1, small_token _, (small_u64 _).mpr h2, small_u32 _, trivial,
      fun _ _ => trivial, trivial, (small_timingV1 _).mpr h3, small_legacyPermissions _, fun _ _ => trivial, trivial⟩

/-! ## Accounts -/

/-- **C90 (the bytes).** Writing an account gives its fields one after the other, in the layout of the
database, when its 64-bit numbers are below 2^63. -/
theorem C90_written_layout_partial (a : Hash.Account) (h : SmallAccount a) : accountLayout a (writeAccount a) :=
  (form_account a _).mp (Block.codec_written_form account account_ordinary (parts a) (account_inMemory _) ((small_account a).mpr h))

/-- **C90 (reading).** Bytes laid out as an account are read as that account, however they arrive; and
whatever is read as an account starts with bytes laid out as that account. -/
theorem C90_reads_layout (a : Hash.Account) (data : Bytes) (sched : List REv) (hs : NoReadErrors sched) :
    (accountLayout a data → readAccount ⟨data, sched⟩ = .ok a) ∧
    (readAccount ⟨data, sched⟩ = .ok a → ∃ enc r, data = enc ++ r ∧ accountLayout a enc) := by
  constructor
  · intro h
    unfold readAccount
    rw [Block.codec_reads_forms account account_ordinary data (parts a) ((form_account a data).mpr h) sched hs]
    exact congrArg Except.ok (ofParts_parts a)
  · intro h
    unfold readAccount at h
    cases hr : Block.tryFromBinprot account ⟨data, sched⟩ with
    | error e => rw [hr] at h; cases h
    | ok b =>
      rw [hr] at h
      have hb : b = parts a := by rw [← parts_ofParts b]; exact congrArg parts (Except.ok.inj h)
      rw [hb] at hr
      obtain ⟨enc, r, he, hf⟩ := Block.codec_read_is_form account account_ordinary data _ sched hs hr
      exact ⟨enc, r, he, (form_account a enc).mp hf⟩

/-- **C90 (writing then reading).** An account whose 64-bit numbers are below 2^63 is read back unchanged;
any other account is written as bytes that are rejected. -/
theorem C90_write_then_read_partial (a : Hash.Account) (sched : List REv) (hs : NoReadErrors sched) :
    (SmallAccount a → readAccount ⟨writeAccount a, sched⟩ = .ok a) ∧
    (¬ SmallAccount a → readAccount ⟨writeAccount a, sched⟩ = .error .destinationIntegerOverflow) := by
  obtain ⟨h1, h2⟩ := Block.codec_write_then_read account account_ordinary (parts a) (account_inMemory _) sched hs
  refine ⟨fun h => ((C90_reads_layout a _ sched hs).1 (C90_written_layout_partial a h)), fun h => ?_⟩
  unfold readAccount writeAccount
  rw [h2 (fun h' => h ((small_account a).mp h'))]
  rfl

/-- **C90.** Two accounts are never laid out as the same bytes, nor one as the beginning of the other. -/
theorem C90_layout_unambiguous (a b : Hash.Account) (enc enc' r r' : Bytes) (ha : accountLayout a enc) (hb : accountLayout b enc')
    (h : enc ++ r = enc' ++ r') : a = b ∧ enc = enc' := by
  obtain ⟨v, hv, ev⟩ := (Block.form_iff account enc (parts a)).mp ((form_account a enc).mpr ha)
  obtain ⟨w, hw, ew⟩ := (Block.form_iff account enc' (parts b)).mp ((form_account b enc').mpr hb)
  have hwf := Block.wf_of_ordinary account account_ordinary
  have d1 := (BinProt.C09_accepts_exactly_wire_forms account.wire hwf (enc ++ r) v r).mpr ⟨enc, rfl, hv⟩
  have d2 := (BinProt.C09_accepts_exactly_wire_forms account.wire hwf (enc ++ r) w r').mpr ⟨enc', h, hw⟩
  rw [d1] at d2
  obtain ⟨rfl, rfl⟩ := Prod.mk.inj (Except.ok.inj d2)
  rw [ev] at ew
  refine ⟨?_, List.append_cancel_right h⟩
  rw [← ofParts_parts a, ← ofParts_parts b]
  exact congrArg ofParts (Except.ok.inj ew)

/-- **C90 (reading anything).** Whatever the bytes, reading them gives an error value, or an account laid out
at their start, or aborts the process; and it aborts only when they start with a wire form of an account in
which a key is not a field element. -/
theorem C90_outcomes_partial (data : Bytes) (sched : List REv) (hs : NoReadErrors sched) :
    (∃ e, (∀ m, e ≠ .panic m) ∧ readAccount ⟨data, sched⟩ = .error e) ∨
    (∃ a enc r, readAccount ⟨data, sched⟩ = .ok a ∧ data = enc ++ r ∧ accountLayout a enc) ∨
    (∃ m enc r v, readAccount ⟨data, sched⟩ = .error (.panic m) ∧ data = enc ++ r ∧ Wire account.wire enc v ∧
      ¬ Canonical account v) := by
  rcases Block.codec_outcomes account account_ordinary data sched hs with ⟨e, h1, h2⟩ | ⟨b, enc, r, v, h1, h2, h3, h4, h5⟩ |
    ⟨m, enc, r, v, h1, h2, h3, h4⟩
  · exact .inl ⟨e, h1, by unfold readAccount; rw [h2]; rfl⟩
  · have hr : readAccount ⟨data, sched⟩ = .ok (ofParts b) := by unfold readAccount; rw [h1]; rfl
    obtain ⟨enc', r', h6, h7⟩ := (C90_reads_layout (ofParts b) data sched hs).2 hr
    exact .inr (.inl ⟨_, enc', r', hr, h6, h7⟩)
  · exact .inr (.inr ⟨m, enc, r, v, by unfold readAccount; rw [h1]; rfl, h2, h3, h4⟩)

/-! ## Accounts of the older format -/

/-- **C90 (the bytes, older format).** Every version number is written as 1. -/
theorem C90_legacy_written_layout_partial (a : Hash.AccountLegacy) (h : SmallLegacy a) :
    legacyLayout version1 a (writeLegacy a) :=
  (form_legacy a _).mp (Block.codec_written_form accountLegacy legacy_ordinary (legacyParts a) (legacy_inMemory _)
    ((small_legacy a).mpr h))

/-- What is written is in particular something that is read, whatever the version numbers. -/
theorem written_legacyLayout (a : Hash.AccountLegacy) (h : SmallLegacy a) : legacyLayout anyVersion a (writeLegacy a) :=
  (form_legacy a _).mp (Block.written_form accountLegacy legacy_ordinary (legacyParts a)
    ((Block.fits_iff accountLegacy legacy_ordinary _).mpr ⟨legacy_inMemory _, (small_legacy a).mpr h⟩))

/-- **C90 (reading, older format).** Any version numbers are accepted and none is kept. -/
theorem C90_legacy_reads_layout (a : Hash.AccountLegacy) (data : Bytes) (sched : List REv) (hs : NoReadErrors sched) :
    (legacyLayout anyVersion a data → readLegacy ⟨data, sched⟩ = .ok a) ∧
    (readLegacy ⟨data, sched⟩ = .ok a → ∃ enc r, data = enc ++ r ∧ legacyLayout anyVersion a enc) := by
  constructor
  · intro h
    unfold readLegacy
    rw [Block.codec_reads_forms accountLegacy legacy_ordinary data (legacyParts a) ((form_legacy a data).mpr h) sched hs]
    exact congrArg Except.ok (ofLegacyParts_parts a)
  · intro h
    unfold readLegacy at h
    cases hr : Block.tryFromBinprot accountLegacy ⟨data, sched⟩ with
    | error e => rw [hr] at h; cases h
    | ok b =>
      rw [hr] at h
      have hb : b = legacyParts a := by rw [← legacyParts_of b]; exact congrArg legacyParts (Except.ok.inj h)
      rw [hb] at hr
      obtain ⟨enc, r, he, hf⟩ := Block.codec_read_is_form accountLegacy legacy_ordinary data _ sched hs hr
      exact ⟨enc, r, he, (form_legacy a enc).mp hf⟩

/-- **C90 (writing then reading, older format).** -/
theorem C90_legacy_write_then_read_partial (a : Hash.AccountLegacy) (sched : List REv) (hs : NoReadErrors sched) :
    (SmallLegacy a → readLegacy ⟨writeLegacy a, sched⟩ = .ok a) ∧
    (¬ SmallLegacy a → readLegacy ⟨writeLegacy a, sched⟩ = .error .destinationIntegerOverflow) := by
  obtain ⟨h1, h2⟩ := Block.codec_write_then_read accountLegacy legacy_ordinary (legacyParts a) (legacy_inMemory _) sched hs
  refine ⟨fun h => ?_, fun h => ?_⟩
  · unfold readLegacy writeLegacy
    rw [h1 ((small_legacy a).mpr h)]
    exact congrArg Except.ok (ofLegacyParts_parts a)
  · unfold readLegacy writeLegacy
    rw [h2 (fun h' => h ((small_legacy a).mp h'))]
    rfl

/-- **C90 (reading anything, older format).** -/
theorem C90_legacy_outcomes_partial (data : Bytes) (sched : List REv) (hs : NoReadErrors sched) :
    (∃ e, (∀ m, e ≠ .panic m) ∧ readLegacy ⟨data, sched⟩ = .error e) ∨
    (∃ a enc r, readLegacy ⟨data, sched⟩ = .ok a ∧ data = enc ++ r ∧ legacyLayout anyVersion a enc) ∨
    (∃ m enc r v, readLegacy ⟨data, sched⟩ = .error (.panic m) ∧ data = enc ++ r ∧ Wire accountLegacy.wire enc v ∧
      ¬ Canonical accountLegacy v) := by
  rcases Block.codec_outcomes accountLegacy legacy_ordinary data sched hs with ⟨e, h1, h2⟩ | ⟨b, enc, r, v, h1, h2, h3, h4, h5⟩ |
    ⟨m, enc, r, v, h1, h2, h3, h4⟩
  · exact .inl ⟨e, h1, by unfold readLegacy; rw [h2]; rfl⟩
  · have hr : readLegacy ⟨data, sched⟩ = .ok (ofLegacyParts b) := by unfold readLegacy; rw [h1]; rfl
    obtain ⟨enc', r', h6, h7⟩ := (C90_legacy_reads_layout (ofLegacyParts b) data sched hs).2 hr
    exact .inr (.inl ⟨_, enc', r', hr, h6, h7⟩)
  · exact .inr (.inr ⟨m, enc, r, v, by unfold readLegacy; rw [h1]; rfl, h2, h3, h4⟩)

/-! ## Examples -/

/-- A hash. -/
def sampleHash (n : Nat) : Hash.B32 := ⟨leBytes 32 n, leBytes_length 32 n⟩

/-- An account that vests. -/
def sampleAccount : Hash.Account where
  publicKey := ⟨77, true⟩
  tokenId := 1
  balance := 10230000000000
  tokenPermissions := .tokenOwned true
  tokenSymbol := sampleHash 65
  nonce := 4000000000
  receiptChainHash := sampleHash 123456789
  delegate := some ⟨78, false⟩
  votingFor := sampleHash 0
  timing := .timed ⟨10230000000000, 86400, 10230000000000, 1, 0⟩
  permissions := ⟨.signature, .signature, .none, .signature, .signature, .signature, .proof, .either, .both, .impossible, .none⟩
  zkapp := some ()
  zkappUri := none

example : SmallAccount sampleAccount ∧ accountLayout sampleAccount (writeAccount sampleAccount) :=
  ⟨by decide, C90_written_layout_partial _ (by decide)⟩

/-- `ACCOUNT_BYTE_EXAMPLES[0]` of `protocol/serialization-types/tests/account.rs:12-24` -/
def storedAccount : Bytes :=
  [1, 1, 1, 1, 1, 1, 177, 63, 90, 166, 173, 124, 98, 72, 60, 89, 250, 36, 135, 129, 70, 43,
   220, 220, 252, 37, 84, 12, 158, 57, 33, 162, 137, 244, 135, 244, 18, 7, 0, 1, 1, 1, 1, 1,
   1, 0, 1, 1, 1, 252, 0, 122, 84, 142, 78, 9, 0, 0, 1, 1, 0, 1, 11, 20, 60, 6, 69, 73, 122,
   89, 135, 167, 184, 143, 102, 52, 14, 3, 219, 148, 63, 10, 13, 244, 139, 105, 163, 168, 41,
   33, 206, 151, 177, 10, 1, 1, 1, 178, 63, 90, 166, 173, 124, 98, 72, 60, 89, 250, 36, 135,
   129, 70, 43, 220, 220, 252, 37, 84, 12, 158, 57, 33, 162, 137, 244, 135, 244, 18, 7, 0, 1,
   0, 0, 0, 0, 0, 0, 0, 0, 0, 0, 0, 0, 0, 0, 0, 0, 0, 0, 0, 0, 0, 0, 0, 0, 0, 0, 0, 0, 0, 0,
   0, 0, 1, 1, 1, 1, 1, 1, 252, 0, 122, 84, 142, 78, 9, 0, 0, 1, 1, 253, 128, 81, 1, 0, 1, 1,
   252, 0, 122, 84, 142, 78, 9, 0, 0, 1, 1, 1, 1, 1, 0, 1, 1, 1, 1, 3, 1, 3, 1, 0, 1, 3, 1, 3,
   1, 3, 0]

/-- The account the repository's example holds. -/
def storedAccountValue : Hash.AccountLegacy where
  publicKey := ⟨Fin.ofNat Hash.p (leNat ((storedAccount.drop 6).take 32)), false⟩
  tokenId := 1
  tokenPermissions := .notOwned true
  balance := 10233000000000
  nonce := 0
  receiptChainHash := sampleHash (leNat ((storedAccount.drop 62).take 32))
  delegate := some ⟨Fin.ofNat Hash.p (leNat ((storedAccount.drop 97).take 32)), false⟩
  votingFor := sampleHash 0
  timing := .timed { initialMinimumBalance := 10233000000000, cliffTime := 86400, cliffAmount := 10233000000000,
                     vestingPeriod := 0, vestingIncrement := 1 }
  permissions := ⟨true, .signature, .signature, .none, .signature, .signature, .signature⟩
  snapp := none

/-- The example bytes of the repository are what the model writes for this account, and reads as it. -/
example : SmallLegacy storedAccountValue ∧ writeLegacy storedAccountValue = storedAccount := by decide +kernel

/-- `ACCOUNT_BYTE_EXAMPLES[1]` of `protocol/serialization-types/tests/account.rs:25-35` -/
def storedAccount2 : Bytes :=
  [1, 1, 1, 1, 1, 1, 15, 72, 198, 91, 210, 95, 133, 243, 228, 234, 78, 254, 190, 183, 91, 121,
   123, 215, 67, 96, 59, 224, 75, 78, 173, 132, 86, 152, 183, 107, 211, 49, 0, 1, 1, 1, 1, 1,
   1, 0, 1, 1, 1, 254, 232, 3, 1, 1, 0, 1, 11, 20, 60, 6, 69, 73, 122, 89, 135, 167, 184, 143,
   102, 52, 14, 3, 219, 148, 63, 10, 13, 244, 139, 105, 163, 168, 41, 33, 206, 151, 177, 10,
   1, 1, 1, 15, 72, 198, 91, 210, 95, 133, 243, 228, 234, 78, 254, 190, 183, 91, 121, 123,
   215, 67, 96, 59, 224, 75, 78, 173, 132, 86, 152, 183, 107, 211, 49, 0, 1, 0, 0, 0, 0, 0, 0,
   0, 0, 0, 0, 0, 0, 0, 0, 0, 0, 0, 0, 0, 0, 0, 0, 0, 0, 0, 0, 0, 0, 0, 0, 0, 0, 1, 1, 0, 1,
   1, 1, 1, 3, 1, 3, 1, 0, 1, 3, 1, 3, 1, 3, 0]

/-- The account the repository's second example holds. -/
def storedAccountValue2 : Hash.AccountLegacy where
  publicKey := ⟨Fin.ofNat Hash.p (leNat ((storedAccount2.drop 6).take 32)), false⟩
  tokenId := 1
  tokenPermissions := .notOwned true
  balance := 1000
  nonce := 0
  receiptChainHash := sampleHash (leNat ((storedAccount2.drop 56).take 32))
  delegate := some ⟨Fin.ofNat Hash.p (leNat ((storedAccount2.drop 6).take 32)), false⟩
  votingFor := sampleHash 0
  timing := .untimed
  permissions := ⟨true, .signature, .signature, .none, .signature, .signature, .signature⟩
  snapp := none

example : SmallLegacy storedAccountValue2 ∧ writeLegacy storedAccountValue2 = storedAccount2 := by decide +kernel

/-! ## What goes wrong -/

/-- **C90** is false of the code: every account with a balance of 2^63 or more is written as bytes that cannot be read. -/
theorem C90_big_balance_fails (a : Hash.Account) (h : 2 ^ 63 ≤ a.balance.toNat) :
    readAccount ⟨writeAccount a, []⟩ = .error .destinationIntegerOverflow :=
  (C90_write_then_read_partial _ [] (by simp [NoReadErrors])).2 (fun hs => absurd hs.2.1 (by omega))

example : readAccount ⟨writeAccount { sampleAccount with balance := 0x8000000000000000 }, []⟩ = .error .destinationIntegerOverflow :=
  C90_big_balance_fails _ (by decide)

/-- The bytes of an account whose key is the order of the field. -/
def badKeyBytes : Bytes := leBytes 32 Hash.p ++ (writeAccount sampleAccount).drop 32

/-- The reading ends in a panic. -/
def aborts {A : Type} : Except Err A → Bool
  | .error (.panic _) => true
  | _ => false

/-- **C90** is false of the code: reading an entry of the database can abort the process. -/
theorem C90_reading_never_aborts_fails : ∃ data m, readAccount ⟨data, []⟩ = .error (.panic m) := by
  have h : aborts (readAccount ⟨badKeyBytes, []⟩) = true := by decide +kernel
  refine ⟨badKeyBytes, ?_⟩
  revert h
  cases readAccount ⟨badKeyBytes, []⟩ with
  | ok a => intro h; cases h
  | error e =>
    cases e with
    | panic m => exact fun _ => ⟨m, rfl⟩
    | _ => intro h; cases h

/-- A record that starts with a key, with another key. -/
theorem other_key (name : String) (ts : BTys) (enc : Bytes) (v : (BTy.struct (.cons name .key ts)).wire.denote)
    (h : Wire (BTy.struct (.cons name .key ts)).wire enc v) (key : Bytes) (hk : key.length = 32) (hp : Hash.p ≤ leNat key) :
    ∃ w, Wire (BTy.struct (.cons name .key ts)).wire (key ++ enc.drop 32) w ∧ ¬ Canonical (.struct (.cons name .key ts)) w := by
  obtain ⟨k, hk'⟩ := Json.exists_arr hk
  obtain ⟨⟨x, odd, u⟩, rest⟩ : ((Json.u8s 32).prod × Bool × Unit) × ts.wire.prod := v
  refine ⟨(((k, odd, u) : (Json.u8s 32).prod × Bool × Unit), rest), ?_, ?_⟩
  · obtain ⟨e1, e2, rfl, ⟨a1, a2, rfl, ha1, ha2⟩, h2⟩ := h
    have hx := (Block.wire_arr32 a1 x).mp ha1
    have hlen : a1.length = 32 := by rw [hx]; exact Json.arrBytes_length 32 x
    refine ⟨key ++ a2, e2, ?_, ⟨key, a2, rfl, (Block.wire_arr32 key k).mpr hk'.symm, ha2⟩, h2⟩
    rw [List.append_assoc, List.append_assoc, List.drop_append_of_le_length (by omega), List.drop_of_length_le (by omega)]
    rfl
  · intro hc
    have h1 : leNat (Json.arrBytes 32 k) < Hash.p := hc.1
    rw [hk'] at h1
    omega

/-- **C90** is false of the code at every account: with 32 bytes that stand for no field element in place of its key, the bytes the node wrote
abort the process that reads them, however they arrive. -/
theorem C90_other_key_aborts_fails (a : Hash.Account) (ha : SmallAccount a) (key : Bytes) (hk : key.length = 32) (hp : Hash.p ≤ leNat key)
    (sched : List REv) (hs : NoReadErrors sched) :
    ∃ m, readAccount ⟨key ++ (writeAccount a).drop 32, sched⟩ = .error (.panic m) := by
  have hf := (Block.fits_iff account account_ordinary (parts a)).mpr ⟨account_inMemory _, (small_account a).mpr ha⟩
  have hw := Block.codec_wire_toBytes account account_ordinary (Block.toWire account (parts a)) hf
  obtain ⟨w, h1, h2⟩ := other_key _ _ _ _ hw key hk hp
  obtain ⟨m, h3⟩ := (Block.codec_accepts_iff_canonical account account_ordinary _ w h1 sched hs).2 h2
  refine ⟨m, ?_⟩
  unfold readAccount writeAccount Block.tryIntoBinprot
  rw [h3]
  rfl

example : SmallAccount sampleAccount ∧ (leBytes 32 Hash.p).length = 32 ∧ Hash.p ≤ leNat (leBytes 32 Hash.p) := by decide +kernel

/-- **C90** is false of the code: in the older format the vesting increment comes before the vesting period, in
the newer one (and in the order the node itself lists them, `base/src/account/timing.rs:20-31`) the other way
round.  The repository's example account, whose numbers are 1 and then 0, is read as one that releases 1 every
0 slots. -/
theorem C90_example_vesting_fails :
    ∃ a d, readLegacy ⟨storedAccount, []⟩ = .ok a ∧ a.timing = .timed d ∧ d.vestingPeriod = 0 ∧ d.vestingIncrement = 1 := by
  have h1 := (C90_legacy_write_then_read_partial storedAccountValue [] (by simp [NoReadErrors])).1 (by decide)
  rw [show writeLegacy storedAccountValue = storedAccount by decide +kernel] at h1
  exact ⟨storedAccountValue, _, h1, rfl, rfl, rfl⟩

end MinaRs.Account
