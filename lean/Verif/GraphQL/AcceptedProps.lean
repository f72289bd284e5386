import Verif.GraphQL.AcceptedLemmas
import Verif.GraphQL.Props

/-!
# What the import accepts (C55, C73, C74, C75)

For every document, the import gives a value exactly if the document can be read as that value; any other
document is refused.
-/

namespace MinaRs.GraphQL

open Json (J JErr Env)
open Text (Text)
open Hash
open Spec

theorem flag_iff (v : J) (b : Bool) : flag v = b ↔ ReadsFlag v b := by
  unfold ReadsFlag
  cases v with
  | bool c => cases b <;> cases c <;> simp [flag]
  | _ => cases b <;> simp [flag]

theorem auth_iff (v : J) (a : Auth) : auth (str v) = .ok a ↔ ReadsAuth v a := by
  constructor
  · intro h
    have hs := auth_ok h
    obtain ⟨s, rfl, he⟩ := str_eq_of_ne (v := v) (by rw [hs]; cases a <;> decide)
    rw [he] at hs
    exact congrArg J.str (String.toList_inj.mp hs)
  · intro h
    rw [show v = .str (authName a) from h]
    exact auth_name a

/-- **C55.** Permissions are imported exactly if ten keys name them and the eleventh agrees with the
permission to edit the state. -/
theorem C55_accepted_iff (j : J) (q : Permissions) : permissions j = .ok q ↔ ReadsPermissions j q := by
  constructor
  · intro h
    obtain ⟨h1, h2, h3, h4, h5, h6, h7, h8, h9, h10, h11⟩ := C55_accepted j q h
    exact ⟨h1, h2, h3, h4, h5, h6, h7, h8, h9, h11, h10⟩
  · intro h
    obtain ⟨_, _, _, _, _, _, _, _, _, _, _⟩ := q
    have hi := h.incrementNonce
    simp only at hi
    subst hi
    simp only [permissions, (auth_iff _ _).mpr h.editState, (auth_iff _ _).mpr h.send, (auth_iff _ _).mpr h.receive,
      (auth_iff _ _).mpr h.setDelegate, (auth_iff _ _).mpr h.setPermissions, (auth_iff _ _).mpr h.setVerificationKey,
      (auth_iff _ _).mpr h.setZkappUri, (auth_iff _ _).mpr h.editSequenceState, (auth_iff _ _).mpr h.setTokenSymbol,
      (auth_iff _ _).mpr h.setVotingFor, bind, Except.bind]

example (q : Permissions) (h : q.incrementNonce = q.editState) : ReadsPermissions (permissionsDoc q) q :=
  (C55_accepted_iff _ _).mp ((C55_faithful_iff _ q (says_permissionsDoc q)).mpr h)

theorem timedData_iff (j : J) (d : TimedData) : timedData j = .ok d ↔ ReadsTimed j d := by
  constructor
  · intro h
    simp only [timedData, bind, Except.bind] at h
    repeat' split at h
    all_goals first | cases h | skip
    rename_i _ _ h1 _ _ h2 _ _ h3 _ _ h4 _ _ h5
    exact ⟨(u64_iff _ _).mp h1, (u64_iff _ _).mp h2, (u64_iff _ _).mp h3, (u64_iff _ _).mp h4, (u64_iff _ _).mp h5⟩
  · intro h
    simp only [timedData, (u64_iff _ _).mpr h.initialMinimumBalance, (u64_iff _ _).mpr h.cliffTime,
      (u64_iff _ _).mpr h.cliffAmount, (u64_iff _ _).mpr h.vestingPeriod, (u64_iff _ _).mpr h.vestingIncrement, bind,
      Except.bind]

/-- **C74.** Every document is imported: as a schedule exactly if all five parts of it can be read, and
otherwise as unrestricted. -/
theorem C74_accepted_iff (j : J) (t : Timing) : timing j = .ok t ↔ ReadsTiming j t := by
  unfold timing
  cases hd : timedData j with
  | ok d =>
    have hr := (timedData_iff j d).mp hd
    cases t with
    | timed d' =>
      simp only [ReadsTiming]
      constructor
      · intro h; cases h; exact hr
      · intro h
        rw [(timedData_iff j d').mpr h] at hd
        cases hd
        rfl
    | untimed =>
      simp only [ReadsTiming]
      constructor
      · intro h; cases h
      · intro h; exact absurd hr (h d)
  | error e =>
    have hr : ∀ d, ¬ ReadsTimed j d := by
      intro d h
      rw [(timedData_iff j d).mpr h] at hd
      cases hd
    cases t with
    | timed d' =>
      constructor
      · intro h; cases h
      · intro h; exact absurd h (hr d')
    | untimed => exact ⟨fun _ => hr, fun _ => rfl⟩

/-- **C75.** A document is imported as an account exactly if every part can be read as that of the account:
with an unreadable key, delegate, number, hash or permission it is refused. -/
theorem C75_accepted_iff (E : Env) (j : J) (a : Account) : account E j = .ok a ↔ ReadsAccount E j a := by
  constructor
  · intro h
    simp only [account, bind, Except.bind] at h
    repeat' split at h
    all_goals first | cases h | skip
    all_goals
      rename_i _ _ h1 _ _ h2 _ _ h3 _ _ h4 _ _ h5 _ _ h6 _ _ h7 _ _ h8 _ _ h9 hf
      refine ⟨(pubKey_iff _ _ _).mp h1, (u64_iff _ _).mp h2, (u64_iff _ _).mp h3, (u32_iff _ _).mp h4,
        (hash_iff _ _ _ _).mp h5, (delegate_iff _ _ _).mp h6, (hash_iff _ _ _ _).mp h7, (C74_accepted_iff _ _).mp h8,
        (C55_accepted_iff _ _).mp h9, (flag_iff _ _).mp ?_, (flag_iff _ _).mp ?_, rfl, rfl, rfl⟩
    all_goals simp [ownsToken, isDisabled, hf]
  · intro h
    obtain ⟨publicKey, tokenId, balance, tokenPermissions, ⟨sym, hsym⟩, nonce, receiptChainHash, delegate, votingFor, tm,
      perms, zkapp, zkappUri⟩ := a
    obtain ⟨h1, h2, h3, h4, h5, h6, h7, h8, h9, h10, h11, h12, h13, h14⟩ := h
    simp only at h12 h13 h14
    subst h12 h13 h14
    have hp : (if flag (index j "isTokenOwner") = true then TokenPermissions.tokenOwned (flag (index j "isDisabled"))
        else .notOwned (flag (index j "isDisabled"))) = tokenPermissions := by
      rw [(flag_iff _ _).mpr h10, (flag_iff _ _).mpr h11]
      cases tokenPermissions <;> rfl
    simp only [account, (pubKey_iff _ _ _).mpr h1, (u64_iff _ _).mpr h2, (u64_iff _ _).mpr h3, (u32_iff _ _).mpr h4,
      (hash_iff _ _ _ _).mpr h5, (delegate_iff _ _ _).mpr h6, (hash_iff _ _ _ _).mpr h7, (C74_accepted_iff _ _).mpr h8,
      (C55_accepted_iff _ _).mpr h9, hp, bind, Except.bind]
    rfl

example (E : Env) (a : Account) : ReadsAccount E (accountDoc E a) (importedAccount a) :=
  (C75_accepted_iff E _ _).mp (C75_import_partial E _ a (says_accountDoc E a))

/-- **C75.** A document whose delegate is a text that is no address is refused. -/
theorem C75_delegate_refused (E : Env) (j : J) (s : String) (h : index j "delegate" = .str s)
    (hs : ∀ k, ¬ ReadsKey E (.str s) k) (a : Account) : account E j ≠ .ok a := by
  intro ha
  have hd := ((C75_accepted_iff E j a).mp ha).delegate
  rw [h] at hd
  match hm : a.delegate with
  | none => rw [hm] at hd; exact hd s rfl
  | some k => rw [hm] at hd; exact hs k hd

/-- The empty text is no address. -/
example (E : Env) (k : PubKey) : ¬ ReadsKey E (.str "") k := by
  intro h
  rw [← pubKey_iff] at h
  cases h

theorem epochLedger_iff (E : Env) (j : J) (l : EpochLedger) : epochLedger E j = .ok l ↔
    ReadsHash E 0x05 (index j "hash") l.hash ∧ ReadsNumber (index j "totalCurrency") l.totalCurrency.toNat := by
  constructor
  · intro h
    simp only [epochLedger, bind, Except.bind] at h
    repeat' split at h
    all_goals first | cases h | skip
    rename_i _ _ h1 _ _ h2
    exact ⟨(hash_iff _ _ _ _).mp h1, (u64_iff _ _).mp h2⟩
  · rintro ⟨h1, h2⟩
    simp only [epochLedger, (hash_iff _ _ _ _).mpr h1, (u64_iff _ _).mpr h2, bind, Except.bind]

theorem epochData_iff (E : Env) (j : J) (e : EpochData) : epochData E j = .ok e ↔ ReadsEpoch E j e := by
  constructor
  · intro h
    simp only [epochData, bind, Except.bind] at h
    repeat' split at h
    all_goals first | cases h | skip
    rename_i _ _ h1 _ _ h2 _ _ h3 _ _ h4 _ _ h5
    obtain ⟨h6, h7⟩ := (epochLedger_iff _ _ _).mp h1
    exact ⟨h6, h7, (hash_iff _ _ _ _).mp h2, (hash_iff _ _ _ _).mp h3, (hash_iff _ _ _ _).mp h4, (u32_iff _ _).mp h5⟩
  · rintro ⟨h1, h2, h3, h4, h5, h6⟩
    simp only [epochData, (epochLedger_iff _ _ _).mpr ⟨h1, h2⟩, (hash_iff _ _ _ _).mpr h3, (hash_iff _ _ _ _).mpr h4,
      (hash_iff _ _ _ _).mpr h5, (u32_iff _ _).mpr h6, bind, Except.bind]

theorem consensusState_iff (E : Env) (hE : (E.chk []).head? ≠ some 0x15) (j : J) (c : ConsensusState) :
    consensusState E j = .ok c ↔ ReadsConsensus E j c := by
  constructor
  · intro h
    simp only [consensusState, bind, Except.bind] at h
    repeat' split at h
    all_goals first | cases h | skip
    rename_i _ _ h1 _ _ h2 _ _ h3 _ _ h4 _ _ h5 _ _ h6 _ _ h7 _ _ h8 _ _ h9 _ _ h10 _ _ h11 _ _ h12
    exact ⟨(u32_iff _ _).mp h1, (u32_iff _ _).mp h2, (u32_iff _ _).mp h3, rfl, (vrf_iff E hE _ _).mp h4,
      (u64_iff _ _).mp h5, (u32_iff _ _).mp h6, rfl, (u32_iff _ _).mp h7, (epochData_iff _ _ _).mp h8,
      (epochData_iff _ _ _).mp h9, (flag_iff _ _).mp rfl, (pubKey_iff _ _ _).mp h10, (pubKey_iff _ _ _).mp h11,
      (pubKey_iff _ _ _).mp h12, (flag_iff _ _).mp rfl⟩
  · intro h
    obtain ⟨h1, h2, h3, h4, h5, h6, h7, h8, h9, h10, h11, h12, h13, h14, h15, h16⟩ := h
    simp only [consensusState, (u32_iff _ _).mpr h1, (u32_iff _ _).mpr h2, (u32_iff _ _).mpr h3, ← h4,
      (vrf_iff E hE _ _).mpr h5, (u64_iff _ _).mpr h6, (u32_iff _ _).mpr h7, ← h8, (u32_iff _ _).mpr h9,
      (epochData_iff _ _ _).mpr h10, (epochData_iff _ _ _).mpr h11, (flag_iff _ _).mpr h12, (pubKey_iff _ _ _).mpr h13,
      (pubKey_iff _ _ _).mpr h14, (pubKey_iff _ _ _).mpr h15, (flag_iff _ _).mpr h16, bind, Except.bind]

theorem blockchainState_iff (E : Env) (j : J) (b : BlockchainState) :
    blockchainState E j = .ok b ↔ ReadsBlockchain E j b := by
  constructor
  · intro h
    simp only [blockchainState, bind, Except.bind] at h
    repeat' split at h
    all_goals first | cases h | skip
    rename_i _ _ h1 _ _ h2 _ _ h3 _ _ h4 _ _ h5 _ _ h6 _ _ h7 _ _ h8
    exact ⟨(hashValue_hash_iff _ _ _ _).mp h1, (hashValue_byteHash_iff _ _ _ _).mp h2, (hashValue_byteHash_iff _ _ _ _).mp h3,
      (hashValue_hash_iff _ _ _ _).mp h4, (hashValue_hash_iff _ _ _ _).mp h5, (hashValue_hash_iff _ _ _ _).mp h6, rfl,
      (u64_iff _ _).mp h7, (bodyReference_iff _ _).mp h8⟩
  · intro h
    obtain ⟨h1, h2, h3, h4, h5, h6, h7, h8, h9⟩ := h
    simp only [blockchainState, (hashValue_hash_iff _ _ _ _).mpr h1, (hashValue_byteHash_iff _ _ _ _).mpr h2,
      (hashValue_byteHash_iff _ _ _ _).mpr h3, (hashValue_hash_iff _ _ _ _).mpr h4, (hashValue_hash_iff _ _ _ _).mpr h5,
      (hashValue_hash_iff _ _ _ _).mpr h6, ← h7, (u64_iff _ _).mpr h8, (bodyReference_iff _ _).mpr h9, bind, Except.bind]

/-- **C73.** A document is imported as a protocol state exactly if every part can be read as that of the
state and the parts that are not in documents have their fixed values; any other document is refused.  The
checksum of no bytes does not start with the version byte of VRF outputs (that of SHA-256 starts with
0x5d). -/
theorem C73_accepted_iff (E : Env) (hE : (E.chk []).head? ≠ some 0x15) (j : J) (s : ProtocolState) :
    protocolState E j = .ok s ↔ ReadsState E j s := by
  constructor
  · intro h
    simp only [protocolState, body, bind, Except.bind] at h
    split at h
    · cases h
    rename_i _ _ h1
    split at h
    · cases h
    rename_i _ _ h2
    split at h2
    · cases h2
    rename_i _ _ h3
    split at h2
    · cases h2
    rename_i _ _ h4
    cases h2
    cases h
    exact ⟨(hash_iff _ _ _ _).mp h1, rfl, (blockchainState_iff _ _ _).mp h3, (consensusState_iff E hE _ _).mp h4, rfl⟩
  · rintro ⟨h1, h2, h3, h4, h5⟩
    simp only [protocolState, body, (hash_iff _ _ _ _).mpr h1, (blockchainState_iff _ _ _).mpr h3,
      (consensusState_iff E hE _ _).mpr h4, ← h2, bind, Except.bind]
    rw [show Constants.default = s.body.constants from h5.symm]

example (E : Env) (hE : (E.chk []).head? ≠ some 0x15) (s : ProtocolState) : ReadsState E (stateDoc E s) (importedState s) :=
  (C73_accepted_iff E hE _ _).mp (C73_import_partial E _ s (says_stateDoc E s))

/-- An environment whose checksum is like that. -/
example : ∃ E : Env, (E.chk []).head? ≠ some 0x15 := ⟨⟨fun _ => [0x5d, 0xf6, 0xe0, 0xe2], fun _ => rfl, true⟩, by decide⟩

end MinaRs.GraphQL
