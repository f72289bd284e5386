import Verif.GraphQL.Docs

/-!
# Imports from GraphQL (C55, C73, C74, C75)
-/

namespace MinaRs.GraphQL

open Json (J JErr Env)
open Text (Text)
open Hash
open Spec

/-! ## C55: permissions -/

/-- **C55.** A document that lists permissions is imported, with the right value for ten of them.  Missing:
the permission to increment the nonce, which is that to edit the state, see
`C55_increment_nonce_fails`. -/
theorem C55_import_partial (j : J) (q : Permissions) (h : SaysPermissions j q) :
    permissions j = .ok { q with incrementNonce := q.editState } := by
  simp only [permissions, index_of_has h.editState, index_of_has h.send, index_of_has h.receive,
    index_of_has h.setDelegate, index_of_has h.setPermissions, index_of_has h.setVerificationKey,
    index_of_has h.setZkappUri, index_of_has h.editSequenceState, index_of_has h.setTokenSymbol,
    index_of_has h.setVotingFor, auth_name, bind, Except.bind]

/-- **C55.** The import is faithful exactly when both permissions agree. -/
theorem C55_faithful_iff (j : J) (q : Permissions) (h : SaysPermissions j q) :
    permissions j = .ok q ↔ q.incrementNonce = q.editState := by
  rw [C55_import_partial j q h]
  constructor
  · intro e
    have := congrArg Permissions.incrementNonce (Except.ok.inj e)
    exact this.symm
  · intro e
    obtain ⟨_, _, _, _, _, _, _, _, _, _, _⟩ := q
    simp only at e
    subst e
    rfl

example (q : Permissions) : SaysPermissions (permissionsDoc q) q := says_permissionsDoc q

theorem index_of_str {j : J} {k s : String} (hs : s ≠ "") (h : str (index j k) = s.toList) : index j k = .str s := by
  cases hi : index j k with
  | str t =>
    rw [hi] at h
    simp only [str] at h
    rw [String.toList_inj.mp h]
  | _ =>
    rw [hi] at h
    exact absurd (String.toList_inj.mp (h.symm.trans (by rfl : ([] : Text) = "".toList))) hs

theorem auth_index {j : J} {k : String} {a : Auth} (h : auth (str (index j k)) = .ok a) :
    index j k = .str (authName a) :=
  index_of_str (by cases a <;> decide) (auth_ok h)

/-- **C55.** Nothing else is accepted: if a document is imported, ten keys name the permissions that were
imported. -/
theorem C55_accepted (j : J) (q : Permissions) (h : permissions j = .ok q) :
    index j "editState" = .str (authName q.editState) ∧ index j "send" = .str (authName q.send) ∧
    index j "receive" = .str (authName q.receive) ∧ index j "setDelegate" = .str (authName q.setDelegate) ∧
    index j "setPermissions" = .str (authName q.setPermissions) ∧
    index j "setVerificationKey" = .str (authName q.setVerificationKey) ∧
    index j "setZkappUri" = .str (authName q.setZkappUri) ∧
    index j "editSequenceState" = .str (authName q.editSequenceState) ∧
    index j "setTokenSymbol" = .str (authName q.setTokenSymbol) ∧
    index j "setVotingFor" = .str (authName q.setVotingFor) ∧ q.incrementNonce = q.editState := by
  simp only [permissions, bind, Except.bind] at h
  repeat' split at h
  all_goals first | cases h | skip
  rename_i a1 h1 _ a2 h2 _ a3 h3 _ a4 h4 _ a5 h5 _ a6 h6 _ a7 h7 _ a8 h8 _ a9 h9 _ a10 h10 _ a11 h11
  cases h10
  exact ⟨auth_index h1, auth_index h2, auth_index h3, auth_index h4, auth_index h5, auth_index h6, auth_index h7,
    auth_index h8, auth_index h9, auth_index h11, rfl⟩

/-- **C55.** Documents that lack one of the ten keys are refused. -/
theorem C55_missing_refused (j : J) (k : String) (hk : k ∈ ["editState", "send", "receive", "setDelegate", "setPermissions",
    "setVerificationKey", "setZkappUri", "editSequenceState", "setTokenSymbol", "setVotingFor"]) (h : Lacks j k) (q : Permissions) :
    permissions j ≠ .ok q := by
  intro hq
  have hn := index_of_lacks h
  obtain ⟨h1, h2, h3, h4, h5, h6, h7, h8, h9, h10, -⟩ := C55_accepted j q hq
  simp only [List.mem_cons, List.not_mem_nil, or_false] at hk
  rcases hk with rfl | rfl | rfl | rfl | rfl | rfl | rfl | rfl | rfl | rfl
  all_goals first
    | (rw [h1] at hn; cases hn) | (rw [h2] at hn; cases hn) | (rw [h3] at hn; cases hn) | (rw [h4] at hn; cases hn)
    | (rw [h5] at hn; cases hn) | (rw [h6] at hn; cases hn) | (rw [h7] at hn; cases hn) | (rw [h8] at hn; cases hn)
    | (rw [h9] at hn; cases hn) | (rw [h10] at hn; cases hn)

/-- **C55 fails**: whatever a document says about who may increment the nonce, the imported account lets those who may edit
its state; for instance anyone, where the nonce can never be incremented. -/
theorem C55_increment_nonce_fails (edit nonce : Auth) (rest : Permissions) : ∃ j r,
    SaysPermissions j { rest with editState := edit, incrementNonce := nonce } ∧ permissions j = .ok r ∧ r.incrementNonce = edit :=
  ⟨_, _, says_permissionsDoc _, C55_import_partial _ _ (says_permissionsDoc _), rfl⟩

example : ∃ j r, SaysPermissions j ⟨.none, .none, .none, .none, .none, .none, .none, .none, .none, .impossible, .none⟩ ∧
    permissions j = .ok r ∧ r.incrementNonce = .none :=
  C55_increment_nonce_fails .none .impossible ⟨.none, .none, .none, .none, .none, .none, .none, .none, .none, .none, .none⟩

/-! ## C74: timing -/

theorem timedData_says (j : J) (d : TimedData) (h : SaysTimed j d) : timedData j = .ok d := by
  simp only [timedData, index_of_has h.initialMinimumBalance, index_of_has h.cliffTime, index_of_has h.cliffAmount,
    index_of_has h.vestingPeriod, index_of_has h.vestingIncrement, u64_number, bind, Except.bind]

/-- **C74.** A document that describes a timing in canonical form is imported as that timing.  Missing:
other forms, see `C74_malformed_fails`. -/
theorem C74_import_partial (j : J) (t : Timing) (h : SaysTiming j t) : timing j = .ok t := by
  cases h with
  | timed d h => simp only [timing, timedData_says j d h]
  | untimed h =>
    simp only [timing, timedData, index_of_has h]
    rfl

example (t : Timing) : SaysTiming (timingDoc t) t := says_timingDoc t

/-- **C74 (no refusal).** Importing a timing never fails: a document with any unreadable part is imported as
the timing of an account without restrictions. -/
theorem C74_never_refused (j : J) : (∃ d, timing j = .ok (.timed d) ∧ timedData j = .ok d) ∨ timing j = .ok .untimed := by
  unfold timing
  cases timedData j with
  | ok d => exact .inl ⟨d, rfl, rfl⟩
  | error e => exact .inr rfl

/-- **C74 fails**: whatever the other parts say, if the initial minimum balance or the cliff time is not a
string (for example a JSON number), a vesting account is imported as unrestricted. -/
theorem C74_malformed_fails (j : J) (h : (∀ s, index j "initialMinimumBalance" ≠ .str s) ∨
    (∀ s, index j "cliffTime" ≠ .str s)) : timing j = .ok .untimed := by
  have he : ∀ v : J, (∀ s, v ≠ .str s) → u64 (str v) = .error .err := by
    intro v hv
    cases v with
    | str s => exact absurd rfl (hv s)
    | _ => rfl
  rcases h with h | h
  · simp only [timing, timedData, he _ h, bind, Except.bind]
  · unfold timing timedData
    simp only [he _ h, bind, Except.bind]
    cases u64 (str (index j "initialMinimumBalance")) <;> rfl

/-- Such a document, with ten MINA locked until slot 86400. -/
example : ∃ j, Has j "cliffTime" (.num 86400) ∧ Has j "cliffAmount" (.str "10000000000") ∧ timing j = .ok .untimed :=
  ⟨.obj [("initialMinimumBalance", .str "10000000000"), ("cliffTime", .num 86400), ("cliffAmount", .str "10000000000"),
    ("vestingPeriod", .str "1"), ("vestingIncrement", .str "0")], has_obj (by simp) (by simp), has_obj (by simp) (by simp),
    C74_malformed_fails _ (.inr (by intro s h; cases h))⟩

/-! ## C75: accounts -/

/-- What the import makes of an account. -/
def Spec.importedAccount (a : Account) : Account :=
  { a with tokenSymbol := ⟨List.replicate 32 0, rfl⟩, zkapp := none, zkappUri := none,
           permissions := { a.permissions with incrementNonce := a.permissions.editState } }

/-- **C75.** A document that describes an account is imported as that account.  Missing: the token symbol,
the zkApp, its URI (not in the documents) and the permission to increment the nonce. -/
theorem C75_import_partial (E : Env) (j : J) (a : Account) (h : SaysAccount E j a) :
    account E j = .ok (importedAccount a) := by
  obtain ⟨b, hb, hb'⟩ := h.balance
  obtain ⟨t, ht, ht'⟩ := h.timing
  obtain ⟨q, hq, hq'⟩ := h.permissions
  obtain ⟨publicKey, tokenId, balance, tokenPermissions, tokenSymbol, nonce, receiptChainHash, delegate, votingFor, tm,
    perms, zkapp, zkappUri⟩ := a
  have h1 := h.tokenOwner
  have h2 := h.disabled
  have h3 := h.delegate
  simp only at h1 h2 h3 hb' ht' hq'
  have hd : GraphQL.delegate E (index j "delegate") = .ok delegate := by
    rw [index_of_has h3]
    cases delegate with
    | none => rfl
    | some k =>
      have := pubKey_text E k
      simp only [keyText, str] at this
      simp only [GraphQL.delegate, delegateText, keyText, this]
  have hp : (if flag (index j "isTokenOwner") = true then TokenPermissions.tokenOwned (flag (index j "isDisabled"))
      else .notOwned (flag (index j "isDisabled"))) = tokenPermissions := by
    rw [index_of_has h1, index_of_has h2]
    cases tokenPermissions <;> rfl
  simp only [account, index_of_has h.publicKey, index_of_has h.tokenId, index_of_has hb, index_of_has hb',
    index_of_has h.nonce, index_of_has h.receiptChainHash, index_of_has h.votingFor, index_of_has ht, index_of_has hq,
    pubKey_text, u64_number, u32_number, hash_text, C74_import_partial t tm ht', C55_import_partial q perms hq',
    hd, hp, bind, Except.bind]
  rfl

example (E : Env) (a : Account) : SaysAccount E (accountDoc E a) a := says_accountDoc E a

/-- **C75.** Exactly the accounts without token symbol and zkApp and with equal permissions for nonce and
state survive. -/
theorem C75_faithful_iff (E : Env) (j : J) (a : Account) (h : SaysAccount E j a) :
    account E j = .ok a ↔ a.tokenSymbol.bytes = List.replicate 32 0 ∧ a.zkapp = none ∧ a.zkappUri = none ∧
      a.permissions.incrementNonce = a.permissions.editState := by
  rw [C75_import_partial E j a h]
  constructor
  · intro e
    have e := Except.ok.inj e
    refine ⟨?_, ?_, ?_, ?_⟩
    · exact (congrArg (fun x => x.tokenSymbol.bytes) e).symm
    · exact (congrArg (fun x => x.zkapp) e).symm
    · exact (congrArg (fun x => x.zkappUri) e).symm
    · exact (congrArg (fun x => x.permissions.incrementNonce) e).symm
  · rintro ⟨h1, h2, h3, h4⟩
    obtain ⟨publicKey, tokenId, balance, tokenPermissions, ⟨sym, hsym⟩, nonce, receiptChainHash, delegate, votingFor, tm,
      perms, zkapp, zkappUri⟩ := a
    simp only at h1 h2 h3 h4
    subst h1 h2 h3
    obtain ⟨_, _, _, _, _, _, _, _, _, _, _⟩ := perms
    simp only at h4
    subst h4
    rfl

/-- **C75 fails**: an account with a token symbol is imported as another account. -/
theorem C75_symbol_fails (E : Env) (a : Account) (ha : a.tokenSymbol.bytes ≠ List.replicate 32 0) :
    ∃ j b, SaysAccount E j a ∧ account E j = .ok b ∧ b ≠ a := by
  refine ⟨accountDoc E a, _, says_accountDoc E a, C75_import_partial E _ a (says_accountDoc E a), fun h => ?_⟩
  exact ha (congrArg (fun x => x.tokenSymbol.bytes) h).symm

/-! ## C73: protocol states -/

theorem epochData_says (E : Env) (j : J) (e : EpochData) (h : SaysEpoch E j e) : epochData E j = .ok e := by
  obtain ⟨l, hl, hl1, hl2⟩ := h.ledger
  simp only [epochData, epochLedger, index_of_has hl, index_of_has hl1, index_of_has hl2, index_of_has h.seed,
    index_of_has h.startCheckpoint, index_of_has h.lockCheckpoint, index_of_has h.epochLength, hash_text, u64_number,
    u32_number, bind, Except.bind]

/-- What the import makes of a state: five parts are constants. -/
def Spec.importedState (s : ProtocolState) : ProtocolState :=
  { s with body := { s.body with
      genesisStateHash := genesisStateHash
      constants := { k := 290, slotsPerEpoch := 7140, slotsPerSubWindow := 7, delta := 0, genesisStateTimestamp := 1655755201000 }
      blockchainState := { s.body.blockchainState with
        registers := { s.body.blockchainState.registers with localState := LocalState.default } }
      consensusState := { s.body.consensusState with
        subWindowDensities := [1, 7, 7, 7, 7, 7, 7, 7, 7, 7, 7]
        currGlobalSlot := { s.body.consensusState.currGlobalSlot with slotsPerEpoch := 7140 } } } }

theorem consensusState_says (E : Env) (j : J) (c : ConsensusState) (h : SaysConsensus E j c) :
    consensusState E j = .ok { c with
        subWindowDensities := [1, 7, 7, 7, 7, 7, 7, 7, 7, 7, 7]
        currGlobalSlot := { c.currGlobalSlot with slotsPerEpoch := 7140 } } := by
  obtain ⟨e1, h1, h1'⟩ := h.staking
  obtain ⟨e2, h2, h2'⟩ := h.next
  simp only [consensusState, index_of_has h.blockchainLength, index_of_has h.epochCount, index_of_has h.minWindowDensity,
    index_of_has h.lastVrfOutput, index_of_has h.totalCurrency, index_of_has h.slot, index_of_has h.slotSinceGenesis,
    index_of_has h1, index_of_has h2, epochData_says E e1 _ h1', epochData_says E e2 _ h2', index_of_has h.hasAncestor,
    index_of_has h.winner, index_of_has h.creator, index_of_has h.receiver, index_of_has h.supercharge,
    u32_number, u64_number, vrf_text, pubKey_text, flag, bind, Except.bind]

theorem blockchainState_says (E : Env) (j : J) (b : BlockchainState) (h : SaysBlockchain E j b) :
    blockchainState E j = .ok { b with registers := { b.registers with localState := LocalState.default } } := by
  have e1 := hash_text E 0x05 b.stagedLedgerHash.nonSnark.ledgerHash
  have e2 := byteHash_text E 0x0e b.stagedLedgerHash.nonSnark.auxHash
  have e3 := byteHash_text E 0x0f b.stagedLedgerHash.nonSnark.pendingCoinbaseAux
  have e4 := hash_text E 0x0c b.stagedLedgerHash.pendingCoinbaseHash
  have e5 := hash_text E 0x05 b.genesisLedgerHash
  have e6 := hash_text E 0x05 b.registers.ledger
  simp only [hashText, bytesText] at e1 e2 e3 e4 e5 e6
  simp only [blockchainState, index_of_has h.ledgerHash, index_of_has h.auxHash, index_of_has h.pendingCoinbaseAux,
    index_of_has h.pendingCoinbaseHash, index_of_has h.genesisLedgerHash, index_of_has h.snarkedLedgerHash,
    index_of_has h.timestamp, index_of_has h.bodyReference, hashText, bytesText, hashValue_str, e1, e2, e3, e4, e5, e6,
    u64_number, bodyReference_text, bind, Except.bind]

/-- **C73.** A document that describes a protocol state is imported as that state.  Missing: the sub-window
densities, the slots per epoch, the local state, the genesis state's hash and the constants, which are
not in the documents and replaced by constants. -/
theorem C73_import_partial (E : Env) (j : J) (s : ProtocolState) (h : SaysState E j s) :
    protocolState E j = .ok (importedState s) := by
  obtain ⟨b, hb, hb'⟩ := h.blockchain
  obtain ⟨c, hc, hc'⟩ := h.consensus
  simp only [protocolState, body, index_of_has h.previous, index_of_has hb, index_of_has hc, hash_text,
    blockchainState_says E b _ hb', consensusState_says E c _ hc', bind, Except.bind]
  rfl

example (E : Env) (s : ProtocolState) : SaysState E (stateDoc E s) s := says_stateDoc E s

/-- **C73 (constants).** Whatever document is imported, five parts of the state do not depend on it. -/
theorem C73_constants (E : Env) (j : J) (s : ProtocolState) (h : protocolState E j = .ok s) : importedState s = s := by
  simp only [protocolState, body, bind, Except.bind] at h
  split at h
  · cases h
  split at h
  · cases h
  rename_i hbody
  cases h
  split at hbody
  · cases hbody
  rename_i b hb
  split at hbody
  · cases hbody
  rename_i c hc
  cases hbody
  have hb' : b.registers.localState = LocalState.default := by
    simp only [blockchainState, bind, Except.bind] at hb
    repeat' split at hb
    all_goals first | cases hb | skip
    rfl
  have hc' : c.subWindowDensities = [1, 7, 7, 7, 7, 7, 7, 7, 7, 7, 7] ∧ c.currGlobalSlot.slotsPerEpoch = 7140 := by
    simp only [consensusState, bind, Except.bind] at hc
    repeat' split at hc
    all_goals first | cases hc | skip
    exact ⟨rfl, rfl⟩
  obtain ⟨_, _, ⟨_, _⟩, _, _⟩ := b
  obtain ⟨_, _, _, _, _, _, ⟨_, _⟩, _, _, _, _, _, _, _, _⟩ := c
  simp only at hb' hc'
  obtain ⟨h1, h2⟩ := hc'
  subst hb' h1 h2
  rfl

/-- **C73 fails**: a state is imported as itself only if these five parts have these values; every other
state is imported as a different one. -/
theorem C73_constants_fails (E : Env) (s : ProtocolState) (hs : s.body.consensusState.subWindowDensities ≠ [1, 7, 7, 7, 7, 7, 7, 7, 7, 7, 7]) :
    ∃ j r, SaysState E j s ∧ protocolState E j = .ok r ∧ r ≠ s := by
  refine ⟨stateDoc E s, _, says_stateDoc E s, C73_import_partial E _ s (says_stateDoc E s), fun h => ?_⟩
  exact hs (congrArg (fun x => x.body.consensusState.subWindowDensities) h).symm

/-- **C73.** A document determines the rest of the state: two states with the same document agree except in
those parts. -/
theorem C73_determined (E : Env) (j : J) (s t : ProtocolState) (hs : SaysState E j s) (ht : SaysState E j t) :
    importedState s = importedState t := by
  have h := C73_import_partial E j s hs
  rw [C73_import_partial E j t ht] at h
  exact (Except.ok.inj h).symm

/-- **C73 fails** for the flags: a document without them is imported with both `false`, not refused. -/
theorem C73_flags_fails (E : Env) (j : J) (c : ConsensusState) (h : SaysConsensus E j c) (k : J)
    (hk : ∀ key, key ≠ "hasAncestorInSameCheckpointWindow" → key ≠ "superchargedCoinbase" → index k key = index j key)
    (h1 : Lacks k "hasAncestorInSameCheckpointWindow") (h2 : Lacks k "superchargedCoinbase") :
    ∃ r, consensusState E k = .ok r ∧ r.hasAncestorInSameCheckpointWindow = false ∧ r.superchargeCoinbase = false := by
  have hj := consensusState_says E j c h
  refine ⟨{ c with
        subWindowDensities := [1, 7, 7, 7, 7, 7, 7, 7, 7, 7, 7]
        currGlobalSlot := { c.currGlobalSlot with slotsPerEpoch := 7140 }
        hasAncestorInSameCheckpointWindow := false, superchargeCoinbase := false }, ?_, rfl, rfl⟩
  obtain ⟨e1, h3, h3'⟩ := h.staking
  obtain ⟨e2, h4, h4'⟩ := h.next
  simp only [consensusState, hk "blockHeight" (by decide) (by decide), hk "epochCount" (by decide) (by decide),
    hk "minWindowDensity" (by decide) (by decide), hk "lastVrfOutput" (by decide) (by decide),
    hk "totalCurrency" (by decide) (by decide), hk "slot" (by decide) (by decide),
    hk "slotSinceGenesis" (by decide) (by decide), hk "stakingEpochData" (by decide) (by decide),
    hk "nextEpochData" (by decide) (by decide), hk "blockStakeWinner" (by decide) (by decide),
    hk "blockCreator" (by decide) (by decide), hk "coinbaseReceiever" (by decide) (by decide), index_of_lacks h1,
    index_of_lacks h2, index_of_has h.blockchainLength, index_of_has h.epochCount, index_of_has h.minWindowDensity,
    index_of_has h.lastVrfOutput, index_of_has h.totalCurrency, index_of_has h.slot, index_of_has h.slotSinceGenesis,
    index_of_has h3, index_of_has h4, epochData_says E e1 _ h3', epochData_says E e2 _ h4',
    index_of_has h.winner, index_of_has h.creator, index_of_has h.receiver,
    u32_number, u64_number, vrf_text, pubKey_text, flag, bind, Except.bind]

/-- The document of a state without the two flags. -/
example (E : Env) (c : ConsensusState) : ∃ k, (∀ key, key ≠ "hasAncestorInSameCheckpointWindow" → key ≠ "superchargedCoinbase" →
    index k key = index (consensusDoc E c) key) ∧ Lacks k "hasAncestorInSameCheckpointWindow" ∧ Lacks k "superchargedCoinbase" := by
  refine ⟨.obj [("blockHeight", number c.blockchainLength.toNat), ("epochCount", number c.epochCount.toNat),
    ("minWindowDensity", number c.minWindowDensity.toNat), ("lastVrfOutput", vrfText E c.lastVrfOutput),
    ("totalCurrency", number c.totalCurrency.toNat), ("slot", number c.currGlobalSlot.slotNumber.toNat),
    ("slotSinceGenesis", number c.globalSlotSinceGenesis.toNat), ("stakingEpochData", epochDoc E c.stakingEpochData),
    ("nextEpochData", epochDoc E c.nextEpochData), ("blockStakeWinner", keyText E c.blockStakeWinner),
    ("blockCreator", keyText E c.blockCreator), ("coinbaseReceiever", keyText E c.coinbaseReceiver)], ?_, ?_, ?_⟩
  · intro key h1 h2
    have h1 : (key == "hasAncestorInSameCheckpointWindow") = false := by simpa using h1
    have h2 : (key == "superchargedCoinbase") = false := by simpa using h2
    simp only [index, consensusDoc, List.lookup, h1, h2]
  · rintro es ⟨⟩ v h; simp at h
  · rintro es ⟨⟩ v h; simp at h

end MinaRs.GraphQL
