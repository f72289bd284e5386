import Verif.Hash.LayoutLemmas
/-!
# C97: hash inputs are laid out as specified
-/

namespace MinaRs.Hash

open Chunked Spec Layout

/-! ## Tables of the parts -/

theorem laid_auth (a : Auth) : Laid a.chunked (auth a) := by
  have h : (match a.chunked with
      | .ok c => decide (c.fields.map Fin.val = fieldsOf (auth a) ∧ c.packed.map (fun q => (q.1.val, q.2)) = numsOf (auth a))
      | .error _ => false) = true := by cases a <;> decide +kernel
  cases e : a.chunked with
  | error x => rw [e] at h; exact nomatch h
  | ok c => rw [e] at h; exact ⟨c, rfl, of_decide_eq_true h⟩

theorem properT_auth (a : Auth) : ProperT (auth a) := by
  unfold ProperT; cases a <;> decide

theorem laid_timing (t : Timing) : Laid t.chunked (timing t) := by
  cases t with
  | untimed => exact Laid.cons (laid_piece 0 1) (Laid.cons (Laid.cons (laid_u64 _) <| Laid.cons (laid_u32 _) <|
      Laid.cons (laid_u64 _) <| Laid.cons (laid_u32 _) <| Laid.cons (laid_u64 _) Laid.nil) Laid.nil)
  | timed d =>
    have := Laid.cons (laid_piece 1 1) (Laid.cons (Laid.cons (laid_u64 d.initialMinimumBalance) <|
      Laid.cons (laid_u32 d.cliffTime.toUInt32) <| Laid.cons (laid_u64 d.cliffAmount) <|
      Laid.cons (laid_u32 d.vestingPeriod.toUInt32) <| Laid.cons (laid_u64 d.vestingIncrement) Laid.nil) Laid.nil)
    simp only [Layout.u32, UInt64.toNat_toUInt32] at this
    exact this

theorem properT_timing (t : Timing) : ProperT (timing t) := by
  cases t with
  | untimed => unfold ProperT timing; decide
  | timed d =>
    exact properT_num (by decide) <| properT_u64 <| properT_num ⟨Nat.mod_lt _ (by decide), by decide, by decide⟩ <|
      properT_u64 <| properT_num ⟨Nat.mod_lt _ (by decide), by decide, by decide⟩ <| properT_u64 properT_nil

theorem laid_tokenPermissions (t : TokenPermissions) : Laid t.chunked [tokenPermissions t] := by
  rw [tokenPermissions_eq]
  rcases t with (_ | _) | (_ | _) <;> exact ⟨_, rfl, rfl, by decide +kernel⟩

theorem properT_tokenPermissions (t : TokenPermissions) : ProperT [tokenPermissions t] := by
  unfold ProperT
  rcases t with (_ | _) | (_ | _) <;> decide

theorem laid_symbol (s : B32) : Laid (symbolChunked s) [.num (leNat (s.bytes.take 6)) 48] := by
  rw [symbol_eq]; exact ⟨_, rfl, rfl, rfl⟩

theorem laid_zkApp (H : String → List Fp → Fp) (z : Option Unit) :
    Laid (zkAppOptChunked H z) [.field (H "CodaZkappAccount" zkFields).val] := by
  have : zkAppOptChunked H z = .ok (Chunked.field (H "CodaZkappAccount" zkFields)) := by
    have h' : intoFields ⟨[zkFp1, zkFp1, zkFp1, zkFp1, zkFp1, zkFp2, 0, 0, 0, 0, 0, 0, 0, 0], [(0, 1), (0, 32), (0, 32)]⟩ =
        .ok zkFields := by decide +kernel
    unfold zkAppOptChunked hashChunked
    simp only [zkAppChunked, bind, Except.bind, pure, Except.pure]
    rw [h']
  rw [this]; exact laid_field _

theorem laid_zkAppUri (H : String → List Fp → Fp) (z : Option Unit) :
    Laid (zkAppUriOptChunked H z) [.field (H "MinaZkappUri" [1]).val] := by
  have h : intoFields (.piece 1 1) = .ok [1] := by decide +kernel
  have : zkAppUriOptChunked H z = .ok (Chunked.field (H "MinaZkappUri" [1])) := by
    unfold zkAppUriOptChunked hashChunked
    simp only [zkAppUriChunked, bind, Except.bind, pure, Except.pure]
    rw [h]
  rw [this]; exact laid_field _

theorem laid_permissions (q : Permissions) : Laid q.chunked
    (auth q.editState ++ (auth q.send ++ (auth q.receive ++ (auth q.setDelegate ++ (auth q.setPermissions ++
      (auth q.setVerificationKey ++ (auth q.setZkappUri ++ (auth q.editSequenceState ++ (auth q.setTokenSymbol ++
        (auth q.incrementNonce ++ (auth q.setVotingFor ++ []))))))))))) :=
  Laid.cons (laid_auth _) <| Laid.cons (laid_auth _) <| Laid.cons (laid_auth _) <| Laid.cons (laid_auth _) <|
  Laid.cons (laid_auth _) <| Laid.cons (laid_auth _) <| Laid.cons (laid_auth _) <| Laid.cons (laid_auth _) <|
  Laid.cons (laid_auth _) <| Laid.cons (laid_auth _) <| Laid.cons (laid_auth _) Laid.nil

theorem laid_account (H : String → List Fp → Fp) (a : Account) (h1 : IsField a.votingFor)
    (h2 : IsField a.receiptChainHash) : Laid (a.chunked H) (account H a) := by
  have := Laid.cons (laid_zkAppUri H a.zkappUri) <| Laid.cons (laid_zkApp H a.zkapp) <|
    Laid.cons (laid_permissions a.permissions) <| Laid.cons (laid_timing a.timing) <| Laid.cons (laid_b32 h1) <|
    Laid.cons (laid_key (a.delegate.getD PubKey.empty)) <| Laid.cons (laid_b32 h2) <| Laid.cons (laid_u32 a.nonce) <|
    Laid.cons (laid_u64 a.balance) <| Laid.cons (laid_symbol a.tokenSymbol) <|
    Laid.cons (laid_tokenPermissions a.tokenPermissions) <| Laid.cons (laid_tokenId a.tokenId) <|
    Laid.cons (laid_key a.publicKey) Laid.nil
  exact Laid.cast this (by simp [account, PubKey.empty, List.append_assoc])

theorem properT_account (H : String → List Fp → Fp) (a : Account) : ProperT (account H a) := by
  unfold account
  refine properT_append (properT_append (properT_append (properT_append (properT_append ?_ (properT_timing _)) ?_)
    (properT_key _)) ?_) (properT_key _)
  · repeat' first | exact properT_auth _ | exact properT_field (properT_field properT_nil) | apply properT_append
  · exact properT_hash properT_nil
  · exact properT_hash <| properT_u32 <| properT_u64 <| properT_num ⟨symbol_lt _, by decide, by decide⟩ <|
      properT_append (properT_tokenPermissions _) (properT_field properT_nil)

theorem laid_constants (c : Constants) : Laid c.chunked (constants c) :=
  Laid.cons (laid_u32 _) <| Laid.cons (laid_u32 _) <| Laid.cons (laid_u32 _) <| Laid.cons (laid_u32 _) <|
  Laid.cons (laid_u64 _) Laid.nil

theorem properT_constants (c : Constants) : ProperT (constants c) :=
  properT_u32 <| properT_u32 <| properT_u32 <| properT_u32 <| properT_u64 properT_nil

theorem laid_epochData (e : EpochData) (h : ∀ x ∈ epochHashes e, IsField x) : Laid e.chunked (epochData e) := by
  simp only [epochHashes, List.forall_mem_cons, List.not_mem_nil, false_imp_iff, implies_true, and_true] at h
  obtain ⟨h1, h2, h3, h4⟩ := h
  exact Laid.cons (laid_b32 h2) <| Laid.cons (laid_b32 h3) <| Laid.cons (laid_u32 _) <|
    Laid.cons (Laid.cons (laid_b32 h1) (Laid.cons (laid_u64 _) Laid.nil)) <| Laid.cons (laid_b32 h4) Laid.nil

theorem properT_epochData (e : EpochData) : ProperT (epochData e) :=
  properT_hash <| properT_hash <| properT_u32 <| properT_hash <| properT_u64 <| properT_hash properT_nil

theorem laid_staged (sha : Bytes → B32) (s : StagedLedgerHash) (h : IsField s.pendingCoinbaseHash) :
    Laid (s.chunked sha) (stagedLedgerHash sha s) :=
  Laid.cons (laid_bytes _) (Laid.cons (laid_b32 h) Laid.nil)

theorem laid_consensus (c : ConsensusState) (h1 : ∀ x ∈ epochHashes c.stakingEpochData, IsField x)
    (h2 : ∀ x ∈ epochHashes c.nextEpochData, IsField x) : Laid c.chunked (consensusState c) := by
  have := Laid.append (Laid.append (Laid.cons (laid_u32 c.blockchainLength) <| Laid.cons (laid_u32 c.epochCount) <|
      Laid.cons (laid_u32 c.minWindowDensity) Laid.nil) (Laid.map laid_u32 c.subWindowDensities)) <|
    Laid.cons (laid_vrf c.lastVrfOutput) <| Laid.cons (laid_u64 c.totalCurrency) <|
    Laid.cons (Laid.cons (laid_u32 c.currGlobalSlot.slotNumber) (Laid.cons (laid_u32 c.currGlobalSlot.slotsPerEpoch) Laid.nil)) <|
    Laid.cons (laid_u32 c.globalSlotSinceGenesis) <| Laid.cons (laid_bool c.hasAncestorInSameCheckpointWindow) <|
    Laid.cons (laid_bool c.superchargeCoinbase) <| Laid.cons (laid_epochData _ h1) <| Laid.cons (laid_epochData _ h2) <|
    Laid.cons (laid_key c.blockStakeWinner) <| Laid.cons (laid_key c.blockCreator) <|
    Laid.cons (laid_key c.coinbaseReceiver) Laid.nil
  exact Laid.cast this (by simp [consensusState, List.append_assoc])

theorem properT_consensus (c : ConsensusState) : ProperT (consensusState c) := by
  unfold consensusState
  refine properT_append (properT_append (properT_append (properT_append (properT_append (properT_append (properT_append
    (properT_append ?_ ?_) (properT_bits _ _)) ?_) (properT_epochData _)) (properT_epochData _)) (properT_key _))
    (properT_key _)) (properT_key _)
  · exact properT_u32 <| properT_u32 <| properT_u32 properT_nil
  · exact properT_map (fun _ => properT_u32 properT_nil) _
  · exact properT_u64 <| properT_u32 <| properT_u32 <| properT_u32 <| properT_bit <| properT_bit properT_nil

theorem laid_blockchainState (sha : Bytes → B32) (s : ProtocolState) (h : ∀ x ∈ stateHashes s, IsField x) :
    Laid (s.body.blockchainState.chunked sha) (blockchainState sha s.body.blockchainState) := by
  have g : ∀ x, x ∈ stateHashes s → IsField x := h
  have l := s.body.blockchainState.registers.localState
  have := Laid.cons (laid_staged sha s.body.blockchainState.stagedLedgerHash (g _ (by simp [stateHashes]))) <|
    Laid.cons (laid_b32 (g s.body.blockchainState.genesisLedgerHash (by simp [stateHashes]))) <|
    Laid.cons (Laid.cons (laid_b32 (g s.body.blockchainState.registers.ledger (by simp [stateHashes]))) <|
      Laid.cons (Laid.cons (laid_b32 (g s.body.blockchainState.registers.localState.stackFrame (by simp [stateHashes]))) <|
        Laid.cons (laid_b32 (g s.body.blockchainState.registers.localState.callStack (by simp [stateHashes]))) <|
        Laid.cons (laid_b32 (g s.body.blockchainState.registers.localState.transactionCommitment (by simp [stateHashes]))) <|
        Laid.cons (laid_b32 (g s.body.blockchainState.registers.localState.fullTransactionCommitment (by simp [stateHashes]))) <|
        Laid.cons (laid_tokenId s.body.blockchainState.registers.localState.tokenId) <|
        Laid.cons (Laid.cons (laid_u64 s.body.blockchainState.registers.localState.excess.1)
          (Laid.cons (laid_bool s.body.blockchainState.registers.localState.excess.2) Laid.nil)) <|
        Laid.cons (laid_b32 (g s.body.blockchainState.registers.localState.ledger (by simp [stateHashes]))) <|
        Laid.cons (laid_u32 s.body.blockchainState.registers.localState.partyIndex) <|
        Laid.cons (laid_bool s.body.blockchainState.registers.localState.success) Laid.nil) <| Laid.nil) <|
    Laid.cons (laid_u64 s.body.blockchainState.timestamp) <|
    Laid.cons (laid_bytes s.body.blockchainState.bodyReference.bytes) Laid.nil
  exact Laid.cast this (by simp [blockchainState, List.append_assoc])

theorem properT_staged (sha : Bytes → B32) (s : StagedLedgerHash) : ProperT (stagedLedgerHash sha s) :=
  properT_append (properT_bytes _) (properT_hash properT_nil)

theorem properT_blockchainState (sha : Bytes → B32) (b : BlockchainState) : ProperT (blockchainState sha b) := by
  refine properT_append (properT_append (properT_staged sha _) ?_) (properT_bytes _)
  exact properT_hash <| properT_hash <| properT_hash <| properT_hash <| properT_hash <| properT_hash <| properT_field <|
    properT_u64 <| properT_bit <| properT_hash <| properT_u32 <| properT_bit <| properT_u64 properT_nil

theorem laid_body (sha : Bytes → B32) (s : ProtocolState) (h : ∀ x ∈ stateHashes s, IsField x) :
    Laid (s.body.chunked sha) (body sha s.body) := by
  have := Laid.cons (laid_constants s.body.constants) <|
    Laid.cons (laid_b32 (h s.body.genesisStateHash (by simp [stateHashes]))) <|
    Laid.cons (laid_blockchainState sha s h) <|
    Laid.cons (laid_consensus s.body.consensusState (fun x hx => h x (by simp [stateHashes, hx]))
      (fun x hx => h x (by simp [stateHashes, hx]))) Laid.nil
  exact Laid.cast this (by simp [body, List.append_assoc])

theorem properT_body (sha : Bytes → B32) (b : Body) : ProperT (body sha b) :=
  properT_append (properT_append (properT_append (properT_constants _) (properT_hash properT_nil))
    (properT_blockchainState sha _)) (properT_consensus _)

theorem hash_of_laid {H : String → List Fp → Fp} {d : String} {x : M Chunked} {es : List Entry} (h : Laid x es)
    (hp : ProperT es) : ∃ r, Packed es r ∧ hashChunked H d x = .ok (H d r) := by
  obtain ⟨r, h1, h2⟩ := h.packed hp
  exact ⟨r, h2, hashChunked_eq_ok.2 ⟨r, h1, rfl⟩⟩

/-! ## The theorems -/

/-- **C97.** A table determines what is hashed: there is at most one way to pack it. -/
theorem C97_packing_unique (es : List Entry) (r s : List Fp) (hr : Packed es r) (hs : Packed es s) : r = s := by
  obtain ⟨gs, a1, a2, a3⟩ := hr
  obtain ⟨ks, b1, b2, b3⟩ := hs
  have := greedy_unique gs ks a2 b2 (a1.trans b1.symm)
  subst this
  exact List.map_inj_right (f := Fin.val) (fun x y e => Fin.ext e) |>.1 (a3.trans b3.symm)

/-- **C97.** The same for mainnet tables. -/
theorem C97_legacy_packing_unique (es : List Entry) (r s : List Fp) (hr : PackedLegacy es r) (hs : PackedLegacy es s) :
    r = s :=
  List.map_inj_right (f := Fin.val) (fun x y e => Fin.ext e) |>.1 (hr.trans hs.symm)

/-- **C97.** The hash of an account is the hash of the packed table of the account, under the domain
string `CodaAccount`. -/
theorem C97_account (H : String → List Fp → Fp) (a : Account) (h1 : IsField a.votingFor)
    (h2 : IsField a.receiptChainHash) :
    ∃ r, Packed (account H a) r ∧ a.hash H = .ok (H "CodaAccount" r) :=
  hash_of_laid (laid_account H a h1 h2) (properT_account H a)

/-- **C97.** The hash of a Berkeley protocol state is the hash of the previous state hash and the hash of
the packed table of the body, under the two domain strings. -/
theorem C97_state (H : String → List Fp → Fp) (sha : Bytes → B32) (s : ProtocolState)
    (h : ∀ x ∈ stateHashes s, IsField x) :
    ∃ r q, Packed (body sha s.body) r ∧ q.val = leNat s.previousStateHash.bytes ∧
      s.stateHash H sha = .ok (H "CodaProtoState" [q, H "CodaProtoStateBody" r]) := by
  obtain ⟨r, h1, h2⟩ := hash_of_laid (H := H) (d := "CodaProtoStateBody") (laid_body sha s h) (properT_body sha _)
  have hp : IsField s.previousStateHash := h _ (by simp [stateHashes])
  refine ⟨r, ⟨_, hp⟩, h1, rfl, ?_⟩
  unfold ProtocolState.stateHash ProtocolState.chunked
  refine hashChunked_eq_ok.2 ⟨_, ?_, rfl⟩
  rw [h2]
  show packFields (build [s.previousStateHash.chunked, _]) = _
  have e := b32_chunked_eq_ok.2 ⟨⟨_, hp⟩, rfl, rfl⟩
  rw [e]; rfl

/-! ## Mainnet -/

theorem laidL_key (k : PubKey) {xs : List (M Legacy)} {es : List Entry} (h : LaidL (buildL xs) es) :
    LaidL (buildL (.ok (Legacy.field k.x) :: .ok (Legacy.bool k.isOdd) :: xs)) (key k ++ es) :=
  (LaidL.cons (laidL_field k.x) (LaidL.cons (laidL_bool k.isOdd) h)).cast (by simp [key])

theorem laidL_epochData (e : EpochData) (h : ∀ x ∈ epochHashes e, IsField x) : LaidL e.legacy (epochData e) := by
  simp only [epochHashes, List.forall_mem_cons, List.not_mem_nil, false_imp_iff, implies_true, and_true] at h
  obtain ⟨h1, h2, h3, h4⟩ := h
  exact LaidL.cons (laidL_b32 h2) <| LaidL.cons (laidL_b32 h3) <| LaidL.cons (laidL_u32 _) <|
    LaidL.cons (LaidL.cons (laidL_b32 h1) (LaidL.cons (laidL_u64 _) LaidL.nil)) <| LaidL.cons (laidL_b32 h4) LaidL.nil

theorem laidL_consensus (c : ConsensusState) (h1 : ∀ x ∈ epochHashes c.stakingEpochData, IsField x)
    (h2 : ∀ x ∈ epochHashes c.nextEpochData, IsField x) : LaidL c.legacy (consensusState c) := by
  have := LaidL.append (LaidL.append (LaidL.cons (laidL_u32 c.blockchainLength) <| LaidL.cons (laidL_u32 c.epochCount) <|
      LaidL.cons (laidL_u32 c.minWindowDensity) LaidL.nil) (LaidL.map laidL_u32 c.subWindowDensities)) <|
    LaidL.cons (laidL_vrf c.lastVrfOutput) <| LaidL.cons (laidL_u64 c.totalCurrency) <|
    LaidL.cons (LaidL.cons (laidL_u32 c.currGlobalSlot.slotNumber) (LaidL.cons (laidL_u32 c.currGlobalSlot.slotsPerEpoch) LaidL.nil)) <|
    LaidL.cons (laidL_u32 c.globalSlotSinceGenesis) <| LaidL.cons (laidL_bool c.hasAncestorInSameCheckpointWindow) <|
    LaidL.cons (laidL_bool c.superchargeCoinbase) <| LaidL.cons (laidL_epochData _ h1) <| LaidL.cons (laidL_epochData _ h2) <|
    laidL_key c.blockStakeWinner <| laidL_key c.blockCreator <| laidL_key c.coinbaseReceiver LaidL.nil
  exact LaidL.cast this (by simp [consensusState, List.append_assoc])

theorem laidL_body (sha : Bytes → B32) (s : ProtocolStateLegacy) (h : ∀ x ∈ stateHashesLegacy s, IsField x) :
    LaidL (s.body.legacy sha) (bodyLegacy sha s.body) := by
  have := LaidL.cons (LaidL.cons (laidL_u32 s.body.constants.k) <| LaidL.cons (laidL_u32 s.body.constants.delta) <|
      LaidL.cons (laidL_u32 s.body.constants.slotsPerEpoch) <| LaidL.cons (laidL_u32 s.body.constants.slotsPerSubWindow) <|
      LaidL.cons (laidL_u64 s.body.constants.genesisStateTimestamp) LaidL.nil) <|
    LaidL.cons (laidL_b32 (h s.body.genesisStateHash (by simp [stateHashesLegacy]))) <|
    LaidL.cons (LaidL.cons (LaidL.cons (laidL_bytes (sha s.body.blockchainState.stagedLedgerHash.nonSnark.preimage).bytes) <|
        LaidL.cons (laidL_b32 (h s.body.blockchainState.stagedLedgerHash.pendingCoinbaseHash (by simp [stateHashesLegacy]))) LaidL.nil) <|
      LaidL.cons (laidL_b32 (h s.body.blockchainState.snarkedLedgerHash (by simp [stateHashesLegacy]))) <|
      LaidL.cons (laidL_b32 (h s.body.blockchainState.genesisLedgerHash (by simp [stateHashesLegacy]))) <|
      LaidL.cons (laidL_u64 s.body.blockchainState.snarkedNextAvailableToken) <|
      LaidL.cons (laidL_u64 s.body.blockchainState.timestamp) LaidL.nil) <|
    LaidL.cons (laidL_consensus s.body.consensusState (fun x hx => h x (by simp [stateHashesLegacy, hx]))
      (fun x hx => h x (by simp [stateHashesLegacy, hx]))) LaidL.nil
  exact LaidL.cast this (by simp [bodyLegacy, constants, blockchainStateLegacy, stagedLedgerHash, NonSnark.preimage, List.append_assoc])

/-- **C97.** The hash of a mainnet protocol state is the hash of the previous state hash and the hash of
the packed table of the body, under the two domain strings. -/
theorem C97_legacy_state (H : String → List Fp → Fp) (sha : Bytes → B32) (s : ProtocolStateLegacy)
    (h : ∀ x ∈ stateHashesLegacy s, IsField x) :
    ∃ r q, PackedLegacy (bodyLegacy sha s.body) r ∧ q.val = leNat s.previousStateHash.bytes ∧
      s.stateHash H sha = .ok (H "CodaProtoState" [q, H "CodaProtoStateBody" r]) := by
  obtain ⟨c, e, h1, h2⟩ := laidL_body sha s h
  have hp : IsField s.previousStateHash := h _ (by simp [stateHashesLegacy])
  refine ⟨c.toFields, ⟨_, hp⟩, LaidL.packed h1 h2, rfl, ?_⟩
  unfold ProtocolStateLegacy.stateHash ProtocolStateLegacy.legacy hashLegacy
  have e' := b32_legacy_eq_ok.2 ⟨⟨_, hp⟩, rfl, rfl⟩
  rw [e, e']
  show Except.ok (H "CodaProtoState" (Legacy.toFields ⟨[_, H "CodaProtoStateBody" c.toFields], []⟩)) = _
  rw [Legacy.toFields, Legacy.chunks254_nil]
  rfl

/-- **C97.** What is hashed for a mainnet account. -/
theorem C97_legacy_account (a : AccountLegacy) : PackedLegacy (accountLegacy a) a.legacy.toFields := by
  obtain ⟨c, e, h1, h2⟩ := LaidL.cons (laidL_u64 a.tokenId) (LaidL.cons (laidL_u64 a.balance) LaidL.nil)
  have : a.legacy = c := Except.ok.inj e
  rw [this]; exact LaidL.packed h1 h2

theorem build_eq_buildL (xs : List Legacy) : buildL (xs.map .ok) = .ok (Legacy.build xs) := by
  induction xs with
  | nil => rfl
  | cons x xs ih =>
    show (buildL (xs.map .ok) >>= fun b => pure (x.append b)) = _
    rw [ih]; rfl

theorem laidL_command (c : Payload) (x y z : Fp) :
    LaidL (.ok (Legacy.build [c.roinput, .field x, .field y, .field z])) (signed c x y z) := by
  have head : ∀ (s r : PubKey) (t1 t2 t3 : Bool) (tok amt : UInt64),
      LaidL (.ok (Legacy.build [Legacy.field c.common.feePayer.x, .field s.x, .field r.x, .u64 c.common.fee,
        .u64 c.common.feeToken, .bool c.common.feePayer.isOdd, .u32 c.common.nonce, .u32 c.common.validUntil,
        .bytes c.common.memo, .bool t1, .bool t2, .bool t3, .bool s.isOdd, .bool r.isOdd, .u64 tok, .u64 amt, .bool false]))
      ([.field c.common.feePayer.x.val, .field s.x.val, .field r.x.val, Layout.u64 c.common.fee,
        Layout.u64 c.common.feeToken, bit c.common.feePayer.isOdd, Layout.u32 c.common.nonce,
        Layout.u32 c.common.validUntil] ++ Layout.bytes c.common.memo ++
        [bit t1, bit t2, bit t3, bit s.isOdd, bit r.isOdd, Layout.u64 tok, Layout.u64 amt, .num 0 1]) := by
    intro s r t1 t2 t3 tok amt
    rw [← build_eq_buildL]
    have := LaidL.cons (laidL_field c.common.feePayer.x) <| LaidL.cons (laidL_field s.x) <| LaidL.cons (laidL_field r.x) <|
      LaidL.cons (laidL_u64 c.common.fee) <| LaidL.cons (laidL_u64 c.common.feeToken) <|
      LaidL.cons (laidL_bool c.common.feePayer.isOdd) <| LaidL.cons (laidL_u32 c.common.nonce) <|
      LaidL.cons (laidL_u32 c.common.validUntil) <| LaidL.cons (laidL_bytes c.common.memo) <|
      LaidL.cons (laidL_bool t1) <| LaidL.cons (laidL_bool t2) <| LaidL.cons (laidL_bool t3) <|
      LaidL.cons (laidL_bool s.isOdd) <| LaidL.cons (laidL_bool r.isOdd) <| LaidL.cons (laidL_u64 tok) <|
      LaidL.cons (laidL_u64 amt) <| LaidL.cons (laidL_bool false) LaidL.nil
    exact LaidL.cast this (by simp [bit, List.append_assoc])
  have h : LaidL (.ok c.roinput) ([.field c.common.feePayer.x.val, .field (parties c.body).1.x.val,
      .field (parties c.body).2.x.val, Layout.u64 c.common.fee, Layout.u64 c.common.feeToken,
      bit c.common.feePayer.isOdd, Layout.u32 c.common.nonce, Layout.u32 c.common.validUntil] ++
      Layout.bytes c.common.memo ++ commandBody c.body) := by
    unfold Payload.roinput
    cases c.body with
    | payment s r tok amt => exact head s r false false false tok amt
    | delegation d n => exact head d n false false true 1 0
  rw [← build_eq_buildL]
  have := LaidL.cons h <| LaidL.cons (laidL_field x) <| LaidL.cons (laidL_field y) <| LaidL.cons (laidL_field z) LaidL.nil
  exact LaidL.cast this (by simp [signed, List.append_assoc])

/-- **C97.** What is signed for a command: the packed table of the command, the signer's key and the nonce
commitment, under the domain string of the network. -/
theorem C97_command {σ : Type} (H : String → List Fp → Fp) (V : (Fp × Fp) → σ → Fp → Bool) (rx : σ → Fp)
    (n : Network) (pk : Fp × Fp) (sig : σ) (c : Payload) :
    ∃ r, PackedLegacy (signed c pk.1 pk.2 (rx sig)) r ∧
      verifyPayload H V rx n pk sig c = V pk sig (H (match n with
        | .mainnet => "MinaSignatureMainnet"
        | .testnet => "CodaSignature") r) := by
  obtain ⟨d, e, h1, h2⟩ := laidL_command c pk.1 pk.2 (rx sig)
  cases Except.ok.inj e
  refine ⟨_, LaidL.packed h1 h2, ?_⟩
  cases n <;> rfl

/-! ## Concrete cases -/

/-- The hypotheses are met by accounts and states with hashes that are field elements. -/
example : IsField plainAccount.votingFor ∧ IsField plainAccount.receiptChainHash ∧
    (∀ x ∈ stateHashes ⟨zero32, sampleBody⟩, IsField x) ∧
    (∀ x ∈ stateHashesLegacy ⟨zero32, sampleBodyLegacy⟩, IsField x) := by
  unfold IsField
  decide +kernel

/-- A payment of 256 units of token 256 with a memo of 34 bytes. -/
def samplePayment : Payload :=
  ⟨⟨10, 1, ⟨5, true⟩, 7, 1000, List.replicate 34 0⟩, .payment ⟨5, false⟩ ⟨6, false⟩ 256 256⟩

/-- A table of a payment: the memo of 34 bytes, one bit at a time. -/
example : (numsOf (signed samplePayment 1 2 3)).length = 5 + 34 * 8 + 8 ∧ fieldsOf (signed samplePayment 1 2 3) = [5, 5, 6, 1, 2, 3] ∧
    (bitsOf (signed samplePayment 1 2 3)).length = 599 := by
  decide +kernel

end MinaRs.Hash
