import Verif.Json.Spec

/-!
# The JSON form of a block

The JSON schema of `ExternalTransition` and everything in it.  Each definition lists the fields of one
`...Json` type in order, with the version layers of the wire type it converts to.  Line numbers are in
`protocol/serialization-types/src`.
-/

namespace MinaRs.Json.Block

/-- Fields in order (`derive(Serialize, Deserialize)` of the json types,
`protocol/serialization-types/src/macros.rs`). -/
def fields (xs : List (String × JTy)) (rest : JTys := .nil) : JTys :=
  xs.foldr (fun x ts => .cons x.1 x.2 ts) rest

/-- Unnamed fields in order (`derive(Serialize, Deserialize)` of the json types,
`protocol/serialization-types/src/macros.rs`). -/
def items (xs : List JTy) (rest : JTys := .nil) : JTys :=
  xs.foldr (fun x ts => .cons "" x ts) rest

/-- A trailing `#[serde(skip)] ()` (`protocol/serialization-types/src/common.rs:86-91`). -/
def unitEnd : JTys := .skip "" .unit .nil

/-- Variants in order (`derive(Serialize, Deserialize)` of the json types,
`protocol/serialization-types/src/macros.rs`). -/
def variants (xs : List (String × JPay)) : JVars := xs.foldr (fun x vs => .cons x.1 x.2 vs) .nil

/-- `Versioned<T, V>` (`protocol/versioned/src/lib.rs:20-26`), absent in JSON. -/
def v1 (t : JTy) : JTy := .versioned t
/-- Two layers of it, as in `common.rs:137`. -/
def v2 (t : JTy) : JTy := .versioned (.versioned t)
/-- Three layers of it, as in `common.rs:175`. -/
def v3 (t : JTy) : JTy := .versioned (v2 t)

/-! ## Shared parts (`common.rs`, `version_bytes.rs`, `signatures.rs`) -/

/-- `LengthV1`, `DeltaV1`, `GlobalSlotNumberV1` (`common.rs:136-144`) -/
def u32 : JTy := v2 (.leaf .u32)
/-- `AmountV1` (`common.rs:146-148`) -/
def u64 : JTy := v2 (.leaf .u64)
/-- `ExtendedU64_3` (`common.rs:174-175`) -/
def tokenId : JTy := v3 (.leaf .u64)
/-- `ExtendedU64_3` (`common.rs:174-175`) -/
def balance : JTy := v3 (.leaf .u64)
/-- `AmountV1` as a decimal number (`common.rs:147-149`) -/
def fee : JTy := v2 (.leaf .decimal)
/-- `HashV1Json` with a version byte (`common.rs:396-397`) -/
def hash (ver : UInt8) : JTy := .leaf (.base58Bin ver hashV1)
/-- `LedgerHashV1Json` (`common.rs:419-420`) -/
def ledgerHash : JTy := hash 0x05
/-- `StateHashV1Json` (`common.rs:431-432`) -/
def stateHash : JTy := hash 0x10
/-- `signatures.rs:63-69` -/
def publicKey : JTy := .newtype (v2 (.leaf .publicKey))
/-- `FieldElementJson` (`field_and_curve_elements.rs:128-130`) -/
def field : JTy := .leaf .field
/-- `field_and_curve_elements.rs:34-41` -/
def point : JTy := .tuple (items [field, field])
/-- `field_and_curve_elements.rs:76-113` -/
def ecPoint : JTy := v1 (.listEnum false false (variants [("Infinite", .unit), ("Finite", .newtype point)]))

/-! ## Proofs -/

/-- `Hex64V1` (`common.rs:86-91, 178`) -/
def hex64 : JTy := v1 (.leaf .i64)
/-- `bulletproof_challenges.rs:176-183` -/
def scalarChallenge : JTy := v1 (.tuple (items [hex64, hex64] unitEnd))
/-- `bulletproof_challenges.rs:149-174` -/
def preChallenge : JTy := v1 (.listEnum false false (variants [("Scalar_challenge", .newtype scalarChallenge)]))
/-- `bulletproof_challenges.rs:13-24` -/
def challenge : JTy := v1 (.struct (fields [("prechallenge", preChallenge)]))
/-- `bulletproof_challenges.rs:54-100` -/
def tuple17 : JTy := v3 (.tuple (items (List.replicate 17 challenge) unitEnd))
/-- `bulletproof_challenges.rs:102-147` -/
def tuple18 : JTy := v2 (.tuple (items (List.replicate 18 challenge) unitEnd))
/-- `protocol_state_proof.rs:119-138` -/
def plonk : JTy := v1 (.struct (fields
  [("alpha", preChallenge), ("beta", scalarChallenge), ("gamma", scalarChallenge), ("zeta", preChallenge)]))
/-- `protocol_state_proof.rs:140-160` -/
def shiftedValue : JTy := v1 (.listEnum false true (variants [("Shifted_value", .newtype field)]))
/-- `protocol_state_proof.rs:96-117` -/
def deferredValues : JTy := v1 (.struct (fields
  [("plonk", plonk), ("combined_inner_product", shiftedValue), ("b", shiftedValue), ("xi", preChallenge),
    ("bulletproof_challenges", tuple18), ("which_branch", v1 (.leaf .char))]))
/-- `protocol_state_proof.rs:162-182` -/
def spongeDigest : JTy := v2 (.tuple (items [hex64, hex64, hex64, hex64] unitEnd))
/-- `protocol_state_proof.rs:184-197`, `bulletproof_challenges.rs:36-52` -/
def meOnly : JTy := v1 (.struct (fields
  [("sg", point), ("old_bulletproof_challenges", v1 (.tuple (items [tuple17, tuple17] unitEnd)))]))
/-- `protocol_state_proof.rs:80-94` -/
def proofState : JTy := v1 (.struct (fields
  [("deferred_values", deferredValues), ("sponge_digest_before_evaluations", spongeDigest), ("me_only", meOnly)]))
/-- `protocol_state_proof.rs:199-214`, `bulletproof_challenges.rs:26-34` -/
def passThrough : JTy := v1 (.struct (fields
  [("app_state", .unit), ("sg", v1 (.newtype (.seq point))),
    ("old_bulletproof_challenges", v1 (.newtype (.seq tuple18)))]))
/-- `field_and_curve_elements.rs:20-32` -/
def fieldVec : JTy := v1 (.newtype (.seq field))
/-- `proof_evaluations.rs:13-38` -/
def evaluations : JTy := v1 (.struct (fields
  [("l", fieldVec), ("r", fieldVec), ("o", fieldVec), ("z", fieldVec), ("t", fieldVec), ("f", fieldVec),
    ("sigma1", fieldVec), ("sigma2", fieldVec)]))
/-- `proof_messages.rs:34-42` -/
def pointList : JTy := v2 (.newtype (.seq point))
/-- `proof_messages.rs:13-57` -/
def messages : JTy := v1 (.struct (fields
  [("l_comm", pointList), ("r_comm", pointList), ("o_comm", pointList), ("z_comm", pointList),
    ("t_comm", v1 (.struct (fields [("unshifted", v1 (.newtype (.seq ecPoint))), ("shifted", ecPoint)])))]))
/-- `opening_proof.rs:17-36`, `field_and_curve_elements.rs:54-73` -/
def openingProof : JTy := v1 (.struct (fields
  [("lr", v1 (.newtype (.seq (.tuple (items [point, point]))))), ("z_1", field), ("z_2", field), ("delta", point),
    ("sg", point)]))
/-- `protocol_state_proof.rs:231-270` -/
def innerProof : JTy := v2 (.struct (fields
  [("messages", messages),
    ("openings", v1 (.struct (fields
      [("proof", openingProof), ("evals", .tuple (items [evaluations, evaluations]))])))]))
/-- `protocol_state_proof.rs:14-35, 68-78, 216-229` (`ProtocolStateProofJson`) -/
def proof : JTy := v2 (v2 (.struct (fields
  [("statement", v2 (.struct (fields [("proof_state", proofState), ("pass_through", passThrough)]))),
    ("prev_evals", v1 (.tuple (items [evaluations, evaluations]))),
    ("prev_x_hat", v1 (.newtype point)),
    ("proof", innerProof)])))

/-! ## Protocol state -/

/-- `blockchain_state.rs:13-83` -/
def blockchainState : JTy := v2 (.struct (fields
  [("staged_ledger_hash", v2 (.struct (fields
      [("non_snark", v1 (.struct (fields
          [("ledger_hash", ledgerHash), ("aux_hash", v1 (.leaf (.base58Bytes 0x0e))),
            ("pending_coinbase_aux", v1 (.leaf (.base58Bytes 0x0f)))]))),
        ("pending_coinbase_hash", v1 (hash 0x0c))]))),
    ("snarked_ledger_hash", ledgerHash),
    ("genesis_ledger_hash", ledgerHash),
    ("snarked_next_available_token", tokenId),
    ("timestamp", u64)]))
/-- `epoch_data.rs:16-70` -/
def epochData : JTy := v2 (.struct (fields
  [("ledger", v2 (.struct (fields [("hash", ledgerHash), ("total_currency", u64)]))),
    ("seed", hash 0x0d), ("start_checkpoint", stateHash), ("lock_checkpoint", stateHash), ("epoch_length", u32)]))
/-- `consensus_state.rs:96-167`, `global_slot.rs:15-35` -/
def consensusState : JTy := v2 (.struct (fields
  [("blockchain_length", u32), ("epoch_count", u32), ("min_window_density", u32), ("sub_window_densities", .seq u32),
    ("last_vrf_output", v1 (.leaf .base64Bytes)), ("total_currency", u64),
    ("curr_global_slot", v2 (.struct (fields [("slot_number", u32), ("slots_per_epoch", u32)]))),
    ("global_slot_since_genesis", u32), ("staking_epoch_data", epochData), ("next_epoch_data", epochData),
    ("has_ancestor_in_same_checkpoint_window", .bool), ("block_stake_winner", publicKey),
    ("block_creator", publicKey), ("coinbase_receiver", publicKey), ("supercharge_coinbase", .bool)]))
/-- `protocol_constants.rs:16-48` -/
def constants : JTy := v2 (.struct (fields
  [("k", u32), ("slots_per_epoch", u32), ("slots_per_sub_window", u32), ("delta", u32),
    ("genesis_state_timestamp", u64)]))
/-- `protocol_state_body.rs:12-39` -/
def protocolStateBody : JTy := v2 (.struct (fields
  [("genesis_state_hash", stateHash), ("blockchain_state", blockchainState), ("consensus_state", consensusState),
    ("constants", constants)]))
/-- `protocol_state.rs:10-31` -/
def protocolState : JTy := v2 (.struct (fields
  [("previous_state_hash", stateHash), ("body", protocolStateBody)]))

/-! ## Staged ledger diff -/

/-- `staged_ledger_diff.rs:132-154, 237-273` -/
def common : JTy := v3 (.struct (fields
  [("fee", fee), ("fee_token", tokenId), ("fee_payer_pk", publicKey), ("nonce", v2 (.leaf .extU32)),
    ("valid_until", v2 (.leaf .extU32)), ("memo", v1 (.leaf .memo))]))
/-- `staged_ledger_diff.rs:187-204` -/
def payment : JTy := v2 (.struct (fields
  [("source_pk", publicKey), ("receiver_pk", publicKey), ("token_id", tokenId), ("amount", u64)]))
/-- `staged_ledger_diff.rs:206-235` -/
def stakeDelegation : JTy := v1 (.listEnum false true (variants
  [("Set_delegate", .struct (fields [("delegator", publicKey), ("new_delegate", publicKey)]))]))
/-- `staged_ledger_diff.rs:156-187` -/
def body : JTy := v2 (.listEnum false false (variants
  [("Payment", .newtype payment), ("Stake_delegation", .newtype stakeDelegation)]))
/-- `staged_ledger_diff.rs:100-130`, `signatures.rs:71-113` -/
def signedCommand : JTy := v2 (.struct (fields
  [("payload", v2 (.struct (fields [("common", common), ("body", body)]))),
    ("signer", .newtype (v1 publicKey)),
    ("signature", .newtype (v1 (.leaf (.base58Bin 0x9a (versionedTy
      (.tuple (.cons "" arr32 (.cons "" arr32 .nil))))))))]))
/-- `staged_ledger_diff.rs:320-335` -/
def auxiliaryData : JTy := v1 (.struct (fields
  [("fee_payer_account_creation_fee_paid", .option u64), ("receiver_account_creation_fee_paid", .option u64),
    ("created_token", .option tokenId)]))
/-- `staged_ledger_diff.rs:442-457` -/
def balanceData : JTy := v1 (.struct (fields
  [("fee_payer_balance", .option balance), ("source_balance", .option balance), ("receiver_balance", .option balance)]))
/-- `staged_ledger_diff.rs:337-440` -/
def failure : JTy := v1 (.tagEnum (variants (List.map (fun n => (n, JPay.unit))
  ["Predicate", "Source_not_present", "Receiver_not_present", "Amount_insufficient_to_create_account",
    "Cannot_pay_creation_fee_in_token", "Source_insufficient_balance", "Source_minimum_balance_violation",
    "Receiver_already_exists", "Not_token_owner", "Mismatched_token_permissions", "Overflow",
    "Signed_command_on_snapp_account", "Snapp_account_not_present", "Update_not_permitted", "Incorrect_nonce"])))
/-- `staged_ledger_diff.rs:278-318` -/
def status : JTy := v1 (.listEnum false true (variants
  [("Applied", .tuple (items [auxiliaryData, balanceData])),
    ("Failed", .tuple (items [.seq failure, balanceData]))]))
/-- `staged_ledger_diff.rs:62-98` -/
def userCommand : JTy := v1 (.struct (fields
  [("data", v2 (.listEnum false true (variants [("Signed_command", .newtype signedCommand)]))), ("status", status)]))
/-- `staged_ledger_diff.rs:495-508` -/
def feeTransfer : JTy := v2 (.struct (fields [("receiver_pk", publicKey), ("fee", fee)]))
/-- `staged_ledger_diff.rs:459-493` -/
def coinbase : JTy := v1 (.listEnum false true (variants
  [("Zero", .unit), ("One", .newtype (.option feeTransfer)),
    ("Two", .tuple (items [.option feeTransfer, .option feeTransfer]))]))
/-- `staged_ledger_diff.rs:510-569` -/
def internalBalance : JTy := v1 (.listEnum false true (variants
  [("Coinbase", .newtype (v1 (.struct (fields
      [("coinbase_receiver_balance", balance), ("fee_transfer_receiver_balance", .option balance)])))),
    ("Fee_transfer", .newtype (v1 (.struct (fields
      [("receiver1_balance", balance), ("receiver2_balance", .option balance)]))))]))

/-- `snark_work.rs:124-157` (`PendingCoinbaseJson`, `StateStackJson`) -/
def coinbaseStack : JTy := v2 (.struct (fields
  [("data", hash 0x17), ("state", v2 (.struct (fields [("init", hash 0x18), ("curr", hash 0x18)])))]))
/-- `snark_work.rs:159-170, 181-221` (`FeeExcessJson`, `SignedJson`, `SgnTypeJson`) -/
def feeExcess : JTy := .struct (fields
  [("token", tokenId),
    ("amount", v1 (.struct (fields
      [("magnitude", fee), ("sgn", v1 (.listEnum false true (variants [("Pos", .unit), ("Neg", .unit)])))])))])
/-- `snark_work.rs:78-122, 172-179` (`StatementJson`) -/
def statement : JTy := v2 (.struct (fields
  [("source", ledgerHash), ("target", ledgerHash), ("supply_increase", u64),
    ("pending_coinbase_stack_state", v2 (.struct (fields [("source", coinbaseStack), ("target", coinbaseStack)]))),
    ("fee_excess", v2 (.tuple (items [feeExcess, feeExcess]))),
    ("next_available_token_before", tokenId), ("next_available_token_after", tokenId),
    ("sok_digest", v1 (.leaf .byteVec))]))
/-- `snark_work.rs:59-76` (`TransactionSnarkJson`) -/
def ledgerProof : JTy := v2 (.struct (fields [("statement", statement), ("proof", proof)]))
/-- `snark_work.rs:12-57` (`TransactionSnarkWorkJson`, `OneORTwoJson`) -/
def snarkWork : JTy := v1 (.struct (fields
  [("fee", fee),
    ("proofs", v1 (.listEnum true true (variants
      [("One", .newtype ledgerProof), ("Two", .tuple (items [ledgerProof, ledgerProof]))]))),
    ("prover", publicKey)]))

/-- `staged_ledger_diff.rs:43-60` -/
def preDiff : JTy := v2 (.struct (fields
  [("completed_works", .seq snarkWork), ("commands", .seq userCommand), ("coinbase", coinbase),
    ("internal_command_balances", .seq internalBalance)]))
/-- `staged_ledger_diff.rs:15-41` -/
def stagedLedgerDiff : JTy := v1 (.struct (fields
  [("diff", v1 (.tuple (items [preDiff, .option preDiff])))]))

/-! ## Blocks -/

/-- `delta_transition_chain_proof.rs:10-17` -/
def deltaProof : JTy := .tuple (items [ledgerHash, .seq ledgerHash])

/-- `external_transition.rs:22-70` (`ExternalTransitionJson`) -/
def externalTransition : JTy := .struct (fields
  [("protocol_state", protocolState), ("protocol_state_proof", .leaf (.base64Bin proof.wire)),
    ("staged_ledger_diff", stagedLedgerDiff), ("delta_transition_chain_proof", deltaProof)]
  (.skip "current_protocol_version" .protocolVersion
    (.skip "proposed_protocol_version_opt" .optProtocolVersion
      (.skip "validation_callback" .unit .nil))))

/-- `external_transition.rs:44` (`ExternalTransitionV1`) -/
def block : JTy := v1 externalTransition

set_option maxRecDepth 20000 in
theorem proof_sound : proof.Sound = true := by decide +kernel

set_option maxRecDepth 20000 in
theorem block_sound : block.Sound = true := by decide +kernel

end MinaRs.Json.Block
