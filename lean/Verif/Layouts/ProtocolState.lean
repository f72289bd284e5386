import Verif.BinProt.Loose

/-!
# The layout of a protocol state

The `bin_prot_rule` of `protocol/layouts/protocol_state.json`, transcribed mechanically: one definition for every distinct compound rule,
with the place in the file where it first stands.  Members of a reference other than its module path and rule are left out, as in
`BinProt.Rule`.
-/

namespace MinaRs.Layouts.ProtocolState
open BinProt

/-- `protocol/layouts/protocol_state.json:89-92` -/
def r0 : Rule := .custom []
/-- `protocol/layouts/protocol_state.json:80-95` -/
def r1 : Rule := .reference "Snark_params.Tick" r0
/-- `protocol/layouts/protocol_state.json:67-98` -/
def r2 : Rule := .record [("version", (.int .int)), ("t", r1)]
/-- `protocol/layouts/protocol_state.json:58-101` -/
def r3 : Rule := .reference "State_hash" r2
/-- `protocol/layouts/protocol_state.json:368-411` -/
def r4 : Rule := .reference "Ledger_hash0" r2
/-- `protocol/layouts/protocol_state.json:438-452` -/
def r5 : Rule := .reference "Staged_ledger_hash.Aux_hash.Stable.V1" .string
/-- `protocol/layouts/protocol_state.json:425-455` -/
def r6 : Rule := .record [("version", (.int .int)), ("t", r5)]
/-- `protocol/layouts/protocol_state.json:416-458` -/
def r7 : Rule := .reference "Staged_ledger_hash.Aux_hash" r6
/-- `protocol/layouts/protocol_state.json:485-499` -/
def r8 : Rule := .reference "Staged_ledger_hash.Pending_coinbase_aux.Stable.V1" .string
/-- `protocol/layouts/protocol_state.json:472-502` -/
def r9 : Rule := .record [("version", (.int .int)), ("t", r8)]
/-- `protocol/layouts/protocol_state.json:463-505` -/
def r10 : Rule := .reference "Staged_ledger_hash.Pending_coinbase_aux" r9
/-- `protocol/layouts/protocol_state.json:362-508` -/
def r11 : Rule := .record [("ledger_hash", r4), ("aux_hash", r7), ("pending_coinbase_aux", r10)]
/-- `protocol/layouts/protocol_state.json:353-511` -/
def r12 : Rule := .reference "Staged_ledger_hash.Non_snark.Stable.V1" r11
/-- `protocol/layouts/protocol_state.json:340-514` -/
def r13 : Rule := .record [("version", (.int .int)), ("t", r12)]
/-- `protocol/layouts/protocol_state.json:331-517` -/
def r14 : Rule := .reference "Staged_ledger_hash.Non_snark" r13
/-- `protocol/layouts/protocol_state.json:544-587` -/
def r15 : Rule := .reference "Pending_coinbase.Hash_builder" r2
/-- `protocol/layouts/protocol_state.json:531-590` -/
def r16 : Rule := .record [("version", (.int .int)), ("t", r15)]
/-- `protocol/layouts/protocol_state.json:522-593` -/
def r17 : Rule := .reference "Pending_coinbase.Hash_versioned" r16
/-- `protocol/layouts/protocol_state.json:325-596` -/
def r18 : Rule := .record [("non_snark", r14), ("pending_coinbase_hash", r17)]
/-- `protocol/layouts/protocol_state.json:316-599` -/
def r19 : Rule := .reference "Staged_ledger_hash.Poly.Stable.V1" r18
/-- `protocol/layouts/protocol_state.json:303-602` -/
def r20 : Rule := .record [("version", (.int .int)), ("t", r19)]
/-- `protocol/layouts/protocol_state.json:294-605` -/
def r21 : Rule := .reference "Staged_ledger_hash.Poly" r20
/-- `protocol/layouts/protocol_state.json:281-608` -/
def r22 : Rule := .record [("version", (.int .int)), ("t", r21)]
/-- `protocol/layouts/protocol_state.json:272-611` -/
def r23 : Rule := .reference "Staged_ledger_hash" r22
/-- `protocol/layouts/protocol_state.json:778-792` -/
def r24 : Rule := .reference "Unsigned_extended.UInt64" (.int .int64)
/-- `protocol/layouts/protocol_state.json:765-795` -/
def r25 : Rule := .record [("version", (.int .int)), ("t", r24)]
/-- `protocol/layouts/protocol_state.json:756-798` -/
def r26 : Rule := .reference "Unsigned_extended.UInt64" r25
/-- `protocol/layouts/protocol_state.json:743-801` -/
def r27 : Rule := .record [("version", (.int .int)), ("t", r26)]
/-- `protocol/layouts/protocol_state.json:734-804` -/
def r28 : Rule := .reference "Nat.Make64" r27
/-- `protocol/layouts/protocol_state.json:721-807` -/
def r29 : Rule := .record [("version", (.int .int)), ("t", r28)]
/-- `protocol/layouts/protocol_state.json:712-810` -/
def r30 : Rule := .reference "Token_id" r29
/-- `protocol/layouts/protocol_state.json:815-885` -/
def r31 : Rule := .reference "Block_time.Time" r27
/-- `protocol/layouts/protocol_state.json:266-888` -/
def r32 : Rule := .record [("staged_ledger_hash", r23), ("snarked_ledger_hash", r4), ("genesis_ledger_hash", r4),
  ("snarked_next_available_token", r30), ("timestamp", r31)]
/-- `protocol/layouts/protocol_state.json:257-891` -/
def r33 : Rule := .reference "Blockchain_state.Poly.Stable.V1" r32
/-- `protocol/layouts/protocol_state.json:244-894` -/
def r34 : Rule := .record [("version", (.int .int)), ("t", r33)]
/-- `protocol/layouts/protocol_state.json:235-897` -/
def r35 : Rule := .reference "Blockchain_state.Poly" r34
/-- `protocol/layouts/protocol_state.json:222-900` -/
def r36 : Rule := .record [("version", (.int .int)), ("t", r35)]
/-- `protocol/layouts/protocol_state.json:213-903` -/
def r37 : Rule := .reference "Blockchain_state.Value" r36
/-- `protocol/layouts/protocol_state.json:1011-1025` -/
def r38 : Rule := .reference "Unsigned_extended.UInt32" (.int .int32)
/-- `protocol/layouts/protocol_state.json:998-1028` -/
def r39 : Rule := .record [("version", (.int .int)), ("t", r38)]
/-- `protocol/layouts/protocol_state.json:989-1031` -/
def r40 : Rule := .reference "Unsigned_extended.UInt32" r39
/-- `protocol/layouts/protocol_state.json:976-1034` -/
def r41 : Rule := .record [("version", (.int .int)), ("t", r40)]
/-- `protocol/layouts/protocol_state.json:967-1037` -/
def r42 : Rule := .reference "Nat.Make32" r41
/-- `protocol/layouts/protocol_state.json:1192-1265` -/
def r43 : Rule := .list r42
/-- `protocol/layouts/protocol_state.json:1292-1306` -/
def r44 : Rule := .reference "Proof_of_stake.Data.Vrf.Output.Truncated.Stable.V1" .string
/-- `protocol/layouts/protocol_state.json:1279-1309` -/
def r45 : Rule := .record [("version", (.int .int)), ("t", r44)]
/-- `protocol/layouts/protocol_state.json:1270-1312` -/
def r46 : Rule := .reference "Proof_of_stake.Data.Vrf.Output.Truncated" r45
/-- `protocol/layouts/protocol_state.json:1317-1387` -/
def r47 : Rule := .reference "Currency.Amount" r27
/-- `protocol/layouts/protocol_state.json:1445-1599` -/
def r48 : Rule := .record [("slot_number", r42), ("slots_per_epoch", r42)]
/-- `protocol/layouts/protocol_state.json:1436-1602` -/
def r49 : Rule := .reference "Global_slot.Poly.Stable.V1" r48
/-- `protocol/layouts/protocol_state.json:1423-1605` -/
def r50 : Rule := .record [("version", (.int .int)), ("t", r49)]
/-- `protocol/layouts/protocol_state.json:1414-1608` -/
def r51 : Rule := .reference "Global_slot.Poly" r50
/-- `protocol/layouts/protocol_state.json:1401-1611` -/
def r52 : Rule := .record [("version", (.int .int)), ("t", r51)]
/-- `protocol/layouts/protocol_state.json:1392-1614` -/
def r53 : Rule := .reference "Global_slot" r52
/-- `protocol/layouts/protocol_state.json:1806-1933` -/
def r54 : Rule := .record [("hash", r4), ("total_currency", r47)]
/-- `protocol/layouts/protocol_state.json:1797-1936` -/
def r55 : Rule := .reference "Epoch_ledger.Poly.Stable.V1" r54
/-- `protocol/layouts/protocol_state.json:1784-1939` -/
def r56 : Rule := .record [("version", (.int .int)), ("t", r55)]
/-- `protocol/layouts/protocol_state.json:1775-1942` -/
def r57 : Rule := .reference "Epoch_ledger.Poly" r56
/-- `protocol/layouts/protocol_state.json:1762-1945` -/
def r58 : Rule := .record [("version", (.int .int)), ("t", r57)]
/-- `protocol/layouts/protocol_state.json:1753-1948` -/
def r59 : Rule := .reference "Epoch_ledger.Value" r58
/-- `protocol/layouts/protocol_state.json:1953-1996` -/
def r60 : Rule := .reference "Epoch_seed" r2
/-- `protocol/layouts/protocol_state.json:1747-2170` -/
def r61 : Rule := .record [("ledger", r59), ("seed", r60), ("start_checkpoint", r3), ("lock_checkpoint", r3), ("epoch_length",
  r42)]
/-- `protocol/layouts/protocol_state.json:1738-2173` -/
def r62 : Rule := .reference "Epoch_data.Poly.Stable.V1" r61
/-- `protocol/layouts/protocol_state.json:1725-2176` -/
def r63 : Rule := .record [("version", (.int .int)), ("t", r62)]
/-- `protocol/layouts/protocol_state.json:1716-2179` -/
def r64 : Rule := .reference "Epoch_data.Poly" r63
/-- `protocol/layouts/protocol_state.json:1703-2182` -/
def r65 : Rule := .record [("version", (.int .int)), ("t", r64)]
/-- `protocol/layouts/protocol_state.json:1694-2185` -/
def r66 : Rule := .reference "Proof_of_stake.Data.Epoch_data.Staking_value_versioned.Value" r65
/-- `protocol/layouts/protocol_state.json:2190-2681` -/
def r67 : Rule := .reference "Proof_of_stake.Data.Epoch_data.Next_value_versioned.Value" r65
/-- `protocol/layouts/protocol_state.json:2746-2777` -/
def r68 : Rule := .record [("x", r1), ("is_odd", .bool)]
/-- `protocol/layouts/protocol_state.json:2737-2780` -/
def r69 : Rule := .reference "Compressed_poly.Poly.Stable.V1" r68
/-- `protocol/layouts/protocol_state.json:2724-2783` -/
def r70 : Rule := .record [("version", (.int .int)), ("t", r69)]
/-- `protocol/layouts/protocol_state.json:2715-2786` -/
def r71 : Rule := .reference "Compressed_poly.Poly" r70
/-- `protocol/layouts/protocol_state.json:2702-2789` -/
def r72 : Rule := .record [("version", (.int .int)), ("t", r71)]
/-- `protocol/layouts/protocol_state.json:2693-2792` -/
def r73 : Rule := .reference "Non_zero_curve_point.Compressed" r72
/-- `protocol/layouts/protocol_state.json:961-3010` -/
def r74 : Rule := .record [("blockchain_length", r42), ("epoch_count", r42), ("min_window_density", r42),
  ("sub_window_densities", r43), ("last_vrf_output", r46), ("total_currency", r47), ("curr_global_slot", r53),
  ("global_slot_since_genesis", r42), ("staking_epoch_data", r66), ("next_epoch_data", r67),
  ("has_ancestor_in_same_checkpoint_window", .bool), ("block_stake_winner", r73), ("block_creator", r73), ("coinbase_receiver",
  r73), ("supercharge_coinbase", .bool)]
/-- `protocol/layouts/protocol_state.json:952-3013` -/
def r75 : Rule := .reference "Proof_of_stake.Data.Consensus_state.Poly.Stable.V1" r74
/-- `protocol/layouts/protocol_state.json:939-3016` -/
def r76 : Rule := .record [("version", (.int .int)), ("t", r75)]
/-- `protocol/layouts/protocol_state.json:930-3019` -/
def r77 : Rule := .reference "Proof_of_stake.Data.Consensus_state.Poly" r76
/-- `protocol/layouts/protocol_state.json:917-3022` -/
def r78 : Rule := .record [("version", (.int .int)), ("t", r77)]
/-- `protocol/layouts/protocol_state.json:908-3025` -/
def r79 : Rule := .reference "Proof_of_stake.Data.Consensus_state.Value" r78
/-- `protocol/layouts/protocol_state.json:3083-3462` -/
def r80 : Rule := .record [("k", r42), ("slots_per_epoch", r42), ("slots_per_sub_window", r42), ("delta", r42),
  ("genesis_state_timestamp", r31)]
/-- `protocol/layouts/protocol_state.json:3074-3465` -/
def r81 : Rule := .reference "Genesis_constants.Protocol.Poly.Stable.V1" r80
/-- `protocol/layouts/protocol_state.json:3061-3468` -/
def r82 : Rule := .record [("version", (.int .int)), ("t", r81)]
/-- `protocol/layouts/protocol_state.json:3052-3471` -/
def r83 : Rule := .reference "Genesis_constants.Protocol.Poly" r82
/-- `protocol/layouts/protocol_state.json:3039-3474` -/
def r84 : Rule := .record [("version", (.int .int)), ("t", r83)]
/-- `protocol/layouts/protocol_state.json:3030-3477` -/
def r85 : Rule := .reference "Protocol_constants_checked.Value" r84
/-- `protocol/layouts/protocol_state.json:159-3480` -/
def r86 : Rule := .record [("genesis_state_hash", r3), ("blockchain_state", r37), ("consensus_state", r79), ("constants", r85)]
/-- `protocol/layouts/protocol_state.json:150-3483` -/
def r87 : Rule := .reference "Protocol_state.Body.Poly.Stable.V1" r86
/-- `protocol/layouts/protocol_state.json:137-3486` -/
def r88 : Rule := .record [("version", (.int .int)), ("t", r87)]
/-- `protocol/layouts/protocol_state.json:128-3489` -/
def r89 : Rule := .reference "Protocol_state.Body.Poly" r88
/-- `protocol/layouts/protocol_state.json:115-3492` -/
def r90 : Rule := .record [("version", (.int .int)), ("t", r89)]
/-- `protocol/layouts/protocol_state.json:106-3495` -/
def r91 : Rule := .reference "Protocol_state.Body.Value" r90
/-- `protocol/layouts/protocol_state.json:52-3498` -/
def r92 : Rule := .record [("previous_state_hash", r3), ("body", r91)]
/-- `protocol/layouts/protocol_state.json:43-3501` -/
def r93 : Rule := .reference "Protocol_state.Poly.Stable.V1" r92
/-- `protocol/layouts/protocol_state.json:30-3504` -/
def r94 : Rule := .record [("version", (.int .int)), ("t", r93)]
/-- `protocol/layouts/protocol_state.json:21-3507` -/
def r95 : Rule := .reference "Protocol_state.Poly" r94
/-- `protocol/layouts/protocol_state.json:8-3510` -/
def r96 : Rule := .record [("version", (.int .int)), ("t", r95)]

/-- The layout: `protocol/layouts/protocol_state.json:8-3510`. -/
def rule : Rule := r96

end MinaRs.Layouts.ProtocolState
