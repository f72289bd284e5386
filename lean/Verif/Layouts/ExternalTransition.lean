import Verif.BinProt.Loose

/-!
# The layout of a block

The `bin_prot_rule` of `protocol/layouts/external_transition.json`, transcribed mechanically: one definition for every distinct compound rule,
with the place in the file where it first stands.  Members of a reference other than its module path and rule are left out, as in
`BinProt.Rule`.  The file is one line, so places are given in characters.
-/

namespace MinaRs.Layouts.ExternalTransition
open BinProt

/-- `protocol/layouts/external_transition.json:1, characters 2167-2179` -/
def r0 : Rule := .custom []
/-- `protocol/layouts/external_transition.json:1, characters 2031-2182` -/
def r1 : Rule := .reference "Snark_params.Tick" r0
/-- `protocol/layouts/external_transition.json:1, characters 1943-2185` -/
def r2 : Rule := .record [("version", (.int .int)), ("t", r1)]
/-- `protocol/layouts/external_transition.json:1, characters 1794-2188` -/
def r3 : Rule := .reference "State_hash" r2
/-- `protocol/layouts/external_transition.json:1, characters 6244-6640` -/
def r4 : Rule := .reference "Ledger_hash0" r2
/-- `protocol/layouts/external_transition.json:1, characters 6935-7104` -/
def r5 : Rule := .reference "Staged_ledger_hash.Aux_hash.Stable.V1" .string
/-- `protocol/layouts/external_transition.json:1, characters 6847-7107` -/
def r6 : Rule := .record [("version", (.int .int)), ("t", r5)]
/-- `protocol/layouts/external_transition.json:1, characters 6681-7110` -/
def r7 : Rule := .reference "Staged_ledger_hash.Aux_hash" r6
/-- `protocol/layouts/external_transition.json:1, characters 7429-7610` -/
def r8 : Rule := .reference "Staged_ledger_hash.Pending_coinbase_aux.Stable.V1" .string
/-- `protocol/layouts/external_transition.json:1, characters 7341-7613` -/
def r9 : Rule := .record [("version", (.int .int)), ("t", r8)]
/-- `protocol/layouts/external_transition.json:1, characters 7163-7616` -/
def r10 : Rule := .reference "Staged_ledger_hash.Pending_coinbase_aux" r9
/-- `protocol/layouts/external_transition.json:1, characters 6192-7619` -/
def r11 : Rule := .record [("ledger_hash", r4), ("aux_hash", r7), ("pending_coinbase_aux", r10)]
/-- `protocol/layouts/external_transition.json:1, characters 5910-7622` -/
def r12 : Rule := .reference "Staged_ledger_hash.Non_snark.Stable.V1" r11
/-- `protocol/layouts/external_transition.json:1, characters 5822-7625` -/
def r13 : Rule := .record [("version", (.int .int)), ("t", r12)]
/-- `protocol/layouts/external_transition.json:1, characters 5655-7628` -/
def r14 : Rule := .reference "Staged_ledger_hash.Non_snark" r13
/-- `protocol/layouts/external_transition.json:1, characters 7940-8353` -/
def r15 : Rule := .reference "Pending_coinbase.Hash_builder" r2
/-- `protocol/layouts/external_transition.json:1, characters 7852-8356` -/
def r16 : Rule := .record [("version", (.int .int)), ("t", r15)]
/-- `protocol/layouts/external_transition.json:1, characters 7682-8359` -/
def r17 : Rule := .reference "Pending_coinbase.Hash_versioned" r16
/-- `protocol/layouts/external_transition.json:1, characters 5605-8362` -/
def r18 : Rule := .record [("non_snark", r14), ("pending_coinbase_hash", r17)]
/-- `protocol/layouts/external_transition.json:1, characters 5348-8365` -/
def r19 : Rule := .reference "Staged_ledger_hash.Poly.Stable.V1" r18
/-- `protocol/layouts/external_transition.json:1, characters 5260-8368` -/
def r20 : Rule := .record [("version", (.int .int)), ("t", r19)]
/-- `protocol/layouts/external_transition.json:1, characters 5024-8371` -/
def r21 : Rule := .reference "Staged_ledger_hash.Poly" r20
/-- `protocol/layouts/external_transition.json:1, characters 4936-8374` -/
def r22 : Rule := .record [("version", (.int .int)), ("t", r21)]
/-- `protocol/layouts/external_transition.json:1, characters 4779-8377` -/
def r23 : Rule := .reference "Staged_ledger_hash" r22
/-- `protocol/layouts/external_transition.json:1, characters 10060-10218` -/
def r24 : Rule := .reference "Unsigned_extended.UInt64" (.int .int64)
/-- `protocol/layouts/external_transition.json:1, characters 9972-10221` -/
def r25 : Rule := .record [("version", (.int .int)), ("t", r24)]
/-- `protocol/layouts/external_transition.json:1, characters 9808-10224` -/
def r26 : Rule := .reference "Unsigned_extended.UInt64" r25
/-- `protocol/layouts/external_transition.json:1, characters 9720-10227` -/
def r27 : Rule := .record [("version", (.int .int)), ("t", r26)]
/-- `protocol/layouts/external_transition.json:1, characters 9570-10230` -/
def r28 : Rule := .reference "Nat.Make64" r27
/-- `protocol/layouts/external_transition.json:1, characters 9482-10233` -/
def r29 : Rule := .record [("version", (.int .int)), ("t", r28)]
/-- `protocol/layouts/external_transition.json:1, characters 9334-10236` -/
def r30 : Rule := .reference "Token_id" r29
/-- `protocol/layouts/external_transition.json:1, characters 10278-10942` -/
def r31 : Rule := .reference "Block_time.Time" r27
/-- `protocol/layouts/external_transition.json:1, characters 4720-10945` -/
def r32 : Rule := .record [("staged_ledger_hash", r23), ("snarked_ledger_hash", r4), ("genesis_ledger_hash", r4),
  ("snarked_next_available_token", r30), ("timestamp", r31)]
/-- `protocol/layouts/external_transition.json:1, characters 4321-10948` -/
def r33 : Rule := .reference "Blockchain_state.Poly.Stable.V1" r32
/-- `protocol/layouts/external_transition.json:1, characters 4233-10951` -/
def r34 : Rule := .record [("version", (.int .int)), ("t", r33)]
/-- `protocol/layouts/external_transition.json:1, characters 3949-10954` -/
def r35 : Rule := .reference "Blockchain_state.Poly" r34
/-- `protocol/layouts/external_transition.json:1, characters 3861-10957` -/
def r36 : Rule := .record [("version", (.int .int)), ("t", r35)]
/-- `protocol/layouts/external_transition.json:1, characters 3700-10960` -/
def r37 : Rule := .reference "Blockchain_state.Value" r36
/-- `protocol/layouts/external_transition.json:1, characters 13125-13283` -/
def r38 : Rule := .reference "Unsigned_extended.UInt32" (.int .int32)
/-- `protocol/layouts/external_transition.json:1, characters 13037-13286` -/
def r39 : Rule := .record [("version", (.int .int)), ("t", r38)]
/-- `protocol/layouts/external_transition.json:1, characters 12873-13289` -/
def r40 : Rule := .reference "Unsigned_extended.UInt32" r39
/-- `protocol/layouts/external_transition.json:1, characters 12785-13292` -/
def r41 : Rule := .record [("version", (.int .int)), ("t", r40)]
/-- `protocol/layouts/external_transition.json:1, characters 12636-13295` -/
def r42 : Rule := .reference "Nat.Make32" r41
/-- `protocol/layouts/external_transition.json:1, characters 14761-15429` -/
def r43 : Rule := .list r42
/-- `protocol/layouts/external_transition.json:1, characters 15744-15926` -/
def r44 : Rule := .reference "Proof_of_stake.Data.Vrf.Output.Truncated.Stable.V1" .string
/-- `protocol/layouts/external_transition.json:1, characters 15656-15929` -/
def r45 : Rule := .record [("version", (.int .int)), ("t", r44)]
/-- `protocol/layouts/external_transition.json:1, characters 15477-15932` -/
def r46 : Rule := .reference "Proof_of_stake.Data.Vrf.Output.Truncated" r45
/-- `protocol/layouts/external_transition.json:1, characters 15979-16643` -/
def r47 : Rule := .reference "Currency.Amount" r27
/-- `protocol/layouts/external_transition.json:1, characters 17477-18898` -/
def r48 : Rule := .record [("slot_number", r42), ("slots_per_epoch", r42)]
/-- `protocol/layouts/external_transition.json:1, characters 17239-18901` -/
def r49 : Rule := .reference "Global_slot.Poly.Stable.V1" r48
/-- `protocol/layouts/external_transition.json:1, characters 17151-18904` -/
def r50 : Rule := .record [("version", (.int .int)), ("t", r49)]
/-- `protocol/layouts/external_transition.json:1, characters 16930-18907` -/
def r51 : Rule := .reference "Global_slot.Poly" r50
/-- `protocol/layouts/external_transition.json:1, characters 16842-18910` -/
def r52 : Rule := .record [("version", (.int .int)), ("t", r51)]
/-- `protocol/layouts/external_transition.json:1, characters 16692-18913` -/
def r53 : Rule := .reference "Global_slot" r52
/-- `protocol/layouts/external_transition.json:1, characters 21514-22669` -/
def r54 : Rule := .record [("hash", r4), ("total_currency", r47)]
/-- `protocol/layouts/external_transition.json:1, characters 21301-22672` -/
def r55 : Rule := .reference "Epoch_ledger.Poly.Stable.V1" r54
/-- `protocol/layouts/external_transition.json:1, characters 21213-22675` -/
def r56 : Rule := .record [("version", (.int .int)), ("t", r55)]
/-- `protocol/layouts/external_transition.json:1, characters 21009-22678` -/
def r57 : Rule := .reference "Epoch_ledger.Poly" r56
/-- `protocol/layouts/external_transition.json:1, characters 20921-22681` -/
def r58 : Rule := .record [("version", (.int .int)), ("t", r57)]
/-- `protocol/layouts/external_transition.json:1, characters 20764-22684` -/
def r59 : Rule := .reference "Epoch_ledger.Value" r58
/-- `protocol/layouts/external_transition.json:1, characters 22721-23115` -/
def r60 : Rule := .reference "Epoch_seed" r2
/-- `protocol/layouts/external_transition.json:1, characters 20717-24707` -/
def r61 : Rule := .record [("ledger", r59), ("seed", r60), ("start_checkpoint", r3), ("lock_checkpoint", r3), ("epoch_length",
  r42)]
/-- `protocol/layouts/external_transition.json:1, characters 20360-24710` -/
def r62 : Rule := .reference "Epoch_data.Poly.Stable.V1" r61
/-- `protocol/layouts/external_transition.json:1, characters 20272-24713` -/
def r63 : Rule := .record [("version", (.int .int)), ("t", r62)]
/-- `protocol/layouts/external_transition.json:1, characters 19968-24716` -/
def r64 : Rule := .reference "Epoch_data.Poly" r63
/-- `protocol/layouts/external_transition.json:1, characters 19880-24719` -/
def r65 : Rule := .record [("version", (.int .int)), ("t", r64)]
/-- `protocol/layouts/external_transition.json:1, characters 19681-24722` -/
def r66 : Rule := .reference "Proof_of_stake.Data.Epoch_data.Staking_value_versioned.Value" r65
/-- `protocol/layouts/external_transition.json:1, characters 24770-29808` -/
def r67 : Rule := .reference "Proof_of_stake.Data.Epoch_data.Next_value_versioned.Value" r65
/-- `protocol/layouts/external_transition.json:1, characters 30676-30918` -/
def r68 : Rule := .record [("x", r1), ("is_odd", .bool)]
/-- `protocol/layouts/external_transition.json:1, characters 30481-30921` -/
def r69 : Rule := .reference "Compressed_poly.Poly.Stable.V1" r68
/-- `protocol/layouts/external_transition.json:1, characters 30393-30924` -/
def r70 : Rule := .record [("version", (.int .int)), ("t", r69)]
/-- `protocol/layouts/external_transition.json:1, characters 30196-30927` -/
def r71 : Rule := .reference "Compressed_poly.Poly" r70
/-- `protocol/layouts/external_transition.json:1, characters 30108-30930` -/
def r72 : Rule := .record [("version", (.int .int)), ("t", r71)]
/-- `protocol/layouts/external_transition.json:1, characters 29937-30933` -/
def r73 : Rule := .reference "Non_zero_curve_point.Compressed" r72
/-- `protocol/layouts/external_transition.json:1, characters 12578-33084` -/
def r74 : Rule := .record [("blockchain_length", r42), ("epoch_count", r42), ("min_window_density", r42),
  ("sub_window_densities", r43), ("last_vrf_output", r46), ("total_currency", r47), ("curr_global_slot", r53),
  ("global_slot_since_genesis", r42), ("staking_epoch_data", r66), ("next_epoch_data", r67),
  ("has_ancestor_in_same_checkpoint_window", .bool), ("block_stake_winner", r73), ("block_creator", r73), ("coinbase_receiver",
  r73), ("supercharge_coinbase", .bool)]
/-- `protocol/layouts/external_transition.json:1, characters 11794-33087` -/
def r75 : Rule := .reference "Proof_of_stake.Data.Consensus_state.Poly.Stable.V1" r74
/-- `protocol/layouts/external_transition.json:1, characters 11706-33090` -/
def r76 : Rule := .record [("version", (.int .int)), ("t", r75)]
/-- `protocol/layouts/external_transition.json:1, characters 11276-33093` -/
def r77 : Rule := .reference "Proof_of_stake.Data.Consensus_state.Poly" r76
/-- `protocol/layouts/external_transition.json:1, characters 11188-33096` -/
def r78 : Rule := .record [("version", (.int .int)), ("t", r77)]
/-- `protocol/layouts/external_transition.json:1, characters 11008-33099` -/
def r79 : Rule := .reference "Proof_of_stake.Data.Consensus_state.Value" r78
/-- `protocol/layouts/external_transition.json:1, characters 34086-37626` -/
def r80 : Rule := .record [("k", r42), ("slots_per_epoch", r42), ("slots_per_sub_window", r42), ("delta", r42),
  ("genesis_state_timestamp", r31)]
/-- `protocol/layouts/external_transition.json:1, characters 33746-37629` -/
def r81 : Rule := .reference "Genesis_constants.Protocol.Poly.Stable.V1" r80
/-- `protocol/layouts/external_transition.json:1, characters 33658-37632` -/
def r82 : Rule := .record [("version", (.int .int)), ("t", r81)]
/-- `protocol/layouts/external_transition.json:1, characters 33400-37635` -/
def r83 : Rule := .reference "Genesis_constants.Protocol.Poly" r82
/-- `protocol/layouts/external_transition.json:1, characters 33312-37638` -/
def r84 : Rule := .record [("version", (.int .int)), ("t", r83)]
/-- `protocol/layouts/external_transition.json:1, characters 33141-37641` -/
def r85 : Rule := .reference "Protocol_constants_checked.Value" r84
/-- `protocol/layouts/external_transition.json:1, characters 3198-37644` -/
def r86 : Rule := .record [("genesis_state_hash", r3), ("blockchain_state", r37), ("consensus_state", r79), ("constants", r85)]
/-- `protocol/layouts/external_transition.json:1, characters 2854-37647` -/
def r87 : Rule := .reference "Protocol_state.Body.Poly.Stable.V1" r86
/-- `protocol/layouts/external_transition.json:1, characters 2766-37650` -/
def r88 : Rule := .record [("version", (.int .int)), ("t", r87)]
/-- `protocol/layouts/external_transition.json:1, characters 2477-37653` -/
def r89 : Rule := .reference "Protocol_state.Body.Poly" r88
/-- `protocol/layouts/external_transition.json:1, characters 2389-37656` -/
def r90 : Rule := .record [("version", (.int .int)), ("t", r89)]
/-- `protocol/layouts/external_transition.json:1, characters 2225-37659` -/
def r91 : Rule := .reference "Protocol_state.Body.Value" r90
/-- `protocol/layouts/external_transition.json:1, characters 1734-37662` -/
def r92 : Rule := .record [("previous_state_hash", r3), ("body", r91)]
/-- `protocol/layouts/external_transition.json:1, characters 1520-37665` -/
def r93 : Rule := .reference "Protocol_state.Poly.Stable.V1" r92
/-- `protocol/layouts/external_transition.json:1, characters 1432-37668` -/
def r94 : Rule := .record [("version", (.int .int)), ("t", r93)]
/-- `protocol/layouts/external_transition.json:1, characters 1232-37671` -/
def r95 : Rule := .reference "Protocol_state.Poly" r94
/-- `protocol/layouts/external_transition.json:1, characters 1144-37674` -/
def r96 : Rule := .record [("version", (.int .int)), ("t", r95)]
/-- `protocol/layouts/external_transition.json:1, characters 985-37677` -/
def r97 : Rule := .reference "Protocol_state.Value" r96
/-- `protocol/layouts/external_transition.json:1, characters 44794-44954` -/
def r98 : Rule := .reference "[manually-created layout]" (.int .int64)
/-- `protocol/layouts/external_transition.json:1, characters 44706-44957` -/
def r99 : Rule := .record [("version", (.int .int)), ("t", r98)]
/-- `protocol/layouts/external_transition.json:1, characters 44552-44960` -/
def r100 : Rule := .reference "Constant.Hex64" r99
/-- `protocol/layouts/external_transition.json:1, characters 44541-44962` -/
def r101 : Rule := .custom [r100]
/-- `protocol/layouts/external_transition.json:1, characters 44383-44965` -/
def r102 : Rule := .reference "Pickles_type.Vector.Vector2" r101
/-- `protocol/layouts/external_transition.json:1, characters 44295-44968` -/
def r103 : Rule := .record [("version", (.int .int)), ("t", r102)]
/-- `protocol/layouts/external_transition.json:1, characters 44134-44971` -/
def r104 : Rule := .reference "Vector.Vector_2" r103
/-- `protocol/layouts/external_transition.json:1, characters 44071-44975` -/
def r105 : Rule := .sum [.mk "Scalar_challenge" 0 [r104]]
/-- `protocol/layouts/external_transition.json:1, characters 43851-44978` -/
def r106 : Rule := .reference "Scalar_challenge.Stable.V1" r105
/-- `protocol/layouts/external_transition.json:1, characters 43763-44981` -/
def r107 : Rule := .record [("version", (.int .int)), ("t", r106)]
/-- `protocol/layouts/external_transition.json:1, characters 43602-44984` -/
def r108 : Rule := .reference "Scalar_challenge" r107
/-- `protocol/layouts/external_transition.json:1, characters 43556-48155` -/
def r109 : Rule := .record [("alpha", r108), ("beta", r104), ("gamma", r104), ("zeta", r108)]
/-- `protocol/layouts/external_transition.json:1, characters 43237-48158` -/
def r110 : Rule := .reference "Composition_types.Dlog_based.Proof_state.Deferred_values.Plonk.Minimal.Stable.V1" r109
/-- `protocol/layouts/external_transition.json:1, characters 43149-48161` -/
def r111 : Rule := .record [("version", (.int .int)), ("t", r110)]
/-- `protocol/layouts/external_transition.json:1, characters 42876-48164` -/
def r112 : Rule := .reference "Composition_types.Dlog_based.Proof_state.Deferred_values.Plonk.Minimal" r111
/-- `protocol/layouts/external_transition.json:1, characters 48687-48860` -/
def r113 : Rule := .reference "Zexe_backend.Zexe_backend_common.Stable.Field" r0
/-- `protocol/layouts/external_transition.json:1, characters 48627-48864` -/
def r114 : Rule := .sum [.mk "Shifted_value" 0 [r113]]
/-- `protocol/layouts/external_transition.json:1, characters 48465-48867` -/
def r115 : Rule := .reference "Shifted_value.Stable.V1" r114
/-- `protocol/layouts/external_transition.json:1, characters 48377-48870` -/
def r116 : Rule := .record [("version", (.int .int)), ("t", r115)]
/-- `protocol/layouts/external_transition.json:1, characters 48219-48873` -/
def r117 : Rule := .reference "Shifted_value" r116
/-- `protocol/layouts/external_transition.json:1, characters 52166-53604` -/
def r118 : Rule := .record [("prechallenge", r108)]
/-- `protocol/layouts/external_transition.json:1, characters 51982-53607` -/
def r119 : Rule := .reference "Bulletproof_challenge.Stable.V1" r118
/-- `protocol/layouts/external_transition.json:1, characters 51894-53610` -/
def r120 : Rule := .record [("version", (.int .int)), ("t", r119)]
/-- `protocol/layouts/external_transition.json:1, characters 51712-53613` -/
def r121 : Rule := .reference "Bulletproof_challenge" r120
/-- `protocol/layouts/external_transition.json:1, characters 51701-53615` -/
def r122 : Rule := .custom [r121]
/-- `protocol/layouts/external_transition.json:1, characters 51540-53618` -/
def r123 : Rule := .reference "Pickles_types.Vector.Vector18" r122
/-- `protocol/layouts/external_transition.json:1, characters 51452-53621` -/
def r124 : Rule := .record [("version", (.int .int)), ("t", r123)]
/-- `protocol/layouts/external_transition.json:1, characters 51290-53624` -/
def r125 : Rule := .reference "Vector.Vector_18" r124
/-- `protocol/layouts/external_transition.json:1, characters 51202-53627` -/
def r126 : Rule := .record [("version", (.int .int)), ("t", r125)]
/-- `protocol/layouts/external_transition.json:1, characters 51033-53630` -/
def r127 : Rule := .reference "Basic.Rounds.Step_vector" r126
/-- `protocol/layouts/external_transition.json:1, characters 53907-54050` -/
def r128 : Rule := .reference "Index.Stable.V1" .char
/-- `protocol/layouts/external_transition.json:1, characters 53819-54053` -/
def r129 : Rule := .record [("version", (.int .int)), ("t", r128)]
/-- `protocol/layouts/external_transition.json:1, characters 53675-54056` -/
def r130 : Rule := .reference "Index" r129
/-- `protocol/layouts/external_transition.json:1, characters 42830-54059` -/
def r131 : Rule := .record [("plonk", r112), ("combined_inner_product", r117), ("b", r117), ("xi", r108),
  ("bulletproof_challenges", r127), ("which_branch", r130)]
/-- `protocol/layouts/external_transition.json:1, characters 42426-54062` -/
def r132 : Rule := .reference "Composition_types.Dlog_based.Proof_state.Deferred_values.Stable.V1" r131
/-- `protocol/layouts/external_transition.json:1, characters 42338-54065` -/
def r133 : Rule := .record [("version", (.int .int)), ("t", r132)]
/-- `protocol/layouts/external_transition.json:1, characters 42001-54068` -/
def r134 : Rule := .reference "Composition_types.Dlog_based.Proof_state.Deferred_values" r133
/-- `protocol/layouts/external_transition.json:1, characters 54624-55207` -/
def r135 : Rule := .reference "Pickles_types.Vector.Vector4" r101
/-- `protocol/layouts/external_transition.json:1, characters 54536-55210` -/
def r136 : Rule := .record [("version", (.int .int)), ("t", r135)]
/-- `protocol/layouts/external_transition.json:1, characters 54375-55213` -/
def r137 : Rule := .reference "Vector.Vector_4" r136
/-- `protocol/layouts/external_transition.json:1, characters 54287-55216` -/
def r138 : Rule := .record [("version", (.int .int)), ("t", r137)]
/-- `protocol/layouts/external_transition.json:1, characters 54133-55219` -/
def r139 : Rule := .reference "Digest.Constant" r138
/-- `protocol/layouts/external_transition.json:1, characters 56106-56466` -/
def r140 : Rule := .tuple [r113, r113]
/-- `protocol/layouts/external_transition.json:1, characters 55907-56469` -/
def r141 : Rule := .reference "Curve.Make.Affine.Stable.V1.T" r140
/-- `protocol/layouts/external_transition.json:1, characters 57724-59802` -/
def r142 : Rule := .reference "Pickles_types.Vector.Vector17" r122
/-- `protocol/layouts/external_transition.json:1, characters 57636-59805` -/
def r143 : Rule := .record [("version", (.int .int)), ("t", r142)]
/-- `protocol/layouts/external_transition.json:1, characters 57474-59808` -/
def r144 : Rule := .reference "Vector.Vector_17" r143
/-- `protocol/layouts/external_transition.json:1, characters 57386-59811` -/
def r145 : Rule := .record [("version", (.int .int)), ("t", r144)]
/-- `protocol/layouts/external_transition.json:1, characters 57217-59814` -/
def r146 : Rule := .reference "Basic.Rounds.Wrap_vector" r145
/-- `protocol/layouts/external_transition.json:1, characters 57129-59817` -/
def r147 : Rule := .record [("version", (.int .int)), ("t", r146)]
/-- `protocol/layouts/external_transition.json:1, characters 56946-59820` -/
def r148 : Rule := .reference "Reduced_me_only.Dlog_based.Challenges_vector" r147
/-- `protocol/layouts/external_transition.json:1, characters 56935-59822` -/
def r149 : Rule := .custom [r148]
/-- `protocol/layouts/external_transition.json:1, characters 56777-59825` -/
def r150 : Rule := .reference "Pickles_type.Vector.Vector2" r149
/-- `protocol/layouts/external_transition.json:1, characters 56689-59828` -/
def r151 : Rule := .record [("version", (.int .int)), ("t", r150)]
/-- `protocol/layouts/external_transition.json:1, characters 56528-59831` -/
def r152 : Rule := .reference "Vector.Vector_2" r151
/-- `protocol/layouts/external_transition.json:1, characters 55864-59834` -/
def r153 : Rule := .record [("sg", r141), ("old_bulletproof_challenges", r152)]
/-- `protocol/layouts/external_transition.json:1, characters 55596-59837` -/
def r154 : Rule := .reference "Composition_types.Dlog_based.Proof_state.Me_only.Stable.V1" r153
/-- `protocol/layouts/external_transition.json:1, characters 55508-59840` -/
def r155 : Rule := .record [("version", (.int .int)), ("t", r154)]
/-- `protocol/layouts/external_transition.json:1, characters 55259-59843` -/
def r156 : Rule := .reference "Composition_types.Dlog_based.Proof_state.Me_only" r155
/-- `protocol/layouts/external_transition.json:1, characters 41945-59846` -/
def r157 : Rule := .record [("deferred_values", r134), ("sponge_digest_before_evaluations", r139), ("me_only", r156)]
/-- `protocol/layouts/external_transition.json:1, characters 41536-59849` -/
def r158 : Rule := .reference "Composition_types.Dlog_based.Proof_state.Stable.V1" r157
/-- `protocol/layouts/external_transition.json:1, characters 41448-59852` -/
def r159 : Rule := .record [("version", (.int .int)), ("t", r158)]
/-- `protocol/layouts/external_transition.json:1, characters 41117-59855` -/
def r160 : Rule := .reference "Composition_types.Dlog_based.Proof_state" r159
/-- `protocol/layouts/external_transition.json:1, characters 60931-61502` -/
def r161 : Rule := .list r141
/-- `protocol/layouts/external_transition.json:1, characters 60770-61505` -/
def r162 : Rule := .reference "[manually-created layout]" r161
/-- `protocol/layouts/external_transition.json:1, characters 60682-61508` -/
def r163 : Rule := .record [("version", (.int .int)), ("t", r162)]
/-- `protocol/layouts/external_transition.json:1, characters 60519-61511` -/
def r164 : Rule := .reference "At_most.At_most_2" r163
/-- `protocol/layouts/external_transition.json:1, characters 61982-64588` -/
def r165 : Rule := .list r127
/-- `protocol/layouts/external_transition.json:1, characters 61821-64591` -/
def r166 : Rule := .reference "[manually-created layout]" r165
/-- `protocol/layouts/external_transition.json:1, characters 61733-64594` -/
def r167 : Rule := .record [("version", (.int .int)), ("t", r166)]
/-- `protocol/layouts/external_transition.json:1, characters 61570-64597` -/
def r168 : Rule := .reference "At_most.At_most_2" r167
/-- `protocol/layouts/external_transition.json:1, characters 60427-64600` -/
def r169 : Rule := .record [("app_state", .unit), ("sg", r164), ("old_bulletproof_challenges", r168)]
/-- `protocol/layouts/external_transition.json:1, characters 60192-64603` -/
def r170 : Rule := .reference "Reduced_me_only.Pairing_based.Stable.V1" r169
/-- `protocol/layouts/external_transition.json:1, characters 60104-64606` -/
def r171 : Rule := .record [("version", (.int .int)), ("t", r170)]
/-- `protocol/layouts/external_transition.json:1, characters 59900-64609` -/
def r172 : Rule := .reference "Reduced_me_only.Pairing_based" r171
/-- `protocol/layouts/external_transition.json:1, characters 41065-64612` -/
def r173 : Rule := .record [("proof_state", r160), ("pass_through", r172)]
/-- `protocol/layouts/external_transition.json:1, characters 40666-64615` -/
def r174 : Rule := .reference "Composition_types.Dlog_based.Statement.Stable.V1" r173
/-- `protocol/layouts/external_transition.json:1, characters 40578-64618` -/
def r175 : Rule := .record [("version", (.int .int)), ("t", r174)]
/-- `protocol/layouts/external_transition.json:1, characters 40219-64621` -/
def r176 : Rule := .reference "Composition_types.Dlog_based.Statement" r175
/-- `protocol/layouts/external_transition.json:1, characters 40131-64624` -/
def r177 : Rule := .record [("version", (.int .int)), ("t", r176)]
/-- `protocol/layouts/external_transition.json:1, characters 39756-64627` -/
def r178 : Rule := .reference "Composition_types.Dlog_based.Statement.Minimal" r177
/-- `protocol/layouts/external_transition.json:1, characters 66022-66204` -/
def r179 : Rule := .list r113
/-- `protocol/layouts/external_transition.json:1, characters 65862-66207` -/
def r180 : Rule := .reference "Dlog_plonk_types.Pc_array.Stable.V1" r179
/-- `protocol/layouts/external_transition.json:1, characters 65774-66210` -/
def r181 : Rule := .record [("version", (.int .int)), ("t", r180)]
/-- `protocol/layouts/external_transition.json:1, characters 65604-66213` -/
def r182 : Rule := .reference "Dlog_plonk_types.Pc_array" r181
/-- `protocol/layouts/external_transition.json:1, characters 65562-70727` -/
def r183 : Rule := .record [("l", r182), ("r", r182), ("o", r182), ("z", r182), ("t", r182), ("f", r182), ("sigma1", r182),
  ("sigma2", r182)]
/-- `protocol/layouts/external_transition.json:1, characters 65338-70730` -/
def r184 : Rule := .reference "Dlog_plonk_types.Evals.Stable.V1" r183
/-- `protocol/layouts/external_transition.json:1, characters 65250-70733` -/
def r185 : Rule := .record [("version", (.int .int)), ("t", r184)]
/-- `protocol/layouts/external_transition.json:1, characters 65083-70736` -/
def r186 : Rule := .reference "Dlog_plonk_types.Evals" r185
/-- `protocol/layouts/external_transition.json:1, characters 65073-76393` -/
def r187 : Rule := .tuple [r186, r186]
/-- `protocol/layouts/external_transition.json:1, characters 64920-76396` -/
def r188 : Rule := .reference "Proof.Base.Double.Stable.V1" r187
/-- `protocol/layouts/external_transition.json:1, characters 64832-76399` -/
def r189 : Rule := .record [("version", (.int .int)), ("t", r188)]
/-- `protocol/layouts/external_transition.json:1, characters 64670-76402` -/
def r190 : Rule := .reference "Proof.Base.Double" r189
/-- `protocol/layouts/external_transition.json:1, characters 76695-77211` -/
def r191 : Rule := .reference "Proof.Base.Double.Stable.V1" r140
/-- `protocol/layouts/external_transition.json:1, characters 76607-77214` -/
def r192 : Rule := .record [("version", (.int .int)), ("t", r191)]
/-- `protocol/layouts/external_transition.json:1, characters 76445-77217` -/
def r193 : Rule := .reference "Proof.Base.Double" r192
/-- `protocol/layouts/external_transition.json:1, characters 79372-80106` -/
def r194 : Rule := .reference "Dlog_plonk_types.Pc_array.Stable.V1" r161
/-- `protocol/layouts/external_transition.json:1, characters 79284-80109` -/
def r195 : Rule := .record [("version", (.int .int)), ("t", r194)]
/-- `protocol/layouts/external_transition.json:1, characters 79114-80112` -/
def r196 : Rule := .reference "Dlog_plonk_types.Pc_array" r195
/-- `protocol/layouts/external_transition.json:1, characters 79026-80115` -/
def r197 : Rule := .record [("version", (.int .int)), ("t", r196)]
/-- `protocol/layouts/external_transition.json:1, characters 78834-80118` -/
def r198 : Rule := .reference "Dlog_plonk_types.Poly_comm.Without_degree_bound" r197
/-- `protocol/layouts/external_transition.json:1, characters 85578-86247` -/
def r199 : Rule := .sum [.mk "Infinity" 0 [], .mk "Finite" 1 [r141]]
/-- `protocol/layouts/external_transition.json:1, characters 85366-86250` -/
def r200 : Rule := .reference "Or_infinity.Stable.V1" r199
/-- `protocol/layouts/external_transition.json:1, characters 85278-86253` -/
def r201 : Rule := .record [("version", (.int .int)), ("t", r200)]
/-- `protocol/layouts/external_transition.json:1, characters 85122-86256` -/
def r202 : Rule := .reference "Or_infinity" r201
/-- `protocol/layouts/external_transition.json:1, characters 85114-86257` -/
def r203 : Rule := .list r202
/-- `protocol/layouts/external_transition.json:1, characters 84954-86260` -/
def r204 : Rule := .reference "Dlog_plonk_types.Pc_array.Stable.V1" r203
/-- `protocol/layouts/external_transition.json:1, characters 84866-86263` -/
def r205 : Rule := .record [("version", (.int .int)), ("t", r204)]
/-- `protocol/layouts/external_transition.json:1, characters 84696-86266` -/
def r206 : Rule := .reference "Dlog_plonk_types.Pc_array" r205
/-- `protocol/layouts/external_transition.json:1, characters 84646-87443` -/
def r207 : Rule := .record [("unshifted", r206), ("shifted", r202)]
/-- `protocol/layouts/external_transition.json:1, characters 84411-87446` -/
def r208 : Rule := .reference "Dlog_plonk_types.Poly_comm.With_degree_bound.Stable.V1" r207
/-- `protocol/layouts/external_transition.json:1, characters 84323-87449` -/
def r209 : Rule := .record [("version", (.int .int)), ("t", r208)]
/-- `protocol/layouts/external_transition.json:1, characters 84126-87452` -/
def r210 : Rule := .reference "Dlog_plonk_types.Poly_comm.With_degree_bound" r209
/-- `protocol/layouts/external_transition.json:1, characters 78787-87455` -/
def r211 : Rule := .record [("l_comm", r198), ("r_comm", r198), ("o_comm", r198), ("z_comm", r198), ("t_comm", r210)]
/-- `protocol/layouts/external_transition.json:1, characters 78393-87458` -/
def r212 : Rule := .reference "Dlog_plonk_types.Messages.Stable.V1" r211
/-- `protocol/layouts/external_transition.json:1, characters 78305-87461` -/
def r213 : Rule := .record [("version", (.int .int)), ("t", r212)]
/-- `protocol/layouts/external_transition.json:1, characters 78115-87464` -/
def r214 : Rule := .reference "Dlog_plonk_types.Messages" r213
/-- `protocol/layouts/external_transition.json:1, characters 89108-90246` -/
def r215 : Rule := .tuple [r141, r141]
/-- `protocol/layouts/external_transition.json:1, characters 89100-90247` -/
def r216 : Rule := .list r215
/-- `protocol/layouts/external_transition.json:1, characters 88940-90250` -/
def r217 : Rule := .reference "Dlog_plonk_types.Pc_array.Stable.V1" r216
/-- `protocol/layouts/external_transition.json:1, characters 88852-90253` -/
def r218 : Rule := .record [("version", (.int .int)), ("t", r217)]
/-- `protocol/layouts/external_transition.json:1, characters 88682-90256` -/
def r219 : Rule := .reference "Dlog_plonk_types.Pc_array" r218
/-- `protocol/layouts/external_transition.json:1, characters 88639-91874` -/
def r220 : Rule := .record [("lr", r219), ("z_1", r113), ("z_2", r113), ("delta", r141), ("sg", r141)]
/-- `protocol/layouts/external_transition.json:1, characters 88387-91877` -/
def r221 : Rule := .reference "Dlog_plonk_types.Openings.Bulletproof.Stable.V1" r220
/-- `protocol/layouts/external_transition.json:1, characters 88299-91880` -/
def r222 : Rule := .record [("version", (.int .int)), ("t", r221)]
/-- `protocol/layouts/external_transition.json:1, characters 88103-91883` -/
def r223 : Rule := .reference "Dlog_plonk_types.Openings.Bulletproof" r222
/-- `protocol/layouts/external_transition.json:1, characters 88057-103244` -/
def r224 : Rule := .record [("proof", r223), ("evals", r187)]
/-- `protocol/layouts/external_transition.json:1, characters 87789-103247` -/
def r225 : Rule := .reference "Dlog_plonk_types.Openings.Stable.V1" r224
/-- `protocol/layouts/external_transition.json:1, characters 87701-103250` -/
def r226 : Rule := .record [("version", (.int .int)), ("t", r225)]
/-- `protocol/layouts/external_transition.json:1, characters 87505-103253` -/
def r227 : Rule := .reference "Dlog_plonk_types.Openings" r226
/-- `protocol/layouts/external_transition.json:1, characters 78066-103256` -/
def r228 : Rule := .record [("messages", r214), ("openings", r227)]
/-- `protocol/layouts/external_transition.json:1, characters 77800-103259` -/
def r229 : Rule := .reference "Dlog_plonk_types.Proof.Stable.V1" r228
/-- `protocol/layouts/external_transition.json:1, characters 77712-103262` -/
def r230 : Rule := .record [("version", (.int .int)), ("t", r229)]
/-- `protocol/layouts/external_transition.json:1, characters 77503-103265` -/
def r231 : Rule := .reference "Dlog_plonk_types.Proof" r230
/-- `protocol/layouts/external_transition.json:1, characters 77415-103268` -/
def r232 : Rule := .record [("version", (.int .int)), ("t", r231)]
/-- `protocol/layouts/external_transition.json:1, characters 77255-103271` -/
def r233 : Rule := .reference "Plonk_dlog_proof.Make" r232
/-- `protocol/layouts/external_transition.json:1, characters 39706-103274` -/
def r234 : Rule := .record [("statement", r178), ("prev_evals", r190), ("prev_x_hat", r193), ("proof", r233)]
/-- `protocol/layouts/external_transition.json:1, characters 38773-103277` -/
def r235 : Rule := .reference "Proof.Base.Dlog_based.Stable.V1" r234
/-- `protocol/layouts/external_transition.json:1, characters 38685-103280` -/
def r236 : Rule := .record [("version", (.int .int)), ("t", r235)]
/-- `protocol/layouts/external_transition.json:1, characters 38457-103283` -/
def r237 : Rule := .reference "Proof.Base.Dlog_based" r236
/-- `protocol/layouts/external_transition.json:1, characters 38369-103286` -/
def r238 : Rule := .record [("version", (.int .int)), ("t", r237)]
/-- `protocol/layouts/external_transition.json:1, characters 38207-103289` -/
def r239 : Rule := .reference "Proof.Branching_2.Repr" r238
/-- `protocol/layouts/external_transition.json:1, characters 38119-103292` -/
def r240 : Rule := .record [("version", (.int .int)), ("t", r239)]
/-- `protocol/layouts/external_transition.json:1, characters 37962-103295` -/
def r241 : Rule := .reference "Proof.Branching_2" r240
/-- `protocol/layouts/external_transition.json:1, characters 37874-103298` -/
def r242 : Rule := .record [("version", (.int .int)), ("t", r241)]
/-- `protocol/layouts/external_transition.json:1, characters 37730-103301` -/
def r243 : Rule := .reference "Proof" r242
/-- `protocol/layouts/external_transition.json:1, characters 105868-106529` -/
def r244 : Rule := .reference "Currency.Fee" r27
/-- `protocol/layouts/external_transition.json:1, characters 112375-112790` -/
def r245 : Rule := .reference "Pending_coinbase.Coinbase_stack" r2
/-- `protocol/layouts/external_transition.json:1, characters 113622-114033` -/
def r246 : Rule := .reference "Pending_coinbase.Stack_hash" r2
/-- `protocol/layouts/external_transition.json:1, characters 113577-114484` -/
def r247 : Rule := .record [("init", r246), ("curr", r246)]
/-- `protocol/layouts/external_transition.json:1, characters 113367-114487` -/
def r248 : Rule := .reference "Pending_coinbase.State_stack.Poly.Stable.V1" r247
/-- `protocol/layouts/external_transition.json:1, characters 113279-114490` -/
def r249 : Rule := .record [("version", (.int .int)), ("t", r248)]
/-- `protocol/layouts/external_transition.json:1, characters 113083-114493` -/
def r250 : Rule := .reference "Pending_coinbase.State_stack.Poly" r249
/-- `protocol/layouts/external_transition.json:1, characters 112995-114496` -/
def r251 : Rule := .record [("version", (.int .int)), ("t", r250)]
/-- `protocol/layouts/external_transition.json:1, characters 112828-114499` -/
def r252 : Rule := .reference "Pending_coinbase.State_stack" r251
/-- `protocol/layouts/external_transition.json:1, characters 112330-114502` -/
def r253 : Rule := .record [("data", r245), ("state", r252)]
/-- `protocol/layouts/external_transition.json:1, characters 112098-114505` -/
def r254 : Rule := .reference "Pending_coinbase.Stack_versioned.Poly.Stable.V1" r253
/-- `protocol/layouts/external_transition.json:1, characters 112010-114508` -/
def r255 : Rule := .record [("version", (.int .int)), ("t", r254)]
/-- `protocol/layouts/external_transition.json:1, characters 111778-114511` -/
def r256 : Rule := .reference "Pending_coinbase.Stack_versioned.Poly" r255
/-- `protocol/layouts/external_transition.json:1, characters 111690-114514` -/
def r257 : Rule := .record [("version", (.int .int)), ("t", r256)]
/-- `protocol/layouts/external_transition.json:1, characters 111519-114517` -/
def r258 : Rule := .reference "Pending_coinbase.Stack_versioned" r257
/-- `protocol/layouts/external_transition.json:1, characters 111472-117557` -/
def r259 : Rule := .record [("source", r258), ("target", r258)]
/-- `protocol/layouts/external_transition.json:1, characters 111222-117560` -/
def r260 : Rule := .reference "Transaction_snark.Pending_coinbase_stack_state.Poly.Stable.V1" r259
/-- `protocol/layouts/external_transition.json:1, characters 111134-117563` -/
def r261 : Rule := .record [("version", (.int .int)), ("t", r260)]
/-- `protocol/layouts/external_transition.json:1, characters 110908-117566` -/
def r262 : Rule := .reference "Transaction_snark.Pending_coinbase_stack_state.Poly" r261
/-- `protocol/layouts/external_transition.json:1, characters 110820-117569` -/
def r263 : Rule := .record [("version", (.int .int)), ("t", r262)]
/-- `protocol/layouts/external_transition.json:1, characters 110635-117572` -/
def r264 : Rule := .reference "Transaction_snark.Pending_coinbase_stack_state" r263
/-- `protocol/layouts/external_transition.json:1, characters 120975-121073` -/
def r265 : Rule := .sum [.mk "Pos" 0 [], .mk "Neg" 1 []]
/-- `protocol/layouts/external_transition.json:1, characters 120808-121076` -/
def r266 : Rule := .reference "Sgn.Stable.V1" r265
/-- `protocol/layouts/external_transition.json:1, characters 120720-121079` -/
def r267 : Rule := .record [("version", (.int .int)), ("t", r266)]
/-- `protocol/layouts/external_transition.json:1, characters 120578-121082` -/
def r268 : Rule := .reference "Sgn" r267
/-- `protocol/layouts/external_transition.json:1, characters 119831-121085` -/
def r269 : Rule := .record [("magnitude", r244), ("sgn", r268)]
/-- `protocol/layouts/external_transition.json:1, characters 119640-121088` -/
def r270 : Rule := .reference "Signed_poly.Stable.V1" r269
/-- `protocol/layouts/external_transition.json:1, characters 119552-121091` -/
def r271 : Rule := .record [("version", (.int .int)), ("t", r270)]
/-- `protocol/layouts/external_transition.json:1, characters 119364-121094` -/
def r272 : Rule := .reference "Signed_poly" r271
/-- `protocol/layouts/external_transition.json:1, characters 118365-123818` -/
def r273 : Rule := .record [("fee_token_l", r30), ("fee_excess_l", r272), ("fee_token_r", r30), ("fee_excess_r", r272)]
/-- `protocol/layouts/external_transition.json:1, characters 118124-123821` -/
def r274 : Rule := .reference "Fee_excess.Poly.Stable.V1" r273
/-- `protocol/layouts/external_transition.json:1, characters 118036-123824` -/
def r275 : Rule := .record [("version", (.int .int)), ("t", r274)]
/-- `protocol/layouts/external_transition.json:1, characters 117852-123827` -/
def r276 : Rule := .reference "Fee_excess.Poly" r275
/-- `protocol/layouts/external_transition.json:1, characters 117764-123830` -/
def r277 : Rule := .record [("version", (.int .int)), ("t", r276)]
/-- `protocol/layouts/external_transition.json:1, characters 117615-123833` -/
def r278 : Rule := .reference "Fee_excess" r277
/-- `protocol/layouts/external_transition.json:1, characters 126045-126217` -/
def r279 : Rule := .reference "[manually-created layout]" .string
/-- `protocol/layouts/external_transition.json:1, characters 125957-126220` -/
def r280 : Rule := .record [("version", (.int .int)), ("t", r279)]
/-- `protocol/layouts/external_transition.json:1, characters 125799-126223` -/
def r281 : Rule := .reference "Sok_message.Digest" r280
/-- `protocol/layouts/external_transition.json:1, characters 108984-126226` -/
def r282 : Rule := .record [("source", r4), ("target", r4), ("supply_increase", r47), ("pending_coinbase_stack_state", r264),
  ("fee_excess", r278), ("next_available_token_before", r30), ("next_available_token_after", r30), ("sok_digest", r281)]
/-- `protocol/layouts/external_transition.json:1, characters 108491-126229` -/
def r283 : Rule := .reference "Transaction_snark.Statement.Poly.Stable.V1" r282
/-- `protocol/layouts/external_transition.json:1, characters 108403-126232` -/
def r284 : Rule := .record [("version", (.int .int)), ("t", r283)]
/-- `protocol/layouts/external_transition.json:1, characters 108072-126235` -/
def r285 : Rule := .reference "Transaction_snark.Statement.Poly" r284
/-- `protocol/layouts/external_transition.json:1, characters 107984-126238` -/
def r286 : Rule := .record [("version", (.int .int)), ("t", r285)]
/-- `protocol/layouts/external_transition.json:1, characters 107809-126241` -/
def r287 : Rule := .reference "Transaction_snark.Statement.With_sok" r286
/-- `protocol/layouts/external_transition.json:1, characters 126279-191868` -/
def r288 : Rule := .reference "Transaction_snark.Proof" r242
/-- `protocol/layouts/external_transition.json:1, characters 107759-191871` -/
def r289 : Rule := .record [("statement", r287), ("proof", r288)]
/-- `protocol/layouts/external_transition.json:1, characters 107546-191874` -/
def r290 : Rule := .reference "Transaction_snark.Stable.V1" r289
/-- `protocol/layouts/external_transition.json:1, characters 107458-191877` -/
def r291 : Rule := .record [("version", (.int .int)), ("t", r290)]
/-- `protocol/layouts/external_transition.json:1, characters 107302-191880` -/
def r292 : Rule := .reference "Transaction_snark" r291
/-- `protocol/layouts/external_transition.json:1, characters 107214-191883` -/
def r293 : Rule := .record [("version", (.int .int)), ("t", r292)]
/-- `protocol/layouts/external_transition.json:1, characters 107058-191886` -/
def r294 : Rule := .reference "Ledger_proof.Prod" r293
/-- `protocol/layouts/external_transition.json:1, characters 191954-361624` -/
def r295 : Rule := .tuple [r294, r294]
/-- `protocol/layouts/external_transition.json:1, characters 106983-361629` -/
def r296 : Rule := .polyvar [.tagged "One" 3953222 [r294], .tagged "Two" 4203884 [r295]]
/-- `protocol/layouts/external_transition.json:1, characters 106811-361632` -/
def r297 : Rule := .reference "One_or_two.Stable.V1" r296
/-- `protocol/layouts/external_transition.json:1, characters 106723-361635` -/
def r298 : Rule := .record [("version", (.int .int)), ("t", r297)]
/-- `protocol/layouts/external_transition.json:1, characters 106568-361638` -/
def r299 : Rule := .reference "One_or_two" r298
/-- `protocol/layouts/external_transition.json:1, characters 105824-362676` -/
def r300 : Rule := .record [("fee", r244), ("proofs", r299), ("prover", r73)]
/-- `protocol/layouts/external_transition.json:1, characters 105550-362679` -/
def r301 : Rule := .reference "Transaction_snark_work.T.Stable.V1" r300
/-- `protocol/layouts/external_transition.json:1, characters 105462-362682` -/
def r302 : Rule := .record [("version", (.int .int)), ("t", r301)]
/-- `protocol/layouts/external_transition.json:1, characters 105299-362685` -/
def r303 : Rule := .reference "Transaction_snark_work.T" r302
/-- `protocol/layouts/external_transition.json:1, characters 105291-362686` -/
def r304 : Rule := .list r303
/-- `protocol/layouts/external_transition.json:1, characters 371199-371360` -/
def r305 : Rule := .reference "Signed_command_memo.Stable.V1" .string
/-- `protocol/layouts/external_transition.json:1, characters 371111-371363` -/
def r306 : Rule := .record [("version", (.int .int)), ("t", r305)]
/-- `protocol/layouts/external_transition.json:1, characters 370953-371366` -/
def r307 : Rule := .reference "Signed_command_memo" r306
/-- `protocol/layouts/external_transition.json:1, characters 366826-371369` -/
def r308 : Rule := .record [("fee", r244), ("fee_token", r30), ("fee_payer_pk", r73), ("nonce", r42), ("valid_until", r42),
  ("memo", r307)]
/-- `protocol/layouts/external_transition.json:1, characters 366486-371372` -/
def r309 : Rule := .reference "Signed_command_payload.Common.Poly.Stable.V1" r308
/-- `protocol/layouts/external_transition.json:1, characters 366398-371375` -/
def r310 : Rule := .record [("version", (.int .int)), ("t", r309)]
/-- `protocol/layouts/external_transition.json:1, characters 366105-371378` -/
def r311 : Rule := .reference "Signed_command_payload.Common.Poly" r310
/-- `protocol/layouts/external_transition.json:1, characters 366017-371381` -/
def r312 : Rule := .record [("version", (.int .int)), ("t", r311)]
/-- `protocol/layouts/external_transition.json:1, characters 365836-371384` -/
def r313 : Rule := .reference "Signed_command_payload.Common.Binable_arg" r312
/-- `protocol/layouts/external_transition.json:1, characters 365748-371387` -/
def r314 : Rule := .record [("version", (.int .int)), ("t", r313)]
/-- `protocol/layouts/external_transition.json:1, characters 365579-371390` -/
def r315 : Rule := .reference "Signed_command_payload.Common" r314
/-- `protocol/layouts/external_transition.json:1, characters 373245-376980` -/
def r316 : Rule := .record [("source_pk", r73), ("receiver_pk", r73), ("token_id", r30), ("amount", r47)]
/-- `protocol/layouts/external_transition.json:1, characters 372974-376983` -/
def r317 : Rule := .reference "Payment_payload.Poly.Stable.V1" r316
/-- `protocol/layouts/external_transition.json:1, characters 372886-376986` -/
def r318 : Rule := .record [("version", (.int .int)), ("t", r317)]
/-- `protocol/layouts/external_transition.json:1, characters 372659-376989` -/
def r319 : Rule := .reference "Payment_payload.Poly" r318
/-- `protocol/layouts/external_transition.json:1, characters 372571-376992` -/
def r320 : Rule := .record [("version", (.int .int)), ("t", r319)]
/-- `protocol/layouts/external_transition.json:1, characters 372417-376995` -/
def r321 : Rule := .reference "Payment_payload" r320
/-- `protocol/layouts/external_transition.json:1, characters 377554-379611` -/
def r322 : Rule := .sum [.mk "Set_delegate" 0 [r73, r73]]
/-- `protocol/layouts/external_transition.json:1, characters 377297-379614` -/
def r323 : Rule := .reference "Stake_delegation.Stable.V1" r322
/-- `protocol/layouts/external_transition.json:1, characters 377209-379617` -/
def r324 : Rule := .record [("version", (.int .int)), ("t", r323)]
/-- `protocol/layouts/external_transition.json:1, characters 377054-379620` -/
def r325 : Rule := .reference "Stake_delegation" r324
/-- `protocol/layouts/external_transition.json:1, characters 380146-381260` -/
def r326 : Rule := .record [("token_owner_pk", r73), ("disable_new_accounts", .bool)]
/-- `protocol/layouts/external_transition.json:1, characters 379923-381263` -/
def r327 : Rule := .reference "New_token_payload.Stable.V1" r326
/-- `protocol/layouts/external_transition.json:1, characters 379835-381266` -/
def r328 : Rule := .record [("version", (.int .int)), ("t", r327)]
/-- `protocol/layouts/external_transition.json:1, characters 379679-381269` -/
def r329 : Rule := .reference "New_token_payload" r328
/-- `protocol/layouts/external_transition.json:1, characters 381881-384974` -/
def r330 : Rule := .record [("token_id", r30), ("token_owner_pk", r73), ("receiver_pk", r73), ("account_disabled", .bool)]
/-- `protocol/layouts/external_transition.json:1, characters 381578-384977` -/
def r331 : Rule := .reference "New_account_payload.Stable.V1" r330
/-- `protocol/layouts/external_transition.json:1, characters 381490-384980` -/
def r332 : Rule := .record [("version", (.int .int)), ("t", r331)]
/-- `protocol/layouts/external_transition.json:1, characters 381332-384983` -/
def r333 : Rule := .reference "New_account_payload" r332
/-- `protocol/layouts/external_transition.json:1, characters 385591-389331` -/
def r334 : Rule := .record [("token_id", r30), ("token_owner_pk", r73), ("receiver_pk", r73), ("amount", r47)]
/-- `protocol/layouts/external_transition.json:1, characters 385279-389334` -/
def r335 : Rule := .reference "Minting_payload.Stable.V1" r334
/-- `protocol/layouts/external_transition.json:1, characters 385191-389337` -/
def r336 : Rule := .record [("version", (.int .int)), ("t", r335)]
/-- `protocol/layouts/external_transition.json:1, characters 385037-389340` -/
def r337 : Rule := .reference "Minting_payload" r336
/-- `protocol/layouts/external_transition.json:1, characters 372363-389344` -/
def r338 : Rule := .sum [.mk "Payment" 0 [r321], .mk "Stake_delegation" 1 [r325], .mk "Create_new_token" 2 [r329], .mk
  "Create_token_account" 3 [r333], .mk "Mint_tokens" 4 [r337]]
/-- `protocol/layouts/external_transition.json:1, characters 371949-389347` -/
def r339 : Rule := .reference "Signed_command_payload.Body.Binable_arg.Stable.V1" r338
/-- `protocol/layouts/external_transition.json:1, characters 371861-389350` -/
def r340 : Rule := .record [("version", (.int .int)), ("t", r339)]
/-- `protocol/layouts/external_transition.json:1, characters 371682-389353` -/
def r341 : Rule := .reference "Signed_command_payload.Body.Binable_arg" r340
/-- `protocol/layouts/external_transition.json:1, characters 371594-389356` -/
def r342 : Rule := .record [("version", (.int .int)), ("t", r341)]
/-- `protocol/layouts/external_transition.json:1, characters 371427-389359` -/
def r343 : Rule := .reference "Signed_command_payload.Body" r342
/-- `protocol/layouts/external_transition.json:1, characters 365532-389362` -/
def r344 : Rule := .record [("common", r315), ("body", r343)]
/-- `protocol/layouts/external_transition.json:1, characters 365331-389365` -/
def r345 : Rule := .reference "Signed_command_payload.Poly.Stable.V1" r344
/-- `protocol/layouts/external_transition.json:1, characters 365243-389368` -/
def r346 : Rule := .record [("version", (.int .int)), ("t", r345)]
/-- `protocol/layouts/external_transition.json:1, characters 365043-389371` -/
def r347 : Rule := .reference "Signed_command_payload.Poly" r346
/-- `protocol/layouts/external_transition.json:1, characters 364955-389374` -/
def r348 : Rule := .record [("version", (.int .int)), ("t", r347)]
/-- `protocol/layouts/external_transition.json:1, characters 364794-389377` -/
def r349 : Rule := .reference "Signed_command_payload" r348
/-- `protocol/layouts/external_transition.json:1, characters 389589-390676` -/
def r350 : Rule := .record [("version", (.int .int)), ("t", r73)]
/-- `protocol/layouts/external_transition.json:1, characters 389416-390679` -/
def r351 : Rule := .reference "Non_zero_curve_point.Uncompressed" r350
/-- `protocol/layouts/external_transition.json:1, characters 391572-391732` -/
def r352 : Rule := .reference "Snark_params.Make_inner_curve_scalar" r0
/-- `protocol/layouts/external_transition.json:1, characters 391409-391734` -/
def r353 : Rule := .tuple [r1, r352]
/-- `protocol/layouts/external_transition.json:1, characters 391235-391737` -/
def r354 : Rule := .reference "Signature_poly.Stable.V1" r353
/-- `protocol/layouts/external_transition.json:1, characters 391147-391740` -/
def r355 : Rule := .record [("version", (.int .int)), ("t", r354)]
/-- `protocol/layouts/external_transition.json:1, characters 390958-391743` -/
def r356 : Rule := .reference "Signature_poly" r355
/-- `protocol/layouts/external_transition.json:1, characters 390870-391746` -/
def r357 : Rule := .record [("version", (.int .int)), ("t", r356)]
/-- `protocol/layouts/external_transition.json:1, characters 390721-391749` -/
def r358 : Rule := .reference "Signature" r357
/-- `protocol/layouts/external_transition.json:1, characters 364746-391752` -/
def r359 : Rule := .record [("payload", r349), ("signer", r351), ("signature", r358)]
/-- `protocol/layouts/external_transition.json:1, characters 364516-391755` -/
def r360 : Rule := .reference "Signed_command.Poly.Stable.V1" r359
/-- `protocol/layouts/external_transition.json:1, characters 364428-391758` -/
def r361 : Rule := .record [("version", (.int .int)), ("t", r360)]
/-- `protocol/layouts/external_transition.json:1, characters 364214-391761` -/
def r362 : Rule := .reference "Signed_command.Poly" r361
/-- `protocol/layouts/external_transition.json:1, characters 364126-391764` -/
def r363 : Rule := .record [("version", (.int .int)), ("t", r362)]
/-- `protocol/layouts/external_transition.json:1, characters 363973-391767` -/
def r364 : Rule := .reference "Signed_command" r363
/-- `protocol/layouts/external_transition.json:1, characters 395947-399326` -/
def r365 : Rule := .record [("pk", r73), ("token_id", r30), ("nonce", r42), ("fee", r244)]
/-- `protocol/layouts/external_transition.json:1, characters 395703-399329` -/
def r366 : Rule := .reference "Other_fee_payer.Payload.Poly.Stable.V1" r365
/-- `protocol/layouts/external_transition.json:1, characters 395615-399332` -/
def r367 : Rule := .record [("version", (.int .int)), ("t", r366)]
/-- `protocol/layouts/external_transition.json:1, characters 395386-399335` -/
def r368 : Rule := .reference "Other_fee_payer.Payload.Poly" r367
/-- `protocol/layouts/external_transition.json:1, characters 395298-399338` -/
def r369 : Rule := .record [("version", (.int .int)), ("t", r368)]
/-- `protocol/layouts/external_transition.json:1, characters 395136-399341` -/
def r370 : Rule := .reference "Other_fee_payer.Payload" r369
/-- `protocol/layouts/external_transition.json:1, characters 395088-400414` -/
def r371 : Rule := .record [("payload", r370), ("signature", r358)]
/-- `protocol/layouts/external_transition.json:1, characters 394882-400417` -/
def r372 : Rule := .reference "Other_fee_payer.Stable.V1" r371
/-- `protocol/layouts/external_transition.json:1, characters 394794-400420` -/
def r373 : Rule := .record [("version", (.int .int)), ("t", r372)]
/-- `protocol/layouts/external_transition.json:1, characters 394640-400423` -/
def r374 : Rule := .reference "Other_fee_payer" r373
/-- `protocol/layouts/external_transition.json:1, characters 394630-400424` -/
def r375 : Rule := .option r374
/-- `protocol/layouts/external_transition.json:1, characters 406016-406289` -/
def r376 : Rule := .sum [.mk "Set" 0 [r113], .mk "Keep" 1 []]
/-- `protocol/layouts/external_transition.json:1, characters 405846-406292` -/
def r377 : Rule := .reference "Snapp_basic.Set_or_keep.Stable.V1" r376
/-- `protocol/layouts/external_transition.json:1, characters 405758-406295` -/
def r378 : Rule := .record [("version", (.int .int)), ("t", r377)]
/-- `protocol/layouts/external_transition.json:1, characters 405590-406298` -/
def r379 : Rule := .reference "Snapp_basic.Set_or_keep" r378
/-- `protocol/layouts/external_transition.json:1, characters 405579-406300` -/
def r380 : Rule := .custom [r379]
/-- `protocol/layouts/external_transition.json:1, characters 405419-406303` -/
def r381 : Rule := .reference "Pickles_types.Vector.Vector8" r380
/-- `protocol/layouts/external_transition.json:1, characters 405331-406306` -/
def r382 : Rule := .record [("version", (.int .int)), ("t", r381)]
/-- `protocol/layouts/external_transition.json:1, characters 405170-406309` -/
def r383 : Rule := .reference "Vector.Vector_8" r382
/-- `protocol/layouts/external_transition.json:1, characters 405082-406312` -/
def r384 : Rule := .record [("version", (.int .int)), ("t", r383)]
/-- `protocol/layouts/external_transition.json:1, characters 404924-406315` -/
def r385 : Rule := .reference "Snapp_state.V" r384
/-- `protocol/layouts/external_transition.json:1, characters 406782-407878` -/
def r386 : Rule := .sum [.mk "Set" 0 [r73], .mk "Keep" 1 []]
/-- `protocol/layouts/external_transition.json:1, characters 406612-407881` -/
def r387 : Rule := .reference "Snapp_basic.Set_or_keep.Stable.V1" r386
/-- `protocol/layouts/external_transition.json:1, characters 406524-407884` -/
def r388 : Rule := .record [("version", (.int .int)), ("t", r387)]
/-- `protocol/layouts/external_transition.json:1, characters 406356-407887` -/
def r389 : Rule := .reference "Snapp_basic.Set_or_keep" r388
/-- `protocol/layouts/external_transition.json:1, characters 411648-411725` -/
def r390 : Rule := .sum [.mk "Pow_2_roots_of_unity" 0 [(.int .int)]]
/-- `protocol/layouts/external_transition.json:1, characters 411488-411728` -/
def r391 : Rule := .reference "Domain.Stable.V1" r390
/-- `protocol/layouts/external_transition.json:1, characters 411400-411731` -/
def r392 : Rule := .record [("version", (.int .int)), ("t", r391)]
/-- `protocol/layouts/external_transition.json:1, characters 411255-411734` -/
def r393 : Rule := .reference "Domain" r392
/-- `protocol/layouts/external_transition.json:1, characters 411213-411737` -/
def r394 : Rule := .record [("h", r393)]
/-- `protocol/layouts/external_transition.json:1, characters 411041-411740` -/
def r395 : Rule := .reference "Side_loaded_verification_key.Domains.Stable.V1" r394
/-- `protocol/layouts/external_transition.json:1, characters 410953-411743` -/
def r396 : Rule := .record [("version", (.int .int)), ("t", r395)]
/-- `protocol/layouts/external_transition.json:1, characters 410772-411746` -/
def r397 : Rule := .reference "Side_loaded_verification_key.Domains" r396
/-- `protocol/layouts/external_transition.json:1, characters 412009-412181` -/
def r398 : Rule := .reference "Side_loaded_verification_key.Width.Stable.V1" .char
/-- `protocol/layouts/external_transition.json:1, characters 411921-412184` -/
def r399 : Rule := .record [("version", (.int .int)), ("t", r398)]
/-- `protocol/layouts/external_transition.json:1, characters 411748-412187` -/
def r400 : Rule := .reference "Side_loaded_verification_key.Width" r399
/-- `protocol/layouts/external_transition.json:1, characters 410762-412189` -/
def r401 : Rule := .tuple [r397, r400]
/-- `protocol/layouts/external_transition.json:1, characters 410754-412190` -/
def r402 : Rule := .list r401
/-- `protocol/layouts/external_transition.json:1, characters 410593-412193` -/
def r403 : Rule := .reference "[manually-created layout]" r402
/-- `protocol/layouts/external_transition.json:1, characters 410505-412196` -/
def r404 : Rule := .record [("version", (.int .int)), ("t", r403)]
/-- `protocol/layouts/external_transition.json:1, characters 410342-412199` -/
def r405 : Rule := .reference "At_most.At_most_8" r404
/-- `protocol/layouts/external_transition.json:1, characters 410254-412202` -/
def r406 : Rule := .record [("version", (.int .int)), ("t", r405)]
/-- `protocol/layouts/external_transition.json:1, characters 410064-412205` -/
def r407 : Rule := .reference "Side_loaded_verification_key.Max_branches_vec" r406
/-- `protocol/layouts/external_transition.json:1, characters 413563-424611` -/
def r408 : Rule := .record [("sigma_comm_0", r161), ("sigma_comm_1", r161), ("sigma_comm_2", r161), ("ql_comm", r161),
  ("qr_comm", r161), ("qo_comm", r161), ("qm_comm", r161), ("qc_comm", r161), ("rcm_comm_0", r161), ("rcm_comm_1", r161),
  ("rcm_comm_2", r161), ("psm_comm", r161), ("add_comm", r161), ("mul1_comm", r161), ("mul2_comm", r161), ("emul1_comm", r161),
  ("emul2_comm", r161), ("emul3_comm", r161)]
/-- `protocol/layouts/external_transition.json:1, characters 412996-424614` -/
def r409 : Rule := .reference "Plonk_verification_key_evals.Stable.V1" r408
/-- `protocol/layouts/external_transition.json:1, characters 412908-424617` -/
def r410 : Rule := .record [("version", (.int .int)), ("t", r409)]
/-- `protocol/layouts/external_transition.json:1, characters 412729-424620` -/
def r411 : Rule := .reference "Plonk_verification_key_evals" r410
/-- `protocol/layouts/external_transition.json:1, characters 410014-424623` -/
def r412 : Rule := .record [("step_data", r407), ("max_width", r400), ("wrap_index", r411)]
/-- `protocol/layouts/external_transition.json:1, characters 409656-424626` -/
def r413 : Rule := .reference "Side_loaded_verification_key.Repr.Stable.V1" r412
/-- `protocol/layouts/external_transition.json:1, characters 409568-424629` -/
def r414 : Rule := .record [("version", (.int .int)), ("t", r413)]
/-- `protocol/layouts/external_transition.json:1, characters 409390-424632` -/
def r415 : Rule := .reference "Side_loaded_verification_key.Repr" r414
/-- `protocol/layouts/external_transition.json:1, characters 409302-424635` -/
def r416 : Rule := .record [("version", (.int .int)), ("t", r415)]
/-- `protocol/layouts/external_transition.json:1, characters 409132-424638` -/
def r417 : Rule := .reference "Side_loaded_verification_key.R" r416
/-- `protocol/layouts/external_transition.json:1, characters 409044-424641` -/
def r418 : Rule := .record [("version", (.int .int)), ("t", r417)]
/-- `protocol/layouts/external_transition.json:1, characters 408876-424644` -/
def r419 : Rule := .reference "Side_loaded_verification_key" r418
/-- `protocol/layouts/external_transition.json:1, characters 408831-424857` -/
def r420 : Rule := .record [("data", r419), ("hash", r113)]
/-- `protocol/layouts/external_transition.json:1, characters 408666-424860` -/
def r421 : Rule := .reference "With_hash.Stable.V1" r420
/-- `protocol/layouts/external_transition.json:1, characters 408578-424863` -/
def r422 : Rule := .record [("version", (.int .int)), ("t", r421)]
/-- `protocol/layouts/external_transition.json:1, characters 408412-424866` -/
def r423 : Rule := .reference "With_hash" r422
/-- `protocol/layouts/external_transition.json:1, characters 408362-424916` -/
def r424 : Rule := .sum [.mk "Set" 0 [r423], .mk "Keep" 1 []]
/-- `protocol/layouts/external_transition.json:1, characters 408192-424919` -/
def r425 : Rule := .reference "Snapp_basic.Set_or_keep.Stable.V1" r424
/-- `protocol/layouts/external_transition.json:1, characters 408104-424922` -/
def r426 : Rule := .record [("version", (.int .int)), ("t", r425)]
/-- `protocol/layouts/external_transition.json:1, characters 407936-424925` -/
def r427 : Rule := .reference "Snapp_basic.Set_or_keep" r426
/-- `protocol/layouts/external_transition.json:1, characters 426867-427165` -/
def r428 : Rule := .sum [.mk "None" 0 [], .mk "Either" 1 [], .mk "Proof" 2 [], .mk "Signature" 3 [], .mk "Both" 4 [], .mk
  "Impossible" 5 []]
/-- `protocol/layouts/external_transition.json:1, characters 426657-427168` -/
def r429 : Rule := .reference "Permissions.Auth_required.Stable.V1" r428
/-- `protocol/layouts/external_transition.json:1, characters 426569-427171` -/
def r430 : Rule := .record [("version", (.int .int)), ("t", r429)]
/-- `protocol/layouts/external_transition.json:1, characters 426405-427174` -/
def r431 : Rule := .reference "Permissions.Auth_required" r430
/-- `protocol/layouts/external_transition.json:1, characters 426309-431245` -/
def r432 : Rule := .record [("stake", .bool), ("edit_state", r431), ("send", r431), ("receive", r431), ("set_delegate", r431),
  ("set_permissions", r431), ("set_verification_key", r431)]
/-- `protocol/layouts/external_transition.json:1, characters 425968-431248` -/
def r433 : Rule := .reference "Permissions.Poly.Stable.V1" r432
/-- `protocol/layouts/external_transition.json:1, characters 425880-431251` -/
def r434 : Rule := .record [("version", (.int .int)), ("t", r433)]
/-- `protocol/layouts/external_transition.json:1, characters 425683-431254` -/
def r435 : Rule := .reference "Permissions.Poly" r434
/-- `protocol/layouts/external_transition.json:1, characters 425595-431257` -/
def r436 : Rule := .record [("version", (.int .int)), ("t", r435)]
/-- `protocol/layouts/external_transition.json:1, characters 425445-431260` -/
def r437 : Rule := .reference "Permissions" r436
/-- `protocol/layouts/external_transition.json:1, characters 425395-431310` -/
def r438 : Rule := .sum [.mk "Set" 0 [r437], .mk "Keep" 1 []]
/-- `protocol/layouts/external_transition.json:1, characters 425225-431313` -/
def r439 : Rule := .reference "Snapp_basic.Set_or_keep.Stable.V1" r438
/-- `protocol/layouts/external_transition.json:1, characters 425137-431316` -/
def r440 : Rule := .record [("version", (.int .int)), ("t", r439)]
/-- `protocol/layouts/external_transition.json:1, characters 424969-431319` -/
def r441 : Rule := .reference "Snapp_basic.Set_or_keep" r440
/-- `protocol/layouts/external_transition.json:1, characters 404874-431322` -/
def r442 : Rule := .record [("app_state", r385), ("delegate", r389), ("verification_key", r427), ("permissions", r441)]
/-- `protocol/layouts/external_transition.json:1, characters 404567-431325` -/
def r443 : Rule := .reference "Snapp_command.Party.Update.Poly.Stable.V1" r442
/-- `protocol/layouts/external_transition.json:1, characters 404479-431328` -/
def r444 : Rule := .record [("version", (.int .int)), ("t", r443)]
/-- `protocol/layouts/external_transition.json:1, characters 404239-431331` -/
def r445 : Rule := .reference "Snapp_command.Party.Update.Poly" r444
/-- `protocol/layouts/external_transition.json:1, characters 404151-431334` -/
def r446 : Rule := .record [("version", (.int .int)), ("t", r445)]
/-- `protocol/layouts/external_transition.json:1, characters 403986-431337` -/
def r447 : Rule := .reference "Snapp_command.Party.Update" r446
/-- `protocol/layouts/external_transition.json:1, characters 431842-433099` -/
def r448 : Rule := .record [("magnitude", r47), ("sgn", r268)]
/-- `protocol/layouts/external_transition.json:1, characters 431651-433102` -/
def r449 : Rule := .reference "Signed_poly.Stable.V1" r448
/-- `protocol/layouts/external_transition.json:1, characters 431563-433105` -/
def r450 : Rule := .record [("version", (.int .int)), ("t", r449)]
/-- `protocol/layouts/external_transition.json:1, characters 431375-433108` -/
def r451 : Rule := .reference "Signed_poly" r450
/-- `protocol/layouts/external_transition.json:1, characters 402908-433111` -/
def r452 : Rule := .record [("pk", r73), ("update", r447), ("delta", r451)]
/-- `protocol/layouts/external_transition.json:1, characters 402671-433114` -/
def r453 : Rule := .reference "Snapp_command.Party.Body.Poly.Stable.V1" r452
/-- `protocol/layouts/external_transition.json:1, characters 402583-433117` -/
def r454 : Rule := .record [("version", (.int .int)), ("t", r453)]
/-- `protocol/layouts/external_transition.json:1, characters 402353-433120` -/
def r455 : Rule := .reference "Snapp_command.Party.Body.Poly" r454
/-- `protocol/layouts/external_transition.json:1, characters 402265-433123` -/
def r456 : Rule := .record [("version", (.int .int)), ("t", r455)]
/-- `protocol/layouts/external_transition.json:1, characters 402102-433126` -/
def r457 : Rule := .reference "Snapp_command.Party.Body" r456
/-- `protocol/layouts/external_transition.json:1, characters 436485-437240` -/
def r458 : Rule := .record [("version", (.int .int)), ("t", r47)]
/-- `protocol/layouts/external_transition.json:1, characters 436330-437243` -/
def r459 : Rule := .reference "Currency.Balance" r458
/-- `protocol/layouts/external_transition.json:1, characters 436284-438197` -/
def r460 : Rule := .record [("lower", r459), ("upper", r459)]
/-- `protocol/layouts/external_transition.json:1, characters 436101-438200` -/
def r461 : Rule := .reference "Snapp_predicate.Closed_interval.Stable.V1" r460
/-- `protocol/layouts/external_transition.json:1, characters 436013-438203` -/
def r462 : Rule := .record [("version", (.int .int)), ("t", r461)]
/-- `protocol/layouts/external_transition.json:1, characters 435837-438206` -/
def r463 : Rule := .reference "Snapp_predicate.Closed_interval" r462
/-- `protocol/layouts/external_transition.json:1, characters 435785-438258` -/
def r464 : Rule := .sum [.mk "Check" 0 [r463], .mk "Ignore" 1 []]
/-- `protocol/layouts/external_transition.json:1, characters 435613-438261` -/
def r465 : Rule := .reference "Snapp_basic.Or_ignore.Stable.V1" r464
/-- `protocol/layouts/external_transition.json:1, characters 435525-438264` -/
def r466 : Rule := .record [("version", (.int .int)), ("t", r465)]
/-- `protocol/layouts/external_transition.json:1, characters 435359-438267` -/
def r467 : Rule := .reference "Snapp_basic.Or_ignore" r466
/-- `protocol/layouts/external_transition.json:1, characters 435271-438270` -/
def r468 : Rule := .record [("version", (.int .int)), ("t", r467)]
/-- `protocol/layouts/external_transition.json:1, characters 435103-438273` -/
def r469 : Rule := .reference "Snapp_predicate.Numeric" r468
/-- `protocol/layouts/external_transition.json:1, characters 439492-440897` -/
def r470 : Rule := .record [("lower", r42), ("upper", r42)]
/-- `protocol/layouts/external_transition.json:1, characters 439309-440900` -/
def r471 : Rule := .reference "Snapp_predicate.Closed_interval.Stable.V1" r470
/-- `protocol/layouts/external_transition.json:1, characters 439221-440903` -/
def r472 : Rule := .record [("version", (.int .int)), ("t", r471)]
/-- `protocol/layouts/external_transition.json:1, characters 439045-440906` -/
def r473 : Rule := .reference "Snapp_predicate.Closed_interval" r472
/-- `protocol/layouts/external_transition.json:1, characters 438993-440958` -/
def r474 : Rule := .sum [.mk "Check" 0 [r473], .mk "Ignore" 1 []]
/-- `protocol/layouts/external_transition.json:1, characters 438821-440961` -/
def r475 : Rule := .reference "Snapp_basic.Or_ignore.Stable.V1" r474
/-- `protocol/layouts/external_transition.json:1, characters 438733-440964` -/
def r476 : Rule := .record [("version", (.int .int)), ("t", r475)]
/-- `protocol/layouts/external_transition.json:1, characters 438567-440967` -/
def r477 : Rule := .reference "Snapp_basic.Or_ignore" r476
/-- `protocol/layouts/external_transition.json:1, characters 438479-440970` -/
def r478 : Rule := .record [("version", (.int .int)), ("t", r477)]
/-- `protocol/layouts/external_transition.json:1, characters 438311-440973` -/
def r479 : Rule := .reference "Snapp_predicate.Numeric" r478
/-- `protocol/layouts/external_transition.json:1, characters 441502-441904` -/
def r480 : Rule := .reference "Receipt.Chain_hash" r2
/-- `protocol/layouts/external_transition.json:1, characters 441450-441956` -/
def r481 : Rule := .sum [.mk "Check" 0 [r480], .mk "Ignore" 1 []]
/-- `protocol/layouts/external_transition.json:1, characters 441278-441959` -/
def r482 : Rule := .reference "Snapp_basic.Or_ignore.Stable.V1" r481
/-- `protocol/layouts/external_transition.json:1, characters 441190-441962` -/
def r483 : Rule := .record [("version", (.int .int)), ("t", r482)]
/-- `protocol/layouts/external_transition.json:1, characters 441024-441965` -/
def r484 : Rule := .reference "Snapp_basic.Or_ignore" r483
/-- `protocol/layouts/external_transition.json:1, characters 442434-443534` -/
def r485 : Rule := .sum [.mk "Check" 0 [r73], .mk "Ignore" 1 []]
/-- `protocol/layouts/external_transition.json:1, characters 442262-443537` -/
def r486 : Rule := .reference "Snapp_basic.Or_ignore.Stable.V1" r485
/-- `protocol/layouts/external_transition.json:1, characters 442174-443540` -/
def r487 : Rule := .record [("version", (.int .int)), ("t", r486)]
/-- `protocol/layouts/external_transition.json:1, characters 442008-443543` -/
def r488 : Rule := .reference "Snapp_basic.Or_ignore" r487
/-- `protocol/layouts/external_transition.json:1, characters 446249-446526` -/
def r489 : Rule := .sum [.mk "Check" 0 [r113], .mk "Ignore" 1 []]
/-- `protocol/layouts/external_transition.json:1, characters 446077-446529` -/
def r490 : Rule := .reference "Snapp_basic.Or_ignore.Stable.V1" r489
/-- `protocol/layouts/external_transition.json:1, characters 445989-446532` -/
def r491 : Rule := .record [("version", (.int .int)), ("t", r490)]
/-- `protocol/layouts/external_transition.json:1, characters 445823-446535` -/
def r492 : Rule := .reference "Snapp_basic.Or_ignore" r491
/-- `protocol/layouts/external_transition.json:1, characters 445812-446537` -/
def r493 : Rule := .custom [r492]
/-- `protocol/layouts/external_transition.json:1, characters 445652-446540` -/
def r494 : Rule := .reference "Pickles_types.Vector.Vector8" r493
/-- `protocol/layouts/external_transition.json:1, characters 445564-446543` -/
def r495 : Rule := .record [("version", (.int .int)), ("t", r494)]
/-- `protocol/layouts/external_transition.json:1, characters 445403-446546` -/
def r496 : Rule := .reference "Vector.Vector_8" r495
/-- `protocol/layouts/external_transition.json:1, characters 445315-446549` -/
def r497 : Rule := .record [("version", (.int .int)), ("t", r496)]
/-- `protocol/layouts/external_transition.json:1, characters 445157-446552` -/
def r498 : Rule := .reference "Snapp_state.V" r497
/-- `protocol/layouts/external_transition.json:1, characters 435055-446555` -/
def r499 : Rule := .record [("balance", r469), ("nonce", r479), ("receipt_chain_hash", r484), ("public_key", r488),
  ("delegate", r488), ("state", r498)]
/-- `protocol/layouts/external_transition.json:1, characters 434695-446558` -/
def r500 : Rule := .reference "Snapp_predicate.Account.Poly.Stable.V1" r499
/-- `protocol/layouts/external_transition.json:1, characters 434607-446561` -/
def r501 : Rule := .record [("version", (.int .int)), ("t", r500)]
/-- `protocol/layouts/external_transition.json:1, characters 434334-446564` -/
def r502 : Rule := .reference "Snapp_predicate.Account.Poly" r501
/-- `protocol/layouts/external_transition.json:1, characters 434246-446567` -/
def r503 : Rule := .record [("version", (.int .int)), ("t", r502)]
/-- `protocol/layouts/external_transition.json:1, characters 434084-446570` -/
def r504 : Rule := .reference "Snapp_predicate.Account" r503
/-- `protocol/layouts/external_transition.json:1, characters 460941-461092` -/
def r505 : Rule := .sum [.mk "Empty" 0 [], .mk "Non_empty" 1 [], .mk "Any" 2 []]
/-- `protocol/layouts/external_transition.json:1, characters 460764-461095` -/
def r506 : Rule := .reference "Snapp_basic.Account_state.Stable.V1" r505
/-- `protocol/layouts/external_transition.json:1, characters 460676-461098` -/
def r507 : Rule := .record [("version", (.int .int)), ("t", r506)]
/-- `protocol/layouts/external_transition.json:1, characters 460512-461101` -/
def r508 : Rule := .reference "Snapp_basic.Account_state" r507
/-- `protocol/layouts/external_transition.json:1, characters 460467-461730` -/
def r509 : Rule := .record [("prev", r508), ("next", r508)]
/-- `protocol/layouts/external_transition.json:1, characters 460295-461733` -/
def r510 : Rule := .reference "Snapp_basic.Transition.Stable.V1" r509
/-- `protocol/layouts/external_transition.json:1, characters 460207-461736` -/
def r511 : Rule := .record [("version", (.int .int)), ("t", r510)]
/-- `protocol/layouts/external_transition.json:1, characters 460040-461739` -/
def r512 : Rule := .reference "Snapp_basic.Transition" r511
/-- `protocol/layouts/external_transition.json:1, characters 447453-462497` -/
def r513 : Rule := .record [("predicate", r504), ("account_transition", r512), ("account_vk", r492)]
/-- `protocol/layouts/external_transition.json:1, characters 447183-462500` -/
def r514 : Rule := .reference "Snapp_predicate.Other.Poly.Stable.V1" r513
/-- `protocol/layouts/external_transition.json:1, characters 447095-462503` -/
def r515 : Rule := .record [("version", (.int .int)), ("t", r514)]
/-- `protocol/layouts/external_transition.json:1, characters 446856-462506` -/
def r516 : Rule := .reference "Snapp_predicate.Other.Poly" r515
/-- `protocol/layouts/external_transition.json:1, characters 446768-462509` -/
def r517 : Rule := .record [("version", (.int .int)), ("t", r516)]
/-- `protocol/layouts/external_transition.json:1, characters 446608-462512` -/
def r518 : Rule := .reference "Snapp_predicate.Other" r517
/-- `protocol/layouts/external_transition.json:1, characters 465969-466469` -/
def r519 : Rule := .sum [.mk "Check" 0 [r4], .mk "Ignore" 1 []]
/-- `protocol/layouts/external_transition.json:1, characters 465797-466472` -/
def r520 : Rule := .reference "Snapp_basic.Or_ignore.Stable.V1" r519
/-- `protocol/layouts/external_transition.json:1, characters 465709-466475` -/
def r521 : Rule := .record [("version", (.int .int)), ("t", r520)]
/-- `protocol/layouts/external_transition.json:1, characters 465543-466478` -/
def r522 : Rule := .reference "Snapp_basic.Or_ignore" r521
/-- `protocol/layouts/external_transition.json:1, characters 467720-469611` -/
def r523 : Rule := .record [("lower", r30), ("upper", r30)]
/-- `protocol/layouts/external_transition.json:1, characters 467537-469614` -/
def r524 : Rule := .reference "Snapp_predicate.Closed_interval.Stable.V1" r523
/-- `protocol/layouts/external_transition.json:1, characters 467449-469617` -/
def r525 : Rule := .record [("version", (.int .int)), ("t", r524)]
/-- `protocol/layouts/external_transition.json:1, characters 467273-469620` -/
def r526 : Rule := .reference "Snapp_predicate.Closed_interval" r525
/-- `protocol/layouts/external_transition.json:1, characters 467221-469672` -/
def r527 : Rule := .sum [.mk "Check" 0 [r526], .mk "Ignore" 1 []]
/-- `protocol/layouts/external_transition.json:1, characters 467049-469675` -/
def r528 : Rule := .reference "Snapp_basic.Or_ignore.Stable.V1" r527
/-- `protocol/layouts/external_transition.json:1, characters 466961-469678` -/
def r529 : Rule := .record [("version", (.int .int)), ("t", r528)]
/-- `protocol/layouts/external_transition.json:1, characters 466795-469681` -/
def r530 : Rule := .reference "Snapp_basic.Or_ignore" r529
/-- `protocol/layouts/external_transition.json:1, characters 466707-469684` -/
def r531 : Rule := .record [("version", (.int .int)), ("t", r530)]
/-- `protocol/layouts/external_transition.json:1, characters 466539-469687` -/
def r532 : Rule := .reference "Snapp_predicate.Numeric" r531
/-- `protocol/layouts/external_transition.json:1, characters 470910-472325` -/
def r533 : Rule := .record [("lower", r31), ("upper", r31)]
/-- `protocol/layouts/external_transition.json:1, characters 470727-472328` -/
def r534 : Rule := .reference "Snapp_predicate.Closed_interval.Stable.V1" r533
/-- `protocol/layouts/external_transition.json:1, characters 470639-472331` -/
def r535 : Rule := .record [("version", (.int .int)), ("t", r534)]
/-- `protocol/layouts/external_transition.json:1, characters 470463-472334` -/
def r536 : Rule := .reference "Snapp_predicate.Closed_interval" r535
/-- `protocol/layouts/external_transition.json:1, characters 470411-472386` -/
def r537 : Rule := .sum [.mk "Check" 0 [r536], .mk "Ignore" 1 []]
/-- `protocol/layouts/external_transition.json:1, characters 470239-472389` -/
def r538 : Rule := .reference "Snapp_basic.Or_ignore.Stable.V1" r537
/-- `protocol/layouts/external_transition.json:1, characters 470151-472392` -/
def r539 : Rule := .record [("version", (.int .int)), ("t", r538)]
/-- `protocol/layouts/external_transition.json:1, characters 469985-472395` -/
def r540 : Rule := .reference "Snapp_basic.Or_ignore" r539
/-- `protocol/layouts/external_transition.json:1, characters 469897-472398` -/
def r541 : Rule := .record [("version", (.int .int)), ("t", r540)]
/-- `protocol/layouts/external_transition.json:1, characters 469729-472401` -/
def r542 : Rule := .reference "Snapp_predicate.Numeric" r541
/-- `protocol/layouts/external_transition.json:1, characters 479109-480524` -/
def r543 : Rule := .record [("lower", r47), ("upper", r47)]
/-- `protocol/layouts/external_transition.json:1, characters 478926-480527` -/
def r544 : Rule := .reference "Snapp_predicate.Closed_interval.Stable.V1" r543
/-- `protocol/layouts/external_transition.json:1, characters 478838-480530` -/
def r545 : Rule := .record [("version", (.int .int)), ("t", r544)]
/-- `protocol/layouts/external_transition.json:1, characters 478662-480533` -/
def r546 : Rule := .reference "Snapp_predicate.Closed_interval" r545
/-- `protocol/layouts/external_transition.json:1, characters 478610-480585` -/
def r547 : Rule := .sum [.mk "Check" 0 [r546], .mk "Ignore" 1 []]
/-- `protocol/layouts/external_transition.json:1, characters 478438-480588` -/
def r548 : Rule := .reference "Snapp_basic.Or_ignore.Stable.V1" r547
/-- `protocol/layouts/external_transition.json:1, characters 478350-480591` -/
def r549 : Rule := .record [("version", (.int .int)), ("t", r548)]
/-- `protocol/layouts/external_transition.json:1, characters 478184-480594` -/
def r550 : Rule := .reference "Snapp_basic.Or_ignore" r549
/-- `protocol/layouts/external_transition.json:1, characters 478096-480597` -/
def r551 : Rule := .record [("version", (.int .int)), ("t", r550)]
/-- `protocol/layouts/external_transition.json:1, characters 477928-480600` -/
def r552 : Rule := .reference "Snapp_predicate.Numeric" r551
/-- `protocol/layouts/external_transition.json:1, characters 487651-491353` -/
def r553 : Rule := .record [("hash", r522), ("total_currency", r552)]
/-- `protocol/layouts/external_transition.json:1, characters 487438-491356` -/
def r554 : Rule := .reference "Epoch_ledger.Poly.Stable.V1" r553
/-- `protocol/layouts/external_transition.json:1, characters 487350-491359` -/
def r555 : Rule := .record [("version", (.int .int)), ("t", r554)]
/-- `protocol/layouts/external_transition.json:1, characters 487146-491362` -/
def r556 : Rule := .reference "Epoch_ledger.Poly" r555
/-- `protocol/layouts/external_transition.json:1, characters 491825-492323` -/
def r557 : Rule := .sum [.mk "Check" 0 [r60], .mk "Ignore" 1 []]
/-- `protocol/layouts/external_transition.json:1, characters 491653-492326` -/
def r558 : Rule := .reference "Snapp_basic.Or_ignore.Stable.V1" r557
/-- `protocol/layouts/external_transition.json:1, characters 491565-492329` -/
def r559 : Rule := .record [("version", (.int .int)), ("t", r558)]
/-- `protocol/layouts/external_transition.json:1, characters 491399-492332` -/
def r560 : Rule := .reference "Snapp_basic.Or_ignore" r559
/-- `protocol/layouts/external_transition.json:1, characters 492807-493305` -/
def r561 : Rule := .sum [.mk "Check" 0 [r3], .mk "Ignore" 1 []]
/-- `protocol/layouts/external_transition.json:1, characters 492635-493308` -/
def r562 : Rule := .reference "Snapp_basic.Or_ignore.Stable.V1" r561
/-- `protocol/layouts/external_transition.json:1, characters 492547-493311` -/
def r563 : Rule := .record [("version", (.int .int)), ("t", r562)]
/-- `protocol/layouts/external_transition.json:1, characters 492381-493314` -/
def r564 : Rule := .reference "Snapp_basic.Or_ignore" r563
/-- `protocol/layouts/external_transition.json:1, characters 487099-497005` -/
def r565 : Rule := .record [("ledger", r556), ("seed", r560), ("start_checkpoint", r564), ("lock_checkpoint", r564),
  ("epoch_length", r479)]
/-- `protocol/layouts/external_transition.json:1, characters 486742-497008` -/
def r566 : Rule := .reference "Epoch_data.Poly.Stable.V1" r565
/-- `protocol/layouts/external_transition.json:1, characters 486654-497011` -/
def r567 : Rule := .record [("version", (.int .int)), ("t", r566)]
/-- `protocol/layouts/external_transition.json:1, characters 486350-497014` -/
def r568 : Rule := .reference "Epoch_data.Poly" r567
/-- `protocol/layouts/external_transition.json:1, characters 486262-497017` -/
def r569 : Rule := .record [("version", (.int .int)), ("t", r568)]
/-- `protocol/layouts/external_transition.json:1, characters 486082-497020` -/
def r570 : Rule := .reference "Snapp_predicate.Protocol_state.Epoch_data" r569
/-- `protocol/layouts/external_transition.json:1, characters 465483-508009` -/
def r571 : Rule := .record [("snarked_ledger_hash", r522), ("snarked_next_available_token", r532), ("timestamp", r542),
  ("blockchain_length", r479), ("min_window_density", r479), ("last_vrf_output", .unit), ("total_currency", r552),
  ("curr_global_slot", r479), ("global_slot_since_genesis", r479), ("staking_epoch_data", r570), ("next_epoch_data", r570)]
/-- `protocol/layouts/external_transition.json:1, characters 464863-508012` -/
def r572 : Rule := .reference "Snapp_predicate.Protocol_state.Poly.Stable.V1" r571
/-- `protocol/layouts/external_transition.json:1, characters 464775-508015` -/
def r573 : Rule := .record [("version", (.int .int)), ("t", r572)]
/-- `protocol/layouts/external_transition.json:1, characters 464403-508018` -/
def r574 : Rule := .reference "Snapp_predicate.Protocol_state.Poly" r573
/-- `protocol/layouts/external_transition.json:1, characters 464315-508021` -/
def r575 : Rule := .record [("version", (.int .int)), ("t", r574)]
/-- `protocol/layouts/external_transition.json:1, characters 464146-508024` -/
def r576 : Rule := .reference "Snapp_predicate.Protocol_state" r575
/-- `protocol/layouts/external_transition.json:1, characters 434029-508027` -/
def r577 : Rule := .record [("self_predicate", r504), ("other", r518), ("fee_payer", r488), ("protocol_state_predicate", r576)]
/-- `protocol/layouts/external_transition.json:1, characters 433739-508030` -/
def r578 : Rule := .reference "Snapp_predicate.Poly.Stable.V1" r577
/-- `protocol/layouts/external_transition.json:1, characters 433651-508033` -/
def r579 : Rule := .record [("version", (.int .int)), ("t", r578)]
/-- `protocol/layouts/external_transition.json:1, characters 433410-508036` -/
def r580 : Rule := .reference "Snapp_predicate.Poly" r579
/-- `protocol/layouts/external_transition.json:1, characters 433322-508039` -/
def r581 : Rule := .record [("version", (.int .int)), ("t", r580)]
/-- `protocol/layouts/external_transition.json:1, characters 433168-508042` -/
def r582 : Rule := .reference "Snapp_predicate" r581
/-- `protocol/layouts/external_transition.json:1, characters 402057-508045` -/
def r583 : Rule := .record [("body", r457), ("predicate", r582)]
/-- `protocol/layouts/external_transition.json:1, characters 401839-508048` -/
def r584 : Rule := .reference "Snapp_command.Party.Predicated.Poly.Stable.V1" r583
/-- `protocol/layouts/external_transition.json:1, characters 401751-508051` -/
def r585 : Rule := .record [("version", (.int .int)), ("t", r584)]
/-- `protocol/layouts/external_transition.json:1, characters 401537-508054` -/
def r586 : Rule := .reference "Snapp_command.Party.Predicated.Poly" r585
/-- `protocol/layouts/external_transition.json:1, characters 401449-508057` -/
def r587 : Rule := .record [("version", (.int .int)), ("t", r586)]
/-- `protocol/layouts/external_transition.json:1, characters 401273-508060` -/
def r588 : Rule := .reference "Snapp_command.Party.Predicated.Proved" r587
/-- `protocol/layouts/external_transition.json:1, characters 527479-530873` -/
def r589 : Rule := .record [("version", (.int .int)), ("t", r152)]
/-- `protocol/layouts/external_transition.json:1, characters 527289-530876` -/
def r590 : Rule := .reference "Side_loaded_verification_key.Width.Max_vector" r589
/-- `protocol/layouts/external_transition.json:1, characters 526625-530879` -/
def r591 : Rule := .record [("sg", r141), ("old_bulletproof_challenges", r590)]
/-- `protocol/layouts/external_transition.json:1, characters 526357-530882` -/
def r592 : Rule := .reference "Composition_types.Dlog_based.Proof_state.Me_only.Stable.V1" r591
/-- `protocol/layouts/external_transition.json:1, characters 526269-530885` -/
def r593 : Rule := .record [("version", (.int .int)), ("t", r592)]
/-- `protocol/layouts/external_transition.json:1, characters 526020-530888` -/
def r594 : Rule := .reference "Composition_types.Dlog_based.Proof_state.Me_only" r593
/-- `protocol/layouts/external_transition.json:1, characters 512706-530891` -/
def r595 : Rule := .record [("deferred_values", r134), ("sponge_digest_before_evaluations", r139), ("me_only", r594)]
/-- `protocol/layouts/external_transition.json:1, characters 512297-530894` -/
def r596 : Rule := .reference "Composition_types.Dlog_based.Proof_state.Stable.V1" r595
/-- `protocol/layouts/external_transition.json:1, characters 512209-530897` -/
def r597 : Rule := .record [("version", (.int .int)), ("t", r596)]
/-- `protocol/layouts/external_transition.json:1, characters 511878-530900` -/
def r598 : Rule := .reference "Composition_types.Dlog_based.Proof_state" r597
/-- `protocol/layouts/external_transition.json:1, characters 531755-532838` -/
def r599 : Rule := .record [("version", (.int .int)), ("t", r164)]
/-- `protocol/layouts/external_transition.json:1, characters 531564-532841` -/
def r600 : Rule := .reference "Side_loaded_verification_key.Width.Max_at_most" r599
/-- `protocol/layouts/external_transition.json:1, characters 533091-536209` -/
def r601 : Rule := .record [("version", (.int .int)), ("t", r168)]
/-- `protocol/layouts/external_transition.json:1, characters 532900-536212` -/
def r602 : Rule := .reference "Side_loaded_verification_key.Width.Max_at_most" r601
/-- `protocol/layouts/external_transition.json:1, characters 531472-536215` -/
def r603 : Rule := .record [("app_state", .unit), ("sg", r600), ("old_bulletproof_challenges", r602)]
/-- `protocol/layouts/external_transition.json:1, characters 531237-536218` -/
def r604 : Rule := .reference "Reduced_me_only.Pairing_based.Stable.V1" r603
/-- `protocol/layouts/external_transition.json:1, characters 531149-536221` -/
def r605 : Rule := .record [("version", (.int .int)), ("t", r604)]
/-- `protocol/layouts/external_transition.json:1, characters 530945-536224` -/
def r606 : Rule := .reference "Reduced_me_only.Pairing_based" r605
/-- `protocol/layouts/external_transition.json:1, characters 511826-536227` -/
def r607 : Rule := .record [("proof_state", r598), ("pass_through", r606)]
/-- `protocol/layouts/external_transition.json:1, characters 511427-536230` -/
def r608 : Rule := .reference "Composition_types.Dlog_based.Statement.Stable.V1" r607
/-- `protocol/layouts/external_transition.json:1, characters 511339-536233` -/
def r609 : Rule := .record [("version", (.int .int)), ("t", r608)]
/-- `protocol/layouts/external_transition.json:1, characters 510980-536236` -/
def r610 : Rule := .reference "Composition_types.Dlog_based.Statement" r609
/-- `protocol/layouts/external_transition.json:1, characters 510892-536239` -/
def r611 : Rule := .record [("version", (.int .int)), ("t", r610)]
/-- `protocol/layouts/external_transition.json:1, characters 510517-536242` -/
def r612 : Rule := .reference "Composition_types.Dlog_based.Statement.Minimal" r611
/-- `protocol/layouts/external_transition.json:1, characters 510467-574889` -/
def r613 : Rule := .record [("statement", r612), ("prev_evals", r190), ("prev_x_hat", r193), ("proof", r233)]
/-- `protocol/layouts/external_transition.json:1, characters 509534-574892` -/
def r614 : Rule := .reference "Proof.Base.Dlog_based.Stable.V1" r613
/-- `protocol/layouts/external_transition.json:1, characters 509446-574895` -/
def r615 : Rule := .record [("version", (.int .int)), ("t", r614)]
/-- `protocol/layouts/external_transition.json:1, characters 509218-574898` -/
def r616 : Rule := .reference "Proof.Base.Dlog_based" r615
/-- `protocol/layouts/external_transition.json:1, characters 509130-574901` -/
def r617 : Rule := .record [("version", (.int .int)), ("t", r616)]
/-- `protocol/layouts/external_transition.json:1, characters 508966-574904` -/
def r618 : Rule := .reference "Proof.Branching_max.Repr" r617
/-- `protocol/layouts/external_transition.json:1, characters 508878-574907` -/
def r619 : Rule := .record [("version", (.int .int)), ("t", r618)]
/-- `protocol/layouts/external_transition.json:1, characters 508719-574910` -/
def r620 : Rule := .reference "Proof.Branching_max" r619
/-- `protocol/layouts/external_transition.json:1, characters 508667-643314` -/
def r621 : Rule := .sum [.mk "Proof" 0 [r620], .mk "Signature" 1 [r358], .mk "Both" 2 [r358, r620], .mk "None_given" 3 []]
/-- `protocol/layouts/external_transition.json:1, characters 508340-643317` -/
def r622 : Rule := .reference "Control.Stable.V1" r621
/-- `protocol/layouts/external_transition.json:1, characters 508252-643320` -/
def r623 : Rule := .record [("version", (.int .int)), ("t", r622)]
/-- `protocol/layouts/external_transition.json:1, characters 508106-643323` -/
def r624 : Rule := .reference "Control" r623
/-- `protocol/layouts/external_transition.json:1, characters 401228-643326` -/
def r625 : Rule := .record [("data", r588), ("authorization", r624)]
/-- `protocol/layouts/external_transition.json:1, characters 401016-643329` -/
def r626 : Rule := .reference "Snapp_command.Party.Authorized.Poly.Stable.V1" r625
/-- `protocol/layouts/external_transition.json:1, characters 400928-643332` -/
def r627 : Rule := .record [("version", (.int .int)), ("t", r626)]
/-- `protocol/layouts/external_transition.json:1, characters 400724-643335` -/
def r628 : Rule := .reference "Snapp_command.Party.Authorized.Poly" r627
/-- `protocol/layouts/external_transition.json:1, characters 400636-643338` -/
def r629 : Rule := .record [("version", (.int .int)), ("t", r628)]
/-- `protocol/layouts/external_transition.json:1, characters 400460-643341` -/
def r630 : Rule := .reference "Snapp_command.Party.Authorized.Proved" r629
/-- `protocol/layouts/external_transition.json:1, characters 644982-676103` -/
def r631 : Rule := .record [("body", r457), ("predicate", .unit)]
/-- `protocol/layouts/external_transition.json:1, characters 644764-676106` -/
def r632 : Rule := .reference "Snapp_command.Party.Predicated.Poly.Stable.V1" r631
/-- `protocol/layouts/external_transition.json:1, characters 644676-676109` -/
def r633 : Rule := .record [("version", (.int .int)), ("t", r632)]
/-- `protocol/layouts/external_transition.json:1, characters 644462-676112` -/
def r634 : Rule := .reference "Snapp_command.Party.Predicated.Poly" r633
/-- `protocol/layouts/external_transition.json:1, characters 644374-676115` -/
def r635 : Rule := .record [("version", (.int .int)), ("t", r634)]
/-- `protocol/layouts/external_transition.json:1, characters 644199-676118` -/
def r636 : Rule := .reference "Snapp_command.Party.Predicated.Empty" r635
/-- `protocol/layouts/external_transition.json:1, characters 644154-676174` -/
def r637 : Rule := .record [("data", r636), ("authorization", .unit)]
/-- `protocol/layouts/external_transition.json:1, characters 643942-676177` -/
def r638 : Rule := .reference "Snapp_command.Party.Authorized.Poly.Stable.V1" r637
/-- `protocol/layouts/external_transition.json:1, characters 643854-676180` -/
def r639 : Rule := .record [("version", (.int .int)), ("t", r638)]
/-- `protocol/layouts/external_transition.json:1, characters 643650-676183` -/
def r640 : Rule := .reference "Snapp_command.Party.Authorized.Poly" r639
/-- `protocol/layouts/external_transition.json:1, characters 643562-676186` -/
def r641 : Rule := .record [("version", (.int .int)), ("t", r640)]
/-- `protocol/layouts/external_transition.json:1, characters 643387-676189` -/
def r642 : Rule := .reference "Snapp_command.Party.Authorized.Empty" r641
/-- `protocol/layouts/external_transition.json:1, characters 643377-676190` -/
def r643 : Rule := .option r642
/-- `protocol/layouts/external_transition.json:1, characters 393635-676193` -/
def r644 : Rule := .record [("token_id", r30), ("fee_payment", r375), ("one", r630), ("two", r643)]
/-- `protocol/layouts/external_transition.json:1, characters 393371-676196` -/
def r645 : Rule := .reference "Snapp_command.Inner.Stable.V1" r644
/-- `protocol/layouts/external_transition.json:1, characters 393283-676199` -/
def r646 : Rule := .record [("version", (.int .int)), ("t", r645)]
/-- `protocol/layouts/external_transition.json:1, characters 393099-676202` -/
def r647 : Rule := .reference "Snapp_command.Inner" r646
/-- `protocol/layouts/external_transition.json:1, characters 928133-959906` -/
def r648 : Rule := .record [("body", r457), ("predicate", r42)]
/-- `protocol/layouts/external_transition.json:1, characters 927915-959909` -/
def r649 : Rule := .reference "Snapp_command.Party.Predicated.Poly.Stable.V1" r648
/-- `protocol/layouts/external_transition.json:1, characters 927827-959912` -/
def r650 : Rule := .record [("version", (.int .int)), ("t", r649)]
/-- `protocol/layouts/external_transition.json:1, characters 927613-959915` -/
def r651 : Rule := .reference "Snapp_command.Party.Predicated.Poly" r650
/-- `protocol/layouts/external_transition.json:1, characters 927525-959918` -/
def r652 : Rule := .record [("version", (.int .int)), ("t", r651)]
/-- `protocol/layouts/external_transition.json:1, characters 927349-959921` -/
def r653 : Rule := .reference "Snapp_command.Party.Predicated.Signed" r652
/-- `protocol/layouts/external_transition.json:1, characters 927304-960998` -/
def r654 : Rule := .record [("data", r653), ("authorization", r358)]
/-- `protocol/layouts/external_transition.json:1, characters 927092-961001` -/
def r655 : Rule := .reference "Snapp_command.Party.Authorized.Poly.Stable.V1" r654
/-- `protocol/layouts/external_transition.json:1, characters 927004-961004` -/
def r656 : Rule := .record [("version", (.int .int)), ("t", r655)]
/-- `protocol/layouts/external_transition.json:1, characters 926800-961007` -/
def r657 : Rule := .reference "Snapp_command.Party.Authorized.Poly" r656
/-- `protocol/layouts/external_transition.json:1, characters 926712-961010` -/
def r658 : Rule := .record [("version", (.int .int)), ("t", r657)]
/-- `protocol/layouts/external_transition.json:1, characters 926536-961013` -/
def r659 : Rule := .reference "Snapp_command.Party.Authorized.Signed" r658
/-- `protocol/layouts/external_transition.json:1, characters 676794-961016` -/
def r660 : Rule := .record [("token_id", r30), ("fee_payment", r375), ("one", r630), ("two", r659)]
/-- `protocol/layouts/external_transition.json:1, characters 676530-961019` -/
def r661 : Rule := .reference "Snapp_command.Inner.Stable.V1" r660
/-- `protocol/layouts/external_transition.json:1, characters 676442-961022` -/
def r662 : Rule := .record [("version", (.int .int)), ("t", r661)]
/-- `protocol/layouts/external_transition.json:1, characters 676258-961025` -/
def r663 : Rule := .reference "Snapp_command.Inner" r662
/-- `protocol/layouts/external_transition.json:1, characters 961617-1454243` -/
def r664 : Rule := .record [("token_id", r30), ("fee_payment", r375), ("one", r630), ("two", r630)]
/-- `protocol/layouts/external_transition.json:1, characters 961353-1454246` -/
def r665 : Rule := .reference "Snapp_command.Inner.Stable.V1" r664
/-- `protocol/layouts/external_transition.json:1, characters 961265-1454249` -/
def r666 : Rule := .record [("version", (.int .int)), ("t", r665)]
/-- `protocol/layouts/external_transition.json:1, characters 961081-1454252` -/
def r667 : Rule := .reference "Snapp_command.Inner" r666
/-- `protocol/layouts/external_transition.json:1, characters 1454844-1530662` -/
def r668 : Rule := .record [("token_id", r30), ("fee_payment", r375), ("one", r659), ("two", r659)]
/-- `protocol/layouts/external_transition.json:1, characters 1454580-1530665` -/
def r669 : Rule := .reference "Snapp_command.Inner.Stable.V1" r668
/-- `protocol/layouts/external_transition.json:1, characters 1454492-1530668` -/
def r670 : Rule := .record [("version", (.int .int)), ("t", r669)]
/-- `protocol/layouts/external_transition.json:1, characters 1454308-1530671` -/
def r671 : Rule := .reference "Snapp_command.Inner" r670
/-- `protocol/layouts/external_transition.json:1, characters 1531262-1605416` -/
def r672 : Rule := .record [("token_id", r30), ("fee_payment", r375), ("one", r659), ("two", r643)]
/-- `protocol/layouts/external_transition.json:1, characters 1530998-1605419` -/
def r673 : Rule := .reference "Snapp_command.Inner.Stable.V1" r672
/-- `protocol/layouts/external_transition.json:1, characters 1530910-1605422` -/
def r674 : Rule := .record [("version", (.int .int)), ("t", r673)]
/-- `protocol/layouts/external_transition.json:1, characters 1530726-1605425` -/
def r675 : Rule := .reference "Snapp_command.Inner" r674
/-- `protocol/layouts/external_transition.json:1, characters 393040-1605429` -/
def r676 : Rule := .sum [.mk "Proved_empty" 0 [r647], .mk "Proved_signed" 1 [r663], .mk "Proved_proved" 2 [r667], .mk
  "Signed_signed" 3 [r671], .mk "Signed_empty" 4 [r675]]
/-- `protocol/layouts/external_transition.json:1, characters 392317-1605432` -/
def r677 : Rule := .reference "Snapp_command.Binable_arg.Stable.V1" r676
/-- `protocol/layouts/external_transition.json:1, characters 392229-1605435` -/
def r678 : Rule := .record [("version", (.int .int)), ("t", r677)]
/-- `protocol/layouts/external_transition.json:1, characters 392064-1605438` -/
def r679 : Rule := .reference "Snapp_command.Binable_arg" r678
/-- `protocol/layouts/external_transition.json:1, characters 391976-1605441` -/
def r680 : Rule := .record [("version", (.int .int)), ("t", r679)]
/-- `protocol/layouts/external_transition.json:1, characters 391823-1605444` -/
def r681 : Rule := .reference "Snapp_command" r680
/-- `protocol/layouts/external_transition.json:1, characters 363912-1605448` -/
def r682 : Rule := .sum [.mk "Signed_command" 0 [r364], .mk "Snapp_command" 1 [r681]]
/-- `protocol/layouts/external_transition.json:1, characters 363716-1605451` -/
def r683 : Rule := .reference "User_command.Poly.Stable.V1" r682
/-- `protocol/layouts/external_transition.json:1, characters 363628-1605454` -/
def r684 : Rule := .record [("version", (.int .int)), ("t", r683)]
/-- `protocol/layouts/external_transition.json:1, characters 363454-1605457` -/
def r685 : Rule := .reference "User_command.Poly" r684
/-- `protocol/layouts/external_transition.json:1, characters 363366-1605460` -/
def r686 : Rule := .record [("version", (.int .int)), ("t", r685)]
/-- `protocol/layouts/external_transition.json:1, characters 363215-1605463` -/
def r687 : Rule := .reference "User_command" r686
/-- `protocol/layouts/external_transition.json:1, characters 1606756-1607431` -/
def r688 : Rule := .option r47
/-- `protocol/layouts/external_transition.json:1, characters 1608219-1609132` -/
def r689 : Rule := .option r30
/-- `protocol/layouts/external_transition.json:1, characters 1606680-1609135` -/
def r690 : Rule := .record [("fee_payer_account_creation_fee_paid", r688), ("receiver_account_creation_fee_paid", r688),
  ("created_token", r689)]
/-- `protocol/layouts/external_transition.json:1, characters 1606330-1609138` -/
def r691 : Rule := .reference "Transaction_status.Auxiliary_data.Stable.V1" r690
/-- `protocol/layouts/external_transition.json:1, characters 1606242-1609141` -/
def r692 : Rule := .record [("version", (.int .int)), ("t", r691)]
/-- `protocol/layouts/external_transition.json:1, characters 1606070-1609144` -/
def r693 : Rule := .reference "Transaction_status.Auxiliary_data" r692
/-- `protocol/layouts/external_transition.json:1, characters 1609785-1610709` -/
def r694 : Rule := .option r459
/-- `protocol/layouts/external_transition.json:1, characters 1609727-1612656` -/
def r695 : Rule := .record [("fee_payer_balance", r694), ("source_balance", r694), ("receiver_balance", r694)]
/-- `protocol/layouts/external_transition.json:1, characters 1609404-1612659` -/
def r696 : Rule := .reference "Transaction_status.Balance_data.Stable.V1" r695
/-- `protocol/layouts/external_transition.json:1, characters 1609316-1612662` -/
def r697 : Rule := .record [("version", (.int .int)), ("t", r696)]
/-- `protocol/layouts/external_transition.json:1, characters 1609146-1612665` -/
def r698 : Rule := .reference "Transaction_status.Balance_data" r697
/-- `protocol/layouts/external_transition.json:1, characters 1613526-1614509` -/
def r699 : Rule := .sum [.mk "Predicate" 0 [], .mk "Source_not_present" 1 [], .mk "Receiver_not_present" 2 [], .mk
  "Amount_insufficient_to_create_account" 3 [], .mk "Cannot_pay_creation_fee_in_token" 4 [], .mk "Source_insufficient_balance" 5
  [], .mk "Source_minimum_balance_violation" 6 [], .mk "Receiver_already_exists" 7 [], .mk "Not_token_owner" 8 [], .mk
  "Mismatched_token_permissions" 9 [], .mk "Overflow" 10 [], .mk "Signed_command_on_snapp_account" 11 [], .mk
  "Snapp_account_not_present" 12 [], .mk "Update_not_permitted" 13 [], .mk "Incorrect_nonce" 14 []]
/-- `protocol/layouts/external_transition.json:1, characters 1612967-1614512` -/
def r700 : Rule := .reference "Transaction_status.Failure.Stable.V1" r699
/-- `protocol/layouts/external_transition.json:1, characters 1612879-1614515` -/
def r701 : Rule := .record [("version", (.int .int)), ("t", r700)]
/-- `protocol/layouts/external_transition.json:1, characters 1612714-1614518` -/
def r702 : Rule := .reference "Transaction_status.Failure" r701
/-- `protocol/layouts/external_transition.json:1, characters 1606016-1618043` -/
def r703 : Rule := .sum [.mk "Applied" 0 [r693, r698], .mk "Failed" 1 [r702, r698]]
/-- `protocol/layouts/external_transition.json:1, characters 1605747-1618046` -/
def r704 : Rule := .reference "Transaction_status.Stable.V1" r703
/-- `protocol/layouts/external_transition.json:1, characters 1605659-1618049` -/
def r705 : Rule := .record [("version", (.int .int)), ("t", r704)]
/-- `protocol/layouts/external_transition.json:1, characters 1605502-1618052` -/
def r706 : Rule := .reference "Transaction_status" r705
/-- `protocol/layouts/external_transition.json:1, characters 363170-1618055` -/
def r707 : Rule := .record [("data", r687), ("status", r706)]
/-- `protocol/layouts/external_transition.json:1, characters 362979-1618058` -/
def r708 : Rule := .reference "With_status.Stable.V1" r707
/-- `protocol/layouts/external_transition.json:1, characters 362891-1618061` -/
def r709 : Rule := .record [("version", (.int .int)), ("t", r708)]
/-- `protocol/layouts/external_transition.json:1, characters 362735-1618064` -/
def r710 : Rule := .reference "With_status" r709
/-- `protocol/layouts/external_transition.json:1, characters 362727-1618065` -/
def r711 : Rule := .list r710
/-- `protocol/layouts/external_transition.json:1, characters 1619416-1621164` -/
def r712 : Rule := .record [("receiver_pk", r73), ("fee", r244)]
/-- `protocol/layouts/external_transition.json:1, characters 1619189-1621167` -/
def r713 : Rule := .reference "Coinbase_fee_transfer.Stable.V1" r712
/-- `protocol/layouts/external_transition.json:1, characters 1619101-1621170` -/
def r714 : Rule := .record [("version", (.int .int)), ("t", r713)]
/-- `protocol/layouts/external_transition.json:1, characters 1618941-1621173` -/
def r715 : Rule := .reference "Coinbase_fee_transfer" r714
/-- `protocol/layouts/external_transition.json:1, characters 1618853-1621176` -/
def r716 : Rule := .record [("version", (.int .int)), ("t", r715)]
/-- `protocol/layouts/external_transition.json:1, characters 1618693-1621179` -/
def r717 : Rule := .reference "Staged_ledger_diff.Ft" r716
/-- `protocol/layouts/external_transition.json:1, characters 1618683-1621180` -/
def r718 : Rule := .option r717
/-- `protocol/layouts/external_transition.json:1, characters 1621236-1626233` -/
def r719 : Rule := .tuple [r717, r718]
/-- `protocol/layouts/external_transition.json:1, characters 1621226-1626234` -/
def r720 : Rule := .option r719
/-- `protocol/layouts/external_transition.json:1, characters 1618587-1626238` -/
def r721 : Rule := .sum [.mk "Zero" 0 [], .mk "One" 1 [r718], .mk "Two" 2 [r720]]
/-- `protocol/layouts/external_transition.json:1, characters 1618369-1626241` -/
def r722 : Rule := .reference "Staged_ledger_diff.At_most_two.Stable.V1" r721
/-- `protocol/layouts/external_transition.json:1, characters 1618281-1626244` -/
def r723 : Rule := .record [("version", (.int .int)), ("t", r722)]
/-- `protocol/layouts/external_transition.json:1, characters 1618106-1626247` -/
def r724 : Rule := .reference "Staged_ledger_diff.At_most_two" r723
/-- `protocol/layouts/external_transition.json:1, characters 1627479-1629447` -/
def r725 : Rule := .record [("coinbase_receiver_balance", r459), ("fee_transfer_receiver_balance", r694)]
/-- `protocol/layouts/external_transition.json:1, characters 1627187-1629450` -/
def r726 : Rule := .reference "Transaction_status.Coinbase_balance_data.Stable.V1" r725
/-- `protocol/layouts/external_transition.json:1, characters 1627099-1629453` -/
def r727 : Rule := .record [("version", (.int .int)), ("t", r726)]
/-- `protocol/layouts/external_transition.json:1, characters 1626920-1629456` -/
def r728 : Rule := .reference "Transaction_status.Coinbase_balance_data" r727
/-- `protocol/layouts/external_transition.json:1, characters 1630058-1632006` -/
def r729 : Rule := .record [("receiver1_balance", r459), ("receiver2_balance", r694)]
/-- `protocol/layouts/external_transition.json:1, characters 1629782-1632009` -/
def r730 : Rule := .reference "Transaction_status.Fee_transfer_balance_data.Stable.V1" r729
/-- `protocol/layouts/external_transition.json:1, characters 1629694-1632012` -/
def r731 : Rule := .record [("version", (.int .int)), ("t", r730)]
/-- `protocol/layouts/external_transition.json:1, characters 1629511-1632015` -/
def r732 : Rule := .reference "Transaction_status.Fee_transfer_balance_data" r731
/-- `protocol/layouts/external_transition.json:1, characters 1626865-1632019` -/
def r733 : Rule := .sum [.mk "Coinbase" 0 [r728], .mk "Fee_transfer" 1 [r732]]
/-- `protocol/layouts/external_transition.json:1, characters 1626588-1632022` -/
def r734 : Rule := .reference "Transaction_status.Internal_command_balance_data.Stable.V1" r733
/-- `protocol/layouts/external_transition.json:1, characters 1626500-1632025` -/
def r735 : Rule := .record [("version", (.int .int)), ("t", r734)]
/-- `protocol/layouts/external_transition.json:1, characters 1626313-1632028` -/
def r736 : Rule := .reference "Transaction_status.Internal_command_balance_data" r735
/-- `protocol/layouts/external_transition.json:1, characters 1626305-1632029` -/
def r737 : Rule := .list r736
/-- `protocol/layouts/external_transition.json:1, characters 105235-1632032` -/
def r738 : Rule := .record [("completed_works", r304), ("commands", r711), ("coinbase", r724), ("internal_command_balances",
  r737)]
/-- `protocol/layouts/external_transition.json:1, characters 104877-1632035` -/
def r739 : Rule := .reference "Staged_ledger_diff.Pre_diff_two.Stable.V1" r738
/-- `protocol/layouts/external_transition.json:1, characters 104789-1632038` -/
def r740 : Rule := .record [("version", (.int .int)), ("t", r739)]
/-- `protocol/layouts/external_transition.json:1, characters 104601-1632041` -/
def r741 : Rule := .reference "Staged_ledger_diff.Pre_diff_two" r740
/-- `protocol/layouts/external_transition.json:1, characters 104513-1632044` -/
def r742 : Rule := .record [("version", (.int .int)), ("t", r741)]
/-- `protocol/layouts/external_transition.json:1, characters 104321-1632047` -/
def r743 : Rule := .reference "Staged_ledger_diff.Pre_diff_with_at_most_two_coinbase" r742
/-- `protocol/layouts/external_transition.json:1, characters 3146291-3148888` -/
def r744 : Rule := .sum [.mk "Zero" 0 [], .mk "One" 1 [r718]]
/-- `protocol/layouts/external_transition.json:1, characters 3146107-3148891` -/
def r745 : Rule := .reference "Staged_ledger_diff.At_most_one.Stable.V1" r744
/-- `protocol/layouts/external_transition.json:1, characters 3146019-3148894` -/
def r746 : Rule := .record [("version", (.int .int)), ("t", r745)]
/-- `protocol/layouts/external_transition.json:1, characters 3145844-3148897` -/
def r747 : Rule := .reference "Staged_ledger_diff.At_most_one" r746
/-- `protocol/layouts/external_transition.json:1, characters 1632973-3154682` -/
def r748 : Rule := .record [("completed_works", r304), ("commands", r711), ("coinbase", r747), ("internal_command_balances",
  r737)]
/-- `protocol/layouts/external_transition.json:1, characters 1632615-3154685` -/
def r749 : Rule := .reference "Staged_ledger_diff.Pre_diff_one.Stable.V1" r748
/-- `protocol/layouts/external_transition.json:1, characters 1632527-3154688` -/
def r750 : Rule := .record [("version", (.int .int)), ("t", r749)]
/-- `protocol/layouts/external_transition.json:1, characters 1632339-3154691` -/
def r751 : Rule := .reference "Staged_ledger_diff.Pre_diff_one" r750
/-- `protocol/layouts/external_transition.json:1, characters 1632251-3154694` -/
def r752 : Rule := .record [("version", (.int .int)), ("t", r751)]
/-- `protocol/layouts/external_transition.json:1, characters 1632059-3154697` -/
def r753 : Rule := .reference "Staged_ledger_diff.Pre_diff_with_at_most_one_coinbase" r752
/-- `protocol/layouts/external_transition.json:1, characters 1632049-3154698` -/
def r754 : Rule := .option r753
/-- `protocol/layouts/external_transition.json:1, characters 104311-3154700` -/
def r755 : Rule := .tuple [r743, r754]
/-- `protocol/layouts/external_transition.json:1, characters 104060-3154703` -/
def r756 : Rule := .reference "Staged_ledger_diff.Diff.Stable.V1" r755
/-- `protocol/layouts/external_transition.json:1, characters 103972-3154706` -/
def r757 : Rule := .record [("version", (.int .int)), ("t", r756)]
/-- `protocol/layouts/external_transition.json:1, characters 103810-3154709` -/
def r758 : Rule := .reference "Staged_ledger_diff.Diff" r757
/-- `protocol/layouts/external_transition.json:1, characters 103765-3154712` -/
def r759 : Rule := .record [("diff", r758)]
/-- `protocol/layouts/external_transition.json:1, characters 103597-3154715` -/
def r760 : Rule := .reference "Staged_ledger_diff.Stable.V1" r759
/-- `protocol/layouts/external_transition.json:1, characters 103509-3154718` -/
def r761 : Rule := .record [("version", (.int .int)), ("t", r760)]
/-- `protocol/layouts/external_transition.json:1, characters 103352-3154721` -/
def r762 : Rule := .reference "Staged_ledger_diff" r761
/-- `protocol/layouts/external_transition.json:1, characters 3155196-3155595` -/
def r763 : Rule := .reference "State_body_hash" r2
/-- `protocol/layouts/external_transition.json:1, characters 3155188-3155596` -/
def r764 : Rule := .list r763
/-- `protocol/layouts/external_transition.json:1, characters 3154782-3155598` -/
def r765 : Rule := .tuple [r3, r764]
/-- `protocol/layouts/external_transition.json:1, characters 3156078-3156221` -/
def r766 : Rule := .record [("major", (.int .int)), ("minor", (.int .int)), ("patch", (.int .int))]
/-- `protocol/layouts/external_transition.json:1, characters 3155898-3156224` -/
def r767 : Rule := .reference "Protocol_version.Stable.V1" r766
/-- `protocol/layouts/external_transition.json:1, characters 3155810-3156227` -/
def r768 : Rule := .record [("version", (.int .int)), ("t", r767)]
/-- `protocol/layouts/external_transition.json:1, characters 3155655-3156230` -/
def r769 : Rule := .reference "Protocol_version" r768
/-- `protocol/layouts/external_transition.json:1, characters 3156292-3156878` -/
def r770 : Rule := .option r769
/-- `protocol/layouts/external_transition.json:1, characters 3156930-3157154` -/
def r771 : Rule := .reference "Mina_transition.External_transition.Validate_callback" .unit
/-- `protocol/layouts/external_transition.json:1, characters 930-3157157` -/
def r772 : Rule := .record [("protocol_state", r97), ("protocol_state_proof", r243), ("staged_ledger_diff", r762),
  ("delta_transition_chain_proof", r765), ("current_protocol_version", r769), ("proposed_protocol_version_opt", r770),
  ("validation_callback", r771)]
/-- `protocol/layouts/external_transition.json:1, characters 344-3157160` -/
def r773 : Rule := .reference "External_transition.Raw_versioned__.Stable.V1" r772
/-- `protocol/layouts/external_transition.json:1, characters 256-3157163` -/
def r774 : Rule := .record [("version", (.int .int)), ("t", r773)]

/-- The layout: `protocol/layouts/external_transition.json:1, characters 256-3157163`. -/
def rule : Rule := r774

end MinaRs.Layouts.ExternalTransition
