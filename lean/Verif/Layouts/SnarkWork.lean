import Verif.BinProt.Loose

/-!
# The layout of completed snark work

The `bin_prot_rule` of `protocol/layouts/snark_work.json`, transcribed mechanically: one definition for every distinct compound rule,
with the place in the file where it first stands.  Members of a reference other than its module path and rule are left out, as in
`BinProt.Rule`.
-/

namespace MinaRs.Layouts.SnarkWork
open BinProt

/-- `protocol/layouts/snark_work.json:80-94` -/
def r0 : Rule := .reference "Unsigned_extended.UInt64" (.int .int64)
/-- `protocol/layouts/snark_work.json:67-97` -/
def r1 : Rule := .record [("version", (.int .int)), ("t", r0)]
/-- `protocol/layouts/snark_work.json:58-100` -/
def r2 : Rule := .reference "Unsigned_extended.UInt64" r1
/-- `protocol/layouts/snark_work.json:45-103` -/
def r3 : Rule := .record [("version", (.int .int)), ("t", r2)]
/-- `protocol/layouts/snark_work.json:36-106` -/
def r4 : Rule := .reference "Currency.Fee" r3
/-- `protocol/layouts/snark_work.json:301-304` -/
def r5 : Rule := .custom []
/-- `protocol/layouts/snark_work.json:292-307` -/
def r6 : Rule := .reference "Snark_params.Tick" r5
/-- `protocol/layouts/snark_work.json:279-310` -/
def r7 : Rule := .record [("version", (.int .int)), ("t", r6)]
/-- `protocol/layouts/snark_work.json:270-313` -/
def r8 : Rule := .reference "Ledger_hash0" r7
/-- `protocol/layouts/snark_work.json:366-436` -/
def r9 : Rule := .reference "Currency.Amount" r3
/-- `protocol/layouts/snark_work.json:559-602` -/
def r10 : Rule := .reference "Pending_coinbase.Coinbase_stack" r7
/-- `protocol/layouts/snark_work.json:666-709` -/
def r11 : Rule := .reference "Pending_coinbase.Stack_hash" r7
/-- `protocol/layouts/snark_work.json:660-760` -/
def r12 : Rule := .record [("init", r11), ("curr", r11)]
/-- `protocol/layouts/snark_work.json:651-763` -/
def r13 : Rule := .reference "Pending_coinbase.State_stack.Poly.Stable.V1" r12
/-- `protocol/layouts/snark_work.json:638-766` -/
def r14 : Rule := .record [("version", (.int .int)), ("t", r13)]
/-- `protocol/layouts/snark_work.json:629-769` -/
def r15 : Rule := .reference "Pending_coinbase.State_stack.Poly" r14
/-- `protocol/layouts/snark_work.json:616-772` -/
def r16 : Rule := .record [("version", (.int .int)), ("t", r15)]
/-- `protocol/layouts/snark_work.json:607-775` -/
def r17 : Rule := .reference "Pending_coinbase.State_stack" r16
/-- `protocol/layouts/snark_work.json:553-778` -/
def r18 : Rule := .record [("data", r10), ("state", r17)]
/-- `protocol/layouts/snark_work.json:544-781` -/
def r19 : Rule := .reference "Pending_coinbase.Stack_versioned.Poly.Stable.V1" r18
/-- `protocol/layouts/snark_work.json:531-784` -/
def r20 : Rule := .record [("version", (.int .int)), ("t", r19)]
/-- `protocol/layouts/snark_work.json:522-787` -/
def r21 : Rule := .reference "Pending_coinbase.Stack_versioned.Poly" r20
/-- `protocol/layouts/snark_work.json:509-790` -/
def r22 : Rule := .record [("version", (.int .int)), ("t", r21)]
/-- `protocol/layouts/snark_work.json:500-793` -/
def r23 : Rule := .reference "Pending_coinbase.Stack_versioned" r22
/-- `protocol/layouts/snark_work.json:494-1094` -/
def r24 : Rule := .record [("source", r23), ("target", r23)]
/-- `protocol/layouts/snark_work.json:485-1097` -/
def r25 : Rule := .reference "Transaction_snark.Pending_coinbase_stack_state.Poly.Stable.V1" r24
/-- `protocol/layouts/snark_work.json:472-1100` -/
def r26 : Rule := .record [("version", (.int .int)), ("t", r25)]
/-- `protocol/layouts/snark_work.json:463-1103` -/
def r27 : Rule := .reference "Transaction_snark.Pending_coinbase_stack_state.Poly" r26
/-- `protocol/layouts/snark_work.json:450-1106` -/
def r28 : Rule := .record [("version", (.int .int)), ("t", r27)]
/-- `protocol/layouts/snark_work.json:441-1109` -/
def r29 : Rule := .reference "Transaction_snark.Pending_coinbase_stack_state" r28
/-- `protocol/layouts/snark_work.json:1195-1265` -/
def r30 : Rule := .reference "Nat.Make64" r3
/-- `protocol/layouts/snark_work.json:1182-1268` -/
def r31 : Rule := .record [("version", (.int .int)), ("t", r30)]
/-- `protocol/layouts/snark_work.json:1173-1271` -/
def r32 : Rule := .reference "Token_id" r31
/-- `protocol/layouts/snark_work.json:1419-1435` -/
def r33 : Rule := .sum [.mk "Pos" 0 [], .mk "Neg" 1 []]
/-- `protocol/layouts/snark_work.json:1410-1438` -/
def r34 : Rule := .reference "Sgn.Stable.V1" r33
/-- `protocol/layouts/snark_work.json:1397-1441` -/
def r35 : Rule := .record [("version", (.int .int)), ("t", r34)]
/-- `protocol/layouts/snark_work.json:1388-1444` -/
def r36 : Rule := .reference "Sgn" r35
/-- `protocol/layouts/snark_work.json:1307-1447` -/
def r37 : Rule := .record [("magnitude", r4), ("sgn", r36)]
/-- `protocol/layouts/snark_work.json:1298-1450` -/
def r38 : Rule := .reference "Signed_poly.Stable.V1" r37
/-- `protocol/layouts/snark_work.json:1285-1453` -/
def r39 : Rule := .record [("version", (.int .int)), ("t", r38)]
/-- `protocol/layouts/snark_work.json:1276-1456` -/
def r40 : Rule := .reference "Signed_poly" r39
/-- `protocol/layouts/snark_work.json:1167-1747` -/
def r41 : Rule := .record [("fee_token_l", r32), ("fee_excess_l", r40), ("fee_token_r", r32), ("fee_excess_r", r40)]
/-- `protocol/layouts/snark_work.json:1158-1750` -/
def r42 : Rule := .reference "Fee_excess.Poly.Stable.V1" r41
/-- `protocol/layouts/snark_work.json:1145-1753` -/
def r43 : Rule := .record [("version", (.int .int)), ("t", r42)]
/-- `protocol/layouts/snark_work.json:1136-1756` -/
def r44 : Rule := .reference "Fee_excess.Poly" r43
/-- `protocol/layouts/snark_work.json:1123-1759` -/
def r45 : Rule := .record [("version", (.int .int)), ("t", r44)]
/-- `protocol/layouts/snark_work.json:1114-1762` -/
def r46 : Rule := .reference "Fee_excess" r45
/-- `protocol/layouts/snark_work.json:1995-2009` -/
def r47 : Rule := .reference "[manually-created layout]" .string
/-- `protocol/layouts/snark_work.json:1982-2012` -/
def r48 : Rule := .record [("version", (.int .int)), ("t", r47)]
/-- `protocol/layouts/snark_work.json:1973-2015` -/
def r49 : Rule := .reference "Sok_message.Digest" r48
/-- `protocol/layouts/snark_work.json:264-2018` -/
def r50 : Rule := .record [("source", r8), ("target", r8), ("supply_increase", r9), ("pending_coinbase_stack_state", r29),
  ("fee_excess", r46), ("next_available_token_before", r32), ("next_available_token_after", r32), ("sok_digest", r49)]
/-- `protocol/layouts/snark_work.json:255-2021` -/
def r51 : Rule := .reference "Transaction_snark.Statement.Poly.Stable.V1" r50
/-- `protocol/layouts/snark_work.json:242-2024` -/
def r52 : Rule := .record [("version", (.int .int)), ("t", r51)]
/-- `protocol/layouts/snark_work.json:233-2027` -/
def r53 : Rule := .reference "Transaction_snark.Statement.Poly" r52
/-- `protocol/layouts/snark_work.json:220-2030` -/
def r54 : Rule := .record [("version", (.int .int)), ("t", r53)]
/-- `protocol/layouts/snark_work.json:211-2033` -/
def r55 : Rule := .reference "Transaction_snark.Statement.With_sok" r54
/-- `protocol/layouts/snark_work.json:2406-2420` -/
def r56 : Rule := .reference "[manually-created layout]" (.int .int64)
/-- `protocol/layouts/snark_work.json:2393-2423` -/
def r57 : Rule := .record [("version", (.int .int)), ("t", r56)]
/-- `protocol/layouts/snark_work.json:2384-2426` -/
def r58 : Rule := .reference "Constant.Hex64" r57
/-- `protocol/layouts/snark_work.json:2381-2428` -/
def r59 : Rule := .custom [r58]
/-- `protocol/layouts/snark_work.json:2372-2431` -/
def r60 : Rule := .reference "Pickles_type.Vector.Vector2" r59
/-- `protocol/layouts/snark_work.json:2359-2434` -/
def r61 : Rule := .record [("version", (.int .int)), ("t", r60)]
/-- `protocol/layouts/snark_work.json:2350-2437` -/
def r62 : Rule := .reference "Vector.Vector_2" r61
/-- `protocol/layouts/snark_work.json:2342-2441` -/
def r63 : Rule := .sum [.mk "Scalar_challenge" 0 [r62]]
/-- `protocol/layouts/snark_work.json:2333-2444` -/
def r64 : Rule := .reference "Scalar_challenge.Stable.V1" r63
/-- `protocol/layouts/snark_work.json:2320-2447` -/
def r65 : Rule := .record [("version", (.int .int)), ("t", r64)]
/-- `protocol/layouts/snark_work.json:2311-2450` -/
def r66 : Rule := .reference "Scalar_challenge" r65
/-- `protocol/layouts/snark_work.json:2305-2781` -/
def r67 : Rule := .record [("alpha", r66), ("beta", r62), ("gamma", r62), ("zeta", r66)]
/-- `protocol/layouts/snark_work.json:2296-2784` -/
def r68 : Rule := .reference "Composition_types.Dlog_based.Proof_state.Deferred_values.Plonk.Minimal.Stable.V1" r67
/-- `protocol/layouts/snark_work.json:2283-2787` -/
def r69 : Rule := .record [("version", (.int .int)), ("t", r68)]
/-- `protocol/layouts/snark_work.json:2274-2790` -/
def r70 : Rule := .reference "Composition_types.Dlog_based.Proof_state.Deferred_values.Plonk.Minimal" r69
/-- `protocol/layouts/snark_work.json:2834-2849` -/
def r71 : Rule := .reference "Zexe_backend.Zexe_backend_common.Stable.Field" r5
/-- `protocol/layouts/snark_work.json:2826-2853` -/
def r72 : Rule := .sum [.mk "Shifted_value" 0 [r71]]
/-- `protocol/layouts/snark_work.json:2817-2856` -/
def r73 : Rule := .reference "Shifted_value.Stable.V1" r72
/-- `protocol/layouts/snark_work.json:2804-2859` -/
def r74 : Rule := .record [("version", (.int .int)), ("t", r73)]
/-- `protocol/layouts/snark_work.json:2795-2862` -/
def r75 : Rule := .reference "Shifted_value" r74
/-- `protocol/layouts/snark_work.json:3170-3318` -/
def r76 : Rule := .record [("prechallenge", r66)]
/-- `protocol/layouts/snark_work.json:3161-3321` -/
def r77 : Rule := .reference "Bulletproof_challenge.Stable.V1" r76
/-- `protocol/layouts/snark_work.json:3148-3324` -/
def r78 : Rule := .record [("version", (.int .int)), ("t", r77)]
/-- `protocol/layouts/snark_work.json:3139-3327` -/
def r79 : Rule := .reference "Bulletproof_challenge" r78
/-- `protocol/layouts/snark_work.json:3136-3329` -/
def r80 : Rule := .custom [r79]
/-- `protocol/layouts/snark_work.json:3127-3332` -/
def r81 : Rule := .reference "Pickles_types.Vector.Vector18" r80
/-- `protocol/layouts/snark_work.json:3114-3335` -/
def r82 : Rule := .record [("version", (.int .int)), ("t", r81)]
/-- `protocol/layouts/snark_work.json:3105-3338` -/
def r83 : Rule := .reference "Vector.Vector_18" r82
/-- `protocol/layouts/snark_work.json:3092-3341` -/
def r84 : Rule := .record [("version", (.int .int)), ("t", r83)]
/-- `protocol/layouts/snark_work.json:3083-3344` -/
def r85 : Rule := .reference "Basic.Rounds.Step_vector" r84
/-- `protocol/layouts/snark_work.json:3371-3385` -/
def r86 : Rule := .reference "Index.Stable.V1" .char
/-- `protocol/layouts/snark_work.json:3358-3388` -/
def r87 : Rule := .record [("version", (.int .int)), ("t", r86)]
/-- `protocol/layouts/snark_work.json:3349-3391` -/
def r88 : Rule := .reference "Index" r87
/-- `protocol/layouts/snark_work.json:2268-3394` -/
def r89 : Rule := .record [("plonk", r70), ("combined_inner_product", r75), ("b", r75), ("xi", r66),
  ("bulletproof_challenges", r85), ("which_branch", r88)]
/-- `protocol/layouts/snark_work.json:2259-3397` -/
def r90 : Rule := .reference "Composition_types.Dlog_based.Proof_state.Deferred_values.Stable.V1" r89
/-- `protocol/layouts/snark_work.json:2246-3400` -/
def r91 : Rule := .record [("version", (.int .int)), ("t", r90)]
/-- `protocol/layouts/snark_work.json:2237-3403` -/
def r92 : Rule := .reference "Composition_types.Dlog_based.Proof_state.Deferred_values" r91
/-- `protocol/layouts/snark_work.json:3452-3511` -/
def r93 : Rule := .reference "Pickles_types.Vector.Vector4" r59
/-- `protocol/layouts/snark_work.json:3439-3514` -/
def r94 : Rule := .record [("version", (.int .int)), ("t", r93)]
/-- `protocol/layouts/snark_work.json:3430-3517` -/
def r95 : Rule := .reference "Vector.Vector_4" r94
/-- `protocol/layouts/snark_work.json:3417-3520` -/
def r96 : Rule := .record [("version", (.int .int)), ("t", r95)]
/-- `protocol/layouts/snark_work.json:3408-3523` -/
def r97 : Rule := .reference "Digest.Constant" r96
/-- `protocol/layouts/snark_work.json:3574-3610` -/
def r98 : Rule := .tuple [r71, r71]
/-- `protocol/layouts/snark_work.json:3565-3613` -/
def r99 : Rule := .reference "Curve.Make.Affine.Stable.V1.T" r98
/-- `protocol/layouts/snark_work.json:3718-3923` -/
def r100 : Rule := .reference "Pickles_types.Vector.Vector17" r80
/-- `protocol/layouts/snark_work.json:3705-3926` -/
def r101 : Rule := .record [("version", (.int .int)), ("t", r100)]
/-- `protocol/layouts/snark_work.json:3696-3929` -/
def r102 : Rule := .reference "Vector.Vector_17" r101
/-- `protocol/layouts/snark_work.json:3683-3932` -/
def r103 : Rule := .record [("version", (.int .int)), ("t", r102)]
/-- `protocol/layouts/snark_work.json:3674-3935` -/
def r104 : Rule := .reference "Basic.Rounds.Wrap_vector" r103
/-- `protocol/layouts/snark_work.json:3661-3938` -/
def r105 : Rule := .record [("version", (.int .int)), ("t", r104)]
/-- `protocol/layouts/snark_work.json:3652-3941` -/
def r106 : Rule := .reference "Reduced_me_only.Dlog_based.Challenges_vector" r105
/-- `protocol/layouts/snark_work.json:3649-3943` -/
def r107 : Rule := .custom [r106]
/-- `protocol/layouts/snark_work.json:3640-3946` -/
def r108 : Rule := .reference "Pickles_type.Vector.Vector2" r107
/-- `protocol/layouts/snark_work.json:3627-3949` -/
def r109 : Rule := .record [("version", (.int .int)), ("t", r108)]
/-- `protocol/layouts/snark_work.json:3618-3952` -/
def r110 : Rule := .reference "Vector.Vector_2" r109
/-- `protocol/layouts/snark_work.json:3559-3955` -/
def r111 : Rule := .record [("sg", r99), ("old_bulletproof_challenges", r110)]
/-- `protocol/layouts/snark_work.json:3550-3958` -/
def r112 : Rule := .reference "Composition_types.Dlog_based.Proof_state.Me_only.Stable.V1" r111
/-- `protocol/layouts/snark_work.json:3537-3961` -/
def r113 : Rule := .record [("version", (.int .int)), ("t", r112)]
/-- `protocol/layouts/snark_work.json:3528-3964` -/
def r114 : Rule := .reference "Composition_types.Dlog_based.Proof_state.Me_only" r113
/-- `protocol/layouts/snark_work.json:2231-3967` -/
def r115 : Rule := .record [("deferred_values", r92), ("sponge_digest_before_evaluations", r97), ("me_only", r114)]
/-- `protocol/layouts/snark_work.json:2222-3970` -/
def r116 : Rule := .reference "Composition_types.Dlog_based.Proof_state.Stable.V1" r115
/-- `protocol/layouts/snark_work.json:2209-3973` -/
def r117 : Rule := .record [("version", (.int .int)), ("t", r116)]
/-- `protocol/layouts/snark_work.json:2200-3976` -/
def r118 : Rule := .reference "Composition_types.Dlog_based.Proof_state" r117
/-- `protocol/layouts/snark_work.json:4056-4107` -/
def r119 : Rule := .list r99
/-- `protocol/layouts/snark_work.json:4047-4110` -/
def r120 : Rule := .reference "[manually-created layout]" r119
/-- `protocol/layouts/snark_work.json:4034-4113` -/
def r121 : Rule := .record [("version", (.int .int)), ("t", r120)]
/-- `protocol/layouts/snark_work.json:4025-4116` -/
def r122 : Rule := .reference "At_most.At_most_2" r121
/-- `protocol/layouts/snark_work.json:4152-4416` -/
def r123 : Rule := .list r85
/-- `protocol/layouts/snark_work.json:4143-4419` -/
def r124 : Rule := .reference "[manually-created layout]" r123
/-- `protocol/layouts/snark_work.json:4130-4422` -/
def r125 : Rule := .record [("version", (.int .int)), ("t", r124)]
/-- `protocol/layouts/snark_work.json:4121-4425` -/
def r126 : Rule := .reference "At_most.At_most_2" r125
/-- `protocol/layouts/snark_work.json:4012-4428` -/
def r127 : Rule := .record [("app_state", .unit), ("sg", r122), ("old_bulletproof_challenges", r126)]
/-- `protocol/layouts/snark_work.json:4003-4431` -/
def r128 : Rule := .reference "Reduced_me_only.Pairing_based.Stable.V1" r127
/-- `protocol/layouts/snark_work.json:3990-4434` -/
def r129 : Rule := .record [("version", (.int .int)), ("t", r128)]
/-- `protocol/layouts/snark_work.json:3981-4437` -/
def r130 : Rule := .reference "Reduced_me_only.Pairing_based" r129
/-- `protocol/layouts/snark_work.json:2194-4440` -/
def r131 : Rule := .record [("proof_state", r118), ("pass_through", r130)]
/-- `protocol/layouts/snark_work.json:2185-4443` -/
def r132 : Rule := .reference "Composition_types.Dlog_based.Statement.Stable.V1" r131
/-- `protocol/layouts/snark_work.json:2172-4446` -/
def r133 : Rule := .record [("version", (.int .int)), ("t", r132)]
/-- `protocol/layouts/snark_work.json:2163-4449` -/
def r134 : Rule := .reference "Composition_types.Dlog_based.Statement" r133
/-- `protocol/layouts/snark_work.json:2150-4452` -/
def r135 : Rule := .record [("version", (.int .int)), ("t", r134)]
/-- `protocol/layouts/snark_work.json:2141-4455` -/
def r136 : Rule := .reference "Composition_types.Dlog_based.Statement.Minimal" r135
/-- `protocol/layouts/snark_work.json:4562-4580` -/
def r137 : Rule := .list r71
/-- `protocol/layouts/snark_work.json:4553-4583` -/
def r138 : Rule := .reference "Dlog_plonk_types.Pc_array.Stable.V1" r137
/-- `protocol/layouts/snark_work.json:4540-4586` -/
def r139 : Rule := .record [("version", (.int .int)), ("t", r138)]
/-- `protocol/layouts/snark_work.json:4531-4589` -/
def r140 : Rule := .reference "Dlog_plonk_types.Pc_array" r139
/-- `protocol/layouts/snark_work.json:4525-5033` -/
def r141 : Rule := .record [("l", r140), ("r", r140), ("o", r140), ("z", r140), ("t", r140), ("f", r140), ("sigma1", r140),
  ("sigma2", r140)]
/-- `protocol/layouts/snark_work.json:4516-5036` -/
def r142 : Rule := .reference "Dlog_plonk_types.Evals.Stable.V1" r141
/-- `protocol/layouts/snark_work.json:4503-5039` -/
def r143 : Rule := .record [("version", (.int .int)), ("t", r142)]
/-- `protocol/layouts/snark_work.json:4494-5042` -/
def r144 : Rule := .reference "Dlog_plonk_types.Evals" r143
/-- `protocol/layouts/snark_work.json:4491-5593` -/
def r145 : Rule := .tuple [r144, r144]
/-- `protocol/layouts/snark_work.json:4482-5596` -/
def r146 : Rule := .reference "Proof.Base.Double.Stable.V1" r145
/-- `protocol/layouts/snark_work.json:4469-5599` -/
def r147 : Rule := .record [("version", (.int .int)), ("t", r146)]
/-- `protocol/layouts/snark_work.json:4460-5602` -/
def r148 : Rule := .reference "Proof.Base.Double" r147
/-- `protocol/layouts/snark_work.json:5629-5677` -/
def r149 : Rule := .reference "Proof.Base.Double.Stable.V1" r98
/-- `protocol/layouts/snark_work.json:5616-5680` -/
def r150 : Rule := .record [("version", (.int .int)), ("t", r149)]
/-- `protocol/layouts/snark_work.json:5607-5683` -/
def r151 : Rule := .reference "Proof.Base.Double" r150
/-- `protocol/layouts/snark_work.json:5828-5891` -/
def r152 : Rule := .reference "Dlog_plonk_types.Pc_array.Stable.V1" r119
/-- `protocol/layouts/snark_work.json:5815-5894` -/
def r153 : Rule := .record [("version", (.int .int)), ("t", r152)]
/-- `protocol/layouts/snark_work.json:5806-5897` -/
def r154 : Rule := .reference "Dlog_plonk_types.Pc_array" r153
/-- `protocol/layouts/snark_work.json:5793-5900` -/
def r155 : Rule := .record [("version", (.int .int)), ("t", r154)]
/-- `protocol/layouts/snark_work.json:5784-5903` -/
def r156 : Rule := .reference "Dlog_plonk_types.Poly_comm.Without_degree_bound" r155
/-- `protocol/layouts/snark_work.json:6381-6447` -/
def r157 : Rule := .sum [.mk "Infinity" 0 [], .mk "Finite" 1 [r99]]
/-- `protocol/layouts/snark_work.json:6372-6450` -/
def r158 : Rule := .reference "Or_infinity.Stable.V1" r157
/-- `protocol/layouts/snark_work.json:6359-6453` -/
def r159 : Rule := .record [("version", (.int .int)), ("t", r158)]
/-- `protocol/layouts/snark_work.json:6350-6456` -/
def r160 : Rule := .reference "Or_infinity" r159
/-- `protocol/layouts/snark_work.json:6348-6457` -/
def r161 : Rule := .list r160
/-- `protocol/layouts/snark_work.json:6339-6460` -/
def r162 : Rule := .reference "Dlog_plonk_types.Pc_array.Stable.V1" r161
/-- `protocol/layouts/snark_work.json:6326-6463` -/
def r163 : Rule := .record [("version", (.int .int)), ("t", r162)]
/-- `protocol/layouts/snark_work.json:6317-6466` -/
def r164 : Rule := .reference "Dlog_plonk_types.Pc_array" r163
/-- `protocol/layouts/snark_work.json:6311-6580` -/
def r165 : Rule := .record [("unshifted", r164), ("shifted", r160)]
/-- `protocol/layouts/snark_work.json:6302-6583` -/
def r166 : Rule := .reference "Dlog_plonk_types.Poly_comm.With_degree_bound.Stable.V1" r165
/-- `protocol/layouts/snark_work.json:6289-6586` -/
def r167 : Rule := .record [("version", (.int .int)), ("t", r166)]
/-- `protocol/layouts/snark_work.json:6280-6589` -/
def r168 : Rule := .reference "Dlog_plonk_types.Poly_comm.With_degree_bound" r167
/-- `protocol/layouts/snark_work.json:5778-6592` -/
def r169 : Rule := .record [("l_comm", r156), ("r_comm", r156), ("o_comm", r156), ("z_comm", r156), ("t_comm", r168)]
/-- `protocol/layouts/snark_work.json:5769-6595` -/
def r170 : Rule := .reference "Dlog_plonk_types.Messages.Stable.V1" r169
/-- `protocol/layouts/snark_work.json:5756-6598` -/
def r171 : Rule := .record [("version", (.int .int)), ("t", r170)]
/-- `protocol/layouts/snark_work.json:5747-6601` -/
def r172 : Rule := .reference "Dlog_plonk_types.Messages" r171
/-- `protocol/layouts/snark_work.json:6713-6815` -/
def r173 : Rule := .tuple [r99, r99]
/-- `protocol/layouts/snark_work.json:6711-6816` -/
def r174 : Rule := .list r173
/-- `protocol/layouts/snark_work.json:6702-6819` -/
def r175 : Rule := .reference "Dlog_plonk_types.Pc_array.Stable.V1" r174
/-- `protocol/layouts/snark_work.json:6689-6822` -/
def r176 : Rule := .record [("version", (.int .int)), ("t", r175)]
/-- `protocol/layouts/snark_work.json:6680-6825` -/
def r177 : Rule := .reference "Dlog_plonk_types.Pc_array" r176
/-- `protocol/layouts/snark_work.json:6674-6974` -/
def r178 : Rule := .record [("lr", r177), ("z_1", r71), ("z_2", r71), ("delta", r99), ("sg", r99)]
/-- `protocol/layouts/snark_work.json:6665-6977` -/
def r179 : Rule := .reference "Dlog_plonk_types.Openings.Bulletproof.Stable.V1" r178
/-- `protocol/layouts/snark_work.json:6652-6980` -/
def r180 : Rule := .record [("version", (.int .int)), ("t", r179)]
/-- `protocol/layouts/snark_work.json:6643-6983` -/
def r181 : Rule := .reference "Dlog_plonk_types.Openings.Bulletproof" r180
/-- `protocol/layouts/snark_work.json:6637-8093` -/
def r182 : Rule := .record [("proof", r181), ("evals", r145)]
/-- `protocol/layouts/snark_work.json:6628-8096` -/
def r183 : Rule := .reference "Dlog_plonk_types.Openings.Stable.V1" r182
/-- `protocol/layouts/snark_work.json:6615-8099` -/
def r184 : Rule := .record [("version", (.int .int)), ("t", r183)]
/-- `protocol/layouts/snark_work.json:6606-8102` -/
def r185 : Rule := .reference "Dlog_plonk_types.Openings" r184
/-- `protocol/layouts/snark_work.json:5741-8105` -/
def r186 : Rule := .record [("messages", r172), ("openings", r185)]
/-- `protocol/layouts/snark_work.json:5732-8108` -/
def r187 : Rule := .reference "Dlog_plonk_types.Proof.Stable.V1" r186
/-- `protocol/layouts/snark_work.json:5719-8111` -/
def r188 : Rule := .record [("version", (.int .int)), ("t", r187)]
/-- `protocol/layouts/snark_work.json:5710-8114` -/
def r189 : Rule := .reference "Dlog_plonk_types.Proof" r188
/-- `protocol/layouts/snark_work.json:5697-8117` -/
def r190 : Rule := .record [("version", (.int .int)), ("t", r189)]
/-- `protocol/layouts/snark_work.json:5688-8120` -/
def r191 : Rule := .reference "Plonk_dlog_proof.Make" r190
/-- `protocol/layouts/snark_work.json:2135-8123` -/
def r192 : Rule := .record [("statement", r136), ("prev_evals", r148), ("prev_x_hat", r151), ("proof", r191)]
/-- `protocol/layouts/snark_work.json:2126-8126` -/
def r193 : Rule := .reference "Proof.Base.Dlog_based.Stable.V1" r192
/-- `protocol/layouts/snark_work.json:2113-8129` -/
def r194 : Rule := .record [("version", (.int .int)), ("t", r193)]
/-- `protocol/layouts/snark_work.json:2104-8132` -/
def r195 : Rule := .reference "Proof.Base.Dlog_based" r194
/-- `protocol/layouts/snark_work.json:2091-8135` -/
def r196 : Rule := .record [("version", (.int .int)), ("t", r195)]
/-- `protocol/layouts/snark_work.json:2082-8138` -/
def r197 : Rule := .reference "Proof.Branching_2.Repr" r196
/-- `protocol/layouts/snark_work.json:2069-8141` -/
def r198 : Rule := .record [("version", (.int .int)), ("t", r197)]
/-- `protocol/layouts/snark_work.json:2060-8144` -/
def r199 : Rule := .reference "Proof.Branching_2" r198
/-- `protocol/layouts/snark_work.json:2047-8147` -/
def r200 : Rule := .record [("version", (.int .int)), ("t", r199)]
/-- `protocol/layouts/snark_work.json:2038-8150` -/
def r201 : Rule := .reference "Transaction_snark.Proof" r200
/-- `protocol/layouts/snark_work.json:205-8153` -/
def r202 : Rule := .record [("statement", r55), ("proof", r201)]
/-- `protocol/layouts/snark_work.json:196-8156` -/
def r203 : Rule := .reference "Transaction_snark.Stable.V1" r202
/-- `protocol/layouts/snark_work.json:183-8159` -/
def r204 : Rule := .record [("version", (.int .int)), ("t", r203)]
/-- `protocol/layouts/snark_work.json:174-8162` -/
def r205 : Rule := .reference "Transaction_snark" r204
/-- `protocol/layouts/snark_work.json:161-8165` -/
def r206 : Rule := .record [("version", (.int .int)), ("t", r205)]
/-- `protocol/layouts/snark_work.json:152-8168` -/
def r207 : Rule := .reference "Ledger_proof.Prod" r206
/-- `protocol/layouts/snark_work.json:8179-24217` -/
def r208 : Rule := .tuple [r207, r207]
/-- `protocol/layouts/snark_work.json:142-24222` -/
def r209 : Rule := .polyvar [.tagged "One" 3953222 [r207], .tagged "Two" 4203884 [r208]]
/-- `protocol/layouts/snark_work.json:133-24225` -/
def r210 : Rule := .reference "One_or_two.Stable.V1" r209
/-- `protocol/layouts/snark_work.json:120-24228` -/
def r211 : Rule := .record [("version", (.int .int)), ("t", r210)]
/-- `protocol/layouts/snark_work.json:111-24231` -/
def r212 : Rule := .reference "One_or_two" r211
/-- `protocol/layouts/snark_work.json:24289-24320` -/
def r213 : Rule := .record [("x", r6), ("is_odd", .bool)]
/-- `protocol/layouts/snark_work.json:24280-24323` -/
def r214 : Rule := .reference "Compressed_poly.Poly.Stable.V1" r213
/-- `protocol/layouts/snark_work.json:24267-24326` -/
def r215 : Rule := .record [("version", (.int .int)), ("t", r214)]
/-- `protocol/layouts/snark_work.json:24258-24329` -/
def r216 : Rule := .reference "Compressed_poly.Poly" r215
/-- `protocol/layouts/snark_work.json:24245-24332` -/
def r217 : Rule := .record [("version", (.int .int)), ("t", r216)]
/-- `protocol/layouts/snark_work.json:24236-24335` -/
def r218 : Rule := .reference "Non_zero_curve_point.Compressed" r217
/-- `protocol/layouts/snark_work.json:30-24338` -/
def r219 : Rule := .record [("fee", r4), ("proofs", r212), ("prover", r218)]
/-- `protocol/layouts/snark_work.json:21-24341` -/
def r220 : Rule := .reference "Transaction_snark_work.T.Stable.V1" r219
/-- `protocol/layouts/snark_work.json:8-24344` -/
def r221 : Rule := .record [("version", (.int .int)), ("t", r220)]

/-- The layout: `protocol/layouts/snark_work.json:8-24344`. -/
def rule : Rule := r221

end MinaRs.Layouts.SnarkWork
