{
 "claims": [
  {
   "property": "C01",
   "status": "proved",
   "theorems": [
    "MinaRs.BinProt.C01_integer_roundtrip"
   ],
   "note": "All i64 values, all destination types, all suffixes; byte count included."
  },
  {
   "property": "C02",
   "status": "proved",
   "theorems": [
    "MinaRs.BinProt.C02_integer_read_exact",
    "MinaRs.BinProt.C02_nat0_read_exact",
    "MinaRs.BinProt.C02_ranges"
   ],
   "note": "Complete characterisation of success and of each error for bin_read_integer and bin_read_nat0. C02_ranges: the ranges of the machine integers are the usual ones."
  },
  {
   "property": "C03",
   "status": "proved",
   "theorems": [
    "MinaRs.BinProt.C03_nat0_roundtrip"
   ],
   "note": "All u64 values."
  },
  {
   "property": "C04",
   "status": "partial",
   "theorems": [
    "MinaRs.BinProt.C04_integer_minimal_partial",
    "MinaRs.BinProt.C04_integer_minimal_fails",
    "MinaRs.BinProt.C04_nat0_minimal_partial",
    "MinaRs.BinProt.C04_nat0_minimal_fails"
   ],
   "note": "False for the value 128 (reader accepts the lone byte 0x80): the *_fails theorems give the witness. Proved for every other value: the written form is the unique shortest accepted one."
  },
  {
   "property": "C05",
   "status": "partial",
   "theorems": [
    "MinaRs.BinProt.C05_primitive_roundtrip_partial",
    "MinaRs.BinProt.C05_char_roundtrip_fails",
    "MinaRs.BinProt.C05_reported_length"
   ],
   "note": "All primitives round trip except chars above U+00FF; C05_char_roundtrip_fails shows that every such char comes back as another. C05_reported_length: the byte counts the writers report are the numbers of bytes written."
  },
  {
   "property": "C06",
   "status": "partial",
   "theorems": [
    "MinaRs.BinProt.C06_tag_bytes_match_ocaml",
    "MinaRs.BinProt.C06_tag_roundtrip_partial",
    "MinaRs.BinProt.C06_checked_hash",
    "MinaRs.BinProt.C06_tag_roundtrip_fails"
   ],
   "note": "Tag bytes agree with OCaml for every label. The tag round trip holds exactly for labels whose hash is below 2^31, and fails for every other label. C06_checked_hash: in a debug build the hash of a name is its base-223 value when that is below 2^32, and a panic otherwise."
  },
  {
   "property": "C07",
   "status": "partial",
   "theorems": [
    "MinaRs.BinProt.C07_typed_roundtrip_partial",
    "MinaRs.BinProt.C07_encoding_is_wire_form_partial",
    "MinaRs.BinProt.C07_u64_roundtrip_fails",
    "MinaRs.BinProt.C07_char_roundtrip_fails",
    "MinaRs.BinProt.C07_large_enum_roundtrip_fails",
    "MinaRs.BinProt.C07_polyvar_large_hash_fails",
    "MinaRs.BinProt.C07_polyvar_non_ascii_fails",
    "MinaRs.BinProt.C07_polyvar_hash_clash_fails",
    "MinaRs.BinProt.C07_roundtrip_exactly"
   ],
   "note": "C07_roundtrip_exactly: a value of any type round trips exactly when the format can carry it (Fits), and no bytes at all decode to a value outside Fits. Each clause of Fits that is a code restriction has a C07_*_fails theorem (u64 >= 2^63, char > U+00FF, enum index >= 256, polymorphic variant hash >= 2^31, non-ASCII label, hash clash)."
  },
  {
   "property": "C08",
   "status": "partial",
   "theorems": [
    "MinaRs.BinProt.C08_self_delimiting_partial",
    "MinaRs.BinProt.C08_stream_partial",
    "MinaRs.BinProt.C08_self_delimiting_fails"
   ],
   "note": "Prefix-freeness, injectivity and stream reading for all carriable values; false in general: chars have the same bytes exactly when they agree in the low eight bits."
  },
  {
   "property": "C09",
   "status": "partial",
   "theorems": [
    "MinaRs.BinProt.C09_consumes_prefix",
    "MinaRs.BinProt.C09_never_aborts_partial",
    "MinaRs.BinProt.C09_never_aborts_without_strings",
    "MinaRs.BinProt.C09_huge_length_fails",
    "MinaRs.BinProt.C09_accepts_exactly_wire_forms"
   ],
   "note": "Every type and input: consumed bytes are a prefix, outcome independent of the continuation, exact characterisation by an independent wire grammar. Never a panic for types without strings; with strings false exactly for announced lengths of 2^63 or more, proved."
  },
  {
   "property": "C10",
   "status": "partial",
   "theorems": [
    "MinaRs.BinProt.C10_strict_partial",
    "MinaRs.BinProt.C10_strict_slice_partial",
    "MinaRs.BinProt.C10_strict_small_partial",
    "MinaRs.BinProt.C10_trailing_bytes_fails",
    "MinaRs.BinProt.C10_buffer_boundary_fails",
    "MinaRs.BinProt.C10_empty_struct_fails"
   ],
   "note": "Soundness for all schedules; when the whole input (at most 8 KiB) arrives in one read, the exact result, with the number of surplus bytes reported; in memory, for every value below 8 KiB. False otherwise: witnesses for chunk boundary, the 8192-byte buffer boundary with in-memory input, and zero-width types."
  },
  {
   "property": "C11",
   "status": "proved",
   "theorems": [
    "MinaRs.BinProt.C11_chunk_independent",
    "MinaRs.BinProt.C11_failing_reader"
   ],
   "note": "All types, streams and schedules of short and interrupted reads; also failing readers."
  },
  {
   "property": "C12",
   "status": "partial",
   "theorems": [
    "MinaRs.BinProt.C12_sink_independent_partial",
    "MinaRs.BinProt.C12_roomy_sink_partial",
    "MinaRs.BinProt.C12_float_sink_fails",
    "MinaRs.BinProt.C12_polyvar_sink_fails"
   ],
   "note": "All schedules for types without floats/polyvars, all types for sinks accepting at least 8 bytes per call. False otherwise: every float and every polymorphic variant tag is silently cut to what the sink takes in one call (C12_float_sink_fails, C12_polyvar_sink_fails, for every value and schedule)."
  },
  {
   "property": "C13",
   "status": "partial",
   "theorems": [
    "MinaRs.BinProt.C13_version_layers_partial",
    "MinaRs.BinProt.C13_version_check_fails"
   ],
   "note": "Layering and round trip at any depth; the version number is not checked by the code (C13_version_check_fails, for every version)."
  },
  {
   "property": "C14",
   "status": "partial",
   "theorems": [
    "MinaRs.BinProt.C14_redecode_partial",
    "MinaRs.BinProt.C14_redecode_non_ascii_fails",
    "MinaRs.BinProt.C14_no_malleability_partial",
    "MinaRs.BinProt.C14_malleable_integer_fails",
    "MinaRs.BinProt.C14_malleable_length_fails",
    "MinaRs.BinProt.C14_malleable_polyvar_fails",
    "MinaRs.BinProt.C14_malleable_fails"
   ],
   "note": "Stability of re-encoding for every well-formed type; exactly which values have a second wire form (C14_malleable_fails: an integer of 32 bits, a string or sequence shorter than 2^32, a polymorphic variant)."
  },
  {
   "property": "C15",
   "status": "partial",
   "theorems": [
    "MinaRs.BinProt.C15_decoding_is_recursive_descent_partial",
    "MinaRs.BinProt.C15_accepts_exactly_the_grammar_partial",
    "MinaRs.BinProt.C15_whole_layout_visited_partial",
    "MinaRs.BinProt.C15_custom_types",
    "MinaRs.BinProt.C15_module_path_leaks_fails"
   ],
   "note": "Machine = recursive descent = grammar for every layout in which each Custom rule is the target of a Reference (all layout files in the repository are); false otherwise (sticky module path), for every such tuple of an open Custom rule and a polymorphic variant."
  },
  {
   "property": "C16",
   "status": "partial",
   "theorems": [
    "MinaRs.BinProt.C16_reencoding_reproduces_canonical_bytes_partial",
    "MinaRs.BinProt.C16_reencoding_decodes_to_same_value_partial",
    "MinaRs.BinProt.C16_noncanonical_integer_fails",
    "MinaRs.BinProt.C16_noncanonical_length_fails",
    "MinaRs.BinProt.C16_even_tag_fails",
    "MinaRs.BinProt.C16_small_tag_fails",
    "MinaRs.BinProt.C16_summand_index_fails"
   ],
   "note": "Re-encoding reproduces the consumed bytes exactly when they are canonical, for layouts whose summand indices are positions and tags >= 256; every small tag and every other summand index breaks it."
  },
  {
   "property": "C17",
   "status": "partial",
   "theorems": [
    "MinaRs.BinProt.C17_loose_agrees_with_typed_partial",
    "MinaRs.BinProt.C17_single_letter_variant_fails"
   ],
   "note": "All types without f32 and all carriable values with lists of fewer than 2^57 items; every polymorphic variant with a name of one letter re-encodes differently."
  },
  {
   "property": "C18",
   "status": "partial",
   "theorems": [
    "MinaRs.BinProt.C18_bad_constructor_index_panics_fails",
    "MinaRs.BinProt.C18_huge_length_fails",
    "MinaRs.BinProt.C18_no_other_panic_partial",
    "MinaRs.BinProt.C18_no_panic_without_short_sums_partial",
    "MinaRs.BinProt.C18_unsupported_rule_panics_fails"
   ],
   "note": "False: any out-of-range constructor index panics. An announced length of 2^57 items (2^63 bytes of a string) also panics. These are the only panics for supported layouts."
  },
  {
   "property": "C19",
   "status": "proved",
   "theorems": [
    "MinaRs.BinProt.C19_index_addresses",
    "MinaRs.BinProt.C19_index_path"
   ],
   "note": "Single keys and paths, both directions."
  },
  {
   "property": "C20",
   "status": "partial",
   "theorems": [
    "MinaRs.Merkle.C20_answers_depend_on_items_only_partial",
    "MinaRs.Merkle.C20_stale_root_fails",
    "MinaRs.Merkle.C20_depth_dependent_hasher_fails",
    "MinaRs.Merkle.C20_every_depth_dependent_hasher_fails",
    "MinaRs.Merkle.C20_every_partial_merger_fails"
   ],
   "note": "Every mode, history and number of items, for total mergers and depth-blind leaf hashers (Poseidon is both); answers include proofs. False for every hasher that looks at the depth and every merger that can return none (C20_every_depth_dependent_hasher_fails, C20_every_partial_merger_fails), stale-root witnesses."
  },
  {
   "property": "C21",
   "status": "proved",
   "theorems": [
    "MinaRs.Merkle.C21_batches",
    "MinaRs.Merkle.C21_one_by_one"
   ],
   "note": "Equality of whole tree states, from any reachable tree, any hasher/merger, any size."
  },
  {
   "property": "C22",
   "status": "partial",
   "theorems": [
    "MinaRs.Merkle.C22_variable_root_partial",
    "MinaRs.Merkle.C22_variable_root_history_partial",
    "MinaRs.Merkle.C22_full_tree_panics_fails",
    "MinaRs.Merkle.C22_large_trees_fails"
   ],
   "note": "Every hasher and merger for a fresh tree, any history for total mergers, for fewer than 2^28 items; false for 2^28 items and more (C22_full_tree_panics_fails for every hasher/merger, C22_large_trees_fails for Poseidon)."
  },
  {
   "property": "C23",
   "status": "partial",
   "theorems": [
    "MinaRs.Merkle.C23_fixed_root_partial",
    "MinaRs.Merkle.C23_too_many_refused_partial",
    "MinaRs.Merkle.C23_large_trees_fails",
    "MinaRs.Merkle.C23_height_zero_empty_fails"
   ],
   "note": "Any compression function and empty hash, any history, every height, fewer than 2^28 items; false from 2^28 items on (C23_large_trees_fails). Overfull trees are refused at any size. Height 0 without items reports no root, witness."
  },
  {
   "property": "C24",
   "status": "partial",
   "theorems": [
    "MinaRs.Merkle.C24_proof_verifies_partial",
    "MinaRs.Merkle.C24_single_item_fails"
   ],
   "note": "Both modes, any history, every position of trees with at least two items: the proof lists the siblings up to the root, one hash each, and verifies; single-item trees panic, proved for every hasher/merger."
  },
  {
   "property": "C25",
   "status": "partial",
   "theorems": [
    "MinaRs.Merkle.C25_proof_sound_partial",
    "MinaRs.Merkle.C25_proved_item_is_member_partial",
    "MinaRs.Merkle.C25_wrong_position_fails",
    "MinaRs.Merkle.C25_verified_or_collision_partial",
    "MinaRs.Merkle.C25_proof_sound_or_collision_partial"
   ],
   "note": "False, for every tree of two items or more: peers are only checked to be next to the node, so every item verifies at every position (C25_wrong_position_fails). Sound when the peers are siblings; without that, the proved item is still a member. Also without any injectivity assumption: sound or a collision is found on the path."
  },
  {
   "property": "C26",
   "status": "partial",
   "theorems": [
    "MinaRs.Merkle.C26_root_commits_partial",
    "MinaRs.Merkle.C26_poseidon_root_commits",
    "MinaRs.Merkle.C26_domains",
    "MinaRs.Merkle.C26_domains_apart",
    "MinaRs.Merkle.C26_same_root_or_collision_partial",
    "MinaRs.Merkle.C26_same_root_or_collision_growing_partial"
   ],
   "note": "Any two histories, both modes, any number of items, for total mergers and depth-blind hashers; in full for the Poseidon hashers and mergers. Also without injectivity: equal roots give equal items or a collision at a node of the two trees."
  },
  {
   "property": "C27",
   "status": "partial",
   "theorems": [
    "MinaRs.Merkle.C27_index_zero",
    "MinaRs.Merkle.C27_misplaced_never_verifies",
    "MinaRs.Merkle.C27_misplaced_error_partial",
    "MinaRs.Merkle.C27_verify_panics_fails",
    "MinaRs.Merkle.C27_verifies_iff_partial",
    "MinaRs.Merkle.C27_panics_iff_fails"
   ],
   "note": "Misplaced peers and index zero never verify; exactly which proofs verify (C27_verifies_iff_partial) and which make checking panic instead of answering (C27_panics_iff_fails), for places below 2^28 - 1 and depths up to 47."
  },
  {
   "property": "C28",
   "status": "partial",
   "theorems": [
    "MinaRs.Merkle.C28_path_root_partial",
    "MinaRs.Merkle.C28_bad_node_refused",
    "MinaRs.Merkle.C28_empty_path_fails",
    "MinaRs.Merkle.C28_long_path_fails",
    "MinaRs.Merkle.C28_converts_iff",
    "MinaRs.Merkle.C28_panics_fails"
   ],
   "note": "Every left/right pattern of length 1..48 with position below 2^28 - 1; exactly which paths convert (C28_converts_iff) and which end the process instead of being refused (C28_panics_fails): the empty one and those with 64 proper nodes next to the root; the rightmost leaf at height 28 converts but its root cannot be computed."
  },
  {
   "property": "C29",
   "status": "partial",
   "theorems": [
    "MinaRs.Merkle.C29_metadata_partial",
    "MinaRs.Merkle.C29_height",
    "MinaRs.Merkle.C29_rounding_fails"
   ],
   "note": "Exact for every node of depth at most 47 except the last of depths 28, 30, 38, 46, where f64 rounding is wrong (proved)."
  },
  {
   "property": "C30",
   "status": "partial",
   "theorems": [
    "MinaRs.Consensus.C30_consecutive_heights",
    "MinaRs.Consensus.C30_push_rule_partial",
    "MinaRs.Consensus.C30_greatest_height_fails"
   ],
   "note": "Consecutive heights for every sequence of pushes; exact push rule for every chain whose last height is below 2^32-1. At 2^32-1 every push panics (debug) instead of being refused (C30_greatest_height_fails, for every chain and block)."
  },
  {
   "property": "C31",
   "status": "proved",
   "theorems": [
    "MinaRs.Consensus.C31_selected_was_offered"
   ],
   "note": "Every chain, every candidate list, also when an error is returned."
  },
  {
   "property": "C32",
   "status": "proved",
   "theorems": [
    "MinaRs.Consensus.C32_selected_is_maximum",
    "MinaRs.Consensus.C32_order_independent"
   ],
   "note": "Selection succeeds and yields the maximum by (length, digest, hash); order independence for every permutation. The hypothesis is stated on the run of the API itself; shortRangeRun_of_same_epoch shows a whole family meeting it."
  },
  {
   "property": "C33",
   "status": "partial",
   "theorems": [
    "MinaRs.Consensus.C33_answers_agree",
    "MinaRs.Consensus.C33_symmetric_partial",
    "MinaRs.Consensus.C33_zero_epoch_length_fails"
   ],
   "note": "Whenever both directions answer, they agree (all chains); equality of results for tips with positive epoch length and epoch counter below the maximum; C33_zero_epoch_length_fails says exactly when a direction panics instead (zero slots per epoch or the greatest epoch count)."
  },
  {
   "property": "C34",
   "status": "partial",
   "theorems": [
    "MinaRs.Consensus.C34_decision_rule_partial",
    "MinaRs.Consensus.C34_any_length_partial",
    "MinaRs.Consensus.C34_other_epoch_length_fails"
   ],
   "note": "Exact decision rule for tips with 7140 slots per epoch; for every other positive epoch length the rule the code follows (C34_any_length_partial), which compares with two thirds of the configured 7140; the answer is wrong for some tips exactly when the epoch length is none of 1, 2, 7139, 7140."
  },
  {
   "property": "C35",
   "status": "proved",
   "theorems": [
    "MinaRs.Consensus.C35_long_range_rule",
    "MinaRs.Consensus.C35_malformed_never_selected",
    "MinaRs.Consensus.C35_selected_iff_preferred"
   ],
   "note": "One-candidate rule with arbitrary densities, malformed candidates skipped within any list, and the complete preference on well-formed chains."
  },
  {
   "property": "C36",
   "status": "proved",
   "theorems": [
    "MinaRs.Consensus.C36_at_most_own_density",
    "MinaRs.Consensus.C36_grace_period",
    "MinaRs.Consensus.C36_antitone",
    "MinaRs.Consensus.C36_defined"
   ],
   "note": "Upper bound, grace period and antitonicity for all chains; closed form (hence definedness) for windows of eleven sub-windows."
  },
  {
   "property": "C37",
   "status": "partial",
   "theorems": [
    "MinaRs.Consensus.C37_cited_specification_partial",
    "MinaRs.Consensus.C37_fails",
    "MinaRs.Consensus.C37_wrong_chain_selected_fails"
   ],
   "note": "False: the shift count is off by two and the starting sub-window uses 11 instead of 7, for all uniform windows and for wrongly selected chains from slot 1440 on. Equal inside the grace period and from 12 slots distance on."
  },
  {
   "property": "C38",
   "status": "proved",
   "theorems": [
    "MinaRs.Consensus.C38_no_panic",
    "MinaRs.Consensus.C38_errors",
    "MinaRs.Consensus.C38_longer_no_panic",
    "MinaRs.Consensus.C38_zero_epoch_length_fails"
   ],
   "note": "No panic on well-formed chains, and the exact error conditions; C38_zero_epoch_length_fails shows that the hypotheses are needed, for every own chain."
  },
  {
   "property": "C39",
   "status": "proved",
   "theorems": [
    "MinaRs.Frontier.C39_invalid_refused",
    "MinaRs.Frontier.C39_best_chain_verified",
    "MinaRs.Frontier.C39_processor_best_chain_verified"
   ],
   "note": "Every history of offered blocks, and every schedule of the processor."
  },
  {
   "property": "C40",
   "status": "partial",
   "theorems": [
    "MinaRs.Frontier.C40_verify_iff",
    "MinaRs.Frontier.C40_verify_false_partial",
    "MinaRs.Frontier.C40_invalid_key_fails"
   ],
   "note": "Verifies exactly when every command does (no hypotheses). Panics instead of answering false exactly when a command whose signer is off the curve comes after valid commands only (C40_invalid_key_fails, an equivalence over every block)."
  },
  {
   "property": "C41",
   "status": "partial",
   "theorems": [
    "MinaRs.Frontier.C41_ledger_of_tip_hash",
    "MinaRs.Frontier.C41_ledger_of_tip_partial",
    "MinaRs.Frontier.C41_same_hash_fails"
   ],
   "note": "For every history the ledger was delivered with a block of the state hash of the tip; it is the tip itself when state hashes do not collide, and for every collision it is not."
  },
  {
   "property": "C42",
   "status": "proved",
   "theorems": [
    "MinaRs.Frontier.C42_mainnet_unchanged",
    "MinaRs.Frontier.C42_berkeley_unchanged"
   ],
   "note": "Both frontiers, every state and block, errors and panics."
  },
  {
   "property": "C43",
   "status": "partial",
   "theorems": [
    "MinaRs.Frontier.C43_in_order_exactly_once",
    "MinaRs.Frontier.C43_all_handled_at_end",
    "MinaRs.Frontier.C43_only_panics_stop",
    "MinaRs.Frontier.C43_progress",
    "MinaRs.Frontier.C43_drains",
    "MinaRs.Frontier.C43_panic_stops_fails"
   ],
   "note": "Every schedule of senders, loop steps, closing and read guards: exactly once, in order, the frontier after a prefix of the blocks sent with at most two pending, progress and draining; only a panic, of the conversion or of the adding, stops the loop, and every panic does, for ever."
  },
  {
   "property": "C44",
   "status": "partial",
   "theorems": [
    "MinaRs.Frontier.C44_length_never_shrinks_partial",
    "MinaRs.Frontier.C44_length_zero_fails"
   ],
   "note": "Every history of blocks with positive length; every first block of length 0 blocks the frontier for every later block that does not have length 1."
  },
  {
   "property": "C45",
   "status": "partial",
   "theorems": [
    "MinaRs.Ledger.C45_exactly_the_stored_accounts_partial",
    "MinaRs.Ledger.C45_written_accounts_read_back_partial",
    "MinaRs.Ledger.C45_read_error_cuts_partial",
    "MinaRs.Ledger.C45_read_error_not_reported_fails",
    "MinaRs.Ledger.C45_accounts_lost_fails"
   ],
   "note": "Every database history without read errors yields exactly the stored accounts, and those that decode read back; a read error or undecodable entry is dropped silently, in every database."
  },
  {
   "property": "C46",
   "status": "partial",
   "theorems": [
    "MinaRs.Ledger.C46_tree_of_accounts_partial",
    "MinaRs.Ledger.C46_position_partial",
    "MinaRs.Ledger.C46_tree_of_database_partial",
    "MinaRs.Ledger.C46_abort_fails",
    "MinaRs.Ledger.C46_undecodable_skipped_fails",
    "MinaRs.Ledger.C46_position_shift_fails"
   ],
   "note": "Ledger tree equals the tree of the accounts in key order and positions match when every account decodes; an undecodable account shifts every later position: witness. A key outside the field aborts: witness."
  },
  {
   "property": "C47",
   "status": "proved",
   "theorems": [
    "MinaRs.Base.C47_text_exact",
    "MinaRs.Base.C47_roundtrip",
    "MinaRs.Base.C47_injective"
   ],
   "note": "Every u64."
  },
  {
   "property": "C48",
   "status": "partial",
   "theorems": [
    "MinaRs.Base.C48_decimal_partial",
    "MinaRs.Base.C48_accepted_partial",
    "MinaRs.Base.C48_two_points_refused",
    "MinaRs.Base.C48_other_characters_refused",
    "MinaRs.Base.C48_exactly",
    "MinaRs.Base.C48_long_fraction_fails",
    "MinaRs.Base.C48_long_fraction_always_wrong_fails",
    "MinaRs.Base.C48_plus_in_fraction_fails",
    "MinaRs.Base.C48_empty_fraction_fails",
    "MinaRs.Base.C48_overflow_fails"
   ],
   "note": "C48_exactly: the accepted texts and their values, exactly, in both build modes. The stated property holds for every text with at most nine fractional digits; witnesses for long fractions, plus in the fraction, empty fraction and overflow."
  },
  {
   "property": "C49",
   "status": "proved",
   "theorems": [
    "MinaRs.Base.C49_roundtrip",
    "MinaRs.Base.C49_form"
   ],
   "note": "Every u64: the trimmed decimal text has the stated form and parses back."
  },
  {
   "property": "C50",
   "status": "proved",
   "theorems": [
    "MinaRs.Hash.C50_memo_of_text",
    "MinaRs.Hash.C50_round_trip",
    "MinaRs.Hash.C50_injective"
   ],
   "note": "All byte strings and texts, and every replacement behaviour for bytes that are not UTF-8."
  },
  {
   "property": "C51",
   "status": "partial",
   "theorems": [
    "MinaRs.Hash.C51_injective",
    "MinaRs.Hash.C51_kinds",
    "MinaRs.Hash.C51_signed_message_partial",
    "MinaRs.Hash.C51_networks",
    "MinaRs.Hash.C51_memo_length_fails"
   ],
   "note": "The hash input itself is injective for all payloads; what is signed is injective for memos of equal length; the memo length is not signed: every payment of the default token and every delegation, with a memo of 34 bytes, shares its signatures with another payment."
  },
  {
   "property": "C52",
   "status": "proved",
   "theorems": [
    "MinaRs.Hash.C52_no_panic",
    "MinaRs.Hash.C52_injective",
    "MinaRs.Hash.C52_layout",
    "MinaRs.Hash.C52_packed_small",
    "MinaRs.Hash.C52_oversized_piece_fails",
    "MinaRs.Hash.C52_widths_needed"
   ],
   "note": "All inputs whose pieces fit their widths: no panic, injective for equal widths, exact layout, 254-bit bound; witnesses that fitting and equal widths are needed."
  },
  {
   "property": "C53",
   "status": "partial",
   "theorems": [
    "MinaRs.Hash.C53_exact_partial",
    "MinaRs.Hash.C53_distinguishes_partial",
    "MinaRs.Hash.C53_proof_both_fails"
   ],
   "note": "Exact characterisation of equal inputs; Proof and Both share an encoding: C53_proof_both_fails gives other permissions with the same input for every permissions that mention Both."
  },
  {
   "property": "C54",
   "status": "partial",
   "theorems": [
    "MinaRs.Hash.C54_exact_partial",
    "MinaRs.Hash.C54_distinguishes_partial",
    "MinaRs.Hash.C54_time_fails"
   ],
   "note": "Exact characterisation of equal inputs; times above 32 bits are truncated: C54_time_fails gives a second timing with the same input for every timed account."
  },
  {
   "property": "C55",
   "status": "partial",
   "theorems": [
    "MinaRs.GraphQL.C55_accepted_iff",
    "MinaRs.GraphQL.C55_import_partial",
    "MinaRs.GraphQL.C55_faithful_iff",
    "MinaRs.GraphQL.C55_accepted",
    "MinaRs.GraphQL.C55_missing_refused",
    "MinaRs.GraphQL.C55_increment_nonce_fails"
   ],
   "note": "Ten of eleven permissions, exact condition for faithfulness, exact set of accepted documents; increment_nonce is read from editState, whatever the two say (C55_increment_nonce_fails)."
  },
  {
   "property": "C56",
   "status": "proved",
   "theorems": [
    "MinaRs.Json.C56_roundtrip",
    "MinaRs.Json.C56_onto",
    "MinaRs.Json.C56_wire",
    "MinaRs.Json.C56_json"
   ],
   "note": "Every u32; also the wire encoding, the JSON text and surjectivity on version-1 numbers."
  },
  {
   "property": "C57",
   "status": "partial",
   "theorems": [
    "MinaRs.Json.C57_roundtrip_partial",
    "MinaRs.Json.C57_form",
    "MinaRs.Json.C57_malformed_partial",
    "MinaRs.Json.C57_malformed_fails",
    "MinaRs.Json.C57_short_lists_fail",
    "MinaRs.Json.C57_also_accepted",
    "MinaRs.Json.C57_any_order",
    "MinaRs.Json.C57_repeated_fails",
    "MinaRs.Json.C57_repeated_refused",
    "MinaRs.Json.C57_sorted"
   ],
   "note": "Every enum of the code (with the leaf conditions of C61); malformed documents that are no arrays, and empty arrays, panic; the macro itself loses short lists; behind a tag a repeated member is silently overwritten by the last one: witnesses."
  },
  {
   "property": "C58",
   "status": "partial",
   "theorems": [
    "MinaRs.Json.C58_form",
    "MinaRs.Json.C58_accepted_iff",
    "MinaRs.Json.C58_roundtrip",
    "MinaRs.Json.C58_prefix_optional",
    "MinaRs.Json.C58_refused_partial",
    "MinaRs.Json.C58_wrong_length_fails"
   ],
   "note": "Exact set of accepted texts and round trip; hexadecimal text of any other length panics: proved for all such texts."
  },
  {
   "property": "C59",
   "status": "proved",
   "theorems": [
    "MinaRs.Json.C59_roundtrip",
    "MinaRs.Json.C59_other_kind_refused",
    "MinaRs.Json.C59_no_collision",
    "MinaRs.Json.C59_not_an_address",
    "MinaRs.Json.C59_address_is_no_other_kind"
   ],
   "note": "Twelve kinds and public keys; SHA-256 is a parameter."
  },
  {
   "property": "C60",
   "status": "partial",
   "theorems": [
    "MinaRs.Secrets.C60_reread_partial",
    "MinaRs.Secrets.C60_rewrite",
    "MinaRs.Secrets.C60_read_says",
    "MinaRs.Secrets.C60_ops_fails",
    "MinaRs.Secrets.C60_long_salt_fails",
    "MinaRs.Secrets.C60_read_no_panic",
    "MinaRs.Secrets.C60_decrypt_no_panic_partial",
    "MinaRs.Secrets.C60_decrypt_panics_fails",
    "MinaRs.Secrets.C60_text",
    "MinaRs.Secrets.C60_text_reread_partial",
    "MinaRs.Secrets.C60_once",
    "MinaRs.Genesis.C60_no_panic"
   ],
   "note": "All texts and documents (a repeated member is refused): re-reading what was written, exact reading, no panic when reading; same JSON for 16-byte salts and 32-bit limits; witnesses for other limits, longer salts, nonces of the wrong length and empty plaintexts."
  },
  {
   "property": "C61",
   "status": "partial",
   "theorems": [
    "MinaRs.Json.Block.C61_roundtrip_partial",
    "MinaRs.Json.Block.C61_roundtrip_plain_partial",
    "MinaRs.Json.Block.C61_same_document_iff",
    "MinaRs.Json.Block.C61_written_iff",
    "MinaRs.Json.Block.C61_protocol_version_fails",
    "MinaRs.Json.Block.C61_roundtrip_fails",
    "MinaRs.Json.Block.C61_unwritable_fails"
   ],
   "note": "Round trip up to version numbers and skipped fields, exact condition for writing, equal documents exactly for equal normal forms; the protocol versions are lost for every block, some blocks cannot be written: witnesses."
  },
  {
   "property": "C62",
   "status": "partial",
   "theorems": [
    "MinaRs.Hash.C62_exact_partial",
    "MinaRs.Hash.C62_distinguishes_partial",
    "MinaRs.Hash.C62_top_bits_fails",
    "MinaRs.Hash.C62_every_output_fails"
   ],
   "note": "Exact characterisation for equal lengths; injective up to 31 bytes and for 253-bit outputs; the top three bits of byte 31 are not hashed, so every 32-byte output has seven others with its hash input (C62_every_output_fails)."
  },
  {
   "property": "C63",
   "status": "partial",
   "theorems": [
    "MinaRs.BinProt.C63_reuse_deserializer_partial",
    "MinaRs.BinProt.C63_stream_partial",
    "MinaRs.BinProt.C63_second_from_reader_fails"
   ],
   "note": "One deserializer reused, for any list of messages of any types and all schedules (C63_stream_partial). Separate from_reader calls on one reader: false, witness."
  },
  {
   "property": "C64",
   "status": "proved",
   "theorems": [
    "MinaRs.Base.C64_roundtrip",
    "MinaRs.Base.C64_accepted_iff"
   ],
   "note": "Round trip for all numbers and exact acceptance for all texts, both widths."
  },
  {
   "property": "C65",
   "status": "partial",
   "theorems": [
    "MinaRs.Hash.C65_no_panic_iff",
    "MinaRs.Hash.C65_exact_partial",
    "MinaRs.Hash.C65_distinguishes_partial",
    "MinaRs.Hash.C65_hash",
    "MinaRs.Hash.C65_delegate_fails",
    "MinaRs.Hash.C65_symbol_fails",
    "MinaRs.Hash.C65_zkapp_fails",
    "MinaRs.Hash.C65_panic_fails"
   ],
   "note": "Exact characterisation of panics and of equal inputs; witnesses for delegate, symbol, zkApp and panic."
  },
  {
   "property": "C66",
   "status": "partial",
   "theorems": [
    "MinaRs.Hash.C66_exact_partial",
    "MinaRs.Hash.C66_distinguishes_partial",
    "MinaRs.Hash.C66_lengths_fails",
    "MinaRs.Hash.C66_failure_table_fails"
   ],
   "note": "Injective for bodies of real blocks (eleven sub-windows, 253-bit VRF output) up to SHA-256; lengths and the failure table are not hashed: witnesses."
  },
  {
   "property": "C67",
   "status": "proved",
   "theorems": [
    "MinaRs.Hash.C67_state_hash_commits",
    "MinaRs.Hash.C67_no_panic_iff"
   ],
   "note": "Every pair of states as in real blocks, every pair of hash functions without a collision on the inputs at hand; other list lengths are the subject of C66."
  },
  {
   "property": "C68",
   "status": "proved",
   "theorems": [
    "MinaRs.Hash.C68_builder"
   ],
   "note": "Every sequence of setter calls."
  },
  {
   "property": "C69",
   "status": "partial",
   "theorems": [
    "MinaRs.Hash.C69_readable_iff_partial",
    "MinaRs.Hash.C69_panics_fails",
    "MinaRs.Hash.C69_builder_default_fails"
   ],
   "note": "Exact condition for readability; panics otherwise, including for every builder payload without memo: witnesses."
  },
  {
   "property": "C70",
   "status": "partial",
   "theorems": [
    "MinaRs.Hash.C70_no_panic_iff",
    "MinaRs.Hash.C70_exact_partial",
    "MinaRs.Hash.C70_distinguishes_partial",
    "MinaRs.Hash.C70_state_hash_commits_partial",
    "MinaRs.Hash.C70_lengths_fails"
   ],
   "note": "Real blocks (eleven sub-windows, 253-bit VRF output): proved for all hash functions without a collision on the inputs at hand; list lengths are not hashed: witness for every state."
  },
  {
   "property": "C71",
   "status": "partial",
   "theorems": [
    "MinaRs.Hash.C71_exact_partial",
    "MinaRs.Hash.C71_owner_fails"
   ],
   "note": "Exact characterisation; only token and balance are hashed: witness."
  },
  {
   "property": "C72",
   "status": "partial",
   "theorems": [
    "MinaRs.Json.Block.C72_rewrite_partial",
    "MinaRs.Json.Block.C72_same_block",
    "MinaRs.Json.Block.C72_same_document_iff",
    "MinaRs.Json.Block.C72_protocol_version",
    "MinaRs.Json.Block.C72_not_ascii_fails"
   ],
   "note": "Every accepted document, for blocks with ASCII characters; unconditional if the block is written at all; a character that is not ASCII is accepted and then written as invalid UTF-8: witness."
  },
  {
   "property": "C73",
   "status": "partial",
   "theorems": [
    "MinaRs.Genesis.C73_accepted_exactly",
    "MinaRs.GraphQL.C73_accepted_iff",
    "MinaRs.GraphQL.C73_constant_parts",
    "MinaRs.GraphQL.C73_import_partial",
    "MinaRs.GraphQL.C73_constants",
    "MinaRs.GraphQL.C73_constants_fails",
    "MinaRs.GraphQL.C73_determined",
    "MinaRs.GraphQL.C73_flags_fails"
   ],
   "note": "Every state and document up to five hard-coded parts, which are proved constant; exact set of accepted documents; witnesses for other densities and for absent flags."
  },
  {
   "property": "C74",
   "status": "partial",
   "theorems": [
    "MinaRs.GraphQL.C74_accepted_iff",
    "MinaRs.GraphQL.C74_import_partial",
    "MinaRs.GraphQL.C74_never_refused",
    "MinaRs.GraphQL.C74_malformed_fails"
   ],
   "note": "Canonical documents, and exactly which documents give a schedule; unreadable parts give an unrestricted account: proved for all such documents."
  },
  {
   "property": "C75",
   "status": "partial",
   "theorems": [
    "MinaRs.GraphQL.C75_accepted_iff",
    "MinaRs.GraphQL.C75_delegate_refused",
    "MinaRs.GraphQL.C75_import_partial",
    "MinaRs.GraphQL.C75_faithful_iff",
    "MinaRs.GraphQL.C75_symbol_fails"
   ],
   "note": "Exact set of accounts that survive and of documents accepted; token symbol, zkApp and increment_nonce are lost: witness."
  },
  {
   "property": "C76",
   "status": "partial",
   "theorems": [
    "MinaRs.GraphQL.C76_path_accepted_iff",
    "MinaRs.GraphQL.C76_roundtrip",
    "MinaRs.GraphQL.C76_path_roundtrip",
    "MinaRs.GraphQL.C76_accepted_iff",
    "MinaRs.GraphQL.C76_radix_accepted_iff",
    "MinaRs.GraphQL.C76_refused_partial",
    "MinaRs.GraphQL.C76_large_fails"
   ],
   "note": "Round trips of all elements and paths, exact sets of accepted texts and paths; numbers from the modulus on panic: proved."
  },
  {
   "property": "C77",
   "status": "partial",
   "theorems": [
    "MinaRs.Genesis.C77_accepted_exactly",
    "MinaRs.GraphQL.C77_accepted_iff",
    "MinaRs.GraphQL.C77_import_partial",
    "MinaRs.GraphQL.C77_refused",
    "MinaRs.GraphQL.C77_one_proof_each",
    "MinaRs.GraphQL.C77_panics_fails"
   ],
   "note": "All documents with non-empty paths below 64 nodes (root up to 48 nodes and position 2^28 - 2); exactly which documents are imported (C77_accepted_iff); witnesses for the panics. State up to what C73 misses."
  },
  {
   "property": "C78",
   "status": "partial",
   "theorems": [
    "MinaRs.GraphQL.C78_honest_partial",
    "MinaRs.GraphQL.C78_unchecked_fails"
   ],
   "note": "Holds for histories of honest documents with distinct state hashes; false otherwise since nothing is verified: proved for every state, path and root."
  },
  {
   "property": "C79",
   "status": "partial",
   "theorems": [
    "MinaRs.Secrets.C79_key_partial",
    "MinaRs.Secrets.C79_wrong_password",
    "MinaRs.Secrets.C79_memory_fails"
   ],
   "note": "Every key, password and file with memory limit below 2^42; larger limits are truncated: proved."
  },
  {
   "property": "C80",
   "status": "partial",
   "theorems": [
    "MinaRs.Genesis.C80_memo_unique",
    "MinaRs.Genesis.C80_aux_unique",
    "MinaRs.GraphQL.C80_checksum",
    "MinaRs.GraphQL.C80_address_checksum",
    "MinaRs.GraphQL.C80_corrupted_refused",
    "MinaRs.GraphQL.C80_unique_partial",
    "MinaRs.GraphQL.C80_address_fails",
    "MinaRs.GraphQL.C80_two_addresses_fails",
    "MinaRs.GraphQL.C80_vrf_fails",
    "MinaRs.GraphQL.C80_hash_fails"
   ],
   "note": "Checksum: every kind and every public key. Uniqueness: memos and byte hashes; witnesses for public keys, VRF outputs and hashes."
  },
  {
   "property": "C81",
   "status": "partial",
   "theorems": [
    "MinaRs.Frontier.C81_mainnet",
    "MinaRs.Frontier.C81_berkeley_partial",
    "MinaRs.Frontier.C81_under_way",
    "MinaRs.Frontier.C81_no_deadlock",
    "MinaRs.Frontier.C81_terminates",
    "MinaRs.Frontier.C81_berkeley_fails",
    "MinaRs.Frontier.C81_not_running_fails"
   ],
   "note": "Mainnet backend in full; Berkeley up to the first failing endpoint, where it stops in every history; progress once the processor runs; before, every poll with two blocks deadlocks."
  },
  {
   "property": "C82",
   "status": "partial",
   "theorems": [
    "MinaRs.Wallet.C82_sent_iff",
    "MinaRs.Wallet.C82_valid_until",
    "MinaRs.Wallet.C82_payment_partial",
    "MinaRs.Wallet.C82_accounts_partial",
    "MinaRs.Wallet.C82_addresses",
    "MinaRs.Wallet.C82_distinguishes_partial",
    "MinaRs.Wallet.C82_injection_fails",
    "MinaRs.Wallet.C82_any_request_fails",
    "MinaRs.Wallet.C82_backslash_fails",
    "MinaRs.Wallet.C82_escapes_fails",
    "MinaRs.Wallet.C82_quote_fails",
    "MinaRs.Wallet.C82_rest_fails"
   ],
   "note": "Exact for receivers, senders, keys and passwords without quotes, backslashes and control characters, addresses in particular; exactly which amounts are accepted; fails for receivers with quotes (any fields can be added to the request), for passwords with quotes or backslashes (all of them) and for the parts never sent."
  },
  {
   "property": "C83",
   "status": "partial",
   "theorems": [
    "MinaRs.Crawler.C83_names",
    "MinaRs.Crawler.C83_file_name",
    "MinaRs.Crawler.C83_contents_partial",
    "MinaRs.Crawler.C83_not_both",
    "MinaRs.Crawler.C83_kept",
    "MinaRs.Crawler.C83_run_partial",
    "MinaRs.Crawler.C83_killed_fails",
    "MinaRs.Crawler.C83_repeated_fails",
    "MinaRs.Crawler.C83_panic_fails",
    "MinaRs.Crawler.C83_time_irrelevant",
    "MinaRs.Crawler.C83_blocks_accepted",
    "MinaRs.Crawler.C83_verdict",
    "MinaRs.Crawler.C83_signature_fails",
    "MinaRs.Crawler.C83_others_refused"
   ],
   "note": "Contents (a beginning of the document if killed while writing, all of it otherwise), never both folders, succeeded files kept, complete runs; for every block and every state between runs: kills while writing, repeated blocks and panics break the claim."
  },
  {
   "property": "C84",
   "status": "partial",
   "theorems": [
    "MinaRs.BinProt.ReaderTool.C84_input",
    "MinaRs.BinProt.ReaderTool.C84_prints_partial",
    "MinaRs.BinProt.ReaderTool.C84_roundtrip_partial",
    "MinaRs.BinProt.ReaderTool.C84_roundtrip_sound",
    "MinaRs.BinProt.ReaderTool.C84_binary_digits_fails",
    "MinaRs.BinProt.ReaderTool.C84_trailing_fails",
    "MinaRs.BinProt.ReaderTool.C84_line_break_fails"
   ],
   "note": "Exact in both modes for scoped, rewritable layouts; soundness of --roundtrip for all; without it trailing bytes go unnoticed under every layout; binary files of digits only and final line breaks are misread, for all of them."
  },
  {
   "property": "C85",
   "status": "partial",
   "theorems": [
    "MinaRs.BinProt.LayoutText.C85_text",
    "MinaRs.BinProt.LayoutText.C85_says",
    "MinaRs.BinProt.LayoutText.C85_tool_text_partial",
    "MinaRs.BinProt.LayoutText.C85_every_file",
    "MinaRs.BinProt.LayoutText.C85_second_layout_fails",
    "MinaRs.BinProt.LayoutDoc.C85_reads_exactly",
    "MinaRs.BinProt.LayoutDoc.C85_every_rule",
    "MinaRs.BinProt.LayoutDoc.C85_layout_exactly",
    "MinaRs.BinProt.LayoutDoc.C85_tool_partial",
    "MinaRs.BinProt.LayoutDoc.C85_written_fails"
   ],
   "note": "Exact set of documents and the rule each describes, from the text of the file on, at any depth; every expressible rule has a file; the whole tool. Fails: no layout written by the library can be read again (for all rules); text after a layout goes unnoticed."
  },
  {
   "property": "C86",
   "status": "partial",
   "theorems": [
    "MinaRs.Genesis.C86_from_config",
    "MinaRs.Genesis.C86_density_overflow",
    "MinaRs.Genesis.C86_mainnet",
    "MinaRs.Genesis.C86_berkeley",
    "MinaRs.Genesis.C86_starts_chain",
    "MinaRs.Genesis.C86_selection",
    "MinaRs.Genesis.C86_selection_applies",
    "MinaRs.Hash.Sha256.C86_sha256_constants",
    "MinaRs.Hash.Sha256.C86_sha256_padding"
   ],
   "note": "Both hard-coded states, every configuration whose density fits 32 bits, chains and selection from a genesis block; for larger densities the overflow (panic or truncation) is proved instead."
  },
  {
   "property": "C87",
   "status": "partial",
   "theorems": [
    "MinaRs.Genesis.C87_reads_iff",
    "MinaRs.Genesis.C87_refusals",
    "MinaRs.Genesis.C87_every_element",
    "MinaRs.Genesis.C87_bad_radix",
    "MinaRs.Genesis.C87_modulus_fails"
   ],
   "note": "Exact set of texts read and their values, every element in every radix, errors; numbers between the order and 2^256 and radices outside 2..36 abort, proved for all of them."
  },
  {
   "property": "C88",
   "status": "partial",
   "theorems": [
    "MinaRs.Genesis.C88_range",
    "MinaRs.Genesis.C88_instant",
    "MinaRs.Genesis.C88_injective",
    "MinaRs.Genesis.C88_beyond",
    "MinaRs.Genesis.C88_wraps_fails",
    "MinaRs.Genesis.C88_from_seconds"
   ],
   "note": "Exact instant for every block time up to the year 9999; beyond, exactly which ones abort and which are shown before 1970 is proved."
  },
  {
   "property": "C89",
   "status": "partial",
   "theorems": [
    "MinaRs.Block.C89_write_then_read_partial",
    "MinaRs.Block.C89_bytes_determine_block_partial",
    "MinaRs.Block.C89_outcomes_partial",
    "MinaRs.Block.C89_accepts_iff_canonical",
    "MinaRs.Block.C89_forgets_only_versions",
    "MinaRs.Block.C89_reading_never_aborts_fails",
    "MinaRs.Block.C89_relay_keeps_bytes_fails",
    "MinaRs.Block.C89_every_label_accepted_fails"
   ],
   "note": "All blocks with 64-bit numbers below 2^63 round-trip and all others are proved to fail; every outcome of reading any bytes is characterised; aborts exactly on keys or signatures outside the fields; version numbers are lost and nothing else; every block is accepted under every version number (C89_every_label_accepted_fails)."
  },
  {
   "property": "C90",
   "status": "partial",
   "theorems": [
    "MinaRs.Account.C90_written_layout_partial",
    "MinaRs.Account.C90_reads_layout",
    "MinaRs.Account.C90_write_then_read_partial",
    "MinaRs.Account.C90_layout_unambiguous",
    "MinaRs.Account.C90_outcomes_partial",
    "MinaRs.Account.C90_legacy_written_layout_partial",
    "MinaRs.Account.C90_legacy_reads_layout",
    "MinaRs.Account.C90_legacy_write_then_read_partial",
    "MinaRs.Account.C90_legacy_outcomes_partial",
    "MinaRs.Account.C90_big_balance_fails",
    "MinaRs.Account.C90_reading_never_aborts_fails",
    "MinaRs.Account.C90_other_key_aborts_fails",
    "MinaRs.Account.C90_example_vesting_fails"
   ],
   "note": "The layout of every account with 64-bit numbers below 2^63 is proved, reading accepts exactly that layout, and all other accounts are proved to fail to read back; aborts exactly on keys outside the field, which can stand in place of the key of any account (C90_other_key_aborts_fails)."
  },
  {
   "property": "C91",
   "status": "partial",
   "theorems": [
    "MinaRs.Ledger.C91_accounts_read",
    "MinaRs.Ledger.C91_written_partial",
    "MinaRs.Ledger.C91_root_partial",
    "MinaRs.Ledger.C91_unhashable_aborts",
    "MinaRs.Ledger.C91_bad_key_aborts",
    "MinaRs.Ledger.C91_same_root_partial",
    "MinaRs.Ledger.C91_legacy_written_partial",
    "MinaRs.Ledger.C91_legacy_root_partial",
    "MinaRs.Ledger.C91_legacy_root_ignores_fails",
    "MinaRs.Ledger.C91_empty_hashes",
    "MinaRs.Ledger.C91_root_aborts_fails",
    "MinaRs.Ledger.C91_build_aborts_fails"
   ],
   "note": "Root of every database of at most 2^20 hashable accounts, commitment up to a located collision and up to the fields the account hash ignores (C65); accounts with hashes or keys outside the field are proved to abort; the older format is proved to commit to token and balance only."
  },
  {
   "property": "C92",
   "status": "partial",
   "theorems": [
    "MinaRs.Block.C92_write_then_read_partial",
    "MinaRs.Block.C92_unwritable",
    "MinaRs.Block.C92_same_document_iff",
    "MinaRs.Block.C92_read_then_write_partial",
    "MinaRs.Block.C92_formats_agree_partial",
    "MinaRs.Block.C92_protocol_version_fails",
    "MinaRs.Block.C92_unwritable_fails",
    "MinaRs.Block.C92_reading_aborts_fails"
   ],
   "note": "proved for blocks with protocol version 2.0.0, UTF-8 digests and ASCII branches; outside these the code loses the version or aborts, with witnesses"
  },
  {
   "property": "C93",
   "status": "partial",
   "theorems": [
    "MinaRs.Json.C93_accepted_iff",
    "MinaRs.Json.C93_roundtrip",
    "MinaRs.Json.C93_injective",
    "MinaRs.Json.C93_refused_partial",
    "MinaRs.Json.C93_reads",
    "MinaRs.Json.C93_ragged_fails"
   ],
   "note": "exact set of accepted texts and round trip proved; refusal with an error is false for ragged hexadecimal text, which aborts (witness for every such text)"
  },
  {
   "property": "C94",
   "status": "partial",
   "theorems": [
    "MinaRs.Json.StrConv.C94_roundtrip_partial",
    "MinaRs.Json.StrConv.C94_injective",
    "MinaRs.Json.StrConv.C94_unshown_fails",
    "MinaRs.Json.StrConv.C94_other_kind_refused_partial",
    "MinaRs.Json.StrConv.C94_vrf_confused_fails",
    "MinaRs.Json.StrConv.C94_chain_ledger_confused_fails",
    "MinaRs.Json.StrConv.C94_char_fails",
    "MinaRs.Json.StrConv.C94_read_then_shown_partial"
   ],
   "note": "proved for all printable values and all kinds with different version bytes; the confusions and unprintable values are proved as counterexamples"
  },
  {
   "property": "C95",
   "status": "partial",
   "theorems": [
    "MinaRs.BinProt.C95_written",
    "MinaRs.BinProt.C95_read_as_plain",
    "MinaRs.BinProt.C95_visitor",
    "MinaRs.BinProt.C95_read_fails",
    "MinaRs.BinProt.C95_checker"
   ],
   "note": "writing and the checker proved in full; reading marked fields never succeeds in the code, proved"
  },
  {
   "property": "C96",
   "status": "partial",
   "theorems": [
    "MinaRs.Status.C96_says",
    "MinaRs.Status.C96_one_status",
    "MinaRs.Status.C96_every_status",
    "MinaRs.Status.C96_on_the_page",
    "MinaRs.Status.C96_updates",
    "MinaRs.Status.C96_line",
    "MinaRs.Status.C96_chunk_independent",
    "MinaRs.Status.C96_ends_iff_partial",
    "MinaRs.Status.C96_never_ends_fails",
    "MinaRs.Status.C96_requests",
    "MinaRs.Status.C96_connect_fails",
    "MinaRs.Status.C96_asked_fails"
   ],
   "note": "delivery proved in full; the end of the stream, the connect result and answering other pages are false in the code, proved"
  },
  {
   "property": "C97",
   "status": "proved",
   "theorems": [
    "MinaRs.Hash.C97_packing_unique",
    "MinaRs.Hash.C97_legacy_packing_unique",
    "MinaRs.Hash.C97_account",
    "MinaRs.Hash.C97_state",
    "MinaRs.Hash.C97_legacy_state",
    "MinaRs.Hash.C97_legacy_account",
    "MinaRs.Hash.C97_command"
   ],
   "note": "Tables for Berkeley and mainnet protocol states, accounts and signed commands. The Poseidon and SHA-256 functions are parameters; the mainnet packing of bits is that of the external crate mina_hasher as documented."
  },
  {
   "property": "C98",
   "status": "partial",
   "theorems": [
    "MinaRs.Frontier.C98_moments",
    "MinaRs.Frontier.C98_no_answer_while_adding",
    "MinaRs.Frontier.C98_guard",
    "MinaRs.Frontier.C98_document",
    "MinaRs.Frontier.C98_mainnet",
    "MinaRs.Frontier.C98_mainnet_never_null_again",
    "MinaRs.Frontier.C98_mainnet_agree",
    "MinaRs.Frontier.C98_berkeley",
    "MinaRs.Frontier.C98_berkeley_together_partial",
    "MinaRs.Frontier.C98_two_calls_fails"
   ],
   "note": "Everything but the last sentence is proved in full; that sentence is false of the code (C98_two_calls_fails) and proved when no block was handled between the calls."
  },
  {
   "property": "C99",
   "status": "partial",
   "theorems": [
    "MinaRs.Log.C99_text",
    "MinaRs.Log.C99_console",
    "MinaRs.Log.C99_init",
    "MinaRs.Log.C99_lines_partial",
    "MinaRs.Log.C99_line_unique_partial",
    "MinaRs.Log.C99_line_break_fails"
   ],
   "note": "Contents, order, console and set-up proved for all histories; telling the records apart is false for messages with line breaks (C99_line_break_fails: any record can be forged inside any other after any history) and proved for one-line records."
  },
  {
   "property": "C100",
   "status": "proved",
   "theorems": [
    "MinaRs.P2P.C100_build",
    "MinaRs.P2P.C100_network"
   ],
   "note": "libp2p itself is not modelled: a transport is the list of layers it is built from."
  },
  {
   "property": "C101",
   "status": "partial",
   "theorems": [
    "MinaRs.Merkle.C101_missing_hashes_refused",
    "MinaRs.Merkle.C101_release_agrees",
    "MinaRs.Merkle.C101_release_indices",
    "MinaRs.Merkle.C101_web_root_partial",
    "MinaRs.Merkle.C101_second_account_fails",
    "MinaRs.Merkle.C101_first_account_fails"
   ],
   "note": "Release and checked builds agree with words of 64 bits; in a browser only for paths of up to 31 nodes and the positions of C28: longer paths fail (C101_second_account_fails, C101_first_account_fails)."
  },
  {
   "property": "C102",
   "status": "partial",
   "theorems": [
    "MinaRs.Curve.C102_field",
    "MinaRs.Curve.C102_points",
    "MinaRs.Curve.C102_vectors",
    "MinaRs.Curve.C102_too_big_fails",
    "MinaRs.Curve.C102_off_curve_fails"
   ],
   "note": "The values are right; the conversion aborts for numbers not below the order (exact condition proved) and does not check the curve equation, for every pair below the order."
  },
  {
   "property": "C103",
   "status": "partial",
   "theorems": [
    "MinaRs.Page.C103_previous_unique",
    "MinaRs.Page.C103_hash_unique",
    "MinaRs.Page.C103_answer",
    "MinaRs.Page.C103_usual",
    "MinaRs.Page.C103_answered_iff",
    "MinaRs.Page.C103_no_document",
    "MinaRs.Page.C103_refused",
    "MinaRs.Page.C103_same_text_fails",
    "MinaRs.Page.C103_requested_block_fails"
   ],
   "note": "The answer names the hash of the document and is its text when that has the usual form; other texts come back changed, and the requested hash is never compared with the block."
  },
  {
   "property": "C104",
   "status": "partial",
   "theorems": [
    "MinaRs.Page.C104_polls_partial",
    "MinaRs.Page.C104_address_is_name",
    "MinaRs.Page.C104_not_string_fails",
    "MinaRs.Page.C104_injection_fails",
    "MinaRs.Page.C104_any_request_fails",
    "MinaRs.Page.C104_typed_fails"
   ],
   "note": "Proved for all histories of calls whose items are strings; the request has the right tokens when the accounts are names, which all addresses are. Items that are no strings lock the settings for good, other account texts can ask for any fields besides (C104_any_request_fails), and texts typed into the boxes of the page set single characters."
  },
  {
   "property": "C105",
   "status": "partial",
   "theorems": [
    "MinaRs.Json.StrConv.C105_written",
    "MinaRs.Json.StrConv.C105_address_read",
    "MinaRs.Json.StrConv.C105_read_fails"
   ],
   "note": "Written texts and the reading of keys proved in full; state hashes are also read from texts that look different (C105_read_fails)."
  },
  {
   "property": "C106",
   "status": "proved",
   "theorems": [
    "MinaRs.Page.C106_genesis",
    "MinaRs.Page.C106_rest",
    "MinaRs.Page.C106_asks_enough",
    "MinaRs.Page.C106_asks_accounts",
    "MinaRs.Page.C106_answered",
    "MinaRs.Page.C106_refused"
   ],
   "note": ""
  },
  {
   "property": "C107",
   "status": "partial",
   "theorems": [
    "MinaRs.Page.C107_no_deadlock_partial",
    "MinaRs.Page.C107_no_endless",
    "MinaRs.Page.C107_poll_sees",
    "MinaRs.Page.C107_last_set",
    "MinaRs.Page.C107_settings_hold",
    "MinaRs.Page.C107_poll_asks",
    "MinaRs.Page.C107_shown",
    "MinaRs.Page.C107_all_return_partial",
    "MinaRs.Page.C107_not_started_fails",
    "MinaRs.Page.C107_panic_fails",
    "MinaRs.Page.C107_abort_fails",
    "MinaRs.Page.C107_empty_path_fails",
    "MinaRs.Page.C107_bad_document",
    "MinaRs.Page.C107_shown_blocks"
   ],
   "note": "Order, settings, requests, shown frontiers and termination proved for all runs; every call returns when the processor runs, the settings are strings and taking over a document does not panic. Without these, calls wait for ever (negations proved)."
  },
  {
   "property": "C108",
   "status": "partial",
   "theorems": [
    "MinaRs.Wallet.C108_body",
    "MinaRs.Wallet.C108_answer_partial",
    "MinaRs.Wallet.C108_rejected",
    "MinaRs.Wallet.C108_local",
    "MinaRs.Wallet.C108_unreachable_fails",
    "MinaRs.Wallet.C108_determined"
   ],
   "note": "Requests, bodies, answers (as texts of the same JSON document) and rejections proved for all calls and all answers; texts with quotes or backslashes change the query (C82), and an unreachable node aborts the program instead of giving an error."
  },
  {
   "property": "C109",
   "status": "partial",
   "theorems": [
    "MinaRs.BinProt.C109_same_as_native_partial",
    "MinaRs.BinProt.C109_without_strings",
    "MinaRs.BinProt.C109_cut_length_fails",
    "MinaRs.Account.C109_blocks_and_accounts"
   ],
   "note": "Fails for strings whose announced length is 2^31 or more (`C109_cut_length_fails`): the browser's build cuts the length to 32 bits, or aborts. Proved: all types for bytes without such numbers, and types without strings, blocks and accounts among them."
  },
  {
   "property": "C110",
   "status": "partial",
   "theorems": [
    "MinaRs.BinProt.C110_value_no_larger_than_bytes_partial",
    "MinaRs.BinProt.C110_free_items_fails",
    "MinaRs.BinProt.C110_reads_bounded_by_input",
    "MinaRs.BinProt.C110_small_buffers_partial",
    "MinaRs.BinProt.C110_claims_ahead_fails",
    "MinaRs.Account.C110_blocks_and_accounts"
   ],
   "note": "Fails for lists of items that take no bytes and for the buffers of strings (`C110_free_items_fails`, `C110_claims_ahead_fails`). Proved: the number of reads for every type; sizes of buffers and values for types without strings and with solid list items, blocks and accounts among them."
  },
  {
   "property": "C111",
   "status": "proved",
   "theorems": [
    "MinaRs.Json.C111_read_iff",
    "MinaRs.Json.C111_unambiguous",
    "MinaRs.Json.C111_space",
    "MinaRs.Json.C111_written",
    "MinaRs.Json.C111_roundtrip",
    "MinaRs.Json.C111_too_deep",
    "MinaRs.Json.C111_injective",
    "MinaRs.Json.C111_values",
    "MinaRs.Json.C111_blocks",
    "MinaRs.Json.C111_node_blocks",
    "MinaRs.Json.C111_not_json",
    "MinaRs.Json.C111_best_state",
    "MinaRs.Json.C111_named",
    "MinaRs.Json.C111_key_file",
    "MinaRs.Json.C111_request"
   ],
   "note": "For every document whose numbers are 64-bit integers (all that the code writes) and every text; the printing and reading of `f64` is a parameter. The transcription of `serde_json` itself is trusted."
  },
  {
   "property": "C112",
   "status": "proved",
   "theorems": [
    "MinaRs.Json.Form.C112_blocks",
    "MinaRs.Json.Form.C112_text",
    "MinaRs.Json.Form.C112_node_blocks",
    "MinaRs.Json.Form.C112_states",
    "MinaRs.Json.Form.C112_kinds",
    "MinaRs.Json.Form.C112_keys",
    "MinaRs.Json.Form.C112_read",
    "MinaRs.Json.Form.C112_node_read",
    "MinaRs.Json.Form.C112_missing"
   ],
   "note": "Writing: for every block and state, exactly the form. Reading: required members and their shapes at every level outside tagged parts; the texts themselves are C57, C60 and C61."
  },
  {
   "property": "C113",
   "status": "partial",
   "theorems": [
    "MinaRs.Proto.C113_status",
    "MinaRs.Proto.C113_response",
    "MinaRs.Proto.C113_address_partial",
    "MinaRs.Proto.C113_unpaired_fails",
    "MinaRs.Proto.C113_no_address",
    "MinaRs.Proto.C113_page"
   ],
   "note": "Fails for addresses with an unpaired surrogate (`C113_unpaired_fails`), which a JavaScript string may have: another text arrives. Proved for all texts, statuses and responses, in both directions."
  },
  {
   "property": "C114",
   "status": "partial",
   "theorems": [
    "MinaRs.Proto.C114_any_order_partial",
    "MinaRs.Proto.C114_determined",
    "MinaRs.Proto.C114_program",
    "MinaRs.Proto.C114_program_message",
    "MinaRs.Proto.C114_endless_fails",
    "MinaRs.Proto.C114_long_bool_fails",
    "MinaRs.Proto.C114_cut_by_bool_fails",
    "MinaRs.Proto.C114_number_zero_fails",
    "MinaRs.Proto.C114_group_fails",
    "MinaRs.Proto.C114_other_type_fails",
    "MinaRs.Proto.C114_cut_short"
   ],
   "note": "Fails: six bytes make the reader run for ever (`C114_endless_fails`), a `bool` of two bytes ends the message (`C114_long_bool_fails`, `C114_cut_by_bool_fails`), a field of number 0 silently ends every message (`C114_number_zero_fails`), the page throws at every group (`C114_group_fails`), which the program skips; a known field of another type is not skipped (`C114_other_type_fails`). Proved for all messages with declared types and short `bool`s, and for all messages cut within a field."
  },
  {
   "property": "C115",
   "status": "partial",
   "theorems": [
    "MinaRs.Proto.C115_last_partial",
    "MinaRs.Proto.C115_label_fails",
    "MinaRs.Proto.C115_count_fails"
   ],
   "note": "Fails: the page uses names that the message does not have, so all peers share one row labelled `undefined` (`C115_label_fails`, `C115_count_fails`, for all histories). Proved: what that row shows."
  },
  {
   "property": "C116",
   "status": "partial",
   "theorems": [
    "MinaRs.Consensus.C116_two_nodes_partial",
    "MinaRs.Consensus.C116_long_range_order_partial",
    "MinaRs.Consensus.C116_gossip_short_range_partial",
    "MinaRs.Consensus.C116_gossip_long_range_partial",
    "MinaRs.Consensus.C116_order_fails",
    "MinaRs.Consensus.C116_circle_fails",
    "MinaRs.Consensus.C116_slots_circle_fails",
    "MinaRs.Consensus.C116_bad_window_fails"
   ],
   "note": "Fails for candidates in another order and in a circle of three chains (`C116_order_fails`, `C116_circle_fails`, `C116_slots_circle_fails`), and for two nodes when a window is malformed. Proved: two nodes with regular tips agree; when all forks are short-range, or all are long-range and in one slot, the order does not matter and any history of offers among any number of nodes spreads the best tip."
  },
  {
   "property": "C117",
   "status": "partial",
   "theorems": [
    "MinaRs.Layouts.C117_new_token_fails",
    "MinaRs.Layouts.C117_failed_command_fails",
    "MinaRs.Layouts.C117_state_typed",
    "MinaRs.Layouts.C117_state_layout_partial",
    "MinaRs.Layouts.C117_work_typed",
    "MinaRs.Layouts.C117_work_layout_partial",
    "MinaRs.Layouts.C117_block_typed_partial",
    "MinaRs.Layouts.C117_block_layout_partial",
    "MinaRs.Layouts.C117_state_overflow_fails",
    "MinaRs.Layouts.C117_coinbase_fails"
   ],
   "note": "States and snark work: proved in both directions, but for numbers that do not fit (shown to fail). Blocks: proved where no failed command, no coinbase `Two` and no command unknown to the types occurs; these fail."
  },
  {
   "property": "C118",
   "status": "partial",
   "theorems": [
    "MinaRs.Json.C118_reading_ends_partial",
    "MinaRs.Json.C118_listed_parts_fails",
    "MinaRs.Json.C118_read_documents",
    "MinaRs.Json.C118_no_undefined_behaviour",
    "MinaRs.Json.C118_block_text_partial"
   ],
   "note": "True but for the listed parts, which end the process (C118_listed_parts_fails), and keys or signatures outside their field (C92_reading_aborts_fails)."
  },
  {
   "property": "C119",
   "status": "partial",
   "theorems": [
    "MinaRs.GraphQL.C119_parts",
    "MinaRs.GraphQL.C119_import_partial",
    "MinaRs.GraphQL.C119_import_fails"
   ],
   "note": "True but for best chain documents with an entry beyond the field, without a path or with too long a path: exactly those whose reading gets to such an entry end the process (C119_import_fails)."
  },
  {
   "property": "C120",
   "status": "partial",
   "theorems": [
    "MinaRs.Crawler.C120_any_limit",
    "MinaRs.Crawler.C120_request",
    "MinaRs.Crawler.C120_limit_fails",
    "MinaRs.Crawler.C120_answer",
    "MinaRs.Crawler.C120_answer_unique",
    "MinaRs.Crawler.C120_places",
    "MinaRs.Crawler.C120_looked_at",
    "MinaRs.Crawler.C120_inside",
    "MinaRs.Crawler.C120_separator_fails"
   ],
   "note": "Requests for numbers, the reading of answers (exactly), the places of files (exactly) and that nothing outside the folders is written; limits that are no numbers are not refused (C120_limit_fails) and a hash with a separator ends the process (C120_separator_fails)."
  },
  {
   "property": "C121",
   "status": "partial",
   "theorems": [
    "MinaRs.BinProt.C121_writes_iff",
    "MinaRs.BinProt.C121_map_fails",
    "MinaRs.BinProt.C121_half_written_fails",
    "MinaRs.BinProt.C121_described",
    "MinaRs.BinProt.C121_described_free",
    "MinaRs.BinProt.C121_requests_fails",
    "MinaRs.BinProt.C121_refused",
    "MinaRs.BinProt.C121_bytes_fails",
    "MinaRs.BinProt.C121_map_read",
    "MinaRs.BinProt.C121_keys_fails",
    "MinaRs.BinProt.C121_map_length_fails"
   ],
   "note": "Exactly which values are written and what stops the others; the described types in full; disagreements for maps, half-written values, borrowed texts and bytes, each for all values or inputs."
  },
  {
   "property": "C122",
   "status": "proved",
   "theorems": [
    "MinaRs.Hash.C122_lines",
    "MinaRs.Hash.C122_display"
   ],
   "note": "Every input."
  },
  {
   "property": "C123",
   "status": "partial",
   "theorems": [
    "MinaRs.Frontier.C123_accepted_partial",
    "MinaRs.Frontier.C123_honest",
    "MinaRs.Frontier.C123_replay_partial",
    "MinaRs.Frontier.C123_payer_fails",
    "MinaRs.Frontier.C123_again_fails",
    "MinaRs.Frontier.C123_proofs_fails"
   ],
   "note": "What accepted signatures satisfy, honest commands pass and signatures do not carry over to other payloads or networks; the payer, repetition and the proofs of the block are not checked, for all schemes, keys and blocks."
  },
  {
   "property": "C124",
   "status": "partial",
   "theorems": [
    "MinaRs.Page.Pay.C124_payments",
    "MinaRs.Page.Pay.C124_unlock_partial",
    "MinaRs.Page.Pay.C124_named",
    "MinaRs.Page.Pay.C124_other_account_fails",
    "MinaRs.Page.Pay.C124_mistyped_fails",
    "MinaRs.Page.Pay.C124_order_fails",
    "MinaRs.Page.Pay.C124_answers_partial"
   ],
   "note": "Payments in full, for every session; passwords go to other accounts and cannot be corrected, and overlapping answers are shown in the order they arrive."
  },
  {
   "property": "C125",
   "status": "partial",
   "theorems": [
    "MinaRs.Derive.C125_derived_partial",
    "MinaRs.Derive.C125_back_partial",
    "MinaRs.Derive.C125_which_partial",
    "MinaRs.Derive.C125_versions",
    "MinaRs.Derive.C125_empty_fails",
    "MinaRs.Derive.C125_brackets_fails",
    "MinaRs.Derive.C125_path_fails"
   ],
   "note": "Every definition with fields or variants and ordinary paths, every target, value and conversion of the parts; types without fields get no conversion, silently or with the end of the compilation, and two other forms get code that does not compile."
  },
  {
   "property": "C126",
   "status": "partial",
   "theorems": [
    "MinaRs.Frontier.Berkeley.C126_stops_iff",
    "MinaRs.Frontier.Berkeley.C126_stopped_fails",
    "MinaRs.Frontier.Berkeley.C126_only_these_stop",
    "MinaRs.Frontier.Berkeley.C126_keeps_going_partial",
    "MinaRs.Frontier.Berkeley.C126_told",
    "MinaRs.Frontier.Berkeley.C126_answers",
    "MinaRs.Frontier.Berkeley.C126_tip",
    "MinaRs.Frontier.Berkeley.C126_empty_path_fails",
    "MinaRs.Frontier.Berkeley.C126_no_field_fails",
    "MinaRs.Frontier.Berkeley.C126_last_epoch_fails"
   ],
   "note": "Exactly which documents stop a node after any history and under every schedule, for ever; what pages are told and that answering never panics, in full. The documents that stop it are the missing part."
  },
  {
   "property": "C127",
   "status": "partial",
   "theorems": [
    "MinaRs.Frontier.C127_asked",
    "MinaRs.Frontier.C127_queried",
    "MinaRs.Frontier.C127_answered",
    "MinaRs.Frontier.C127_stuck_iff",
    "MinaRs.Frontier.C127_no_deadlock_partial",
    "MinaRs.Frontier.C127_never_asks_fails",
    "MinaRs.Frontier.C127_deadlock_fails",
    "MinaRs.Frontier.C127_wrong_block_fails"
   ],
   "note": "Order, single service and delivery in full, for every frontier, backend and schedule; freedom from deadlock for frontiers that send no requests, with an exact description of the deadlocks. Every frontier that asks for one block per block can be blocked for ever, the two frontiers of the repository never ask, and the Berkeley backend ignores what was asked for."
  },
  {
   "property": "C128",
   "status": "partial",
   "theorems": [
    "MinaRs.Frontier.Mainnet.C128_text_bad_signer_fails",
    "MinaRs.Frontier.Mainnet.C128_text_repeat_fails",
    "MinaRs.Frontier.Mainnet.C128_poll_partial",
    "MinaRs.Frontier.Mainnet.C128_poll_ends_partial",
    "MinaRs.Frontier.Mainnet.C128_stops_iff",
    "MinaRs.Frontier.Mainnet.C128_stopped_fails",
    "MinaRs.Frontier.Mainnet.C128_only_these_stop",
    "MinaRs.Frontier.Mainnet.C128_tip",
    "MinaRs.Frontier.Mainnet.C128_chain_valid",
    "MinaRs.Frontier.Mainnet.C128_keeps_going_partial",
    "MinaRs.Frontier.Mainnet.C128_repeat_fails",
    "MinaRs.Frontier.Mainnet.C128_bad_signer_fails",
    "MinaRs.Frontier.Mainnet.C128_told",
    "MinaRs.Frontier.Mainnet.C128_asking_fails",
    "MinaRs.Frontier.Mainnet.C128_state_parts",
    "MinaRs.Frontier.Mainnet.C128_command_parts"
   ],
   "note": "Exactly which blocks stop a node with any frontier and under every schedule, for ever; that the best chain holds only blocks sent with valid commands, and which block is the tip, in full. The blocks that stop it are the missing part."
  }
 ]
}