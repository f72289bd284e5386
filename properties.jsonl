{"id": "C01", "title": "bin_prot integer round trip", "statement": "Writing any signed 64-bit integer with bin_write_integer and reading it back with bin_read_integer into any integer type able to hold the value returns the same value, consumes exactly the bytes that were written, and leaves every byte that follows in the stream untouched. The byte count the writer reports equals the number of bytes it produced.", "quantifier": "every i64 value, every destination integer type of the Rust primitives, every suffix of bytes following the encoding", "why_tests_cant": "2^64 values times unbounded suffixes; unit tests sample boundary values only", "anchors": ["protocol/bin-prot/src/write_ext.rs: bin_write_integer", "protocol/bin-prot/src/read_ext.rs: bin_read_integer", "protocol/bin-prot/src/consts.rs"]}
{"id": "C02", "title": "Integer reads never truncate silently", "statement": "Reading a variable-length integer into a destination type either returns exactly the mathematical value carried by the wire bytes, or fails: with an end-of-input error when bytes are missing, with InvalidIntegerByte when the lead byte is not a legal one, and with DestinationIntegerOverflow exactly when the carried value does not fit the destination type.", "quantifier": "every byte string and every destination integer type", "why_tests_cant": "the input space is all byte strings; silent wrap-around shows only on specific width/sign combinations", "anchors": ["protocol/bin-prot/src/read_ext.rs: bin_read_integer, bin_read_nat0", "protocol/bin-prot/src/error.rs: Error"]}
{"id": "C03", "title": "Nat0 round trip", "statement": "Writing any unsigned 64-bit length with bin_write_nat0 and reading it back with bin_read_nat0 returns the same value, consumes exactly the written bytes, and the reported count is the number of bytes written.", "quantifier": "every u64 value and every suffix", "why_tests_cant": "2^64 values", "anchors": ["protocol/bin-prot/src/write_ext.rs: bin_write_nat0", "protocol/bin-prot/src/read_ext.rs: bin_read_nat0"]}
{"id": "C04", "title": "Integer and Nat0 encodings are canonical and shortest", "statement": "The bytes produced by the integer writer are at most 9 long and no shorter byte string is accepted by the matching reader as the same value; and the reader accepts a single lead byte as a value only if the writer can emit it.", "quantifier": "every i64 / u64 value and every byte string the reader accepts", "why_tests_cant": "minimality quantifies over all alternative encodings of every value", "anchors": ["protocol/bin-prot/src/write_ext.rs: bin_write_integer, bin_write_nat0", "protocol/bin-prot/src/read_ext.rs: bin_read_integer (byte0 > 0x80 check)"]}
{"id": "C05", "title": "Primitive values round trip", "statement": "Unit, bool, char, string, byte-string, 32- and 64-bit float and variant-index values written with the bin_prot writers are read back unchanged by the matching readers, consuming exactly the written bytes.", "quantifier": "every value of each primitive type (every char, every UTF-8 string, every float bit pattern) and every suffix", "why_tests_cant": "infinitely many strings; every char code point including those above one byte", "anchors": ["protocol/bin-prot/src/write_ext.rs: bin_write_unit, bin_write_bool, bin_write_char, bin_write_float32, bin_write_float64, bin_write_variant_index", "protocol/bin-prot/src/read_ext.rs: bin_read_unit, bin_read_bool, bin_read_char, bin_read_string, bin_read_bytes", "protocol/bin-prot/src/ser.rs: serialize_str"]}
{"id": "C06", "title": "Polymorphic-variant tags agree with OCaml and round trip", "statement": "For every label the four tag bytes written are those OCaml's bin_prot writes for that label's variant hash, and a tag written by bin_write_polyvar_tag is read back unchanged by bin_read_polyvar_tag, so that an enum written with its polymorphic-variant tag can be read back.", "quantifier": "every label string and every 32-bit tag", "why_tests_cant": "hash collisions and the lost top bit depend on the label; labels are unbounded", "anchors": ["protocol/bin-prot/src/polyvar/caml_hash_variant.rs: caml_hash_variant", "protocol/bin-prot/src/write_ext.rs: bin_write_polyvar_tag", "protocol/bin-prot/src/read_ext.rs: bin_read_polyvar_tag", "protocol/bin-prot/src/de.rs: PolyvarEnum::variant_seed"]}
{"id": "C07", "title": "Typed values round trip through to_writer / from_reader", "statement": "For every data type built from bool, integers, floats, chars, strings, options, units, newtypes, sequences, tuples, structs, enums and polymorphic variants, serializing a value with to_writer and deserializing the bytes with from_reader at the same type returns an equal value and consumes exactly the bytes of the encoding.", "quantifier": "every data type of any nesting depth and every value of it, every suffix of bytes", "why_tests_cant": "types nest without bound and values are infinite; a test fixes one type and a few values", "anchors": ["protocol/bin-prot/src/ser.rs: Serializer, to_writer", "protocol/bin-prot/src/de.rs: Deserializer<StronglyTyped>, from_reader", "protocol/bin-prot/tests/compound_types.rs"]}
{"id": "C08", "title": "Encodings are self-delimiting", "statement": "For every data type, no encoding of a value is a proper prefix of the encoding of another value of that type, and two different values never have the same encoding; so any two messages written back to back are read back as the same two messages.", "quantifier": "every data type and every pair of values of it", "why_tests_cant": "a statement about all pairs of values of all types", "anchors": ["protocol/bin-prot/src/ser.rs: Serializer", "protocol/bin-prot/src/de.rs: SeqAccess, Deserializer"]}
{"id": "C09", "title": "Decoder consumes a prefix and never invents bytes", "statement": "Decoding any byte string at any data type ends with a value or an error value; when it succeeds the bytes consumed are a prefix of the input, and the outcome does not depend on bytes after that prefix: any other continuation yields the same value.", "quantifier": "every data type, every input byte string, every continuation", "why_tests_cant": "all inputs including adversarial ones", "anchors": ["protocol/bin-prot/src/de.rs: Deserializer<StronglyTyped>", "protocol/bin-prot/src/read_ext.rs"]}
{"id": "C10", "title": "Strict decoding rejects trailing bytes", "statement": "from_reader_strict succeeds only when the whole input stream was consumed by the value; if at least one byte is left over it returns StreamNotFullyConsumed, for every way the underlying reader splits the stream into chunks.", "quantifier": "every type, every input byte string, every sequence of read sizes returned by the underlying reader", "why_tests_cant": "depends on how input length and reader chunk sizes line up with the internal buffer", "anchors": ["protocol/bin-prot/src/de.rs: from_reader_strict", "protocol/serialization-types/src/type_annotations.rs: try_from_binprot"]}
{"id": "C11", "title": "Decoding does not depend on how the stream is chunked", "statement": "The value, error and number of bytes consumed by a decode are the same however the underlying reader splits the byte stream into short reads, including single-byte reads and interrupted reads.", "quantifier": "every input byte string, every schedule of read sizes and interruptions", "why_tests_cant": "the number of schedules is unbounded", "anchors": ["protocol/bin-prot/src/de.rs: Deserializer (BufReader)", "protocol/bin-prot/src/read_ext.rs: read_exact users"]}
{"id": "C12", "title": "Encoding does not depend on how the sink accepts bytes", "statement": "When serialization reports success, the sink received every byte of the encoding in order, however few bytes it accepts per call.", "quantifier": "every value and every schedule of accepted byte counts of the underlying writer", "why_tests_cant": "needs every schedule of short writes; in-memory Vec sinks never write short", "anchors": ["protocol/bin-prot/src/write_ext.rs: bin_write_float32, bin_write_float64, bin_write_polyvar_tag", "protocol/bin-prot/src/ser.rs: Serializer::write"]}
{"id": "C13", "title": "Version wrappers", "statement": "A value wrapped in any number of version layers serializes as the version numbers followed by the payload and reads back as the same versions and payload; a wrapper type for version V only accepts input whose version number is V.", "quantifier": "every payload, every nesting depth, every version number on the wire", "why_tests_cant": "wrong version numbers on the wire are adversarial inputs", "anchors": ["protocol/versioned/src/lib.rs: Versioned", "protocol/serialization-types/src/common.rs: version type aliases"]}
{"id": "C14", "title": "Re-encoding accepted bytes", "statement": "If decoding accepts a byte string at some type, re-encoding the decoded value and decoding again gives the same value; and the byte string accepted is the only one that decodes to that value (no malleability).", "quantifier": "every type and every accepted byte string", "why_tests_cant": "malleability is a statement about all byte strings", "anchors": ["protocol/bin-prot/src/read_ext.rs: bin_read_integer, bin_read_nat0", "protocol/bin-prot/src/ser.rs", "protocol/bin-prot/src/de.rs"]}
{"id": "C15", "title": "Layout-driven decoding follows the layout's grammar", "statement": "Decoding a byte string with a layout visits exactly the grammar described by the layout: the stack-based layout iterator hands out the same rules a recursive descent over the layout would, so the decoded value, the error and the bytes consumed are those of the recursive grammar, and nothing of the layout is left over after a successful decode.", "quantifier": "every layout of any depth built from the supported rules, every input byte string", "why_tests_cant": "layouts are recursive and the iterator stack mutates during decoding (push, push_n)", "anchors": ["protocol/bin-prot/src/loose_deserializer.rs: deserialize_loose", "protocol/bin-prot/src/value/layout/traverse.rs: BinProtRuleIterator", "protocol/bin-prot/src/value/visitor.rs: ValueVisitor"]}
{"id": "C16", "title": "Layout-driven decode then encode reproduces the bytes", "statement": "If a byte string decodes to a Value under a layout, serializing that Value produces byte for byte the part of the input that was consumed.", "quantifier": "every layout and every accepted input", "why_tests_cant": "test fixtures cover a few blocks only; integers, tags and variant indices can re-encode differently", "anchors": ["protocol/bin-prot/src/value/ser.rs: Serialize for Value", "protocol/bin-prot/src/loose_deserializer.rs", "protocol/test-fixtures", "protocol/bin_prot_checker"]}
{"id": "C17", "title": "Layout-driven decoding agrees with typed decoding", "statement": "For every data type and its layout, decoding the typed encoding with the layout succeeds, consumes the same bytes as the typed decoder, and the resulting Value serializes back to the typed encoding.", "quantifier": "every data type together with its derived layout, every value", "why_tests_cant": "types and values are unbounded", "anchors": ["protocol/bin-prot/src/loose_deserializer.rs", "protocol/bin-prot/src/ser.rs", "protocol/bin-prot/src/value/ser.rs"]}
{"id": "C18", "title": "Untrusted bytes cannot crash layout-driven decoding", "statement": "With a layout made of supported rules, every input byte string makes layout-driven decoding return a value or an error value; no input makes it panic.", "quantifier": "every supported layout, every input byte string", "why_tests_cant": "needs every input byte at every position", "anchors": ["protocol/bin-prot/src/loose_deserializer.rs: summands[index as usize]", "protocol/bin-prot/src/value/layout/traverse.rs"]}
{"id": "C19", "title": "Value indexing addresses the named part", "statement": "Indexing a decoded Value by field name or position returns the field of that name or the element at that position, looking through sum constructors, and returns nothing when there is none.", "quantifier": "every Value and every path of keys", "why_tests_cant": "Values are unbounded trees", "anchors": ["protocol/bin-prot/src/value/index.rs: index_into", "protocol/bin-prot/src/value/mod.rs: Value"]}
{"id": "C20", "title": "Merkle root depends only on the items", "statement": "After any history of add, add_batch, root and proof requests, the root reported by the tree equals the root of a tree freshly built from the same items in the same order; caching never changes an answer.", "quantifier": "every item list, every hasher and merger, every interleaving of insertions and queries", "why_tests_cant": "cache staleness depends on the history of operations", "anchors": ["merkle/src/tree_impl.rs: add_batch, root, calculate_hash_if_needed, clear_dirty_hashes", "merkle/src/tree.rs: MerkleTree"]}
{"id": "C21", "title": "Batch insertion equals one-by-one insertion", "statement": "Adding a batch of items gives the same count, height and root as adding the items one at a time in the same order, however the items are split into batches.", "quantifier": "every sequence of batches", "why_tests_cant": "all partitions of all item lists", "anchors": ["merkle/src/tree_impl.rs: add_batch", "merkle/src/tree.rs: MerkleTree::add"]}
{"id": "C22", "title": "Variable-height root is the complete binary tree root", "statement": "The root of a variable-height tree over n items is the root of the complete binary tree of the least height holding n leaves, whose i-th leaf is the hash of the i-th item and whose missing leaves are empty, each inner node merging its two children in order.", "quantifier": "every item list", "why_tests_cant": "unbounded lists and heights", "anchors": ["merkle/src/tree_impl.rs: VariableHeightMode root, calculate_height, calculate_hash_if_needed"]}
{"id": "C23", "title": "Fixed-height root is the padded tree root", "statement": "The root of a fixed-height tree of height H equals the root of the full binary tree with 2^H leaf positions in which unused positions hold the empty hash, for every number of items that fits; more items than fit are refused.", "quantifier": "every H and every item list of length at most 2^H", "why_tests_cant": "unbounded lists; tests check a few sizes against recorded hashes", "anchors": ["merkle/src/tree_impl.rs: FixedHeightMode root", "merkle/src/merger_poseidon.rs: merge_poseidon_hash_kimchi, get_empty_hash_kimchi", "ledger/src/genesis_ledger.rs"]}
{"id": "C24", "title": "Every item has a valid inclusion proof", "statement": "For every item position below the count, the tree returns a proof whose item is the item at that position and which verifies against the tree's current root, in both variable- and fixed-height modes.", "quantifier": "every history, every position, both height modes", "why_tests_cant": "positions and histories are unbounded; off-by-one in sibling indices shows at special positions", "anchors": ["merkle/src/tree_impl.rs: get_proof", "merkle/src/proof.rs: DefaultMerkleProof::root_hash, verify"]}
{"id": "C25", "title": "Inclusion proofs are sound", "statement": "If hashing is collision free, a proof for a position that verifies against the root of a tree of the same height carries exactly the item stored at that position; no other item can be proved there.", "quantifier": "every tree, every proof, every claimed item", "why_tests_cant": "a statement about all forged proofs", "anchors": ["merkle/src/proof.rs: root_hash, verify, get_ordered_siblings"]}
{"id": "C26", "title": "The root commits to the items", "statement": "If hashing is collision free, two trees of the same height mode and item count with the same root contain the same items in the same order.", "quantifier": "every pair of item lists", "why_tests_cant": "all pairs of lists", "anchors": ["merkle/src/tree_impl.rs", "merkle/src/hasher.rs", "merkle/src/merger.rs"]}
{"id": "C27", "title": "Malformed proofs are rejected", "statement": "Verifying a proof in which some listed peer is not next to the node being proved, or whose node index is zero, fails: it returns an error and verify answers false for every root.", "quantifier": "every proof object and every root", "why_tests_cant": "all malformed proofs", "anchors": ["merkle/src/proof.rs: root_hash, get_ordered_siblings"]}
{"id": "C28", "title": "Merkle paths convert to equivalent proofs", "statement": "Converting a GraphQL merkle path into a proof yields a proof whose root is obtained by folding the path from the leaf upwards, merging the running hash on the side the path says, at heights 1, 2, ... in order; paths with a node carrying no hash or two hashes are refused.", "quantifier": "every path of every length", "why_tests_cant": "unbounded path lengths and all left/right patterns", "anchors": ["merkle/src/path.rs: MerklePath::to_proof, has_left_child", "merkle/src/proof.rs: root_hash"]}
{"id": "C29", "title": "Node depth and height metadata", "statement": "The metadata passed to hashers and mergers is the node's distance from the root and its distance to the leaves, for every node of every tree.", "quantifier": "every node index and tree height", "why_tests_cant": "the code computes logarithms; exactness at powers of two for every index", "anchors": ["merkle/src/metadata.rs: MerkleTreeNodeMetadata::new, depth, height", "merkle/src/tree_impl.rs: calculate_height"]}
{"id": "C30", "title": "Chains have consecutive heights", "statement": "A chain built only by successful pushes has block heights that increase by exactly one; a push of any other height is refused and leaves the chain unchanged.", "quantifier": "every sequence of pushes", "why_tests_cant": "all push histories", "anchors": ["consensus/src/common.rs: ProtocolStateChain::push"]}
{"id": "C31", "title": "Chain selection returns one of the chains offered", "statement": "After select_secure_chain the selected chain is either the previous chain or one of the candidates, unmodified; this holds also when it returns an error.", "quantifier": "every chain and every candidate list", "why_tests_cant": "all candidate lists", "anchors": ["consensus/src/common.rs: select_secure_chain"]}
{"id": "C32", "title": "Short-range forks never lose length and ties are resolved deterministically", "statement": "When every candidate is a short-range fork of the chain selected so far, the selected chain is the maximum of all offered chains by (blockchain length, VRF digest, state hash); it is never shorter than any of them and does not depend on the order of the candidates beyond chains that agree on all three.", "quantifier": "every chain, every list of short-range candidates and every permutation of it", "why_tests_cant": "order independence quantifies over all permutations", "anchors": ["consensus/src/common.rs: select_longer_chain, select_secure_chain"]}
{"id": "C33", "title": "Fork classification is symmetric", "statement": "Whether two chains form a short-range fork does not depend on which of the two is the current one and which the candidate.", "quantifier": "every pair of chains", "why_tests_cant": "all pairs of consensus states including epoch boundaries", "anchors": ["consensus/src/common.rs: is_short_range"]}
{"id": "C34", "title": "Fork classification decision rule", "statement": "Two chains are a short-range fork exactly when they are in the same epoch with equal staking lock checkpoints, or one is exactly one epoch ahead and the staking lock checkpoint of the leading one equals the next-epoch lock checkpoint of the trailing one while the trailing one is in the last third of its epoch.", "quantifier": "every pair of non-empty chains", "why_tests_cant": "all combinations of epochs, slots and checkpoints", "anchors": ["consensus/src/common.rs: is_short_range, epoch_slot"]}
{"id": "C35", "title": "Long-range forks are decided by density", "statement": "For a long-range fork with a well-formed candidate, the candidate is selected exactly when its relative minimum window density is greater, or equal and it wins the length / VRF / state-hash comparison; a candidate with a sub-window density above the allowed maximum or with a wrong number of sub-windows is never selected.", "quantifier": "every pair of chains", "why_tests_cant": "all consensus states", "anchors": ["consensus/src/common.rs: select_secure_chain, relative_min_window_density"]}
{"id": "C36", "title": "Relative minimum window density bounds", "statement": "The relative minimum window density never exceeds the chain's own minimum window density, equals it inside the grace period, never increases when the other chain is further ahead, and is defined for every chain whose window has the configured number of sub-windows.", "quantifier": "every pair of chains", "why_tests_cant": "arithmetic over all 32-bit slots and all density vectors", "anchors": ["consensus/src/common.rs: relative_min_window_density"]}
{"id": "C37", "title": "Relative minimum window density follows the cited specification", "statement": "The value computed equals the one defined in the specification the code cites: shift count clamp(max_slot - slot - 1, 0, sub_windows_per_window), starting at sub-window floor(slot / slots_per_sub_window) mod sub_windows_per_window.", "quantifier": "every pair of chains", "why_tests_cant": "equality with a specification over all inputs", "anchors": ["consensus/src/common.rs: relative_min_window_density"]}
{"id": "C38", "title": "Chain selection never panics on well-formed chains", "statement": "For non-empty chains with a positive number of slots per epoch and counters below their type's maximum, chain selection finishes without a panic; and it returns an error only when a chain is empty or the current chain's window is too short.", "quantifier": "every chain and every candidate list", "why_tests_cant": "arithmetic overflow and division by zero occur only at extreme values", "anchors": ["consensus/src/common.rs: epoch_slot, is_short_range, relative_min_window_density, select_secure_chain"]}
{"id": "C39", "title": "Unverified blocks never enter the mainnet best chain", "statement": "Whatever sequence of blocks is offered to the mainnet frontier, every block in its best chain passed signature verification, and offering a block that fails verification returns an error and leaves the frontier unchanged.", "quantifier": "every sequence of offered blocks", "why_tests_cant": "all histories", "anchors": ["network/src/processor/naive_transition_frontier.rs: NaiveTransitionFrontier<MainnetConfig>::add_block", "base/src/external_transition.rs", "base/src/staged_ledger_diff.rs: verify"]}
{"id": "C40", "title": "Block verification covers every command", "statement": "A block verifies exactly when every user command in its first diff and, if present, in its second diff verifies.", "quantifier": "every staged ledger diff", "why_tests_cant": "unbounded command lists and both optional parts", "anchors": ["base/src/staged_ledger_diff.rs: StagedLedgerDiff::verify, StagedLedgerPreDiff::verify", "base/src/verifiable.rs"]}
{"id": "C41", "title": "The Berkeley frontier's ledger belongs to its tip", "statement": "After any sequence of offered blocks, the ledger held by the Berkeley frontier is the one delivered with the block that is currently the tip of the best chain.", "quantifier": "every sequence of offered blocks", "why_tests_cant": "all histories, including rejected blocks and hash ties", "anchors": ["network/src/processor/naive_transition_frontier.rs: NaiveTransitionFrontier<BerkeleyConfig>::add_block"]}
{"id": "C42", "title": "A failed block leaves the frontier unchanged", "statement": "If adding a block returns an error, the best chain and ledger are exactly what they were before.", "quantifier": "every frontier state and every block", "why_tests_cant": "all states and blocks", "anchors": ["network/src/processor/naive_transition_frontier.rs: add_block", "consensus/src/common.rs: select_secure_chain"]}
{"id": "C43", "title": "Every delivered block is processed exactly once and in order", "statement": "Whatever the interleaving of the network source, the bounded channel and the frontier loop, the frontier processes the blocks sent by the source in the order sent, each exactly once, a failing block does not stop later ones, and no block is lost while both run.", "quantifier": "every schedule of producer and consumer steps, every block sequence, every pattern of failures", "why_tests_cant": "concurrency schedules", "anchors": ["network/src/processor/processor_impl.rs: NonConsensusNetworkingOps run loops", "network/src/processor/js"]}
{"id": "C44", "title": "Best chain length never shrinks on short-range forks", "statement": "While every offered block is a short-range fork of the current tip, the length of the frontier's best chain never decreases, and it becomes at least the length of every block accepted by verification.", "quantifier": "every sequence of offered blocks", "why_tests_cant": "all histories", "anchors": ["network/src/processor/naive_transition_frontier.rs: add_block", "consensus/src/common.rs: select_longer_chain"]}
{"id": "C45", "title": "Genesis ledger iteration yields exactly the stored accounts", "statement": "Iterating the accounts of a RocksDB genesis ledger yields one item per database entry whose key starts with the account prefix, in key order, and nothing else.", "quantifier": "every database content and every position of a read error", "why_tests_cant": "all database contents", "anchors": ["ledger/src/rocksdb_genesis_ledger.rs: accounts"]}
{"id": "C46", "title": "Genesis ledger tree contains every account at its position", "statement": "The merkle tree built from a genesis ledger has the i-th stored account at position i; an account that cannot be decoded is reported rather than skipped.", "quantifier": "every account sequence including undecodable entries", "why_tests_cant": "depends on which entries fail to decode", "anchors": ["ledger/src/genesis_ledger.rs: to_mina_merkle_ledger"]}
{"id": "C47", "title": "Amount text round trip", "statement": "Formatting any amount and parsing the text returns the same amount; the text is the exact decimal value with nine fractional digits.", "quantifier": "every u64 amount", "why_tests_cant": "2^64 amounts", "anchors": ["base/src/numbers.rs: Display for Amount, FromStr for Amount"]}
{"id": "C48", "title": "Amount parsing is exact", "statement": "Parsing a decimal text either returns the amount equal to that decimal number of Mina or an error; in particular text with more than nine fractional digits, too large values, several dots or other characters is an error.", "quantifier": "every string", "why_tests_cant": "all strings", "anchors": ["base/src/numbers.rs: FromStr for Amount"]}
{"id": "C49", "title": "Decimal JSON amounts round trip", "statement": "Every amount written in the decimal JSON form (trailing zeros trimmed) parses back to the same amount.", "quantifier": "every u64", "why_tests_cant": "2^64 values; trimming bugs hit only values with special zero patterns", "anchors": ["protocol/serialization-types/src/common.rs: DecimalJson"]}
{"id": "C50", "title": "Memo text round trip", "statement": "Every text of at most 32 bytes stored in a memo is read back unchanged, every longer text is refused, and a memo made from text is always 34 bytes long.", "quantifier": "every string", "why_tests_cant": "all strings up to and beyond the limit", "anchors": ["base/src/user_commands/memo.rs: try_from_text, to_text"]}
{"id": "C51", "title": "Signed payload hash input distinguishes commands", "statement": "Two signed-command payloads with the same hash input are equal, so a signature for one command is never valid for another; payments and delegations never share a hash input.", "quantifier": "every pair of payloads", "why_tests_cant": "all pairs of payloads", "anchors": ["base/src/user_commands/signed_command/mod.rs: to_roinput", "base/src/user_commands/payment.rs"]}
{"id": "C52", "title": "Chunked random-oracle packing is injective", "statement": "Two chunked hash inputs whose pieces fit their declared widths, with the same sequence of piece widths and the same packed fields, carry the same fields and pieces; packing them never panics, follows the order of the pieces, and every packed field has at most 254 bits.", "quantifier": "every sequence of fields and bit-width/value pieces", "why_tests_cant": "all sequences of pieces; packing boundaries at 255 bits", "anchors": ["proof-systems-shim/src/roinput.rs: ChunkedROInput::into_fields, append_bits, append_u32"]}
{"id": "C53", "title": "Account hash input distinguishes permissions", "statement": "Different permission settings of an account give different hash inputs.", "quantifier": "every pair of permission records", "why_tests_cant": "all pairs", "anchors": ["base/src/account/permissions.rs: AuthRequired::to_chunked_roinput, Permissions::to_chunked_roinput"]}
{"id": "C54", "title": "Account hash input distinguishes timing", "statement": "Different vesting schedules of an account give different hash inputs.", "quantifier": "every pair of timings", "why_tests_cant": "64-bit fields, truncation shows only above 2^32", "anchors": ["base/src/account/timing.rs: to_chunked_roinput"]}
{"id": "C55", "title": "GraphQL permissions import is faithful", "statement": "Importing permissions from GraphQL JSON sets each permission from the JSON key of the same name.", "quantifier": "every JSON permission object", "why_tests_cant": "all combinations of 11 keys", "anchors": ["base/src/account/permissions.rs: from_graphql_json"]}
{"id": "C56", "title": "Extended 32-bit wire numbers", "statement": "Converting nonces and slots to the extended wire number and back is lossless for every u32, and the wire encoding of that number reads back to the same nonce or slot.", "quantifier": "every u32", "why_tests_cant": "2^32 values; sign change at 2^31", "anchors": ["base/src/serialization_type_conversions/numbers.rs", "protocol/serialization-types/src/common.rs: ExtendedU32"]}
{"id": "C57", "title": "List-tagged JSON enums round trip", "statement": "Serializing an enum value to Mina's JSON list form and deserializing it returns the same value; malformed JSON gives an error.", "quantifier": "every enum value and every JSON document", "why_tests_cant": "all payload shapes", "anchors": ["protocol/serialization-types/src/macros.rs: impl_mina_enum_json_serde_with_option"]}
{"id": "C58", "title": "Hexadecimal field elements", "statement": "Encoding 32 bytes as 0x-prefixed hex and decoding returns the same bytes, the prefix is optional on input, and any text that is not 64 hex digits is an error.", "quantifier": "every 32-byte array and every text", "why_tests_cant": "all texts", "anchors": ["protocol/serialization-types/src/field_and_curve_elements.rs: FieldElementJson", "crypto/src/hex/mod.rs"]}
{"id": "C59", "title": "Base58 texts of different kinds never collide", "statement": "Encoding a value as base58check text and decoding it as the same kind returns the value; decoding a text of one kind as another kind fails.", "quantifier": "every value of each kind, every pair of kinds", "why_tests_cant": "all values of all kinds", "anchors": ["protocol/serialization-types/src/common.rs: Base58EncodableType", "protocol/serialization-types/src/version_bytes.rs", "crypto/src/hash/types.rs"]}
{"id": "C60", "title": "Secret box JSON round trip and decryption", "statement": "A secret box read from its JSON form and written back gives the same JSON, and no malformed secret box or plaintext makes decryption panic.", "quantifier": "every secret box and every JSON document", "why_tests_cant": "all documents and ciphertexts", "anchors": ["secrets/src/secret_box/types_impls.rs", "secrets/src/secret_box/utils.rs"]}
{"id": "C61", "title": "Block JSON round trip keeps every field", "statement": "Converting an external transition to JSON and back returns the same block.", "quantifier": "every block", "why_tests_cant": "all blocks, including non-default protocol versions", "anchors": ["protocol/serialization-types/src/external_transition.rs: ExternalTransitionJson"]}
{"id": "C62", "title": "VRF output hash input distinguishes outputs", "statement": "Two VRF outputs of the same length with the same hash input are equal.", "quantifier": "every pair of byte strings", "why_tests_cant": "all pairs", "anchors": ["base/src/consensus_state.rs: VrfOutputTruncated::to_roinput"]}
{"id": "C63", "title": "Messages can be read one after another from one reader", "statement": "When several messages are written back to back on a stream, reading them one after another from that stream returns the same messages, whether through one deserializer or through one from_reader call per message.", "quantifier": "every sequence of values and every way the reader splits the stream", "why_tests_cant": "all values and all read schedules", "anchors": ["protocol/bin-prot/src/de.rs: from_reader, Deserializer::from_reader"]}
{"id": "C64", "title": "JSON number strings", "statement": "Writing a u32 or u64 as a JSON number string and reading it back returns the same number; exactly the decimal texts of in-range numbers (with an optional plus sign and leading zeros) are accepted, anything else is an error.", "quantifier": "every u32, every u64 and every text", "why_tests_cant": "all texts, including overlong and out-of-range ones", "anchors": ["protocol/serialization-types/src/common.rs: U32Json, U64Json"]}
{"id": "C65", "title": "Account hash input distinguishes accounts", "statement": "Two accounts with the same hash input are equal, and hashing an account never crashes, so an account hash commits to the whole account.", "quantifier": "every pair of accounts, and every hash function without a collision on the two inputs", "why_tests_cant": "ranges over all field values of two accounts", "anchors": ["base/src/account/mod.rs: Account::to_chunked_roinput, Hashable for Account", "base/src/account/permissions.rs", "base/src/account/timing.rs", "base/src/account/token_permissions.rs"]}
{"id": "C66", "title": "Protocol state body hash input distinguishes bodies", "statement": "Two protocol state bodies with the same hash input are equal (barring a SHA-256 collision in the staged ledger hash), whatever the numbers of sub-windows and VRF bytes.", "quantifier": "every pair of protocol state bodies", "why_tests_cant": "ranges over all field values and list lengths of two bodies", "anchors": ["base/src/protocol_state.rs: ProtocolStateBody::to_chunked_roinput", "base/src/consensus_state.rs: ConsensusState::to_chunked_roinput", "base/src/blockchain_state.rs", "base/src/blockchain_state_registers.rs", "crypto/src/hash/types.rs: StagedLedgerHash"]}
{"id": "C67", "title": "State hash commits to the chain", "statement": "Two protocol states shaped as in real blocks (eleven sub-windows, 253-bit VRF output, 32-byte auxiliary hashes, empty failure table) with the same state hash have the same previous state hash and the same body, unless one of the hash functions collides on the inputs it is given for these two states.", "quantifier": "every pair of protocol states with these sizes and every pair of hash functions", "why_tests_cant": "ranges over all states and all hash functions", "anchors": ["base/src/protocol_state.rs: ProtocolState::state_hash, to_chunked_roinput"]}
{"id": "C68", "title": "Transfer builder", "statement": "A payload made by the transfer builder carries exactly the sender, receiver, amount, fee and nonce it was created with and, for each optional setting, the last value set, whatever the order of the calls; unset options have their documented defaults.", "quantifier": "every argument and every sequence of setter calls", "why_tests_cant": "ranges over all call sequences", "anchors": ["base/src/user_commands/signed_command/builder.rs: SignedTransferCommandBuilder"]}
{"id": "C69", "title": "Memo text of any command can be read", "statement": "Reading the text of a memo never crashes, whatever bytes the memo holds.", "quantifier": "every byte string", "why_tests_cant": "ranges over all memos that can arrive in a block or come from the builder", "anchors": ["base/src/user_commands/memo.rs: to_text", "base/src/user_commands/signed_command/builder.rs: new"]}
{"id": "C70", "title": "Legacy state hash commits to the chain", "statement": "Two mainnet protocol states with the same state hash have the same previous state hash and the same body, barring collisions of the hash functions, whatever the numbers of sub-windows and VRF bytes.", "quantifier": "every pair of legacy protocol states and every pair of hash functions", "why_tests_cant": "ranges over all states, list lengths and hash functions", "anchors": ["base/src/protocol_state.rs: ProtocolStateLegacy, ProtocolStateBodyLegacy", "base/src/consensus_state.rs: to_roinput", "base/src/blockchain_state.rs: BlockchainStateLegacy", "base/src/epoch_data.rs: to_roinput", "base/src/global_slot.rs: to_roinput"]}
{"id": "C71", "title": "Legacy account hash input distinguishes accounts", "statement": "Two mainnet accounts with the same hash input are equal.", "quantifier": "every pair of legacy accounts", "why_tests_cant": "ranges over all field values of two accounts", "anchors": ["base/src/account/mod.rs: AccountLegacy::to_roinput"]}
{"id": "C72", "title": "Accepted block documents can be written again", "statement": "If a JSON document is accepted as a block, the block can be written to JSON, and reading what was written gives the same block.", "quantifier": "every JSON document, every block read from one", "why_tests_cant": "documents come from other implementations in any layout", "anchors": ["protocol/serialization-types/src/macros.rs", "protocol/serialization-types/src/common.rs: CharJson, ByteVecJson", "protocol/serialization-types/src/external_transition.rs"]}
{"id": "C73", "title": "GraphQL import of protocol states is faithful", "statement": "Importing a protocol state from the JSON of the GraphQL API gives the state the JSON describes. JSON with an unreadable part is refused.", "quantifier": "every protocol state, every JSON document describing it, every checksum function", "why_tests_cant": "all states; a test sees one document", "anchors": ["base/src/protocol_state.rs: from_graphql_json", "base/src/consensus_state.rs: from_graphql_json", "base/src/blockchain_state.rs: from_graphql_json", "base/src/epoch_data.rs: from_graphql_json"]}
{"id": "C74", "title": "GraphQL import never drops a vesting schedule", "statement": "Importing the timing of an account from GraphQL JSON gives the schedule the JSON describes; JSON with an unreadable part is refused, not read as the timing of an unrestricted account.", "quantifier": "every JSON document", "why_tests_cant": "all documents, malformed ones in particular", "anchors": ["base/src/account/timing.rs: from_graphql_json"]}
{"id": "C75", "title": "GraphQL import of accounts is faithful", "statement": "Importing an account from the JSON of the GraphQL API gives the account the JSON describes. JSON with an unreadable key, delegate, number, hash or permission is refused.", "quantifier": "every account, every JSON document describing it", "why_tests_cant": "all accounts; the code says it has no test coverage", "anchors": ["base/src/account/mod.rs: from_graphql_json"]}
{"id": "C76", "title": "Field elements and paths as JSON round trip", "statement": "Every field element, written as a decimal JSON text, reads back as the same element; so does every merkle path. A text is read as a field element exactly if it denotes a number below the field's modulus, and every other document is refused with an error.", "quantifier": "every field element, every path, every JSON document", "why_tests_cant": "2^254 elements and all texts; values just around the modulus and 2^256", "anchors": ["proof-systems-shim/src/fp.rs: FpJson, fp_from_radix_10", "merkle/src/path.rs: MerklePath, MerklePathNode"]}
{"id": "C77", "title": "Import of the best chain document", "statement": "A GraphQL response describing the tip's protocol state and, under account addresses, leaf hashes with merkle paths is imported as that state and one proof per account, with the leaf, its position and the root obtained by hashing along the path; other members are ignored; a response with a malformed account entry is refused as a whole, with an error.", "quantifier": "every JSON document, any number of accounts, any path", "why_tests_cant": "all documents, including key orders, malformed members and empty paths", "anchors": ["network/src/processor/naive_transition_frontier.rs: ProtocolStateWithSparseMerkleLedger::try_from"]}
{"id": "C78", "title": "Ledger entries served by the Berkeley frontier are authentic", "statement": "After any sequence of responses, every ledger entry held by the Berkeley frontier proves membership of its leaf in the ledger whose hash the tip's protocol state commits to.", "quantifier": "every sequence of GraphQL responses, honest or not", "why_tests_cant": "adversarial responses; all histories", "anchors": ["network/src/processor/naive_transition_frontier.rs: NaiveTransitionFrontier::add_block, get_sparse_merkle_ledger"]}
{"id": "C79", "title": "Wallet files open to the key they hold", "statement": "A wallet file holding a private key encrypted under a password, with the limits and salt stated in the file, opens with that password to exactly that private key and its key pair; with a password under which decryption fails it gives an error and no key.", "quantifier": "every wallet file, every password, every private key", "why_tests_cant": "all keys, limits and passwords; byte-order and truncation mistakes", "anchors": ["secrets/src/secret_box/types_impls.rs: get_private_key_bytes, get_keypair, try_gen_secret"]}
{"id": "C80", "title": "Base58 texts are protected by their checksum and unique", "statement": "A base58check text of a hash, memo, VRF output or public key is accepted only if its last four bytes are the checksum of the rest; a text whose checksum is wrong is refused with an error; and no two different accepted texts stand for the same value.", "quantifier": "every text, every kind of base58check value, every public key", "why_tests_cant": "The set of texts is infinite; tests corrupt a few texts and never look for a second text of the same value.", "anchors": ["protocol/serialization-types/src/common.rs: HashV1Json, ByteVecJson", "protocol/serialization-types/src/macros.rs: impl_from_with_proxy, base58 deserializers", "crypto/src/hash/types.rs: from_str of the hash types", "protocol/serialization-types/src/signatures.rs: PublicKeyJson"]}
{"id": "C81", "title": "Polling hands over what can be fetched, under every schedule", "statement": "A poll of the latest blocks hands to the processor, in the listed order and once each, exactly the blocks that can be fetched within three attempts, whatever other items fail, other polls run and settings change; and once the processor runs, every poll, settings change and reader comes to an end.", "quantifier": "every list of blocks or endpoints, every pattern of failures, every number of concurrent polls, every schedule", "why_tests_cant": "schedules and failures are unbounded; a deadlock shows only in some of them", "anchors": ["network/src/processor/js/graphql_api_v1.rs: poll_latest_once, fetch_block", "network/src/processor/js/graphql_api_berkeley.rs: poll_latest_once", "network/js/graphql_v1_utils.js: retry", "network/src/processor/processor_impl.rs: run", "apps/wasm/mina-berkeley/src/js_exports.rs: pollLatestBlocks, setApiList, setTrackingAccounts"]}
{"id": "C82", "title": "Wallet requests say what the caller asked", "statement": "Sending a payment makes one GraphQL request for exactly that payment: the given fee, amount, receiver, sender, nonce, memo and expiry, and nothing else; a fee or amount that is no 64-bit number is refused and nothing is sent. Locking, unlocking and looking up an account name exactly the given key and password.", "quantifier": "every payment, key and password text, every JavaScript value for the amounts", "why_tests_cant": "the texts are unbounded and may contain quotes and backslashes", "anchors": ["apps/wasm/mvp/src/payment.rs: sendPayment, lockAccount, unlockAccount, accountInfo", "apps/wasm/mina-berkeley/src/js_exports.rs: sendPayment, lockAccount, unlockAccount", "apps/wasm/mina-berkeley/src/payment.rs"]}
{"id": "C83", "title": "The crawler files every listed block once and correctly", "statement": "After a run of the blocks crawler every listed block that could be retrieved is filed either as succeeded or as failed, never both, with exactly the document retrieved; a block filed as succeeded stays so; files of other blocks are not touched; and a block filed as succeeded holds a document that reads as a block. This survives kills of the process at any point and any number of later runs.", "quantifier": "every list of blocks, every order of answers, every history of runs and kills", "why_tests_cant": "histories, interleavings and kill points are unbounded", "anchors": ["apps/tools/blocks-crawler/src/blocks.rs: check_block, retrieve_block_json, parse_block_json, write_json", "apps/tools/blocks-crawler/src/main.rs: main"]}
{"id": "C84", "title": "The layout reader prints what the file holds", "statement": "The layout reader takes a file of hexadecimal text as the bytes it spells and any other file as its own bytes; it prints a value exactly if those bytes are a wire form of it under the layout; and with --roundtrip exactly if they are the canonical wire form, with nothing after it.", "quantifier": "every layout, every file, both modes", "why_tests_cant": "layouts and files are unbounded", "anchors": ["apps/bin-prot-layout-reader/src/main.rs: main"]}
{"id": "C85", "title": "Layout documents are read as the layouts they describe", "statement": "A JSON document is read as a layout exactly if it follows the format of layout documents, and then as the layout it describes; every rule the format can express has a document; documents that name unknown rules, have the wrong number of arguments, miss members or hold numbers out of range are refused. Layouts that the library writes can be read again.", "quantifier": "every JSON document, every layout", "why_tests_cant": "documents and layouts are nested without bound", "anchors": ["protocol/bin-prot/src/value/layout/mod.rs: Layout, BinProtRule, TryFrom<ListTaggedEnum>, Polyvar, RuleRef", "protocol/bin-prot/src/value/layout/list_tagged_enum.rs: ListTaggedEnum"]}
{"id": "C86", "title": "Genesis blocks are the documented ones", "statement": "The mainnet (and devnet) genesis block and the Berkeley genesis state can always be obtained: no hard-coded text is malformed or has a wrong checksum; each hash, address and number in them has the documented text or value, and their state hashes can be computed. The genesis block of any configuration has height one, epoch and slots zero, full sub-windows as its minimum window density and otherwise exactly what the configuration gives. It starts a chain, and from it chain selection takes every longer chain of the first epoch.", "quantifier": "every configuration, every candidate chain, every hash function; both build modes", "why_tests_cant": "the constructors panic on any malformed constant and the configuration and candidates are unbounded", "anchors": ["consensus/src/genesis/config.rs: GenesisInitConfig::mainnet, devnet", "consensus/src/genesis/genesis_impl.rs: ExternalTransition::from_genesis_config, ProtocolState::berkeley", "base/src/numbers.rs: BlockTime::from_unix_epoch", "base/src/consensus_state.rs: VrfOutputTruncated"]}
{"id": "C87", "title": "Field elements are read in any radix", "statement": "A text in a radix from 2 to 36 is read as a field element exactly if it spells a number below the field's order, with an optional plus sign, digits of either case and underscores after the first digit; the result holds that number in 32 little-endian bytes. Every element can be written in every radix. Every other text is an error.", "quantifier": "every text, every radix, every field element", "why_tests_cant": "texts are unbounded and the field has 2^254 elements", "anchors": ["crypto/src/hash/types.rs: Field::from_str_radix"]}
{"id": "C88", "title": "Block times denote the instants they count", "statement": "The date and time of a block time is the instant that many milliseconds after 1970, for every block time; different block times have different dates; a block time made from seconds has the date of those seconds.", "quantifier": "every block time and every number of seconds of 64 bits, both build modes", "why_tests_cant": "there are 2^64 block times and the conversion mixes signed and unsigned numbers", "anchors": ["base/src/numbers.rs: BlockTime::datetime, from_unix_epoch, from_unix_epoch_millis, epoch_millis"]}
{"id": "C89", "title": "A node reads back the blocks it writes, and reading a block loses only version numbers", "statement": "Whatever block a node holds, the bytes it writes are read back as the same block, in whatever pieces they arrive. Reading any bytes gives an error or a block, never an abort. Two byte strings are read as the same block only if they differ in nothing but how numbers are stored, and what a node passes on is what it received.", "quantifier": "every block, every byte string, every way of cutting it into reads", "why_tests_cant": "blocks contain unbounded lists and trees of dozens of nested types, and network bytes are arbitrary", "anchors": ["protocol/serialization-types/src/type_annotations.rs: BinProtSerializationType::try_from_binprot, try_into_binprot", "base/src/external_transition.rs: ExternalTransition", "protocol/serialization-types-macros/src/auto_from.rs", "protocol/serialization-types/src/signatures.rs", "crypto/src/serialization_type_conversions.rs", "base/src/serialization_type_conversions/numbers.rs"]}
{"id": "C90", "title": "Accounts stored in the ledger database are read as written, byte for byte as documented", "statement": "An account written to the ledger database is read back as the same account, in both stored formats, and its bytes are the documented fields in the documented order. No bytes can be read as two accounts. Reading any bytes gives an error or an account, never an abort.", "quantifier": "every account of either format, every byte string, every way of cutting it into reads", "why_tests_cant": "accounts have thirteen fields with nested choices and databases contain arbitrary bytes; a test compares two sample accounts", "anchors": ["base/src/account/mod.rs: Account, AccountLegacy", "protocol/serialization-types/src/account.rs: AccountV0, AccountV1", "base/src/account/timing.rs: Timing", "base/src/account/permissions.rs: Permissions, PermissionsLegacy", "ledger/src/rocksdb_genesis_ledger.rs: decode_account_from_kv"]}
{"id": "C91", "title": "The root of the genesis ledger is the root of the accounts in the database and commits to them", "statement": "The merkle root of a ledger built from a database is the root of the full tree of height 20 whose leaves are the hashes of the stored accounts in key order, the remaining leaves being the empty hash. Building the ledger and asking for the root never aborts. Two databases with the same root hold the same accounts.", "quantifier": "every database in key order, every list of at most 2^20 accounts laid out in it, both stored formats, every hash function", "why_tests_cant": "the mainnet ledger test compares one root of one database; it says nothing about which changes of a database leave the root alone", "anchors": ["ledger/src/genesis_ledger.rs: GenesisLedger::to_mina_merkle_ledger", "ledger/src/rocksdb_genesis_ledger.rs: RocksDbGenesisLedger::accounts", "merkle/src/merger_poseidon.rs: MinaPoseidonMerkleMerger, MinaPoseidonMerkleMergerLegacy", "merkle/src/hasher_poseidon.rs: MinaPoseidonHasher", "base/src/account/mod.rs: Account, AccountLegacy"]}
{"id": "C92", "title": "Writing a block to a JSON document and reading it back returns the block", "statement": "A block that is written to a JSON document and read back is the same block. A block that was read from a document can be written again and read back unchanged. Two blocks have the same document only if they are equal. Reading a document returns a block or an error.", "quantifier": "every block the node can hold, every document tree, every behaviour of the text encodings of single values that the model leaves open", "why_tests_cant": "the JSON tests load a handful of mainnet documents, all with protocol version 2.0.0, ASCII digests and valid signatures; they cannot show which blocks are changed or refused", "anchors": ["base/src/external_transition.rs: ExternalTransition, impl_from_with_proxy!", "protocol/serialization-types/src/type_annotations.rs: JsonSerializationType, try_from_json, try_into_json", "protocol/serialization-types/src/external_transition.rs: ExternalTransitionJson"]}
{"id": "C93", "title": "A list of field elements is written in hexadecimal and read back unchanged, and malformed text is refused", "statement": "Writing a list of 32-byte elements as hexadecimal and reading the text returns the same list. Different lists have different texts. A text is read exactly when it spells a whole number of elements, with or without one 0x prefix. Every other text is refused with an error.", "quantifier": "every list of elements and every text, of any length", "why_tests_cant": "the tests use two or three fixed vectors; they cannot cover every length of text, and the lengths that are not a whole number of elements are the ones that matter", "anchors": ["base/src/protocol_state_proof/field_and_curve_elements.rs: HexEncodable for FieldElementVec, to_hex_string, try_from_hex", "base/src/numbers.rs: HexEncodable for BigInt256, try_from_hex"]}
{"id": "C94", "title": "Printing a hash, key, memo or point and parsing the text gives the same value, and texts of other kinds are refused", "statement": "Every value of these types can be printed; parsing what was printed returns the value; different values have different texts. A text printed for one kind of value is refused by the parser of another kind. A value that was parsed can be printed.", "quantifier": "every type with this text form, every value of it, every text", "why_tests_cant": "each test parses a few known addresses and hashes; that two kinds share a version byte or that some values cannot be printed shows only by looking at all pairs of kinds and all values", "anchors": ["protocol/serialization-types/src/macros.rs: impl_strconv_via_json", "crypto/src/hash/types.rs: FromStr and Display of the hash types", "protocol/serialization-types/src/version_bytes.rs: version bytes"]}
{"id": "C95", "title": "Integer fields marked with an encoding are written and read like plain ones, and the checker tool reads what it wrote", "statement": "A field marked as an integer or natural number has the same bytes as the plain integer or length, whatever pieces the sink takes. Reading it returns the value. The checker tool reads back every value it writes for each of its tests.", "quantifier": "every integer that fits, every sink behaviour, every kind of test of the tool and every value of it", "why_tests_cant": "the tests write a few boundary values; reading marked fields is not tested at all", "anchors": ["protocol/bin-prot/src/integers/nat0.rs: serialize, deserialize", "protocol/bin-prot/src/integers/integer.rs: serialize, deserialize", "protocol/bin_prot_checker/src/main.rs: main"]}
{"id": "C96", "title": "Node status lines reach the listener once each and in order, and the stream ends when the peer ends it", "statement": "The listener is given what each line of the stream says, once and in order, however the bytes were split in transit. The response ends when the peer closes the stream or reading fails. Connecting reports success only when connected and an error otherwise.", "quantifier": "every sequence of bytes, every division of it into pieces, every point of failure, every number of rounds", "why_tests_cant": "needs a live peer; tests cannot cover all splits of the bytes, and that a loop never ends is not observable by a test", "anchors": ["apps/wasm/mvp/src/lib.rs: connect_async, NodeStatusCodec::read_response", "apps/wasm/mvp/src/event_emitter.rs: get_event_emitter"]}
{"id": "C97", "title": "What is hashed and signed is laid out as tabulated", "statement": "Whenever the hash of an account or protocol state is computed, it is the hash, under the right domain string, of one fixed table of the values of the account or state: which values, in which order, at which width, packed in one fixed way. The same holds for what a signature on a command signs, on either network.", "quantifier": "every account, protocol state (Berkeley and mainnet), signed command, key, signature, network and hash functions", "why_tests_cant": "a swap of two values of the same width keeps every round trip and every injectivity test, and the tests of the repository compare a handful of hashes; the claim is about every value of every field", "anchors": ["base/src/account/mod.rs: to_chunked_roinput", "base/src/account/permissions.rs: to_chunked_roinput", "base/src/account/timing.rs: to_chunked_roinput", "base/src/account/zkapp.rs: to_chunked_roinput", "base/src/protocol_state.rs: to_chunked_roinput, to_roinput", "base/src/consensus_state.rs: to_chunked_roinput, to_roinput", "base/src/blockchain_state.rs", "base/src/blockchain_state_registers.rs", "base/src/epoch_data.rs", "base/src/user_commands/signed_command/mod.rs: to_roinput, domain_string", "crypto/src/hash/types.rs: NonSnarkStagedLedgerHash::digest", "proof-systems-shim/src/roinput.rs: ChunkedROInput::into_fields"]}
{"id": "C98", "title": "What a page is told about the best chain belongs to one moment", "statement": "Whatever questions pages ask while the node receives blocks, every answer is the one a node would give that handles the blocks sent one after another and answers between two of them, and later answers are never about earlier moments. Nothing (null) is answered exactly until the first acceptable block was handled, and never again; a state hash or JSON document is always that of a verified block on mainnet, and the document is read back as that block's protocol state and is never an empty string. A protocol state and a ledger got by two calls belong together.", "quantifier": "every schedule of arriving blocks, processor steps and questions of any number of pages, every sequence of blocks, hash, signature and conversion functions", "why_tests_cant": "the claim is about every interleaving of questions and blocks and every protocol state; the repository has no test that asks a question while a block is handled", "anchors": ["apps/wasm/mvp/src/js_exports.rs: get_best_chain_state_hash, get_best_chain_state_json", "apps/wasm/mina-berkeley/src/js_exports.rs: get_best_chain_state_hash, get_best_chain_state, get_sparse_merkle_ledger", "network/src/processor/processor_impl.rs: transition_frontier, run_recv_block_loop", "network/src/processor/naive_transition_frontier.rs: get_best_chain, get_sparse_merkle_ledger, add_block", "base/src/protocol_state.rs: ProtocolStateLegacy"]}
{"id": "C99", "title": "The log text of a page holds every record since it was cleared, once and in order", "statement": "After any sequence of calls that set up the log, write records and clear it, the log text a page reads consists of exactly the records written since the log was last cleared and after it was set up, at level debug or above, one line each in order; the console shows the same records and ignores clearing. Setting the log up again is refused and changes nothing. From the log text a page can tell the records apart: its lines are the records, and a line determines level, target and message.", "quantifier": "every history of calls, all record levels, targets and messages", "why_tests_cant": "the claim is about every sequence of calls and every text; the repository has no test of the logger", "anchors": ["apps/wasm/mvp/src/logger.rs: JsExportableLogger, get_log_text, clear_log", "apps/wasm/mina-berkeley/src/logger.rs: JsExportableLogger", "apps/wasm/mvp/src/js_exports.rs: init_logger", "apps/wasm/mina-berkeley/src/js_exports.rs: init_logger"]}
{"id": "C100", "title": "A transport belongs to the identity it was made with and to the network that was configured last", "statement": "However a transport builder is configured before it is built, the transport authenticates with the key the builder was made with and reports that key's peer id, is in the private network named by the configuration given last, and has that configuration's multiplexer name and the timeout given last (60 seconds by default). Two nodes whose builders got the same network name last share a private network; nodes with different names do not, unless the names are a collision of Blake2b.", "quantifier": "every sequence of builder calls, every configuration, key and timeout", "why_tests_cant": "the claim ranges over all sequences of setter calls; the repository's tests build one transport for mainnet and need a network", "anchors": ["network/src/p2p/builder.rs: TransportBuilder", "network/src/p2p/config.rs: TransportConfig, MAINNET_CONFIG"]}
{"id": "C101", "title": "Every build follows a Merkle path to the same root", "statement": "Turning a Merkle path into a proof, and following or verifying a proof, gives the same answer in a release build as in a build with overflow checks, and the same in a browser (words of 32 bits) as on a server (64 bits), for every path and every proof for which the checked 64-bit build answers at all.", "quantifier": "all paths and proofs, all lengths, hashers and mergers; words of 32 and 64 bits, with and without overflow checks", "why_tests_cant": "the repository's tests run in one build on one kind of machine, with paths of a few fixed lengths", "anchors": ["merkle/src/path.rs: MerklePath", "merkle/src/proof.rs: DefaultMerkleProof", "merkle/src/metadata.rs: MerkleTreeNodeMetadata"]}
{"id": "C102", "title": "Numbers and points of a proof become the field elements and points they stand for", "statement": "Converting the 32-byte numbers and the curve points of a blockchain proof to the types of the arithmetic library gives the field element whose value the bytes spell (least significant first), the point with those coordinates, and infinity for infinity; different numbers and points stay different, every field element can be written, vectors keep length and order. The conversion never aborts, whatever block came from the network, and yields only points of the curve.", "quantifier": "all 32-byte strings, points and vectors of any length, all fields of fewer than 2^256 elements", "why_tests_cant": "a test converts the numbers of a few recorded blocks, all of them canonical", "anchors": ["base/src/numbers.rs: BigInt256", "base/src/protocol_state_proof/field_and_curve_elements.rs: FieldElementVec, FiniteECPoint, ECPoint, FiniteECPointPairVec, ECPointVec"]}
{"id": "C103", "title": "The page is told the predecessor that the block's document names", "statement": "Asking for the previous state hash of a block returns the text of the hash that the downloaded document has as protocol_state.previous_state_hash: same version number, same 32 bytes. There is an answer exactly when one of the first three downloads succeeds and its document is accepted as a block; otherwise there is an error. The answer is the text of the document itself, and the block is the requested one.", "quantifier": "all documents, download results, heights, requested hashes and checksums", "why_tests_cant": "a test asks the real server for one block", "anchors": ["apps/wasm/mvp/src/js_exports.rs: fetch_block_previous_state_hash", "network/src/processor/js/graphql_api_v1.rs: fetch_block", "network/js/graphql_v1_utils.js: retry, fetch_block_json_str", "protocol/serialization-types/src/common.rs: Base58EncodableVersionedType"]}
{"id": "C104", "title": "The page asks the endpoints and accounts that were set last", "statement": "A poll sends one request to each endpoint that was set last, each once, in any order: for the best chain, the genesis block and the Merkle path and leaf hash of each account that was set last, each once under its own name. An endpoint is asked again after a failure, three times in all; the documents of the endpoints that answer are handed on in the order they were asked, and the poll ends with an error at the first endpoint that never answers. Endpoints and accounts that were set earlier are not asked. This holds for any list of texts the page passes.", "quantifier": "all histories of setting endpoints, setting accounts and polling; all lists of items; all answers of the endpoints, attempt by attempt; all orders in which the sets are walked", "why_tests_cant": "a test calls the functions once with two endpoints and a node that answers", "anchors": ["apps/wasm/mina-berkeley/src/js_exports.rs: set_api_list, set_tracking_accounts, poll_latest_blocks", "network/src/processor/js/graphql_api_berkeley.rs: set_api_list, set_tracking_accounts, poll_latest_once", "network/js/graphql_berkeley_utils.js: retry, fetch_best_chain_json_inner"]}
{"id": "C105", "title": "Hashes and keys can be told apart by how they look", "statement": "The text of a state hash has 52 characters and begins with 3N, of a state body hash 3W, of an epoch seed 2v, of a VRF output hash 47, of a coinbase hash 2; the text of a ledger hash or a chain hash has 51 characters and begins with j; the text of a public key has 55 characters and begins with B62q. A text that does not look so is not read as such a value.", "quantifier": "all hashes, all keys, all checksum functions, all texts", "why_tests_cant": "tests print a handful of known hashes; the first characters depend on all 32 bytes", "anchors": ["protocol/serialization-types/src/common.rs: Base58EncodableVersionedType", "crypto/src/hash/types.rs: StateHash, LedgerHash, ChainHash, EpochSeed, CoinBaseHash, VrfOutputHash", "protocol/serialization-types/src/signatures.rs: CompressedPubKey", "network/src/processor/naive_transition_frontier.rs: try_from"]}
{"id": "C106", "title": "The imported best chain is the one that was asked for, with the ledger of the genesis block as its genesis ledger", "statement": "When a page imports the answer of an endpoint, the genesis ledger hash of the state is the snarked ledger hash of the genesis block in the same answer, and every other part of the state and every account proof is read from the answer unchanged. The request asks for every field the import reads: leaving out of an answer what was not asked for does not change the imported state or the proof of any account asked for. An answer without a block or without a genesis block is not used.", "quantifier": "all answers, all accounts asked for, all checksum functions", "why_tests_cant": "a test imports one recorded answer", "anchors": ["network/js/graphql_berkeley_utils.js: fetch_best_chain_json_inner", "network/src/processor/naive_transition_frontier.rs: try_from", "base/src/blockchain_state.rs: FromGraphQLJson for BlockchainState", "base/src/protocol_state.rs: FromGraphQLJson for ProtocolState"]}
{"id": "C107", "title": "Every call of the Berkeley page returns, and calls take effect in the order they are made", "statement": "However the calls of a page interleave with the answers of the endpoints and with the processor: a poll reads the endpoints and accounts that the calls made before it leave, these do not change while it is under way, and in the end the settings are those of all calls in turn. A poll asks each of these endpoints in turn, at most three times. What the page shows is a frontier that took over answers to requests of polls and nothing else. Once the page stops calling, everything comes to rest, and then every call has returned and every document was taken over.", "quantifier": "all sequences of calls, answers and scheduling steps of a page, all orders of the sets, all frontiers", "why_tests_cant": "a test runs one interleaving of a few calls", "anchors": ["apps/wasm/mina-berkeley/src/js_exports.rs: run_processor", "apps/wasm/mina-berkeley/src/js_exports.rs: set_api_list", "apps/wasm/mina-berkeley/src/js_exports.rs: poll_latest_blocks_once", "apps/wasm/mina-berkeley/src/js_exports.rs: get_best_chain_state", "network/src/processor/processor_impl.rs: run_recv_block_loop", "network/src/processor/js/graphql_api_berkeley.rs: poll_latest_once"]}
{"id": "C108", "title": "A wallet function sends one request and returns the node's answer", "statement": "A call of accountInfo, lockAccount, unlockAccount or sendPayment makes exactly one request, to the endpoint it was given (the node on the same machine in the page without an endpoint). Its body is JSON with one member, the query, whatever characters the query has, and the query asks for what was called. The node's JSON answer comes back as the result. A payment whose fee or amount is no 64-bit number is rejected and nothing is sent. If the node cannot be reached or answers with something else, the call fails with an error.", "quantifier": "all calls, all nodes and answers, all texts", "why_tests_cant": "a test sends a few fixed payments to a stub", "anchors": ["apps/wasm/mvp/src/payment.rs: account_info", "apps/wasm/mvp/src/payment.rs: lock_account", "apps/wasm/mvp/src/payment.rs: unlock_account", "apps/wasm/mvp/src/payment.rs: send_payment", "apps/wasm/mina-berkeley/src/js_exports.rs: lock_account", "apps/wasm/mina-berkeley/src/js_exports.rs: unlock_account", "apps/wasm/mina-berkeley/src/js_exports.rs: send_payment"]}
{"id": "C109", "title": "The browser's 32-bit build decodes binary data as the native build does", "statement": "Bytes read with the binary decoder give the same value, the same rest and the same error in the WebAssembly build (32-bit machine) and in the native build (64-bit machine), for every type. What the browser accepts, the native build accepts with the same value.", "quantifier": "all types, all byte sequences", "why_tests_cant": "tests run on one machine, and the announced lengths at which the builds can differ are of 2 GiB and more", "anchors": ["protocol/bin-prot/src/read_ext.rs: bin_read_string", "protocol/bin-prot/src/read_ext.rs: bin_read_nat0", "protocol/bin-prot/src/de.rs: deserialize_seq"]}
{"id": "C110", "title": "What decoding costs is bounded by the bytes given, not by the lengths they announce", "statement": "Whatever lengths hostile bytes announce, decoding them asks the reader a number of times proportional to the bytes given, never claims a buffer larger than what is given, and the decoded value has no more list items and string bytes than there were bytes.", "quantifier": "all types, all byte sequences", "why_tests_cant": "tests decode honest data, and a hostile length can be any of 2^64 numbers", "anchors": ["protocol/bin-prot/src/de.rs: deserialize_seq", "protocol/bin-prot/src/de.rs: deserialize_string", "protocol/bin-prot/src/read_ext.rs: bin_read_string"]}
{"id": "C111", "title": "The text of a block is JSON that says its document, and exactly the JSON texts are read", "statement": "A block, a state, a key file, a request or one of the named values is written as one line of text that is JSON (RFC 8259) and says exactly its document; this line is read back as that document. Any text is read exactly when it is JSON nested at most 127 deep, as the one document that the grammar gives it, whatever its white space and escapes; a text that is not JSON is an error and nothing else.", "quantifier": "all blocks, states, key files, queries and values with a text form; all texts", "why_tests_cant": "texts are unbounded, and a wrong escape or number shows only on the characters and sizes that no fixture has", "anchors": ["protocol/serialization-types/src/type_annotations.rs: try_from_json, try_into_json", "protocol/serialization-types/src/macros.rs: impl_strconv_via_json", "apps/wasm/mvp/src/js_exports.rs: get_best_chain_state_json", "secrets/src/secret_box/types_impls.rs: try_from"]}
{"id": "C112", "title": "The JSON of a block has the form the Mina tools use", "statement": "Every block that is written to JSON is an object with exactly the members of the block explorers' and the Mina daemon's blocks, at every level: the same names, lists of the same kinds, tagged lists with the same tags, numbers as decimal text within their width, fees as mina with up to nine decimals, field elements in hexadecimal, hashes and keys in base58check with the version byte of their kind, proofs in base64, absent parts as null. Texts of different kinds of hashes are never equal. A document is read as a block only if it has each required member exactly once, at every level outside tagged parts.", "quantifier": "all blocks and protocol states, in memory or decoded; all documents", "why_tests_cant": "a wrong name, tag or version byte in a rare branch (a failed command, a second half, an absent fee transfer) shows only in blocks that have this branch, and the fixtures have few", "anchors": ["protocol/serialization-types/src/external_transition.rs: ExternalTransitionJson", "protocol/serialization-types/src/staged_ledger_diff.rs: StagedLedgerDiffJson", "protocol/serialization-types/src/protocol_state.rs: ProtocolStateJson", "protocol/serialization-types/src/blockchain_state.rs: BlockchainStateJson", "protocol/serialization-types/src/consensus_state.rs: ConsensusStateJson", "protocol/serialization-types/src/snark_work.rs", "protocol/serialization-types/src/protocol_state_proof.rs", "protocol/serialization-types/src/version_bytes.rs", "apps/wasm/mvp/src/js_exports.rs: get_best_chain_state_json"]}
{"id": "C113", "title": "Messages between the page and the program arrive as they were sent", "statement": "Every peer status and every response that the program sends is read by the page as it was: each property has the value that was sent, is absent exactly when that value is false, the empty text or 0, and there are no other properties. The address typed into the page reaches the program unchanged. What the page writes with its own writer its reader gives back, for all three messages.", "quantifier": "all statuses and responses whose texts are shorter than 2^31 bytes and whose uptime is a 64-bit number; all addresses; all objects with values of the declared types; both ways the protobuf library may treat large tags", "why_tests_cant": "the two sides are written independently, in two languages; boundaries of number widths, negative numbers and characters of two, three and four bytes (surrogate pairs in JavaScript) are too many to list", "anchors": ["apps/wasm/mvp/web/pb/messages.ts: encodePeerStatus, decodePeerStatus", "apps/wasm/mvp/web/pb/requests.ts: encodeConnectRequest, decodeConnectRequest", "apps/wasm/mvp/web/pb/responses.ts: encodeCommonResponse, decodeCommonResponse", "apps/wasm/mvp/proto/messages.proto", "apps/wasm/mvp/proto/requests.proto", "apps/wasm/mvp/proto/responses.proto", "apps/wasm/mvp/src/utils.rs: proto_msg_to_u8array, u8array_to_proto_msg"]}
{"id": "C114", "title": "The page reads every protobuf message of its types, in any order, and refuses what is cut short", "statement": "A message whose fields have their declared types is read whatever the order of its fields; of a repeated field the last counts, and fields that are not known are skipped. Reading ends on every sequence of bytes. Bytes that end within a field are refused. The program reads every such message as a request in the same way.", "quantifier": "all messages in the wire format of protobuf, with numbers written in any number of bytes, unknown fields of every kind in any position; all places to cut", "why_tests_cant": "the order, the repetitions and the unknown fields are unbounded, and the next version of the protocol will send what no test of this one has", "anchors": ["apps/wasm/mvp/web/pb/messages.ts: decodePeerStatus, skipUnknownField", "apps/wasm/mvp/web/pb/requests.ts: decodeConnectRequest", "apps/wasm/mvp/web/pb/responses.ts: decodeCommonResponse", "apps/wasm/mvp/src/utils.rs: u8array_to_proto_msg"]}
{"id": "C115", "title": "The list of peers on the page shows each peer that has reported, with its last status", "statement": "After any sequence of statuses and presses of the button, the page has one row for each peer that has reported since the button was pressed last, labelled with the peer and showing its last status; the counts above the list are the numbers of peers and of connected peers.", "quantifier": "all sequences of statuses (that fit in a message) and presses of the button", "why_tests_cant": "the list is the result of a history of any length", "anchors": ["apps/wasm/mvp/web/pages/libp2p.vue: mounted, connect, clear, getPeerCount, getConnectedPeerCount", "apps/wasm/mvp/web/pb/messages.ts: decodePeerStatus"]}
{"id": "C116", "title": "Nodes that know the same chains agree on one", "statement": "Two nodes that are offered each other's chain select the same one, and a node that is offered the same candidates in another order selects the same one; it does not return to a chain that it has left for a better one. Among many nodes, whatever the order of the offers, every node that has heard of the best chain, directly or through others, holds it.", "quantifier": "all pairs of chains, all lists of candidates and all orders of them, all networks and histories of offers", "why_tests_cant": "convergence is a statement about all orders of delivery, and the preference depends on three numbers and the slots of both tips", "anchors": ["consensus/src/common.rs: select_secure_chain, select_longer_chain, relative_min_window_density, is_short_range"]}
{"id": "C117", "title": "The block types have the wire form the shipped layouts describe", "statement": "On the same bytes, reading a protocol state, completed snark work or a block with the Rust types and reading it with the OCaml layout file shipped for it either both succeed, taking the same bytes and giving the same numbers, bytes and choices under the same field names, or both fail.", "quantifier": "all byte strings and all values of the three types", "why_tests_cant": "the one real block that the tests read under the layout has no failed command, no second fee transfer and none of the commands the types lack", "anchors": ["protocol/layouts/protocol_state.json: bin_prot_rule", "protocol/layouts/snark_work.json: bin_prot_rule", "protocol/layouts/external_transition.json: bin_prot_rule", "protocol/serialization-types/src/staged_ledger_diff.rs: StagedLedgerDiffV1, TransactionStatusV1, CoinBaseV1, UserCommandWithStatusV1", "protocol/serialization-types/src/protocol_state.rs: ProtocolStateV1", "protocol/serialization-types/src/snark_work.rs: TransactionSnarkWorkV1", "protocol/bin-prot/src/loose_deserializer.rs: deserialize_loose"]}
{"id": "C118", "title": "Reading a JSON document never ends the process", "statement": "Reading a JSON document as a block, or as any part of one, gives a value or an error: no document makes the process panic or build an invalid text.", "quantifier": "all JSON documents and all types with a JSON form, in builds with and without overflow checks", "why_tests_cant": "a document can be wrong at any depth and in any way; tests try a few", "anchors": ["protocol/serialization-types/src/macros.rs: impl_mina_enum_json_serde_with_option", "protocol/serialization-types/src/common.rs: DecimalJson, CharJson, Base58EncodableVersionedType, Base58EncodableType", "protocol/serialization-types/src/field_and_curve_elements.rs: try_from_hex_str", "base/src/external_transition.rs: ExternalTransition"]}
{"id": "C119", "title": "Importing a GraphQL answer never ends the process", "statement": "Importing permissions, timings, accounts, protocol states and best chain documents from the answers of a GraphQL endpoint gives a value or an error: no answer makes the process panic.", "quantifier": "all JSON documents", "why_tests_cant": "an endpoint can answer anything; tests try the answers of one endpoint", "anchors": ["base/src/from_graphql_json.rs: FromGraphQLJson", "network/src/processor/naive_transition_frontier.rs: ProtocolStateWithSparseMerkleLedger::try_from", "proof-systems-shim/src/fp.rs: FpJson, fp_from_radix_10", "merkle/src/path.rs: MerklePath::to_proof"]}
{"id": "C120", "title": "The crawler checks the blocks it asked for and writes only into its folders", "statement": "The blocks crawler asks the explorer for as many of the latest blocks as the command line says, refuses a limit that is no number, checks exactly the blocks of the answer in their order, looks at the file of a block before retrieving it and writes the document to that file; it writes nothing outside its two output folders, whatever the explorer answers, and two blocks never share a file.", "quantifier": "all limits, answers and file systems with the two output folders", "why_tests_cant": "the limit and the names of the blocks are texts from outside that become part of a query and of paths; tests use numbers and real hashes", "anchors": ["apps/tools/blocks-crawler/src/blocks.rs: fetch_block_info, QueryResponse, BlockInfo, check_block, write_json", "apps/tools/blocks-crawler/src/main.rs: main"]}
{"id": "C121", "title": "Writing or reading a value of any type gives a result or an error", "statement": "Writing a value of any type that can be serialized either writes its complete wire form or returns an error and writes nothing; reading a type the format has no form for returns an error; a type that can be written can be read, and a map that is read has the keys that are on the wire. Nothing panics.", "quantifier": "all values of the serde data model, all requests of a type, all inputs", "why_tests_cant": "the serializer is open to every type; tests cover the types the protocol uses", "anchors": ["protocol/bin-prot/src/ser.rs: Serializer, to_writer", "protocol/bin-prot/src/de.rs: Deserializer, MapAccess"]}
{"id": "C122", "title": "The printed form of a hash input determines it", "statement": "Printing the input of a hash shows every field and every packed piece with its width, in order and in decimal, so that two inputs that print alike are the same input.", "quantifier": "all hash inputs", "why_tests_cant": "the printed form is what is compared with the OCaml implementation when hashes differ; tests print a few inputs", "anchors": ["proof-systems-shim/src/roinput.rs: ChunkedROInput, Display"]}
{"id": "C123", "title": "The commands of an accepted block were authorised by those who pay for them", "statement": "A block is accepted on mainnet only if each of its commands was signed, for mainnet and with exactly its contents, by the account that pays for it, was not used before, and if the block's own proofs hold; and no command signed in this way is refused.", "quantifier": "all signature schemes and hash functions, key pairs, payloads, networks, blocks with all their parts, and states of the frontier", "why_tests_cant": "a forged payer, a signature for the test network or a repeated command is one choice among all payloads and keys; tests verify the commands of a few recorded blocks", "anchors": ["base/src/user_commands/signed_command/mod.rs: SignedCommand::from_payload, SignedCommand::verify, SignedCommandPayload::into_signed_command", "base/src/external_transition.rs: ExternalTransition, verify", "base/src/staged_ledger_diff.rs: StagedLedgerPreDiff, verify", "network/src/processor/naive_transition_frontier.rs: NaiveTransitionFrontier::add_block"]}
{"id": "C124", "title": "The payment page sends what it shows, and a password only for its account", "statement": "A payment that the page sends is the one its payment box shows, from the account in its account box; an account is unlocked with the password given for that account, which can be given again after a mistake; and what is shown is the answer to the last request.", "quantifier": "all sessions: texts typed, buttons pressed, prompts answered or cancelled, and answers arriving in any order, well or not", "why_tests_cant": "the page keeps a password between button presses and handlers overlap; tests press one button of a fresh page", "anchors": ["apps/wasm/mina-berkeley/web/pages/sendPayment.vue: lockAccount, unlockAccount, sendSignedPayment", "apps/wasm/mvp/web/pages/sendPayment.vue: accountInfo"]}
{"id": "C125", "title": "A derived conversion carries every field to its namesake, and back", "statement": "For every struct or enum with `AutoFrom` and every target type named in its attributes, conversions both ways are generated, also for the target within layers of versions. Converting a value keeps its variant and puts the conversion of each field into the field of the same name or position, for targets that list their fields in any order; converting to the target and back gives the same value if that holds of the parts.", "quantifier": "all definitions of types, targets, values and conversions of the parts", "why_tests_cant": "the macro runs on definitions, at compile time, and about 180 types rely on what it writes; tests derive it for a handful of types and convert one value of each", "anchors": ["protocol/serialization-types-macros/src/lib.rs: auto_from_macro", "protocol/serialization-types-macros/src/auto_from.rs: parse_types_from_attr, auto_from_for_struct_with_named_fields, auto_from_for_struct_with_unnamed_fields, auto_from_for_enum, impl_from_for_versioned", "protocol/versioned/src/lib.rs: Versioned, From"]}
{"id": "C126", "title": "The Berkeley node survives every answer of the server and tells pages only what an answer said", "statement": "Whatever JSON documents the GraphQL server answers, in any order and under every schedule, the node handles them all: a document that it cannot use is logged and the next one is handled. The block of a document becomes the tip exactly when the consensus rules prefer it. What a page is told is the state hash, the protocol state or the ledger of a document that was delivered, nothing only if none could be used, and answering never panics.", "quantifier": "all JSON documents, sequences of them, schedules of deliveries, loop steps and questions, hash functions and digests", "why_tests_cant": "a document is hostile in one field out of hundreds and may do harm only after certain others; tests feed one recorded answer to a fresh node", "anchors": ["network/src/processor/naive_transition_frontier.rs: ProtocolStateWithSparseMerkleLedger, try_from, add_block", "network/src/processor/processor_impl.rs: run_recv_block_loop, transition_frontier", "network/src/processor/js/graphql_api_berkeley.rs: NonConsensusGraphQLBerkeleyBackend", "apps/wasm/mina-berkeley/src/js_exports.rs: get_best_chain_state_hash, get_best_chain_state, get_sparse_merkle_ledger", "base/src/protocol_state.rs: ProtocolState::from_graphql_json, state_hash_fp", "consensus/src/common.rs: select_secure_chain"]}
{"id": "C127", "title": "A block that the frontier asks for is fetched and handed to it", "statement": "A frontier can ask for a block, for example the parent of one it was handed, while it adds a block. Requests are served in the order made, each once; the blocks fetched for a request are the ones asked for and are handed to the frontier in order, each once; the processor's loops never block each other for ever; and the frontiers ask for the blocks they miss.", "quantifier": "all frontiers that convert, add and request in any way, both backends, all blocks, and all schedules of the two loops, of polls and of answers from the network", "why_tests_cant": "two bounded channels and two locks connect the loops in a circle; whether they block each other depends on the schedule, and tests run one loop with one block", "anchors": ["network/src/processor/mod.rs: QueryBlockRequest, TransitionFrontier, NonConsensusNetworkingOps", "network/src/processor/processor_impl.rs: NetworkMessageProcessor::new, run, run_recv_block_loop, run_query_block_loop", "network/src/processor/naive_transition_frontier.rs: set_block_requester, add_block", "network/src/processor/js/graphql_api_v1.rs: query_block", "network/src/processor/js/graphql_api_berkeley.rs: query_block"]}
{"id": "C128", "title": "The mainnet node survives whatever blocks it is sent", "statement": "Whatever blocks the GraphQL server answers with, in whatever order and under every schedule, the node handles them all: a block that it cannot use is logged and the next one is handled. Every block of the best chain was sent and has only valid commands, and a block becomes the tip exactly when the consensus rules prefer it. A page that asks for the state hash of the tip is told the hash of a block that was sent, and nothing only if none of them can be used.", "quantifier": "all blocks in wire form, sequences of them, schedules of deliveries, loop steps and questions, hash functions, digests and signature schemes", "why_tests_cant": "a block is hostile in one field out of hundreds, or only together with the tip it meets; tests feed one recorded block to a fresh node", "anchors": ["network/src/processor/naive_transition_frontier.rs: NaiveTransitionFrontier, add_block", "network/src/processor/processor_impl.rs: run_recv_block_loop", "network/src/processor/js/graphql_api_v1.rs: NonConsensusGraphQLV1Backend", "apps/wasm/mvp/src/js_exports.rs: get_best_chain_state_hash", "base/src/external_transition.rs: ExternalTransition, verify", "base/src/protocol_state.rs: ProtocolStateLegacy::state_hash_fp", "consensus/src/common.rs: select_secure_chain, is_short_range, relative_min_window_density"]}
