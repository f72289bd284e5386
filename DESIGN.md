# Design of the formal model of ChainSafe/mina-rs

## What this is

`/verif/lean` is a Lean 4 (4.33.0) Lake project.  `Verif/<Area>/Model.lean` files
transcribe the Rust code in `/repo` into total, computable Lean functions; each
definition cites the file and lines it models and says where it simplifies.
`Verif/<Area>/Lemmas*.lean` files hold helper lemmas, `Verif/<Area>/Spec.lean`
the independent specifications, and `Verif/<Area>/Props.lean` the property
theorems (named after the property id, e.g. `C01_...`) with, beside each, an
`example` showing that its hypotheses are met by a non-trivial case.

## Modelling conventions

* Bytes are `UInt8`, byte strings `List UInt8`.  Rust integers are `Int`/`Nat`
  with explicit range hypotheses, or fixed-width Lean types where wrap-around
  is observable.  `as` casts are modelled with the wrap-around they have.
* A Rust `Result` is `Except Err`; a Rust panic (`unwrap`, index out of range,
  `unimplemented!`, arithmetic overflow in a checked build) is an explicit
  `panic` error value, never a default.  Arithmetic that could overflow is
  modelled as checked (a panic) unless the definition's comment says otherwise;
  release builds wrap instead, and this is noted where it matters.
* Cryptography (Poseidon, Blake2, Schnorr, xsalsa20, argon2) and RocksDB are
  third-party code.  They appear as parameters of the model (functions), with
  exactly the laws a theorem needs as explicit hypotheses.  Base58check and
  SHA-256 are modelled where a theorem depends on their value.
* serde's derive macros are modelled through the serde data model: a universe
  of type descriptions and one encoder/decoder by recursion over it.
* Concurrency (the processor's two loops and the channel between source and
  frontier) is a small-step transition system quantified over all schedules.

## Trusted base

* Lean's kernel, and the axioms `propext`, `Classical.choice`, `Quot.sound`
  (at most; `#print axioms` is checked for every property theorem).  No axioms
  are added, and there is no `sorry`, `native_decide` or `bv_decide`.
* The faithfulness of the transcription from Rust to Lean, which is by reading.
  Every definition of the model cites the lines it transcribes.  The sections at
  the end list what is modelled, what is not, every place where the code
  disagrees with a property, and the axioms of each theorem.
* The behaviour of `std` (`BufReader`, `read_exact`, `write_all`, formatting and
  parsing of integers), `byteorder`, `num`, `hex`, `serde` as transcribed in the
  model, from their documentation.

## Properties: what is modelled and how each is proved

* **C01 bin_prot integer round trip.** Model `bin_write_integer`/`bin_read_integer` over `Int` with the range of i64; destination types as intervals. Case split on the writer's seven branches plus little-endian lemmas.
* **C02 Integer reads never truncate silently.** Specification: the partial function from lead byte and payload to the carried integer. Prove reader = specification followed by a range check, for all byte strings.
* **C03 Nat0 round trip.** As C01 for `Nat`.
* **C04 Integer and Nat0 encodings are canonical and shortest.** Prove length <= 9 and minimality against every accepted byte string. The code accepts the lone byte 0x80, which the writer never emits, so 128 has a shorter accepted encoding: prove the negation with that witness and minimality for every other value (`_partial`).
* **C05 Primitive values round trip.** Primitive codecs. `char` above U+00FF is truncated by the writer: negation witness, round trip for code points below 256 (`_partial`).
* **C06 Polymorphic-variant tags agree with OCaml and round trip.** OCaml's hash as a specification over unbounded integers mod 2^31 with sign; prove the written bytes agree for every label (wrapping arithmetic). Tag round trip fails at 2^31 and above: negation and `_partial`.
* **C07 Typed values round trip through to_writer / from_reader.** Universe `Ty` of serde types, `Val`, typing relation, encoder and decoder by structural recursion; round trip by mutual induction. u64 >= 2^63, char >= 256, enums beyond 256 variants and polymorphic variants with colliding or large hashes are excluded by a well-formedness predicate, each exclusion justified by a negation witness.
* **C08 Encodings are self-delimiting.** Corollaries of C07: prefix-freeness and injectivity.
* **C09 Decoder consumes a prefix and never invents bytes.** Induction over the decoder: consumed prefix, and stability under changing the suffix. Strings are read into a buffer claimed in advance, which panics for an announced length of 2^63 or more: negation for all such inputs; `_partial` theorem that there is no other panic, full theorem for types without strings.
* **C10 Strict decoding rejects trailing bytes.** Model of `BufReader` over an arbitrary chunking reader; `from_reader_strict` looks only at the internal buffer. Negation witness (boundary), and `_partial` theorem for readers that deliver the whole input in the first read (slices up to the buffer capacity).
* **C11 Decoding does not depend on how the stream is chunked.** `read_exact` over an arbitrary schedule of short and interrupted reads refines taking bytes from the list.
* **C12 Encoding does not depend on how the sink accepts bytes.** `write_all` over an arbitrary schedule refines appending; `write` used for floats and tags does not: negation witness plus `_partial`.
* **C13 Version wrappers.** `Versioned` as a serde struct; round trip for any nesting. The version is not checked on input: negation witness, `_partial`.
* **C14 Re-encoding accepted bytes.** decode . encode . decode = decode for every type; uniqueness is false: exactly the values with an integer of 32 bits, a string or sequence shorter than 2^32 or a polymorphic variant have a second wire form (`C14_malleable_fails`, by induction over the type: the wire forms of a value are compared part by part).
* **C15 Layout-driven decoding follows the layout's grammar.** Model the layout iterator as the stack machine it is, fuelled by input structure; recursive-descent specification; prove equality.
* **C16 Layout-driven decode then encode reproduces the bytes.** Value serializer; prove re-encoding yields the consumed bytes when integers are canonical, tags >= 256 and summand indices equal positions; negation witnesses for each exclusion.
* **C17 Layout-driven decoding agrees with typed decoding.** Derive layout from `Ty`; prove typed encodings decode under the layout and re-encode to the same bytes.
* **C18 Untrusted bytes cannot crash layout-driven decoding.** False for sum types whose index byte is out of range: negation witness. `_partial`: the only other panic is the refusal of an announced length of 2^57 or more (negation for all such inputs).
* **C19 Value indexing addresses the named part.** Model `index_into` and prove it equals the path specification.
* **C20 Merkle root depends only on the items.** State machine of the tree with its caches; invariant: every cached hash equals the recomputed one and a missing cached hash has missing ancestors. Holds for mergers that never return none and hashers that ignore the node position; false for every injective merger with a hasher that distinguishes depths 0 and 1 (`C20_every_depth_dependent_hasher_fails`) and for every merger that has no hash for two missing children but one for a left child (`C20_every_partial_merger_fails`); concrete witnesses besides.
* **C21 Batch insertion equals one-by-one insertion.** Corollary of C20/C22.
* **C22 Variable-height root is the complete binary tree root.** Specification: recursive complete binary tree over `List`; prove the array-indexed computation equals it by induction on height.
* **C23 Fixed-height root is the padded tree root.** Specification tree of height H padded with empty hashes; law of the Poseidon merger about empty children as hypothesis-free model of that merger over an abstract compression function.
* **C24 Every item has a valid inclusion proof.** Relate the sibling list to the specification tree's authentication path; induction over the height.
* **C25 Inclusion proofs are sound.** Injective hasher and merger as hypotheses; induction over the path. `C25_*_or_collision_partial` need no injectivity (which a hash into a finite field cannot have): either the item is a member or the path collides with the tree at one of its nodes.
* **C26 The root commits to the items.** Same hypotheses; induction over the height. `C26_same_root_or_collision*_partial` need no injectivity: either the items are the same or two nodes, two items or an item and the empty leaf collide.
* **C27 Malformed proofs are rejected.** Decision logic of `root_hash`.
* **C28 Merkle paths convert to equivalent proofs.** Fold specification; induction over the path.
* **C29 Node depth and height metadata.** Logarithms are computed in floating point in the code; modelled by exact integer logarithms (simplification, stated). Prove characterisation by powers of two.
* **C30 Chains have consecutive heights.** Induction over pushes.
* **C31 Chain selection returns one of the chains offered.** Induction over candidates.
* **C32 Short-range forks never lose length and ties are resolved deterministically.** Lexicographic maximum; permutation invariance.
* **C33 Fork classification is symmetric.** Case analysis.
* **C34 Fork classification decision rule.** Case analysis against an independent statement.
* **C35 Long-range forks are decided by density.** Case analysis of one candidate step.
* **C36 Relative minimum window density bounds.** Induction over the ring shift.
* **C37 Relative minimum window density follows the cited specification.** False: concrete witness; equality cases proved as `_partial`.
* **C38 Chain selection never panics on well-formed chains.** Panic-aware model; prove absence of the panic value under the hypotheses.
* **C39 Unverified blocks never enter the mainnet best chain.** Invariant over histories of offered blocks.
* **C40 Block verification covers every command.** Equivalence with a universally quantified statement.
* **C41 The Berkeley frontier's ledger belongs to its tip.** Invariant over histories; the state-hash comparison needs collision freedom between the old tip and the new block; witness otherwise.
* **C42 A failed block leaves the frontier unchanged.** Case analysis; holds because a single candidate is offered.
* **C43 Every delivered block is processed exactly once and in order.** Transition system with a bounded channel, invariants over all schedules.
* **C44 Best chain length never shrinks on short-range forks.** Invariant from C32.
* **C45 Genesis ledger iteration yields exactly the stored accounts.** Database as sorted key list with possible read error; prove filter characterisation without errors, negation with an error.
* **C46 Genesis ledger tree contains every account at its position.** False when an account fails to decode (the entry is dropped and later accounts shift): witness; a key outside the field ends the process (`C46_abort_fails`); `_partial` when all decode.
* **C47 Amount text round trip.** Decimal printing and parsing of naturals modelled on character lists.
* **C48 Amount parsing is exact.** False for more than nine digits and overflow: witnesses; `_partial`.
* **C49 Decimal JSON amounts round trip.** Trimming model; induction on digit lists.
* **C50 Memo text round trip.** List model of the memo bytes.
* **C51 Signed payload hash input distinguishes commands.** Model of the ROInput as fields and bits; injectivity for memos of equal length; variable-length witness.
* **C52 Chunked random-oracle packing is injective.** Mixed-radix argument, induction over pieces.
* **C53 Account hash input distinguishes permissions.** False: `Proof` and `Both` share an encoding; witness; `_partial` for the others.
* **C54 Account hash input distinguishes timing.** False: truncation to 32 bits; witness; `_partial` below 2^32.
* **C55 GraphQL permissions import is faithful.** False: increment_nonce is read from editState; witness; `_partial` for the other ten.
* **C56 Extended 32-bit wire numbers.** Two's complement arithmetic.
* **C57 List-tagged JSON enums round trip.** JSON documents as an inductive type; the macro first makes a `serde_json::Value` of a document (`asValue`: members by name, the last of a name counts), then moves the tag. Round trip by induction on the type, with the lemma that documents without repeated members read alike before and after (`de_asValue`). False for the macro on expanded arrays of length at most one, for malformed documents (panics) and for repeated members behind a tag; witnesses; `_partial`.
* **C58 Hexadecimal field elements.** hex codec model; panic on wrong length is a witness.
* **C59 Base58 texts of different kinds never collide.** Base58check as a parameter with its round-trip law; version byte table.
* **C60 Secret box JSON round trip and decryption.** Model of the key file's JSON text (read with the JSON reader of C111, written with line breaks as `to_string_pretty` does, Json/Pretty.lean), of its form (each member exactly once) and of its conversions (Secrets/Model.lean) over contracts of argon2 and xsalsa20poly1305; re-reading and re-writing proved, three failures as witnesses, every panic located.
* **C61 Block JSON round trip keeps every field.** False: protocol versions are skipped; witness; `_partial`.
* **C62 VRF output hash input distinguishes outputs.** Byte lists; false above 253 bits, at every output of 32 bytes (`C62_every_output_fails`); `_partial`.
* **C63 Messages can be read one after another from one reader.** BufReader model: one deserializer continues where it stopped (`_partial`); a second from_reader loses the first call's read-ahead: witness.
* **C64 JSON number strings.** `U32Json`/`U64Json` (common.rs 32-84) are modelled with the same decimal printing and `str::parse` model as amounts (Base/Text.lean). Proof: printing then parsing by induction on digits; acceptance characterised by an independent value-of-digits function.
* **C65 Account hash input distinguishes accounts.** Model of the chunked input of the whole account (Hash/Types.lean). Exact characterisation of equal inputs (`_partial`), witnesses for the absent delegate, long token symbols, zkApp data and the panic on byte strings that are not field elements.
* **C66 Protocol state body hash input distinguishes bodies.** Shape calculus (Hash/Shape.lean): every component has a fixed number of fields and fixed piece widths, so inputs of one shape can be taken apart. False for different list lengths: witness; `_partial` for equal lengths.
* **C67 State hash commits to the chain.** From C66 and collision freedom of Poseidon and SHA-256 stated only for the inputs at hand.
* **C68 Transfer builder.** The setters are a list of calls folded over the builder; induction over the calls.
* **C69 Memo text of any command can be read.** False: index and slice panics; witnesses including every builder payload without a memo; exact characterisation of readable memos as `_partial`.
* **C70 Legacy state hash commits to the chain.** Shapes of legacy inputs (number of fields, number of bits). False for different list lengths: witness for every state; `_partial` for real blocks.
* **C71 Legacy account hash input distinguishes accounts.** False: only token and balance are hashed; exact characterisation and witness.
* **C72 Accepted block documents can be written again.** Induction over the schema: what reading returns has version numbers 1, defaults in skipped fields and leaves that can be written (values decoded from base58/base64 fit the wire, by `decode_ok_iff`). False for characters that are not ASCII: witness.
* **C73 GraphQL import of protocol states is faithful.** Relation between documents and states in the API's keys and canonical texts (GraphQL/Spec.lean), every state has a document (GraphQL/Docs.lean). False for five hard-coded parts: exact result as `_partial`, witnesses for every state with other densities; absent flags are read as false.
* **C74 GraphQL import never drops a vesting schedule.** Timing in canonical form is imported (`_partial`); any unreadable part gives `Untimed`: proved for all documents whose balance or cliff time is no string.
* **C75 GraphQL import of accounts is faithful.** As C73; exact set of accounts that survive; witness for every account with a token symbol.
* **C76 Field elements and paths as JSON round trip.** Modelled in GraphQL/BestChain.lean: num-bigint's decimal parser (contract: optional plus, digits, underscores), the two readers of field elements, the derived serde forms of path nodes and paths. Round trips for all values; exact sets of accepted texts (specification Denotes in BestChainSpec.lean). False: numbers from the modulus on panic; proved.
* **C77 Import of the best chain document.** Modelled in GraphQL/BestChain.lean. Specification BestChainSpec.lean: what it means for a document to describe a state and ledger entries. Proved by induction over the members, on top of C73 (state) and C28 (paths). Refusal theorem for every malformed entry. False: empty paths and leaf hashes from the modulus on panic; proved.
* **C78 Ledger entries served by the Berkeley frontier are authentic.** Import followed by the frontier model of C41. Proved for histories whose documents are all honest (Frontier C41). False in general: nothing is checked; for every state and path a document with a wrong leaf is taken; proved.
* **C79 Wallet files open to the key they hold.** Modelled in Secrets/Model.lean; Argon2, XSalsa20-Poly1305 and Keypair::from_hex enter by contract (structure Crypto). Proved for every wallet with a memory limit below 2^42 and a 32-bit operations limit. False for larger memory limits, which are truncated: proved.
* **C80 Base58 texts are protected by their checksum and unique.** Specification HasChecksum/Corrupted in GraphQL/ChecksumProps.lean, on the reader models of C57-C59 and C72. Checksum theorems for all kinds and for public keys, with the error for every corrupted text. Uniqueness proved for memos and byte hashes. False elsewhere: every public key of even parity has 255 accepted texts, VRF outputs ignore the length byte, hashes accept any version number; proved.
* **C81 Polling hands over what can be fetched, under every schedule.** Model: the two polling loops with their retries, the fair read-write lock around the backend, the processor of C43 and any number of concurrent polls as one transition system (Frontier/Poll.lean). Proof: an invariant giving, for each poll, what it has sent and has still to send; a measure that every step of a call under way decreases; progress by cases on who holds what. The Berkeley loop stops at the first failing endpoint (`C81_berkeley_fails`), and before `run` a poll can block a settings change for ever (`C81_not_running_fails`). Not modelled: panics of `set_api_list` on non-string array members.
* **C82 Wallet requests say what the caller asked.** Model: the format strings and the reading of fees and amounts (Wallet/Query.lean). Specification: GraphQL's lexical grammar as an automaton (Wallet/Spec.lean) and the intended document as a list of tokens. Proof: the automaton is compositional; a text without quotes, backslashes and control characters is one string token. Texts are not escaped: `C82_injection_fails` (one call, two payments), `C82_any_request_fails` (whoever gives the receiver can make the one request ask for any fields, and pay anyone from anyone), `C82_backslash_fails`, `C82_escapes_fails` (what the node is told for every password with one backslash), `C82_quote_fails` (every password with a quote), and the nonce, memo and expiry are never sent (`C82_rest_fails`). Not modelled: the HTTP request and the JSON string around the query (serde_json), how JavaScript prints numbers.
* **C83 The crawler files every listed block once and correctly.** Model: the two folders as maps from names to contents, the checks of a run interleaved at their one await, answers as events, kills while waiting or after any number of written bytes (Crawler/Model.lean). Proof: invariants over all histories (what each file holds; a block being fetched is in no folder), a run invariant giving each check's progress, injectivity of the file names. Witnesses: a kill while writing leaves a truncated file that later runs trust (`C83_killed_fails`), a list naming a block twice (`C83_repeated_fails`), a document on which parsing panics ends the run (`C83_panic_fails`; `C83_signature_fails` exhibits such a document for the real verdict, whose parse includes the conversion to the in-memory block). Simplified: deleting a file succeeds, names contain no path separator, folders exist.
* **C84 The layout reader prints what the file holds.** Model: the choice between text and bytes, decoding by the layout, the comparison with the re-encoded value (BinProt/ReaderTool.lean), on top of the loosely typed layer's model. Proof: the text reading from the hexadecimal specification of C58; the printed value from the exact grammar of C15/C16, for layouts within their hypotheses; soundness of --roundtrip for all layouts. Witnesses: a binary file that consists of digit bytes is taken for text (`C84_binary_digits_fails`), text with a line break at the end for bytes (`C84_line_break_fails`), trailing bytes unnoticed without --roundtrip (`C84_trailing_fails`). The reading of the layout document is C85. Not modelled: the form of the print.
* **C85 Layout documents are read as the layouts they describe.** Model: reading of rules and layouts from JSON values as serde derives it (BinProt/LayoutDoc.lean): untagged lists of one to three items, structs as objects or lists, last value of a repeated key inside rules, repeated keys refused at the top. Specification: the grammar of documents as mutually inductive relations (LayoutDocSpec.lean). Proof: soundness by induction on depth, completeness by induction on the grammar, existence by a canonical document. Composed with C84 for the whole tool. Witness: the derived writer uses another format, so that no written layout can be read (`C85_written_fails`, for every rule). Files (BinProt/LayoutText.lean): one JSON value of any depth is read from the text and the rest is not looked at (`C85_text`, from the JSON grammar of C111), every expressible rule has a file (`C85_every_file`), and a file that holds more than one layout is read as its first (`C85_second_layout_fails`). Not modelled: stack depth, files that are not UTF-8, the leniency of the reader in members that it skips.
* **C86 Genesis blocks are the documented ones.** Model: the constructors of the genesis blocks with the actual texts of the code, decoded by the models of base58check, base64, hex and SHA-256 (Genesis/Model.lean; Hash/Sha256.lean models SHA-256 itself, FIPS 180-4, so that no checksum is assumed). Specification: the documented texts, described from the bytes upward (Genesis/Spec.lean). Proof: the two hard-coded states are single values, evaluated in the kernel; the statements on configurations, chains and selection hold for all inputs. That the hash of the state can be computed comes from `C67_no_panic_iff` and `C70_no_panic_iff`. Disagreement: the product for the density overflows 32 bits for large configurations (panic with overflow checks, truncated otherwise). The proof of the genesis block is only copied and not modelled. The actual checksum also discharges the hypotheses of C60, C73, C77 and C80 (Genesis/RealProps.lean).
* **C87 Field elements are read in any radix.** Model: `BigUint::from_str_radix` and the conversion to 256 bits and to the field (Genesis/Model.lean). Specification: digits by their position in two alphabets, positional values (Genesis/RadixProps.lean). Proof: induction on the text with the accumulator; existence by strong induction on the number. Disagreement: numbers of 256 bits that are not below the order, and a radix outside 2 to 36, abort the program instead of giving an error (`C87_refusals`, `C87_bad_radix`, `C87_modulus_fails`).
* **C88 Block times denote the instants they count.** Model: `datetime` with the cast to i64, division toward zero, the range of the `time` crate and its carry of milliseconds (Genesis/BlockTime.lean); the crate's calendar is not modelled, a date is the instant it denotes. Proof: linear arithmetic for all 2^64 block times. The range is compared with the Gregorian rule (`C88_range`). Disagreement: block times beyond the year 9999 abort, and those near 2^64 are shown before 1970 (`C88_beyond`, `C88_wraps_fails`).
* **C89 A node reads back the blocks it writes, and reading a block loses only version numbers.** Model: a description `BTy` gives the node's type, the wire type and both conversions; the whole block down to its leaves is such a description (Block/Model.lean), and its wire type is the one of C61 by computation. Spec: `Canonical`, `Small`, `InMemory`, `setVersions` (Block/Spec.lean) by recursion over the description. Proof: mutual induction over descriptions, so nothing depends on sizes; reading and writing compose with C07, C09 and C10. Disagreements: a key or signature that is not made of field elements aborts the process (`C89_reading_never_aborts_fails`; exactly those, `C89_accepts_iff_canonical`); 64-bit numbers from 2^63 on are written but not read; version numbers are ignored on reading and written as 1, so relayed bytes can differ (`C89_relay_keeps_bytes_fails`; every block is accepted under every version number, `C89_every_label_accepted_fails`; nothing else is lost, `C89_forgets_only_versions`). The polymorphic-variant and strictness limits of C07 and C10 carry over.
* **C90 Accounts stored in the ledger database are read as written, byte for byte as documented.** Model: the two stored formats as descriptions of the kind used for blocks (C89), with the bijections to the node's structs written out field by field (Account/Model.lean). Spec: the byte layout of both formats written down without reader or writer (Account/Spec.lean). Proof: layouts are the forms of C89 (`form_account`, `form_legacy`), then the generic block theorems. The repository's two sample accounts are reproduced byte for byte as examples. Disagreements: numbers from 2^63 on are written and then not read (`C90_big_balance_fails`, characterised by `C90_write_then_read_partial`); a key that is not a field element aborts the process (`C90_reading_never_aborts_fails`; any account becomes such bytes by replacing its key, `C90_other_key_aborts_fails`); version numbers of the older format are not checked; the older format lists the vesting increment before the vesting period while everything else has them the other way round, so the repository's own sample account, whose numbers are 1 and 0, is read as one with period 0 (`C90_example_vesting_fails`).
* **C91 The root of the genesis ledger is the root of the accounts in the database and commits to them.** Model: Ledger/AccountModel.lean composes the database reader (C45), the two account formats (C90), the account hash (C65) and the merkle tree (C19-C26) with the code's domain strings and empty-leaf constants; the sponge is a function `H : String -> List Fp -> Fp`. Spec: `Holds` says by the byte layout of C90 what the entries are, `fullLedgerRoot` is the textbook tree. Commitment is stated without assuming that the hash is injective, which no hash into a finite field is: equal roots give equal accounts or two different inputs of `H` that occur in the two trees and collide. Disagreements: a stored key outside the field aborts while building (`C91_build_aborts_fails`, `C91_bad_key_aborts`), a receipt chain or voting hash outside the field aborts when the root is asked for (`C91_root_aborts_fails`, `C91_unhashable_aborts`: always); the older format hashes only token and balance, so owners can be exchanged under the same root (`C91_legacy_root_ignores_fails`); undecodable entries are C46.
* **C92 Writing a block to a JSON document and reading it back returns the block.** Model: Block/JsonModel.lean composes the conversions between the node's types and the wire types (C89) with serde's reading and writing of document trees (C61). Spec: `plainVersions` (protocol version 2.0.0 and none proposed), `Shown` (the digests of completed works are UTF-8 and their branches ASCII), with the path to each part spelled out. Proved: write then read gives `plainVersions b` for every `Shown` block; every other block cannot be written (`C92_unwritable`); equal documents exactly for blocks equal up to protocol versions; what was read can be written and read unchanged. Disagreements: the protocol version is lost (`C92_protocol_version_fails`); a block that passes the wire unchanged cannot be written as a document (`C92_unwritable_fails`); a document with a signature outside the field aborts the process (`C92_reading_aborts_fails`). Not modelled: the text of the document, which serde_json makes and parses.
* **C93 A list of field elements is written in hexadecimal and read back unchanged, and malformed text is refused.** Model: Json/HexVec.lean, the loop over 64 characters at a time. Spec: `Spells` (digits of a byte string, from C57) and `Prefixed`, `allBytes`. Proved by induction on the list and on the text: the exact set of accepted texts with the value of each, round trip, injectivity. Disagreement: hexadecimal text that is not a whole number of elements aborts the process (`C93_ragged_fails`).
* **C94 Printing a hash, key, memo or point and parsing the text gives the same value, and texts of other kinds are refused.** Model: Json/StrConv.lean on top of the JSON leaves of C59-C61 and base58check of C55. Spec: `Shows` (characters below 128, coordinates below the modulus, everything else always), `byte` (the version byte of each kind, written out). Proved by cases on the type: round trip, injectivity, refusal between different version bytes, parsed values can be printed. Disagreements: VRF output hashes parse as VRF outputs, ledger hashes parse as chain hashes, characters parse from longer texts, non-ASCII characters and points outside the field cannot be printed.
* **C95 Integer fields marked with an encoding are written and read like plain ones, and the checker tool reads what it wrote.** Model: BinProt/Adapters.lean, the serialize_with/deserialize_with functions as writer operations and reader programs, and the tool's table of types. Spec: equality with the plain encoder and decoder of C01-C03. Disagreement: the reader does not implement handing over raw bytes, so marked fields are never read (`C95_read_fails`); the theorem for other formats (`C95_visitor`) shows the adapter itself is right.
* **C96 Node status lines reach the listener once each and in order, and the stream ends when the peer ends it.** Model: Status/Model.lean, a stream is a list of arriving pieces and failures; the reading loop is run for any number of rounds. Spec: Status/Spec.lean, `lines` splits the whole received text, `delivered`. Proved by induction on the number of rounds and the pieces: the statuses handed over (`C96_updates`), independence of the pieces, what a line says, exactly when the loop ends. Disagreements: the loop never ends when the peer closes the stream (`C96_never_ends_fails`); connecting reports success exactly when dialling failed (`C96_connect_fails`); a page that is asked by another one answers nothing, and the one that asked waits without end (`C96_asked_fails`). What a line says is modelled too (Status/Line.lean: base64, UTF-8, JSON, the six fields, the message for the page) and compared with the grammars of RFC 4648 and RFC 8259 (`C96_says`); `C96_on_the_page` joins this with C113. Not modelled: the 60-second timeout of libp2p that may cancel the loop.
* **C97 What is hashed and signed is laid out as tabulated.** Spec: Hash/LayoutSpec.lean, flat tables of numbers with widths, written without any function that builds or packs inputs; packing is a relation on groups of numbers (`Packed`, shown to have at most one solution) or on positions in the bit sequence (`PackedLegacy`). Model: the existing Hash/Types.lean, LegacyState.lean, Command.lean, RO.lean. Proved by relating every builder to its table (`Laid`, `LaidL`) and C52's packing theorem. Hypothesis: the hashes in the value are encodings of field elements; C65, C67 and C70 show that this is exactly when hashing does not panic.
* **C98 What a page is told about the best chain belongs to one moment.** Model: Frontier/Query.lean adds questions to the processor of Frontier/Model.lean; an answer needs a read guard. Spec: the inductive `Told` (blocks handled whole, answers in between), `MainnetRight`, `BerkeleyRight`. Proved by an invariant over schedules, C39, C41, C43 and the JSON round trip of Json/ for protocol states (which holds without any condition). Disagreement: the last sentence is false across calls, because each call takes its own guard (`C98_two_calls_fails`); it holds if no block was handled in between. Simplifications: guards are not told apart; `to_string` of a field element is a parameter; documents are trees.
* **C99 The log text of a page holds every record since it was cleared, once and in order.** Model: Log/Model.lean, the logger, the page's text and the level filter and logger slot of the `log` crate. Spec: `Kept`, `Logged` by positions in the history, `InOrder`, `lines`. Proved by an invariant over histories. Disagreement: a message with a line break looks like two records (`C99_line_break_fails`); the last sentence holds for records of one line and targets without brackets, as module paths are.
* **C100 A transport belongs to the identity it was made with and to the network that was configured last.** Model: P2P/Model.lean, the builder as a fold over its calls; a transport is the list of its layers, Blake2b and the peer id are parameters. Spec: `InForce` (the call that gave the value and none after it). Proved by induction over the calls.
* **C101 Every build follows a Merkle path to the same root.** Model: Merkle/Release.lean, the functions of paths and proofs with wrap-around arithmetic for words of w bits. Proved: with 64 bits a release build agrees wherever the checked build answers (`C101_release_agrees`, all proofs); for any w the indices of a converted path are the true ones modulo 2^w (`C101_release_indices`, induction over the path); in a browser paths of up to 31 nodes agree. Disagreement: with 32 bits the second account of a ledger of 32 or more levels makes the conversion panic and the proof of the first account of a ledger of 33 or more levels is refused; mainnet ledgers have 35.
* **C102 Numbers and points of a proof become the field elements and points they stand for.** Model: Curve/Model.lean, reading the four limbs, comparing them with the modulus limb by limb, and the conversions of elements, points and vectors. Spec: `IsElem` (little-endian value below the order), `IsPoint`, `Each`. Proved by induction over limbs and vectors. Disagreements: numbers that are not below the order abort (`C102_too_big_fails`, with the exact condition), points off the curve are converted (`C102_off_curve_fails`).
* **C103 The page is told the predecessor that the block's document names.** Model: Page/PrevHash.lean, the retried download, the JSON reader of C111, the block reader of C61 and the base58 writer. Spec: `PreviousIn` (the member of the document), `Names` (base58check of the byte 0x10, a wire form of the version number and 32 bytes), `Downloaded`. Disagreements: a text that writes the version number in more bytes than needed comes back as another text (`C103_same_text_fails`), and nothing checks that the block is the one asked for (`C103_requested_block_fails`).
* **C104 The page asks the endpoints and accounts that were set last.** Model: Page/Settings.lean, the calls, the sets, the text of the request and the retried download; the answers of the endpoints and the order of a hash set are parameters. Spec: `SetLast`, `Once`, `Polls` and, in Page/RequestSpec.lean, selection sets of GraphQL with the tokens of their texts (lexer of C82, extended by integers). Addresses are proved to be names (`C104_address_is_name`, from C105). Disagreements: an item that is no string aborts while the lock is held, so that nothing is ever asked again (`C104_not_string_fails`); account texts that are no names are pasted into the request as they are (`C104_injection_fails`, and for every list of fields there is an account text that has them asked for as well, `C104_any_request_fails`); what is typed into the page's own boxes is passed as one text, whose characters become the endpoints or accounts (`C104_typed_fails`).
* **C105 Hashes and keys can be told apart by how they look.** Model: that of C58 (texts of the named types) and Codec base58. Proof by the size of the number: the leading digits of a base-58 number of known length are fixed by its leading bytes (Json/Prefix.lean). Spec: `look`, `Looks`. Keys are never read from anything else (`C105_address_read`). Disagreement: a state hash is also read from a text that begins with 3S, because the version number inside is not checked (`C105_read_fails`).
* **C106 The imported best chain is the one that was asked for, with the ledger of the genesis block as its genesis ledger.** Model: `patch` of Page/Settings.lean (the script's assignment, including what a script does with missing members) and the import of C73 and C77. Spec: `stateIn`, `genesisIn`, `SameBut`, and `answered`, the part of a document that a selection set asks for (Page/RequestSpec.lean); the request that is really sent has the tokens of that selection set by C104.
* **C107 Every call of the Berkeley page returns, and calls take effect in the order they are made.** Model: Page/System.lean, a transition system: calls (tasks) wait for the fair lock on the backend, for answers, for room in the channel of one document, or for the lock on the frontier; a panic keeps the lock it held. Spec: `callsOf`, `Finished`, `Quiet`, `Asks`, `Grown`, and `inTurn`, the page of C104 after the calls in turn. Proof: invariants over all runs, and a lexicographic measure for termination. It fails, as stated, for a page that does not run the processor (`C107_not_started_fails`: the channel fills up, the poll keeps the backend locked, later settings wait for ever), when taking over a document panics (`C107_panic_fails`, with `C107_empty_path_fails` as a document that does), and after a setting with an item that is no string (`C107_abort_fails`).
* **C108 A wallet function sends one request and returns the node's answer.** Model: Wallet/Call.lean (the body as `serde_json` escapes it, one `post`, and the three ways a call ends); the node is a parameter (it answers any request with any text, or not at all); the answer is read as `serde_json` reads any document (`Json.parse`, C111) and passed on as `serde_json::Value` prints it (`asValue`, `print`). Spec: what the page gets is the text of a document that says the same (`Grammar.Same`: equal up to the order of members, the last of repeated members counting) with its members sorted, and this determines it (`C108_determined`); the grammar of JSON strings (`ReadsString`, RFC 8259 without surrogate pairs) and of GraphQL tokens (C82). The last sentence fails: `unwrap` aborts the program (`C108_unreachable_fails`, for every call and every node that fails).
* **C109 The browser's 32-bit build decodes binary data as the native build does.** Model: BinProt/Words.lean, the decoder of BinProt/Serde.lean with `usize` of 32 bits: list lengths are converted to `usize` with a check, string lengths are cut (`as usize`) and a buffer of 2^31 bytes or more cannot be claimed. Spec: `Names n s`, a number of at least n stands in the bytes s in one of the wide forms. Proof: a relation between the two decoders, by induction over the type (`decode_follows`). The statement fails for strings: a length above 2^32 is cut, so the browser accepts bytes the native build refuses (`C109_cut_length_fails`). True parts: every type, when no number of 2^31 or more stands in the bytes; every type without strings (blocks, accounts), where the browser can only refuse more.
* **C110 What decoding costs is bounded by the bytes given, not by the lengths they announce.** Model: `Prog.requests` (BinProt/Words.lean), the sizes of the buffers a decoder asks its reader to fill, in order, up to the first error. Spec: `items` (list items and string bytes of a value), `SolidLists` (every list's items take at least a byte). Proof: induction over the wire relation of C09 for the value, over the type for the requests (`decode_modest`). Two parts fail: a list of items that take no bytes is as long as announced (`C110_free_items_fails`), and a string's buffer is claimed before its bytes are seen (`C110_claims_ahead_fails`). Proved for every type: the number of requests. Proved with `StringFree`/`SolidLists`, met by blocks and accounts: the rest.
* **C111 The text of a block is JSON that says its document, and exactly the JSON texts are read.** Model: `print` and `parse` (Json/DocText.lean), transcriptions of `serde_json::to_string` and `from_str`; `intoJsonText`/`fromJsonText`, `Block.tryIntoJsonText`/`tryFromJsonText`, `StrConv.fromStrText`/`toStrText` are the functions of the code with the text in between. Spec: the grammar of RFC 8259 as inductive relations (Json/Grammar.lean). Proof: `parse_iff` by induction on the fuel (soundness) and on the derivation (completeness), `print_value` by induction on the document, `ser_flat` (documents of a type are plain and as deep as the type) by induction on the type.
* **C112 The JSON of a block has the form the Mina tools use.** Spec (Json/SchemaSpec.lean): a small language of document forms with `Doc.Is` (has exactly this form) and `Doc.Covers` (has at least these parts), and the form of a block as a table. The table was compared with the mainnet block documents in /repo/protocol/test-fixtures: all have it (apart from the extra `scheduled_time` that the explorer adds); the genesis document there is of another form. Proof: `ser_form` and `de_covers` by induction on the type, with the leaf texts from C49/C60/C105; that the types of the model give the table is a definitional equality.
* **C113 Messages between the page and the program arrive as they were sent.** Model (Proto/Model.lean): the writer and reader of the page's three messages, transcribed from the TypeScript files (a byte buffer with an offset, 32-bit numbers that wrap, strings as 16-bit units), and the bytes that the protobuf crate writes and reads for the same messages on the program's side (trusted; the crate is not in a lock file, so what it does with tags above 32 bits is a parameter `Lib`). Spec (Proto/Spec.lean): the wire format of protobuf as relations (`IsVarint`, `Written`, `Message`), what a field says (`Says`), and `Shown`. Proof: both writers produce a `Message` (`writeFields_message`, `encode_message`), both readers read every `Message` (`decode_message`, `parseLoop_message`), by induction on the derivation; UTF-8 against UTF-16 by arithmetic on code points. Fails for strings with an unpaired surrogate (`C113_unpaired_fails`).
* **C114 The page reads every protobuf message of its types, in any order, and refuses what is cut short.** Model and spec as for C113; the reader's loop is `decode table bs n`, `n` rounds of it, with `running` when it has not ended. Proof: `rounds_message` by induction on the message, `rounds_cut` for a message followed by a proper part of a field. Groups are `WithGroups`; the program skips them at any depth (`C114_program`). The property fails in five ways: a length of 2^32 - 6 in an unknown field sends the reader back to the start, so it never ends (`C114_endless_fails`); a `bool` in two bytes is taken for a `bool` and the end of the message (`C114_long_bool_fails`; for all fields before and after it, `C114_cut_by_bool_fails`); a field of number 0, which no message has, ends it silently (`C114_number_zero_fails`); an unknown group makes the page throw (`C114_group_fails`); a known field of another type is not skipped (`C114_other_type_fails`).
* **C115 The list of peers on the page shows each peer that has reported, with its last status.** Model (Proto/Page.lean): the page's listener, its button, its two counts and the cells of a row. The property is false: the page asks for `peerId` where the message has `peer_id`, so every status goes into one row labelled `undefined`, whose other cells are empty except for `connected` (`C115_label_fails`, `C115_count_fails`). Proved of what is left: by induction on the events, no row before the first status, then one row that holds the status that arrived last (`C115_last_partial`). Not modelled: the rendering by Vue and the delivery of events by `EventEmitter` (C96 has the order in which the program sends them).
* **C116 Nodes that know the same chains agree on one.** Model as for C35 to C39; the statements are in Consensus/Agreement.lean. `Regular` says that a tip has the shape of mainnet (epochs of 7140 slots, eleven sub-windows of at most seven). Proved: two nodes with regular tips agree after one exchange (`C116_two_nodes_partial`, from the fact that `Preferred` is asymmetric and total up to the key); for tips in one slot that are pairwise long-range forks the result is the greatest by density, length, digest and hash, by induction on the candidates, so their order does not matter (`C116_long_range_order_partial`); for any number of nodes and any sequence of offers, by induction on the sequence, whoever has heard from the holder of the best tip has a tip with the same key, when all forks are short-range (`C116_gossip_short_range_partial`) or all are long-range and in one slot (`C116_gossip_long_range_partial`). The property fails otherwise, with regular tips: short-range and long-range forks together make the order matter (`C116_order_fails`) and lead a node in a circle (`C116_circle_fails`), and so do long-range forks in different slots (`C116_slots_circle_fails`); with a malformed window two nodes keep their own chains (`C116_bad_window_fails`).
* **C117 The block types have the wire form the shipped layouts describe.** The three layouts are transcribed mechanically from the JSON files to `Rule` terms (`Layouts/ProtocolState`, `SnarkWork`, `ExternalTransition`; that the reader of layout files gives such terms is C85). `Spec.content` and `Spec.contentOf` list what a layout-driven and a typed value hold, with the field names around it. `agree` (`BinProt/Agree.lean`) compares a type with a layout part by part; two inductions show that if it says yes, the grammars of C15 and C01 describe the same bytes with the same content, and the kernel evaluates it on the three pairs. States and snark work agree for all bytes, except that the layout allows numbers that do not fit the Rust types (`C117_state_overflow_fails`). Blocks agree where neither a failed command, nor a coinbase `Two`, nor a command the types lack occurs; each of these is shown to differ on a whole block (`C117_failed_command_fails`, `C117_coinbase_fails`, `C117_new_token_fails`). Names that differ are listed in `Layouts/Spec.lean`. No Rust type reads `verification_key.json`, so it is left out.
* **C118 Reading a JSON document never ends the process.** `Spec.Part` says which parts of a document are read as which types, `Spec.Aborting` lists the parts that end the process (`Json/AbortsSpec.lean`): no list where an enumeration is expected, a field element of a length other than 32 bytes, an empty text for a character, an amount of 2^64 or more in a build with overflow checks, and, for a checksum function for which that is possible, a base58 text with nothing but a checksum. By induction on the type, reading gives a value or an error when no part is one of these (`C118_reading_ends_partial`), each of these ends the process (`C118_listed_parts_fails`), no document that is read has one (`C118_read_documents`), and no text is ever made of other bytes (`C118_no_undefined_behaviour`). For the text of a block the key and signature ranges of C92 are added (`C118_block_text_partial`).
* **C119 Importing a GraphQL answer never ends the process.** Model: that of C55 and C73 to C77. Permissions, timings, accounts and states never panic with the checksum that is used, the double SHA-256 (`C119_parts`). A best chain document never does unless an entry of its ledger has a hash or a leaf beyond the field, no path, or a path of 64 nodes or more (`C119_import_partial`, `Spec.Hazard`). Disagreement: `C119_import_fails` says exactly which documents end the process, in the order in which their parts are read (`Spec.EntryAborts`).
* **C120 The crawler checks the blocks it asked for and writes only into its folders.** Model: `Crawler/List.lean`, the text of the query, the reading of the answer and the resolution of paths. Theorems: for a number the request is the right one (`C120_request`), exactly the blocks an answer lists are checked and every other answer ends the process first (`C120_answer`, with `Spec.Lists`), the place a document is written to for every name of a block (`C120_places`), it is the one looked at before (`C120_looked_at`), and never outside (`C120_inside`). Disagreements: any other text is put into the query as it is, so that the request asks for whatever the text says (`C120_any_limit`, `C120_limit_fails`); a listed hash with a path separator ends the process when its document is retrieved (`C120_separator_fails`).
* **C121 Writing or reading a value of any type gives a result or an error.** Model: `BinProt/SerdeAll.lean`, a value as the calls it makes on a serializer, what the writer has received and why writing stopped, and the remaining requests of a deserializer. Theorems: which values are written and what the first obstacle does (`C121_writes_iff`, with `Spec.obstacles`), every type of the universe of C07 is written as described there (`C121_described`), other requests are refused (`C121_refused`), how maps are read (`C121_map_read`). Disagreements: maps panic when written (`C121_map_fails`, exactly when), an error leaves the parts before it in the writer (`C121_half_written_fails`), borrowed texts and self-describing types panic on every input (`C121_requests_fails`), bytes are written but never read (`C121_bytes_fails`), every key of a map that is read is empty (`C121_keys_fails`) and an announced length can end the process (`C121_map_length_fails`). Not modelled: maps whose keys are no texts, which are refused unless empty.
* **C122 The printed form of a hash input determines it.** Model: `Hash/Display.lean`. Theorems: the lines that are printed (`C122_lines`) and that they determine the input (`C122_display`), by cutting the text at its line breaks and the decimal numbers at the characters that are no digits.
* **C123 The commands of an accepted block were authorised by those who pay for them.** Model: `Frontier/Signed.lean`: `from_payload`, the verification context of a network and blocks with all their fields, over an arbitrary signature scheme. Theorems: what the signatures of an accepted block satisfy (`C123_accepted_partial`), that commands signed for mainnet are never refused if the scheme is correct (`C123_honest`), and that a signature fits no other payload with a memo of the same length and no other network unless a hash collision is at hand (`C123_replay_partial`, if a signature fits one challenge only). The property fails in three ways, each for all schemes, keys and blocks: the signer need not be the fee payer (`C123_payer_fails`), commands can be repeated within a block and across blocks (`C123_again_fails`), and the proofs, works, coinbases and statuses are not looked at, so that a block without commands passes with any protocol state (`C123_proofs_fails`).
* **C124 The payment page sends what it shows, and a password only for its account.** Model: `Page/Pay.lean`, the handlers of the page up to the call each waits for and after it, as a transition system over the events of a session; `JSON.parse` and `JSON.stringify` are parameters. Spec (`Page/PaySpec.lean`): the account, the password and the text the page holds, told from what was seen. Theorems, by induction over the session: `C124_payments` in full for payments, `C124_unlock_partial` for the account and origin of the password, `C124_answers_partial` when no other call is under way. The property fails for passwords, which are sent for every other account (`C124_other_account_fails`) and cannot be corrected (`C124_mistyped_fails`), and for overlapping calls (`C124_order_fails`).
* **C125 A derived conversion carries every field to its namesake, and back.** Model: `Derive/Model.lean`: the macro as a function from definitions to implementations, and what an implementation does to a value; what `.into()` does to a part is a parameter, and code that the compiler refuses has no result. Spec (`Derive/Spec.lean`): definitions, values and what it means that a value is carried over, without the written code. Theorems: `C125_derived_partial` and `C125_back_partial` for every definition with fields or variants and ordinary paths, by induction over the fields (the four groups of named fields are a permutation of them; positions and the names `v0`, `v1`, … are distinct); `C125_which_partial`, the types between which there are conversions; `C125_versions`. The property fails for types without fields, for which nothing is written or the compilation ends (`C125_empty_fails`, exactly when), for variants with empty brackets (`C125_brackets_fails`) and for types in a module with the name of a container (`C125_path_fails`); in the last two the written code does not compile.
* **C126 The Berkeley node survives every answer of the server and tells pages only what an answer said.** Model: `Frontier/Berkeley.lean`, the importer of C77, the state hash of C67, chain selection of C33–C40 and the processor of C43 put together as the code does. Spec (`Frontier/BerkeleySpec.lean`): which documents are read and as what, which stop a node with a given tip. Theorems: exactly which documents stop the node, whatever it has handled before (`C126_stops_iff`), nothing else does (`C126_only_these_stop`), harmless documents keep it going under every schedule (`C126_keeps_going_partial`), which document's block becomes the tip and which ledger goes with it (`C126_tip`, from a separate account of the consensus rules over protocol states), what pages are told (`C126_told`) and that answering does not panic (`C126_answers`). Proved by showing that hashing first is the same as a conversion that hashes, which carries over C43 and C98, and that all imported states share the epoch length and window, so that only the epoch counters can make chain selection panic. The property fails for all other documents, for ever (`C126_stopped_fails`): an empty path in the answer for one account (`C126_empty_path_fails`), a hash that is not a field element (`C126_no_field_fails`), the last epoch of a `u32` (`C126_last_epoch_fails`).
* **C127 A block that the frontier asks for is fetched and handed to it.** Model: `Frontier/Requests.lean`, the two loops, the two channels of capacity one, the write lock of the backend and polls as a transition system, over an arbitrary frontier that may send requests. Spec (`Frontier/RequestsSpec.lean`): what a frontier does when it is handed blocks one after another, how a request is answered, and when the loops wait for each other. Theorems, by an invariant over schedules: which requests are made (`C127_asked`), that they are served in order and once (`C127_queried`), what they are answered with and that the answers arrive (`C127_answered`), exactly when nothing can happen any more (`C127_stuck_iff`), never with a frontier that asks for nothing (`C127_no_deadlock_partial`). The property fails in three ways: the frontiers there are never ask (`C127_never_asks_fails`), a frontier that asks for one block per block can block the processor for ever (`C127_deadlock_fails`), and on Berkeley net the answer does not depend on the request (`C127_wrong_block_fails`).
* **C128 The mainnet node survives whatever blocks it is sent.** Model: `Frontier/Mainnet.lean`: the parts of a decoded block that are used, conversion, verification, chain selection and hashing together, as the message processor runs them. Spec (`Frontier/MainnetSpec.lean`): the values of a block by their names, which blocks stop a node with which tip, in terms of the fields of the two states, and what a block makes of the best chain. Theorems: exactly which blocks stop a node, with any frontier (`C128_stops_iff`), that they stop it for ever and nothing else does (`C128_stopped_fails`, `C128_only_these_stop`), the node keeps going on harmless blocks (`C128_keeps_going_partial`), the best chain holds only blocks sent whose commands are valid (`C128_chain_valid`), which block is the tip (`C128_tip`), and that the values used are those of the same names in the block (`C128_state_parts`, `C128_command_parts`). The property fails: one signer that is not on the curve stops every node (`C128_bad_signer_fails`), and a first block whose state hash cannot be computed is taken and stops the node when the next poll delivers it again (`C128_repeat_fails`), or panics the module when the page asks for its hash (`C128_asking_fails`). What a page is told of the state hash is otherwise right of the blocks sent so far (`C128_told`). `Frontier/MainnetDocs.lean` models how the texts that the server answers become blocks: a poll sends the blocks of the texts that can be read, in order (`C128_poll_partial`, `C128_poll_ends_partial`), and the blocks that stop a node have texts that are read (`C128_text_bad_signer_fails`, `C128_text_repeat_fails`).

## What is modelled

Line numbers are in the comments of the definitions; this is the map from crates to Lean directories.

| crate of /repo | modelled | in |
|---|---|---|
| `protocol/bin-prot` | reading and writing of every primitive, the serde `Serializer` and `Deserializer`, `Integer`/`Nat0` adapters, polymorphic variant hashes, `from_reader`, `from_reader_strict`, `to_writer` over short, interrupted and failing I/O, the loosely typed `Value`, its layout iterator, its serializer and its index operations | `BinProt/` |
| `protocol/versioned`, `protocol/serialization-types-macros` | `Versioned`, version macros, the macro `AutoFrom` and the conversions it derives | `BinProt/SerdeProps`, `Derive/`, `Block/`, `Json/` |
| `protocol/serialization-types` | every type of a block and of a stored account as a schema, their JSON forms, base58check/base64/hex/decimal leaves, version bytes | `Json/`, `Block/`, `Account/` |
| `protocol/layouts` | the layouts of protocol states, snark work and blocks, as terms, compared with the Rust types | `BinProt/Agree`, `BinProt/AgreeSpec`, `Layouts/*` |
| `protocol/bin_prot_checker`, `apps/bin-prot-layout-reader` | the whole tools, from the input bytes to the answer | `BinProt/Adapters`, `BinProt/ReaderTool`, `BinProt/LayoutDoc`, `BinProt/LayoutText` |
| `base` | numbers, amounts, currencies, block times, memos, builders, the hash inputs of accounts, states and commands, block verification, conversions from and to the wire types, GraphQL imports | `Base/`, `Hash/`, `Block/`, `Account/`, `GraphQL/`, `Genesis/BlockTime` |
| `crypto` | hash types, their texts, their bytes, prefixes, SHA-256 | `Hash/`, `Json/`, `Genesis/` |
| `proof-systems-shim` | hash input builders and their packing; field elements as numbers below the order | `Hash/RO`, `GraphQL/BestChain` |
| `merkle` | trees in both modes with their cache, proofs, paths, hashers and mergers, metadata with the error of `f64` logarithms | `Merkle/` |
| `ledger` | genesis ledgers over a database or a list, roots, accounts from stored bytes | `Ledger/` |
| `consensus` | chain selection, fork ranges, window densities, candidate checks, genesis constants and blocks | `Consensus/`, `Genesis/` |
| `network` (processor) | both transition frontiers, processor loops, channel, locks, polling of both GraphQL backends | `Frontier/`, `GraphQL/BestChain` |
| `network` (p2p) | configuration and builder of the transport | `P2P/` |
| `secrets` | key files: JSON form, conversions, decryption, wallets | `Secrets/` |
| `apps/wasm/*` | the functions pages call: questions, polls, wallet requests, node status stream, log; the pages themselves where they hold state or write messages | `Frontier/Query`, `Frontier/Poll`, `Wallet/`, `Status/`, `Log/`, `Page/`, `Proto/` |
| `apps/tools/blocks-crawler` | the crawler with its folders, kills included | `Crawler/` |

## What is not modelled

* Code of other crates.  It enters in one of three ways.
  *Transcribed from its documentation:* `std` (`BufReader`, `read_exact`, `write_all`, `str::parse`, formatting),
  `byteorder`, `num-bigint`'s text parser, `hex`, `base64`, `bs58` with SHA-256 (FIPS 180-4), the serde data model and
  what serde's and `serde_with`'s derives generate, `smallvec`, `bit-vec`, `f64::log2` (its correct rounding on the
  arguments that occur).
  *A parameter with stated laws:* the Poseidon sponges and the curve (`H`, `Frontier.Crypto`), Blake2b in chain
  selection, argon2 and xsalsa20poly1305 and the base64 of salts (`Secrets.Crypto`), the base58 checksum where its
  value does not matter (`Json.Env`).  Hash functions into finite sets are not
  injective, so a theorem that assumes injectivity of one on all inputs (some of C25 and C26, about abstract trees) has
  an `_or_collision` companion without the assumption; elsewhere it is assumed for the inputs at hand only.  (The
  witnesses `C22_large_trees_fails` and `C23_large_trees_fails` take an abstract injective compression.)
  *An event of the environment:* answers of HTTP and GraphQL servers, pieces of a libp2p stream, RocksDB iteration
  (entries in key order), results of file operations, the scheduler.
* The text form of JSON: `serde_json`'s parser and compact printer are transcribed (`Json/DocText.lean`, C111), as is its pretty
  printer (`Json/Pretty.lean`); the printing and reading of `f64` are parameters.  Documents are trees with repeated keys kept.
* Verification of proofs (SNARKs).  The code never verifies one.
* `libp2p` transport, handshake, `NetworkBehaviour` and the request-response codec of `apps/wasm/mvp/src/lib.rs:64-143,
  195-230`, whose functions only log or are never called.
* The two loops of the processor together (C127): changes of the backend's settings and readers of the frontier, which are modelled apart (C43, C81), and a frontier that sends a request before it has changed its state. The fetches of one `query_block` are made at once.
* `build.rs`, the profiler, tests, benchmarks and fixtures.
* Getters, `Default`, `Display` of errors and the wording of log lines other than their place in the log.
* Resource limits: memory, the depth of the stack, time.  Sizes are bounded only where the code or the allocator bounds them (a claim of
  2^63 bytes or more panics, see C09 and C18; a smaller one is taken to succeed).
* Machine: 64-bit `usize` (the WebAssembly build has 32 bits: see C101 for Merkle indices, C109 for decoding; elsewhere the difference shows only for containers of 2^32 items),
  little-endian, overflow checks on; where a build without checks differs, the definition says so.

## Agreement of the model with the code on known cases

The code cannot be run here, so the model was run on the data of the project's own tests, and gives their answers.

* In the build, evaluated by the kernel: the vectors of the unit tests of `bin-prot`, amounts, hash texts, addresses, memos,
  key files and chain selection (`Vectors/Basics.lean`); the trees of the Merkle unit tests, their growth, proofs, metadata
  and prefixes, and chain selection between the two real blocks (`Vectors/Trees.lean`); the protocol state of block 77748, from its bytes to the exact text
  of the document in `/repo` and back, with the real checksums (`Vectors/Block.lean`).
* Outside the build, with Lean's interpreter: all ten blocks of `protocol/test-fixtures/src/data` below 100 KB, the genesis
  block among them, are decoded and encoded again as the same bytes.  The six mainnet documents are read, and written again
  as the same documents without `scheduled_time`, which the code ignores.  The genesis document is refused
  (`test-fixtures/src/lib.rs:43` says that it has another format).  One block has no document: its `sok_digest` is not UTF-8,
  see `C61_unwritable`.  The layouts of protocol states, verification keys, state hash tuples and sums are read.


## Where the code disagrees with a property

Each line is a theorem with a concrete witness, or for all inputs of the kind described.  The properties concerned are
`partial` in MANIFEST.json, with the part that holds proved as a `_partial` theorem.

* `C04_integer_minimal_fails`: is false at 128: the reader accepts the single byte 0x80, which the writer never emits (it writes three bytes for 128).
* `C04_nat0_minimal_fails`: is false for Nat0 at 128.
* `C05_char_roundtrip_fails`: is false for every char above U+00FF: it is written as its low eight bits and comes back as another char.
* `C06_tag_roundtrip_fails`: fails for every label whose hash reaches 2^31: the tag that is read back is not the hash that the decoder compares it with, so the variant cannot be read; and with overflow checks the hash of every label that is 2^32 or more as a number in base 223 panics.
* `C07_char_roundtrip_fails`: is false for every char above U+00FF: it comes back as the char of its low eight bits.
* `C07_large_enum_roundtrip_fails`: is false beyond 256 enum variants: variant number 256 of an enum with 300 variants is written as the four bytes `01 02 00 00` and comes back as variant number 1 with three bytes left over.
* `C07_polyvar_hash_clash_fails`: is false for labels that share a hash: the later one comes back as the earlier one.
* `C07_polyvar_large_hash_fails`: is false for labels whose hash reaches 2^31 ("Three"): the reader does not recognise its own writer's tag.
* `C07_polyvar_non_ascii_fails`: is false after a non-ASCII label: the second variant comes back as the first.
* `C07_u64_roundtrip_fails`: is false for `u64` from 2^63 on: the value is written as a negative number, which the reader refuses.
* `C08_self_delimiting_fails`: is false in general: two chars have the same encoding whenever their low eight bits agree, as those of U+0100 and U+0000 do.
* `C09_huge_length_fails`: (negation of "never a panic"). Nine bytes announcing a string of 2^63 bytes or more abort the decoding of a string, whatever follows.
* `C101_first_account_fails`: ... and the first account of a ledger of 33 levels or more gets a proof that is refused as malformed, whatever the root, although a build with words of 64 bits and checks takes it (C28).
* `C101_second_account_fails`: fails on the web for paths of 32 nodes and more (ledgers of mainnet have 35 levels): the second account of the ledger makes the conversion panic.
* `C102_off_curve_fails`: fails. The conversion does not check that a point is on the curve: every pair of numbers below the order converts, whatever equation the curve has.
* `C102_too_big_fails`: fails for blocks that are not canonical: the conversion of a vector panics exactly when one of its numbers is not below the order of the field, and 32 bytes from a peer can be any number.
* `C103_requested_block_fails`: fails for the block itself: whatever hash of blocks the network uses, there are a request and a server that answers it with a block of another hash, and the page gets the predecessor of that one.
* `C103_same_text_fails`: fails for the text itself: for every hash there is a download that says an accepted document whose text of the hash is not the text the page gets, though both name the same hash.
* `C104_any_request_fails`: fails for every request: whatever fields someone wants the endpoint to be asked for, written in one line without quotes, backslashes and comments, a text for an account has them asked for beside everything else.
* `C104_injection_fails`: fails for texts that are no names: the text of an account can ask the endpoint for something else as well, or make the request unreadable.
* `C104_not_string_fails`: fails for items that are no strings: the call ends the program with the settings locked, and no later call or poll does anything.
* `C104_typed_fails`: fails for what is typed into the boxes of the page: whatever the text, on one line or more, the page reports success, and the endpoints (accounts) set are single characters, so that no endpoint or account of two characters or more that was typed is ever asked.
* `C105_read_fails`: fails for texts that are read: every state hash is also read from a text that begins with `3S`.
* `C107_abort_fails`: fails after a setting with an item that is no string: every call that waits for the backend, or comes later, waits for ever.
* `C107_empty_path_fails`: fails for the document of an answer in which an account has an empty path: taking it over panics.
* `C107_not_started_fails`: fails for a page that does not run the processor: a poll with two endpoints that answer never returns, and neither does a later change of the endpoints or the accounts, whatever else happens.
* `C107_panic_fails`: fails when taking over a document panics: no later question about the best chain is ever answered.
* `C108_unreachable_fails`: fails when the request fails, or the answer is no JSON or nested too deep: whatever the call, if it is not rejected the program aborts instead of telling the page.
* `C109_cut_length_fails`: is false: the 32-bit build cuts the length of a string to 32 bits. Eight length bytes with a nonzero upper half make it read the string of the lower half, where the 64-bit build reads further or fails; and a length from 2^31 to 2^32 - 1 makes it panic, where the 64-bit build reads on.
* `C10_buffer_boundary_fails`: is false even for in-memory input when the value ends at the buffer boundary: a value of 8192 bytes (a string of 8189 bytes with its length) followed by anything is accepted.
* `C10_empty_struct_fails`: is false for types that read nothing (a struct without fields): any input passes.
* `C10_trailing_bytes_fails`: is false when the reader's chunks end where the value ends: trailing bytes are not noticed.
* `C110_claims_ahead_fails`: is false for strings: nine bytes make the decoder claim a buffer of any size below 2^63, before it looks whether the bytes are there.
* `C110_free_items_fails`: is false for a list of items that take no bytes: nine bytes make any number of them below 2^64.
* `C113_unpaired_fails`: fails for strings that are not texts. The page sends U+D800 followed by `a`, and the program gets U+2461 (a circled two) instead: the page's writer pairs a leading surrogate with whatever follows.
* `C114_cut_by_bool_fails`: fails: every `bool` of two bytes that end in 0. Whatever fields come before it and after it, and whether it says yes or no, the page reads the message as if it ended with a yes there.
* `C114_endless_fails`: fails: a reader need not end. A length of 32 bits is a negative number for the page; skipping it goes back to where the reader started, and it never ends.
* `C114_group_fails`: fails: groups. Whatever fields come before it, the page throws at every group it does not know, where the program skips it (`C114_program`).
* `C114_long_bool_fails`: fails: a `bool` of two bytes. This message says `connected = 1`, in two bytes, and `peer_id = "a"`; the page takes the second byte for the end of the message and has no `peer_id`.
* `C114_number_zero_fails`: fails: a field of number 0. No protobuf message has one. The page takes it for the end of the message, whatever its type and however its tag is written, and returns what came before; what follows, even if it is cut short, is not looked at.
* `C114_other_type_fails`: fails: a known number with another type. Field 1 with some bytes in it is not a `bool` and a protobuf reader skips it, as the program does; the page takes its length for the value and fails at what follows.
* `C115_count_fails`: fails: the counts. The page counts one peer as soon as a status has arrived, however many peers have reported, and one connected peer exactly when the status that arrived last says so.
* `C115_label_fails`: fails: no row is labelled with a peer. After any events every row is labelled `undefined`, and its other cells are empty except for `connected`: the page asks for `peerId` and `syncStatus` where the message has `peer_id` and `sync_status`.
* `C116_bad_window_fails`: is false for two nodes when a window is malformed: each keeps its own chain. (A chain with such a window can have been taken over as a short-range fork, for which windows are not checked.)
* `C116_circle_fails`: is false also in that a node can be led in a circle, back to a chain it has left: each step replaces the current chain by a preferred one.
* `C116_order_fails`: is false for candidates in another order: from the same chain, the same two candidates lead to different chains. The second is a longer short-range fork with a lower density, and the third a long-range fork between the two in density; all tips are regular and in one slot.
* `C116_slots_circle_fails`: is false also for tips that are pairwise long-range forks, when they lie in different slots: ten slots are enough for a circle.
* `C117_coinbase_fails`: fails for the coinbase `Two` without fee transfers. It is two bytes in the layout and three in the data type; and in the second part of the diff the layout has no `Two` at all.
* `C117_failed_command_fails`: fails for blocks with a failed command. The layout has one reason, the data type a list of them: a block with such a command that follows the layout is not read, and one that is read does not follow the layout.
* `C117_new_token_fails`: fails for commands the data types do not have, such as the creation of a token.
* `C117_state_overflow_fails`: A number that does not fit: the version 65536 is read under the layout, not as a state.
* `C118_listed_parts_fails`: fails at the listed parts: each of them, read on its own, ends the process.
* `C119_import_fails`: fails exactly for the documents whose first block can be read as a protocol state and whose ledger has an entry that ends the process, all members under addresses before it being entries that are read.
* `C120_limit_fails`: fails for other limits, which are not refused: the request asks for whatever their text says, such as another number of blocks and something else besides.
* `C120_separator_fails`: fails for a listed block whose hash holds a separator: when its document is retrieved, the process ends instead of filing it.
* `C121_bytes_fails`: fails for bytes: they are written, without their length, but reading them is refused.
* `C121_half_written_fails`: fails as well in that an error comes too late: what stands before the obstacle is in the writer already.
* `C121_keys_fails`: fails for maps that are read: whatever the input, every key is the empty text.
* `C121_map_fails`: fails exactly for values whose first obstacle is a map: writing them panics, while other obstacles are errors.
* `C121_map_length_fails`: fails for long maps: an announced length ends the process, whatever follows it.
* `C121_requests_fails`: fails for types that ask for a borrowed text or leave it to the data what they are: reading them panics on every input.
* `C123_again_fails`: The commands of accepted blocks are accepted again, any number of times and in any other block: what is done with a block depends on its protocol state alone, once all its commands have been seen valid in some other block `a`.
* `C123_payer_fails`: Nobody checks that the signer is the account that pays: for every correct scheme, every payload and every key pair whose public key is not the payer's, the payload signed with that key pair is a valid command, and a block with any number of them is treated exactly as the block without commands.
* `C123_proofs_fails`: The proofs of a block are not looked at: replacing the proof of the protocol state, the proof of the transition chain, the versions, the completed works, the coinbases, the balances and the statuses of the commands changes nothing, and a block without commands is never refused by verification, whatever its protocol state and its proofs are.
* `C124_mistyped_fails`: A mistyped password cannot be replaced: once the page keeps a password, it never asks for one and sends only that password, in every continuation in which no account is locked.
* `C124_order_fails`: What is shown can be the answer to an earlier request: if an account is unlocked and then locked, and the answers arrive the other way round, the page shows the answer to unlocking.
* `C124_other_account_fails`: The password given for one account is sent for every other account: after any session in which the page keeps a password, typing another account and pressing the button sends that password with it, without asking.
* `C125_brackets_fails`: does not hold either for an enum with a variant whose brackets or braces are empty: what the macro writes for it is not accepted by the compiler, whatever the target and the value.
* `C125_empty_fails`: does not hold for every definition with a target: for a type without fields the macro writes nothing and says nothing (braces, brackets or an enum without variants) or ends the compilation (a bare name, or a union), and these are all.
* `C125_path_fails`: does not hold for a field whose type is in a module, or in anything else on its path, that has the name of a container: the field is taken for that container, and the code is not accepted by the compiler.
* `C126_empty_path_fails`: An empty merkle path in the answer to one account stops every node, at any time.
* `C126_last_epoch_fails`: A state in the last epoch stops every node whose tip has a height and is in another epoch.
* `C126_no_field_fails`: A state whose previous state hash is not a field element stops every node, at any time.
* `C126_stopped_fails`: fails for the documents that stop a node: under every schedule, once such a document has been handled, it is the last one for ever, whatever is sent afterwards.
* `C127_deadlock_fails`: fails for every frontier that asks for one block, such as the parent, for each block it is handed: while a poll delivers five blocks or more, both loops and the poll can come to wait for each other for ever.
* `C127_never_asks_fails`: fails for the two frontiers there are: neither of them ever asks for a block, whatever blocks arrive, in whatever order and with whatever gaps between them. It only takes what the receiving loop hands it.
* `C127_wrong_block_fails`: fails on Berkeley net: what is sent for a request does not depend on it.
* `C128_asking_fails`: fails for the question: a page that asks after a usable first block without a state hash was handled makes the module panic.
* `C128_bad_signer_fails`: fails for a block whose first command has a signer that is not on the curve: it stops every node, at any time.
* `C128_repeat_fails`: fails for a first block that is sent again, as every poll does: if a hash in it is not a field element the node takes it without a complaint, and stops when it comes again.
* `C128_stopped_fails`: fails for the blocks that stop a node: under every schedule, once such a block has been handled, it is the last one for ever, whatever is sent afterwards.
* `C128_text_bad_signer_fails`: fails for texts: the text of any block whose first command has a signer that is not on the curve is read, and stops every node.
* `C128_text_repeat_fails`: fails for texts: the text of any block with valid commands and a hash that is not a field element is read and taken by a fresh node, which stops when the server answers it again.
* `C12_float_sink_fails`: is false for floats: whatever the number, a sink that takes `n` of its bytes in the first call gets these `n` bytes (none, one, ...) and no more, and serialization reports success.
* `C12_polyvar_sink_fails`: is false for polymorphic variant tags, whatever the label.
* `C13_version_check_fails`: is false as to checking: at every type, every version number is accepted in front of every value.
* `C14_malleable_fails`: fails, exactly. For every well-formed type and every value the format carries: some other byte string than its encoding decodes to the value, in every context, exactly when the value contains an integer that fits 32 bits, a string or sequence shorter than 2^32, or a polymorphic variant.
* `C14_malleable_integer_fails`: is false for integers: 5 may be sent in a wider form.
* `C14_malleable_length_fails`: is false for lengths (strings, sequences): a wider length is accepted.
* `C14_malleable_polyvar_fails`: is false for polymorphic variants: the low bit of the tag is ignored.
* `C14_redecode_non_ascii_fails`: Labels "é", "A": the bytes of "A" decode to the variant "é", whose own tag is not accepted.
* `C15_module_path_leaks_fails`: is false when a `Custom` rule is not itself the target of a `Reference`: the decoder never restores the module path on leaving a reference, so the custom rule is looked up under the last reference visited instead of the one enclosing it, and the name of that one is never used.
* `C16_even_tag_fails`: is false for every polymorphic variant whose tag has a clear low bit.
* `C16_noncanonical_integer_fails`: is false for every integer in a longer form than necessary.
* `C16_noncanonical_length_fails`: is false for every list whose length is in a longer form than necessary.
* `C16_small_tag_fails`: is false for every polymorphic variant whose tag is below 256, such as `` `A ``, under every layout: four bytes are read and one is written, so that the input does not come back even if the arguments do.
* `C16_summand_index_fails`: is false for every summand whose index in the layout is not its position: the value is written under another first byte than it was read from.
* `C17_single_letter_variant_fails`: is false for every polymorphic variant whose hash fits a byte, as that of a single letter does: the typed encoding begins with four bytes of tag, and the loose value writes one.
* `C18_bad_constructor_index_panics_fails`: is false: under any sum layout with fewer than 256 constructors, an index byte out of range makes the decoder panic.
* `C18_huge_length_fails`: is false for a second reason: under a string layout nine bytes announcing 2^63 bytes or more, and under any list layout nine bytes announcing 2^57 items or more, make the decoder panic, whatever follows.
* `C18_unsupported_rule_panics_fails`: is false for the rules the decoder does not support, with every input: `Hashtable`, `Vec`, `Bigstring` and the unresolved references panic.
* `C20_depth_dependent_hasher_fails`: fails for hashers that look at the depth of the leaf: a leaf hashed before the tree grew keeps its old hash.
* `C20_every_depth_dependent_hasher_fails`: fails for every hasher that gives an item another hash at depth 0 than at depth 1, with every merger that tells its children apart: with that item, asking for the root before a second item is added changes every root after it.
* `C20_every_partial_merger_fails`: fails for every merger that gives no hash for two missing children, and one when there is a left child: of seven items, the root does not depend on the seventh if it was asked for after the sixth.
* `C20_stale_root_fails`: fails for mergers that may produce no hash: with six items, asking for the root before adding a seventh leaves a stale root behind.
* `C22_full_tree_panics_fails`: fails for 2^28 items (also 2^30, 2^38, 2^46): whatever the hasher, the merger and the mode, asking such a tree for its root or for a proof panics, because the depth of the last leaf comes out beyond the height of the tree.
* `C22_large_trees_fails`: fails for every number of items from 2^28 on, even with the Poseidon merger over a collision-free compression: the root, if there is one, is never that of the complete binary tree, because the last node at depth 28 is merged in the domain of the wrong height.
* `C23_height_zero_empty_fails`: fails in one corner: a tree of fixed height 0 has one leaf position, but without items its root is absent rather than the empty hash.
* `C23_large_trees_fails`: fails for every number of items from 2^28 on that fits, over a collision-free compression: the root, if there is one, is never that of the padded tree.
* `C24_single_item_fails`: fails for trees with a single item: asking for its proof panics (debug assertion), in both modes, whatever the hasher and merger.
* `C25_wrong_position_fails`: fails, for every tree of two items or more, whatever the hash: the code accepts any peer next to the node, without checking that the two are siblings, so every item of the tree is "proved" to be at every position of the tree.
* `C27_panics_iff_fails`: fails exactly here: checking panics if the list of peers is shorter than the depth of the index, or if it gets stuck on its way up (`Stuck`: a peer without a hash, a peer of the root, a peer with the greatest index). In all other cases it answers.
* `C27_verify_panics_fails`: fails for `verify` as a whole: some malformed proofs make it panic instead of answering false: an index below the depth of the proof, more peers than levels, fewer hashes than peers, an index or a peer at the end of the range of `usize`.
* `C28_empty_path_fails`: fails for the empty path, which panics instead of giving the leaf itself or an error.
* `C28_long_path_fails`: fails for the rightmost leaf of a tree of height 28: the conversion succeeds but computing the root of the resulting proof panics.
* `C28_panics_fails`: fails, by a panic instead of an error, exactly for the empty path and for the paths whose last 64 nodes, those next to the root, have one hash each.
* `C29_rounding_fails`: fails at the last node of depth 28 (and 30, 38, 46): its depth is reported one too large; in a tree of height 28, where it is the last leaf, this panics.
* `C30_greatest_height_fails`: fails at the greatest height, for every such chain and every block: the push panics instead of being refused (in a release build the height wraps around and a block of height 0 is accepted). The chain stays as it is.
* `C33_zero_epoch_length_fails`: in full is false: classifying a fork panics exactly if the epochs of the two tips differ and the candidate's tip claims zero slots per epoch or the greatest epoch count, or, unless the answer is already yes with the roles as given, the own tip does. So with one such tip one direction can answer and the other panic.
* `C34_other_epoch_length_fails`: fails for every other number of slots per epoch but 1, 2 and 7139: there are tips for which the answer is not that of the rule.
* `C37_fails`: fails outside those cases, in every slot: for a chain with `d > 0` blocks in each of its sub-windows and the other tip at most eleven slots ahead (`k` slots), the specification clears `k - 1` sub-windows and the code `k + 1`.
* `C37_wrong_chain_selected_fails`: fails, and the difference changes which chain is selected, in every slot after the grace period: with both tips in that slot, the current chain is denser by the specification (7 against 6), yet the candidate replaces it.
* `C38_zero_epoch_length_fails`: The hypotheses of C38 are needed: whatever the own chain, a candidate from another epoch whose tip claims zero slots per epoch or the greatest epoch count makes chain selection panic.
* `C40_invalid_key_fails`: fails, for exactly these blocks: verification panics, instead of answering `false`, if the signer of some command is not on the curve and the commands checked before it are valid. (The commands of the second pre-diff are checked first.)
* `C41_same_hash_fails`: in full is false: any block that loses against the tip but has the tip's state hash replaces the ledger.
* `C43_panic_stops_fails`: is false of the code for a block that panics, under every schedule: once such a block has been handled, it is the last one for ever, whatever is sent afterwards.
* `C44_length_zero_fails`: in full is false: after a first verified block of length 0, every block that does not have length 1 is refused, however long it is, and for ever.
* `C45_accounts_lost_fails`: ... so every ledger can look like one that holds only its first accounts, or none.
* `C45_read_error_not_reported_fails`: fails when reads fail: no database error is ever delivered to the caller, ...
* `C46_abort_fails`: if some stored account before which all others can be converted cannot, building the tree ends the process.
* `C46_position_shift_fails`: fails: a concrete database where the second stored account is at position 0 of the tree.
* `C46_undecodable_skipped_fails`: fails for accounts that do not decode: at any place in the ledger they are left out, the accounts after them move down one position, and nothing is reported.
* `C48_empty_fraction_fails`: fails for a missing fraction, which is accepted.
* `C48_long_fraction_always_wrong_fails`: fails for every fraction that is longer than nine digits and not all zeros, as far as it is accepted at all: the value read is never the value written.
* `C48_long_fraction_fails`: fails for more than nine fractional digits: 0.1234567891 is read as 1.234567891, and 0.10000000000 as 10.
* `C48_overflow_fails`: fails for amounts of 2^64 units and more: the parser panics, or, in a release build, returns a small amount.
* `C48_plus_in_fraction_fails`: fails for a plus sign in the fraction: 1.+5 is read as 1.05.
* `C51_memo_length_fails`: The length of the memo is not part of what is signed: every signature on any payment of the default token is a valid signature on another payment, of another amount and another token, with a memo that is a byte longer; and every signature on any delegation is a valid signature on a payment; for every key, network, hash function and signature equation.
* `C52_oversized_piece_fails`: The width of a piece is not checked when it is appended: a value that does not fit its declared width runs into its neighbour, and two different inputs with the same widths share their packed fields.
* `C53_proof_both_fails`: Permissions for some of whose actions a proof and a signature are needed have the same hash input as others, namely as the permissions that need only a proof there.
* `C54_time_fails`: Every timed account shares its hash input with one whose cliff comes `2^32` time units later, and with one whose vesting period is as much longer: the times are cut to 32 bits.
* `C55_increment_nonce_fails`: fails: whatever a document says about who may increment the nonce, the imported account lets those who may edit its state; for instance anyone, where the nonce can never be incremented.
* `C57_malformed_fails`: fails for malformed documents: anything but an array is a panic, and so is an empty array.
* `C57_repeated_fails`: fails for repeated members: behind a tag the last member of a name counts and the earlier one, whatever it is, is passed over without an error …
* `C58_wrong_length_fails`: fails for hexadecimal text of any other length: it is a panic, not an error.
* `C60_decrypt_panics_fails`: fails: whenever a password can be tried at all, a wallet with a nonce of another length panics, and one whose plaintext is empty does.
* `C60_long_salt_fails`: fails for salts longer than 16 bytes: if the wallet is read, it cannot be written.
* `C60_ops_fails`: fails for an operations limit outside 32 bits: the wallet is read, and written with another one.
* `C61_protocol_version_fails`: fails: reading back any block gives protocol version 2.0.0 and no proposed version, whatever they were.
* `C61_roundtrip_fails`: fails: a block that is written and read back as another block, and two different blocks with the same document.
* `C61_unwritable_fails`: fails: there are blocks that cannot be written only because of public keys whose coordinate is not a field element, only because of characters that are not ASCII, and only because of digests that are not UTF-8. The outcome is a panic or undefined behaviour.
* `C62_every_output_fails`: is false of every output of 32 bytes: another last byte with the same five low bits, of which there are seven, gives another output with the same hash input.
* `C62_top_bits_fails`: The top three bits of the 32nd byte are not hashed.
* `C63_second_from_reader_fails`: is false: the first call's read-ahead buffer is dropped. After any message, if what follows it in the stream ends within the first 8 KiB, a second `from_reader` on the same reader finds the end of the stream, whatever type it reads.
* `C65_delegate_fails`: An account without delegate shares its hash input with the one delegated to the empty key; bytes of the token symbol after the sixth and the presence of zkapp data are not hashed.
* `C65_panic_fails`: An account with a hash that is not the encoding of a field element makes hashing panic.
* `C66_failure_table_fails`: The failure table of the local state is not hashed.
* `C66_lengths_fails`: Neither the number of sub-windows nor the length of the VRF output is hashed: a state with one more sub-window shares its hash input with one whose VRF output is four bytes longer.
* `C69_builder_default_fails`: Every command the transfer builder makes without a call to `memo` has an unreadable memo.
* `C69_panics_fails`: Memos that arrive in blocks can be unreadable: one with 34 bytes and too large a length byte, and an empty one.
* `C70_lengths_fails`: Neither the number of sub-windows nor the length of the VRF output is hashed: for every state, moving the last sub-window density into an empty VRF output leaves the hash input unchanged.
* `C71_owner_fails`: So the hash does not commit to the owner, the nonce, the delegate or the permissions.
* `C72_not_ascii_fails`: fails for characters (`which_branch` of a proof): `"é"` is accepted, as the first byte of its UTF-8 form, which is then written as a string that is not UTF-8.
* `C73_constants_fails`: fails: a state is imported as itself only if these five parts have these values; every other state is imported as a different one.
* `C73_flags_fails`: fails for the flags: a document without them is imported with both `false`, not refused.
* `C74_malformed_fails`: fails: whatever the other parts say, if the initial minimum balance or the cliff time is not a string (for example a JSON number), a vesting account is imported as unrestricted.
* `C75_symbol_fails`: fails: an account with a token symbol is imported as another account.
* `C76_large_fails`: fails for the numbers from the modulus on: both readers panic instead of refusing; the second one does so for every larger number too.
* `C77_panics_fails`: fails: an account with an empty path, and one whose leaf hash is not below the modulus, make the import panic.
* `C78_unchecked_fails`: fails: whatever ledger hash the tip states, a document whose entry does not lead to it is taken: of two leaves that lead to different roots along the path, one is served as an entry of the tip's ledger although it is none.
* `C79_memory_fails`: fails for memory limits of 2^42 bytes and more, and for negative ones: they are silently reduced, so that the password is hashed with another limit than the one in the file.
* `C80_address_fails`: fails for public keys: every key of even parity has 255 texts, one for each parity byte other than 1.
* `C80_hash_fails`: fails for hashes: any version number is accepted.
* `C80_two_addresses_fails`: fails: one key with two accepted texts.
* `C80_vrf_fails`: fails for VRF outputs: the length byte is not looked at.
* `C81_berkeley_fails`: fails for the Berkeley backend, in every history: an endpoint that cannot be reached ends the poll with an error, and it hands over no more blocks than there are endpoints before that one.
* `C81_not_running_fails`: fails before the processor runs, for both backends and every poll that gets two blocks: it waits for the channel and holds the guard, so that a change of the settings waits too; neither can go on.
* `C82_any_request_fails`: fails for every document: whatever fees, amounts and sender the caller gives, and whatever GraphQL fields someone wants the node to be asked for, there is a receiver text for which the one request is a payment to any receiver from any sender together with those fields.
* `C82_backslash_fails`: fails for a password with a backslash: the node is given another password.
* `C82_escapes_fails`: fails for every password with an escape of GraphQL in it: the request states another password, with the character that the escape stands for; and no request with a backslash before another character is GraphQL.
* `C82_injection_fails`: fails for a receiver that contains a quote: the one call, for a payment of one unit, asks for two payments, one of them of a thousand.
* `C82_quote_fails`: fails for every password with a quote: whatever the request says, it does not state that password.
* `C82_rest_fails`: fails for the nonce, the memo and the expiry: they are never sent.
* `C83_killed_fails`: fails when the process is killed while writing, for every block not yet filed as succeeded and every document that is one: any beginning of the document is filed as succeeded, and the next run does not check the block again.
* `C83_panic_fails`: fails for a document on which parsing panics, whatever else is under way: the run ends, and nothing more is asked for until the next run.
* `C83_repeated_fails`: fails for a list that names a block twice, for every block not yet filed as succeeded, if its document is a block one time and not the next: it is filed both ways.
* `C83_signature_fails`: fails for some documents: with a signature outside the field the run ends (`C83_panic_fails`), and the document is filed nowhere.
* `C84_binary_digits_fails`: fails for every binary file that happens to consist of an even number of hexadecimal digits: the value of which it is the wire form is not printed.
* `C84_line_break_fails`: fails for every hexadecimal text that ends in a line break, as editors write it: it is taken for the bytes of its own digits, under every layout.
* `C84_trailing_fails`: fails without `--roundtrip`: under any layout, what follows the value goes unnoticed (in a file that is not taken for hexadecimal text).
* `C85_second_layout_fails`: fails for files with more than a layout in them: whatever follows the layout is not looked at, not even a second layout.
* `C85_written_fails`: fails for layouts the library writes itself: none of them can be read again.
* `C87_modulus_fails`: A witness of the abort: the order of the field in hexadecimal
* `C88_wraps_fails`: The greatest block time is shown as one millisecond before 1970.
* `C89_every_label_accepted_fails`: is false of the code at every block: what the node writes starts with the version number 1, and with any other version number in its place the bytes are read as the same block.
* `C89_reading_never_aborts_fails`: is false of the code: reading a block from the network can abort the process.
* `C89_relay_keeps_bytes_fails`: is false of the code: a block labelled with another version of the format is accepted as if it were labelled with version 1, so what a node passes on need not be what it received.
* `C90_big_balance_fails`: is false of the code: every account with a balance of 2^63 or more is written as bytes that cannot be read.
* `C90_example_vesting_fails`: is false of the code: in the older format the vesting increment comes before the vesting period, in the newer one (and in the order the node itself lists them, `base/src/account/timing.rs:20-31`) the other way round. The repository's example account, whose numbers are 1 and then 0, is read as one that releases 1 every 0 slots.
* `C90_other_key_aborts_fails`: is false of the code at every account: with 32 bytes that stand for no field element in place of its key, the bytes the node wrote abort the process that reads them, however they arrive.
* `C90_reading_never_aborts_fails`: is false of the code: reading an entry of the database can abort the process.
* `C91_build_aborts_fails`: is false of the code: a stored account whose key is not a field element ends the process when the ledger is built.
* `C91_legacy_root_ignores_fails`: is false of the code for the older format: the root does not depend on who owns the accounts, nor on their nonces, delegates, vesting schedules or permissions.
* `C91_root_aborts_fails`: is false of the code: a stored account whose receipt chain hash is not a field element ends the process when the root is asked for.
* `C92_protocol_version_fails`: is false of the code: the protocol version of a block is lost.
* `C92_reading_aborts_fails`: is false of the code: a document with a signature outside the field aborts the process.
* `C92_unwritable_fails`: is false of the code: there are blocks the node can hold, write to the wire and read from it but not write to a document.
* `C93_ragged_fails`: fails for every hexadecimal text that is not a whole number of elements: the process aborts.
* `C94_chain_ledger_confused_fails`: fails: ledger hashes and chain hashes have the same texts.
* `C94_char_fails`: fails: a character is read from texts that are longer, and from texts whose first byte has no text.
* `C94_unshown_fails`: fails: the other characters make an ill-formed text, and the other points abort.
* `C94_vrf_confused_fails`: fails: the text of a hash of a VRF output is read as a VRF output, the hash itself.
* `C95_read_fails`: fails: an annotated field is never read, whatever the bytes.
* `C96_asked_fails`: fails between two pages: every stream that is opened to a page is taken for a request, and the page announces that it answers, but it writes nothing to any of them. A page that asks another one is told no status and waits without end.
* `C96_connect_fails`: fails: `connect` reports success exactly when the peer could not be dialled; when it could, `connect` does not return, and it aborts on an address that cannot be parsed.
* `C96_never_ends_fails`: fails: when the peer sends text and closes the stream, the response never ends.
* `C98_two_calls_fails`: is false of the code across calls: a page asks for the protocol state and then for the ledger, and gets the ledger of another block, because a block was handled in between.
* `C99_line_break_fails`: fails for messages with a line break: after any history in which logging was set up, a record whose message goes on with a line break and the line of another record gives the same log text as the two records one after the other.

## Axioms of each theorem

From `#print axioms` for every theorem named in MANIFEST.json (721).  No other axiom occurs.

* None (7): `C121_refused`, `C28_empty_path_fails`, `C51_networks`, `C52_oversized_piece_fails`, `C88_range`, `C91_empty_hashes`, `C95_read_fails`.
* `propext` only (27): `C04_nat0_minimal_fails`, `C101_missing_hashes_refused`, `C103_previous_unique`, `C114_endless_fails`, `C114_long_bool_fails`, `C125_versions`, `C128_bad_signer_fails`, `C15_module_path_leaks_fails`, `C18_unsupported_rule_panics_fails`, `C23_height_zero_empty_fails`, `C27_misplaced_never_verifies`, `C27_verify_panics_fails`, `C30_greatest_height_fails`, `C30_push_rule_partial`, `C52_widths_needed`, `C60_decrypt_no_panic_partial`, `C60_decrypt_panics_fails`, `C66_lengths_fails`, `C68_builder`, `C71_owner_fails`, `C79_wrong_password`, `C86_from_config`, `C86_starts_chain`, `C87_bad_radix`, `C96_connect_fails`, `C96_requests`, `C97_legacy_packing_unique`.
* `propext` and `Quot.sound` (106): `C02_integer_read_exact`, `C02_nat0_read_exact`, `C05_char_roundtrip_fails`, `C05_reported_length`, `C06_checked_hash`, `C06_tag_bytes_match_ocaml`, `C08_self_delimiting_fails`, `C101_release_agrees`, `C104_typed_fails`, `C114_determined`, `C116_bad_window_fails`, `C116_circle_fails`, `C116_order_fails`, `C116_slots_circle_fails`, `C121_bytes_fails`, `C121_described`, `C121_described_free`, `C121_half_written_fails`, `C121_map_fails`, `C121_requests_fails`, `C121_writes_iff`, `C123_accepted_partial`, `C123_again_fails`, `C123_honest`, `C123_payer_fails`, `C123_proofs_fails`, `C127_answered`, `C127_asked`, `C127_deadlock_fails`, `C127_never_asks_fails`, `C127_queried`, `C127_stuck_iff`, `C127_wrong_block_fails`, `C128_command_parts`, `C12_float_sink_fails`, `C12_polyvar_sink_fails`, `C15_custom_types`, `C18_bad_constructor_index_panics_fails`, `C18_huge_length_fails`, `C20_depth_dependent_hasher_fails`, `C20_every_depth_dependent_hasher_fails`, `C20_every_partial_merger_fails`, `C20_stale_root_fails`, `C21_batches`, `C21_one_by_one`, `C24_single_item_fails`, `C27_index_zero`, `C28_bad_node_refused`, `C28_converts_iff`, `C28_long_path_fails`, `C29_height`, `C30_consecutive_heights`, `C33_answers_agree`, `C33_symmetric_partial`, `C33_zero_epoch_length_fails`, `C35_malformed_never_selected`, `C36_antitone`, `C36_at_most_own_density`, `C36_grace_period`, `C38_longer_no_panic`, `C38_zero_epoch_length_fails`, `C39_invalid_refused`, `C40_invalid_key_fails`, `C40_verify_false_partial`, `C40_verify_iff`, `C43_all_handled_at_end`, `C43_in_order_exactly_once`, `C43_only_panics_stop`, `C43_panic_stops_fails`, `C43_progress`, `C44_length_zero_fails`, `C46_abort_fails`, `C46_undecodable_skipped_fails`, `C47_injective`, `C47_roundtrip`, `C47_text_exact`, `C48_accepted_partial`, `C48_decimal_partial`, `C48_other_characters_refused`, `C48_two_points_refused`, `C50_injective`, `C50_memo_of_text`, `C52_injective`, `C52_layout`, `C52_no_panic`, `C52_packed_small`, `C53_distinguishes_partial`, `C53_exact_partial`, `C53_proof_both_fails`, `C64_accepted_iff`, `C64_roundtrip`, `C70_lengths_fails`, `C70_no_panic_iff`, `C76_radix_accepted_iff`, `C81_terminates`, `C84_line_break_fails`, `C84_roundtrip_sound`, `C84_trailing_fails`, `C86_density_overflow`, `C86_sha256_constants`, `C86_sha256_padding`, `C97_packing_unique`, `C98_guard`, `C98_moments`, `C98_no_answer_while_adding`, `C98_two_calls_fails`.
* `Classical.choice`, `Quot.sound`, `propext` (581): `C01_integer_roundtrip`, `C02_ranges`, `C03_nat0_roundtrip`, `C04_integer_minimal_fails`, `C04_integer_minimal_partial`, `C04_nat0_minimal_partial`, `C05_primitive_roundtrip_partial`, `C06_tag_roundtrip_fails`, `C06_tag_roundtrip_partial`, `C07_char_roundtrip_fails`, `C07_encoding_is_wire_form_partial`, `C07_large_enum_roundtrip_fails`, `C07_polyvar_hash_clash_fails`, `C07_polyvar_large_hash_fails`, `C07_polyvar_non_ascii_fails`, `C07_roundtrip_exactly`, `C07_typed_roundtrip_partial`, `C07_u64_roundtrip_fails`, `C08_self_delimiting_partial`, `C08_stream_partial`, `C09_accepts_exactly_wire_forms`, `C09_consumes_prefix`, `C09_huge_length_fails`, `C09_never_aborts_partial`, `C09_never_aborts_without_strings`, `C100_build`, `C100_network`, `C101_first_account_fails`, `C101_release_indices`, `C101_second_account_fails`, `C101_web_root_partial`, `C102_field`, `C102_off_curve_fails`, `C102_points`, `C102_too_big_fails`, `C102_vectors`, `C103_answer`, `C103_answered_iff`, `C103_hash_unique`, `C103_no_document`, `C103_refused`, `C103_requested_block_fails`, `C103_same_text_fails`, `C103_usual`, `C104_address_is_name`, `C104_any_request_fails`, `C104_injection_fails`, `C104_not_string_fails`, `C104_polls_partial`, `C105_address_read`, `C105_read_fails`, `C105_written`, `C106_answered`, `C106_asks_accounts`, `C106_asks_enough`, `C106_genesis`, `C106_refused`, `C106_rest`, `C107_abort_fails`, `C107_all_return_partial`, `C107_bad_document`, `C107_empty_path_fails`, `C107_last_set`, `C107_no_deadlock_partial`, `C107_no_endless`, `C107_not_started_fails`, `C107_panic_fails`, `C107_poll_asks`, `C107_poll_sees`, `C107_settings_hold`, `C107_shown`, `C107_shown_blocks`, `C108_answer_partial`, `C108_body`, `C108_determined`, `C108_local`, `C108_rejected`, `C108_unreachable_fails`, `C109_blocks_and_accounts`, `C109_cut_length_fails`, `C109_same_as_native_partial`, `C109_without_strings`, `C10_buffer_boundary_fails`, `C10_empty_struct_fails`, `C10_strict_partial`, `C10_strict_slice_partial`, `C10_strict_small_partial`, `C10_trailing_bytes_fails`, `C110_blocks_and_accounts`, `C110_claims_ahead_fails`, `C110_free_items_fails`, `C110_reads_bounded_by_input`, `C110_small_buffers_partial`, `C110_value_no_larger_than_bytes_partial`, `C111_best_state`, `C111_blocks`, `C111_injective`, `C111_key_file`, `C111_named`, `C111_node_blocks`, `C111_not_json`, `C111_read_iff`, `C111_request`, `C111_roundtrip`, `C111_space`, `C111_too_deep`, `C111_unambiguous`, `C111_values`, `C111_written`, `C112_blocks`, `C112_keys`, `C112_kinds`, `C112_missing`, `C112_node_blocks`, `C112_node_read`, `C112_read`, `C112_states`, `C112_text`, `C113_address_partial`, `C113_no_address`, `C113_page`, `C113_response`, `C113_status`, `C113_unpaired_fails`, `C114_any_order_partial`, `C114_cut_by_bool_fails`, `C114_cut_short`, `C114_group_fails`, `C114_number_zero_fails`, `C114_other_type_fails`, `C114_program`, `C114_program_message`, `C115_count_fails`, `C115_label_fails`, `C115_last_partial`, `C116_gossip_long_range_partial`, `C116_gossip_short_range_partial`, `C116_long_range_order_partial`, `C116_two_nodes_partial`, `C117_block_layout_partial`, `C117_block_typed_partial`, `C117_coinbase_fails`, `C117_failed_command_fails`, `C117_new_token_fails`, `C117_state_layout_partial`, `C117_state_overflow_fails`, `C117_state_typed`, `C117_work_layout_partial`, `C117_work_typed`, `C118_block_text_partial`, `C118_listed_parts_fails`, `C118_no_undefined_behaviour`, `C118_read_documents`, `C118_reading_ends_partial`, `C119_import_fails`, `C119_import_partial`, `C119_parts`, `C11_chunk_independent`, `C11_failing_reader`, `C120_answer`, `C120_answer_unique`, `C120_any_limit`, `C120_inside`, `C120_limit_fails`, `C120_looked_at`, `C120_places`, `C120_request`, `C120_separator_fails`, `C121_keys_fails`, `C121_map_length_fails`, `C121_map_read`, `C122_display`, `C122_lines`, `C123_replay_partial`, `C124_answers_partial`, `C124_mistyped_fails`, `C124_named`, `C124_order_fails`, `C124_other_account_fails`, `C124_payments`, `C124_unlock_partial`, `C125_back_partial`, `C125_brackets_fails`, `C125_derived_partial`, `C125_empty_fails`, `C125_path_fails`, `C125_which_partial`, `C126_answers`, `C126_empty_path_fails`, `C126_keeps_going_partial`, `C126_last_epoch_fails`, `C126_no_field_fails`, `C126_only_these_stop`, `C126_stopped_fails`, `C126_stops_iff`, `C126_tip`, `C126_told`, `C127_no_deadlock_partial`, `C128_asking_fails`, `C128_chain_valid`, `C128_keeps_going_partial`, `C128_only_these_stop`, `C128_poll_ends_partial`, `C128_poll_partial`, `C128_repeat_fails`, `C128_state_parts`, `C128_stopped_fails`, `C128_stops_iff`, `C128_text_bad_signer_fails`, `C128_text_repeat_fails`, `C128_tip`, `C128_told`, `C12_roomy_sink_partial`, `C12_sink_independent_partial`, `C13_version_check_fails`, `C13_version_layers_partial`, `C14_malleable_fails`, `C14_malleable_integer_fails`, `C14_malleable_length_fails`, `C14_malleable_polyvar_fails`, `C14_no_malleability_partial`, `C14_redecode_non_ascii_fails`, `C14_redecode_partial`, `C15_accepts_exactly_the_grammar_partial`, `C15_decoding_is_recursive_descent_partial`, `C15_whole_layout_visited_partial`, `C16_even_tag_fails`, `C16_noncanonical_integer_fails`, `C16_noncanonical_length_fails`, `C16_reencoding_decodes_to_same_value_partial`, `C16_reencoding_reproduces_canonical_bytes_partial`, `C16_small_tag_fails`, `C16_summand_index_fails`, `C17_loose_agrees_with_typed_partial`, `C17_single_letter_variant_fails`, `C18_no_other_panic_partial`, `C18_no_panic_without_short_sums_partial`, `C19_index_addresses`, `C19_index_path`, `C20_answers_depend_on_items_only_partial`, `C22_full_tree_panics_fails`, `C22_large_trees_fails`, `C22_variable_root_history_partial`, `C22_variable_root_partial`, `C23_fixed_root_partial`, `C23_large_trees_fails`, `C23_too_many_refused_partial`, `C24_proof_verifies_partial`, `C25_proof_sound_or_collision_partial`, `C25_proof_sound_partial`, `C25_proved_item_is_member_partial`, `C25_verified_or_collision_partial`, `C25_wrong_position_fails`, `C26_domains`, `C26_domains_apart`, `C26_poseidon_root_commits`, `C26_root_commits_partial`, `C26_same_root_or_collision_growing_partial`, `C26_same_root_or_collision_partial`, `C27_misplaced_error_partial`, `C27_panics_iff_fails`, `C27_verifies_iff_partial`, `C28_panics_fails`, `C28_path_root_partial`, `C29_metadata_partial`, `C29_rounding_fails`, `C31_selected_was_offered`, `C32_order_independent`, `C32_selected_is_maximum`, `C34_any_length_partial`, `C34_decision_rule_partial`, `C34_other_epoch_length_fails`, `C35_long_range_rule`, `C35_selected_iff_preferred`, `C36_defined`, `C37_cited_specification_partial`, `C37_fails`, `C37_wrong_chain_selected_fails`, `C38_errors`, `C38_no_panic`, `C39_best_chain_verified`, `C39_processor_best_chain_verified`, `C41_ledger_of_tip_hash`, `C41_ledger_of_tip_partial`, `C41_same_hash_fails`, `C42_berkeley_unchanged`, `C42_mainnet_unchanged`, `C43_drains`, `C44_length_never_shrinks_partial`, `C45_accounts_lost_fails`, `C45_exactly_the_stored_accounts_partial`, `C45_read_error_cuts_partial`, `C45_read_error_not_reported_fails`, `C45_written_accounts_read_back_partial`, `C46_position_partial`, `C46_position_shift_fails`, `C46_tree_of_accounts_partial`, `C46_tree_of_database_partial`, `C48_empty_fraction_fails`, `C48_exactly`, `C48_long_fraction_always_wrong_fails`, `C48_long_fraction_fails`, `C48_overflow_fails`, `C48_plus_in_fraction_fails`, `C49_form`, `C49_roundtrip`, `C50_round_trip`, `C51_injective`, `C51_kinds`, `C51_memo_length_fails`, `C51_signed_message_partial`, `C54_distinguishes_partial`, `C54_exact_partial`, `C54_time_fails`, `C55_accepted`, `C55_accepted_iff`, `C55_faithful_iff`, `C55_import_partial`, `C55_increment_nonce_fails`, `C55_missing_refused`, `C56_json`, `C56_onto`, `C56_roundtrip`, `C56_wire`, `C57_also_accepted`, `C57_any_order`, `C57_form`, `C57_malformed_fails`, `C57_malformed_partial`, `C57_repeated_fails`, `C57_repeated_refused`, `C57_roundtrip_partial`, `C57_short_lists_fail`, `C57_sorted`, `C58_accepted_iff`, `C58_form`, `C58_prefix_optional`, `C58_refused_partial`, `C58_roundtrip`, `C58_wrong_length_fails`, `C59_address_is_no_other_kind`, `C59_no_collision`, `C59_not_an_address`, `C59_other_kind_refused`, `C59_roundtrip`, `C60_long_salt_fails`, `C60_no_panic`, `C60_once`, `C60_ops_fails`, `C60_read_no_panic`, `C60_read_says`, `C60_reread_partial`, `C60_rewrite`, `C60_text`, `C60_text_reread_partial`, `C61_protocol_version_fails`, `C61_roundtrip_fails`, `C61_roundtrip_partial`, `C61_roundtrip_plain_partial`, `C61_same_document_iff`, `C61_unwritable_fails`, `C61_written_iff`, `C62_distinguishes_partial`, `C62_every_output_fails`, `C62_exact_partial`, `C62_top_bits_fails`, `C63_reuse_deserializer_partial`, `C63_second_from_reader_fails`, `C63_stream_partial`, `C65_delegate_fails`, `C65_distinguishes_partial`, `C65_exact_partial`, `C65_hash`, `C65_no_panic_iff`, `C65_panic_fails`, `C65_symbol_fails`, `C65_zkapp_fails`, `C66_distinguishes_partial`, `C66_exact_partial`, `C66_failure_table_fails`, `C67_no_panic_iff`, `C67_state_hash_commits`, `C69_builder_default_fails`, `C69_panics_fails`, `C69_readable_iff_partial`, `C70_distinguishes_partial`, `C70_exact_partial`, `C70_state_hash_commits_partial`, `C71_exact_partial`, `C72_not_ascii_fails`, `C72_protocol_version`, `C72_rewrite_partial`, `C72_same_block`, `C72_same_document_iff`, `C73_accepted_exactly`, `C73_accepted_iff`, `C73_constant_parts`, `C73_constants`, `C73_constants_fails`, `C73_determined`, `C73_flags_fails`, `C73_import_partial`, `C74_accepted_iff`, `C74_import_partial`, `C74_malformed_fails`, `C74_never_refused`, `C75_accepted_iff`, `C75_delegate_refused`, `C75_faithful_iff`, `C75_import_partial`, `C75_symbol_fails`, `C76_accepted_iff`, `C76_large_fails`, `C76_path_accepted_iff`, `C76_path_roundtrip`, `C76_refused_partial`, `C76_roundtrip`, `C77_accepted_exactly`, `C77_accepted_iff`, `C77_import_partial`, `C77_one_proof_each`, `C77_panics_fails`, `C77_refused`, `C78_honest_partial`, `C78_unchecked_fails`, `C79_key_partial`, `C79_memory_fails`, `C80_address_checksum`, `C80_address_fails`, `C80_aux_unique`, `C80_checksum`, `C80_corrupted_refused`, `C80_hash_fails`, `C80_memo_unique`, `C80_two_addresses_fails`, `C80_unique_partial`, `C80_vrf_fails`, `C81_berkeley_fails`, `C81_berkeley_partial`, `C81_mainnet`, `C81_no_deadlock`, `C81_not_running_fails`, `C81_under_way`, `C82_accounts_partial`, `C82_addresses`, `C82_any_request_fails`, `C82_backslash_fails`, `C82_distinguishes_partial`, `C82_escapes_fails`, `C82_injection_fails`, `C82_payment_partial`, `C82_quote_fails`, `C82_rest_fails`, `C82_sent_iff`, `C82_valid_until`, `C83_blocks_accepted`, `C83_contents_partial`, `C83_file_name`, `C83_kept`, `C83_killed_fails`, `C83_names`, `C83_not_both`, `C83_others_refused`, `C83_panic_fails`, `C83_repeated_fails`, `C83_run_partial`, `C83_signature_fails`, `C83_time_irrelevant`, `C83_verdict`, `C84_binary_digits_fails`, `C84_input`, `C84_prints_partial`, `C84_roundtrip_partial`, `C85_every_file`, `C85_every_rule`, `C85_layout_exactly`, `C85_reads_exactly`, `C85_says`, `C85_second_layout_fails`, `C85_text`, `C85_tool_partial`, `C85_tool_text_partial`, `C85_written_fails`, `C86_berkeley`, `C86_mainnet`, `C86_selection`, `C86_selection_applies`, `C87_every_element`, `C87_modulus_fails`, `C87_reads_iff`, `C87_refusals`, `C88_beyond`, `C88_from_seconds`, `C88_injective`, `C88_instant`, `C88_wraps_fails`, `C89_accepts_iff_canonical`, `C89_bytes_determine_block_partial`, `C89_every_label_accepted_fails`, `C89_forgets_only_versions`, `C89_outcomes_partial`, `C89_reading_never_aborts_fails`, `C89_relay_keeps_bytes_fails`, `C89_write_then_read_partial`, `C90_big_balance_fails`, `C90_example_vesting_fails`, `C90_layout_unambiguous`, `C90_legacy_outcomes_partial`, `C90_legacy_reads_layout`, `C90_legacy_write_then_read_partial`, `C90_legacy_written_layout_partial`, `C90_other_key_aborts_fails`, `C90_outcomes_partial`, `C90_reading_never_aborts_fails`, `C90_reads_layout`, `C90_write_then_read_partial`, `C90_written_layout_partial`, `C91_accounts_read`, `C91_bad_key_aborts`, `C91_build_aborts_fails`, `C91_legacy_root_ignores_fails`, `C91_legacy_root_partial`, `C91_legacy_written_partial`, `C91_root_aborts_fails`, `C91_root_partial`, `C91_same_root_partial`, `C91_unhashable_aborts`, `C91_written_partial`, `C92_formats_agree_partial`, `C92_protocol_version_fails`, `C92_read_then_write_partial`, `C92_reading_aborts_fails`, `C92_same_document_iff`, `C92_unwritable`, `C92_unwritable_fails`, `C92_write_then_read_partial`, `C93_accepted_iff`, `C93_injective`, `C93_ragged_fails`, `C93_reads`, `C93_refused_partial`, `C93_roundtrip`, `C94_chain_ledger_confused_fails`, `C94_char_fails`, `C94_injective`, `C94_other_kind_refused_partial`, `C94_read_then_shown_partial`, `C94_roundtrip_partial`, `C94_unshown_fails`, `C94_vrf_confused_fails`, `C95_checker`, `C95_read_as_plain`, `C95_visitor`, `C95_written`, `C96_asked_fails`, `C96_chunk_independent`, `C96_ends_iff_partial`, `C96_every_status`, `C96_line`, `C96_never_ends_fails`, `C96_on_the_page`, `C96_one_status`, `C96_says`, `C96_updates`, `C97_account`, `C97_command`, `C97_legacy_account`, `C97_legacy_state`, `C97_state`, `C98_berkeley`, `C98_berkeley_together_partial`, `C98_document`, `C98_mainnet`, `C98_mainnet_agree`, `C98_mainnet_never_null_again`, `C99_console`, `C99_init`, `C99_line_break_fails`, `C99_line_unique_partial`, `C99_lines_partial`, `C99_text`.
