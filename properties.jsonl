{"id": "C01", "title": "Applying supermajority links keeps the state valid and never moves finality back", "statement": "Starting from a valid consensus state, applying any sequence of links with state_transition either fails or yields a valid state; the justified epoch strictly grows with every link, the finalized epoch never decreases, and a newly finalized checkpoint is always the previously justified one.", "quantifier": "every valid starting state, every finite sequence of links", "why_tests_cant": "the history length and all epochs/roots are unbounded; tests replay a handful of fixed chains", "anchors": ["core/src/consensus_state.rs: ConsensusState::state_transition, is_valid"]}
{"id": "C02", "title": "Exact acceptance criterion of a link", "statement": "state_transition accepts a link exactly when its source is the current justified checkpoint and its target epoch is larger than the source epoch (and source epoch+1 does not overflow u64); it finalizes the source exactly when the target epoch is source epoch + 1, otherwise finality is unchanged; in every other case it returns an error and never panics on a valid state.", "quantifier": "every valid state and every link, including epochs at the u64 limit", "why_tests_cant": "needs all epoch/root combinations, including the overflow boundary", "anchors": ["core/src/consensus_state.rs: ConsensusState::state_transition"]}
{"id": "C03", "title": "A link reported between two states replays to the second state", "statement": "If transition_link(a, b) reports a link l, then state_transition(a, l) succeeds and yields exactly b; the host therefore never emits a link that the guest's state machine would process differently.", "quantifier": "every pair of valid states", "why_tests_cant": "pairs of arbitrary states, saturating epoch subtraction included", "anchors": ["core/src/consensus_state.rs: ConsensusState::transition_link, state_transition"]}
{"id": "C04", "title": "transition_link is the inverse of state_transition", "statement": "If state_transition(a, l) = b then transition_link(a, b) reports exactly l (documented as 'acts as the inverse of state_transition').", "quantifier": "every valid state a and every link l accepted by it", "why_tests_cant": "the one failing case is a corner (genesis state) that the tests do not visit", "anchors": ["core/src/consensus_state.rs: ConsensusState::transition_link"]}
{"id": "C05", "title": "No link is reported exactly when nothing changed; finality regressions and 2-finality are rejected", "statement": "For valid states a, b: transition_link(a,b) = Ok(None) iff a = b; it never returns Ok when b's justified or finalized epoch is below a's; and whenever b finalizes something other than a's finalized checkpoint with a justified-finalized gap of 2 epochs it is rejected.", "quantifier": "every pair of states", "why_tests_cant": "ranges over all pairs of states", "anchors": ["core/src/consensus_state.rs: ConsensusState::transition_link"]}
{"id": "C06", "title": "ABI encoding of a consensus state is lossless and fixed size", "statement": "abi_encode of a valid state is 128 bytes, abi_decode of it returns the same state, and two different valid states never encode to the same bytes.", "quantifier": "every valid state (all u64 epochs, all 32-byte roots)", "why_tests_cant": "the input space is 2^640", "anchors": ["core/src/consensus_state.rs: abi_encode, abi_decode, abi_encoded_size", "core/src/abi.rs: State, Checkpoint"]}
{"id": "C07", "title": "The journal determines pre-state, post-state and finalized slot", "statement": "The encoded journal is 288 bytes, its first 128 bytes decode to the pre state, the rest starts with the post state (which is how the CLI reads it back), the last word is the finalized slot, and equal journals imply equal pre state, post state and slot.", "quantifier": "every pair of valid states and every u64 slot", "why_tests_cant": "all byte values of all fields", "anchors": ["core/src/abi.rs: Journal::new, Journal::encode", "host/src/bin/zkasper_cli.rs: run_verify", "methods/guest/src/lib.rs: entry"]}
{"id": "C08", "title": "Decoding arbitrary bytes never yields an invalid state", "statement": "abi_decode never returns an invalid ConsensusState: for any bytes it returns a valid state, an error, or aborts. (The API advertises an error for invalid states; the code aborts instead.)", "quantifier": "every byte string", "why_tests_cant": "all byte strings", "anchors": ["core/src/consensus_state.rs: abi_decode", "core/src/abi.rs: TryFrom<State> for ConsensusState"]}
{"id": "C09", "title": "A successful verification performs exactly one finalization, with its last link", "statement": "If verify returns Ok, the finalized checkpoint differs from the initial one, and the finalized checkpoint was still the initial one before the last link was applied. No run can finalize twice or not at all.", "quantifier": "every reader (any attestations, validators, RANDAO) and every config", "why_tests_cant": "any number of links and attestations", "anchors": ["core/src/verify.rs: verify"]}
{"id": "C10", "title": "A successful verification strictly advances", "statement": "If verify returns Ok(post), then pre and post are valid, post.finalized.epoch > pre.finalized.epoch, post.finalized.epoch >= pre.justified.epoch and post.justified.epoch = post.finalized.epoch + 1.", "quantifier": "every reader and config", "why_tests_cant": "any number of links and attestations", "anchors": ["core/src/verify.rs: verify"]}
{"id": "C11", "title": "verify implements the documented Atomic Finalization algorithm", "statement": "If verify returns Ok(post) from pre, there is a chain of checkpoints c = b0 -> b1 -> ... -> bk (k>=1) starting at pre's justified checkpoint whose links are exactly the links of the attestation groups in order, all links but the last skip at least one epoch, the last one is a 1-epoch link, and post = (finalized b(k-1), justified bk). Only from the all-zero genesis state one extra first link to epoch 1 may precede this chain.", "quantifier": "every reader and config", "why_tests_cant": "chain length is unbounded", "anchors": ["core/src/verify.rs: verify", "docs/src/01_consensus_algorithm.md"]}
{"id": "C12", "title": "Every applied link meets the configured supermajority", "statement": "If verify returns Ok, then for each link the combined effective balance of the distinct unslashed validators that voted for it, times the threshold quotient, is at least the total active balance at the target epoch times the threshold factor (balances floored at one effective-balance increment), compared without overflow.", "quantifier": "every reader and config", "why_tests_cant": "any validator set, any balances up to u64", "anchors": ["core/src/verify.rs: verify", "core/src/config.rs: Config"]}
{"id": "C13", "title": "Every applied link has at least two thirds, whatever the configuration", "statement": "If verify returns Ok then for each link three times the participating balance is at least twice the total active balance even if the configured threshold is lower; and with a configured threshold of at least 2/3 (as in both shipped configs) this extra check never fires.", "quantifier": "every reader and every config, sane or not", "why_tests_cant": "all configs and balances", "anchors": ["core/src/verify.rs: verify", "core/src/config.rs: DEFAULT_CONFIG, SEPOLIA_CONFIG"]}
{"id": "C14", "title": "Counted votes are real votes", "statement": "If verify returns Ok, every validator counted towards a link is active at the target epoch and took part in an attestation of the input whose data names exactly that source and target, whose slot lies in the target epoch, whose index is 0, and whose aggregate signature verifies, under the attester domain of the target epoch's fork, for exactly the public keys of the validators selected by the attestation's bits.", "quantifier": "every reader and config", "why_tests_cant": "adversarial attestations of any number and shape", "anchors": ["core/src/verify.rs: process_attestation, is_valid_indexed_attestation", "core/src/attestation.rs: get_attesting_indices"]}
{"id": "C15", "title": "No validator is counted twice; vote order and repetition do not matter", "statement": "Reordering or repeating attestations inside the group of a link does not change the outcome when verification succeeds, and each validator contributes its effective balance at most once per link.", "quantifier": "every reader, every permutation/duplication inside a group", "why_tests_cant": "all permutations and multiplicities", "anchors": ["core/src/verify.rs: verify (participating_indices)"]}
{"id": "C16", "title": "Slashed validators never count for a link but always count against it", "statement": "The participating balance of a link never includes a slashed validator, while the total active balance includes all active validators, slashed or not.", "quantifier": "every reader and config", "why_tests_cant": "all validator sets", "anchors": ["core/src/verify.rs: verify", "core/src/input_reader.rs: get_total_balance"]}
{"id": "C17", "title": "One bad attestation rejects the whole input", "statement": "If any attestation in the input is not an Electra attestation, has a slot outside its target epoch, a non-zero index, an attester that is not active at the target epoch, or a bad signature, verify does not return Ok; nothing is silently skipped.", "quantifier": "every reader and config, any position of the bad attestation", "why_tests_cant": "any position in any input", "anchors": ["core/src/verify.rs: verify, process_attestation"]}
{"id": "C18", "title": "Accepted links stay within the lookahead window and supported forks", "statement": "If verify returns Ok then every link's target epoch is at most the trusted finalized epoch plus the lookahead limit, and the fork active at the target epoch is one of the supported forks. The input votes for at most half as many links as the lookahead limit; only from the all-zero state for one more.", "quantifier": "every reader and config", "why_tests_cant": "all epochs and configs", "anchors": ["core/src/verify.rs: validate_link", "core/src/config.rs: is_supported_version"]}
{"id": "C19", "title": "Votes for one link cannot be split over several groups", "statement": "If verify returns Ok, the attestations of each link form one contiguous block: all links are pairwise distinct and have strictly increasing target epochs. An unsorted input can only be rejected, never accepted with a different meaning.", "quantifier": "every reader and config", "why_tests_cant": "any ordering of any input", "anchors": ["core/src/verify.rs: verify (chunk_by)"]}
{"id": "C20", "title": "Balance arithmetic is exact", "statement": "Total balances are exact sums floored at one increment; if the sum exceeds u64 the result is an error, never a wrapped value; the threshold comparison is the exact rational comparison.", "quantifier": "every list of validators with u64 balances", "why_tests_cant": "unbounded lists", "anchors": ["core/src/input_reader.rs: get_total_balance", "core/src/verify.rs: verify"]}
{"id": "C21", "title": "Soundness does not depend on RANDAO or the shuffling", "statement": "The guarantees on votes, thresholds and the resulting state hold for arbitrary (unproven, adversarial) RANDAO mixes and for any shuffling function: a wrong seed can only make verification fail.", "quantifier": "every RANDAO mix, every shuffle function", "why_tests_cant": "quantifies over all functions", "anchors": ["core/src/verify.rs: compute_committees", "core/src/input_reader.rs: get_seed"]}
{"id": "C22", "title": "Attesting indices match the consensus specification", "statement": "get_attesting_indices returns exactly the validators selected by the aggregation bits over the concatenation of the committees named by committee_bits, and succeeds only if the bitlist length equals the summed committee sizes, each named committee exists and each has at least one attester.", "quantifier": "every attestation and committee assignment", "why_tests_cant": "all bitlists and committees", "anchors": ["core/src/attestation.rs: get_attesting_indices"]}
{"id": "C23", "title": "Committees partition the active validators", "statement": "Concatenating the committees of all slots and indices of the epoch gives back the shuffled list of active validators, so with a permuting shuffle each active validator is in exactly one committee of the epoch.", "quantifier": "every active set, seed and committee count", "why_tests_cant": "all sizes; integer division boundaries", "anchors": ["core/src/committee_cache.rs: CommitteeCache::initialized, get_beacon_committee"]}
{"id": "C24", "title": "shuffled_position inverts the shuffling", "statement": "For an initialized cache, shuffled_position(v) = Some(i) iff v is at position i of the shuffling; it is None for validators that are not active.", "quantifier": "every active set without duplicates, every seed", "why_tests_cant": "all sizes", "anchors": ["core/src/committee_cache.rs: initialized, shuffled_position"]}
{"id": "C25", "title": "Only well-formed proofs produce a root", "statement": "calculate_root returns Ok only if the descriptor bits are exactly the preorder encoding of one full binary tree with at least two leaves and the data holds a chunk for each leaf; the root is then the Merkle root of that tree. Everything else is an error or an abort.", "quantifier": "every byte string, every descriptor", "why_tests_cant": "all descriptors of any length", "anchors": ["ssz-multiproofs/src/multiproof.rs: calculate_compact_multi_merkle_root"]}
{"id": "C26", "title": "Verified proof values are the values of the real tree", "statement": "If a multiproof verifies against the root of an SSZ tree and the hash has no collision among the inputs involved, every (gindex, value) pair produced by its iterators is the node of that tree at that gindex.", "quantifier": "every tree, every (adversarial) multiproof whose descriptor is less than 64 levels deep", "why_tests_cant": "all trees and all adversarial proofs", "anchors": ["ssz-multiproofs/src/multiproof.rs: Multiproof::verify, nodes, values, get, next_assert_gindex"]}
{"id": "C27", "title": "Generalized indices reported by a proof are unambiguous", "statement": "Distinct nodes of one proof are reported under distinct generalized indices, and the index reported for a node is its true position. (False for descriptors 64 or more levels deep: the u64 index wraps, so a verifying proof can report a value at a position where the tree holds another.)", "quantifier": "every multiproof", "why_tests_cant": "needs a 67-level descriptor, which no test builds", "anchors": ["ssz-multiproofs/src/multiproof.rs: GIndexIterator"]}
{"id": "C28", "title": "Built proofs verify", "statement": "For any SSZ tree and any non-empty set of generalized indices, none of which is an ancestor of another, none the root, and all present in the tree, the builder produces a multiproof that verifies against the tree's root.", "quantifier": "every tree and every such set of indices", "why_tests_cant": "all trees, all index sets", "anchors": ["ssz-multiproofs/src/builder.rs: MultiproofBuilder::build, compute_proof_indices_and_value_mask, compute_proof_descriptor"]}
{"id": "C29", "title": "Built proofs contain exactly what was requested", "statement": "values() of a built multiproof yields exactly the requested generalized indices, each once, in depth-first left-to-right order, with the tree's values; get(g) finds a value iff g was requested.", "quantifier": "every tree and every admissible set of indices", "why_tests_cant": "all trees, all index sets", "anchors": ["ssz-multiproofs/src/builder.rs: MultiproofBuilder::build", "ssz-multiproofs/src/multiproof.rs: values, get"]}
{"id": "C30", "title": "Degenerate requests are not turned into proofs that verify", "statement": "Requesting only the root yields a proof that every verifier rejects; requesting nothing aborts in the builder; requesting both a node and its descendant never yields a proof that verifies against the tree and reports both requested nodes.", "quantifier": "every tree and every inadmissible set of indices", "why_tests_cant": "all trees, all index sets", "anchors": ["ssz-multiproofs/src/builder.rs: build", "ssz-multiproofs/src/multiproof.rs: calculate_compact_multi_merkle_root"]}
{"id": "C31", "title": "The stack-depth hint cannot influence verification", "statement": "The root computed from a proof, and hence verification and all values, does not depend on the untrusted max_stack_depth field.", "quantifier": "every proof and hint", "why_tests_cant": "all hints", "anchors": ["ssz-multiproofs/src/multiproof.rs: calculate_root, calculate_max_stack_depth"]}
{"id": "C32", "title": "No validator can be left out of or altered in the registry", "statement": "If the validators proof is accepted against the validators root of the true registry, then every validator of the true registry is either reported with exactly its pubkey, effective balance, slashed flag and epochs, or is omitted and its true exit epoch is at most the trusted epoch; no other validator is reported. Hence the active set at any epoch from the trusted one on, and its total balance, is exact.", "quantifier": "every registry of any length, every (adversarial) proof and public key list", "why_tests_cant": "registries of any size, adversarial proofs", "anchors": ["core/src/input_reader/guest_input_reader.rs: extract_validators_multiproof"]}
{"id": "C33", "title": "Extracted block and state fields are the true ones", "statement": "If the block and state proofs are accepted, the extracted state root, genesis validators root, slot, fork, validators root, finalized epoch and earliest exit/consolidation epochs are those of the block identified by the trusted checkpoint and of its state.", "quantifier": "every block and state, every (adversarial) proof", "why_tests_cant": "adversarial proofs", "anchors": ["core/src/input_reader/guest_input_reader.rs: extract_beacon_block_multiproof, extract_beacon_state_multiproof"]}
{"id": "C34", "title": "Registry updates only ever schedule activations", "statement": "process_registry_updates, applied over any number of epochs, never changes a validator's public key, balance, slashed flag or exit epoch, never changes an activation epoch that was already set, and any newly assigned activation epoch is at least 1+MAX_SEED_LOOKAHEAD epochs after the processed epoch; so activity before that is unchanged.", "quantifier": "every registry and every range of epochs", "why_tests_cant": "any number of epochs and validators", "anchors": ["core/src/input_reader/guest_input_reader.rs: process_registry_updates, into_reader"]}
{"id": "C35", "title": "Unproven state patches cannot change who is active inside the lookahead window", "statement": "With an accepted input whose trusted epoch is not 0, the active set reported for every epoch from the trusted epoch up to trusted epoch + MAX_SEED_LOOKAHEAD is the one determined by the proven registry alone, whatever the patches say.", "quantifier": "every registry, every set of patches accepted by into_reader", "why_tests_cant": "all adversarial patches", "anchors": ["core/src/input_reader/guest_input_reader.rs: validate_state_patches, active_validators", "core/src/state_patch.rs: is_active_validator"]}
{"id": "C36", "title": "A patched exit epoch is set at most once and never early", "statement": "In an accepted input, over consecutive patched epochs a validator's exit epoch either stays as proven or changes once from far-future to a value not before the earliest exit epoch; a proven exit is never altered.", "quantifier": "every accepted set of patches", "why_tests_cant": "all adversarial patches", "anchors": ["core/src/input_reader/guest_input_reader.rs: validate_state_patches"]}
{"id": "C37", "title": "Patched exits respect the churn limit", "statement": "For every accepted patch the total effective balance newly exiting is bounded by the churn limit times the number of epochs the exits span plus one.", "quantifier": "every accepted set of patches", "why_tests_cant": "all adversarial patches, including products that wrap around in u64", "anchors": ["core/src/input_reader/guest_input_reader.rs: validate_state_patches, get_balance_churn_limit"]}
{"id": "C38", "title": "Patches at epoch 0 are validated like any other", "statement": "No patch escapes the plausibility checks. (False for a patch at epoch 0: the saturating 'previous epoch' is epoch 0 itself, so each exit is compared with itself.)", "quantifier": "every accepted set of patches", "why_tests_cant": "corner case of saturating subtraction", "anchors": ["core/src/input_reader/guest_input_reader.rs: validate_state_patches"]}
{"id": "C39", "title": "The reported slot of the finalized block is proven", "statement": "If verify over a guest reader returns slot s for the finalized checkpoint root r, then s is the slot field of the block header whose root is r.", "quantifier": "every accepted input", "why_tests_cant": "adversarial proofs", "anchors": ["core/src/input_reader/guest_input_reader.rs: into_reader (block_slots), slot_for_block"]}
{"id": "C40", "title": "End-to-end soundness of the guest program", "statement": "If the guest program commits a journal (pre, post, slot), and pre's finalized root is the root of a real block with a real state, then a chain of justification links leads from pre to post and every link carries signatures of at least the configured share (and 2/3) of the real active balance at its target epoch, as determined by the real state's registry.", "quantifier": "every guest input (all fields adversarial)", "why_tests_cant": "all adversarial inputs", "anchors": ["methods/guest/src/lib.rs: entry", "core/src/input_reader/guest_input_reader.rs: into_reader", "core/src/verify.rs: verify"]}
{"id": "C41", "title": "Accountable safety of accepted proofs", "statement": "If two accepted runs from the same pre-state over the same registry finalize conflicting checkpoints, validators holding at least a third of the balance (by the intersection bound) signed two votes that are slashable (two different votes with the same target epoch, or one surrounding the other).", "quantifier": "every pair of accepted runs", "why_tests_cant": "pairs of adversarial histories", "anchors": ["docs/src/01_consensus_algorithm.md", "core/src/verify.rs: verify", "core/src/consensus_state.rs: state_transition"]}
{"id": "C42", "title": "Chaining journals", "statement": "For any sequence of accepted journals where each pre state equals the previous post state, finalized and justified epochs strictly increase and the whole history is one chain of justification links.", "quantifier": "every finite sequence of journals", "why_tests_cant": "unbounded histories", "anchors": ["methods/guest/src/lib.rs: entry", "core/src/verify.rs: verify"]}
{"id": "C43", "title": "Host-collected links replay on the guest", "statement": "The links returned by get_justifications_until_new_finality, applied in order by state_transition to the initial state, succeed and lead to the final state the chain reported; finality changes only with the last link.", "quantifier": "every chain of states, of any length", "why_tests_cant": "all chain histories", "anchors": ["host/src/input_reader/host_input_reader.rs: get_justifications_until_new_finality"]}
{"id": "C44", "title": "Host-collected attestations regroup into the same links", "statement": "If each link has at least one attestation, grouping the attestations returned by collect_attestations_for_links by consecutive (source,target) gives exactly the given links in order, each with exactly the block attestations for that link.", "quantifier": "every set of blocks and every list of distinct links", "why_tests_cant": "all inputs", "anchors": ["host/src/input_reader/host_input_reader.rs: collect_attestations_for_links", "core/src/verify.rs: verify (chunk_by)"]}
{"id": "C45", "title": "State patches make the guest see the real active set", "statement": "If from the trusted registry to the registry of a later state only exit epochs changed, and those from the far future to an epoch after the trusted one, then the guest's patched active set at that epoch is the later state's active set. The same holds if validators were added that are not active yet.", "quantifier": "every pair of states and every epoch", "why_tests_cant": "all registries", "anchors": ["host/src/state_patch_builder.rs: validator_diff", "core/src/state_patch.rs: is_active_validator"]}
{"id": "C46", "title": "Caching a state provider is transparent", "statement": "For every sequence of state requests, the caching provider answers as the wrapped (deterministic) provider would, and after a successful answer the wrapped provider is not asked again for that slot.", "quantifier": "every request sequence", "why_tests_cant": "unbounded sequences", "anchors": ["host/src/state_provider/cache_provider.rs: state_at_slot"]}
{"id": "C47", "title": "The persistent provider returns what the API returns, across restarts and crashes", "statement": "For every sequence of requests, restarts and crashes, the persistent provider answers a request with the state the API has for that slot, or fails in a way that a retry can fix. (The second part is false: a crash in the middle of a save leaves a truncated file that makes every later request fail.)", "quantifier": "every sequence of requests and every crash point", "why_tests_cant": "all crash points", "anchors": ["host/src/state_provider/persistant_api_provider.rs: state_at_slot", "host/src/state_provider/file_provider.rs: save_state, state_at_slot"]}
{"id": "C48", "title": "Clearing old states keeps every newer one", "statement": "clear_states_before(e) removes the stored states of all slots before the first slot of e and leaves all other states readable and unchanged, also if it fails or is killed midway. (It also removes other files whose name begins with an earlier slot number and '_'.)", "quantifier": "every directory content, listing order, epoch and interruption point", "why_tests_cant": "all directory contents", "anchors": ["host/src/state_provider/file_provider.rs: clear_states_before"]}
{"id": "C49", "title": "The stdin frame is lossless", "statement": "The length-prefixed frame passed to the guest decodes to the original input for any input shorter than 2^32 bytes; for longer inputs the prefix is truncated and decoding does not return the input.", "quantifier": "every byte string", "why_tests_cant": "sizes at and above 4 GiB", "anchors": ["host/src/bin/zkasper_cli.rs: encode_input_stdin", "methods/guest/src/lib.rs: entry"]}
{"id": "C50", "title": "Hard-coded generalized indices match the SSZ layout", "statement": "Every generalized index used by the guest addresses the intended field in the SSZ tree of the block header, the Electra and Fulu beacon state, and for every validator index below the registry limit the intended field of that validator; indices never overflow u64 and distinct (validator, field) pairs have distinct indices.", "quantifier": "every validator index below 2^40, both forks", "why_tests_cant": "2^40 indices", "anchors": ["core/src/guest_gindices.rs", "host/src/bin/gen_gindices.rs", "host/src/beacon_state.rs"]}
{"id": "C51", "title": "Chunk decoders invert the SSZ encoding", "statement": "Decoding the SSZ chunk of any u64 or bool gives the value back, and a chunk that is not a canonical bool aborts.", "quantifier": "every u64, bool and 32-byte chunk", "why_tests_cant": "2^64 values, 2^256 chunks", "anchors": ["core/src/input_reader/guest_input_reader.rs: u64_from_chunk, bool_from_chunk"]}
{"id": "C52", "title": "A supplied public key is accepted only if it is the registered one", "statement": "has_compressed_chunks accepts a key exactly if the two SSZ chunks are the Merkle leaves of its 48-byte compressed encoding, padding included.", "quantifier": "every key and every pair of chunks", "why_tests_cant": "all 2^512 chunk pairs", "anchors": ["core/src/bls.rs: has_compressed_chunks"]}
{"id": "C53", "title": "Preflight recording and guest reader agree", "statement": "After any sequence of answered queries, the preflight builds a guest input if the host's states continue the trusted one; and the reader the guest makes of it answers every recorded query as the host did: the same validators with the same keys, slashings and activations, the same randao mixes and the same slots, for the same chain, consensus state and votes.", "quantifier": "every host, every trusted state, every registry, every sequence of queries", "why_tests_cant": "all chains and registries", "anchors": ["host/src/input_reader/preflight_input_reader.rs: to_input", "core/src/input_reader/guest_input_reader.rs: into_reader"]}
{"id": "C54", "title": "The raised threshold absorbs balance drift", "statement": "If a link is accepted with participating balance w of a registry total B under a threshold t, then for any activated balance A, exited balance E and slashed balance S with S + (2A+E)/3 <= (t - 2/3) B, the votes still form a 2/3 majority of the drifted total.", "quantifier": "every balances and drift amounts", "why_tests_cant": "all balances", "anchors": ["docs/src/02_balance_drift.md", "core/src/config.rs"]}
{"id": "C55", "title": "Checkpoint order is a partial order consistent with epochs", "statement": "less_or_equal is reflexive, antisymmetric and transitive, and different checkpoints of the same epoch are incomparable.", "quantifier": "every triple of checkpoints", "why_tests_cant": "all checkpoints", "anchors": ["core/src/lib.rs: Checkpoint::less_or_equal"]}
{"id": "C56", "title": "Finalization search returns the first state that finalizes the trusted checkpoint", "statement": "If find_finalization_epoch(c) returns e then the state at e finalizes c, e is larger than c's epoch and no earlier epoch after c has reached or passed that finality; if the chain skips past c without finalizing it an error is returned.", "quantifier": "every chain of states", "why_tests_cant": "all chain histories", "anchors": ["host/src/input_reader/host_input_reader.rs: find_finalization_epoch"]}
{"id": "C57", "title": "A state for a checkpoint is only returned if its block root matches", "statement": "state_at_checkpoint never returns a state whose latest block root differs from the checkpoint's root.", "quantifier": "every provider and checkpoint", "why_tests_cant": "all providers, forked chains", "anchors": ["host/src/state_provider.rs: state_at_checkpoint"]}
{"id": "C58", "title": "Continuous input building yields journals that chain", "statement": "If the preflight of an input built by the host succeeds, its post state is the state in which the chain next changes finality, and all collected links are used; in continuous mode each journal starts from exactly the state in which the one before ended.", "quantifier": "every chain whose state at the start of an epoch finalizes an earlier epoch, every number of rounds, every set of blocks", "why_tests_cant": "all chain histories and any number of rounds", "anchors": ["host/src/bin/zkasper_cli.rs: prepare_input, Command::BuildInput", "host/src/input_reader/host_input_reader.rs: HostInputReader::new"]}
{"id": "C59", "title": "State patches are accepted exactly when they tell a lawful story", "statement": "The guest accepts the exit patches of an input if and only if no patch is for an epoch before the trusted one, every patched exit belongs to a proven validator and either repeats the exit of the preceding epoch or sets an unset one, new exits lie not before the earliest exit epoch and not before any new exit of an earlier patch, and the balance leaving up to any epoch stays within the doubled churn limit. In particular two patches for epochs that are not adjacent which both give the same true, different exits are rejected.", "quantifier": "every set of patches, registry and trusted state without 64-bit overflow of the limits", "why_tests_cant": "all combinations of patches, exits and balances", "anchors": ["core/src/input_reader/guest_input_reader.rs: validate_state_patches"]}
{"id": "C60", "title": "The guest accepts the input the preflight built", "statement": "A guest input that the preflight builds from consistent states is accepted by into_reader.", "quantifier": "every host, every trusted state, every registry, every sequence of queries", "why_tests_cant": "acceptance depends on the exits of all validators in all requested states", "anchors": ["host/src/input_reader/preflight_input_reader.rs: to_input", "core/src/input_reader/guest_input_reader.rs: into_reader, validate_state_patches"]}
{"id": "C61", "title": "The guest commits to what the host announced", "statement": "If the host's preflight succeeds on states that are consistent with the trusted one, then the guest program, run on the input it has made, either aborts or commits to exactly the journal (start, result, slot) the host announces. It commits if and only if it accepts the patches of the input and, with the balances of the trusted state, the validators counted for every link reach the threshold and two thirds; so it always does for an accepted input if no balance has changed. Recording the requests does not change the host's verdict, and the verdict of verify is a function of the answers to the requests it makes.", "quantifier": "every host, chain, trusted state, list of attestations, configuration, and every second reader with the same view of the chain", "why_tests_cant": "two implementations of the same interface over different data (full states, proven extracts with patches) have to agree on all inputs", "anchors": ["host/src/bin/zkasper_cli.rs: prepare_input", "host/src/input_reader/preflight_input_reader.rs", "core/src/verify.rs: verify", "methods/guest/src/lib.rs: entry"]}
{"id": "C62", "title": "The verdict does not depend on the word size of the machine", "statement": "As long as the active validators of all target epochs fit (on mainnet: fewer than 2^21, with indices below 2^32-1), the 32-bit guest and the 64-bit host come to the same outcome over the same data: same result, same error, or both abort; and the input the host makes does not depend on the machine. So the guest on its own machine commits to the journal the host announces, or aborts.", "quantifier": "every pair of word sizes, every memory limit above 126 stack nodes, every reader, input, host and configuration", "why_tests_cant": "tests run on the 64-bit host only; the computation wraps silently on 32 bits for large registries", "anchors": ["core/src/committee_cache.rs", "core/src/input_reader.rs: get_randao_mix", "methods/guest/src/lib.rs: entry", "ssz-multiproofs/src/multiproof.rs: calculate_compact_multi_merkle_root"]}
{"id": "C63", "title": "The input file is read back by the guest as the host wrote it, or the guest aborts", "statement": "Deserializing what the host serialized gives the same input, whatever bytes follow; different inputs have different serializations; whatever bytes are deserialized, the result has sorted maps without duplicate keys, 32-byte roots, 96-byte keys and numbers that fit; what the guest reads the host reads to the same value. Started with the input file the guest does what it does for the host's input; started with any proper part of the file (the host killed while writing) it aborts; if the input does not fit the 32-bit frame it aborts. So whatever part of the input file exists, the guest aborts or commits to the content of the journal file the host wrote beside it. Whatever bytes it is started with, a journal it commits to decodes to two valid states, the second strictly ahead.", "quantifier": "every guest input, every byte string on standard input, every prefix of the file, every word size", "why_tests_cant": "a test covers a few inputs and no crash points; the claim is about all byte strings", "anchors": ["host/src/bin/zkasper_cli.rs: prepare_input, encode_input_stdin", "methods/guest/src/lib.rs: entry", "core/src/input_reader/guest_input_reader.rs: GuestInput", "core/src/serde_utils.rs", "core/src/state_patch.rs: StatePatch", "ssz-multiproofs/src/multiproof.rs: Multiproof"]}
{"id": "C64", "title": "A successful check of an input means that the guest commits to the expected states", "statement": "If the command line tool's verification of input bytes in the virtual machine mode succeeds with a post state, the guest program on exactly these bytes commits to the given pre state, that post state and a slot, both states are valid and the second is strictly ahead. In native mode success means only that the host's own run over the deserialized input gave the state; the given pre state is not compared. The verification of an input the host has built succeeds in both modes with the state the preflight announced if no active balance changed, the patches are accepted and the input fits the guest.", "quantifier": "every byte string, pre state, configuration, pair of machines, host and chain", "why_tests_cant": "the check and the guest are different programs on different machines; the claim relates them on all bytes", "anchors": ["host/src/bin/zkasper_cli.rs: run_verify, execute_guest_program", "core/src/abi.rs", "methods/guest/src/lib.rs: entry"]}
{"id": "C65", "title": "The input the host builds has a bounded size that fits the frame and the guest", "statement": "A built Merkle proof has one 32-byte chunk and one mask bit more than the requested nodes have distinct proper ancestors, and two descriptor bits for each of these and one more. So an input the preflight has built from n validators takes at most 411 n bytes for proofs and keys, 16 n + 68 bytes for each patched epoch, the attestations and a constant, and there are at most half as many patched epochs as the lookahead limit (one more at the start of the chain). For the shipped lookahead limit, up to 2^22 validators and two gigabytes of attestations, every length fits the 32-bit guest and the whole input fits the 32-bit length of the frame; then the host's own checks of the input succeed and the guest commits to the announced journal, if the patches are accepted and no active balance changed.", "quantifier": "every host, chain of states, set of validators and list of attestations", "why_tests_cant": "the size depends on the whole registry and on which parts of it are requested; sizes near the limits cannot be built in a test", "anchors": ["ssz-multiproofs/src/builder.rs: MultiproofBuilder::build", "host/src/input_reader/preflight_input_reader.rs: to_input", "host/src/bin/zkasper_cli.rs: encode_input_stdin, run_verify", "core/src/input_reader/guest_input_reader.rs: GuestInput"]}
{"id": "C66", "title": "The files of build-input are consistent at every crash point", "statement": "build-input writes, for one epoch after the other, an input file and a journal file. The first epoch is the requested one; each later one is the epoch that the round before has finalized and is strictly larger, and a round is made only when the node reports a later finalized epoch. If the process is killed at any point, even in the middle of a write, then for every epoch the two files are either untouched or hold a prefix of what one round has written for this epoch; if the guest program accepts the input file it commits to the host's transition from a state that finalizes this epoch, and what is in the journal file is a prefix of that journal. If the process is not killed within a round, the guest commits to exactly the content of the journal file (if no active balance changed and the guest accepts the exits). Journals of consecutive rounds chain if the node keeps to its earlier answers. Once the node reports a later finalized epoch and the input can be prepared, the files are written.", "quantifier": "every sequence of answers of the node, every number of rounds, every crash point, every earlier content of the directory", "why_tests_cant": "crash points and sequences of answers are unbounded; the claim compares files with a run of the guest", "anchors": ["host/src/bin/zkasper_cli.rs: Command::BuildInput, prepare_input, encode_input_stdin", "methods/guest/src/main.rs"]}
{"id": "C67", "title": "What a line of the sync log means", "statement": "Each line of the sync log after the first starts from the state in which the line before ended. A line says Ok exactly if the check of the input that was prepared in this pass gave the state the line ends with. With the virtual machine this means that the guest program accepted an input and committed to a transition to that state, from a state with the finalized epoch the line starts from; if the node keeps to its earlier answers it is, for all lines but the first, exactly the state the line names. The state named by the first line is not checked except for its finalized epoch. If the node's answers belong to one chain there is never a line that reports a mismatch, and if in addition no active balance changes within a pass and the guest accepts the exits, every line is Ok and the verify command reports the announced state.", "quantifier": "every sequence of answers of the node, every number of passes, both modes", "why_tests_cant": "the loop never ends and its lines depend on the whole history of answers", "anchors": ["host/src/bin/zkasper_cli.rs: run_sync, run_verify, log_sync, Command::Verify"]}
{"id": "C68", "title": "Exactly which inputs verify accepts", "statement": "verify accepts an input, with a given new consensus state and slot, if and only if: the reader gives a valid starting state and votes; the votes come in one block per link; the links make up exactly one new finalization from the starting state to the new one (with the genesis exception of C11); for every link, the target epoch is inside the window and the supported forks, every vote is a genuinely signed vote of exactly the active validators that its bits select in the committees of the consensus specification for that epoch, the distinct unslashed voters reach the configured threshold and two thirds of the active balance, with numbers that fit 64 bits; and the slot of the finalized block is known. There is no other reason to reject and no other way to be accepted.", "quantifier": "all readers (states, registries, mixes, votes, chains), configurations and results, for chain constants and active sets within the machine word (on the guest with mainnet constants: fewer than 2^21 active validators)", "why_tests_cant": "Tests exercise single accepted and rejected inputs; that the conditions are necessary and sufficient is a statement about all inputs.", "anchors": ["core/src/verify.rs: verify, validate_link, process_attestation, compute_committees", "core/src/committee_cache.rs: CommitteeCache::initialized", "core/src/input_reader.rs: get_seed, get_randao_mix", "core/src/attestation.rs: get_attesting_indices"]}
{"id": "C69", "title": "Further genuine votes never hurt, and a single bad one always does", "statement": "Adding votes to the blocks of an accepted input, in any order within a block, leaves it accepted with the same result if and only if every added vote is a genuine vote of its target epoch (as long as balances are far from the end of the 64-bit range).", "quantifier": "all accepted inputs and all lists of additional votes for the same links", "why_tests_cant": "It quantifies over all accepted inputs and all additional votes.", "anchors": ["core/src/verify.rs: verify, process_attestation"]}
{"id": "C70", "title": "Verification over two readers checked against each other", "statement": "verify over AssertInputReader(a, b) succeeds if and only if verify over a alone succeeds, with the same result, and b gives the same answers to everything asked: chain state, votes, forks, mixes, genesis root, slot, and the same active validators up to effective balances and exit epochs. After such a success verify over b can only give the same result or fail.", "quantifier": "all pairs of readers of one chain specification and all configurations", "why_tests_cant": "The reader is itself a testing device; that it misses no difference that matters is a statement about all pairs of readers.", "anchors": ["host/src/input_reader/assert_input_reader.rs: AssertInputReader"]}
{"id": "C71", "title": "What the beacon client reports is what the node said", "statement": "get_block and get_block_header return a block or header exactly if the node answered with it, and report 'none' exactly if the node answered with status 404; every other answer is an error. get_beacon_state returns a state exactly if it reads as the version the node declared and as no newer one. The consensus state read from the node has its current justified and finalized checkpoints. An input that was prepared holds exactly the votes, for the links it covers, of the blocks in the slots of their target epochs, and for each of these slots the node gave the block or said there is none.", "quantifier": "all nodes (any answer to any request), all decoders of content, all block and state identifiers, all starting epochs", "why_tests_cant": "Tests run against a few recorded or well-behaved answers; that no failure is taken for an absent block, so that no vote is lost silently, is a statement about all answers.", "anchors": ["host/src/beacon_client.rs: BeaconClient::get_block_header, get_block, get_beacon_state, get_finality_checkpoints", "host/src/beacon_state.rs:713-742", "host/src/input_reader/host_input_reader.rs: HostInputReader"]}
{"id": "C72", "title": "Votes count only under the fork version of their network and epoch", "statement": "In an ordered fork schedule exactly one fork is in force in an epoch, and that is the one whose name and version the chain specification gives. The fork record of an epoch has that fork's version and first epoch and the version of the fork before it, and the guest takes a trusted state only if it has this record. With the shipped mainnet specification and configuration every vote of an accepted input has a target epoch from Electra (364032) on and a signature valid under Electra's fork version before epoch 411392 and Fulu's from then on; likewise for Sepolia with epochs 222464 and 272640 and its versions. The two networks have no fork version in common.", "quantifier": "all ordered fork schedules and epochs; all inputs accepted by the mainnet and the Sepolia guest, all signature schemes and signing roots", "why_tests_cant": "Tests use recorded inputs of a few epochs; a wrong boundary shows only for votes right at a fork, and a version shared between networks only for a vote replayed across them.", "anchors": ["chainspec/src/lib.rs: mainnet_spec, sepolia_spec", "chainspec/configs/mainnet.yaml", "chainspec/configs/sepolia.yaml", "core/src/config.rs: DEFAULT_CONFIG, SEPOLIA_CONFIG", "core/src/verify.rs: is_valid_indexed_attestation"]}
{"id": "C73", "title": "The index generator addresses the parts it names", "statement": "For every SSZ type, value of it and path, the generalized index computed for the path addresses the part of the value at the end of the path. The functions in the guest's generated index module are exactly those the generator makes for its listed paths, and for each validator below the registry limit they equal the index of the path through the registry. The formula that the generator writes for a field of a list element with 2^m chunks is right exactly for indices whose offset at their depth is below 2^m. Fields added at the end of a container change no index while the padded number of fields stays the same.", "quantifier": "all schemas made of containers, byte vectors and lists, all values of them, all paths, all validator indices below 2^40, all base indices and depths", "why_tests_cant": "A test compares a few generated constants; that the formula fits every validator, and for which further fields it would be wrong, ranges over unbounded indices and types.", "anchors": ["host/src/bin/gen_gindices.rs: gen_gindices, validators_gindices, beacon_gindices, block_gindices", "core/src/guest_gindices.rs"]}
{"id": "C74", "title": "Committees are those the consensus specification computes", "statement": "The shuffled list from which committees are cut is a permutation of the active validators, its i-th entry is the validator at compute_shuffled_index(i) of the consensus specification, and get_beacon_committee returns exactly the committee of compute_committee for every slot of the epoch and every committee index. In an accepted input the signers attributed to an attestation are therefore those its bits select in the committees of the consensus specification.", "quantifier": "all hash functions, seeds, active sets, numbers of rounds, slots and committee indices; all accepted inputs", "why_tests_cant": "The optimised in-place shuffle reads one digest per 256 positions and walks from both ends; that it agrees with the index-wise definition must hold for every list length, pivot and digest, of which tests try a handful.", "anchors": ["core/src/committee_cache.rs: CommitteeCache::initialized, get_beacon_committee", "core/src/attestation.rs: get_attesting_indices", "core/src/verify.rs: verify"]}
{"id": "C75", "title": "Attestations survive their byte formats unchanged", "statement": "An attestation the node has sent is converted to the verifier's type without any change, or rejected if its signature is malformed. In the serialized guest input every attestation is read back as it was written; the decoder accepts exactly the SSZ form of attestations, so that no two byte strings stand for the same attestation and no two attestations are written alike. An attestation takes at most 16622 bytes, so inputs of shipped size fit the frame.", "quantifier": "all attestations of both forms, all byte strings, all predicates on signatures", "why_tests_cant": "A round trip of sample attestations says nothing about other lengths of the aggregation bits, and no test covers all byte strings a decoder may accept.", "anchors": ["core/src/serde_utils.rs: DiskAttestation", "host/src/conversions.rs: TryAsBeaconType for Attestation"]}
{"id": "C76", "title": "A counted vote was signed for exactly this data, fork and chain", "statement": "Every validator whose balance is counted for an attestation in an accepted run has signed exactly this attestation's data, under the attester domain of the fork version at its target epoch and the genesis validators root of the chain. A signature made for other data, for another fork version or network, or for another kind of message is never counted. This holds if aggregate signatures cannot be forged and SHA-256 has no collision (also on the 28 bytes that enter a domain) among the strings hashed.", "quantifier": "all readers and attestations, all configurations, all hash functions and signature schemes, all sets of messages the owners of the keys may have signed", "why_tests_cant": "a test shows that one wrong signature is rejected; that no other message in the world leads to the same signing root is a statement about all data, versions, roots and kinds of messages", "anchors": ["core/src/verify.rs:is_valid_indexed_attestation", "core/src/verify.rs:process_attestation"]}
{"id": "C77", "title": "No conflicting finality while fewer than a third break the rules", "statement": "Two guest runs accepted from the same pre-state, over the same real chain, never finalize checkpoints of which neither descends from the other, as long as validators holding two thirds of the active balance or more follow the protocol: they sign nothing but their duties, and never two slashable votes for the same chain. This holds if aggregate signatures cannot be forged and SHA-256 has no collision.", "quantifier": "all pairs of accepted guest inputs, all real chains behind them, all sets of dishonest validators with less than a third of the balance, all behaviours of theirs", "why_tests_cant": "the adversary's votes, the two inputs and the split of the validators are arbitrary; a test tries a few", "anchors": ["core/src/verify.rs:verify", "core/src/input_reader/guest_input_reader.rs:into_input_reader", "methods/guest/src/lib.rs:entry"]}
{"id": "C78", "title": "Answers that change while an input is prepared", "statement": "While one input is prepared, the state provider and the node may answer the same request differently each time. If all states that are given belong to one network, then for any such answers the outcome of preparing the input is the one that fixed answers, chosen among those given, lead to: the same bytes, the same pre and post state, or no input in both cases. The log of sync and the report of verify are those with such fixed answers, and so are the files of build-input except for the slot in a journal file. That slot is the one in the first answer to the request for the finalized block's header, while the input and the guest have the one in the second; if the header does not change, the journals agree too. If no answer changes, every outcome is that of fixed answers, errors included, in whatever order the cache lists its states. If requests fail at times but no two different states are given for a slot, whatever is prepared is what the full answers give, and if those are quiet (as in C66) the guest accepts it.", "quantifier": "all functions from request number and request to answer, all orders of the cache, all numbers of rounds", "why_tests_cant": "the caches make the outcome depend on which request came first; a test replays a recorded sequence of answers, not all of them", "anchors": ["host/src/bin/zkasper_cli.rs:prepare_input", "host/src/state_provider/cache_provider.rs:CacheStateProvider", "host/src/input_reader/host_input_reader.rs:HostInputReader", "host/src/input_reader/preflight_input_reader.rs:to_input"]}
{"id": "C79", "title": "Light clients with different histories do not diverge", "statement": "Two light clients start from the same state and each follows its own sequence of proofs, of any length, in which every proof starts where the one before ended. If a checkpoint that the one ever holds as finalized and one that the other ever holds conflict (neither descends from the other), then some proof of the one and some proof of the other history contain votes for two slashable links, and the validators who signed both hold a third of the active balance, less the amount by which validators and balances changed between the two proofs. So as long as validators with less than that break the protocol, the clients never conflict.", "quantifier": "all pairs of sequences of accepted guest inputs, of any lengths, all points of the two histories, all real states behind the checkpoints passed through, all changes of the registry between them, all sets of dishonest validators below the bound", "why_tests_cant": "the histories are unbounded, and the registries by which votes are counted differ from proof to proof; the two conflicting votes may be in proofs far apart", "anchors": ["methods/guest/src/lib.rs:entry", "core/src/verify.rs:verify", "core/src/consensus_state.rs:state_transition"]}
{"id": "C80", "title": "The same answers give the same bytes", "statement": "What the program leaves to chance cannot be seen in its results. Two parts of it have an order that may differ from run to run: the hash set of helper indices in the proof builder, and exits of the same epoch after the unstable sort in the check of state patches. Whatever these orders are, the builder gives the same proof byte for byte or the same error, the guest's reader accepts and rejects the same inputs, the guest commits the same journal, and prepare_input, the command verify, every operation on the files of build-input and every line of the log of sync are the same, also when the node's answers change from request to request.", "quantifier": "all iteration orders of the hash set, all unstable sorts of host and guest, all lists of requested indices and trees, all byte strings given to the guest, all nodes' answers, all numbers of rounds", "why_tests_cant": "a test sees the order that one run happens to have; inputs on which two orders would differ (equal keys, odd requests, sums that wrap) are rare or made by an adversary", "anchors": ["ssz-multiproofs/src/builder.rs:compute_proof_indices_and_value_mask", "ssz-multiproofs/src/builder.rs:cmp_binary_lexicographically", "core/src/input_reader/guest_input_reader.rs:validate_state_patches", "host/src/bin/zkasper_cli.rs:prepare_input"]}
{"id": "C81", "title": "What the shipped guests prove", "statement": "Take any bytes on which the guest built for Ethereum mainnet commits a journal. The journal decodes to two states of which the second is ahead of the first, in its finalized and in its justified epoch, and the first is finalized at epoch 364028 or later. If the start checkpoint names a real beacon block with a real state (no SHA-256 collisions or preimages among the strings hashed in the proofs), the second state follows from the first by a run of justification links, each with a target in epoch 364032 or later and at most 4 epochs after the start, and each carried by distinct, active and unslashed validators with at least 85 % of the active balance (sums below 1 ETH counting as 1 ETH): if signatures cannot be forged, each of them has signed, with the key registered for them in the state, attestation data for this link of a slot in the target epoch, under the attester domain of fork version 0x05000000 before epoch 411392 and 0x06000000 from there on and of the chain's genesis validators root. The same holds for the guest built for Sepolia with epoch 222464 (start 222460), epoch 272640, versions 0x90000074 and 0x90000075, and 70 %.", "quantifier": "all byte strings given to either guest, all hash functions, domains as in the consensus specification, all unforgeable signature schemes, all real blocks and states behind the start", "why_tests_cant": "it joins decoding, Merkle proofs, registry, committees, fork schedule, signing roots and the finality rule for every input an adversary could write; tests run the guest on a few recorded inputs", "anchors": ["methods/guest/src/bin/mainnet.rs:main", "methods/guest/src/bin/sepolia.rs:main", "methods/guest/src/lib.rs:entry", "core/src/config.rs:DEFAULT_CONFIG", "core/src/verify.rs:verify", "core/src/input_reader/guest_input_reader.rs:into_reader"]}
{"id": "C82", "title": "Leading two light clients of a shipped network apart", "statement": "Two light clients of Ethereum mainnet hold the same state. Each follows one or more files: the mainnet guest commits a journal on the file, the journal starts at the client's state, and its end becomes the client's state. The proofs in the files start from real beacon blocks with real states (no SHA-256 collisions or preimages among the strings hashed in them), signatures cannot be forged, at least 2 ETH are active at the target epochs of the votes in the files, and there is an ancestry of checkpoints in which the source of each of these votes is an ancestor of its target. If in the end neither client's finalized checkpoint is an ancestor of the other's, then one file of each client holds votes for two links that are slashable together (two links with one target epoch, or one surrounding the other), and distinct validators, active in both, have signed for both, each with the key registered for them and under the attester domain of the target epoch's fork version. With W and W' the active balances at the two target epochs and U the balance of the validators active in one or the other, each with the greater balance, they have at least 85 % of W + W' less U; if U is at most d more than W and W', that is at least 70 % of W, and of W', less d. So as long as all but validators with less than 70 % of the active balance, less d, never sign two slashable votes, the finalized checkpoints of the two clients are on one chain. The same holds for Sepolia and its guest with 70 % in place of 85 % and 40 % in place of 70 %.", "quantifier": "all pairs of non-empty lists of files either guest accepts from one state, all real blocks and states behind their proofs, all ancestries, all hash functions, domains as in the consensus specification, all unforgeable signature schemes", "why_tests_cant": "it ranges over all histories of accepted inputs an adversary with many keys could produce; tests follow one chain of recorded inputs", "anchors": ["methods/guest/src/bin/mainnet.rs:main", "methods/guest/src/bin/sepolia.rs:main", "methods/guest/src/lib.rs:entry", "core/src/config.rs:DEFAULT_CONFIG", "core/src/verify.rs:verify", "host/src/bin/zkasper_cli.rs:main"]}
{"id": "C83", "title": "What a committee cache answers", "statement": "Take a cache that CommitteeCache::initialized built for an epoch, where the shuffle keeps the number of validators and the number of active validators times the number of committees in the epoch fits in usize. get_beacon_committee refuses a slot of another epoch with NotInitializedAtEpoch and that epoch, and an index that no slot has with ShuffleIndexOutOfBounds and that index; it answers every other request, and the sizes of all committees of the epoch differ by at most one. get_beacon_committees_at_slot returns exactly the answers for the indices 0, 1, ... in this order, as many as get_committee_count_per_slot says, and refuses a slot of another epoch in the same way. is_initialized_at is true for the one epoch of the cache only, active_validator_count is the number of active validators, and epoch_committee_count is the number of committees per slot times the slots per epoch.", "quantifier": "every active set, seed, committee count, epoch, slot and index", "why_tests_cant": "all sizes, slots and indices; integer division boundaries", "anchors": ["core/src/committee_cache.rs: CommitteeCache::initialized, get_beacon_committee, get_beacon_committees_at_slot, is_initialized_at, active_validator_count, epoch_committee_count"]}
{"id": "C84", "title": "build-input writes only what the node has reported", "statement": "build-input is run against any node, which may answer each request with anything at any time, and may be killed at any point. Afterwards the two files of each epoch are as they were, or one pass of the program has written them, up to the point where it was killed, and in that pass: the node has answered that the finalized epoch of the head is greater than the epoch (as a 64-bit sum), and the journal's old and new state are current justified and finalized checkpoints that the node has answered for two slots; the old one finalizes the epoch, with the root of a block that the node has returned, and the new one finalizes a later epoch. As long as the node answers that no epoch after the requested one is final, nothing is written and the program goes on. If the node does not answer the question with finality checkpoints, the program ends with a failure and nothing more is written.", "quantifier": "all nodes and state providers, all answers at all times, all starting epochs, all points of interruption", "why_tests_cant": "tests run against a few recorded answers and are not killed at every byte", "anchors": ["host/src/bin/zkasper_cli.rs: Command::BuildInput, prepare_input", "host/src/beacon_client.rs: get_finality_checkpoints, get_block, get_consensus_state", "host/src/input_reader/host_input_reader.rs: HostInputReader::new"]}
{"id": "C85", "title": "The shipped guests judge votes as the consensus specification does", "statement": "A file is given to the guest program of mainnet or Sepolia that decodes to an input whose proofs hold and belong to a block of the real chain, with fewer than 2^21 active validators in the epochs voted for and no hash coincidences in its proofs. The guest commits a journal exactly if the votes come in one block per link, the links make up one new finalization from the trusted state, every link's target is in Electra or Fulu and at most four epochs after the trusted one, all its votes are valid attestations of that chain, and their unslashed signers have 85 (Sepolia: 70) of 100 parts of the active balance, each side counted as at least one ether; and the input proves the slot of the newly finalized block and all these numbers fit their machine words. The journal then states exactly that transition. Valid means what the consensus specification says: made in a slot of the target epoch, bits that fit the committees that get_beacon_committee gives for that slot with the published shuffle, the active validators of the real registry and the RANDAO mix of the input, at least one signer, and an aggregate signature by the registered keys over the signing root under the attester domain of the version of the target epoch.", "quantifier": "all files, all chains, all registries, all votes", "why_tests_cant": "tests run a few files of one chain; the statement is an equivalence over all files and all chains, and goes through the shuffle, the Merkle proofs, the registry and the arithmetic of a 32-bit machine", "anchors": ["methods/guest/src/lib.rs: entry", "core/src/verify.rs: verify, process_attestation, compute_committees", "core/src/committee_cache.rs: CommitteeCache", "core/src/attestation.rs: get_attesting_indices", "core/src/input_reader/guest_input_reader.rs: GuestInput::into_reader", "core/src/config.rs: DEFAULT_CONFIG, SEPOLIA_CONFIG"]}
{"id": "C86", "title": "A client with a response cache gives the first kept reply ever after", "statement": "A beacon client built with a response cache answers each request with the first reply to the same request that the cache has kept, in this run or an earlier one with the same directory, and with what the node replies now if there is none. So every answer is one the node has given to that request; an answer that the cache does not keep, such as an error or a missing block, is the node's current one; a kept answer is given ever after, whatever the node replies later; and if the node never changes its reply to a request the cache makes no difference. Without a cache every request reaches the node and gets its reply. In which order the cache and the rate limit were added to the builder makes no difference, a rate limit changes no answer and does not delay requests that the cache answers. A build-input that asked for the head through such a client would wait for ever if the first kept reply names an epoch that is not beyond the requested one.", "quantifier": "all sequences of requests and replies, all restarts, all policies of what is kept, all sequences of builder calls", "why_tests_cant": "tests fill the cache once and read it back; the statement is about every history of a directory that outlives the process, and about a loop that never ends", "anchors": ["host/src/beacon_client.rs: BeaconClientBuilder::with_cache, with_rate_limit, build, RateLimitMiddleware", "host/src/bin/zkasper_cli.rs: main"]}
{"id": "C87", "title": "A light client and the beacon chain do not part", "statement": "A view of the beacon chain justifies checkpoints by chains of supermajority links (two thirds of the active balance) from the checkpoint it starts at, and finalizes a justified checkpoint that is the source of a supermajority link, provided that in each epoch the link skips a descendant of the checkpoint is justified (this includes 2-finality, which light clients leave out). A light client of Ethereum mainnet whose current justified checkpoint is justified in the view follows one or more files: the mainnet guest commits a journal on the file, the journal starts at the client's state, and its end becomes the client's state. The proofs in the files start from real beacon blocks with real states (no SHA-256 collisions or preimages among the strings hashed in them), signatures cannot be forged, at least 2 ETH are active at the target epochs of the votes, and there is an ancestry of checkpoints in which the source of each vote in the files and of each link of the view is an ancestor of its target. If the view has finalized a checkpoint and neither it nor the client's finalized checkpoint is an ancestor of the other, then there are two links that are slashable together, one of a vote in the files and one of the view, or both of the view, and distinct validators, active in both, have signed for both, with at least 85 % and two thirds (two thirds and two thirds if both are of the view) of the two active balances, less the balance of the validators active in one or the other. So as long as all but validators with less than a third of the active balance, less the change d of the stake between the electorates, never sign two slashable votes and keep their keys, the client's finalized checkpoint and those of the chain are in line. If the view's links include those for which the votes in the files have two thirds, the view finalizes the client's finalized checkpoint and justifies its current justified one. The same for Sepolia, with 70 % in place of 85 %.", "quantifier": "all files, all histories of proofs of any length from any state that is justified in the view, all views of the beacon chain (any set of links, any votes, any registry for each link), all finalized checkpoints of the view, all ancestry relations, all sets of dishonest validators", "why_tests_cant": "Tests compare the client with one recorded chain; no test can show that no adversarial history of votes leads it to a checkpoint the chain never finalizes, in particular where the chain finalizes by rules the client does not have.", "anchors": ["docs/src/01_consensus_algorithm.md: Theorem 1, Theorem 2, A Note on 2-Finality", "methods/guest/src/bin/mainnet.rs:main", "methods/guest/src/bin/sepolia.rs:main", "methods/guest/src/lib.rs:entry", "core/src/config.rs:DEFAULT_CONFIG", "core/src/verify.rs:verify", "host/src/bin/zkasper_cli.rs:main"]}
{"id": "C88", "title": "The shipped thresholds against the documented drift of balances", "statement": "The guest counts votes by the balances of the state it starts from, up to 4 epochs before the target epoch of the votes. Let the mainnet guest accept a file whose proof starts from a real block and state (no SHA-256 collisions or preimages among the strings hashed in it), signatures being unforgeable. Take any balances at the target epoch that differ from the counted ones within the bounds of docs/src/02_balance_drift.md (A, the increase of all but the unslashed voters; E, the decrease of the unslashed voters; the total; the number of active validators), and any slashed validators of balance S, with at least 2 ETH counted as active. If the document's calculate_delta is at most (85/100 - 2/3) of the counted active balance, the voters that have not been slashed have two thirds of the real active balance. That is so whenever at least 10 million ETH are at stake, validators have 16 ETH or more on average, and at most a tenth is slashed. The same holds for Sepolia with 70/100, but there the condition fails whenever at most 2,588,000 ETH are at stake, for every number of epochs from 1, and for stakes of 320 ETH up to 2.7 million there is a change of balances within the bounds, with nobody slashed, after which votes counted as 70 % are less than two thirds.", "quantifier": "all files accepted, all links in them, all balances and active sets at the target epoch, all sets of slashed validators, all stakes and numbers of validators", "why_tests_cant": "The document argues over all balances and epochs; tests have one registry whose balances do not change.", "anchors": ["docs/src/02_balance_drift.md:calculate_delta", "core/src/config.rs:DEFAULT_CONFIG", "core/src/config.rs:SEPOLIA_CONFIG", "core/src/verify.rs:verify", "methods/guest/src/bin/mainnet.rs:main", "methods/guest/src/bin/sepolia.rs:main"]}
{"id": "C89", "title": "Building keeps up with the node exactly as long as what it serves can be proved", "statement": "On a chain with sensible constants and against a consistent node, an input can be prepared for an epoch if and only if what the node serves for the epoch can be proved: the checkpoint of the epoch is finalized and from there the consensus state moves by at most one supermajority link per epoch to the next finality, the votes for these links are in the blocks of their target epochs (up to the first slot after the last), these votes carry the links, and the header, the blocks and the keys are there. A continuous build that is served in this way never stops with an error, and it has proved the chain up to a target once the node has reported the target or something later in as many passes as the target is epochs ahead; if balances do not change between the state and the targets, the shipped guest accepts each of the files, and they form an unbroken chain from the requested epoch to the target. If however the first change of finality after an epoch is another one than finalizing the justified checkpoint by justifying the next epoch, no build that starts at the epoch ever writes a file.", "quantifier": "every network with sensible constants, every consistent node and every sequence of passes of the build loop, for any number of passes, epochs, validators and votes", "why_tests_cant": "A test follows one recorded chain for a few epochs; that nothing else than the listed conditions can stop the program, and that it keeps up for ever, is a statement about all chains and all histories of the node.", "anchors": ["host/src/bin/zkasper_cli.rs: Command::BuildInput, prepare_input", "host/src/input_reader/host_input_reader.rs: HostInputReader::new, find_finalization_epoch, get_justifications_until_new_finality, collect_attestations_for_links", "core/src/consensus_state.rs: ConsensusState::transition_link", "core/src/verify.rs: verify", "docs/src/01_consensus_algorithm.md"]}
{"id": "C90", "title": "The program follows the beacon chain from finality to finality exactly as long as the chain stays on the way", "statement": "For the justification and finalization rules of Ethereum, from genesis on and for every pattern of votes: the consensus state that a beacon state induces is always valid. From one epoch to the next the chain either stays or moves by one supermajority link that was counted at this point, and then the program sees exactly this link; or it finalizes a checkpoint two epochs behind the justified one, which the program refuses as 2-finality; or it justifies the epoch after the justified one by votes whose source is an earlier checkpoint, which the program refuses as an invalid transition. Between two finalities the search for links succeeds if and only if neither of the refused steps occurs, and then the links are counted ones by which the documented algorithm gets from the one induced state to the other; otherwise the search ends with an error and no input is ever written for the earlier finality. Independently of the program: if neither rule of 2-finality applies between two finalities, there are counted links by which the documented algorithm gets from the one to the other.", "quantifier": "every chain, that is every choice of block roots and of which links have two thirds at the end of which epoch, every pair of consecutive finalities, any number of epochs", "why_tests_cant": "The tests replay epochs of a chain that finalizes without delay. Which sequences of late and missing votes the rules of the chain can turn into a state change that the program refuses is a question about all histories of votes.", "anchors": ["core/src/consensus_state.rs: ConsensusState::transition_link, ConsensusState::is_valid", "host/src/input_reader/host_input_reader.rs: get_justifications_until_new_finality, find_finalization_epoch", "host/src/bin/zkasper_cli.rs: Command::BuildInput", "docs/src/01_consensus_algorithm.md: Theorem 1"]}
{"id": "C91", "title": "Processes sharing a data directory", "statement": "Any number of runs of the command line tool may work on one data directory at the same time. Runs for different networks, and runs that work on different files, do not influence each other: each ends with the same result and the same files as if the others did not exist. Whatever the order in which the calls to the file system are made, how many bytes each moves and who is killed when: a file of a state, an input or a journal never holds a byte that is neither the right one nor a zero, and is never too long; when all runs have come to their end and none was killed every file is complete; the files of a build that has ended are there; every run comes to its end after enough turns; the file of a state that was there before stays as it is and requests for the state are answered from it. A request that is answered is answered with the right state provided that bytes of a state with some missing or zero are not read as another state. Two requests for one state at the same time may however fail although each alone would be answered, and if one is killed they may leave a file with a hole that no later request mends.", "quantifier": "all data directories, all numbers of runs, all interleavings of their file system calls, all sizes of partial reads and writes, all points at which runs are killed", "why_tests_cant": "Tests run one process at a time; what happens depends on the order of calls of several processes and on where each is interrupted, and there are unboundedly many orders.", "anchors": ["host/src/bin/zkasper_cli.rs: main, Network, Command::BuildInput", "host/src/state_provider/file_provider.rs: FileProvider::save_state, FileProvider::state_at_slot", "host/src/state_provider/persistant_api_provider.rs: PersistentApiStateProvider::state_at_slot"]}
{"id": "C92", "title": "What a stored state file means", "statement": "A state that can be written is written as SSZ says, and is read again as the same state, whatever its fork and in whatever order the forks are tried. No two states, of one fork or of two, have the same file. A file is read as a state only if it is the SSZ form of that state. A file that breaks off is taken for a state exactly if what is missing are whole pending consolidations (since Electra), and then for the state without them; so cut off files are never taken for wrong states exactly if no state has pending consolidations. A file whose first byte became zero is taken for a state with another time of genesis. Every field the program reads is there in the states of all forks, and the slot is at the same place of the file in all of them.", "quantifier": "all states of all forks, all SSZ types built of bytes, booleans, bit vectors, bit lists, vectors, lists and containers, all files below 4 GiB, all orders of the forks, all lengths at which a file breaks off", "why_tests_cant": "Tests read back a few states of one fork. That no other bytes are accepted, that forks cannot be confused, and at which lengths a broken file still passes are statements on all byte strings.", "anchors": ["host/src/beacon_state.rs: BeaconState", "host/src/state_provider/file_provider.rs: save_state, state_at_slot"]}
{"id": "C93", "title": "A checkpoint names one stored state, whatever the data directory holds", "statement": "The Merkle root of a beacon state stands for no other state of its fork, nor, for states since Electra, for one of the other fork. When a state is asked for by checkpoint, the answer is therefore the state whose block root the checkpoint has, or an error, whatever the files of the data directory hold. In particular, a file that was cut off, or that has a zero where another byte should be, and that is read as another state when it is asked for by slot, is refused with an invalid checkpoint when it is asked for by checkpoint. What the host reads of a stored state since Electra has the tree of that state and values of the right widths.", "quantifier": "all states of all forks, all contents of the data directory with files below 4 GiB, all checkpoints and all epoch lengths; SHA-256 enters only by the assumption that there is no collision among the strings hashed for the two states compared (and, across forks, that none of them hashes to zero)", "why_tests_cant": "That no other content of the file leads to the same root is a statement about all files; a test tries a few.", "anchors": ["host/src/state_provider.rs:StateProvider::state_at_checkpoint", "host/src/state_provider/file_provider.rs:FileProvider::state_at_slot", "host/src/beacon_state.rs:BeaconState"]}
{"id": "C94", "title": "The files for the guest, and the log, do not depend on what bytes the node and the data directory deliver", "statement": "A request for the state of a slot gives the state whose SSZ form the file of this slot is, or, if there is no such file, the state that the node sends, which is then in the data directory; nothing else. With whatever bytes the files of the data directory hold and whatever the node replies, at each request anew: if `build-input` has touched the files of an epoch, at whatever point it was interrupted, and the guest accepts the input file, then the guest commits to a transition from a state that finalizes this epoch, and the journal file holds a beginning of just this journal; and `sync` never logs that the check has given another state than the preflight.", "quantifier": "all contents of the data directory with files below 4 GiB, all replies of the node to each request, all points of interruption, all guest word sizes up to 64 bits; the host has 64 bits, the JSON and key libraries give values of their Rust types, blocks have at most 128 votes, and the states at the starts of epochs are those of Electra or later (the program stops at older ones)", "why_tests_cant": "A test uses a few recorded replies and intact files. That no damaged file and no mixture of replies makes the program write a journal that the guest does not commit to is a statement on all bytes.", "anchors": ["host/src/state_provider/persistant_api_provider.rs: state_at_slot", "host/src/state_provider/file_provider.rs: state_at_slot, save_state", "host/src/bin/zkasper_cli.rs: build_input, sync, prepare_input", "host/src/beacon_client.rs: get_beacon_state, get_block, get_consensus_state"]}
{"id": "C95", "title": "What is asked of the proof builder by path is what the proof holds", "statement": "Registering a path that the type does not have aborts, and no other registration does. Otherwise the builder holds exactly the indices of the registered paths and the registered indices, however often, in whatever order and in whichever way they were registered, and the proof depends on that set only. If there are any, all in the value, none of them the root or above another, the proof verifies against the root of the value, and for every registered path the value found at the index of the path is the root of the part of the value at the end of the path, the length of a list included. All paths the host registers exist in the types of headers, of Electra and Fulu states and of the registry, and their indices are those that the guest reads by its generated constants: the host input made from paths is the one made from indices.", "quantifier": "all types, paths, sequences of registrations, values, orders of hash sets; for the host all states, registries within their limit, readers and logs", "why_tests_cant": "Tests register a few paths in one order; that no path of the host is invalid for any validator, and that names and generated numbers agree for each of up to 2^40 validators, cannot be tried.", "anchors": ["ssz-multiproofs/src/builder.rs: MultiproofBuilder::new, with_path, with_gindex, with_gindices, build", "host/src/input_reader/preflight_input_reader.rs: to_input, build_state_multiproof"]}
{"id": "C96", "title": "The bit vectors of an input are read as they were written, so nothing is assumed of the format of the input", "statement": "A bit vector written with the serialization of an input is read back with the same bits in the same order and with the rest of the input left, for every length that fits in an eighth of the address space, on 32-bit and 64-bit machines alike; it takes at most one byte per eight bits and 49 more. Reading never depends on the bytes that follow, never gives more bits than the address space has room for, and gives the same on a larger machine. Therefore all that is claimed of the guest as a function of the bytes it is given holds for mainnet and Sepolia with no condition on the format of the input.", "quantifier": "all bit vectors, all byte sequences, all inputs, configurations of the two networks, address spaces up to 2^64", "why_tests_cant": "A test writes and reads a few vectors on one machine; that hosts of 64 bits and guests of 32 bits agree on every vector, and that malformed bytes never give a vector that was not written, ranges over all of them.", "anchors": ["ssz-multiproofs/src/multiproof.rs: Multiproof (value_mask, descriptor)", "methods/guest/src/lib.rs: entry", "methods/guest/src/bin/mainnet.rs: main", "methods/guest/src/bin/sepolia.rs: main", "core/src/serde_utils.rs: attestation"]}
{"id": "C97", "title": "The costly external calls of the guest are bounded by the bytes of its input", "statement": "Whatever bytes are on its standard input, the outcome of the guest program is fixed by the answers to few calls of external code. One shuffle and one hash for a seed for each epoch, at most one more than the lookahead limit, so five on the shipped networks. One domain and one signature check for each attestation, and an attestation takes at least 237 bytes of input. For a Merkle proof one hash less than it has chunks of 32 bytes. One compressed key for each 96 bytes of public key. One sort for each patch. So 32 bytes of input are paid for each hash beyond the seeds, 96 for each key and 237 for each signature. Verification against any reader obeys the same bounds in the number of its attestations.", "quantifier": "All byte strings on standard input, all readers, all Merkle proofs and expected roots, all chain specifications and configurations, all behaviours of the external code. The hashes inside the signing root of the chain specification are not counted.", "why_tests_cant": "A test counts the calls of the inputs it runs; that no input makes the guest depend on more of them is a statement about all inputs, malformed and hostile ones included.", "anchors": ["methods/guest/src/lib.rs: entry", "core/src/verify.rs: verify", "core/src/committee_cache.rs: CommitteeCache::initialized", "core/src/input_reader/guest_input_reader.rs: into_reader", "ssz-multiproofs/src/multiproof.rs: calculate_compact_multi_merkle_root"]}
{"id": "C98", "title": "The host takes each value of a state from its place in the file", "statement": "In the file of a state of any fork every field is at the byte position that the consensus specifications give it with the mainnet preset, and the fields of variable size are where the four bytes at their position say, behind the part of fixed length. What the host takes from a state is found at these places: the genesis validators root, the slot, the fork record, the header of the latest block, the finalized checkpoint, all 65536 randao mixes, the registry with 121 bytes for each validator, as many as fit before the balances, and since Electra the earliest epochs for exits and consolidations.", "quantifier": "all states of all forks that can be written, all their fields, all validators and mixes of them", "why_tests_cant": "a test reads the files of a few states; a swapped field, a wrong length of one container or a mistake in a fork that the test does not have stays unseen", "anchors": ["host/src/beacon_state.rs: BeaconState, DepositReceipt, PendingPartialWithdrawal", "host/src/state_provider/file_provider.rs: save_state, state_at_slot", "host/src/input_reader/host_input_reader.rs: HostInputReader"]}
{"id": "C99", "title": "The guest uses only keys and signatures that are points of the curve", "statement": "Whatever bytes the guest is given, if it writes a journal then every public key in its input is 96 bytes that the BLS library accepts as a key, every attestation carries 96 bytes that the library accepts as a signature, and so are the keys of the active validators of every epoch that it verifies with. These checks change nothing else: bytes are read as an input exactly if they are read so without the checks and all keys and signatures in it are valid. A single invalid one makes the guest abort.", "quantifier": "all standard inputs, all notions of what a valid key and a valid signature is, all chain specifications and configurations, all epochs", "why_tests_cant": "a test has a few invalid keys at a few positions; that no position of any input is unchecked concerns all byte strings", "anchors": ["core/src/serde_utils.rs: UncompressedPublicKey, DiskAttestation", "core/src/input_reader/guest_input_reader.rs: GuestInput, extract_validators_multiproof, active_validators", "methods/guest/src/lib.rs: entry"]}
{"id": "C100", "title": "The search of the host depends on nothing but the epochs up to the next finality", "statement": "Against a node whose states at the start of an epoch have justified only earlier epochs, a successful search of the host for a trusted checkpoint depends only on the consensus states at the start of the epochs from the one after the trusted epoch up to the one in which the node reports the next finality, and on the blocks from the first slot after the trusted epoch up to the start of that last epoch: answers to all other requests can be anything without changing the states, the links or the votes that are found. The first of these epochs that is used to start from reports the trusted checkpoint as finalized and the last one reports the state that is announced. A node that reports a justified epoch of the future can make the host ask for blocks beyond any slot below 2^64 - 400.", "quantifier": "all trusted checkpoints, all answers of the node, which may differ between the searches, all lengths of epochs, all bounds on the number of requests", "why_tests_cant": "a test replays the answers of one node; that no other answer has an influence concerns all nodes", "anchors": ["host/src/input_reader/host_input_reader.rs: HostInputReader::new, find_finalization_epoch, get_justifications_until_new_finality, collect_attestations_for_links"]}
{"id": "C101", "title": "The input prepared for the guest depends on nothing beyond the next finality", "statement": "Against a node whose states at the start of an epoch have justified only earlier epochs, whatever the command prepares for a finalized epoch - the bytes of the input, the state before, the state after and the finalized slot - is determined by: the beacon states at the start of the epochs from the finalized one up to the one before the epoch g in which the node reports the next finality, the one earlier beacon state and the one block at the boundary of the finalized epoch, the consensus states at the start of the epochs after the finalized one up to g, the blocks from the epoch after the finalized one up to the start of g, the header of the newly finalized block, the genesis validators root and the decompression of keys. Any other answer of the node or of the state provider can be anything without changing one byte.", "quantifier": "all answers of the node and of the state provider, all finalized epochs, all chain specifications and configurations, all bounds on the number of requests, all iteration orders of the proof builder", "why_tests_cant": "a test prepares the input from one recorded set of answers; that no answer outside of the set has an influence concerns all nodes", "anchors": ["host/src/bin/zkasper_cli.rs: prepare_input", "host/src/input_reader/host_input_reader.rs: HostInputReader", "host/src/input_reader/preflight_input_reader.rs: PreflightInputReader, to_input", "host/src/state_provider.rs: state_at_epoch_boundary, state_at_checkpoint"]}
{"id": "C102", "title": "Patches for epochs without votes and slot proofs of other blocks cannot change a journal", "statement": "Take any input that the guest accepts. Whoever adds, changes or removes state patches for epochs that no attestation of the input targets, puts any slot proofs in front of those of the input, or puts slot proofs of other blocks than the newly finalized one after them, gets either the very same journal or an abort, and an abort exactly if the guest does not accept the proofs and patches as such, before it looks at a vote.", "quantifier": "all inputs that the guest accepts, all replacements of patches and all further slot proofs of this kind, all chain specifications and configurations, all hash functions", "why_tests_cant": "a test modifies one input in a few ways; that none of the modifications leads to another journal concerns all of them", "anchors": ["core/src/input_reader/guest_input_reader.rs: GuestInput::into_reader, validate_state_patches, GuestInputReader", "core/src/verify.rs: verify", "methods/guest/src/lib.rs: entry"]}
{"id": "C103", "title": "The links that are voted for determine the state after a proof", "statement": "Two successful verifications that start in the same state end in the same state whenever every attestation of the second is for a link (source and target) that some attestation of the first is for; the attestations of both then vote for the same links in the same order. So fewer, more or other signatures for the same links, another order within a link, another registry, threshold, lookahead, network or machine can never lead to another state in the journal: from one state, two different journal states need a link that is voted for in one input and not in the other.", "quantifier": "all pairs of successful verifications from one state, with any readers, chain specifications, configurations and external libraries, and all pairs of accepted guest inputs", "why_tests_cant": "a test runs one pair of inputs; that no pair leads to different states concerns all of them", "anchors": ["core/src/verify.rs: verify", "core/src/consensus_state.rs: ConsensusState::state_transition", "methods/guest/src/lib.rs: entry"]}
{"id": "C104", "title": "A less strict configuration accepts no less and says the same", "statement": "If verification succeeds under one configuration, then it succeeds with the same state and slot under every configuration that supports at least the same forks, allows at least the same lookahead and asks for at most the same part of the stake; the guest commits to the same journal byte by byte. So raising the threshold or narrowing the window can only turn acceptance into rejection, never change what is accepted, and what a guest with the default configuration accepts a guest with the configuration of Sepolia accepts as well. The converse does not hold.", "quantifier": "all pairs of configurations that are comparable in this way with a threshold quotient above 0 in the stricter one, all inputs and readers, all chain specifications and external libraries", "why_tests_cant": "a test compares two configurations on one input; the order between configurations concerns all of them on all inputs", "anchors": ["core/src/config.rs: Config, DEFAULT_CONFIG, SEPOLIA_CONFIG", "core/src/verify.rs: verify, validate_link", "methods/guest/src/lib.rs: entry"]}
{"id": "C105", "title": "Two proofs for one root never contradict each other", "statement": "If two multiproofs verify against the same root, then a generalized index that both report has the same value in both, unless two of the strings hashed in them collide; nothing is assumed about the tree behind the root. Hence two inputs that the guest accepts, for whatever trusted states, votes and configurations, report the same slot in their journals if they finalize the same block. And two accepted inputs for one trusted state, of which the second votes for no link that the first does not vote for, lead to the same journal byte by byte, whatever else they contain. (False for proofs 64 or more levels deep: whatever the hash function is, any two values can be reported at one index of one root.)", "quantifier": "all pairs of multiproofs and roots, all pairs of guest inputs, chain specifications, configurations and external libraries", "why_tests_cant": "ranges over all pairs of proofs, also over those that no builder produces, and fails only for descriptors deeper than any test's", "anchors": ["ssz-multiproofs/src/multiproof.rs: Multiproof::verify, Multiproof::values, GIndexIterator", "core/src/input_reader/guest_input_reader.rs: GuestInput::into_reader, slot_for_block", "core/src/verify.rs: verify"]}
{"id": "C106", "title": "One trusted state, one view of the chain", "statement": "Two inputs that the guest reads for the same trusted state see the same genesis validators root and the same validators (key, balance, slashed flag, activation and exit epochs), whatever proofs, lists of keys, votes and patches they contain, unless two of the strings hashed in their proofs collide. Only a validator that has exited by the trusted epoch may be present in the one and missing from the other. Hence, at every epoch from the trusted one on for which they have the same patch, the same validators are active for both, in the same order and with the same balances. It is not assumed that there is a block, state or registry behind the trusted root. (False for proofs 64 or more levels deep.)", "quantifier": "all pairs of guest inputs with the same trusted state, all chain specifications and external libraries", "why_tests_cant": "ranges over all pairs of inputs, also those whose proofs no builder produces and whose trusted root belongs to no block", "anchors": ["core/src/input_reader/guest_input_reader.rs: GuestInput::into_reader, extract_beacon_block_multiproof, extract_beacon_state_multiproof, extract_validators_multiproof, process_registry_updates", "ssz-multiproofs/src/multiproof.rs: Multiproof::verify, Multiproof::values"]}
{"id": "C107", "title": "Conflicting journals convict validators, whatever the trusted root stands for", "statement": "If two inputs accepted for the same trusted state finalize checkpoints of which neither is an ancestor of the other, then they contain votes for two links that form a slashable pair, and validators that both inputs know with the same key and balance signed votes for both, of at least the weight 2/3 W + 2/3 W' - U, where W and W' are the balances counted as active at the two target epochs and U is the balance of the validators active at either; that is a third if the same validators are active throughout. Nothing is assumed about a chain behind the trusted root, about the trusted epoch, the lookahead limit or the thresholds: also for a made-up trusted root the pair of inputs itself is the evidence against the keys it lists. It holds unless strings hashed in the proofs collide. (False for proofs 64 or more levels deep, and for active balances below one increment.)", "quantifier": "all pairs of accepted guest inputs with the same trusted state, all chain specifications, configurations and external libraries", "why_tests_cant": "pairs of adversarial inputs, also for trusted roots that belong to no chain a test could set up", "anchors": ["core/src/input_reader/guest_input_reader.rs: GuestInput::into_reader", "core/src/verify.rs: verify", "core/src/consensus_state.rs: ConsensusState::state_transition", "docs/src/01_consensus_algorithm.md"]}
{"id": "C108", "title": "A trusted root belongs to one network", "statement": "If guests built for two chain specifications both read an input for the same trusted root, they read the same values from its state, and both specifications have the fork record of this state in force at its slot. As mainnet and Sepolia have no fork version in common, a proof of the mainnet guest and a proof of the Sepolia guest never start from the same finalized root, whoever made the inputs and whatever the configurations, unless strings hashed in the proofs collide. So a proof of one network cannot be continued by a proof of the other. (False for proofs 64 or more levels deep.)", "quantifier": "all pairs of chain specifications and guest inputs with the same trusted root; all inputs accepted by the mainnet and by the Sepolia guest; all external libraries and signing roots", "why_tests_cant": "tests run each guest on recorded inputs of its own network; that no input of the one starts where one of the other does concerns all pairs", "anchors": ["core/src/input_reader/guest_input_reader.rs: GuestInput::into_reader", "chainspec/src/lib.rs: mainnet_spec, sepolia_spec", "chainspec/configs/mainnet.yaml", "chainspec/configs/sepolia.yaml", "methods/guest/src/lib.rs: entry"]}
