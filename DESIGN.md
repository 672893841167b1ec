# Design of the formal model of Signal-Ethereum

Everything is Lean 4 (4.33.0) under `lean/Verif/`. The code is modelled as total, computable
functions; each definition carries a comment with the file and lines it models. Property
theorems are in `Verif/Props/*.lean`, apart from helper lemmas (`Verif/Proofs/*`) and from the
independent specifications (`Verif/Spec/*`).

## Conventions

* Rust `Result` plus panics: `Res ε α` with `ok`, `err e` and `panic`. `assert!`, `unwrap`, `expect`,
  out-of-range slices and division by zero are `panic`. Errors and aborts are distinguished.
* `u64` values are `Nat`; every arithmetic operation of the code is spelled out with its own
  overflow behaviour: `safe_*` = checked (error), lighthouse `Epoch`/`Slot` operators and
  `saturating_*` = saturating, raw `u64` operators = wrapping modulo 2^64 (the guest is built with
  overflow checks off: `methods/guest/Cargo.toml`, `Cargo.toml`). A theorem that needs values to be
  real `u64`s says so by a hypothesis `< 2^64`; all others hold for all naturals, a superset.
* `BTreeMap`/`BTreeSet` with integer keys: sorted association lists (`OMap`). Maps whose iteration
  order cannot be observed: association lists.
* External code is a parameter: SHA-256, BLS verification, point compression, the swap-or-not
  shuffle, domain/signing-root computation, fork schedule. No behaviour of these is assumed
  except where a theorem has an explicit hypothesis.
* Hash assumptions are of the form "no collision among the hash inputs that occur in this tree and in
  this proof" (`NoCollisionOn`), never "the hash is injective", which is false of any real hash.

## Trusted base

Lean's kernel; the axioms `propext`, `Classical.choice`, `Quot.sound`; the fidelity of the
hand-written model to the Rust text; and the recalled behaviour of external crates named in
the comments (lighthouse `types`, `safe_arith`, `alloy-sol-types`, `itertools`, `bitvec`).

### Axioms

No axiom is added. No proof uses `sorry`, `native_decide` or `bv_decide`; concrete examples are decided by the kernel
(`decide`, `decide +kernel`, `rfl`). `AXIOMS.md` lists, for every theorem of `MANIFEST.json`, the axioms it depends
on as printed by Lean: always a subset of the three above.

### What is modelled

| code | model |
|---|---|
| core/src/consensus_state.rs, checkpoint and link types of core/src/lib.rs | `Model/ConsensusState` |
| core/src/abi.rs, ABI functions of consensus_state.rs, frame of zkasper_cli.rs:461-476 | `Model/Abi` |
| core/src/verify.rs, provided methods of core/src/input_reader.rs | `Model/Verify` |
| core/src/committee_cache.rs, core/src/attestation.rs | `Model/Committee` |
| `ValidatorInfo`, core/src/state_patch.rs, core/src/config.rs | `Model/Validator` |
| ssz-multiproofs/src/multiproof.rs | `Model/Multiproof` |
| ssz-multiproofs/src/builder.rs | `Model/Builder` |
| core/src/input_reader/guest_input_reader.rs, core/src/guest_gindices.rs, core/src/bls.rs, methods/guest/src/lib.rs | `Model/GuestReader` |
| host/src/input_reader/host_input_reader.rs:230-337 (chain search, collection of attestations) | `Model/HostSearch` |
| host_input_reader.rs:120-228, host/src/state_patch_builder.rs, preflight_input_reader.rs | `Model/Preflight` |
| zkasper_cli.rs:401-414, the recording reader's answers | `Model/Recorded` |
| host/src/beacon_state.rs (fields of all forks, SSZ form of states) | `Model/StateSsz` |
| host/src/beacon_state.rs:483-674 (what the host reads of a state), roots of states | `Model/StateTree`, `Spec/StateTree` |
| host/src/state_provider/persistant_api_provider.rs:49-67 and host/src/bin/zkasper_cli.rs:234-356 on bytes: files and replies | `Model/Raw` |
| ssz-multiproofs/src/builder.rs:33-75, the paths of host/src/input_reader/preflight_input_reader.rs:63-186, 257-273 | `Model/Paths` |
| the serde format of `BitVec<u32, Lsb0>` (external; used in ssz-multiproofs/src/multiproof.rs:41-45) | `Model/BitVec` |
| the calls of several processes on one data directory (zkasper_cli.rs:253-297, file_provider.rs, persistant_api_provider.rs) | `Model/Shared` |
| serialization of `GuestInput` (bincode, core/src/serde_utils.rs), zkasper_cli.rs:417-488 (`run_verify`) | `Model/Wire` |
| zkasper_cli.rs:230-299, 372-415 (building inputs, continuous mode) | `Model/Cli` |
| assert_input_reader.rs | `Model/AssertReader` |
| zkasper_cli.rs:186-211, 230-415 (`verify`, `sync` and `build-input`: answers of the node in, files and log out) | `Model/Program` |
| host/src/beacon_client.rs:201-302, host/src/beacon_state.rs:713-742 (requests, statuses, choice of the version) | `Model/Client` |
| host/src/beacon_client.rs:143-199 (builder, response cache, order of the middlewares) | `Model/ResponseCache` |
| host/src/bin/gen_gindices.rs | `Model/Gindices` |
| `shuffle_list` of the external crate `swap_or_not_shuffle` (called in core/src/committee_cache.rs:89-95), as published | `Model/Shuffle` |
| core/src/serde_utils.rs:72-98, host/src/conversions.rs:26-46, with the external SSZ code of attestations as published | `Model/AttestationSsz` |
| SHA-256 (FIPS 180-4), the hash of all external code; an instance of the hash parameter | `Model/Sha256` |
| the external `get_domain` and `signing_root` of attestation data (called at core/src/verify.rs:252-262), as published | `Model/Signing` |
| host/src/bin/zkasper_cli.rs:372-415 and the readers and caches it uses, with an answer of its own for each request | `Model/Timed` |
| chainspec/src/lib.rs, values of chainspec/configs/*.yaml | `Model/Networks` |
| host/src/state_provider.rs and host/src/state_provider/*.rs | `Model/Providers` |

### What is not modelled

* External crates. SHA-256, BLS, key compression, shuffling, domains, sorting are parameters (`Model/Ext`); theorems
  quantify over all of them and name every property they need. The shuffle is also modelled as a program (C74), after the published
  source; in which integer type that program reduces the pivot could not be looked up, and `C74_narrow_pivot` shows that it matters: with 32 bits the
  guest would compute other committees than the specification and reject honest votes. Domains and signing roots are modelled as programs as well (C76),
  and so is SHA-256 (`Model/Sha256`); `realExt` (`Proofs/Sha256`) puts the three in place of the parameters. What then remains open is BLS, key
  compression, the unstable sort, the allocator and the word size.
* `ssz_rs`: that it reads and writes as SSZ says and accepts nothing else (`Model/StateSsz`; C92), and that the roots of states are those of SSZ (`Spec/StateTree`; C93). The states' Merkle trees as the proofs use
  them are specified in `Spec/Ssz` and `Spec/Registry`; `generalized_index` and `chunk_count` are modelled after the SSZ specification (C73), and the
  generated constants are compared with the layout in C50.
* The source of `bitvec`. Theorems about the serialized input hold for every format of bit vectors with the laws in `WireLaws` (`Spec/Wire`). What
  `WireLaws` says of attestations is proved of their SSZ form (`C75_wire_laws`), and all of it of the format that `bitvec` 1.0.1 is known to have
  (`Model/BitVec`; C96). That the crate has this format is trusted only where C96 is used.
* Of the beacon node client: HTTP transport, the time a rate limit takes, what the cache crate chooses to keep (a parameter of C86), and the
  decoding of content, which is a parameter (`Decoders`). The host's functions are proved for every sequence of answers.
* Parsing of the YAML configurations; logging, tracing, command line parsing, the zkVM. The values of the mainnet preset and the
  functions `fork_name_at_epoch` and `fork_at_epoch` belong to the external crate, whose source is not at hand: `Model/Networks` has them
  as documented, and this is trusted.
* Of the file system only the content of the files of states, inputs and journals, and the calls on them (C47, C66, C91); a crash ends the
  process, what the operating system has accepted is not lost. Waiting between polls is left out.
* Memory limits, except where named: `Vec::with_capacity` of the stack hint (C31), 32-bit `usize` of the guest (C22).
* The tests and test utilities (host/src/test_utils.rs, test_harness_readers.rs).

### Tests of the model

`Conformance.lean` runs the model on the inputs of the repository's own unit tests of state transitions and of the index iterator, and on
published digests (SHA-256, zero hashes, mainnet fork digests). These are tests; no claim rests on them.

## What the proofs found in the code

Each item is a theorem with a concrete witness.

1. **Generalized indices wrap after 64 levels** (`C27_forged_value`, `C33_forged_state_root`, `C40_forged_journal`, Props/Forged.lean).
   `GIndexIterator` computes indices in `u64`, and the code does not bound the depth of a descriptor. A proof more than 64 levels deep
   reports a node at an index it does not have. `C33_forged_state_root`: for every value there is a chunk such that for each block
   containing that chunk anywhere (say, as graffiti) there is a block proof that verifies against the block root and yields the
   value as state root. `C40_forged_journal`: with such a block as trusted block the guest commits to a journal whose votes come from a made-up registry.
   `C27_forged_proof`: not only one value but a whole proof can be grafted onto a tree, so a made-up registry passes for the real one
   (`C32_forged_registry`). `C39_forged_slot`: any slot can be reported for the newly finalized block. `C40_one_deposit`: for every made-up
   state there are withdrawal credentials such that a single validator with them makes the made-up state pass behind every block from then on.
   `C27_no_wrap` and `C40_digests_partial` state a condition on the tree under which this cannot happen (no leaf is the
   digest of a string hashed in the proof). This is not a matter of breaking SHA-256: a block proof that goes on into the state violates it
   with public data. C26, C27, C32, C33, C39, C40, C105, C106, C107, C108 and the claims on the shipped guests (C81, C82, C85, C87, C88) are partial for this reason.
2. **`transition_link` is not the inverse of `state_transition` at the all-zero state** (`C04_inverse_fails_at_genesis`).
   From that state a run may also have one extra link (`C11_genesis_exception`).
3. **`abi_decode` aborts on an invalid state** instead of returning the error it advertises (`C08_invalid_state_aborts`).
4. **The guest's committees are wrong from 2^21 active validators on** (`C22_guest_limit`, `C23_guest_exact`, `C74_guest_exact`):
   positions are computed in 32-bit `usize`. Some committees cannot be computed; others come out as those of another slot
   (`C23_guest_repeats`), and votes of validators outside the true committee are then accepted (`C14_guest_misattributed`).
5. **Leaving a validator out of a patch resets its exit** (`C36_omission_resets`): "set once" holds only for consecutive
   patches that keep it.
6. **Patches at epoch 0 are not validated** (`C38_epoch_zero_unchecked`).
7. **The host collects attestations up to the first slot of the next epoch only** (`C44_late_votes_missed`).
8. **A crash while a state is saved makes the persistent provider fail forever** (`C47_truncated_forever`), and if the
   truncated file happened to be a valid state it would be used (`C47_truncated_wrong`).
9. **`clear_states_before` removes foreign files** with a leading slot number (`C48_foreign_files`).
10. **Inputs of 4 GiB and more are framed with a truncated length** (`C49_frame_truncates`).
11. **The guest rejects some honest inputs** (`C60_consistent_rejected`). `validate_state_patches` assumes one queue of exits.
    In Electra voluntary exits and consolidations have a queue each; if exits with a later epoch are
    recorded in the first patch and a consolidation with an earlier epoch in the second, the guest aborts although every patch is true. The witness runs with the
    default configuration. Also, the checks compare each patch with the patch of the epoch just before it, so
    two patches with a gap between their epochs that both contain a new exit are rejected (`C59_gap_rejected`).
12. **The guest uses balances and slashings of the trusted state for all later epochs.** C53 therefore does not compare
    effective balances, and `Continues` (the condition of C45) asks that no active validator was slashed in between. C54 says which drift the threshold absorbs.
13. **The first line of the `sync` log is not bound to the proof** (`C67_first_line_unchecked`). `run_sync` takes the state at the start slot
    and uses only its finalized epoch; the guest starts from the state the search finds. Later lines are bound (`C67_chained_partial`). Also `sync` goes
    on from the announced state when the check has failed, so only consecutive lines `Ok` form a proved chain.
14. **`build-input` empties an existing input file before the journal** (`Spec.Written`, first case): after a crash there the old journal stands beside an
    empty input. The guest rejects that input, so nothing false is proved, but the pair does not show that it is incomplete.
15. **The index generator's formula is right only for some fields** (`C73_template_iff`): those of the validator and the first eight places at
    each lower level (indices 8-23, 32-39, and so on). For any other index, such as 24, it writes a wrong function without complaint. None of
    the shipped paths is affected (`C73_generated`).
16. **Accountable safety fails when the active balance is below one increment** (`C41_fails_below_floor`). Both sides of the
    threshold are floored at one increment, so any vote is then a supermajority, and two conflicting runs need no common signer. C41 is
    proved for active balances of more than one and a half increments and is partial for this reason. No live network is near this bound.
    For the same reason the two thirds of C13 need not be reached (`C13_fails_below_floor`), and C54 needs a total above the floor.
17. **The slot in a journal file is not checked** (`C78_journal_can_differ`). The header of the finalized block is requested twice. The slot
    in the journal file of `build-input` is taken from the first answer, which is not compared with the root; the input holds a proof of the
    second, which is. A node that answers differently makes the journal file disagree with what the guest commits to. C66 speaks of
    answers that do not change within a round, and C78 says what is left of it if they do.
18. **The host does not compare the genesis root it uses with that of the trusted state** (`C66_foreign_genesis`). It checks signatures with
    the root of whichever state its cache yields first (`cache_provider.rs:42-48`), the guest with that of the trusted state. A node that serves
    states of two networks makes `build-input` write files that no guest accepts; nothing false
    is proved.
19. **A client built `with_cache` never sees the head move** (`C86_waits_forever`): the mode `ForceCache` applies to all requests, also to those
    whose answer changes. `build-input` would wait for ever with it. The command line program does not use it; it is a trap for others.
20. **Sepolia's threshold is below what the document on balance drift asks for** (`C88_sepolia_short`, `C88_sepolia_breaks`): 70 % exceeds two thirds by a thirtieth of
    the stake, and one epoch of the documented drift is more than that as long as at most 2,588,000 ETH are at stake. 85 % is enough from 10 million ETH on
    (`C88_mainnet_margin`). The document speaks of a lookahead of 10 epochs; the shipped limit is 4, and its numbers hold for 10 as well (example in Props/BalanceDrift).
21. **After a change of finality by another rule than the one-epoch rule no input can be built for the epoch before it** (`C89_stuck`). The document names the
    limit (2-finality is "left for a future revision"), but there is no way around it for a running chain of proofs: from the trusted checkpoint before such
    a change the program fails with the same error in every run, whatever the chain does later.
22. **The program does not follow every chain without 2-finality** (`C90_misses`, `C90_stuck`), contrary to docs/src/01_consensus_algorithm.md ("will always be able to
    *follow* the Beacon chain's consensus, as long as there are no cases of 2-finality"). When two epochs in a row are justified late, the votes for the second one
    still have the older checkpoint as their source. The justified checkpoint then moves on by one epoch without finality, `transition_link` returns
    `InvalidTransition`, and no input can be built for the finality before. The algorithm itself could go on: one link over both steps leads to the same state
    (`C90_documented`), but the host derives the links from consecutive states and never asks for it.
23. **Two processes that ask for the same state at the same time disturb each other** (`C91_conflict`, `C91_hole`). `save_state` looks whether the file exists and only
    then opens it, without `create_new`. Of two requests one may fail with "State file already exists", or read the half-written file of the other, though each alone
    would be answered. If both pass the check the later one empties the file under the other, and if it is then killed the file keeps a hole of zeros. The hole is
    never mended: later requests read the file, and SSZ accepts zeros for most fields.
24. **A state file that breaks off can be a valid state** (`C92_cut`, `C92_prefix`). Since Electra the last field of variable length of a state are the pending
    consolidations, and SSZ does not store how long it is. If a write of a state ends a multiple of 16 bytes too early, within these, `state_at_slot` returns
    the state without the missing ones; its root is another one. Of all other lengths the file is rejected. The condition `NoWrongPrefix` of C47 is thus met exactly by
    chains without pending consolidations. Finding 23 is worse: a file whose first byte is a hole is always read, as a state with another time of genesis (`C92_hole`).
    Where a state is asked for by checkpoint both are refused (`C93_cut_partial`, `C93_hole_partial`); the other requests, by slot and by epoch, do not look at roots.

## Partial claims

The English of a property is not adapted to what was proved. A claim is `proved` only if its theorems have no condition beyond those the
English states; else it is `partial`, the theorem with the additional condition ends in `_partial`, and this list names the condition.

Some conditions are part of the setting of the model and do not make a claim partial. The notes in MANIFEST.json name them where they are
used: the external shuffle returns its input in some order; external formats do what `WireLaws` says; values have the range of their Rust
types; the chain constants the code divides by are not 0; the allocator has room for the 126 stack nodes of an honest proof; the keys of
registered validators are valid.

| id | additional condition | without it |
|---|---|---|
| C04 | not the all-zero state | false (witness) |
| C13, C41, C54, C79, C107 | active balance above the floor of one increment (C54: quotient not 0) | false (witnesses) |
| C14, C22, C23, C74 | committee positions fit in `usize` | false (witnesses; exact limit by `C23_guest_exact`, `C74_guest_exact`) |
| C26, C27, C32, C33, C39, C40, C105, C106, C107, C108 | proofs less than 64 levels deep, or no leaf is the digest of a known string | false (finding on wrapping indices) |
| C81, C82, C85, C87, C88, C96 (last clause) | no leaf of the real header, state or registry is the digest of a string hashed in the proof. The English allows for collisions and preimages of SHA-256 only; a proof that goes on below the state root meets the English condition, because the strings there are public, but not this one | false: `C40_one_deposit`, `C81_one_deposit` |
| C93 | no two of the strings hashed in the two states' trees collide | false for a hash function with equal digests; no collision of SHA-256 is known |
| C108 (last sentence) | proved for roots at which proofs of both networks start, not for the root at which a proof of the one ends and one of the other starts | not settled: the guest opens only the slot of the block it finalizes, so it depends on what the validators sign |
| C30 | as for C26, third clause only (`C30_overlapping_digests_partial` for real trees) | false for a hash function with equal digests (`C30_degenerate_hash`) |
| C31 | hints within the allocator's capacity | false (witness) |
| C36 | trusted epoch other than 0, and every patched epoch mentions the validator | false (`C38_epoch_zero_witness`, `C36_omission_resets`) |
| C38, C47, C60 | see their notes in MANIFEST.json | false (witnesses) |
| C44 | votes included by the first slot of the next epoch | late votes are missed (witness) |
| C66, C67 | `SteadyView` for chaining: no answer for the start of an epoch calls that epoch final | false (`C66_early_finality`, `C67_early_finality`) |
| C66 | what is read belongs to one chain, for the clause that the guest accepts. That an accepted input commits to the announced transition holds for any node (`C66_crash_safe`) | false (`C66_foreign_genesis`) |
| C66, C67 | sizes of a real chain (at most 2^22 validators, committee positions fit words), for the clauses that the guest accepts | false: `C66_complete_iff_partial`, `C67_ok_iff_partial` give the exact size; for committee positions see C14 |
| C69 | the setting of C68; triple total balance below 2^64 | false (witness) |
| C71 | slots from the first target epoch to the first slot after the last, instead of the slots of the target epochs | the code reads these |

## Plan per property

| id | modelled | proof |
|---|---|---|
| C01, C02 | `ConsensusState` and `state_transition` | case analysis, induction over the list of links |
| C03-C05 | `transition_link` | case analysis; C04 is false at the all-zero state: negation by witness + `_partial` |
| C06-C08 | ABI words as byte lists, `abi_encode/abi_decode`, journal | big-endian round trip for all `Nat < 256^k`; C08 as stated, plus the abort |
| C09-C11, C18, C19 | `verify` with the reader as a structure of functions | induction over the groups of attestations |
| C12-C16 | same, participation sets | soundness of one loop iteration, then induction |
| C17 | same | contrapositive of "every attestation was checked" |
| C20 | `get_total_balance` | induction on the list |
| C21 | shuffle and RANDAO are universally quantified parameters of the theorems for C09-C19 | restated explicitly |
| C22 | `get_attesting_indices` | induction over committee indices against an independent spec |
| C23, C24 | `CommitteeCache` | division lemma, list concatenation |
| C25-C27, C31 | `Multiproof` | parser invariant for the stack machine; tree reconstruction; C27 negation by a 67-level witness |
| C28-C30 | `MultiproofBuilder` | sorted leaf lists of a full binary tree are unique |
| C32, C33, C39 | guest extraction functions, SSZ tree spec | C26 + gindex/tree navigation lemmas, induction over the registry |
| C34 | `process_registry_updates` | induction over epochs |
| C35-C38 | `validate_state_patches` | induction over patches; C36-C38 have negation witnesses |
| C40 | guest entry point | composition of C12-C14, C26, C32-C35 |
| C41 | two accepted runs | weight of intersections of vote sets, ordering argument on chains; false below the floor: witness and `_partial` |
| C42 | sequences of journals | induction |
| C43, C44, C56 | host collection functions over an abstract chain | induction over epochs / blocks |
| C45, C53 | host reader, patch builder, preflight `to_input` | equality of active sets; to_input on a consistent host is computed, then the guest's extraction is run on the result |
| C58 | `prepare_input` and the continuous loop | C43, C44 and induction over rounds |
| C59, C60 | `validate_state_patches` | exact characterization by induction over patches; C60 is false: witness and `_partial` |
| C61 | `verify` over the host's, the recording and the guest's reader | congruence of the loop in the answers; transfer of each group's checks up to balances; composition with C45, C53, C60 |
| C62 | the same functions with another word size and stack capacity | congruence: every operation on `usize` agrees while nothing wraps |
| C63 | encoders and a decoder monad | round trip and prefix lemmas per combinator; composition with C62 |
| C64 | `run_verify`, `execute_guest_program` | C63, C62 and the journal round trip |
| C65 | the same models; counts of ancestors | each leaf of the proof tree is a chunk; ancestors of the requested nodes of the header, state and registry trees are counted |
| C66, C67 | `prepare_input`, the loops of `build-input` and `sync`, operations on files with crash points | induction over passes; composition with C58, C61-C65 |
| C68, C69 | `verify`, against `Spec/Accept` | both directions of every check of one group (seed, shuffle, committees, bits, weights); induction over the atomic finalization; monotonicity of weights |
| C70 | `AssertInputReader` | answers of the checked reader; `verify` depends only on answers it asked for (C61) |
| C71 | the client's functions over any node | case analysis of replies; composition with the chain search and collection of votes |
| C72 | fork schedules, the two shipped networks | the search finds the last fork that has started; composition with `verify_justifies` |
| C73 | index of a path over a schema, the generator's formula | induction over paths with `nodeAt` of products; arithmetic of quotient and remainder |
| C74 | `Model/Shuffle`, against `compute_shuffled_index` and `compute_committee` in `Spec/Shuffle` | the two loops of a round as one involution on positions (the digest and byte held between passes are those of the position); induction over rounds, which the list version runs downwards and the index version upwards |
| C75 | SSZ of attestations, against a relation in `Spec/AttestationSsz` | bits of a byte string are bits of its little-endian number; slices; the relation determines value and bytes from each other |
| C76 | domain and signing root as programs, against SSZ trees in `Spec/Signing` | the program computes the roots of the trees; trees of the same shape with the same root are equal barring collisions; composition with `verify_justifies` |
| C77 | the same, two guest runs, and what each owner of a key signed | the offenders of C41 signed two slashable votes, so none of them follows the protocol |
| C79 | sequences of journals, with the real state behind the start of each | the links of a history are one run; the ordering argument of C41 on whole histories; weight of the intersection of two vote sets with different balances |
| C80 | the order of the hash set and the unstable sort are parameters of the model | the sorted list of indices is determined by its elements (comparison antisymmetric, helpers and values disjoint); turns of the exit loop for the same epoch commute, so all sorted orders give one result; the rest of the program takes them through |
| C81 | the guest programs for mainnet and Sepolia, from bytes to journal, with their numbers | C63 and C75 for what was read, C72 for the fork window, C40 for votes and weight, C76 for the messages; the lookahead and epoch conditions of C40 follow from the networks' numbers |
| C82 | histories of files for the guest programs of mainnet and Sepolia | C81 for each file, the journals chained as in C79; two runs of links that conflict hold a slashable pair (C79), and the signers of both are counted by C40's weights |
| C83 | the public functions of the committee cache | case analysis on the checks of each request; sizes by division with remainder |
| C84 | build-input over the HTTP replies of a node | C66 for the rounds and interruptions, C71 for what each answer says, the host's search for the two states |
| C93 | `hash_tree_root` for the types in states (`Spec/StateTree.lean`), what the host reads of a state (`Model/StateTree.lean`) | injectivity of the trees by induction on types; the host's view field by field; a hash function without collisions for any given tree (`Proofs/FreeHash.lean`) |
| C94 | the persistent provider on real states, `build-input` and `sync` on bytes (`Model/Raw.lean`) | every state that is given can be written, so its fields have the widths of their types (C92, C93); the votes are bounded by the window of `verify`; then C66 and C67 |
| C95 | registration of paths and indices, `to_input` by paths (`Model/Paths.lean`) | induction on the calls: the set held is the set asked for; a path has an index exactly if the type has it; C28, C29 and C73 for the values; the nine state paths by computation, the registry by induction on the validators |
| C96 | the serde format of bit vectors (`Model/BitVec.lean`), the whole input format with it | induction on the words; C75 for the laws; C81 with the laws proved |
| C97 | a run as a function of the external code; `Spec.FixedBy q`: the answers to the calls in `q` fix its outcome | each hash of a proof merges two values of the stack into one, so there are fewer hashes than leaves; each accepted link raises the justified epoch, which the lookahead limit bounds; a decoder takes at least so many bytes for what it returns (`Wire.Takes`) |
| C98 | the types of the states of all forks, `State.host` | places of the parts of a container by induction on the fields; the table of `Spec/StateLayout` by kernel evaluation for each fork |
| C99 | the decoder of the input with two functions for what the library accepts as keys and signatures | the decoder with the checks reads what the one without them reads and satisfies one more condition, by induction along the format; keys of the reader by induction on the loop over the registry |
| C100 | the search of `HostInputReader::new` as a function of the answers of the node | two nodes that agree on the named requests lead to the same result, by induction on the loops; the targets of the links lie between the trusted epoch and the last epoch asked |
| C101 | `prepare_input` as a function of the answers of the node and of the state provider | C100 for the search; `verify` gives the same result with two readers that agree on the target epochs of the votes, what is recorded is about these epochs, and `to_input` asks for no others |
| C102 | the guest program after deserialization on two inputs | both readers have the same registry; `verify` with two readers that agree on the target epochs (as for C101); the slot of a block is that of the last proof with its root |
| C103 | `verify` and the guest program on two inputs | C09 gives two runs from one state; the one that uses only links of the other is an initial part of it, and it cannot be a proper one because it has finalized |
| C104 | `verify` and the guest program under two configurations | the two checks that read the configuration pass under the weaker one; induction over the groups of votes |
| C105 | pairs of multiproofs; pairs of accepted guest inputs | the tree of the one proof is the tree for C26 and C27 on the other; the negation by a proof built for a leaf of free content |
| C106 | the readers of two guest inputs with the same trusted state | C105 for block, state and registry proof in turn; what a finished extraction has read; induction over the registry updates |
| C107 | two accepted guest inputs with the same trusted state | C106 gives the common balances under which C41 applies to the two readers |
| C108 | the readers of two guests with different chain specifications; the shipped fork schedules | C105 for block and state proof; the versions of the two schedules are disjoint |
| C92 | SSZ for the types in states, the states of all forks (`Model/StateSsz.lean`) | the relation of the SSZ specification by induction on types; the first offset tells the forks apart; what a cut does to the last list |
| C91 | the files below the data directory and the calls on them, one at a time, of several processes (`Model/Shared.lean`) | invariants over all interleavings: what is not right is still to be written by somebody; a simulation for the isolation; a decreasing measure for the end |
| C90 | epoch processing of the beacon chain as a specification (`beacon`); `transition_link` and the search of C56 on the states it induces | an arithmetic invariant of justified epochs and justification bits, case analysis over the four finalization rules, induction over the epochs |
| C89 | `prepare` and `buildLoop` of C65/C66 against a specification of what a node serves (`Provable`, `Served`) | each step of `prepare` succeeds iff its clause of `Provable` holds; induction over the passes; for `C89_stuck` induction over the walk |
| C88 | the bounds and `calculate_delta` of docs/src/02_balance_drift.md as a specification over ℚ; acceptance by C81 | the document's inequality for sums over lists of validators, then linear arithmetic; a registry of `10 k` validators as the witness against 70 % |
| C87 | the beacon chain's own rules as a specification (`Spec/Casper`), with links that skip epochs; the client by C82's files | a run of the client finalizes by the chain's rules if its links are counted in; conflicting finalized checkpoints of one set of links hold a slashable pair, by the link that crosses the epoch of the earlier one; the signers of both are counted as in C40 |
| C86 | `Model/ResponseCache`: a directory as a list of requests with replies | induction over the requests from the end: what is stored is the first kept reply |
| C85 | the shipped guests against the attestation rules of the consensus specification | C68 with its size condition at the epochs of the votes (C61 for the others), C40 for the registry, C74 for the committees, C76 for the messages |
| C78 | `Model/Timed`: computations with a session (caches, record, counters of requests) | a relation between computations with a session and functions of fixed answers, closed under the operations of the program; one instance in which the cache is the witness for the fixed answers, one in which the answers do not change |
| C46-C48, C57 | providers over an abstract store with crash points | induction over request sequences |
| C49 | frame encoder | little-endian round trip |
| C50 | gindex functions against SSZ containers | closed-form navigation lemma for all validator indices |
| C51, C52 | chunk decoders, key check | byte lemmas |
| C54 | drift inequality | arithmetic |
| C55 | `less_or_equal` | case analysis |
