{
 "claims": [
  {
   "property": "C01",
   "status": "proved",
   "theorems": [
    "Signal.C01_links_preserve_validity",
    "Signal.C01_newly_finalized_was_justified"
   ],
   "note": ""
  },
  {
   "property": "C02",
   "status": "proved",
   "theorems": [
    "Signal.C02_transition_ok_iff",
    "Signal.C02_transition_accepts_iff",
    "Signal.C02_finalizes_iff_one_epoch",
    "Signal.C02_transition_errors"
   ],
   "note": ""
  },
  {
   "property": "C03",
   "status": "proved",
   "theorems": [
    "Signal.C03_reported_link_replays"
   ],
   "note": ""
  },
  {
   "property": "C04",
   "status": "partial",
   "theorems": [
    "Signal.C04_inverse_partial",
    "Signal.C04_inverse_fails_at_genesis",
    "Signal.C04_genesis_exception"
   ],
   "note": "The full inverse is false at genesis (witness proved); the partial theorem covers every other case."
  },
  {
   "property": "C05",
   "status": "proved",
   "theorems": [
    "Signal.C05_none_iff_equal",
    "Signal.C05_no_regression",
    "Signal.C05_two_finality_rejected",
    "Signal.C05_finality_step"
   ],
   "note": ""
  },
  {
   "property": "C06",
   "status": "proved",
   "theorems": [
    "Signal.C06_abi_round_trip",
    "Signal.C06_abi_injective",
    "Signal.C06_abi_layout"
   ],
   "note": ""
  },
  {
   "property": "C07",
   "status": "proved",
   "theorems": [
    "Signal.C07_journal_round_trip",
    "Signal.C07_journal_injective"
   ],
   "note": ""
  },
  {
   "property": "C08",
   "status": "proved",
   "theorems": [
    "Signal.C08_decode_never_invalid",
    "Signal.C08_invalid_state_aborts",
    "Signal.C08_error_is_only_overrun"
   ],
   "note": ""
  },
  {
   "property": "C49",
   "status": "proved",
   "theorems": [
    "Signal.C49_frame_round_trip",
    "Signal.C49_frame_truncates"
   ],
   "note": ""
  },
  {
   "property": "C55",
   "status": "proved",
   "theorems": [
    "Signal.C55_checkpoint_order"
   ],
   "note": ""
  },
  {
   "property": "C25",
   "status": "proved",
   "theorems": [
    "Signal.C25_root_ok_iff",
    "Signal.C25_tree_unique",
    "Signal.C25_verify_ok_iff",
    "Signal.C25_single_leaf_rejected"
   ],
   "note": ""
  },
  {
   "property": "C26",
   "status": "partial",
   "theorems": [
    "Signal.C26_nodes_sound_partial",
    "Signal.C26_values_sound_partial",
    "Signal.C26_nodes_exist"
   ],
   "note": "Proved for descriptors less than 64 levels deep (NoWrap). C26_nodes_exist replaces that bound by a condition on digests: against a root of a shallow tree whose leaves are not digests of known preimages the depth condition holds. Without that bound the property is false of the code: C27_forged_value."
  },
  {
   "property": "C27",
   "status": "partial",
   "theorems": [
    "Signal.C27_indices_unambiguous_partial",
    "Signal.C27_forged_value",
    "Signal.C27_forged_proof",
    "Signal.C27_no_wrap"
   ],
   "note": "Unambiguity is proved for descriptors less than 64 levels deep; C27_forged_value and C27_forged_proof prove that the code violates it beyond: any proof can be grafted onto a tree that holds one chosen chunk."
  },
  {
   "property": "C28",
   "status": "proved",
   "theorems": [
    "Signal.C28_built_proof_verifies"
   ],
   "note": "Assumes an allocator with room for 126 stack nodes."
  },
  {
   "property": "C29",
   "status": "proved",
   "theorems": [
    "Signal.C29_built_proof_values"
   ],
   "note": ""
  },
  {
   "property": "C30",
   "status": "partial",
   "theorems": [
    "Signal.C30_empty_request_aborts",
    "Signal.C30_root_request_rejected",
    "Signal.C30_overlapping_request_not_served_partial",
    "Signal.C30_overlapping_digests_partial",
    "Signal.C30_degenerate_hash"
   ],
   "note": "The first two clauses are proved in full. The third is proved for proofs less than 64 levels deep (NoWrap), and for real trees of less than 64 levels if no digests collide and no leaf is a digest. Missing: the third clause without a condition on the digests. It is false for some hash functions: C30_degenerate_hash has the builder write a proof of 64 levels for an overlapping request, and if all digests are equal it verifies and reports both nodes."
  },
  {
   "property": "C31",
   "status": "partial",
   "theorems": [
    "Signal.C31_hint_irrelevant_partial",
    "Signal.C31_large_hint_aborts"
   ],
   "note": "Proved for hints up to the capacity of the allocator; values and nodes never depend on the hint. Missing: larger hints, for which it is false: verification aborts (C31_large_hint_aborts)."
  },
  {
   "property": "C09",
   "status": "proved",
   "theorems": [
    "Signal.C09_exactly_one_finalization"
   ],
   "note": ""
  },
  {
   "property": "C10",
   "status": "proved",
   "theorems": [
    "Signal.C10_strictly_advances"
   ],
   "note": ""
  },
  {
   "property": "C11",
   "status": "proved",
   "theorems": [
    "Signal.C11_atomic_finalization",
    "Signal.C11_genesis_exception"
   ],
   "note": "The genesis exception named in the property is proved to occur."
  },
  {
   "property": "C12",
   "status": "proved",
   "theorems": [
    "Signal.C12_supermajority",
    "Signal.verify_justifies"
   ],
   "note": ""
  },
  {
   "property": "C13",
   "status": "partial",
   "theorems": [
    "Signal.C13_two_thirds_partial",
    "Signal.C13_check_redundant",
    "Signal.C13_shipped_configs",
    "Signal.C13_fails_below_floor"
   ],
   "note": "Proved with both balances floored at one increment, as the code computes them, which is the plain statement for active balances above one and a half increments. Missing: smaller balances, for which it is false (C13_fails_below_floor)."
  },
  {
   "property": "C14",
   "status": "partial",
   "theorems": [
    "Signal.C14_counted_votes_are_real_partial",
    "Signal.C14_guest_misattributed"
   ],
   "note": "Everything but the last clause is proved for all inputs. That the signers are those selected by the bits is proved if committee positions fit in usize (fewer than 2^21 active validators on the guest with mainnet constants). Missing: larger sets; C14_guest_misattributed shows that the clause is false there."
  },
  {
   "property": "C15",
   "status": "proved",
   "theorems": [
    "Signal.C15_order_and_repetition",
    "Signal.C15_counted_once"
   ],
   "note": ""
  },
  {
   "property": "C16",
   "status": "proved",
   "theorems": [
    "Signal.C16_slashed_not_counted"
   ],
   "note": ""
  },
  {
   "property": "C17",
   "status": "proved",
   "theorems": [
    "Signal.C17_bad_attestation_rejects",
    "Signal.C17_causes"
   ],
   "note": ""
  },
  {
   "property": "C18",
   "status": "proved",
   "theorems": [
    "Signal.C18_window_and_forks",
    "Signal.C18_result_in_window",
    "Signal.C18_link_count"
   ],
   "note": ""
  },
  {
   "property": "C19",
   "status": "proved",
   "theorems": [
    "Signal.C19_links_contiguous"
   ],
   "note": ""
  },
  {
   "property": "C20",
   "status": "proved",
   "theorems": [
    "Signal.C20_total_balance_exact",
    "Signal.C20_threshold_exact"
   ],
   "note": "C20_threshold_exact holds for every configuration; with a quotient of 0, which no shipped configuration has, a failed comparison aborts."
  },
  {
   "property": "C21",
   "status": "proved",
   "theorems": [
    "Signal.C21_outcome_independent_of_shuffling",
    "Signal.C21_guarantees_for_any_shuffling"
   ],
   "note": ""
  },
  {
   "property": "C22",
   "status": "partial",
   "theorems": [
    "Signal.C22_attesting_indices_partial",
    "Signal.C22_guest_limit"
   ],
   "note": "Proved if committee positions fit in usize. Missing: larger active sets; C22_guest_limit shows that the 32-bit guest fails at 2^21 active validators."
  },
  {
   "property": "C23",
   "status": "partial",
   "theorems": [
    "Signal.C23_committees_tile_partial",
    "Signal.C23_one_committee_partial",
    "Signal.C22_guest_limit",
    "Signal.C23_guest_exact",
    "Signal.C23_guest_repeats"
   ],
   "note": "Proved if committee positions fit in usize. Missing: larger active sets, where the statement is false: C23_guest_exact shows that with mainnet constants the committees of the 32-bit guest are right exactly below 2^21 active validators, and C23_guest_repeats that at 2^22 two slots share a committee."
  },
  {
   "property": "C24",
   "status": "proved",
   "theorems": [
    "Signal.C24_shuffled_position"
   ],
   "note": "Assumes that the external shuffle repeats no index."
  },
  {
   "property": "C32",
   "status": "partial",
   "theorems": [
    "Signal.C32_registry_partial",
    "Signal.C32_active_set_partial",
    "Signal.C32_forged_registry"
   ],
   "note": "Needs that the proof tree has no node 64 or more levels deep and that the hashed strings do not collide; C32_forged_registry shows that without the depth condition the statement is false: a registry with one validator that has chosen withdrawal credentials passes for a made-up one."
  },
  {
   "property": "C33",
   "status": "partial",
   "theorems": [
    "Signal.C33_block_partial",
    "Signal.C33_state_partial",
    "Signal.C33_forged_state_root"
   ],
   "note": "False without a bound on the proof depth (C33_forged_state_root): generalized indices wrap around after 64 levels."
  },
  {
   "property": "C34",
   "status": "proved",
   "theorems": [
    "Signal.C34_only_schedules",
    "Signal.C34_activity_unchanged",
    "Signal.C34_electra"
   ],
   "note": ""
  },
  {
   "property": "C35",
   "status": "proved",
   "theorems": [
    "Signal.C35_window",
    "Signal.C35_only_removes"
   ],
   "note": ""
  },
  {
   "property": "C36",
   "status": "partial",
   "theorems": [
    "Signal.C36_step",
    "Signal.C36_exit_set_once_partial",
    "Signal.C36_proven_exit_kept_partial",
    "Signal.C36_no_second_change_partial",
    "Signal.C36_omission_resets"
   ],
   "note": "Missing: patches at the trusted epoch 0, which are not checked (C38_epoch_zero_witness), and patched epochs that leave the validator out; after those another exit can be set (C36_omission_resets), so the property is false there. C36_step holds without conditions."
  },
  {
   "property": "C37",
   "status": "proved",
   "theorems": [
    "Signal.C37_churn",
    "Signal.C37_total_churn"
   ],
   "note": ""
  },
  {
   "property": "C38",
   "status": "partial",
   "theorems": [
    "Signal.C38_partial",
    "Signal.C38_epoch_zero_unchecked",
    "Signal.C38_epoch_zero_witness"
   ],
   "note": "False at epoch 0, as C38_epoch_zero_unchecked shows; C38_partial covers every other epoch."
  },
  {
   "property": "C39",
   "status": "partial",
   "theorems": [
    "Signal.C39_slot_proven_partial",
    "Signal.C39_forged_slot"
   ],
   "note": "Needs the same depth and collision conditions as C33; C39_forged_slot shows that without the depth condition any slot can be reported for a block that holds one chosen chunk."
  },
  {
   "property": "C40",
   "status": "partial",
   "theorems": [
    "Signal.C40_end_to_end_partial",
    "Signal.C40_reader_partial",
    "Signal.C40_digests_partial",
    "Signal.C40_window_registry",
    "Signal.C40_signed_partial",
    "Signal.C40_forged_journal",
    "Signal.C40_one_deposit"
   ],
   "note": "Needs that no proof is 64 or more levels deep and no collision; C40_forged_journal shows that without the depth condition a journal can be forged, and C40_one_deposit that one validator with chosen withdrawal credentials is enough for all blocks from then on."
  },
  {
   "property": "C50",
   "status": "proved",
   "theorems": [
    "Signal.C50_header",
    "Signal.C50_state",
    "Signal.C50_validator",
    "Signal.C50_no_overflow",
    "Signal.C50_distinct"
   ],
   "note": ""
  },
  {
   "property": "C51",
   "status": "proved",
   "theorems": [
    "Signal.C51_decode_encode",
    "Signal.C51_u64_range",
    "Signal.C51_bool_canonical"
   ],
   "note": ""
  },
  {
   "property": "C52",
   "status": "proved",
   "theorems": [
    "Signal.C52_compressed_chunks",
    "Signal.C52_registered_key_only"
   ],
   "note": ""
  },
  {
   "property": "C41",
   "status": "partial",
   "theorems": [
    "Signal.C41_runs_partial",
    "Signal.C41_runs_one_third_partial",
    "Signal.C41_accountable_safety_partial",
    "Signal.C41_one_third_partial",
    "Signal.C41_fails_below_floor"
   ],
   "note": "Proved for active balances of more than one and a half increments. Missing: smaller ones, for which the statement is false (C41_fails_below_floor: the code floors both sides of the threshold at one increment, so any vote is a supermajority; two conflicting runs have no signer in common). C41_accountable_safety_partial and C41_one_third_partial say it of the whole guest and a real chain, also under the proof depth and collision conditions of C40."
  },
  {
   "property": "C42",
   "status": "proved",
   "theorems": [
    "Signal.C42_chaining"
   ],
   "note": ""
  },
  {
   "property": "C54",
   "status": "partial",
   "theorems": [
    "Signal.C54_drift_partial",
    "Signal.C54_sharp",
    "Signal.C13_fails_below_floor"
   ],
   "note": "Increase, decrease and slashing are measured per validator, as in the balance drift document. Missing: totals so small that the one-increment floor decides (increment * quotient >= total * factor), where the property is false even without drift (C13_fails_below_floor), and a quotient of 0."
  },
  {
   "property": "C43",
   "status": "proved",
   "theorems": [
    "Signal.C43_links_replay"
   ],
   "note": "for every sequence of answers of the node; epochs of answered states below 2^64, as in the Rust type"
  },
  {
   "property": "C44",
   "status": "partial",
   "theorems": [
    "Signal.C44_collects_partial",
    "Signal.C44_regroup",
    "Signal.C44_late_votes_missed"
   ],
   "note": "C44_regroup is proved in full. C44_collects_partial states what is collected, without conditions. Missing: votes included after the first slot of the next epoch are not collected (C44_late_votes_missed), so not every block attestation for a link is found."
  },
  {
   "property": "C56",
   "status": "proved",
   "theorems": [
    "Signal.C56_finalization_search",
    "Signal.C56_skipped"
   ],
   "note": "for every sequence of answers and every number of requests"
  },
  {
   "property": "C58",
   "status": "proved",
   "theorems": [
    "Signal.C58_reaches_next",
    "Signal.C58_next_round",
    "Signal.C58_continuous"
   ],
   "note": "the chain is the same in all rounds; to_input itself is not part of this model"
  },
  {
   "property": "C46",
   "status": "proved",
   "theorems": [
    "Signal.C46_cache",
    "Signal.C46_transparent",
    "Signal.C46_genesis_root"
   ],
   "note": "C46_cache also covers a wrapped provider whose answers change over time"
  },
  {
   "property": "C47",
   "status": "partial",
   "theorems": [
    "Signal.C47_never_wrong",
    "Signal.C47_retry_partial",
    "Signal.C47_truncated_forever",
    "Signal.C47_clearing_repairs",
    "Signal.C47_truncated_wrong",
    "Signal.C47_save"
   ],
   "note": "never a wrong state, for all interruptions, if no truncated file is a valid different state; retry works unless a write for that slot was interrupted; C47_truncated_forever and C47_truncated_wrong show that both conditions are needed"
  },
  {
   "property": "C48",
   "status": "proved",
   "theorems": [
    "Signal.C48_keeps_newer",
    "Signal.C48_removes_older",
    "Signal.C48_other_files",
    "Signal.C48_foreign_files"
   ],
   "note": "C48_foreign_files: other files with a leading slot number are removed too"
  },
  {
   "property": "C57",
   "status": "proved",
   "theorems": [
    "Signal.C57_root_matches",
    "Signal.C57_state_of_block"
   ],
   "note": "second theorem: without SHA-256 collision between the two headers the state is that of the block"
  },
  {
   "property": "C59",
   "status": "proved",
   "theorems": [
    "Signal.C59_accepted_iff",
    "Signal.C59_new_exits_in_order",
    "Signal.C59_gap_rejected"
   ],
   "note": "exact characterization while the products fit into 64 bits; for chain constants (churn quotient, balance increment) other than 0; C59_gap_rejected shows that true exits in patches with a gap between their epochs make the guest abort"
  },
  {
   "property": "C45",
   "status": "proved",
   "theorems": [
    "Signal.C45_active_set",
    "Signal.C45_only_exits"
   ],
   "note": "active sets agree, under the exact conditions the later state must satisfy (Continues); for epochs up to the far-future one and registered keys that are valid"
  },
  {
   "property": "C53",
   "status": "proved",
   "theorems": [
    "Signal.C53_input_built",
    "Signal.C53_same_answers"
   ],
   "note": "for a host that can list the validators active at the trusted epoch (their keys are valid); effective balances and exit epochs are not compared: the guest uses those of the trusted state and of the patch"
  },
  {
   "property": "C60",
   "status": "partial",
   "theorems": [
    "Signal.C60_accepted_iff",
    "Signal.C60_accepted_without_exits_partial",
    "Signal.C60_consistent_rejected"
   ],
   "note": "false as stated: C60_consistent_rejected gives a consistent host whose input the guest aborts on; proved: exact condition for acceptance, and acceptance when there are no new exits"
  },
  {
   "property": "C61",
   "status": "proved",
   "theorems": [
    "Signal.C61_same_journal_or_abort",
    "Signal.C61_same_journal_iff",
    "Signal.C61_same_journal",
    "Signal.C61_preflight_succeeds",
    "Signal.C61_quiet_period",
    "Signal.C61_recording_transparent",
    "Signal.C61_determined",
    "Signal.C61_verdict_iff",
    "Signal.C61_balances_matter"
   ],
   "note": "Consistent (Spec/Preflight) states what the later states must satisfy; C61_balances_matter shows that the balance condition cannot be dropped"
  },
  {
   "property": "C62",
   "status": "proved",
   "theorems": [
    "Signal.C62_word_size",
    "Signal.C62_guest",
    "Signal.C62_same_journal_or_abort",
    "Signal.C62_same_journal",
    "Signal.C62_mainnet_fits",
    "Signal.C62_small_word_fails"
   ],
   "note": "assumes that the external shuffle keeps the number of indices; C62_small_word_fails shows that the size condition is needed (see also C22_guest_limit)"
  },
  {
   "property": "C63",
   "status": "proved",
   "theorems": [
    "Signal.C63_round_trip",
    "Signal.C63_injective",
    "Signal.C63_decoded_fits",
    "Signal.C63_host_agrees",
    "Signal.C63_prefix_rejected",
    "Signal.C63_guest_reads",
    "Signal.C63_truncated_file_aborts",
    "Signal.C63_oversized_aborts",
    "Signal.C63_any_stdin",
    "Signal.C63_files_agree"
   ],
   "note": "assumes of the external serde format of bit vectors and SSZ format of attestations what WireLaws says (round trip, independence of following bytes, monotone in the word size); exWire_laws shows a format with these properties"
  },
  {
   "property": "C64",
   "status": "proved",
   "theorems": [
    "Signal.C64_checked",
    "Signal.C64_native",
    "Signal.C64_complete"
   ],
   "note": "same assumptions as C63; the virtual machine is assumed to run the guest program"
  },
  {
   "property": "C65",
   "status": "proved",
   "theorems": [
    "Signal.C65_proof_size",
    "Signal.C65_ancestors",
    "Signal.C65_preflight_fits",
    "Signal.C65_input_size",
    "Signal.C65_patch_count",
    "Signal.C65_shipped",
    "Signal.C65_shipped_check",
    "Signal.C65_shipped_guest"
   ],
   "note": "same assumptions as C63 and C64, and that the format of a bit vector takes at most a byte per bit and 64 bytes more"
  },
  {
   "property": "C66",
   "status": "partial",
   "theorems": [
    "Signal.C66_rounds",
    "Signal.C66_interrupted",
    "Signal.C66_progress",
    "Signal.C66_chained_partial",
    "Signal.C66_crash_safe",
    "Signal.C66_complete_partial",
    "Signal.C66_complete_iff_partial",
    "Signal.C66_early_finality",
    "Signal.C66_foreign_genesis",
    "Signal.C66_foreign_block",
    "Signal.C66_errors_reported"
   ],
   "note": "Rounds, files at every crash point, progress and (C66_crash_safe) that an accepted input file commits to the host's transition are proved for every sequence of answers; C66_crash_safe asks only that answers are values of their types and fit the host's memory (TypedWorld). C66_complete_partial (the guest accepts) needs that what is read in a pass belongs to one chain (QuietWorld). C66_chained_partial needs, besides a node that keeps to its answers, that at the start of an epoch only earlier epochs are final and epochs are 64-bit numbers (SteadyView). C66_early_finality is the witness that chaining fails without it: a node that always answers alike, but calls epoch 6 final at the start of epoch 6. C66_foreign_genesis is the witness that acceptance fails without one chain: the trusted state of one chain, later states and votes of another. Missing: chaining and acceptance without these conditions, where they are false, and acceptance of inputs too large for the guest, where it is false: C66_complete_iff_partial shows that the guest accepts exactly the inputs that fit 32-bit words and a 32-bit length (committee positions are still asked to fit the words). Answers are fixed within a round; if they change, the slot in the journal file may be another one (C78). A crash is the end of the process between or within writes; loss of data the operating system has accepted is not modelled. Example: two rounds on a concrete chain, also interrupted within the second."
  },
  {
   "property": "C67",
   "status": "partial",
   "theorems": [
    "Signal.C67_lines",
    "Signal.C67_ok_proved",
    "Signal.C67_chained_partial",
    "Signal.C67_no_mismatch",
    "Signal.C67_all_ok_partial",
    "Signal.C67_ok_iff_partial",
    "Signal.C67_verify_command_partial",
    "Signal.C67_first_line_unchecked",
    "Signal.C67_early_finality"
   ],
   "note": "Form of the lines, meaning of Ok and (C67_no_mismatch) absence of mismatches are proved for every sequence of answers of the right types (TypedWorld), also if they do not belong to one chain. C67_chained_partial also asks that at the start of an epoch only earlier epochs are final (SteadyView); C67_all_ok_partial and C67_verify_command_partial also ask that sizes and committees fit the machine words (QuietWorld). C67_early_finality is the witness that the state a later line names need not be the guest's without SteadyView. C67_ok_iff_partial gives the exact condition on the size: without the guest every line is Ok, with it exactly those whose input fits. Missing: the clauses that every line is Ok where the input is too large for the guest, where they are false. C67_first_line_unchecked is the witness that the first line's state is not checked."
  },
  {
   "property": "C68",
   "status": "proved",
   "theorems": [
    "Signal.C68_accepts_iff",
    "Signal.C68_accepts_iff_at",
    "Signal.C68_guest_setting"
   ],
   "note": "Spec/Accept (Acceptable, Setting). The word-size condition is Setting.fits; C22_guest_limit shows it is needed."
  },
  {
   "property": "C69",
   "status": "partial",
   "theorems": [
    "Signal.C69_more_votes_partial",
    "Signal.C69_guest_accepts_false_vote"
   ],
   "note": "Both directions; exExtra_iff instantiates it with a rightly and a wrongly signed vote. Proved in the setting of C68 (sensible chain constants, a permuting shuffle, active sets that fit the machine word) and for total balances whose triple is below 2^64. Missing: inputs outside that setting; C69_guest_accepts_false_vote shows that the statement is false where committee positions do not fit the word."
  },
  {
   "property": "C70",
   "status": "proved",
   "theorems": [
    "Signal.C70_checked_iff",
    "Signal.C70_second_reader"
   ],
   "note": "Model/AssertReader. Lazy iterators are modelled eagerly (successful runs are the same)."
  },
  {
   "property": "C71",
   "status": "partial",
   "theorems": [
    "Signal.C71_block",
    "Signal.C71_header",
    "Signal.C71_state",
    "Signal.C71_honest_node",
    "Signal.C71_consensus_state",
    "Signal.C71_every_vote_partial"
   ],
   "note": "Model/Client, Spec/Client. The clauses on single requests are proved for all nodes. C71_every_vote_partial is proved for all nodes; it asks only that epochs are decoded as 64-bit numbers. Missing: the property says the slots of the target epochs; the code, and the theorem, read all slots from the first target epoch to the first slot after the last one. HTTP cache, retries and rate limit are not modelled; content decoders are parameters."
  },
  {
   "property": "C72",
   "status": "proved",
   "theorems": [
    "Signal.C72_in_force",
    "Signal.C72_record",
    "Signal.C72_trusted_record",
    "Signal.C72_mainnet_votes",
    "Signal.C72_sepolia_votes",
    "Signal.C72_guest_mainnet",
    "Signal.C72_guest_sepolia",
    "Signal.C72_networks_apart"
   ],
   "note": "Model/Networks, Spec/Networks. Examples: accepted inputs across the start of Fulu on both networks, at the level of verify and as complete guest inputs (Proofs/ExampleNetworks), with the toy hash and signature of the other examples. Fork epochs, versions and churn limits are those of the YAML files; other constants are the mainnet preset of the external crate, not in /repo. fork_name_at_epoch and fork_at_epoch are modelled from the external crate's documented behaviour."
  },
  {
   "property": "C73",
   "status": "proved",
   "theorems": [
    "Signal.C73_path",
    "Signal.C73_chunks",
    "Signal.C73_template_iff",
    "Signal.C73_generated",
    "Signal.C73_added_fields"
   ],
   "note": "Model/Gindices, Spec/Gindices. generalized_index and chunk_count of ssz_rs are modelled after the SSZ specification (external crate). Examples show the formula wrong for index 24 and for containers whose number of fields is no power of two; the shipped paths avoid both."
  },
  {
   "property": "C74",
   "status": "partial",
   "theorems": [
    "Signal.C74_shuffles_iff",
    "Signal.C74_permutes",
    "Signal.C74_shuffled_index",
    "Signal.C74_committee",
    "Signal.C74_beacon_committee_partial",
    "Signal.C74_accepted_votes_partial",
    "Signal.C74_keeps_length",
    "Signal.C74_guest_setting",
    "Signal.C74_one_committee_partial",
    "Signal.C74_guest_exact",
    "Signal.C74_narrow_pivot"
   ],
   "note": "The shuffle is external; Model/Shuffle is its published program, with the width in which the pivot is reduced as a parameter. C74_permutes holds for every width; the others for 64 bits and more. C74_narrow_pivot: a 32-bit reduction gives other committees than the specification. C74_keeps_length, C74_guest_setting and C74_one_committee_partial discharge what other modules assume of the shuffle. Missing: active sets whose committee positions do not fit in usize (2^21 validators on the guest), where the statement is false by C74_guest_exact; a guest that reduces the pivot in its own word."
  },
  {
   "property": "C75",
   "status": "proved",
   "theorems": [
    "Signal.C75_reads_iff",
    "Signal.C75_round_trip",
    "Signal.C75_canonical",
    "Signal.C75_injective",
    "Signal.C75_conversion",
    "Signal.C75_size",
    "Signal.C75_wire_laws",
    "Signal.C75_shipped"
   ],
   "note": "Model/AttestationSsz is the SSZ code of the external crates as published; Spec/AttestationSsz states the format as a relation after the SSZ specification. Whether the library accepts the bytes of a signature is a parameter. C75_wire_laws: with this format the assumptions of C63 to C67 about attestations hold, so that only those about bit vectors remain. C75_shipped: C65 without a condition on the size of attestations."
  },
  {
   "property": "C76",
   "status": "proved",
   "theorems": [
    "Signal.C76_message",
    "Signal.C76_binding",
    "Signal.C76_counted",
    "Signal.C76_networks"
   ],
   "note": "The signing root and the domain are programs in Model/Signing (after the external crates); RealSigning says that the external functions are these programs. That values have the widths of their Rust types is a hypothesis."
  },
  {
   "property": "C77",
   "status": "partial",
   "theorems": [
    "Signal.C77_no_conflict_partial",
    "Signal.C77_one_third_partial"
   ],
   "note": "One third is proved when the same validators are active at all target epochs; otherwise the bound is 2/3 W + 2/3 W' - U. Missing: the conditions of C41 (active balances above one and a half increments; below, C41_fails_below_floor) and of C40 (proofs less than 64 levels deep, trusted epoch other than 0, lookahead limit within MAX_SEED_LOOKAHEAD)."
  },
  {
   "property": "C78",
   "status": "proved",
   "theorems": [
    "Signal.C78_explained",
    "Signal.C78_steady_headers",
    "Signal.C78_unchanging",
    "Signal.C78_build",
    "Signal.C78_sync",
    "Signal.C78_verify_command",
    "Signal.C78_first_header",
    "Signal.C78_failing_requests",
    "Signal.C78_quiet_accepted",
    "Signal.C78_journal_can_differ"
   ],
   "note": "Every request has its own answer and the caches are part of the model; the answers of HostInputReader::new were per request before (StateAnswers). The boundary block and the blocks are asked for once each. C78_journal_can_differ is the witness that the journal file can differ from what the guest commits to."
  },
  {
   "property": "C79",
   "status": "partial",
   "theorems": [
    "Signal.C79_accountable_safety_partial",
    "Signal.C79_one_third_partial",
    "Signal.C79_no_conflict_partial",
    "Signal.C79_less_than_third_partial"
   ],
   "note": "The general bound is 2/3 W + 2/3 W' - U, with U the greater balances of the validators active in either registry; C79_one_third_partial and C79_less_than_third_partial give one third less d, where d bounds the change. Validators are identified by their index; that an index has the same key in both registries is a hypothesis of the theorems about honest validators. Missing: for each proof of the histories, the conditions of C41 (active balances above one and a half increments) and of C40 (proofs less than 64 levels deep, first trusted epoch other than 0, lookahead limit within MAX_SEED_LOOKAHEAD)."
  },
  {
   "property": "C80",
   "status": "proved",
   "theorems": [
    "Signal.C80_build",
    "Signal.C80_reader",
    "Signal.C80_guest",
    "Signal.C80_run",
    "Signal.C80_prepare",
    "Signal.C80_verify",
    "Signal.C80_files",
    "Signal.C80_log",
    "Signal.C80_timed"
   ],
   "note": "No condition on requests, trees, inputs, answers or sizes. The order of the cache of states (values().next()) is part of C78, not of this."
  },
  {
   "property": "C81",
   "status": "partial",
   "theorems": [
    "Signal.C81_mainnet_partial",
    "Signal.C81_sepolia_partial",
    "Signal.C81_one_deposit"
   ],
   "note": "Numbers of the two networks in the statement. Attestations are read by the modelled SSZ decoder; the rest of the file format obeys WireLaws. The registry is that of the real state, brought forward by the protocol's registry updates. Conditions: those the statement names. Missing: inputs with proofs that go on below a leaf of the real header, state or registry (NoPreimage in RealChainDigests). The English speaks of hashes; that condition is more than the hardness of SHA-256, because the strings below the state root of a header are public. Without it the statement is false of the code: C40_one_deposit, which holds for every hash function, configuration and network; C81_one_deposit is a case with the numbers of mainnet and Sepolia."
  },
  {
   "property": "C82",
   "status": "partial",
   "theorems": [
    "Signal.C82_mainnet_partial",
    "Signal.C82_mainnet_safe_partial",
    "Signal.C82_sepolia_partial",
    "Signal.C82_sepolia_safe_partial"
   ],
   "note": "from one state, two histories of files; the offenders sign votes found in the files, with registered keys; weights by the registries behind the two proofs; an example follows two files on which nine of ten validators sign twice Missing: inputs with proofs that go on below a leaf of the real header, state or registry (NoPreimage in RealChainDigests). The English speaks of hashes; that condition is more than the hardness of SHA-256, because the strings below the state root of a header are public. Without it the statement is false of the code: C40_one_deposit, which holds for every hash function, configuration and network; C81_one_deposit is a case with the numbers of mainnet and Sepolia."
  },
  {
   "property": "C83",
   "status": "proved",
   "theorems": [
    "Signal.C83_refused",
    "Signal.C83_answered",
    "Signal.C83_slot",
    "Signal.C83_counts"
   ],
   "note": "C83_refused and C83_slot need no bound on the active set"
  },
  {
   "property": "C84",
   "status": "proved",
   "theorems": [
    "Signal.C84_reported",
    "Signal.C84_waits",
    "Signal.C84_no_answer"
   ],
   "note": "from HTTP replies (Model/Client) to file operations (Model/Program); epochs in answers are 64-bit numbers"
  },
  {
   "property": "C85",
   "status": "partial",
   "theorems": [
    "Signal.C85_mainnet_partial",
    "Signal.C85_sepolia_partial",
    "Signal.C85_mainnet_sha256_partial",
    "Signal.C85_sepolia_sha256_partial"
   ],
   "note": "Spec/ShippedVotes (ValidVote, ValidlyCarried, WithinWords). Hypotheses about external code: the shuffle and the domain are the published ones (C74, C76; none in the _sha256 theorems, where the hash is SHA-256 itself), and a signature check depends on the keys only through their compressed form (KeysAsPoints). The RANDAO mix is that of the input, which the guest does not prove (C21). Missing: inputs with proofs that go on below a leaf of the real header, state or registry (NoPreimage in RealChainDigests). The English speaks of hashes; that condition is more than the hardness of SHA-256, because the strings below the state root of a header are public. Without it the statement is false of the code: C40_one_deposit, which holds for every hash function, configuration and network; C81_one_deposit is a case with the numbers of mainnet and Sepolia."
  },
  {
   "property": "C86",
   "status": "proved",
   "theorems": [
    "Signal.C86_answers",
    "Signal.C86_origin",
    "Signal.C86_transparent",
    "Signal.C86_restart",
    "Signal.C86_frozen",
    "Signal.C86_middlewares",
    "Signal.C86_waits_forever"
   ],
   "note": "What the cache crate keeps is a parameter; its mode is that of with_cache. The command line program does not use with_cache."
  },
  {
   "property": "C87",
   "status": "partial",
   "theorems": [
    "Signal.C87_casper",
    "Signal.C87_mainnet_partial",
    "Signal.C87_mainnet_safe_partial",
    "Signal.C87_mainnet_finalized_partial",
    "Signal.C87_sepolia_partial",
    "Signal.C87_sepolia_safe_partial",
    "Signal.C87_sepolia_finalized_partial"
   ],
   "note": "Theorem 2 of docs/src/01_consensus_algorithm.md. It says that the client's checkpoint is finalized in the view, too; that holds if the view includes the votes (C87_*_finalized), otherwise the view has not finalized anything that conflicts with it (C87_*_safe). C87_casper is the combinatorial part, for links that skip any number of epochs. The conditions are those the English names. The genesis validators root is one for all files and the view in the safe versions. Missing: inputs with proofs that go on below a leaf of the real header, state or registry (NoPreimage in RealChainDigests). The English speaks of hashes; that condition is more than the hardness of SHA-256, because the strings below the state root of a header are public. Without it the statement is false of the code: C40_one_deposit, which holds for every hash function, configuration and network; C81_one_deposit is a case with the numbers of mainnet and Sepolia."
  },
  {
   "property": "C88",
   "status": "partial",
   "theorems": [
    "Signal.C88_delta",
    "Signal.C88_mainnet_partial",
    "Signal.C88_mainnet_margin",
    "Signal.C88_sepolia_partial",
    "Signal.C88_sepolia_margin",
    "Signal.C88_sepolia_short",
    "Signal.C88_sepolia_breaks"
   ],
   "note": "B0 and V0 are the balance and number of the validators that the guest counts as active at the target epoch (the document takes them at the trusted epoch and treats known activations as exact). The bounds themselves, which rest on the rules of the beacon chain, are not proved but taken from the document; that 70 % does not satisfy them is finding 20. Missing: inputs with proofs that go on below a leaf of the real header, state or registry (NoPreimage in RealChainDigests). The English speaks of hashes; that condition is more than the hardness of SHA-256, because the strings below the state root of a header are public. Without it the statement is false of the code: C40_one_deposit, which holds for every hash function, configuration and network; C81_one_deposit is a case with the numbers of mainnet and Sepolia."
  },
  {
   "property": "C89",
   "status": "proved",
   "theorems": [
    "Signal.C89_prepares_iff",
    "Signal.C89_keeps_up",
    "Signal.C89_stuck",
    "Signal.C89_proves_all"
   ],
   "note": "Provable and Served (Spec/Follow) are stated over the node's answers, the rules of justification and genuine votes. The number of requests after which a search is given up is a parameter of the model (the program has no limit). Epoch numbers are below 2^64. The files are accepted under the condition of C60 on balances and exits (QuietWorld). That changes of finality by the two-epoch rules stop the program for good is finding 21."
  },
  {
   "property": "C90",
   "status": "proved",
   "theorems": [
    "Signal.C90_valid",
    "Signal.C90_step",
    "Signal.C90_search",
    "Signal.C90_documented",
    "Signal.C90_misses",
    "Signal.C90_stuck"
   ],
   "note": "Spec/Beacon has the epoch processing of the consensus specification of Ethereum, written down from that specification (it is not in the repository). Theorem 1 of docs/src/01_consensus_algorithm.md holds of the algorithm (C90_documented, from a state at which finality has just changed) but not of the program: C90_misses is a chain without 2-finality on which the search fails (finding 22)."
  },
  {
   "property": "C91",
   "status": "proved",
   "theorems": [
    "Signal.C91_paths",
    "Signal.C91_isolated",
    "Signal.C91_networks",
    "Signal.C91_bytes",
    "Signal.C91_settled",
    "Signal.C91_built",
    "Signal.C91_state",
    "Signal.C91_stored",
    "Signal.C91_ends",
    "Signal.C91_alone",
    "Signal.C91_conflict",
    "Signal.C91_hole"
   ],
   "note": "All interleavings, partial reads and writes and kills. The condition on decoding in C91_state is part of the statement; that SSZ does not meet it is finding 23. Writes that reach the disk late after a power failure are not modelled."
  },
  {
   "property": "C92",
   "status": "proved",
   "theorems": [
    "Signal.C92_serialize",
    "Signal.C92_deserialize",
    "Signal.C92_types",
    "Signal.C92_names",
    "Signal.C92_forks",
    "Signal.C92_any_order",
    "Signal.C92_roundtrip",
    "Signal.C92_slot",
    "Signal.C92_fields",
    "Signal.C92_cut",
    "Signal.C92_hole",
    "Signal.C92_providers",
    "Signal.C92_prefix"
   ],
   "note": "ssz_rs is external: it is modelled as a reader that accepts what the SSZ specification allows and nothing else. The condition Typ.WF (no list of elements without length) holds of all states (C92_types)."
  },
  {
   "property": "C93",
   "status": "partial",
   "theorems": [
    "Signal.C93_binding_partial",
    "Signal.C93_forks_partial",
    "Signal.C93_block_partial",
    "Signal.C93_checkpoint_partial",
    "Signal.C93_refused_partial",
    "Signal.C93_cut_partial",
    "Signal.C93_hole_partial",
    "Signal.C93_view",
    "Signal.C93_fields",
    "Signal.C93_provider"
   ],
   "note": "For every pair of states `hash_exists` gives a hash function that meets the assumptions; the example has the state of slot 0 found, and refused once its file is cut off by 16 bytes. Missing: pairs of states among whose hashed strings the hash function has a collision (NoCollisionOn); the English does not except them. Read literally it is false of every function with 32-byte values, SHA-256 included; that no collision is known is trusted, not proved."
  },
  {
   "property": "C94",
   "status": "proved",
   "theorems": [
    "Signal.C94_answers",
    "Signal.C94_typed",
    "Signal.C94_provider",
    "Signal.C94_files",
    "Signal.C94_log"
   ],
   "note": "For all bytes of the data directory and all replies. That the JSON decoders give values of their Rust types is assumed (TypedDecoders), as is that the states at the starts of epochs are of Electra or later; both are in the quantifier."
  },
  {
   "property": "C95",
   "status": "proved",
   "theorems": [
    "Signal.C95_registered",
    "Signal.C95_order",
    "Signal.C95_served",
    "Signal.C95_host",
    "Signal.C95_to_input"
   ],
   "note": "SSZ types as schemas; generalized_index of ssz_rs by the SSZ specification. Served for requests in which no index is above another (what happens otherwise: C30)."
  },
  {
   "property": "C96",
   "status": "partial",
   "theorems": [
    "Signal.C96_round_trip",
    "Signal.C96_size",
    "Signal.C96_laws",
    "Signal.C96_mainnet_partial",
    "Signal.C96_sepolia_partial"
   ],
   "note": "The format of bitvec 1.0.1 is as published; the source of that crate is not among the files, see DESIGN.md. WireLaws, assumed elsewhere, is proved of it. Missing: the last clause is proved for C81, under the condition that C81 is (see there)."
  },
  {
   "property": "C97",
   "status": "proved",
   "theorems": [
    "Signal.C97_proof",
    "Signal.C97_verify",
    "Signal.C97_guest",
    "Signal.C97_bytes"
   ],
   "note": "The claim is about what a run depends on: two behaviours of the external code that agree on the listed calls give the same outcome. An example shows that the bound for a proof of two chunks cannot be lowered. The hashes of the signing root are inside the chain specification, which is held fixed."
  },
  {
   "property": "C98",
   "status": "proved",
   "theorems": [
    "Signal.C98_places",
    "Signal.C98_host",
    "Signal.C98_read",
    "Signal.C98_exits"
   ],
   "note": "the places are counted out in Spec/StateLayout, apart from the types of the model; bytes that are read (C98_read) are fewer than 2^32, as in C92; the containers from external crates are those of the consensus specifications"
  },
  {
   "property": "C99",
   "status": "proved",
   "theorems": [
    "Signal.C99_reads_iff",
    "Signal.C99_journal",
    "Signal.C99_used",
    "Signal.C99_one_invalid"
   ],
   "note": "which bytes are valid keys and signatures is decided by the BLS library, which is external: two arbitrary functions; C99_one_invalid is about the files that the host writes, shorter than 2^32 bytes"
  },
  {
   "property": "C100",
   "status": "proved",
   "theorems": [
    "Signal.C100_confined",
    "Signal.C100_lying"
   ],
   "note": "the condition on the node is the one that the statement names, for the epochs after the trusted one; C100_lying gives for each slot below 2^64 - 400 a node without it"
  },
  {
   "property": "C101",
   "status": "proved",
   "theorems": [
    "Signal.C101_confined",
    "Signal.C101_http"
   ],
   "note": "the condition on the node is the one that the statement names, for the epochs after the finalized one; the epoch g and the two states at the boundary are given by the theorem"
  },
  {
   "property": "C102",
   "status": "proved",
   "theorems": [
    "Signal.C102_unused"
   ],
   "note": "the votes, the proofs about the trusted state, the keys and the pre state stay as they are; what the guest accepts as such is intoReader; the example adds a patch and a slot proof"
  },
  {
   "property": "C103",
   "status": "proved",
   "theorems": [
    "Signal.C103_outcome",
    "Signal.C103_journals"
   ],
   "note": "an example with other libraries, another threshold and fewer votes, and one that without the condition on the links the states differ; the reported slot is the subject of C39"
  },
  {
   "property": "C104",
   "status": "proved",
   "theorems": [
    "Signal.C104_verify",
    "Signal.C104_guest",
    "Signal.C104_threshold_needed"
   ],
   "note": "NoStricter is the comparison of the statement, the parts of the stake compared as fractions"
  },
  {
   "property": "C105",
   "status": "partial",
   "theorems": [
    "Signal.C105_agree_partial",
    "Signal.C105_slots_partial",
    "Signal.C105_journals_partial",
    "Signal.C105_contradict",
    "Signal.C39_forged_slot"
   ],
   "note": "Missing: proofs 64 or more levels deep (`NoWrap`), for which it is false: C105_contradict gives, for every hash function and any two chunks, two proofs for one root that report them at one index, of which only one is deep; C39_forged_slot does it for the slot in the journal. That no strings collide is stated for the strings hashed in the two proofs (`NoCollisionBetween`), which the English allows for. The nodes of C105_agree_partial include the values."
  },
  {
   "property": "C106",
   "status": "partial",
   "theorems": [
    "Signal.C106_view_partial",
    "Signal.C106_active_partial",
    "Signal.C106_registry_partial",
    "Signal.C106_forged",
    "Signal.C32_forged_registry"
   ],
   "note": "Missing: proofs 64 or more levels deep (`NoWrap`), for which it is false: C106_forged gives, for every hash function and any two state roots, a block and two proofs accepted for it from which the guest reads the one and the other; C32_forged_registry does it for the registry. That no strings collide is stated for the strings hashed in the proofs of the two inputs, which the English allows for. Keys are compared by their compressed encoding."
  },
  {
   "property": "C107",
   "status": "partial",
   "theorems": [
    "Signal.C107_convicts_partial",
    "Signal.C107_one_third_partial",
    "Signal.C106_forged",
    "Signal.C41_fails_below_floor"
   ],
   "note": "Missing: proofs 64 or more levels deep (`NoWrap`), for which two inputs for one trusted state can show unrelated registries (C106_forged, C32_forged_registry), and active balances of at most one and a half increments (C41_fails_below_floor). That no strings collide is stated for the block, state and registry proofs of the two inputs. Unlike the theorems of C41 about the guest these assume no real chain, no bound on the lookahead and no trusted epoch other than 0."
  },
  {
   "property": "C108",
   "status": "partial",
   "theorems": [
    "Signal.C108_record_partial",
    "Signal.C108_networks_partial",
    "Signal.C108_journals_partial",
    "Signal.C108_forged"
   ],
   "note": "Missing: proofs 64 or more levels deep (`NoWrap`), for which it is false: C108_forged makes, for every hash function and from any two inputs accepted by the two guests, two inputs that they accept for one trusted root. That no strings collide is stated for the block and state proofs of the two inputs. Of the last sentence it is proved that no root starts proofs of both networks. Missing: that the root at which a proof of one network ends does not start a proof of the other; the guest opens only the slot of the block it finalizes, not its fork record, so this rests on the signers, who would have to vote for a block of the other network."
  }
 ]
}