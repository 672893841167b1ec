# Axioms of the theorems in MANIFEST.json

Output of `#print axioms`, in the order of the manifest.

| theorem | axioms |
|---|---|
| Signal.C01_links_preserve_validity | propext, Quot.sound |
| Signal.C01_newly_finalized_was_justified | propext, Quot.sound |
| Signal.C02_transition_ok_iff | propext, Quot.sound |
| Signal.C02_transition_accepts_iff | propext, Classical.choice, Quot.sound |
| Signal.C02_finalizes_iff_one_epoch | propext, Quot.sound |
| Signal.C02_transition_errors | propext, Quot.sound |
| Signal.C03_reported_link_replays | propext, Quot.sound |
| Signal.C04_inverse_partial | propext, Quot.sound |
| Signal.C04_inverse_fails_at_genesis | none |
| Signal.C04_genesis_exception | propext, Quot.sound |
| Signal.C05_none_iff_equal | propext, Quot.sound |
| Signal.C05_no_regression | propext, Quot.sound |
| Signal.C05_two_finality_rejected | propext, Quot.sound |
| Signal.C05_finality_step | propext, Quot.sound |
| Signal.C06_abi_round_trip | propext, Classical.choice, Quot.sound |
| Signal.C06_abi_injective | propext, Classical.choice, Quot.sound |
| Signal.C06_abi_layout | propext, Quot.sound |
| Signal.C07_journal_round_trip | propext, Classical.choice, Quot.sound |
| Signal.C07_journal_injective | propext, Classical.choice, Quot.sound |
| Signal.C08_decode_never_invalid | propext, Quot.sound |
| Signal.C08_invalid_state_aborts | propext, Classical.choice, Quot.sound |
| Signal.C08_error_is_only_overrun | propext, Quot.sound |
| Signal.C49_frame_round_trip | propext, Classical.choice, Quot.sound |
| Signal.C49_frame_truncates | propext, Classical.choice, Quot.sound |
| Signal.C55_checkpoint_order | propext, Quot.sound |
| Signal.C25_root_ok_iff | propext, Classical.choice, Quot.sound |
| Signal.C25_tree_unique | propext |
| Signal.C25_verify_ok_iff | propext, Classical.choice, Quot.sound |
| Signal.C25_single_leaf_rejected | propext, Classical.choice, Quot.sound |
| Signal.C26_nodes_sound_partial | propext, Classical.choice, Quot.sound |
| Signal.C26_values_sound_partial | propext, Classical.choice, Quot.sound |
| Signal.C26_nodes_exist | propext, Classical.choice, Quot.sound |
| Signal.C27_indices_unambiguous_partial | propext, Quot.sound |
| Signal.C27_forged_value | propext, Quot.sound |
| Signal.C27_forged_proof | propext, Classical.choice, Quot.sound |
| Signal.C27_no_wrap | propext, Classical.choice, Quot.sound |
| Signal.C28_built_proof_verifies | propext, Classical.choice, Quot.sound |
| Signal.C29_built_proof_values | propext, Classical.choice, Quot.sound |
| Signal.C30_empty_request_aborts | propext, Quot.sound |
| Signal.C30_root_request_rejected | propext, Classical.choice, Quot.sound |
| Signal.C30_overlapping_request_not_served_partial | propext, Classical.choice, Quot.sound |
| Signal.C30_overlapping_digests_partial | propext, Classical.choice, Quot.sound |
| Signal.C30_degenerate_hash | propext, Classical.choice, Quot.sound |
| Signal.C31_hint_irrelevant_partial | propext, Quot.sound |
| Signal.C31_large_hint_aborts | propext, Quot.sound |
| Signal.C09_exactly_one_finalization | propext, Classical.choice, Quot.sound |
| Signal.C10_strictly_advances | propext, Classical.choice, Quot.sound |
| Signal.C11_atomic_finalization | propext, Classical.choice, Quot.sound |
| Signal.C11_genesis_exception | propext, Quot.sound |
| Signal.C12_supermajority | propext, Classical.choice, Quot.sound |
| Signal.verify_justifies | propext, Classical.choice, Quot.sound |
| Signal.C13_two_thirds_partial | propext, Classical.choice, Quot.sound |
| Signal.C13_check_redundant | propext, Classical.choice, Quot.sound |
| Signal.C13_shipped_configs | propext |
| Signal.C13_fails_below_floor | propext, Classical.choice, Quot.sound |
| Signal.C14_counted_votes_are_real_partial | propext, Classical.choice, Quot.sound |
| Signal.C14_guest_misattributed | propext, Classical.choice, Quot.sound |
| Signal.C15_order_and_repetition | propext, Classical.choice, Quot.sound |
| Signal.C15_counted_once | propext, Classical.choice, Quot.sound |
| Signal.C16_slashed_not_counted | propext, Classical.choice, Quot.sound |
| Signal.C17_bad_attestation_rejects | propext, Classical.choice, Quot.sound |
| Signal.C17_causes | propext, Classical.choice, Quot.sound |
| Signal.C18_window_and_forks | propext, Classical.choice, Quot.sound |
| Signal.C18_result_in_window | propext, Classical.choice, Quot.sound |
| Signal.C18_link_count | propext, Classical.choice, Quot.sound |
| Signal.C19_links_contiguous | propext, Classical.choice, Quot.sound |
| Signal.C20_total_balance_exact | propext, Classical.choice, Quot.sound |
| Signal.C20_threshold_exact | propext, Classical.choice, Quot.sound |
| Signal.C21_outcome_independent_of_shuffling | propext, Classical.choice, Quot.sound |
| Signal.C21_guarantees_for_any_shuffling | propext, Classical.choice, Quot.sound |
| Signal.C22_attesting_indices_partial | propext, Classical.choice, Quot.sound |
| Signal.C22_guest_limit | propext, Quot.sound |
| Signal.C23_committees_tile_partial | propext, Classical.choice, Quot.sound |
| Signal.C23_one_committee_partial | propext, Classical.choice, Quot.sound |
| Signal.C23_guest_exact | propext, Quot.sound |
| Signal.C23_guest_repeats | propext, Classical.choice, Quot.sound |
| Signal.C24_shuffled_position | propext, Classical.choice, Quot.sound |
| Signal.C32_registry_partial | propext, Classical.choice, Quot.sound |
| Signal.C32_active_set_partial | propext, Classical.choice, Quot.sound |
| Signal.C32_forged_registry | propext, Classical.choice, Quot.sound |
| Signal.C33_block_partial | propext, Classical.choice, Quot.sound |
| Signal.C33_state_partial | propext, Classical.choice, Quot.sound |
| Signal.C33_forged_state_root | propext, Quot.sound |
| Signal.C34_only_schedules | propext, Quot.sound |
| Signal.C34_activity_unchanged | propext, Quot.sound |
| Signal.C34_electra | propext, Quot.sound |
| Signal.C35_window | propext, Classical.choice, Quot.sound |
| Signal.C35_only_removes | propext |
| Signal.C36_step | propext, Classical.choice, Quot.sound |
| Signal.C36_exit_set_once_partial | propext, Classical.choice, Quot.sound |
| Signal.C36_proven_exit_kept_partial | propext, Classical.choice, Quot.sound |
| Signal.C36_no_second_change_partial | propext, Classical.choice, Quot.sound |
| Signal.C36_omission_resets | propext, Quot.sound |
| Signal.C37_churn | propext, Classical.choice, Quot.sound |
| Signal.C37_total_churn | propext, Classical.choice, Quot.sound |
| Signal.C38_partial | propext, Classical.choice, Quot.sound |
| Signal.C38_epoch_zero_unchecked | propext, Quot.sound |
| Signal.C38_epoch_zero_witness | propext, Quot.sound |
| Signal.C39_slot_proven_partial | propext, Classical.choice, Quot.sound |
| Signal.C39_forged_slot | propext, Classical.choice, Quot.sound |
| Signal.C40_end_to_end_partial | propext, Classical.choice, Quot.sound |
| Signal.C40_reader_partial | propext, Classical.choice, Quot.sound |
| Signal.C40_digests_partial | propext, Classical.choice, Quot.sound |
| Signal.C40_window_registry | propext, Classical.choice, Quot.sound |
| Signal.C40_signed_partial | propext, Classical.choice, Quot.sound |
| Signal.C40_forged_journal | propext, Classical.choice, Quot.sound |
| Signal.C40_one_deposit | propext, Classical.choice, Quot.sound |
| Signal.C50_header | propext, Quot.sound |
| Signal.C50_state | propext, Quot.sound |
| Signal.C50_validator | propext, Quot.sound |
| Signal.C50_no_overflow | propext, Classical.choice, Quot.sound |
| Signal.C50_distinct | propext, Classical.choice, Quot.sound |
| Signal.C51_decode_encode | propext, Classical.choice, Quot.sound |
| Signal.C51_u64_range | propext, Classical.choice, Quot.sound |
| Signal.C51_bool_canonical | propext, Quot.sound |
| Signal.C52_compressed_chunks | propext, Quot.sound |
| Signal.C52_registered_key_only | propext, Quot.sound |
| Signal.C41_runs_partial | propext, Classical.choice, Quot.sound |
| Signal.C41_runs_one_third_partial | propext, Classical.choice, Quot.sound |
| Signal.C41_accountable_safety_partial | propext, Classical.choice, Quot.sound |
| Signal.C41_one_third_partial | propext, Classical.choice, Quot.sound |
| Signal.C41_fails_below_floor | propext, Quot.sound |
| Signal.C42_chaining | propext, Classical.choice, Quot.sound |
| Signal.C54_drift_partial | propext, Classical.choice, Quot.sound |
| Signal.C54_sharp | propext, Classical.choice, Quot.sound |
| Signal.C43_links_replay | propext, Classical.choice, Quot.sound |
| Signal.C44_collects_partial | propext, Classical.choice, Quot.sound |
| Signal.C44_regroup | propext, Classical.choice, Quot.sound |
| Signal.C44_late_votes_missed | propext, Quot.sound |
| Signal.C56_finalization_search | propext, Classical.choice, Quot.sound |
| Signal.C56_skipped | propext, Quot.sound |
| Signal.C58_reaches_next | propext, Classical.choice, Quot.sound |
| Signal.C58_next_round | propext, Classical.choice, Quot.sound |
| Signal.C58_continuous | propext, Classical.choice, Quot.sound |
| Signal.C46_cache | propext, Classical.choice, Quot.sound |
| Signal.C46_transparent | propext, Classical.choice, Quot.sound |
| Signal.C46_genesis_root | propext, Classical.choice, Quot.sound |
| Signal.C47_never_wrong | propext, Classical.choice, Quot.sound |
| Signal.C47_retry_partial | propext, Classical.choice, Quot.sound |
| Signal.C47_truncated_forever | propext, Classical.choice, Quot.sound |
| Signal.C47_clearing_repairs | propext, Classical.choice, Quot.sound |
| Signal.C47_truncated_wrong | propext, Classical.choice, Quot.sound |
| Signal.C47_save | propext, Classical.choice, Quot.sound |
| Signal.C48_keeps_newer | propext, Classical.choice, Quot.sound |
| Signal.C48_removes_older | propext, Classical.choice, Quot.sound |
| Signal.C48_other_files | propext, Classical.choice, Quot.sound |
| Signal.C48_foreign_files | propext, Classical.choice, Quot.sound |
| Signal.C57_root_matches | propext, Quot.sound |
| Signal.C57_state_of_block | propext, Classical.choice, Quot.sound |
| Signal.C59_accepted_iff | propext, Classical.choice, Quot.sound |
| Signal.C59_new_exits_in_order | propext, Classical.choice, Quot.sound |
| Signal.C59_gap_rejected | propext, Classical.choice, Quot.sound |
| Signal.C45_active_set | propext, Classical.choice, Quot.sound |
| Signal.C45_only_exits | propext, Classical.choice, Quot.sound |
| Signal.C53_input_built | propext, Classical.choice, Quot.sound |
| Signal.C53_same_answers | propext, Classical.choice, Quot.sound |
| Signal.C60_accepted_iff | propext, Classical.choice, Quot.sound |
| Signal.C60_accepted_without_exits_partial | propext, Classical.choice, Quot.sound |
| Signal.C60_consistent_rejected | propext, Classical.choice, Quot.sound |
| Signal.C61_same_journal_or_abort | propext, Classical.choice, Quot.sound |
| Signal.C61_same_journal_iff | propext, Classical.choice, Quot.sound |
| Signal.C61_same_journal | propext, Classical.choice, Quot.sound |
| Signal.C61_preflight_succeeds | propext, Classical.choice, Quot.sound |
| Signal.C61_quiet_period | propext, Classical.choice, Quot.sound |
| Signal.C61_recording_transparent | propext, Classical.choice, Quot.sound |
| Signal.C61_determined | propext, Classical.choice, Quot.sound |
| Signal.C61_verdict_iff | propext, Classical.choice, Quot.sound |
| Signal.C61_balances_matter | propext, Quot.sound |
| Signal.C62_word_size | propext, Classical.choice, Quot.sound |
| Signal.C62_guest | propext, Classical.choice, Quot.sound |
| Signal.C62_same_journal_or_abort | propext, Classical.choice, Quot.sound |
| Signal.C62_same_journal | propext, Classical.choice, Quot.sound |
| Signal.C62_mainnet_fits | propext, Classical.choice, Quot.sound |
| Signal.C62_small_word_fails | propext, Quot.sound |
| Signal.C63_round_trip | propext, Classical.choice, Quot.sound |
| Signal.C63_injective | propext, Classical.choice, Quot.sound |
| Signal.C63_decoded_fits | propext, Classical.choice, Quot.sound |
| Signal.C63_host_agrees | propext, Quot.sound |
| Signal.C63_prefix_rejected | propext, Classical.choice, Quot.sound |
| Signal.C63_guest_reads | propext, Classical.choice, Quot.sound |
| Signal.C63_truncated_file_aborts | propext, Classical.choice, Quot.sound |
| Signal.C63_oversized_aborts | propext, Classical.choice, Quot.sound |
| Signal.C63_any_stdin | propext, Classical.choice, Quot.sound |
| Signal.C63_files_agree | propext, Classical.choice, Quot.sound |
| Signal.C64_checked | propext, Classical.choice, Quot.sound |
| Signal.C64_native | propext, Quot.sound |
| Signal.C64_complete | propext, Classical.choice, Quot.sound |
| Signal.C65_proof_size | propext, Classical.choice, Quot.sound |
| Signal.C65_ancestors | propext, Classical.choice, Quot.sound |
| Signal.C65_preflight_fits | propext, Classical.choice, Quot.sound |
| Signal.C65_input_size | propext, Classical.choice, Quot.sound |
| Signal.C65_patch_count | propext, Classical.choice, Quot.sound |
| Signal.C65_shipped | propext, Classical.choice, Quot.sound |
| Signal.C65_shipped_check | propext, Classical.choice, Quot.sound |
| Signal.C65_shipped_guest | propext, Classical.choice, Quot.sound |
| Signal.C66_rounds | propext, Classical.choice, Quot.sound |
| Signal.C66_interrupted | propext, Classical.choice, Quot.sound |
| Signal.C66_progress | propext, Classical.choice, Quot.sound |
| Signal.C66_chained_partial | propext, Classical.choice, Quot.sound |
| Signal.C66_crash_safe | propext, Classical.choice, Quot.sound |
| Signal.C66_complete_partial | propext, Classical.choice, Quot.sound |
| Signal.C66_complete_iff_partial | propext, Classical.choice, Quot.sound |
| Signal.C66_early_finality | propext, Classical.choice, Quot.sound |
| Signal.C66_foreign_genesis | propext, Classical.choice, Quot.sound |
| Signal.C66_foreign_block | propext, Quot.sound |
| Signal.C66_errors_reported | propext, Quot.sound |
| Signal.C67_lines | propext, Quot.sound |
| Signal.C67_ok_proved | propext, Classical.choice, Quot.sound |
| Signal.C67_chained_partial | propext, Classical.choice, Quot.sound |
| Signal.C67_no_mismatch | propext, Classical.choice, Quot.sound |
| Signal.C67_all_ok_partial | propext, Classical.choice, Quot.sound |
| Signal.C67_ok_iff_partial | propext, Classical.choice, Quot.sound |
| Signal.C67_verify_command_partial | propext, Classical.choice, Quot.sound |
| Signal.C67_first_line_unchecked | propext, Classical.choice, Quot.sound |
| Signal.C67_early_finality | propext, Classical.choice, Quot.sound |
| Signal.C68_accepts_iff | propext, Classical.choice, Quot.sound |
| Signal.C68_accepts_iff_at | propext, Classical.choice, Quot.sound |
| Signal.C68_guest_setting | propext, Quot.sound |
| Signal.C69_more_votes_partial | propext, Classical.choice, Quot.sound |
| Signal.C69_guest_accepts_false_vote | propext, Quot.sound |
| Signal.C70_checked_iff | propext, Classical.choice, Quot.sound |
| Signal.C70_second_reader | propext, Classical.choice, Quot.sound |
| Signal.C71_block | propext, Classical.choice, Quot.sound |
| Signal.C71_header | propext, Classical.choice, Quot.sound |
| Signal.C71_state | propext, Classical.choice, Quot.sound |
| Signal.C71_honest_node | propext, Classical.choice, Quot.sound |
| Signal.C71_consensus_state | propext, Classical.choice, Quot.sound |
| Signal.C71_every_vote_partial | propext, Classical.choice, Quot.sound |
| Signal.C72_in_force | propext, Classical.choice, Quot.sound |
| Signal.C72_record | propext, Quot.sound |
| Signal.C72_trusted_record | propext, Classical.choice, Quot.sound |
| Signal.C72_mainnet_votes | propext, Classical.choice, Quot.sound |
| Signal.C72_sepolia_votes | propext, Classical.choice, Quot.sound |
| Signal.C72_guest_mainnet | propext, Classical.choice, Quot.sound |
| Signal.C72_guest_sepolia | propext, Classical.choice, Quot.sound |
| Signal.C72_networks_apart | propext, Classical.choice, Quot.sound |
| Signal.C73_path | propext, Classical.choice, Quot.sound |
| Signal.C73_chunks | propext, Classical.choice, Quot.sound |
| Signal.C73_template_iff | propext, Classical.choice, Quot.sound |
| Signal.C73_generated | propext, Classical.choice, Quot.sound |
| Signal.C73_added_fields | propext, Quot.sound |
| Signal.C74_shuffles_iff | propext, Quot.sound |
| Signal.C74_permutes | propext, Classical.choice, Quot.sound |
| Signal.C74_shuffled_index | propext, Classical.choice, Quot.sound |
| Signal.C74_committee | propext, Classical.choice, Quot.sound |
| Signal.C74_beacon_committee_partial | propext, Classical.choice, Quot.sound |
| Signal.C74_accepted_votes_partial | propext, Classical.choice, Quot.sound |
| Signal.C74_keeps_length | propext, Classical.choice, Quot.sound |
| Signal.C74_guest_setting | propext, Classical.choice, Quot.sound |
| Signal.C74_one_committee_partial | propext, Classical.choice, Quot.sound |
| Signal.C74_guest_exact | propext, Classical.choice, Quot.sound |
| Signal.C74_narrow_pivot | propext |
| Signal.C75_reads_iff | propext, Classical.choice, Quot.sound |
| Signal.C75_round_trip | propext, Classical.choice, Quot.sound |
| Signal.C75_canonical | propext, Classical.choice, Quot.sound |
| Signal.C75_injective | propext, Classical.choice, Quot.sound |
| Signal.C75_conversion | propext, Classical.choice, Quot.sound |
| Signal.C75_size | propext, Quot.sound |
| Signal.C75_wire_laws | propext, Classical.choice, Quot.sound |
| Signal.C75_shipped | propext, Classical.choice, Quot.sound |
| Signal.C76_message | propext, Quot.sound |
| Signal.C76_binding | propext, Classical.choice, Quot.sound |
| Signal.C76_counted | propext, Classical.choice, Quot.sound |
| Signal.C76_networks | propext, Classical.choice, Quot.sound |
| Signal.C77_no_conflict_partial | propext, Classical.choice, Quot.sound |
| Signal.C77_one_third_partial | propext, Classical.choice, Quot.sound |
| Signal.C78_explained | propext, Classical.choice, Quot.sound |
| Signal.C78_steady_headers | propext, Classical.choice, Quot.sound |
| Signal.C78_unchanging | propext, Classical.choice, Quot.sound |
| Signal.C78_build | propext, Classical.choice, Quot.sound |
| Signal.C78_sync | propext, Classical.choice, Quot.sound |
| Signal.C78_verify_command | propext, Classical.choice, Quot.sound |
| Signal.C78_first_header | propext, Classical.choice, Quot.sound |
| Signal.C78_failing_requests | propext, Classical.choice, Quot.sound |
| Signal.C78_quiet_accepted | propext, Classical.choice, Quot.sound |
| Signal.C78_journal_can_differ | propext, Classical.choice, Quot.sound |
| Signal.C79_accountable_safety_partial | propext, Classical.choice, Quot.sound |
| Signal.C79_one_third_partial | propext, Classical.choice, Quot.sound |
| Signal.C79_no_conflict_partial | propext, Classical.choice, Quot.sound |
| Signal.C79_less_than_third_partial | propext, Classical.choice, Quot.sound |
| Signal.C80_build | propext, Quot.sound |
| Signal.C80_reader | propext, Quot.sound |
| Signal.C80_guest | propext, Quot.sound |
| Signal.C80_run | propext, Quot.sound |
| Signal.C80_prepare | propext, Quot.sound |
| Signal.C80_verify | propext, Quot.sound |
| Signal.C80_files | propext, Quot.sound |
| Signal.C80_log | propext, Quot.sound |
| Signal.C80_timed | propext, Quot.sound |
| Signal.C81_mainnet_partial | propext, Classical.choice, Quot.sound |
| Signal.C81_sepolia_partial | propext, Classical.choice, Quot.sound |
| Signal.C81_one_deposit | propext, Classical.choice, Quot.sound |
| Signal.C82_mainnet_partial | propext, Classical.choice, Quot.sound |
| Signal.C82_mainnet_safe_partial | propext, Classical.choice, Quot.sound |
| Signal.C82_sepolia_partial | propext, Classical.choice, Quot.sound |
| Signal.C82_sepolia_safe_partial | propext, Classical.choice, Quot.sound |
| Signal.C83_refused | propext, Classical.choice, Quot.sound |
| Signal.C83_answered | propext, Classical.choice, Quot.sound |
| Signal.C83_slot | propext, Classical.choice, Quot.sound |
| Signal.C83_counts | propext, Classical.choice, Quot.sound |
| Signal.C84_reported | propext, Classical.choice, Quot.sound |
| Signal.C84_waits | propext, Classical.choice, Quot.sound |
| Signal.C84_no_answer | propext, Classical.choice, Quot.sound |
| Signal.C85_mainnet_partial | propext, Classical.choice, Quot.sound |
| Signal.C85_sepolia_partial | propext, Classical.choice, Quot.sound |
| Signal.C85_mainnet_sha256_partial | propext, Classical.choice, Quot.sound |
| Signal.C85_sepolia_sha256_partial | propext, Classical.choice, Quot.sound |
| Signal.C86_answers | propext, Quot.sound |
| Signal.C86_origin | propext, Quot.sound |
| Signal.C86_transparent | propext, Quot.sound |
| Signal.C86_restart | propext |
| Signal.C86_frozen | propext, Quot.sound |
| Signal.C86_middlewares | propext |
| Signal.C86_waits_forever | propext, Classical.choice, Quot.sound |
| Signal.C87_casper | propext, Classical.choice, Quot.sound |
| Signal.C87_mainnet_partial | propext, Classical.choice, Quot.sound |
| Signal.C87_mainnet_safe_partial | propext, Classical.choice, Quot.sound |
| Signal.C87_mainnet_finalized_partial | propext, Classical.choice, Quot.sound |
| Signal.C87_sepolia_partial | propext, Classical.choice, Quot.sound |
| Signal.C87_sepolia_safe_partial | propext, Classical.choice, Quot.sound |
| Signal.C87_sepolia_finalized_partial | propext, Classical.choice, Quot.sound |
| Signal.C88_delta | propext, Classical.choice, Quot.sound |
| Signal.C88_mainnet_partial | propext, Classical.choice, Quot.sound |
| Signal.C88_mainnet_margin | propext, Classical.choice, Quot.sound |
| Signal.C88_sepolia_partial | propext, Classical.choice, Quot.sound |
| Signal.C88_sepolia_margin | propext, Classical.choice, Quot.sound |
| Signal.C88_sepolia_short | propext, Classical.choice, Quot.sound |
| Signal.C88_sepolia_breaks | propext, Classical.choice, Quot.sound |
| Signal.C89_prepares_iff | propext, Classical.choice, Quot.sound |
| Signal.C89_keeps_up | propext, Classical.choice, Quot.sound |
| Signal.C89_stuck | propext, Classical.choice, Quot.sound |
| Signal.C89_proves_all | propext, Classical.choice, Quot.sound |
| Signal.C90_valid | propext, Classical.choice, Quot.sound |
| Signal.C90_step | propext, Classical.choice, Quot.sound |
| Signal.C90_search | propext, Classical.choice, Quot.sound |
| Signal.C90_documented | propext, Classical.choice, Quot.sound |
| Signal.C90_misses | propext, Classical.choice, Quot.sound |
| Signal.C90_stuck | propext, Classical.choice, Quot.sound |
| Signal.C91_paths | propext, Classical.choice, Quot.sound |
| Signal.C91_isolated | propext, Classical.choice, Quot.sound |
| Signal.C91_networks | propext, Classical.choice, Quot.sound |
| Signal.C91_bytes | propext, Classical.choice, Quot.sound |
| Signal.C91_settled | propext, Classical.choice, Quot.sound |
| Signal.C91_built | propext, Classical.choice, Quot.sound |
| Signal.C91_state | propext, Classical.choice, Quot.sound |
| Signal.C91_stored | propext, Classical.choice, Quot.sound |
| Signal.C91_ends | propext, Classical.choice, Quot.sound |
| Signal.C91_alone | propext, Classical.choice, Quot.sound |
| Signal.C91_conflict | propext, Classical.choice, Quot.sound |
| Signal.C91_hole | propext, Classical.choice, Quot.sound |
| Signal.C92_serialize | propext, Classical.choice, Quot.sound |
| Signal.C92_deserialize | propext, Classical.choice, Quot.sound |
| Signal.C92_types | propext, Quot.sound |
| Signal.C92_names | none |
| Signal.C92_forks | propext, Classical.choice, Quot.sound |
| Signal.C92_any_order | propext, Classical.choice, Quot.sound |
| Signal.C92_roundtrip | propext, Classical.choice, Quot.sound |
| Signal.C92_slot | propext, Classical.choice, Quot.sound |
| Signal.C92_fields | propext, Classical.choice, Quot.sound |
| Signal.C92_cut | propext, Classical.choice, Quot.sound |
| Signal.C92_hole | propext, Classical.choice, Quot.sound |
| Signal.C92_providers | propext, Classical.choice, Quot.sound |
| Signal.C92_prefix | propext, Classical.choice, Quot.sound |
| Signal.C93_binding_partial | propext, Classical.choice, Quot.sound |
| Signal.C93_forks_partial | propext, Classical.choice, Quot.sound |
| Signal.C93_block_partial | propext, Classical.choice, Quot.sound |
| Signal.C93_checkpoint_partial | propext, Classical.choice, Quot.sound |
| Signal.C93_refused_partial | propext, Classical.choice, Quot.sound |
| Signal.C93_cut_partial | propext, Classical.choice, Quot.sound |
| Signal.C93_hole_partial | propext, Classical.choice, Quot.sound |
| Signal.C93_view | propext, Classical.choice, Quot.sound |
| Signal.C93_fields | propext, Classical.choice, Quot.sound |
| Signal.C93_provider | propext, Classical.choice, Quot.sound |
| Signal.C94_answers | propext, Classical.choice, Quot.sound |
| Signal.C94_typed | propext, Classical.choice, Quot.sound |
| Signal.C94_provider | propext, Classical.choice, Quot.sound |
| Signal.C94_files | propext, Classical.choice, Quot.sound |
| Signal.C94_log | propext, Classical.choice, Quot.sound |
| Signal.C95_registered | propext, Classical.choice, Quot.sound |
| Signal.C95_order | propext, Classical.choice, Quot.sound |
| Signal.C95_served | propext, Classical.choice, Quot.sound |
| Signal.C95_host | propext, Classical.choice, Quot.sound |
| Signal.C95_to_input | propext, Quot.sound |
| Signal.C96_round_trip | propext, Classical.choice, Quot.sound |
| Signal.C96_size | propext, Classical.choice, Quot.sound |
| Signal.C96_laws | propext, Classical.choice, Quot.sound |
| Signal.C96_mainnet_partial | propext, Classical.choice, Quot.sound |
| Signal.C96_sepolia_partial | propext, Classical.choice, Quot.sound |
| Signal.C97_proof | propext, Quot.sound |
| Signal.C97_verify | propext, Classical.choice, Quot.sound |
| Signal.C97_guest | propext, Classical.choice, Quot.sound |
| Signal.C97_bytes | propext, Classical.choice, Quot.sound |
| Signal.C98_places | propext, Classical.choice, Quot.sound |
| Signal.C98_host | propext, Classical.choice, Quot.sound |
| Signal.C98_read | propext, Classical.choice, Quot.sound |
| Signal.C98_exits | propext, Classical.choice, Quot.sound |
| Signal.C99_reads_iff | propext, Classical.choice, Quot.sound |
| Signal.C99_journal | propext, Classical.choice, Quot.sound |
| Signal.C99_used | propext, Classical.choice, Quot.sound |
| Signal.C99_one_invalid | propext, Classical.choice, Quot.sound |
| Signal.C100_confined | propext, Classical.choice, Quot.sound |
| Signal.C100_lying | propext, Classical.choice, Quot.sound |
| Signal.C101_confined | propext, Classical.choice, Quot.sound |
| Signal.C101_http | propext, Classical.choice, Quot.sound |
| Signal.C102_unused | propext, Quot.sound |
| Signal.C103_outcome | propext, Classical.choice, Quot.sound |
| Signal.C103_journals | propext, Classical.choice, Quot.sound |
| Signal.C104_verify | propext, Quot.sound |
| Signal.C104_guest | propext, Quot.sound |
| Signal.C104_threshold_needed | propext, Quot.sound |
| Signal.C105_agree_partial | propext, Classical.choice, Quot.sound |
| Signal.C105_slots_partial | propext, Classical.choice, Quot.sound |
| Signal.C105_journals_partial | propext, Classical.choice, Quot.sound |
| Signal.C105_contradict | propext, Classical.choice, Quot.sound |
| Signal.C106_view_partial | propext, Classical.choice, Quot.sound |
| Signal.C106_active_partial | propext, Classical.choice, Quot.sound |
| Signal.C106_registry_partial | propext, Classical.choice, Quot.sound |
| Signal.C106_forged | propext, Quot.sound |
| Signal.C107_convicts_partial | propext, Classical.choice, Quot.sound |
| Signal.C107_one_third_partial | propext, Classical.choice, Quot.sound |
| Signal.C108_record_partial | propext, Classical.choice, Quot.sound |
| Signal.C108_networks_partial | propext, Classical.choice, Quot.sound |
| Signal.C108_journals_partial | propext, Classical.choice, Quot.sound |
| Signal.C108_forged | propext, Classical.choice, Quot.sound |
