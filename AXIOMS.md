# Axioms of the property theorems

Output of `#print axioms` (tools/axioms.py), grouped.

## propext, Classical.choice, Quot.sound (372 theorems)

* ZRep.Props.C01_point_wire_round_trip
* ZRep.Props.C02_decode_accepts_exactly_members
* ZRep.Props.C03_ops_are_group_ops
* ZRep.Props.C03_group_laws
* ZRep.Props.C03_zmod_view
* ZRep.Props.C04_pick_data_round_trip
* ZRep.Props.C04_pick_no_panic
* ZRep.Props.C05_int_bytes
* ZRep.Props.C06_conversions
* ZRep.Props.C07_find_index
* ZRep.Props.C07_find_values
* ZRep.Props.C09_sign_verify
* ZRep.Props.C10_signature_binds_message
* ZRep.Props.C10_special_soundness
* ZRep.Props.C11_false_assignment_signature_forgery
* ZRep.Props.C11_honest_assignment_signature_partial
* ZRep.Props.C11_real_base_partial
* ZRep.Props.C12_false_key_recovery
* ZRep.Props.C12_fresh_nonce_hides_key_partial
* ZRep.Props.C13_encrypt_decrypt
* ZRep.Props.C14_post_message_unambiguous_points
* ZRep.Props.C18_commit_opens
* ZRep.Props.C18_bases_well_formed
* ZRep.Props.C19_binding
* ZRep.Props.C20_homomorphic
* ZRep.Props.C21_rerandomize
* ZRep.Props.C22_range
* ZRep.Props.C22_laws
* ZRep.Props.C22_nonunit_keeps_receiver
* ZRep.Props.C23_parameters_well_formed
* ZRep.Props.C23_exponent_range
* ZRep.Props.C23_genH_progress
* ZRep.Props.C24_honest_coordinator_passes
* ZRep.Props.C24_secrets_are_suitable_draws
* ZRep.Props.C24_generated_test_passes
* ZRep.Props.C25_two_challenges_prove_power
* ZRep.Props.C26_false_commitments_not_binding
* ZRep.Props.C26_one_session_simulated_partial
* ZRep.Props.C26_false_one_answer_reveals_high_part
* ZRep.Props.C27_float_sqrt
* ZRep.Props.C27_three_squares_double
* ZRep.Props.C27_three_squares
* ZRep.Props.C28_honest_nonneg_accepted
* ZRep.Props.C29_false_forgery_accepted
* ZRep.Props.C29_false_negative_accepted
* ZRep.Props.C29_accepted_gives_relation_partial
* ZRep.Props.C29_three_challenges_nonneg_partial
* ZRep.Props.C30_honest_equality_accepted
* ZRep.Props.C31_special_soundness
* ZRep.Props.C31_accepted_iff
* ZRep.Props.C32_request_accepted
* ZRep.Props.C33_false_any_indicator_accepted
* ZRep.Props.C33_false_wraparound
* ZRep.Props.C33_accepted_request_splits_entry_partial
* ZRep.Props.C34_ring_signature_verifies
* ZRep.Props.C35_same_signer_linked
* ZRep.Props.C36_linked_iff_congruent
* ZRep.Props.C36_different_signers_not_linked
* ZRep.Props.C37_false_forgery_accepted
* ZRep.Props.C37_two_transcripts_partial
* ZRep.Props.C38_index_vector_is_permutation
* ZRep.Props.C38_every_permutation_once
* ZRep.Props.C39_output_is_shuffle
* ZRep.Props.C39_shuffle_defined_iff
* ZRep.Props.C39_decryption_is_permuted
* ZRep.Props.C40_verifier_defined_iff
* ZRep.Props.C40_honest_shuffle_accepted
* ZRep.Props.C41_false_nonshuffle_accepted
* ZRep.Props.C41_inputs_spanned_by_outputs_partial
* ZRep.Props.C41_false_all_but_one_arbitrary
* ZRep.Props.C41_false_all_but_one_arbitrary_bytes
* ZRep.Props.C41_false_spanned_accepted
* ZRep.Props.C42_simple_shuffle_complete
* ZRep.Props.C42_simple_shuffle_sound
* ZRep.Props.C42_false_statement_rarely_answered
* ZRep.Props.C43_biffle_satisfies_claim
* ZRep.Props.C43_claim_implies_shuffle
* ZRep.Props.C44_announcement_keeps_binding
* ZRep.Props.C44_round_end_keeps_binding
* ZRep.Props.C45_servers_form_chain
* ZRep.Props.C46_sequential_contributions_partial
* ZRep.Props.C46_false_concurrent_registration
* ZRep.Props.C48_registration_in_force
* ZRep.Props.C48_one_key_per_address
* ZRep.Props.C49_assign_bridges
* ZRep.Props.C50_assigned_at_most_posted
* ZRep.Props.C50_no_double_assignment
* ZRep.Props.C51_entry_stays_partial
* ZRep.Props.C51_false_takeover
* ZRep.Props.C52_entries_were_posted
* ZRep.Props.C52_assigned_were_posted
* ZRep.Props.C52_false_stranger_posts
* ZRep.Props.C53_delivered_once
* ZRep.Props.C53_answers_are_handled
* ZRep.Props.C54_no_early_delivery_partial
* ZRep.Props.C54_false_repeated_answers
* ZRep.Props.C55_signs_only_verified_partial
* ZRep.Props.C55_false_more_than_proven
* ZRep.Props.C56_tally_exact
* ZRep.Props.C57_bounded_by_votes_partial
* ZRep.Props.C57_false_replay
* ZRep.Props.C57_false_any_points_for_anyone
* ZRep.Props.C58_client_votes_one
* ZRep.Props.C59_outsiders_cannot_vote
* ZRep.Props.C60_participant_finds_itself
* ZRep.Props.C60_same_table
* ZRep.Props.C61_announced_table
* ZRep.Props.C61_returned_table
* ZRep.Props.C61_round_keeps_commitments
* ZRep.Props.C61_round_end_restores_keys
* ZRep.Props.C62_counter_opens_entry
* ZRep.Props.C63_new_client_waits
* ZRep.Props.C63_new_client_in_next_table
* ZRep.Props.C64_takes_part_partial
* ZRep.Props.C64_in_every_later_round_partial
* ZRep.Props.C64_false_client_started_between_rounds
* ZRep.Props.C65_counter_and_commitment_partial
* ZRep.Props.C65_false_late_vote_misses_the_table
* ZRep.Props.C65_false_counter_without_commitment
* ZRep.Props.C66_false_empty_pseudonym
* ZRep.Props.C66_false_stranger_request
* ZRep.Props.C66_post_partial
* ZRep.Props.C66_vote_partial
* ZRep.Props.C66_request_partial
* ZRep.Props.C66_unauthenticated_ignored_partial
* ZRep.Props.C67_false_no_proof
* ZRep.Props.C67_false_proof_not_about_rows
* ZRep.Props.C67_false_round_end
* ZRep.Props.C67_false_last_server
* ZRep.Props.C67_bad_proof_caught_partial
* ZRep.Props.C67_unknown_key_caught_partial
* ZRep.Props.C69_status_after_step
* ZRep.Props.C69_phases_wait_for_the_chain
* ZRep.Props.C69_runs_are_histories
* ZRep.Props.C70_false_one_message_links_all_rounds
* ZRep.Props.C70_false_wire_links_keys_to_pseudonyms
* ZRep.Props.C70_shuffled_tables_unlinkable_partial
* ZRep.Props.C70_pseudonyms_of_many_rounds_unlinkable_partial
* ZRep.Props.C71_reputation_is_what_was_earned
* ZRep.Props.C72_same_parameters
* ZRep.Props.C73_request_is_served
* ZRep.Props.C74_post_is_accepted
* ZRep.Props.C75_vote_is_counted
* ZRep.Props.C76_honest_coordinator_is_accepted
* ZRep.Props.C77_every_message_has_a_recipient
* ZRep.Props.C77_unserved_messages_are_ignored
* ZRep.Props.C78_main_loop_never_stops
* ZRep.Props.C78_rounds_never_stop
* ZRep.Props.C78_clients_never_stop
* ZRep.Props.C79_deliveries_end
* ZRep.Props.C79_no_deadlock
* ZRep.Props.C79_nothing_under_way
* ZRep.Props.C79_rounds_progress
* ZRep.Props.C80_assigned_only_if_proven
* ZRep.Props.C80_checked_request_splits_commitment
* ZRep.Props.C82_false_test_gates_nothing
* ZRep.Props.C82_false_any_parameters_used
* ZRep.Props.C82_bad_parameters_caught_partial
* ZRep.Props.C83_numbers_are_read
* ZRep.Props.C83_commands_do_what_they_say
* ZRep.Props.C83_lines_are_read
* ZRep.Props.C84_false_not_a_number_is_zero
* ZRep.Props.C84_false_incomplete_command_panics
* ZRep.Props.C84_false_long_lines_are_split
* ZRep.Props.C84_other_words_do_nothing_partial
* ZRep.Props.C85_nothing_else_starts
* ZRep.Props.C86_assignments_are_complete_partial
* ZRep.Props.C86_false_repost_mixes_signatures
* ZRep.Props.C87_assignment_can_be_voted_partial
* ZRep.Props.C88_false_other_value_accepted
* ZRep.Props.C88_false_unequal_accepted
* ZRep.Props.C88_fixed_commitments_partial
* ZRep.Props.C89_granted_bridges_arrive_partial
* ZRep.Props.C90_numbers_bounded
* ZRep.Props.C90_no_overflow
* ZRep.Props.C91_sections_serialize_partial
* ZRep.Props.C91_properties_transfer_partial
* ZRep.Props.C91_atomic_is_fine
* ZRep.Props.C91_false_post_lost
* ZRep.Props.C92_crash_consistent_partial
* ZRep.Props.C92_properties_survive_partial
* ZRep.Props.C92_same_parameters_partial
* ZRep.Props.C92_false_panic_after_message
* ZRep.Props.C93_false_client_leaves
* ZRep.Props.C93_unknown_clients_may_leave_partial
* ZRep.Props.C94_address_text
* ZRep.Props.C94_reached
* ZRep.Props.C94_dial_running
* ZRep.Props.C94_coordinator
* ZRep.Props.C95_server_address_partial
* ZRep.Props.C95_no_port_left
* ZRep.Props.C95_ten_servers
* ZRep.Props.C95_false_eleventh_server
* ZRep.Props.C96_false_last_server_restarted
* ZRep.Props.C96_false_witness
* ZRep.Props.C96_false_any_server_restarted
* ZRep.Props.C96_false_first_server_witness
* ZRep.Props.C97_torn_post_rejected
* ZRep.Props.C98_one_wait_partial
* ZRep.Props.C98_terminal_partial
* ZRep.Props.C98_false_long_line
* ZRep.Props.C99_nothing_but_the_number_partial
* ZRep.Props.C99_two_byte_end_of_line
* ZRep.Props.C100_false_commitments_void
* ZRep.Props.C100_stale_opening_refused_partial
* ZRep.Props.C100_chain_fixed_partial
* ZRep.Props.C100_false_whole_run
* ZRep.Props.C101_commitments_hide_partial
* ZRep.Props.C101_integer_commitments_hide_partial
* ZRep.Props.C101_false_coordinator_picks_randomness
* ZRep.Props.C101_false_randomness_is_announced
* ZRep.Props.C101_false_coordinator_finds_reputation
* ZRep.Props.C101_false_coordinator_finds_pseudonym
* ZRep.Props.C101_false_request_leaks_randomness
* ZRep.Props.C101_answer_hides_partial
* ZRep.Props.C102_false_cut_message
* ZRep.Props.C102_descriptors_partial
* ZRep.Props.C102_whole_messages_in_order_partial
* ZRep.Props.C102_all_handled_partial
* ZRep.Props.C102_comes_to_rest_partial
* ZRep.Props.C102_false_kept_connection
* ZRep.Props.C102_false_aborted_connection
* ZRep.Props.C102_false_descriptors_used_up
* ZRep.Props.C103_no_clash_partial
* ZRep.Props.C103_atomic_runs
* ZRep.Props.C103_forget
* ZRep.Props.C103_handler_writes
* ZRep.Props.C103_false_registration_while_posting
* ZRep.Props.C103_false_vote_while_ending
* ZRep.Props.C103_false_registration_toy
* ZRep.Props.C103_false_vote_toy
* ZRep.Props.C103_one_write_per_bridge
* ZRep.Props.C104_false_server_stops
* ZRep.Props.C104_unknown_servers_may_stop_partial
* ZRep.Props.C105_registrations_jam
* ZRep.Props.C105_false_deadlock
* ZRep.Props.C105_room_enough_partial
* ZRep.Props.C106_event_arrives
* ZRep.Props.C106_any_order
* ZRep.Props.C106_cut_event_refused
* ZRep.Props.C106_events_are_sent
* ZRep.Props.C106_through_connections
* ZRep.Props.C107_byte_lists
* ZRep.Props.C107_int_lists
* ZRep.Props.C107_big_numbers
* ZRep.Props.C107_big_number_lists
* ZRep.Props.C107_nonneg_proofs
* ZRep.Props.C107_equality_proofs
* ZRep.Props.C107_point_lists
* ZRep.Props.C107_secret_lists
* ZRep.Props.C107_bit_lists
* ZRep.Props.C107_assignments
* ZRep.Props.C108_coordinator
* ZRep.Props.C108_server
* ZRep.Props.C108_client
* ZRep.Props.C108_runs_with_bytes_are_runs
* ZRep.Props.C108_what_holds_for_messages_holds_for_bytes
* ZRep.Props.C108_runs_are_runs_with_bytes
* ZRep.Props.C109_bytes_are_judged_as_the_proof
* ZRep.Props.C109_accepted_bytes_are_a_proof
* ZRep.Props.C109_bytes_determine_the_proof
* ZRep.Props.C109_honest_proof_accepted
* ZRep.Props.C109_cut_off_refused
* ZRep.Props.C109_no_panic
* ZRep.Props.C110_formats_meet_the_assumptions
* ZRep.Props.C110_what_holds_in_the_model_holds_for_the_formats
* ZRep.Props.C111_runs_over_connections_are_runs
* ZRep.Props.C111_what_holds_for_messages_holds_over_connections
* ZRep.Props.C111_runs_are_runs_over_connections
* ZRep.Props.C111_transport_ends
* ZRep.Props.C111_messages_arrive
* ZRep.Props.C112_signing_gives_every_accepted_signature_once
* ZRep.Props.C112_questions_about_a_signature
* ZRep.Props.C112_same_tag_same_signatures
* ZRep.Props.C113_ring_signatures_arrive
* ZRep.Props.C113_cut_signature_refused
* ZRep.Props.C113_signature_verifies_at_the_reader
* ZRep.Props.C114_false_unreduced_tags
* ZRep.Props.C114_false_negative_tag
* ZRep.Props.C114_tag_up_to_sign_partial
* ZRep.Props.C115_two_answers_partial
* ZRep.Props.C115_one_challenge_partial
* ZRep.Props.C115_honest_proofs_are_the_accepted_ones
* ZRep.Props.C115_honest_biffle_accepted
* ZRep.Props.C115_false_any_hash
* ZRep.Props.C116_simulated_partial
* ZRep.Props.C116_answers_hide_partial
* ZRep.Props.C116_false_argument_fits_one_number
* ZRep.Props.C116_false_request_fits_one_reputation
* ZRep.Props.C117_false_repeated_request
* ZRep.Props.C117_bounded_by_requests_partial
* ZRep.Props.C118_false_overheard
* ZRep.Props.C118_latest_sender_partial
* ZRep.Props.C119_false_until_announcement
* ZRep.Props.C119_other_round_partial
* ZRep.Props.C119_false_late_post
* ZRep.Props.C120_known_pseudonyms_partial
* ZRep.Props.C120_false_shifted
* ZRep.Props.C120_false_stops
* ZRep.Props.C120_false_run
* ZRep.Props.C121_unhurried_is_orderly
* ZRep.Props.C121_messages_name_participants
* ZRep.Props.C121_bridges_of_participants
* ZRep.Props.C121_reputation_is_what_was_earned
* ZRep.Props.C122_deliveries_always_end
* ZRep.Props.C123_nobody_is_stopped
* ZRep.Props.C123_waits_end
* ZRep.Props.C124_posts_keep_apart
* ZRep.Props.C124_requests_come_from_their_client
* ZRep.Props.C124_requested_bridges_arrive
* ZRep.Props.C124_bridges_can_be_voted
* ZRep.Props.C124_requests_come_from_their_client_whatever_is_posted
* ZRep.Props.C125_who_posts_nothing
* ZRep.Props.C125_credited_to_a_poster
* ZRep.Props.C125_reputation_is_for_own_bridges
* ZRep.Props.C125_list_is_what_was_posted
* ZRep.Props.C125_assignments_name_the_poster
* ZRep.Props.C126_post_is_listed
* ZRep.Props.C126_request_is_answered
* ZRep.Props.C126_vote_is_for_the_poster
* ZRep.Props.C127_bridge_has_one_holder
* ZRep.Props.C127_one_vote_for_each_bridge_partial
* ZRep.Props.C127_reputation_within_posts_partial
* ZRep.Props.C127_reputation_changes_within_posts_partial
* ZRep.Props.C127_false_without_limit_on_votes
* ZRep.Props.C127_false_three_points_for_one_bridge
* ZRep.Props.C127_false_two_holders
* ZRep.Props.C127_false_two_points_for_one_address
* ZRep.Props.C128_holders_have_asked
* ZRep.Props.C128_votes_are_of_others_partial
* ZRep.Props.C128_holders_have_asked_whatever_is_posted
* ZRep.Props.C128_votes_are_of_others_whatever_is_posted_partial
* ZRep.Props.C128_false_own_votes
* ZRep.Props.C128_false_praises_itself
* ZRep.Props.C129_reputation_is_conserved
* ZRep.Props.C129_whatever_is_posted
* ZRep.Props.C130_same_client_same_points_partial
* ZRep.Props.C130_false_new_key_new_points
* ZRep.Props.C130_false_starts_again
* ZRep.Props.C131_table_between_rounds
* ZRep.Props.C131_announced_crowd
* ZRep.Props.C131_size_of_crowd
* ZRep.Props.C131_fakes_begin_with_nothing
* ZRep.Props.C132_tag_used_iff_recorded
* ZRep.Props.C132_messages_are_numbered
* ZRep.Props.C132_difference_is_the_tally
* ZRep.Props.C132_key_under_index
* ZRep.Props.C133_false_round_never_ends
* ZRep.Props.C134_participant_can_vote_partial
* ZRep.Props.C134_second_vote_recognised_partial
* ZRep.Props.C134_other_vote_not_taken_for_second_partial
* ZRep.Props.C134_false_vote_not_signed
* ZRep.Props.C134_false_texts_differ
* ZRep.Props.C134_false_number_cut
* ZRep.Props.C134_false_coordinator_stops
* ZRep.Props.C134_place_in_the_list_partial
* ZRep.Props.C134_vote_in_the_system_partial
* ZRep.Props.C134_repetition_in_the_system_partial
* ZRep.Props.C135_messages_accounted_for
* ZRep.Props.C135_from_the_start
* ZRep.Props.C135_one_action
* ZRep.Props.C135_price_of_rounds
* ZRep.Props.C135_quiet_soon
* ZRep.Props.C136_no_more_than_entitled
* ZRep.Props.C136_no_reputation_no_bridges
* ZRep.Props.C136_request_was_typed
* ZRep.Props.C137_any_selection_possible
* ZRep.Props.C138_in_the_system
* ZRep.Props.C139_same_histories
* ZRep.Props.C139_either_order
* ZRep.Props.C139_alike_for_ever
* ZRep.Props.C139_exchange

## propext, Quot.sound (40 theorems)

* ZRep.Props.C03_sub_uninitialised_panics
* ZRep.Props.C08_read_config
* ZRep.Props.C08_get_parameter
* ZRep.Props.C08_line_without_equals_panics
* ZRep.Props.C15_request_message_partial
* ZRep.Props.C16_false_feedback_sign_not_bound
* ZRep.Props.C16_false_vote_flip
* ZRep.Props.C16_vote_message_partial
* ZRep.Props.C26_false_two_sessions_reveal_trapdoors
* ZRep.Props.C27_panics_beyond_limit
* ZRep.Props.C47_server_index
* ZRep.Props.C47_first_of_equal_addresses
* ZRep.Props.C64_false_waiting_clients_are_dropped
* ZRep.Props.C66_false_malformed
* ZRep.Props.C66_false_early_client
* ZRep.Props.C66_false_misdirected
* ZRep.Props.C68_refuses_above_reputation
* ZRep.Props.C68_overflow_panics
* ZRep.Props.C68_proves_nonnegative_difference
* ZRep.Props.C68_panics_only_unconfigured
* ZRep.Props.C69_phases_in_order
* ZRep.Props.C80_unproven_requests_leave_no_trace
* ZRep.Props.C81_holds_only_signed_assignments
* ZRep.Props.C81_votes_carry_held_assignments
* ZRep.Props.C82_answers_are_tested_partial
* ZRep.Props.C97_moments_are_the_handler
* ZRep.Props.C97_post_partial
* ZRep.Props.C97_request_partial
* ZRep.Props.C97_vote_partial
* ZRep.Props.C97_false_get_panics
* ZRep.Props.C99_printed_number_partial
* ZRep.Props.C99_false_last_digit
* ZRep.Props.C100_false_always_added
* ZRep.Props.C103_main_writes
* ZRep.Props.C107_only_group_members
* ZRep.Props.C132_votes_checked_with_these_keys
* ZRep.Props.C133_false_votes_lost
* ZRep.Props.C133_registration_leaves_round_partial
* ZRep.Props.C138_order_of_arrival
* ZRep.Props.C138_same_outcome

## propext (15 theorems)

* ZRep.Props.C02_not_canonical
* ZRep.Props.C05_negative_not_faithful
* ZRep.Props.C08_value_truncated
* ZRep.Props.C14_post_message_unambiguous
* ZRep.Props.C15_false_indicator_not_bound
* ZRep.Props.C15_false_fields_not_separated
* ZRep.Props.C17_false_boundary_not_bound
* ZRep.Props.C17_got_signatures_message_partial
* ZRep.Props.C28_negative_refused
* ZRep.Props.C85_named_roles_start_partial
* ZRep.Props.C85_false_numbers_start_nothing
* ZRep.Props.C85_false_other_words_start_coordinator
* ZRep.Props.C94_needs_port
* ZRep.Props.C98_false_lines_lost
* ZRep.Props.C98_false_end_of_input
