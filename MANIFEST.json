{
 "claims": [
  {
   "property": "C01",
   "status": "proved",
   "theorems": [
    "ZRep.Props.C01_point_wire_round_trip"
   ],
   "note": ""
  },
  {
   "property": "C02",
   "status": "proved",
   "theorems": [
    "ZRep.Props.C02_decode_accepts_exactly_members",
    "ZRep.Props.C02_not_canonical"
   ],
   "note": "membership test proved exactly; uniqueness of the encoding is false (C02_not_canonical)"
  },
  {
   "property": "C03",
   "status": "proved",
   "theorems": [
    "ZRep.Props.C03_ops_are_group_ops",
    "ZRep.Props.C03_group_laws",
    "ZRep.Props.C03_sub_uninitialised_panics",
    "ZRep.Props.C03_zmod_view"
   ],
   "note": ""
  },
  {
   "property": "C04",
   "status": "proved",
   "theorems": [
    "ZRep.Props.C04_pick_data_round_trip",
    "ZRep.Props.C04_pick_no_panic"
   ],
   "note": ""
  },
  {
   "property": "C05",
   "status": "proved",
   "theorems": [
    "ZRep.Props.C05_int_bytes",
    "ZRep.Props.C05_negative_not_faithful"
   ],
   "note": ""
  },
  {
   "property": "C06",
   "status": "proved",
   "theorems": [
    "ZRep.Props.C06_conversions"
   ],
   "note": ""
  },
  {
   "property": "C07",
   "status": "proved",
   "theorems": [
    "ZRep.Props.C07_find_index",
    "ZRep.Props.C07_find_values"
   ],
   "note": ""
  },
  {
   "property": "C08",
   "status": "proved",
   "theorems": [
    "ZRep.Props.C08_read_config",
    "ZRep.Props.C08_get_parameter",
    "ZRep.Props.C08_line_without_equals_panics",
    "ZRep.Props.C08_value_truncated"
   ],
   "note": ""
  },
  {
   "property": "C09",
   "status": "proved",
   "theorems": [
    "ZRep.Props.C09_sign_verify"
   ],
   "note": ""
  },
  {
   "property": "C10",
   "status": "proved",
   "theorems": [
    "ZRep.Props.C10_signature_binds_message",
    "ZRep.Props.C10_special_soundness"
   ],
   "note": ""
  },
  {
   "property": "C11",
   "status": "partial",
   "theorems": [
    "ZRep.Props.C11_false_assignment_signature_forgery",
    "ZRep.Props.C11_honest_assignment_signature_partial",
    "ZRep.Props.C11_real_base_partial"
   ],
   "note": "false of the code: C11_false_*; partial theorems say what holds"
  },
  {
   "property": "C12",
   "status": "partial",
   "theorems": [
    "ZRep.Props.C12_false_key_recovery",
    "ZRep.Props.C12_fresh_nonce_hides_key_partial"
   ],
   "note": "false of the code: the nonce is constant"
  },
  {
   "property": "C13",
   "status": "proved",
   "theorems": [
    "ZRep.Props.C13_encrypt_decrypt"
   ],
   "note": ""
  },
  {
   "property": "C14",
   "status": "proved",
   "theorems": [
    "ZRep.Props.C14_post_message_unambiguous",
    "ZRep.Props.C14_post_message_unambiguous_points"
   ],
   "note": ""
  },
  {
   "property": "C15",
   "status": "partial",
   "theorems": [
    "ZRep.Props.C15_false_indicator_not_bound",
    "ZRep.Props.C15_false_fields_not_separated",
    "ZRep.Props.C15_request_message_partial"
   ],
   "note": "false of the code: C15_false_*"
  },
  {
   "property": "C16",
   "status": "partial",
   "theorems": [
    "ZRep.Props.C16_false_feedback_sign_not_bound",
    "ZRep.Props.C16_false_vote_flip",
    "ZRep.Props.C16_vote_message_partial"
   ],
   "note": "false of the code: sign of the feedback is not signed"
  },
  {
   "property": "C17",
   "status": "partial",
   "theorems": [
    "ZRep.Props.C17_false_boundary_not_bound",
    "ZRep.Props.C17_got_signatures_message_partial"
   ],
   "note": "false for arbitrary byte strings"
  },
  {
   "property": "C18",
   "status": "proved",
   "theorems": [
    "ZRep.Props.C18_commit_opens",
    "ZRep.Props.C18_bases_well_formed"
   ],
   "note": ""
  },
  {
   "property": "C19",
   "status": "proved",
   "theorems": [
    "ZRep.Props.C19_binding"
   ],
   "note": ""
  },
  {
   "property": "C20",
   "status": "proved",
   "theorems": [
    "ZRep.Props.C20_homomorphic"
   ],
   "note": ""
  },
  {
   "property": "C21",
   "status": "proved",
   "theorems": [
    "ZRep.Props.C21_rerandomize"
   ],
   "note": ""
  },
  {
   "property": "C22",
   "status": "proved",
   "theorems": [
    "ZRep.Props.C22_range",
    "ZRep.Props.C22_laws",
    "ZRep.Props.C22_nonunit_keeps_receiver"
   ],
   "note": ""
  },
  {
   "property": "C23",
   "status": "proved",
   "theorems": [
    "ZRep.Props.C23_parameters_well_formed",
    "ZRep.Props.C23_exponent_range",
    "ZRep.Props.C23_genH_progress"
   ],
   "note": ""
  },
  {
   "property": "C24",
   "status": "proved",
   "theorems": [
    "ZRep.Props.C24_honest_coordinator_passes",
    "ZRep.Props.C24_secrets_are_suitable_draws",
    "ZRep.Props.C24_generated_test_passes"
   ],
   "note": ""
  },
  {
   "property": "C25",
   "status": "proved",
   "theorems": [
    "ZRep.Props.C25_two_challenges_prove_power"
   ],
   "note": ""
  },
  {
   "property": "C26",
   "status": "partial",
   "theorems": [
    "ZRep.Props.C26_false_two_sessions_reveal_trapdoors",
    "ZRep.Props.C26_false_commitments_not_binding",
    "ZRep.Props.C26_one_session_simulated_partial",
    "ZRep.Props.C26_false_one_answer_reveals_high_part"
   ],
   "note": "false of the code: secrets are reused across sessions (C26_false_*); a single session is simulatable; one answer of a single session shows a trapdoor up to N, of 2^81·N possible values (C26_false_one_answer_reveals_high_part)"
  },
  {
   "property": "C27",
   "status": "proved",
   "theorems": [
    "ZRep.Props.C27_float_sqrt",
    "ZRep.Props.C27_three_squares_double",
    "ZRep.Props.C27_three_squares",
    "ZRep.Props.C27_panics_beyond_limit"
   ],
   "note": "for all 0 <= x < 2^61, where 4x+1 fits into int64, with the square root in double precision (C27_float_sqrt, C27_three_squares_double); from 2^61 on the code panics (also proved)"
  },
  {
   "property": "C28",
   "status": "proved",
   "theorems": [
    "ZRep.Props.C28_honest_nonneg_accepted",
    "ZRep.Props.C28_negative_refused"
   ],
   "note": ""
  },
  {
   "property": "C29",
   "status": "partial",
   "theorems": [
    "ZRep.Props.C29_false_forgery_accepted",
    "ZRep.Props.C29_false_negative_accepted",
    "ZRep.Props.C29_accepted_gives_relation_partial",
    "ZRep.Props.C29_three_challenges_nonneg_partial"
   ],
   "note": "false of the code: commitrx is not hashed (C29_false_*); partial: extraction when it is fixed first"
  },
  {
   "property": "C30",
   "status": "proved",
   "theorems": [
    "ZRep.Props.C30_honest_equality_accepted"
   ],
   "note": ""
  },
  {
   "property": "C31",
   "status": "proved",
   "theorems": [
    "ZRep.Props.C31_special_soundness",
    "ZRep.Props.C31_accepted_iff"
   ],
   "note": ""
  },
  {
   "property": "C32",
   "status": "proved",
   "theorems": [
    "ZRep.Props.C32_request_accepted"
   ],
   "note": ""
  },
  {
   "property": "C33",
   "status": "partial",
   "theorems": [
    "ZRep.Props.C33_false_any_indicator_accepted",
    "ZRep.Props.C33_false_wraparound",
    "ZRep.Props.C33_accepted_request_splits_entry_partial"
   ],
   "note": "false of the code (C33_false_*); partial: what an accepted request does imply"
  },
  {
   "property": "C34",
   "status": "proved",
   "theorems": [
    "ZRep.Props.C34_ring_signature_verifies"
   ],
   "note": ""
  },
  {
   "property": "C35",
   "status": "proved",
   "theorems": [
    "ZRep.Props.C35_same_signer_linked"
   ],
   "note": ""
  },
  {
   "property": "C36",
   "status": "proved",
   "theorems": [
    "ZRep.Props.C36_linked_iff_congruent",
    "ZRep.Props.C36_different_signers_not_linked"
   ],
   "note": ""
  },
  {
   "property": "C37",
   "status": "partial",
   "theorems": [
    "ZRep.Props.C37_false_forgery_accepted",
    "ZRep.Props.C37_two_transcripts_partial"
   ],
   "note": "false of the code: VerifyHelper accepts a forgery by anyone (C37_false_forgery_accepted); the partial theorem is special soundness for signatures with exactly n challenges"
  },
  {
   "property": "C38",
   "status": "proved",
   "theorems": [
    "ZRep.Props.C38_index_vector_is_permutation",
    "ZRep.Props.C38_every_permutation_once"
   ],
   "note": ""
  },
  {
   "property": "C39",
   "status": "proved",
   "theorems": [
    "ZRep.Props.C39_output_is_shuffle",
    "ZRep.Props.C39_shuffle_defined_iff",
    "ZRep.Props.C39_decryption_is_permuted"
   ],
   "note": ""
  },
  {
   "property": "C40",
   "status": "proved",
   "theorems": [
    "ZRep.Props.C40_verifier_defined_iff",
    "ZRep.Props.C40_honest_shuffle_accepted"
   ],
   "note": ""
  },
  {
   "property": "C41",
   "status": "partial",
   "theorems": [
    "ZRep.Props.C41_false_nonshuffle_accepted",
    "ZRep.Props.C41_inputs_spanned_by_outputs_partial",
    "ZRep.Props.C41_false_all_but_one_arbitrary",
    "ZRep.Props.C41_false_all_but_one_arbitrary_bytes",
    "ZRep.Props.C41_false_spanned_accepted"
   ],
   "note": "false of the code: non-shuffles are accepted (C41_false_nonshuffle_accepted); all outputs but one can be chosen freely, since the challenges do not depend on the outputs (C41_false_all_but_one_arbitrary); outputs fixed in advance need only span the inputs (C41_false_spanned_accepted), which the partial theorem shows to be necessary"
  },
  {
   "property": "C42",
   "status": "proved",
   "theorems": [
    "ZRep.Props.C42_simple_shuffle_complete",
    "ZRep.Props.C42_simple_shuffle_sound",
    "ZRep.Props.C42_false_statement_rarely_answered"
   ],
   "note": ""
  },
  {
   "property": "C43",
   "status": "proved",
   "theorems": [
    "ZRep.Props.C43_biffle_satisfies_claim",
    "ZRep.Props.C43_claim_implies_shuffle"
   ],
   "note": ""
  },
  {
   "property": "C44",
   "status": "proved",
   "theorems": [
    "ZRep.Props.C44_announcement_keeps_binding",
    "ZRep.Props.C44_round_end_keeps_binding"
   ],
   "note": ""
  },
  {
   "property": "C45",
   "status": "proved",
   "theorems": [
    "ZRep.Props.C45_servers_form_chain"
   ],
   "note": ""
  },
  {
   "property": "C46",
   "status": "partial",
   "theorems": [
    "ZRep.Props.C46_sequential_contributions_partial",
    "ZRep.Props.C46_false_concurrent_registration"
   ],
   "note": "proved for servers started one after the other; false for concurrent registrations (C46_false_concurrent_registration: h loses a contribution and one server knows its discrete logarithm)"
  },
  {
   "property": "C47",
   "status": "proved",
   "theorems": [
    "ZRep.Props.C47_server_index",
    "ZRep.Props.C47_first_of_equal_addresses"
   ],
   "note": ""
  },
  {
   "property": "C48",
   "status": "proved",
   "theorems": [
    "ZRep.Props.C48_registration_in_force",
    "ZRep.Props.C48_one_key_per_address"
   ],
   "note": ""
  },
  {
   "property": "C49",
   "status": "proved",
   "theorems": [
    "ZRep.Props.C49_assign_bridges"
   ],
   "note": ""
  },
  {
   "property": "C50",
   "status": "proved",
   "theorems": [
    "ZRep.Props.C50_assigned_at_most_posted",
    "ZRep.Props.C50_no_double_assignment"
   ],
   "note": ""
  },
  {
   "property": "C51",
   "status": "partial",
   "theorems": [
    "ZRep.Props.C51_entry_stays_partial",
    "ZRep.Props.C51_false_takeover"
   ],
   "note": "false of the code: re-posting an address replaces the provider and frees the bridge (C51_false_takeover); the partial theorem holds while nobody posts the address again"
  },
  {
   "property": "C52",
   "status": "partial",
   "theorems": [
    "ZRep.Props.C52_entries_were_posted",
    "ZRep.Props.C52_assigned_were_posted",
    "ZRep.Props.C52_false_stranger_posts"
   ],
   "note": "every entry was posted under a key that signed it (proved); that posters are participants of the round is false (C52_false_stranger_posts)"
  },
  {
   "property": "C53",
   "status": "proved",
   "theorems": [
    "ZRep.Props.C53_delivered_once",
    "ZRep.Props.C53_answers_are_handled"
   ],
   "note": ""
  },
  {
   "property": "C54",
   "status": "partial",
   "theorems": [
    "ZRep.Props.C54_no_early_delivery_partial",
    "ZRep.Props.C54_false_repeated_answers"
   ],
   "note": "holds when no server answers twice; false otherwise: repeated answers of one server count as those of others (C54_false_repeated_answers)"
  },
  {
   "property": "C55",
   "status": "partial",
   "theorems": [
    "ZRep.Props.C55_signs_only_verified_partial",
    "ZRep.Props.C55_false_more_than_proven"
   ],
   "note": "signs only after the proof verifies (proved); the number of assignments signed is not compared with the proven indicator (C55_false_more_than_proven)"
  },
  {
   "property": "C56",
   "status": "proved",
   "theorems": [
    "ZRep.Props.C56_tally_exact"
   ],
   "note": ""
  },
  {
   "property": "C57",
   "status": "partial",
   "theorems": [
    "ZRep.Props.C57_bounded_by_votes_partial",
    "ZRep.Props.C57_false_replay",
    "ZRep.Props.C57_false_any_points_for_anyone"
   ],
   "note": "false of the code: votes can be replayed (C57_false_replay) and any participant can give anyone any number of points (C57_false_any_points_for_anyone); partial: bound by the number of accepted votes when each carries at most one point"
  },
  {
   "property": "C58",
   "status": "proved",
   "theorems": [
    "ZRep.Props.C58_client_votes_one"
   ],
   "note": ""
  },
  {
   "property": "C59",
   "status": "proved",
   "theorems": [
    "ZRep.Props.C59_outsiders_cannot_vote"
   ],
   "note": "for pseudonyms that decode; a pseudonym that does not decode terminates the coordinator, see C66"
  },
  {
   "property": "C60",
   "status": "proved",
   "theorems": [
    "ZRep.Props.C60_participant_finds_itself",
    "ZRep.Props.C60_same_table"
   ],
   "note": ""
  },
  {
   "property": "C61",
   "status": "proved",
   "theorems": [
    "ZRep.Props.C61_announced_table",
    "ZRep.Props.C61_returned_table",
    "ZRep.Props.C61_round_keeps_commitments",
    "ZRep.Props.C61_round_end_restores_keys"
   ],
   "note": ""
  },
  {
   "property": "C62",
   "status": "proved",
   "theorems": [
    "ZRep.Props.C62_counter_opens_entry"
   ],
   "note": ""
  },
  {
   "property": "C63",
   "status": "proved",
   "theorems": [
    "ZRep.Props.C63_new_client_waits",
    "ZRep.Props.C63_new_client_in_next_table"
   ],
   "note": ""
  },
  {
   "property": "C64",
   "status": "partial",
   "theorems": [
    "ZRep.Props.C64_takes_part_partial",
    "ZRep.Props.C64_in_every_later_round_partial",
    "ZRep.Props.C64_false_waiting_clients_are_dropped",
    "ZRep.Props.C64_false_client_started_between_rounds"
   ],
   "note": "false of the code: a client started between two rounds is dropped (C64_false_*); the partial theorems hold for clients started in the posting or voting phase"
  },
  {
   "property": "C65",
   "status": "partial",
   "theorems": [
    "ZRep.Props.C65_counter_and_commitment_partial",
    "ZRep.Props.C65_false_late_vote_misses_the_table",
    "ZRep.Props.C65_false_counter_without_commitment"
   ],
   "note": "false of the code: a vote that arrives while the table is on its way back changes the counter only (C65_false_*); the partial theorem holds when votes arrive before voting is ended"
  },
  {
   "property": "C66",
   "status": "partial",
   "theorems": [
    "ZRep.Props.C66_false_malformed",
    "ZRep.Props.C66_false_empty_pseudonym",
    "ZRep.Props.C66_false_stranger_request",
    "ZRep.Props.C66_false_early_client",
    "ZRep.Props.C66_false_misdirected",
    "ZRep.Props.C66_post_partial",
    "ZRep.Props.C66_vote_partial",
    "ZRep.Props.C66_request_partial",
    "ZRep.Props.C66_unauthenticated_ignored_partial"
   ],
   "note": "false of the code: C66_false_* (malformed and misdirected messages, empty pseudonyms, strangers' requests, early clients); C66_*_partial give the exact conditions for posts, votes and requests"
  },
  {
   "property": "C67",
   "status": "partial",
   "theorems": [
    "ZRep.Props.C67_false_no_proof",
    "ZRep.Props.C67_false_proof_not_about_rows",
    "ZRep.Props.C67_false_round_end",
    "ZRep.Props.C67_false_last_server",
    "ZRep.Props.C67_bad_proof_caught_partial",
    "ZRep.Props.C67_unknown_key_caught_partial"
   ],
   "note": "false of the code: the proof is optional and is not about the rows sent (C67_false_*); C67_*_partial: a present proof must verify, and unknown keys stop a server at round end"
  },
  {
   "property": "C68",
   "status": "proved",
   "theorems": [
    "ZRep.Props.C68_refuses_above_reputation",
    "ZRep.Props.C68_overflow_panics",
    "ZRep.Props.C68_proves_nonnegative_difference",
    "ZRep.Props.C68_panics_only_unconfigured"
   ],
   "note": ""
  },
  {
   "property": "C69",
   "status": "proved",
   "theorems": [
    "ZRep.Props.C69_status_after_step",
    "ZRep.Props.C69_phases_in_order",
    "ZRep.Props.C69_phases_wait_for_the_chain",
    "ZRep.Props.C69_runs_are_histories"
   ],
   "note": ""
  },
  {
   "property": "C70",
   "status": "partial",
   "theorems": [
    "ZRep.Props.C70_false_one_message_links_all_rounds",
    "ZRep.Props.C70_false_wire_links_keys_to_pseudonyms",
    "ZRep.Props.C70_shuffled_tables_unlinkable_partial",
    "ZRep.Props.C70_pseudonyms_of_many_rounds_unlinkable_partial"
   ],
   "note": "false as stated (C70_false_*: one signed message or the messages between servers link everything); partial: the published tables alone are unlinkable, reduced to decisional Diffie-Hellman"
  },
  {
   "property": "C71",
   "status": "proved",
   "theorems": [
    "ZRep.Props.C71_reputation_is_what_was_earned"
   ],
   "note": ""
  },
  {
   "property": "C72",
   "status": "proved",
   "theorems": [
    "ZRep.Props.C72_same_parameters"
   ],
   "note": ""
  },
  {
   "property": "C73",
   "status": "proved",
   "theorems": [
    "ZRep.Props.C73_request_is_served"
   ],
   "note": ""
  },
  {
   "property": "C74",
   "status": "proved",
   "theorems": [
    "ZRep.Props.C74_post_is_accepted"
   ],
   "note": ""
  },
  {
   "property": "C75",
   "status": "proved",
   "theorems": [
    "ZRep.Props.C75_vote_is_counted"
   ],
   "note": ""
  },
  {
   "property": "C76",
   "status": "proved",
   "theorems": [
    "ZRep.Props.C76_honest_coordinator_is_accepted"
   ],
   "note": ""
  },
  {
   "property": "C77",
   "status": "proved",
   "theorems": [
    "ZRep.Props.C77_every_message_has_a_recipient",
    "ZRep.Props.C77_unserved_messages_are_ignored"
   ],
   "note": ""
  },
  {
   "property": "C78",
   "status": "proved",
   "theorems": [
    "ZRep.Props.C78_main_loop_never_stops",
    "ZRep.Props.C78_rounds_never_stop",
    "ZRep.Props.C78_clients_never_stop"
   ],
   "note": ""
  },
  {
   "property": "C79",
   "status": "proved",
   "theorems": [
    "ZRep.Props.C79_deliveries_end",
    "ZRep.Props.C79_no_deadlock",
    "ZRep.Props.C79_nothing_under_way",
    "ZRep.Props.C79_rounds_progress"
   ],
   "note": ""
  },
  {
   "property": "C80",
   "status": "proved",
   "theorems": [
    "ZRep.Props.C80_assigned_only_if_proven",
    "ZRep.Props.C80_unproven_requests_leave_no_trace",
    "ZRep.Props.C80_checked_request_splits_commitment"
   ],
   "note": ""
  },
  {
   "property": "C81",
   "status": "proved",
   "theorems": [
    "ZRep.Props.C81_holds_only_signed_assignments",
    "ZRep.Props.C81_votes_carry_held_assignments"
   ],
   "note": ""
  },
  {
   "property": "C82",
   "status": "partial",
   "theorems": [
    "ZRep.Props.C82_false_test_gates_nothing",
    "ZRep.Props.C82_false_any_parameters_used",
    "ZRep.Props.C82_answers_are_tested_partial",
    "ZRep.Props.C82_bad_parameters_caught_partial"
   ],
   "note": "false of the code: the test is not awaited and gates nothing (C82_false_*); partial: a wrong answer stops the client, and parameters outside the group pass at most 2^400 of 2^480 challenges"
  },
  {
   "property": "C83",
   "status": "proved",
   "theorems": [
    "ZRep.Props.C83_numbers_are_read",
    "ZRep.Props.C83_commands_do_what_they_say",
    "ZRep.Props.C83_lines_are_read"
   ],
   "note": ""
  },
  {
   "property": "C84",
   "status": "partial",
   "theorems": [
    "ZRep.Props.C84_false_not_a_number_is_zero",
    "ZRep.Props.C84_false_incomplete_command_panics",
    "ZRep.Props.C84_false_long_lines_are_split",
    "ZRep.Props.C84_other_words_do_nothing_partial"
   ],
   "note": "false of the code: C84_false_*; partial: lines that begin with another word"
  },
  {
   "property": "C85",
   "status": "partial",
   "theorems": [
    "ZRep.Props.C85_named_roles_start_partial",
    "ZRep.Props.C85_false_numbers_start_nothing",
    "ZRep.Props.C85_false_other_words_start_coordinator",
    "ZRep.Props.C85_nothing_else_starts"
   ],
   "note": "false of the code: numbers start nothing, other words start a coordinator; partial: names"
  },
  {
   "property": "C86",
   "status": "partial",
   "theorems": [
    "ZRep.Props.C86_assignments_are_complete_partial",
    "ZRep.Props.C86_false_repost_mixes_signatures"
   ],
   "note": "false of the code when a bridge is posted again while signatures about it are collected (witness); proved for all orderly runs without such posts"
  },
  {
   "property": "C87",
   "status": "partial",
   "theorems": [
    "ZRep.Props.C87_assignment_can_be_voted_partial"
   ],
   "note": "proved for all orderly runs in which no address is posted while signatures about it are collected; signature responses that happen to be 0 excluded (C11)"
  },
  {
   "property": "C88",
   "status": "partial",
   "theorems": [
    "ZRep.Props.C88_false_other_value_accepted",
    "ZRep.Props.C88_false_unequal_accepted",
    "ZRep.Props.C88_fixed_commitments_partial"
   ],
   "note": "false as stated: the challenge covers neither commitment, so one of them can be chosen after the challenge (C88_false_*); proved when both commitments are fixed and two different challenges are answered from the same first message"
  },
  {
   "property": "C89",
   "status": "partial",
   "theorems": [
    "ZRep.Props.C89_granted_bridges_arrive_partial"
   ],
   "note": "proved for all orderly runs in which no address is posted while signatures about it are collected (C86_false_repost_mixes_signatures shows that otherwise a requester can get nothing), requests in the name of the pseudonym come from the one client, and the response of the coordinator's signature is not 0 (C11)"
  },
  {
   "property": "C90",
   "status": "proved",
   "theorems": [
    "ZRep.Props.C90_numbers_bounded",
    "ZRep.Props.C90_no_overflow"
   ],
   "note": ""
  },
  {
   "property": "C91",
   "status": "partial",
   "theorems": [
    "ZRep.Props.C91_sections_serialize_partial",
    "ZRep.Props.C91_properties_transfer_partial",
    "ZRep.Props.C91_atomic_is_fine",
    "ZRep.Props.C91_false_post_lost"
   ],
   "note": "false as stated: a bridge accepted while the main loop sends the results of a round is lost (C91_false_post_lost); proved when the two goroutines never have messages for the same process at the same time and neither comes in between the other's last message and its last write (C91_sections_serialize_partial), and every atomic run is such a run (C91_atomic_is_fine). The part of a section before its first message is one step"
  },
  {
   "property": "C92",
   "status": "partial",
   "theorems": [
    "ZRep.Props.C92_crash_consistent_partial",
    "ZRep.Props.C92_properties_survive_partial",
    "ZRep.Props.C92_same_parameters_partial",
    "ZRep.Props.C92_false_panic_after_message"
   ],
   "note": "proved for all runs in which no panic comes after a message of the same handler (KEvent.Clean); false without this condition (C92_false_panic_after_message): a client registers before there is a generator, and the first server has been told when the coordinator panics. A process that is launched again is a new process with a new address"
  },
  {
   "property": "C93",
   "status": "partial",
   "theorems": [
    "ZRep.Props.C93_false_client_leaves",
    "ZRep.Props.C93_unknown_clients_may_leave_partial"
   ],
   "note": "false as stated: the coordinator sends to every client it has ever registered, and a failed connection stops it, so no round can end after a registered client has left (C93_false_client_leaves); as long as nobody registers with the key of the client that has left. Proved: clients none of whose messages the coordinator has handled may leave, at no cost to anybody (C93_unknown_clients_may_leave_partial)"
  },
  {
   "property": "C94",
   "status": "proved",
   "theorems": [
    "ZRep.Props.C94_address_text",
    "ZRep.Props.C94_reached",
    "ZRep.Props.C94_dial_running",
    "ZRep.Props.C94_coordinator",
    "ZRep.Props.C94_needs_port"
   ],
   "note": ""
  },
  {
   "property": "C95",
   "status": "partial",
   "theorems": [
    "ZRep.Props.C95_server_address_partial",
    "ZRep.Props.C95_no_port_left",
    "ZRep.Props.C95_ten_servers",
    "ZRep.Props.C95_false_eleventh_server"
   ],
   "note": "false as stated: when the eleven ports from local_port on are used, a further server goes on without an address and its registration makes the coordinator panic (C95_false_eleventh_server, C95_no_port_left); proved while one of the ports is left (C95_server_address_partial), so for up to ten servers (C95_ten_servers)"
  },
  {
   "property": "C96",
   "status": "partial",
   "theorems": [
    "ZRep.Props.C96_false_last_server_restarted",
    "ZRep.Props.C96_false_witness",
    "ZRep.Props.C96_false_any_server_restarted",
    "ZRep.Props.C96_false_first_server_witness"
   ],
   "note": "false as stated: a server that is started again has the address it had before, so when it was the last of the chain it is told to pass everything on to itself, and no announcement ever reaches the coordinator again (C96_false_last_server_restarted for every run, C96_false_witness); whichever server it is, ROUND_END then goes in a circle among the servers and never reaches the coordinator, so at most one more round begins and it never ends (C96_false_any_server_restarted for every run, C96_false_first_server_witness)"
  },
  {
   "property": "C97",
   "status": "partial",
   "theorems": [
    "ZRep.Props.C97_moments_are_the_handler",
    "ZRep.Props.C97_post_partial",
    "ZRep.Props.C97_request_partial",
    "ZRep.Props.C97_vote_partial",
    "ZRep.Props.C97_false_get_panics",
    "ZRep.Props.C97_torn_post_rejected"
   ],
   "note": "false as stated: a `get` that compares before and subtracts after the end of a round ends the program (C97_false_get_panics); proved for post and vote unless the client gets a new pseudonym meanwhile, for get unless pseudonym, reputation, commitment, randomness or parameters change meanwhile; a post torn by a new pseudonym is not taken by the coordinator (C97_torn_post_rejected)"
  },
  {
   "property": "C98",
   "status": "partial",
   "theorems": [
    "ZRep.Props.C98_one_wait_partial",
    "ZRep.Props.C98_terminal_partial",
    "ZRep.Props.C98_false_lines_lost",
    "ZRep.Props.C98_false_end_of_input",
    "ZRep.Props.C98_false_long_line"
   ],
   "note": "false as stated: the lines after the first of one read are lost (C98_false_lines_lost), at the end of the input every wait ends at once (C98_false_end_of_input), and a line of 4096 bytes or more ends several waits (C98_false_long_line); proved for lines that end with the end of a read, as at a terminal"
  },
  {
   "property": "C99",
   "status": "partial",
   "theorems": [
    "ZRep.Props.C99_printed_number_partial",
    "ZRep.Props.C99_nothing_but_the_number_partial",
    "ZRep.Props.C99_false_last_digit",
    "ZRep.Props.C99_two_byte_end_of_line"
   ],
   "note": "false as stated: the last byte printed is cut off whatever it is, so without an end of line the last digit is lost (C99_false_last_digit); proved for outputs that end with an end of line"
  },
  {
   "property": "C100",
   "status": "partial",
   "theorems": [
    "ZRep.Props.C100_false_always_added",
    "ZRep.Props.C100_false_commitments_void",
    "ZRep.Props.C100_stale_opening_refused_partial",
    "ZRep.Props.C100_chain_fixed_partial",
    "ZRep.Props.C100_false_whole_run"
   ],
   "note": "false of the code: a server is taken in at any time (C100_false_always_added), and its secret makes every commitment kept for a client useless (C100_false_commitments_void, C100_false_whole_run); proved: without a late start the chain of servers never changes"
  },
  {
   "property": "C101",
   "status": "partial",
   "theorems": [
    "ZRep.Props.C101_commitments_hide_partial",
    "ZRep.Props.C101_integer_commitments_hide_partial",
    "ZRep.Props.C101_false_coordinator_picks_randomness",
    "ZRep.Props.C101_false_randomness_is_announced",
    "ZRep.Props.C101_false_coordinator_finds_reputation",
    "ZRep.Props.C101_false_coordinator_finds_pseudonym",
    "ZRep.Props.C101_false_request_leaks_randomness",
    "ZRep.Props.C101_answer_hides_partial"
   ],
   "note": "false of the code: the coordinator draws each client's randomness itself and knows every change of it (C101_false_coordinator_picks_randomness, C101_false_randomness_is_announced), so it reads reputations and pseudonyms off the table (C101_false_coordinator_finds_*); a request leaks the high part of the randomness; proved: Pedersen commitments hide perfectly, integer commitments up to one part in 2^81, the answer about the margin up to c|d-d'| of Q masks"
  },
  {
   "property": "C102",
   "status": "partial",
   "theorems": [
    "ZRep.Props.C102_false_cut_message",
    "ZRep.Props.C102_descriptors_partial",
    "ZRep.Props.C102_whole_messages_in_order_partial",
    "ZRep.Props.C102_all_handled_partial",
    "ZRep.Props.C102_comes_to_rest_partial",
    "ZRep.Props.C102_false_kept_connection",
    "ZRep.Props.C102_false_aborted_connection",
    "ZRep.Props.C102_false_descriptors_used_up"
   ],
   "note": "false of the code: one kept connection holds up all later messages (C102_false_kept_connection), one aborted connection stops the process (C102_false_aborted_connection), connections are never closed by the receiver so descriptors can run out (C102_false_descriptors_used_up); proved: what is handled is whole and in order in every interleaving, everything is handled when peers close their connections and there are descriptors enough, and the listener always comes to rest; a peer that is stopped while it writes an event stops the receiver (C102_false_cut_message)"
  },
  {
   "property": "C103",
   "status": "partial",
   "theorems": [
    "ZRep.Props.C103_no_clash_partial",
    "ZRep.Props.C103_atomic_runs",
    "ZRep.Props.C103_forget",
    "ZRep.Props.C103_handler_writes",
    "ZRep.Props.C103_main_writes",
    "ZRep.Props.C103_false_registration_while_posting",
    "ZRep.Props.C103_false_vote_while_ending",
    "ZRep.Props.C103_false_registration_toy",
    "ZRep.Props.C103_false_vote_toy",
    "ZRep.Props.C103_one_write_per_bridge"
   ],
   "note": "false of the code: a registration handled while the operator ends the posting phase, and a vote handled while the operator ends the round, can stop the coordinator (C103_false_registration_while_posting, C103_false_vote_while_ending; both are reached in a concrete run). Proved: in every run in which the pairs of sections and messages listed in Props/MapRaceSpec.lean are not worked on at the same time nothing is stopped (C103_no_clash_partial), every atomic run is such a run, and every changed map is among the listed writes"
  },
  {
   "property": "C104",
   "status": "partial",
   "theorems": [
    "ZRep.Props.C104_false_server_stops",
    "ZRep.Props.C104_unknown_servers_may_stop_partial"
   ],
   "note": "false as stated: every table goes through every registered server, and the table of a new round is sent to each of them, so that no table comes back after any one registered server has stopped while nothing was under way, as long as no new server is launched (C104_false_server_stops). Proved: servers whose registration has not been handled may stop, at no cost to anybody (C104_unknown_servers_may_stop_partial)"
  },
  {
   "property": "C105",
   "status": "partial",
   "theorems": [
    "ZRep.Props.C105_registrations_jam",
    "ZRep.Props.C105_false_deadlock",
    "ZRep.Props.C105_room_enough_partial"
   ],
   "note": "false as stated: with one server, clients that register are enough for the coordinator and the server to wait for each other for ever, whatever the room for waiting connections (C105_registrations_jam for every such state, C105_false_deadlock from the beginning). Proved: for every state in which no bridge, request, signature or vote is under way some room is enough, as long as no commands are given and no clients are started (C105_room_enough_partial)"
  },
  {
   "property": "C106",
   "status": "proved",
   "theorems": [
    "ZRep.Props.C106_event_arrives",
    "ZRep.Props.C106_any_order",
    "ZRep.Props.C106_cut_event_refused",
    "ZRep.Props.C106_events_are_sent",
    "ZRep.Props.C106_through_connections"
   ],
   "note": "the numbers and bytes of gob's type descriptions are arbitrary; the receiver is one that accepts them"
  },
  {
   "property": "C107",
   "status": "proved",
   "theorems": [
    "ZRep.Props.C107_byte_lists",
    "ZRep.Props.C107_int_lists",
    "ZRep.Props.C107_big_numbers",
    "ZRep.Props.C107_big_number_lists",
    "ZRep.Props.C107_nonneg_proofs",
    "ZRep.Props.C107_equality_proofs",
    "ZRep.Props.C107_point_lists",
    "ZRep.Props.C107_secret_lists",
    "ZRep.Props.C107_bit_lists",
    "ZRep.Props.C107_assignments",
    "ZRep.Props.C107_only_group_members"
   ],
   "note": "within the sizes gob can handle, which the quantifier names"
  },
  {
   "property": "C108",
   "status": "proved",
   "theorems": [
    "ZRep.Props.C108_coordinator",
    "ZRep.Props.C108_server",
    "ZRep.Props.C108_client",
    "ZRep.Props.C108_runs_with_bytes_are_runs",
    "ZRep.Props.C108_what_holds_for_messages_holds_for_bytes",
    "ZRep.Props.C108_runs_are_runs_with_bytes"
   ],
   "note": "one theorem per receiver, for every message and state; a refinement in both directions for whole runs and the transfer of invariants. The bytes of the proofs of shuffles are included (C109)."
  },
  {
   "property": "C109",
   "status": "proved",
   "theorems": [
    "ZRep.Props.C109_bytes_are_judged_as_the_proof",
    "ZRep.Props.C109_accepted_bytes_are_a_proof",
    "ZRep.Props.C109_bytes_determine_the_proof",
    "ZRep.Props.C109_honest_proof_accepted",
    "ZRep.Props.C109_cut_off_refused",
    "ZRep.Props.C109_no_panic"
   ],
   "note": "an equation between the verdict on the bytes and the verdict on the proof, and what follows from it; HashProve and HashVerify themselves (dedis/crypto) are modelled by what they write, read and stir into the pool"
  },
  {
   "property": "C110",
   "status": "proved",
   "theorems": [
    "ZRep.Props.C110_formats_meet_the_assumptions",
    "ZRep.Props.C110_what_holds_in_the_model_holds_for_the_formats"
   ],
   "note": "existence of an environment of the model that agrees with the modelled formats on all bytes shorter than 2^64; the model's environment has one encoder for all processes, although gob may number types differently in each: the bytes gob writes are only passed on and decoded, never signed or compared"
  },
  {
   "property": "C111",
   "status": "proved",
   "theorems": [
    "ZRep.Props.C111_runs_over_connections_are_runs",
    "ZRep.Props.C111_what_holds_for_messages_holds_over_connections",
    "ZRep.Props.C111_runs_are_runs_over_connections",
    "ZRep.Props.C111_transport_ends",
    "ZRep.Props.C111_messages_arrive"
   ],
   "note": "refinement in both directions between the system over connections and the system with whole messages, with C108 also down to typed messages; a measure for the transport. A handler is one step, its messages are sent afterwards in any order that keeps the order per pair of processes"
  },
  {
   "property": "C112",
   "status": "proved",
   "theorems": [
    "ZRep.Props.C112_signing_gives_every_accepted_signature_once",
    "ZRep.Props.C112_questions_about_a_signature",
    "ZRep.Props.C112_same_tag_same_signatures"
   ],
   "note": "signing is a bijection between the draws and the accepted signatures with the signer's tag; what the tag itself shows is C36 (who knows a secret can compare) and otherwise rests on the Diffie-Hellman problem"
  },
  {
   "property": "C113",
   "status": "proved",
   "theorems": [
    "ZRep.Props.C113_ring_signatures_arrive",
    "ZRep.Props.C113_cut_signature_refused",
    "ZRep.Props.C113_signature_verifies_at_the_reader"
   ],
   "note": "a tag that was not sent is refused in the model; in the code it is nil and its use panics"
  },
  {
   "property": "C114",
   "status": "partial",
   "theorems": [
    "ZRep.Props.C114_false_unreduced_tags",
    "ZRep.Props.C114_false_negative_tag",
    "ZRep.Props.C114_tag_up_to_sign_partial"
   ],
   "note": "false of the code: the tag is compared as a number but used modulo P, so that every multiple of P added gives another accepted tag (C114_false_unreduced_tags), and its sign is free when the signer's challenge is even (C114_false_negative_tag); proved: tags that are answered for two hash values are h^x up to the sign, modulo P, for the secret x of a member"
  },
  {
   "property": "C115",
   "status": "partial",
   "theorems": [
    "ZRep.Props.C115_two_answers_partial",
    "ZRep.Props.C115_one_challenge_partial",
    "ZRep.Props.C115_honest_proofs_are_the_accepted_ones",
    "ZRep.Props.C115_honest_biffle_accepted",
    "ZRep.Props.C115_false_any_hash"
   ],
   "note": "false of the code when the proof is written with HashProve, as in BiffleTest: the challenge is drawn from the prover's messages, which do not contain the inputs and outputs, so that a cheat chooses the outputs afterwards (C115_false_any_hash); proved: honest proofs are accepted, they are exactly the accepted ones for the challenge and each arises for exactly one choice of the random numbers, so they show nothing; and outputs that are no shuffle can be proved for at most one challenge per commitment"
  },
  {
   "property": "C116",
   "status": "partial",
   "theorems": [
    "ZRep.Props.C116_simulated_partial",
    "ZRep.Props.C116_answers_hide_partial",
    "ZRep.Props.C116_false_argument_fits_one_number",
    "ZRep.Props.C116_false_request_fits_one_reputation"
   ],
   "note": "false of the code, for a server with unlimited computing power: the answers R and S2 are masks plus challenge times secret, but the masks are not larger than the secrets, so only the right number fits what is seen (C116_false_*); proved: the argument of non-negativity can be simulated, and its four answers about the number and its decomposition hide them up to e(|x-x'|+...) parts in 2^81 N"
  },
  {
   "property": "C117",
   "status": "partial",
   "theorems": [
    "ZRep.Props.C117_false_repeated_request",
    "ZRep.Props.C117_bounded_by_requests_partial"
   ],
   "note": "false of the code: an accepted request is accepted again whenever it is sent again, by anybody, until no bridge is left (C117_false_repeated_request); proved: never more than the sum of the indicators of the requests accepted in its name"
  },
  {
   "property": "C118",
   "status": "partial",
   "theorems": [
    "ZRep.Props.C118_false_overheard",
    "ZRep.Props.C118_latest_sender_partial"
   ],
   "note": "false of the code: whoever overhears a request and sends it again before all servers have answered is sent the bridges instead (C118_false_overheard); proved: they go to the sender of the latest request accepted in the name of the pseudonym in this round"
  },
  {
   "property": "C119",
   "status": "partial",
   "theorems": [
    "ZRep.Props.C119_false_until_announcement",
    "ZRep.Props.C119_other_round_partial",
    "ZRep.Props.C119_false_late_post"
   ],
   "note": "false of the code: the base changes only with the next announcement, so a post that arrives after its round ended is accepted and offered in the next round under a pseudonym that belongs to nobody (C119_false_*); proved: once the base has changed, such messages change nothing, unless the response is zero or the hash coincides at two points"
  },
  {
   "property": "C120",
   "status": "partial",
   "theorems": [
    "ZRep.Props.C120_known_pseudonyms_partial",
    "ZRep.Props.C120_false_shifted",
    "ZRep.Props.C120_false_stops",
    "ZRep.Props.C120_false_run"
   ],
   "note": "false of the code: for a vote that names a pseudonym of no table (a stranger's or a late post's) the list of keys has a hole; if it is left out when written, clients after it add the difference of somebody else (C120_false_shifted, C120_false_run), if it cannot be written the coordinator stops (C120_false_stops); proved: with votes for known pseudonyms only, every client adds exactly its own"
  },
  {
   "property": "C121",
   "status": "proved",
   "theorems": [
    "ZRep.Props.C121_unhurried_is_orderly",
    "ZRep.Props.C121_messages_name_participants",
    "ZRep.Props.C121_bridges_of_participants",
    "ZRep.Props.C121_reputation_is_what_was_earned"
   ],
   "note": ""
  },
  {
   "property": "C122",
   "status": "proved",
   "theorems": [
    "ZRep.Props.C122_deliveries_always_end"
   ],
   "note": ""
  },
  {
   "property": "C123",
   "status": "proved",
   "theorems": [
    "ZRep.Props.C123_nobody_is_stopped",
    "ZRep.Props.C123_waits_end"
   ],
   "note": ""
  },
  {
   "property": "C124",
   "status": "proved",
   "theorems": [
    "ZRep.Props.C124_posts_keep_apart",
    "ZRep.Props.C124_requests_come_from_their_client",
    "ZRep.Props.C124_requested_bridges_arrive",
    "ZRep.Props.C124_bridges_can_be_voted",
    "ZRep.Props.C124_requests_come_from_their_client_whatever_is_posted"
   ],
   "note": ""
  },
  {
   "property": "C125",
   "status": "proved",
   "theorems": [
    "ZRep.Props.C125_who_posts_nothing",
    "ZRep.Props.C125_credited_to_a_poster",
    "ZRep.Props.C125_reputation_is_for_own_bridges",
    "ZRep.Props.C125_list_is_what_was_posted",
    "ZRep.Props.C125_assignments_name_the_poster"
   ],
   "note": ""
  },
  {
   "property": "C126",
   "status": "proved",
   "theorems": [
    "ZRep.Props.C126_post_is_listed",
    "ZRep.Props.C126_request_is_answered",
    "ZRep.Props.C126_vote_is_for_the_poster"
   ],
   "note": ""
  },
  {
   "property": "C127",
   "status": "partial",
   "theorems": [
    "ZRep.Props.C127_bridge_has_one_holder",
    "ZRep.Props.C127_one_vote_for_each_bridge_partial",
    "ZRep.Props.C127_reputation_within_posts_partial",
    "ZRep.Props.C127_reputation_changes_within_posts_partial",
    "ZRep.Props.C127_false_without_limit_on_votes",
    "ZRep.Props.C127_false_three_points_for_one_bridge",
    "ZRep.Props.C127_false_two_holders",
    "ZRep.Props.C127_false_two_points_for_one_address"
   ],
   "note": "false of the code: the holder of an assignment can vote with it any number of times in its round and each vote counts (C127_false_without_limit_on_votes, C127_false_three_points_for_one_bridge), and an address posted again in its round gets a second holder (C127_false_two_holders, C127_false_two_points_for_one_address); proved: with one vote per client, address and round, unhurried clients and no address posted twice in a round, a bridge has one holder and moves the poster's reputation by at most one point"
  },
  {
   "property": "C128",
   "status": "partial",
   "theorems": [
    "ZRep.Props.C128_holders_have_asked",
    "ZRep.Props.C128_votes_are_of_others_partial",
    "ZRep.Props.C128_holders_have_asked_whatever_is_posted",
    "ZRep.Props.C128_votes_are_of_others_whatever_is_posted_partial",
    "ZRep.Props.C128_false_own_votes",
    "ZRep.Props.C128_false_praises_itself"
   ],
   "note": "false of the code: a client can be assigned its own bridge and vote for itself any number of times (C128_false_own_votes, C128_false_praises_itself); proved: holders of assignments have asked in this round, and if no client asks in a round in which it posts, every vote comes from a client that did not post the bridge"
  },
  {
   "property": "C129",
   "status": "proved",
   "theorems": [
    "ZRep.Props.C129_reputation_is_conserved",
    "ZRep.Props.C129_whatever_is_posted"
   ],
   "note": ""
  },
  {
   "property": "C130",
   "status": "partial",
   "theorems": [
    "ZRep.Props.C130_same_client_same_points_partial",
    "ZRep.Props.C130_false_new_key_new_points",
    "ZRep.Props.C130_false_starts_again"
   ],
   "note": "false of the code: whoever has lost points can start a client with a new key, and it has 5 (C130_false_new_key_new_points, C130_false_starts_again); proved: nothing done within a round changes the key or the reputation of a client that stays"
  },
  {
   "property": "C131",
   "status": "proved",
   "theorems": [
    "ZRep.Props.C131_table_between_rounds",
    "ZRep.Props.C131_announced_crowd",
    "ZRep.Props.C131_size_of_crowd",
    "ZRep.Props.C131_fakes_begin_with_nothing"
   ],
   "note": ""
  },
  {
   "property": "C132",
   "status": "proved",
   "theorems": [
    "ZRep.Props.C132_tag_used_iff_recorded",
    "ZRep.Props.C132_messages_are_numbered",
    "ZRep.Props.C132_difference_is_the_tally",
    "ZRep.Props.C132_key_under_index",
    "ZRep.Props.C132_votes_checked_with_these_keys"
   ],
   "note": ""
  },
  {
   "property": "C133",
   "status": "partial",
   "theorems": [
    "ZRep.Props.C133_false_round_never_ends",
    "ZRep.Props.C133_false_votes_lost",
    "ZRep.Props.C133_registration_leaves_round_partial"
   ],
   "note": "false of the code: the late server does not know the keys of the round, panics on the table of its end, and the round never ends (C133_false_round_never_ends); votes with assignments signed before it came no longer count (C133_false_votes_lost); proved: the registration itself changes nothing of the round at the coordinator"
  },
  {
   "property": "C134",
   "status": "partial",
   "theorems": [
    "ZRep.Props.C134_participant_can_vote_partial",
    "ZRep.Props.C134_second_vote_recognised_partial",
    "ZRep.Props.C134_other_vote_not_taken_for_second_partial",
    "ZRep.Props.C134_false_vote_not_signed",
    "ZRep.Props.C134_false_texts_differ",
    "ZRep.Props.C134_false_number_cut",
    "ZRep.Props.C134_false_coordinator_stops",
    "ZRep.Props.C134_place_in_the_list_partial",
    "ZRep.Props.C134_vote_in_the_system_partial",
    "ZRep.Props.C134_repetition_in_the_system_partial"
   ],
   "note": "false of the code: the signature covers only the last 32 bits of the message's number, so a vote can be turned round or moved to another message (C134_false_vote_not_signed, C134_false_texts_differ, C134_false_number_cut), and the coordinator is stopped by such a vote (C134_false_coordinator_stops); proved: every participant's vote is sent and verifies, its second vote about a message is recognised, another's is not mistaken for one, for clients that have heard an announcement and for the participants of every round of every orderly run"
  },
  {
   "property": "C135",
   "status": "proved",
   "theorems": [
    "ZRep.Props.C135_messages_accounted_for",
    "ZRep.Props.C135_from_the_start",
    "ZRep.Props.C135_one_action",
    "ZRep.Props.C135_price_of_rounds",
    "ZRep.Props.C135_quiet_soon"
   ],
   "note": ""
  },
  {
   "property": "C136",
   "status": "proved",
   "theorems": [
    "ZRep.Props.C136_no_more_than_entitled",
    "ZRep.Props.C136_no_reputation_no_bridges",
    "ZRep.Props.C136_request_was_typed"
   ],
   "note": ""
  },
  {
   "property": "C137",
   "status": "proved",
   "theorems": [
    "ZRep.Props.C137_any_selection_possible"
   ],
   "note": ""
  },
  {
   "property": "C138",
   "status": "proved",
   "theorems": [
    "ZRep.Props.C138_order_of_arrival",
    "ZRep.Props.C138_same_outcome",
    "ZRep.Props.C138_in_the_system"
   ],
   "note": ""
  },
  {
   "property": "C139",
   "status": "proved",
   "theorems": [
    "ZRep.Props.C139_same_histories",
    "ZRep.Props.C139_either_order",
    "ZRep.Props.C139_alike_for_ever",
    "ZRep.Props.C139_exchange"
   ],
   "note": ""
  }
 ]
}