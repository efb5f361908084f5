{
 "claims": [
  {
   "property": "C01",
   "status": "proved",
   "theorems": [
    "EoPsi.C01_complete"
   ],
   "note": ""
  },
  {
   "property": "C02",
   "status": "proved",
   "theorems": [
    "EoPsi.C02_sound",
    "EoPsi.C02_exact"
   ],
   "note": ""
  },
  {
   "property": "C03",
   "status": "proved",
   "theorems": [
    "EoPsi.ZZpPolynomials.C03_zero_never_reported",
    "EoPsi.C03_getIntersection"
   ],
   "note": ""
  },
  {
   "property": "C04",
   "status": "proved",
   "theorems": [
    "EoPsi.ZZpPolynomials.C04_exact_and_no_repetition",
    "EoPsi.C04_getIntersection"
   ],
   "note": ""
  },
  {
   "property": "C05",
   "status": "proved",
   "theorems": [
    "EoPsi.C05_masks_cancel",
    "EoPsi.C05_run",
    "EoPsi.C05_session"
   ],
   "note": ""
  },
  {
   "property": "C06",
   "status": "proved",
   "theorems": [
    "EoPsi.C06_points_needed"
   ],
   "note": ""
  },
  {
   "property": "C07",
   "status": "proved",
   "theorems": [
    "EoPsi.C07_padding_round_trip"
   ],
   "note": ""
  },
  {
   "property": "C08",
   "status": "proved",
   "theorems": [
    "EoPsi.C08_session_empty",
    "EoPsi.ZZpPolynomials.C08_wrapped_pad_accepts_nothing"
   ],
   "note": ""
  },
  {
   "property": "C09",
   "status": "proved",
   "theorems": [
    "EoPsi.C09_output_first",
    "EoPsi.C09_polynomial_first",
    "EoPsi.C09_order"
   ],
   "note": ""
  },
  {
   "property": "C10",
   "status": "proved",
   "theorems": [
    "EoPsi.C10_completion",
    "EoPsi.C10_next_half_faults",
    "EoPsi.C10_session_again"
   ],
   "note": ""
  },
  {
   "property": "C11",
   "status": "proved",
   "theorems": [
    "EoPsi.C11_output_after_helping",
    "EoPsi.C11_helper_lent",
    "EoPsi.C11_session_then_ask",
    "EoPsi.C11_lasts"
   ],
   "note": ""
  },
  {
   "property": "C12",
   "status": "proved",
   "theorems": [
    "EoPsi.C12_setRawData_once_per_table"
   ],
   "note": ""
  },
  {
   "property": "C13",
   "status": "proved",
   "theorems": [
    "EoPsi.C13_round_trip",
    "EoPsi.C13_injective",
    "EoPsi.C13_nul_truncates"
   ],
   "note": ""
  },
  {
   "property": "C14",
   "status": "proved",
   "theorems": [
    "EoPsi.C14_exact",
    "EoPsi.C14_reduced",
    "EoPsi.C14_too_short",
    "EoPsi.C14_iff",
    "EoPsi.C14_request_too_short"
   ],
   "note": ""
  },
  {
   "property": "C15",
   "status": "proved",
   "theorems": [
    "EoPsi.C15_key",
    "EoPsi.C15_terminates_iff"
   ],
   "note": ""
  },
  {
   "property": "C16",
   "status": "proved",
   "theorems": [
    "EoPsi.C16_depth_three",
    "EoPsi.C16_three_needed"
   ],
   "note": ""
  },
  {
   "property": "C17",
   "status": "proved",
   "theorems": [
    "EoPsi.C17_self_rejected",
    "EoPsi.C17_null_rejected"
   ],
   "note": ""
  },
  {
   "property": "C18",
   "status": "proved",
   "theorems": [
    "EoPsi.C18_server_rejects_unknown"
   ],
   "note": ""
  },
  {
   "property": "C19",
   "status": "proved",
   "theorems": [
    "EoPsi.C19_client_crashes_on_unknown"
   ],
   "note": ""
  },
  {
   "property": "C20",
   "status": "proved",
   "theorems": [
    "EoPsi.C20_everything_else_rejected",
    "EoPsi.C20_renamed_sender_rejected",
    "EoPsi.C20_provided_not_refused",
    "EoPsi.C20_data_accepted"
   ],
   "note": ""
  },
  {
   "property": "C21",
   "status": "proved",
   "theorems": [
    "EoPsi.C21_foreign_id_rejected"
   ],
   "note": ""
  },
  {
   "property": "C22",
   "status": "proved",
   "theorems": [
    "EoPsi.C22_last_wins",
    "EoPsi.C22_exactly_those",
    "EoPsi.C22_idempotent",
    "EoPsi.C22_monotone",
    "EoPsi.C22_only_authenticate"
   ],
   "note": ""
  },
  {
   "property": "C23",
   "status": "proved",
   "theorems": [
    "EoPsi.C23_one_call",
    "EoPsi.C23_others_do_not_matter",
    "EoPsi.C23_last_writer_wins"
   ],
   "note": ""
  },
  {
   "property": "C24",
   "status": "proved",
   "theorems": [
    "EoPsi.C24_reference_not_copy"
   ],
   "note": ""
  },
  {
   "property": "C25",
   "status": "proved",
   "theorems": [
    "EoPsi.C25_request_before_outsourcing"
   ],
   "note": ""
  },
  {
   "property": "C26",
   "status": "proved",
   "theorems": [
    "EoPsi.C26_sender_irrelevant",
    "EoPsi.C26_spoofed_data_accepted"
   ],
   "note": ""
  },
  {
   "property": "C27",
   "status": "proved",
   "theorems": [
    "EoPsi.C27_no_server_exits",
    "EoPsi.C27_no_second_choice",
    "EoPsi.C27_smallest_server_answers"
   ],
   "note": ""
  },
  {
   "property": "C28",
   "status": "proved",
   "theorems": [
    "EoPsi.HashBuckets.C28_add_never_overfills",
    "EoPsi.HashBuckets.C28_no_buckets"
   ],
   "note": ""
  },
  {
   "property": "C29",
   "status": "proved",
   "theorems": [
    "EoPsi.HashBuckets.C29_bypass"
   ],
   "note": ""
  },
  {
   "property": "C30",
   "status": "proved",
   "theorems": [
    "EoPsi.HashBuckets.C30_conceal"
   ],
   "note": ""
  },
  {
   "property": "C31",
   "status": "proved",
   "theorems": [
    "EoPsi.HashBuckets.C31_bucket_contents"
   ],
   "note": ""
  },
  {
   "property": "C32",
   "status": "proved",
   "theorems": [
    "EoPsi.HashBuckets.C32_size_always_zero"
   ],
   "note": ""
  },
  {
   "property": "C33",
   "status": "proved",
   "theorems": [
    "EoPsi.C33_longer_client_exits",
    "EoPsi.C33_other_buckets_absent"
   ],
   "note": ""
  },
  {
   "property": "C34",
   "status": "proved",
   "theorems": [
    "EoPsi.StrInt.C34_set_little_endian",
    "EoPsi.StrInt.C34_constructor"
   ],
   "note": ""
  },
  {
   "property": "C35",
   "status": "proved",
   "theorems": [
    "EoPsi.StrInt.C35_arithmetic"
   ],
   "note": ""
  },
  {
   "property": "C36",
   "status": "proved",
   "theorems": [
    "EoPsi.StrInt.C36_lsb_byteSize_toBytes",
    "EoPsi.StrInt.C36_toBytes_small"
   ],
   "note": ""
  },
  {
   "property": "C37",
   "status": "proved",
   "theorems": [
    "EoPsi.ZZPRF.C37_history_independent"
   ],
   "note": ""
  },
  {
   "property": "C38",
   "status": "proved",
   "theorems": [
    "EoPsi.ZZPRF.C38_range",
    "EoPsi.ZZpPRF.C38_field"
   ],
   "note": ""
  },
  {
   "property": "C39",
   "status": "proved",
   "theorems": [
    "EoPsi.C39_hash_input_injective",
    "EoPsi.C39_value_depends_on_hash_input"
   ],
   "note": ""
  },
  {
   "property": "C40",
   "status": "proved",
   "theorems": [
    "EoPsi.C40_values",
    "EoPsi.C40_indices_distinct_iff"
   ],
   "note": ""
  },
  {
   "property": "C41",
   "status": "proved",
   "theorems": [
    "EoPsi.ZZpPRF.C41_automatic_indices"
   ],
   "note": ""
  },
  {
   "property": "C42",
   "status": "proved",
   "theorems": [
    "EoPsi.ZZPRF.C42_no_bit_size"
   ],
   "note": ""
  },
  {
   "property": "C43",
   "status": "proved",
   "theorems": [
    "EoPsi.C43_secret_modulo_p",
    "EoPsi.C43_two_clients"
   ],
   "note": ""
  },
  {
   "property": "C44",
   "status": "proved",
   "theorems": [
    "EoPsi.C44_points",
    "EoPsi.C44_agreement",
    "EoPsi.C44_never_changed"
   ],
   "note": ""
  },
  {
   "property": "C45",
   "status": "proved",
   "theorems": [
    "EoPsi.C45_outsourced_is_padded",
    "EoPsi.C45_ideal_pad_hides",
    "EoPsi.C45_pad_used_twice"
   ],
   "note": ""
  },
  {
   "property": "C46",
   "status": "proved",
   "theorems": [
    "EoPsi.ZZpPolynomials.C46_interfaces_agree"
   ],
   "note": ""
  },
  {
   "property": "C47",
   "status": "proved",
   "theorems": [
    "EoPsi.ZZpPolynomials.C47_missing_factor_storage",
    "EoPsi.ZZpPolynomials.C47_too_few_factors"
   ],
   "note": ""
  },
  {
   "property": "C48",
   "status": "proved",
   "theorems": [
    "EoPsi.ZZpPolynomials.C48_factoring_irrelevant",
    "EoPsi.ZZpPolynomials.C48_same_outcome"
   ],
   "note": ""
  },
  {
   "property": "C49",
   "status": "proved",
   "theorems": [
    "EoPsi.C49_running_time",
    "EoPsi.C49_running_time_to",
    "EoPsi.C49_named",
    "EoPsi.C49_total_time",
    "EoPsi.C49_total_time_to",
    "EoPsi.C49_beyond",
    "EoPsi.C49_parts"
   ],
   "note": ""
  },
  {
   "property": "C50",
   "status": "proved",
   "theorems": [
    "EoPsi.C50_stops",
    "EoPsi.C50_frozen",
    "EoPsi.C50_unfreeze"
   ],
   "note": ""
  },
  {
   "property": "C51",
   "status": "proved",
   "theorems": [
    "EoPsi.C51_min_max_average",
    "EoPsi.C51_too_few"
   ],
   "note": ""
  },
  {
   "property": "C52",
   "status": "proved",
   "theorems": [
    "EoPsi.C52_with_pauses_zero"
   ],
   "note": ""
  },
  {
   "property": "C53",
   "status": "proved",
   "theorems": [
    "EoPsi.C53_benchmark",
    "EoPsi.C53_out_of_bounds_iff",
    "EoPsi.C53_unknown_name",
    "EoPsi.C53_others_defined"
   ],
   "note": ""
  },
  {
   "property": "C54",
   "status": "proved",
   "theorems": [
    "EoPsi.Murmur.C54_out_of_bounds",
    "EoPsi.Murmur.C54_every_table_add",
    "EoPsi.Murmur.C54_digest_depends_on_foreign_memory",
    "EoPsi.Murmur.C54_any_digest_from_foreign_memory"
   ],
   "note": ""
  },
  {
   "property": "C55",
   "status": "proved",
   "theorems": [
    "EoPsi.Murmur.C55_tail_ignored",
    "EoPsi.Murmur.C55_tail_byte_matters",
    "EoPsi.Murmur.C55_short_elements_collide"
   ],
   "note": ""
  },
  {
   "property": "C56",
   "status": "proved",
   "theorems": [
    "EoPsi.C56_table_hash",
    "EoPsi.C56_explicit_length",
    "EoPsi.C56_computes",
    "EoPsi.C56_placement"
   ],
   "note": ""
  },
  {
   "property": "C57",
   "status": "proved",
   "theorems": [
    "EoPsi.C57_reference_intersection",
    "EoPsi.C57_any_sorting"
   ],
   "note": ""
  },
  {
   "property": "C58",
   "status": "proved",
   "theorems": [
    "EoPsi.C58_simulator_sets",
    "EoPsi.C58_false_member"
   ],
   "note": ""
  },
  {
   "property": "C59",
   "status": "proved",
   "theorems": [
    "EoPsi.C59_check",
    "EoPsi.C59_check_any"
   ],
   "note": ""
  },
  {
   "property": "C60",
   "status": "proved",
   "theorems": [
    "EoPsi.C60_random_data",
    "EoPsi.C60_returns_iff",
    "EoPsi.C60_never_returns",
    "EoPsi.C60_none"
   ],
   "note": ""
  },
  {
   "property": "C61",
   "status": "proved",
   "theorems": [
    "EoPsi.C61_bit_and_byte_counts"
   ],
   "note": ""
  },
  {
   "property": "C62",
   "status": "proved",
   "theorems": [
    "EoPsi.C62_zeroPadTo"
   ],
   "note": ""
  },
  {
   "property": "C63",
   "status": "proved",
   "theorems": [
    "EoPsi.C63_threads_irrelevant"
   ],
   "note": ""
  },
  {
   "property": "C64",
   "status": "proved",
   "theorems": [
    "EoPsi.C64_partition_bounds",
    "EoPsi.C64_covers_iff",
    "EoPsi.C64_parts_disjoint",
    "EoPsi.C64_threads_agree"
   ],
   "note": ""
  },
  {
   "property": "C65",
   "status": "proved",
   "theorems": [
    "EoPsi.C65_search",
    "EoPsi.C65_smallest_table",
    "EoPsi.C65_not_full"
   ],
   "note": ""
  },
  {
   "property": "C66",
   "status": "proved",
   "theorems": [
    "EoPsi.C66_round_trip",
    "EoPsi.C66_small"
   ],
   "note": ""
  },
  {
   "property": "C67",
   "status": "proved",
   "theorems": [
    "EoPsi.C67_zero_points"
   ],
   "note": ""
  },
  {
   "property": "C68",
   "status": "proved",
   "theorems": [
    "EoPsi.C68_protocol_setData",
    "EoPsi.C68_protocol_null",
    "EoPsi.C68_length",
    "EoPsi.C68_constructor"
   ],
   "note": ""
  },
  {
   "property": "C69",
   "status": "proved",
   "theorems": [
    "EoPsi.C69_exception",
    "EoPsi.C69_out_of_bound",
    "EoPsi.C69_setters"
   ],
   "note": ""
  },
  {
   "property": "C70",
   "status": "proved",
   "theorems": [
    "EoPsi.HashBuckets.C70_printStats"
   ],
   "note": ""
  },
  {
   "property": "C71",
   "status": "proved",
   "theorems": [
    "EoPsi.C71_lowered_degree_leaks",
    "EoPsi.C71_after_setDegree"
   ],
   "note": ""
  },
  {
   "property": "C72",
   "status": "proved",
   "theorems": [
    "EoPsi.C72_variance"
   ],
   "note": ""
  },
  {
   "property": "C73",
   "status": "proved",
   "theorems": [
    "EoPsi.C73_verdict"
   ],
   "note": ""
  },
  {
   "property": "C74",
   "status": "proved",
   "theorems": [
    "EoPsi.C74_polyfact"
   ],
   "note": ""
  },
  {
   "property": "C75",
   "status": "proved",
   "theorems": [
    "EoPsi.C75_simulator",
    "EoPsi.C75_full_width"
   ],
   "note": ""
  },
  {
   "property": "C76",
   "status": "proved",
   "theorems": [
    "EoPsi.C76_overflow",
    "EoPsi.C76_as_shipped",
    "EoPsi.C76_no_verdict",
    "EoPsi.C76_options"
   ],
   "note": ""
  },
  {
   "property": "C77",
   "status": "proved",
   "theorems": [
    "EoPsi.Murmur.C77_published_digest",
    "EoPsi.Murmur.C77_hash"
   ],
   "note": ""
  },
  {
   "property": "C78",
   "status": "proved",
   "theorems": [
    "EoPsi.Sha.C78_sizes",
    "EoPsi.Sha.C78_name",
    "EoPsi.Sha.C78_one_buffer",
    "EoPsi.Sha.C78_array_bounds"
   ],
   "note": ""
  },
  {
   "property": "C79",
   "status": "proved",
   "theorems": [
    "EoPsi.C79_bob_learns_only_common",
    "EoPsi.C79_one_half",
    "EoPsi.C79_run"
   ],
   "note": ""
  },
  {
   "property": "C80",
   "status": "proved",
   "theorems": [
    "EoPsi.C80_root_probability",
    "EoPsi.C80_false_positive_bound",
    "EoPsi.C80_run"
   ],
   "note": ""
  },
  {
   "property": "C81",
   "status": "proved",
   "theorems": [
    "EoPsi.C81_fillers"
   ],
   "note": ""
  },
  {
   "property": "C82",
   "status": "proved",
   "theorems": [
    "EoPsi.C82_collision_bound",
    "EoPsi.C82_overall_bound",
    "EoPsi.C82_run"
   ],
   "note": ""
  },
  {
   "property": "C83",
   "status": "proved",
   "theorems": [
    "EoPsi.C83_message_objects",
    "EoPsi.C83_new"
   ],
   "note": ""
  },
  {
   "property": "C84",
   "status": "proved",
   "theorems": [
    "EoPsi.C84_party_objects",
    "EoPsi.C84_constructed",
    "EoPsi.C84_results_by_messages_only"
   ],
   "note": ""
  },
  {
   "property": "C85",
   "status": "proved",
   "theorems": [
    "EoPsi.ZZpPolynomials.C85_history",
    "EoPsi.ZZpPolynomials.C85_history_unique",
    "EoPsi.ZZpPolynomials.C85_result_kept",
    "EoPsi.ZZpPolynomials.C85_without_interpolation",
    "EoPsi.ZZpPolynomials.C85_stale",
    "EoPsi.ZZpPolynomials.C85_makeMonic",
    "EoPsi.ZZpPolynomials.C85_makeMonic_total"
   ],
   "note": ""
  },
  {
   "property": "C86",
   "status": "proved",
   "theorems": [
    "EoPsi.C86_crowd",
    "EoPsi.C86_alice_goes_on",
    "EoPsi.C86_bob_goes_on",
    "EoPsi.C86_complete",
    "EoPsi.C86_possible"
   ],
   "note": ""
  },
  {
   "property": "C87",
   "status": "proved",
   "theorems": [
    "EoPsi.C87_sessions",
    "EoPsi.C87_results",
    "EoPsi.C87_complete",
    "EoPsi.C87_go_on",
    "EoPsi.C87_possible"
   ],
   "note": ""
  },
  {
   "property": "C88",
   "status": "proved",
   "theorems": [
    "EoPsi.C88_step",
    "EoPsi.C88_keys",
    "EoPsi.C88_seeds",
    "EoPsi.C88_enough"
   ],
   "note": ""
  },
  {
   "property": "C89",
   "status": "proved",
   "theorems": [
    "EoPsi.C89_any_array",
    "EoPsi.C89_blinded",
    "EoPsi.C89_bytes"
   ],
   "note": ""
  },
  {
   "property": "C90",
   "status": "proved",
   "theorems": [
    "EoPsi.C90_careful",
    "EoPsi.C90_any_order",
    "EoPsi.C90_double_free",
    "EoPsi.C90_session"
   ],
   "note": ""
  },
  {
   "property": "C91",
   "status": "proved",
   "theorems": [
    "EoPsi.C91_gone_for_ever",
    "EoPsi.C91_cloud_reads_released",
    "EoPsi.C91_stored_message_destroyed",
    "EoPsi.C91_destroyed_sender",
    "EoPsi.C91_destroyed_receiver",
    "EoPsi.C91_helper_looks_at_destroyed",
    "EoPsi.C91_session"
   ],
   "note": ""
  },
  {
   "property": "C92",
   "status": "proved",
   "theorems": [
    "EoPsi.PolyFact.C92_run",
    "EoPsi.PolyFact.C92_dots",
    "EoPsi.PolyFact.C92_small"
   ],
   "note": ""
  },
  {
   "property": "C93",
   "status": "proved",
   "theorems": [
    "EoPsi.BpTest.C93_run",
    "EoPsi.BpTest.C93_reading",
    "EoPsi.BpTest.C93_apart",
    "EoPsi.BpTest.C93_default"
   ],
   "note": ""
  },
  {
   "property": "C94",
   "status": "proved",
   "theorems": [
    "EoPsi.PrfHeap.C94_separate",
    "EoPsi.PrfHeap.C94_copies_fatal",
    "EoPsi.PrfHeap.C94_shared",
    "EoPsi.PrfHeap.C94_outgrown",
    "EoPsi.PrfHeap.C94_released"
   ],
   "note": ""
  },
  {
   "property": "C95",
   "status": "proved",
   "theorems": [
    "EoPsi.C95_step",
    "EoPsi.C95_history",
    "EoPsi.C95_objects",
    "EoPsi.C95_bytes",
    "EoPsi.C95_sizes",
    "EoPsi.C95_polynomial",
    "EoPsi.C95_helper",
    "EoPsi.C95_session"
   ],
   "note": ""
  },
  {
   "property": "C96",
   "status": "proved",
   "theorems": [
    "EoPsi.C96_step",
    "EoPsi.C96_history"
   ],
   "note": ""
  },
  {
   "property": "C97",
   "status": "proved",
   "theorems": [
    "EoPsi.C97_only_send",
    "EoPsi.C97_send",
    "EoPsi.C97_kept",
    "EoPsi.C97_results_kept",
    "EoPsi.C97_kinds",
    "EoPsi.C97_session"
   ],
   "note": ""
  },
  {
   "property": "C98",
   "status": "proved",
   "theorems": [
    "EoPsi.C98_secret_known",
    "EoPsi.C98_cloud_and_bob",
    "EoPsi.C98_cloud_and_helper",
    "EoPsi.C98_same_secret",
    "EoPsi.C98_forgotten_length"
   ],
   "note": ""
  },
  {
   "property": "C99",
   "status": "proved",
   "theorems": [
    "EoPsi.C99_numbers",
    "EoPsi.C99_pads",
    "EoPsi.C99_frequency",
    "EoPsi.C99_leak",
    "EoPsi.C99_bounded",
    "EoPsi.C99_distance",
    "EoPsi.C99_outsourced"
   ],
   "note": ""
  },
  {
   "property": "C100",
   "status": "proved",
   "theorems": [
    "EoPsi.C100_session_aborts",
    "EoPsi.C100_too_many",
    "EoPsi.C100_two_points",
    "EoPsi.C100_probability",
    "EoPsi.C100_session_probability"
   ],
   "note": ""
  },
  {
   "property": "C101",
   "status": "proved",
   "theorems": [
    "EoPsi.C101_session"
   ],
   "note": ""
  },
  {
   "property": "C102",
   "status": "proved",
   "theorems": [
    "EoPsi.C102_pads",
    "EoPsi.C102_distance",
    "EoPsi.C102_cloud",
    "EoPsi.C102_indistinguishable"
   ],
   "note": ""
  },
  {
   "property": "C103",
   "status": "proved",
   "theorems": [
    "EoPsi.C103_key",
    "EoPsi.C103_bob",
    "EoPsi.C103_session"
   ],
   "note": ""
  },
  {
   "property": "C104",
   "status": "proved",
   "theorems": [
    "EoPsi.Cli.C104_simulator",
    "EoPsi.Cli.C104_hbtest",
    "EoPsi.Cli.C104_bptest",
    "EoPsi.Cli.C104_polyfact",
    "EoPsi.Cli.C104_zzrndgen",
    "EoPsi.Cli.C104_cherpars",
    "EoPsi.Cli.C104_refused",
    "EoPsi.Cli.C104_words",
    "EoPsi.Cli.C104_unknown",
    "EoPsi.Cli.C104_help",
    "EoPsi.Cli.C104_polyfact_o",
    "EoPsi.Cli.C104_simulator_line",
    "EoPsi.Cli.C104_simulator_guarantees",
    "EoPsi.Cli.C104_no_verdict",
    "EoPsi.Cli.C104_zzrndgen_small",
    "EoPsi.Cli.C104_hbtest_zero",
    "EoPsi.Cli.C104_numbers"
   ],
   "note": ""
  },
  {
   "property": "C105",
   "status": "proved",
   "theorems": [
    "EoPsi.Owners.C105_safe",
    "EoPsi.Owners.C105_leak",
    "EoPsi.Owners.C105_copies_fatal",
    "EoPsi.Owners.C105_polynomials"
   ],
   "note": ""
  },
  {
   "property": "C106",
   "status": "proved",
   "theorems": [
    "EoPsi.C106_statistics",
    "EoPsi.Cli.C106_sha",
    "EoPsi.Cli.C106_otherwise",
    "EoPsi.Cli.C106_generated"
   ],
   "note": ""
  },
  {
   "property": "C107",
   "status": "proved",
   "theorems": [
    "EoPsi.C107_sessions",
    "EoPsi.C107_results",
    "EoPsi.C107_complete",
    "EoPsi.C107_go_on",
    "EoPsi.C107_possible"
   ],
   "note": ""
  },
  {
   "property": "C108",
   "status": "proved",
   "theorems": [
    "EoPsi.C108_cloud_alone",
    "EoPsi.C108_recognised"
   ],
   "note": ""
  },
  {
   "property": "C109",
   "status": "proved",
   "theorems": [
    "EoPsi.C109_adaptive",
    "EoPsi.C109_same_table"
   ],
   "note": ""
  },
  {
   "property": "C110",
   "status": "proved",
   "theorems": [
    "EoPsi.C110_unique",
    "EoPsi.C110_too_short",
    "EoPsi.C110_values",
    "EoPsi.C110_congruent",
    "EoPsi.C110_ideal",
    "EoPsi.C110_one_in_p"
   ],
   "note": ""
  },
  {
   "property": "C111",
   "status": "proved",
   "theorems": [
    "EoPsi.Example.C111_result",
    "EoPsi.Example.C111_too_large",
    "EoPsi.Example.C111_forever",
    "EoPsi.Example.C111_garbage",
    "EoPsi.Example.C111_too_small",
    "EoPsi.Example.C111_nothing",
    "EoPsi.Example.C111_more_rounds"
   ],
   "note": ""
  },
  {
   "property": "C112",
   "status": "proved",
   "theorems": [
    "EoPsi.Convert.C112_vector",
    "EoPsi.Convert.C112_array",
    "EoPsi.Convert.C112_null",
    "EoPsi.Convert.C112_print",
    "EoPsi.Convert.C112_print_injective"
   ],
   "note": ""
  },
  {
   "property": "C113",
   "status": "proved",
   "theorems": [
    "EoPsi.Cli.C113_memory",
    "EoPsi.Stream.C113_hbtest",
    "EoPsi.Stream.C113_bptest",
    "EoPsi.Stream.C113_header",
    "EoPsi.Stream.C113_excessive",
    "EoPsi.Cli.C113_report",
    "EoPsi.Cli.C113_truncated",
    "EoPsi.Cli.C113_excessive_hbtest",
    "EoPsi.Cli.C113_no_file"
   ],
   "note": ""
  },
  {
   "property": "C114",
   "status": "proved",
   "theorems": [
    "EoPsi.Cli.C114_run",
    "EoPsi.Cli.C114_never_regular",
    "EoPsi.Cli.C114_otherwise"
   ],
   "note": ""
  },
  {
   "property": "C115",
   "status": "proved",
   "theorems": [
    "EoPsi.Cli.C115_run",
    "EoPsi.Cli.C115_deviation",
    "EoPsi.Cli.C115_otherwise"
   ],
   "note": ""
  },
  {
   "property": "C116",
   "status": "proved",
   "theorems": [
    "EoPsi.Cli.C116_generates",
    "EoPsi.Cli.C116_hbtest",
    "EoPsi.Cli.C116_bptest",
    "EoPsi.Cli.C116_otherwise"
   ],
   "note": ""
  },
  {
   "property": "C117",
   "status": "proved",
   "theorems": [
    "EoPsi.C117_kept",
    "EoPsi.C117_one_changed"
   ],
   "note": ""
  },
  {
   "property": "C118",
   "status": "proved",
   "theorems": [
    "EoPsi.C118_same_result",
    "EoPsi.C118_loading",
    "EoPsi.C118_storing",
    "EoPsi.C118_query_any",
    "EoPsi.C118_query",
    "EoPsi.C118_session"
   ],
   "note": ""
  },
  {
   "property": "C119",
   "status": "proved",
   "theorems": [
    "EoPsi.C119_times",
    "EoPsi.C119_statistics",
    "EoPsi.C119_second_search"
   ],
   "note": ""
  },
  {
   "property": "C120",
   "status": "proved",
   "theorems": [
    "EoPsi.C120_same_result",
    "EoPsi.C120_transcript",
    "EoPsi.C120_times"
   ],
   "note": ""
  },
  {
   "property": "C121",
   "status": "proved",
   "theorems": [
    "EoPsi.C121_ignored",
    "EoPsi.C121_stored",
    "EoPsi.C121_cloud",
    "EoPsi.C121_query",
    "EoPsi.C121_session"
   ],
   "note": ""
  },
  {
   "property": "C122",
   "status": "proved",
   "theorems": [
    "EoPsi.C122_complete",
    "EoPsi.C122_tellable",
    "EoPsi.C122_negative",
    "EoPsi.C122_shift"
   ],
   "note": ""
  },
  {
   "property": "C123",
   "status": "proved",
   "theorems": [
    "EoPsi.C123_query",
    "EoPsi.C123_session"
   ],
   "note": ""
  },
  {
   "property": "C124",
   "status": "proved",
   "theorems": [
    "EoPsi.C124_hash_functions_must_agree"
   ],
   "note": ""
  },
  {
   "property": "C125",
   "status": "proved",
   "theorems": [
    "EoPsi.C125_bits_must_agree"
   ],
   "note": ""
  },
  {
   "property": "C126",
   "status": "proved",
   "theorems": [
    "EoPsi.C126_bucket_sizes_may_differ"
   ],
   "note": ""
  },
  {
   "property": "C127",
   "status": "proved",
   "theorems": [
    "EoPsi.C127_small_buckets_private",
    "EoPsi.C127_session",
    "EoPsi.C127_large_buckets_leak"
   ],
   "note": ""
  },
  {
   "property": "C128",
   "status": "proved",
   "theorems": [
    "EoPsi.C128_remainder",
    "EoPsi.C128_one_point_too_few"
   ],
   "note": ""
  },
  {
   "property": "C129",
   "status": "proved",
   "theorems": [
    "EoPsi.C129_call",
    "EoPsi.C129_history",
    "EoPsi.C129_runs"
   ],
   "note": ""
  },
  {
   "property": "C130",
   "status": "proved",
   "theorems": [
    "EoPsi.C130_call",
    "EoPsi.C130_history"
   ],
   "note": ""
  },
  {
   "property": "C131",
   "status": "proved",
   "theorems": [
    "EoPsi.C131_server",
    "EoPsi.C131_client",
    "EoPsi.C131_request_without_bytes",
    "EoPsi.C131_result_without_vectors"
   ],
   "note": ""
  },
  {
   "property": "C132",
   "status": "proved",
   "theorems": [
    "EoPsi.C132_history",
    "EoPsi.C132_observed",
    "EoPsi.C132_shipped"
   ],
   "note": ""
  },
  {
   "property": "C133",
   "status": "proved",
   "theorems": [
    "EoPsi.C133_values",
    "EoPsi.C133_whole_set",
    "EoPsi.C133_array"
   ],
   "note": ""
  },
  {
   "property": "C134",
   "status": "proved",
   "theorems": [
    "EoPsi.C134_values",
    "EoPsi.C134_everything_common"
   ],
   "note": ""
  },
  {
   "property": "C135",
   "status": "proved",
   "theorems": [
    "EoPsi.C135_values",
    "EoPsi.C135_chosen",
    "EoPsi.C135_session"
   ],
   "note": ""
  },
  {
   "property": "C136",
   "status": "proved",
   "theorems": [
    "EoPsi.C136_output",
    "EoPsi.C136_polynomial"
   ],
   "note": ""
  },
  {
   "property": "C137",
   "status": "proved",
   "theorems": [
    "EoPsi.C137_unique",
    "EoPsi.C137_text",
    "EoPsi.Sha.C137_digest"
   ],
   "note": ""
  },
  {
   "property": "C138",
   "status": "proved",
   "theorems": [
    "EoPsi.C138_request",
    "EoPsi.C138_half",
    "EoPsi.C138_history",
    "EoPsi.C138_thrown"
   ],
   "note": ""
  },
  {
   "property": "C139",
   "status": "proved",
   "theorems": [
    "EoPsi.C139_impostor"
   ],
   "note": ""
  },
  {
   "property": "C140",
   "status": "proved",
   "theorems": [
    "EoPsi.C140_batch",
    "EoPsi.C140_dialogue",
    "EoPsi.C140_dialogue_unique"
   ],
   "note": ""
  },
  {
   "property": "C141",
   "status": "proved",
   "theorems": [
    "EoPsi.C141_unique",
    "EoPsi.C141_stream",
    "EoPsi.C141_hashed",
    "EoPsi.C141_strint"
   ],
   "note": ""
  },
  {
   "property": "C142",
   "status": "proved",
   "theorems": [
    "EoPsi.C142_complaints",
    "EoPsi.C142_ends",
    "EoPsi.C142_clock",
    "EoPsi.C142_step_after_pause",
    "EoPsi.C142_silent"
   ],
   "note": ""
  },
  {
   "property": "C143",
   "status": "proved",
   "theorems": [
    "EoPsi.C143_history",
    "EoPsi.C143_ends"
   ],
   "note": ""
  }
 ]
}