{
 "claims": [
  {
   "property": "C01",
   "status": "proved",
   "theorems": [
    "Dvbcsa.Props.C01_decrypt_after_encrypt"
   ],
   "note": ""
  },
  {
   "property": "C02",
   "status": "proved",
   "theorems": [
    "Dvbcsa.Props.C02_encrypt_after_decrypt"
   ],
   "note": ""
  },
  {
   "property": "C03",
   "status": "proved",
   "theorems": [
    "Dvbcsa.Props.C03_encrypt_is_dvbcsa",
    "Dvbcsa.Props.C03_decrypt_is_dvbcsa"
   ],
   "note": ""
  },
  {
   "property": "C04",
   "status": "proved",
   "theorems": [
    "Dvbcsa.Props.C04_short_encrypt",
    "Dvbcsa.Props.C04_short_decrypt",
    "Dvbcsa.Props.C04_short_in_batch",
    "Dvbcsa.Props.C04_maxlen_zero"
   ],
   "note": ""
  },
  {
   "property": "C05",
   "status": "proved",
   "theorems": [
    "Dvbcsa.Props.C05_key_set_footprint",
    "Dvbcsa.Props.C05_key_set_writes_all",
    "Dvbcsa.Props.C05_encrypt_footprint",
    "Dvbcsa.Props.C05_decrypt_footprint",
    "Dvbcsa.Props.C05_in_bounds"
   ],
   "note": ""
  },
  {
   "property": "C06",
   "status": "proved",
   "theorems": [
    "Dvbcsa.Props.C06_decrypt_is_dvbcsa",
    "Dvbcsa.Props.C06_batch_decrypt_eq_single"
   ],
   "note": ""
  },
  {
   "property": "C07",
   "status": "proved",
   "theorems": [
    "Dvbcsa.Props.C07_encrypt_is_dvbcsa",
    "Dvbcsa.Props.C07_batch_encrypt_eq_single"
   ],
   "note": ""
  },
  {
   "property": "C08",
   "status": "proved",
   "theorems": [
    "Dvbcsa.Props.C08_decrypt_after_encrypt",
    "Dvbcsa.Props.C08_encrypt_after_decrypt",
    "Dvbcsa.Props.C08_single_decrypt_after_batch_encrypt",
    "Dvbcsa.Props.C08_batch_decrypt_after_single_encrypt",
    "Dvbcsa.Props.C08_batch_encrypt_after_single_decrypt"
   ],
   "note": ""
  },
  {
   "property": "C09",
   "status": "proved",
   "theorems": [
    "Dvbcsa.Props.C09_decrypt_maxlen",
    "Dvbcsa.Props.C09_encrypt_maxlen",
    "Dvbcsa.Props.C09_maxlen_large"
   ],
   "note": ""
  },
  {
   "property": "C10",
   "status": "proved",
   "theorems": [
    "Dvbcsa.Props.C10_independent",
    "Dvbcsa.Props.C10_permute",
    "Dvbcsa.Props.C10_split"
   ],
   "note": ""
  },
  {
   "property": "C11",
   "status": "proved",
   "theorems": [
    "Dvbcsa.Props.C11_garbage",
    "Dvbcsa.Props.C11_key_set_garbage"
   ],
   "note": ""
  },
  {
   "property": "C12",
   "status": "proved",
   "theorems": [
    "Dvbcsa.Props.C12_all_builds_agree"
   ],
   "note": "All builds except AVX2 with the alternative S-box lookup, which is wrong (C33)."
  },
  {
   "property": "C13",
   "status": "proved",
   "theorems": [
    "Dvbcsa.Props.C13_key_set_endian",
    "Dvbcsa.Props.C13_packet_endian",
    "Dvbcsa.Props.C13_bs_key_set_endian",
    "Dvbcsa.Props.C13_batch_endian"
   ],
   "note": ""
  },
  {
   "property": "C14",
   "status": "proved",
   "theorems": [
    "Dvbcsa.Props.C14_decrypt_footprint",
    "Dvbcsa.Props.C14_encrypt_footprint",
    "Dvbcsa.Props.C14_key_set_footprint",
    "Dvbcsa.Props.C14_in_bounds"
   ],
   "note": ""
  },
  {
   "property": "C15",
   "status": "proved",
   "theorems": [
    "Dvbcsa.Props.C15_last_key_wins",
    "Dvbcsa.Props.C15_context_determined",
    "Dvbcsa.Props.C15_bs_last_key_wins",
    "Dvbcsa.Props.C15_bs_context_determined"
   ],
   "note": ""
  },
  {
   "property": "C16",
   "status": "proved",
   "theorems": [
    "Dvbcsa.Props.C16_every_row_determines_key",
    "Dvbcsa.Props.C16_bs_block_rows_determine_key",
    "Dvbcsa.Props.C16_bs_stream_words_determine_key"
   ],
   "note": ""
  },
  {
   "property": "C17",
   "status": "proved",
   "theorems": [
    "Dvbcsa.Props.C17_encrypt_injective",
    "Dvbcsa.Props.C17_decrypt_injective",
    "Dvbcsa.Props.C17_encrypt_surjective",
    "Dvbcsa.Props.C17_decrypt_surjective",
    "Dvbcsa.Props.C17_bs_encrypt_injective",
    "Dvbcsa.Props.C17_bs_decrypt_injective",
    "Dvbcsa.Props.C17_bs_encrypt_surjective",
    "Dvbcsa.Props.C17_bs_decrypt_surjective"
   ],
   "note": ""
  },
  {
   "property": "C18",
   "status": "proved",
   "theorems": [
    "Dvbcsa.Props.C18_residue_keystream",
    "Dvbcsa.Props.C18_residue_keystream_decrypt",
    "Dvbcsa.Props.C18_blocks_independent_of_residue",
    "Dvbcsa.Props.C18_first_block",
    "Dvbcsa.Props.C18_bs_first_block",
    "Dvbcsa.Props.C18_bs_residue_keystream",
    "Dvbcsa.Props.C18_bs_residue_keystream_decrypt"
   ],
   "note": ""
  },
  {
   "property": "C19",
   "status": "proved",
   "theorems": [
    "Dvbcsa.Props.C19_error_confined",
    "Dvbcsa.Props.C19_bs_error_confined"
   ],
   "note": ""
  },
  {
   "property": "C20",
   "status": "proved",
   "theorems": [
    "Dvbcsa.Props.C20_truncation",
    "Dvbcsa.Props.C20_bs_truncation",
    "Dvbcsa.Props.C20_bs_truncation_single",
    "Dvbcsa.Props.C20_truncated_decrypt",
    "Dvbcsa.Props.C20_bs_truncated_decrypt"
   ],
   "note": ""
  },
  {
   "property": "C21",
   "status": "proved",
   "theorems": [
    "Dvbcsa.Props.C21_illegal_aborts",
    "Dvbcsa.Props.C21_legal_accepted"
   ],
   "note": ""
  },
  {
   "property": "C22",
   "status": "proved",
   "theorems": [
    "Dvbcsa.Props.C22_rest_ignored",
    "Dvbcsa.Props.C22_empty_batch",
    "Dvbcsa.Props.C22_over_capacity",
    "Dvbcsa.Props.C22_missing_terminator",
    "Dvbcsa.Props.C22_full_batch"
   ],
   "note": ""
  },
  {
   "property": "C23",
   "status": "proved",
   "theorems": [
    "Dvbcsa.Props.C23_encrypt_over_long",
    "Dvbcsa.Props.C23_decrypt_over_long",
    "Dvbcsa.Props.C23_encrypt_corrupts",
    "Dvbcsa.Props.C23_decrypt_corrupts",
    "Dvbcsa.Props.C23_overflow",
    "Dvbcsa.Props.C23_encrypt_any",
    "Dvbcsa.Props.C23_decrypt_any",
    "Dvbcsa.Props.C23_any_total",
    "Dvbcsa.Props.C23_encrypt_empty_neighbour"
   ],
   "note": ""
  },
  {
   "property": "C24",
   "status": "proved",
   "theorems": [
    "Dvbcsa.Props.C24_encrypt_large",
    "Dvbcsa.Props.C24_decrypt_after_large",
    "Dvbcsa.Props.C24_restored_only_if",
    "Dvbcsa.Props.C24_not_restored",
    "Dvbcsa.Props.C24_round_trip",
    "Dvbcsa.Props.C24_restored_iff",
    "Dvbcsa.Props.C24_one_restored"
   ],
   "note": ""
  },
  {
   "property": "C25",
   "status": "proved",
   "theorems": [
    "Dvbcsa.Props.C25_history",
    "Dvbcsa.Props.C25_last_key"
   ],
   "note": ""
  },
  {
   "property": "C26",
   "status": "proved",
   "theorems": [
    "Dvbcsa.Props.C26_any_schedule",
    "Dvbcsa.Props.C26_as_if_alone",
    "Dvbcsa.Props.C26_can_finish",
    "Dvbcsa.Props.C26_fair_finishes",
    "Dvbcsa.Props.C26_no_data_race",
    "Dvbcsa.Props.C26_arrays_any_schedule",
    "Dvbcsa.Props.C26_arrays_as_if_alone",
    "Dvbcsa.Props.C26_arrays_can_finish",
    "Dvbcsa.Props.C26_arrays_fair_finishes",
    "Dvbcsa.Props.C26_arrays_no_data_race",
    "Dvbcsa.Props.C26_weak_same_execution",
    "Dvbcsa.Props.C26_weak_as_if_alone",
    "Dvbcsa.Props.C26_weak_join",
    "Dvbcsa.Props.C26_weak_finishes"
   ],
   "note": ""
  },
  {
   "property": "C27",
   "status": "proved",
   "theorems": [
    "Dvbcsa.Props.C27_reads_before_writes",
    "Dvbcsa.Props.C27_duplicates_processed_once"
   ],
   "note": ""
  },
  {
   "property": "C28",
   "status": "proved",
   "theorems": [
    "Dvbcsa.Props.C28_old_or_final",
    "Dvbcsa.Props.C28_single_decrypt_exposes",
    "Dvbcsa.Props.C28_single_encrypt_exposes"
   ],
   "note": ""
  },
  {
   "property": "C29",
   "status": "proved",
   "theorems": [
    "Dvbcsa.Props.C29_defined",
    "Dvbcsa.Props.C29_uint32_iff",
    "Dvbcsa.Props.C29_uint32_high_byte"
   ],
   "note": ""
  },
  {
   "property": "C30",
   "status": "proved",
   "theorems": [
    "Dvbcsa.Props.C30_pad_irrelevant",
    "Dvbcsa.Props.C30_over_read"
   ],
   "note": ""
  },
  {
   "property": "C31",
   "status": "proved",
   "theorems": [
    "Dvbcsa.Props.C31_encrypt_deterministic",
    "Dvbcsa.Props.C31_decrypt_deterministic",
    "Dvbcsa.Props.C10_independent",
    "Dvbcsa.Props.C31_batch_context_unchanged"
   ],
   "note": ""
  },
  {
   "property": "C32",
   "status": "proved",
   "theorems": [
    "Dvbcsa.Props.C32_values",
    "Dvbcsa.Props.C32_lanes",
    "Dvbcsa.Props.C32_exact_capacity"
   ],
   "note": ""
  },
  {
   "property": "C33",
   "status": "proved",
   "theorems": [
    "Dvbcsa.Props.C33_avx2_alt_sbox_wrong",
    "Dvbcsa.Props.C33_differs_from_single",
    "Dvbcsa.Props.C33_round_trip_hides_it",
    "Dvbcsa.Props.C33_decrypt_wrong"
   ],
   "note": ""
  },
  {
   "property": "C34",
   "status": "proved",
   "theorems": [
    "Dvbcsa.Props.C34_aligned",
    "Dvbcsa.Props.C34_memalign_valid",
    "Dvbcsa.Props.C34_malloc_unaligned"
   ],
   "note": ""
  },
  {
   "property": "C35",
   "status": "proved",
   "theorems": [
    "Dvbcsa.Props.C35_same_as_list",
    "Dvbcsa.Props.C35_array_in_memory",
    "Dvbcsa.Props.C35_footprint",
    "Dvbcsa.Props.C35_order",
    "Dvbcsa.Props.C35_interrupted",
    "Dvbcsa.Props.C35_overlap_wild_write"
   ],
   "note": ""
  },
  {
   "property": "C36",
   "status": "proved",
   "theorems": [
    "Dvbcsa.Props.C36_single",
    "Dvbcsa.Props.C36_single_counts",
    "Dvbcsa.Props.C36_key_set",
    "Dvbcsa.Props.C36_batch_decrypt",
    "Dvbcsa.Props.C36_batch_encrypt"
   ],
   "note": "Accesses to caller memory in the abstract machine; constant-table lookups and what a compiler makes of the loops are not part of the trace. The batch traces are those of the list model; the descriptor array is covered by C35."
  },
  {
   "property": "C37",
   "status": "proved",
   "theorems": [
    "Dvbcsa.Props.C37_single_same_program",
    "Dvbcsa.Props.C37_single_in_bounds",
    "Dvbcsa.Props.C37_key_set_same_program",
    "Dvbcsa.Props.C37_batch_same_program",
    "Dvbcsa.Props.C37_batch_in_bounds",
    "Dvbcsa.Props.C37_batch_only_pad",
    "Dvbcsa.Props.C37_batch_is_dvbcsa",
    "Dvbcsa.Props.C37_avx2_reads_behind_table"
   ],
   "note": "A second, lower-level model (Model/BsChecked, Model/ScalarChecked) with every local access checked is proved equal to the first. Pointers that are computed but not dereferenced are not checked upwards (see DESIGN)."
  },
  {
   "property": "C38",
   "status": "proved",
   "theorems": [
    "Dvbcsa.Props.C38_decrypt_rounds_up",
    "Dvbcsa.Props.C38_encrypt_below_8",
    "Dvbcsa.Props.C38_encrypt_undefined",
    "Dvbcsa.Props.C38_calls_disagree"
   ],
   "note": "About the checked model; for maxlen above 184 without assertions see C45."
  },
  {
   "property": "C39",
   "status": "proved",
   "theorems": [
    "Dvbcsa.Props.C39_decrypt_copies_differences",
    "Dvbcsa.Props.C39_bs_decrypt_copies_differences"
   ],
   "note": ""
  },
  {
   "property": "C40",
   "status": "proved",
   "theorems": [
    "Dvbcsa.Props.C40_encrypt_changes_first_block",
    "Dvbcsa.Props.C40_bs_encrypt_changes_first_block"
   ],
   "note": ""
  },
  {
   "property": "C41",
   "status": "proved",
   "theorems": [
    "Dvbcsa.Props.C41_key_set_positions",
    "Dvbcsa.Props.C41_bs_key_set_positions"
   ],
   "note": ""
  },
  {
   "property": "C42",
   "status": "proved",
   "theorems": [
    "Dvbcsa.Props.C42_full",
    "Dvbcsa.Props.C42_none",
    "Dvbcsa.Props.C42_encrypt",
    "Dvbcsa.Props.C42_decrypt",
    "Dvbcsa.Props.C42_bs_encrypt",
    "Dvbcsa.Props.C42_bs_decrypt",
    "Dvbcsa.Props.C42_decrypt_after_encrypt",
    "Dvbcsa.Props.C42_encrypt_after_decrypt",
    "Dvbcsa.Props.C42_bs_decrypt_after_encrypt",
    "Dvbcsa.Props.C42_bs_encrypt_after_decrypt",
    "Dvbcsa.Props.C42_bs_eq_single"
   ],
   "note": ""
  },
  {
   "property": "C43",
   "status": "proved",
   "theorems": [
    "Dvbcsa.Props.C43_run_test",
    "Dvbcsa.Props.C43_selftest_passes",
    "Dvbcsa.Props.C43_run_test_sound",
    "Dvbcsa.Props.C43_testbsops",
    "Dvbcsa.Props.C43_vector_tests_pass",
    "Dvbcsa.Props.C43_vector_tests_sound"
   ],
   "note": ""
  },
  {
   "property": "C44",
   "status": "proved",
   "theorems": [
    "Dvbcsa.Props.C44_worddump_in_bounds",
    "Dvbcsa.Props.C44_worddump_prints",
    "Dvbcsa.Props.C44_worddump_ends"
   ],
   "note": ""
  },
  {
   "property": "C45",
   "status": "proved",
   "theorems": [
    "Dvbcsa.Props.C45_maxlen_too_large",
    "Dvbcsa.Props.C45_full_batch",
    "Dvbcsa.Props.C45_with_assertions",
    "Dvbcsa.Props.C45_decrypt_returns_iff",
    "Dvbcsa.Props.C45_encrypt_returns_iff",
    "Dvbcsa.Props.C45_one_long_payload"
   ],
   "note": ""
  },
  {
   "property": "C46",
   "status": "proved",
   "theorems": [
    "Dvbcsa.Props.C46_release",
    "Dvbcsa.Props.C46_no_leak",
    "Dvbcsa.Props.C46_wrong_function"
   ],
   "note": ""
  },
  {
   "property": "C47",
   "status": "proved",
   "theorems": [
    "Dvbcsa.Props.C47_decrypt_mixed",
    "Dvbcsa.Props.C47_encrypt_mixed",
    "Dvbcsa.Props.C47_bs_decrypt_mixed",
    "Dvbcsa.Props.C47_bs_encrypt_mixed",
    "Dvbcsa.Props.C47_mixed_right",
    "Dvbcsa.Props.C47_not_atomic",
    "Dvbcsa.Props.C47_bs_not_atomic"
   ],
   "note": ""
  },
  {
   "property": "C48",
   "status": "proved",
   "theorems": [
    "Dvbcsa.Props.C48_benchdec",
    "Dvbcsa.Props.C48_benchenc",
    "Dvbcsa.Props.C48_benchbitslice",
    "Dvbcsa.Props.C48_benchks",
    "Dvbcsa.Props.C48_benchbitsliceks"
   ],
   "note": "Clock, printf and scheduler calls are left out; the reported number is the packet count."
  },
  {
   "property": "C49",
   "status": "proved",
   "theorems": [
    "Dvbcsa.Props.C49_only_context_and_array",
    "Dvbcsa.Props.C49_allocated_context",
    "Dvbcsa.Props.C49_misaligned_context",
    "Dvbcsa.Props.C49_misaligned_array",
    "Dvbcsa.Props.C49_malloc_without_asserts"
   ],
   "note": "The local arrays of the library are declared with the types they are accessed through (or wider), so only caller memory is in question. The single-packet API makes byte and memcpy accesses only."
  },
  {
   "property": "C50",
   "status": "proved",
   "theorems": [
    "Dvbcsa.Props.C50_one_word_macro",
    "Dvbcsa.Props.C50_header",
    "Dvbcsa.Props.C50_transpose",
    "Dvbcsa.Props.C50_stray_environment",
    "Dvbcsa.Props.C50_build",
    "Dvbcsa.Props.C50_allocation",
    "Dvbcsa.Props.C50_working",
    "Dvbcsa.Props.C50_default_long8",
    "Dvbcsa.Props.C50_default_long4",
    "Dvbcsa.Props.C50_stray_build",
    "Dvbcsa.Props.C50_stray_decrypt_wrong",
    "Dvbcsa.Props.C50_stray_encrypt_wrong",
    "Dvbcsa.Props.C50_stray_wrong"
   ],
   "note": "That the compiler accepts the chosen vector header on the target is assumed."
  },
  {
   "property": "C51",
   "status": "proved",
   "theorems": [
    "Dvbcsa.Props.C51_same_effect",
    "Dvbcsa.Props.C51_same_effect_bs",
    "Dvbcsa.Props.C51_key_set_leaks",
    "Dvbcsa.Props.C51_bs_key_set_leaks",
    "Dvbcsa.Props.C51_key_set_lines_leak",
    "Dvbcsa.Props.C51_bs_key_set_lines_leak",
    "Dvbcsa.Props.C51_key_set_lines_512",
    "Dvbcsa.Props.C51_decrypt_leaks",
    "Dvbcsa.Props.C51_encrypt_leaks",
    "Dvbcsa.Props.C51_bs_same_effect",
    "Dvbcsa.Props.C51_bs_decrypt_leaks",
    "Dvbcsa.Props.C51_bs_encrypt_leaks"
   ],
   "note": "For the packet calls byte addresses; for key setup also sequences of cache lines."
  },
  {
   "property": "C52",
   "status": "proved",
   "theorems": [
    "Dvbcsa.Props.C52_single",
    "Dvbcsa.Props.C52_bs_key_set",
    "Dvbcsa.Props.C52_batch",
    "Dvbcsa.Props.C52_cache_lines"
   ],
   "note": ""
  },
  {
   "property": "C53",
   "status": "proved",
   "theorems": [
    "Dvbcsa.Props.C53_decrypt",
    "Dvbcsa.Props.C53_encrypt",
    "Dvbcsa.Props.C53_of",
    "Dvbcsa.Props.C53_inverse",
    "Dvbcsa.Props.C53_ready",
    "Dvbcsa.Props.C53_decrypt_after_encrypt",
    "Dvbcsa.Props.C53_encrypt_after_decrypt",
    "Dvbcsa.Props.C53_copied_context",
    "Dvbcsa.Props.C53_bs_decrypt",
    "Dvbcsa.Props.C53_bs_encrypt",
    "Dvbcsa.Props.C53_bs_ready",
    "Dvbcsa.Props.C53_bs_decrypt_after_encrypt",
    "Dvbcsa.Props.C53_bs_encrypt_after_decrypt",
    "Dvbcsa.Props.C53_bs_copied_context"
   ],
   "note": ""
  },
  {
   "property": "C54",
   "status": "proved",
   "theorems": [
    "Dvbcsa.Props.C54_reentrant",
    "Dvbcsa.Props.C54_reentrant_handlers_first",
    "Dvbcsa.Props.C54_interrupted_as_if_alone",
    "Dvbcsa.Props.C54_abandoned",
    "Dvbcsa.Props.C54_retry_key_set",
    "Dvbcsa.Props.C54_retry_bs_key_set",
    "Dvbcsa.Props.C54_restore_and_retry"
   ],
   "note": ""
  },
  {
   "property": "C55",
   "status": "proved",
   "theorems": [
    "Dvbcsa.Props.C55_threads",
    "Dvbcsa.Props.C55_threads_at_rest",
    "Dvbcsa.Props.C55_no_deadlock",
    "Dvbcsa.Props.C55_no_data_race",
    "Dvbcsa.Props.C55_realisable"
   ],
   "note": ""
  },
  {
   "property": "C56",
   "status": "proved",
   "theorems": [
    "Dvbcsa.Props.C56_decrypt",
    "Dvbcsa.Props.C56_encrypt",
    "Dvbcsa.Props.C56_batch_no_endless_loop",
    "Dvbcsa.Props.C56_batch_returns",
    "Dvbcsa.Props.C56_batch_returns_iff"
   ],
   "note": "Loops with constant bounds (key setup, block cipher rounds, bit planes) are recursions on the bound."
  },
  {
   "property": "C57",
   "status": "proved",
   "theorems": [
    "Dvbcsa.Props.C57_slot_free",
    "Dvbcsa.Props.C57_full_batch",
    "Dvbcsa.Props.C57_iff"
   ],
   "note": ""
  },
  {
   "property": "C58",
   "status": "proved",
   "theorems": [
    "Dvbcsa.Props.C58_sees",
    "Dvbcsa.Props.C58_no_data_race",
    "Dvbcsa.Props.C58_can_finish",
    "Dvbcsa.Props.C58_all_done",
    "Dvbcsa.Props.C58_delegate"
   ],
   "note": ""
  },
  {
   "property": "C59",
   "status": "proved",
   "theorems": [
    "Dvbcsa.Props.C59_decrypt",
    "Dvbcsa.Props.C59_encrypt",
    "Dvbcsa.Props.C59_batch",
    "Dvbcsa.Props.C59_rounds",
    "Dvbcsa.Props.C59_same_rounds",
    "Dvbcsa.Props.C59_gain",
    "Dvbcsa.Props.C59_full"
   ],
   "note": "Counts of rounds, packets and bytes; the time of a round on a processor is not modelled."
  },
  {
   "property": "C60",
   "status": "proved",
   "theorems": [
    "Dvbcsa.Props.C60_decrypt",
    "Dvbcsa.Props.C60_encrypt",
    "Dvbcsa.Props.C60_threads",
    "Dvbcsa.Props.C60_returns",
    "Dvbcsa.Props.C60_untouched",
    "Dvbcsa.Props.C60_array",
    "Dvbcsa.Props.C60_array_changed",
    "Dvbcsa.Props.C60_single_torn"
   ],
   "note": "memcpy is modelled as reading each byte once, in order (it is called with valid, non-overlapping arguments; C leaves the result of a concurrent write undefined formally, the model gives it the value some write put there). C60_array_changed and C60_single_torn show why the array and the single-packet calls are excluded."
  },
  {
   "property": "C61",
   "status": "proved",
   "theorems": [
    "Dvbcsa.Props.C61_batch",
    "Dvbcsa.Props.C61_allocated_context",
    "Dvbcsa.Props.C61_single_every_input",
    "Dvbcsa.Props.C61_single",
    "Dvbcsa.Props.C61_rules_needed",
    "Dvbcsa.Props.C61_key_set_needs_alignment",
    "Dvbcsa.Props.C61_misaligned_array"
   ],
   "note": "The union of the checks of C14, C35, C37, C49, C56 and C57 in one program per API function. Under the strict reading of the pointer rule one slot of the batch must be free or maxlen be at most 8 (C57). Kinds of undefined behaviour not modelled (strict aliasing, indeterminate values as trap representations, data races) are listed in DESIGN.md."
  },
  {
   "property": "C62",
   "status": "proved",
   "theorems": [
    "Dvbcsa.Props.C62_payload",
    "Dvbcsa.Props.C62_rest",
    "Dvbcsa.Props.C62_regroup",
    "Dvbcsa.Props.C62_end_to_end"
   ],
   "note": "Histories and the ideal machine are those of C25. Single-packet encryptions under 2^31+16 bytes (C24); batch contexts only in builds whose key setup is defined (C29)."
  },
  {
   "property": "C63",
   "status": "proved",
   "theorems": [
    "Dvbcsa.Props.C63_bound",
    "Dvbcsa.Props.C63_batch",
    "Dvbcsa.Props.C63_single",
    "Dvbcsa.Props.C63_less_than_64k",
    "Dvbcsa.Props.C63_empty"
   ],
   "note": "Counts arrays, structures and unions the code declares, from function entry to return; scalars, saved registers, alignment and return addresses come on top and depend on the compiler."
  },
  {
   "property": "C64",
   "status": "proved",
   "theorems": [
    "Dvbcsa.Props.C64_history",
    "Dvbcsa.Props.C64_other_builds",
    "Dvbcsa.Props.C64_clean",
    "Dvbcsa.Props.C64_key_set"
   ],
   "note": "Any code on dvbcsa_bs_word_t counts as using MMX registers; a compiler may avoid them in the key setup."
  },
  {
   "property": "C65",
   "status": "proved",
   "theorems": [
    "Dvbcsa.Props.C65_readable",
    "Dvbcsa.Props.C65_stays",
    "Dvbcsa.Props.C65_survives_free",
    "Dvbcsa.Props.C65_key_set_free_alloc"
   ],
   "note": "Copies of key material in stack frames of calls that have returned are not modelled."
  },
  {
   "property": "C66",
   "status": "proved",
   "theorems": [
    "Dvbcsa.Props.C66_safe",
    "Dvbcsa.Props.C66_same_as_ideal",
    "Dvbcsa.Props.C66_transfer",
    "Dvbcsa.Props.C66_realised"
   ],
   "note": "The allocation functions of the C library are modelled by their contracts (Model/Heap); one thread, see C67 for several."
  },
  {
   "property": "C67",
   "status": "proved",
   "theorems": [
    "Dvbcsa.Props.C67_safe",
    "Dvbcsa.Props.C67_same_as_ideal",
    "Dvbcsa.Props.C67_transfer",
    "Dvbcsa.Props.C67_at_rest",
    "Dvbcsa.Props.C67_progress",
    "Dvbcsa.Props.C67_realised"
   ],
   "note": "Accesses of bytes are atomic and sequentially consistent; C68 and C58 treat stores that take time. Allocation and release are single steps."
  },
  {
   "property": "C68",
   "status": "proved",
   "theorems": [
    "Dvbcsa.Props.C68_safe",
    "Dvbcsa.Props.C68_waiting_unseen",
    "Dvbcsa.Props.C68_same_as_ideal",
    "Dvbcsa.Props.C68_progress",
    "Dvbcsa.Props.C68_realised",
    "Dvbcsa.Props.C68_may_wait"
   ],
   "note": "Loads are in program order and return what is in memory or in the thread's own buffer; C58 treats a machine where they may return older values."
  },
  {
   "property": "C69",
   "status": "proved",
   "theorems": [
    "Dvbcsa.Props.C69_user_flags",
    "Dvbcsa.Props.C69_user_settings",
    "Dvbcsa.Props.C69_assertions_and_overflow",
    "Dvbcsa.Props.C69_type_punning",
    "Dvbcsa.Props.C69_instruction_set",
    "Dvbcsa.Props.C69_neon",
    "Dvbcsa.Props.C69_optimisation",
    "Dvbcsa.Props.C69_other_compilers",
    "Dvbcsa.Props.C69_debug",
    "Dvbcsa.Props.C69_configure"
   ],
   "note": "What the compiler does with the flags (the last of contradicting flags counts) is assumed, and so is what may_alias and -fno-strict-aliasing mean."
  }
 ]
}