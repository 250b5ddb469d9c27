{
 "claims": [
  {
   "property": "C01",
   "status": "proved",
   "theorems": [
    "BigO.C01_monotone"
   ],
   "note": ""
  },
  {
   "property": "C02",
   "status": "proved",
   "theorems": [
    "BigO.C02_acceptance_sizes",
    "BigO.C02_acceptance",
    "BigO.C02_acceptance_exponential",
    "BigO.C02_acceptance_between",
    "BigO.C02_small_sets_counterexample"
   ],
   "note": "Exact real arithmetic (exactEnv), set sizes >= 3; C02_small_sets_counterexample shows the bound 3 is needed."
  },
  {
   "property": "C03",
   "status": "proved",
   "theorems": [
    "BigO.C03_no_false_alarm",
    "BigO.C03_on_model"
   ],
   "note": "Exact real arithmetic, set sizes >= 2 in any order, any constant factor."
  },
  {
   "property": "C04",
   "status": "partial",
   "theorems": [
    "BigO.C04_unit_independent_partial",
    "BigO.C04_unit_counterexample",
    "BigO.C04_unit_independent_set_resizing"
   ],
   "note": "True up to O(n^4) and for the set-resizing analysis (exact arithmetic); false in the exponential tier: C04_unit_counterexample."
  },
  {
   "property": "C05",
   "status": "partial",
   "theorems": [
    "BigO.C05_exponential_partial",
    "BigO.C05_constant_factor_iff",
    "BigO.C05_constant_factor_counterexample"
   ],
   "note": "True for usage exactly k^n (all sizes > 0); false with a constant factor: C05_constant_factor_counterexample; exact condition: C05_constant_factor_iff."
  },
  {
   "property": "C06",
   "status": "proved",
   "theorems": [
    "BigO.C06_antitone"
   ],
   "note": "Assumes powf monotone in its base (PowfLaws), finite usages."
  },
  {
   "property": "C07",
   "status": "proved",
   "theorems": [
    "BigO.C07_degenerate_sets"
   ],
   "note": "For every arithmetic satisfying FloatLaws and the IEEE special values of log2."
  },
  {
   "property": "C08",
   "status": "partial",
   "theorems": [
    "BigO.C08_equal_usage_partial",
    "BigO.C08_zero_usage_is_worst",
    "BigO.C08_counterexample",
    "BigO.C08_zero_first_pass"
   ],
   "note": "True for equal non-zero usage; false for zero usage (0/0 = NaN falls through every test): C08_counterexample, C08_zero_usage_is_worst, C08_zero_first_pass."
  },
  {
   "property": "C09",
   "status": "proved",
   "theorems": [
    "BigO.C09_monotone"
   ],
   "note": ""
  },
  {
   "property": "C10",
   "status": "proved",
   "theorems": [
    "BigO.C10_acceptance"
   ],
   "note": ""
  },
  {
   "property": "C11",
   "status": "proved",
   "theorems": [
    "BigO.C11_ceiling",
    "BigO.C11_ceiling_reached"
   ],
   "note": ""
  },
  {
   "property": "C12",
   "status": "proved",
   "theorems": [
    "BigO.C12_order_irrelevant"
   ],
   "note": ""
  },
  {
   "property": "C13",
   "status": "proved",
   "theorems": [
    "BigO.C13_only_peak_matters",
    "BigO.C13_panic_iff"
   ],
   "note": ""
  },
  {
   "property": "C14",
   "status": "proved",
   "theorems": [
    "BigO.C14_time_monotone"
   ],
   "note": ""
  },
  {
   "property": "C15",
   "status": "proved",
   "theorems": [
    "BigO.C15_order_is_asymptotic",
    "BigO.C15_order_of_all"
   ],
   "note": ""
  },
  {
   "property": "C16",
   "status": "proved",
   "theorems": [
    "BigO.C16_texts_injective",
    "BigO.C16_numbers_injective",
    "BigO.C16_text_names_class",
    "BigO.C16_identifier_names_class",
    "BigO.C16_renderings"
   ],
   "note": ""
  },
  {
   "property": "C17",
   "status": "proved",
   "theorems": [
    "BigO.C17_monotone",
    "BigO.C17_integers_exact",
    "BigO.C17_relative_error",
    "BigO.C17_laws_10",
    "BigO.C17_laws_25",
    "BigO.C17_verdicts_monotone",
    "BigO.C17_powers_by_multiplication",
    "BigO.C17_powi_accurate"
   ],
   "note": "Rounding as specified by IEEE-754; powers as computed by multiplication (any order, or __powidf2); log2 and powf stay arbitrary."
  },
  {
   "property": "C18",
   "status": "proved",
   "theorems": [
    "BigO.C18_space_monotone"
   ],
   "note": ""
  },
  {
   "property": "C19",
   "status": "proved",
   "theorems": [
    "BigO.C19_bytes",
    "BigO.C19_bytes_ordered",
    "BigO.C19_custom",
    "BigO.C19_custom_ordered",
    "BigO.C19_byte_rates",
    "BigO.C19_byte_rates_ordered",
    "BigO.C19_custom_rates",
    "BigO.C19_custom_rates_ordered",
    "BigO.C19_durations"
   ],
   "note": "the error bounds for every unit and the order; with C73 after any history of calls. Negative values and NaN show no unit (C72)"
  },
  {
   "property": "C20",
   "status": "proved",
   "theorems": [
    "BigO.C20_used_is_live_mod",
    "BigO.C20_used_is_live",
    "BigO.C20_all_freed"
   ],
   "note": "exact whenever the live bytes fit a usize; modulo 2^64 otherwise"
  },
  {
   "property": "C21",
   "status": "proved",
   "theorems": [
    "BigO.C21_delta_counters_exact",
    "BigO.C21_delta_current_is_absolute"
   ],
   "note": "under TotalsFit: no count/byte total reaches 2^64 (since the save point in release builds, since process start with overflow checks)"
  },
  {
   "property": "C22",
   "status": "proved",
   "theorems": [
    "BigO.C22_delta_extremes"
   ],
   "note": "extremes of the live bytes (spec liveTrace) for contract-respecting histories"
  },
  {
   "property": "C23",
   "status": "proved",
   "theorems": [
    "BigO.C23_delta_fails_iff",
    "BigO.C23_wrapped_total_panics"
   ],
   "note": "needs fewer than 2^32 save points and TotalsFit; C23_wrapped_total_panics shows why"
  },
  {
   "property": "C24",
   "status": "proved",
   "theorems": [
    "BigO.C24_save_points_independent"
   ],
   "note": "any placement of other save points, before and after"
  },
  {
   "property": "C25",
   "status": "proved",
   "theorems": [
    "BigO.C25_readings_ordered"
   ],
   "note": "no contract assumption"
  },
  {
   "property": "C26",
   "status": "proved",
   "theorems": [
    "BigO.C26_counters_exact",
    "BigO.C26_used_exact",
    "BigO.C26_extremes_enclose",
    "BigO.C26_extremes_real",
    "BigO.C26_extremes_widen"
   ],
   "note": "relaxed-memory interleavings with stale reads and spurious CAS failures; counters and used memory modulo 2^64"
  },
  {
   "property": "C27",
   "status": "partial",
   "theorems": [
    "BigO.C27_peak_missed",
    "BigO.C27_max_below_used",
    "BigO.C27_subtraction_panics",
    "BigO.C27_nothing_invented_partial",
    "BigO.C27_counters_undisturbed_partial"
   ],
   "note": "false of the code: witnesses C27_peak_missed and C27_max_below_used (both with every read returning the newest value); proved instead: no value is invented and counters stay exact, in every interleaving"
  },
  {
   "property": "C28",
   "status": "partial",
   "theorems": [
    "BigO.C28_refused_allocation_is_counted",
    "BigO.C28_used_is_live_plus_refused_partial",
    "BigO.C28_refused_shrink_underflows"
   ],
   "note": "false of the code (statistics are updated before the system allocator is called): witness C28_refused_allocation_is_counted; proved instead: the error is exactly the refused bytes"
  },
  {
   "property": "C30",
   "status": "proved",
   "theorems": [
    "BigO.C30_ring_refines_log",
    "BigO.C30_log_is_enqueued"
   ],
   "note": "Fewer than 2^32 enqueues (see C37), 0 < SIZE < 2^32."
  },
  {
   "property": "C31",
   "status": "proved",
   "theorems": [
    "BigO.C31_consumer_id",
    "BigO.C31_fifo",
    "BigO.C31_none_means_all_received"
   ],
   "note": ""
  },
  {
   "property": "C32",
   "status": "proved",
   "theorems": [
    "BigO.C32_consumers_independent"
   ],
   "note": ""
  },
  {
   "property": "C33",
   "status": "proved",
   "theorems": [
    "BigO.C33_peek_is_non_destructive",
    "BigO.C33_peek_all_complete",
    "BigO.C33_dequeue_error_iff"
   ],
   "note": ""
  },
  {
   "property": "C34",
   "status": "partial",
   "theorems": [
    "BigO.C34_overflowed_consumer_recovers",
    "BigO.C34_peek_error_is_permanent_partial"
   ],
   "note": "False for dequeue (C34_overflowed_consumer_recovers, every SIZE); true for peek_all while the consumer does not dequeue."
  },
  {
   "property": "C35",
   "status": "proved",
   "theorems": [
    "BigO.C35_enough_slots_suffice",
    "BigO.C35_no_panic",
    "BigO.C35_completed_is_prefix",
    "BigO.C35_no_corruption",
    "BigO.C35_no_loss",
    "BigO.C35_progress",
    "BigO.C35_more_threads_than_slots_corrupts",
    "BigO.C35_solo_enqueue"
   ],
   "note": "Sequentially consistent interleavings, at most SIZE enqueues in flight (needed: C35_more_threads_than_slots_corrupts), fewer than 2^32 enqueues. The code's own memory orderings: see C89, C90."
  },
  {
   "property": "C36",
   "status": "proved",
   "theorems": [
    "BigO.C36_at_most_once",
    "BigO.C36_right_value",
    "BigO.C36_claims_in_order",
    "BigO.C36_claimed_is_reported",
    "BigO.C36_none_only_when_empty",
    "BigO.C36_error_iff_overwritten",
    "BigO.C36_never_waits_for_tail",
    "BigO.C36_solo_dequeue"
   ],
   "note": "Sequentially consistent interleavings; the returned reference is read when dequeue returns. The code's own memory orderings: see C89, C90."
  },
  {
   "property": "C37",
   "status": "partial",
   "theorems": [
    "BigO.C37_checked_enqueue_panics",
    "BigO.C37_checked_never_recovers",
    "BigO.C37_wrapping_dequeue_hangs",
    "BigO.C37_wrapping_peek_survives_partial",
    "BigO.C37_release_exact_partial",
    "BigO.C37_other_sizes_corrupt"
   ],
   "note": "False in overflow-checked builds (enqueue panics for good), for sizes not dividing 2^32 (peek_all returns wrong elements), and for dequeue in release builds when the pending elements straddle a multiple of 2^32 (it hangs). C37_release_exact_partial: with overflow checks off and SIZE dividing 2^32, everything else does what the log specification says, for any number of calls and consumers."
  },
  {
   "property": "C38",
   "status": "partial",
   "theorems": [
    "BigO.C38_peek_all_can_be_corrupted",
    "BigO.C38_peek_all_partial",
    "BigO.C38_peek_all_exactly_partial",
    "BigO.C38_right_iff_partial"
   ],
   "note": "False with an unpublished enqueue in flight (C38_peek_all_can_be_corrupted). C38_peek_all_exactly_partial says what is returned in every interleaving (each pending element, or the newer element already stored in its slot), C38_right_iff_partial when it is right; in particular whenever at most SIZE reservations lie beyond the consumer."
  },
  {
   "property": "C40",
   "status": "proved",
   "theorems": [
    "BigO.C40_each_once",
    "BigO.C40_can_finish"
   ],
   "note": "all ranges/thread counts below 2^31, any interleaving, closure results arbitrary"
  },
  {
   "property": "C41",
   "status": "proved",
   "theorems": [
    "BigO.C41_private_intervals"
   ],
   "note": ""
  },
  {
   "property": "C42",
   "status": "proved",
   "theorems": [
    "BigO.C42_remainder_ascending",
    "BigO.C42_remainder_descending",
    "BigO.C42_count"
   ],
   "note": ""
  },
  {
   "property": "C43",
   "status": "partial",
   "theorems": [
    "BigO.C43_delete_matches_create_partial",
    "BigO.C43_counterexample"
   ],
   "note": "False when threads does not divide (and does not exceed) the iterations: C43_counterexample. C43_delete_matches_create_partial proves the exact iff condition."
  },
  {
   "property": "C44",
   "status": "proved",
   "theorems": [
    "BigO.C44_order"
   ],
   "note": ""
  },
  {
   "property": "C45",
   "status": "proved",
   "theorems": [
    "BigO.C45_checksum",
    "BigO.C45_schedule_independent"
   ],
   "note": ""
  },
  {
   "property": "C46",
   "status": "proved",
   "theorems": [
    "BigO.C46_zero_threads_panics"
   ],
   "note": "The panic is proved; the documentation's promise of None is thereby false of the code."
  },
  {
   "property": "C47",
   "status": "partial",
   "theorems": [
    "BigO.C47_first_lost_is_best_shipped",
    "BigO.C47_both_lost_is_O1_shipped",
    "BigO.C47_sentinel",
    "BigO.C47_both_lost_is_O1",
    "BigO.C47_second_lost_partial",
    "BigO.C47_first_lost_is_best"
   ],
   "note": "False: C47_both_lost_is_O1 and C47_first_lost_is_best show lost statistics giving a good verdict, C47_first_lost_is_best_shipped and C47_both_lost_is_O1_shipped with the shipped binary64 arithmetic, for all three space analyses, all set sizes and any library functions; true when only the second pass is lost (C47_second_lost_partial)."
  },
  {
   "property": "C48",
   "status": "proved",
   "theorems": [
    "BigO.C48_mean",
    "BigO.C48_mean_shipped",
    "BigO.C48_between",
    "BigO.C48_single_thread"
   ],
   "note": "in exact arithmetic and in the shipped binary64; rounding of from_secs_f64 (ties to even) modelled; the bounds for (threads+3)*slowest < 2^50 ns"
  },
  {
   "property": "C50",
   "status": "proved",
   "theorems": [
    "BigO.C50_phase_order",
    "BigO.C50_analyse_phase_order"
   ],
   "note": "All environments (arbitrary measurements, closure panics); configurations whose u32 products do not overflow."
  },
  {
   "property": "C51",
   "status": "proved",
   "theorems": [
    "BigO.C51_never_called",
    "BigO.C51_analyses"
   ],
   "note": ""
  },
  {
   "property": "C52",
   "status": "proved",
   "theorems": [
    "BigO.C52_no_reset",
    "BigO.C52_one_reset"
   ],
   "note": "Exactly-once needs no u32 overflow; never-called holds in all cases."
  },
  {
   "property": "C53",
   "status": "proved",
   "theorems": [
    "BigO.C53_accepts_iff",
    "BigO.C53_attempts"
   ],
   "note": ""
  },
  {
   "property": "C54",
   "status": "partial",
   "theorems": [
    "BigO.C54_measured_partial",
    "BigO.C54_zero_attempts",
    "BigO.C54_tiny_counts",
    "BigO.C54_accepts_rejected"
   ],
   "note": "False: max_retry_attempts = 0 accepts without running anything (C54_zero_attempts); counts below 10 are adapted to 0 on the second attempt (C54_tiny_counts), so a test whose first attempt is rejected then succeeds (C54_accepts_rejected)."
  },
  {
   "property": "C55",
   "status": "proved",
   "theorems": [
    "BigO.C55_adapt_bounds"
   ],
   "note": "In release builds only for counts up to 2/3 of the u32 range (beyond it the addition wraps)."
  },
  {
   "property": "C56",
   "status": "proved",
   "theorems": [
    "BigO.C56_never_rejected",
    "BigO.C56_returns"
   ],
   "note": ""
  },
  {
   "property": "C57",
   "status": "proved",
   "theorems": [
    "BigO.C57_looser_async",
    "BigO.C57_looser_crud",
    "BigO.C57_not_for_crud_tests",
    "BigO.C57_looser_regular"
   ],
   "note": "CRUD single attempt, whole test of regular algorithms, async single attempt. Whole CRUD tests with retries are not monotone in their limits (C57_not_for_crud_tests), which the property does not claim."
  },
  {
   "property": "C58",
   "status": "proved",
   "theorems": [
    "BigO.C58_accepted",
    "BigO.C58_rejected",
    "BigO.C58_rejected_verdict",
    "BigO.C58_accepted_or_rejected"
   ],
   "note": ""
  },
  {
   "property": "C59",
   "status": "proved",
   "theorems": [
    "BigO.C59_report_is_output",
    "BigO.C59_rejected_report",
    "BigO.C59_every_analysis"
   ],
   "note": ""
  },
  {
   "property": "C60",
   "status": "proved",
   "theorems": [
    "BigO.C60_attempts"
   ],
   "note": "keen_retry is modelled by its documented behaviour."
  },
  {
   "property": "C61",
   "status": "proved",
   "theorems": [
    "BigO.C61_accepted_sound",
    "BigO.C61_accepts_iff"
   ],
   "note": "Soundness for every environment; the iff needs closures that do not panic and plausible readings. keen_retry is modelled by its documented behaviour."
  },
  {
   "property": "C62",
   "status": "partial",
   "theorems": [
    "BigO.C62_order",
    "BigO.C62_flow_partial",
    "BigO.C62_reset_after_warmup",
    "BigO.C62_genuine"
   ],
   "note": "Order proved for all runs (C62_order); recorded calls are those of the given closures (C62_genuine); data flow proved except for the reset after the warm-up, which the code gives no data: the documented flow is refuted for every builder with both closures (C62_reset_after_warmup)."
  },
  {
   "property": "C63",
   "status": "partial",
   "theorems": [
    "BigO.C63_threaded_partial",
    "BigO.C63_dropped"
   ],
   "note": "Proved with a reset function; without one the code drops the data, proved for every such builder (C63_dropped)."
  },
  {
   "property": "C64",
   "status": "proved",
   "theorems": [
    "BigO.C64_accepted_sound",
    "BigO.C64_accepts_iff",
    "BigO.C64_unset_never_rejects"
   ],
   "note": "Soundness for all environments; iff for closures that do not panic and plausible readings."
  },
  {
   "property": "C65",
   "status": "partial",
   "theorems": [
    "BigO.C65_not_enforced",
    "BigO.C65_enforced_partial"
   ],
   "note": "False of the code: the auxiliary space limit and custom measurements have no influence at all (C65_not_enforced, for every builder); time and space limits are enforced (C65_enforced_partial)."
  },
  {
   "property": "C66",
   "status": "proved",
   "theorems": [
    "BigO.C66_last_setting",
    "BigO.C66_order_independent"
   ],
   "note": "Every option is the last value set; chains with the same last settings give the same analyzer."
  },
  {
   "property": "C67",
   "status": "proved",
   "theorems": [
    "BigO.C67_missing_pass",
    "BigO.C67_message"
   ],
   "note": "Panics in every configuration; only the prelude's closures are called; message proved for closures that do not panic."
  },
  {
   "property": "C68",
   "status": "proved",
   "theorems": [
    "BigO.C68_nested",
    "BigO.C68_no_panic",
    "BigO.C68_after_needs_before",
    "BigO.C68_after_twice",
    "BigO.C68_declared",
    "BigO.C68_new_needs_before"
   ],
   "note": "Measurers with pre-event values of one type; futures are calls."
  },
  {
   "property": "C69",
   "status": "proved",
   "theorems": [
    "BigO.C69_duration",
    "BigO.C69_duration_rounded",
    "BigO.C69_memory",
    "BigO.C69_totals",
    "BigO.C69_time_per_element",
    "BigO.C69_regular_report",
    "BigO.C69_constant_set_report",
    "BigO.C69_set_resizing_report",
    "BigO.C69_regular_unambiguous",
    "BigO.C69_constant_set_unambiguous",
    "BigO.C69_set_resizing_unambiguous"
   ],
   "note": ""
  },
  {
   "property": "C70",
   "status": "proved",
   "theorems": [
    "BigO.C70_bytes"
   ],
   "note": "binary64 arithmetic; text of numbers is a parameter."
  },
  {
   "property": "C71",
   "status": "proved",
   "theorems": [
    "BigO.C71_bytes_per_second",
    "BigO.C71_custom_per_second"
   ],
   "note": "binary64 arithmetic; the thresholds 1/60 and 1/3600 are rounded, hence the 2^-51 relative error."
  },
  {
   "property": "C72",
   "status": "partial",
   "theorems": [
    "BigO.C72_unit_shown_partial",
    "BigO.C72_no_unit_for_negatives",
    "BigO.C72_no_unit_for_default"
   ],
   "note": "False for negative values, NaN and the Default measurement (C72_no_unit_for_negatives, C72_no_unit_for_default); proved for all others."
  },
  {
   "property": "C73",
   "status": "proved",
   "theorems": [
    "BigO.C73_caches_transparent"
   ],
   "note": "HashMap modelled as an association list; slices into it by their contents."
  },
  {
   "property": "C74",
   "status": "partial",
   "theorems": [
    "BigO.C74_no_panic_partial",
    "BigO.C74_zero_elements_panics",
    "BigO.C74_large_set_panics",
    "BigO.C74_lost_statistics_panics"
   ],
   "note": "False of the code: reports panic for an element count of zero, for create/delete sets of 2^31 or more (overflow checks), and when the first pass lost its statistics (overflow checks); each proved. C74_no_panic_partial: no report panics for plausible readings and durations and non-zero counts."
  },
  {
   "property": "C75",
   "status": "proved",
   "theorems": [
    "BigO.C75_text",
    "BigO.C75_sign_sound",
    "BigO.C75_sign_lost",
    "BigO.C75_text_shipped"
   ],
   "note": "binary32 arithmetic (C75_text_shipped); exact arithmetic as well (C75_text). Invisible changes lose the sign (C75_sign_lost). Number formatting of the standard library is a parameter."
  },
  {
   "property": "C76",
   "status": "proved",
   "theorems": [
    "BigO.C76_delta",
    "BigO.C76_auxiliary",
    "BigO.C76_lost_statistics_overflow",
    "BigO.C76_auxiliary_wrapping"
   ],
   "note": "For readings below 2^62 bytes; with a lost first pass the checked build overflows (C76_lost_statistics_overflow), the wrapping one does not."
  },
  {
   "property": "C80",
   "status": "partial",
   "theorems": [
    "BigO.C80_always_defined",
    "BigO.C80_exactly_one_partial",
    "BigO.C80_values",
    "BigO.C80_default_conflict",
    "BigO.C80_no_report_ignored"
   ],
   "note": "False for selections with both tolerances or both reports (in particular any that adds tolerance_25_percent or report_stderr to the default features): exact characterisation of the selections that compile proved, and the values they select."
  },
  {
   "property": "C77",
   "status": "proved",
   "theorems": [
    "BigO.C77_durations_exact"
   ],
   "note": "binary64 arithmetic."
  },
  {
   "property": "C78",
   "status": "proved",
   "theorems": [
    "BigO.C78_custom_unit"
   ],
   "note": "binary64 arithmetic."
  },
  {
   "property": "C79",
   "status": "proved",
   "theorems": [
    "BigO.C79_failure",
    "BigO.C79_all_attempts"
   ],
   "note": "All outcomes of the retry loop; previousErrors models the BTreeMap as a list of entries with ascending keys."
  },
  {
   "property": "C81",
   "status": "proved",
   "theorems": [
    "BigO.C81_totals_shipped",
    "BigO.C81_time_per_element_shipped",
    "BigO.C81_regular_report",
    "BigO.C81_constant_set_report",
    "BigO.C81_set_resizing_report",
    "BigO.C81_totals",
    "BigO.C81_time_per_element"
   ],
   "note": "Order and content for every produced report; time per element and memory totals in exact and in the shipped arithmetic; the duration and number formatting of the standard library are parameters."
  },
  {
   "property": "C82",
   "status": "proved",
   "theorems": [
    "BigO.C82_time",
    "BigO.C82_time_constant_set",
    "BigO.C82_time_set_resizing",
    "BigO.C82_space"
   ],
   "note": "Exact arithmetic; non-zero first-pass usage (zero usage: C08); regular and read/update sizes >= 3 (smaller: C02, C07), create/delete >= 2."
  },
  {
   "property": "C83",
   "status": "proved",
   "theorems": [
    "BigO.C83_time",
    "BigO.C83_space"
   ],
   "note": "IEEE binary64 with round to nearest even modelled; accuracy 2^-48 of log2 and powi is a hypothesis (met by the ideal library, ideal_library). Limits up to O(n^4), all limits of create/delete: powf arbitrary. Limits BetweenON4AndOkN and OkN: powf accurate to 2^-48 (AccuratePowf, met by ideal_powf) and n2 <= 32 n1 (Covered); beyond that the base's rounding error, amplified by the exponent, is not bounded by one part in 2^40."
  },
  {
   "property": "C84",
   "status": "proved",
   "theorems": [
    "BigO.C84_pass_reports_live_bytes",
    "BigO.C84_space_verdict",
    "BigO.C84_space_verdict_shipped"
   ],
   "note": "Composition of C20-C22 with C82 (exact arithmetic) and with C83 (shipped arithmetic, up to one part in 2^40)."
  },
  {
   "property": "C85",
   "status": "proved",
   "theorems": [
    "BigO.C85_regular_sound",
    "BigO.C85_regular_rejects",
    "BigO.C85_regular_accepts",
    "BigO.C85_async_sound",
    "BigO.C85_async_rejects",
    "BigO.C85_async_accepts",
    "BigO.C85_crud_accepts",
    "BigO.C85_crud_sound",
    "BigO.C85_crud_rejects"
   ],
   "note": "Assumes a maths library accurate to 2^-48 (AccurateLibrary; for exponential limits also AccuratePowf and n2 <= 32 n1). Three theorems (sound, rejects, accepts) for each of the three kinds of tests."
  },
  {
   "property": "C86",
   "status": "proved",
   "theorems": [
    "BigO.C86_in_order",
    "BigO.C86_no_twice",
    "BigO.C86_never_ignored",
    "BigO.C86_waits",
    "BigO.C86_without_panics",
    "BigO.C86_can_end"
   ],
   "note": "The payload of the closure's panic is not part of the pass's panic message (it is shown as Any { .. })."
  },
  {
   "property": "C87",
   "status": "proved",
   "theorems": [
    "BigO.C87_each_once",
    "BigO.C87_counts",
    "BigO.C87_delete_after_create"
   ],
   "note": "Finished analyses; the even-division hypothesis is necessary for each-once (C41/C42 state what happens otherwise)."
  },
  {
   "property": "C88",
   "status": "proved",
   "theorems": [
    "BigO.C88_no_underflow",
    "BigO.C88_pass_statistics",
    "BigO.C88_joined"
   ],
   "note": "all interleavings, stale reads and spurious failures; the save point and the request for statistics run with nothing else going on in the exact part (what happens otherwise is C27), anything goes in the no-underflow part; the ring's enqueue, consumer and peek_all are one step each"
  },
  {
   "property": "C89",
   "status": "proved",
   "theorems": [
    "BigO.C89_enough_slots_suffice",
    "BigO.C89_enqueue_no_panic",
    "BigO.C89_completed_is_prefix",
    "BigO.C89_last_write",
    "BigO.C89_no_loss",
    "BigO.C89_progress",
    "BigO.C89_at_most_once",
    "BigO.C89_claims_in_order"
   ],
   "note": "view-based model of relaxed/acquire/release accesses (no load buffering)"
  },
  {
   "property": "C90",
   "status": "partial",
   "theorems": [
    "BigO.C90_dequeue_can_read_uninitialised",
    "BigO.C90_dequeue_can_panic",
    "BigO.C90_overflow_can_be_spurious",
    "BigO.C90_overflow_can_be_missed",
    "BigO.C90_peek_all_can_panic",
    "BigO.C90_dequeue_can_wait",
    "BigO.C90_up_to_date_partial",
    "BigO.C90_turns_partial",
    "BigO.C90_turns_values_partial",
    "BigO.C90_one_thread_partial"
   ],
   "note": "false of the code: loads of published_tail and reserved_tail are Relaxed, so publication does not synchronise with the reader; witnesses for uninitialised reads (a data race), panic, spurious and missed overflow errors; proved instead: right results for threads synchronised by other means, and sequential consistency when threads take turns"
  },
  {
   "property": "C91",
   "status": "proved",
   "theorems": [
    "BigO.C91_pass_reports",
    "BigO.C91_space_verdict",
    "BigO.C91_no_panic",
    "BigO.C91_space_verdict_shipped"
   ],
   "note": "Exact and shipped arithmetic. No panic unconditionally; the verdict part assumes the first pass used memory above its start; peaks are amounts really in use at some time (the largest amount need not be recorded when threads race: C88)."
  },
  {
   "property": "C92",
   "status": "proved",
   "theorems": [
    "BigO.C92_shows_result",
    "BigO.C92_dequeued_reference",
    "BigO.C92_peeked_references",
    "BigO.C92_valid_exactly",
    "BigO.C92_concurrent_dequeue",
    "BigO.C92_concurrent_peek"
   ],
   "note": "Fewer than 2^32 enqueues; concurrency: sequentially consistent interleavings, at most SIZE enqueues in flight."
  },
  {
   "property": "C93",
   "status": "partial",
   "theorems": [
    "BigO.C93_exact",
    "BigO.C93_uninitialised_dropped",
    "BigO.C93_dropped_partial"
   ],
   "note": "False of the code: the first SIZE enqueues drop uninitialised memory (undefined behaviour) and the last SIZE elements are never dropped (C93_uninitialised_dropped, any history); C93_exact gives the exact list of drops."
  },
  {
   "property": "C94",
   "status": "proved",
   "theorems": [
    "BigO.C94_slower_rejected",
    "BigO.C94_faster_accepted",
    "BigO.C94_classified",
    "BigO.C94_classified_space",
    "BigO.C94_separated_iff",
    "BigO.C94_log_factor",
    "BigO.C94_doubling",
    "BigO.C94_small_sets_counterexample"
   ],
   "note": "Exact arithmetic. C94_small_sets_counterexample shows that 'large enough' cannot be dropped."
  },
  {
   "property": "C95",
   "status": "partial",
   "theorems": [
    "BigO.C95_log_partial",
    "BigO.C95_log_quarter_partial",
    "BigO.C95_log_counterexample",
    "BigO.C95_log_counterexample_quarter",
    "BigO.C95_log_looks_constant",
    "BigO.C95_log_thresholds_quarter",
    "BigO.C95_log_thresholds_tenth",
    "BigO.C95_constant",
    "BigO.C95_linear",
    "BigO.C95_square_rejected"
   ],
   "note": "Logarithmic cost: C95_log_partial needs 138 elements per pass (C95_log_quarter_partial: 7, with a tolerance of at least 25%). These numbers are exact for the two shipped tolerances: C95_log_counterexample and C95_log_counterexample_quarter show that with fewer elements it is false, and C95_log_thresholds_tenth/_quarter give the verdict for every number of elements. Large passes of logarithmic operations are reported as O(1) (C95_log_looks_constant). Constant, linear and quadratic costs are complete."
  },
  {
   "property": "C96",
   "status": "proved",
   "theorems": [
    "BigO.C96_calls",
    "BigO.C96_genuine",
    "BigO.C96_completes",
    "BigO.C96_missing_pass"
   ],
   "note": ""
  },
  {
   "property": "C97",
   "status": "proved",
   "theorems": [
    "BigO.C97_transparent",
    "BigO.C97_statistics",
    "BigO.C97_used_is_live",
    "BigO.C97_used_is_live_exactly"
   ],
   "note": ""
  },
  {
   "property": "C98",
   "status": "proved",
   "theorems": [
    "BigO.C98_labelled",
    "BigO.C98_unambiguous"
   ],
   "note": ""
  },
  {
   "property": "C99",
   "status": "proved",
   "theorems": [
    "BigO.C99_accepted_iff",
    "BigO.C99_rejected_iff",
    "BigO.C99_test_accepted",
    "BigO.C99_test_rejected",
    "BigO.C99_async_accepted",
    "BigO.C99_async_rejected",
    "BigO.C99_crud_accepted",
    "BigO.C99_crud_rejected"
   ],
   "note": ""
  },
  {
   "property": "C100",
   "status": "proved",
   "theorems": [
    "BigO.C100_never_misses",
    "BigO.C100_contents",
    "BigO.C100_enough_needed",
    "BigO.C100_warmup_misses",
    "BigO.C100_test",
    "BigO.C100_test_single_threaded"
   ],
   "note": "container modelled as a set; passes whose threads divide their length (C100_warmup_misses, C43 show what happens otherwise)"
  },
  {
   "property": "C101",
   "status": "proved",
   "theorems": [
    "BigO.C101_regular",
    "BigO.C101_async",
    "BigO.C101_dry_run",
    "BigO.C101_crud_analysis",
    "BigO.C101_crud_test"
   ],
   "note": "panics inside the threads of a pass: C86"
  },
  {
   "property": "C102",
   "status": "proved",
   "theorems": [
    "BigO.C102_finished",
    "BigO.C102_aborted",
    "BigO.C102_analyse"
   ],
   "note": "Assumes the iteration counts do not overflow u32 (NoOverflow); the text of one pass's memory and of one operation's report are those of C75 and C81."
  },
  {
   "property": "C103",
   "status": "proved",
   "theorems": [
    "BigO.C103_regular",
    "BigO.C103_async",
    "BigO.C103_regular_only",
    "BigO.C103_async_only",
    "BigO.C103_message_names"
   ],
   "note": ""
  },
  {
   "property": "C104",
   "status": "proved",
   "theorems": [
    "BigO.C104_exponential_takes_time",
    "BigO.C104_time",
    "BigO.C104_time_constant_set",
    "BigO.C104_time_set_resizing",
    "BigO.C104_space",
    "BigO.C104_reportable",
    "BigO.C104_reportable_resizing",
    "BigO.C104_equal_sizes",
    "BigO.C104_doubling_gap",
    "BigO.C104_resizing_log_gap",
    "BigO.C104_shipped_log_gap",
    "BigO.C104_shipped_doubling_gap"
   ],
   "note": "Windows and reachability: exact arithmetic; C104_shipped_log_gap and C104_shipped_doubling_gap: binary64."
  },
  {
   "property": "C105",
   "status": "proved",
   "theorems": [
    "BigO.C105_in_order",
    "BigO.C105_sequence",
    "BigO.C105_null",
    "BigO.C105_concurrent",
    "BigO.C105_write_error",
    "BigO.C105_torn",
    "BigO.C105_flush_errors_ignored"
   ],
   "note": "Not guaranteed, both proved: C105_torn (several threads, one device), C105_flush_errors_ignored."
  },
  {
   "property": "C106",
   "status": "proved",
   "theorems": [
    "BigO.C106_refines",
    "BigO.C106_no_panic",
    "BigO.C106_some_can_finish",
    "BigO.C106_waits",
    "BigO.C106_pass_statistics",
    "BigO.C106_overrun",
    "BigO.C106_space_verdict",
    "BigO.C106_space_no_panic",
    "BigO.C106_space_verdict_shipped"
   ],
   "note": "all interleavings of the statistics' and the ring's atomic accesses; statistics relaxed (stale reads, spurious failures), ring sequentially consistent here (its own orderings: C89, C90); at most SIZE threads, fewer than 2^32 save points, no overrun request (needed: C106_overrun)"
  },
  {
   "property": "C107",
   "status": "partial",
   "theorems": [
    "BigO.C107_quiet_pass",
    "BigO.C107_unmetered_pass",
    "BigO.C107_space_verdict",
    "BigO.C107_regular_rejects",
    "BigO.C107_regular_partial",
    "BigO.C107_async_rejects",
    "BigO.C107_async_partial",
    "BigO.C107_crud_rejects",
    "BigO.C107_crud_partial"
   ],
   "note": "True with the loosest limit on space or none (for create and delete: at least BetweenOLogNAndON); false with any other: C107_regular_rejects, C107_async_rejects, C107_crud_rejects. ZeroPower is the IEEE rule 0^y = 0."
  },
  {
   "property": "C108",
   "status": "proved",
   "theorems": [
    "BigO.C108_pass",
    "BigO.C108_regular_accepts",
    "BigO.C108_regular_rejects",
    "BigO.C108_regular_sound",
    "BigO.C108_async_accepts",
    "BigO.C108_async_rejects",
    "BigO.C108_async_sound",
    "BigO.C108_crud_accepts",
    "BigO.C108_crud_rejects",
    "BigO.C108_crud_sound"
   ],
   "note": "Conditions are about the histories that are part of the run only. A ring buffer that hangs is modelled as a panic in meter (it does not happen under the conditions). Example: a world in which the whole heap history of the process is accounted for."
  },
  {
   "property": "C109",
   "status": "proved",
   "theorems": [
    "BigO.C109_regular",
    "BigO.C109_async",
    "BigO.C109_crud",
    "BigO.C109_crud_analysis"
   ],
   "note": "The duration of the CRUD warm-up is only read when it is printed. Dry runs (test_run) are not covered."
  },
  {
   "property": "C110",
   "status": "proved",
   "theorems": [
    "BigO.C110_regular",
    "BigO.C110_async",
    "BigO.C110_crud"
   ],
   "note": "For CRUD tests: requested operations have at least 30 elements (retries may divide the counts by ten). Asynchronous tests: the type of the data is inhabited. Exponential limits as in C83."
  },
  {
   "property": "C111",
   "status": "proved",
   "theorems": [
    "BigO.C111_overflow_text",
    "BigO.C111_readable",
    "BigO.C111_concurrent_text_contradicts_itself"
   ],
   "note": "text, Display and io::Error conversion of the overflow error for every sequential history; with calls in flight the text may contradict itself (C111_concurrent_text_contradicts_itself, finding)"
  },
  {
   "property": "C112",
   "status": "proved",
   "theorems": [
    "BigO.C112_smooth",
    "BigO.C112_smooth_resizing",
    "BigO.C112_none_skipped",
    "BigO.C112_none_skipped_resizing",
    "BigO.C112_every_verdict",
    "BigO.C112_every_verdict_resizing",
    "BigO.C112_no_jump",
    "BigO.C112_smooth_shipped"
   ],
   "note": "Exact arithmetic; C112_smooth_shipped: binary64, below O(n^4); C112_no_jump: any monotone rounding, from durations. The step must be small enough (SmallStep): with closer sizes some classes cannot be reported at all (C104)."
  },
  {
   "property": "C113",
   "status": "proved",
   "theorems": [
    "BigO.C113_enough_slots_suffice",
    "BigO.C113_enqueue_returns",
    "BigO.C113_dequeue_returns",
    "BigO.C113_peek_returns",
    "BigO.C113_every_call_returns",
    "BigO.C113_everything_is_published",
    "BigO.C113_a_stopped_enqueue_blocks_the_later_ones",
    "BigO.C113_an_enqueue_that_never_returns"
   ],
   "note": "liveness over infinite fair schedules; includes the proof that enqueue is not lock-free (a stopped enqueue blocks later ones)"
  },
  {
   "property": "C114",
   "status": "proved",
   "theorems": [
    "BigO.C114_heap_call_returns",
    "BigO.C114_delta_returns",
    "BigO.C114_save_point_returns",
    "BigO.C114_nothing_hangs"
   ],
   "note": "liveness over infinite schedules with stale reads and spurious failures; heap calls and statistics need only the calling thread to keep running, save points need all threads"
  },
  {
   "property": "C115",
   "status": "proved",
   "theorems": [
    "BigO.C115_enough_slots_suffice",
    "BigO.C115_enqueue_returns",
    "BigO.C115_dequeue_ends",
    "BigO.C115_dequeue_returns",
    "BigO.C115_peek_ends",
    "BigO.C115_everything_is_published",
    "BigO.C115_no_call_lasts",
    "BigO.C115_a_stopped_enqueue_blocks_the_later_ones"
   ],
   "note": "liveness over infinite schedules of the release/acquire model with stale loads and spurious failures; dequeue may end with the overflow-check panic of C90"
  },
  {
   "property": "C116",
   "status": "proved",
   "theorems": [
    "BigO.C116_no_race",
    "BigO.C116_no_panic",
    "BigO.C116_refines",
    "BigO.C116_one_measuring_thread",
    "BigO.C116_pass_statistics",
    "BigO.C116_race",
    "BigO.C116_space_verdict",
    "BigO.C116_space_no_panic",
    "BigO.C116_space_verdict_shipped"
   ],
   "note": ""
  },
  {
   "property": "C117",
   "status": "proved",
   "theorems": [
    "BigO.C117_pass",
    "BigO.C117_regular_accepts",
    "BigO.C117_regular_rejects",
    "BigO.C117_regular_sound",
    "BigO.C117_async_accepts",
    "BigO.C117_async_rejects",
    "BigO.C117_async_sound",
    "BigO.C117_crud_accepts",
    "BigO.C117_crud_rejects",
    "BigO.C117_crud_sound"
   ],
   "note": "Conditions are about the histories that are part of the run only. OrdinaryTPass asks, as C116, that no call is under way and the measuring thread is up to date when it takes the save point and when it asks for the statistics (threads joined). A ring buffer that makes the request panic is a panic of the pass (it does not happen under the conditions). Example: two concrete passes of two threads, in a test that is accepted, and in one that is rejected."
  },
  {
   "property": "C118",
   "status": "proved",
   "theorems": [
    "BigO.C118_never_undefined",
    "BigO.C118_measurements_stay_valid",
    "BigO.C118_one_table_per_unit",
    "BigO.C118_can_go_on",
    "BigO.C118_no_race",
    "BigO.C118_single_thread_no_race",
    "BigO.C118_race",
    "BigO.C118_known_units_never_race"
   ],
   "note": "The maps' moves and all addresses are arbitrary; C118_race is a finding: the functions are not thread safe and nothing confines them to one thread (they are crate-internal, called by the reports)."
  },
  {
   "property": "C119",
   "status": "proved",
   "theorems": [
    "BigO.C119_in_bounds",
    "BigO.C119_out_of_bounds",
    "BigO.C119_pops_its_number",
    "BigO.C119_as_before",
    "BigO.C119_test"
   ],
   "note": "closures modelled by what they do to a vector; the out-of-bounds theorem speaks of finished analyses: with a real vector the read panics instead"
  },
  {
   "property": "C120",
   "status": "proved",
   "theorems": [
    "BigO.C120_pass",
    "BigO.C120_accepted",
    "BigO.C120_rejected",
    "BigO.C120_tight"
   ],
   "note": "heap events of all threads in the order the allocator's counters are reached (C88 and C117 treat the atomic accesses themselves)"
  },
  {
   "property": "C121",
   "status": "proved",
   "theorems": [
    "BigO.C121_pass",
    "BigO.C121_accepted",
    "BigO.C121_rejected",
    "BigO.C121_old_peak"
   ],
   "note": "nothing going on when the save point is taken, no other thread in a save point or request; other threads' resizes to the same size excluded, with a concrete execution showing why"
  },
  {
   "property": "C122",
   "status": "proved",
   "theorems": [
    "BigO.C122_no_panic",
    "BigO.C122_test",
    "BigO.C122_nothing_created"
   ],
   "note": "Analyses of even creations (C122_no_panic), whole single-threaded tests (C122_test), necessity of a creation (C122_nothing_created)."
  }
 ]
}