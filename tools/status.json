{
"C02": ["proved", "Exact real arithmetic (exactEnv), set sizes >= 3; C02_small_sets_counterexample shows the bound 3 is needed."],
"C03": ["proved", "Exact real arithmetic, set sizes >= 2 in any order, any constant factor."],
"C04": ["partial", "True up to O(n^4) and for the set-resizing analysis (exact arithmetic); false in the exponential tier: C04_unit_counterexample."],
"C05": ["partial", "True for usage exactly k^n (all sizes > 0); false with a constant factor: C05_constant_factor_counterexample; exact condition: C05_constant_factor_iff."],
"C06": ["proved", "Assumes powf monotone in its base (PowfLaws), finite usages."],
"C07": ["proved", "For every arithmetic satisfying FloatLaws and the IEEE special values of log2."],
"C08": ["partial", "True for equal non-zero usage; false for zero usage (0/0 = NaN falls through every test): C08_counterexample, C08_zero_usage_is_worst, C08_zero_first_pass."],
"C100": ["proved", "container modelled as a set; passes whose threads divide their length (C100_warmup_misses, C43 show what happens otherwise)"],
"C101": ["proved", "panics inside the threads of a pass: C86"],
"C102": ["proved", "Assumes the iteration counts do not overflow u32 (NoOverflow); the text of one pass's memory and of one operation's report are those of C75 and C81."],
"C103": ["proved", ""],
"C104": ["proved", "Windows and reachability: exact arithmetic; C104_shipped_log_gap and C104_shipped_doubling_gap: binary64."],
"C105": ["proved", "Not guaranteed, both proved: C105_torn (several threads, one device), C105_flush_errors_ignored."],
"C106": ["proved", "all interleavings of the statistics' and the ring's atomic accesses; statistics relaxed (stale reads, spurious failures), ring sequentially consistent here (its own orderings: C89, C90); at most SIZE threads, fewer than 2^32 save points, no overrun request (needed: C106_overrun)"],
"C107": ["partial", "True with the loosest limit on space or none (for create and delete: at least BetweenOLogNAndON); false with any other: C107_regular_rejects, C107_async_rejects, C107_crud_rejects. ZeroPower is the IEEE rule 0^y = 0."],
"C108": ["proved", "Conditions are about the histories that are part of the run only. A ring buffer that hangs is modelled as a panic in meter (it does not happen under the conditions). Example: a world in which the whole heap history of the process is accounted for."],
"C109": ["proved", "The duration of the CRUD warm-up is only read when it is printed. Dry runs (test_run) are not covered."],
"C110": ["proved", "For CRUD tests: requested operations have at least 30 elements (retries may divide the counts by ten). Asynchronous tests: the type of the data is inhabited. Exponential limits as in C83."],
"C111": ["proved", "text, Display and io::Error conversion of the overflow error for every sequential history; with calls in flight the text may contradict itself (C111_concurrent_text_contradicts_itself, finding)"],
"C112": ["proved", "Exact arithmetic; C112_smooth_shipped: binary64, below O(n^4); C112_no_jump: any monotone rounding, from durations. The step must be small enough (SmallStep): with closer sizes some classes cannot be reported at all (C104)."],
"C113": ["proved", "liveness over infinite fair schedules; includes the proof that enqueue is not lock-free (a stopped enqueue blocks later ones)"],
"C114": ["proved", "liveness over infinite schedules with stale reads and spurious failures; heap calls and statistics need only the calling thread to keep running, save points need all threads"],
"C115": ["proved", "liveness over infinite schedules of the release/acquire model with stale loads and spurious failures; dequeue may end with the overflow-check panic of C90"],
"C116": ["proved", ""],
"C117": ["proved", "Conditions are about the histories that are part of the run only. OrdinaryTPass asks, as C116, that no call is under way and the measuring thread is up to date when it takes the save point and when it asks for the statistics (threads joined). A ring buffer that makes the request panic is a panic of the pass (it does not happen under the conditions). Example: two concrete passes of two threads, in a test that is accepted, and in one that is rejected."],
"C118": ["proved", "The maps' moves and all addresses are arbitrary; C118_race is a finding: the functions are not thread safe and nothing confines them to one thread (they are crate-internal, called by the reports)."],
"C119": ["proved", "closures modelled by what they do to a vector; the out-of-bounds theorem speaks of finished analyses: with a real vector the read panics instead"],
"C120": ["proved", "heap events of all threads in the order the allocator's counters are reached (C88 and C117 treat the atomic accesses themselves)"],
"C121": ["proved", "nothing going on when the save point is taken, no other thread in a save point or request; other threads' resizes to the same size excluded, with a concrete execution showing why"],
"C122": ["proved", "Analyses of even creations (C122_no_panic), whole single-threaded tests (C122_test), necessity of a creation (C122_nothing_created)."],
"C17": ["proved", "Rounding as specified by IEEE-754; powers as computed by multiplication (any order, or __powidf2); log2 and powf stay arbitrary."],
"C19": ["proved", "the error bounds for every unit and the order; with C73 after any history of calls. Negative values and NaN show no unit (C72)"],
"C20": ["proved", "exact whenever the live bytes fit a usize; modulo 2^64 otherwise"],
"C21": ["proved", "under TotalsFit: no count/byte total reaches 2^64 (since the save point in release builds, since process start with overflow checks)"],
"C22": ["proved", "extremes of the live bytes (spec liveTrace) for contract-respecting histories"],
"C23": ["proved", "needs fewer than 2^32 save points and TotalsFit; C23_wrapped_total_panics shows why"],
"C24": ["proved", "any placement of other save points, before and after"],
"C25": ["proved", "no contract assumption"],
"C26": ["proved", "relaxed-memory interleavings with stale reads and spurious CAS failures; counters and used memory modulo 2^64"],
"C27": ["partial", "false of the code: witnesses C27_peak_missed and C27_max_below_used (both with every read returning the newest value); proved instead: no value is invented and counters stay exact, in every interleaving"],
"C28": ["partial", "false of the code (statistics are updated before the system allocator is called): witness C28_refused_allocation_is_counted; proved instead: the error is exactly the refused bytes"],
"C30": ["proved", "Fewer than 2^32 enqueues (see C37), 0 < SIZE < 2^32."],
"C34": ["partial", "False for dequeue (C34_overflowed_consumer_recovers, every SIZE); true for peek_all while the consumer does not dequeue."],
"C35": ["proved", "Sequentially consistent interleavings, at most SIZE enqueues in flight (needed: C35_more_threads_than_slots_corrupts), fewer than 2^32 enqueues. The code's own memory orderings: see C89, C90."],
"C36": ["proved", "Sequentially consistent interleavings; the returned reference is read when dequeue returns. The code's own memory orderings: see C89, C90."],
"C37": ["partial", "False in overflow-checked builds (enqueue panics for good), for sizes not dividing 2^32 (peek_all returns wrong elements), and for dequeue in release builds when the pending elements straddle a multiple of 2^32 (it hangs). C37_release_exact_partial: with overflow checks off and SIZE dividing 2^32, everything else does what the log specification says, for any number of calls and consumers."],
"C38": ["partial", "False with an unpublished enqueue in flight (C38_peek_all_can_be_corrupted). C38_peek_all_exactly_partial says what is returned in every interleaving (each pending element, or the newer element already stored in its slot), C38_right_iff_partial when it is right; in particular whenever at most SIZE reservations lie beyond the consumer."],
"C40": ["proved", "all ranges/thread counts below 2^31, any interleaving, closure results arbitrary"],
"C41": ["proved", ""],
"C42": ["proved", ""],
"C43": ["partial", "False when threads does not divide (and does not exceed) the iterations: C43_counterexample. C43_delete_matches_create_partial proves the exact iff condition."],
"C44": ["proved", ""],
"C45": ["proved", ""],
"C46": ["proved", "The panic is proved; the documentation's promise of None is thereby false of the code."],
"C47": ["partial", "False: C47_both_lost_is_O1 and C47_first_lost_is_best show lost statistics giving a good verdict, C47_first_lost_is_best_shipped and C47_both_lost_is_O1_shipped with the shipped binary64 arithmetic, for all three space analyses, all set sizes and any library functions; true when only the second pass is lost (C47_second_lost_partial)."],
"C48": ["proved", "in exact arithmetic and in the shipped binary64; rounding of from_secs_f64 (ties to even) modelled; the bounds for (threads+3)*slowest < 2^50 ns"],
"C50": ["proved", "All environments (arbitrary measurements, closure panics); configurations whose u32 products do not overflow."],
"C51": ["proved", ""],
"C52": ["proved", "Exactly-once needs no u32 overflow; never-called holds in all cases."],
"C53": ["proved", ""],
"C54": ["partial", "False: max_retry_attempts = 0 accepts without running anything (C54_zero_attempts); counts below 10 are adapted to 0 on the second attempt (C54_tiny_counts), so a test whose first attempt is rejected then succeeds (C54_accepts_rejected)."],
"C55": ["proved", "In release builds only for counts up to 2/3 of the u32 range (beyond it the addition wraps)."],
"C56": ["proved", ""],
"C57": ["proved", "CRUD single attempt, whole test of regular algorithms, async single attempt. Whole CRUD tests with retries are not monotone in their limits (C57_not_for_crud_tests), which the property does not claim."],
"C58": ["proved", ""],
"C59": ["proved", ""],
"C60": ["proved", "keen_retry is modelled by its documented behaviour."],
"C61": ["proved", "Soundness for every environment; the iff needs closures that do not panic and plausible readings. keen_retry is modelled by its documented behaviour."],
"C62": ["partial", "Order proved for all runs (C62_order); recorded calls are those of the given closures (C62_genuine); data flow proved except for the reset after the warm-up, which the code gives no data: the documented flow is refuted for every builder with both closures (C62_reset_after_warmup)."],
"C63": ["partial", "Proved with a reset function; without one the code drops the data, proved for every such builder (C63_dropped)."],
"C64": ["proved", "Soundness for all environments; iff for closures that do not panic and plausible readings."],
"C65": ["partial", "False of the code: the auxiliary space limit and custom measurements have no influence at all (C65_not_enforced, for every builder); time and space limits are enforced (C65_enforced_partial)."],
"C66": ["proved", "Every option is the last value set; chains with the same last settings give the same analyzer."],
"C67": ["proved", "Panics in every configuration; only the prelude's closures are called; message proved for closures that do not panic."],
"C68": ["proved", "Measurers with pre-event values of one type; futures are calls."],
"C69": ["proved", ""],
"C70": ["proved", "binary64 arithmetic; text of numbers is a parameter."],
"C71": ["proved", "binary64 arithmetic; the thresholds 1/60 and 1/3600 are rounded, hence the 2^-51 relative error."],
"C72": ["partial", "False for negative values, NaN and the Default measurement (C72_no_unit_for_negatives, C72_no_unit_for_default); proved for all others."],
"C73": ["proved", "HashMap modelled as an association list; slices into it by their contents."],
"C74": ["partial", "False of the code: reports panic for an element count of zero, for create/delete sets of 2^31 or more (overflow checks), and when the first pass lost its statistics (overflow checks); each proved. C74_no_panic_partial: no report panics for plausible readings and durations and non-zero counts."],
"C75": ["proved", "binary32 arithmetic (C75_text_shipped); exact arithmetic as well (C75_text). Invisible changes lose the sign (C75_sign_lost). Number formatting of the standard library is a parameter."],
"C76": ["proved", "For readings below 2^62 bytes; with a lost first pass the checked build overflows (C76_lost_statistics_overflow), the wrapping one does not."],
"C77": ["proved", "binary64 arithmetic."],
"C78": ["proved", "binary64 arithmetic."],
"C79": ["proved", "All outcomes of the retry loop; previousErrors models the BTreeMap as a list of entries with ascending keys."],
"C80": ["partial", "False for selections with both tolerances or both reports (in particular any that adds tolerance_25_percent or report_stderr to the default features): exact characterisation of the selections that compile proved, and the values they select."],
"C81": ["proved", "Order and content for every produced report; time per element and memory totals in exact and in the shipped arithmetic; the duration and number formatting of the standard library are parameters."],
"C82": ["proved", "Exact arithmetic; non-zero first-pass usage (zero usage: C08); regular and read/update sizes >= 3 (smaller: C02, C07), create/delete >= 2."],
"C83": ["proved", "IEEE binary64 with round to nearest even modelled; accuracy 2^-48 of log2 and powi is a hypothesis (met by the ideal library, ideal_library). Limits up to O(n^4), all limits of create/delete: powf arbitrary. Limits BetweenON4AndOkN and OkN: powf accurate to 2^-48 (AccuratePowf, met by ideal_powf) and n2 <= 32 n1 (Covered); beyond that the base's rounding error, amplified by the exponent, is not bounded by one part in 2^40."],
"C84": ["proved", "Composition of C20-C22 with C82 (exact arithmetic) and with C83 (shipped arithmetic, up to one part in 2^40)."],
"C85": ["proved", "Assumes a maths library accurate to 2^-48 (AccurateLibrary; for exponential limits also AccuratePowf and n2 <= 32 n1). Three theorems (sound, rejects, accepts) for each of the three kinds of tests."],
"C86": ["proved", "The payload of the closure's panic is not part of the pass's panic message (it is shown as Any { .. })."],
"C87": ["proved", "Finished analyses; the even-division hypothesis is necessary for each-once (C41/C42 state what happens otherwise)."],
"C88": ["proved", "all interleavings, stale reads and spurious failures; the save point and the request for statistics run with nothing else going on in the exact part (what happens otherwise is C27), anything goes in the no-underflow part; the ring's enqueue, consumer and peek_all are one step each"],
"C89": ["proved", "view-based model of relaxed/acquire/release accesses (no load buffering)"],
"C90": ["partial", "false of the code: loads of published_tail and reserved_tail are Relaxed, so publication does not synchronise with the reader; witnesses for uninitialised reads (a data race), panic, spurious and missed overflow errors; proved instead: right results for threads synchronised by other means, and sequential consistency when threads take turns"],
"C91": ["proved", "Exact and shipped arithmetic. No panic unconditionally; the verdict part assumes the first pass used memory above its start; peaks are amounts really in use at some time (the largest amount need not be recorded when threads race: C88)."],
"C92": ["proved", "Fewer than 2^32 enqueues; concurrency: sequentially consistent interleavings, at most SIZE enqueues in flight."],
"C93": ["partial", "False of the code: the first SIZE enqueues drop uninitialised memory (undefined behaviour) and the last SIZE elements are never dropped (C93_uninitialised_dropped, any history); C93_exact gives the exact list of drops."],
"C94": ["proved", "Exact arithmetic. C94_small_sets_counterexample shows that 'large enough' cannot be dropped."],
"C95": ["partial", "Logarithmic cost: C95_log_partial needs 138 elements per pass (C95_log_quarter_partial: 7, with a tolerance of at least 25%). These numbers are exact for the two shipped tolerances: C95_log_counterexample and C95_log_counterexample_quarter show that with fewer elements it is false, and C95_log_thresholds_tenth/_quarter give the verdict for every number of elements. Large passes of logarithmic operations are reported as O(1) (C95_log_looks_constant). Constant, linear and quadratic costs are complete."],
"C96": ["proved", ""],
"C97": ["proved", ""],
"C98": ["proved", ""],
"C99": ["proved", ""]
}
