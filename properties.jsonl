{"id": "C01", "title": "Regular verdict is monotone in the second-pass usage", "statement": "For fixed first-pass usage u1 > 0 and fixed set sizes, raising the second-pass usage u2 never yields a better (lower) complexity verdict from analyse_complexity.", "quantifier": "all u1 > 0, all 0 <= u2 <= u2', all n1, n2 (any float, NaN and infinities included), every monotone rounding of the arithmetic, every result of log2/powi/powf, both tolerances", "why_tests_cant": "the smooth_transitions test walks one u2 line for one (u1,n1,n2); the claim ranges over all reals and all rounding behaviours", "anchors": ["src/low_level_analysis/low_level_analysis.rs: analyse_complexity"]}
{"id": "C02", "title": "Acceptance criterion of the polynomial tiers", "statement": "For set sizes 3 <= n1 <= n2 and u1 > 0, the verdict of analyse_complexity is at most class k (O(1), O(log n), O(n), O(n log n), O(n^2), O(n^3), O(n^4)) if and only if u2/u1 <= (1+tolerance) * f_k(n2)/f_k(n1). For whole sizes from 2 on the criterion holds unless the sizes are 2 and 3.", "quantifier": "all real u1 > 0, u2 >= 0, all sizes 3 <= n1 <= n2, all named classes up to O(n^4), both tolerances (exact arithmetic)", "why_tests_cant": "unit tests check a handful of points; an iff over a continuum of measurements cannot be enumerated", "anchors": ["src/low_level_analysis/low_level_analysis.rs: analyse_complexity"]}
{"id": "C03", "title": "No false alarm for on-model algorithms", "statement": "An algorithm whose measured growth is within the tolerance of a named class's ideal growth f(n2)/f(n1) is never reported as worse than that class.", "quantifier": "all u1 > 0, u2 >= 0, all n1, n2 >= 2 (in any order), all named classes up to O(n^4)", "why_tests_cant": "needs every measurement inside a continuous tolerance band", "anchors": ["src/low_level_analysis/low_level_analysis.rs: analyse_complexity"]}
{"id": "C04", "title": "Verdict does not depend on the measuring unit", "statement": "Multiplying both usages by the same positive factor (changing seconds to microseconds, bytes to KiB) does not change the verdict.", "quantifier": "all factors c > 0, all measurements, all sizes", "why_tests_cant": "an invariance over all real scale factors", "anchors": ["src/low_level_analysis/low_level_analysis.rs: analyse_complexity, analyse_set_resizing_iterator_complexity"]}
{"id": "C05", "title": "Exponential algorithms are recognised", "statement": "An algorithm whose usage is exactly k^n is never reported worse than O(k^n); the user also expects this for c*k^n with any constant factor c.", "quantifier": "all k > 0, c > 0, all sizes 0 < n1, n2", "why_tests_cant": "quantifies over all bases, constant factors and sizes", "anchors": ["src/low_level_analysis/low_level_analysis.rs: analyse_complexity (lines 41-47)"]}
{"id": "C06", "title": "Regular verdict is antitone in the first-pass usage", "statement": "Raising the first-pass usage (everything else fixed) never worsens the verdict.", "quantifier": "all finite 0 < u1 <= u1', u2 >= 0, all n1, n2 with n2/n1 >= 0, every monotone rounding with powf monotone in its base", "why_tests_cant": "continuum of inputs", "anchors": ["src/low_level_analysis/low_level_analysis.rs: analyse_complexity"]}
{"id": "C07", "title": "Degenerate set sizes hide growth", "statement": "With a first pass of a single element (n1 = 1, n2 >= 2) every finite growth is reported as at most 'between O(1) and O(log n)'; with n1 = 0 likewise; i.e. such a configuration can never make an O(log n)-or-looser limit fail.", "quantifier": "all u1 > 0, u2 >= 0, all n2 >= 2", "why_tests_cant": "needs all growths", "anchors": ["src/low_level_analysis/low_level_analysis.rs: analyse_complexity (lines 17-18)"]}
{"id": "C08", "title": "Equal usage on both passes is O(1)", "statement": "If both passes use the same amount of the resource the verdict is O(1) - in particular an algorithm that allocates nothing at all has O(1) space.", "quantifier": "all equal usages u >= 0, all set sizes", "why_tests_cant": "all values of u and n, including the 0/0 corner that no unit test exercises", "anchors": ["src/low_level_analysis/low_level_analysis.rs: analyse_complexity, analyse_set_resizing_iterator_complexity", "src/low_level_analysis/space_analysis.rs: analyse_space_complexity"]}
{"id": "C09", "title": "Set-resizing verdict is monotone in the second-pass usage", "statement": "For u1 > 0 and any delta set size, raising the second-pass usage never yields a better verdict from analyse_set_resizing_iterator_complexity.", "quantifier": "all u1 > 0, 0 <= u2 <= u2' (u2 not the float -0), all n, every monotone rounding, every log2", "why_tests_cant": "one sampled line in the tests", "anchors": ["src/low_level_analysis/low_level_analysis.rs: analyse_set_resizing_iterator_complexity"]}
{"id": "C10", "title": "Acceptance criterion of the set-resizing analysis", "statement": "For n >= 2 and u1 > 0: verdict at most O(1) iff u2/u1 <= 1+tol; at most O(log n) iff u2/u1 <= 1+tol or u2/u1 < (1+tol)*log(3n)/log(n); at most O(n) iff u2/u1 <= 3(1+tol) or u2/u1 < (1+tol)*log(3n)/log(n).", "quantifier": "all u1 > 0, u2 >= 0, all n >= 2", "why_tests_cant": "continuum", "anchors": ["src/low_level_analysis/low_level_analysis.rs: analyse_set_resizing_iterator_complexity"]}
{"id": "C11", "title": "Set-resizing verdict ceiling", "statement": "No measurements whatsoever make a set-resizing (create/delete) analysis report anything worse than 'between O(n) and O(n log n)', so a limit at or above that class can never reject.", "quantifier": "all inputs including NaN/infinite/zero usages", "why_tests_cant": "all inputs", "anchors": ["src/low_level_analysis/low_level_analysis.rs: analyse_set_resizing_iterator_complexity"]}
{"id": "C12", "title": "Order of set sizes is irrelevant for constant-set analyses", "statement": "Swapping pass_1_set_size and pass_2_set_size does not change the time or space verdict of a constant-set iterator algorithm; repetitions have no influence.", "quantifier": "all set sizes and measurements", "why_tests_cant": "all pairs", "anchors": ["src/low_level_analysis/time_analysis.rs: analyse_time_complexity_for_constant_set_iterator_algorithm", "src/low_level_analysis/space_analysis.rs: analyse_space_complexity_for_constant_set_iterator_algorithm"]}
{"id": "C13", "title": "Space verdict depends only on the peak above the baseline", "statement": "Shifting all memory readings of a pass by the same amount, or changing used_memory_after / min_used_memory, does not change any space verdict; the analysis panics (overflow-checked builds) exactly when some pass has peak < baseline.", "quantifier": "all memory readings", "why_tests_cant": "all usize quadruples", "anchors": ["src/low_level_analysis/space_analysis.rs: analyse_space_complexity, analyse_space_complexity_for_constant_set_iterator_algorithm, analyse_space_complexity_for_set_resizing_iterator_algorithm"]}
{"id": "C14", "title": "Time verdict is monotone in the second-pass duration", "statement": "A longer second pass never gives a better time verdict, through the Duration -> f64 conversion, for the three time analyses.", "quantifier": "all durations below 2^53 seconds with a non-zero first pass, all set sizes, every lawful rounding", "why_tests_cant": "all durations and rounding effects", "anchors": ["src/low_level_analysis/time_analysis.rs: analyse_time_complexity, analyse_time_complexity_for_constant_set_iterator_algorithm, analyse_time_complexity_for_set_resizing_iterator_algorithm"]}
{"id": "C15", "title": "Numeric order of verdicts is the asymptotic order", "statement": "The enum order used by every acceptance check (as u32 comparison) agrees with asymptotic growth: a function of the class a verdict stands for (the named classes, those strictly between two named ones, below O(1), above exponential) is little-o of any function of any later verdict's class.", "quantifier": "all pairs of verdicts and all functions in their classes, all exponential bases k > 1", "why_tests_cant": "asymptotic statement", "anchors": ["src/low_level_analysis/types/types.rs: BigOAlgorithmComplexity"]}
{"id": "C16", "title": "Verdict texts are unambiguous and name the right class", "statement": "Two different verdicts never have the same text, in the plain, time and space renderings. The plain text and the identifier printed in failure messages, read by someone who knows only the names of the complexity classes, say of a growth function exactly what the verdict stands for; the time and space renderings are the plain text except that the two extreme verdicts carry an extra hint.", "quantifier": "all pairs of verdicts, all growth functions and bases of the exponential class", "why_tests_cant": "finite, but exhaustive over the three renderings; a test only prints them", "anchors": ["src/low_level_analysis/types/types_impl.rs: as_pretty_str, as_time_pretty_str, as_space_pretty_str"]}
{"id": "C17", "title": "The real binary64 rounding satisfies the assumptions", "statement": "IEEE-754 binary64 round-to-nearest-even is monotone, exact on integers up to 2^53, has relative error at most 2^-53 in the normal range, and the tolerance constants behave, so C01/C09/C14 hold of the shipped f64 arithmetic; and the second, third and fourth powers of numbers between 2^-64 and 2^64, computed by at most eight multiplications, have a relative error of at most 2^-48.", "quantifier": "all reals", "why_tests_cant": "all reals", "anchors": ["src/low_level_analysis/low_level_analysis.rs: f64 arithmetic", "src/features.rs: PERCENT_TOLERANCE"]}
{"id": "C18", "title": "Space verdict is monotone in the second-pass peak", "statement": "With the same baseline, a higher second-pass peak memory never yields a better space verdict, for the three space analyses.", "quantifier": "all readings with peak >= baseline (first pass peak > baseline), all set sizes, both build profiles, every arithmetic satisfying the float laws", "why_tests_cant": "ranges over all pairs of readings and rounding of usize to f64", "anchors": ["src/low_level_analysis/space_analysis.rs: analyse_space_complexity, analyse_space_complexity_for_constant_set_iterator_algorithm, analyse_space_complexity_for_set_resizing_iterator_algorithm"]}
{"id": "C19", "title": "A measurement can be read back, and compared, from its text", "statement": "The text of bytes_measurement, bytes_per_second_measurement, custom_unit_measurement and custom_unit_per_second_measurement, read by a person (number, possibly in scientific notation, times unit), is the measured value: to half a byte below 1 KiB and one part in 200 above for bytes; to one part in 199 for rates from one per hour on (less than one per hour away below); to half of the last digit for custom quantities (two decimals from 1 to 100000, four significant digits above, whole numbers below 1). Of two measurements of the same kind the smaller never reads as the larger, across changes of unit and of notation. duration_measurement reads as the duration to the nanosecond. For custom units this holds after any history of calls.", "quantifier": "all non-negative binary64 values, all durations below 2^51 ns, all units, all histories of calls, any rule for ties in rounding to decimals", "why_tests_cant": "all values, all pairs of values and all histories", "anchors": ["src/utils/measurements/presentable_measurements.rs: Display, bytes_measurement, bytes_per_second_measurement, custom_unit_measurement, custom_unit_per_second_measurement, duration_measurement"]}
{"id": "C20", "title": "Used memory equals live bytes", "statement": "After any history of alloc/alloc_zeroed/realloc/dealloc calls that respects the GlobalAlloc contract and never fails, current_used_memory equals the total size of the live blocks.", "quantifier": "all contract-respecting histories of any length", "why_tests_cant": "all histories", "anchors": ["src/metrics_allocator/metrics_allocator.rs: GlobalAlloc for MetricsAllocator, compute_*_metrics"]}
{"id": "C21", "title": "Delta counters are exact", "statement": "delta_statistics(save_point) reports exactly the number of allocations, deallocations, zeroed allocations, reallocations and the bytes of each that happened after that save_point call.", "quantifier": "all histories before and after the save point, any interposed save points (at most the ring size); fewer than 2^32 save points in all, totals that fit a usize (since the save point; since process start when overflow checks are on)", "why_tests_cant": "all histories", "anchors": ["src/metrics_allocator/metrics_allocator.rs: save_point, delta_statistics"]}
{"id": "C22", "title": "Delta min/max are the true extremes", "statement": "delta_statistics reports min/max used memory equal to the minimum/maximum of the used memory over all instants from the save point until now, however many (at most ring-size) other save points were taken in between.", "quantifier": "all contract-respecting histories without refused calls, all placements of other save points (at most the ring size, fewer than 2^32 in all), totals and live bytes that fit a usize", "why_tests_cant": "all histories and nestings", "anchors": ["src/metrics_allocator/metrics_allocator.rs: save_point, delta_statistics, compute_min_and_max_used_memories"]}
{"id": "C23", "title": "Delta fails exactly when too many save points followed", "statement": "delta_statistics returns an error iff more than RING_BUFFER_SIZE save points were taken after the given one; otherwise it succeeds; it never panics.", "quantifier": "all histories with fewer than 2^32 save points and totals that fit a usize (since the save point; since process start when overflow checks are on)", "why_tests_cant": "all histories", "anchors": ["src/metrics_allocator/metrics_allocator.rs: delta_statistics", "src/metrics_allocator/ring_buffer.rs: peek_all"]}
{"id": "C24", "title": "Save points do not disturb each other", "statement": "Inserting or removing an additional save point anywhere after a given save point does not change the statistics reported for it (while within the ring size).", "quantifier": "all histories, all insertion positions; fewer than 2^32 save points, totals that fit a usize", "why_tests_cant": "all histories", "anchors": ["src/metrics_allocator/metrics_allocator.rs: save_point, delta_statistics"]}
{"id": "C25", "title": "Readings are ordered: min <= before, after <= max", "statement": "For every save point, min_used <= used at save point, used now <= max_used; hence the later subtractions peak-before and before-min of the analysis and of the report never underflow.", "quantifier": "all single-threaded histories with fewer than 2^32 save points and totals that fit a usize, contract-respecting or not", "why_tests_cant": "all histories", "anchors": ["src/metrics_allocator/metrics_allocator.rs: delta_statistics", "src/low_level_analysis/space_analysis.rs: analyse_space_complexity", "src/low_level_analysis/types/types_impl.rs: fmt_over_n"]}
{"id": "C26", "title": "Concurrent allocations: counters are exact and extremes sound", "statement": "With any number of threads allocating and freeing in any interleaving (no save point running), when all threads are done the counters and used memory are the exact sums, min <= used <= max, and every reported extreme is a value the used memory really had.", "quantifier": "all thread counts, all operation sequences, all interleavings, stale reads and spurious compare-exchange failures included; counters modulo 2^64", "why_tests_cant": "schedules cannot be enumerated", "anchors": ["src/metrics_allocator/metrics_allocator.rs: compute_min_and_max_used_memories, compute_*_metrics"]}
{"id": "C27", "title": "Concurrent save_point keeps max >= used", "statement": "The user relies on max_used >= used memory even when another thread allocates while save_point runs, and on the peak not being missed under concurrency.", "quantifier": "all interleavings of save_point with allocations", "why_tests_cant": "rare interleaving", "anchors": ["src/metrics_allocator/metrics_allocator.rs: save_point (lines 150-151), compute_min_and_max_used_memories"]}
{"id": "C28", "title": "Allocation failures are not counted as used memory", "statement": "If the system allocator returns null for an allocation, used memory should not grow.", "quantifier": "all histories with failing allocations", "why_tests_cant": "out-of-memory is not exercised by tests", "anchors": ["src/metrics_allocator/metrics_allocator.rs: alloc, alloc_zeroed, realloc"]}
{"id": "C30", "title": "Ring buffer refines a log with cursors", "statement": "Any sequence of enqueue / new consumer / dequeue / peek_all operations on any number of consumers gives exactly the outputs of a simple specification: an append-only log and one cursor per consumer, with an error when more than SIZE elements are pending.", "quantifier": "all operation sequences with fewer than 2^32 enqueues, any size 0 < SIZE < 2^32, any number of consumers", "why_tests_cant": "all histories", "anchors": ["src/metrics_allocator/ring_buffer.rs: RingBuffer::enqueue, consumer, RingBufferConsumer::dequeue, peek_all"]}
{"id": "C31", "title": "FIFO delivery", "statement": "A consumer that never falls more than SIZE behind receives, through dequeue, exactly the elements enqueued after its creation, each once, in order.", "quantifier": "all histories of enqueues and dequeues that keep the backlog <= SIZE", "why_tests_cant": "all histories", "anchors": ["src/metrics_allocator/ring_buffer.rs: dequeue"]}
{"id": "C32", "title": "Consumers are independent", "statement": "Operations of one consumer never change what another consumer receives.", "quantifier": "all histories, all pairs of consumers", "why_tests_cant": "all histories", "anchors": ["src/metrics_allocator/ring_buffer.rs: RingBufferConsumer"]}
{"id": "C33", "title": "peek_all is non-destructive and complete", "statement": "peek_all returns (as the concatenation of its two slices) exactly the pending elements in order when at most SIZE are pending, an error otherwise, and changes nothing.", "quantifier": "all reachable states", "why_tests_cant": "all wrap-around positions", "anchors": ["src/metrics_allocator/ring_buffer.rs: peek_all"]}
{"id": "C34", "title": "An overflowed consumer stays invalid", "statement": "As documented on RingBufferOverflowError: once a consumer has overflowed, any further operation on it yields the same error.", "quantifier": "all histories after an overflow", "why_tests_cant": "all continuations", "anchors": ["src/metrics_allocator/ring_buffer.rs: dequeue (lines 126-132), RingBufferOverflowError docs"]}
{"id": "C35", "title": "Concurrent enqueues: no panic, no loss, no corruption", "statement": "With at most SIZE enqueue calls in flight, in any interleaving, no enqueue panics, the published elements are a prefix of the reservation order, and each published slot among the last SIZE reservations holds the element that was enqueued for it.", "quantifier": "all thread counts, all interleavings (including spurious CAS failures), fewer than 2^32 enqueues", "why_tests_cant": "schedules cannot be enumerated", "anchors": ["src/metrics_allocator/ring_buffer.rs: enqueue"]}
{"id": "C36", "title": "Concurrent dequeues: each element at most once, right value", "statement": "Threads sharing one consumer, concurrently with producers, never receive the same element twice, receive elements in order of their claims, and at the moment dequeue returns Ok(Some(e)) e is the element enqueued at that position.", "quantifier": "all interleavings of producers and consumers with at most SIZE enqueues in flight", "why_tests_cant": "schedules", "anchors": ["src/metrics_allocator/ring_buffer.rs: dequeue"]}
{"id": "C37", "title": "The 32-bit counters may wrap", "statement": "The user may expect the ring buffer to keep working after 2^32 enqueues.", "quantifier": "states at the 2^32 boundary", "why_tests_cant": "4 billion operations", "anchors": ["src/metrics_allocator/ring_buffer.rs: enqueue, dequeue, peek_all"]}
{"id": "C38", "title": "peek_all detects overwritten slots under concurrency", "statement": "When peek_all returns Ok, the slices hold exactly the pending elements even if enqueues are in flight.", "quantifier": "all interleavings", "why_tests_cant": "schedules", "anchors": ["src/metrics_allocator/ring_buffer.rs: peek_all"]}
{"id": "C40", "title": "Every element of a pass is processed exactly once", "statement": "When the number of threads divides the range length, a pass calls the algorithm exactly once for each number of the range, whatever the interleaving of threads.", "quantifier": "all ranges below 2^31, all thread counts dividing the length, all interleavings, both algorithm types", "why_tests_cant": "all sizes, thread counts and schedules", "anchors": ["src/runners/common.rs: run_iterator_pass, thread_loop"]}
{"id": "C41", "title": "Each thread works on one contiguous, private range", "statement": "Each thread calls the algorithm on consecutive numbers of one contiguous range, and ranges of different threads are disjoint and inside the pass range.", "quantifier": "all ranges below 2^31, all thread counts >= 1", "why_tests_cant": "all combinations", "anchors": ["src/runners/common.rs: run_iterator_pass"]}
{"id": "C42", "title": "Remainder elements", "statement": "When the thread count does not divide the length, exactly (length mod threads) elements are skipped; an ascending pass skips the lowest ones and a descending (delete) pass the highest ones.", "quantifier": "all ranges below 2^31, all thread counts >= 1", "why_tests_cant": "all combinations", "anchors": ["src/runners/common.rs: run_iterator_pass"]}
{"id": "C43", "title": "Delete passes remove exactly what create passes inserted", "statement": "For equal iterations and threads, the elements given to the delete closure over its two passes are exactly the elements given to the create closure over its two passes.", "quantifier": "all iteration counts and thread counts", "why_tests_cant": "all combinations; the existing test only uses divisors", "anchors": ["src/runners/crud.rs: calc_regular_cru_range, calc_regular_d_range", "src/runners/common.rs: run_iterator_pass"]}
{"id": "C44", "title": "Processing order inside a thread", "statement": "A thread of a non-empty ascending pass range processes its numbers in strictly descending order, and of a descending (delete) range in strictly ascending order.", "quantifier": "all ranges below 2^31, all thread counts", "why_tests_cant": "all combinations", "anchors": ["src/runners/common.rs: run_iterator_pass, thread_loop"]}
{"id": "C45", "title": "Pass checksum is schedule independent", "statement": "For a deterministic closure, the computed number returned by a pass does not depend on the interleaving and equals (start+1) xor all range ends xor all closure results.", "quantifier": "all closures, ranges, thread counts", "why_tests_cant": "all schedules", "anchors": ["src/runners/common.rs: run_iterator_pass"]}
{"id": "C46", "title": "A pass with zero threads is rejected, never silently skipped", "statement": "run_iterator_pass with threads = 0 panics for every range; the CRUD documentation instead promises a None analysis for 0 threads.", "quantifier": "all ranges", "why_tests_cant": "all inputs", "anchors": ["src/runners/common.rs: run_iterator_pass (line 125)", "src/runners/crud.rs: analyse_crud_algorithms docs"]}
{"id": "C47", "title": "Lost statistics are made visible", "statement": "When the allocator cannot report (too many save points), the pass carries the sentinel readings 0/usize::MAX; the user relies on this never being mistaken for a good verdict.", "quantifier": "all set sizes and both analysis kinds", "why_tests_cant": "needs ring overflow inside a pass", "anchors": ["src/runners/common.rs: run_iterator_pass, run_sync_pass, run_async_pass (Err branches)", "src/low_level_analysis/space_analysis.rs"]}
{"id": "C48", "title": "Reported pass time is the mean thread time", "statement": "The time of an iterator pass is the average of its threads' times, to the nanosecond: it lies between the fastest and slowest thread and equals the thread's time for one thread, in spite of the f64 arithmetic it is computed with.", "quantifier": "all thread counts up to 2^31 and plausible durations, binary64 arithmetic (error bound (threads+3)/2^51 relative plus half a nanosecond; the bounds hold whenever (threads+3)*slowest < 2^50 ns)", "why_tests_cant": "all", "anchors": ["src/runners/common.rs: run_iterator_pass (lines 135-147)"]}
{"id": "C50", "title": "CRUD phase order", "statement": "A CRUD analysis that is not aborted runs: [warm-up create, read, update, delete, reset], create/read/update of pass 1, create/read/update of pass 2, delete of pass 2, delete of pass 1, skipping operations with 0 iterations, each with its documented range and thread count.", "quantifier": "all configurations without arithmetic overflow, all measurements", "why_tests_cant": "all configurations", "anchors": ["src/runners/crud.rs: internal_analyse_crud_algorithms"]}
{"id": "C51", "title": "Operations with zero iterations are never called and have no analysis", "statement": "If an operation's iterations_per_pass is 0 its closure is never called and its analysis is None; otherwise its analysis is Some.", "quantifier": "all configurations, all measurements", "why_tests_cant": "all configurations", "anchors": ["src/runners/crud.rs: internal_analyse_crud_algorithms, analyse_crud_algorithms docs"]}
{"id": "C52", "title": "Reset is called exactly when warming up", "statement": "analyse_crud_algorithms calls reset_fn exactly once if warmup_percentage > 0, after all warm-up calls and before the first pass, with the number of warmed-up creations, and never otherwise.", "quantifier": "all configurations and measurements", "why_tests_cant": "all", "anchors": ["src/runners/crud.rs: internal_analyse_crud_algorithms"]}
{"id": "C53", "title": "Retry loop acceptance", "statement": "test_crud_algorithms succeeds iff some attempt k < max_retry_attempts meets all limits, all earlier attempts failed on Time and the reset_fn(100) after each of them returned; it makes at most max_retry_attempts attempts, stops at the first non-Time failure or panicking reset, and resets with 100 between attempts.", "quantifier": "all attempt outcomes sequences, all max_retry_attempts >= 1, all closures and reset_fn, panicking or not", "why_tests_cant": "all histories", "anchors": ["src/runners/crud.rs: test_crud_algorithms"]}
{"id": "C54", "title": "At least one measurement is made", "statement": "A successful test_crud_algorithms run has measured every requested operation.", "quantifier": "all configurations, including max_retry_attempts = 0 and tiny iteration counts", "why_tests_cant": "corner configurations", "anchors": ["src/runners/crud.rs: test_crud_algorithms, adapt"]}
{"id": "C55", "title": "Adapted iteration counts stay in range", "statement": "The iteration count used on retry attempt a is never more than 1.5 times and never less than a tenth (rounded down) of the requested one, equals it on attempt 0, and computing it never divides by zero.", "quantifier": "all attempts, all iteration counts (in release builds, without overflow checks: counts up to 2/3 of the u32 range)", "why_tests_cant": "all attempts", "anchors": ["src/runners/crud.rs: adapt"]}
{"id": "C56", "title": "analyse_crud_algorithms never fails because of complexity", "statement": "With no limits given, no measurement can make the analysis return an error (its unwrap never panics).", "quantifier": "all measurements", "why_tests_cant": "all measurements", "anchors": ["src/runners/crud.rs: analyse_crud_algorithms"]}
{"id": "C57", "title": "Loosening limits never turns acceptance into rejection", "statement": "If an analysis is accepted under some limits it is accepted under any looser limits for the same measurements (CRUD single attempt, regular and async single attempt).", "quantifier": "all measurements, all pairs of limits", "why_tests_cant": "all", "anchors": ["src/runners/crud.rs: yield_analysis_or_return_with_error", "src/runners/standard.rs: analyse_algorithm", "src/api/builders/regular_async_builder.rs: raw_analyse_algorithm"]}
{"id": "C58", "title": "Accepted means within limits", "statement": "If a CRUD analysis succeeds, every produced analysis has time and space verdicts within the requested limits, and these verdicts are those of the two measured passes of that operation.", "quantifier": "all measurements and configurations", "why_tests_cant": "all", "anchors": ["src/runners/crud.rs: internal_analyse_crud_algorithms"]}
{"id": "C59", "title": "Full report is the emitted output", "statement": "The returned full report is exactly the concatenation of everything the analysis sent to the output sink, and contains each produced analysis.", "quantifier": "all configurations", "why_tests_cant": "all", "anchors": ["src/runners/crud.rs: internal_analyse_crud_algorithms (_output)"]}
{"id": "C60", "title": "Regular test: attempts and call order", "statement": "test_algorithm makes between 1 and max_retry_attempts+1 attempts, each calling reset, pass 1 and pass 2 exactly once in that order; it retries only after a time-only mismatch.", "quantifier": "all measurements, all max_retry_attempts", "why_tests_cant": "all histories", "anchors": ["src/runners/standard.rs: test_algorithm, analyse_algorithm"]}
{"id": "C61", "title": "Regular test acceptance", "statement": "test_algorithm returns normally iff one of its attempts is within both limits and all earlier attempts were within the space limit but not the time limit; otherwise it panics.", "quantifier": "all measurement histories", "why_tests_cant": "all histories", "anchors": ["src/runners/standard.rs: test_algorithm, analyse_algorithm"]}
{"id": "C62", "title": "Async builder: order and data flow", "statement": "Each attempt runs reset, warm-up, reset, first pass, its assertion, reset, second pass, its assertion (absent steps skipped), each step receiving the data produced by the step before it as documented.", "quantifier": "all configurations of optional steps, all data", "why_tests_cant": "all combinations", "anchors": ["src/api/builders/regular_async_builder.rs: raw_analyse_algorithm"]}
{"id": "C63", "title": "Async builder: retry threads the data", "statement": "On a retry the reset function receives the data of the previous attempt's second pass; the user may expect the same of a builder without a reset function.", "quantifier": "all configurations, all retry counts", "why_tests_cant": "all", "anchors": ["src/api/builders/regular_async_builder.rs: test_algorithm, raw_analyse_algorithm"]}
{"id": "C64", "title": "Async builder acceptance", "statement": "test_algorithm of the builder succeeds iff some attempt among the first max_reattempts+1 is within the configured limits and all earlier ones were time-only failures; an unset limit never rejects.", "quantifier": "all histories", "why_tests_cant": "all", "anchors": ["src/api/builders/regular_async_builder.rs: test_algorithm"]}
{"id": "C65", "title": "Every configured limit is enforced", "statement": "Limits given through with_auxiliary_space_measurements and add_custom_measurement influence the verdict.", "quantifier": "all configurations", "why_tests_cant": "all", "anchors": ["src/api/builders/regular_async_builder.rs: with_auxiliary_space_measurements, add_custom_measurement, raw_analyse_algorithm"]}
{"id": "C66", "title": "Builder options are order independent", "statement": "Setting different options in any order gives the same analyzer; setting the same option twice keeps the last value; custom measurements keep declaration order.", "quantifier": "all sequences of builder calls", "why_tests_cant": "all sequences", "anchors": ["src/api/builders/regular_async_builder.rs: builder methods"]}
{"id": "C67", "title": "Missing passes are rejected", "statement": "Running a builder without first_pass or second_pass panics (after any reset/warm-up ran), for every configuration.", "quantifier": "all configurations", "why_tests_cant": "all", "anchors": ["src/api/builders/regular_async_builder.rs: raw_analyse_algorithm (lines 113-114)"]}
{"id": "C68", "title": "Custom measurers are nested around the event", "statement": "Pre-event measurers run in reverse declaration order and post-event ones in declaration order (properly nested), each post measurer receives exactly its own latest pre value, results are in declaration order with their names; a post measurement without a pre one panics.", "quantifier": "all lists of measurers, all numbers of rounds", "why_tests_cant": "all lists", "anchors": ["src/utils/measurements/measurer.rs: measure_all_before_event, measure_all_after_event, CustomMeasurer"]}
{"id": "C69", "title": "The figures of a report can be read back", "statement": "A report, split at line ends and spaces, is a title with the algorithm's name, a header, one row per pass, and the two verdicts. Read by a person (number times unit), the duration in a row is the measured duration exactly, counts are exact, memory amounts are the measured ones up to 0.005 bytes and half a per cent, and times per element are right up to a nanosecond and one part in 1999. Two reports of the same kind (regular algorithm, read or update, create or delete) with the same text have the same name, durations, counts, time verdict and space verdict.", "quantifier": "all names without line ends, all durations below 2^53 seconds, all memory readings below 2^62 bytes, all counts from 1 to 2^32-1 (2^31-1 for create and delete), every tie-breaking rule of the number formatting", "why_tests_cant": "The unit tests print a few reports for manual inspection; that every figure survives scaling, f32 rounding, decimal rounding and column padding concerns all values.", "anchors": ["src/low_level_analysis/types/types_impl.rs: Display for AlgorithmMeasurements, ConstantSetIteratorAlgorithmMeasurements, SetResizingIteratorAlgorithmMeasurements, BigOSpaceMeasurements; fmt_over_n"]}
{"id": "C70", "title": "Byte quantities are scaled to the right unit", "statement": "For every value v >= 0, bytes_measurement displays v/scale with the largest unit not exceeding v, so the shown number is in [1,1024) for KiB..GiB (and v >= 1 for b), and scaled*scale = v.", "quantifier": "all v >= 0", "why_tests_cant": "all reals", "anchors": ["src/utils/measurements/presentable_measurements.rs: bytes_measurement, Display"]}
{"id": "C71", "title": "Rates are scaled to the right unit", "statement": "bytes_per_second and custom_unit_per_second scale so that the displayed number times the unit's factor is the value, choosing /s, /min, /hr by thresholds.", "quantifier": "all v >= 0", "why_tests_cant": "all reals", "anchors": ["src/utils/measurements/presentable_measurements.rs: bytes_per_second_measurement, custom_unit_per_second_measurement"]}
{"id": "C72", "title": "A unit is always shown", "statement": "For every value a unit suffix is shown.", "quantifier": "all values including negative and NaN", "why_tests_cant": "all", "anchors": ["src/utils/measurements/presentable_measurements.rs: Display"]}
{"id": "C73", "title": "Custom unit caches are transparent", "statement": "The display of a custom-unit measurement depends only on its value and unit, not on which units were used before.", "quantifier": "all histories of calls", "why_tests_cant": "all histories", "anchors": ["src/utils/measurements/presentable_measurements.rs: custom_unit_measurement, custom_unit_per_second_measurement"]}
{"id": "C74", "title": "Reports never panic", "statement": "Formatting an analysis result never panics.", "quantifier": "all set sizes and durations", "why_tests_cant": "corner sizes such as 0", "anchors": ["src/low_level_analysis/types/types_impl.rs: Display for AlgorithmMeasurements, ConstantSetIteratorAlgorithmMeasurements, SetResizingIteratorAlgorithmMeasurements"]}
{"id": "C75", "title": "Memory amounts in reports use the right unit and sign", "statement": "fmt_over_n shows a sign, an amount and a unit. '+' appears only if memory use grew and '-' only if it shrank; conversely the sign is shown whenever the change is visible in f32 (readings up to 16 MiB, or a change above one part in 2^22 of the larger reading). The amount is the larger excursion from the starting memory per element, to one part in 2^22, in b/KiB/MiB/GiB chosen so that the shown number is in (1,1024] for KiB and MiB.", "quantifier": "all plausible readings, all n from 1 to 2^32, shipped binary32 arithmetic", "why_tests_cant": "all", "anchors": ["src/low_level_analysis/types/types_impl.rs: fmt_over_n, to_human_readable_string"]}
{"id": "C76", "title": "Memory totals in reports", "statement": "used_memory_delta is the sum over passes of (after - before); used_auxiliary_space is the sum over passes of peak - max(before, after), without overflow for readings of the allocator.", "quantifier": "all readings with before, after <= max", "why_tests_cant": "all", "anchors": ["src/low_level_analysis/types/types_impl.rs: used_memory_delta, used_auxiliary_space"]}
{"id": "C80", "title": "Every feature selection picks exactly one tolerance and one output", "statement": "For every subset of the cargo features exactly one PERCENT_TOLERANCE, one OUTPUT and one ALLOC definition is active.", "quantifier": "all 2^k feature subsets", "why_tests_cant": "feature combinations are not all compiled by tests", "anchors": ["src/features.rs", "Cargo.toml"]}
{"id": "C77", "title": "Measured durations are shown unaltered", "statement": "duration_measurement(d) displays exactly the Debug text of d for every duration below 2^51 ns (26 days): the conversions to f64 seconds and back lose nothing.", "quantifier": "all durations below 2^51 ns", "why_tests_cant": "all durations", "anchors": ["src/utils/measurements/presentable_measurements.rs: duration_measurement, Display"]}
{"id": "C78", "title": "Custom quantities are shown unscaled", "statement": "custom_unit_measurement(v, unit) displays v itself followed by the unit, in scientific notation from 100000 on, with 2 decimals from 1 on and none below, for every v >= 0.", "quantifier": "all v >= 0, all units", "why_tests_cant": "all reals", "anchors": ["src/utils/measurements/presentable_measurements.rs: custom_unit_measurement, Display"]}
{"id": "C79", "title": "A failed CRUD test says what went wrong, and summarises every earlier attempt", "statement": "If test_crud_algorithms does not return normally, the panic is the one raised in its last attempt or by the reset_fn that follows it, or a message naming that attempt's non-time rejection, or, after max_retry_attempts time rejections, a message naming the last rejection and listing every distinct (operation, class) of the earlier ones exactly once, in descending order, with the number of attempts that failed so.", "quantifier": "all sequences of attempt outcomes, panics of closures and of reset_fn included, all max_retry_attempts >= 1", "why_tests_cant": "all failure histories", "anchors": ["src/runners/crud.rs: test_crud_algorithms"]}
{"id": "C81", "title": "Reports show each pass's own numbers and both verdicts", "statement": "The text of an analysis shows, in this order: the name; for pass 1 and then pass 2 its number, elapsed time, memory, its own element count(s), (regular tests) memory per element, and time per element; the time verdict; the space verdict; the memory totals. The time per element is elapsed/n to the nearest nanosecond; the totals are the growth of both passes ('allocated', or 'freed' if negative) and the auxiliary space.", "quantifier": "all measurements, verdicts and names for which the report is produced (no panic); create/delete sets below 2^31 elements (beyond, 2n does not fit: C74); memory totals for plausible readings, in binary32", "why_tests_cant": "the text is never compared by tests; the claim is for all measurements", "anchors": ["src/low_level_analysis/types/types_impl.rs: Display for BigOAlgorithmAnalysis, AlgorithmMeasurements, ConstantSetIteratorAlgorithmMeasurements, SetResizingIteratorAlgorithmMeasurements, BigOSpaceMeasurements"]}
{"id": "C82", "title": "Acceptance of the six analyses, from measurements to limit", "statement": "A time or space analysis accepts (the verdict is at most the limit) exactly when the growth of the usage of THAT resource between the passes, relative to the growth of the sizes of THOSE passes, is within the tolerance of the growth the limit allows.", "quantifier": "all measurements with positive usages, all limits, all tolerances in (0,1), sizes >= 3 (exact arithmetic)", "why_tests_cant": "a continuum of measurements", "anchors": ["src/low_level_analysis/time_analysis.rs", "src/low_level_analysis/space_analysis.rs", "src/low_level_analysis/types/types_impl.rs"]}
{"id": "C83", "title": "Shipped f64 verdicts follow the limits up to one part in 2^40", "statement": "With IEEE binary64 arithmetic and a maths library accurate to 2^-48, a usage below the limit by one part in 2^40 is accepted and one above it by one part in 2^40 is rejected: for limits up to O(n^4) whatever powf returns, and for the exponential limits too if powf is accurate to 2^-48 and the second set is at most 32 times larger than the first.", "quantifier": "all measurements in the plausible range, all limits, the shipped tolerances", "why_tests_cant": "rounding errors on all inputs", "anchors": ["src/low_level_analysis/time_analysis.rs", "src/low_level_analysis/space_analysis.rs", "src/features.rs: PERCENT_TOLERANCE"]}
{"id": "C84", "title": "A pass reports the true live bytes, and the space verdict follows the peaks", "statement": "A measured pass reports the bytes live before it, after it, and the extremes over every instant of it; and the space verdict over two such passes is within the limit exactly when the peaks above the starting bytes meet the limit.", "quantifier": "all histories of heap calls before, during and between the passes (live bytes below 2^64, nested save points within the ring), all limits, all sizes >= 3", "why_tests_cant": "it composes the allocator, the pass and the analysis over all heap histories", "anchors": ["src/runners/common.rs: run_sync_pass", "src/metrics_allocator.rs: save_point, delta_statistics", "src/low_level_analysis/space_analysis.rs"]}
{"id": "C85", "title": "Whole tests: a good algorithm is always accepted, a bad one never", "statement": "With the shipped f64 arithmetic: if every pair of passes the closures can make conforms to the limits with a margin of one part in 2^40, the (regular, async or CRUD) test succeeds at its first attempt; if none does even when one part in 2^40 is forgiven, the test fails however often it retries; and a successful test has measured passes that conform.", "quantifier": "all closures whose readings are plausible and comparable, all limits (exponential ones: second set at most 32 times larger), all sizes from 3 (CRUD: 30) up to 2^32, all retry counts >= 1, all histories", "why_tests_cant": "ranges over all measurements, closures and retry histories", "anchors": ["src/runners/standard.rs: test_algorithm", "src/api/builders/regular_async_builder.rs: test_algorithm", "src/runners/crud.rs: test_crud_algorithms", "src/low_level_analysis"]}
{"id": "C86", "title": "A panicking closure is never ignored and never leaves threads behind", "statement": "If the closure panics in some thread of an iterator pass, the pass panics too, with a message naming the algorithm type and the range, but not before every other thread has processed its whole share; a thread makes no more calls after one that panicked; no number is given to the closure twice; if no call panics the pass returns as usual; the pass can always be finished.", "quantifier": "all ranges and thread counts below 2^31, all closures (panicking or not, depending on the history), all interleavings of the threads and the joining thread", "why_tests_cant": "depends on which threads panic and on the interleaving", "anchors": ["src/runners/common.rs: run_iterator_pass (lines 120-145)"]}
{"id": "C87", "title": "A CRUD analysis calls each closure with each number exactly once per pass", "statement": "In a finished CRUD analysis whose threads divide the iterations evenly, each closure is called exactly once with each number in [0,n) in its first pass and in [n,2n) in its second (deletions included); in general a pass makes n - n mod threads calls; when as many elements are created as deleted, every measured creation precedes every measured deletion, and each number below 2n is created once and deleted once.", "quantifier": "all closures and whatever they return, all interleavings of the threads in each pass, all configurations that fit in 32 bits, all histories", "why_tests_cant": "ranges over all thread interleavings, iteration and thread counts", "anchors": ["src/runners/crud.rs: internal_analyse_crud_algorithms", "src/runners/common.rs: run_iterator_pass"]}
{"id": "C88", "title": "Statistics since a save point are exact when several threads allocate", "statement": "When a thread takes a save point with nothing else going on, starts threads (which may start others), all allocate and free at the same time, all are joined and the thread then asks for the statistics since the save point, it gets: for each counter exactly what all the threads did; the memory used now; a minimum and a maximum enclosing the memory used at both ends and really used at some time in between. Whatever the schedule (save points and requests at any time, by any thread), a request never panics from a counter going backwards as long as the counters have room for all calls made.", "quantifier": "all numbers of threads, all calls and sizes, all interleavings of the atomic accesses, all stale reads and spurious compare-exchange failures relaxed ordering allows, all earlier histories", "why_tests_cant": "ranges over all interleavings and memory-model behaviours; counters are relaxed atomics read one at a time", "anchors": ["src/metrics_allocator/metrics_allocator.rs: save_point, delta_statistics, compute_min_and_max_used_memories", "src/runners/common.rs: run_iterator_pass"]}
{"id": "C89", "title": "Enqueue and claiming are safe with the memory orderings written in the code", "statement": "Under the ring buffer's actual atomic orderings (relaxed loads that may return stale values, release publication, spurious compare-exchange failures), with at most SIZE enqueues in flight and fewer than 2^32 enqueues: enqueue never panics, the completed enqueues are a prefix of the reservation order, nothing is lost, some enqueue in flight can always finish, the last write to each published slot is of its element; and each position is given to at most one dequeue call per consumer, in consecutive order, never before it is published.", "quantifier": "all thread counts, interleavings, stale reads allowed by coherence, spurious failures", "why_tests_cant": "weak-memory behaviours depend on hardware and compiler; x86 tests never show them", "anchors": ["src/metrics_allocator/ring_buffer.rs: enqueue, dequeue, consumer"]}
{"id": "C90", "title": "Elements pass between threads through the ring buffer alone", "statement": "A dequeue or peek_all on one thread returns the elements other threads enqueued, with no panic, spurious overflow error, missed overflow or data race, without further synchronisation between the threads (the ring buffer is documented as concurrent).", "quantifier": "all executions the memory orderings in the code allow", "why_tests_cant": "weak-memory behaviours depend on hardware and compiler", "anchors": ["src/metrics_allocator/ring_buffer.rs: enqueue, dequeue, peek_all"]}
{"id": "C91", "title": "The space verdict of passes run by several threads is about memory really in use", "statement": "Two passes measured in one process, each with any number of threads allocating and freeing concurrently (started and joined by the measuring thread), anything in between: each pass reports as its used memory before and after what was really in use at its start and end, and as extremes two amounts really in use at some time of the pass enclosing both. No space analysis panics, and it accepts a limit exactly if those peaks above the starting usage meet it (first pass used memory).", "quantifier": "all prior executions, thread counts, interleavings, stale reads the relaxed counters allow, heap calls, element counts, limits", "why_tests_cant": "depends on the interleaving and on weak memory; a test sees a few schedules", "anchors": ["src/runners/common.rs: run_iterator_pass", "src/metrics_allocator/metrics_allocator.rs: save_point, delta_statistics", "src/low_level_analysis/space_analysis.rs: analyse_space_complexity"]}
{"id": "C92", "title": "For how long a zero-copy reference shows its element", "statement": "A reference returned by dequeue, and each reference in the slices returned by peek_all, shows the element it was returned for as long as at most SIZE elements have been enqueued from that element on (itself included), and from then on the latest element whose distance from it is a multiple of SIZE, as the documentation of RingBufferConsumer warns. With concurrent producers (at most SIZE enqueues in flight) the element is shown as long as at most SIZE positions are reserved from its own on.", "quantifier": "all histories before and after the call, all sizes, all consumers, all interleavings (sequentially consistent)", "why_tests_cant": "about every later moment and every history; a test looks at a reference right after the call", "anchors": ["src/metrics_allocator/ring_buffer.rs: RingBufferConsumer::dequeue, RingBufferConsumer::peek_all, RingBuffer::enqueue"]}
{"id": "C93", "title": "Each element given to the ring buffer is dropped exactly once", "statement": "For element types with a destructor: every element enqueued is dropped exactly once, when it is overwritten or when the buffer is dropped, and nothing else is dropped.", "quantifier": "all histories of calls, all sizes", "why_tests_cant": "dropping uninitialised memory is undefined behaviour, which a test may not notice; the tests use types without destructor", "anchors": ["src/metrics_allocator/ring_buffer.rs: RingBuffer::enqueue, RingBuffer"]}
{"id": "C94", "title": "Large enough sets tell algorithms apart", "statement": "If the running time of a pass over n elements grows faster than the limit O(f) allows, then for every first set (of 3 elements or more, with a non-zero measured time) every large enough second set makes the time verdict worse than the limit; if it grows more slowly, every large enough second set makes it within the limit. If time (or peak memory above the baseline) is proportional to f in the limit, terms of lower order allowed, then the verdict is never worse than O(f) once both sets are large enough, and it is exactly O(f) if the second set is also large enough in comparison with the first. For usage exactly a*f(n) and a limit O(g), the sizes n1, n2 tell the two classes apart if and only if f grows between them more than 1+tolerance times as much as g: for n log n against O(n) this means n2 > n1^(1+tolerance), so a set of twice the size is enough only below 2^(1/tolerance) elements (1024 at 10%, 16 at 25%). Small sets can be misjudged: n^2-10n between 11 and 22 elements is reported as worse than O(n^4). (Exact arithmetic; C83 says how the shipped arithmetic deviates.)", "quantifier": "all named classes, all running time and memory usage functions with the stated growth, all first set sizes, all large second set sizes, every tolerance between 0 and 1", "why_tests_cant": "A test measures two sizes of one algorithm; the claim is about the limit of all sizes and all functions of a class.", "anchors": ["src/low_level_analysis/low_level_analysis.rs: analyse_complexity", "src/low_level_analysis/time_analysis.rs: analyse_time_complexity", "src/low_level_analysis/space_analysis.rs: analyse_space_complexity"]}
{"id": "C95", "title": "Create and delete operations that cost what the theory says are classified correctly", "statement": "Let an insertion into (or a removal from) a set of m elements cost exactly a constant, a*m, a*log m or a*m^2, so that the first of the two passes of n operations costs the sum over m=1..n and the second the sum over m=n+1..2n. Then the set-resizing analysis reports O(1) for the constant, O(n) for a*m (n at least 6), and worse than O(n) for a*m^2 (n at least 3). For a*log m it is not worse than O(log n).  [False for small passes: with the 10% tolerance a*log m is found worse than O(log n) exactly if n is below 138, with 25% exactly if n is below 7. From 677 elements on (25%; with 10%, from about 2.85 million on) it is reported as O(1).]", "quantifier": "all constant factors, all numbers of elements per pass (with the stated lower bounds), every tolerance up to 25%", "why_tests_cant": "It is a statement about sums over all pass sizes.", "anchors": ["src/low_level_analysis/low_level_analysis.rs: analyse_set_resizing_iterator_complexity", "src/runners/crud.rs: run_pass! (create and delete)"]}
{"id": "C96", "title": "The dry run of an asynchronous test calls what was configured, in order, with the measurers around the passes", "statement": "The dry run of a configured asynchronous test calls: reset with no data; warm-up with what the reset gave; reset with what the warm-up gave; the first pass with what the reset gave; the first assertion with what the first pass gave; reset with what the first pass gave; the second pass with what the reset gave; the second assertion with what the second pass gave. Closures that were not configured are skipped and give no data, so without a reset function the passes get no data at all (unlike a real run). Around each pass, all pre-event measuring steps run in the reverse order of declaration with the data the pass will get, then the pass, then all post-event steps in the order of declaration with the data the pass gave, each with the value of its own pre-event step; then every measurement is printed with its name, in the order of declaration, before the assertion. The dry run tells, line by line: a heading with the number of retries and whether warm-up and reset are present; after every optional step whether it ran and the data it gave; before and after each pass that the measurements are taken, and the data the pass gave (the measurements of the first pass are announced as those of the 2nd). Nothing else is called, also when something panics, and every result is the one the configured closure gave. If nothing panics the dry run ends; without a pass function it never ends normally.", "quantifier": "all configurations (any closure present or absent, any number of measurers), all closures including stateful and panicking ones", "why_tests_cant": "The two unit tests run one configuration with two measurers and only print what happens.", "anchors": ["src/api/builders/regular_async_builder.rs: test_run", "src/utils/measurements/measurer.rs: measure_all_before_event, measure_all_after_event"]}
{"id": "C97", "title": "The metrics allocator only observes", "statement": "A program that uses the metrics allocator as its global allocator makes the system allocator see exactly the program's calls, each once, in order, with the same pointers, layouts and sizes, and gets exactly the answers (null pointers included) it would have got from the system allocator directly; save points and requests of statistics are invisible to the system allocator. The statistics depend on the sizes and the outcomes only, not on addresses, alignment or requests of statistics. For a program that respects the GlobalAlloc contract the used memory is the total size of the blocks (identified by address and layout) it holds plus the bytes of requests that were answered with a null pointer; if none was, exactly the size of the blocks it holds.", "quantifier": "all system allocators (any state, any answers), all histories of calls, save points and statistics requests, both build profiles", "why_tests_cant": "Tests run on one system allocator and do not look at the pointers and layouts that are passed on; a failing allocation is never provoked.", "anchors": ["src/metrics_allocator/metrics_allocator.rs: impl GlobalAlloc for MetricsAllocator, save_point, delta_statistics"]}
{"id": "C98", "title": "The text of allocator statistics shows every figure under its own name and loses nothing", "statement": "The text of allocator statistics consists of the twelve figures, each under its own name, and two statistics with the same text are equal, so the numbers can be read back from a log.", "quantifier": "all values of the twelve figures", "why_tests_cant": "The unit tests print a text for one set of values and never check it; that no two sets of values share a text is about all pairs.", "anchors": ["src/metrics_allocator/metrics_allocator.rs: MetricsAllocatorStatistics::fmt"]}
{"id": "C99", "title": "Measurement noise within a margin fixed by the tolerance never changes the outcome", "statement": "When the measurements of an algorithm of the limit's class are off by a relative error of at most delta, the analysis stays within the limit whatever the errors are exactly when delta <= tol/(2+tol) (4.7% at the default 10% tolerance, 11.1% with the 25% tolerance feature), whatever the class, the constant and the sizes; a regular, asynchronous or CRUD test of such an algorithm passes on its first attempt. An algorithm of a class growing more than (1+tol)(1+delta)/(1-delta) times as much as the limit between the two sizes is rejected whatever the errors are, and not otherwise; a regular, asynchronous or CRUD test of it fails however often it is retried. For create and delete the growth a limit allows is the one the analysis assumes (from n to 3n: see C95).", "quantifier": "all measurement errors up to delta, all growth classes, proportionality constants, sizes, tolerances, and all numbers of retries", "why_tests_cant": "Tests run with the noise the machine happens to have; the claim is about the worst combination of errors over real intervals, for every class and pair of sizes.", "anchors": ["src/low_level_analysis/low_level_analysis.rs: analyse_complexity", "src/features.rs: PERCENT_TOLERANCE", "src/runners/standard.rs: test_algorithm"]}
{"id": "C100", "title": "A container never misses an element during a CRUD analysis", "statement": "Let the closures operate on a set: create adds its argument, delete removes it, read and update look it up, reset empties it. If the threads divide the iterations evenly and no more elements are read, updated or deleted per pass than created, then in every interleaving every measured read, update and delete finds its element and no measured create finds its own, in finished and aborted analyses and across the retries of a test; at the end the container holds exactly the numbers from twice the deletions to twice the creations. If the threads also divide the warm-up evenly (always so with one thread), the same holds for the calls of the warm-up. Creating too few elements does miss, and so does a warm-up whose size the threads do not divide.", "quantifier": "all iteration counts, thread counts, warm-up percentages, interleavings of the threads, retries and results of closures", "why_tests_cant": "The misses depend on the arithmetic of the ranges, the number of threads and the adapted counts of retries; tests try a few counts, mostly divisible ones.", "anchors": ["src/runners/crud.rs: internal_analyse_crud_algorithm, test_crud_algorithms, adapt", "src/runners/common.rs: run_iterator_pass"]}
{"id": "C101", "title": "A panic of the user's code ends everything at once, with that panic", "statement": "If a closure, a reset function, an assertion or a step of a custom measurer panics during a CRUD analysis, a CRUD test, a regular test, an asynchronous test or a dry run - in the warm-up, in a pass, between passes or attempts, in the first attempt or a retry - then the analysis or test ends with exactly that panic: nothing else is called or printed after it, and it is not retried, swallowed or reported as a complexity mismatch.", "quantifier": "all closures that may panic at any call depending on everything before, all configurations, limits, numbers of attempts and measurements", "why_tests_cant": "A test makes one closure panic at one place; the claim is about every place where user code runs, in every attempt and history.", "anchors": ["src/runners/crud.rs: internal_analyse_crud_algorithm, test_crud_algorithms", "src/runners/standard.rs: test_algorithm, analyse_algorithm", "src/api/builders/regular_async_builder.rs: raw_analyse_algorithm, test_algorithm, test_run", "src/utils/measurements/measurer.rs"]}
{"id": "C102", "title": "The report of a CRUD analysis is complete, in order, and shows what was measured", "statement": "The report a CRUD analysis returns is exactly: the name and heading; if a warm-up was requested, the letters of the requested operations and the warm-up's duration; for the first and for the second pass the figures (time and memory) of the requested ones among create, read and update, in this order and separated by commas; the report of each of their analyses; and, if delete was requested, the figures of its second and first pass, the exclusive or of the numbers yielded by every run of every closure (warm-up included), and its report. Every figure is what that very pass measured in this analysis, and every report is that of the analysis of these measurements. The report in the error of an aborted analysis is the same text up to the figures of the operation at fault, followed by the reason: kind of complexity, operation, limit and measured class.", "quantifier": "all sets of requested operations, names, warm-ups, limits, closures, clocks and allocators, for finished and aborted analyses", "why_tests_cant": "The project's test looks for a few fragments in one run with fixed closures; the claim is about the whole text for every subset of operations and every outcome, and that each figure belongs to its pass.", "anchors": ["src/runners/crud.rs: internal_analyse_crud_algorithms, analyse_crud_algorithms", "src/runners/common.rs: run_iterator_pass_verbosely"]}
{"id": "C103", "title": "The transcript of a regular or asynchronous test, and the message it fails with, tell exactly what happened", "statement": "A regular or asynchronous test prints, calls and pauses exactly as follows. Per attempt: a heading with the test's name; for each step the call and then a line with its title and the time and memory it took (asynchronous: first reset, warm-up, second reset, first pass, its assertion, reset in between, second pass, its assertion, without the absent ones); an empty line and the report of the analysis; then, if the space limit was exceeded, the space mismatch (name, limit, measured class), else if the time limit was exceeded, the time mismatch, else (regular test) the exclusive or of the numbers the passes returned. After a time mismatch, while retries remain, there is a pause (asynchronous: and the line 'retrying...') and the next attempt. The panic message of a failed test is the space mismatch if the first attempt exceeded the space limit; if a later one did, it quotes that mismatch, the allowed number of retries and all earlier time mismatches in order; if all attempts exceeded the time limit, it quotes the last mismatch, the number of retries and the earlier mismatches. If an attempt is cut by a panic (of a closure, an assertion, a missing pass or a figure that cannot be shown), the transcript ends there and the test ends with that panic.", "quantifier": "all closures, clocks and allocators (any behaviour depending on the whole history), names, set sizes, limits, numbers of retries, all subsets of optional steps of the asynchronous builder, all previous histories", "why_tests_cant": "The transcript and message depend on which attempt exceeded which limit and on every optional step; a test fixes one such history, and timing makes it flaky.", "anchors": ["src/runners/standard.rs: test_algorithm, analyse_algorithm", "src/api/builders/regular_async_builder.rs: test_algorithm, raw_analyse_algorithm", "src/runners/common.rs: run_sync_pass_verbosely, run_async_pass_verbosely"]}
{"id": "C104", "title": "Which measurements get which verdict, and which verdicts can be given at all", "statement": "Each verdict is given exactly to the measurements in its window: a named class to those whose growth is within the tolerance of its own growth and above the tolerance of the class before it, a verdict between two classes to those above the tolerance of the one and below that of the other, the last three by comparison with the first usage raised to the quotient of the sizes (analogously, with their own thresholds, for create and delete operations). For two different set sizes every named class up to O(n^4), 'better than O(1)' and 'worse than exponential' can be reported; a verdict between two classes can be reported if and only if the growths of the two classes between the sizes differ by more than both tolerances; so when the second set is twice the first, 'between O(1) and O(log n)' and 'between O(n) and O(n log n)' are never reported from 23 elements on (10%) or at all (25%). With equal sizes only three verdicts are left. The two exponential verdicts are never given when the first pass took a second or less, nor, with a doubled set, 16 seconds or less.", "quantifier": "all set sizes from 3 on (2 for create and delete), all durations and memory readings with a non-zero first usage, all tolerances below 1 (exact arithmetic); all durations, the shipped tolerances and any accurate library for the binary64 part", "why_tests_cant": "That a verdict is never given is a claim about all measurements, and the window of each verdict has infinitely many.", "anchors": ["src/low_level_analysis/low_level_analysis.rs: analyse_complexity, analyse_set_resizing_iterator_complexity", "src/low_level_analysis/time_analysis.rs: analyse_time_complexity, analyse_time_complexity_for_constant_set_iterator_algorithm, analyse_time_complexity_for_set_resizing_iterator_algorithm", "src/low_level_analysis/space_analysis.rs"]}
{"id": "C105", "title": "Reports reach the selected stream, whole and in order", "statement": "With reports sent to stdout or stderr, when the output function returns, the report is on the device in one piece, right after everything that was printed before to either stream, nothing is left waiting in a buffer, and the selected stream is the one that delivered it; consecutive reports follow each other with nothing between or missing. With no report selected neither stream is touched. While other threads print, the report is still in one piece on its own stream, and all that had been printed to either stream before the call is delivered before the report begins. If the stream does not take the report, the call panics. (Not guaranteed: on a device showing both streams another thread can tear a report; errors of flushing are ignored.)", "quantifier": "every sink, text, earlier output, buffering behaviour of the streams, and interleaving with the prints and flushes of other threads", "why_tests_cant": "a test sees one buffering policy and one interleaving; the order on a shared device depends on both", "anchors": ["src/features.rs: OUTPUT, stdout_write, stderr_write, null_write, sync_outputs"]}
{"id": "C106", "title": "Save points and requests for statistics stay correct when threads meet inside the ring buffer", "statement": "Threads allocate, free, take save points and ask for the statistics since a save point at the same time, switching between any two atomic accesses, also inside the ring buffer that save points share. With at most SIZE threads and fewer than 2^32 save points, as long as no request for statistics is overrun (more than SIZE save points begun since its save point while it still reads), all statistics, save points and answers are those of an execution in which every ring operation happens at once, so what holds there (C26, C27, C88, C91) holds. In particular the statistics of a measured pass with several threads are exact, and no space analysis of two such passes panics, and it accepts a limit exactly if amounts really in use during each pass, above its starting usage, meet it. No thread ever panics in the ring buffer or reads a slot never written. Taking a save point never deadlocks: some thread entering one can always finish in two steps; but it is blocking: while a thread that reserved its place earlier is suspended, later save points do not return. (Needed: an overrun request can be answered with a maximum below what was really in use.)", "quantifier": "every number of calls, every interleaving of the atomic accesses with stale reads and spurious compare-exchange failures of the statistics, every build profile and ring size below 2^32", "why_tests_cant": "the outcome depends on where threads are preempted between the ring buffer's reservation, store, publication and reads; a test tries a few schedules", "anchors": ["src/metrics_allocator/metrics_allocator.rs: save_point, delta_statistics", "src/metrics_allocator/ring_buffer.rs: enqueue, consumer, peek_all"]}
{"id": "C107", "title": "Without allocator metrics, tests are decided by time alone", "statement": "With the feature `no_allocator_metrics`, of which the manifest says that there will be no space analysis, or with an algorithm that never calls the heap, every pass reports that no memory was used, and a test is accepted or rejected by its time complexities alone: a limit on space never rejects it.", "quantifier": "every algorithm, every history of measurements, every limit on time and space; regular, asynchronous and CRUD tests", "why_tests_cant": "the verdict for a zero usage depends on 0/0 falling through all comparisons, for every set size; a test tries one configuration with the feature off", "anchors": ["Cargo.toml: no_allocator_metrics", "src/features.rs: ALLOC", "src/low_level_analysis/mod.rs: analyze_complexity", "src/runners/standard.rs: test_algorithm", "src/runners/crud.rs: test_crud_algorithms"]}
{"id": "C108", "title": "From heap calls and clock readings to the outcome of a whole test", "statement": "Take everything the process asks of the metrics allocator, before and during a test, and the times its passes take. If the bytes needed (peak of the live bytes over those live when the pass started) and the times of any two passes of the run conform to the declared limits (with a margin of one part in 2^40 for rounding), the test - of a regular, asynchronous or CRUD algorithm - succeeds without a retry; if they never do, it fails however often it retries; if it succeeds, there were two passes in it that conform.", "quantifier": "all histories of heap calls and save points that respect the GlobalAlloc contract, all clock readings, closures, sizes, limits, retry counts, both build profiles", "why_tests_cant": "a test can only run one allocation pattern with one clock; the claim joins the allocator's bookkeeping, the ring buffer of save points, the binary64 verdicts and the retry loop", "anchors": ["src/runners/common.rs: run_sync_pass, run_async_pass, run_iterator_pass", "src/metrics_allocator/metrics_allocator.rs: MetricsAllocator", "src/runners/standard.rs: test_algorithm", "src/api/builders/regular_async_builder.rs: test_algorithm", "src/runners/crud.rs: test_crud_algorithms"]}
{"id": "C109", "title": "Nothing but what the closures did in the run matters", "statement": "If the closures of two otherwise equal tests do the same at every call that the first test makes (given what happened until then), both have the same outcome, print the same text and make the same calls: the library has no other source of variation, and what a closure would have done at another time never matters.", "quantifier": "all closures, sizes, limits, retry counts and histories; regular, asynchronous and CRUD tests, and single CRUD analyses", "why_tests_cant": "it compares all pairs of worlds, including those that differ only in what did not happen", "anchors": ["src/runners/standard.rs: test_algorithm, analyse_algorithm", "src/api/builders/regular_async_builder.rs: test_algorithm, raw_analyse_algorithm", "src/runners/crud.rs: test_crud_algorithms, internal_analyse_crud_algorithms"]}
{"id": "C110", "title": "The attempts that were made decide the outcome of a test", "statement": "Take any run of a regular, asynchronous or CRUD test in which no closure, assertion or reset panicked, the readings were plausible and every first pass took some time and memory (nothing is assumed of what the closures might have done otherwise). If the test succeeded, its last attempt conforms to all the limits (up to one part in 2^40) and no earlier one conforms to the limits on time with a margin of that much. If it failed, it failed with a message, and either all allowed attempts were made and none of them conforms to the limits on time with that margin, or the last attempt does not conform to a limit on space with that margin; so a test never fails, and is never retried, although an attempt clearly conformed.", "quantifier": "all closures, clocks and allocators (any behaviour depending on the whole history, also different from attempt to attempt), all limits, retry counts, previous histories, all sizes from 3 (CRUD: 30) up to 2^32, both tolerances, any accurate maths library", "why_tests_cant": "noisy and drifting measurements make every attempt different; the statement is about every possible sequence of attempts and about double rounding at every threshold", "anchors": ["src/runners/standard.rs: test_algorithm, analyze_algorithm", "src/runners/crud.rs: test_crud_algorithms, internal_analyze_crud_algorithm", "src/api/builders/regular_async_builder.rs: test_algorithm, raw_analyze_algorithm", "src/low_level_analysis/low_level_analysis.rs"]}
{"id": "C111", "title": "The overflow error says what happened", "statement": "When dequeue or peek_all on a consumer fails, the text of the error (its message, its Display after the error's name, and its Display as an InvalidInput std::io::Error) names the number of elements ever enqueued, the position of the consumer (elements enqueued before its creation plus one per dequeue that did not answer Ok(None)) and the size of the buffer; by these numbers the consumer really was more than the size behind, and they can be read back from the text. (With calls in flight the text can contradict itself: it is the reservation, not the publication it names, that loses the element.)", "quantifier": "all histories of calls on any number of consumers with fewer than 2^32 enqueues, all sizes below 2^32", "why_tests_cant": "all histories; the only tests of the error ignore its text", "anchors": ["src/metrics_allocator/ring_buffer.rs: dequeue, peek_all, RingBufferOverflowError, Display, From<RingBufferOverflowError> for std::io::Error"]}
{"id": "C112", "title": "Smooth transitions: the verdict moves through the classes one by one", "statement": "As the second-pass usage grows, the verdict goes through the classes in order: every class that can be reported at all and lies between the verdicts of two usages is the verdict of some usage in between; and growing by steps smaller than the distances between the classes, the verdict stays or moves to the very next class (in binary64 too, up to rounding, below O(n^4)), and takes every value. (The project's smooth_transitions tests, for all usages, sizes and tolerances.)", "quantifier": "all tolerances below 1, first usages, sizes from 2 (3 for the first part) on, all second usages and steps (exact arithmetic); for jumps also every monotone rounding", "why_tests_cant": "the tests walk through whole usages for one first usage and one pair of sizes; the claim is about all reals and all sizes", "anchors": ["src/low_level_analysis/low_level_analysis.rs: analyse_complexity, analyse_set_resizing_iterator_complexity", "src/low_level_analysis/low_level_analysis.rs: tests::smooth_transitions"]}
{"id": "C113", "title": "Calls on the ring buffer return", "statement": "The loops of enqueue and dequeue end. When all threads keep running (each gets turns again and again, and a compare-exchange tried for ever does not fail spuriously for ever), every enqueue returns, in the order of the reservations, none starving, so everything enqueued is eventually published and each thread is outside any call again and again. dequeue returns as long as the calling thread itself keeps running, even if others have stopped inside their calls; peek_all returns at the caller's next turn. But enqueue is not lock-free: a thread stopped inside enqueue makes every enqueue that reserved later spin for ever, and nothing enqueued after becomes visible.", "quantifier": "every infinite schedule of every number of threads, all elements and ring sizes (never more than SIZE enqueues in flight, fewer than 2^32 in all)", "why_tests_cant": "a test sees finitely many steps of some schedules; that a loop ends under every fair schedule is about infinite executions", "anchors": ["src/metrics_allocator/ring_buffer.rs: enqueue, dequeue, peek_all"]}
{"id": "C114", "title": "Calls on the metrics allocator return", "statement": "Allocating, freeing, reallocating, taking a save point and asking for the statistics never hang. A heap call returns as long as the calling thread keeps running, whatever the other threads do and even if they have stopped inside their own calls; a request for statistics returns as long as the calling thread keeps running; a save point returns when all threads keep running.", "quantifier": "every infinite schedule of every number of threads with stale reads and spurious compare-exchange failures, all call sizes, all initial statistics (fewer than 2^32 save points)", "why_tests_cant": "a test sees finitely many steps of some schedules; that the retry loops end under every fair schedule is about infinite executions", "anchors": ["src/metrics_allocator/metrics_allocator.rs: alloc, dealloc, alloc_zeroed, realloc, save_point, delta_statistics, compute_min_and_max_used_memories", "src/metrics_allocator/ring_buffer.rs: enqueue, peek_all"]}
{"id": "C115", "title": "Calls on the ring buffer end with the memory orderings written in the code", "statement": "C113 does not depend on threads seeing each other's writes at once. With the orderings written in the code, loads that return old values and compare-exchanges that fail spuriously: when all threads keep running (and what is written becomes visible to a thread that keeps looking), every enqueue returns and everything enqueued is published; dequeue ends as long as the calling thread keeps running - it may have to wait for a late published_tail, but not for ever - with an answer or, only in builds with overflow checks, a panic (C90); peek_all ends at the caller's next step; no call lasts for ever. A thread stopped inside enqueue still blocks all later enqueues.", "quantifier": "every infinite schedule of every number of threads, every choice of stale values and spurious failures, all elements and ring sizes (never more than SIZE enqueues in flight, fewer than 2^32 in all)", "why_tests_cant": "weak-memory behaviours depend on the machine, and that a loop ends is about infinite executions", "anchors": ["src/metrics_allocator/ring_buffer.rs: enqueue, dequeue, peek_all"]}
{"id": "C116", "title": "Measurements are right with the memory orderings written in the code", "statement": "The metrics allocator's statistics do not depend on threads seeing each other's writes to its ring buffer at once, provided save points and requests for statistics are made one after another: each by the thread that made the one before, or by one that has synchronised with it since (other threads may allocate and free at any time). Then there is no data race on the ring buffer's slots, no panic and no read of uninitialised memory, and the statistics, save points and answers are those of an execution whose ring operations are atomic; a measured pass with several threads reports exactly what they did (C88), and space verdicts of two passes are as in C91. It is enough that a single thread measures. Without that, the guarantees are lost: two threads that measure without synchronising, as tests run in parallel do, race on the slots, and may read uninitialised memory, since nothing in peek_all or consumer acquires what enqueue released.", "quantifier": "every number of threads, every schedule of their atomic accesses, every choice of stale values and spurious compare-exchange failures, all sizes of heap calls, all initial statistics, all ring sizes (fewer than 2^32 save points)", "why_tests_cant": "which stale values are read depends on the machine and the schedule; a data race is a property of all executions, and tests on x86 never see the weak ones", "anchors": ["src/metrics_allocator/metrics_allocator.rs: save_point, delta_statistics, compute_min_and_max_used_memories", "src/metrics_allocator/ring_buffer.rs: consumer, enqueue, peek_all"]}
{"id": "C117", "title": "From what threads do with the heap to the outcome of a whole test", "statement": "As C108, where every pass of the test may be executed by several threads, which allocate and free at the same time and switch between any two atomic accesses of the metrics allocator, with the memory orderings written in the code. Provided save points and requests are made one after another (C116): what is measured of a pass is the time it took, the memory in use before and after it, and extremes that were really in use at some time of the pass and enclose what was in use whenever no call was under way, so the bytes it is found to use are bytes it could need. If the times and all the bytes that any two passes of the run could need conform to the declared limits (with a margin of one part in 2^40 for rounding), the test - of a regular, asynchronous or CRUD algorithm - succeeds without a retry; if none of them ever do, it fails however often it retries; if it succeeds, there were two passes in it and bytes they could need that conform.", "quantifier": "all numbers of threads, schedules of atomic accesses, stale values, histories of the process before each pass, clock readings, closures, sizes, limits, retry counts, ring sizes, both build profiles (fewer than 2^32 save points, less than 2^62 bytes in use)", "why_tests_cant": "the schedules and stale values cannot be chosen by a test, and the claim joins the allocator's counters under weak memory, the ring buffer, the binary64 verdicts and the retry loop", "anchors": ["src/runners/common.rs: run_sync_pass, run_async_pass, run_iterator_pass", "src/metrics_allocator/metrics_allocator.rs: MetricsAllocator", "src/metrics_allocator/ring_buffer.rs: enqueue, peek_all", "src/runners/standard.rs: test_algorithm", "src/api/builders/regular_async_builder.rs: test_algorithm", "src/runners/crud.rs: test_crud_algorithms"]}
{"id": "C118", "title": "Measurements of custom units stay valid", "statement": "A measurement of a custom unit (a quantity, or a rate per second), once made, can be shown at any later time and is still what was asked for - its value, with the scales and suffixes of its unit - however many other units were measured since, though the static hash map its scales are found in may have moved and memory been freed and reused. All measurements of one kind and unit share a single table of scales and others have others, so what is never freed is one table per kind and unit, not one per measurement. A unit measured before can always be measured again, and a new one if there is memory for it. There is no data race if the calls are made one after another, each thread having synchronised with the one that made the call before (so none with a single thread, as the comments in the code suppose), nor if all units were measured before and all threads have seen that. But nothing ensures it: two threads that measure without synchronising in between, as two tests of one project do, race as soon as the unit is new in one of the two calls.", "quantifier": "all sequences of calls by any threads, of synchronisations, and of allocations of other code; all values and units; all moments at which a hash map moves; all addresses", "why_tests_cant": "when a hash map moves and which addresses are reused is not up to a test, a dangling reference often still reads the right bytes, and a data race shows up rarely", "anchors": ["src/utils/measurements/presentable_measurements.rs: custom_unit_measurement, custom_unit_per_second_measurement, PresentableMeasurement, Display for PresentableMeasurement"]}
{"id": "C119", "title": "Vectors that are pushed, indexed and popped during a CRUD analysis", "statement": "Let the closures operate on a vector: create pushes its argument, delete pops, read and update index by their argument, reset clears. If the threads of the creations divide them evenly and no more elements are read, updated or deleted per pass than created, no measured call panics in any interleaving: no index is out of bounds and nothing is popped off an empty vector, in finished and aborted analyses, whatever the vector held before; the same holds for the warm-up if the threads of the creations divide its size. If they do not divide the creations and as many elements are read, some read is out of bounds in every interleaving, so that such an analysis cannot finish. If creations and deletions run on one thread each and are as many, every deletion pops exactly the number it is given (the creations of a pass run downwards, the deletions upwards), and a finished analysis leaves the vector as it was, or empty after a warm-up. Single-threaded tests have all of this in every attempt.", "quantifier": "all iteration counts, thread counts, warm-up percentages, interleavings of the threads, initial contents of the vector, retries and results of closures", "why_tests_cant": "all interleavings and all divisions of the iterations among threads; out-of-bounds panics depend on remainders", "anchors": ["tests/big_o_tests.rs: vec_best_case_algorithm_analysis", "src/runners/common.rs: run_iterator_pass", "src/runners/crud.rs: _internal_analyse_crud_algorithm, test_crud_algorithms"]}
{"id": "C120", "title": "Other threads' use of the heap disturbs a space measurement by at most its own swing", "statement": "During a measured pass the whole process uses the same allocator. If the algorithm needs at most so many bytes at any of its instants, and whatever else runs in the process holds at no instant more than d bytes more or less than when the pass began, then the bytes the pass is found to use differ from the algorithm's by at most d, however the two interleave and whatever happened before; no smaller bound holds. So if d is at most tol/(2+tol) of what the algorithm needs (4.76% at a tolerance of 10%, 11.1% at 25%; minus one part in 2^40 for rounding) and its need grows no more between two passes than the limit allows, the space analysis of the passes - of a regular test or of any CRUD operation - accepts; and if its need grows more than (1+tol)(1+delta)/(1-delta) times as much as the limit allows, with d at most delta of it, the analysis finds more than the limit.", "quantifier": "all histories of heap calls of the algorithm and of the rest, all interleavings, all histories before, all sizes, limits and both tolerances, both build profiles, all ring sizes (calls granted, bytes and totals below 2^64)", "why_tests_cant": "what else runs, and when, is not up to a test; tests in parallel disturb each other differently in every run", "anchors": ["src/metrics_allocator/metrics_allocator.rs: MetricsAllocator", "src/runners/common.rs: run_sync_pass, run_iterator_pass", "src/low_level_analysis/space_analysis.rs: analyse_space_complexity, analyse_space_complexity_for_constant_set_iterator_algorithm, analyse_space_complexity_for_set_resizing_iterator_algorithm"]}
{"id": "C121", "title": "The bound on the disturbance by other threads holds for every interleaving of atomic accesses", "statement": "As C120, when the calls of the threads interleave access by access and their loads may return values that were overwritten long ago: a thread takes a save point, allocates and frees, and asks for the statistics, while any number of other threads, which never synchronise with it, allocate and free too and may be in the middle of a call when the statistics are asked for. If the thread's own calls need at most so many bytes and the other threads each swing by some number of bytes, D together, the peak reported is within D of the thread's need above the memory it found in use, and the space analyses accept and reject as said in C120. One exception is excluded, and must be: another thread that resizes a block to the size it already has can record, without using any memory, a peak from before the save point as one of the pass.", "quantifier": "all numbers of threads, all schedules of their atomic accesses with all stale reads relaxed memory allows, all histories before, all calls and sizes, both build profiles, all ring sizes (counters with room; nothing going on when the save point is taken)", "why_tests_cant": "stale reads and the interleavings that expose them depend on the machine; on common processors most never show", "anchors": ["src/metrics_allocator/metrics_allocator.rs: MetricsAllocator::save_point, MetricsAllocator::delta_statistics, MetricsAllocator::compute_min_and_max_used_memories, MetricsAllocator::compute_reallocation_metrics", "src/runners/common.rs: run_sync_pass, run_iterator_pass", "src/low_level_analysis/space_analysis.rs: analyse_space_complexity"]}
{"id": "C122", "title": "Vectors with insertions and removals at the front during a CRUD analysis", "statement": "Let the closures operate on a vector as in the project's worst-case test: create computes a constant minus its argument and inserts it at index 0, read and update index by their argument modulo the length, delete removes index 0, reset clears. If something is created, the threads of the creations divide them evenly, no more is deleted per pass than created and the constant is at least the number of creations of both passes, no measured call panics in any interleaving, in finished and aborted analyses, however much is read or updated by however many threads, whatever the vector held before; without a warm-up no call at all. A single-threaded test without warm-up with at least ten creations, the constant being at least three times that, has no panicking call in any attempt, although the retries change the numbers of iterations; the project's own test meets this. If there are fewer creations than threads for them nothing is created at all, and then, if there are at least as many reads as threads for them, some read takes a remainder by zero in every interleaving, so that such an analysis of an initially empty vector cannot finish.", "quantifier": "all iteration counts, thread counts, interleavings of the threads, initial contents of the vector, retries and results of closures", "why_tests_cant": "all interleavings, divisions of the iterations among threads and retry histories; the late retries are rarely reached by a run", "anchors": ["tests/big_o_tests.rs: vec_worst_case_algorithm_analysis", "src/runners/common.rs: run_iterator_pass", "src/runners/crud.rs: _internal_analyse_crud_algorithm, test_crud_algorithms"]}
