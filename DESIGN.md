# Formal model of zertyz/big-O in Lean 4

`properties.jsonl` lists the properties, `MANIFEST.json` which theorems prove them, `seeded/LOG.jsonl` the wrong programs the theorems
were tested against. The table below is generated by `tools/mkdesign.py`, `MANIFEST.json` by `tools/mkmanifest.py` from the names of the
theorems (`C<nn>_...` in `lean/Verif/Props`) and `tools/status.json`.

## Layout and method

* `lean/Verif/Model/*`: the model, function by function; each definition cites file and lines of /repo and tells its simplifications.
* `lean/Verif/Spec/*`: small specifications, written in terms of the API and its observable effects (calls of closures with their
  arguments and results, texts, panics, heap calls, values returned), not in terms of the model's helpers.
* `lean/Verif/Proofs/*`: helper lemmas.
* `lean/Verif/Props/*`: the theorems of the properties, with `example`s that show concrete, non-trivial cases meeting the hypotheses.

Conventions
* Rust panics are explicit values (`Except Panic`, or a third outcome of the runner's monad). Integer overflow is modelled in both
  build profiles (`Profile.checked`: panic, `Profile.wrapping`: modulo 2^w); widths of `u32`, `i32`, `usize` (64 bit) are respected.
* `f64` is `F` (NaN, ±inf, -0, finite real) with IEEE special cases. A `FloatEnv` supplies the rounding of exact results and
  arbitrary `log2`, `powi`, `powf`. Theorems are either for every environment that satisfies `FloatLaws` (C17 proves that binary64 does,
  whatever the library functions), or for exact reals (`exactEnv`), or for binary64 with an accurate library (C83, C85).
* User closures, the clock and the readings of the allocator are an arbitrary oracle: a function of everything that happened before,
  which may panic. Traces of observable events are part of the state, so that "was called", "was printed" can be stated.
* Threads are small-step transition systems with one atomic access per step; schedules are arbitrary lists of actions, so threads may be
  delayed for ever. Properties are proved by inductive invariants, so for any number of threads and steps.
* A property that is false of the code is stated as in the English text, its negation is proved with a concrete witness or for a
  whole class of inputs, and what does hold is proved with suffix `_partial` (status "partial").

## Trusted base

* Lean 4.33's kernel. Axioms of the theorems: only the standard ones, `propext`, `Classical.choice`, `Quot.sound` (Mathlib's reals need all
  three; vcheck prints and checks them per theorem). No axiom was added; `native_decide`, `bv_decide` and the like are not used.
* The reading of the Rust code: that each definition of `Model/*` does what the lines it cites do, and Rust's semantics as stated in
  `Model/Rust.lean` and `Model/Float.lean`.
* `keen_retry` (external crate, source not in /repo): its documented behaviour, `Model/Retry.lean`.
* The standard library's formatting of durations and decimals, `Model/StdFmt.lean` (used by C69 and C19 only): as documented, with any rule for ties.
* `AccurateLibrary` (hypothesis of C83 and C85, not an axiom): `log2` of integers and small powers have a relative error of at most 2^-48.
  For the powers this is proved (C17_powers_by_multiplication, C17_powi_accurate) of any way of computing them by at most eight multiplications,
  and of `__powidf2`, which `powi` compiles to (`Spec/Powers.lean`); so it is only assumed of `log2`.
* `AccuratePowf` (hypothesis of the exponential limits in C83, C84, C85, C91, C99; not an axiom): `powf` of positive numbers has a relative error of at most 2^-48 between 2^-1000 and 2^1000.

### What is modelled

| /repo | model | what is left out |
|-------|-------|------------------|
| `low_level_analysis/low_level_analysis.rs` | `Analysis` | nothing |
| `low_level_analysis/time_analysis.rs`, `space_analysis.rs` | `Analysis` | nothing |
| `low_level_analysis/types/types.rs` | `Complexity`, `Analysis`, `Display` | `Arc`, traits and generics are flattened; `pass1_measurements`/`pass2_measurements`, never read, are omitted |
| `low_level_analysis/types/types_impl.rs` | `Complexity`, `Display` | formatting of `Duration` and `f32` by the standard library is a parameter (`TextEnv`), modelled in `StdFmt` for C69 |
| `metrics_allocator/metrics_allocator.rs` | `Alloc` (sequential), `GlobalAlloc` (with addresses and layouts), `StatsText`, `AllocConc`, `AllocRing` and `AllocWeak` (interleaved) | concurrent version: no pointers and alignment; every atomic access of the statistics is a step (save points and `delta_statistics` included); in `AllocConc` the ring's `enqueue`, `consumer` and `peek_all` are one step each, in `AllocRing` each of their atomic accesses is (the ring's accesses sequentially consistent there), `AllocWeak` has them with the orderings of the code; starting and joining threads, and handing over a save point, synchronise |
| `metrics_allocator/ring_buffer.rs` | `Ring` (sequential), `RingConc` (interleaved, sequentially consistent), `RingWeak` (with the orderings of the code), `RingRefs` (references kept for later, drops) | load buffering, torn reads; in `RingConc` and `RingWeak` references returned by `dequeue`/`peek_all` are read when the call returns |
| `runners/common.rs` | `Pass`, `PassPanic`, `PassResult`, `PassConc`, `Metered` (the passes as the allocator model measures them), the `*_verbosely` functions in `Crud`, `Standard`, `AsyncBuilder` | in `Crud` a pass is one step that may panic; `PassPanic` has the threads, whose closures may panic, and the joining thread |
| `runners/crud.rs` | `Crud` | flushing of the output |
| `runners/standard.rs` | `Standard` | nothing |
| `api/builders/regular_async_builder.rs` | `AsyncBuilder`, `DryRun` | awaiting is a call (no interleaving of futures) |
| `utils/measurements/measurer.rs` | `Measurer` | measurers of one test share one type of values taken before a pass; `HashMap` is an association list |
| `utils/measurements/presentable_measurements.rs` | `Presentable` | formatting of numbers is a parameter (`NumText`) |
| `features.rs`, `Cargo.toml` `[features]` | `Features`, `Output` (46-67) | capture of output by the test harness |
| `lib.rs`, `mod.rs` | | re-exports only |

Not modelled at all: the operating system's clock and scheduler beyond "any reading, any interleaving", actual printing, tokio.

### Validation of the model

`Props/Conformance.lean` replays the project's own unit tests (of time_analysis.rs, space_analysis.rs, metrics_allocator.rs and
ring_buffer.rs) on the model, `Props/ConformanceText.lean` those of presentable_measurements.rs: their expectations are proved as
`example`s. These are tests of the model, not claimed properties.

## Findings: where the code does not do what one would expect

* A first pass that measures zero (time below the clock's resolution, or no allocation) yields `WorseThanExponential` (C08);
  statistics lost in both passes yield `O1`, in the first only `BetterThanO1` (C47).
* The exponential tier compares seconds with `k^n`: the verdict depends on the unit and on constant factors (C04, C05), and `O(k^n)` is
  never reported for a first pass of a second or less - 16 seconds, when the second set is twice the first (C104).
* `n1 <= 1` hides any growth (C07); with set sizes below 3 the thresholds are not in the order of the classes (C02).
* Create and delete passes: operations of exactly logarithmic cost are found worse than `O(log n)` with few elements (below 138
  at 10%, below 7 at 25%) and reported as `O(1)` with many (677 at 25%, 2.85 million at 10%) (C95). Doubling a set of 1024 or more elements (16 at 25%) cannot tell `n log n` from `n` (C94).
* Ring buffer: a consumer that was overtaken recovers silently with wrong elements (C34); after 2^32 elements it jams or hangs (C37); more
  producers than slots corrupt elements (C35); `peek_all` returns a stale element while an enqueue is unpublished (C38).
  Consumers load `published_tail` and `reserved_tail` with `Relaxed` and the `Acquire` is on `head`, so the publication does not synchronise
  with the consumer: a `dequeue` on another thread may read uninitialised memory (a data race), panic, or miss or invent an overflow (C90).
  For element types with a destructor the first SIZE enqueues drop uninitialised memory (undefined behaviour), and the last SIZE elements are
  never dropped (C93).
* Allocator: refused allocations are counted, a refused shrink underflows (C28); with a concurrent save point the peak may be missed
  and the maximum may be below the used memory (C27); after totals wrap, a delta panics in checked builds (C23).
* Iterator passes: if the number of threads does not divide the number of elements, delete does not remove what create made (C43);
  zero threads panics although the documentation says otherwise (C46). Even if it divides the number of elements, it may not divide
  that of the warm-up, which then deletes elements it did not create: 110 elements, 10%, 2 threads (C100).
  Whatever else uses the heap during a pass is counted as the algorithm's, in full (C120_tight).
  A thread that resizes a block to the size it has, not having synchronised since, may load a used memory of before a save point and record it as
  the maximum since: 1000 bytes reported by a pass in which nobody used any (C121_old_peak; needs a stale relaxed read).
  Closures that push, index and pop a vector, as in the project's own example, read out of bounds if the threads do not divide the creations (C119).
* CRUD tests: `max_retry_attempts = 0` accepts without testing; counts below 10 adapt to 0 on the second attempt, so a test rejected for its
  time is then accepted without running anything (C54); whole CRUD tests are not monotone in their limits (C57), one attempt is.
* Reports panic in checked builds for zero element counts, for sets of 2^31 elements, and for lost statistics (C74, C76); the sign of a change
  may be lost in `f32` (C75); the unit suffix is missing for negative, NaN and `Default` values (C72); rates below 1/3600 per second are
  shown as zero (C71).
* Async builder: the reset after a warm-up gets no data, so the data of the warm-up is dropped (C62); without a reset function data is
  dropped between attempts (C63); the limit on auxiliary space and custom measurers are never used (C65).
* Features: adding `tolerance_25` or `report_stderr` to the defaults defines items twice; `no_report` has no effect (C80).
* Output: errors of flushing are ignored, so a report can get lost without a panic; with other threads printing, a report can be torn on a device that shows both streams (C105).
* The dry run announces the measurements of the first pass as "dumping 2nd pass measurements" (C96). The messages of a test that gave up
  quote the allowed retries as the number of attempts, one less than were made (C103). When the second set is twice the first, "between O(1)
  and O(log n)" and "between O(n) and O(n log n)" can never be reported for sets of the usual sizes (C104).
* Without allocator metrics (feature `no_allocator_metrics`), or for algorithms that never allocate, there is still a space analysis: it finds
  "worse than exponential", so every limit on space but the loosest one rejects every test (C107).
* The overflow error of `dequeue` names `published_tail` although the check is on `reserved_tail`: with enqueues in flight its numbers can show no
  overflow at all (C111).
* `enqueue` is not lock-free: a thread stopped inside it makes every later `enqueue` spin for ever, even if those threads keep running (C113).
  So a stopped thread can hang later save points, but never allocations or requests for statistics (C114).
* `enqueue` publishes with `Release`, but `consumer` and `peek_all` load with `Relaxed`, and the allocator never makes an `Acquire` access to its
  ring buffer. So two threads that take save points and ask for statistics without synchronising (tests run in parallel) race on its slots,
  which is undefined behaviour, and may read uninitialised memory (C116).
* The measurements of custom units keep their scales in `static mut` hash maps under the comment that a single thread calls them. Nothing ensures
  it: two threads that do (two tests that measure the same kind of thing) race as soon as one of the units is new (C118).

## Per property

<!-- table -->
| id | property | status | model | proof | theorems |
|----|----------|--------|-------|-------|----------|
| C01 | Regular verdict is monotone in the second-pass usage | proved | Analysis.analyseComplexity over any FloatEnv | every test of the chain is downward closed in u2, so the index of the first test that holds is monotone (Proofs/Chain, FloatMono). | `C01_monotone` |
| C02 | Acceptance criterion of the polynomial tiers | proved | same, exact reals | the growth factors f_k(n2)/f_k(n1) increase with k for n1 >= 3 (real analysis in Proofs/Exact*), hence the first test that holds is the least limit met. Exact real arithmetic (exactEnv), set sizes >= 3; C02_small_sets_counterexample shows the bound 3 is needed. | `C02_acceptance_sizes`, `C02_acceptance`, `C02_acceptance_exponential`, `C02_acceptance_between`, `C02_small_sets_counterexample` |
| C03 | No false alarm for on-model algorithms | proved | same, exact reals | from C02: a usage proportional to the class has ratio 1. Exact real arithmetic, set sizes >= 2 in any order, any constant factor. | `C03_no_false_alarm`, `C03_on_model` |
| C04 | Verdict does not depend on the measuring unit | partial | same, exact reals | ratios cancel the unit up to O(n^4); the exponential tier compares u with k^n, explicit counterexample. True up to O(n^4) and for the set-resizing analysis (exact arithmetic); false in the exponential tier: C04_unit_counterexample. | `C04_unit_independent_partial`, `C04_unit_counterexample`, `C04_unit_independent_set_resizing` |
| C05 | Exponential algorithms are recognised | partial | same, exact reals | direct evaluation for k^n; explicit counterexample for c*k^n. True for usage exactly k^n (all sizes > 0); false with a constant factor: C05_constant_factor_counterexample; exact condition: C05_constant_factor_iff. | `C05_exponential_partial`, `C05_constant_factor_iff`, `C05_constant_factor_counterexample` |
| C06 | Regular verdict is antitone in the first-pass usage | proved | same, any FloatEnv | as C01, in u1 (Proofs/Antitone). Assumes powf monotone in its base (PowfLaws), finite usages. | `C06_antitone` |
| C07 | Degenerate set sizes hide growth | proved | same, exact reals | direct evaluation with n1 <= 1. For every arithmetic satisfying FloatLaws and the IEEE special values of log2. | `C07_degenerate_sets` |
| C08 | Equal usage on both passes is O(1) | partial | same, any FloatEnv | direct evaluation; 0/0 = NaN falls through all comparisons. True for equal non-zero usage; false for zero usage (0/0 = NaN falls through every test): C08_counterexample, C08_zero_usage_is_worst, C08_zero_first_pass. | `C08_equal_usage_partial`, `C08_zero_usage_is_worst`, `C08_counterexample`, `C08_zero_first_pass` |
| C09 | Set-resizing verdict is monotone in the second-pass usage | proved | Analysis.analyseSetResizing over any FloatEnv | as C01. | `C09_monotone` |
| C10 | Acceptance criterion of the set-resizing analysis | proved | same, exact reals | as C02 with the log-triple threshold. | `C10_acceptance` |
| C11 | Set-resizing verdict ceiling | proved | same | case analysis over the chain of tests; witness that the ceiling is reached. | `C11_ceiling`, `C11_ceiling_reached` |
| C12 | Order of set sizes is irrelevant for constant-set analyses | proved | constant-set wrappers of time_analysis.rs and space_analysis.rs | min/max are commutative, both profiles. | `C12_order_irrelevant` |
| C13 | Space verdict depends only on the peak above the baseline | proved | space wrappers, usize subtraction in both profiles | the result is a function of the two differences; it panics iff a peak is below its baseline (checked builds). | `C13_only_peak_matters`, `C13_panic_iff` |
| C14 | Time verdict is monotone in the second-pass duration | proved | time wrappers, Duration::as_secs_f64 | as_secs_f64 is monotone under any monotone rounding (Proofs/Duration); C01/C09. | `C14_time_monotone` |
| C15 | Numeric order of verdicts is the asymptotic order | proved | Complexity.asU32 | Mathlib asymptotics: the named growth functions are ordered by IsLittleO. | `C15_order_is_asymptotic`, `C15_order_of_all` |
| C16 | Verdict texts are unambiguous and name the right class | proved | pretty texts and Debug names | injectivity over the whole enumeration (a finite type: complete case analysis); meaning of the texts by an independent reading of class names (Spec/ClassText), for every growth function. | `C16_texts_injective`, `C16_numbers_injective`, `C16_text_names_class`, `C16_identifier_names_class`, `C16_renderings` |
| C17 | The real binary64 rounding satisfies the assumptions | proved | binary64 as a rounding function on the reals (Spec/Ieee) | monotone, exact on integers up to 2^53, relative error; the laws assumed elsewhere (FloatLaws) follow. Rounding as specified by IEEE-754; powers as computed by multiplication (any order, or __powidf2); log2 and powf stay arbitrary. | `C17_monotone`, `C17_integers_exact`, `C17_relative_error`, `C17_laws_10`, `C17_laws_25`, `C17_verdicts_monotone`, `C17_powers_by_multiplication`, `C17_powi_accurate` |
| C18 | Space verdict is monotone in the second-pass peak | proved | space wrappers | C01/C09 composed with the subtraction. | `C18_space_monotone` |
| C19 | A measurement can be read back, and compared, from its text | proved | `Presentable`, `StdFmt` (`{:.k}`, `{:.3e}`, `Duration`) | C70-C73, C77, C78 give the text; digits read back by induction; a ladder of monotone rungs, each below the next unit, for the order. the error bounds for every unit and the order; with C73 after any history of calls. Negative values and NaN show no unit (C72) | `C19_bytes`, `C19_bytes_ordered`, `C19_custom`, `C19_custom_ordered`, `C19_byte_rates`, `C19_byte_rates_ordered`, `C19_custom_rates`, `C19_custom_rates_ordered`, `C19_durations` |
| C20 | Used memory equals live bytes | proved | metrics_allocator.rs, sequential | invariant over all histories of allocator calls (used = sum of live blocks mod 2^64). exact whenever the live bytes fit a usize; modulo 2^64 otherwise | `C20_used_is_live_mod`, `C20_used_is_live`, `C20_all_freed` |
| C21 | Delta counters are exact | proved | delta_statistics over the ring of save points | refinement of the allocator to a log of readings; counters subtract. under TotalsFit: no count/byte total reaches 2^64 (since the save point in release builds, since process start with overflow checks) | `C21_delta_counters_exact`, `C21_delta_current_is_absolute` |
| C22 | Delta min/max are the true extremes | proved | same | invariant: stored min/max of a save point are those of the log after it. extremes of the live bytes (spec liveTrace) for contract-respecting histories | `C22_delta_extremes` |
| C23 | Delta fails exactly when too many save points followed | proved | same | ring overwrites exactly after SIZE-1 further save points. needs fewer than 2^32 save points and TotalsFit; C23_wrapped_total_panics shows why | `C23_delta_fails_iff`, `C23_wrapped_total_panics` |
| C24 | Save points do not disturb each other | proved | same | the delta of a save point is a function of the log suffix only. any placement of other save points, before and after | `C24_save_points_independent` |
| C25 | Readings are ordered: min <= before, after <= max | proved | same | invariant min <= used <= max of each reading. no contract assumption | `C25_readings_ordered` |
| C26 | Concurrent allocations: counters are exact and extremes sound | proved | AllocConc: one atomic read-modify-write per step, any number of threads | inductive invariant over all interleavings with per-thread program counters; reads of the extremes may be stale. relaxed-memory interleavings with stale reads and spurious CAS failures; counters and used memory modulo 2^64 | `C26_counters_exact`, `C26_used_exact`, `C26_extremes_enclose`, `C26_extremes_real`, `C26_extremes_widen` |
| C27 | Concurrent save_point keeps max >= used | partial | same, with a concurrent save_point | explicit schedules for the negation; invariants for what remains. false of the code: witnesses C27_peak_missed and C27_max_below_used (both with every read returning the newest value); proved instead: no value is invented and counters stay exact, in every interleaving | `C27_peak_missed`, `C27_max_below_used`, `C27_subtraction_panics`, `C27_nothing_invented_partial`, `C27_counters_undisturbed_partial` |
| C28 | Allocation failures are not counted as used memory | partial | allocator with a refusing system allocator | explicit history for the negation; invariant used = live + refused. false of the code (statistics are updated before the system allocator is called): witness C28_refused_allocation_is_counted; proved instead: the error is exactly the refused bytes | `C28_refused_allocation_is_counted`, `C28_used_is_live_plus_refused_partial`, `C28_refused_shrink_underflows` |
| C30 | Ring buffer refines a log with cursors | proved | ring_buffer.rs, sequential | refinement to (log, cursors): simulation for every operation sequence. Fewer than 2^32 enqueues (see C37), 0 < SIZE < 2^32. | `C30_ring_refines_log`, `C30_log_is_enqueued` |
| C31 | FIFO delivery | proved | same | induction over operation histories on top of C30. | `C31_consumer_id`, `C31_fifo`, `C31_none_means_all_received` |
| C32 | Consumers are independent | proved | same | frame property of the refinement. | `C32_consumers_independent` |
| C33 | peek_all is non-destructive and complete | proved | same | peek_all reads the last SIZE of the log suffix. | `C33_peek_is_non_destructive`, `C33_peek_all_complete`, `C33_dequeue_error_iff` |
| C34 | An overflowed consumer stays invalid | partial | same | explicit history (every SIZE) for the negation; invariant for peek_all. False for dequeue (C34_overflowed_consumer_recovers, every SIZE); true for peek_all while the consumer does not dequeue. | `C34_overflowed_consumer_recovers`, `C34_peek_error_is_permanent_partial` |
| C35 | Concurrent enqueues: no panic, no loss, no corruption | proved | RingConc: one atomic action per step | inductive invariant over all interleavings: reservations are an interval, slots hold the values reserved; ghost log. Sequentially consistent interleavings, at most SIZE enqueues in flight (needed: C35_more_threads_than_slots_corrupts), fewer than 2^32 enqueues. The code's own memory orderings: see C89, C90. | `C35_enough_slots_suffice`, `C35_no_panic`, `C35_completed_is_prefix`, `C35_no_corruption`, `C35_no_loss`, `C35_progress`, `C35_more_threads_than_slots_corrupts`, `C35_solo_enqueue` |
| C36 | Concurrent dequeues: each element at most once, right value | proved | same | invariant on claims: heads claimed are distinct and ordered. Sequentially consistent interleavings; the returned reference is read when dequeue returns. The code's own memory orderings: see C89, C90. | `C36_at_most_once`, `C36_right_value`, `C36_claims_in_order`, `C36_claimed_is_reported`, `C36_none_only_when_empty`, `C36_error_iff_overwritten`, `C36_never_waits_for_tail`, `C36_solo_dequeue` |
| C37 | The 32-bit counters may wrap | partial | ring, both profiles, counters modulo 2^32 | explicit histories for the negation; modular invariant for the positive part. False in overflow-checked builds (enqueue panics for good), for sizes not dividing 2^32 (peek_all returns wrong elements), and for dequeue in release builds when the pending elements straddle a multiple of 2^32 (it hangs). C37_release_exact_partial: with overflow checks off and SIZE dividing 2^32, everything else does what the log specification says, for any number of calls and consumers. | `C37_checked_enqueue_panics`, `C37_checked_never_recovers`, `C37_wrapping_dequeue_hangs`, `C37_wrapping_peek_survives_partial`, `C37_release_exact_partial`, `C37_other_sizes_corrupt` |
| C38 | peek_all detects overwritten slots under concurrency | partial | RingConc with peek_all | explicit schedules for the negations; invariant under the bound on reservations; a second invariant gives the exact contents of every slot, hence exactly what `peek_all` shows. False with an unpublished enqueue in flight (C38_peek_all_can_be_corrupted). C38_peek_all_exactly_partial says what is returned in every interleaving (each pending element, or the newer element already stored in its slot), C38_right_iff_partial when it is right; in particular whenever at most SIZE reservations lie beyond the consumer. | `C38_peek_all_can_be_corrupted`, `C38_peek_all_partial`, `C38_peek_all_exactly_partial`, `C38_right_iff_partial` |
| C40 | Every element of a pass is processed exactly once | proved | Pass: the chunks of run_iterator_pass and the schedules of its threads | arithmetic of the chunk bounds, then multiset equality for every interleaving. all ranges/thread counts below 2^31, any interleaving, closure results arbitrary | `C40_each_once`, `C40_can_finish` |
| C41 | Each thread works on one contiguous, private range | proved | same | intervals are disjoint and contiguous. | `C41_private_intervals` |
| C42 | Remainder elements | proved | same | exact count of skipped/extra elements. | `C42_remainder_ascending`, `C42_remainder_descending`, `C42_count` |
| C43 | Delete passes remove exactly what create passes inserted | partial | same | set equality iff condition; counterexample. False when threads does not divide (and does not exceed) the iterations: C43_counterexample. C43_delete_matches_create_partial proves the exact iff condition. | `C43_delete_matches_create_partial`, `C43_counterexample` |
| C44 | Processing order inside a thread | proved | same | each thread is a monotone enumeration of its interval, for every interleaving. | `C44_order` |
| C45 | Pass checksum is schedule independent | proved | same | xor over a permutation. | `C45_checksum`, `C45_schedule_independent` |
| C46 | A pass with zero threads is rejected, never silently skipped | proved | same | division by zero panics. The panic is proved; the documentation's promise of None is thereby false of the code. | `C46_zero_threads_panics` |
| C47 | Lost statistics are made visible | partial | PassResult: statistics of a pass that lost its save point | evaluation of the verdicts on the sentinel for any FloatEnv with the laws. False: C47_both_lost_is_O1 and C47_first_lost_is_best show lost statistics giving a good verdict, C47_first_lost_is_best_shipped and C47_both_lost_is_O1_shipped with the shipped binary64 arithmetic, for all three space analyses, all set sizes and any library functions; true when only the second pass is lost (C47_second_lost_partial). | `C47_first_lost_is_best_shipped`, `C47_both_lost_is_O1_shipped`, `C47_sentinel`, `C47_both_lost_is_O1`, `C47_second_lost_partial`, `C47_first_lost_is_best` |
| C48 | Reported pass time is the mean thread time | proved | PassResult, PassTime | sum over the threads; in binary64 by accumulating relative errors, one factor per rounding. in exact arithmetic and in the shipped binary64; rounding of from_secs_f64 (ties to even) modelled; the bounds for (threads+3)*slowest < 2^50 ns | `C48_mean`, `C48_mean_shipped`, `C48_between`, `C48_single_thread` |
| C50 | CRUD phase order | proved | Crud: the runner as a state monad over an oracle for measurements | symbolic execution: the trace of actions equals the documented sequence. All environments (arbitrary measurements, closure panics); configurations whose u32 products do not overflow. | `C50_phase_order`, `C50_analyse_phase_order` |
| C51 | Operations with zero iterations are never called and have no analysis | proved | same | no event of an operation with zero iterations. | `C51_never_called`, `C51_analyses` |
| C52 | Reset is called exactly when warming up | proved | same | count of reset events. Exactly-once needs no u32 overflow; never-called holds in all cases. | `C52_no_reset`, `C52_one_reset` |
| C53 | Retry loop acceptance | proved | Crud.testLoop | induction over attempts. | `C53_accepts_iff`, `C53_attempts` |
| C54 | At least one measurement is made | partial | same | explicit configurations for the negation. False: max_retry_attempts = 0 accepts without running anything (C54_zero_attempts); counts below 10 are adapted to 0 on the second attempt (C54_tiny_counts), so a test whose first attempt is rejected then succeeds (C54_accepts_rejected). | `C54_measured_partial`, `C54_zero_attempts`, `C54_tiny_counts`, `C54_accepts_rejected` |
| C55 | Adapted iteration counts stay in range | proved | Crud.adapt | integer arithmetic, both profiles. In release builds only for counts up to 2/3 of the u32 range (beyond it the addition wraps). | `C55_adapt_bounds` |
| C56 | analyse_crud_algorithms never fails because of complexity | proved | Crud.analyseCrud | no failure with unbounded limits; totality under FloatLaws. | `C56_never_rejected`, `C56_returns` |
| C57 | Loosening limits never turns acceptance into rejection | proved | Crud, Standard, AsyncBuilder | relational proof: both runs produce the same trace until the stricter one fails; counterexample for whole CRUD tests. CRUD single attempt, whole test of regular algorithms, async single attempt. Whole CRUD tests with retries are not monotone in their limits (C57_not_for_crud_tests), which the property does not claim. | `C57_looser_async`, `C57_looser_crud`, `C57_not_for_crud_tests`, `C57_looser_regular` |
| C58 | Accepted means within limits | proved | Crud.internalAnalyse | Hoare-style invariants of the runner (Proofs/CrudTotal): which measurements an error or an acceptance rests on. | `C58_accepted`, `C58_rejected`, `C58_rejected_verdict`, `C58_accepted_or_rejected` |
| C59 | Full report is the emitted output | proved | same | the report is the concatenation of the output events, for success and rejection. | `C59_report_is_output`, `C59_rejected_report`, `C59_every_analysis` |
| C60 | Regular test: attempts and call order | proved | Standard | induction over attempts. keen_retry is modelled by its documented behaviour. | `C60_attempts` |
| C61 | Regular test acceptance | proved | Standard + Retry | iff with a specification of attempts. Soundness for every environment; the iff needs closures that do not panic and plausible readings. keen_retry is modelled by its documented behaviour. | `C61_accepted_sound`, `C61_accepts_iff` |
| C62 | Async builder: order and data flow | partial | AsyncBuilder | order and data-flow automata over the trace. Order proved for all runs (C62_order); recorded calls are those of the given closures (C62_genuine); data flow proved except for the reset after the warm-up, which the code gives no data: the documented flow is refuted for every builder with both closures (C62_reset_after_warmup). | `C62_order`, `C62_flow_partial`, `C62_reset_after_warmup`, `C62_genuine` |
| C63 | Async builder: retry threads the data | partial | same | data handed from attempt to attempt; for every builder without reset the data is dropped. Proved with a reset function; without one the code drops the data, proved for every such builder (C63_dropped). | `C63_threaded_partial`, `C63_dropped` |
| C64 | Async builder acceptance | proved | same | iff with a specification of attempts. Soundness for all environments; iff for closures that do not panic and plausible readings. | `C64_accepted_sound`, `C64_accepts_iff`, `C64_unset_never_rejects` |
| C65 | Every configured limit is enforced | partial | same | the verdict is a function that ignores the auxiliary limit and the measurers. False of the code: the auxiliary space limit and custom measurements have no influence at all (C65_not_enforced, for every builder); time and space limits are enforced (C65_enforced_partial). | `C65_not_enforced`, `C65_enforced_partial` |
| C66 | Builder options are order independent | proved | builder options as setters | the builder equals the one with the last settings. Every option is the last value set; chains with the same last settings give the same analyzer. | `C66_last_setting`, `C66_order_independent` |
| C67 | Missing passes are rejected | proved | same | direct evaluation with the message. Panics in every configuration; only the prelude's closures are called; message proved for closures that do not panic. | `C67_missing_pass`, `C67_message` |
| C68 | Custom measurers are nested around the event | proved | Measurer | induction over the list of measurers. Measurers with pre-event values of one type; futures are calls. | `C68_nested`, `C68_no_panic`, `C68_after_needs_before`, `C68_after_twice`, `C68_declared`, `C68_new_needs_before` |
| C69 | The figures of a report can be read back | proved | `StdFmt` (standard library formatting), `Display` | decimal digits read back by induction; rounding to two decimals and f32 errors bounded and combined with C75/C81; splitting distributes over concatenation; no verdict text begins another one. | `C69_duration`, `C69_duration_rounded`, `C69_memory`, `C69_totals`, `C69_time_per_element`, `C69_regular_report`, `C69_constant_set_report`, `C69_set_resizing_report`, `C69_regular_unambiguous`, `C69_constant_set_unambiguous`, `C69_set_resizing_unambiguous` |
| C70 | Byte quantities are scaled to the right unit | proved | Presentable | case analysis over the threshold table, exact reals and any monotone rounding where stated. binary64 arithmetic; text of numbers is a parameter. | `C70_bytes` |
| C71 | Rates are scaled to the right unit | proved | Presentable | same. binary64 arithmetic; the thresholds 1/60 and 1/3600 are rounded, hence the 2^-51 relative error. | `C71_bytes_per_second`, `C71_custom_per_second` |
| C72 | A unit is always shown | partial | Presentable | same; witnesses. False for negative values, NaN and the Default measurement (C72_no_unit_for_negatives, C72_no_unit_for_default); proved for all others. | `C72_unit_shown_partial`, `C72_no_unit_for_negatives`, `C72_no_unit_for_default` |
| C73 | Custom unit caches are transparent | proved | Presentable with its caches | invariant of the cache over all call histories. HashMap modelled as an association list; slices into it by their contents. | `C73_caches_transparent` |
| C74 | Reports never panic | partial | Display | no error path is reachable for plausible readings; witnesses. False of the code: reports panic for an element count of zero, for create/delete sets of 2^31 or more (overflow checks), and when the first pass lost its statistics (overflow checks); each proved. C74_no_panic_partial: no report panics for plausible readings and durations and non-zero counts. | `C74_no_panic_partial`, `C74_zero_elements_panics`, `C74_large_set_panics`, `C74_lost_statistics_panics` |
| C75 | Memory amounts in reports use the right unit and sign | proved | Display | case analysis over units; binary32 sign analysis (Proofs/Binary32Sign). binary32 arithmetic (C75_text_shipped); exact arithmetic as well (C75_text). Invisible changes lose the sign (C75_sign_lost). Number formatting of the standard library is a parameter. | `C75_text`, `C75_sign_sound`, `C75_sign_lost`, `C75_text_shipped` |
| C76 | Memory totals in reports | proved | Display | isize/usize arithmetic in both profiles. For readings below 2^62 bytes; with a lost first pass the checked build overflows (C76_lost_statistics_overflow), the wrapping one does not. | `C76_delta`, `C76_auxiliary`, `C76_lost_statistics_overflow`, `C76_auxiliary_wrapping` |
| C77 | Measured durations are shown unaltered | proved | Presentable | direct. binary64 arithmetic. | `C77_durations_exact` |
| C78 | Custom quantities are shown unscaled | proved | Presentable | direct. binary64 arithmetic. | `C78_custom_unit` |
| C79 | A failed CRUD test says what went wrong, and summarises every earlier attempt | proved | Crud.testLoop | induction over attempts; the summary is specified by counting. All outcomes of the retry loop; previousErrors models the BTreeMap as a list of entries with ascending keys. | `C79_failure`, `C79_all_attempts` |
| C80 | Every feature selection picks exactly one tolerance and one output | partial | Features: cfg predicates | complete case analysis over feature subsets. False for selections with both tolerances or both reports (in particular any that adds tolerance_25_percent or report_stderr to the default features): exact characterisation of the selections that compile proved, and the values they select. | `C80_always_defined`, `C80_exactly_one_partial`, `C80_values`, `C80_default_conflict`, `C80_no_report_ignored` |
| C81 | Reports show each pass's own numbers and both verdicts | proved | Display | the report is decomposed into its pieces in order; exact arithmetic for per-element numbers and totals. Order and content for every produced report; time per element and memory totals in exact and in the shipped arithmetic; the duration and number formatting of the standard library are parameters. | `C81_totals_shipped`, `C81_time_per_element_shipped`, `C81_regular_report`, `C81_constant_set_report`, `C81_set_resizing_report`, `C81_totals`, `C81_time_per_element` |
| C82 | Acceptance of the six analyses, from measurements to limit | proved | six analysis wrappers, exact reals | C02/C10 composed with the wrappers. Exact arithmetic; non-zero first-pass usage (zero usage: C08); regular and read/update sizes >= 3 (smaller: C02, C07), create/delete >= 2. | `C82_time`, `C82_time_constant_set`, `C82_time_set_resizing`, `C82_space` |
| C83 | Shipped f64 verdicts follow the limits up to one part in 2^40 | proved | six analysis wrappers, binary64 and a library of accuracy 2^-48 | error propagation: each comparison is the exact one for a tolerance perturbed by less than 2^-41, and limits move by less than 2^-40. IEEE binary64 with round to nearest even modelled; accuracy 2^-48 of log2 and powi is a hypothesis (met by the ideal library, ideal_library). Limits up to O(n^4), all limits of create/delete: powf arbitrary. Limits BetweenON4AndOkN and OkN: powf accurate to 2^-48 (AccuratePowf, met by ideal_powf) and n2 <= 32 n1 (Covered); beyond that the base's rounding error, amplified by the exponent, is not bounded by one part in 2^40. | `C83_time`, `C83_space` |
| C84 | A pass reports the true live bytes, and the space verdict follows the peaks | proved | AllocSys.pass: save point, body, delta | C20-C22 give the readings of a pass, C82 the verdict. Composition of C20-C22 with C82 (exact arithmetic) and with C83 (shipped arithmetic, up to one part in 2^40). | `C84_pass_reports_live_bytes`, `C84_space_verdict`, `C84_space_verdict_shipped` |
| C85 | Whole tests: a good algorithm is always accepted, a bad one never | proved | Standard, AsyncBuilder, Crud with the shipped arithmetic | histories of tests (C53, C58, C60-C64) say which measurements decide; C83 says how the verdicts follow from them. Assumes a maths library accurate to 2^-48 (AccurateLibrary; for exponential limits also AccuratePowf and n2 <= 32 n1). Three theorems (sound, rejects, accepts) for each of the three kinds of tests. | `C85_regular_sound`, `C85_regular_rejects`, `C85_regular_accepts`, `C85_async_sound`, `C85_async_rejects`, `C85_async_accepts`, `C85_crud_accepts`, `C85_crud_sound`, `C85_crud_rejects` |
| C86 | A panicking closure is never ignored and never leaves threads behind | proved | PassPanic: threads that may die and the thread that joins them | inductive invariant over all interleavings; simulation by PassRun when nothing panics; decreasing measure for the end. The payload of the closure's panic is not part of the pass's panic message (it is shown as Any { .. }). | `C86_in_order`, `C86_no_twice`, `C86_never_ignored`, `C86_waits`, `C86_without_panics`, `C86_can_end` |
| C87 | A CRUD analysis calls each closure with each number exactly once per pass | proved | CRUD traces with each pass expanded into an interleaving of the threads of the pass model | C50 gives the sequence of passes, C40/C42 the calls of each; append and permutation lemmas. Finished analyses; the even-division hypothesis is necessary for each-once (C41/C42 state what happens otherwise). | `C87_each_once`, `C87_counts`, `C87_delete_after_create` |
| C88 | Statistics since a save point are exact when several threads allocate | proved | the concurrent allocator model: every atomic access a step, modification orders and thread views | save point and request run alone: inversion; the middle: counters by C26 over the whole history, extremes by a simulation that forgets all values older than the save point and C26 on the result; no underflow: monotone counters and coherence invariant. all interleavings, stale reads and spurious failures; the save point and the request for statistics run with nothing else going on in the exact part (what happens otherwise is C27), anything goes in the no-underflow part; the ring's enqueue, consumer and peek_all are one step each | `C88_no_underflow`, `C88_pass_statistics`, `C88_joined` |
| C89 | Enqueue and claiming are safe with the memory orderings written in the code | proved | RingWeak: modification orders, thread views, release/acquire views carried by values | the invariants of C35/C36 on the newest values, plus: every value in a modification order is at most the newest. view-based model of relaxed/acquire/release accesses (no load buffering) | `C89_enough_slots_suffice`, `C89_enqueue_no_panic`, `C89_completed_is_prefix`, `C89_last_write`, `C89_no_loss`, `C89_progress`, `C89_at_most_once`, `C89_claims_in_order` |
| C90 | Elements pass between threads through the ring buffer alone | partial | same; slots are ordinary memory, a ghost records races | explicit schedules for the negation; simulation by the sequentially consistent model when the acting thread is always up to date. false of the code: loads of published_tail and reserved_tail are Relaxed, so publication does not synchronise with the reader; witnesses for uninitialised reads (a data race), panic, spurious and missed overflow errors; proved instead: right results for threads synchronised by other means, and sequential consistency when threads take turns | `C90_dequeue_can_read_uninitialised`, `C90_dequeue_can_panic`, `C90_overflow_can_be_spurious`, `C90_overflow_can_be_missed`, `C90_peek_all_can_panic`, `C90_dequeue_can_wait`, `C90_up_to_date_partial`, `C90_turns_partial`, `C90_turns_values_partial`, `C90_one_thread_partial` |
| C91 | The space verdict of passes run by several threads is about memory really in use | proved | `PassConc`: the pass measurements built from a save point and a request of the concurrent allocator model | composition of C88 (pass statistics) and C82 (space verdicts). Exact and shipped arithmetic. No panic unconditionally; the verdict part assumes the first pass used memory above its start; peaks are amounts really in use at some time (the largest amount need not be recorded when threads race: C88). | `C91_pass_reports`, `C91_space_verdict`, `C91_no_panic`, `C91_space_verdict_shipped` |
| C92 | For how long a zero-copy reference shows its element | proved | `RingRefs`: a reference is the list of slots it points to, looked at in any later state | invariant giving the contents of all slots, pending or not; concurrency: from the invariants of C35 and C36. Fewer than 2^32 enqueues; concurrency: sequentially consistent interleavings, at most SIZE enqueues in flight. | `C92_shows_result`, `C92_dequeued_reference`, `C92_peeked_references`, `C92_valid_exactly`, `C92_concurrent_dequeue`, `C92_concurrent_peek` |
| C93 | Each element given to the ring buffer is dropped exactly once | partial | `RingRefs`: what the assignment of a slot drops | induction over histories: the exact list of drops. False of the code: the first SIZE enqueues drop uninitialised memory (undefined behaviour) and the last SIZE elements are never dropped (C93_uninitialised_dropped, any history); C93_exact gives the exact list of drops. | `C93_exact`, `C93_uninitialised_dropped`, `C93_dropped_partial` |
| C94 | Large enough sets tell algorithms apart | proved | `Analysis`: regular verdicts, real-valued growth | from the acceptance criterion (C82): quotients usage/f, little-o and limits of Mathlib. Exact arithmetic. C94_small_sets_counterexample shows that 'large enough' cannot be dropped. | `C94_slower_rejected`, `C94_faster_accepted`, `C94_classified`, `C94_classified_space`, `C94_separated_iff`, `C94_log_factor`, `C94_doubling`, `C94_small_sets_counterexample` |
| C95 | Create and delete operations that cost what the theory says are classified correctly | partial | `Analysis`: set-resizing verdicts; cost sums in `Spec/OnModel` | closed forms of the sums; Stirling-type bounds of sums of logarithms; the finite ranges they leave open are settled by comparing powers of naturals. Logarithmic cost: C95_log_partial needs 138 elements per pass (C95_log_quarter_partial: 7, with a tolerance of at least 25%). These numbers are exact for the two shipped tolerances: C95_log_counterexample and C95_log_counterexample_quarter show that with fewer elements it is false, and C95_log_thresholds_tenth/_quarter give the verdict for every number of elements. Large passes of logarithmic operations are reported as O(1) (C95_log_looks_constant). Constant, linear and quadratic costs are complete. | `C95_log_partial`, `C95_log_quarter_partial`, `C95_log_counterexample`, `C95_log_counterexample_quarter`, `C95_log_looks_constant`, `C95_log_thresholds_quarter`, `C95_log_thresholds_tenth`, `C95_constant`, `C95_linear`, `C95_square_rejected` |
| C96 | The dry run of an asynchronous test calls what was configured, in order, with the measurers around the passes | proved | `DryRun`: closures that may depend on the whole history and panic | inversion of the step monad; history-keeping predicate for every reachable prefix; totality by induction over the measurers. | `C96_calls`, `C96_genuine`, `C96_completes`, `C96_missing_pass` |
| C97 | The metrics allocator only observes | proved | `GlobalAlloc`: the allocator between a program and an arbitrary system allocator, with addresses and layouts | induction over histories; multiset of sizes of the live blocks, then C28. | `C97_transparent`, `C97_statistics`, `C97_used_is_live`, `C97_used_is_live_exactly` |
| C98 | The text of allocator statistics shows every figure under its own name and loses nothing | proved | `StatsText` | decimal digits end at the next separator. | `C98_labelled`, `C98_unambiguous` |
| C99 | Measurement noise within a margin fixed by the tolerance never changes the outcome | proved | `Analysis`, `RegularTest` | the worst errors turn the growth ratio by (1+delta)/(1-delta); composed with the C94/C85 characterisations of acceptance. | `C99_accepted_iff`, `C99_rejected_iff`, `C99_test_accepted`, `C99_test_rejected`, `C99_async_accepted`, `C99_async_rejected`, `C99_crud_accepted`, `C99_crud_rejected` |
| C100 | A container never misses an element during a CRUD analysis | proved | CRUD traces with each pass expanded into an interleaving, folded over a set of numbers | C50 gives the passes (C53 the attempts), C40/C42 the numbers of each; contents tracked pass by pass. container modelled as a set; passes whose threads divide their length (C100_warmup_misses, C43 show what happens otherwise) | `C100_never_misses`, `C100_contents`, `C100_enough_needed`, `C100_warmup_misses`, `C100_test`, `C100_test_single_threaded` |
| C101 | A panic of the user's code ends everything at once, with that panic | proved | `Crud`, `Standard`, `AsyncBuilder`, `DryRun`: closures as oracles that may panic | a predicate on computations (if a logged call panicked it is the last event and the result) closed under sequencing, branching and retrying. panics inside the threads of a pass: C86 | `C101_regular`, `C101_async`, `C101_dry_run`, `C101_crud_analysis`, `C101_crud_test` |
| C102 | The report of a CRUD analysis is complete, in order, and shows what was measured | proved | Crud.lean, Display.lean | `Spec/CrudReportSpec.lean` writes the whole text as a function of the figures; `Proofs/CrudReport.lean` follows the text through every step of the runner (both for normal ends and rejections) together with the exclusive or of the results. Assumes the iteration counts do not overflow u32 (NoOverflow); the text of one pass's memory and of one operation's report are those of C75 and C81. | `C102_finished`, `C102_aborted`, `C102_analyse` |
| C103 | The transcript of a regular or asynchronous test, and the message it fails with, tell exactly what happened | proved | `Model/Standard.lean`, `Model/AsyncBuilder.lean`, `Model/Retry.lean` | `Spec/TranscriptSpec.lean` describes the whole history a test adds (`RegTold`, `AsyncTold`: lists of complete attempts beyond the limit on time only, then one that is accepted, beyond space, the last one, or cut) in terms of what the closures did given everything before; proved by exact case analysis of each step and induction over the retry loop. The converse (`C103_regular_only`, `C103_async_only`): the specification allows nothing else, so it determines history and outcome.. | `C103_regular`, `C103_async`, `C103_regular_only`, `C103_async_only`, `C103_message_names` |
| C104 | Which measurements get which verdict, and which verdicts can be given at all | proved | `Analysis` | `Spec/VerdictWindow.lean` gives the window of each verdict and when it is empty; a verdict is c iff it is at most c (C82) and not at most the one before; emptiness by comparing the end points, using that a logarithm grows strictly less than its argument from 3 on; binary64: the test that decided (`pick_holds`) bounds the growth up to 2^-40.. Windows and reachability: exact arithmetic; C104_shipped_log_gap and C104_shipped_doubling_gap: binary64. | `C104_exponential_takes_time`, `C104_time`, `C104_time_constant_set`, `C104_time_set_resizing`, `C104_space`, `C104_reportable`, `C104_reportable_resizing`, `C104_equal_sizes`, `C104_doubling_gap`, `C104_resizing_log_gap`, `C104_shipped_log_gap`, `C104_shipped_doubling_gap` |
| C105 | Reports reach the selected stream, whole and in order | proved | `Model/Output.lean` | `Spec/OutputSpec.lean`: an arbitrary buffering device and arbitrary steps of other threads between the steps of the call; per stream, delivered plus waiting text is what was printed (invariant over all steps), flushing delivers what waits. Witnesses: a line-buffered device tears a report, failing flushes lose one silently.. Not guaranteed, both proved: C105_torn (several threads, one device), C105_flush_errors_ignored. | `C105_in_order`, `C105_sequence`, `C105_null`, `C105_concurrent`, `C105_write_error`, `C105_torn`, `C105_flush_errors_ignored` |
| C106 | Save points and requests for statistics stay correct when threads meet inside the ring buffer | proved | `Model/AllocRing.lean`: AllocConc with every atomic access of ring_buffer.rs a step | `Spec/AllocRingSpec.lean`; forward simulation into AllocConc: an enqueue takes effect when published, a peek when `published_tail` is loaded; invariant: reserved and not yet published positions belong to distinct threads and form an interval, slots in the window hold what was enqueued. Witness for the overrun.. all interleavings of the statistics' and the ring's atomic accesses; statistics relaxed (stale reads, spurious failures), ring sequentially consistent here (its own orderings: C89, C90); at most SIZE threads, fewer than 2^32 save points, no overrun request (needed: C106_overrun) | `C106_refines`, `C106_no_panic`, `C106_some_can_finish`, `C106_waits`, `C106_pass_statistics`, `C106_overrun`, `C106_space_verdict`, `C106_space_no_panic`, `C106_space_verdict_shipped` |
| C107 | Without allocator metrics, tests are decided by time alone | partial | AllocSys without heap calls; the three kinds of tests | `Spec/NoMetricsSpec.lean`; the pass reports constant bytes (C84 with an empty list of calls); 0/0 = NaN gives the worst verdict (C08), composed with C61, C64, C58. True with the loosest limit on space or none (for create and delete: at least BetweenOLogNAndON); false with any other: C107_regular_rejects, C107_async_rejects, C107_crud_rejects. ZeroPower is the IEEE rule 0^y = 0. | `C107_quiet_pass`, `C107_unmetered_pass`, `C107_space_verdict`, `C107_regular_rejects`, `C107_regular_partial`, `C107_async_rejects`, `C107_async_partial`, `C107_crud_rejects`, `C107_crud_partial` |
| C108 | From heap calls and clock readings to the outcome of a whole test | proved | `Model/Metered.lean`: passes measured by the model of the allocator | `Spec/MeteredSpec.lean`: bytes needed, from live blocks only; C84 turns what the closures do into what is measured, C85 gives the outcome of the test, C109 restricts the conditions to the run. Conditions are about the histories that are part of the run only. A ring buffer that hangs is modelled as a panic in meter (it does not happen under the conditions). Example: a world in which the whole heap history of the process is accounted for. | `C108_pass`, `C108_regular_accepts`, `C108_regular_rejects`, `C108_regular_sound`, `C108_async_accepts`, `C108_async_rejects`, `C108_async_sound`, `C108_crud_accepts`, `C108_crud_rejects`, `C108_crud_sound` |
| C109 | Nothing but what the closures did in the run matters | proved | the runners, with two sets of closures | `Proofs/Local.lean`: a relation between computations that is kept by sequencing, branching and retrying. The duration of the CRUD warm-up is only read when it is printed. Dry runs (test_run) are not covered. | `C109_regular`, `C109_async`, `C109_crud`, `C109_crud_analysis` |
| C110 | The attempts that were made decide the outcome of a test | proved | Model/Standard, Model/AsyncBuilder, Model/Crud, Model/Analysis | histories of attempts (C60, C62, C53, C79) with the binary64 verdicts of C83; the hypotheses speak of the recorded run only: closures are replaced by tame ones outside the run (C109). For CRUD tests: requested operations have at least 30 elements (retries may divide the counts by ten). Asynchronous tests: the type of the data is inhabited. Exponential limits as in C83. | `C110_regular`, `C110_async`, `C110_crud` |
| C111 | The overflow error says what happened | proved | Model/Ring, Model/RingConc | Corollary of the refinement of C30 with the cursor invariant of C31: the numbers in the error are the length of the log and the cursor; decimal numerals before a non-digit are uniquely readable; a concrete schedule of the concurrent model for the contradicting text.. text, Display and io::Error conversion of the overflow error for every sequential history; with calls in flight the text may contradict itself (C111_concurrent_text_contradicts_itself, finding) | `C111_overflow_text`, `C111_readable`, `C111_concurrent_text_contradicts_itself` |
| C112 | Smooth transitions: the verdict moves through the classes one by one | proved | Model/Analysis | the verdict is at most a class iff one inequality holds (C02, C82 extended to sets of two elements); a step smaller than the distance of two consecutive thresholds cannot pass both; least step that reaches a class for the last part. Exact arithmetic; C112_smooth_shipped: binary64, below O(n^4); C112_no_jump: any monotone rounding, from durations. The step must be small enough (SmallStep): with closer sizes some classes cannot be reported at all (C104). | `C112_smooth`, `C112_smooth_resizing`, `C112_none_skipped`, `C112_none_skipped_resizing`, `C112_every_verdict`, `C112_every_verdict_resizing`, `C112_no_jump`, `C112_smooth_shipped` |
| C113 | Calls on the ring buffer return | proved | Model/RingConc, Spec/RingLiveSpec | infinite schedules; the reserved slots are published in order, by induction on the slot: the thread that holds the oldest one succeeds at its next genuine attempt; dequeue by well-founded descent on the tail minus the head; the blocking witness by an invariant. liveness over infinite fair schedules; includes the proof that enqueue is not lock-free (a stopped enqueue blocks later ones) | `C113_enough_slots_suffice`, `C113_enqueue_returns`, `C113_dequeue_returns`, `C113_peek_returns`, `C113_every_call_returns`, `C113_everything_is_published`, `C113_a_stopped_enqueue_blocks_the_later_ones`, `C113_an_enqueue_that_never_returns` |
| C114 | Calls on the metrics allocator return | proved | Model/AllocRing, Spec/AllocLiveSpec | infinite schedules; only three loops can keep a thread inside; the extremes change monotonically between resets and there are finitely many resets, so the value read by a failing genuine attempt is eventually the final one; publishing as in C113. liveness over infinite schedules with stale reads and spurious failures; heap calls and statistics need only the calling thread to keep running, save points need all threads | `C114_heap_call_returns`, `C114_delta_returns`, `C114_save_point_returns`, `C114_nothing_hangs` |
| C115 | Calls on the ring buffer end with the memory orderings written in the code | proved | Model/RingWeak, Spec/RingWeakLiveSpec | infinite schedules with views; memory and views only grow and the counters are bounded, so head and published_tail settle; a fresh load then fixes the view of the stuck thread, and the next fresh attempt succeeds; enqueue as in C113. liveness over infinite schedules of the release/acquire model with stale loads and spurious failures; dequeue may end with the overflow-check panic of C90 | `C115_enough_slots_suffice`, `C115_enqueue_returns`, `C115_dequeue_ends`, `C115_dequeue_returns`, `C115_peek_ends`, `C115_everything_is_published`, `C115_no_call_lasts`, `C115_a_stopped_enqueue_blocks_the_later_ones` |
| C116 | Measurements are right with the memory orderings written in the code | proved | Model/AllocWeak, Spec/AllocWeakSpec | modification orders and per-thread views for the counters and slots of the ring buffer; invariant: the thread whose turn it is has seen everything newest in the ring, the others are outside it; so each step is one of the sequentially consistent model (Model/AllocRing) and C106/C88/C91 carry over; the race by a concrete schedule. | `C116_no_race`, `C116_no_panic`, `C116_refines`, `C116_one_measuring_thread`, `C116_pass_statistics`, `C116_race`, `C116_space_verdict`, `C116_space_no_panic`, `C116_space_verdict_shipped` |
| C117 | From what threads do with the heap to the outcome of a whole test | proved | Model/MeteredThreads, Spec/ThreadedTestSpec | C116 for each pass: its extremes are the counters min/max at the end, which enclose currentUsedMemory whenever no call is under way (the state at such a moment splits the pass, the invariant of C88 holds there, and the counters only get further apart); so the measured bytes are bytes it could need, and C85/C87 with the run clamped to its own history (C109) give the outcome. Conditions are about the histories that are part of the run only. OrdinaryTPass asks, as C116, that no call is under way and the measuring thread is up to date when it takes the save point and when it asks for the statistics (threads joined). A ring buffer that makes the request panic is a panic of the pass (it does not happen under the conditions). Example: two concrete passes of two threads, in a test that is accepted, and in one that is rejected. | `C117_pass`, `C117_regular_accepts`, `C117_regular_rejects`, `C117_regular_sound`, `C117_async_accepts`, `C117_async_rejects`, `C117_async_sound`, `C117_crud_accepts`, `C117_crud_rejects`, `C117_crud_sound` |
| C118 | Measurements of custom units stay valid | proved | Model/ScaleHeap, Spec/ScaleHeapSpec | a heap of cells with reused addresses, the static hash maps (which may move) and the references given out; invariant: each map is at its table, no two tables or buffers share an address, and the buffer of each entry holds the scales of its unit, kept by every step. Races: ghosts count the reads and writes of each static and what each thread has seen; an induction over the ready threads shows none when calls are handed on, and an unseen read or write stays unseen without a synchronisation. The maps' moves and all addresses are arbitrary; C118_race is a finding: the functions are not thread safe and nothing confines them to one thread (they are crate-internal, called by the reports). | `C118_never_undefined`, `C118_measurements_stay_valid`, `C118_one_table_per_unit`, `C118_can_go_on`, `C118_no_race`, `C118_single_thread_no_race`, `C118_race`, `C118_known_units_never_race` |
| C119 | Vectors that are pushed, indexed and popped during a CRUD analysis | proved | CRUD traces with each pass expanded into an interleaving, folded over a list (Spec/VectorSpec) | triples of contents before and after each pass; bounds need only the number of elements (C42), matching pops the exact order of a single thread (C40, C41, C44). closures modelled by what they do to a vector; the out-of-bounds theorem speaks of finished analyses: with a real vector the read panics instead | `C119_in_bounds`, `C119_out_of_bounds`, `C119_pops_its_number`, `C119_as_before`, `C119_test` |
| C120 | Other threads' use of the heap disturbs a space measurement by at most its own swing | proved | tagged histories of heap events (Spec/BackgroundSpec) run through the pass of C84 | live bytes are those at the start plus the net bytes of both sides at every prefix, and prefixes of a side are those of the whole restricted to it; then the noise bounds of C99. heap events of all threads in the order the allocator's counters are reached (C88 and C117 treat the atomic accesses themselves) | `C120_pass`, `C120_accepted`, `C120_rejected`, `C120_tight` |
| C121 | The bound on the disturbance by other threads holds for every interleaving of atomic accesses | proved | schedules of AConc (Model/AllocConc), the calls of each thread read off the schedule (Spec/DisturbSpec) | invariant (Proofs/Disturb): every value of the used memory since the save point is the start plus the net bytes of a prefix of each thread's calls, the own thread's prefix being known of what it can still read; the recorded maximum only grows and has been raised to each of the own prefixes; then as C120. nothing going on when the save point is taken, no other thread in a save point or request; other threads' resizes to the same size excluded, with a concrete execution showing why | `C121_pass`, `C121_accepted`, `C121_rejected`, `C121_old_peak` |
| C122 | Vectors with insertions and removals at the front during a CRUD analysis | proved | CRUD traces with each pass expanded into an interleaving, folded over a list with its values (Spec/FrontVectorSpec) | the number of elements is that of the vector of C119 whatever the values; triples of contents as for C119, the arguments of the creations bounded by C42; whole tests by the bounds on the retries (C55). Analyses of even creations (C122_no_panic), whole single-threaded tests (C122_test), necessity of a creation (C122_nothing_created). | `C122_no_panic`, `C122_test`, `C122_nothing_created` |
<!-- end of table -->
