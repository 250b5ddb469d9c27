#!/usr/bin/env python3
"""Regenerates the per-property table of DESIGN.md (between the markers) from properties.jsonl, MANIFEST.json and the texts below."""
import json, os, re
root = os.path.dirname(os.path.dirname(os.path.abspath(__file__)))
HOW = {
'C01': ('Analysis.analyseComplexity over any FloatEnv', 'every test of the chain is downward closed in u2, so the index of the first test that holds is monotone (Proofs/Chain, FloatMono)'),
'C02': ('same, exact reals', 'the growth factors f_k(n2)/f_k(n1) increase with k for n1 >= 3 (real analysis in Proofs/Exact*), hence the first test that holds is the least limit met'),
'C03': ('same, exact reals', 'from C02: a usage proportional to the class has ratio 1'),
'C04': ('same, exact reals', 'ratios cancel the unit up to O(n^4); the exponential tier compares u with k^n, explicit counterexample'),
'C05': ('same, exact reals', 'direct evaluation for k^n; explicit counterexample for c*k^n'),
'C06': ('same, any FloatEnv', 'as C01, in u1 (Proofs/Antitone)'),
'C07': ('same, exact reals', 'direct evaluation with n1 <= 1'),
'C08': ('same, any FloatEnv', 'direct evaluation; 0/0 = NaN falls through all comparisons'),
'C09': ('Analysis.analyseSetResizing over any FloatEnv', 'as C01'),
'C10': ('same, exact reals', 'as C02 with the log-triple threshold'),
'C11': ('same', 'case analysis over the chain of tests; witness that the ceiling is reached'),
'C12': ('constant-set wrappers of time_analysis.rs and space_analysis.rs', 'min/max are commutative, both profiles'),
'C13': ('space wrappers, usize subtraction in both profiles', 'the result is a function of the two differences; it panics iff a peak is below its baseline (checked builds)'),
'C14': ('time wrappers, Duration::as_secs_f64', 'as_secs_f64 is monotone under any monotone rounding (Proofs/Duration); C01/C09'),
'C15': ('Complexity.asU32', 'Mathlib asymptotics: the named growth functions are ordered by IsLittleO'),
'C16': ('pretty texts and Debug names', 'injectivity over the whole enumeration (a finite type: complete case analysis); meaning of the texts by an independent reading of class names (Spec/ClassText), for every growth function'),
'C17': ('binary64 as a rounding function on the reals (Spec/Ieee)', 'monotone, exact on integers up to 2^53, relative error; the laws assumed elsewhere (FloatLaws) follow'),
'C18': ('space wrappers', 'C01/C09 composed with the subtraction'),
'C20': ('metrics_allocator.rs, sequential', 'invariant over all histories of allocator calls (used = sum of live blocks mod 2^64)'),
'C21': ('delta_statistics over the ring of save points', 'refinement of the allocator to a log of readings; counters subtract'),
'C22': ('same', 'invariant: stored min/max of a save point are those of the log after it'),
'C23': ('same', 'ring overwrites exactly after SIZE-1 further save points'),
'C24': ('same', 'the delta of a save point is a function of the log suffix only'),
'C25': ('same', 'invariant min <= used <= max of each reading'),
'C26': ('AllocConc: one atomic read-modify-write per step, any number of threads', 'inductive invariant over all interleavings with per-thread program counters; reads of the extremes may be stale'),
'C27': ('same, with a concurrent save_point', 'explicit schedules for the negation; invariants for what remains'),
'C28': ('allocator with a refusing system allocator', 'explicit history for the negation; invariant used = live + refused'),
'C30': ('ring_buffer.rs, sequential', 'refinement to (log, cursors): simulation for every operation sequence'),
'C31': ('same', 'induction over operation histories on top of C30'),
'C32': ('same', 'frame property of the refinement'),
'C33': ('same', 'peek_all reads the last SIZE of the log suffix'),
'C34': ('same', 'explicit history (every SIZE) for the negation; invariant for peek_all'),
'C35': ('RingConc: one atomic action per step', 'inductive invariant over all interleavings: reservations are an interval, slots hold the values reserved; ghost log'),
'C36': ('same', 'invariant on claims: heads claimed are distinct and ordered'),
'C37': ('ring, both profiles, counters modulo 2^32', 'explicit histories for the negation; modular invariant for the positive part'),
'C38': ('RingConc with peek_all', 'explicit schedules for the negations; invariant under the bound on reservations; a second invariant gives the exact contents of every slot, hence exactly what `peek_all` shows'),
'C40': ('Pass: the chunks of run_iterator_pass and the schedules of its threads', 'arithmetic of the chunk bounds, then multiset equality for every interleaving'),
'C41': ('same', 'intervals are disjoint and contiguous'),
'C42': ('same', 'exact count of skipped/extra elements'),
'C43': ('same', 'set equality iff condition; counterexample'),
'C44': ('same', 'each thread is a monotone enumeration of its interval, for every interleaving'),
'C45': ('same', 'xor over a permutation'),
'C46': ('same', 'division by zero panics'),
'C47': ('PassResult: statistics of a pass that lost its save point', 'evaluation of the verdicts on the sentinel for any FloatEnv with the laws'),
'C48': ('PassResult, PassTime', 'sum over the threads; in binary64 by accumulating relative errors, one factor per rounding'),
'C50': ('Crud: the runner as a state monad over an oracle for measurements', 'symbolic execution: the trace of actions equals the documented sequence'),
'C51': ('same', 'no event of an operation with zero iterations'), 'C52': ('same', 'count of reset events'),
'C53': ('Crud.testLoop', 'induction over attempts'), 'C54': ('same', 'explicit configurations for the negation'),
'C55': ('Crud.adapt', 'integer arithmetic, both profiles'), 'C56': ('Crud.analyseCrud', 'no failure with unbounded limits; totality under FloatLaws'),
'C57': ('Crud, Standard, AsyncBuilder', 'relational proof: both runs produce the same trace until the stricter one fails; counterexample for whole CRUD tests'),
'C58': ('Crud.internalAnalyse', 'Hoare-style invariants of the runner (Proofs/CrudTotal): which measurements an error or an acceptance rests on'),
'C59': ('same', 'the report is the concatenation of the output events, for success and rejection'),
'C60': ('Standard', 'induction over attempts'), 'C61': ('Standard + Retry', 'iff with a specification of attempts'),
'C62': ('AsyncBuilder', 'order and data-flow automata over the trace'), 'C63': ('same', 'data handed from attempt to attempt; for every builder without reset the data is dropped'),
'C64': ('same', 'iff with a specification of attempts'), 'C65': ('same', 'the verdict is a function that ignores the auxiliary limit and the measurers'),
'C66': ('builder options as setters', 'the builder equals the one with the last settings'), 'C67': ('same', 'direct evaluation with the message'),
'C68': ('Measurer', 'induction over the list of measurers'),
'C70': ('Presentable', 'case analysis over the threshold table, exact reals and any monotone rounding where stated'), 'C71': ('Presentable', 'same'), 'C72': ('Presentable', 'same; witnesses'),
'C73': ('Presentable with its caches', 'invariant of the cache over all call histories'), 'C74': ('Display', 'no error path is reachable for plausible readings; witnesses'),
'C75': ('Display', 'case analysis over units; binary32 sign analysis (Proofs/Binary32Sign)'), 'C76': ('Display', 'isize/usize arithmetic in both profiles'),
'C77': ('Presentable', 'direct'), 'C78': ('Presentable', 'direct'), 'C79': ('Crud.testLoop', 'induction over attempts; the summary is specified by counting'),
'C80': ('Features: cfg predicates', 'complete case analysis over feature subsets'),
'C81': ('Display', 'the report is decomposed into its pieces in order; exact arithmetic for per-element numbers and totals'),
'C82': ('six analysis wrappers, exact reals', 'C02/C10 composed with the wrappers'),
'C83': ('six analysis wrappers, binary64 and a library of accuracy 2^-48', 'error propagation: each comparison is the exact one for a tolerance perturbed by less than 2^-41, and limits move by less than 2^-40'),
'C84': ('AllocSys.pass: save point, body, delta', 'C20-C22 give the readings of a pass, C82 the verdict'),
'C85': ('Standard, AsyncBuilder, Crud with the shipped arithmetic', 'histories of tests (C53, C58, C60-C64) say which measurements decide; C83 says how the verdicts follow from them'),
'C86': ('PassPanic: threads that may die and the thread that joins them', 'inductive invariant over all interleavings; simulation by PassRun when nothing panics; decreasing measure for the end'),
'C87': ('CRUD traces with each pass expanded into an interleaving of the threads of the pass model', 'C50 gives the sequence of passes, C40/C42 the calls of each; append and permutation lemmas'),
'C88': ('the concurrent allocator model: every atomic access a step, modification orders and thread views', 'save point and request run alone: inversion; the middle: counters by C26 over the whole history, extremes by a simulation that forgets all values older than the save point and C26 on the result; no underflow: monotone counters and coherence invariant'),
'C89': ('RingWeak: modification orders, thread views, release/acquire views carried by values', 'the invariants of C35/C36 on the newest values, plus: every value in a modification order is at most the newest'),
'C90': ('same; slots are ordinary memory, a ghost records races', 'explicit schedules for the negation; simulation by the sequentially consistent model when the acting thread is always up to date'),
'C91': ('`PassConc`: the pass measurements built from a save point and a request of the concurrent allocator model', 'composition of C88 (pass statistics) and C82 (space verdicts)'),
'C92': ('`RingRefs`: a reference is the list of slots it points to, looked at in any later state', 'invariant giving the contents of all slots, pending or not; concurrency: from the invariants of C35 and C36'),
'C93': ('`RingRefs`: what the assignment of a slot drops', 'induction over histories: the exact list of drops'),
'C94': ('`Analysis`: regular verdicts, real-valued growth', 'from the acceptance criterion (C82): quotients usage/f, little-o and limits of Mathlib'),
'C95': ('`Analysis`: set-resizing verdicts; cost sums in `Spec/OnModel`', 'closed forms of the sums; Stirling-type bounds of sums of logarithms; the finite ranges they leave open are settled by comparing powers of naturals'),
'C96': ('`DryRun`: closures that may depend on the whole history and panic', 'inversion of the step monad; history-keeping predicate for every reachable prefix; totality by induction over the measurers'),
'C97': ('`GlobalAlloc`: the allocator between a program and an arbitrary system allocator, with addresses and layouts', 'induction over histories; multiset of sizes of the live blocks, then C28'),
'C98': ('`StatsText`', 'decimal digits end at the next separator'),
'C19': ('`Presentable`, `StdFmt` (`{:.k}`, `{:.3e}`, `Duration`)', 'C70-C73, C77, C78 give the text; digits read back by induction; a ladder of monotone rungs, each below the next unit, for the order'),
'C69': ('`StdFmt` (standard library formatting), `Display`', 'decimal digits read back by induction; rounding to two decimals and f32 errors bounded and combined with C75/C81; splitting distributes over concatenation; no verdict text begins another one'),
'C99': ('`Analysis`, `RegularTest`', 'the worst errors turn the growth ratio by (1+delta)/(1-delta); composed with the C94/C85 characterisations of acceptance'),
'C100': ('CRUD traces with each pass expanded into an interleaving, folded over a set of numbers', 'C50 gives the passes (C53 the attempts), C40/C42 the numbers of each; contents tracked pass by pass'),
'C101': ('`Crud`, `Standard`, `AsyncBuilder`, `DryRun`: closures as oracles that may panic', 'a predicate on computations (if a logged call panicked it is the last event and the result) closed under sequencing, branching and retrying'),
 "C102": ("Crud.lean, Display.lean", "`Spec/CrudReportSpec.lean` writes the whole text as a function of the figures; `Proofs/CrudReport.lean` follows the text through every step of the runner (both for normal ends and rejections) together with the exclusive or of the results"),
  'C103': ('`Model/Standard.lean`, `Model/AsyncBuilder.lean`, `Model/Retry.lean`', '`Spec/TranscriptSpec.lean` describes the whole history a test adds (`RegTold`, `AsyncTold`: lists of complete attempts beyond the limit on time only, then one that is accepted, beyond space, the last one, or cut) in terms of what the closures did given everything before; proved by exact case analysis of each step and induction over the retry loop. The converse (`C103_regular_only`, `C103_async_only`): the specification allows nothing else, so it determines history and outcome.'),
  'C104': ('`Analysis`', '`Spec/VerdictWindow.lean` gives the window of each verdict and when it is empty; a verdict is c iff it is at most c (C82) and not at most the one before; emptiness by comparing the end points, using that a logarithm grows strictly less than its argument from 3 on; binary64: the test that decided (`pick_holds`) bounds the growth up to 2^-40.'),
  'C105': ('`Model/Output.lean`', '`Spec/OutputSpec.lean`: an arbitrary buffering device and arbitrary steps of other threads between the steps of the call; per stream, delivered plus waiting text is what was printed (invariant over all steps), flushing delivers what waits. Witnesses: a line-buffered device tears a report, failing flushes lose one silently.'),
  'C106': ('`Model/AllocRing.lean`: AllocConc with every atomic access of ring_buffer.rs a step', '`Spec/AllocRingSpec.lean`; forward simulation into AllocConc: an enqueue takes effect when published, a peek when `published_tail` is loaded; invariant: reserved and not yet published positions belong to distinct threads and form an interval, slots in the window hold what was enqueued. Witness for the overrun.'),
  'C107': ('AllocSys without heap calls; the three kinds of tests', '`Spec/NoMetricsSpec.lean`; the pass reports constant bytes (C84 with an empty list of calls); 0/0 = NaN gives the worst verdict (C08), composed with C61, C64, C58'),
  'C108': ('`Model/Metered.lean`: passes measured by the model of the allocator', '`Spec/MeteredSpec.lean`: bytes needed, from live blocks only; C84 turns what the closures do into what is measured, C85 gives the outcome of the test, C109 restricts the conditions to the run'),
  'C109': ('the runners, with two sets of closures', '`Proofs/Local.lean`: a relation between computations that is kept by sequencing, branching and retrying'),
    'C110': ('Model/Standard, Model/AsyncBuilder, Model/Crud, Model/Analysis', 'histories of attempts (C60, C62, C53, C79) with the binary64 verdicts of C83; the hypotheses speak of the recorded run only: closures are replaced by tame ones outside the run (C109)'),
    'C111': ('Model/Ring, Model/RingConc', 'Corollary of the refinement of C30 with the cursor invariant of C31: the numbers in the error are the length of the log and the cursor; decimal numerals before a non-digit are uniquely readable; a concrete schedule of the concurrent model for the contradicting text.'),
    'C112': ('Model/Analysis', 'the verdict is at most a class iff one inequality holds (C02, C82 extended to sets of two elements); a step smaller than the distance of two consecutive thresholds cannot pass both; least step that reaches a class for the last part'),
    'C113': ('Model/RingConc, Spec/RingLiveSpec', 'infinite schedules; the reserved slots are published in order, by induction on the slot: the thread that holds the oldest one succeeds at its next genuine attempt; dequeue by well-founded descent on the tail minus the head; the blocking witness by an invariant'),
    'C114': ('Model/AllocRing, Spec/AllocLiveSpec', 'infinite schedules; only three loops can keep a thread inside; the extremes change monotonically between resets and there are finitely many resets, so the value read by a failing genuine attempt is eventually the final one; publishing as in C113'),
    'C115': ('Model/RingWeak, Spec/RingWeakLiveSpec', 'infinite schedules with views; memory and views only grow and the counters are bounded, so head and published_tail settle; a fresh load then fixes the view of the stuck thread, and the next fresh attempt succeeds; enqueue as in C113'),
    'C116': ('Model/AllocWeak, Spec/AllocWeakSpec', 'modification orders and per-thread views for the counters and slots of the ring buffer; invariant: the thread whose turn it is has seen everything newest in the ring, the others are outside it; so each step is one of the sequentially consistent model (Model/AllocRing) and C106/C88/C91 carry over; the race by a concrete schedule'),
    'C117': ('Model/MeteredThreads, Spec/ThreadedTestSpec', 'C116 for each pass: its extremes are the counters min/max at the end, which enclose currentUsedMemory whenever no call is under way (the state at such a moment splits the pass, the invariant of C88 holds there, and the counters only get further apart); so the measured bytes are bytes it could need, and C85/C87 with the run clamped to its own history (C109) give the outcome'),
    'C118': ('Model/ScaleHeap, Spec/ScaleHeapSpec', 'a heap of cells with reused addresses, the static hash maps (which may move) and the references given out; invariant: each map is at its table, no two tables or buffers share an address, and the buffer of each entry holds the scales of its unit, kept by every step. Races: ghosts count the reads and writes of each static and what each thread has seen; an induction over the ready threads shows none when calls are handed on, and an unseen read or write stays unseen without a synchronisation'),
    'C119': ('CRUD traces with each pass expanded into an interleaving, folded over a list (Spec/VectorSpec)', 'triples of contents before and after each pass; bounds need only the number of elements (C42), matching pops the exact order of a single thread (C40, C41, C44)'),
    'C120': ('tagged histories of heap events (Spec/BackgroundSpec) run through the pass of C84', 'live bytes are those at the start plus the net bytes of both sides at every prefix, and prefixes of a side are those of the whole restricted to it; then the noise bounds of C99'),
    'C121': ('schedules of AConc (Model/AllocConc), the calls of each thread read off the schedule (Spec/DisturbSpec)', 'invariant (Proofs/Disturb): every value of the used memory since the save point is the start plus the net bytes of a prefix of each thread\'s calls, the own thread\'s prefix being known of what it can still read; the recorded maximum only grows and has been raised to each of the own prefixes; then as C120'),
    'C122': ('CRUD traces with each pass expanded into an interleaving, folded over a list with its values (Spec/FrontVectorSpec)', 'the number of elements is that of the vector of C119 whatever the values; triples of contents as for C119, the arguments of the creations bounded by C42; whole tests by the bounds on the retries (C55)'),
}
props = [json.loads(l) for l in open(root + '/properties.jsonl')]
man = {c['property']: c for c in json.load(open(root + '/MANIFEST.json'))['claims']}
rows = ['| id | property | status | model | proof | theorems |', '|----|----------|--------|-------|-------|----------|']
for p in sorted(props, key=lambda p: int(p['id'][1:])):
    c = man[p['id']]; m, how = HOW.get(p['id'], ('', ''))
    if not m: print('no design text for', p['id'])
    note = (' ' + c['note']) if c['note'] else ''
    rows.append('| %s | %s | %s | %s | %s | %s |' % (p['id'], p['title'], c['status'], m, (how + '.' + note).replace('|', '\\|'),
        ', '.join('`' + t.replace('BigO.', '') + '`' for t in c['theorems'])))
d = open(root + '/DESIGN.md').read()
a, b = '<!-- table -->', '<!-- end of table -->'
d = d[:d.index(a) + len(a)] + '\n' + '\n'.join(rows) + '\n' + d[d.index(b):]
open(root + '/DESIGN.md', 'w').write(d)
print(len(rows) - 2, 'rows')
