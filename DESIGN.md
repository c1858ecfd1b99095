# Formal model of lightstep/otel-launcher-go in Lean 4

The source is in `/repo` (read as text, never built). The Lean project is in `/verif/lean`.
Properties are listed in `properties.jsonl` (C01, C02, ...). `MANIFEST.json` maps each property to theorems.
`seeded/LOG.jsonl` records the wrong programs the theorems were tried against.

## Layout

| Directory | Content |
|---|---|
| `Verif/Model/*` | Model definitions, function by function. Every definition cites file and lines of `/repo` and states simplifications. |
| `Verif/Spec/*` | Small independent specifications used in theorem statements. They do not mention the model's helpers. |
| `Verif/Proof/*` | Helper lemmas and inductive invariants. |
| `Verif/Props/*` | The property theorems, each with a concrete non-trivial example beside it. |

Names: `Cnn_…` is a full or component statement of property nn; `…_partial` proves a part of it, and its comment says what is missing;
`…_fails` proves the negation of the stated property for the code as it is, by a concrete execution or input.

## Trusted base

* Lean 4.33.0's kernel.
* The axioms `propext`, `Classical.choice`, `Quot.sound` (nothing else; no `sorry`, no `native_decide`, no `bv_decide`, no axioms of our own). The table
  below has the axioms of every property theorem.
* The hand translation from Go to the model definitions (citations let a reader compare them).
* Go semantics assumed by the model: sequentially consistent atomics, mutual exclusion by `sync.Mutex`/`sync.RWMutex`,
  `sync.Once` runs its function once and other callers wait for it, map iteration visits each present key once in an arbitrary order,
  slices as (backing array, length, capacity), a `time.Ticker` channel of capacity one that drops ticks when full.
* External code, not in `/repo`, assumed to behave as follows:
  * `attribute.NewSet`: sorted by key, last value of a key wins; two sets are equal as map keys when Go's `==` says so; `Set.Filter` keeps the accepted attributes.
  * `resource.New(WithAttributes(..))`: the set of the valid attributes. `resource.Environment`: a set of non-empty string attributes.
  * `envconfig.Process`: yields some configuration (arbitrary in the theorems) and possibly an error.
  * `go-expohisto`: an abstract structure. C39 assumes `Lib.Sound` (`Init`, `Clear`, `Swap`, `CopyInto` behave as their names say for equal sizes). C41 takes the bucket
    boundary function as an argument and only assumes monotonicity where stated; its two `_fails` theorems use the published behavior of `logarithm.NewMapping` (error for scales at or
    below zero) and of `LowerBoundary` (error and zero for an overflowing index) as hypotheses.
  * pdata: `Map.Put*` replaces the value of a present key and appends otherwise; slices append.
  * `strings.{Cut,Split,ToLower,HasPrefix,HasSuffix,Count}` as documented (`ToLower`, `json.Unmarshal`, `regexp`, `farm` hash are arbitrary functions in the theorems).

## Not modelled

* The exponential histogram data structure (`go-expohisto`), see above.
* IEEE-754 arithmetic: float addition and subtraction are arbitrary binary operations (no laws); comparisons, NaN/Inf classification and conversion from integers are on bit patterns.
* gRPC transport, OTel collector components, pdata internals, OS calls, log and error texts, deadlines of contexts.
* Overlapping collections by one and the same reader of asynchronous instruments in the end-to-end machines (`AsyncOverlap`, C77, has them by themselves; the synchronous machine has them).
* `cputime_other.go` (does not compile: it uses undeclared variables); reading the operating system in the host and process instrumentation.
* Torn reads of multi-word values under data races.
* Wall-clock time. Liveness is about steps: C86 (all locks) and C38 prove absence of deadlock, C98 that everything returns once nothing new begins, C99 bounds the steps of a call, and C100 and C103 (several readers) that everything returns under a fair schedule though more keeps beginning. Fairness (Spec/Fair.lean) is a hypothesis about the Go scheduler, its mutexes and its `select`.

## Modelling decisions

* **Concurrency** (C01-C05, C08, C10, C12, C14, C15, C21, C25, C37, C38): small-step state machines. Each atomic operation or lock-protected read-modify-write
  of the Go code is one step; the scheduler is arbitrary; any number of threads. Properties are inductive invariants of the step relation.
* **Ghost data**: in the synchronous pipeline every aggregator storage carries, beside its value, the ghost multiset of measurements it contains. Control flow never reads it.
* **Aggregators**: a structure `Agg` with the `Methods` operations (init, update, move/reset, merge, hasChange). The pipeline theorems hold for any `Agg` without any laws;
  laws are used only where a value statement (sum, min, max, last value) is derived.
* **Attributes**: `attribute.Value` is an inductive type with one constructor per Go attribute type; floats are 64-bit patterns; `attribute.Set` is a key-sorted, de-duplicated (last wins) list.
* **Panics**: functions that can panic return `Option`, `none` being the panic.
* **Defects**: where the real code violates a property, the full statement stays visible, its negation is proved by a concrete witness (`*_fails`), and the provable part is a `*_partial` theorem.

## Per property

| Id | What is modelled (module) | Proof |
|---|---|---|
| C01 | syncstate Observe/collect/refcount/record table + viewstate accumulators/collectors as an interleaving machine (`SyncMachine`, `Storage`) | inductive invariant: token conservation (ghost multisets), any aggregator |
| C02 | same machine, counters modulo 2^32 | invariant "non-empty current implies counter mismatch or in-flight call"; end-of-collection theorem |
| C03 | same machine with abstract fingerprint and attribute equality; instance with the real ones (`Front`) | invariant "record's list is the caller's list or the overflow list" |
| C04 | refcount word as an integer with LSB flag | invariant "word = 2*holders + unmapped bit", "in table => mapped", "released => no holders" |
| C05 | idle counting in the machine | induction on visits over arbitrary interleavings |
| C06 | sum aggregator on 64-bit integers plugged into the machine (`Aggregators`) | C01 plus homomorphism |
| C07 | stateful sync collector | machine with cumulative collector, ghost sets grow; monotone fold |
| C08 | several leaves/readers in the machine | frame theorem and per-reader corollary of C01 |
| C09 | RangeTest on int64 / float bit patterns (`Front`, `Number`) | case analysis against IEEE classification spec |
| C10 | record table size | invariant for non-overlapping calls (partial); concurrent and colliding witnesses against the full statement |
| C11 | getOrCreateEntry on association maps (`Storage`) | inductive invariant on size and overflow presence |
| C12 | auxiliary count and deletion in the machine | invariant aux = number of unreleased accumulators |
| C13 | MMSC methods | homomorphism from multisets, merge trees |
| C14 | gauge methods with global sequence | invariant relating sequence numbers to history; two race witnesses |
| C15 | CAS loop state machine (`AtomicAdd`) | invariant: value = fold of the commit log |
| C16 | Number encoding on 64-bit words (`Number`) | bit-vector algebra; negative witness for CoerceToFloat64 |
| C17 | fingerprint and attributesEqual (`Attr`) | permutation induction; equality characterisation; NaN-slice and zero-slice witnesses |
| C18, C55 | TruncateAttributes / Performance.Validate (`Attr`, `Front`) | list induction; witness for the caller's slice |
| C19 | applyKeysFilter, NewSet | list induction against set-comprehension spec |
| C20, C21, C24 | asyncstate Observe/SnapshotAndProcess, callback states, lowmemoryAsync (`Async`) | invariants of the interleaving machine, refinement to last-write map |
| C22, C23 | statefulAsync Collect | telescoping induction over runs; gap and overflow witnesses |
| C25 | meter callback slice with in-place edits (`Callbacks`) | invariants for non-overlapping Unregister (partial) + racing witnesses |
| C26-C31, C33, C34, C40 | view clauses, validation, hints, Compile, conflicts (`Views`) | decision logic, induction on registration history, witnesses |
| C32, C36 | provider, meters, configureInstrument, collectFor with nil instruments (`Provider`) | invariants over all call histories; witness of the crash |
| C35 | Produce timestamps (`Times`) | induction on collections |
| C37 | provider Shutdown/ForceFlush/Meter as an interleaving machine (`Shutdown`) | invariants; witnesses for flush after shutdown |
| C38 | periodic reader as an interleaving machine (`Periodic`) | invariants; dropped tick witness |
| C39 | Reset / ReallocateFrom on slices with explicit heap (`Reuse`) | refinement with ownership invariant (points of live objects own their cells) |
| C41, C42, C45 | export conversion (`Export`) | list induction; bit-pattern witness for MMSC int64 |
| C43, C44 | ResourceMap, CopyAttributes (`Export`) | refinement; INVALID-type and negative-zero witnesses |
| C46 | trace d2pd (`TraceExport`) | refinement with grouping invariant; empty-scope and version witnesses |
| C47-C51, C56, C57 | launcher and pipelines configuration (`Launcher`) | decision logic, induction on option lists |
| C52, C58 | runtime metric name matching and registration (`RuntimeNames`) | byte-string reasoning, induction on metric lists |
| C53 | doevery.TimePeriod (`Doevery`) | trace invariant |
| C54 | delta/cumulative | corollary of C01 and C07 |
| C59 | callers' slices as memory cells beside the synchronous machine (`Slices`) | refinement by erasing writes |
| C60 | the linked lists of the record table with pointers (`Chains`) | refinement to a plain list, path invariant |
| C61 | histogram methods in the machine | homomorphism, C01 |
| C62 | `ExportMetrics`, `ExportSpans` with their counters and spans (`Client`) | list induction through the conversion; induction on calls |
| C63 | constructors and shutdown of the three clients (`Client`) | case analysis over all answers; leak and panic witnesses |
| C64 | options, default configuration, pipeline configuration, providers (`Client`) | induction on option lists |
| C65 | the renaming meter (`Client`) | prefix reasoning for all names |
| C66 | clause and view options, `view.New`, validation (`ViewOptions`) | induction on option lists, with the matching theorems of C26 |
| C67 | fast-path and option configuration of a call (`Instruments`), on `Front`/`Attr` and the machine | extensionality of sets; C03 for the machine |
| C68 | the fourteen constructors (`Instruments`) | C26, C66, C09 |
| C69 | `TruncateAttributes` on UTF-8 | induction on characters; witness |
| C70 | host and process callbacks, registration (`HostMetrics`) | case analysis over all answers; witnesses |
| C71 | `getProcessTimes` with `Duration.Seconds` (`HostMetrics`) | monotonicity of rounding to nearest |
| C72 | the whole path (`Pipeline`): calls (`Front`), the concurrent machine with the real attribute functions (`Sync`), `Produce`, times, conversion to payloads (`Export.d2pd`) and the exporter's resource cache | invariant relating the payloads sent to the points collected, over all actions; C06/C07/C61 conservation per attribute set; the removal lemmas of C12 for the last collection; conversion correctness of C45; injectivity of exported attributes |
| C73 | the machine with the real attribute functions | invariant: with room the overflow branch is never taken, so records, series and points keep the attributes of calls |
| C74 | the whole path, as for C72 | invariant over all actions: payloads sent are pointwise as specified; conversion correctness of C45, resource cache lemma, times of C35 |
| C75 | the whole path of an observation: attribute set, state of the collection, view table, collection, producer, protocol conversion, for one reader; the exporter's calls in order | composition: invariant over all actions pairing every payload with a collection's tables; C20/C22 invariants for the tables; conversion correctness of C45; `C75_programs` shows that programs with sequential callbacks meet the condition and that the log is what they observed |
| C76 | synchronous machine with the real attribute functions; asynchronous machine with views | C03/C19 attribution and the tables of C20; the mark written out in bytes; witness |
| C77 | `AsyncOverlap`: any number of collections, tables of heap addresses | invariant on ownership of addresses and emptiness of tables between collections, then refinement of one collection to its observations; for deltas, what the table kept from one lone collection to the next holds; witnesses |
| C78 | `Views.compile` with hints and selectors; `Launcher.tempoOptions` | what becomes of every output in the loop, induction over registrations; composition with C50 and C66; witnesses |
| C79 | `Registration`: NewCallback, RegisterCallback, constructors with callbacks, Run and the checks of Observe | characterisation of acceptance; induction over histories, observations counted; witness for nil |
| C80 | `Readers`: options, registration of manual and periodic readers, flush, shutdown and ticks for any number of providers sharing readers | invariant by induction over histories; exact events of each call; witnesses |
| C81 | `Messages`: the stringers, `shortString`, `duplicateError`, `SemanticError.Error`, `Conflict.Error`, `ViewConflictsError.Error` on top of the view compiler | dash-free words make the summary injective; conflicts list a prefix of the metrics of a name (induction over the loop), distinctness from C28; permutation invariance of the combined error; witnesses |
| C82 | `RuntimeSnapshot`: the callback with its shared buffer, run by any number of readers at once; time and the runtime's values are arbitrary | invariant over all steps of a run: the buffer is the snapshot of the last read, what was observed is a report at nondecreasing instants; witness schedule |
| C83 | the synchronous machine; a collection is clock reading, snapshot, collect, with anything in between; intervals as in C35 | corollary of visibility (C02) and at-most-once (C01); two witness schedules |
| C84 | `Defaults`: `Validate`, `NewPeriodicReader`, the Prometheus configuration and constructor | case analysis, induction over option lists, and equality of all runs of the synchronous machine for periods 0 and 1 |
| C85 | `Defaults.scopeOf` on top of `Provider` | induction over options and C36 |
| C86 | `Locks`: every function of the metrics SDK as the set of lock operation sequences it can execute, user code as parameter, threads with mutexes, reader/writer locks, once and the wait group | a total order on locks which every function respects (compositional), then the highest lock waited for has a holder that can go on; number of operations left decreases; witness schedules |
| C87 | `Races`: every function of the metrics SDK as the set of sequences of lock operations, allocations, publications and memory accesses it can execute, user code as parameter; threads | a policy for every cell (locks to hold, atomic, or unchanged once published) which every function keeps to (compositional), invariant on threads (locks exclude each other, new objects are private); witness schedules |
| C88 | the whole path as for C72, gauge outputs | C14 (sequence numbers order non-overlapping calls) lifted to payloads through the invariants of C72; schedule as counterexample for delta |
| C89 | `Assembly`: addresses of instruments and output metrics, wiring of the machine of C72 from a provider's state (`Provider.run` of any history of constructor calls) | registration invariant (unique output metric for a plain name, its configuration, who feeds it) composed with the C72/C88 theorems |
| C90 | `AsyncAssembly`: wiring of the machine of C75 from a provider's state (`Provider.run` of any history of constructor calls) | registration invariants (kinds of asynchronous output metrics for all views; the unique output metric of a plain name and who feeds it) composed with the C75 theorems |
| C91 | the machines of C89 and C90 wired from a provider's state, with any views; `Spec/AssemblyViews`: the ways in which an instrument is shown under a name, the look of a metric | registration invariant: the output metric with the look, the number of times each instrument feeds it (`spotted`, `fed`); composed with the C72/C88/C75 theorems |
| C92 | `Whole`: one machine with the states of C72's and C75's machines, the shared payloads and the exporter's resource cache | refinement: both projections of a run are runs of the component machines (`Joined.run`), and the metrics of a name in every payload are those of the machine of its kind (`Apart`); composed with the C91 theorems |
| C93 | `Live`: C92's machine where requests for meters and instruments are steps; every step runs with the provider's state at the time | refinement: a provider only grows (`More`), machines whose configurations agree on what is in use make the same steps (`Sync.Alike`, `Async.Alike`), so a run is a run with the final provider (`Sim.run`); composed with the C92 theorems |
| C94 | `Launched.views`, `Launched.world`: the reader with the selector of `tempoOptions`, default performance settings, the configured resource | composition: the launcher's theorems give selector and resource, `C66_defaults` the reader's defaults, `Named.viewed` shows that each instrument is shown once under its name in the documented way; then the C93 theorems |
| C95 | as C94 with `Wants`, `Hints` in Spec/Hinted: what a hint asks for, stated by the tables of words | `Hints.viewed`: `tryToApplyHint` gives each instrument the behaviour asked for; then the C93 theorems |
| C96 | as C94; `observations` and `calls` in Spec/Counted and Spec/Whole are read off the list of actions, `Accepts` off the table of constructors (C37) | `Follows`: invariant by induction over the history: what is logged or still pending is a permutation of what was observed, equal when in turn; then the C94 and C95 theorems with the log replaced |
| C97 | the program of C94 together with the periodic reader of C38, step by step: `Produce` walks over the meters, waits for callbacks, snapshots, outputs; ForceFlush and Shutdown are the reader's goroutines (Model/Delivery) | simulation: every history is one of C94's (`Running.live`); an invariant on positions shows that the collection begun by ForceFlush or Shutdown starts after the calls returned, and takes the snapshot of every instrument (`Closing.ends`); then C94's theorems |
| C98 | the programs of C97 at any point (Model/Delivery); which steps begin something new, schedules, and what it means that everything has returned are in Spec/Progress | a lexicographic measure (calls to be retried and their remaining steps, missing visits, steps of tasks, callbacks, position within `Produce`, threads of the reader) decreases with every step which begins nothing (`goes_lower`); with the invariants on locks a state in which nobody can go on has everything returned (`Good.stuck`) |
| C99 | the programs of C97 at any point (Model/Delivery); steps of a call and outputs of an instrument are counted in Spec/Progress | the number of steps left decreases with each step of the call and never increases by steps of others (`Sync.left_own`, `Sync.left_other`), by the invariants of the machine: a record found in the table under the write lock can always be referenced |
| C100 | the programs of C97 at any point (Model/Delivery), endless executions and fairness in Spec/Fair | a general lemma (`leads`): what decreases with each step of its own and never increases reaches its goal if it can go on again and again; applied in turn to tasks with the lock of an output metric, with the lock of an instrument, to calls, to `Produce`, to the holder of the reader's lock, to the loop and to requests |
| C101 | the programs of C97 with the client of the Prometheus exporter (Model/Prom): at each return of `Produce` the data are converted without exponential histograms; a failing conversion ends the program | the conversion is the OTLP conversion followed by a conversion of exponential histograms (`d2pd_eq`); by induction on the program the payloads correspond one to one; then C93 and C97 |
| C102 | one copy of the reader's part of Model/Delivery for each reader, the provider and the synchronous instruments shared, and calls of `ForceFlush` and `Shutdown` of the provider looping over the readers (Model/Multi) | refinement: to each reader the program is one of C97, in which what belongs to other readers are steps of shared state (`run_view`); an invariant on the calls of the provider gives a served call for each reader; then C97 |
| C103 | as C102, endless executions and fair schedules (Spec/MultiFair) | each reader's part of an endless fair execution is one of C100, in which what belongs to other readers are steps of shared state or nothing (`Endless.of`, `Fair.of`); an induction on the readers a call of the provider has yet to call; for existence, the ways of C98 for one reader after the other, then the calls of the provider |
| C104 | instrument requests of the runtime instrumentation (builtin.go 135-169, Model/RuntimeProgram), its registration and callback (Model/Runtime), the launched program of C94-C96 | every series of the instrumentation has attributes that can be read back (`Short`, `texts_inj`), so that each collection observes each attribute set at most once (`Once`); C95 and C96 then give one point for each |
| C105 | instrument requests of the host and process instrumentations (host.go 142-180, cputime.go 100-116, Model/HostProgram), their callbacks (Model/HostMetrics), the launched program of C94-C96 | as C104: each callback observes each attribute set of each instrument at most once (`Fits`, `Made.once`) |
| C106 | as C97 (Model/Delivery, Spec/Busy) with calls on instruments in progress before, during and after the flush | the calls of the pipeline with ids (`Proof/BusyIds`): a call done before the collection of the flush begins has been taken by it or by an earlier one (`Caught`); `Between` is its form for lists of values |
| C107 | as C106; Spec/Failures says which payloads arrive | C106 and C97 for what is sent; the last payload has a point for every cumulative series (`busy_shown`), so the last point sent is the last which arrives (`last_arrived`); delta: sublists of groups |
| C108 | Model/Traced: the exporter of the trace pipeline over its life, on top of Model/Launcher, Model/Client and Model/TraceExport | induction over the calls: the resource cache has only seen the resource of the provider (`Traced.Ok`); batch by batch with C46; C48, C49 and C56 for the configuration |
| C109 | the same model as C01 (sync.go, accumulators.go, collectors.go), continued without measurement calls | invariants `Still`, `Wiping`, `Dropping`, `Emptying` over the steps of one collection, induction over collections (`rounds_after`); `C109_fewer_kept` shows that the bound for records is tight |
| C110 | the launched pipeline of C106 closed over itself: an answer of the next component makes the exporter call its counter (common.go, client.go), and its method returns when this call has (`Model/SelfTelemetry`) | invariants `Kept` (the calls on the counter are the payloads answered, in order) and `Even` (between exports everything is counted), then C106 for the counter |
| C111 | the launched pipeline of C106 together with the spans exporter of C108: each export is followed by the call on the counter (client.go:84-119) (`Model/SpanTelemetry`) | invariant `Kept` (the calls on the counter are the payloads answered, in order), then C106 for the counter; C108 for the lengths of batches |
| C112 | the launched pipeline of C106, instruments with hints as in C95 | C106's decomposition into the synchronous part up to the last collection; then per aggregation what a collected point holds (`Proof/BusyHinted`) |

No property in the list is declared inexpressible; the partial ones are recorded in `MANIFEST.json`.

## Axioms each property theorem depends on

P = `propext`, C = `Classical.choice`, Q = `Quot.sound`. Obtained with `#print axioms` on every theorem of `Verif/Props`.

| Property | Theorems by axioms |
|---|---|
| C01 | **P C Q**: `C01_accounting`, `C01_memory_is_visited`, `C01_applied_exactly_once`, `C01_at_most_once`, `C01_nothing_invented`, `C01_exactly_once_when_drained` |
| C02 | **P C Q**: `C02_delta`, `C02_cumulative` |
| C03 | **P C Q**: `C03_attribution_real`, `C03_attribution`, `C03_reported_attribution` |
| C04 | **P C Q**: `C04_pin_succeeds`, `C04_no_retry`, `C04_no_write_after_release`, `C04_removed_unused` |
| C05 | **P C Q**: `C05_survives`, `C05_removed`, `C05_in_use_kept`, `C05_in_use_keeps`, `C05_updated_keeps`, `C05_keeps_restarts` |
| C06 | **P C Q**: `C06_point`, `C06_suppressed_is_zero`, `C06_total`, `C06_total_recorded`, `C06_series` |
| C07 | **P C Q**: `C07_reports_all_drained`, `C07_series_stay`, `C07_every_series_reported`, `C07_history`, `C07_value`, `C07_monotone` |
| C08 | **P C Q**: `C08_collect_frame`, `C08_same_data` |
| C09 | **P C Q**: `C09_range_test`, `C09_rejected_no_effect`, `C09_accepted` |
| C10 | **P**: `C10_limit_fails_overlapping`; **P C Q**: `C10_limit_partial`, `C10_fingerprints_partial`, `C10_full_to_overflow`, `C10_existing_kept`, `C10_write_path`; **P Q**: `C10_limit_fails_colliding` |
| C11 | **P C Q**: `C11_limit`, `C11_full_has_overflow`, `C11_identity`; **P Q**: `C11_existing_found`, `C11_new` |
| C12 | **P C Q**: `C12_forgotten_is_empty`, `C12_merge_into_listed`, `C12_refcount` |
| C13 | **P C Q**: `C13_split_float`, `C13_point_int`, `C13_point_float`, `C13_exported_iff`; **P Q**: `C13_split_int` |
| C14 | **P**: `C14_overlapping_calls_lose_newer_value`; **P C Q**: `C14_value_recorded_partial`, `C14_delta_exported_iff`, `C14_last_value_sequential`; **P Q**: `C14_unset_cumulative_gauge_fails`, `C14_unset_after_return_fails` |
| C15 | **P C Q**: `C15_linearizable`; **P Q**: `C15_retry_means_progress` |
| C16 | **P C Q**: `C16_int_encode_decode`, `C16_coerce_int_partial`, `C16_coerce_exact_partial`, `C16_coerce_negative_fails`; **P Q**: `C16_int_round_trip`; **none**: `C16_coerce_float` |
| C17 | **P C Q**: `C17_equal_iff`, `C17_equal_iff_eq`, `C17_equal_same_set`, `C17_same_list_found_partial`, `C17_one_record_partial`, `C17_nan_slice_fails`; **P Q**: `C17_fingerprint_order`, `C17_zero_slice_fails` |
| C18 | **P**: `C18_default`, `C18_used`, `C18_processed`; **P Q**: `C18_truncation`, `C18_short_unchanged`, `C18_idempotent`, `C18_processor_fails` |
| C19 | **P C Q**: `C19_filtered_attributes`, `C19_sorted_keys`, `C19_equal_after_filter`, `C19_shared_series`, `C19_reported_attributes` |
| C20 | **P C Q**: `C20_last_values`, `C20_all_counted`, `C20_int_sum`; **P Q**: `C20_out_of_range_ignored` |
| C21 | **P C Q**: `C21_legal_applied`; **P Q**: `C21_never_applied`, `C21_no_effect` |
| C22 | **P C Q**: `C22_delta`, `C22_runs`, `C22_telescopes_partial`; **P Q**: `C22_gap_fails` |
| C23 | **P C Q**: `C23_each_delta_partial`; **P Q**: `C23_overflow_fails` |
| C24 | **P C Q**: `C24_exactly_observed`, `C24_all_reported`; **P Q**: `C24_leaked_observation_fails` |
| C25 | **P**: `C25_lost_fails`, `C25_unregistered_fails`; **P C Q**: `C25_exactly_once_partial`, `C25_nothing_else_partial`, `C25_unregistered_partial`; **P Q**: `C25_unregister_twice`, `C25_twice_fails`, `C25_skip_fails` |
| C26 | **P**: `C26_name_over_pattern`; **P C Q**: `C26_outputs`, `C26_defaults`; **P Q**: `C26_matches_iff` |
| C27 | **P**: `C27_hinted_sum_fails`; **P C Q**: `C27_same_outputs`, `C27_hinted_partial` |
| C28 | **P**: `C28_hinted_sum_fails`; **P C Q**: `C28_reported_iff`, `C28_distinct`, `C28_share_silently` |
| C29 | **P C Q**: `C29_legal`, `C29_reported_iff` |
| C30 | **P C Q**: `C30_once_partial`; **P Q**: `C30_same_clause_twice_fails` |
| C31 | **P**: `C31_sum_fails`, `C31_async_histogram_fails`, `C31_second_clause_fails`, `C31_drop_clause_fails`; **P C Q**: `C31_no_clause_partial`, `C31_first_clause_partial` |
| C32 | **P**: `C32_noop`; **P C Q**: `C32_nil_iff`, `C32_async`, `C32_dropped_fails`, `C32_collect_partial` |
| C33 | **P C Q**: `C33_longest` |
| C34 | **P**: `C34_default_fails`; **P C Q**: `C34_default_partial`, `C34_hint_partial` |
| C35 | **P**: `C35_delta`, `C35_cumulative`; **P Q**: `C35_ordered`, `C35_tile` |
| C36 | **P C Q**: `C36_meters`, `C36_instruments`, `C36_order` |
| C37 | **P C Q**: `C37_count`; **P Q**: `C37_once`, `C37_complete`, `C37_one`, `C37_later`, `C37_meter`, `C37_flush_after_fails`, `C37_export_after_fails`, `C37_no_export_partial` |
| C38 | **P**: `C38_every_tick_fails`; **P Q**: `C38_final`, `C38_no_tick_after`, `C38_flush`, `C38_exclusive`, `C38_ticks_partial`, `C38_no_deadlock` |
| C39 | **P**: `C39_other_reader_fails`; **P Q**: `C39_reuse`, `C39_share_partial`, `C39_others` |
| C40 | **P**: `C40_same_name_fails`; **P Q**: `C40_error_iff`, `C40_every_reader_partial` |
| C41 | **P C Q**: `C41_explicit_partial`; **P Q**: `C41_each_bucket_partial`, `C41_low_scale_fails`, `C41_largest_fails` |
| C42 | **P**: `C42_float_partial`; **P C Q**: `C42_int_sum_partial`, `C42_int_extremes_fails`, `C42_int_sum_fails` |
| C43 | **P**: `C43_negative_zero_fails`; **P C Q**: `C43_transparent_partial`, `C43_same_values` |
| C44 | **P**: `C44_untyped_fails`; **P C Q**: `C44_any_list_partial`; **P Q**: `C44_attributes_partial` |
| C45 | **P**: `C45_untyped_fails`; **P C Q**: `C45_payload_partial`; **P Q**: `C45_times` |
| C46 | **P**: `C46_version_fails`; **P C Q**: `C46_spans_partial`, `C46_order_partial`; **P Q**: `C46_unnamed_fails` |
| C47 | **P C Q**: `C47_rejected_partial`, `C47_metrics_disabled_fails` |
| C48 | **P C Q**: `C48_last_option_wins`, `C48_explicit_token_partial`, `C48_empty_token_fails` |
| C49 | **P C Q**: `C49_precedence_partial`, `C49_present_partial`, `C49_empty_value_fails`, `C49_version_fails` |
| C50 | **P**: `C50_preferences`, `C50_defined`; **P Q**: `C50_accepted` |
| C51 | **P C Q**: `C51_propagators`, `C51_launcher` |
| C52 | **P C Q**: `C52_total`, `C52_unambiguous`, `C52_complete`, `C52_reassemble_partial`, `C52_attribute_names`; **P Q**: `C52_longer_name_fails` |
| C53 | **P C Q**: `C53_apart_partial`, `C53_fires`, `C53_limited`, `C53_independent`, `C53_runs`; **P Q**: `C53_run_times_fails` |
| C54 | **P C Q**: `C54_totals`, `C54_series` |
| C55 | **P**: `C55_caller_slice_fails`; **P Q**: `C55_caller_slice_partial` |
| C56 | **P C Q**: `C56_pipelines_partial`, `C56_empty_endpoint_fails` |
| C57 | **P**: `C57_entry`; **P Q**: `C57_order` |
| C58 | **P C Q**: `C58_observed`, `C58_unreadable`, `C58_distinct` |
| C59 | **P C Q**: `C59_reuse_invisible`, `C59_read_only_during_call` |
| C60 | **P C Q**: `C60_table`, `C60_size`, `C60_collected_once`, `C60_survivors` |
| C61 | **P C Q**: `C61_point`, `C61_measure`, `C61_sum`, `C61_count`, `C61_exported_iff`, `C61_total` |
| C62 | **P C Q**: `C62_export`, `C62_spans`; **P Q**: `C62_balance` |
| C63 | **P**: `C63_shutdown_trace`, `C63_shutdown_panics_fails`, `C63_construction`; **P C Q**: `C63_shutdown_partial`, `C63_shutdown_prom_partial`; **P Q**: `C63_failed_construction_fails` |
| C64 | **P**: `C64_defaults`, `C64_metric_providers`, `C64_nil_option_fails`; **P C Q**: `C64_headers`, `C64_pipeline`; **P Q**: `C64_last_wins`, `C64_tls`, `C64_providers_partial`; **none**: `C64_no_options` |
| C65 | **P C Q**: `C65_renamed`; **P Q**: `C65_distinct_fails` |
| C66 | **P Q**: `C66_clauses`, `C66_defaults` |
| C67 | **P**: `C67_paths_agree_fails`, `C67_order_fails`; **P C Q**: `C67_same_content_partial`, `C67_paths_agree_partial`, `C67_order_partial`, `C67_reported_together_partial`, `C67_observable_partial`; **P Q**: `C67_one_record_fails` |
| C68 | **P C Q**: `C68_output`, `C68_values` |
| C69 | **P C Q**: `C69_prefix_partial`, `C69_valid_partial`, `C69_valid_fails` |
| C70 | **P**: `C70_host_values`, `C70_host_error_fails`, `C70_callback_error_fails`, `C70_counts_fails`, `C70_instruments`; **P C Q**: `C70_host_error_partial`, `C70_process_error`; **P Q**: `C70_host_all_or_none`, `C70_counts_partial`, `C70_registration`, `C70_own_instruments`, `C70_provider` |
| C71 | **P C Q**: `C71_monotone`, `C71_accuracy` |
| C72 | **P C Q**: `C72_sent_total`, `C72_sent_series`, `C72_last_series`, `C72_hist_sent_total`, `C72_hist_sent_series`, `C72_hist_last_series`, `C72_mmsc_sent_total`, `C72_mmsc_sent_series`, `C72_mmsc_last_series`, `C72_sent_known`, `C72_hist_sent_known`, `C72_mmsc_sent_known`, `C72_empty_lists_alike`, `C72_float_last_series`, `C72_float_sent_series`, `C72_mmsc_last_values`, `C72_mmsc_sent_values`, `C72_mmsc_last_ints`, `C72_mmsc_sent_ints`, `C72_hist_last_content`, `C72_hist_sent_content` |
| C73 | **P C Q**: `C73_apart`, `C73_own_attributes`, `C73_no_other` |
| C74 | **P C Q**: `C74_payloads` |
| C75 | **P C Q**: `C75_payloads`, `C75_cumulative`, `C75_delta`, `C75_delta_float`, `C75_delta_total`, `C75_programs`; **P Q**: `C75_gauge_value` |
| C76 | **P C Q**: `C76_marked_partial`, `C76_async`; **P Q**: `C76_marked_fails` |
| C77 | **P**: `C77_delta_fails`; **P C Q**: `C77_alone_partial`, `C77_delta_partial`; **P Q**: `C77_overlapping_fails` |
| C78 | **P**: `C78_same_name_fails`, `C78_view_fails`, `C78_second_clause_fails`; **P C Q**: `C78_own_kind`, `C78_first_partial`, `C78_standard`, `C78_launcher` |
| C79 | **P C Q**: `C79_accepted_iff`, `C79_observed_partial`, `C79_nil_fails`; **P Q**: `C79_constructor` |
| C80 | **P**: `C80_options`, `C80_twice_fails`; **P C Q**: `C80_first`, `C80_reported`, `C80_tick`, `C80_flush`, `C80_own_partial`, `C80_shared_fails` |
| C81 | **P**: `C81_summary`, `C81_hinted_fails`, `C81_middle_fails`, `C81_any_sum_fails`; **P C Q**: `C81_truthful_partial`, `C81_counted`, `C81_both`, `C81_semantic_partial`, `C81_stable`, `C81_readers_partial` |
| C82 | **P Q**: `C82_alone_partial`, `C82_each_partial`, `C82_mixed_fails` |
| C83 | **P C Q**: `C83_not_before_partial`, `C83_interval_partial`; **P Q**: `C83_after_end_fails`, `C83_overlap_fails` |
| C84 | **P**: `C84_performance`, `C84_again`, `C84_prometheus_construction`; **P C Q**: `C84_positive`, `C84_periodic`; **P Q**: `C84_periods_one`, `C84_prometheus` |
| C85 | **P**: `C85_empty_name_fails`; **P C Q**: `C85_identity_partial`; **P Q**: `C85_attributes_fails` |
| C86 | **P C Q**: `C86_progress_partial`, `C86_return_partial`; **P Q**: `C86_collect_in_callback_fails`, `C86_error_handler_fails`, `C86_lock_around_flush_fails` |
| C87 | **P Q**: `C87_no_race_partial`, `C87_unregister_fails`, `C87_error_text_fails`, `C87_truncation_fails`, `C87_overlapping_fails`, `C87_runtime_metrics_fails` |
| C88 | **P C Q**: `C88_gauge_last`, `C88_gauge_last_recorded`, `C88_gauge_sent_partial`, `C88_gauge_delta_last_fails` |
| C89 | **P C Q**: `C89_metric`, `C89_sum_last`, `C89_sum_sent`, `C89_sum_total`, `C89_float_last`, `C89_float_sent`, `C89_gauge_last`, `C89_hist_last`, `C89_hist_sent`, `C89_mmsc_last`, `C89_known`, `C89_hist_known` |
| C90 | **P C Q**: `C90_subtract`, `C90_payloads`, `C90_metric`, `C90_cumulative`, `C90_delta`, `C90_delta_float`, `C90_delta_total`, `C90_programs`; **P Q**: `C90_single` |
| C91 | **P C Q**: `C91_metric`, `C91_sum_last`, `C91_sum_sent`, `C91_sum_total`, `C91_float_last`, `C91_float_sent`, `C91_gauge_last`, `C91_gauge_sent`, `C91_hist_last`, `C91_hist_sent`, `C91_mmsc_last`, `C91_mmsc_sent`, `C91_mmsc_int_last`, `C91_mmsc_int_sent`, `C91_known`, `C91_hist_known`, `C91_mmsc_known`, `C91_async_metric`, `C91_async_cumulative`, `C91_async_delta`, `C91_async_delta_float`, `C91_async_delta_total` |
| C92 | **P C Q**: `C92_payloads`, `C92_sync`, `C92_async`, `C92_alone`, `C92_metric`, `C92_sum_last`, `C92_sum_sent`, `C92_sum_total`, `C92_float_last`, `C92_float_sent`, `C92_gauge_last`, `C92_gauge_sent`, `C92_hist_last`, `C92_hist_sent`, `C92_mmsc_last`, `C92_mmsc_sent`, `C92_mmsc_int_last`, `C92_mmsc_int_sent`, `C92_known`, `C92_hist_known`, `C92_mmsc_known`, `C92_async_cumulative`, `C92_async_delta`, `C92_async_delta_float`, `C92_async_delta_total` |
| C93 | **P C Q**: `C93_running`, `C93_ending`, `C93_before`, `C93_payloads`, `C93_metric`, `C93_sum_last`, `C93_sum_sent`, `C93_sum_total`, `C93_float_last`, `C93_float_sent`, `C93_gauge_last`, `C93_gauge_sent`, `C93_hist_last`, `C93_hist_sent`, `C93_mmsc_last`, `C93_mmsc_sent`, `C93_mmsc_int_last`, `C93_mmsc_int_sent`, `C93_known`, `C93_hist_known`, `C93_mmsc_known`, `C93_async_cumulative`, `C93_async_delta`, `C93_async_delta_float`, `C93_async_delta_total` |
| C94 | **P C Q**: `C94_exportable`, `C94_resource`, `C94_metric`, `C94_sum_last`, `C94_sum_sent`, `C94_sum_total`, `C94_float_last`, `C94_float_sent`, `C94_gauge_last`, `C94_gauge_sent`, `C94_hist_last`, `C94_hist_sent`, `C94_known`, `C94_hist_known`, `C94_async_cumulative`, `C94_async_delta`, `C94_async_delta_float`, `C94_async_delta_total` |
| C95 | **P C Q**: `C95_metric`, `C95_sum_last`, `C95_sum_sent`, `C95_sum_total`, `C95_float_last`, `C95_float_sent`, `C95_gauge_last`, `C95_gauge_sent`, `C95_hist_last`, `C95_hist_sent`, `C95_mmsc_last`, `C95_mmsc_sent`, `C95_mmsc_int_last`, `C95_mmsc_int_sent`, `C95_known`, `C95_hist_known`, `C95_mmsc_known`, `C95_async_cumulative`, `C95_async_delta`, `C95_async_delta_float`, `C95_async_delta_total` |
| C96 | **P C Q**: `C96_attrs`, `C96_recorded`, `C96_recorded_end`, `C96_set`, `C96_observed`, `C96_observed_order`, `C96_hinted_observed`, `C96_hinted_observed_order`, `C96_async_cumulative`, `C96_async_delta`, `C96_async_delta_float`, `C96_async_delta_total`, `C96_hinted_async_cumulative`, `C96_hinted_async_delta`, `C96_hinted_async_delta_float`, `C96_hinted_async_delta_total` |
| C97 | **P C Q**: `C97_reader`, `C97_ends`, `C97_silent`, `C97_sum_last`, `C97_sum_sent`, `C97_sum_total`, `C97_float_last`, `C97_float_sent`, `C97_gauge_last`, `C97_gauge_sent`, `C97_hist_last`, `C97_hist_sent`, `C97_known`, `C97_hist_known`, `C97_hinted_sum_last`, `C97_hinted_sum_sent`, `C97_hinted_sum_total`, `C97_hinted_float_last`, `C97_hinted_float_sent`, `C97_hinted_gauge_last`, `C97_hinted_gauge_sent`, `C97_hinted_hist_last`, `C97_hinted_hist_sent`, `C97_hinted_mmsc_last`, `C97_hinted_mmsc_sent`, `C97_hinted_mmsc_int_last`, `C97_hinted_mmsc_int_sent`, `C97_hinted_known`, `C97_hinted_hist_known`, `C97_hinted_mmsc_known`; **P Q**: `C97_program` |
| C98 | **P C Q**: `C98_no_spin`, `C98_returns_partial`, `C98_goes_on_partial`, `C98_ends`, `C98_way_partial`, `C98_launched_partial`, `C98_refused_fails`; **P Q**: `C98_keeps` |
| C99 | **P C Q**: `C99_bounded`, `C99_launched`, `C99_waits`, `C99_alone` |
| C100 | **P C Q**: `C100_calls`, `C100_tasks`, `C100_observations`, `C100_requests_partial`, `C100_loop_partial`, `C100_collections_partial`, `C100_tick_partial`, `C100_exports_partial`, `C100_launched_partial`, `C100_exists_partial`, `C100_refused_fails` |
| C101 | **P C Q**: `C101_payloads`, `C101_before`, `C101_panics`, `C101_goes_partial`, `C101_wide_fails`, `C101_numbers`, `C101_stats`, `C101_hists`, `C101_negative_fails`, `C101_sum_last`, `C101_sum_sent`, `C101_float_last`, `C101_known`, `C101_hist_last`, `C101_mmsc_last`; **P Q**: `C101_program` |
| C102 | **P C Q**: `C102_payloads`, `C102_served`, `C102_closing`, `C102_sum_last`, `C102_sum_sent`, `C102_float_last`, `C102_float_sent`, `C102_gauge_last`, `C102_gauge_sent`, `C102_hist_last`, `C102_hist_sent`, `C102_mmsc_last`, `C102_known`, `C102_hist_known`, `C102_agree`, `C102_silent`, `C102_async_cumulative`, `C102_async_delta`, `C102_async_delta_float`, `C102_async_delta_total`; **P Q**: `C102_program` |
| C103 | **P C Q**: `C103_calls`, `C103_tasks`, `C103_observations`, `C103_requests_partial`, `C103_provider_partial`, `C103_loop_partial`, `C103_collections_partial`, `C103_tick_partial`, `C103_exports_partial`, `C103_closing_partial`, `C103_delivered_partial`, `C103_exists_partial`, `C103_refused_fails` |
| C104 | **P C Q**: `C104_metric`, `C104_sent`, `C104_delta` |
| C105 | **P**: `C105_host_gives`; **P C Q**: `C105_host_metric`, `C105_process_metric`, `C105_host_sent`, `C105_host_delta`, `C105_process_sent`, `C105_process_delta`; **P Q**: `C105_host_silent`, `C105_process_gives` |
| C106 | **P C Q**: `C106_sum_last`, `C106_sum_sent`, `C106_int_sent`, `C106_sum_total`, `C106_float_last`, `C106_float_sent`, `C106_hist_last`, `C106_hist_sent`, `C106_known`, `C106_hist_known`, `C106_gauge_newest`, `C106_gauge_sent_newest` |
| C107 | **P C Q**: `C107_gauge_newest`, `C107_gauge_sent_partial`, `C107_sum_last`, `C107_float_last`, `C107_hist_last`, `C107_gauge_last`, `C107_sum_all`, `C107_float_all`, `C107_hist_all`, `C107_int_sent_partial`, `C107_float_sent_partial`, `C107_hist_sent_partial`, `C107_delta_fails`, `C107_hinted_sum_last`, `C107_hinted_float_last`, `C107_hinted_hist_last`, `C107_hinted_mmsc_last`, `C107_hinted_mmsc_int_last`, `C107_hinted_gauge_newest`, `C107_hinted_sum_all`, `C107_hinted_float_all`, `C107_hinted_hist_all`, `C107_hinted_mmsc_all`, `C107_hinted_mmsc_int_all`, `C107_hinted_gauge_all`, `C107_hinted_int_sent_partial`, `C107_hinted_float_sent_partial`, `C107_hinted_hist_sent_partial`, `C107_hinted_mmsc_sent_partial`, `C107_hinted_mmsc_int_sent_partial`, `C107_hinted_gauge_sent_partial`, `C107_hinted_gauge_sent_newest_partial` |
| C108 | **P C Q**: `C108_destination`, `C108_resource`, `C108_same_resource`, `C108_spans`, `C108_scopes_partial`, `C108_version_fails`; **P Q**: `C108_balance` |
| C109 | **P C Q**: `C109_records`, `C109_series`, `C109_quiet`, `C109_program`, `C109_room`, `C109_cumulative`; **P Q**: `C109_reset`, `C109_fewer_kept` |
| C110 | **P C Q**: `C110_delta`, `C110_cumulative`, `C110_delta_exact`, `C110_cumulative_exact`, `C110_known`; **P Q**: `C110_settled` |
| C111 | **P C Q**: `C111_delta`, `C111_cumulative`, `C111_delta_exact`, `C111_cumulative_exact`, `C111_known`, `C111_batches` |
| C112 | **P C Q**: `C112_sum_last`, `C112_sum_sent`, `C112_int_sent`, `C112_sum_total`, `C112_float_last`, `C112_float_sent`, `C112_gauge_last_partial`, `C112_gauge_newest`, `C112_gauge_sent`, `C112_gauge_sent_newest`, `C112_hist_last`, `C112_hist_sent`, `C112_mmsc_last`, `C112_mmsc_sent`, `C112_mmsc_int_last`, `C112_mmsc_int_sent`, `C112_known`, `C112_hist_known`, `C112_mmsc_known`, `C112_gauge_unset_fails` |

## Code modelled, file by file

Non-test Go files; lines are lines of code without comments, imports and closing braces. A line counts as modelled when the comment of a model definition cites it.
Lines not cited are type and interface declarations, constructors and accessors that only copy fields, and what *Not modelled* lists.

| File | lines modelled | of | by |
|---|---|---|---|
| `examples/metrics/metrics.go` | 0 | 73 | example program |
| `examples/tracing/trace.go` | 0 | 47 | example program |
| `launcher/config.go` | 213 | 227 | Launcher |
| `launcher/version.go` | 0 | 1 | a constant |
| `lightstep/instrumentation/cputime/cputime.go` | 50 | 60 | HostMetrics, HostProgram |
| `lightstep/instrumentation/cputime/cputime_other.go` | 0 | 24 | other operating systems; does not compile (see the disagreements) |
| `lightstep/instrumentation/cputime/cputime_unix.go` | 13 | 22 | HostMetrics |
| `lightstep/instrumentation/host/host.go` | 103 | 129 | HostMetrics, HostProgram, Locks |
| `lightstep/instrumentation/runtime/builtin.go` | 64 | 101 | Races, RuntimeNames, RuntimeProgram, RuntimeSnapshot |
| `lightstep/instrumentation/runtime/defs.go` | 30 | 30 | RuntimeNames |
| `lightstep/instrumentation/runtime/descriptor.go` | 86 | 129 | RuntimeNames |
| `lightstep/sdk/internal/common.go` | 119 | 119 | Client, Export, Locks, Races, SelfTelemetry, SpanTelemetry |
| `lightstep/sdk/metric/aggregator/aggregation/aggregation.go` | 60 | 92 | Messages, Views |
| `lightstep/sdk/metric/aggregator/aggregation/category_string.go` | 10 | 30 | Messages |
| `lightstep/sdk/metric/aggregator/aggregation/temporality.go` | 20 | 44 | Views |
| `lightstep/sdk/metric/aggregator/aggregator.go` | 37 | 51 | Front, Locks, Races, Storage, SyncMachine, Views |
| `lightstep/sdk/metric/aggregator/gauge/gauge.go` | 35 | 71 | Aggregators, Assembly, AsyncAssembly, AsyncPipeline, Locks, Pipeline, Races, Reuse, SyncMachine |
| `lightstep/sdk/metric/aggregator/histogram/histogram.go` | 27 | 81 | Aggregators, Assembly, AsyncAssembly, Locks, Pipeline, Races, Reuse |
| `lightstep/sdk/metric/aggregator/minmaxsumcount/minmaxsumcount.go` | 48 | 89 | Aggregators, Assembly, AsyncAssembly, Locks, Pipeline, Races, Reuse |
| `lightstep/sdk/metric/aggregator/sum/sum.go` | 24 | 71 | Aggregators, Assembly, Async, AsyncPipeline, Locks, Pipeline, Races, Reuse |
| `lightstep/sdk/metric/aggregator/test/test.go` | 0 | 73 | test helper |
| `lightstep/sdk/metric/asyncinst.go` | 68 | 87 | Instruments, Registration |
| `lightstep/sdk/metric/bypass/bypass.go` | 0 | 8 | interfaces only |
| `lightstep/sdk/metric/config.go` | 23 | 23 | Defaults, Readers |
| `lightstep/sdk/metric/data/data.go` | 38 | 39 | Export, Reuse |
| `lightstep/sdk/metric/data/sequence.go` | 4 | 7 | Times |
| `lightstep/sdk/metric/example/doc.go` | 0 | 1 | documentation only |
| `lightstep/sdk/metric/exporters/otlp/otelcol/client.go` | 112 | 124 | Client, SelfTelemetry |
| `lightstep/sdk/metric/exporters/prom/client.go` | 67 | 80 | Client, Defaults, Prom |
| `lightstep/sdk/metric/internal/asyncstate/async.go` | 60 | 69 | Async, AsyncAssembly, AsyncOverlap, AsyncPipeline, HostMetrics, Instruments, Locks, Provider, Races, Registration |
| `lightstep/sdk/metric/internal/asyncstate/callback.go` | 39 | 47 | Async, Delivery, HostMetrics, Live, Locks, Races, Registration, RuntimeSnapshot |
| `lightstep/sdk/metric/internal/doevery/doevery.go` | 28 | 28 | Doevery, Locks, Races |
| `lightstep/sdk/metric/internal/export/export.go` | 209 | 224 | AsyncPipeline, Client, Export, Pipeline, Prom, SelfTelemetry, Whole |
| `lightstep/sdk/metric/internal/fprint/convert.go` | 0 | 8 | a string as its bytes |
| `lightstep/sdk/metric/internal/fprint/fprint.go` | 16 | 23 | Attr |
| `lightstep/sdk/metric/internal/global/internal_logging.go` | 0 | 18 | not imported by any other package |
| `lightstep/sdk/metric/internal/pipeline/overflow.go` | 3 | 4 | Attr, SyncMachine |
| `lightstep/sdk/metric/internal/pipeline/register.go` | 0 | 3 | a type and `make` |
| `lightstep/sdk/metric/internal/syncstate/bykeyvalue.go` | 109 | 116 | Attr, Chains, Locks, Races, Slices, SyncMachine |
| `lightstep/sdk/metric/internal/syncstate/refcount_mapped.go` | 14 | 16 | SyncMachine |
| `lightstep/sdk/metric/internal/syncstate/sync.go` | 107 | 116 | Assembly, Chains, Defaults, Delivery, Front, Instruments, Live, Locks, Multi, Provider, Races, Slices, SyncMachine |
| `lightstep/sdk/metric/internal/test/test.go` | 0 | 80 | test helper |
| `lightstep/sdk/metric/internal/viewstate/accumulators.go` | 61 | 66 | Async, AsyncOverlap, Locks, Races, SyncMachine |
| `lightstep/sdk/metric/internal/viewstate/base_instrument.go` | 85 | 106 | Assembly, AsyncAssembly, AsyncOverlap, AsyncPipeline, Attr, Locks, Pipeline, Provider, Races, Reuse, Storage, SyncMachine, Views |
| `lightstep/sdk/metric/internal/viewstate/collectors.go` | 60 | 64 | Async, AsyncOverlap, Locks, Pipeline, Races, Reuse, Storage, SyncMachine, Times, Whole |
| `lightstep/sdk/metric/internal/viewstate/errors.go` | 85 | 102 | Messages, Races, Views |
| `lightstep/sdk/metric/internal/viewstate/viewstate.go` | 329 | 340 | Assembly, Async, AsyncAssembly, AsyncOverlap, AsyncPipeline, Attr, Locks, Provider, Races, Reuse, SyncMachine, Times, Views, Whole |
| `lightstep/sdk/metric/manual.go` | 12 | 19 | Locks, Readers |
| `lightstep/sdk/metric/meter.go` | 72 | 88 | Callbacks, Instruments, Live, Locks, Provider, Races, Registration, Views |
| `lightstep/sdk/metric/number/kind_string.go` | 8 | 11 | Messages |
| `lightstep/sdk/metric/number/number.go` | 12 | 16 | Messages, Number |
| `lightstep/sdk/metric/number/traits.go` | 46 | 55 | Assembly, AtomicAdd, Front, Number |
| `lightstep/sdk/metric/periodic.go` | 63 | 68 | AsyncPipeline, Defaults, Delivery, Launched, Locks, Multi, Periodic, Pipeline, Prom, Races, Readers, Whole |
| `lightstep/sdk/metric/producer.go` | 51 | 51 | Assembly, Async, AsyncAssembly, AsyncOverlap, AsyncPipeline, Callbacks, Delivery, Live, Locks, Multi, Pipeline, Provider, Races, Registration, Reuse, RuntimeSnapshot, Times, Whole |
| `lightstep/sdk/metric/provider.go` | 69 | 71 | Defaults, Delivery, Live, Locks, Multi, Prom, Provider, Races, Readers, SelfTelemetry, Shutdown, SpanTelemetry, Times, ViewOptions |
| `lightstep/sdk/metric/reader.go` | 0 | 7 | interfaces only |
| `lightstep/sdk/metric/sdkinstrument/descriptor.go` | 13 | 13 | Instruments, Views |
| `lightstep/sdk/metric/sdkinstrument/kind.go` | 14 | 17 | Front, Messages |
| `lightstep/sdk/metric/sdkinstrument/kind_string.go` | 6 | 17 | Messages |
| `lightstep/sdk/metric/sdkinstrument/performance.go` | 43 | 45 | Assembly, Attr, Defaults, Races, ViewOptions, Views |
| `lightstep/sdk/metric/syncinst.go` | 66 | 98 | Instruments |
| `lightstep/sdk/metric/view/clause.go` | 82 | 99 | ViewOptions, Views |
| `lightstep/sdk/metric/view/hint.go` | 5 | 5 | Views |
| `lightstep/sdk/metric/view/standard.go` | 19 | 25 | Defaults, ViewOptions, Views |
| `lightstep/sdk/metric/view/view.go` | 50 | 57 | ViewOptions, Views |
| `lightstep/sdk/metric/view/views.go` | 53 | 53 | Defaults, ViewOptions, Views |
| `lightstep/sdk/trace/exporters/otlp/otelcol/client.go` | 149 | 158 | Client, SpanTelemetry, Traced |
| `lightstep/sdk/trace/exporters/otlp/otelcol/otlp.go` | 68 | 70 | TraceExport |
| `pipelines/common.go` | 27 | 28 | Client, Launcher |
| `pipelines/metrics.go` | 97 | 100 | Client, Launched, Launcher |
| `pipelines/test/test.go` | 0 | 206 | test helper |
| `pipelines/trace.go` | 41 | 41 | Client, Launcher, Traced |
| total | 3522 | 4781 | |

## Wrong programs

`seeded/LOG.jsonl` has 1272 wrong programs: one definition of the model edited as a bug would, and rebuilt. It lists, for each, the claim that becomes false, the property theorems that no longer prove, and, for 38 of them, the theorems added or tightened because the edit was not noticed at first.

## Disagreements between the stated properties and the code

Each is proved with a concrete witness unless marked otherwise.

| Property | What the code does | Theorem |
|---|---|---|
| C10 | `InstrumentCardinalityLimit` is compared with the number of distinct fingerprints, and checked under the read lock only: colliding or concurrent first uses exceed it | `C10_limit_fails_colliding`, `C10_limit_fails_overlapping` |
| C14 | two overlapping gauge calls can leave the older value (sequence number drawn before the store); a cumulative view reports an unset gauge as zero | `C14_overlapping_calls_lose_newer_value`, `C14_unset_cumulative_gauge_fails` |
| C16, C42 | `CoerceToFloat64` of negative integers goes through `uint64`; MMSC integer minimum and maximum are exported as reinterpreted bits | `C16_coerce_negative_fails`, `C42_int_extremes_fails`, `C42_int_sum_fails` |
| C17 | attribute lists with a NaN inside a float slice never find their record again; `-0.0`/`0.0` in float slices are equal with different fingerprints | `C17_nan_slice_fails`, `C17_zero_slice_fails` |
| C22, C23 | asynchronous deltas restart from the whole value after a collection without the series; the overflow series is carried over and counted again | `C22_gap_fails`, `C23_overflow_fails` |
| C24 | a goroutine leaked by a callback can make the next collection report a zero for an unobserved series | `C24_leaked_observation_fails` |
| C25 | `Unregister` does not hold the meter lock and edits the shared array in place: callbacks can run twice, be skipped, be lost or run after unregistration | `C25_twice_fails`, `C25_skip_fails`, `C25_lost_fails`, `C25_unregistered_fails` |
| C27, C28, C31 | a hint naming `sum` keeps the unresolved kind: the output never equals itself, so re-registering makes a second output and a conflict with itself; a sum hint on an up-down counter gives a monotonic sum and on an asynchronous counter a gauge; a histogram hint on an asynchronous instrument gives a gauge; of two clauses without aggregation only the first gets the hinted one; a drop hint is ignored when a clause applies. `view/hint.go` says hints are only taken when no other clause matches, the code applies them to clauses too | `C27_hinted_sum_fails`, `C28_hinted_sum_fails`, `C31_sum_fails`, `C31_async_histogram_fails`, `C31_second_clause_fails`, `C31_drop_clause_fails` |
| C30 | two clauses with the same outcome make the instrument write twice to one output metric | `C30_same_clause_twice_fails` |
| C32 | a synchronous instrument dropped by every reader leaves a nil pointer in the list of instruments: every later collection panics | `C32_dropped_fails` |
| C34 | an unset clause configuration, once validated, differs from a customised default and overrides it; `Validate` loses the performance settings | `C34_default_fails` |
| C37 | `ForceFlush` (and `Produce`) after `Shutdown` still reach the readers and export | `C37_flush_after_fails`, `C37_export_after_fails` |
| C38 | ticks during an export are dropped but one | `C38_every_tick_fails` |
| C39 | conditional on the external library: an output object passed between readers with different histogram sizes keeps the size of the first | `C39_other_reader_fails` |
| C40 | `Combine` overwrites conflicts of a reader with the same name | `C40_same_name_fails` |
| C41 | conversion panics for scales at or below zero and writes a zero bound for the largest bucket (conditional on the external library's published behavior) | `C41_low_scale_fails`, `C41_largest_fails` |
| C43 | resources differing only in the sign of a zero inside a float slice share a cache entry | `C43_negative_zero_fails` |
| C44, C45 | an attribute without type panics at export | `C44_untyped_fails`, `C45_untyped_fails` |
| C46 | a batch starting with an unnamed scope panics; scopes that differ in version only are merged; the resource of the first span is used for all | `C46_unnamed_fails`, `C46_version_fails` |
| C47 | the default metric endpoint needs a token even when metrics are disabled | `C47_metrics_disabled_fails` |
| C48 | `WithAccessToken("")` falls back to `LS_ACCESS_TOKEN` | `C48_empty_token_fails` |
| C49 | explicit attributes with empty values are dropped; the default service version "unknown" overrides `service.version` from `OTEL_RESOURCE_ATTRIBUTES` | `C49_empty_value_fails`, `C49_version_fails` |
| C52 | a full pattern matches longer names with that prefix | `C52_longer_name_fails` |
| C53 | the functions run after the decision, so their run times can be closer than the period | `C53_run_times_fails` |
| C55 | truncation overwrites the caller's slice | `C55_caller_slice_fails` |
| C56 | an empty metric endpoint still starts the metrics pipeline | `C56_empty_endpoint_fails` |
| C63 | a panic while converting the final data (attribute without type) skips the shutdown of batcher and exporter; a batcher that fails to start leaves the started exporter running and unreachable | `C63_shutdown_panics_fails`, `C63_failed_construction_fails` |
| C64 | `NewConfig` ignores nil options, a nil option of the trace `NewExporter` panics | `C64_nil_option_fails` |
| C65 | the instruments `otelcol_x` and `otelsdk_x` become one | `C65_distinct_fails` |
| C67 | keys that become equal by truncation: the list of the fast path keeps the last value, the option path the value of the greatest key, and the order of the attributes matters; equal sets in different order use several records and so count several times towards the instrument limit | `C67_paths_agree_fails`, `C67_order_fails`, `C67_one_record_fails` |
| C69 | truncation can cut a character in the middle and leave invalid UTF-8 (which OTLP receivers may reject together with the whole request) | `C69_valid_fails` |
| C70 | no (or several) network summaries: no host metric is observed and the callback returns nil (host.go:202-204 returns the nil error of the call before) | `C70_host_error_fails` |
| C70 | `Callback.Run` discards the error a callback returns | `C70_callback_error_fails` |
| C70 | unsigned counts from 2^63 on become negative, e.g. the runtime's `/gc/gogc:percent` with the collector off is reported as -1 | `C70_counts_fails` |
| C72 | empty lists of different types are different series but are exported with the same attributes, so a receiver sees two points of one series per collection | `C72_empty_lists_alike` |
| C76 | measurements counted in the overflow record of an instrument lose the mark `otel.metric.overflow` in views with a key filter: they appear without attributes | `C76_marked_fails` |
| C18 | attributes added by a MeasurementProcessor are not truncated to AttributeSizeLimit | `C18_processor_fails` |
| C77 | `Produce may be called concurrently`, but overlapping collections by one reader report asynchronous sums twice in one and not at all in the other; deltas are then wrong for good | `C77_overlapping_fails`, `C77_delta_fails` |
| C78 | An instrument that shares an output with an earlier one of the same name gets the temporality of the earlier one, and no conflict is reported | `C78_same_name_fails`, `C78_view_fails` |
| C78 | Only the first of several clauses sees the hinted temporality | `C78_second_clause_fails` |
| C79 | A nil callback passed to a constructor (`WithInt64Callback(nil)`) is accepted, though `RegisterCallback` refuses nil; every later collection panics | `C79_nil_fails` |
| C80 | A reader given to two providers: the second's data are never handed to anyone, yet shutting the second down stops the reader's loop for the first | `C80_shared_fails` |
| C80 | A reader given twice to one provider (with different views): one set of views is ignored, every flush and the shutdown export twice | `C80_twice_fails` |
| C81 | A counter hinted to be a sum and registered twice is reported with "different attribute filters" though neither copy has any | `C81_hinted_fails` |
| C81 | With three metrics of a name, registering the middle one again gives a message about the other two | `C81_middle_fails` |
| C81 | A view asking for a (generic) sum of a gauge: the message says "Undefined aggregation" | `C81_any_sum_fails` |
| C05 | "Allowed collection periods having no updates" are counted over the collections of all readers together: two readers free a record twice as fast | `C05_removed` (any mixture of collections) |
| C14 | gauge.go says an unset gauge is only reachable under delta temporality; a cumulative view exports 0 when a first call runs between snapshot and collect, even though the call has returned | `C14_unset_after_return_fails` |
| C82 | Two readers collecting at once report runtime metrics mixed from two instants (parts of a whole that do not add up) | `C82_mixed_fails` |
| C83 | A measurement made after the end time of a collection is reported in it | `C83_after_end_fails` |
| C85 | Scope attributes (`WithInstrumentationAttributes`) are dropped, and meters differing only in them are the same | `C85_attributes_fails` |
| C85 | The documented default name for an empty meter name is not used | `C85_empty_name_fails` |
| C86 | A callback that calls `ForceFlush` or `Shutdown` never returns (the reader's lock is held while callbacks run) | `C86_collect_in_callback_fails` |
| C86 | Errors are reported while locks are held (meter.go:181, base_instrument.go:123 under `once`): an error handler that creates an instrument, or counts errors with the instrument concerned, can block for ever | `C86_error_handler_fails` |
| C87 | `Unregister` reads and writes the callbacks of the meter without the meter's lock (meter.go:93-115): a data race with `RegisterCallback`, collections and other `Unregister`s | `C87_unregister_fails` |
| C87 | A conflict error reads descriptions without a lock when it is formatted: a data race with the creation of an instrument with a longer description | `C87_error_text_fails` |
| C87 | Attributes are truncated in the list of the caller: a data race between two measurements with one list (`AddWithKeyValues`) | `C87_truncation_fails` |
| C87 | `SubtractSwap` is not atomic: a data race between overlapping collections of one `ManualReader`, which are documented as allowed | `C87_overlapping_fails` |
| C87 | The callback of the runtime metrics reuses one list of samples: a data race between the collections of two readers | `C87_runtime_metrics_fails` |
| C88 | delta gauge: two readers, a view that merges series; reader A's snapshot has visited one of two series when reader B collects and exports the newer value; A's snapshot then adds the older value, and B's next export sends the older value as the most recent point | `C88_gauge_delta_last_fails` |
| C98 | a ForceFlush or Shutdown called after a request for an instrument was answered without one never returns | `C98_refused_fails` |
| C100 | a program asked for an instrument which all readers drop: `ForceFlush` and `Shutdown` never return, however fair the schedule | `C100_refused_fails` |
| C101 | a program with the Prometheus exporter panics when it exports a histogram whose values span a wide range (scale 0 or less) | `C101_wide_fails` |
| C101 | negative values of a histogram are in no bucket of what the Prometheus exporter is handed | `C101_negative_fails` |
| C103 | A request answered without an instrument makes ForceFlush and Shutdown of each idle reader, and so of the provider, never return | `C103_refused_fails` |
| C107 | With delta temporality (preference "delta" or "lowmemory") a collection removes what it has collected before the export is attempted; when the export fails, these values are never sent again. | `C107_delta_fails` |
| C108 | Spans of tracers with the same name but different versions (or schema URLs) which are neighbours in a batch are sent under the version of the first. | `C108_version_fails` |
| C112 | a flush that falls into the first recording with its attributes sends a cumulative gauge point with the value 0 that nobody recorded | `C112_gauge_unset_fails` |

Observed while reading, not stated as properties: `LS_METRICS_SDK`/`WithLightstepMetricsSDK` are documented and ignored; the default error handler keeps the default logger with `WithLogger`;
propagators are not set when tracing is disabled; the ticker of the periodic reader is never stopped; `PeriodicReader.Shutdown` without `Register` calls a nil function; temporality and instrument
kind are not compared when looking for an equal output metric; `cputime_other.go` uses the undeclared `gcSeconds` and `memStats`, so the instrumentation cannot compile
for operating systems other than Linux and macOS.
