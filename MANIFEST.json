{
 "claims": [
  {
   "property": "C01",
   "status": "proved",
   "theorems": [
    "Verif.Props.C01_accounting",
    "Verif.Props.C01_memory_is_visited",
    "Verif.Props.C01_applied_exactly_once",
    "Verif.Props.C01_at_most_once",
    "Verif.Props.C01_nothing_invented",
    "Verif.Props.C01_exactly_once_when_drained"
   ],
   "note": "Inductive invariants over all interleavings; delta views. Cumulative counterpart under C07."
  },
  {
   "property": "C02",
   "status": "proved",
   "theorems": [
    "Verif.Props.C02_delta",
    "Verif.Props.C02_cumulative"
   ],
   "note": "Stated for the end of a completed snapshot followed by a completed collection; proviso NoWrap is the 2^32 counter."
  },
  {
   "property": "C03",
   "status": "proved",
   "theorems": [
    "Verif.Props.C03_attribution_real",
    "Verif.Props.C03_attribution",
    "Verif.Props.C03_reported_attribution"
   ],
   "note": "hsafe is discharged for the real attribute comparison in C17."
  },
  {
   "property": "C04",
   "status": "proved",
   "theorems": [
    "Verif.Props.C04_pin_succeeds",
    "Verif.Props.C04_no_retry",
    "Verif.Props.C04_no_write_after_release",
    "Verif.Props.C04_removed_unused"
   ],
   "note": ""
  },
  {
   "property": "C05",
   "status": "proved",
   "theorems": [
    "Verif.Props.C05_survives",
    "Verif.Props.C05_removed",
    "Verif.Props.C05_in_use_kept",
    "Verif.Props.C05_in_use_keeps",
    "Verif.Props.C05_updated_keeps",
    "Verif.Props.C05_keeps_restarts"
   ],
   "note": "Visits counted over arbitrary interleavings."
  },
  {
   "property": "C06",
   "status": "proved",
   "theorems": [
    "Verif.Props.C06_point",
    "Verif.Props.C06_suppressed_is_zero",
    "Verif.Props.C06_total",
    "Verif.Props.C06_total_recorded",
    "Verif.Props.C06_series"
   ],
   "note": "64-bit integer counters and up-down counters (BitVec 64); every exported point and the running total over all exports, for every interleaving."
  },
  {
   "property": "C07",
   "status": "proved",
   "theorems": [
    "Verif.Props.C07_reports_all_drained",
    "Verif.Props.C07_series_stay",
    "Verif.Props.C07_every_series_reported",
    "Verif.Props.C07_history",
    "Verif.Props.C07_value",
    "Verif.Props.C07_monotone"
   ],
   "note": "64-bit integer cumulative sums; every interleaving."
  },
  {
   "property": "C08",
   "status": "proved",
   "theorems": [
    "Verif.Props.C08_collect_frame",
    "Verif.Props.C08_same_data"
   ],
   "note": ""
  },
  {
   "property": "C09",
   "status": "proved",
   "theorems": [
    "Verif.Props.C09_range_test",
    "Verif.Props.C09_rejected_no_effect",
    "Verif.Props.C09_accepted"
   ],
   "note": "Asynchronous instruments: see also C20 (same range test)."
  },
  {
   "property": "C10",
   "status": "partial",
   "theorems": [
    "Verif.Props.C10_limit_partial",
    "Verif.Props.C10_fingerprints_partial",
    "Verif.Props.C10_full_to_overflow",
    "Verif.Props.C10_existing_kept",
    "Verif.Props.C10_write_path",
    "Verif.Props.C10_limit_fails_overlapping",
    "Verif.Props.C10_limit_fails_colliding"
   ],
   "note": "Bound proved for non-overlapping calls without fingerprint collisions; concrete executions exceed it otherwise. Folding into the overflow record always holds."
  },
  {
   "property": "C11",
   "status": "proved",
   "theorems": [
    "Verif.Props.C11_limit",
    "Verif.Props.C11_full_has_overflow",
    "Verif.Props.C11_existing_found",
    "Verif.Props.C11_new",
    "Verif.Props.C11_identity"
   ],
   "note": "That nothing is dropped by overflow is C01, which holds for every limit."
  },
  {
   "property": "C12",
   "status": "proved",
   "theorems": [
    "Verif.Props.C12_forgotten_is_empty",
    "Verif.Props.C12_merge_into_listed",
    "Verif.Props.C12_refcount"
   ],
   "note": ""
  },
  {
   "property": "C13",
   "status": "proved",
   "theorems": [
    "Verif.Props.C13_split_int",
    "Verif.Props.C13_split_float",
    "Verif.Props.C13_point_int",
    "Verif.Props.C13_point_float",
    "Verif.Props.C13_exported_iff"
   ],
   "note": "Integer statistics exact; float statistics stated over the abstract float operations the code calls, for any way of splitting and merging."
  },
  {
   "property": "C14",
   "status": "partial",
   "theorems": [
    "Verif.Props.C14_value_recorded_partial",
    "Verif.Props.C14_delta_exported_iff",
    "Verif.Props.C14_last_value_sequential",
    "Verif.Props.C14_unset_cumulative_gauge_fails",
    "Verif.Props.C14_unset_after_return_fails",
    "Verif.Props.C14_overlapping_calls_lose_newer_value"
   ],
   "note": "Last value proved for non-overlapping calls; three concrete executions show where the claim fails: overlapping calls; a cumulative view reporting an unset gauge while the first call is in progress, and also after it has returned (C14_unset_after_return_fails)."
  },
  {
   "property": "C15",
   "status": "proved",
   "theorems": [
    "Verif.Props.C15_linearizable",
    "Verif.Props.C15_retry_means_progress"
   ],
   "note": "Linearizability of the compare-and-swap loop with swaps, over an arbitrary addition function."
  },
  {
   "property": "C16",
   "status": "partial",
   "theorems": [
    "Verif.Props.C16_int_round_trip",
    "Verif.Props.C16_int_encode_decode",
    "Verif.Props.C16_coerce_float",
    "Verif.Props.C16_coerce_int_partial",
    "Verif.Props.C16_coerce_exact_partial",
    "Verif.Props.C16_coerce_negative_fails"
   ],
   "note": "Round trips and coercion of floats and non-negative integers proved; coercion of every negative integer is wrong (converted as uint64)."
  },
  {
   "property": "C17",
   "status": "partial",
   "theorems": [
    "Verif.Props.C17_fingerprint_order",
    "Verif.Props.C17_equal_iff",
    "Verif.Props.C17_equal_iff_eq",
    "Verif.Props.C17_equal_same_set",
    "Verif.Props.C17_same_list_found_partial",
    "Verif.Props.C17_one_record_partial",
    "Verif.Props.C17_nan_slice_fails",
    "Verif.Props.C17_zero_slice_fails"
   ],
   "note": "False only for float slices containing NaN (never found again) or differing zeros (different fingerprint)."
  },
  {
   "property": "C18",
   "status": "partial",
   "theorems": [
    "Verif.Props.C18_truncation",
    "Verif.Props.C18_short_unchanged",
    "Verif.Props.C18_idempotent",
    "Verif.Props.C18_default",
    "Verif.Props.C18_used",
    "Verif.Props.C18_processed",
    "Verif.Props.C18_processor_fails"
   ],
   "note": "Full without measurement processor. What a processor adds is not truncated (C18_processor_fails)."
  },
  {
   "property": "C19",
   "status": "proved",
   "theorems": [
    "Verif.Props.C19_filtered_attributes",
    "Verif.Props.C19_sorted_keys",
    "Verif.Props.C19_equal_after_filter",
    "Verif.Props.C19_shared_series",
    "Verif.Props.C19_reported_attributes"
   ],
   "note": ""
  },
  {
   "property": "C20",
   "status": "proved",
   "theorems": [
    "Verif.Props.C20_out_of_range_ignored",
    "Verif.Props.C20_last_values",
    "Verif.Props.C20_all_counted",
    "Verif.Props.C20_int_sum"
   ],
   "note": "Any aggregator; sums as exact 64-bit totals. Proviso Quiet: no observation is between its liveness check and its update when the collection is processed (goroutines leaked by a callback), see C24_leaked_observation_fails."
  },
  {
   "property": "C21",
   "status": "proved",
   "theorems": [
    "Verif.Props.C21_never_applied",
    "Verif.Props.C21_no_effect",
    "Verif.Props.C21_legal_applied"
   ],
   "note": "All interleavings, including leaked goroutines whose call begins after the callback returned."
  },
  {
   "property": "C22",
   "status": "partial",
   "theorems": [
    "Verif.Props.C22_delta",
    "Verif.Props.C22_runs",
    "Verif.Props.C22_telescopes_partial",
    "Verif.Props.C22_gap_fails"
   ],
   "note": "Exact for every history in terms of runs of consecutive collections; the claim holds without gaps and fails with a gap."
  },
  {
   "property": "C23",
   "status": "partial",
   "theorems": [
    "Verif.Props.C23_each_delta_partial",
    "Verif.Props.C23_overflow_fails"
   ],
   "note": "False of the code: overflow deltas are whole cumulative values again in every collection."
  },
  {
   "property": "C24",
   "status": "partial",
   "theorems": [
    "Verif.Props.C24_exactly_observed",
    "Verif.Props.C24_all_reported",
    "Verif.Props.C24_leaked_observation_fails"
   ],
   "note": "Proved for quiet histories; a goroutine leaked by a callback can make the next collection report a zero for an unobserved series."
  },
  {
   "property": "C25",
   "status": "partial",
   "theorems": [
    "Verif.Callbacks.C25_exactly_once_partial",
    "Verif.Callbacks.C25_nothing_else_partial",
    "Verif.Callbacks.C25_unregistered_partial",
    "Verif.Callbacks.C25_unregister_twice",
    "Verif.Callbacks.C25_twice_fails",
    "Verif.Callbacks.C25_skip_fails",
    "Verif.Callbacks.C25_lost_fails",
    "Verif.Callbacks.C25_unregistered_fails"
   ],
   "note": "Slice-level model of the callback list: header, shared backing arrays, append in place or to a new array, Unregister as separate steps because it does not take the meter lock. Proved: exactly once when Unregister does not overlap the collection, registrations or other Unregister calls; unregistered callbacks never run later if Unregister calls do not overlap each other or registrations; a second Unregister only reports an error (all interleavings). The _fails theorems give executions where a callback runs twice, is skipped, a registration is lost, or an unregistered callback runs."
  },
  {
   "property": "C26",
   "status": "proved",
   "theorems": [
    "Verif.Props.C26_matches_iff",
    "Verif.Props.C26_name_over_pattern",
    "Verif.Props.C26_outputs",
    "Verif.Props.C26_defaults"
   ],
   "note": "Matching, outputs per clause in order, defaults; for every registration history."
  },
  {
   "property": "C27",
   "status": "partial",
   "theorems": [
    "Verif.Props.C27_same_outputs",
    "Verif.Props.C27_hinted_partial",
    "Verif.Props.C27_hinted_sum_fails"
   ],
   "note": "Instruments without hints: exact state equality after any history. Hinted sum creates a second output metric (witness)."
  },
  {
   "property": "C28",
   "status": "partial",
   "theorems": [
    "Verif.Props.C28_reported_iff",
    "Verif.Props.C28_distinct",
    "Verif.Props.C28_share_silently",
    "Verif.Props.C28_hinted_sum_fails"
   ],
   "note": "Reported iff; outputs pairwise distinct without hints; description-only differences share. Hinted sum reports a conflict between identical outputs (witness)."
  },
  {
   "property": "C29",
   "status": "proved",
   "theorems": [
    "Verif.Props.C29_legal",
    "Verif.Props.C29_reported_iff"
   ],
   "note": "All instrument kinds and aggregation kinds, all views, all histories."
  },
  {
   "property": "C30",
   "status": "partial",
   "theorems": [
    "Verif.Props.C30_once_partial",
    "Verif.Props.C30_same_clause_twice_fails"
   ],
   "note": "Two clauses with the same outcome make the instrument write twice to one output metric (witness, with the doubled value); otherwise once."
  },
  {
   "property": "C31",
   "status": "partial",
   "theorems": [
    "Verif.Props.C31_no_clause_partial",
    "Verif.Props.C31_first_clause_partial",
    "Verif.Props.C31_sum_fails",
    "Verif.Props.C31_async_histogram_fails",
    "Verif.Props.C31_second_clause_fails",
    "Verif.Props.C31_drop_clause_fails"
   ],
   "note": "Implemented aggregations with no clause or the first clause; witnesses for sum, asynchronous histogram, second clause, drop with a clause."
  },
  {
   "property": "C32",
   "status": "partial",
   "theorems": [
    "Verif.Provider.C32_nil_iff",
    "Verif.Provider.C32_noop",
    "Verif.Provider.C32_async",
    "Verif.Provider.C32_dropped_fails",
    "Verif.Provider.C32_collect_partial"
   ],
   "note": "Fails for synchronous instruments dropped by every reader: a nil instrument is kept in the list of synchronous instruments and every later collection panics (C32_dropped_fails). Partial: collections succeed and report every kept instrument's measurements when each synchronous instrument asked for is kept by at least one reader; asynchronous instruments may be dropped freely. Descriptors without hints."
  },
  {
   "property": "C33",
   "status": "proved",
   "theorems": [
    "Verif.Props.C33_longest"
   ],
   "note": "Instruments without hints; any history, any clauses."
  },
  {
   "property": "C34",
   "status": "partial",
   "theorems": [
    "Verif.Props.C34_default_partial",
    "Verif.Props.C34_hint_partial",
    "Verif.Props.C34_default_fails"
   ],
   "note": "Holds when the default configuration is itself what an unset configuration validates to; witness otherwise."
  },
  {
   "property": "C35",
   "status": "proved",
   "theorems": [
    "Verif.Times.C35_delta",
    "Verif.Times.C35_cumulative",
    "Verif.Times.C35_ordered",
    "Verif.Times.C35_tile"
   ],
   "note": "All histories of collections by any number of readers under any clock; orderedness assumes a non-decreasing clock."
  },
  {
   "property": "C36",
   "status": "proved",
   "theorems": [
    "Verif.Provider.C36_meters",
    "Verif.Provider.C36_instruments",
    "Verif.Provider.C36_order"
   ],
   "note": "Meters, instruments and report order over all histories of Meter, instrument, record and Shutdown calls (each runs under a lock, so executions are sequences of whole calls)."
  },
  {
   "property": "C37",
   "status": "partial",
   "theorems": [
    "Verif.Shutdown.C37_once",
    "Verif.Shutdown.C37_count",
    "Verif.Shutdown.C37_complete",
    "Verif.Shutdown.C37_one",
    "Verif.Shutdown.C37_later",
    "Verif.Shutdown.C37_meter",
    "Verif.Shutdown.C37_flush_after_fails",
    "Verif.Shutdown.C37_export_after_fails",
    "Verif.Shutdown.C37_no_export_partial"
   ],
   "note": "Each reader is shut down once, in order, over all interleavings of Shutdown, ForceFlush and Meter calls; later calls get already-shutdown; Meter is a no-op after. Fails: ForceFlush after Shutdown still reaches the readers, and a periodic reader then still exports (C37_flush_after_fails, C37_export_after_fails). Partial: without a ForceFlush nothing is exported after Shutdown (C37_no_export_partial)."
  },
  {
   "property": "C38",
   "status": "partial",
   "theorems": [
    "Verif.Periodic.C38_final",
    "Verif.Periodic.C38_no_tick_after",
    "Verif.Periodic.C38_flush",
    "Verif.Periodic.C38_exclusive",
    "Verif.Periodic.C38_ticks_partial",
    "Verif.Periodic.C38_every_tick_fails",
    "Verif.Periodic.C38_no_deadlock"
   ],
   "note": "All interleavings of ticks, ForceFlush and Shutdown. Fails: not every tick exports, since ticks arriving during an export are dropped but one (C38_every_tick_fails); partial: at most one export per tick, and one for a tick found by an idle reader (C38_ticks_partial)."
  },
  {
   "property": "C39",
   "status": "partial",
   "theorems": [
    "Verif.Reuse.C39_reuse",
    "Verif.Reuse.C39_share_partial",
    "Verif.Reuse.C39_others",
    "Verif.Reuse.C39_other_reader_fails"
   ],
   "note": "All histories of collections by any readers into any objects, with explicit memory (points share aggregations by pointer), given the external histogram's contract for equal sizes (Lib.Sound). Partial: an object must stay with one reader, or no view be a histogram; passing an object between readers whose histograms have different maximum sizes fails for a library whose CopyInto keeps the destination's size (C39_other_reader_fails; go-expohisto is not part of the repository)."
  },
  {
   "property": "C40",
   "status": "partial",
   "theorems": [
    "Verif.Props.C40_error_iff",
    "Verif.Props.C40_every_reader_partial",
    "Verif.Props.C40_same_name_fails"
   ],
   "note": "Readers with distinct names; witness for equal names."
  },
  {
   "property": "C41",
   "status": "partial",
   "theorems": [
    "Verif.Props.C41_explicit_partial",
    "Verif.Props.C41_each_bucket_partial",
    "Verif.Props.C41_low_scale_fails",
    "Verif.Props.C41_largest_fails"
   ],
   "note": "Counts, count-versus-buckets and bounds preserved whenever the bucket boundaries exist; for scales at or below zero the conversion panics and for the largest bucket it writes a zero bound. The library boundary function is modelled from its published source (trusted, see DESIGN.md)."
  },
  {
   "property": "C42",
   "status": "partial",
   "theorems": [
    "Verif.Props.C42_float_partial",
    "Verif.Props.C42_int_sum_partial",
    "Verif.Props.C42_int_extremes_fails",
    "Verif.Props.C42_int_sum_fails"
   ],
   "note": "Exact for float64 summaries and non-negative integer sums; integer minimum and maximum, and negative integer sums, are exported as reinterpreted bits."
  },
  {
   "property": "C43",
   "status": "partial",
   "theorems": [
    "Verif.Props.C43_transparent_partial",
    "Verif.Props.C43_same_values",
    "Verif.Props.C43_negative_zero_fails"
   ],
   "note": "Cache transparent for all sequences of resources without negative zeros inside float slices; with them two different resources share one entry."
  },
  {
   "property": "C44",
   "status": "partial",
   "theorems": [
    "Verif.Props.C44_attributes_partial",
    "Verif.Props.C44_any_list_partial",
    "Verif.Props.C44_untyped_fails"
   ],
   "note": "All typed attributes; an untyped attribute panics."
  },
  {
   "property": "C45",
   "status": "partial",
   "theorems": [
    "Verif.Props.C45_payload_partial",
    "Verif.Props.C45_untyped_fails",
    "Verif.Props.C45_times"
   ],
   "note": "Whole payload specified relationally (including sum, minimum and maximum of histogram points) and proved for every convertible report; missing exactly what C41, C43 and C44 miss."
  },
  {
   "property": "C46",
   "status": "partial",
   "theorems": [
    "Verif.Props.C46_spans_partial",
    "Verif.Props.C46_order_partial",
    "Verif.Props.C46_unnamed_fails",
    "Verif.Props.C46_version_fails"
   ],
   "note": "Every span once, in order, under its scope and resource, when scopes are identified by non-empty names and one resource is in use; the failing cases are proved."
  },
  {
   "property": "C47",
   "status": "partial",
   "theorems": [
    "Verif.Launcher.C47_rejected_partial",
    "Verif.Launcher.C47_metrics_disabled_fails"
   ],
   "note": "Rejection conditions proved exactly as the code has them; metrics endpoint is checked even when metrics are disabled, so the stated form fails (proved)."
  },
  {
   "property": "C48",
   "status": "partial",
   "theorems": [
    "Verif.Launcher.C48_last_option_wins",
    "Verif.Launcher.C48_explicit_token_partial",
    "Verif.Launcher.C48_empty_token_fails"
   ],
   "note": "Last option wins, environment as fallback, other headers kept, explicit non-empty token wins; an explicitly empty token falls back to LS_ACCESS_TOKEN (proved)."
  },
  {
   "property": "C49",
   "status": "partial",
   "theorems": [
    "Verif.Launcher.C49_precedence_partial",
    "Verif.Launcher.C49_present_partial",
    "Verif.Launcher.C49_empty_value_fails",
    "Verif.Launcher.C49_version_fails"
   ],
   "note": "Precedence for distinct configured keys and non-empty values; empty explicit values and the default service.version are exceptions (proved)."
  },
  {
   "property": "C50",
   "status": "proved",
   "theorems": [
    "Verif.Launcher.C50_preferences",
    "Verif.Launcher.C50_defined",
    "Verif.Launcher.C50_accepted"
   ],
   "note": "All preference strings and kinds."
  },
  {
   "property": "C51",
   "status": "proved",
   "theorems": [
    "Verif.Launcher.C51_propagators",
    "Verif.Launcher.C51_launcher"
   ],
   "note": "All lists of names."
  },
  {
   "property": "C52",
   "status": "partial",
   "theorems": [
    "Verif.Runtime.C52_total",
    "Verif.Runtime.C52_unambiguous",
    "Verif.Runtime.C52_complete",
    "Verif.Runtime.C52_reassemble_partial",
    "Verif.Runtime.C52_attribute_names",
    "Verif.Runtime.C52_longer_name_fails"
   ],
   "note": "Total, unambiguous, complete and reassembling for all strings; a longer text beginning with a full name is also matched (proved)."
  },
  {
   "property": "C53",
   "status": "partial",
   "theorems": [
    "Verif.Doevery.C53_apart_partial",
    "Verif.Doevery.C53_fires",
    "Verif.Doevery.C53_limited",
    "Verif.Doevery.C53_independent",
    "Verif.Doevery.C53_runs",
    "Verif.Doevery.C53_run_times_fails"
   ],
   "note": "All interleavings of calls and clock readings; the limit holds for the recorded decision times, not for the moments the functions run (proved)."
  },
  {
   "property": "C54",
   "status": "proved",
   "theorems": [
    "Verif.Props.C54_totals",
    "Verif.Props.C54_series"
   ],
   "note": "Totals agree always; per series when neither view has overflowed."
  },
  {
   "property": "C55",
   "status": "partial",
   "theorems": [
    "Verif.Props.C55_caller_slice_fails",
    "Verif.Props.C55_caller_slice_partial"
   ],
   "note": "False: truncation overwrites the caller's slice."
  },
  {
   "property": "C56",
   "status": "partial",
   "theorems": [
    "Verif.Launcher.C56_pipelines_partial",
    "Verif.Launcher.C56_empty_endpoint_fails"
   ],
   "note": "Exact conditions for starting and stopping; an empty metrics endpoint still starts the pipeline (proved)."
  },
  {
   "property": "C57",
   "status": "proved",
   "theorems": [
    "Verif.Launcher.C57_entry",
    "Verif.Launcher.C57_order"
   ],
   "note": "All entries and lists."
  },
  {
   "property": "C58",
   "status": "proved",
   "theorems": [
    "Verif.Runtime.C58_observed",
    "Verif.Runtime.C58_unreadable",
    "Verif.Runtime.C58_distinct"
   ],
   "note": "All lists of runtime metrics; values read have the announced kind, or (C58_unreadable) one is not a number and ends the callback."
  },
  {
   "property": "C59",
   "status": "proved",
   "theorems": [
    "Verif.Props.C59_reuse_invisible",
    "Verif.Props.C59_read_only_during_call"
   ],
   "note": "The machine of C01 extended with the callers' slices as memory cells written at any time after the call returned; refinement: erasing the writes gives the same state."
  },
  {
   "property": "C60",
   "status": "proved",
   "theorems": [
    "Verif.Props.C60_table",
    "Verif.Props.C60_size",
    "Verif.Props.C60_collected_once",
    "Verif.Props.C60_survivors"
   ],
   "note": "Pointer-level model of currentFP chains; refinement to a plain list, all operations total (no cycle, no nil dereference)."
  },
  {
   "property": "C61",
   "status": "proved",
   "theorems": [
    "Verif.Props.C61_point",
    "Verif.Props.C61_measure",
    "Verif.Props.C61_sum",
    "Verif.Props.C61_count",
    "Verif.Props.C61_exported_iff",
    "Verif.Props.C61_total"
   ],
   "note": "The histogram data structure is external; the statements quantify over its operations, and assume only what each states (C61_point assumes nothing)."
  },
  {
   "property": "C62",
   "status": "proved",
   "theorems": [
    "Verif.Props.C62_export",
    "Verif.Props.C62_spans",
    "Verif.Props.C62_balance"
   ],
   "note": "Data point and span counts of pdata, and the answers of the next component, are external; the payload is the conversion of C41-C46."
  },
  {
   "property": "C63",
   "status": "partial",
   "theorems": [
    "Verif.Props.C63_shutdown_partial",
    "Verif.Props.C63_shutdown_prom_partial",
    "Verif.Props.C63_shutdown_trace",
    "Verif.Props.C63_shutdown_panics_fails",
    "Verif.Props.C63_construction",
    "Verif.Props.C63_failed_construction_fails"
   ],
   "note": "Two disagreements: a panic while converting the final data skips both shutdowns; a batcher that fails to start leaves the started exporter running."
  },
  {
   "property": "C64",
   "status": "partial",
   "theorems": [
    "Verif.Props.C64_last_wins",
    "Verif.Props.C64_headers",
    "Verif.Props.C64_tls",
    "Verif.Props.C64_defaults",
    "Verif.Props.C64_no_options",
    "Verif.Props.C64_pipeline",
    "Verif.Props.C64_providers_partial",
    "Verif.Props.C64_metric_providers",
    "Verif.Props.C64_nil_option_fails"
   ],
   "note": "Full for configuration options; a nil option of the trace exporter constructor panics, hence the _partial theorem on providers."
  },
  {
   "property": "C65",
   "status": "partial",
   "theorems": [
    "Verif.Props.C65_renamed",
    "Verif.Props.C65_distinct_fails"
   ],
   "note": "Full except that names otelcol_x and otelsdk_x become equal."
  },
  {
   "property": "C66",
   "status": "proved",
   "theorems": [
    "Verif.Props.C66_clauses",
    "Verif.Props.C66_defaults"
   ],
   "note": "Regular expressions and rename functions are arbitrary functions; the histogram configuration validation is external."
  },
  {
   "property": "C67",
   "status": "partial",
   "theorems": [
    "Verif.Props.C67_same_content_partial",
    "Verif.Props.C67_paths_agree_partial",
    "Verif.Props.C67_order_partial",
    "Verif.Props.C67_reported_together_partial",
    "Verif.Props.C67_observable_partial",
    "Verif.Props.C67_paths_agree_fails",
    "Verif.Props.C67_order_fails",
    "Verif.Props.C67_one_record_fails"
   ],
   "note": "Part: without measurement processor and when no two keys become equal by truncation. Otherwise false, see the _fails theorems."
  },
  {
   "property": "C68",
   "status": "proved",
   "theorems": [
    "Verif.Props.C68_output",
    "Verif.Props.C68_values"
   ],
   "note": "Full."
  },
  {
   "property": "C69",
   "status": "partial",
   "theorems": [
    "Verif.Props.C69_prefix_partial",
    "Verif.Props.C69_valid_partial",
    "Verif.Props.C69_valid_fails"
   ],
   "note": "False: truncation cuts bytes. The _partial theorems bound the damage and give the cases where the text stays valid."
  },
  {
   "property": "C70",
   "status": "partial",
   "theorems": [
    "Verif.Props.C70_host_values",
    "Verif.Props.C70_host_all_or_none",
    "Verif.Props.C70_host_error_partial",
    "Verif.Props.C70_host_error_fails",
    "Verif.Props.C70_callback_error_fails",
    "Verif.Props.C70_counts_partial",
    "Verif.Props.C70_counts_fails",
    "Verif.Props.C70_registration",
    "Verif.Props.C70_instruments",
    "Verif.Props.C70_own_instruments",
    "Verif.Props.C70_process_error",
    "Verif.Props.C70_provider"
   ],
   "note": "Parts are false: a host without exactly one network summary reports nothing and no error; errors returned by callbacks are discarded; counts of 2^63 and more become negative."
  },
  {
   "property": "C71",
   "status": "proved",
   "theorems": [
    "Verif.Props.C71_monotone",
    "Verif.Props.C71_accuracy"
   ],
   "note": "Float addition and division are assumed to round to a nearest float (shown to be satisfiable)."
  },
  {
   "property": "C72",
   "status": "proved",
   "theorems": [
    "Verif.Props.C72_sent_total",
    "Verif.Props.C72_sent_series",
    "Verif.Props.C72_last_series",
    "Verif.Props.C72_hist_sent_total",
    "Verif.Props.C72_hist_sent_series",
    "Verif.Props.C72_hist_last_series",
    "Verif.Props.C72_mmsc_sent_total",
    "Verif.Props.C72_mmsc_sent_series",
    "Verif.Props.C72_mmsc_last_series",
    "Verif.Props.C72_sent_known",
    "Verif.Props.C72_hist_sent_known",
    "Verif.Props.C72_mmsc_sent_known",
    "Verif.Props.C72_empty_lists_alike",
    "Verif.Props.C72_float_last_series",
    "Verif.Props.C72_float_sent_series",
    "Verif.Props.C72_mmsc_last_values",
    "Verif.Props.C72_mmsc_sent_values",
    "Verif.Props.C72_mmsc_last_ints",
    "Verif.Props.C72_mmsc_sent_ints",
    "Verif.Props.C72_hist_last_content",
    "Verif.Props.C72_hist_sent_content"
   ],
   "note": "Full under the stated conditions. Floating point addition is a parameter, so sums of floats are stated as the result of adding in some order (every bracketing the code can produce is covered); delta float sums that are zero are not sent. `C72_empty_lists_alike` shows why empty lists are excluded. Of min/max/sum/count of integers sum and count are claimed (C42). Gauges are C88. One reader and its push exporter are followed; asynchronous instruments are C21-C24 and C75."
  },
  {
   "property": "C73",
   "status": "proved",
   "theorems": [
    "Verif.Props.C73_apart",
    "Verif.Props.C73_own_attributes",
    "Verif.Props.C73_no_other"
   ],
   "note": "Full."
  },
  {
   "property": "C74",
   "status": "proved",
   "theorems": [
    "Verif.Props.C74_payloads"
   ],
   "note": "Full for synchronous instruments with valid attribute types."
  },
  {
   "property": "C75",
   "status": "proved",
   "theorems": [
    "Verif.Props.C75_payloads",
    "Verif.Props.C75_cumulative",
    "Verif.Props.C75_gauge_value",
    "Verif.Props.C75_delta",
    "Verif.Props.C75_delta_float",
    "Verif.Props.C75_delta_total",
    "Verif.Props.C75_programs"
   ],
   "note": "Full for programs whose attribute sets fit the cardinality limit (C08, C20 say what happens otherwise) and whose callbacks wait for the observations they start (C21). Float sums are sums in some order with an abstract addition, float differences use an abstract subtraction. Gauges into which several sets are merged report one of the values observed."
  },
  {
   "property": "C76",
   "status": "partial",
   "theorems": [
    "Verif.Props.C76_marked_partial",
    "Verif.Props.C76_async",
    "Verif.Props.C76_marked_fails"
   ],
   "note": "Full for asynchronous instruments and for views which keep the overflow key. False for views with a key filter: the limit of the instrument applies before the filter, which removes the mark (C76_marked_fails)."
  },
  {
   "property": "C77",
   "status": "partial",
   "theorems": [
    "Verif.Props.C77_alone_partial",
    "Verif.Props.C77_delta_partial",
    "Verif.Props.C77_overlapping_fails",
    "Verif.Props.C77_delta_fails"
   ],
   "note": "Proved for every collection during which no other is in progress, whatever overlapped before (cumulative views, C77_alone); for delta views of integer counters, of two such collections in a row the second reports the difference between what the two observed (C77_delta_partial; fewer attribute sets than the limit). False for overlapping ones: the accumulators of two collections add into the same holder, and a collection loses what it adds after the other replaced the table (C77_overlapping_fails). The total of the deltas then stays wrong for good (C77_delta_fails). PeriodicReader serialises its collections (periodic.go:156-157), other readers need not."
  },
  {
   "property": "C78",
   "status": "partial",
   "theorems": [
    "Verif.Props.C78_own_kind",
    "Verif.Props.C78_first_partial",
    "Verif.Props.C78_standard",
    "Verif.Props.C78_launcher",
    "Verif.Props.C78_same_name_fails",
    "Verif.Props.C78_view_fails",
    "Verif.Props.C78_second_clause_fails"
   ],
   "note": "Proved in full without clauses and hints (C78_standard) and from there for the launcher (C78_launcher); with clauses, every output has the reader's temporality for the kind it was made for (C78_own_kind); with hints, for the first output under a fresh name (C78_first_partial). False for outputs shared with an earlier instrument: the equivalence test of Compile does not look at temporality, and no conflict is reported (C78_same_name_fails, C78_view_fails); false for the second clause of a hinted instrument (C78_second_clause_fails)."
  },
  {
   "property": "C79",
   "status": "partial",
   "theorems": [
    "Verif.Props.C79_accepted_iff",
    "Verif.Props.C79_constructor",
    "Verif.Props.C79_observed_partial",
    "Verif.Props.C79_nil_fails"
   ],
   "note": "Proved except for nil functions given to constructors: the closure around them hides them from the check, and every later collection panics (C79_nil_fails)."
  },
  {
   "property": "C80",
   "status": "partial",
   "theorems": [
    "Verif.Props.C80_options",
    "Verif.Props.C80_first",
    "Verif.Props.C80_reported",
    "Verif.Props.C80_tick",
    "Verif.Props.C80_flush",
    "Verif.Props.C80_own_partial",
    "Verif.Props.C80_shared_fails",
    "Verif.Props.C80_twice_fails"
   ],
   "note": "Options, first registration wins and the reporting of others are proved without conditions. That a reader serves exactly the provider it was given to is proved for readers used once, and false otherwise: a second provider's data are lost, and shutting the second provider down stops the reader of the first (C80_shared_fails); a reader given twice to one provider exports twice (C80_twice_fails)."
  },
  {
   "property": "C81",
   "status": "partial",
   "theorems": [
    "Verif.Props.C81_summary",
    "Verif.Props.C81_truthful_partial",
    "Verif.Props.C81_counted",
    "Verif.Props.C81_both",
    "Verif.Props.C81_semantic_partial",
    "Verif.Props.C81_stable",
    "Verif.Props.C81_readers_partial",
    "Verif.Props.C81_hinted_fails",
    "Verif.Props.C81_middle_fails",
    "Verif.Props.C81_any_sum_fails"
   ],
   "note": "The summary text is faithful, every name with several metrics is reported with the right count, texts are never empty and stable. Truth of the difference is proved without hints, and false with them (C81_hinted_fails); the message is about the first and last metric and may not mention the one registered (C81_middle_fails); a generic sum for a gauge is called undefined (C81_any_sum_fails); the combined counts need readers with different names (C40_same_name_fails)."
  },
  {
   "property": "C82",
   "status": "partial",
   "theorems": [
    "Verif.Props.C82_alone_partial",
    "Verif.Props.C82_each_partial",
    "Verif.Props.C82_mixed_fails"
   ],
   "note": "Every value reported is one the metric had during the run of the callback, each metric is reported exactly once, in order of time (C82_each_partial), and all are of one instant when no other run of the callback reads in between (C82_alone_partial). Overlapping collections report mixtures (C82_mixed_fails)."
  },
  {
   "property": "C83",
   "status": "partial",
   "theorems": [
    "Verif.Props.C83_not_before_partial",
    "Verif.Props.C83_interval_partial",
    "Verif.Props.C83_after_end_fails",
    "Verif.Props.C83_overlap_fails"
   ],
   "note": "The start of the interval is respected whenever a reader's collections do not overlap. The end is not: calls made between the clock reading and the snapshot are reported with the interval that ended before them (C83_after_end_fails); overlapping collections of a reader can report earlier calls (C83_overlap_fails), as the comment in producer.go says."
  },
  {
   "property": "C84",
   "status": "proved",
   "theorems": [
    "Verif.Props.C84_performance",
    "Verif.Props.C84_positive",
    "Verif.Props.C84_again",
    "Verif.Props.C84_periods_one",
    "Verif.Props.C84_periodic",
    "Verif.Props.C84_prometheus",
    "Verif.Props.C84_prometheus_construction"
   ],
   "note": "All settings, all option lists."
  },
  {
   "property": "C85",
   "status": "partial",
   "theorems": [
    "Verif.Props.C85_identity_partial",
    "Verif.Props.C85_attributes_fails",
    "Verif.Props.C85_empty_name_fails"
   ],
   "note": "Name, version and schema URL identify the meter. Attributes among the options are ignored (C85_attributes_fails), and the empty name is kept (C85_empty_name_fails)."
  },
  {
   "property": "C86",
   "status": "partial",
   "theorems": [
    "Verif.Props.C86_progress_partial",
    "Verif.Props.C86_return_partial",
    "Verif.Props.C86_collect_in_callback_fails",
    "Verif.Props.C86_error_handler_fails",
    "Verif.Props.C86_lock_around_flush_fails"
   ],
   "note": "Proved for all programs in which callbacks, exporters and processors do not themselves flush or shut down a periodic reader, the error handler does not use the SDK, and locks that callbacks take are not held around a flush. Each of these conditions is needed (C86_collect_in_callback_fails, C86_error_handler_fails, C86_lock_around_flush_fails). Callbacks, exporters that block for ever by themselves, and contexts, are outside."
  },
  {
   "property": "C87",
   "status": "partial",
   "theorems": [
    "Verif.Props.C87_no_race_partial",
    "Verif.Props.C87_unregister_fails",
    "Verif.Props.C87_error_text_fails",
    "Verif.Props.C87_truncation_fails",
    "Verif.Props.C87_overlapping_fails",
    "Verif.Props.C87_runtime_metrics_fails"
   ],
   "note": "Proved for all programs without: Unregister, formatting a returned error after the call, shared attribute lists that have to be truncated, overlapping collections of one ManualReader, the callback of the runtime metrics with several readers. Each of these races (the five theorems ending in _fails). A race is two conflicting accesses about to be made in a sequentially consistent execution (for programs without such, the Go memory model guarantees sequential consistency); what sync.Mutex, sync.Once and sync/atomic do is trusted."
  },
  {
   "property": "C88",
   "status": "partial",
   "theorems": [
    "Verif.Props.C88_gauge_last",
    "Verif.Props.C88_gauge_last_recorded",
    "Verif.Props.C88_gauge_sent_partial",
    "Verif.Props.C88_gauge_delta_last_fails"
   ],
   "note": "Cumulative gauges: full. Delta gauges: each point has the last value of its group and the groups are all values (`_partial`); that the last point has the last value of all is false of the code when another reader's snapshot is in progress and the view merges series (`C88_gauge_delta_last_fails`)."
  },
  {
   "property": "C89",
   "status": "proved",
   "theorems": [
    "Verif.Props.C89_metric",
    "Verif.Props.C89_sum_last",
    "Verif.Props.C89_sum_sent",
    "Verif.Props.C89_sum_total",
    "Verif.Props.C89_float_last",
    "Verif.Props.C89_float_sent",
    "Verif.Props.C89_gauge_last",
    "Verif.Props.C89_hist_last",
    "Verif.Props.C89_hist_sent",
    "Verif.Props.C89_mmsc_last",
    "Verif.Props.C89_known",
    "Verif.Props.C89_hist_known"
   ],
   "note": "Assumes what C72 assumes of float addition and the exponential histogram structure (external functions). The measurement processor and truncation are applied before attributes are compared (C18, C20)."
  },
  {
   "property": "C90",
   "status": "proved",
   "theorems": [
    "Verif.Props.C90_subtract",
    "Verif.Props.C90_payloads",
    "Verif.Props.C90_metric",
    "Verif.Props.C90_cumulative",
    "Verif.Props.C90_delta",
    "Verif.Props.C90_delta_float",
    "Verif.Props.C90_delta_total",
    "Verif.Props.C90_single",
    "Verif.Props.C90_programs"
   ],
   "note": "Float addition and subtraction are parameters. The payloads have the asynchronous metrics only (both kinds together: C92); callbacks wait for the observations they start (the orders excluded are C21's witness)."
  },
  {
   "property": "C91",
   "status": "proved",
   "theorems": [
    "Verif.Props.C91_metric",
    "Verif.Props.C91_sum_last",
    "Verif.Props.C91_sum_sent",
    "Verif.Props.C91_sum_total",
    "Verif.Props.C91_float_last",
    "Verif.Props.C91_float_sent",
    "Verif.Props.C91_gauge_last",
    "Verif.Props.C91_gauge_sent",
    "Verif.Props.C91_hist_last",
    "Verif.Props.C91_hist_sent",
    "Verif.Props.C91_mmsc_last",
    "Verif.Props.C91_mmsc_sent",
    "Verif.Props.C91_mmsc_int_last",
    "Verif.Props.C91_mmsc_int_sent",
    "Verif.Props.C91_known",
    "Verif.Props.C91_hist_known",
    "Verif.Props.C91_mmsc_known",
    "Verif.Props.C91_async_metric",
    "Verif.Props.C91_async_cumulative",
    "Verif.Props.C91_async_delta",
    "Verif.Props.C91_async_delta_float",
    "Verif.Props.C91_async_delta_total"
   ],
   "note": "Generalises C89 and C90 from names no clause concerns to any views. Hints are covered with and without clauses, as the code treats them: only the first clause which shows the instrument gets the hint (C31_second_clause_fails). Excluded: a hint on an instrument whose kind the reader drops by default. Of min/max/sum/count of integers sum and count are claimed; the minimum and maximum sent are wrong (C42). Float addition and subtraction are parameters. The last point of a delta gauge need not carry the last value (C88)."
  },
  {
   "property": "C92",
   "status": "proved",
   "theorems": [
    "Verif.Props.C92_payloads",
    "Verif.Props.C92_sync",
    "Verif.Props.C92_async",
    "Verif.Props.C92_alone",
    "Verif.Props.C92_metric",
    "Verif.Props.C92_sum_last",
    "Verif.Props.C92_sum_sent",
    "Verif.Props.C92_sum_total",
    "Verif.Props.C92_float_last",
    "Verif.Props.C92_float_sent",
    "Verif.Props.C92_gauge_last",
    "Verif.Props.C92_gauge_sent",
    "Verif.Props.C92_hist_last",
    "Verif.Props.C92_hist_sent",
    "Verif.Props.C92_mmsc_last",
    "Verif.Props.C92_mmsc_sent",
    "Verif.Props.C92_mmsc_int_last",
    "Verif.Props.C92_mmsc_int_sent",
    "Verif.Props.C92_known",
    "Verif.Props.C92_hist_known",
    "Verif.Props.C92_mmsc_known",
    "Verif.Props.C92_async_cumulative",
    "Verif.Props.C92_async_delta",
    "Verif.Props.C92_async_delta_float",
    "Verif.Props.C92_async_delta_total"
   ],
   "note": "Composes C89-C91. Callbacks wait for the observations they start (the orders excluded are C21's witness). Float addition and subtraction are parameters."
  },
  {
   "property": "C93",
   "status": "proved",
   "theorems": [
    "Verif.Props.C93_running",
    "Verif.Props.C93_ending",
    "Verif.Props.C93_before",
    "Verif.Props.C93_payloads",
    "Verif.Props.C93_metric",
    "Verif.Props.C93_sum_last",
    "Verif.Props.C93_sum_sent",
    "Verif.Props.C93_sum_total",
    "Verif.Props.C93_float_last",
    "Verif.Props.C93_float_sent",
    "Verif.Props.C93_gauge_last",
    "Verif.Props.C93_gauge_sent",
    "Verif.Props.C93_hist_last",
    "Verif.Props.C93_hist_sent",
    "Verif.Props.C93_mmsc_last",
    "Verif.Props.C93_mmsc_sent",
    "Verif.Props.C93_mmsc_int_last",
    "Verif.Props.C93_mmsc_int_sent",
    "Verif.Props.C93_known",
    "Verif.Props.C93_hist_known",
    "Verif.Props.C93_mmsc_known",
    "Verif.Props.C93_async_cumulative",
    "Verif.Props.C93_async_delta",
    "Verif.Props.C93_async_delta_float",
    "Verif.Props.C93_async_delta_total"
   ],
   "note": "Meters and output metrics created during a collection are treated as if created before it ended: the payload then has a further scope without metrics. Callbacks wait for the observations they start (the orders excluded are C21's witness). Calls for instruments are atomic (they hold the meter's lock)."
  },
  {
   "property": "C94",
   "status": "proved",
   "theorems": [
    "Verif.Props.C94_exportable",
    "Verif.Props.C94_resource",
    "Verif.Props.C94_metric",
    "Verif.Props.C94_sum_last",
    "Verif.Props.C94_sum_sent",
    "Verif.Props.C94_sum_total",
    "Verif.Props.C94_float_last",
    "Verif.Props.C94_float_sent",
    "Verif.Props.C94_gauge_last",
    "Verif.Props.C94_gauge_sent",
    "Verif.Props.C94_hist_last",
    "Verif.Props.C94_hist_sent",
    "Verif.Props.C94_known",
    "Verif.Props.C94_hist_known",
    "Verif.Props.C94_async_cumulative",
    "Verif.Props.C94_async_delta",
    "Verif.Props.C94_async_delta_float",
    "Verif.Props.C94_async_delta_total"
   ],
   "note": "Composition of C48-C50, C56, C66, C84 and C93. Instruments whose description has a hint are the subject of C95, and a name has to be used with one constructor and unit (see C25, C78 for what happens otherwise). The measurement processor is arbitrary, although the launcher sets none. The exporter's connection is not modelled: payloads are those given to the exporter."
  },
  {
   "property": "C95",
   "status": "proved",
   "theorems": [
    "Verif.Props.C95_metric",
    "Verif.Props.C95_sum_last",
    "Verif.Props.C95_sum_sent",
    "Verif.Props.C95_sum_total",
    "Verif.Props.C95_float_last",
    "Verif.Props.C95_float_sent",
    "Verif.Props.C95_gauge_last",
    "Verif.Props.C95_gauge_sent",
    "Verif.Props.C95_hist_last",
    "Verif.Props.C95_hist_sent",
    "Verif.Props.C95_mmsc_last",
    "Verif.Props.C95_mmsc_sent",
    "Verif.Props.C95_mmsc_int_last",
    "Verif.Props.C95_mmsc_int_sent",
    "Verif.Props.C95_known",
    "Verif.Props.C95_hist_known",
    "Verif.Props.C95_mmsc_known",
    "Verif.Props.C95_async_cumulative",
    "Verif.Props.C95_async_delta",
    "Verif.Props.C95_async_delta_float",
    "Verif.Props.C95_async_delta_total"
   ],
   "note": "As C94, for instruments whose requests carry one hint. Excluded: hints whose aggregation cannot be implemented by the instrument, where the hint is refused (C31), and names used with several hints. Of statistics of integers only sum and count are claimed, because minimum and maximum are sent wrongly (C42). Parsing of the JSON text is a parameter."
  },
  {
   "property": "C96",
   "status": "proved",
   "theorems": [
    "Verif.Props.C96_attrs",
    "Verif.Props.C96_recorded",
    "Verif.Props.C96_recorded_end",
    "Verif.Props.C96_set",
    "Verif.Props.C96_observed",
    "Verif.Props.C96_observed_order",
    "Verif.Props.C96_hinted_observed",
    "Verif.Props.C96_hinted_observed_order",
    "Verif.Props.C96_async_cumulative",
    "Verif.Props.C96_async_delta",
    "Verif.Props.C96_async_delta_float",
    "Verif.Props.C96_async_delta_total",
    "Verif.Props.C96_hinted_async_cumulative",
    "Verif.Props.C96_hinted_async_delta",
    "Verif.Props.C96_hinted_async_delta_float",
    "Verif.Props.C96_hinted_async_delta_total"
   ],
   "note": "Ties the values recorded and observed of C94 and C95 to the calls and observations of the program. For observations: callbacks return after the observations they started (`Waits`; otherwise a late observation may be rejected or counted, C20), and all have returned at the end (`Finished`). For values sent, observations of instruments with the same name do not overlap (`InTurn`); otherwise which one is last is not determined by the program."
  },
  {
   "property": "C97",
   "status": "proved",
   "theorems": [
    "Verif.Props.C97_program",
    "Verif.Props.C97_reader",
    "Verif.Props.C97_ends",
    "Verif.Props.C97_silent",
    "Verif.Props.C97_sum_last",
    "Verif.Props.C97_sum_sent",
    "Verif.Props.C97_sum_total",
    "Verif.Props.C97_float_last",
    "Verif.Props.C97_float_sent",
    "Verif.Props.C97_gauge_last",
    "Verif.Props.C97_gauge_sent",
    "Verif.Props.C97_hist_last",
    "Verif.Props.C97_hist_sent",
    "Verif.Props.C97_known",
    "Verif.Props.C97_hist_known",
    "Verif.Props.C97_hinted_sum_last",
    "Verif.Props.C97_hinted_sum_sent",
    "Verif.Props.C97_hinted_sum_total",
    "Verif.Props.C97_hinted_float_last",
    "Verif.Props.C97_hinted_float_sent",
    "Verif.Props.C97_hinted_gauge_last",
    "Verif.Props.C97_hinted_gauge_sent",
    "Verif.Props.C97_hinted_hist_last",
    "Verif.Props.C97_hinted_hist_sent",
    "Verif.Props.C97_hinted_mmsc_last",
    "Verif.Props.C97_hinted_mmsc_sent",
    "Verif.Props.C97_hinted_mmsc_int_last",
    "Verif.Props.C97_hinted_mmsc_int_sent",
    "Verif.Props.C97_hinted_known",
    "Verif.Props.C97_hinted_hist_known",
    "Verif.Props.C97_hinted_mmsc_known"
   ],
   "note": "\"Sent\" means handed to the exporter's method with a payload; what the exporter does with it is outside (Shutdown cancels the context of a tick's export in progress, so an exporter may drop that payload). Floating-point sums are stated as for C94, by an order of the recorded values. Callbacks return before the collection which started them ends (`Orderly`); the calls made before have returned (`Closing`). The calls made after ForceFlush or Shutdown was called are excluded (`after` contains no calls on synchronous instruments and no requests for meters or instruments); with such calls the claim about totals would count more than was recorded before. That nothing at all is exported after Shutdown is false (C37)."
  },
  {
   "property": "C98",
   "status": "partial",
   "theorems": [
    "Verif.Props.C98_no_spin",
    "Verif.Props.C98_returns_partial",
    "Verif.Props.C98_goes_on_partial",
    "Verif.Props.C98_ends",
    "Verif.Props.C98_way_partial",
    "Verif.Props.C98_launched_partial",
    "Verif.Props.C98_keeps",
    "Verif.Props.C98_refused_fails"
   ],
   "note": "Partial because the claim is false when a request was answered without an instrument (every reader drops it, C32): then no ForceFlush or Shutdown called later returns (`C98_refused_fails`; in the code the collection panics). Otherwise all of it is proved, and for the launcher it is enough that no synchronous instrument has a hint which says \"drop\". \"Nothing new begins\": no call is made, no callback starts, no tick fires; the exporter's methods and the user's callbacks return. Steps of calls, collections and observations never are without effect (`C98_no_spin`). While new calls and collections keep coming see C99: calls take a bounded number of steps, but the schedule may let others take the locks each time. One simplification matters here: a `SnapshotAndProcess` which meets a record whose first call has not yet initialised it does so itself, where in the code it waits within `sync.Once` for the other call; this call is a goroutine which can go on."
  },
  {
   "property": "C99",
   "status": "proved",
   "theorems": [
    "Verif.Props.C99_bounded",
    "Verif.Props.C99_launched",
    "Verif.Props.C99_waits",
    "Verif.Props.C99_alone"
   ],
   "note": "A step is a part of the call between points where others can come in; locks which are taken and given back within a step (the mutex of an aggregator, the read lock while looking up) are part of it, so a call may also wait for such a step of another goroutine. `sync.Once` in `initialize` is represented by letting any call which needs the accumulators make the next one; in the code it waits until the first call has made them, which is one of the steps counted. The loop in `acquireNotfoundKV` is in the model; that it never goes round again is a consequence of records being removed from the table under the write lock only."
  },
  {
   "property": "C100",
   "status": "partial",
   "theorems": [
    "Verif.Props.C100_calls",
    "Verif.Props.C100_tasks",
    "Verif.Props.C100_observations",
    "Verif.Props.C100_requests_partial",
    "Verif.Props.C100_loop_partial",
    "Verif.Props.C100_collections_partial",
    "Verif.Props.C100_tick_partial",
    "Verif.Props.C100_exports_partial",
    "Verif.Props.C100_launched_partial",
    "Verif.Props.C100_exists_partial",
    "Verif.Props.C100_refused_fails"
   ],
   "note": "Partial because of the nil instruments of C32 only: `C100_refused_fails`. Calls, observations and tasks need no such hypothesis. Fairness is strong fairness for each goroutine (who can go on again and again, goes on), which is what Go's mutexes provide by handing over to a waiter after a millisecond, and fairness of the select of the loop: with a ticker faster than collections both branches may be ready each time. `C100_exists_partial`: whatever is to come, there is a fair execution in which it comes. Requests for instruments while this goes on are left out."
  },
  {
   "property": "C101",
   "status": "partial",
   "theorems": [
    "Verif.Props.C101_program",
    "Verif.Props.C101_payloads",
    "Verif.Props.C101_before",
    "Verif.Props.C101_panics",
    "Verif.Props.C101_goes_partial",
    "Verif.Props.C101_wide_fails",
    "Verif.Props.C101_numbers",
    "Verif.Props.C101_stats",
    "Verif.Props.C101_hists",
    "Verif.Props.C101_negative_fails",
    "Verif.Props.C101_sum_last",
    "Verif.Props.C101_sum_sent",
    "Verif.Props.C101_float_last",
    "Verif.Props.C101_known",
    "Verif.Props.C101_hist_last",
    "Verif.Props.C101_mmsc_last"
   ],
   "note": "Partial because exporting a histogram which has a positive value and whose scale is not positive panics (`C101_wide_fails`, C41), and negative values are in no bucket (`C101_negative_fails`). `C101_panics` says exactly when a program panics, `C101_goes_partial` that otherwise it goes on. `C101_numbers`, `C101_stats` and `C101_hists` compare with what an OTLP exporter is handed, so that what C93 to C97 say about this, also about observable instruments and gauges, holds for the Prometheus exporter; the end-to-end theorems for synchronous sums, histograms and min/max/sum/count are written out. The Prometheus exporter of the OpenTelemetry collector itself is external."
  },
  {
   "property": "C102",
   "status": "proved",
   "theorems": [
    "Verif.Props.C102_program",
    "Verif.Props.C102_payloads",
    "Verif.Props.C102_served",
    "Verif.Props.C102_closing",
    "Verif.Props.C102_sum_last",
    "Verif.Props.C102_sum_sent",
    "Verif.Props.C102_float_last",
    "Verif.Props.C102_float_sent",
    "Verif.Props.C102_gauge_last",
    "Verif.Props.C102_gauge_sent",
    "Verif.Props.C102_hist_last",
    "Verif.Props.C102_hist_sent",
    "Verif.Props.C102_mmsc_last",
    "Verif.Props.C102_known",
    "Verif.Props.C102_hist_known",
    "Verif.Props.C102_agree",
    "Verif.Props.C102_silent",
    "Verif.Props.C102_async_cumulative",
    "Verif.Props.C102_async_delta",
    "Verif.Props.C102_async_delta_float",
    "Verif.Props.C102_async_delta_total"
   ],
   "note": "As for C97, no synchronous instrument is called between the calls on it having returned and the return of ForceFlush or Shutdown, and fewer attribute sets than the limit are used (`FewVia`, `FewSets`). The results of the exporters are not represented: the provider calls all readers also if some fail (C37). Silence excludes later calls of ForceFlush of the provider and of the readers themselves, which do export (`C37_flush_after_fails`)."
  },
  {
   "property": "C103",
   "status": "partial",
   "theorems": [
    "Verif.Props.C103_calls",
    "Verif.Props.C103_tasks",
    "Verif.Props.C103_observations",
    "Verif.Props.C103_requests_partial",
    "Verif.Props.C103_provider_partial",
    "Verif.Props.C103_loop_partial",
    "Verif.Props.C103_collections_partial",
    "Verif.Props.C103_tick_partial",
    "Verif.Props.C103_exports_partial",
    "Verif.Props.C103_closing_partial",
    "Verif.Props.C103_delivered_partial",
    "Verif.Props.C103_exists_partial",
    "Verif.Props.C103_refused_fails"
   ],
   "note": "Requests, collections, loops and the provider are partial as C98 and C100 are: a request for an instrument that is answered without one (C32) makes every later collection panic (`C103_refused_fails`). What fairness means is `Multi.Fair`, as for C100 with each call on the provider in addition: mutexes and channels are fair to whoever waits again and again, select chooses the cancelled context some time, callbacks return, exporters return. The order in which several goroutines get a mutex is any fair one. `C103_exists_partial` shows that every program goes on in a fair execution."
  },
  {
   "property": "C104",
   "status": "proved",
   "theorems": [
    "Verif.Props.C104_metric",
    "Verif.Props.C104_sent",
    "Verif.Props.C104_delta"
   ],
   "note": "`Offers` states what is assumed of the Go release: names are distinct, without braces, of at most 8192 bytes, there are fewer than 2000, and runtime metrics that are reported under one name have the same unit and number type (else they make conflicting instruments, C05). The kind of instrument being the same is proved. For float sums the value is the value added to zero. The delta theorem assumes that what is observed after the last collection does not have the attributes reserved for overflow."
  },
  {
   "property": "C105",
   "status": "proved",
   "theorems": [
    "Verif.Props.C105_host_metric",
    "Verif.Props.C105_process_metric",
    "Verif.Props.C105_host_sent",
    "Verif.Props.C105_host_delta",
    "Verif.Props.C105_process_sent",
    "Verif.Props.C105_process_delta",
    "Verif.Props.C105_host_gives",
    "Verif.Props.C105_host_silent",
    "Verif.Props.C105_process_gives"
   ],
   "note": "Floating-point addition and division, and the answers of the operating system, are inputs. `C105_host_gives` and `C105_process_gives` say which values these are. For float sums the value is the value added to zero. The delta theorems assume that what is observed after the last collection does not have the attributes reserved for overflow. Observable counters accept negative numbers, so that byte counts of 2^63 and more arrive as negative ones (C70)."
  },
  {
   "property": "C106",
   "status": "proved",
   "theorems": [
    "Verif.Props.C106_sum_last",
    "Verif.Props.C106_sum_sent",
    "Verif.Props.C106_int_sent",
    "Verif.Props.C106_sum_total",
    "Verif.Props.C106_float_last",
    "Verif.Props.C106_float_sent",
    "Verif.Props.C106_hist_last",
    "Verif.Props.C106_hist_sent",
    "Verif.Props.C106_known",
    "Verif.Props.C106_hist_known",
    "Verif.Props.C106_gauge_newest",
    "Verif.Props.C106_gauge_sent_newest"
   ],
   "note": "Sums of integers, sums of floats and histograms, each with cumulative and delta temporality; gauges are covered only by `C106_known`. Fewer than 2^32 calls are made, and the theorems about one attribute set assume that the number of attribute sets stays within the limits (`Few`); `C106_sum_total` does not. No meter or instrument is asked for during the call. Sending is the call of the exporter; what it does with the payload is not part of this property."
  },
  {
   "property": "C107",
   "status": "partial",
   "theorems": [
    "Verif.Props.C107_gauge_newest",
    "Verif.Props.C107_gauge_sent_partial",
    "Verif.Props.C107_sum_last",
    "Verif.Props.C107_float_last",
    "Verif.Props.C107_hist_last",
    "Verif.Props.C107_gauge_last",
    "Verif.Props.C107_sum_all",
    "Verif.Props.C107_float_all",
    "Verif.Props.C107_hist_all",
    "Verif.Props.C107_int_sent_partial",
    "Verif.Props.C107_float_sent_partial",
    "Verif.Props.C107_hist_sent_partial",
    "Verif.Props.C107_delta_fails",
    "Verif.Props.C107_hinted_sum_last",
    "Verif.Props.C107_hinted_float_last",
    "Verif.Props.C107_hinted_hist_last",
    "Verif.Props.C107_hinted_mmsc_last",
    "Verif.Props.C107_hinted_mmsc_int_last",
    "Verif.Props.C107_hinted_gauge_newest",
    "Verif.Props.C107_hinted_sum_all",
    "Verif.Props.C107_hinted_float_all",
    "Verif.Props.C107_hinted_hist_all",
    "Verif.Props.C107_hinted_mmsc_all",
    "Verif.Props.C107_hinted_mmsc_int_all",
    "Verif.Props.C107_hinted_gauge_all",
    "Verif.Props.C107_hinted_int_sent_partial",
    "Verif.Props.C107_hinted_float_sent_partial",
    "Verif.Props.C107_hinted_hist_sent_partial",
    "Verif.Props.C107_hinted_mmsc_sent_partial",
    "Verif.Props.C107_hinted_mmsc_int_sent_partial",
    "Verif.Props.C107_hinted_gauge_sent_partial",
    "Verif.Props.C107_hinted_gauge_sent_newest_partial"
   ],
   "note": "Which exports succeed is any function of the number of the payload; the reader does nothing with the error of the exporter but return or report it, so this covers every behaviour of the exporter. With delta temporality values of a failed export are lost (`C107_delta_fails`); the `_partial` theorems say that every point which arrives shows a group of recorded values and the groups do not overlap. The assumptions on the number of attribute sets and calls are those of C106. The `C107_hinted_*` theorems say the same of instruments with hints, with the limits and temporalities these ask for; there the gauge theorem speaks of calls still running too."
  },
  {
   "property": "C108",
   "status": "partial",
   "theorems": [
    "Verif.Props.C108_destination",
    "Verif.Props.C108_resource",
    "Verif.Props.C108_same_resource",
    "Verif.Props.C108_spans",
    "Verif.Props.C108_scopes_partial",
    "Verif.Props.C108_balance",
    "Verif.Props.C108_version_fails"
   ],
   "note": "The OpenTelemetry trace SDK is external: it gives spans the resource of the provider, replaces empty tracer names, and calls the exporter with batches one at a time. Attribute values have a type (see C44). Two tracers with one name but different versions or schema URLs whose spans are neighbours are merged (`C108_version_fails`), so the part about scopes is partial."
  },
  {
   "property": "C109",
   "status": "proved",
   "theorems": [
    "Verif.Props.C109_records",
    "Verif.Props.C109_series",
    "Verif.Props.C109_quiet",
    "Verif.Props.C109_reset",
    "Verif.Props.C109_program",
    "Verif.Props.C109_room",
    "Verif.Props.C109_cumulative",
    "Verif.Props.C109_fewer_kept"
   ],
   "note": "Memory is what the maps of instruments and views hold; what the Go runtime does with unreachable objects is not modelled. The bound for series is for collector tasks in any order; when a view is collected after its instruments, as the readers do, the series go at the same collection as the records (see the example). `C109_reset` assumes that a cleared external histogram has count 0."
  },
  {
   "property": "C110",
   "status": "proved",
   "theorems": [
    "Verif.Props.C110_delta",
    "Verif.Props.C110_cumulative",
    "Verif.Props.C110_delta_exact",
    "Verif.Props.C110_cumulative_exact",
    "Verif.Props.C110_known",
    "Verif.Props.C110_settled"
   ],
   "note": "Modelled for the metrics exporter. The counter is created through the provider before the first export is answered; the forwarding of the global placeholder provider before that belongs to go.opentelemetry.io/otel and is not modelled. Points count modulo 2^64; payloads have fewer than 2^63 points. `Reports.returned` (no call on the counter is under way when the flush is called) holds whenever no export is under way: `C110_settled`."
  },
  {
   "property": "C111",
   "status": "proved",
   "theorems": [
    "Verif.Props.C111_delta",
    "Verif.Props.C111_cumulative",
    "Verif.Props.C111_delta_exact",
    "Verif.Props.C111_cumulative_exact",
    "Verif.Props.C111_known",
    "Verif.Props.C111_batches"
   ],
   "note": "As for C110, the counter is that of the installed provider from the beginning (forwarding by the global placeholder is external). Which spans end and how they are batched is any sequence of batches, exported one after the other, as the SDK's batch span processor does. Payloads have fewer than 2^63 spans. The resource and contents of the batches are C108."
  },
  {
   "property": "C112",
   "status": "partial",
   "theorems": [
    "Verif.Props.C112_sum_last",
    "Verif.Props.C112_sum_sent",
    "Verif.Props.C112_int_sent",
    "Verif.Props.C112_sum_total",
    "Verif.Props.C112_float_last",
    "Verif.Props.C112_float_sent",
    "Verif.Props.C112_gauge_last_partial",
    "Verif.Props.C112_gauge_newest",
    "Verif.Props.C112_gauge_sent",
    "Verif.Props.C112_gauge_sent_newest",
    "Verif.Props.C112_hist_last",
    "Verif.Props.C112_hist_sent",
    "Verif.Props.C112_mmsc_last",
    "Verif.Props.C112_mmsc_sent",
    "Verif.Props.C112_mmsc_int_last",
    "Verif.Props.C112_mmsc_int_sent",
    "Verif.Props.C112_known",
    "Verif.Props.C112_hist_known",
    "Verif.Props.C112_mmsc_known",
    "Verif.Props.C112_gauge_unset_fails"
   ],
   "note": "Partial because of gauges: with cumulative temporality a point can carry the value 0 that nobody recorded, when a flush falls into the first recording with its attributes (`C112_gauge_unset_fails`). If a recording with the attributes had returned before, the last point carries a recorded value (`C112_gauge_last_partial`); with delta temporality every point does (`C112_gauge_sent`). If calls do not overlap, it is the value of the newest call which had returned, or of one made meanwhile (`C112_gauge_newest`; per point with delta temporality `C112_gauge_sent_newest`). For min/max/sum/count of integers the sum and the count are told (see C42 for minimum and maximum)."
  }
 ]
}