{"id": "C01", "title": "Exactly-once accounting of synchronous measurements", "statement": "Every in-range measurement recorded through a synchronous instrument is contributed exactly once to every reader's view output it applies to: at every moment the multiset of measurements applied to an output metric equals the measurements already reported in its delta points plus those still held in SDK memory that a later collection will drain; none is lost, duplicated or invented.", "quantifier": "all interleavings of any number of concurrent Observe calls, concurrent collections by any number of readers, any attribute lists, any number of views, any record recycling history", "why_tests_cant": "A race that drops one update needs a particular interleaving of ref/update/count/collect/unmap steps; stress tests sample a vanishing fraction of schedules.", "anchors": ["lightstep/sdk/metric/internal/syncstate/sync.go: Observe, SnapshotAndProcess, collect, conditionalCollect", "lightstep/sdk/metric/internal/syncstate/bykeyvalue.go: acquireUninitializedKV, acquireWriteKV", "lightstep/sdk/metric/internal/viewstate/accumulators.go: syncAccumulator", "lightstep/sdk/metric/internal/viewstate/collectors.go: lowmemorySyncInstrument.Collect"]}
{"id": "C02", "title": "A completed measurement is visible to the next collection", "statement": "If a measurement call returned before a reader starts a collection, then by the end of that collection the measurement has been included in that reader's reported data (or in an earlier report), provided fewer than 2^32 measurements hit the same attribute list since its previous snapshot.", "quantifier": "all schedules, all readers, all histories; every number of concurrent in-flight calls", "why_tests_cant": "Concerns every ordering of the update, the change counter and the collector's reads, including counter wrap-around after 2^32 updates, which no test can reach.", "anchors": ["lightstep/sdk/metric/internal/syncstate/sync.go: conditionalCollect, collect, Observe"]}
{"id": "C03", "title": "Measurements are never attributed to a different attribute set", "statement": "With collision safety on (IgnoreCollisions=false) a measurement made with attribute list A is only ever accumulated into the series of A (after truncation, de-duplication and view key filtering) or into the designated overflow series, whatever 64-bit fingerprints collide.", "quantifier": "all attribute lists, all fingerprint functions (including adversarial collisions), all schedules", "why_tests_cant": "Tests can forge only a handful of collisions; the property must hold for every possible collision pattern.", "anchors": ["lightstep/sdk/metric/internal/syncstate/bykeyvalue.go: acquireReadLockedKV, acquireWriteKV, attributesEqual", "lightstep/sdk/metric/internal/viewstate/accumulators.go: NewAccumulator, findStorage"]}
{"id": "C04", "title": "Recycled records are never written", "statement": "A per-attribute record is removed from memory only when no measurement call is using it, no measurement is ever applied to a record after its final snapshot, and a call that finds a record in the table always succeeds in pinning it (so the retry loop never spins).", "quantifier": "all interleavings of measurement calls and collections", "why_tests_cant": "The bug would be a use-after-release race visible only in specific interleavings of three atomic operations.", "anchors": ["lightstep/sdk/metric/internal/syncstate/refcount_mapped.go: ref, unref, tryUnmap", "lightstep/sdk/metric/internal/syncstate/sync.go: collect, SnapshotAndProcess", "lightstep/sdk/metric/internal/syncstate/bykeyvalue.go: acquireNotfoundKV, acquireWriteKV"]}
{"id": "C05", "title": "Idle records are kept for exactly the configured number of periods, then freed", "statement": "With InactiveCollectionPeriods = N, a record with no updates survives the first N-1 consecutive idle collections and is removed (with a final drain) at the N-th one when unused; if it is in use at that moment it is kept and the idle count restarts; any update restarts the count.", "quantifier": "all N >= 1, all histories of updates and collections", "why_tests_cant": "Boundary behaviour for every N and every pattern of activity.", "anchors": ["lightstep/sdk/metric/internal/syncstate/sync.go: collect, normalCollect, scavengeCollect"]}
{"id": "C06", "title": "Integer delta sums add up to the total", "statement": "For an int64 sum with delta temporality the sum (mod 2^64) of all values reported for an output metric plus what is still pending equals the sum of all values recorded, for any schedule, including points suppressed because their value is zero.", "quantifier": "all schedules, all int64 values, all ways measurements are split over attribute sets and merged by views", "why_tests_cant": "Requires reasoning over every grouping and order of merges, and 2^64 wrap-around.", "anchors": ["lightstep/sdk/metric/aggregator/sum/sum.go: Methods", "lightstep/sdk/metric/internal/viewstate/accumulators.go: syncAccumulator.SnapshotAndProcess", "lightstep/sdk/metric/internal/viewstate/collectors.go: appendPoint, lowmemorySyncInstrument.Collect"]}
{"id": "C07", "title": "Cumulative sums equal everything accounted so far and never lose history", "statement": "For a synchronous instrument with cumulative temporality every collection reports for each series the aggregate of all measurements drained so far for that series since start; series are never removed; for non-negative inputs without overflow successive reported values never decrease.", "quantifier": "all histories of updates and collections", "why_tests_cant": "A statement about unbounded histories.", "anchors": ["lightstep/sdk/metric/internal/viewstate/collectors.go: statefulSyncInstrument.Collect", "lightstep/sdk/metric/internal/viewstate/accumulators.go: syncAccumulator"]}
{"id": "C08", "title": "Readers do not disturb each other", "statement": "What one reader reports does not depend on how often other readers collect: after draining, each reader has received every measurement exactly once in its own output, whatever the other readers did.", "quantifier": "all schedules and any number of readers with any temporality", "why_tests_cant": "Depends on all relative orders of collections by different readers.", "anchors": ["lightstep/sdk/metric/internal/syncstate/sync.go: SnapshotAndProcess", "lightstep/sdk/metric/internal/viewstate/accumulators.go: multiAccumulator", "lightstep/sdk/metric/internal/viewstate/viewstate.go: multiInstrument"]}
{"id": "C09", "title": "Out-of-range measurements have no effect", "statement": "A NaN or infinite value on any instrument, and a negative value on a synchronous Counter or Histogram, changes no instrument state; every other value is accepted.", "quantifier": "all 64-bit float patterns, all int64 values, all instrument kinds", "why_tests_cant": "2^64 bit patterns for each of seven kinds.", "anchors": ["lightstep/sdk/metric/aggregator/aggregator.go: RangeTest", "lightstep/sdk/metric/internal/syncstate/sync.go: Observe", "lightstep/sdk/metric/internal/asyncstate/async.go: Observe"]}
{"id": "C10", "title": "Instrument cardinality limit", "statement": "The number of per-attribute records an instrument holds in memory never exceeds InstrumentCardinalityLimit; once the limit is reached further new attribute lists are counted in the overflow series rather than dropped.", "quantifier": "all sequences (and schedules) of measurements and collections, all attribute lists, all limits", "why_tests_cant": "Must hold for all histories and all attribute lists, including adversarial and permuted lists and concurrent inserts.", "anchors": ["lightstep/sdk/metric/internal/syncstate/bykeyvalue.go: acquireReadLockedKV", "lightstep/sdk/metric/sdkinstrument/performance.go: InstrumentCardinalityLimit"]}
{"id": "C11", "title": "Aggregator cardinality limit", "statement": "The number of series an output metric holds never exceeds its cardinality limit; when full, new attribute sets are folded into the overflow series, existing series keep their identity, and no measurement is dropped by overflow.", "quantifier": "all histories of insertions and deletions and all limits >= 1", "why_tests_cant": "Unbounded histories of inserts, deletions and limits.", "anchors": ["lightstep/sdk/metric/internal/viewstate/base_instrument.go: getOrCreateEntry", "lightstep/sdk/metric/internal/viewstate/collectors.go: Collect", "lightstep/sdk/metric/internal/pipeline/overflow.go"]}
{"id": "C12", "title": "Removing a quiet delta series never strands data", "statement": "A delta-temporality output forgets a series only when nothing refers to it and it holds no data; data is never merged into a forgotten series.", "quantifier": "all interleavings of collection with final drains of records feeding the same series", "why_tests_cant": "Race between two counters and a map deletion.", "anchors": ["lightstep/sdk/metric/internal/viewstate/collectors.go: lowmemorySyncInstrument.Collect", "lightstep/sdk/metric/internal/viewstate/accumulators.go: findStorage, SnapshotAndProcess"]}
{"id": "C13", "title": "MinMaxSumCount is exact however data is split", "statement": "The exported min, max, sum and count are those of exactly the recorded values, regardless of how values are partitioned over accumulators, snapshots and merges and in what order; an empty state reports count zero.", "quantifier": "all finite multisets of values and all merge trees", "why_tests_cant": "All merge trees over all multisets.", "anchors": ["lightstep/sdk/metric/aggregator/minmaxsumcount/minmaxsumcount.go: Methods"]}
{"id": "C14", "title": "Gauges report the last recorded value", "statement": "A gauge point always carries a value that was actually recorded for that series, and with sequential recording it is the most recently recorded one, through any sequence of snapshots, merges of several attribute sets into one series, and collections.", "quantifier": "all histories of updates, snapshots, merges and collections", "why_tests_cant": "Ordering by a global sequence number across records; all histories.", "anchors": ["lightstep/sdk/metric/aggregator/gauge/gauge.go: Methods, sequenceVar", "lightstep/sdk/metric/internal/viewstate/collectors.go: statefulSyncInstrument.Collect, lowmemorySyncInstrument.Collect"]}
{"id": "C15", "title": "Concurrent float additions are each applied exactly once", "statement": "Concurrent atomic float additions behave as some sequential order of the same additions: when all calls have returned the value is the initial value with each addend added once, in one total order.", "quantifier": "all interleavings of any number of compare-and-swap loops, any floating-point addition", "why_tests_cant": "All interleavings including ABA situations.", "anchors": ["lightstep/sdk/metric/number/traits.go: Float64Traits.AddAtomic"]}
{"id": "C16", "title": "Number encoding is lossless and converts to the right float", "statement": "Encoding an int64 or float64 as a Number and decoding with the same kind returns the same value, and CoerceToFloat64 yields the float value of the encoded number for both kinds.", "quantifier": "all 64-bit values of both kinds", "why_tests_cant": "2^64 values; the failing inputs (negative integers) are not exercised by tests.", "anchors": ["lightstep/sdk/metric/number/number.go: Number, CoerceToFloat64", "lightstep/sdk/metric/number/traits.go"]}
{"id": "C17", "title": "Attribute identity: fingerprints and equality", "statement": "Attribute fingerprints do not depend on attribute order; two attribute lists are considered the same record exactly when they are the same list of keys, types and values; equal lists always find the same record.", "quantifier": "all attribute lists of all value types", "why_tests_cant": "All lists, all types, NaN payloads and permutations.", "anchors": ["lightstep/sdk/metric/internal/syncstate/bykeyvalue.go: fingerprintAttributes, attributesEqual, sliceEqual", "lightstep/sdk/metric/internal/fprint/fprint.go"]}
{"id": "C18", "title": "Attribute truncation", "statement": "With size limit L every key and string value used for a metric is at most L bytes and is a prefix of what the caller gave; short attributes are unchanged; non-string values and the number and order of attributes are unchanged; truncation is idempotent; limit 0 is replaced by the default.", "quantifier": "all attribute lists and limits", "why_tests_cant": "All strings and limits.", "anchors": ["lightstep/sdk/metric/sdkinstrument/performance.go: TruncateAttributes, Validate"]}
{"id": "C19", "title": "Attribute key filters", "statement": "A view with an attribute key filter reports exactly the caller's attributes whose keys are listed; attributes with empty keys are never reported; sets that become equal after filtering share one series.", "quantifier": "all attribute sets and key lists", "why_tests_cant": "All attribute sets and key lists.", "anchors": ["lightstep/sdk/metric/internal/viewstate/base_instrument.go: applyKeysFilter, isValidAttribute", "lightstep/sdk/metric/internal/viewstate/viewstate.go: keyFilter, keysToFilter, keysToSet"]}
{"id": "C20", "title": "Asynchronous observations: last value wins per collection", "statement": "Within one collection, for one instrument and one attribute set only the last in-range observation made by permitted callbacks counts; different attribute sets that a view filter maps together add up (for sums).", "quantifier": "all sequences of observations by any callbacks", "why_tests_cant": "All observation sequences and filters.", "anchors": ["lightstep/sdk/metric/internal/asyncstate/async.go: Observe, getOrCreate, SnapshotAndProcess", "lightstep/sdk/metric/internal/viewstate/accumulators.go: asyncAccumulator"]}
{"id": "C21", "title": "Callbacks can only observe their own instruments while running", "statement": "An observation made through a callback's observer after the callback has returned, or for an instrument it did not declare, has no effect on any reported data.", "quantifier": "all callbacks and observation sequences, including goroutines leaked by the callback", "why_tests_cant": "All leaked-observer histories.", "anchors": ["lightstep/sdk/metric/internal/asyncstate/callback.go: Run, invalidate", "lightstep/sdk/metric/internal/asyncstate/async.go: Observe"]}
{"id": "C22", "title": "Asynchronous delta conversion telescopes", "statement": "For an asynchronous counter with delta temporality the reported deltas of a series sum to its last observed cumulative value.", "quantifier": "all histories of observed cumulative values per series over any number of collections, including collections in which the series is not observed", "why_tests_cant": "All histories, including gaps.", "anchors": ["lightstep/sdk/metric/internal/viewstate/collectors.go: statefulAsyncInstrument.Collect", "lightstep/sdk/metric/aggregator/sum/sum.go: SubtractSwap"]}
{"id": "C23", "title": "Asynchronous delta conversion of the overflow series", "statement": "When an asynchronous delta metric overflows, the deltas reported for the overflow series sum to the (last observed) cumulative total of the series folded into it.", "quantifier": "all histories in which series overflow", "why_tests_cant": "All histories with overflow over several collections.", "anchors": ["lightstep/sdk/metric/internal/viewstate/collectors.go: statefulAsyncInstrument.Collect", "lightstep/sdk/metric/internal/viewstate/base_instrument.go: getOrCreateEntry"]}
{"id": "C24", "title": "Asynchronous cumulative output contains only what was just observed", "statement": "For an asynchronous instrument with cumulative temporality each collection reports exactly the series observed in that collection with exactly the observed values; nothing from earlier collections leaks.", "quantifier": "all histories of collections", "why_tests_cant": "Histories of unbounded length.", "anchors": ["lightstep/sdk/metric/internal/viewstate/collectors.go: lowmemoryAsyncInstrument.Collect"]}
{"id": "C25", "title": "Registered callbacks run exactly once per collection", "statement": "A callback registered before a collection begins and not unregistered until it ends runs exactly once in that collection; an unregistered callback does not run in later collections; unregistering twice reports an error and removes nothing else.", "quantifier": "all sequences and interleavings of RegisterCallback, Unregister and collections", "why_tests_cant": "In-place slice editing racing with an in-flight collection needs particular interleavings.", "anchors": ["lightstep/sdk/metric/meter.go: RegisterCallback, Unregister", "lightstep/sdk/metric/producer.go: collectFor"]}
{"id": "C26", "title": "View matching", "statement": "A view clause applies to an instrument exactly when every criterion it specifies (name, name pattern, instrument kind, number kind, library) is met; clauses with a drop aggregation produce no output; an instrument matched by no clause gets the reader's defaults.", "quantifier": "all clauses, instruments and libraries", "why_tests_cant": "All combinations of criteria.", "anchors": ["lightstep/sdk/metric/view/clause.go: Matches", "lightstep/sdk/metric/internal/viewstate/viewstate.go: Compile"]}
{"id": "C27", "title": "Registering the same instrument again changes nothing", "statement": "Re-creating an instrument with an identical descriptor returns the same instrument and leaves the set of output metrics unchanged.", "quantifier": "all descriptors, view configurations and registration histories", "why_tests_cant": "All view configurations and hint contents.", "anchors": ["lightstep/sdk/metric/internal/viewstate/viewstate.go: Compile", "lightstep/sdk/metric/meter.go: configureInstrument"]}
{"id": "C28", "title": "Duplicate metric conflicts are always reported", "statement": "Registering an instrument reports a duplicate conflict for a reader exactly when, after views are applied, two or more distinct output metrics of that reader share a name the instrument writes to; instruments that agree on everything but description share one output metric silently.", "quantifier": "all registration histories and view configurations", "why_tests_cant": "All registration orders and configurations.", "anchors": ["lightstep/sdk/metric/internal/viewstate/viewstate.go: Compile", "lightstep/sdk/metric/internal/viewstate/errors.go: Conflict"]}
{"id": "C29", "title": "Only semantically valid aggregations are produced", "statement": "Without a hint, whatever aggregation a view or default selects, the output metric's aggregation is one that is legal for the instrument kind; an illegal request falls back to the standard aggregation and is reported.", "quantifier": "all instrument kinds and aggregation kinds", "why_tests_cant": "Combination of kinds with selectors and views.", "anchors": ["lightstep/sdk/metric/internal/viewstate/viewstate.go: checkSemanticCompatibility, compileSync, compileAsync", "lightstep/sdk/metric/aggregator/aggregation/aggregation.go: Category", "lightstep/sdk/metric/view/standard.go"]}
{"id": "C30", "title": "One measurement, one contribution per output metric", "statement": "A measurement contributes once to each distinct output metric its instrument writes to, whatever view clauses match.", "quantifier": "all lists of matching clauses", "why_tests_cant": "All clause lists, including repeated clauses.", "anchors": ["lightstep/sdk/metric/internal/viewstate/viewstate.go: Compile, Combine, multiInstrument"]}
{"id": "C31", "title": "Hints apply uniformly and produce the requested aggregation", "statement": "An instrument whose description is a valid hint naming an aggregation gets that aggregation (sum meaning the sum appropriate to its kind, drop meaning no output) in every view that does not itself fix one.", "quantifier": "all hints, kinds and view configurations", "why_tests_cant": "All hint/view combinations.", "anchors": ["lightstep/sdk/metric/internal/viewstate/viewstate.go: tryToApplyHint, Compile", "lightstep/sdk/metric/view/hint.go"]}
{"id": "C32", "title": "Dropping an instrument never breaks collection", "statement": "If views drop a synchronous or asynchronous instrument for every reader, recording to it is a no-op and collections still succeed and report all other instruments.", "quantifier": "all view configurations and registration histories", "why_tests_cant": "The failing path crosses three packages and was never exercised end to end.", "anchors": ["lightstep/sdk/metric/meter.go: configureInstrument", "lightstep/sdk/metric/producer.go: collectFor", "lightstep/sdk/metric/internal/syncstate/sync.go: New, SnapshotAndProcess"]}
{"id": "C33", "title": "Merged descriptions", "statement": "When several registrations share an output metric its description is the longest one seen, independent of repeats.", "quantifier": "all registration histories", "why_tests_cant": "All histories.", "anchors": ["lightstep/sdk/metric/internal/viewstate/base_instrument.go: mergeDescription"]}
{"id": "C34", "title": "Unset view configuration does not override defaults or hints", "statement": "A view clause that specifies no aggregator configuration leaves the per-kind default configuration and any hinted configuration in force.", "quantifier": "all default selectors, hints and clauses", "why_tests_cant": "Depends on interaction of validation-filled defaults with per-kind selectors.", "anchors": ["lightstep/sdk/metric/internal/viewstate/viewstate.go: pickAggConfig", "lightstep/sdk/metric/view/views.go: checkAggConfig, Validate"]}
{"id": "C35", "title": "Reported time intervals tile the timeline", "statement": "For each reader consecutive collections report delta intervals that start exactly where the previous one ended, the first starting at provider start; cumulative points always start at provider start; intervals are never reversed under a non-decreasing clock.", "quantifier": "all sequences of collections and all clocks", "why_tests_cant": "All histories of collections, including concurrent ones.", "anchors": ["lightstep/sdk/metric/producer.go: Produce", "lightstep/sdk/metric/data/sequence.go", "lightstep/sdk/metric/internal/viewstate/collectors.go: Collect"]}
{"id": "C36", "title": "Meters and instruments are singletons", "statement": "Requesting a meter with the same name, version and schema always returns the same meter and different scopes return different meters; likewise instruments by descriptor; collection reports meters in creation order.", "quantifier": "all histories of Meter and instrument requests", "why_tests_cant": "All histories.", "anchors": ["lightstep/sdk/metric/provider.go: Meter", "lightstep/sdk/metric/meter.go: configureInstrument"]}
{"id": "C37", "title": "Provider shutdown", "statement": "Each reader is shut down exactly once however often Shutdown is called; later Shutdown calls report already-shutdown; meters requested after shutdown do nothing; nothing is exported after Shutdown.", "quantifier": "all call sequences of Meter, ForceFlush and Shutdown", "why_tests_cant": "All call sequences.", "anchors": ["lightstep/sdk/metric/provider.go: Shutdown, ForceFlush, Meter"]}
{"id": "C38", "title": "Periodic reader lifecycle", "statement": "The periodic reader exports once per tick until stopped; shutdown stops the ticker, performs exactly one final collection handed to the exporter's shutdown, and no tick exports after shutdown returns.", "quantifier": "all interleavings of ticks, ForceFlush and Shutdown", "why_tests_cant": "All interleavings of timer ticks and calls.", "anchors": ["lightstep/sdk/metric/periodic.go: start, Shutdown, ForceFlush, collect"]}
{"id": "C39", "title": "Output memory reuse is invisible", "statement": "Collecting into a reused Metrics object gives exactly the result of collecting into a fresh one; nothing from earlier collections appears.", "quantifier": "all histories of collections with any numbers of scopes, instruments and points", "why_tests_cant": "All shrink/grow histories of three nested slices.", "anchors": ["lightstep/sdk/metric/data/data.go: Reset, ReallocateFrom", "lightstep/sdk/metric/internal/viewstate/base_instrument.go: appendInstrument, appendOrReusePoint"]}
{"id": "C40", "title": "Conflicts of every reader are reported", "statement": "The error returned by instrument creation contains the conflicts of every reader that has one.", "quantifier": "all reader sets and configurations", "why_tests_cant": "All combinations of reader names.", "anchors": ["lightstep/sdk/metric/internal/viewstate/errors.go: Combine, Add", "lightstep/sdk/metric/meter.go: configureInstrument"]}
{"id": "C41", "title": "Explicit-bucket histogram conversion preserves counts", "statement": "Converting a (non-negative) exponential histogram to explicit buckets yields strictly ordered boundaries, one more count than boundaries, and bucket counts summing to the histogram's count.", "quantifier": "all exponential histograms", "why_tests_cant": "All scales, offsets and bucket layouts.", "anchors": ["lightstep/sdk/metric/internal/export/export.go: copyExplicitHistogramBuckets, copyExplicitHistogramPoints"]}
{"id": "C42", "title": "MinMaxSumCount export writes the recorded min, max and sum", "statement": "The exported min, max and sum of a MinMaxSumCount point are the float values of the recorded ones for both number kinds.", "quantifier": "all int64 and float64 states", "why_tests_cant": "The failing case depends on the number kind and the bit pattern.", "anchors": ["lightstep/sdk/metric/internal/export/export.go: copyMMSCPoints"]}
{"id": "C43", "title": "Resource conversion cache is transparent", "statement": "The exporter's resource cache always returns the conversion of the resource it was given, whatever resources were exported before.", "quantifier": "all sequences of resources", "why_tests_cant": "All call histories of a three-state cache.", "anchors": ["lightstep/sdk/internal/common.go: ResourceMap.Get"]}
{"id": "C44", "title": "Exporting attributes is total", "statement": "Every attribute the SDK accepts can be exported: conversion never panics, preserves number and order of attributes, keys and values.", "quantifier": "all attribute values of all types, including the zero value", "why_tests_cant": "All types including the INVALID type.", "anchors": ["lightstep/sdk/internal/common.go: CopyAttributes", "lightstep/sdk/metric/internal/viewstate/base_instrument.go: isValidAttribute"]}
{"id": "C45", "title": "Metric export conversion loses nothing", "statement": "The exported payload contains one scope entry per reported scope, one metric per reported instrument that has points, one data point per reported point with the same attributes and times, and the correct temporality and monotonicity flags.", "quantifier": "all reported metrics", "why_tests_cant": "All shapes of reports.", "anchors": ["lightstep/sdk/metric/internal/export/export.go: d2pd, copySumPoints, copyGaugePoints, toTemporality"]}
{"id": "C46", "title": "Trace export conversion loses nothing", "statement": "Exporting a batch of spans emits every span exactly once, in order, under a scope entry carrying that span's instrumentation scope.", "quantifier": "all batches of spans", "why_tests_cant": "All batches, including interleaved and empty scopes.", "anchors": ["lightstep/sdk/trace/exporters/otlp/otelcol/otlp.go: d2pd"]}
{"id": "C47", "title": "Launcher configuration validation", "statement": "Configuration is rejected exactly when the service name is missing, or an enabled default endpoint is used without an access token; otherwise it is accepted.", "quantifier": "all configurations", "why_tests_cant": "All combinations of settings.", "anchors": ["launcher/config.go: validateConfiguration, checkEndpointDefault, accessToken"]}
{"id": "C48", "title": "Access token and header precedence", "statement": "An explicitly configured access-token header wins over the LS_ACCESS_TOKEN environment variable; options override environment settings, later options override earlier ones, and unrelated headers are preserved.", "quantifier": "all option lists and environments", "why_tests_cant": "All option orders.", "anchors": ["launcher/config.go: WithAccessToken, WithHeaders, newConfig, accessToken"]}
{"id": "C49", "title": "Resource attribute precedence", "statement": "Explicit resource attributes override service and telemetry attributes, which override environment attributes; every configured attribute is present; host name is added only if missing.", "quantifier": "all configurations", "why_tests_cant": "All key overlaps.", "anchors": ["launcher/config.go: newResource"]}
{"id": "C50", "title": "Temporality preferences", "statement": "For each preference name (cumulative, delta, lowmemory/stateless) the temporality chosen for every instrument kind is as documented; up-down counters never become delta under delta preference; unknown names are rejected; every kind always gets a defined temporality.", "quantifier": "all preference strings and instrument kinds", "why_tests_cant": "All strings.", "anchors": ["pipelines/metrics.go: tempoOptions"]}
{"id": "C51", "title": "Propagator configuration", "statement": "The configured propagator list is honoured in order, unknown names are skipped, and configuration fails exactly when no name is recognised.", "quantifier": "all lists of names", "why_tests_cant": "All lists.", "anchors": ["pipelines/trace.go: configurePropagators"]}
{"id": "C52", "title": "Runtime metric name matching is total and unambiguous", "statement": "For every Go runtime metric name, matching it against the built-in table never panics; when it matches, prefix, captured part and suffix reassemble the name.", "quantifier": "all strings", "why_tests_cant": "All strings, including malformed future names.", "anchors": ["lightstep/instrumentation/runtime/descriptor.go: findMatch, findFamily, toOTelName", "lightstep/instrumentation/runtime/defs.go"]}
{"id": "C53", "title": "Rate-limited logging", "statement": "Two rate-limited invocations from one call site are always more than the period apart, the first call always fires, a call more than the period after the last firing fires, and call sites do not affect each other.", "quantifier": "all call histories with a non-decreasing clock", "why_tests_cant": "All call histories.", "anchors": ["lightstep/sdk/metric/internal/doevery/doevery.go: TimePeriod"]}
{"id": "C54", "title": "Changing temporality does not change totals", "statement": "For the same history, the sum of the deltas reported by a delta reader up to a full collection equals the cumulative value reported by a cumulative reader at the same point.", "quantifier": "all histories and all pairs of readers", "why_tests_cant": "All histories.", "anchors": ["lightstep/sdk/metric/internal/viewstate/collectors.go: statefulSyncInstrument.Collect, lowmemorySyncInstrument.Collect"]}
{"id": "C55", "title": "The caller's attribute slice is left alone", "statement": "A measurement call does not modify the attribute slice the caller passed.", "quantifier": "all attribute lists and limits", "why_tests_cant": "Needs all lists and limits; tests do not look at their input after the call.", "anchors": ["lightstep/sdk/metric/sdkinstrument/performance.go: TruncateAttributes", "lightstep/sdk/metric/internal/syncstate/sync.go: Observe"]}
{"id": "C56", "title": "Pipelines started and stopped by the launcher", "statement": "The launcher starts tracing and metrics exactly when they are enabled and their settings are accepted, each with the configured endpoint, headers and resource; an empty endpoint means disabled; Shutdown stops each started pipeline exactly once, tracing first.", "quantifier": "all environments and option lists", "why_tests_cant": "The combinations of options, environment and failing exporters are unbounded; tests start one configuration.", "anchors": ["launcher/config.go: setupTracing, setupMetrics, ConfigureOpentelemetry, Shutdown", "pipelines/trace.go: NewTracePipeline", "pipelines/metrics.go: NewMetricsPipeline"]}
{"id": "C57", "title": "Built-in instrumentation selection", "statement": "Each configured built-in library entry, a name with optional version, starts exactly the libraries of that name, in list order; unknown names and versions are reported and start nothing; nothing starts when built-ins are disabled.", "quantifier": "all lists of entries, all strings", "why_tests_cant": "Entries are arbitrary strings in arbitrary order; tests use a few.", "anchors": ["pipelines/metrics.go: NewMetricsPipeline, builtinMetricsVersions"]}
{"id": "C58", "title": "Each runtime metric has its own series", "statement": "Registering the runtime metrics never panics; afterwards every collection observes, for each reported Go runtime metric, the value read for that metric on the instrument and attributes derived from its name; two different runtime metrics never share a series.", "quantifier": "all lists of runtime metrics, all strings as names", "why_tests_cant": "Names come from the Go runtime and grow with each release; tests use a fixed sample.", "anchors": ["lightstep/instrumentation/runtime/builtin.go: register", "lightstep/instrumentation/runtime/descriptor.go: findMatch"]}
{"id": "C59", "title": "The caller may reuse its attribute slice", "statement": "Once a measurement call has returned, the caller may overwrite the attribute slice it passed, also when hash collisions are ignored and the slice is therefore not copied: the series, values and exported points are those of a run in which nobody wrote. The SDK reads the slice of a call only while the call is in progress.", "quantifier": "all schedules of calls, collections and writes to slices of returned calls", "why_tests_cant": "Another goroutine may find the half-initialised record and finish its initialisation at any moment; tests cannot reach all such interleavings.", "anchors": ["lightstep/sdk/metric/internal/syncstate/sync.go: Observe, initialize, computeAttrsUnderLock", "lightstep/sdk/metric/internal/syncstate/bykeyvalue.go: acquireNotfoundKV, acquireUninitializedKV"]}
{"id": "C60", "title": "Attribute sets with colliding hashes", "statement": "Attribute sets whose hashes collide are kept in linked lists that collections edit in place. After any history of new attribute sets and collections the lookup result is that of a plain list of records; a collection visits every record exactly once; removing unused records never affects other records with the same hash; the number compared with the cardinality limit is the number of different hashes.", "quantifier": "all histories of insertions and collections, all hash functions, all map iteration orders, any number of colliding sets", "why_tests_cant": "64-bit hash collisions practically never occur in tests, and every position in a list of any length must be tried for removal.", "anchors": ["lightstep/sdk/metric/internal/syncstate/sync.go: SnapshotAndProcess, collect", "lightstep/sdk/metric/internal/syncstate/bykeyvalue.go: acquireReadKV, acquireWriteKV"]}
{"id": "C61", "title": "Histogram points are made of exactly their measurements", "statement": "Every exported histogram point, delta or cumulative, is obtained by recording exactly the measurements it contains, each once, into empty histograms and merging these; its count, zero count, and integer sum are therefore those of its measurements. A delta point is exported exactly when it has measurements. The counts exported by a delta view plus the measurements pending add up to the measurements recorded.", "quantifier": "all schedules, any number of collections, all values, any histogram library", "why_tests_cant": "The split of the measurements over accumulators and collections depends on the schedule.", "anchors": ["lightstep/sdk/metric/aggregator/histogram/histogram.go: Update, Move, Merge, Copy, HasChange", "lightstep/sdk/metric/internal/viewstate/collectors.go"]}
{"id": "C62", "title": "Self-telemetry of exporters balances", "statement": "Every export that returns hands exactly one payload to the collector component and then increments the exporter's own item counter exactly once, by the number of points (spans) given to the exporter, with success telling whether the component accepted it and state ok, canceled, timeout or error; the span around the export says the same and the component's error is returned unchanged. Over any sequence of exports, flushes and shutdowns, the increments with success add up to the points accepted, the others to the points refused.", "quantifier": "all data, resources, temporality settings, error values, sequences of calls and answers", "why_tests_cant": "The count is taken from the converted payload, so it is right only if the conversion loses and duplicates nothing for every shape of data.", "anchors": ["lightstep/sdk/metric/internal/export/export.go: ExportMetrics", "lightstep/sdk/trace/exporters/otlp/otelcol/client.go: ExportSpans", "lightstep/sdk/metric/exporters/otlp/otelcol/client.go: ExportMetrics, ForceFlushMetrics, ShutdownMetrics", "lightstep/sdk/metric/exporters/prom/client.go: ShutdownMetrics"]}
{"id": "C63", "title": "Life of an exporter", "statement": "Shutting an exporter down exports the final data, then shuts down the batcher, then the exporter component, each exactly once whatever any of them answers; the returned error contains every error that occurred and is nil exactly if none did. An exporter is returned by its constructor exactly if every component was created and started, the exporter component before the batcher that feeds it; a failed construction leaves nothing running.", "quantifier": "all data, all combinations of answers of the components", "why_tests_cant": "Every combination of failing components and every shape of final data matters.", "anchors": ["lightstep/sdk/metric/exporters/otlp/otelcol/client.go: NewExporter, ShutdownMetrics", "lightstep/sdk/metric/exporters/prom/client.go: ShutdownMetrics", "lightstep/sdk/trace/exporters/otlp/otelcol/client.go: NewExporter, Shutdown"]}
{"id": "C64", "title": "Exporter configuration precedence", "statement": "Of several options setting the endpoint or the compression the last wins; headers of several options are merged, the last value of a key winning; the last TLS option replaces the TLS settings entirely and a later insecure option sets only the flag; nil options are ignored and no option changes anything else. The launcher's pipelines use the configured endpoint and headers with gzip, and are insecure exactly if asked for by the flag or in the TLS settings. Self-telemetry goes to the provider passed last, else to the global one if enabled, else nowhere. Without options nothing is configured but zstd compression: no endpoint, no headers, a secure connection.", "quantifier": "all lists of options, all defaults, all pipeline configurations", "why_tests_cant": "The order and repetition of options is unbounded.", "anchors": ["lightstep/sdk/metric/exporters/otlp/otelcol/client.go: NewConfig, NewDefaultConfig, WithEndpoint, WithHeaders, WithCompressor, WithInsecure, WithTLSSetting", "lightstep/sdk/trace/exporters/otlp/otelcol/client.go: NewConfig, NewExporter, WithTracerProvider, WithMeterProvider", "pipelines/common.go: secureMetricOption, secureTraceOption", "pipelines/metrics.go: newMetricsExporter", "pipelines/trace.go: newTraceExporter"]}
{"id": "C65", "title": "Names of the exporter components' own instruments", "statement": "An instrument the collector components create for themselves is created in the user's provider with the same kind and the same name, except that a leading otelcol_ becomes otelsdk_; no instrument reaches the provider with a name beginning with otelcol_, and different names stay different.", "quantifier": "all fourteen instrument constructors, all names", "why_tests_cant": "Names are arbitrary strings.", "anchors": ["lightstep/sdk/internal/common.go: fixName, notelMeter"]}
{"id": "C66", "title": "View options", "statement": "The views of a reader are the clauses given in order: a clause applies to exactly the instruments asked for by its last matcher of each sort, and has the keys, name, description, aggregation and aggregator settings set last; the defaults are those of the selector given last, else the standard ones; invalid values fall back to the standard ones and a missing cardinality limit to the provider's, 2000 if that is missing too.", "quantifier": "all lists of view options and clause options, all instruments, scopes and limits", "why_tests_cant": "The order, repetition and combination of options is unbounded.", "anchors": ["lightstep/sdk/metric/view/clause.go: ClauseOption functions", "lightstep/sdk/metric/view/view.go: NewConfig, WithClause, WithDefault*", "lightstep/sdk/metric/view/views.go: New, Validate", "lightstep/sdk/metric/view/standard.go: Standard*", "lightstep/sdk/metric/provider.go: NewMeterProvider"]}
{"id": "C67", "title": "The ways to pass attributes agree", "statement": "A measurement denotes the same series whether its attributes are passed as a list to the fast-path methods or through options, in however many options they are split, in any order and with repetitions, the last value of a key winning. Wherever a view reports two such measurements it reports them in the same series.", "quantifier": "all lists of attributes, all splits and orders, all size limits, all executions", "why_tests_cant": "Attribute lists, their orders and the limit are unbounded, and the concurrent execution between the two calls is arbitrary.", "anchors": ["lightstep/sdk/metric/syncinst.go: addToOpConfig, recordToOpConfig, AddWithKeyValues, RecordWithKeyValues", "lightstep/sdk/metric/bypass/bypass.go", "lightstep/sdk/metric/internal/syncstate/sync.go: Observe", "lightstep/sdk/metric/internal/asyncstate/async.go: getOrCreate"]}
{"id": "C68", "title": "Instruments are what their constructor says", "statement": "With no view and no hint, an instrument made by any of the fourteen constructors has exactly one output metric, with the name and unit given and of the number type of the constructor: a monotonic sum for counters, a non-monotonic sum for up-down counters, a gauge for gauges and a histogram for histograms; it refuses exactly NaN, infinities and, for synchronous counters and histograms, negative values.", "quantifier": "all constructors, names, units, descriptions without hint, previously registered instruments, all 64-bit values", "why_tests_cant": "All names, all previously registered instruments and all values matter.", "anchors": ["lightstep/sdk/metric/syncinst.go: Int64Counter and the other constructors", "lightstep/sdk/metric/asyncinst.go: Int64ObservableCounter and the other constructors", "lightstep/sdk/metric/meter.go: configureInstrument"]}
{"id": "C69", "title": "Truncated text stays text", "statement": "Truncating attribute keys and values to the size limit leaves valid UTF-8 text: a prefix made of whole characters.", "quantifier": "all texts and limits", "why_tests_cant": "Texts and limits are unbounded.", "anchors": ["lightstep/sdk/metric/sdkinstrument/performance.go: TruncateAttributes"]}
{"id": "C70", "title": "Host and process metrics", "statement": "Each collection observes all ten host series, each once, with the values the operating system gives, or none and then an error is reported; the process callback observes uptime and user and system time, and reports only the uptime together with the error when the times cannot be read. Unsigned counts are reported with their value. CPU times and network bytes are counters, memory in use and uptime up-down counters, utilization a gauge. Registration creates all instruments and the callback or returns the error without registering the callback. Callbacks observe only instruments they are registered for, made by the provider given last, else the global one.", "quantifier": "all answers of the operating system and the meter", "why_tests_cant": "Failures of the operating system cannot be provoked; all combinations of answers matter.", "anchors": ["lightstep/instrumentation/host/host.go: register, newConfig, Start", "lightstep/instrumentation/cputime/cputime.go: register", "lightstep/instrumentation/cputime/cputime_unix.go: getProcessTimes", "lightstep/sdk/metric/internal/asyncstate/callback.go: Run"]}
{"id": "C71", "title": "Process times never go backwards", "statement": "If the process times given by the operating system do not decrease, the observed floating-point values for user and system time do not decrease either; they lie between the whole seconds and the next second and are exact for whole seconds.", "quantifier": "all times below 2^33 seconds, any rounding to nearest", "why_tests_cant": "Monotonicity of a composition of rounded operations has to hold for all pairs of times.", "anchors": ["lightstep/instrumentation/cputime/cputime_unix.go: getProcessTimes", "lightstep/instrumentation/cputime/cputime.go: register"]}
{"id": "C72", "title": "What is sent is what was recorded, end to end", "statement": "A program records values with synchronous instruments from any number of goroutines while readers collect and export; when all calls have returned and the reader has collected and exported once more, then for every metric: the integers in all payloads of a delta sum add up to exactly the integers recorded, in total and for every attribute set shown by the view; the last point of a cumulative sum for an attribute set is the sum of all integers recorded with it; the counts of histogram and min/max/sum/count points likewise are the number of values recorded; sums of floats are the results of adding the recorded floats in some order; minimum, maximum and sum of min/max/sum/count points of floats are those of the recorded values; histogram points have the content of histograms made of exactly the recorded values; and no point is sent with attributes nobody recorded with. For single attribute sets: while these stay within the cardinality limits and no attribute value is an empty list.", "quantifier": "all programs, calls, attributes, views, interleavings of calls, collections and exports", "why_tests_cant": "The statement is about all interleavings of calls with snapshots, collections and exports, and about all call arguments, from the API to the payload.", "anchors": ["lightstep/sdk/metric/syncinst.go: int64Counter.Add, int64Counter.AddWithKeyValues, int64Gauge.Record, float64Histogram.Record", "lightstep/sdk/metric/internal/syncstate/sync.go: Observe, SnapshotAndProcess", "lightstep/sdk/metric/internal/viewstate/collectors.go: Collect", "lightstep/sdk/metric/producer.go: Produce", "lightstep/sdk/metric/periodic.go: collect", "lightstep/sdk/metric/internal/export/export.go: ExportMetrics, d2pd"]}
{"id": "C73", "title": "Attribute sets stay apart while there is room", "statement": "With collision safety on, and fewer different attribute lists per instrument and fewer different sets per output metric than the limits: two measurements are reported in points with the same attributes exactly when the view sees no difference between the attributes of the two calls; each is reported with its own attributes; no overflow series appears and no point has attributes that no call had, whatever fingerprints collide.", "quantifier": "all reachable states, all attribute lists without NaN inside float slices, all hash functions", "why_tests_cant": "Requires all interleavings and all hash collisions; the overflow branch must be unreachable, including transiently during removals.", "anchors": ["lightstep/sdk/metric/internal/syncstate/bykeyvalue.go: acquireReadKV, acquireReadLockedKV, acquireWriteKV", "lightstep/sdk/metric/internal/viewstate/base_instrument.go: getOrCreateEntry", "lightstep/sdk/metric/internal/syncstate/bykeyvalue.go: attributesEqual"]}
{"id": "C74", "title": "Payloads describe their metrics truly, throughout", "statement": "Whatever is recorded and however collections and exports interleave, every export sends exactly one payload, in order; every payload has the attributes of the resource and all scopes in order; and every metric in it is one of the configured output metrics of its scope, with its name, unit and description, the sort of data, monotonicity, temporality and number type configured for it, at least one point, and points whose interval ends at the collection and starts at the previous collection (delta) or at the start of the provider (cumulative).", "quantifier": "all programs, calls, attributes, views, interleavings of calls, collections and exports", "why_tests_cant": "It is about every payload of every run, also those with cached resources and with calls racing with collections.", "anchors": ["lightstep/sdk/metric/producer.go: Produce", "lightstep/sdk/metric/internal/viewstate/collectors.go: Collect", "lightstep/sdk/metric/internal/pipeline/register.go", "lightstep/sdk/metric/internal/export/export.go: ExportMetrics, d2pd, copySumPoints, copyGaugePoints, copyExponentialHistogramPoints, copyMMSCPoints"]}
{"id": "C75", "title": "What callbacks observe is what is sent", "statement": "For asynchronous instruments, whatever callbacks observe: each collection sends exactly one payload, and for an output metric this payload has exactly one point for each attribute set (after truncation and the view's key filter) observed in this collection, with exactly these attributes. For a cumulative integer sum its value is the sum, over the instruments and attribute sets shown so, of the last value observed in this collection; for a gauge it is the last value observed; for an integer delta sum it is the difference to the collection before, or the whole value when the series was not observed then, and sets whose value did not change are not sent. All deltas sent for a series observed without gaps add up to its last cumulative value.", "quantifier": "all programs of callbacks, observations, attributes, views, temporalities, numbers of collections, map iteration orders", "why_tests_cant": "It relates everything any callback ever observed to every payload, through deduplication, view filters, merging, temporality conversion and protocol conversion.", "anchors": ["lightstep/sdk/metric/internal/asyncstate/async.go: Observe, getOrCreate, SnapshotAndProcess", "lightstep/sdk/metric/internal/asyncstate/callback.go: Run", "lightstep/sdk/metric/internal/viewstate/accumulators.go: asyncAccumulator", "lightstep/sdk/metric/internal/viewstate/collectors.go: statefulAsyncInstrument.Collect, lowmemoryAsyncInstrument.Collect", "lightstep/sdk/metric/producer.go: collectFor", "lightstep/sdk/metric/internal/export/export.go: d2pd"]}
{"id": "C76", "title": "Measurements which do not fit are marked", "statement": "Every measurement and observation reported is reported with exactly the attributes which the view lists of its own, or, when a cardinality limit is reached, with exactly the documented attribute set { otel.metric.overflow=true }.", "quantifier": "all programs, schedules, limits, views with and without key filters", "why_tests_cant": "The limits are reached by histories of any length, and views filter the attributes of the overflow series as they filter any others.", "anchors": ["lightstep/sdk/metric/internal/pipeline/overflow.go", "lightstep/sdk/metric/internal/syncstate/bykeyvalue.go", "lightstep/sdk/metric/internal/viewstate/base_instrument.go: applyKeysFilter, getOrCreateEntry", "lightstep/sdk/metric/README.md: InstrumentCardinalityLimit, AggregatorCardinalityLimit"]}
{"id": "C77", "title": "Collections may run concurrently", "statement": "Produce may be called concurrently (documentation of Producer). Every collection reports, for every asynchronous instrument, exactly what its own callbacks observed, also when other collections of the same reader are in progress.", "quantifier": "all interleavings of any number of collections by one reader, all observations, all views and limits", "why_tests_cant": "The interleavings of two collections are many and the wrong ones need both to be between the same two steps; tests collect one at a time.", "anchors": ["lightstep/sdk/metric/reader.go: Producer", "lightstep/sdk/metric/producer.go: Produce, collectFor", "lightstep/sdk/metric/internal/asyncstate/async.go: NewState, getOrCreate, SnapshotAndProcess", "lightstep/sdk/metric/internal/viewstate/accumulators.go: asyncAccumulator", "lightstep/sdk/metric/internal/viewstate/collectors.go: lowmemoryAsyncInstrument, statefulAsyncInstrument"]}
{"id": "C78", "title": "Output metrics have the configured temporality", "statement": "Every output metric of an instrument is reported with the temporality the instrument's hint names, otherwise with the one the reader's selector (for the launcher: the configured preference) gives for its kind; only asynchronous gauges are never reported as deltas.", "quantifier": "all hints, selectors, preferences, view clauses and registration histories", "why_tests_cant": "The result depends on what was registered before under the same name; tests register one instrument at a time.", "anchors": ["lightstep/sdk/metric/internal/viewstate/viewstate.go: tryToApplyHint, Compile, buildView, newSyncView, newAsyncView", "lightstep/sdk/metric/aggregator/aggregation/temporality.go: ParseTemporality", "lightstep/sdk/metric/view/view.go: WithDefaultAggregationTemporalitySelector", "pipelines/metrics.go: tempoOptions"]}
{"id": "C79", "title": "Only callbacks that can be called are accepted", "statement": "RegisterCallback succeeds exactly when it is given a function and at least one instrument, all of them asynchronous instruments of the same meter, directly or behind the wrappers of the global API; otherwise it returns an error and registers nothing. Callbacks among the options of a constructor are registered for the instrument returned. A collection runs every accepted callback, takes exactly its observations on the instruments it was registered for, reports an error for every other observation, and does not panic.", "quantifier": "all histories of registrations and constructors, all instrument lists, all behaviours of the functions", "why_tests_cant": "The combinations of wrapped, foreign and mixed instrument lists, and what a callback then observes, are unbounded.", "anchors": ["lightstep/sdk/metric/internal/asyncstate/callback.go: NewCallback, Run", "lightstep/sdk/metric/internal/asyncstate/async.go: Observe", "lightstep/sdk/metric/meter.go: RegisterCallback", "lightstep/sdk/metric/asyncinst.go: registerIntCallbacks, registerFloatCallbacks, intObserver, floatObserver", "lightstep/sdk/metric/producer.go: collectFor"]}
{"id": "C80", "title": "A reader serves the provider it was given to", "statement": "A provider's readers are those among its options, in order, each with the views given with it; of several resources or performance settings the last counts. A reader given to a provider hands on that provider's data: at its ticks until the provider is shut down, when the provider is flushed, and once when it is shut down, each time in the order of the options. A reader that already has a provider stays with it, and every further use is reported as an error.", "quantifier": "all lists of options, all numbers of providers and readers, all histories of creating, flushing, shutting down, ticks and manual collection", "why_tests_cant": "How readers are shared between providers, and in which order providers come and go, is unbounded.", "anchors": ["lightstep/sdk/metric/config.go: WithResource, WithReader, WithPerformance", "lightstep/sdk/metric/provider.go: NewMeterProvider, ForceFlush, Shutdown", "lightstep/sdk/metric/manual.go: Register, ForceFlush, Shutdown", "lightstep/sdk/metric/periodic.go: Register, ForceFlush, Shutdown, collect"]}
{"id": "C81", "title": "Conflict messages tell the truth", "statement": "The error returned with an instrument in conflict names an output name the instrument writes to, tells a true difference between two of the metrics carrying that name (kinds, aggregation and unit of both; or aggregator configuration; or attribute filters) and how many more there are; for an illegal aggregation it tells the instrument kind and the aggregation asked for. It is never empty and does not change with later registrations. The combined error tells how many conflicts there are in how many readers, and gives one of them.", "quantifier": "all view configurations, all sequences of registered instruments, all readers, all iteration orders of the map of conflicts", "why_tests_cant": "The message depends on all instruments registered before, and on the iteration order of a map; tests compare a few texts.", "anchors": ["lightstep/sdk/metric/internal/viewstate/errors.go: ViewConflictsError.Error, Conflict.Error, duplicateError, SemanticError.Error, shortString, fullNameString", "lightstep/sdk/metric/sdkinstrument/kind_string.go", "lightstep/sdk/metric/number/kind_string.go", "lightstep/sdk/metric/aggregator/aggregation/category_string.go"]}
{"id": "C82", "title": "Runtime metrics are one snapshot", "statement": "The Go runtime metrics reported by one collection are the values the runtime had at one instant during that collection.", "quantifier": "all numbers of metrics, all histories of the runtime's values, all interleavings of collections by any number of readers", "why_tests_cant": "The callback shares one buffer between all its runs; only an interleaving of two collections within one callback shows it.", "anchors": ["lightstep/instrumentation/runtime/builtin.go: register", "lightstep/sdk/metric/producer.go: Produce", "lightstep/sdk/metric/internal/asyncstate/callback.go: Run"]}
{"id": "C83", "title": "A delta point contains the measurements of its interval", "statement": "A measurement contained in a delta point was made within the time interval the point is reported with: it had not returned at the start of the interval, and it began before its end.", "quantifier": "all interleavings of calls and collections", "why_tests_cant": "The clock is read once, before callbacks run and snapshots are taken; only interleavings with calls in between tell the difference.", "anchors": ["lightstep/sdk/metric/producer.go: Produce, collectFor", "lightstep/sdk/metric/internal/syncstate/sync.go: SnapshotAndProcess", "lightstep/sdk/metric/internal/viewstate/collectors.go: Collect"]}
{"id": "C84", "title": "Settings left out take their documented defaults", "statement": "Performance numbers left out (zero) are 10 inactive periods, 3000 sets per instrument, 2000 per output metric and 8192 bytes per attribute; numbers given are used as they are; one inactive period has the effect of none. A periodic reader's interval and timeout default to 30 seconds, the timeout to the interval given. The Prometheus exporter serves port 9090 on all addresses with one hour of expiration; it is returned exactly if its component started.", "quantifier": "all settings and option lists, all answers of the components", "why_tests_cant": "All combinations of settings, and for the periods all executions.", "anchors": ["lightstep/sdk/metric/sdkinstrument/performance.go: Performance.Validate", "lightstep/sdk/metric/periodic.go: NewPeriodicReader, WithTimeout", "lightstep/sdk/metric/exporters/prom/client.go: NewConfig, NewDefaultConfig, WithPort, NewExporter", "lightstep/sdk/metric/provider.go: NewMeterProvider"]}
{"id": "C85", "title": "A meter is identified by what it was asked for with", "statement": "Two requests for a meter get the same meter exactly if name, version, schema URL and attributes given agree; a meter asked for without a name has the documented default name.", "quantifier": "all histories of requests and option lists", "why_tests_cant": "All option lists and histories.", "anchors": ["lightstep/sdk/metric/provider.go: Meter"]}
{"id": "C86", "title": "Calls do not wait for one another for ever", "statement": "The API is safe to use from any number of goroutines: whatever calls are in progress (measurements, observations, instrument and meter creation, callback registration and unregistration, collections, flushes, shutdown), also with callbacks, exporters and measurement processors that call the API themselves, never do all of them wait for each other; each returns.", "quantifier": "all numbers of goroutines, all sequences of calls, all nestings of user code to any depth, all schedules", "why_tests_cant": "A deadlock needs particular schedules of particular combinations of calls; sixteen kinds of locks are involved.", "anchors": ["lightstep/sdk/metric/periodic.go: collect, Shutdown, start", "lightstep/sdk/metric/provider.go: Meter, Shutdown, getOrdered", "lightstep/sdk/metric/producer.go: Produce, collectFor", "lightstep/sdk/metric/meter.go: RegisterCallback, Unregister, configureInstrument", "lightstep/sdk/metric/internal/syncstate/sync.go: Observe, SnapshotAndProcess, readAccumulator", "lightstep/sdk/metric/internal/syncstate/bykeyvalue.go: acquireReadKV, acquireWriteKV", "lightstep/sdk/metric/internal/asyncstate/async.go: Observe, getOrCreate, SnapshotAndProcess", "lightstep/sdk/metric/internal/asyncstate/callback.go: Run", "lightstep/sdk/metric/internal/viewstate/viewstate.go: Compile, Collectors", "lightstep/sdk/metric/internal/viewstate/accumulators.go: findStorage, SnapshotAndProcess", "lightstep/sdk/metric/internal/viewstate/collectors.go: Collect", "lightstep/sdk/metric/internal/doevery/doevery.go: TimePeriod", "lightstep/sdk/internal/common.go: ResourceMap.Get", "lightstep/instrumentation/host/host.go: register"]}
{"id": "C87", "title": "The API is free of data races", "statement": "All functions of the API may be called from any number of goroutines at the same time: no two calls in progress ever access the same memory at the same time, one of them writing, unless both use atomic operations. This holds with callbacks, exporters, measurement processors and error handlers that call the API themselves, and for an application whose own data is protected by its own locks.", "quantifier": "all numbers of goroutines, all sequences of calls, all nestings of user code to any depth, all schedules, all kinds of aggregation, with and without ignored hash collisions", "why_tests_cant": "The race detector sees only races in executions that a test happens to produce.", "anchors": ["lightstep/sdk/metric/provider.go: Meter, Shutdown, getOrdered", "lightstep/sdk/metric/producer.go: Produce, collectFor", "lightstep/sdk/metric/periodic.go: collect", "lightstep/sdk/metric/meter.go: RegisterCallback, Unregister, configureInstrument", "lightstep/sdk/metric/internal/syncstate/sync.go: Observe, SnapshotAndProcess, readAccumulator", "lightstep/sdk/metric/internal/syncstate/bykeyvalue.go: acquireReadKV, acquireWriteKV", "lightstep/sdk/metric/internal/asyncstate/async.go: Observe, getOrCreate, SnapshotAndProcess", "lightstep/sdk/metric/internal/asyncstate/callback.go: Run, getCallback, invalidate", "lightstep/sdk/metric/internal/viewstate/viewstate.go: Compile, Collectors", "lightstep/sdk/metric/internal/viewstate/errors.go: Error", "lightstep/sdk/metric/internal/viewstate/accumulators.go", "lightstep/sdk/metric/internal/viewstate/collectors.go: Collect", "lightstep/sdk/metric/aggregator/sum/sum.go", "lightstep/sdk/metric/aggregator/gauge/gauge.go", "lightstep/sdk/metric/aggregator/histogram/histogram.go", "lightstep/sdk/metric/aggregator/minmaxsumcount/minmaxsumcount.go", "lightstep/sdk/metric/sdkinstrument/performance.go: TruncateAttributes", "lightstep/sdk/metric/internal/doevery/doevery.go: TimePeriod", "lightstep/sdk/internal/common.go: ResourceMap.Get", "lightstep/instrumentation/runtime/builtin.go: register"]}
{"id": "C88", "title": "Gauges report the last value, end to end", "statement": "A program records values on gauges (synchronous instruments whose view aggregates by last value) while readers collect and export; when the calls on the instruments feeding the metric do not overlap, then after all calls have returned and the reader has collected and exported once more, the last point sent for an attribute set has the value of the last call recorded with it, whether the reader uses cumulative or delta temporality. Every delta point has the last of the values it stands for, and every value stands behind exactly one delta point. When calls overlap the value is still one of those recorded with the attribute set.", "quantifier": "all programs, calls, attributes, views, interleavings of calls, collections and exports", "why_tests_cant": "The order in which values reach the payload depends on the interleaving of calls with snapshots of several readers and on map iteration order.", "anchors": ["lightstep/sdk/metric/aggregator/gauge/gauge.go: Update, Merge, Move", "lightstep/sdk/metric/internal/syncstate/sync.go: Observe, SnapshotAndProcess", "lightstep/sdk/metric/internal/viewstate/accumulators.go: SnapshotAndProcess", "lightstep/sdk/metric/internal/viewstate/collectors.go: Collect", "lightstep/sdk/metric/internal/export/export.go: d2pd"]}
{"id": "C89", "title": "From the constructor of an instrument to the payloads", "statement": "A program makes a provider with any readers and views, any meters and instruments in any order, and makes any calls from any goroutines. Consider a name which in one meter is used by one synchronous constructor with one unit (for any number of instruments) and which no clause of a reader's views concerns. After all calls have returned and the reader has collected and exported once more, everything sent by the reader's exporter under this scope and name has the unit of the instrument and the kind and temporality which the reader has by default for the kind of the instrument. For each set of attributes, cumulative sums of integers show last the sum of what was recorded, delta sums add up to it, and float sums are the sum in some order. A gauge shows last the value of the last call if calls do not overlap, and exponential histograms, and summaries of floats, show the content made of exactly the recorded values. No point shows attributes with which nothing was recorded. Attributes have to stay within the cardinality limits.", "quantifier": "all views and readers, all histories of meters and instruments (other instruments of any kind, with hints, renamed, conflicting), all calls with all attributes, all schedules of calls, collections and exports, all float additions and histogram configurations", "why_tests_cant": "Composes registration, view compilation, the concurrent machine and the exporter; a test runs one program with one schedule.", "anchors": ["lightstep/sdk/metric/syncinst.go: Int64Counter … Float64Histogram", "lightstep/sdk/metric/meter.go: configureInstrument", "lightstep/sdk/metric/internal/viewstate/viewstate.go: Compile, newSyncView, compileSync", "lightstep/sdk/metric/internal/viewstate/base_instrument.go", "lightstep/sdk/metric/internal/syncstate/sync.go: New, Observe, SnapshotAndProcess", "lightstep/sdk/metric/producer.go: collectFor", "lightstep/sdk/metric/internal/export/export.go: ExportMetrics, d2pd"]}
{"id": "C90", "title": "From the constructor of an observable instrument to the payloads", "statement": "A program makes a provider with any readers and views, any meters and instruments in any order; callbacks observe and a reader collects and exports any number of times. (1) Whatever the views and hints, no aggregator is asked for a difference it cannot form (it would panic), and each collection sends one payload which has all scopes in order and metrics for some of the reader's output metrics, with name, unit, description, sort, temporality, number type and times as configured. (2) Consider a name which in one meter is used by one observable constructor with one unit (for any number of instruments) and which no clause of the reader's views concerns. Its metrics have the unit of the instrument and the kind and temporality which the reader has by default for the kind of the instrument. Cumulative sums and gauges have in each payload exactly one point for each attribute set observed in this collection, with the last value observed for it (the sum, if several instruments or sets are shown as one). Delta sums have a point for each set whose value changed since the collection before, with the difference, or the whole value when it was not observed then; for integers these add up to the last value. Attributes have to stay within the cardinality limit.", "quantifier": "all views and readers, all histories of meters and instruments (other instruments of any kind, with hints, renamed, conflicting), all callbacks, observations, attributes and values, all interleavings of observations within a collection, all orders in which the results are taken, all float additions and subtractions", "why_tests_cant": "Composes registration, view compilation, the state of observations between collections and the exporter; a test runs one program with a few observations.", "anchors": ["lightstep/sdk/metric/asyncinst.go: Int64ObservableCounter … Float64ObservableGauge", "lightstep/sdk/metric/internal/asyncstate/async.go: New, Observe, SnapshotAndProcess", "lightstep/sdk/metric/internal/viewstate/viewstate.go: Compile, newAsyncView, compileAsync", "lightstep/sdk/metric/internal/viewstate/collectors.go: lowmemoryAsyncInstrument, statefulAsyncInstrument", "lightstep/sdk/metric/aggregator/gauge/gauge.go: SubtractSwap", "lightstep/sdk/metric/producer.go: collectFor", "lightstep/sdk/metric/internal/export/export.go: ExportMetrics, d2pd"]}
{"id": "C91", "title": "What is sent of instruments shown through views", "statement": "A program makes a provider with any readers and views, any meters and instruments in any order. A clause of a reader's views may rename an instrument, select attribute keys, and set the aggregation and its configuration; without an applying clause the reader's defaults hold. A hint in the instrument's description (an aggregation the instrument implements, a temporality, a histogram size, a cardinality limit) changes the defaults, also those which the first clause showing the instrument leaves open; for the later clauses a hint inside the hint's own description counts, if there is one. Consider a name under which a reader shows instruments of a meter, so that all which are asked for and shown under it look alike there: synchronous or not, aggregation (as resolved from the one asked for, see C27), number type, unit, selected keys, configuration, temporality. Then the metric sent under the name is that of all these instruments together. Its unit, sort and temporality are those of this look. A point has exactly the selected attributes of some recorded ones, and nothing else is sent. Integer and float sums, gauges, exponential histograms and min/max/sum/count show exactly the values recorded on these instruments with attributes of which the attributes of the point remain: all of them for cumulative temporality, each of them once for delta temporality. An instrument shown several times under the name counts that many times. For observable instruments, each shown once, every collection sends one point for each attribute set remaining of an observed one, with the sum of the last values (or one of them for gauges), for delta temporality the difference to the collection before where there is one.", "quantifier": "all views and readers (any clauses, renamings, key selections, aggregations, configurations), all histories of meters and instruments, all calls and observations, all interleavings, all attributes and values, all float additions and subtractions", "why_tests_cant": "Which clauses apply, how several instruments meet in one output metric and how keys are dropped is composed with concurrent recording, collection and export; a test fixes one view and one run.", "anchors": ["lightstep/sdk/metric/view/clause.go: Matches, Rename, Keys, Aggregation, AggregatorConfig", "lightstep/sdk/metric/internal/viewstate/viewstate.go: Compile, tryToApplyHint, checkSemanticCompatibility, equalConfigs, pickAggConfig, viewDescriptor, buildView", "lightstep/sdk/metric/internal/viewstate/accumulators.go: NewAccumulator, findStorage", "lightstep/sdk/metric/internal/syncstate/sync.go: New, Observe, SnapshotAndProcess", "lightstep/sdk/metric/internal/asyncstate/async.go: New, Observe, SnapshotAndProcess", "lightstep/sdk/metric/producer.go: collectFor", "lightstep/sdk/metric/internal/export/export.go: ExportMetrics, d2pd"]}
{"id": "C92", "title": "Programs with synchronous and observable instruments", "statement": "A program makes a provider with any readers and views, and synchronous and observable instruments. Synchronous instruments are called by any goroutines, also by callbacks; callbacks observe; a reader collects and exports, all interleaved in any way in which callbacks wait for the observations they start. Then every collection is exported in exactly one payload, with the resource and the scopes of all meters in order. The two kinds of instruments do not disturb each other: the metric sent for a synchronous instrument is the one sent by the program without its callbacks, and the metric sent for an observable instrument is the one sent by the program without its calls on synchronous instruments. So all of C91 holds for every metric of such a program: sums, gauges, histograms and min/max/sum/count of synchronous instruments show the recorded values, cumulative and delta, and every collection sends of observable instruments what their callbacks last observed, or the difference to the collection before.", "quantifier": "all views and readers, all histories of meters and instruments of both kinds, all calls, callbacks, observations and collections, all interleavings, all attributes and values, all float additions and subtractions", "why_tests_cant": "Both kinds of instruments share the pipeline, the payload and the exporter's resource cache while calls, callbacks and collections overlap; a test runs one schedule.", "anchors": ["lightstep/sdk/metric/producer.go: Produce, collectFor", "lightstep/sdk/metric/internal/viewstate/viewstate.go: Compile", "lightstep/sdk/metric/internal/viewstate/collectors.go: Collect", "lightstep/sdk/metric/internal/asyncstate/async.go: NewState, Observe, SnapshotAndProcess", "lightstep/sdk/metric/internal/syncstate/sync.go: Observe, SnapshotAndProcess", "lightstep/sdk/metric/internal/export/export.go: ExportMetrics, d2pd"]}
{"id": "C93", "title": "Instruments created while the program runs", "statement": "A program starts with a new provider and asks for meters and instruments at any time: before, between and during calls, callbacks and collections, also again for ones which exist. Then it sends what it would send had all its meters and instruments been made, in the same order, before anything else: the same calls, callbacks and collections are possible, the same observations count, and payload by payload the metrics are the same but for their descriptions, where the scopes of meters not made yet are missing. Every collection is exported in one payload, with the resource and the scopes of the meters which exist at the time, in order. So all of C92 holds for every metric of such a program, from the creation of its instruments on.", "quantifier": "all views and readers, all histories of requests for meters and instruments interleaved in any way with all calls, callbacks, observations and collections, all attributes and values, all float additions and subtractions", "why_tests_cant": "Instruments appear in the pipeline while it runs; a test creates instruments at one moment of one schedule.", "anchors": ["lightstep/sdk/metric/provider.go: Meter", "lightstep/sdk/metric/meter.go: configureInstrument", "lightstep/sdk/metric/producer.go: Produce, collectFor", "lightstep/sdk/metric/internal/viewstate/viewstate.go: Compile, Collectors", "lightstep/sdk/metric/internal/syncstate/sync.go: New, Observe, SnapshotAndProcess", "lightstep/sdk/metric/internal/asyncstate/async.go: New, Observe, SnapshotAndProcess"]}
{"id": "C94", "title": "What a program sends which starts the launcher", "statement": "A program configures the launcher by options and environment variables and uses the meter provider it installs. Then every payload has exactly the resource texts which C49 promises. Every metric of an instrument made by one of the fourteen constructors has the unit given, the kind of data documented for the constructor and the temporality documented for the configured preference, whatever the case of its letters, where the last option wins over the environment. All values recorded on synchronous instruments arrive: cumulative sums end with the total of all values recorded with the attributes, deltas add up to it, gauges end with the last value, histograms are made of exactly the values recorded; and every collection sends the last values observed by callbacks, or their differences. The limits are the defaults: 3000 attribute lists for an instrument and 2000 attribute sets for a metric.", "quantifier": "all options, environments and preferences, all constructors, names and units, all histories of requests for meters and instruments interleaved in any way with all calls, callbacks and collections, all attributes and values, all float additions and subtractions", "why_tests_cant": "The promise spans the launcher's configuration, the provider's defaults and every interleaving of the pipeline; tests of the launcher look at a few configurations, and tests of the SDK build their own providers.", "anchors": ["launcher/config.go: ConfigureOpentelemetry, setupMetrics", "pipelines/metrics.go: NewMetricsPipeline, tempoOptions", "lightstep/sdk/metric/provider.go: NewMeterProvider", "lightstep/sdk/metric/view/view.go: WithDefaultAggregationTemporalitySelector", "lightstep/sdk/metric/sdkinstrument/performance.go: Validate", "lightstep/sdk/metric/meter.go: synchronousInstrument, asynchronousInstrument, configureInstrument"]}
{"id": "C95", "title": "Hints in descriptions, end to end", "statement": "A program starts the launcher and gives instruments descriptions with hints. Then what is sent is what the hints ask for: the aggregation named (a sum, a gauge, a histogram, or minimum, maximum, sum and count), the temporality named, or else the one documented for the configured preference, with at most the number of attribute sets and the number of histogram buckets named, or else the defaults; and an asynchronous gauge is never sent as delta. All values recorded arrive in this form: cumulative sums end with the totals, deltas add up to them, gauges end with the last values, histograms and statistics are made of exactly the values recorded, and collections send the last values observed, or their differences.", "quantifier": "all hints which name an aggregation the instrument can have, all options, environments and preferences, all constructors, names and units, all histories of requests interleaved in any way with all calls, callbacks and collections, all attributes and values, all float additions and subtractions", "why_tests_cant": "Tests of hints look at the behaviour chosen for single instruments; that the choice is carried through storage, collection and export of every interleaving is not tested anywhere.", "anchors": ["lightstep/sdk/metric/internal/viewstate/viewstate.go: Compiler.Compile, Compiler.tryToApplyHint, pickAggConfig", "lightstep/sdk/metric/aggregator/aggregation/aggregation.go: ParseKind", "lightstep/sdk/metric/aggregator/aggregation/temporality.go: ParseTemporality", "lightstep/sdk/metric/view/hint.go: Hint", "launcher/config.go: setupMetrics", "pipelines/metrics.go: NewMetricsPipeline"]}
{"id": "C96", "title": "What counts as a measurement, end to end", "statement": "In a program which starts the launcher, it can be read off from the program which measurements count. A call on a synchronous instrument counts exactly if the constructor by which the instrument was made accepts the value: integers for integer instruments, finite floats for float instruments, and for counters and histograms no negative numbers. An observation counts exactly if it is made on the observer of a callback which has been started and has not returned, for an instrument declared for this callback, with an accepted value; it belongs to the collection during which the callback was started. Nothing is counted twice, and nothing else is counted. The attributes used are those given, texts cut off after 8192 bytes, for observations each key once with its last value. What is sent for observable instruments, in every collection, is made of the last of these observations for each instrument and set.", "quantifier": "all programs: all requests interleaved in any way with all calls, callbacks, observations from any number of goroutines, and collections; all constructors, with and without hints; all attributes and values; all options, environments and preferences", "why_tests_cant": "Whether an observation counts depends on the order of the steps of callbacks, observations and collections; tests run a handful of orders with one or two callbacks.", "anchors": ["lightstep/sdk/metric/internal/asyncstate/async.go: Observe, Observer.getOrCreate", "lightstep/sdk/metric/internal/asyncstate/callback.go: Callback.Run, callbackState.ObserveInt64, callbackState.ObserveFloat64, callbackState.invalidate", "lightstep/sdk/metric/internal/syncstate/sync.go: Observe, Observer.ObserveInt64, Observer.ObserveFloat64", "lightstep/sdk/metric/aggregator/aggregator.go: RangeTest", "launcher/config.go: setupMetrics"]}
{"id": "C97", "title": "Nothing is lost when the provider is flushed or shut down", "statement": "In a program which starts the launcher, everything recorded by calls which returned before ForceFlush or Shutdown was called has been sent when ForceFlush or Shutdown returns, even if the periodic reader was in the middle of a collection. Under delta temporality the values sent under a name and a set of attributes, over all payloads, together are exactly the values recorded: integer sums add up, counts of histograms add up, each recorded value of a gauge belongs to one point. Under cumulative temporality the last point sent with these attributes alone holds everything recorded: the sum, the count, the last value of the gauge. Nothing appears in a payload which was not recorded. When Shutdown has returned and no other flush is in progress, nothing more is sent unless ForceFlush or Shutdown is called again.", "quantifier": "all programs: all requests interleaved in any way with all calls, callbacks and observations from any number of goroutines, every step of every collection by the periodic reader, its ticks, and any number of concurrent ForceFlush and Shutdown calls; all constructors of synchronous instruments without hints; all attributes and values; all options, environments and preferences", "why_tests_cant": "Tests call Shutdown when the program is idle, or once with a waiting exporter. Here a tick's collection may be at any point: before, between or after the snapshots of the same instrument, waiting for callbacks, exporting, when calls return and the flush begins.", "anchors": ["lightstep/sdk/metric/provider.go: ForceFlush, Shutdown", "lightstep/sdk/metric/periodic.go: Shutdown, ForceFlush, collect, start, Register", "lightstep/sdk/metric/producer.go: Produce, collectFor, meter.collectFor", "lightstep/sdk/metric/internal/syncstate/sync.go: SnapshotAndProcess", "launcher/config.go: setupMetrics, WithMetricsEnabled", "pipelines/metrics.go: NewMetricsPipeline"]}
{"id": "C98", "title": "Everything which has begun returns", "statement": "At any point of any program, with the launcher's provider or one with several readers and views: if from then on nothing new begins, every call on an instrument, every observation and callback, every collection of any reader, and every ForceFlush and Shutdown which has begun returns after finitely many steps, in whatever order goroutines are scheduled. There is no deadlock between recording, collecting, flushing and shutting down, and no goroutine waits busily for ever.", "quantifier": "all programs as for C97, all points of all their executions, all schedules from there on, fair or not; all views, hints, attributes, values and limits", "why_tests_cant": "A test which passes shows that one schedule did not block. Locks, the mutex of the periodic reader, waiting for the loop in Shutdown, retries of calls which meet a record that is being removed, and tasks which wait for calls could block each other or retry for ever in some of infinitely many interleavings.", "anchors": ["lightstep/sdk/metric/internal/syncstate/sync.go: SnapshotAndProcess, collect, conditionalCollect, initialize, Observe", "lightstep/sdk/metric/internal/syncstate/bykeyvalue.go: acquireReadKV, acquireNotfoundKV, acquireWriteKV", "lightstep/sdk/metric/internal/viewstate/accumulators.go: SnapshotAndProcess, Update", "lightstep/sdk/metric/internal/viewstate/collectors.go: Collect", "lightstep/sdk/metric/internal/asyncstate/async.go: Observe, getOrCreate", "lightstep/sdk/metric/internal/asyncstate/callback.go: Run", "lightstep/sdk/metric/periodic.go: start, Shutdown, ForceFlush, collect", "lightstep/sdk/metric/producer.go: Produce, collectFor"]}
{"id": "C99", "title": "Recording takes a bounded number of steps", "statement": "A call on a synchronous instrument takes a bounded number of steps, whatever other goroutines do at the same time: at most three for each output metric of the instrument and six more, so at most nine with the provider of the launcher. It never starts again because of what others do, neither other calls with the same attributes nor a collection which removes the record it has found. A call waits only for a collection of its own instrument or of one of its output metrics, never for another call: while no reader is collecting, a call returns by itself even if other calls are stopped wherever they are.", "quantifier": "all programs as for C97 with any number of readers and views, all points of all executions at which a call is made, everything that goes on until the call returns: any number of other calls, collections of any reader, requests; all attributes, values and limits", "why_tests_cant": "The code has a loop which looks for a record again when the one found is being removed. Benchmarks show average times; how often the loop is taken depends on the interleaving with collections, and no number of runs shows that it is never taken twice.", "anchors": ["lightstep/sdk/metric/internal/syncstate/sync.go: Observe, initialize, SnapshotAndProcess", "lightstep/sdk/metric/internal/syncstate/bykeyvalue.go: acquireUninitializedKV, acquireReadKV, acquireReadLockedKV, acquireNotfoundKV, acquireWriteKV", "lightstep/sdk/metric/internal/syncstate/refcount_mapped.go: ref, unref, tryUnmap", "lightstep/sdk/metric/internal/viewstate/accumulators.go: NewAccumulator, findStorage, Update"]}
{"id": "C100", "title": "Under a fair scheduler nothing waits for ever, however busy the program is", "statement": "While a program keeps recording, observing, ticking, flushing and collecting without end, nothing which has begun is postponed for ever: every call on an instrument returns, every observation is made or rejected, every collection of any reader ends, every ForceFlush and Shutdown returns, the reader's loop ends after Shutdown has stopped it, and every tick is followed by another export unless the loop ends. This needs only that the scheduler is fair: a goroutine which can go on again and again goes on some time, a select which finds its context cancelled again and again takes that branch some time, and callbacks return. (A provider asked for an instrument which all its readers drop is excepted: its collections panic.)", "quantifier": "all programs as for C97 with any number of readers and views; all endless executions from any reachable state in which no more instruments are asked for: any calls, attributes, values, callbacks, ticks, requests and collections of other readers, without bound; all fair schedules", "why_tests_cant": "Starvation is a property of endless executions. A test ends, and a run in which everything returned in time says nothing about another order in which one goroutine finds the lock taken each time it comes.", "anchors": ["lightstep/sdk/metric/periodic.go: start, Shutdown, ForceFlush, collect", "lightstep/sdk/metric/producer.go: Produce, collectFor", "lightstep/sdk/metric/internal/syncstate/sync.go: Observe, initialize, SnapshotAndProcess", "lightstep/sdk/metric/internal/viewstate/collectors.go: Collect", "lightstep/sdk/metric/internal/asyncstate/async.go: Observe"]}
{"id": "C101", "title": "The Prometheus exporter is handed what was recorded", "statement": "In a program whose periodic reader has the Prometheus exporter, this is handed one payload for each collection. It has the same resource, scopes, names, units, descriptions and attributes which an OTLP exporter would have been handed, and exactly the same points of sums and gauges. Each exponential histogram is replaced by a histogram with explicit boundaries with the same attributes, times, count, sum, minimum and maximum and with all values in its buckets. So when ForceFlush or Shutdown returns, the last sum handed to the exporter under a name and attributes is the sum of all that was recorded with these before, and the last histogram is made of exactly the values recorded. Exporting does not panic, whatever values were recorded.", "quantifier": "all programs as for C97, with any readers and views: any requests, calls, observations, ticks, ForceFlush and Shutdown calls from any number of goroutines, in any interleaving; all attributes, values, limits and histogram configurations", "why_tests_cant": "The tests of the Prometheus exporter convert single histograms whose values are close together. Which scale and which buckets a histogram has depends on all values recorded since its last reset, and whether what arrives is all that was recorded on the interleaving of calls and collections.", "anchors": ["lightstep/sdk/metric/exporters/prom/client.go: NewExporter, ExportMetrics, ShutdownMetrics, ForceFlushMetrics", "lightstep/sdk/metric/internal/export/export.go: ExportMetrics, d2pd, copyExplicitHistogramPoints, copyExplicitHistogramBuckets", "lightstep/sdk/metric/periodic.go: collect"]}
{"id": "C102", "title": "Each of several readers sends all that was recorded", "statement": "In a program with any number of periodic readers, whose provider is flushed and shut down, what each reader sends does not depend on the others. When ForceFlush or Shutdown of the provider returns, the same call has been made on each reader and has returned; and each reader's exporter has been handed, under a name and attributes, all that was recorded with these before: as last cumulative sum, or as delta points adding up to it, or as histograms of exactly the values recorded, or as minimum, maximum, sum and count. So a reader with cumulative temporality and one with delta temporality agree. A delta point is not missing for one reader because another has collected it before. Each collection of a reader shows of an observable instrument what callbacks observed for this collection of this reader, and its deltas are against the previous collection of the same reader. When all calls of Shutdown and ForceFlush have returned, nothing more is handed to an exporter by tickers or a further Shutdown of the provider.", "quantifier": "all programs with any number of readers and any views: any requests for meters and instruments, calls, observations, ticks, and ForceFlush and Shutdown calls, of the provider and of single readers, from any number of goroutines, in any interleaving; all attributes, values and limits", "why_tests_cant": "Tests with two readers collect from one after the other, in one goroutine. That the collections of the readers, each with its own snapshots of shared instruments, do not take points from each other has to hold for every interleaving of their collections with each other and with the calls.", "anchors": ["lightstep/sdk/metric/provider.go: ForceFlush, Shutdown", "lightstep/sdk/metric/periodic.go: ForceFlush, Shutdown, collect, start", "lightstep/sdk/metric/producer.go: Produce", "lightstep/sdk/metric/internal/syncstate/sync.go: SnapshotAndProcess"]}
{"id": "C103", "title": "With several readers, what has begun comes to an end though more keeps beginning", "statement": "In a program with any number of periodic readers that goes on for ever, in which calls, observations, callbacks, ticks, ForceFlush and Shutdown of the provider and of its readers keep coming, and whose scheduler is fair, every call on a synchronous instrument returns, every observation is made or rejected, every collection of each reader ends, every ForceFlush and Shutdown of each reader and of the provider returns, the loop of a reader that is shut down returns, and while its ticker fires each exporter is called without end. Hence, when ForceFlush or Shutdown of the provider has begun after the calls on an int64 counter, and no more are made meanwhile, some time the last number that a reader with cumulative temporality has sent for any attributes is the total recorded with them.", "quantifier": "all endless executions, under every fair schedule, of all programs with any number of readers and any views, in which meters and instruments are asked for finitely often; any number of goroutines", "why_tests_cant": "A test sees a finite part of some schedules. That a provider's Shutdown cannot wait for ever for a reader that other goroutines, tickers and the other readers keep busy is a statement about all endless fair executions.", "anchors": ["lightstep/sdk/metric/provider.go: ForceFlush, Shutdown", "lightstep/sdk/metric/periodic.go: ForceFlush, Shutdown, collect, start", "lightstep/sdk/metric/producer.go: Produce, collectFor", "lightstep/sdk/metric/internal/syncstate/sync.go: SnapshotAndProcess, ObserveInt64, ObserveFloat64"]}
{"id": "C104", "title": "The numbers that arrive for Go runtime metrics are those the runtime gave", "statement": "When a launched program starts the runtime instrumentation, every payload of a collection in which its callback ran has, under each metric name of that instrumentation, exactly one point for each Go runtime metric that is reported under this name and whose value is accepted, and no others: its attributes are the classes taken from the name of the runtime metric, and its value is what the runtime gave in that collection (gauges, and sums with cumulative temporality). With delta temporality there is one point for each runtime metric that changed since the collection before, or was not accepted in that one, with the difference or the whole value. A metric is a gauge, a monotonic or a non-monotonic sum as documented for its family, with the unit in the name of the runtime metric and floats only for runtime metrics that are floats.", "quantifier": "all lists of runtime metrics (names and value kinds) a Go release may offer, all values read in all collections, all temporality preferences, all programs that also use the launcher in other ways, all interleavings of their calls with collections", "why_tests_cant": "A test sees the metrics of the Go release it runs on, and the values of one run. That no runtime metric is lost, reported twice, mixed up with another one of the same family, or attributed to the wrong class is a statement about all lists of metrics and values, and it depends on the matching of names, the callback, the asynchronous state, views and the exporter together.", "anchors": ["lightstep/instrumentation/runtime/builtin.go: register", "lightstep/instrumentation/runtime/descriptor.go: findMatch", "lightstep/sdk/metric/internal/asyncstate/async.go: SnapshotAndProcess, Observe", "lightstep/sdk/metric/internal/export/export.go: ExportMetrics, d2pd, copySumPoints, copyGaugePoints"]}
{"id": "C105", "title": "The numbers that arrive for host and process metrics are those the operating system gave", "statement": "When a launched program starts the host or the process instrumentation, every payload of a collection in which its callback ran has, under each of its metric names, exactly one point for each state or direction for which the operating system gave a finite number, and no others: CPU time by state, used and available memory in bytes and relative to the total, bytes sent and received, CPU time of the process in user and system mode, and the time since its start. Each has the state or direction as its only attribute, and the value of that collection, or with delta temporality the difference from the collection before where there is one. When a source of the host metrics fails, nothing is sent under any of their names. CPU time and network traffic are monotonic sums, memory usage and the time since the start sums that are not monotonic, memory utilization is a gauge; units are seconds and bytes.", "quantifier": "all answers of the operating system (and errors) in all collections, all temporality preferences, all programs that also use the launcher in other ways, all interleavings of their calls with collections", "why_tests_cant": "A test sees the values of one machine at a time. That no state is lost, reported twice, mixed up with another or attributed to another metric is a statement about all answers, and it depends on the callback, the asynchronous state, views, the temporality and the exporter together.", "anchors": ["lightstep/instrumentation/host/host.go: register", "lightstep/instrumentation/cputime/cputime.go: register", "lightstep/instrumentation/cputime/cputime_unix.go: getProcessTimes", "lightstep/sdk/metric/internal/asyncstate/async.go: SnapshotAndProcess, Observe", "lightstep/sdk/metric/internal/export/export.go: ExportMetrics, d2pd, copySumPoints, copyGaugePoints"]}
{"id": "C106", "title": "A flush or shutdown while the program goes on recording sends everything recorded before it, and nothing twice", "statement": "A launched program records values from any number of goroutines. At some moment ForceFlush or Shutdown of the metric reader is called and returns, while recordings that had begun go on and others are made. Then, for every counter, up-down counter and histogram that was asked for before, and every set of attributes (while their number is within the limits of the SDK), what has been sent by the time of the return contains every value whose recording had returned before the call, each exactly once, together with some of the values recorded meanwhile, each at most once: with delta temporality in all points together, with cumulative temporality in the last point. Nothing is sent under its name with attributes with which nothing was recorded. For a gauge whose calls are made one after another, the last point sent with a set of attributes carries, with cumulative temporality, the value of a call than which none that had returned before was made later; with delta temporality the values fall into groups, one for each point, which carries the last value of its group.", "quantifier": "all programs using the launcher, all values and attributes, all interleavings of any number of recordings, collections, flushes and shutdowns, all temporality preferences", "why_tests_cant": "A test stops recording before it flushes, or it cannot say which of the concurrent values must be in the result. Losing a value whose recording had returned, or counting one twice, needs a particular interleaving of the recording with the collection, of which there are unboundedly many.", "anchors": ["lightstep/sdk/metric/internal/syncstate/sync.go: acquireUninitialized, Observe, SnapshotAndProcess", "lightstep/sdk/metric/producer.go: Produce, collectFor, meter.collectFor", "lightstep/sdk/metric/periodic.go: ForceFlush, Shutdown, collect"]}
{"id": "C107", "title": "Failed exports lose nothing which a later export carries, and cause nothing to arrive twice", "statement": "Exports of metrics may fail, each for its own reason. When the last export, that of a ForceFlush or Shutdown of the metric reader, succeeds, nothing that was recorded is lost, whichever exports have failed before. With cumulative temporality the last point which arrives for a counter, up-down counter or histogram and a set of attributes holds every value whose recording had returned before the call, and of the values recorded meanwhile each at most once; for a gauge, with calls one after another, it is the value recorded last, or, if recording goes on, one recorded not earlier than the last whose call had returned. With delta temporality the points which arrive hold no value twice. (False for delta temporality in one respect: what a failed export carried does not arrive later.) The same holds for instruments whose descriptions carry hints.", "quantifier": "all programs using the launcher, all subsets of the exports failing, all values and attributes, all interleavings of recordings, collections, flushes and shutdowns, all temporality preferences", "why_tests_cant": "A test fails one export of its choice, in a program of its choice, and compares one result. That no pattern of failures makes a value count twice, or makes a cumulative series forget, is a statement about every subset of the exports of every execution.", "anchors": ["lightstep/sdk/metric/periodic.go: collect, start, ForceFlush, Shutdown", "lightstep/sdk/metric/producer.go: Produce", "lightstep/sdk/metric/internal/viewstate/collectors.go: Collect"]}
{"id": "C108", "title": "What a program sends of its spans which starts the launcher", "statement": "The launcher, configured by options and the environment, starts its trace pipeline. Spans are sent to the endpoint configured last, with the headers and access token configured. Every batch of ended spans is sent exactly once, in order, whatever was answered to earlier batches; its payload has exactly the spans of the batch, each once, in order and with all its contents, each under the scope of its tracer, and carries exactly the resource attributes which options and environment give, the same as those of the metrics. The self-telemetry counts as exported the spans of accepted payloads, and as failed those of refused ones. (False for the version and schema URL of the scope: spans ended one after the other by tracers with the same name are all put under the first one's.)", "quantifier": "all options and environments with which the launcher starts tracing, all sequences of batches of spans, all answers of the components behind the exporter", "why_tests_cant": "A test exports a batch or two with one resource. The exporter keeps a cache of the converted resource over its whole life, and the grouping depends on the order in which spans of different tracers end; that nothing is mixed up is a statement about every sequence of batches and every configuration.", "anchors": ["pipelines/trace.go: NewTracePipeline, newTraceExporter", "launcher/config.go: setupTracing, ConfigureOpentelemetry", "lightstep/sdk/trace/exporters/otlp/otelcol/client.go: ExportSpans, Shutdown", "lightstep/sdk/trace/exporters/otlp/otelcol/otlp.go: d2pd", "lightstep/sdk/internal/common.go: ResourceMap"]}
{"id": "C109", "title": "A program that stops recording gives its memory back", "statement": "Once a program has stopped recording and its calls have returned, collections give back what recording took: after InactiveCollectionPeriods + 1 collections an instrument keeps no record of any attribute set, so the next call with a new set is not sent to the overflow series; after two more, a view with delta temporality keeps no series. Collections may interleave with those of other readers in any way. One collection fewer does not suffice for the records. A view with cumulative temporality keeps all its series for ever.", "quantifier": "all programs, reachable states in which nothing is under way, numbers of collections, orders and interleavings of the collector tasks of all readers, aggregations, number kinds and values of InactiveCollectionPeriods", "why_tests_cant": "A test collects a few times in one fixed order with the period set to 1. That nothing is left behind depends on a reference count shared by all instruments feeding a series, on an inactivity count which every reader's collection advances, and on what is pending when the program stops; every interleaving has to be considered, and a leak shows only after a long time.", "anchors": ["lightstep/sdk/metric/internal/syncstate/sync.go: SnapshotAndProcess, collect, conditionalCollect", "lightstep/sdk/metric/internal/syncstate/refcount_mapped.go: tryUnmap", "lightstep/sdk/metric/internal/viewstate/accumulators.go: syncAccumulator.SnapshotAndProcess, findStorage", "lightstep/sdk/metric/internal/viewstate/collectors.go: lowmemorySyncInstrument.Collect", "lightstep/sdk/metric/sdkinstrument/performance.go: InactiveCollectionPeriods"]}
{"id": "C110", "title": "What a launched program says of its own exports", "statement": "A program started through the launcher sends, under the name otelsdk.telemetry.items, how many metric points its exporter handed over and with which outcome: success true or false and state ok, canceled, timeout or error. When ForceFlush or Shutdown hands over its payload, the points sent for an outcome tell the number of points of all payloads that were answered with this outcome before the call, and perhaps of some answered meanwhile, and no others; exactly the former if none was answered meanwhile. With a delta preference the points sent add up to this, with a cumulative one the last point tells it. Every point sent under this name tells an outcome that occurred. When no export is under way, all payloads sent have been counted.", "quantifier": "all programs, instruments, attributes and values, temporality preferences, answers of the collector, schedules of recording, collection and export", "why_tests_cant": "The exporter counts with the very pipeline whose payloads it counts: a count recorded while one payload is answered travels in a later one. That no payload is counted twice, under another outcome or not at all depends on every interleaving of the call on the counter with collections, flushes and the program's own calls; a test sees one schedule and one answer.", "anchors": ["lightstep/sdk/metric/internal/export/export.go: ExportMetrics", "lightstep/sdk/internal/common.go: ConfigureSelfTelemetry", "lightstep/sdk/metric/exporters/otlp/otelcol/client.go: NewExporter, NewDefaultConfig"]}
{"id": "C111", "title": "What a launched program says of the spans it exports", "statement": "A program started through the launcher sends, under the name otelsdk.telemetry.items of the meter lightstep-go/sdk/trace, how many spans its exporter handed over and with which outcome: success true or false and state ok, canceled, timeout or error. When ForceFlush or Shutdown of the metrics hands over its payload, the points sent for an outcome tell the number of spans of all batches that were answered with this outcome before the call, and perhaps of some answered meanwhile; exactly the former if none was answered meanwhile. With a delta preference the points sent add up to this, with a cumulative one the last point tells it. Every point sent under this name tells an outcome that occurred.", "quantifier": "all programs, batches of spans, answers of the collector, instruments, attributes and values, temporality preferences, schedules of recording, collection and the export of spans", "why_tests_cant": "Spans are exported by one goroutine and counted with the metrics pipeline, which others collect and export. That no batch is counted twice, under another outcome or not at all depends on every interleaving of the call on the counter with collections and flushes; a test sees one schedule and one answer.", "anchors": ["lightstep/sdk/trace/exporters/otlp/otelcol/client.go: ExportSpans, NewExporter", "lightstep/sdk/internal/common.go: ConfigureSelfTelemetry"]}
{"id": "C112", "title": "A flush or shutdown while the program goes on recording sends instruments with hints as they ask", "statement": "A launched program records values from any number of goroutines on synchronous instruments whose descriptions carry hints: they are shown as sums, gauges, histograms, or with minimum, maximum, sum and count, with the temporality, histogram size and number of attribute sets the hint gives. At some moment ForceFlush or Shutdown of the metric reader is called and returns, while recordings that had begun go on and others are made. Then, for every such instrument and every set of attributes (while their number is within the limits), what has been sent by the time of the return contains every value whose recording had returned before the call, each exactly once, together with some of the values recorded meanwhile, each at most once: with delta temporality in all points together, with cumulative temporality in the last point. Every point of a gauge carries a value that was recorded with its attributes. If recordings on the instruments with the name do not overlap, the last point of a cumulative gauge is not older than the newest recording with its attributes that had returned before the call, and with delta temporality each point carries the newest of the values it stands for. Nothing is sent under the name with attributes with which nothing was recorded.", "quantifier": "all programs using the launcher, all hints, all values and attributes, all interleavings of any number of recordings, collections, flushes and shutdowns, all temporality preferences", "why_tests_cant": "As for C106, loss or double counting needs a particular interleaving of a recording with the collection. Hints multiply the cases: every aggregation can be combined with every kind of instrument and temporality, and a point without a value is only sent when a flush falls between two steps of the first recording with its attributes.", "anchors": ["lightstep/sdk/metric/internal/viewstate/viewstate.go: Compile", "lightstep/sdk/metric/internal/syncstate/sync.go: Observe, SnapshotAndProcess", "lightstep/sdk/metric/aggregator/gauge/gauge.go: Methods.Update, Methods.Move, Methods.Copy", "lightstep/sdk/metric/aggregator/minmaxsumcount/minmaxsumcount.go: Methods.Update", "lightstep/sdk/metric/periodic.go: ForceFlush, Shutdown, collect"]}
