import Verif.Model.TraceExport

/-!
The exporter clients: `lightstep/sdk/metric/exporters/otlp/otelcol/client.go`, `lightstep/sdk/metric/exporters/prom/client.go`,
`lightstep/sdk/trace/exporters/otlp/otelcol/client.go`, the shared `export.ExportMetrics`
(`lightstep/sdk/metric/internal/export/export.go:319-362`), and the renaming meter of `lightstep/sdk/internal/common.go:114-199`.

The collector components (batcher and exporter) are external. What they answer is an argument everywhere: an error or nil,
for `ConsumeMetrics` depending on the payload. `E` is the type of errors.
-/

namespace Verif.Client
open Verif Verif.Attr Verif.Export
variable {E : Type}

/-- What `errors.Is` says about an error. -/
structure Errs (E : Type) where
  /-- `errors.Is(err, context.Canceled)` -/
  canceled : E → Bool
  /-- `errors.Is(err, context.DeadlineExceeded)` -/
  deadline : E → Bool

/-- Observable effects of a client, in order. -/
inductive Ev (P E : Type) where
  /-- the payload is handed to the next component, which answers -/
  | consume (p : P) (answer : Option E)
  /-- `otelsdk.telemetry.items` is incremented, with attributes `success` and `state` -/
  | count (n : Nat) (success : Bool) (state : String)
  /-- the span around the export: number of items, attributes, and whether its status is Ok -/
  | span (n : Nat) (success : Bool) (state : String) (ok : Bool)
  | startExporter (answer : Option E)
  | startBatcher (answer : Option E)
  | shutdownBatcher (answer : Option E)
  | shutdownExporter (answer : Option E)
deriving DecidableEq, Repr

/-- The attribute `state` (export.go:340-350, trace client.go:96-106). -/
def stateOf (x : Errs E) : Option E → String
  | none => "ok"
  | some e => if x.canceled e then "canceled" else if x.deadline e then "timeout" else "error"

/-- What follows after the next component answered (export.go:339-360, trace client.go:95-117). -/
def account {P : Type} (x : Errs E) (n : Nat) (err : Option E) : List (Ev P E) :=
  [.count n err.isNone (stateOf x err), .span n err.isNone (stateOf x err) err.isNone]

/-! ### Metrics -/

/-- The points of the data of a metric, `Metric.…().DataPoints().Len()`. -/
def dataLen : PData → Nat
  | .sum _ _ ps => ps.length
  | .gauge ps => ps.length
  | .hist _ ps => ps.length
  | .exp _ ps => ps.length

/-- `pmetric.Metrics.DataPointCount` (external, pdata): the points of all metrics of all scopes. -/
def dataPointCount (p : Payload) : Nat := (p.scopes.flatMap (fun s => s.metrics.map (fun m => dataLen m.data))).sum

/-- `export.ExportMetrics` (export.go:319-362). The result is `none` when the conversion panics. -/
def exportMetrics (m : Mapping) (x : Errs E) (useExp : Bool) (next : Payload → Option E) (rm : ResourceMap) (data : Metrics) :
    ResourceMap × Option (List (Ev Payload E) × Option E) :=
  let (rm, out) := d2pd m rm data useExp
  (rm, out.map (fun p => (.consume p (next p) :: account x (dataPointCount p) (next p), next p)))

/-- `multierr.Append(err, e)` for a possibly nil `e`; a combined error is the list of its parts. -/
def append (errs : List E) (e : Option E) : List E := errs ++ e.toList

/-- `ShutdownMetrics` of the OTLP client (metric client.go:218-231); `ForceFlushMetrics` is `ExportMetrics` (233-235). A panic of the
flush skips the rest; the effects before it are none. -/
def shutdownOtlp (m : Mapping) (x : Errs E) (next : Payload → Option E) (bat exp : Option E) (rm : ResourceMap) (data : Metrics) :
    ResourceMap × Option (List (Ev Payload E) × List E) :=
  let (rm, out) := exportMetrics m x true next rm data
  (rm, out.map (fun r =>
    (r.1 ++ [.shutdownBatcher bat, .shutdownExporter exp], append (append (append [] r.2) bat) exp)))

/-- `ShutdownMetrics` of the Prometheus client (prom/client.go:157-166). -/
def shutdownProm (m : Mapping) (x : Errs E) (next : Payload → Option E) (exp : Option E) (rm : ResourceMap) (data : Metrics) :
    ResourceMap × Option (List (Ev Payload E) × List E) :=
  let (rm, out) := exportMetrics m x false next rm data
  (rm, out.map (fun r => (r.1 ++ [.shutdownExporter exp], append (append [] r.2) exp)))

/-! ### Spans -/

open TraceExport in
/-- `ptrace.Traces.SpanCount` (external, pdata). -/
def spanCount : Traces → Nat
  | .empty => 0
  | .one _ ss => (ss.map (fun s => s.spans.length)).sum

/-- `ExportSpans` (trace client.go:84-119). -/
def exportSpans (x : Errs E) (next : TraceExport.Traces → Option E) (rm : ResourceMap) (spans : List TraceExport.Span) :
    ResourceMap × Option (List (Ev TraceExport.Traces E) × Option E) :=
  let (rm, out) := TraceExport.d2pd rm spans
  (rm, out.map (fun p => (.consume p (next p) :: account x (spanCount p) (next p), next p)))

/-- `Shutdown` (trace client.go:121-130). -/
def shutdownTrace (bat exp : Option E) : List (Ev TraceExport.Traces E) × List E :=
  ([.shutdownBatcher bat, .shutdownExporter exp], append (append [] bat) exp)

/-! ### A client over its life -/

/-- Calls on an OTLP metrics client with what the components answer to each. -/
inductive Call (E : Type) where
  | export (data : Metrics) (next : Payload → Option E)
  | flush (data : Metrics) (next : Payload → Option E)
  | shutdown (data : Metrics) (next : Payload → Option E) (bat exp : Option E)

/-- One call: new state and effects (metric client.go:205-235). -/
def call (m : Mapping) (x : Errs E) (rm : ResourceMap) : Call E → ResourceMap × List (Ev Payload E)
  | .export d next | .flush d next =>
    let r := exportMetrics m x true next rm d
    (r.1, (r.2.map (·.1)).getD [])
  | .shutdown d next bat exp =>
    let r := shutdownOtlp m x next bat exp rm d
    (r.1, (r.2.map (·.1)).getD [])

/-- Any sequence of calls: all effects in order. -/
def calls (m : Mapping) (x : Errs E) : ResourceMap → List (Call E) → List (Ev Payload E)
  | _, [] => []
  | rm, c :: cs => (call m x rm c).2 ++ calls m x (call m x rm c).1 cs

/-! ### Construction -/

/-- The answers of external code during `NewExporter`. -/
structure Answers (E : Type) where
  /-- `ConfigureSelfTelemetry` -/
  self : Option E
  /-- `CreateMetrics`/`CreateTraces` of the exporter -/
  createExporter : Option E
  /-- the same of the batcher -/
  createBatcher : Option E
  startExporter : Option E
  startBatcher : Option E

/-- `NewExporter` of the two OTLP clients (metric client.go:144-198, trace client.go:208-279): effects, and the error
returned, if any. The effects of creation are not observable. -/
def newExporter {P : Type} (a : Answers E) : List (Ev P E) × Option E :=
  match a.self with
  | some e => ([], some e)
  | none =>
  match a.createExporter with
  | some e => ([], some e)
  | none =>
  match a.createBatcher with
  | some e => ([], some e)
  | none =>
  match a.startExporter with
  | some e => ([.startExporter (some e)], some e)
  | none =>
  match a.startBatcher with
  | some e => ([.startExporter none, .startBatcher (some e)], some e)
  | none => ([.startExporter none, .startBatcher none], none)

/-! ### Configuration -/

/-- `configtls.ClientConfig`: the flag and the rest (`R`). -/
structure Tls (R : Type) where
  insecure : Bool
  rest : R
deriving DecidableEq, Repr

/-- The parts of `Config` (metric client.go:49-54, trace client.go:50-55) the options or the pipelines change, and the
fixed defaults a user relies on. Durations in seconds. -/
structure Config (R : Type) where
  selfMetrics : Bool
  selfSpans : Bool
  batchTimeout : Nat
  batchSize : Nat
  batchMaxSize : Nat
  timeout : Nat
  retry : Bool
  queue : Bool
  arrowDisabled : Bool
  endpoint : String
  headers : List (String × String)
  compression : String
  tls : Tls R
deriving DecidableEq, Repr

/-- `NewDefaultConfig`: metric client.go:68-100 with `batchTimeout` 0, trace client.go:132-164 with 1 second. -/
def defaultConfig {R : Type} (zero : R) (batchTimeout : Nat) : Config R :=
  { selfMetrics := true, selfSpans := true, batchTimeout, batchSize := 1000, batchMaxSize := 1500, timeout := 15
    retry := false, queue := false, arrowDisabled := true, endpoint := "", headers := [], compression := "zstd"
    tls := { insecure := false, rest := zero } }

/-- The options (metric client.go:112-142, trace client.go:176-206). A map of headers is the list of its entries in the order
the iteration yields them. -/
inductive Opt (R : Type) where
  | endpoint (addr : String)
  | headers (hdrs : List (String × String))
  | compressor (comp : String)
  | insecure
  | tls (t : Tls R)

/-- `headers[key] = val`. -/
def setHeader (h : List (String × String)) (e : String × String) : List (String × String) :=
  (h.filter (fun x => !(x.1 == e.1))) ++ [e]

def Opt.apply {R : Type} (cfg : Config R) : Opt R → Config R
  | .endpoint a => { cfg with endpoint := a }
  | .headers hs => { cfg with headers := hs.foldl setHeader cfg.headers }
  | .compressor c => { cfg with compression := c }
  | .insecure => { cfg with tls := { cfg.tls with insecure := true } }
  | .tls t => { cfg with tls := t }

/-- `NewConfig` (metric client.go:102-110, trace client.go:166-174); `none` is a nil option. -/
def newConfig {R : Type} (dflt : Config R) (opts : List (Option (Opt R))) : Config R :=
  opts.foldl (fun cfg o => match o with | some o => o.apply cfg | none => cfg) dflt

/-- The TLS part of `pipelines.PipelineConfig` (pipelines/common.go:27-66). -/
structure Pipeline (R : Type) where
  endpoint : String
  insecure : Bool
  headers : List (String × String)
  tls : Option (Tls R)

/-- `secureMetricOption`, `secureTraceOption` (pipelines/common.go:70-90). -/
def secureOption {R : Type} (zero : R) (p : Pipeline R) : Opt R :=
  if p.insecure then .insecure
  else match p.tls with
    | some t => .tls t
    | none => .tls { insecure := false, rest := zero }

/-- The configuration in `newMetricsExporter` (pipelines/metrics.go:149-159) and `newTraceExporter` (pipelines/trace.go:58-68). -/
def pipelineConfig {R : Type} (zero : R) (batchTimeout : Nat) (p : Pipeline R) : Config R :=
  newConfig (defaultConfig zero batchTimeout)
    [some (secureOption zero p), some (.endpoint p.endpoint), some (.headers p.headers), some (.compressor "gzip")]

/-! ### Providers for self-telemetry -/

/-- A meter or tracer provider: one passed by the user, the global one, or the no-op one. -/
inductive Prov where
  | user (n : Nat)
  | global
  | noop
deriving DecidableEq, Repr

/-- `ExporterOptions` (trace client.go:57-60). -/
structure ExpOpts where
  tracer : Option Prov
  meter : Option Prov
deriving DecidableEq, Repr

/-- `WithTracerProvider`, `WithMeterProvider` (trace client.go:62-72); the argument may be nil. -/
inductive ExpOpt where
  | tracer (p : Option Prov)
  | meter (p : Option Prov)
deriving DecidableEq, Repr

def ExpOpt.apply (o : ExpOpts) : ExpOpt → ExpOpts
  | .tracer p => { o with tracer := p }
  | .meter p => { o with meter := p }

/-- The loop over the options (trace client.go:213-215): calling a nil function panics. -/
def applyExpOpts : ExpOpts → List (Option ExpOpt) → Option ExpOpts
  | o, [] => some o
  | _, none :: _ => none
  | o, some f :: fs => applyExpOpts (f.apply o) fs

/-- The providers used by the trace exporter (trace client.go:209-235), tracer first. -/
def traceProviders {R : Type} (cfg : Config R) (opts : List (Option ExpOpt)) : Option (Prov × Prov) :=
  (applyExpOpts { tracer := none, meter := none } opts).map (fun o =>
    (match o.tracer with
      | some p => p
      | none => if cfg.selfSpans then .global else .noop,
     match o.meter with
      | some p => p
      | none => if cfg.selfMetrics then .global else .noop))

/-- The providers used by the metric exporters (metric client.go:149-157, prom/client.go:104-112). -/
def metricProviders {R : Type} (cfg : Config R) : Prov × Prov :=
  (if cfg.selfSpans then .global else .noop, if cfg.selfMetrics then .global else .noop)

/-! ### Renaming of the components' own metrics -/

/-- The constructors of `metric.Meter`. -/
inductive Ctor where
  | int64Counter | int64UpDownCounter | int64Histogram | int64Gauge
  | int64ObservableCounter | int64ObservableUpDownCounter | int64ObservableGauge
  | float64Counter | float64UpDownCounter | float64Histogram | float64Gauge
  | float64ObservableCounter | float64ObservableUpDownCounter | float64ObservableGauge
deriving DecidableEq, Repr

/-- `fixName` (lightstep/sdk/internal/common.go:130-135), on bytes. -/
def fixName (otelcol otelsdk name : Str) : Str :=
  if otelcol.isPrefixOf name then otelsdk ++ name.drop 8 else name

/-- `"otelcol_"`. -/
def otelcol_ : Str := [0x6f, 0x74, 0x65, 0x6c, 0x63, 0x6f, 0x6c, 0x5f]
/-- `"otelsdk_"`. -/
def otelsdk_ : Str := [0x6f, 0x74, 0x65, 0x6c, 0x73, 0x64, 0x6b, 0x5f]

/-- The methods of `notelMeter` (lightstep/sdk/internal/common.go:137-191): the constructor called on the wrapped meter, and its name argument. -/
def renamed : Ctor → Str → Ctor × Str
  | .int64Counter, n => (.int64Counter, fixName otelcol_ otelsdk_ n)
  | .int64UpDownCounter, n => (.int64UpDownCounter, fixName otelcol_ otelsdk_ n)
  | .int64Histogram, n => (.int64Histogram, fixName otelcol_ otelsdk_ n)
  | .int64Gauge, n => (.int64Gauge, fixName otelcol_ otelsdk_ n)
  | .int64ObservableCounter, n => (.int64ObservableCounter, fixName otelcol_ otelsdk_ n)
  | .int64ObservableUpDownCounter, n => (.int64ObservableUpDownCounter, fixName otelcol_ otelsdk_ n)
  | .int64ObservableGauge, n => (.int64ObservableGauge, fixName otelcol_ otelsdk_ n)
  | .float64Counter, n => (.float64Counter, fixName otelcol_ otelsdk_ n)
  | .float64UpDownCounter, n => (.float64UpDownCounter, fixName otelcol_ otelsdk_ n)
  | .float64Histogram, n => (.float64Histogram, fixName otelcol_ otelsdk_ n)
  | .float64Gauge, n => (.float64Gauge, fixName otelcol_ otelsdk_ n)
  | .float64ObservableCounter, n => (.float64ObservableCounter, fixName otelcol_ otelsdk_ n)
  | .float64ObservableUpDownCounter, n => (.float64ObservableUpDownCounter, fixName otelcol_ otelsdk_ n)
  | .float64ObservableGauge, n => (.float64ObservableGauge, fixName otelcol_ otelsdk_ n)

end Verif.Client
