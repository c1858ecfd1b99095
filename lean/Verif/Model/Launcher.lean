import Verif.Model.Views

/-!
The launcher: configuration from environment and options, validation, resource, pipeline setup.

Models `launcher/config.go` and `pipelines/{common,trace,metrics}.go`.
External and abstract: reading environment variables (`envconfig`, `resource.Environment`, `os.Getenv`, `os.Hostname`),
creating exporters, `time.ParseDuration`, `strings.ToLower`, the three instrumentation libraries' own start functions.
-/

namespace Verif.Launcher
open Verif.Attr Verif.Views Verif.Front

/-- A Go `map[string]string`; `none` is the nil map. -/
abbrev HMap := Option (Str → Option Str)

/-- `m[k]` for a Go map of strings: the empty string if absent; reading a nil map is allowed. -/
def HMap.read (m : HMap) (k : Str) : Str :=
  match m with
  | none => []
  | some f => (f k).getD []

/-- `m[k] = v`; `none` is the panic of assigning to a nil map. -/
def HMap.write (m : HMap) (k v : Str) : Option HMap :=
  match m with
  | none => none
  | some f => some (some (fun j => if j = k then some v else f j))

/-- `make(map[string]string)`. -/
def HMap.empty : HMap := some (fun _ => none)

/-- `if c.Headers == nil { c.Headers = make(..) }` (config.go:44-46, 82-84, 416-418). -/
def HMap.ensure (m : HMap) : HMap :=
  match m with
  | none => .empty
  | some f => some f

/-- `lightstepAccessTokenHeader` (config.go:34). -/
def tokenHeader : Str := lit "lightstep-access-token"

/-- `DefaultSpanExporterEndpoint`, `DefaultMetricExporterEndpoint` (config.go:217-218). -/
def defaultSpanEndpoint : Str := lit "ingest.lightstep.com:443"
def defaultMetricEndpoint : Str := lit "ingest.lightstep.com:443"

/-- `Config` (config.go:221-240). Loggers and error handlers are opaque values. -/
structure Config where
  spanEndpoint : Str
  spanInsecure : Bool
  serviceName : Str
  serviceVersion : Str
  headers : HMap
  metricEndpoint : Str
  metricInsecure : Bool
  tempoPref : Str
  metricsEnabled : Bool
  builtinsEnabled : Bool
  builtinLibs : List Str
  logLevel : Str
  propagators : List Str
  period : Str
  /-- the entries of the map, in the order Go's iteration visits them -/
  resourceAttrs : List (Str × Str)
  /-- the attributes of the resource -/
  resource : List KV
  logger : Nat
  errorHandler : Option Nat

/-- What the process finds around it. -/
structure World where
  /-- the configuration `envconfig.Process` reads from the environment (config.go:292), defaults applied -/
  env : Config
  /-- whether `envconfig.Process` returned an error -/
  envError : Bool
  /-- attributes of `resource.Environment()`, an attribute set of string values with valid keys (config.go:315) -/
  envResource : List KV
  /-- `os.Hostname()`; `none` when it fails (config.go:349) -/
  hostname : Option Str
  /-- `os.Getenv("LS_ACCESS_TOKEN")` (config.go:420) -/
  lsToken : Str
  /-- `version` (version.go) -/
  version : Str
  /-- the handler writing to the default logger (config.go:293-294) -/
  defaultLogger : Nat
  defaultHandler : Nat

/-- The options (config.go:37-193). The durations of `WithMetricReportingPeriod` are already rendered by `fmt.Sprint`. -/
inductive Opt where
  | accessToken (t : Str)
  | metricEndpoint (s : Str)
  | spanEndpoint (s : Str)
  | serviceName (s : Str)
  | serviceVersion (s : Str)
  | headers (h : List (Str × Str))
  | logLevel (s : Str)
  | spanInsecure (b : Bool)
  | metricInsecure (b : Bool)
  | resourceAttributes (h : List (Str × Str))
  | propagators (l : List Str)
  | errorHandler (h : Option Nat)
  | period (s : Str)
  | tempoPref (s : Str)
  | metricsEnabled (b : Bool)
  | builtinsEnabled (b : Bool)
  | builtinLibs (l : List Str)
  | logger (n : Nat)
  | lightstepSDK (b : Bool)

/-- The loop of `WithHeaders` (config.go:85-87); `none` is a panic. -/
def writeAll (m : HMap) : List (Str × Str) → Option HMap
  | [] => some m
  | (k, v) :: rest => (m.write k v).bind (fun m' => writeAll m' rest)

/-- Applying one option to the configuration (config.go:37-193); `none` is a panic. -/
def Opt.apply (o : Opt) (c : Config) : Option Config :=
  match o with
  | .accessToken t => (c.headers.ensure.write tokenHeader t).map (fun h => { c with headers := h })
  | .metricEndpoint s => some { c with metricEndpoint := s }
  | .spanEndpoint s => some { c with spanEndpoint := s }
  | .serviceName s => some { c with serviceName := s }
  | .serviceVersion s => some { c with serviceVersion := s }
  | .headers h => (writeAll c.headers.ensure h).map (fun h' => { c with headers := h' })
  | .logLevel s => some { c with logLevel := s }
  | .spanInsecure b => some { c with spanInsecure := b }
  | .metricInsecure b => some { c with metricInsecure := b }
  | .resourceAttributes h => some { c with resourceAttrs := h }
  | .propagators l => some { c with propagators := l }
  | .errorHandler h => some { c with errorHandler := h }
  | .period s => some { c with period := s }
  | .tempoPref s => some { c with tempoPref := s }
  | .metricsEnabled b => some { c with metricsEnabled := b }
  | .builtinsEnabled b => some { c with builtinsEnabled := b }
  | .builtinLibs l => some { c with builtinLibs := l }
  | .logger n => some { c with logger := n }
  | .lightstepSDK _ => some c

/-- The loop over the options (config.go:297-299). -/
def applyAll (c : Config) : List Opt → Option Config
  | [] => some c
  | o :: rest => (o.apply c).bind (fun c' => applyAll c' rest)

/-! ### Resource -/

/-- `attribute.String(k, v)`. -/
def strKV (k v : Str) : KV := { key := k, val := .str v }

/-- `iter.Attribute().Value.Emit()`, the text of a value (external), only used for its length; here for strings, the only
type `resource.Environment` produces. -/
def emit : Val → Str
  | .str s => s
  | _ => []

def hostKey : Str := lit "host.name"
def serviceNameKey : Str := lit "service.name"
def serviceVersionKey : Str := lit "service.version"

/-- The loop over the environment's resource (config.go:317-322). -/
def envHostSet (r : List KV) : Bool := r.any (fun kv => kv.key == hostKey && !(emit kv.val).isEmpty)

/-- Telemetry attributes (config.go:324-330). -/
def telemetryAttrs (version : Str) : List KV :=
  [strKV (lit "telemetry.sdk.name") (lit "launcher"), strKV (lit "telemetry.sdk.language") (lit "go"),
   strKV (lit "telemetry.sdk.version") version, strKV (lit "telemetry.distro.name") (lit "lightstep"),
   strKV (lit "telemetry.distro.version") version]

/-- Service attributes (config.go:332-338). -/
def serviceAttrs (c : Config) : List KV :=
  (if c.serviceName.isEmpty then [] else [strKV serviceNameKey c.serviceName]) ++
  (if c.serviceVersion.isEmpty then [] else [strKV serviceVersionKey c.serviceVersion])

/-- The loop over `c.ResourceAttributes` (config.go:340-347): the attributes appended and `hostnameSet`. -/
def explicitLoop : List (Str × Str) → List KV × Bool → List KV × Bool
  | [], acc => acc
  | (k, v) :: rest, (attrs, hs) =>
    if v.isEmpty then explicitLoop rest (attrs, hs)
    else explicitLoop rest (attrs ++ [strKV k v], hs || k == hostKey)

/-- The host name attribute (config.go:349-356). -/
def hostAttrs (hostSet : Bool) (hostname : Option Str) : List KV :=
  if hostSet then []
  else match hostname with
    | none => []
    | some h => [strKV hostKey h]

/-- `KeyValue.Valid` (external): a defined key and type. -/
def validKV (kv : KV) : Bool := !kv.key.isEmpty && kv.val != .invalid

/-- `newResource` (config.go:314-371). `resource.New(.., WithAttributes(attributes...))` (external) makes a set of the valid
attributes, the last value for a key wins. The schema URL is not represented. -/
def newResource (w : World) (c : Config) : List KV :=
  let loop := explicitLoop c.resourceAttrs (telemetryAttrs w.version ++ serviceAttrs c, envHostSet w.envResource)
  newSet ((w.envResource ++ (loop.1 ++ hostAttrs loop.2 w.hostname)).filter validKV)

/-- `newConfig` (config.go:290-307); `none` is a panic. -/
def newConfig (w : World) (opts : List Opt) : Option Config :=
  (applyAll { w.env with logger := w.defaultLogger, errorHandler := some w.defaultHandler } opts).map
    (fun c => { c with resource := newResource w c })

/-! ### Validation -/

inductive ConfigError where
  | serviceName
  | token (endpoint : Str)
deriving DecidableEq, Repr

/-- `checkEndpointDefault` (config.go:242-251). -/
def checkEndpointDefault (value dflt : Str) : Option ConfigError :=
  if value.isEmpty then none
  else if value = dflt then some (.token value)
  else none

/-- `accessToken` (config.go:253-258). -/
def accessToken (c : Config) : Str := c.headers.read tokenHeader

/-- `kv.Value.AsString()` (external): the content of a string value, the empty string for other types. -/
def asString : Val → Str
  | .str s => s
  | _ => []

/-- The loop of config.go:263-270: only the first attribute with the key is looked at. -/
def serviceNameSet : List KV → Bool
  | [] => false
  | kv :: rest => if kv.key = serviceNameKey then !(asString kv.val).isEmpty else serviceNameSet rest

/-- `validateConfiguration` (config.go:260-288); `none` is success. -/
def validateConfiguration (c : Config) : Option ConfigError :=
  if c.serviceName.isEmpty && !serviceNameSet c.resource then some .serviceName
  else if (accessToken c).isEmpty then
    match checkEndpointDefault c.spanEndpoint defaultSpanEndpoint with
    | some e => some e
    | none => checkEndpointDefault c.metricEndpoint defaultMetricEndpoint
  else none

/-! ### Pipelines -/

/-- `PipelineConfig` (pipelines/common.go:26-65), the fields the launcher fills in. -/
structure PipelineConfig where
  endpoint : Str
  insecure : Bool
  headers : HMap
  resource : List KV
  period : Str
  propagators : List Str
  builtinsEnabled : Bool
  builtinLibs : List Str
  tempoPref : Str

inductive Propagator where
  | b3 | baggage | tracecontext | ottrace
deriving DecidableEq, Repr

/-- `propagatorsMap[key]` (trace.go:72-77). -/
def propagatorsMap (key : Str) : Option Propagator :=
  if key = lit "b3" then some .b3
  else if key = lit "baggage" then some .baggage
  else if key = lit "tracecontext" then some .tracecontext
  else if key = lit "ottrace" then some .ottrace
  else none

/-- The loop of trace.go:79-84. -/
def propLoop : List Str → List Propagator → List Propagator
  | [], props => props
  | key :: rest, props =>
    match propagatorsMap key with
    | some p => propLoop rest (props ++ [p])
    | none => propLoop rest props

/-- `configurePropagators` (trace.go:71-92): the global propagators set, or `none` for the error. -/
def configurePropagators (names : List Str) : Option (List Propagator) :=
  let props := propLoop names []
  if props.length = 0 then none else some props

/-- `tempoOptions` (metrics.go:161-191): the temporality selector, or `none` for the error. -/
def tempoOptions (lower : Str → Str) (pref : Str) : Option (IKind → Tempo) :=
  let sel (sync async : Tempo) : IKind → Tempo := fun k =>
    match k with
    | .syncUpDownCounter | .asyncUpDownCounter => .cumulative
    | .syncCounter | .syncHistogram => sync
    | _ => async
  let l := lower pref
  if l = lit "delta" then some (sel .delta .delta)
  else if l = lit "stateless" ∨ l = lit "lowmemory" then some (sel .delta .cumulative)
  else if l = [] ∨ l = lit "cumulative" then some (sel .cumulative .cumulative)
  else none

/-- The functions of `builtinMetricsVersions` (metrics.go:41-51). -/
inductive Builtin where
  | host | runtime | cputime
deriving DecidableEq, Repr

/-- `strings.Cut` (external) with a one-byte separator: the text before and after its first occurrence. -/
def cutByte (sep : UInt8) : Str → Str × Str
  | [] => ([], [])
  | b :: rest => if b = sep then ([], rest) else let r := cutByte sep rest; (b :: r.1, r.2)

/-- `defaultVersion` (metrics.go:59). -/
def defaultVersion : Str := lit "stable"

/-- `builtinMetricsVersions[name]` (metrics.go:61-74). -/
def builtinNames (name : Str) : Option (List Builtin) :=
  if name = lit "all" then some [.host, .runtime, .cputime]
  else if name = lit "cputime" then some [.cputime]
  else if name = lit "host" then some [.host]
  else if name = lit "runtime" then some [.runtime]
  else none

/-- What happens for one entry of the builtin libraries (metrics.go:119-141). -/
inductive BuiltinEvent where
  | start (b : Builtin)
  | unknownName (name : Str)
  | unknownVersion (name version : Str)
deriving DecidableEq, Repr

/-- One turn of the loop (metrics.go:119-141). That a library's own start may fail is not represented (the error is reported and the loop goes on). -/
def builtinEntry (entry : Str) : List BuiltinEvent :=
  let cut := cutByte 58 entry
  let version := if cut.2 = [] then defaultVersion else cut.2
  match builtinNames cut.1 with
  | none => [.unknownName cut.1]
  | some fs => if version = defaultVersion then fs.map .start else [.unknownVersion cut.1 version]

/-- The loop over the builtin libraries (metrics.go:118-142). -/
def builtinLoop (enabled : Bool) (libs : List Str) : List BuiltinEvent :=
  if enabled then libs.flatMap builtinEntry else []

/-- External functions. -/
structure Ext where
  lower : Str → Str
  /-- `time.ParseDuration` in nanoseconds -/
  parseDuration : Str → Option Int
  traceExporter : PipelineConfig → Bool
  metricExporter : PipelineConfig → Bool

inductive SetupError where
  | exporter | propagators | period | temporality
deriving DecidableEq, Repr

/-- A running pipeline as configured. -/
inductive Pipeline where
  | trace (c : PipelineConfig) (props : List Propagator)
  | metrics (c : PipelineConfig) (period : Int) (tempo : IKind → Tempo) (builtins : List BuiltinEvent)

/-- `NewTracePipeline` (trace.go:30-56). -/
def newTracePipeline (x : Ext) (c : PipelineConfig) : Except SetupError Pipeline :=
  if x.traceExporter c then
    match configurePropagators c.propagators with
    | none => .error .propagators
    | some ps => .ok (.trace c ps)
  else .error .exporter

/-- The reporting period of `NewMetricsPipeline` (metrics.go:79-89). -/
def reportingPeriod (x : Ext) (s : Str) : Option Int :=
  if s = [] then some 30000000000
  else match x.parseDuration s with
    | none => none
    | some p => if p ≤ 0 then none else some p

/-- `NewMetricsPipeline` (metrics.go:76-147). -/
def newMetricsPipeline (x : Ext) (c : PipelineConfig) : Except SetupError Pipeline :=
  match reportingPeriod x c.period with
  | none => .error .period
  | some p =>
    match tempoOptions x.lower c.tempoPref with
    | none => .error .temporality
    | some t =>
      if x.metricExporter c then .ok (.metrics c p t (builtinLoop c.builtinsEnabled c.builtinLibs))
      else .error .exporter

/-- The pipeline configuration of `setupTracing` (config.go:378-384). -/
def traceConfig (c : Config) : PipelineConfig :=
  { endpoint := c.spanEndpoint, insecure := c.spanInsecure, headers := c.headers, resource := c.resource, period := [],
    propagators := c.propagators, builtinsEnabled := false, builtinLibs := [], tempoPref := [] }

/-- The pipeline configuration of `setupMetrics` (config.go:394-403). -/
def metricsConfig (c : Config) : PipelineConfig :=
  { endpoint := c.metricEndpoint, insecure := c.metricInsecure, headers := c.headers, resource := c.resource, period := c.period,
    propagators := [], builtinsEnabled := c.builtinsEnabled, builtinLibs := c.builtinLibs, tempoPref := c.tempoPref }

/-- `setupTracing` (config.go:373-385); `ok none` when disabled. -/
def setupTracing (x : Ext) (c : Config) : Except SetupError (Option Pipeline) :=
  if c.spanEndpoint = [] then .ok none else (newTracePipeline x (traceConfig c)).map some

/-- `setupMetrics` (config.go:389-404); `ok none` when disabled. -/
def setupMetrics (x : Ext) (c : Config) : Except SetupError (Option Pipeline) :=
  if c.metricsEnabled then (newMetricsPipeline x (metricsConfig c)).map some else .ok none

/-! ### The launcher -/

/-- The calls of `Fatalf`. -/
inductive Fatal where
  | environment
  | configuration (e : ConfigError)
  | setup (e : SetupError)
deriving DecidableEq, Repr

/-- The visible effects, in order. -/
inductive Effect where
  | fatal (f : Fatal)
  | errorHandler (h : Nat)
  | started (p : Pipeline)

/-- The headers after considering `LS_ACCESS_TOKEN` (config.go:416-423); `none` is a panic. -/
def tokenHeaders (w : World) (h : HMap) : Option HMap :=
  if w.lsToken ≠ [] ∧ h.ensure.read tokenHeader = [] then h.ensure.write tokenHeader w.lsToken else some h.ensure

/-- The effects of one setup function (config.go:438-447). -/
def setupEffect (r : Except SetupError (Option Pipeline)) : List Effect :=
  match r with
  | .error e => [.fatal (.setup e)]
  | .ok none => []
  | .ok (some p) => [.started p]

/-- `ConfigureOpentelemetry` (config.go:406-449) with a logger whose `Fatalf` returns: the configuration used and the effects;
`none` is a panic. The default logger's `Fatalf` ends the process: what is then seen are the effects up to the first `fatal`.
Debug output is not represented. -/
def configure (x : Ext) (w : World) (opts : List Opt) : Option (Config × List Effect) :=
  (newConfig w opts).bind (fun c =>
    (tokenHeaders w c.headers).map (fun h =>
      let c := { c with headers := h }
      (c, (if w.envError then [.fatal .environment] else []) ++
        (match validateConfiguration c with
          | some e => [.fatal (.configuration e)]
          | none => []) ++
        (match c.errorHandler with
          | some h => [.errorHandler h]
          | none => []) ++
        (setupEffect (setupTracing x c) ++ setupEffect (setupMetrics x c)))))

/-- The pipelines whose shutdown `Launcher.Shutdown` calls, in order (config.go:444-446, 451-457). `failed p` is whether the
pipeline's shutdown returns an error, which is reported; the loop goes on. -/
def shutdownCalls (effects : List Effect) : List Pipeline :=
  effects.filterMap (fun e => match e with
    | .started p => some p
    | _ => none)

end Verif.Launcher
