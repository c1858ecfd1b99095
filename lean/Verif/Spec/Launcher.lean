import Verif.Model.Launcher
import Verif.Spec.Attr

/-!
What the launcher's documentation promises, stated on its inputs (options, environment) and outputs.
-/

namespace Verif.Launcher
open Verif.Attr Verif.Views Verif.Front

/-- The last option of the list that says something about a setting. -/
def lastSet {α : Type} (sel : Opt → Option α) (opts : List Opt) : Option α := opts.reverse.findSome? sel

/-- The value a Go map (written out as its entries) gives to a key. -/
def entry (k : Str) (m : List (Str × Str)) : Option Str := (m.reverse.find? (fun e => e.1 == k)).map (·.2)

/-- What an option says about the header `k`. -/
def headerOf (k : Str) : Opt → Option Str
  | .accessToken t => if k = lit "lightstep-access-token" then some t else none
  | .headers h => entry k h
  | _ => none

/-- The header `k` as configured by options or, failing those, by the environment variable for headers. -/
def configuredHeader (w : World) (opts : List Opt) (k : Str) : Option Str :=
  (lastSet (headerOf k) opts).or (w.env.headers.bind (fun f => f k))

/-- What a configuration's headers give for `k`. -/
def Config.header (c : Config) (k : Str) : Option Str := c.headers.bind (fun f => f k)

def serviceNameOf : Opt → Option Str
  | .serviceName s => some s
  | _ => none
def serviceVersionOf : Opt → Option Str
  | .serviceVersion s => some s
  | _ => none
def spanEndpointOf : Opt → Option Str
  | .spanEndpoint s => some s
  | _ => none
def metricEndpointOf : Opt → Option Str
  | .metricEndpoint s => some s
  | _ => none
def spanInsecureOf : Opt → Option Bool
  | .spanInsecure s => some s
  | _ => none
def metricInsecureOf : Opt → Option Bool
  | .metricInsecure s => some s
  | _ => none
def tempoPrefOf : Opt → Option Str
  | .tempoPref s => some s
  | _ => none
def metricsEnabledOf : Opt → Option Bool
  | .metricsEnabled s => some s
  | _ => none
def builtinsEnabledOf : Opt → Option Bool
  | .builtinsEnabled s => some s
  | _ => none
def builtinLibsOf : Opt → Option (List Str)
  | .builtinLibs s => some s
  | _ => none
def logLevelOf : Opt → Option Str
  | .logLevel s => some s
  | _ => none
def propagatorsOf : Opt → Option (List Str)
  | .propagators s => some s
  | _ => none
def periodOf : Opt → Option Str
  | .period s => some s
  | _ => none
def resourceAttrsOf : Opt → Option (List (Str × Str))
  | .resourceAttributes s => some s
  | _ => none
def loggerOf : Opt → Option Nat
  | .logger s => some s
  | _ => none
def errorHandlerOf : Opt → Option (Option Nat)
  | .errorHandler s => some s
  | _ => none

/-- The resource attributes configured in code, or read with the configuration. -/
def configuredAttrs (w : World) (opts : List Opt) : List (Str × Str) := (lastSet resourceAttrsOf opts).getD w.env.resourceAttrs
def configuredName (w : World) (opts : List Opt) : Str := (lastSet serviceNameOf opts).getD w.env.serviceName
def configuredVersion (w : World) (opts : List Opt) : Str := (lastSet serviceVersionOf opts).getD w.env.serviceVersion

/-- A text that was really given. -/
def given : Option Str → Option Str
  | some t => if t.isEmpty then none else some t
  | none => none

/-- The attributes the launcher adds about itself and the service. -/
def ownAttr (w : World) (opts : List Opt) (k : Str) : Option Str :=
  if k = lit "telemetry.sdk.name" then some (lit "launcher")
  else if k = lit "telemetry.sdk.language" then some (lit "go")
  else if k = lit "telemetry.sdk.version" then some w.version
  else if k = lit "telemetry.distro.name" then some (lit "lightstep")
  else if k = lit "telemetry.distro.version" then some w.version
  else if k = lit "service.name" then given (some (configuredName w opts))
  else if k = lit "service.version" then given (some (configuredVersion w opts))
  else none

/-- The text of a value of the environment's resource. -/
def textOf : Val → Option Str
  | .str s => some s
  | _ => none

/-- The attribute of the resource in the environment. -/
def envAttr (w : World) (k : Str) : Option Str := (get k w.envResource).bind textOf

/-- The attribute `k` of the resource: what was given explicitly, else what the launcher says about itself and the service, else what the
environment says; for the host name what was given explicitly or by the environment, else the name of the host. -/
def expectedAttr (w : World) (opts : List Opt) (k : Str) : Option Str :=
  if k = lit "host.name" then
    (given (entry k (configuredAttrs w opts))).or ((given (envAttr w k)).or (w.hostname.or (envAttr w k)))
  else (given (entry k (configuredAttrs w opts))).or ((ownAttr w opts k).or (envAttr w k))

/-- The environment's resource is an attribute set: sorted, distinct, non-empty keys and text values. -/
structure EnvResourceOk (r : List KV) : Prop where
  keys : r.Pairwise (fun x y => x.key ≠ y.key)
  named : ∀ kv ∈ r, kv.key ≠ []
  text : ∀ kv ∈ r, ∃ s, kv.val = .str s

/-- A configuration was rejected: the logger was told of a configuration error. -/
def Rejected (effects : List Effect) : Prop := ∃ e, Effect.fatal (.configuration e) ∈ effects

/-- The table of temporality preferences (README, "Metrics Temporality settings", and the OpenTelemetry preference names). -/
inductive Preference where
  | cumulative | delta | lowmemory

def documented : Preference → IKind → Tempo
  | .cumulative, _ => .cumulative
  | .delta, .syncCounter => .delta
  | .delta, .syncHistogram => .delta
  | .delta, .asyncCounter => .delta
  | .delta, .syncGauge => .delta
  | .delta, .asyncGauge => .delta
  | .delta, .syncUpDownCounter => .cumulative
  | .delta, .asyncUpDownCounter => .cumulative
  | .lowmemory, .syncCounter => .delta
  | .lowmemory, .syncHistogram => .delta
  | .lowmemory, .asyncCounter => .cumulative
  | .lowmemory, .syncGauge => .cumulative
  | .lowmemory, .asyncGauge => .cumulative
  | .lowmemory, .syncUpDownCounter => .cumulative
  | .lowmemory, .asyncUpDownCounter => .cumulative

/-- The names of the preferences, in lower case. -/
def prefName (s : Str) : Option Preference :=
  if s = lit "cumulative" ∨ s = [] then some .cumulative
  else if s = lit "delta" then some .delta
  else if s = lit "lowmemory" ∨ s = lit "stateless" then some .lowmemory
  else none

/-- The collection period that a setting asks for: 30 s (in ns) when it is not set, otherwise the duration it spells, which must be positive. -/
def AsksPeriod (x : Ext) (setting : Str) (p : Int) : Prop :=
  setting = [] ∧ p = 30000000000 ∨ setting ≠ [] ∧ x.parseDuration setting = some p ∧ 0 < p

/-- A trace pipeline configured as the launcher is. -/
structure TraceOf (c : Config) (pc : PipelineConfig) : Prop where
  endpoint : pc.endpoint = c.spanEndpoint
  insecure : pc.insecure = c.spanInsecure
  headers : pc.headers = c.headers
  resource : pc.resource = c.resource
  propagators : pc.propagators = c.propagators

/-- A metrics pipeline configured as the launcher is. -/
structure MetricsOf (c : Config) (pc : PipelineConfig) : Prop where
  endpoint : pc.endpoint = c.metricEndpoint
  insecure : pc.insecure = c.metricInsecure
  headers : pc.headers = c.headers
  resource : pc.resource = c.resource
  period : pc.period = c.period
  tempoPref : pc.tempoPref = c.tempoPref
  builtinsEnabled : pc.builtinsEnabled = c.builtinsEnabled
  builtinLibs : pc.builtinLibs = c.builtinLibs

/-- The name of a propagator. -/
def Propagator.name : Propagator → Str
  | .b3 => lit "b3"
  | .baggage => lit "baggage"
  | .tracecontext => lit "tracecontext"
  | .ottrace => lit "ottrace"

def propagatorNames : List Str := [lit "b3", lit "baggage", lit "tracecontext", lit "ottrace"]

end Verif.Launcher
