import Verif.Model.Client
import Verif.Model.Provider
import Verif.Model.SyncMachine

/-!
Settings and what stands for the ones left out: `sdkinstrument.Performance`, the periodic reader, the Prometheus exporter, the request for a meter.
-/

namespace Verif.Defaults
open Verif.Views Verif.Attr

/-- `sdkinstrument.Performance` (performance.go:42-69). Sizes are Go uint32. `M` are measurement processors. -/
structure Perf (M : Type) where
  ignoreCollisions : Bool
  inactivePeriods : Nat
  instrumentLimit : Nat
  aggregatorLimit : Nat
  processor : Option M
  sizeLimit : Nat
deriving DecidableEq

/-- The constants (performance.go:25, 29, 34, 38). -/
def defaultPeriods : Nat := 10
def defaultAggregatorLimit : Nat := 2000
def defaultInstrumentLimit : Nat := 3000
def defaultSizeLimit : Nat := 8192

/-- `Performance.Validate` (performance.go:79-97). -/
def validate {M : Type} (p : Perf M) : Perf M :=
  let p := if p.inactivePeriods = 0 then { p with inactivePeriods := defaultPeriods } else p
  let p := if p.instrumentLimit = 0 then { p with instrumentLimit := defaultInstrumentLimit } else p
  let p := if p.aggregatorLimit = 0 then { p with aggregatorLimit := defaultAggregatorLimit } else p
  if p.sizeLimit = 0 then { p with sizeLimit := defaultSizeLimit } else p

/-- The settings in force after `NewMeterProvider` (provider.go:63-69): those of the last `WithPerformance` (config.go:72-77), validated; `zero` is the struct
without any setting. -/
def settings {M : Type} (given : List (Perf M)) : Perf M :=
  validate (given.getLast?.getD { ignoreCollisions := false, inactivePeriods := 0, instrumentLimit := 0, aggregatorLimit := 0, processor := none, sizeLimit := 0 })

/-- A periodic reader's times in nanoseconds, Go int64 (periodic.go:51-60). -/
structure Periodic where
  interval : Int
  timeout : Int
deriving DecidableEq

/-- `DefaultInterval`, `DefaultTimeout` (periodic.go:27-28). -/
def defaultInterval : Int := 30 * 1000000000
def defaultTimeout : Int := defaultInterval

/-- The options (periodic.go:64-68): `WithTimeout(d)`, or nil, which panics when it is called; `none` is the panic. -/
def applyTimeouts (p : Periodic) : List (Option Int) → Option Periodic
  | [] => some p
  | none :: _ => none
  | some d :: opts => applyTimeouts { p with timeout := d } opts

/-- `NewPeriodicReader` (periodic.go:72-88). -/
def newPeriodicReader (interval : Int) (opts : List (Option Int)) : Option Periodic :=
  (applyTimeouts { interval := interval, timeout := interval } opts).map (fun p =>
    let p := if p.interval ≤ 0 then { p with interval := defaultInterval } else p
    if p.timeout ≤ 0 then { p with timeout := defaultTimeout } else p)

/-- `prom.Config` (prom/client.go:41-45): the parts of the external configuration which are set, and the rest `R`. -/
structure Prom (R : Type) where
  selfMetrics : Bool
  selfSpans : Bool
  endpoint : String
  expiration : Nat
  resourceToTelemetry : Bool
  rest : R

/-- `NewDefaultConfig` (prom/client.go:73-88); the duration is in nanoseconds. -/
def promDefault {R : Type} (zero : R) : Prom R :=
  { selfMetrics := true, selfSpans := true, endpoint := "0.0.0.0:9090", expiration := 3600 * 1000000000, resourceToTelemetry := true, rest := zero }

/-- `WithPort` (prom/client.go:90-94). `%d` prints a decimal number, with a minus sign for a negative one. -/
def withPort {R : Type} (port : Int) (c : Prom R) : Prom R := { c with endpoint := "0.0.0.0:" ++ toString port }

/-- An option is any function, or nil (prom/client.go:65-69). -/
def applyProm {R : Type} (c : Prom R) : Option (Prom R → Prom R) → Prom R
  | some f => f c
  | none => c

/-- `NewConfig` (prom/client.go:63-71). -/
def promConfig {R : Type} (zero : R) (opts : List (Option (Prom R → Prom R))) : Prom R := opts.foldl applyProm (promDefault zero)

/-- `NewExporter` (prom/client.go:99-136): effects, and the error returned. -/
def newProm {P E : Type} (a : Client.Answers E) : List (Client.Ev P E) × Option E :=
  match a.self with
  | some e => ([], some e)
  | none =>
    match a.createExporter with
    | some e => ([], some e)
    | none => ([.startExporter a.startExporter], a.startExporter)

/-- The options of a request for a meter (external `metric.MeterOption`; `NewMeterConfig` applies them in order, each replacing what was set before). -/
inductive MeterOpt where
  | version (v : Str)
  | schema (s : Str)
  | attributes (kvs : List KV)
deriving DecidableEq

/-- One option; the attributes are not looked at (provider.go:105-109). -/
def applyMeterOpt (s : Scope) : MeterOpt → Scope
  | .version v => { s with version := v }
  | .schema u => { s with schema := u }
  | .attributes _ => s

/-- The scope of the meter asked for (provider.go:104-109). -/
def scopeOf (name : Str) (opts : List MeterOpt) : Scope := opts.foldl applyMeterOpt { name := name, version := [], schema := [] }

end Verif.Defaults
