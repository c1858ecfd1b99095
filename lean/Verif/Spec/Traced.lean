import Verif.Model.Traced
import Verif.Spec.TraceExport
import Verif.Spec.Launcher

/-!
What a user knows about the spans of a program which starts the launcher.
-/

namespace Verif.Traced
open Verif Verif.Attr Verif.Export Verif.TraceExport Verif.Client
variable {E : Type}

/-- The launcher, configured by these options in this environment, started the trace pipeline with the configuration `pc`. -/
def Starts (lx : Launcher.Ext) (lw : Launcher.World) (opts : List Launcher.Opt) (pc : Launcher.PipelineConfig) : Prop :=
  ∃ c eff ps, Launcher.configure lx lw opts = some (c, eff) ∧ Launcher.Effect.started (.trace pc ps) ∈ eff

/-- The batches handed to the exporter, in order. -/
def batches (cs : List (Call E)) : List (List Span) :=
  cs.filterMap (fun c => match c with
    | .spans l _ => some l
    | .shutdown .. => none)

/-- The payloads sent, in order, each with the answer. -/
def sent (log : List (Ev Traces E)) : List (Traces × Option E) :=
  log.filterMap (fun e => match e with
    | .consume p a => some (p, a)
    | _ => none)

/-- The spans in a payload, in order, each with the scope it is under. -/
def spansIn : Traces → List (Library × PSpan)
  | .empty => []
  | .one _ ss => underScopes ss

/-- Spans a program can make with the SDK: every attribute value has a type and every tracer has a name (the SDK names tracers asked for without one). -/
def Proper (l : List Span) : Prop := ∀ s ∈ l, s.Typed ∧ s.scope.name ≠ []

/-- The items counted by `otelsdk.telemetry.items` with this value of the attribute `success`. -/
def counted (ok : Bool) (log : List (Ev Traces E)) : Nat :=
  (log.map (fun e => match e with
    | .count n s _ => if s = ok then n else 0
    | _ => 0)).sum

/-- The spans in payloads which were accepted (`ok`) or refused. -/
def spansAnswered (ok : Bool) (log : List (Ev Traces E)) : Nat :=
  ((sent log).map (fun e => if e.2.isNone = ok then (spansIn e.1).length else 0)).sum

end Verif.Traced
