import Verif.Model.Client
import Verif.Model.Launcher

/-!
Spans of a program which starts the launcher: the exporter made by `NewTracePipeline` (pipelines/trace.go:30-56) over its life.

External: the OpenTelemetry trace SDK. It gives every span of the tracer provider the resource of the provider (`trace.WithResource(c.Resource)`, trace.go:45), samples all spans (trace.go:43), and
its batch span processor calls `ExportSpans` with batches of ended spans, one call at a time, and `Shutdown` when it is shut down (trace.go:53-55). Which spans end, how they are divided into batches
and when is not determined: any sequence of calls.
-/

namespace Verif.Traced
open Verif Verif.Attr Verif.Export Verif.TraceExport Verif.Client
variable {E : Type}

/-- A call of the exporter with the answers of the components behind it. -/
inductive Call (E : Type) where
  | spans (l : List Span) (next : Traces → Option E)
  | shutdown (bat exp : Option E)

/-- The exporter: the resource cache (trace client.go:46-48), what it did, and whether a call has panicked, which ends the program. -/
structure Sys (E : Type) where
  rm : ResourceMap
  log : List (Ev Traces E)
  panicked : Bool

/-- The exporter returned by `NewExporter` (trace client.go:208-279). -/
def initial : Sys E := { rm := ResourceMap.new, log := [], panicked := false }

/-- A span of a provider with this resource (pipelines/trace.go:42-46). -/
def ofProvider (res : List KV) (s : Span) : Span := { s with resource := res }

/-- One call (trace client.go:84-130) in a program whose provider has the resource `res`. -/
def step (x : Errs E) (res : List KV) (y : Sys E) (c : Call E) : Sys E :=
  if y.panicked then y
  else match c with
    | .spans l next =>
      let r := exportSpans x next y.rm (l.map (ofProvider res))
      match r.2 with
      | none => { y with rm := r.1, panicked := true }
      | some o => { y with rm := r.1, log := y.log ++ o.1 }
    | .shutdown bat exp => { y with log := y.log ++ (shutdownTrace bat exp).1 }

/-- Any sequence of calls. -/
def run (x : Errs E) (res : List KV) (cs : List (Call E)) : Sys E := cs.foldl (step x res) initial

end Verif.Traced
