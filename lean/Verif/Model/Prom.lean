import Verif.Model.Delivery

/-!
A whole program whose periodic reader has the Prometheus exporter.

Adds the Prometheus client (prom/client.go:143-154) to `Model/Delivery.lean`. What a program does up to `Produce` does not depend on its exporter, so the program is the one
of `Model/Delivery.lean`; the payloads which are part of its state are those which an OTLP exporter would be handed instead.

Simplification: `ShutdownMetrics` and `ForceFlushMetrics` (prom/client.go:157-171) convert their data as `ExportMetrics` does; what else they do is in `Model/Client.lean`.
-/

namespace Verif.Prom
open Verif.Attr Verif.Number Verif.Assembly
variable {C G ν : Type} [DecidableEq C]

/-- The program, the resource cache of the Prometheus client, the payloads handed to the Prometheus exporter, oldest first, and whether the program has panicked. -/
structure Sys (C G ν : Type) where
  prog : Delivery.Sys C G ν
  rm : Export.ResourceMap
  sent : List Export.Payload
  panicked : Bool

omit [DecidableEq C] in
/-- What `Produce` returns at this step, if it does, which is what the client is called with (periodic.go:155-167). -/
def handed (farm : Str → UInt64) (w : World C G) (fsub : Bits → Bits → Bits) (pipe : Nat) (s : Delivery.Sys C G ν) : Delivery.Act ν → Option Export.Metrics
  | .reader a order =>
    if Delivery.returns s.r a then
      match s.pos with
      | .meters q [] => (Async.step (AsyncPipeline.cfg (Whole.parts farm w fsub s.z.p pipe).u) s.z.s.async (.finish order)).map (fun t =>
          Whole.metricsOf (Whole.parts farm w fsub s.z.p pipe) (reader w s.z.p pipe) q (Whole.fresh s.z.s) (t.out s.z.s.async.coll))
      | _ => none
    else none
  | _ => none

/-- The client is called with this (prom/client.go:143-154, export.go:319-338): it does not use exponential histograms. A panic is not recovered. -/
def push (m : Export.Mapping) (y : Sys C G ν) (d : Export.Metrics) : Sys C G ν :=
  match (Export.d2pd m y.rm d false).2 with
  | none => { y with rm := (Export.d2pd m y.rm d false).1, panicked := true }
  | some p => { y with rm := (Export.d2pd m y.rm d false).1, sent := y.sent ++ [p] }

/-- One step; `none` when it cannot happen. A program which has panicked does not go on. -/
def step (farm : Str → UInt64) (w : World C G) (fsub : Bits → Bits → Bits) (x : Views.Ext C) (pipe : Nat) (y : Sys C G ν) (a : Delivery.Act ν) : Option (Sys C G ν) :=
  if y.panicked then none
  else (Delivery.step farm w fsub x pipe y.prog a).map (fun s =>
    match handed farm w fsub pipe y.prog a with
    | none => { y with prog := s }
    | some d => push w.mapping { y with prog := s } d)

def run (farm : Str → UInt64) (w : World C G) (fsub : Bits → Bits → Bits) (x : Views.Ext C) (pipe : Nat) : Sys C G ν → List (Delivery.Act ν) → Option (Sys C G ν)
  | y, [] => some y
  | y, a :: as => (step farm w fsub x pipe y a).bind (fun y' => run farm w fsub x pipe y' as)

omit [DecidableEq C] in
/-- The system after `NewExporter` (prom/client.go:99-136) and `NewMeterProvider` (provider.go:62-88); for `fill` see `Live.initial`. -/
def initial (farm : Str → UInt64) (w : World C G) (fsub : Bits → Bits → Bits) (fill : Provider.Provider C ν) (views : List (Views.Views C)) (pipe : Nat) (start : Int) :
    Sys C G ν :=
  { prog := Delivery.initial farm w fsub fill views pipe start, rm := Export.ResourceMap.new, sent := [], panicked := false }

end Verif.Prom
