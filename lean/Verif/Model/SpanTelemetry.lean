import Verif.Model.SelfTelemetry
import Verif.Model.Traced

/-!
A whole program whose spans exporter counts what it sends, with a counter of the metrics provider.

Composes `Model/Delivery.lean` and `Model/Traced.lean`: `ExportSpans` (`lightstep/sdk/trace/exporters/otlp/otelcol/client.go:84-119`) adds the number of spans of each payload answered to
the counter `otelsdk.telemetry.items`, which `NewExporter` (client.go:217-248) made with the global provider through `ConfigureSelfTelemetry` (`lightstep/sdk/internal/common.go:201-224`).

Simplifications: as in `Model/SelfTelemetry.lean`, the counter is that of the provider from the beginning. Conversion, answer and the start of the call on the counter are one step, for nothing they use is shared with
the rest of the program. The metrics exporter's calls on its own counter are calls of the program like others.
-/

namespace Verif.SpanTelemetry
open Verif.Attr Verif.Number Verif.Assembly
open Verif.Views (lit)
open Verif.SelfTelemetry (counter settled)
variable {C G ν E : Type}

/-- The program, its spans exporter, and everything done so far as steps of the program. -/
structure Sys (C G ν E : Type) where
  d : Delivery.Sys C G ν
  t : Traced.Sys E
  past : List (Delivery.Act ν)

inductive Act (ν E : Type) where
  /-- the program goes on -/
  | prog (a : Delivery.Act ν)
  /-- the batch span processor calls the spans exporter -/
  | spans (c : Traced.Call E)

/-- The call on the counter at the address `o` (client.go:108-112). -/
def callOf (w : World C G) (o : Nat) : Client.Ev TraceExport.Traces E → Option (Delivery.Act ν)
  | .count n success state => some (.call (counter w o) [⟨lit "success", .bool success⟩, ⟨lit "state", .str (lit state)⟩] (BitVec.ofNat 64 n))
  | _ => none

/-- Only the exporter has the counter. -/
def allowed (o : Nat) : Delivery.Act ν → Bool
  | .call i _ _ => i.id != o
  | _ => true

variable [DecidableEq C]

/-- One step; `none` when it cannot happen, or the conversion panics, which ends the program. The processor calls the exporter when the call before has returned, and with it the call on the counter (client.go:84-130). -/
def step (farm : Str → UInt64) (w : World C G) (fsub : Bits → Bits → Bits) (x : Views.Ext C) (pipe : Nat) (xe : Client.Errs E) (res : List KV) (o : Nat) (y : Sys C G ν E) : Act ν E → Option (Sys C G ν E)
  | .prog a => if allowed o a then (Delivery.step farm w fsub x pipe y.d a).map (fun d => { y with d := d, past := y.past ++ [a] }) else none
  | .spans c =>
    let t := Traced.step xe res y.t c
    if settled o y.d && !t.panicked then
      let calls := (t.log.drop y.t.log.length).filterMap (callOf w o)
      (Delivery.run farm w fsub x pipe y.d calls).map (fun d => { d := d, t := t, past := y.past ++ calls })
    else none

def run (farm : Str → UInt64) (w : World C G) (fsub : Bits → Bits → Bits) (x : Views.Ext C) (pipe : Nat) (xe : Client.Errs E) (res : List KV) (o : Nat) : Sys C G ν E → List (Act ν E) → Option (Sys C G ν E)
  | y, [] => some y
  | y, a :: as => (step farm w fsub x pipe xe res o y a).bind (fun y' => run farm w fsub x pipe xe res o y' as)

omit [DecidableEq C] in
/-- The system after both pipelines were set up (provider.go:62-88, client.go:208-279). -/
def initial (farm : Str → UInt64) (w : World C G) (fsub : Bits → Bits → Bits) (fill : Provider.Provider C ν) (views : List (Views.Views C)) (pipe : Nat) (start : Int) : Sys C G ν E :=
  { d := Delivery.initial farm w fsub fill views pipe start, t := Traced.initial, past := [] }

end Verif.SpanTelemetry
