import Verif.Model.Delivery
import Verif.Model.Client

/-!
A whole program whose metrics exporter counts what it sends, with a counter of the same provider.

Composes `Model/Delivery.lean` and `Model/Client.lean`: after the next component has answered a payload, `ExportMetrics` (`lightstep/sdk/metric/internal/export/export.go:319-362`) adds the number of its points to
the counter `otelsdk.telemetry.items`, which `ConfigureSelfTelemetry` (`lightstep/sdk/internal/common.go:201-224`) made with the global provider
(`lightstep/sdk/metric/exporters/otlp/otelcol/client.go:155-165`).

Simplifications: the counter is made before the launcher installs its provider, by the placeholder of the API, which makes it with that provider afterwards and passes calls on (external); here the counter is that of the
provider from the beginning. The other instruments and the spans of the collector's components are not represented. Increments of the spans exporter go to another meter.
-/

namespace Verif.SelfTelemetry
open Verif.Attr Verif.Number Verif.Assembly
open Verif.Views (lit)
variable {C G ν E : Type}

/-- The program, what was answered to the payloads so far, in order, and everything done so far as steps of the program. -/
structure Sys (C G ν E : Type) where
  d : Delivery.Sys C G ν
  answers : List (Option E)
  past : List (Delivery.Act ν)

inductive Act (ν E : Type) where
  /-- the program goes on -/
  | prog (a : Delivery.Act ν)
  /-- the next component answers the payload which it was given, and the exporter calls its counter -/
  | answer (e : Option E)

/-- The attributes of the counter (export.go:340-354). -/
def attrsOf (xe : Client.Errs E) (e : Option E) : List KV := [⟨lit "success", .bool e.isNone⟩, ⟨lit "state", .str (lit (Client.stateOf xe e))⟩]

/-- The counter (common.go:221), at its address `o`; the launcher configures no measurement processor. -/
def counter (w : World C G) (o : Nat) : Front.Inst := { id := o, kind := .syncCounter, num := .int64, sizeLimit := w.sizeLimit, proc := none }

/-- A goroutine is within the exporter's method. -/
def exporting (r : Periodic.State) : Bool := r.threads.any (fun th => decide (th.pos = .crit .exporting))

/-- The thread is within the exporter's method. -/
def exportingAt (r : Periodic.State) (t : Nat) : Bool := r.threads[t]?.any (fun th => decide (th.pos = .crit .exporting))

/-- All calls on the counter have returned. -/
def settled (o : Nat) (s : Delivery.Sys C G ν) : Bool :=
  (List.range s.z.s.sync.nextOp).all (fun j => (s.z.s.sync.op j).obs != o || (s.z.s.sync.op j).pc matches .done)

/-- Only the exporter has the counter, and its method returns after the payload was answered and the call on the counter has returned (export.go:334-361). -/
def allowed (o : Nat) (y : Sys C G ν E) : Delivery.Act ν → Bool
  | .call i _ _ => i.id != o
  | .reader (.go t _) _ => !exportingAt y.d.r t || (y.answers.length == y.d.z.s.sent.length && settled o y.d)
  | _ => true

variable [DecidableEq C]

/-- One step; `none` when it cannot happen. An answer is followed by the call on the counter with the number of points of the payload (export.go:334-356). -/
def step (farm : Str → UInt64) (w : World C G) (fsub : Bits → Bits → Bits) (x : Views.Ext C) (pipe : Nat) (xe : Client.Errs E) (o : Nat) (y : Sys C G ν E) : Act ν E → Option (Sys C G ν E)
  | .prog a => if allowed o y a then (Delivery.step farm w fsub x pipe y.d a).map (fun d => { y with d := d, past := y.past ++ [a] }) else none
  | .answer e =>
    if exporting y.d.r then
      match y.d.z.s.sent[y.answers.length]? with
      | none => none
      | some pl =>
        (Delivery.step farm w fsub x pipe y.d (.call (counter w o) (attrsOf xe e) (BitVec.ofNat 64 (Client.dataPointCount pl)))).map (fun d =>
          { d := d, answers := y.answers ++ [e], past := y.past ++ [.call (counter w o) (attrsOf xe e) (BitVec.ofNat 64 (Client.dataPointCount pl))] })
    else none

def run (farm : Str → UInt64) (w : World C G) (fsub : Bits → Bits → Bits) (x : Views.Ext C) (pipe : Nat) (xe : Client.Errs E) (o : Nat) : Sys C G ν E → List (Act ν E) → Option (Sys C G ν E)
  | y, [] => some y
  | y, a :: as => (step farm w fsub x pipe xe o y a).bind (fun y' => run farm w fsub x pipe xe o y' as)

omit [DecidableEq C] in
/-- The system after `NewMeterProvider` (provider.go:62-88). -/
def initial (farm : Str → UInt64) (w : World C G) (fsub : Bits → Bits → Bits) (fill : Provider.Provider C ν) (views : List (Views.Views C)) (pipe : Nat) (start : Int) : Sys C G ν E :=
  { d := Delivery.initial farm w fsub fill views pipe start, answers := [], past := [] }

end Verif.SelfTelemetry
