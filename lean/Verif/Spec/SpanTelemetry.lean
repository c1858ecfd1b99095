import Verif.Model.SpanTelemetry
import Verif.Spec.SelfTelemetry
import Verif.Spec.Traced

/-!
What a launched program should say of the spans it exports.
-/

namespace Verif.SpanTelemetry
open Verif.Attr Verif.Number Verif.Export Verif.Launched
open Verif.Front (IKind)
open Verif.Views (Tempo lit)
variable {C G ν E : Type}

/-- The numbers of spans of the payloads answered with this outcome. -/
noncomputable def answered (xe : Client.Errs E) (success : Bool) (state : String) (log : List (Client.Ev TraceExport.Traces E)) : List Bits :=
  open Classical in
  ((Traced.sent log).filter (fun e => e.2.isNone = success ∧ Client.Named xe e.2 state)).map (fun e => BitVec.ofNat 64 (Traced.spansIn e.1).length)

/-- The lengths of the batches answered with this outcome. -/
noncomputable def answeredBatches (xe : Client.Errs E) (success : Bool) (state : String) (batches : List (List TraceExport.Span)) (answers : List (Option E)) : List Bits :=
  open Classical in
  ((batches.zip answers).filter (fun e => e.2.isNone = success ∧ Client.Named xe e.2 state)).map (fun e => BitVec.ofNat 64 e.1.length)

/-- The meter of the spans exporter. -/
def spanScope : Views.Scope := ⟨lit "lightstep-go/sdk/trace", [], []⟩

/-- The calls of the spans exporter. -/
def exporterCalls (acts : List (Act ν E)) : List (Traced.Call E) :=
  acts.filterMap (fun a => match a with
    | .spans c => some c
    | .prog _ => none)

variable [DecidableEq C]

/-- A program using the provider installed by the launcher, whose spans exporter, with the resource `res`, counts the spans of its payloads with the counter at the address `o`, up to a point where none of the calls on
this counter is under way (`acts`). Then `ForceFlush` or `Shutdown` of the metrics is called and hands its payload to the exporter; meanwhile the program goes on, but asks for no meter or instrument (`after`). Payloads
have fewer than 2^63 spans. -/
structure Reports (e : Outside C G) (pc : Launcher.PipelineConfig) (t : IKind → Tempo) (start : Int) (xe : Client.Errs E) (res : List KV) (o : Nat) (acts after : List (Act ν E)) (y y' : Sys C G ν E) : Prop where
  before : run e.farm (world e pc) e.fsub e.x 0 xe res o (initial e.farm (world e pc) e.fsub y'.d.z.p (views e t) 0 start) acts = some y
  runs : run e.farm (world e pc) e.fsub e.x 0 xe res o y after = some y'
  flushes : ∃ more, y'.past = y.past ++ more ∧ Busy.Flushes e pc t start y.past more y.d y'.d
  returned : ∀ j, j < y.d.z.s.sync.nextOp → (y.d.z.s.sync.op j).obs = o → (y.d.z.s.sync.op j).pc = .done
  small : ∀ p ∈ Traced.sent y'.t.log, (Traced.spansIn p.1).length < 2 ^ 63

end Verif.SpanTelemetry
