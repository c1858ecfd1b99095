import Verif.Spec.Busy
import Verif.Spec.Client
import Verif.Model.SelfTelemetry

/-!
What a launched program should say of its own exports.
-/

namespace Verif.SelfTelemetry
open Verif.Attr Verif.Number Verif.Export Verif.Launched
open Verif.Front (IKind)
open Verif.Views (Tempo lit)
variable {C G ν E : Type}

/-- The numbers of points of the payloads answered with this outcome: `success` tells whether there was no error, and `state` is its name. -/
noncomputable def answered (xe : Client.Errs E) (success : Bool) (state : String) (sent : List Payload) (answers : List (Option E)) : List Bits :=
  open Classical in
  ((sent.zip answers).filter (fun e => e.2.isNone = success ∧ Client.Named xe e.2 state)).map (fun e => BitVec.ofNat 64 (Client.payloadPoints e.1))

/-- The attributes which tell the outcome. -/
def outcome (success : Bool) (state : String) : PMap := [(lit "state", .one (.str (lit state))), (lit "success", .one (.bool success))]

/-- No export is under way: no goroutine is between the return of `Produce` and the return of the exporter's method. -/
def Idle (r : Periodic.State) : Prop := ∀ th ∈ r.threads, th.pos ≠ .crit .produced ∧ th.pos ≠ .crit .exporting

/-- The meter of the metrics exporter. -/
def selfScope : Views.Scope := ⟨lit "lightstep-go/sdk/metric", [], []⟩

/-- The name of its counter. -/
def items : Str := lit "otelsdk.telemetry.items"

variable [DecidableEq C]

/-- A program using the provider installed by the launcher, whose exporter counts the points of its payloads with the counter at the address `o`, up to a point where none of the calls on
this counter is under way (`acts`). Then `ForceFlush` or `Shutdown` is called and hands its payload to the exporter; meanwhile the program goes on, but asks for no meter or instrument (`after`). Payloads
have fewer than 2^63 points. -/
structure Reports (e : Outside C G) (pc : Launcher.PipelineConfig) (t : IKind → Tempo) (start : Int) (xe : Client.Errs E) (o : Nat) (acts after : List (Act ν E)) (y y' : Sys C G ν E) : Prop where
  before : run e.farm (world e pc) e.fsub e.x 0 xe o (initial e.farm (world e pc) e.fsub y'.d.z.p (views e t) 0 start) acts = some y
  runs : run e.farm (world e pc) e.fsub e.x 0 xe o y after = some y'
  flushes : ∃ more, y'.past = y.past ++ more ∧ Busy.Flushes e pc t start y.past more y.d y'.d
  returned : ∀ j, j < y.d.z.s.sync.nextOp → (y.d.z.s.sync.op j).obs = o → (y.d.z.s.sync.op j).pc = .done
  small : ∀ pl ∈ y'.d.z.s.sent, Client.payloadPoints pl < 2 ^ 63

end Verif.SelfTelemetry
