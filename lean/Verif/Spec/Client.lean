import Verif.Model.Client
import Verif.Spec.Last

/-!
What the exporter clients should do, stated without their functions.
-/

namespace Verif.Client
open Verif Verif.Export
variable {E : Type}

/-- The number of points in the metrics a reader produced. -/
def points (d : Metrics) : Nat := (d.scopes.flatMap (fun s => s.instruments.map (fun i => i.points.length))).sum

/-- `state` is the right name for the outcome of an export. -/
structure Named (x : Errs E) (err : Option E) (state : String) : Prop where
  ok : state = "ok" ↔ err = none
  canceled : state = "canceled" ↔ ∃ e, err = some e ∧ x.canceled e = true
  timeout : state = "timeout" ↔ ∃ e, err = some e ∧ x.canceled e = false ∧ x.deadline e = true
  error : state = "error" ↔ ∃ e, err = some e ∧ x.canceled e = false ∧ x.deadline e = false

/-- The number of points in a payload. -/
def payloadPoints (p : Payload) : Nat :=
  (p.scopes.flatMap (fun s => s.metrics.map (fun m => match m.data with
    | .sum _ _ ps => ps.length
    | .gauge ps => ps.length
    | .hist _ ps => ps.length
    | .exp _ ps => ps.length))).sum

/-- Points of the payloads that were accepted. -/
def accepted : List (Ev Payload E) → Nat
  | [] => 0
  | .consume p none :: l => payloadPoints p + accepted l
  | _ :: l => accepted l

/-- Points of the payloads that were refused. -/
def refused : List (Ev Payload E) → Nat
  | [] => 0
  | .consume p (some _) :: l => payloadPoints p + refused l
  | _ :: l => refused l

/-- Total of the increments of the self-telemetry counter with the given value of `success`. -/
def counted {P : Type} (success : Bool) : List (Ev P E) → Nat
  | [] => 0
  | .count n s _ :: l => (if s = success then n else 0) + counted success l
  | _ :: l => counted success l

/-- `m[k]` of a Go map given as a list with distinct keys. -/
def header (m : List (String × String)) (k : String) : Option String := (m.find? (fun e => e.1 == k)).map (·.2)

end Verif.Client
