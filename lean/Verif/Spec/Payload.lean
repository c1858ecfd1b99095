import Verif.Spec.Pipeline

/-!
What a payload says about the metrics of a reader.
-/

namespace Verif.Pipeline
open Verif.Attr Verif.Number
variable {H : Type}

/-- The exports among the actions, with the clock readings of their collections. -/
def exports (acts : List Act) : List Times.Seq := acts.filterMap (fun a => match a with | .export q => some q | _ => none)

/-- The number is of the type of the instrument. -/
def OfKind : Kind → Export.PNum → Prop
  | .int64, n => ∃ v, n = .int v
  | .float64, n => ∃ v, n = .double v

/-- The temporality of a metric, by the view's setting. -/
def tempoFor (delta : Bool) : Export.PTemporality := if delta then .delta else .cumulative

/-- When the interval of a point starts: at the previous collection for delta, at the start of the provider for cumulative temporality. -/
def startFor (delta : Bool) (q : Times.Seq) : BitVec 64 := Export.stamp (if delta then q.last else q.start)

/-- The data of a metric is of the right sort, with the right temporality, and is not empty; its points cover the right interval. Gauge points have no
start. -/
def DataFor (o : Out) (delta : Bool) (q : Times.Seq) : Export.PData → Prop
  | .sum mono t ps => (o.shape = .monotonic ∧ mono = true ∨ o.shape = .nonMonotonic ∧ mono = false) ∧ t = tempoFor delta ∧ ps ≠ [] ∧
      ∀ d ∈ ps, d.start = some (startFor delta q) ∧ d.time = Export.stamp q.now ∧ OfKind o.num d.value
  | .gauge ps => o.shape = .gauge ∧ ps ≠ [] ∧ ∀ d ∈ ps, d.start = none ∧ d.time = Export.stamp q.now ∧ OfKind o.num d.value
  | .exp t ps => o.shape = .hist ∧ t = tempoFor delta ∧ ps ≠ [] ∧ ∀ d ∈ ps, d.start = startFor delta q ∧ d.time = Export.stamp q.now
  | .hist t ps => o.shape = .mmsc ∧ t = tempoFor delta ∧ ps ≠ [] ∧ ∀ d ∈ ps, d.start = startFor delta q ∧ d.time = Export.stamp q.now

/-- A metric for an output metric. -/
def MetricFor (delta : Nat → Bool) (q : Times.Seq) (o : Out) (m : Export.PMetric) : Prop :=
  m.name = o.name ∧ m.unit = o.unit ∧ m.description = o.description ∧ DataFor o (delta o.leaf) q m.data

/-- A payload for a reader: its resource, all its scopes in order, and in each some of its output metrics, in order. -/
def PayloadFor (R : Reader H) (delta : Nat → Bool) (q : Times.Seq) (p : Export.Payload) : Prop :=
  Export.AttrsOf R.resource p.resource ∧
  Export.Pointwise (fun sc s => s.library = sc.1 ∧ ∃ os, List.Sublist os sc.2 ∧ Export.Pointwise (MetricFor delta q) os s.metrics) R.scopes p.scopes

end Verif.Pipeline
