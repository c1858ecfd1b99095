import Verif.Spec.Views

/-!
What a conflict error has to say. Used by C81.
-/

namespace Verif.Views
open Verif.Attr Verif.Front

variable {H : Type}

/-- The names of the kinds as they appear in messages. -/
def instrumentWord : IKind → Str
  | .syncCounter => lit "SyncCounter"
  | .syncUpDownCounter => lit "SyncUpDownCounter"
  | .syncGauge => lit "SyncGauge"
  | .syncHistogram => lit "SyncHistogram"
  | .asyncCounter => lit "AsyncCounter"
  | .asyncUpDownCounter => lit "AsyncUpDownCounter"
  | .asyncGauge => lit "AsyncGauge"

def numberWord : Number.Kind → Str
  | .int64 => lit "Int64"
  | .float64 => lit "Float64"

def aggregationWord : AggKind → Str
  | .undefined => lit "Undefined"
  | .drop => lit "Drop"
  | .anySum => lit "AnySum"
  | .monoSum => lit "MonotonicSum"
  | .nonMonoSum => lit "NonMonotonicSum"
  | .gauge => lit "Gauge"
  | .histogram => lit "Histogram"
  | .mmsc => lit "MinMaxSumCount"
  | .other n => lit "Kind(" ++ lit (toString n) ++ lit ")"

/-- Two output metrics agree in instrument kind, number kind, aggregation and unit. -/
structure Alike (a b : Leaf H) : Prop where
  kind : a.desc.kind = b.desc.kind
  num : a.desc.num = b.desc.num
  agg : a.kind = b.kind
  unit : a.desc.unit = b.desc.unit

/-- The one-line summary of an output metric: kinds, aggregation, and the unit if there is one. -/
def summary (l : Leaf H) : Str :=
  instrumentWord l.desc.kind ++ lit "-" ++ numberWord l.desc.num ++ lit "-" ++ aggregationWord l.kind ++
    (if l.desc.unit = [] then [] else lit "-" ++ l.desc.unit)

/-- The original name, if the metric was renamed. -/
def originally (quote : Str → Str) (l : Leaf H) : Str :=
  if l.fromName = l.desc.name then [] else lit " (original " ++ quote l.fromName ++ lit ")"

/-- A true statement about how two output metrics differ. -/
inductive Difference (quote : Str → Str) (a b : Leaf H) : Str → Prop
  | kinds : ¬ Alike a b → Difference quote a b (lit " conflicts " ++ summary a ++ lit ", " ++ summary b ++ originally quote b)
  | config : Alike a b → a.acfg ≠ b.acfg → Difference quote a b (lit " has conflicts: different aggregator configuration")
  | filters : Alike a b → a.acfg = b.acfg → ¬ SameKeys a.keys b.keys →
      Difference quote a b (lit " has conflicts: different attribute filters")

end Verif.Views
