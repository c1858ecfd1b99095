import Verif.Model.Prom
import Verif.Spec.Delivery
import Verif.Spec.Pipeline

/-!
What the Prometheus exporter should be handed, compared to what an OTLP exporter would be handed.
-/

namespace Verif.Prom
open Verif.Attr Verif.Number Verif.Export Verif.Assembly
variable {C G ν : Type} [DecidableEq C]

/-- The buckets of a histogram by boundaries: up to zero; a gap, which is empty; each positive bucket of the exponential histogram up to its upper boundary; and the rest, which is empty. Without
positive values: up to zero, and the rest. -/
def BucketsIn (m : Mapping) (d : PExp) (bounds : List Bits) (counts : List Nat) : Prop :=
  (d.pos.2 = [] → bounds = [fzero] ∧ counts = [d.zeroCount, 0]) ∧
  (d.pos.2 ≠ [] → ∃ lower, m d.scale = some lower ∧ bounds = fzero :: (List.range (d.pos.2.length + 1)).map (fun (i : Nat) => lower (d.pos.1 + i)) ∧
    counts = d.zeroCount :: 0 :: d.pos.2 ++ [0])

/-- A histogram point with boundaries instead of an exponential one: everything but the buckets is the same. -/
def PointIn (m : Mapping) (d : PExp) (d' : PHist) : Prop :=
  d'.start = d.start ∧ d'.time = d.time ∧ d'.attrs = d.attrs ∧ d'.sum = d.sum ∧ d'.count = d.count ∧ d'.min = d.min ∧ d'.max = d.max ∧ BucketsIn m d d'.bounds d'.counts

/-- The data of a metric: the same unless it is an exponential histogram. -/
def DataIn (m : Mapping) : PData → PData → Prop
  | .exp t ds, b => ∃ ds', b = .hist t ds' ∧ Pointwise (PointIn m) ds ds'
  | a, b => b = a

def MetricIn (m : Mapping) (a b : PMetric) : Prop := b.name = a.name ∧ b.unit = a.unit ∧ b.description = a.description ∧ DataIn m a.data b.data

def ScopeIn (m : Mapping) (a b : PScope) : Prop := b.library = a.library ∧ Pointwise (MetricIn m) a.metrics b.metrics

/-- The payload for Prometheus, compared to the one for OTLP. -/
def PayloadIn (m : Mapping) (a b : Payload) : Prop := b.resource = a.resource ∧ Pointwise (ScopeIn m) a.scopes b.scopes

/-- All exponential histogram points of a payload. -/
def allExp (p : Payload) : List PExp := p.scopes.flatMap (fun s => s.metrics.flatMap (fun m => Pipeline.expPoints m.data))

/-- The boundaries of the positive buckets are available. -/
def Bounded (m : Mapping) (d : PExp) : Prop := d.pos.2 = [] ∨ m d.scale ≠ none

/-- A program with the Prometheus exporter: see `Delivery.Running`. -/
structure Running (farm : Str → UInt64) (w : World C G) (fsub : Bits → Bits → Bits) (x : Views.Ext C) (views : List (Views.Views C)) (pipe : Nat) (start : Int)
    (acts : List (Delivery.Act ν)) (y : Sys C G ν) : Prop where
  resource : Exportable w.resource
  typed : ∀ e ∈ Pipeline.calls (Delivery.measured acts), ∀ kv ∈ e.1.attrs e.2.1, kv.val ≠ .invalid
  observed : ∀ cb o as v, .cb (.observe cb o as v) ∈ acts → ∀ kv ∈ as, kv.val ≠ .invalid
  orderly : Delivery.Orderly farm w fsub x pipe (Delivery.initial farm w fsub y.prog.z.p views pipe start) acts
  runs : run farm w fsub x pipe (initial farm w fsub y.prog.z.p views pipe start) acts = some y

/-- Such a program until all calls on synchronous instruments have returned (`acts`), and until a later call of `ForceFlush` or `Shutdown` has returned (`after`): see
`Delivery.Closing`. -/
structure Closing (farm : Str → UInt64) (w : World C G) (fsub : Bits → Bits → Bits) (x : Views.Ext C) (views : List (Views.Views C)) (pipe : Nat) (start : Int)
    (acts after : List (Delivery.Act ν)) (y y' : Sys C G ν) : Prop where
  running : Running farm w fsub x views pipe start (acts ++ after) y'
  alive : y'.panicked = false
  few : (Delivery.measured acts).length < 2 ^ 32
  before : run farm w fsub x pipe (initial farm w fsub y'.prog.z.p views pipe start) acts = some y
  returned : ∀ i, i < y.prog.z.s.sync.nextOp → (y.prog.z.s.sync.op i).pc = .done
  quiet : Delivery.makes after = [] ∧ Delivery.measured after = []
  call : ∃ t kind, y.prog.r.threads.length ≤ t ∧ y'.prog.r.threads[t]? = some ⟨kind, .done⟩

end Verif.Prom
