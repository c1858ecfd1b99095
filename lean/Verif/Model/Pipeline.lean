import Verif.Model.Aggregators
import Verif.Model.Client
import Verif.Model.Front
import Verif.Model.Times

/-!
The whole path of a measurement: from the call on a synchronous instrument to the payloads a push exporter hands to the collector component.

Composes the models of `internal/syncstate`, `internal/viewstate` (`Sync.step` with the real attribute functions), `producer.go`, `periodic.go` and
`internal/export` (`Export.d2pd`). One reader is followed; its views are among the views of the machine, other readers run freely beside it.
-/

namespace Verif.Pipeline
open Verif.Attr Verif.Number Verif.Aggr

/-- The concrete types of `ToAggregation` (sum.go:134, gauge.go:160, minmaxsumcount.go:170, histogram.go:158). -/
inductive Shape where
  | monotonic | nonMonotonic | gauge | hist | mmsc
deriving DecidableEq, Repr

/-- An output metric of the reader: its number in the machine, and its descriptor. -/
structure Out where
  leaf : Nat
  name : Str
  unit : Str
  description : Str
  num : Kind
  shape : Shape

variable {H : Type}

/-- The static part of a reader with an exporter: `cfg.res` (provider.go), for each meter its scope and output metrics in order of creation, and what the
exporter reads of a histogram. The list contains the output metrics made later, too: an instrument without points is not exported
(export.go:288-291). -/
structure Reader (H : Type) where
  resource : List KV
  scopes : List (Export.Library × List Out)
  toHist : H → Export.ExpHist
  mapping : Export.Mapping

/-- `ToAggregation` of an aggregator's state. -/
def aggOf (toHist : H → Export.ExpHist) (o : Out) (v : Cell Bits H) : Export.Agg :=
  match o.shape with
  | .monotonic => .monotonic o.num v.value
  | .nonMonotonic => .nonMonotonic o.num v.value
  | .gauge => .gauge o.num v.value
  | .hist => .hist o.num (toHist v.hist)
  | .mmsc => .mmsc o.num { sum := v.sum, count := v.count, min := v.min, max := v.max }

/-- The temporality in the exporter's vocabulary. -/
def tempo : Views.Tempo → Export.Temporality
  | .undefined => .undefined
  | .cumulative => .cumulative
  | .delta => .delta
  | .other _ => .undefined

/-- `appendPoint` (base_instrument.go:214-236) as called by the two synchronous `Collect` methods (collectors.go:41, 67). -/
def pointOf (toHist : H → Export.ExpHist) (delta : Bool) (q : Times.Seq) (o : Out) (e : Sync.Emit (List KV) (Cell Bits H)) : Export.Point :=
  let t := Times.pointTimes (Times.collectorFor true delta false) q
  { attrs := e.key, temporality := tempo t.1, agg := aggOf toHist o e.val, start := t.2.1, stop := t.2.2 }

/-- The points of a collection, oldest first, as an instrument of the output (base_instrument.go:196-207, collectors.go:34-91): those of the output metric
which were not removed again. -/
def instrumentOf (toHist : H → Export.ExpHist) (delta : Nat → Bool) (q : Times.Seq) (es : List (Sync.Emit (List KV) (Cell Bits H))) (o : Out) :
    Export.Instrument :=
  { name := o.name, unit := o.unit, description := o.description
    points := (es.filter (fun e => e.leaf == o.leaf && e.kept)).map (pointOf toHist (delta o.leaf) q o) }

/-- The output of `Produce` (producer.go:52-127). -/
def metricsOf (R : Reader H) (delta : Nat → Bool) (q : Times.Seq) (es : List (Sync.Emit (List KV) (Cell Bits H))) : Export.Metrics :=
  { resource := R.resource
    scopes := R.scopes.map (fun sc => { library := sc.1, instruments := sc.2.map (instrumentOf R.toHist delta q es) }) }

/-- The running system. `seen` is the number of points (of all readers) collected before the last export, `sent` are the payloads handed over, oldest
first; `rm` is the exporter's resource cache. -/
structure Sys (H : Type) where
  s : Sync.State (List KV) (List KV) Bits (Cell Bits H)
  seen : Nat
  rm : Export.ResourceMap
  sent : List Export.Payload

inductive Act where
  /-- a goroutine calls a synchronous instrument -/
  | call (i : Front.Inst) (attrs : List KV) (num : Bits)
  /-- the scheduler: a call or a task goes on, or a reader starts a task; not `observe` -/
  | sched (a : Sync.Action (List KV) Bits)
  /-- the reader's exporter is called with the points collected since the last time (periodic.go:151-167, export.go:319-338); the clock readings are
  given. The lock of the periodic reader makes this happen only between collections of this reader; here it may happen any time. -/
  | export (q : Times.Seq)

/-- Is it a new call? -/
def isObserve : Sync.Action (List KV) Bits → Bool
  | .observe _ _ _ => true
  | _ => false

/-- The points collected since the last export, oldest first. -/
def fresh (x : Sys H) : List (Sync.Emit (List KV) (Cell Bits H)) := (x.s.emits.take (x.s.emits.length - x.seen)).reverse

/-- One step; `none` when it cannot happen. A conversion that panics sends nothing. -/
def step (c : Sync.Cfg (List KV) (List KV) Bits (Cell Bits H)) (R : Reader H) (x : Sys H) : Act → Option (Sys H)
  | .call i attrs num => some { x with s := Front.observe c x.s (some i) attrs num }
  | .sched a => if isObserve a then none else (Sync.step c x.s a).map (fun s => { x with s := s })
  | .export q =>
    let r := Export.d2pd R.mapping x.rm (metricsOf R c.delta q (fresh x)) true
    some { x with seen := x.s.emits.length, rm := r.1, sent := x.sent ++ r.2.toList }

/-- The system before any call. -/
def initial (c : Sync.Cfg (List KV) (List KV) Bits (Cell Bits H)) : Sys H :=
  { s := Sync.initial c 0, seen := 0, rm := Export.ResourceMap.new, sent := [] }

def run (c : Sync.Cfg (List KV) (List KV) Bits (Cell Bits H)) (R : Reader H) : Sys H → List Act → Option (Sys H)
  | x, [] => some x
  | x, a :: as => (step c R x a).bind (fun x' => run c R x' as)

end Verif.Pipeline
