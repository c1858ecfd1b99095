import Verif.Model.Async
import Verif.Model.Pipeline

/-!
The whole path of an observation: from a callback to the payloads a push exporter hands to the collector component.

Composes the models of `internal/asyncstate`, `internal/viewstate` (`Async.step` with the real attribute functions), `producer.go`, `periodic.go` and
`internal/export` (`Export.d2pd`), for the asynchronous instruments of one reader.
-/

namespace Verif.AsyncPipeline
open Verif.Attr Verif.Number

/-- `sum.Methods` (sum.go:106-145) on either kind of number. `fadd` and `fsub` are float arithmetic, kept abstract. -/
def sumAgg (fadd fsub : Bits → Bits → Bits) : Kind → Async.AAgg Bits Bits
  | .int64 => { init := 0, upd := fun x n => x + n, sub := fun operand argument => argument - operand, hasChange := fun x => x != 0 }
  | .float64 => { init := 0, upd := fadd, sub := fun operand argument => fsub argument operand, hasChange := (fltOps fadd).nonzero }

/-- `gauge.Methods` (gauge.go:115-158) for a fresh cell, which an asynchronous gauge has in every collection. Sequence numbers only grow, so an update
replaces the value. `SubtractSwap` and `HasChange` are not called: a gauge has the low memory form (viewstate.go:507-521). -/
def gaugeAgg : Async.AAgg Bits Bits := { init := 0, upd := fun _ n => n, sub := fun _ argument => argument, hasChange := fun _ => true }

/-- The instruments and output metrics of the meters of a provider, for one reader. -/
structure Setup where
  /-- kind, number kind and attribute size limit of an asynchronous instrument; the measurement processor is not used -/
  inst : Nat → Front.Inst
  leavesOf : Nat → List Nat
  /-- the key filter of each output metric; `none` is no filter -/
  keys : Nat → Option (List Str)
  lim : Nat → Nat
  /-- delta temporality is configured -/
  delta : Nat → Bool
  /-- the aggregator chosen by `compileAsync` (viewstate.go:531-554) is the gauge -/
  gauge : Nat → Bool
  num : Nat → Kind
  fadd : Bits → Bits → Bits
  fsub : Bits → Bits → Bits

/-- The attribute set used for an observation (async.go:140-142): the set of the options, truncated, made a set again. -/
def Setup.set (u : Setup) (o : Nat) (attrs : List KV) : List KV := newSet (truncate (u.inst o).sizeLimit (newSet attrs))

/-- The machine with the code's attribute functions and aggregators. -/
def cfg (u : Setup) : Async.Cfg (List KV) Bits Bits where
  leavesOf := u.leavesOf
  filt := fun l => applyKeysFilter (u.keys l)
  lim := u.lim
  ovf := overflowSet
  agg := fun l => if u.gauge l then gaugeAgg else sumAgg u.fadd u.fsub (u.num l)
  delta := fun l => u.delta l && !u.gauge l
  inRange := fun o n => Front.rangeTest (u.inst o).num n (u.inst o).kind
  canon := u.set
  zero := 0

/-- `ToAggregation` of an aggregator's state (sum.go:134, gauge.go:160). Only these shapes are made for asynchronous instruments
(viewstate.go:531-554). -/
def aggOf (o : Pipeline.Out) (v : Bits) : Export.Agg :=
  match o.shape with
  | .monotonic => .monotonic o.num v
  | .gauge => .gauge o.num v
  | _ => .nonMonotonic o.num v

/-- `appendPoint` (base_instrument.go:214-236) as called by the two asynchronous `Collect` methods (collectors.go:109, 159). -/
def pointOf (u : Setup) (q : Times.Seq) (o : Pipeline.Out) (e : List KV × Bits) : Export.Point :=
  let t := Times.pointTimes (Times.collectorFor false (u.delta o.leaf) (u.gauge o.leaf)) q
  { attrs := e.1, temporality := Pipeline.tempo t.1, agg := aggOf o e.2, start := t.2.1, stop := t.2.2 }

/-- The points of a collection as an instrument of the output (base_instrument.go:196-207). -/
def instrumentOf (u : Setup) (q : Times.Seq) (out : Nat → List (List KV × Bits)) (o : Pipeline.Out) : Export.Instrument :=
  { name := o.name, unit := o.unit, description := o.description, points := (out o.leaf).map (pointOf u q o) }

variable {H : Type}

/-- The output of `Produce` (producer.go:52-127). -/
def metricsOf (u : Setup) (R : Pipeline.Reader H) (q : Times.Seq) (out : Nat → List (List KV × Bits)) : Export.Metrics :=
  { resource := R.resource
    scopes := R.scopes.map (fun sc => { library := sc.1, instruments := sc.2.map (instrumentOf u q out) }) }

/-- The running system; `sent` are the payloads handed over, oldest first; `rm` is the exporter's resource cache. -/
structure Sys where
  s : Async.State (List KV) Bits Bits
  rm : Export.ResourceMap
  sent : List Export.Payload

inductive Act where
  /-- callbacks start, observe and return; not the end of a collection -/
  | cb (a : Async.Action (List KV) Bits)
  /-- the collection ends and is exported (periodic.go:151-167, export.go:319-338); the clock readings are given. The lock of the periodic reader
  keeps collections apart. -/
  | collect (order : List (Async.Entry (List KV) Bits)) (q : Times.Seq)

/-- Is it the end of a collection? -/
def isFinish : Async.Action (List KV) Bits → Bool
  | .finish _ => true
  | _ => false

/-- One step; `none` when it cannot happen. A conversion that panics sends nothing. -/
def step (u : Setup) (R : Pipeline.Reader H) (x : Sys) : Act → Option Sys
  | .cb a => if isFinish a then none else (Async.step (cfg u) x.s a).map (fun s => { x with s := s })
  | .collect order q => (Async.step (cfg u) x.s (.finish order)).map (fun s =>
      let r := Export.d2pd R.mapping x.rm (metricsOf u R q (s.out x.s.coll)) true
      { s := s, rm := r.1, sent := x.sent ++ r.2.toList })

def initial (u : Setup) : Sys := { s := Async.initial (cfg u) [], rm := Export.ResourceMap.new, sent := [] }

def run (u : Setup) (R : Pipeline.Reader H) : Sys → List Act → Option Sys
  | x, [] => some x
  | x, a :: as => (step u R x a).bind (fun x' => run u R x' as)

end Verif.AsyncPipeline
