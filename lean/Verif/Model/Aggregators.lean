import Verif.Model.Number
import Verif.Model.SyncMachine

/-!
The aggregators: `lightstep/sdk/metric/aggregator/{sum,gauge,minmaxsumcount,histogram}`.

One storage type `Cell` carries the fields of all four state structs, so that views with different aggregators can
live in one system; each aggregator touches only its own fields.
-/

namespace Verif.Aggr
open Verif.Sync Verif.Number

/-- Union of the aggregator state structs: `sum.State.value` (sum.go:33-35), `gauge.State.{value, seq}`
(gauge.go:36-40), `minmaxsumcount.fields` (minmaxsumcount.go:37-42), `histogram.Histogram.Histogram`
(histogram.go:33-36, an external data structure, kept abstract as `H`).
Simplification: `count` and `seq` are unbounded (`uint64` in the code). -/
structure Cell (N H : Type) where
  value : N
  seq : Nat
  min : N
  max : N
  sum : N
  count : Nat
  hist : H
deriving DecidableEq, Repr

/-- The external exponential histogram (`go-expohisto/structure.Histogram`), as far as histogram.go uses it. -/
structure HistOps (N H : Type) where
  /-- `Init(cfg)`, also the result of `Clear()` -/
  empty : H
  /-- `Update` -/
  update : H → N → H
  /-- `MergeFrom` -/
  mergeFrom : H → H → H
  /-- `Count()` -/
  count : H → Nat

variable {N H : Type}

/-- Zeroed storage, before or after `Init` (sum.go:106, gauge.go:115, minmaxsumcount.go:107, histogram.go:124). -/
def emptyCell (o : Ops N) (h : HistOps N H) : Cell N H :=
  { value := o.zero, seq := 0, min := o.zero, max := o.zero, sum := o.zero, count := 0, hist := h.empty }

/-- `sum.Methods` (sum.go:110-131). -/
def sumAgg (o : Ops N) (h : HistOps N H) : Agg N (Cell N H) where
  init := emptyCell o h
  upd := fun s n _ => { s with value := o.add s.value n }
  reset := fun s => { s with value := o.zero }
  merge := fun to from_ => { to with value := o.add to.value from_.value }
  hasChange := fun s => o.nonzero s.value

/-- `gauge.Methods` (gauge.go:119-158). -/
def gaugeAgg (o : Ops N) (h : HistOps N H) : Agg N (Cell N H) where
  init := emptyCell o h
  upd := fun s n sq => { s with value := n, seq := sq }
  reset := fun s => { s with seq := 0 }
  merge := fun to from_ => if from_.seq ≠ 0 ∧ to.seq < from_.seq then { to with value := from_.value, seq := from_.seq } else to
  hasChange := fun s => s.seq != 0

/-- `minmaxsumcount.Methods.Update` (minmaxsumcount.go:128-146). -/
def mmscUpd (o : Ops N) (s : Cell N H) (n : N) : Cell N H :=
  { s with
    min := if s.count = 0 then n else if o.lt n s.min then n else s.min
    max := if s.count = 0 then n else if o.lt s.max n then n else s.max
    sum := o.add s.sum n
    count := s.count + 1 }

/-- `minmaxsumcount.Methods.Merge` (minmaxsumcount.go:148-168). -/
def mmscMerge (o : Ops N) (to from_ : Cell N H) : Cell N H :=
  { to with
    min := if from_.count ≠ 0 then (if to.count = 0 then from_.min else if o.lt from_.min to.min then from_.min else to.min) else to.min
    max := if from_.count ≠ 0 then (if to.count = 0 then from_.max else if o.lt to.max from_.max then from_.max else to.max) else to.max
    sum := o.add to.sum from_.sum
    count := to.count + from_.count }

/-- `minmaxsumcount.Methods` (minmaxsumcount.go:107-168). -/
def mmscAgg (o : Ops N) (h : HistOps N H) : Agg N (Cell N H) where
  init := emptyCell o h
  upd := fun s n _ => mmscUpd o s n
  reset := fun s => { s with min := o.zero, max := o.zero, sum := o.zero, count := 0 }
  merge := mmscMerge o
  hasChange := fun s => s.count != 0

/-- `histogram.Methods` (histogram.go:124-160). `Move` clears the destination and swaps: the source ends up cleared. -/
def histAgg (o : Ops N) (h : HistOps N H) : Agg N (Cell N H) where
  init := emptyCell o h
  upd := fun s n _ => { s with hist := h.update s.hist n }
  reset := fun s => { s with hist := h.empty }
  merge := fun to from_ => { to with hist := h.mergeFrom to.hist from_.hist }
  hasChange := fun s => h.count s.hist != 0

end Verif.Aggr
