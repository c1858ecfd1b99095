import Verif.Model.Instruments
import Verif.Model.Pipeline
import Verif.Model.Provider

/-!
The assembly: how the running system (`Model/Pipeline.lean`) is wired up by a provider with its meters, instruments and compiled views
(`Model/Provider.lean`, `Model/Views.lean`).

Simplification: the provider's state is the one after the instruments were created (`Model/Live.lean` creates them while the program runs, C93); measurements on an instrument cannot be made before. No callback
observes anything (for these see `Model/AsyncAssembly.lean`, and for both together `Model/Whole.lean`).
-/

namespace Verif.Assembly
open Verif.Attr Verif.Number Verif.Aggr Verif.Front Verif.Views Verif.Provider

/-! ### Addresses

Pointers to instruments and output metrics are numbers in the machine. They are made from the positions in the lists of the provider's state. -/

/-- A pair as a number. -/
def pair (a b : Nat) : Nat := 2 ^ a * (2 * b + 1) - 1

/-- The exponent of two and the odd factor of a number, given a number at least as large. -/
def unpairIn : Nat → Nat → Nat × Nat
  | 0, _ => (0, 0)
  | f + 1, n => if n % 2 = 1 then (0, n / 2) else ((unpairIn f (n / 2)).1 + 1, (unpairIn f (n / 2)).2)

/-- The pair of a number. -/
def unpair (n : Nat) : Nat × Nat := unpairIn (n + 1) (n + 1)

/-- The address of the `i`th instrument of the `k`th meter. -/
def instAddr (k i : Nat) : Nat := pair k i

/-- The address of the `j`th output metric which the `k`th meter has for a reader. -/
def leafAddr (k pipe j : Nat) : Nat := pair k (pair pipe j)

/-! ### Aggregators -/

/-- What does not come from the provider's state: `sdkinstrument.Performance` as far as used by synchronous instruments (performance.go:41-69), the resource, and the
external functions: float addition, the exponential histogram of each configuration, and what the exporter reads of it. -/
structure World (C G : Type) where
  ignoreColl : Bool
  instLimit : Nat
  periods : Nat
  sizeLimit : Nat
  resource : List KV
  fadd : Bits → Bits → Bits
  hist : Kind → C → HistOps Bits G
  /-- for addresses without an output metric -/
  noHist : HistOps Bits G
  toHist : G → Export.ExpHist
  mapping : Export.Mapping

variable {C G ν : Type}

/-- The number traits of the two instantiations (traits.go:44-127). -/
def World.ops (w : World C G) : Kind → Ops Bits
  | .int64 => intOps
  | .float64 => fltOps w.fadd

/-- `compileSync` (viewstate.go:450-485): the aggregator methods with this `Aggregation()`, for the number kind and configuration of the output metric
(newSyncView, viewstate.go:426-446). -/
def World.agg (w : World C G) (kind : AggKind) (num : Kind) (cfg : C) : Sync.Agg Bits (Cell Bits G) :=
  match kind with
  | .histogram => histAgg (w.ops num) (w.hist num cfg)
  | .mmsc => mmscAgg (w.ops num) (w.hist num cfg)
  | .gauge => gaugeAgg (w.ops num) (w.hist num cfg)
  | _ => sumAgg (w.ops num) (w.hist num cfg)

/-- The type of `ToAggregation` of these methods (viewstate.go:450-485; sum.go:134, gauge.go:160, minmaxsumcount.go:170, histogram.go:158). -/
def shapeOf : AggKind → Pipeline.Shape
  | .histogram => .hist
  | .mmsc => .mmsc
  | .gauge => .gauge
  | .nonMonoSum => .nonMonotonic
  | _ => .monotonic

/-! ### Wiring -/

/-- The output metric at an address. -/
def leafAt (p : Provider C ν) (l : Nat) : Option (Leaf C) :=
  (p.ordered[(unpair l).1]?).bind fun m => (m.comps[(unpair (unpair l).2).1]?).bind fun s => s.collectors[(unpair (unpair l).2).2]?

/-- The output metric at an address is one of synchronous instruments (viewstate.go:405-410: `compileSync` or `compileAsync`). -/
def syncLeaf (p : Provider C ν) (l : Nat) : Bool := ((leafAt p l).map (·.desc.kind.synchronous)).getD false

/-- The instrument at an address. -/
def instAt (p : Provider C ν) (o : Nat) : Option Provider.Inst := (p.ordered[(unpair o).1]?).bind fun m => m.insts[(unpair o).2]?

/-- The accumulators of a synchronous instrument (sync.go:64-92, `compiled` for each reader; sync.go:282-297 `initialize`, viewstate.go:556-587
`multiInstrument`): its output metrics for all readers in order. -/
def leavesOf (p : Provider C ν) (o : Nat) : List Nat :=
  match instAt p o with
  | none => []
  | some i => if i.desc.kind.synchronous then i.leaves.zipIdx.flatMap (fun e => e.1.map (leafAddr (unpair o).1 e.2)) else []

/-- The machine: `newSyncView` (viewstate.go:426-446) and `instrumentBase` (base_instrument.go:34-59) for each output metric. -/
def setup (w : World C G) (p : Provider C ν) : Setup (Cell Bits G) where
  ignoreColl := w.ignoreColl
  limit := w.instLimit
  periods := w.periods
  leavesOf := leavesOf p
  keys := fun l => (leafAt p l).bind (·.keys)
  lim := fun l => ((leafAt p l).map (·.acfg.limit)).getD 0
  delta := fun l => ((leafAt p l).map (·.delta)).getD false
  agg := fun l => match leafAt p l with
    | some f => w.agg f.kind f.desc.num f.acfg.hist
    | none => sumAgg intOps w.noHist

/-- The library of a meter in the output (producer.go:94-100). -/
def libOf (sc : Scope) : Export.Library := { name := sc.name, version := sc.version, schemaURL := sc.schema }

/-- An output metric (base_instrument.go:196-207). -/
def outOf (l : Nat) (f : Leaf C) : Pipeline.Out :=
  { leaf := l, name := f.desc.name, unit := f.desc.unit, description := f.desc.desc, num := f.desc.num, shape := shapeOf f.kind }

/-- The output metrics which the `k`th meter has for a reader, in order of creation (viewstate.go:323-403 `collectors`). -/
def outsOf (k pipe : Nat) (m : Meter C ν) : List Pipeline.Out :=
  (((m.comps[pipe]?).map (·.collectors)).getD []).zipIdx.map (fun e => outOf (leafAddr k pipe e.2) e.1)

/-- A reader of the provider with its exporter: the meters in order (producer.go:78-100). -/
def reader (w : World C G) (p : Provider C ν) (pipe : Nat) : Pipeline.Reader G where
  resource := w.resource
  scopes := p.ordered.zipIdx.map (fun e => (libOf e.1.scope, outsOf e.2 pipe e.1))
  toHist := w.toHist
  mapping := w.mapping

/-- The `i`th instrument of the `k`th meter as called by the user (sync.go:330-364); the measurement processor depends on the context of the call. -/
def instrument (w : World C G) (k i : Nat) (o : Provider.Inst) (proc : Option (List KV → List KV)) : Front.Inst :=
  { id := instAddr k i, kind := o.desc.kind, num := o.desc.num, sizeLimit := w.sizeLimit, proc := proc }

end Verif.Assembly
