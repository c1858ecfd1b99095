import Verif.Basic
import Verif.Model.Times

/-!
Collecting into a reused `data.Metrics`. Models `lightstep/sdk/metric/data/data.go`, `producer.go: Produce, collectFor`,
`internal/viewstate/base_instrument.go: appendInstrument, appendPoint, appendOrReusePoint`, `internal/viewstate/collectors.go` and the
`Init`, `Move`, `Copy`, `HasChange`, `SubtractSwap`, `ToStorage` methods of the aggregators.

An output point refers to its aggregation by a pointer, and reuse writes through that pointer: aggregations of output points live in an explicit heap.
A slice is the elements up to its length and those from there to its capacity; each of the three nested slices has one owner, the `Metrics` object, which
is handed to `Produce` and comes back as its result.

Simplifications:
* The entries of a view's map are a list, in the order the map is iterated. Updates running during a collection are not steps of their own: an update of
  an entry before the entry is moved or copied has the same effect as one just before the collection, one after has the same as just after it.
* The aggregations inside the views (`storageHolder.storage`) are values: no pointer to one is ever put in the output.
* Numbers are bits; the exponential histogram is the external library's.
-/

namespace Verif.Reuse
open Verif.Times (Seq Collector pointTimes)
open Verif.Views (Tempo)

/-- What is used of `go-expohisto/structure.Histogram` (histogram.go:124-160) and of numbers. -/
structure Lib (H : Type) where
  /-- `Init` with a configuration (the maximum size) -/
  init : Nat → H
  clear : H → H
  /-- `a.Swap(&b)`: the new `a` and `b` -/
  swap : H → H → H × H
  /-- `from.CopyInto(&to)`: the new `to` -/
  copyInto : H → H → H
  count : H → Nat
  /-- `x != 0`; the first argument tells floating point -/
  nonzero : Bool → UInt64 → Bool
  /-- `x - y` -/
  sub : Bool → UInt64 → UInt64 → UInt64

/-- The aggregation states: `sum.State[N, Traits, M]` (sum.go:33-35), `gauge.State` (gauge.go:39-43), `minmaxsumcount.State` (minmaxsumcount.go:37-48),
`histogram.Histogram` (histogram.go:32-35). `float` and `mono` are the type parameters. -/
inductive Stor (H : Type) where
  | sum (mono float : Bool) (value : UInt64)
  | gauge (float : Bool) (value : UInt64) (seq : Nat)
  | mmsc (float : Bool) (min max sum : UInt64) (count : Nat)
  | hist (float : Bool) (h : H)
deriving DecidableEq

/-- The Go type of a state. -/
inductive Ty where
  | sum (mono float : Bool) | gauge (float : Bool) | mmsc (float : Bool) | hist (float : Bool)
deriving DecidableEq

variable {H : Type}

def Stor.ty : Stor H → Ty
  | .sum m f _ => .sum m f
  | .gauge f _ _ => .gauge f
  | .mmsc f _ _ _ _ => .mmsc f
  | .hist f _ => .hist f

/-- `newStorage` (base_instrument.go:190-194) with `Init` (sum.go:106, gauge.go:115, minmaxsumcount.go:107, histogram.go:124). -/
def fresh (L : Lib H) (cfg : Nat) : Ty → Stor H
  | .sum m f => .sum m f 0
  | .gauge f => .gauge f 0 0
  | .mmsc f => .mmsc f 0 0 0 0
  | .hist f => .hist f (L.init cfg)

/-- `Copy(from, to)` (sum.go:124, gauge.go:133, minmaxsumcount.go:121, histogram.go:146): the new `to`. The types of the arguments are equal. -/
def copy (L : Lib H) : Stor H → Stor H → Stor H
  | .sum _ _ v, .sum m f _ => .sum m f v
  | .gauge _ v q, .gauge f _ _ => .gauge f v q
  | .mmsc _ a b c n, .mmsc f _ _ _ _ => .mmsc f a b c n
  | .hist _ h, .hist f g => .hist f (L.copyInto h g)
  | _, to => to

/-- `Move(from, to)` (sum.go:110, gauge.go:123, minmaxsumcount.go:114, histogram.go:138): the new `from` and `to`. -/
def move (L : Lib H) : Stor H → Stor H → Stor H × Stor H
  | .sum m' f' v, .sum m f _ => (.sum m' f' 0, .sum m f v)
  | .gauge f' v q, .gauge f _ _ => (.gauge f' v 0, .gauge f v q)
  | .mmsc f' a b c n, .mmsc f _ _ _ _ => (.mmsc f' 0 0 0 0, .mmsc f a b c n)
  | .hist f' h, .hist f g => (.hist f' (L.swap h (L.clear g)).1, .hist f (L.swap h (L.clear g)).2)
  | fr, to => (fr, to)

/-- `HasChange` (sum.go:115, gauge.go:119, minmaxsumcount.go:110, histogram.go:128). -/
def hasChange (L : Lib H) : Stor H → Bool
  | .sum _ f v => L.nonzero f v
  | .gauge _ _ q => q != 0
  | .mmsc _ _ _ _ n => n != 0
  | .hist _ h => L.count h != 0

/-- `SubtractSwap(operand, argument)` (sum.go:143-145): the new operand. It is used with sums only (viewstate.go:507-521). -/
def subtract (L : Lib H) : Stor H → Stor H → Stor H
  | .sum m f v, .sum _ _ w => .sum m f (L.sub f w v)
  | op, _ => op

/-! ### Memory -/

/-- The aggregations reachable from output points. -/
structure Heap (H : Type) where
  next : Nat
  cell : Nat → Stor H

/-- A slice: the elements up to its length, and those from there up to its capacity. -/
structure Slice (α : Type) where
  vis : List α
  hid : List α
deriving DecidableEq

/-- `(*s)[0:0:cap(*s)]` after resetting the elements (data.go:99-104, 112-117, 125-127). -/
def Slice.reset {α : Type} (f : α → α) (s : Slice α) : Slice α := ⟨[], s.vis.map f ++ s.hid⟩

/-- `ReallocateFrom` (data.go:132-140): the element found there, and what is left of the capacity. When the slice is full `append` makes room for `grow`
more, which are zero. -/
def Slice.realloc {α : Type} (zero : α) (grow : Nat → Nat) (s : Slice α) : α × List α :=
  match s.hid with
  | e :: rest => (e, rest)
  | [] => (zero, List.replicate (grow s.vis.length) zero)

/-- `data.Point` (data.go:70-90); the aggregation is a pointer, or nil. -/
structure Point (K : Type) where
  attrs : K
  tempo : Tempo
  aggr : Option Nat
  start : Int
  stop : Int

/-- `data.Instrument` (data.go:60-67). -/
structure Inst (K D : Type) where
  desc : D
  points : Slice (Point K)

/-- `data.Scope` (data.go:48-55). -/
structure Scope (K D : Type) where
  library : D
  insts : Slice (Inst K D)

/-- `data.Metrics` (data.go:37-43). -/
structure Metrics (K D : Type) where
  resource : D
  scopes : Slice (Scope K D)

variable {K D : Type}

/-- `Instrument.Reset` (data.go:121-123). -/
def Inst.reset (i : Inst K D) : Inst K D := { i with points := i.points.reset id }

/-- `Scope.Reset` (data.go:108-110). -/
def Scope.reset (s : Scope K D) : Scope K D := { s with insts := s.insts.reset Inst.reset }

/-- `Metrics.Reset` (data.go:95-97). -/
def Metrics.reset (m : Metrics K D) : Metrics K D := { m with scopes := m.scopes.reset Scope.reset }

/-- What Go's zero values are, and how far `append` grows a slice. -/
structure Env (K D : Type) where
  noAttrs : K
  noDesc : D
  grow : Nat → Nat

def Env.point (e : Env K D) : Point K := ⟨e.noAttrs, .undefined, none, 0, 0⟩
def Env.inst (e : Env K D) : Inst K D := ⟨e.noDesc, ⟨[], []⟩⟩
def Env.scope (e : Env K D) : Scope K D := ⟨e.noDesc, ⟨[], []⟩⟩
def Env.metrics (e : Env K D) : Metrics K D := ⟨e.noDesc, ⟨[], []⟩⟩

/-! ### Collecting -/

/-- A `storageHolder` of a view's map with its key (base_instrument.go:43-47); `refs` is the reference count of synchronous ones. -/
structure Entry (K H : Type) where
  key : K
  refs : Int
  stor : Stor H
deriving DecidableEq

/-- A collector: one of the four kinds of view state (collectors.go:28-121), with its type of aggregation and its configuration. -/
structure View (K D H : Type) where
  desc : D
  kind : Collector
  ty : Ty
  cfg : Nat
  data : List (Entry K H)
  prior : List (Entry K H)

/-- `appendOrReusePoint` (base_instrument.go:240-248) and the allocation in `appendPoint` (217-220): the storage to write to. -/
def target (L : Lib H) (ty : Ty) (cfg : Nat) (h : Heap H) (p : Point K) : Nat × Heap H :=
  match p.aggr with
  | some a => if (h.cell a).ty = ty then (a, h) else (h.next, ⟨h.next + 1, upd h.cell h.next (fresh L cfg ty)⟩)
  | none => (h.next, ⟨h.next + 1, upd h.cell h.next (fresh L cfg ty)⟩)

def Heap.set (h : Heap H) (a : Nat) (s : Stor H) : Heap H := { h with cell := upd h.cell a s }

/-- `appendPoint` (base_instrument.go:214-236): the new heap, the new points, and the new storage of the view. -/
def appendPoint (L : Lib H) (E : Env K D) (v : View K D H) (q : Seq) (reset : Bool) (h : Heap H) (ps : Slice (Point K)) (key : K) (from_ : Stor H) :
    Heap H × Slice (Point K) × Stor H :=
  let r := ps.realloc E.point E.grow
  let t := target L v.ty v.cfg h r.1
  let m := if reset then move L from_ (t.2.cell t.1) else (from_, copy L from_ (t.2.cell t.1))
  let w := pointTimes v.kind q
  (t.2.set t.1 m.2, ⟨ps.vis ++ [⟨key, w.1, some t.1, w.2.1, w.2.2⟩], r.2⟩, m.1)

/-- The loop of the two cumulative `Collect`s (collectors.go:40-42, 107-109): every entry is copied. -/
def copyLoop (L : Lib H) (E : Env K D) (v : View K D H) (q : Seq) : List (Entry K H) → Heap H → Slice (Point K) → Heap H × Slice (Point K)
  | [], h, ps => (h, ps)
  | e :: es, h, ps =>
    let r := appendPoint L E v q false h ps e.key e.stor
    copyLoop L E v q es r.1 r.2.1

/-- Whether the last point's aggregation has changed (collectors.go:71-78). -/
def lastChanged (L : Lib H) (h : Heap H) (ps : Slice (Point K)) : Bool :=
  match ps.vis.getLast? with
  | some p => match p.aggr with
    | some a => hasChange L (h.cell a)
    | none => false
  | none => false

/-- `ptsArr[0 : len(ptsArr)-1 : cap(ptsArr)]` (collectors.go:84). -/
def dropPoint (ps : Slice (Point K)) : Slice (Point K) := ⟨ps.vis.dropLast, ps.vis.getLast?.toList ++ ps.hid⟩

/-- The loop of `lowmemorySyncInstrument.Collect` (collectors.go:59-92): every entry is moved; the point is given back when there is no change, and
then the entry is removed if nothing refers to it. The entries kept, the heap and the points. -/
def moveLoop (L : Lib H) (E : Env K D) (v : View K D H) (q : Seq) : List (Entry K H) → Heap H → Slice (Point K) → List (Entry K H) × Heap H × Slice (Point K)
  | [], h, ps => ([], h, ps)
  | e :: es, h, ps =>
    let r := appendPoint L E v q true h ps e.key e.stor
    if lastChanged L r.1 r.2.1 then
      let t := moveLoop L E v q es r.1 r.2.1
      ({ e with stor := r.2.2 } :: t.1, t.2)
    else
      let t := moveLoop L E v q es r.1 (dropPoint r.2.1)
      (if e.refs = 0 then t.1 else { e with stor := r.2.2 } :: t.1, t.2)

/-- One entry of the loop of `statefulAsyncInstrument.Collect` (collectors.go:142-157): what is to be copied out, if anything. -/
def difference [DecidableEq K] (L : Lib H) (prior : List (Entry K H)) (e : Entry K H) : Option (Stor H) :=
  match prior.find? (fun p => p.key = e.key) with
  | some p => if hasChange L (subtract L p.stor e.stor) then some (subtract L p.stor e.stor) else none
  | none => some e.stor

/-- The loop of `statefulAsyncInstrument.Collect` (collectors.go:141-159). -/
def subLoop [DecidableEq K] (L : Lib H) (E : Env K D) (v : View K D H) (q : Seq) : List (Entry K H) → Heap H → Slice (Point K) → Heap H × Slice (Point K)
  | [], h, ps => (h, ps)
  | e :: es, h, ps =>
    match difference L v.prior e with
    | some s =>
      let r := appendPoint L E v q false h ps e.key s
      subLoop L E v q es r.1 r.2.1
    | none => subLoop L E v q es h ps

/-- The overflow entry copied to the next data set (collectors.go:173-178); its storage is new, without `Init`, which for sums makes no difference. -/
def carry [DecidableEq K] (ovf : K) (es : List (Entry K H)) : List (Entry K H) := es.filter (fun e => e.key = ovf)

/-- `Collect` (collectors.go:34-43, 51-93, 101-113, 132-179) on the instrument that `appendInstrument` (base_instrument.go:202-206) found. -/
def collectView [DecidableEq K] (L : Lib H) (E : Env K D) (ovf : K) (q : Seq) (v : View K D H) (h : Heap H) (i : Inst K D) : View K D H × Heap H × Inst K D :=
  match v.kind with
  | .statefulSync =>
    let r := copyLoop L E v q v.data h i.points
    (v, r.1, ⟨v.desc, r.2⟩)
  | .lowmemorySync =>
    let r := moveLoop L E v q v.data h i.points
    ({ v with data := r.1 }, r.2.1, ⟨v.desc, r.2.2⟩)
  | .lowmemoryAsync =>
    let r := copyLoop L E v q v.data h i.points
    ({ v with data := [] }, r.1, ⟨v.desc, r.2⟩)
  | .statefulAsync =>
    let r := subLoop L E v q v.data h i.points
    ({ v with data := carry ovf v.data, prior := v.data }, r.1, ⟨v.desc, r.2⟩)

/-- Extend a slice by one element per thing collected (data.go:132-140, used in producer.go:121-126 and base_instrument.go:202-206). -/
def extend {X α : Type} (zero : α) (grow : Nat → Nat) (f : X → Heap H → α → X × Heap H × α) : List X → Heap H → Slice α → List X × Heap H × Slice α
  | [], h, s => ([], h, s)
  | x :: xs, h, s =>
    let r := s.realloc zero grow
    let c := f x h r.1
    let t := extend zero grow f xs c.2.1 ⟨s.vis ++ [c.2.2], r.2⟩
    (c.1 :: t.1, t.2)

/-- A meter, for one reader: `compilers[pipe].Collectors()` (producer.go:124). -/
structure Meter (K D H : Type) where
  library : D
  views : List (View K D H)

/-- `collectFor` (producer.go:121-126) on the scope that `ReallocateFrom` found. -/
def collectMeter [DecidableEq K] (L : Lib H) (E : Env K D) (ovf : K) (q : Seq) (m : Meter K D H) (h : Heap H) (s : Scope K D) :
    Meter K D H × Heap H × Scope K D :=
  let r := extend E.inst E.grow (collectView L E ovf q) m.views h s.insts
  ({ m with views := r.1 }, r.2.1, ⟨m.library, r.2.2⟩)

/-- `Produce` (producer.go:46-88) into a given `Metrics`, or a new one. -/
def produce [DecidableEq K] (L : Lib H) (E : Env K D) (ovf : K) (resource : D) (q : Seq) (ms : List (Meter K D H)) (h : Heap H) (inout : Option (Metrics K D)) :
    List (Meter K D H) × Heap H × Metrics K D :=
  let out := (inout.map Metrics.reset).getD E.metrics
  let r := extend E.scope E.grow (collectMeter L E ovf q) ms h out.scopes
  (r.1, r.2.1, ⟨resource, r.2.2⟩)

end Verif.Reuse
