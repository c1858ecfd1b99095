import Verif.Model.Reuse

/-!
What a collection should report, and leave in the views, without any output memory; and what is assumed of the exponential histogram.
-/

namespace Verif.Reuse
open Verif.Times (Seq Collector pointTimes)
open Verif.Views (Tempo)
variable {H K D : Type}

/-- The external library's contract: `size h` is the configured maximum size; `clear` gives an empty histogram of that size; histograms of equal size
are exchanged by `Swap` and copied by `CopyInto`. (A histogram is taken up to the room in its backing arrays, which is not observable.) -/
structure Lib.Sound (L : Lib H) (size : H → Nat) : Prop where
  init : ∀ c, size (L.init c) = c
  clear : ∀ h, L.clear h = L.init (size h)
  swap : ∀ a b, size a = size b → L.swap a b = (b, a)
  copyInto : ∀ a b, size a = size b → L.copyInto a b = a

/-- What a reader of the output sees of a point: attributes, temporality, the aggregation's state, start and end. -/
structure SeenPoint (K H : Type) where
  attrs : K
  tempo : Tempo
  aggr : Option (Stor H)
  start : Int
  stop : Int
deriving DecidableEq

def seenPoint (h : Heap H) (p : Point K) : SeenPoint K H := ⟨p.attrs, p.tempo, p.aggr.map h.cell, p.start, p.stop⟩
def seenInst (h : Heap H) (i : Inst K D) : D × List (SeenPoint K H) := (i.desc, i.points.vis.map (seenPoint h))
def seenScope (h : Heap H) (s : Scope K D) : D × List (D × List (SeenPoint K H)) := (s.library, s.insts.vis.map (seenInst h))
def seen (h : Heap H) (m : Metrics K D) : D × List (D × List (D × List (SeenPoint K H))) := (m.resource, m.scopes.vis.map (seenScope h))

/-- The point for a key and a state. -/
def pointOf (v : View K D H) (q : Seq) (key : K) (s : Stor H) : SeenPoint K H :=
  ⟨key, (pointTimes v.kind q).1, some s, (pointTimes v.kind q).2.1, (pointTimes v.kind q).2.2⟩

/-- A state after its contents were taken. -/
def emptied (L : Lib H) (cfg : Nat) : Stor H → Stor H
  | .sum m f _ => .sum m f 0
  | .gauge f v _ => .gauge f v 0
  | .mmsc f _ _ _ _ => .mmsc f 0 0 0 0
  | .hist f _ => .hist f (L.init cfg)

/-- The points to report for a view. -/
def viewPoints [DecidableEq K] (L : Lib H) (q : Seq) (v : View K D H) : List (SeenPoint K H) :=
  match v.kind with
  | .statefulSync | .lowmemoryAsync => v.data.map (fun e => pointOf v q e.key e.stor)
  | .lowmemorySync => (v.data.filter (fun e => hasChange L e.stor)).map (fun e => pointOf v q e.key e.stor)
  | .statefulAsync => v.data.filterMap (fun e => (difference L v.prior e).map (pointOf v q e.key))

/-- The view afterwards. -/
def viewAfter [DecidableEq K] (L : Lib H) (ovf : K) (v : View K D H) : View K D H :=
  match v.kind with
  | .statefulSync => v
  | .lowmemorySync => { v with data := (v.data.filter (fun e => hasChange L e.stor || e.refs != 0)).map (fun e => { e with stor := emptied L v.cfg e.stor }) }
  | .lowmemoryAsync => { v with data := [] }
  | .statefulAsync => { v with data := carry ovf v.data, prior := v.data }

/-- The whole report. -/
def report [DecidableEq K] (L : Lib H) (resource : D) (q : Seq) (ms : List (Meter K D H)) : D × List (D × List (D × List (SeenPoint K H))) :=
  (resource, ms.map (fun m => (m.library, m.views.map (fun v => (v.desc, viewPoints L q v)))))

def metersAfter [DecidableEq K] (L : Lib H) (ovf : K) (ms : List (Meter K D H)) : List (Meter K D H) :=
  ms.map (fun m => { m with views := m.views.map (viewAfter L ovf) })

/-! ### Well-formedness -/

/-- A histogram state has the given configuration. -/
def Sized (size : H → Nat) (cfg : Nat) (s : Stor H) : Prop := ∀ f h, s = .hist f h → size h = cfg

/-- The states in a view have the view's type and configuration. -/
def ViewOk (size : H → Nat) (v : View K D H) : Prop := ∀ e ∈ v.data ++ v.prior, e.stor.ty = v.ty ∧ Sized size v.cfg e.stor

def MetersOk (size : H → Nat) (ms : List (Meter K D H)) : Prop := ∀ m ∈ ms, ∀ v ∈ m.views, ViewOk size v

/-- The pointers in a piece of output, including those past the length of slices. -/
def pointPtrs (p : Point K) : List Nat := p.aggr.toList
def slicePtrs {α : Type} (f : α → List Nat) (s : Slice α) : List Nat := (s.vis ++ s.hid).flatMap f
def instPtrs (i : Inst K D) : List Nat := slicePtrs pointPtrs i.points
def scopePtrs (s : Scope K D) : List Nat := slicePtrs instPtrs s.insts
def ptrs (m : Metrics K D) : List Nat := slicePtrs scopePtrs m.scopes

/-- Pointers are valid and no two are equal. -/
def Own (h : Heap H) (l : List Nat) : Prop := l.Nodup ∧ ∀ a ∈ l, a < h.next

end Verif.Reuse
