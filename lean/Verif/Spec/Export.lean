import Verif.Model.Export
import Verif.Spec.Number

/-!
What an exported payload should look like, stated without the conversion functions.
-/

namespace Verif.Export
open Verif Verif.Attr Verif.Number

/-- Two lists of the same length with related elements at each position. -/
def Pointwise {α β : Type} (R : α → β → Prop) (l : List α) (l' : List β) : Prop :=
  l.length = l'.length ∧ ∀ (i : Nat) (a : α) (b : β), l[i]? = some a → l'[i]? = some b → R a b

/-- The exported value is the attribute's value. -/
def ValueOf : Val → PVal → Prop
  | .bool b, .one (.bool b') => b' = b
  | .int i, .one (.int i') => i' = i
  | .float f, .one (.double f') => f' = f
  | .str s, .one (.str s') => s' = s
  | .bools l, .slice l' => Pointwise (fun b p => p = .bool b) l l'
  | .ints l, .slice l' => Pointwise (fun b p => p = .int b) l l'
  | .floats l, .slice l' => Pointwise (fun b p => p = .double b) l l'
  | .strs l, .slice l' => Pointwise (fun b p => p = .str b) l l'
  | _, _ => False

/-- The exported map lists the attributes in order, with their keys and values. -/
def AttrsOf : List KV → PMap → Prop := Pointwise (fun kv e => e.1 = kv.key ∧ ValueOf kv.val e.2)

/-- Attributes that can be exported: every value has a type, keys differ. -/
def Exportable (l : List KV) : Prop := (∀ kv ∈ l, kv.val ≠ .invalid) ∧ l.Pairwise (fun x y => x.key ≠ y.key)

/-- Which of the five kinds of data. -/
inductive DataKind where
  | monotonic | nonMonotonic | gauge | hist | mmsc
deriving DecidableEq, Repr

def Agg.dataKind : Agg → DataKind
  | .monotonic _ _ => .monotonic
  | .nonMonotonic _ _ => .nonMonotonic
  | .gauge _ _ => .gauge
  | .hist _ _ => .hist
  | .mmsc _ _ => .mmsc

/-- A reported instrument: all its points have the same kind of data and temporality, and exportable attributes. -/
structure Uniform (i : Instrument) : Prop where
  kind : ∀ p ∈ i.points, ∀ q ∈ i.points, p.agg.dataKind = q.agg.dataKind
  tempo : ∀ p ∈ i.points, ∀ q ∈ i.points, p.temporality = q.temporality
  attrs : ∀ p ∈ i.points, Exportable p.attrs

/-- The bucket boundaries of a histogram with positive values are available. -/
def HasMapping (m : Mapping) (p : Point) : Prop := ∀ k h, p.agg = .hist k h → h.pos ≠ [] → m h.scale ≠ none

/-- The exported temporality names the reported one. -/
def TempoOf : Temporality → PTemporality → Prop
  | .cumulative, t => t = .cumulative
  | .delta, t => t = .delta
  | .undefined, t => t = .unspecified

/-- An exported number is the reported one with its kind. -/
def NumOf (k : Kind) (v : Bits) (n : PNum) : Prop :=
  match k with
  | .int64 => n = .int v
  | .float64 => n = .double v

/-- A number data point with a start time. -/
def SumPointOf (p : Point) (d : PNumber) : Prop :=
  d.start = some (stamp p.start) ∧ d.time = stamp p.stop ∧ AttrsOf p.attrs d.attrs ∧
  ∀ k v, p.agg = .monotonic k v ∨ p.agg = .nonMonotonic k v → NumOf k v d.value

/-- A number data point of a gauge, which has no start time. -/
def GaugePointOf (p : Point) (d : PNumber) : Prop :=
  d.start = none ∧ d.time = stamp p.stop ∧ AttrsOf p.attrs d.attrs ∧ ∀ k v, p.agg = .gauge k v → NumOf k v d.value

/-- An exported sum, minimum or maximum of a histogram is the float reported, or the float closest to the integer reported, if that is not negative
(of negative integers see C16 and C42). -/
def StatOf (k : Kind) (v x : Bits) : Prop :=
  match k with
  | .int64 => 0 ≤ v.toInt → RoundsTo v.toInt x
  | .float64 => x = v

/-- A minimum or maximum is exported when something was recorded. -/
def ExtremeOf (k : Kind) (count : Nat) (v : Bits) (x : Option Bits) : Prop :=
  (count = 0 → x = none) ∧ (count ≠ 0 → ∃ b, x = some b ∧ StatOf k v b)

/-- A histogram data point. The extremes of min/max/sum/count points are right for floats only (see C42). -/
def HistPointOf (p : Point) (d : PHist) : Prop :=
  d.start = stamp p.start ∧ d.time = stamp p.stop ∧ AttrsOf p.attrs d.attrs ∧
  (∀ k h, p.agg = .hist k h → d.count = h.count ∧ StatOf k h.sum d.sum ∧ ExtremeOf k h.count h.min d.min ∧ ExtremeOf k h.count h.max d.max) ∧
  (∀ k s, p.agg = .mmsc k s → d.count = s.count ∧ StatOf k s.sum d.sum ∧
    (k = .float64 → ExtremeOf k s.count s.min d.min ∧ ExtremeOf k s.count s.max d.max) ∧ d.bounds = [] ∧ d.counts = [])

/-- Exported buckets: the offset does not matter if there are none. -/
def BucketsOf (offset : Int) (l : List Nat) (b : Int × List Nat) : Prop := b.2 = l ∧ (l ≠ [] → b.1 = offset)

/-- The content of an exponential histogram is exported. -/
def ExpIs (k : Kind) (h : ExpHist) (d : PExp) : Prop :=
  d.count = h.count ∧ d.zeroCount = h.zeroCount ∧ d.scale = h.scale ∧
    BucketsOf h.posOffset h.pos d.pos ∧ BucketsOf h.negOffset h.neg d.neg ∧
    StatOf k h.sum d.sum ∧ ExtremeOf k h.count h.min d.min ∧ ExtremeOf k h.count h.max d.max

/-- An exponential histogram data point. -/
def ExpPointOf (p : Point) (d : PExp) : Prop :=
  d.start = stamp p.start ∧ d.time = stamp p.stop ∧ AttrsOf p.attrs d.attrs ∧ ∀ k h, p.agg = .hist k h → ExpIs k h d

/-- The data of a metric for the points of an instrument of a kind. -/
def DataOf (useExp : Bool) (kind : DataKind) (t : Temporality) (ps : List Point) : PData → Prop
  | .sum mono pt ds => (kind = .monotonic ∧ mono = true ∨ kind = .nonMonotonic ∧ mono = false) ∧ TempoOf t pt ∧ Pointwise SumPointOf ps ds
  | .gauge ds => kind = .gauge ∧ Pointwise GaugePointOf ps ds
  | .hist pt ds => (kind = .hist ∧ useExp = false ∨ kind = .mmsc) ∧ TempoOf t pt ∧ Pointwise HistPointOf ps ds
  | .exp pt ds => kind = .hist ∧ useExp = true ∧ TempoOf t pt ∧ Pointwise ExpPointOf ps ds

/-- A metric for an instrument. -/
def MetricOf (useExp : Bool) (i : Instrument) (m : PMetric) : Prop :=
  m.name = i.name ∧ m.unit = i.unit ∧ m.description = i.description ∧
  ∀ p ∈ i.points, DataOf useExp p.agg.dataKind p.temporality i.points m.data

/-- A scope entry: one metric per instrument with points. -/
def ScopeOf (useExp : Bool) (s : Scope) (e : PScope) : Prop :=
  e.library = s.library ∧ Pointwise (MetricOf useExp) (s.instruments.filter (fun i => !i.points.isEmpty)) e.metrics

end Verif.Export
