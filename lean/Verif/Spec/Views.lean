import Verif.Model.Views

/-!
Independent statements used by the view properties.
-/

namespace Verif.Views
open Verif.Attr Verif.Front
variable {H : Type}

/-- A view clause applies to an instrument of a library: every criterion it specifies is met (empty strings and absent
criteria specify nothing). -/
structure Applies (c : Clause H) (lib : Scope) (d : Desc) : Prop where
  name : c.name = [] ∨ d.name = c.name
  pattern : ∀ m, c.regexp = some m → m d.name = true
  kind : ∀ k, c.ikind = some k → d.kind = k
  number : ∀ k, c.nkind = some k → d.num = k
  libName : c.lib.name = [] ∨ lib.name = c.lib.name
  libVersion : c.lib.version = [] ∨ lib.version = c.lib.version
  libSchema : c.lib.schema = [] ∨ lib.schema = c.lib.schema

/-- The aggregations that are legal for an instrument kind. -/
def Legal : IKind → AggKind → Prop
  | .syncCounter, a => a = .monoSum ∨ a = .nonMonoSum ∨ a = .histogram ∨ a = .mmsc
  | .syncHistogram, a => a = .monoSum ∨ a = .nonMonoSum ∨ a = .histogram ∨ a = .mmsc
  | .syncUpDownCounter, a => a = .nonMonoSum
  | .asyncUpDownCounter, a => a = .nonMonoSum
  | .asyncCounter, a => a = .monoSum ∨ a = .nonMonoSum
  | .syncGauge, a => a = .gauge
  | .asyncGauge, a => a = .gauge

/-- The sum appropriate to an instrument kind, if any. -/
def sumFor : IKind → Option AggKind
  | .syncCounter | .syncHistogram | .asyncCounter => some .monoSum
  | .syncUpDownCounter | .asyncUpDownCounter => some .nonMonoSum
  | .syncGauge | .asyncGauge => none

/-- The aggregation used unless something else is asked for. -/
def usualAgg : IKind → AggKind
  | .syncCounter | .asyncCounter => .monoSum
  | .syncUpDownCounter | .asyncUpDownCounter => .nonMonoSum
  | .syncHistogram => .histogram
  | .syncGauge | .asyncGauge => .gauge

/-- The aggregations and temporalities which exist. -/
def AggKind.Known (a : AggKind) : Prop := a ∈ [AggKind.undefined, .drop, .anySum, .monoSum, .nonMonoSum, .gauge, .histogram, .mmsc]

def Tempo.Known (t : Tempo) : Prop := t ∈ [Tempo.undefined, .cumulative, .delta]

instance (a : AggKind) : Decidable a.Known := inferInstanceAs (Decidable (_ ∈ _))
instance (t : Tempo) : Decidable t.Known := inferInstanceAs (Decidable (_ ∈ _))

/-- The words for aggregations. -/
def aggregationWords : List (Str × AggKind) :=
  [(lit "drop", .drop), (lit "sum", .anySum), (lit "monotonic_sum", .monoSum), (lit "nonmonotonic_sum", .nonMonoSum), (lit "gauge", .gauge),
   (lit "histogram", .histogram), (lit "exponential_histogram", .histogram), (lit "minmaxsumcount", .mmsc)]

/-- The aggregations the aggregators of an instrument kind implement: all for synchronous instruments, sums and gauges for
asynchronous ones. -/
def Implemented (ik : IKind) (k : AggKind) : Prop :=
  if ik.synchronous then k = .monoSum ∨ k = .nonMonoSum ∨ k = .gauge ∨ k = .histogram ∨ k = .mmsc
  else k = .monoSum ∨ k = .nonMonoSum ∨ k = .gauge

/-- What the aggregation of an output metric must be for a requested one: itself when legal, the appropriate sum for the
generic sum, and the standard one otherwise. -/
def resolved (ik : IKind) (a k : AggKind) : Prop :=
  (Legal ik a → k = a) ∧ (a = .anySum → ∀ s, sumFor ik = some s → k = s) ∧
  (¬ Legal ik a → ¬ (a = .anySum ∧ sumFor ik ≠ none) → k = usualAgg ik)

/-- The name an instrument has in the output of a clause. -/
def Clause.newName (c : Clause H) (name : Str) : Str :=
  match c.rename with
  | none => name
  | some f => f name

/-- The same attributes are selected: all, or those with the same keys. -/
def SameKeys : Option (List Str) → Option (List Str) → Prop
  | none, none => True
  | some a, some b => ∀ k, k ∈ a ↔ k ∈ b
  | _, _ => False

/-- Two output metrics are the same metric: they agree in everything but the description. -/
structure SameOutput (a b : Leaf H) : Prop where
  name : a.desc.name = b.desc.name
  unit : a.desc.unit = b.desc.unit
  num : a.desc.num = b.desc.num
  synchronous : a.desc.kind.synchronous = b.desc.kind.synchronous
  kind : a.kind = b.kind
  acfg : a.acfg = b.acfg
  keys : SameKeys a.keys b.keys

/-- The description has no hint in it. -/
def NoHint (d : Desc) : Prop := ¬ (123 : UInt8) ∈ d.desc

/-- The hint in the description: text with a brace which is the JSON form of a hint (see `Ext`). -/
def hintIn (x : Ext H) (d : Desc) : Option Hint := if (123 : UInt8) ∈ d.desc then x.parseHint d.desc else none

/-- The words for temporalities. -/
def temporalityWords : List (Str × Tempo) := [(lit "cumulative", .cumulative), (lit "delta", .delta)]

/-- The compiler state after registering instruments one after the other. -/
def registerAll [DecidableEq H] (x : Ext H) (v : Views H) (lib : Scope) (s : State H) (ds : List Desc) : State H :=
  ds.foldl (fun s d => (compile x v lib s d).1) s

/-- The output metrics of a reader carrying a given name. -/
def named (s : State H) (n : Str) : List (Leaf H) := s.collectors.filter (fun l => l.desc.name = n)

end Verif.Views
