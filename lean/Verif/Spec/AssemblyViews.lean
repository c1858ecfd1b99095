import Verif.Spec.Assembly

/-!
What a user knows about a metric which views make of instruments: new name, selected attribute keys, aggregation and configuration.
-/

namespace Verif.Assembly
open Verif.Attr Verif.Number Verif.Aggr Verif.Front Verif.Views Verif.Provider Verif.Instruments
variable {C G ν : Type} [DecidableEq C]

/-- The ways in which a reader shows an instrument under the name `n`: one for each clause which applies, does not drop it and gives it this name; without any
applying clause, the defaults, unless these drop it. -/
noncomputable def ways (v : Views C) (sc : Scope) (d : Desc) (n : Str) : List (Option (Clause C)) :=
  open Classical in
  if ∃ cl ∈ v.clauses, Applies cl sc d then
    (v.clauses.filter (fun cl => decide (Applies cl sc d ∧ cl.agg ≠ .drop ∧ cl.newName d.name = n))).map some
  else if v.defaults.agg d.kind ≠ .drop ∧ d.name = n then [none] else []

/-- How a metric looks: whether its instruments are synchronous, its aggregation, number kind, unit, selected keys, aggregator configuration, and whether it is
delta. -/
structure Look (C : Type) where
  sync : Bool
  kind : AggKind
  num : Kind
  unit : Str
  keys : Option (List Str)
  acfg : ACfg C
  delta : Bool

/-- The aggregation asked for: that of the clause if it has one, otherwise that of the reader for the kind of the instrument. -/
def asked (v : Views C) (d : Desc) : Option (Clause C) → AggKind
  | none => v.defaults.agg d.kind
  | some cl => if cl.agg = .undefined then v.defaults.agg d.kind else cl.agg

/-- The configuration: that of the clause, without a clause that of the reader for the kind of the instrument and its numbers. -/
def config (v : Views C) (d : Desc) : Option (Clause C) → ACfg C
  | none => if d.num = .int64 then v.defaults.int64 d.kind else v.defaults.float64 d.kind
  | some cl => cl.acfg

/-- An instrument looks like this when it is shown in this way. The aggregation is the one asked for, if it is legal (see C27); the clause selects the keys; the temporality
is that of the reader for the kind of the instrument, but never delta for asynchronous gauges. -/
structure LooksLike (v : Views C) (d : Desc) (way : Option (Clause C)) (L : Look C) : Prop where
  sync : d.kind.synchronous = L.sync
  kind : resolved d.kind (asked v d way) L.kind
  num : d.num = L.num
  unit : d.unit = L.unit
  keys : SameKeys (way.bind (·.keys)) L.keys
  acfg : config v d way = L.acfg
  delta : L.delta = true ↔ v.defaults.tempo d.kind = .delta ∧ (L.sync = true ∨ L.kind ≠ .gauge)

/-- The aggregation asked for in a hint: that of the word in it, whatever its case; without a word, or with an unknown one, that of the reader. -/
def HintAsks (x : Ext C) (v : Views C) (d : Desc) (h : Hint) (a : AggKind) : Prop :=
  (h.aggregation ≠ [] ∧ (x.lower h.aggregation, a) ∈ aggregationWords) ∨
  ((h.aggregation = [] ∨ ∀ b, (x.lower h.aggregation, b) ∉ aggregationWords) ∧ a = v.defaults.agg d.kind)

/-- The temporality asked for in a hint, likewise. -/
def HintTempo (x : Ext C) (v : Views C) (d : Desc) (h : Hint) (t : Tempo) : Prop :=
  (h.temporality ≠ [] ∧ (x.lower h.temporality, t) ∈ temporalityWords) ∨
  ((h.temporality = [] ∨ ∀ b, (x.lower h.temporality, b) ∉ temporalityWords) ∧ t = v.defaults.tempo d.kind)

/-- An instrument with the hint `h`, to which no clause applies and which the reader would show without the hint, looks like this: the aggregation, which the instrument
must implement, and the temporality are those asked for in the hint; a size of histograms and a cardinality limit in the hint replace those of the reader. -/
structure HintLooks (x : Ext C) (v : Views C) (sc : Scope) (d : Desc) (h : Hint) (L : Look C) : Prop where
  clauses : ∀ cl ∈ v.clauses, ¬ Applies cl sc d
  shown : v.defaults.agg d.kind ≠ .drop
  sync : d.kind.synchronous = L.sync
  kind : HintAsks x v d h L.kind ∧ Implemented d.kind L.kind
  num : d.num = L.num
  unit : d.unit = L.unit
  keys : L.keys = none
  hist : L.acfg.hist = if h.maxSize = 0 then (config v d none).hist else x.validH (x.histNew h.maxSize)
  limit : L.acfg.limit = if h.limit = 0 then (config v d none).limit else h.limit
  delta : L.delta = true ↔ HintTempo x v d h .delta ∧ (L.sync = true ∨ L.kind ≠ .gauge)

/-- The hint which counts for the `i`th of the clauses which apply to an instrument and do not drop it: for the first one the hint in the description of the instrument, for
the next one a hint in the description inside this hint, and so on (see `C31_second_clause_fails`). -/
def hintFor (x : Ext C) (d : Desc) : Nat → Option Hint
  | 0 => hintIn x d
  | i + 1 => (hintIn x d).bind (fun h => hintFor x { d with desc := h.description } i)

/-- The clauses which apply to an instrument and do not drop it. -/
noncomputable def showing (v : Views C) (sc : Scope) (d : Desc) : List (Clause C) :=
  open Classical in
  v.clauses.filter (fun cl => decide (Applies cl sc d ∧ cl.agg ≠ .drop))

/-- An instrument looks like this when it is shown by the clause `cl`, for which the hint `h` counts: the aggregation, which the instrument must implement, is that of the
clause, or if it has none that asked for in the hint; the temporality is that asked for in the hint; the clause selects the keys; a configuration of the clause other than the one
of the reader stays, otherwise a size of histograms and a cardinality limit in the hint replace those of the reader. -/
structure HintedClauseLooks (x : Ext C) (v : Views C) (d : Desc) (h : Hint) (cl : Clause C) (L : Look C) : Prop where
  sync : d.kind.synchronous = L.sync
  kind : if cl.agg = .undefined then HintAsks x v d h L.kind else L.kind = cl.agg
  implemented : Implemented d.kind L.kind
  num : d.num = L.num
  unit : d.unit = L.unit
  keys : SameKeys cl.keys L.keys
  own : cl.acfg ≠ config v d none → L.acfg = cl.acfg
  hist : cl.acfg = config v d none → L.acfg.hist = if h.maxSize = 0 then cl.acfg.hist else x.validH (x.histNew h.maxSize)
  limit : cl.acfg = config v d none → L.acfg.limit = if h.limit = 0 then cl.acfg.limit else h.limit
  delta : L.delta = true ↔ HintTempo x v d h .delta ∧ (L.sync = true ∨ L.kind ≠ .gauge)

/-- A clause applies to an instrument whose description has a hint, and each clause which shows it under the name `n` makes it look like this, with the hint which counts for
this clause. -/
structure ClausesLook (x : Ext C) (v : Views C) (sc : Scope) (d : Desc) (n : Str) (L : Look C) : Prop where
  hinted : hintIn x d ≠ none
  clauses : ∃ cl ∈ v.clauses, Applies cl sc d
  plain : ∀ (i : Nat) (cl : Clause C), (showing v sc d)[i]? = some cl → cl.newName d.name = n → hintFor x d i = none → LooksLike v d (some cl) L
  hint : ∀ (i : Nat) (cl : Clause C) (h : Hint), (showing v sc d)[i]? = some cl → cl.newName d.name = n → hintFor x d i = some h → HintedClauseLooks x v d h cl L

/-- A metric made by views: the provider was made by the calls `cs`; an instrument of the `k`th meter, whose scope is `sc`, is shown under the name `n` by the reader
`pipe`, which has the views `v`; all instruments asked for in this meter which the reader shows under this name look alike, by clauses, by a hint, or by both. -/
structure Viewed (x : Ext C) (views : List (Views C)) (cs : List (Call ν)) (p : Provider C ν) (pipe k : Nat) (v : Views C) (sc : Scope) (n : Str) (L : Look C) :
    Prop where
  made : p = Provider.run x (Provider.new views) cs
  reader : views[pipe]? = some v
  inst : ∃ (m : Meter C ν) (o : Provider.Inst), p.ordered[k]? = some m ∧ m.scope = sc ∧ o ∈ m.insts ∧ ways v sc o.desc n ≠ []
  alike : ∀ d ∈ requests k cs, OutputName v sc d n →
    (hintIn x d = none ∧ ∀ way ∈ ways v sc d n, LooksLike v d way L) ∨ (∃ h, hintIn x d = some h ∧ HintLooks x v sc d h L) ∨ ClausesLook x v sc d n L

/-- How many times the instrument with this address, of the `k`th meter, is shown under the name. -/
noncomputable def times (p : Provider C ν) (k : Nat) (v : Views C) (sc : Scope) (n : Str) (id : Nat) : Nat :=
  match p.ordered[k]? with
  | none => 0
  | some m => (m.insts.zipIdx.flatMap (fun e => if instAddr k e.2 = id then ways v sc e.1.desc n else [])).length

/-- The values recorded on the instruments of the `k`th meter shown under the name, by calls whose attributes satisfy `Q`, in the order of the calls; rejected values
do not count. A value counts as many times as the instrument is shown under the name (normally once). -/
noncomputable def recordedVia (p : Provider C ν) (k : Nat) (v : Views C) (sc : Scope) (n : Str) (Q : List KV → Prop) (acts : List Pipeline.Act) : List Bits :=
  (Pipeline.calls acts).flatMap (fun e => open Classical in
    if ¬ Props.Rejected e.1.num e.1.kind e.2.2 ∧ Q (e.1.attrs e.2.1) then List.replicate (times p k v sc n e.1.id) e.2.2 else [])

/-- The attributes used stay within the limits: fewer than `instLimit` different lists for each instrument shown under the name, and fewer than `lim` different
sets of the selected attributes for all of these. No list has a NaN inside a float slice (see C17). -/
def FewVia (w : World C G) (p : Provider C ν) (k : Nat) (v : Views C) (sc : Scope) (n : Str) (keys : Option (List Str)) (lim : Nat)
    (acts : List Pipeline.Act) : Prop :=
  ∃ (A : Nat → List (List KV)) (B : List (List KV)),
    (∀ id, 0 < times p k v sc n id → (A id).length < w.instLimit) ∧ B.length < lim ∧
    (∀ e ∈ Pipeline.calls acts, 0 < times p k v sc n e.1.id → e.1.attrs e.2.1 ∈ A e.1.id) ∧
    ∀ id, 0 < times p k v sc n id → ∀ a ∈ A id, ¬ HasNaNSlice a ∧ ∃ b ∈ B, Pipeline.SameSeries keys a b

/-- Calls on the instruments shown under the name do not overlap. -/
def OneByOneVia (farm : Str → UInt64) (w : World C G) (p : Provider C ν) (pipe k : Nat) (v : Views C) (sc : Scope) (n : Str) (acts : List Pipeline.Act) : Prop :=
  ∀ before i kvs b after y, acts = before ++ .call i kvs b :: after →
    Pipeline.run (realCfg farm (setup w p)) (reader w p pipe) (Pipeline.initial (realCfg farm (setup w p))) before = some y → 0 < times p k v sc n i.id →
    ∀ j, j < y.s.nextOp → 0 < times p k v sc n (y.s.op j).obs → (y.s.op j).pc = .done

end Verif.Assembly
