import Verif.Model.Front

/-!
Views: clauses, validation, hints and the view compiler.

Models `lightstep/sdk/metric/view/*.go`, `aggregator/aggregation/{aggregation,temporality}.go`,
`internal/viewstate/{viewstate,errors}.go`. `C` is the type of histogram configurations (`histostruct.Config`, external).
-/

namespace Verif.Views
open Verif.Attr Verif.Front

/-! ### Aggregation kinds and temporality -/

/-- `aggregation.Kind` (aggregation.go:106-117), a Go int: the named constants, or any other integer. -/
inductive AggKind where
  | undefined | drop | anySum | monoSum | nonMonoSum | gauge | histogram | mmsc
  | other (n : Int)
deriving DecidableEq, Repr

/-- `aggregation.Category` (aggregation.go:96-104). -/
inductive Category where
  | undefined | monoSum | nonMonoSum | gauge | histogram
deriving DecidableEq, Repr

/-- `Kind.Category` (aggregation.go:119-140). -/
def AggKind.category (k : AggKind) (ik : IKind) : Category :=
  match k with
  | .anySum =>
    match ik with
    | .syncHistogram | .syncCounter | .asyncCounter => .monoSum
    | .syncUpDownCounter | .asyncUpDownCounter => .nonMonoSum
    | _ => .undefined
  | .monoSum => .monoSum
  | .nonMonoSum => .nonMonoSum
  | .gauge => .gauge
  | .histogram | .mmsc => .histogram
  | _ => .undefined

/-- `Kind.Valid` (aggregation.go:147-155). -/
def AggKind.valid : AggKind → Bool
  | .other _ => false
  | _ => true

/-- A Go string literal. -/
def lit (s : String) : Str := s.toUTF8.toList

/-- `ParseKind` (aggregation.go:159-177). `lower` is `strings.ToLower` (external). -/
def parseKind (lower : Str → Str) (s : Str) : Option AggKind :=
  let t := lower s
  if t = lit "drop" then some .drop
  else if t = lit "sum" then some .anySum
  else if t = lit "monotonic_sum" then some .monoSum
  else if t = lit "nonmonotonic_sum" then some .nonMonoSum
  else if t = lit "gauge" then some .gauge
  else if t = lit "histogram" ∨ t = lit "exponential_histogram" then some .histogram
  else if t = lit "minmaxsumcount" then some .mmsc
  else none

/-- `aggregation.Temporality` (temporality.go:23-35), a Go uint8. -/
inductive Tempo where
  | undefined | cumulative | delta
  | other (n : Nat)
deriving DecidableEq, Repr

/-- `Temporality.Valid` (temporality.go:55-66). -/
def Tempo.valid : Tempo → Bool
  | .other _ => false
  | _ => true

/-- `ParseTemporality` (temporality.go:78-86). -/
def parseTempo (lower : Str → Str) (s : Str) : Option Tempo :=
  let t := lower s
  if t = lit "cumulative" then some .cumulative
  else if t = lit "delta" then some .delta
  else none

/-- `StandardAggregationKind` (standard.go:25-37). -/
def standardAgg : IKind → AggKind
  | .syncHistogram => .histogram
  | .asyncGauge | .syncGauge => .gauge
  | .syncUpDownCounter | .asyncUpDownCounter => .nonMonoSum
  | _ => .monoSum

/-- `StandardTemporality` (standard.go:41-43). -/
def standardTempo : IKind → Tempo := fun _ => .cumulative

/-! ### Configuration -/

/-- `aggregator.Config` (aggregator.go:83-90). -/
structure ACfg (H : Type) where
  hist : H
  limit : Nat
deriving DecidableEq, Repr

/-- `sdkinstrument.Descriptor` (sdkinstrument/descriptor.go:24-43). -/
structure Desc where
  name : Str
  kind : IKind
  num : Number.Kind
  desc : Str
  unit : Str
deriving DecidableEq, Repr

/-- `instrumentation.Scope` (external). -/
structure Scope where
  name : Str
  version : Str
  schema : Str
deriving DecidableEq, Repr

/-- `view.Hint` (hint.go:24-39) after JSON decoding. -/
structure Hint where
  description : Str
  aggregation : Str
  temporality : Str
  maxSize : Int
  limit : Nat

/-- `ClauseConfig` (clause.go:30-44). `none` for the instrument and number kind is the constant -1; `none` for the regular
expression, the keys and the rename function is nil. A regular expression is its `MatchString` function. -/
structure Clause (H : Type) where
  name : Str
  regexp : Option (Str → Bool)
  ikind : Option IKind
  nkind : Option Number.Kind
  lib : Scope
  keys : Option (List Str)
  rename : Option (Str → Str)
  description : Str
  agg : AggKind
  acfg : ACfg H

/-- `DefaultConfig` (view.go:39-47): per instrument kind. -/
structure Defaults (H : Type) where
  agg : IKind → AggKind
  tempo : IKind → Tempo
  int64 : IKind → ACfg H
  float64 : IKind → ACfg H

/-- `DefaultConfig.AggregationConfig` (view.go:59-64). -/
def Defaults.acfg {H : Type} (d : Defaults H) (ik : IKind) (nk : Number.Kind) : ACfg H :=
  match nk with
  | .int64 => d.int64 ik
  | .float64 => d.float64 ik

/-- `Views` (views.go:26-36). `perfLimit` is `Performance.AggregatorCardinalityLimit`. -/
structure Views (H : Type) where
  name : Str
  clauses : List (Clause H)
  defaults : Defaults H
  perfLimit : Nat

/-- The external functions used: `strings.ToLower`, `json.Unmarshal` into a `Hint`, `histostruct.Config.Validate` (its
result, errors are only reported), and `histostruct.NewConfig(WithMaxSize n)`. -/
structure Ext (H : Type) where
  lower : Str → Str
  parseHint : Str → Option Hint
  validH : H → H
  histNew : Int → H

variable {H : Type} [DecidableEq H]

/-! ### Matching -/

/-- `stringMismatch` (clause.go:174-176). -/
def stringMismatch (test value : Str) : Bool := test != [] && test != value
/-- `ikindMismatch` (clause.go:178-180). -/
def ikindMismatch (test : Option IKind) (value : IKind) : Bool :=
  match test with | none => false | some k => k != value
/-- `nkindMismatch` (clause.go:182-184). -/
def nkindMismatch (test : Option Number.Kind) (value : Number.Kind) : Bool :=
  match test with | none => false | some k => k != value
/-- `regexpMismatch` (clause.go:186-188). -/
def regexpMismatch (test : Option (Str → Bool)) (value : Str) : Bool :=
  match test with | none => false | some m => !m value

/-- `libraryMismatch` (clause.go:190-201). -/
def libraryMismatch (c : Clause H) (lib : Scope) : Bool :=
  let hasName := c.lib.name != []
  let hasVersion := c.lib.version != []
  let hasSchema := c.lib.schema != []
  if !hasName && !hasVersion && !hasSchema then false
  else
    stringMismatch c.lib.name lib.name ||
    stringMismatch c.lib.version lib.version ||
    stringMismatch c.lib.schema lib.schema

/-- `ClauseConfig.Matches` (clause.go:203-210). -/
def «matches» (c : Clause H) (lib : Scope) (d : Desc) : Bool :=
  let mismatch := libraryMismatch c lib ||
    stringMismatch c.name d.name ||
    ikindMismatch c.ikind d.kind ||
    nkindMismatch c.nkind d.num ||
    regexpMismatch c.regexp d.name
  !mismatch

/-! ### Validation -/

/-- `DefaultAggregatorCardinalityLimit` (performance.go:29). -/
def defaultAggregatorCardinalityLimit : Nat := 2000

/-- `Config.Validate` (aggregator.go:101-109). -/
def validateACfg (x : Ext H) (a : ACfg H) : ACfg H :=
  { hist := x.validH a.hist
    limit := if a.limit = 0 then defaultAggregatorCardinalityLimit else a.limit }

/-- `checkAggregation` (views.go:48-54). -/
def checkAgg (a dflt : AggKind) : AggKind := if a.valid then a else dflt
/-- `checkTemporality` (views.go:56-62). -/
def checkTempo (t dflt : Tempo) : Tempo := if t.valid then t else dflt
/-- `checkAggConfig` (views.go:64-77). -/
def checkACfg (x : Ext H) (v : Views H) (a : ACfg H) : ACfg H :=
  validateACfg x { a with limit := if a.limit = 0 then v.perfLimit else a.limit }

/-- The clause loop body of `Validate` (views.go:105-121). -/
def validateClause (x : Ext H) (v : Views H) (c : Clause H) : Clause H :=
  { c with
    agg := checkAgg c.agg .undefined
    acfg := checkACfg x v c.acfg
    regexp := if c.name != [] && c.regexp.isSome then none else c.regexp }

/-- `view.Validate` (views.go:81-126): the configuration in use. The errors are only reported and not modelled. The result
does not copy the performance settings (views.go:85-87), so its `perfLimit` is zero. -/
def validate (x : Ext H) (v : Views H) : Views H :=
  { name := v.name
    clauses := v.clauses.map (validateClause x v)
    defaults :=
      { agg := fun k => checkAgg (v.defaults.agg k) (standardAgg k)
        tempo := fun k => checkTempo (v.defaults.tempo k) (standardTempo k)
        int64 := fun k => checkACfg x v (v.defaults.int64 k)
        float64 := fun k => checkACfg x v (v.defaults.float64 k) }
    perfLimit := 0 }

/-! ### Hints -/

/-- The results of `tryToApplyHint`. -/
structure Hinted (H : Type) where
  desc : Desc
  akind : AggKind
  tempo : Tempo
  acfg : ACfg H
  defCfg : ACfg H
  hinted : Bool

/-- `tryToApplyHint` (viewstate.go:198-258). 123 is the byte `{`. -/
def tryToApplyHint (x : Ext H) (v : Views H) (d : Desc) : Hinted H :=
  let akind := v.defaults.agg d.kind
  let tempo := v.defaults.tempo d.kind
  let defCfg := v.defaults.acfg d.kind d.num
  let plain : Hinted H := { desc := d, akind := akind, tempo := tempo, acfg := defCfg, defCfg := defCfg, hinted := false }
  if d.desc.contains 123 then
    match x.parseHint d.desc with
    | none => plain
    | some h =>
      { desc := { d with desc := h.description }
        akind :=
          if h.aggregation = [] then akind
          else match parseKind x.lower h.aggregation with
            | none => akind
            | some k => if k = .undefined then akind else k
        tempo :=
          if h.temporality = [] then tempo
          else match parseTempo x.lower h.temporality with
            | none => tempo
            | some t => if t = .undefined then tempo else t
        acfg :=
          { hist := if h.maxSize = 0 then defCfg.hist else x.validH (x.histNew h.maxSize)
            limit := if h.limit = 0 then defCfg.limit else h.limit }
        defCfg := defCfg
        hinted := true }
  else plain

/-! ### Behaviors -/

/-- `singleBehavior` (viewstate.go:145-177). `keysSet` and `keysFilter` are derived from `keys` (viewstate.go:297-301). -/
structure Behavior (H : Type) where
  fromName : Str
  desc : Desc
  kind : AggKind
  tempo : Tempo
  acfg : ACfg H
  keys : Option (List Str)
  hinted : Bool

/-- `keysToSet` (viewstate.go:588-595): each key with the integer 0. -/
def keysToSet (keys : List Str) : List KV := newSet (keys.map (fun k => { key := k, val := .int 0 }))

/-- `pickAggConfig` (viewstate.go:624-629). -/
def pickAggConfig (hintCfg defCfg viewCfg : ACfg H) : ACfg H :=
  if viewCfg ≠ defCfg then viewCfg else hintCfg

/-- `Rename` (clause.go:151-156). -/
def Clause.renamed (c : Clause H) (name : Str) : Str :=
  match c.rename with | none => name | some f => f name

/-- `viewDescriptor` (viewstate.go:699-709). -/
def viewDescriptor (d : Desc) (c : Clause H) : Desc :=
  { d with name := c.renamed d.name, desc := if c.description ≠ [] then c.description else d.desc }

/-- The loop over the matching clauses in `Compile` (viewstate.go:275-303). Returns the behaviors and the instrument
descriptor after the loop (the hint is erased from the description). -/
def clauseBehaviors (x : Ext H) (v : Views H) : List (Clause H) → Desc → List (Behavior H) × Desc
  | [], d => ([], d)
  | c :: cs, d =>
    if c.agg = .drop then clauseBehaviors x v cs d
    else
      let h := tryToApplyHint x v d
      let d' := h.desc
      let b : Behavior H :=
        { fromName := d'.name
          desc := viewDescriptor d' c
          kind := if c.agg = .undefined then h.akind else c.agg
          tempo := h.tempo
          acfg := pickAggConfig h.acfg h.defCfg c.acfg
          keys := c.keys
          hinted := h.hinted }
      let r := clauseBehaviors x v cs d'
      (b :: r.1, r.2)

/-- `Compile` up to the lock (viewstate.go:264-321). -/
def behaviors (x : Ext H) (v : Views H) (lib : Scope) (d : Desc) : List (Behavior H) × Desc :=
  let ms := v.clauses.filter (fun c => «matches» c lib d)
  if ms.isEmpty then
    let h := tryToApplyHint x v d
    (if h.akind = .drop then []
     else
      [{ fromName := h.desc.name, desc := h.desc, kind := h.akind, tempo := h.tempo, acfg := h.acfg, keys := none,
         hinted := h.hinted }],
     h.desc)
  else clauseBehaviors x v ms d

/-! ### Semantic compatibility -/

/-- `SemanticError` (errors.go:188-191). -/
structure SemErr where
  instrument : IKind
  aggregation : AggKind
deriving DecidableEq, Repr

/-- `checkSemanticCompatibility` (viewstate.go:633-694) without the hint exception: the kind afterwards and the error. -/
def checkKind (ik : IKind) (agg0 : AggKind) : AggKind × Option SemErr :=
  let cat := agg0.category ik
  let agg :=
    if agg0 = .anySum then
      match cat with
      | .monoSum | .histogram => .monoSum
      | .nonMonoSum => .nonMonoSum
      | _ => .undefined
    else agg0
  let ok : Bool :=
    match ik with
    | .syncCounter | .syncHistogram => cat == .monoSum || cat == .nonMonoSum || cat == .histogram
    | .syncUpDownCounter | .asyncUpDownCounter => cat == .nonMonoSum
    | .asyncCounter => cat == .nonMonoSum || cat == .monoSum
    | .asyncGauge => cat == .gauge
    | .syncGauge => cat == .gauge
  if ok then (agg, none) else (standardAgg ik, some { instrument := ik, aggregation := agg })

/-- `checkSemanticCompatibility` (viewstate.go:633-694). -/
def checkSemantic (ik : IKind) (b : Behavior H) : Behavior H × Option SemErr :=
  if b.hinted then (b, none)
  else ({ b with kind := (checkKind ik b.kind).1 }, (checkKind ik b.kind).2)

/-! ### Output metrics -/

/-- A leaf instrument: one output metric. `kind` is `Aggregation()`, the kind of its aggregator methods. `delta` tells the
temporality it reports. -/
structure Leaf (H : Type) where
  fromName : Str
  desc : Desc
  kind : AggKind
  delta : Bool
  acfg : ACfg H
  keys : Option (List Str)

/-- The aggregator chosen by `compileSync` (viewstate.go:450-485). -/
def syncMethods : AggKind → AggKind
  | .histogram => .histogram
  | .mmsc => .mmsc
  | .nonMonoSum => .nonMonoSum
  | .gauge => .gauge
  | _ => .monoSum

/-- The aggregator chosen by `compileAsync` (viewstate.go:531-554). -/
def asyncMethods : AggKind → AggKind
  | .monoSum => .monoSum
  | .nonMonoSum => .nonMonoSum
  | _ => .gauge

/-- `buildView`, `newSyncView`, `newAsyncView` (viewstate.go:405-446, 492-527). For synchronous instruments delta
temporality gives the delta collector. For asynchronous ones too, except gauges. -/
def buildLeaf (b : Behavior H) : Leaf H :=
  let kind := if b.desc.kind.synchronous then syncMethods b.kind else asyncMethods b.kind
  { fromName := b.fromName
    desc := b.desc
    kind := kind
    delta :=
      if b.desc.kind.synchronous then b.tempo = .delta
      else b.tempo = .delta ∧ kind ≠ .gauge
    acfg := b.acfg
    keys := b.keys }

/-- The equivalence test between an existing leaf and a behavior (viewstate.go:341-372). -/
def same (l : Leaf H) (b : Behavior H) : Bool :=
  l.kind = b.kind ∧
  l.desc.kind.synchronous = b.desc.kind.synchronous ∧
  l.desc.unit = b.desc.unit ∧
  l.desc.num = b.desc.num ∧
  l.acfg = b.acfg ∧
  l.keys.map keysToSet = b.keys.map keysToSet

/-- `mergeDescription` (base_instrument.go:96-102). -/
def mergeDescription (l : Leaf H) (d : Str) : Leaf H :=
  if d.length > l.desc.desc.length then { l with desc := { l.desc with desc := d } } else l

/-- `Conflict` (errors.go:103-109). Duplicates are leaf numbers. -/
structure Conflict where
  duplicates : List Nat
  semantic : Option SemErr
deriving DecidableEq, Repr

/-- The mutable part of a `Compiler` (viewstate.go:60-80). Leaves are objects; `collectors` is the list of all of them in
creation order, so a leaf is identified by its index. `names` is the map of output names. -/
structure State (H : Type) where
  collectors : List (Leaf H)
  names : Str → List Nat

/-- A new compiler (viewstate.go:180-187). -/
def State.new : State H := { collectors := [], names := fun _ => [] }

/-- The scan for an equivalent leaf (viewstate.go:335-379). -/
def findSame (s : State H) (b : Behavior H) : Option Nat :=
  (s.names b.desc.name).find? (fun i => match s.collectors[i]? with | some l => same l b | none => false)

/-- One round of the loop over the behaviors (viewstate.go:327-398), after the semantic check: the new state and the leaf. -/
def place (s : State H) (b : Behavior H) : State H × Nat :=
  match findSame s b with
  | some i => ({ s with collectors := s.collectors.modify i (fun l => mergeDescription l b.desc.desc) }, i)
  | none =>
    ({ collectors := s.collectors ++ [buildLeaf b]
       names := fun n => if n = b.desc.name then s.names n ++ [s.collectors.length] else s.names n },
     s.collectors.length)

/-- The loop (viewstate.go:327-398): final state, leaves, conflicts. -/
def compileLoop (ik : IKind) : State H → List (Behavior H) → State H × List Nat × List Conflict
  | s, [] => (s, [], [])
  | s, b0 :: bs =>
    let chk := checkSemantic ik b0
    let b := chk.1
    let p := place s b
    let existing := p.1.names b.desc.name
    let r := compileLoop ik p.1 bs
    let conflict : List Conflict :=
      if existing.length > 1 ∨ chk.2 ≠ none then [{ duplicates := existing, semantic := chk.2 }] else []
    (r.1, p.2 :: r.2.1, conflict ++ r.2.2)

/-- `Compile` (viewstate.go:263-401): the new compiler state, the leaves of the compiled instrument (none: nil) and the
conflicts, which all go under the name of the views. -/
def compile (x : Ext H) (v : Views H) (lib : Scope) (s : State H) (d : Desc) : State H × List Nat × List Conflict :=
  let bd := behaviors x v lib d
  compileLoop bd.2.kind s bd.1

/-! ### Conflicts of several readers -/

/-- `ViewConflictsBuilder` (errors.go:38): a map by reader name, possibly nil (`none`). Keys occur once. -/
abbrev Builder := Option (List (Str × List Conflict))

/-- Assignment `m[k] = v` on a map kept as a list. -/
def assign (m : List (Str × List Conflict)) (k : Str) (v : List Conflict) : List (Str × List Conflict) :=
  match m with
  | [] => [(k, v)]
  | e :: es => if e.1 = k then (k, v) :: es else e :: assign es k v

/-- `m[k]`. -/
def lookup (m : List (Str × List Conflict)) (k : Str) : List Conflict :=
  match m with
  | [] => []
  | e :: es => if e.1 = k then e.2 else lookup es k

/-- `ViewConflictsBuilder.Add` (errors.go:74-80). -/
def Builder.add (b : Builder) (name : Str) (c : Conflict) : Builder :=
  let m := b.getD []
  some (assign m name (lookup m name ++ [c]))

/-- `ViewConflictsBuilder.Combine` (errors.go:82-92). -/
def Builder.combine (b other : Builder) : Builder :=
  match b with
  | none => if (other.getD []).isEmpty then none else some ((other.getD []).foldl (fun m e => assign m e.1 e.2) [])
  | some m => some ((other.getD []).foldl (fun m e => assign m e.1 e.2) m)

/-- The builder returned by `Compile` for its conflicts (viewstate.go:387-396); `name` is the name of the views. -/
def builderOf (name : Str) (cs : List Conflict) : Builder := cs.foldl (fun b c => b.add name c) none

/-- The conflicts of an instrument over all readers, in the order of the readers (meter.go:158-164, with the view name and
the conflicts of each). -/
def combineAll (rs : List (Str × List Conflict)) : Builder := rs.foldl (fun b r => b.combine (builderOf r.1 r.2)) none

end Verif.Views
