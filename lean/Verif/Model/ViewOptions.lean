import Verif.Model.Views

/-!
The options of a reader's views: `lightstep/sdk/metric/view/{clause,view,views}.go`.
-/

namespace Verif.Views
open Verif.Attr Verif.Front
variable {H : Type}

/-- `ClauseOption` (clause.go:66-147). The argument of the two kind matchers is `none` for the constant -1, a nil regular
expression, nil keys and a nil rename function are `none`. -/
inductive ClauseOpt (H : Type) where
  | matchName (name : Str)
  | matchRegexp (re : Option (Str → Bool))
  | matchKind (k : Option IKind)
  | matchNumber (k : Option Number.Kind)
  | matchLibrary (lib : Scope)
  | withKeys (keys : Option (List Str))
  | withName (name : Str)
  | withRename (f : Option (Str → Str))
  | withDescription (desc : Str)
  | withAggregation (k : AggKind)
  | withConfig (a : ACfg H)

/-- The functions behind the options (clause.go:66-147). -/
def ClauseOpt.apply (c : Clause H) : ClauseOpt H → Clause H
  | .matchName n => { c with name := n }
  | .matchRegexp re => { c with regexp := re }
  | .matchKind k => { c with ikind := k }
  | .matchNumber k => { c with nkind := k }
  | .matchLibrary lib => { c with lib := lib }
  | .withKeys ks => { c with keys := ks }
  | .withName n => { c with rename := some (fun _ => n) }
  | .withRename f => { c with rename := f }
  | .withDescription d => { c with description := d }
  | .withAggregation k => { c with agg := k }
  | .withConfig a => { c with acfg := a }

/-- The clause `WithClause` starts from (view.go:70-73); `zero` is the zero histogram configuration. -/
def emptyClause (zero : H) : Clause H :=
  { name := [], regexp := none, ikind := none, nkind := none, lib := ⟨[], [], []⟩, keys := none, rename := none,
    description := [], agg := .undefined, acfg := { hist := zero, limit := 0 } }

/-- The clause built by `WithClause` (view.go:68-81). -/
def newClause (zero : H) (opts : List (ClauseOpt H)) : Clause H := opts.foldl ClauseOpt.apply (emptyClause zero)

/-- `view.Config` (view.go:31-34). -/
structure Config (H : Type) where
  clauses : List (Clause H)
  defaults : Defaults H

/-- `view.Option` (view.go:66-121). -/
inductive ViewOpt (H : Type) where
  | clause (opts : List (ClauseOpt H))
  | kindSelector (d : IKind → AggKind)
  | tempoSelector (d : IKind → Tempo)
  | configSelector (d : IKind → ACfg H × ACfg H)

/-- The functions behind the options (view.go:66-121). The loops over all kinds assign every entry. -/
def ViewOpt.apply (zero : H) (cfg : Config H) : ViewOpt H → Config H
  | .clause opts => { cfg with clauses := cfg.clauses ++ [newClause zero opts] }
  | .kindSelector d => { cfg with defaults := { cfg.defaults with agg := d } }
  | .tempoSelector d => { cfg with defaults := { cfg.defaults with tempo := d } }
  | .configSelector d =>
    { cfg with defaults := { cfg.defaults with int64 := fun k => (d k).1, float64 := fun k => (d k).2 } }

/-- `StandardConfigForPerformance` (standard.go:60-69), for a validated limit. -/
def standardConfig (zero : H) (limit : Nat) : IKind → ACfg H × ACfg H :=
  fun _ => ({ hist := zero, limit := limit }, { hist := zero, limit := limit })

/-- The zero value of `Config`. -/
def zeroConfig (zero : H) : Config H :=
  { clauses := []
    defaults := { agg := fun _ => .undefined, tempo := fun _ => .undefined, int64 := fun _ => { hist := zero, limit := 0 }
                  float64 := fun _ => { hist := zero, limit := 0 } } }

/-- `NewConfig` (view.go:132-144). -/
def newConfig (zero : H) (limit : Nat) (opts : List (ViewOpt H)) : Config H :=
  ([ViewOpt.kindSelector standardAgg, .tempoSelector standardTempo, .configSelector (standardConfig zero limit)] ++ opts).foldl
    (ViewOpt.apply zero) (zeroConfig zero)

/-- `Performance.Validate` for the aggregator limit (performance.go:89-91). -/
def validateLimit (n : Nat) : Nat := if n = 0 then defaultAggregatorCardinalityLimit else n

/-- `view.New` (views.go:39-46). -/
def newViews (zero : H) (name : Str) (limit : Nat) (opts : List (ViewOpt H)) : Views H :=
  let cfg := newConfig zero (validateLimit limit) opts
  { name := name, clauses := cfg.clauses, defaults := cfg.defaults, perfLimit := validateLimit limit }

/-- The views of a reader in use: `view.Validate(view.New(r.String(), perf, opts...))` (provider.go:76-80); `NewMeterProvider`
has validated the limit once before (provider.go:67). -/
def readerViews (x : Ext H) (zero : H) (name : Str) (limit : Nat) (opts : List (ViewOpt H)) : Views H :=
  validate x (newViews zero name (validateLimit limit) opts)

end Verif.Views
