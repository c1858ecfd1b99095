import Verif.Spec.Launched
import Verif.Props.Instruments

/-!
What a user knows about an instrument with a hint in its description, of a provider which the launcher installed.
-/

namespace Verif.Launched
open Verif.Attr Verif.Number Verif.Aggr Verif.Assembly Verif.Instruments
open Verif.Views (Tempo Hint hintIn aggregationWords temporalityWords Implemented usualAgg)
open Verif.Provider (Provider Call Meter)
variable {C G ν : Type} [DecidableEq C]

/-- How the metric of an instrument made by the constructor `c` looks when its description has the hint `h`. Aggregation: the one whose word is in the hint, whatever its case;
without a word, or with an unknown one, the usual one of the constructor. The instrument must implement it. Temporality, except for observable gauges: delta if the hint says so,
or if it says nothing known and the preference says so. The hint may give the maximal size of histograms and the number of attribute sets; 0 means that it does not. -/
structure Wants (e : Outside C G) (pref : Launcher.Preference) (c : Ctor) (h : Hint) (L : Look C) : Prop where
  sync : L.sync = true ↔ (Props.promise c).observed = false
  num : L.num = (Props.promise c).num
  kind : (h.aggregation ≠ [] ∧ (e.x.lower h.aggregation, L.kind) ∈ aggregationWords) ∨
    ((h.aggregation = [] ∨ ∀ b, (e.x.lower h.aggregation, b) ∉ aggregationWords) ∧ L.kind = usualAgg c.kinds.2)
  implemented : Implemented c.kinds.2 L.kind
  delta : L.delta = true ↔ (L.sync = true ∨ L.kind ≠ .gauge) ∧ ((h.temporality ≠ [] ∧ (e.x.lower h.temporality, Tempo.delta) ∈ temporalityWords) ∨
    ((h.temporality = [] ∨ ∀ b, (e.x.lower h.temporality, b) ∉ temporalityWords) ∧ Launcher.documented pref c.kinds.2 = .delta))
  size : L.acfg.hist = if h.maxSize = 0 then e.x.validH e.zero else e.x.validH (e.x.histNew h.maxSize)
  limit : L.acfg.limit = if h.limit = 0 then 2000 else h.limit

/-- An instrument with the name `n` was made in the `k`th meter, whose scope is `sc`, and everything asked for in this meter with this name was made by the constructor `c`
with the unit of the look `L`, and a hint in the description by which it looks like this. No keys are selected. -/
structure Hints (e : Outside C G) (pref : Launcher.Preference) (cs : List (Call ν)) (p : Provider C ν) (k : Nat) (sc : Views.Scope) (c : Ctor) (n : Str) (L : Look C) :
    Prop where
  inst : ∃ (m : Meter C ν) (o : Provider.Inst), p.ordered[k]? = some m ∧ m.scope = sc ∧ o ∈ m.insts ∧ o.desc.name = n
  keys : L.keys = none
  hinted : ∀ d ∈ requests k cs, d.name = n → (∃ text, d = c.desc n text L.unit) ∧ ∃ h, hintIn e.x d = some h ∧ Wants e pref c h L

end Verif.Launched
