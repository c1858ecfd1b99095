import Verif.Model.Launched
import Verif.Spec.Launcher
import Verif.Spec.Live

/-!
What a user knows about a program which starts the launcher and uses the provider it installs.
-/

namespace Verif.Launched
open Verif.Attr Verif.Number Verif.Aggr Verif.Assembly Verif.Instruments
open Verif.Front (IKind)
open Verif.Views (Tempo NoHint)
open Verif.Provider (Provider Call Meter)
variable {C G ν : Type} [DecidableEq C]

/-- The launcher, configured by these options in this environment, started the metrics pipeline with the configuration `pc` and the temporality selector `t`; the
temporality preference configured last, or in the environment, is a name of `pref`. -/
structure Launch (lx : Launcher.Ext) (lw : Launcher.World) (opts : List Launcher.Opt) (pref : Launcher.Preference) (pc : Launcher.PipelineConfig) (t : IKind → Tempo) :
    Prop where
  started : ∃ c eff period bs, Launcher.configure lx lw opts = some (c, eff) ∧ Launcher.Effect.started (.metrics pc period t bs) ∈ eff
  pref : Launcher.prefName (lx.lower ((Launcher.lastSet Launcher.tempoPrefOf opts).getD lw.env.tempoPref)) = some pref

/-- A program which uses the installed provider. -/
abbrev Runs (e : Outside C G) (pc : Launcher.PipelineConfig) (t : IKind → Tempo) (acts : List (Live.Act ν)) (z : Live.Sys C G ν) : Prop :=
  Live.Running e.farm (world e pc) e.fsub e.x (views e t) 0 acts z

/-- Such a program which ends with a collection. -/
abbrev Ends (e : Outside C G) (pc : Launcher.PipelineConfig) (t : IKind → Tempo) (acts : List (Live.Act ν)) (coll : List Whole.Act) (z z' : Live.Sys C G ν) : Prop :=
  Live.Ending e.farm (world e pc) e.fsub e.x (views e t) 0 acts coll z z'

/-- An instrument with the name `n` was made in the `k`th meter, whose scope is `sc`, and everything asked for in this meter with this name was made by the constructor
`c` with this unit, without a hint in the description. -/
structure Named (cs : List (Call ν)) (p : Provider C ν) (k : Nat) (sc : Views.Scope) (c : Ctor) (n unit : Str) : Prop where
  inst : ∃ (m : Meter C ν) (o : Provider.Inst), p.ordered[k]? = some m ∧ m.scope = sc ∧ o ∈ m.insts ∧ o.desc.name = n
  plain : ∀ d ∈ requests k cs, d.name = n → NoHint d ∧ ∃ text, d = c.desc n text unit

/-- The attributes used stay within the limits: fewer than 3000 different lists for each instrument with this name of the `k`th meter, and fewer than `lim` different
sets for all of these. No list has a NaN inside a float slice (see C17). -/
def FewUpTo (lim : Nat) (p : Provider C ν) (k : Nat) (n : Str) (acts : List Pipeline.Act) : Prop :=
  ∃ (A : Nat → List (List KV)) (B : List (List KV)),
    (∀ id, Called p k n id → (A id).length < 3000) ∧ B.length < lim ∧
    (∀ e ∈ Pipeline.calls acts, Called p k n e.1.id → e.1.attrs e.2.1 ∈ A e.1.id) ∧
    ∀ id, Called p k n id → ∀ a ∈ A id, ¬ HasNaNSlice a ∧ ∃ b ∈ B, Pipeline.SameSeries none a b

/-- They stay within the default limits. -/
def Few (p : Provider C ν) (k : Nat) (n : Str) (acts : List Pipeline.Act) : Prop := FewUpTo 2000 p k n acts

/-- Calls on the instruments with this name of the `k`th meter do not overlap. -/
def OneByOne (e : Outside C G) (pc : Launcher.PipelineConfig) (t : IKind → Tempo) (p : Provider C ν) (k : Nat) (n : Str) (acts : List (Live.Act ν)) : Prop :=
  ∀ before i kvs b after y, acts = before ++ .run (.call i kvs b) :: after →
    Live.run e.farm (world e pc) e.fsub e.x 0 (Live.initial e.farm (world e pc) e.fsub p (views e t) 0) before = some y →
    Called p k n i.id → ∀ j, j < y.s.sync.nextOp → Called p k n (y.s.sync.op j).obs → (y.s.sync.op j).pc = .done

end Verif.Launched
