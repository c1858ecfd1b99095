import Verif.Model.Live
import Verif.Spec.Whole

/-!
What a user knows about a program which creates meters and instruments while it runs.
-/

namespace Verif.Live
open Verif.Attr Verif.Number Verif.Aggr Verif.Assembly
variable {C G ν : Type} [DecidableEq C]

/-- The calls for meters and instruments, in order. -/
def makes (acts : List (Act ν)) : List (Provider.Call ν) := acts.filterMap (fun a => match a with | .make c => some c | .run _ => none)

/-- What else happens, in order. -/
def rest (acts : List (Act ν)) : List Whole.Act := acts.filterMap (fun a => match a with | .make _ => none | .run a => some a)

/-- The metric without its description, which may change when an instrument is asked for again. -/
def plain (m : Export.PMetric) : Export.PMetric := { m with description := [] }

/-- The payloads have the same metrics but for descriptions; the second may have more scopes, without metrics. -/
def SamePayload (pl pl' : Export.Payload) : Prop :=
  pl'.resource = pl.resource ∧ ∃ more, pl'.scopes.map (fun s => (s.library, s.metrics.map plain)) = pl.scopes.map (fun s => (s.library, s.metrics.map plain)) ++ more ∧
    ∀ e ∈ more, e.2 = []

/-- Callbacks wait for the observations they start: whenever a collection goes on, none is half done. -/
def Orderly (farm : Str → UInt64) (w : World C G) (fsub : Bits → Bits → Bits) (x : Views.Ext C) (pipe : Nat) (z0 : Sys C G ν) (acts : List (Act ν)) : Prop :=
  ∀ before order q after y, acts = before ++ .run (.collect order q) :: after → run farm w fsub x pipe z0 before = some y → ¬ Async.InFlight y.s.async

/-- A program, starting with a new provider, and the push exporter of one of its readers: at any time meters and instruments are asked for, synchronous instruments are
called, callbacks observe, collections are made and exported. Attributes are typed, and callbacks wait for the observations they start. -/
structure Running (farm : Str → UInt64) (w : World C G) (fsub : Bits → Bits → Bits) (x : Views.Ext C) (views : List (Views.Views C)) (pipe : Nat) (acts : List (Act ν))
    (z : Sys C G ν) : Prop where
  resource : Export.Exportable w.resource
  typed : ∀ e ∈ Whole.calls (rest acts), ∀ kv ∈ e.1.attrs e.2.1, kv.val ≠ .invalid
  observed : ∀ cb o as v, .run (.cb (.observe cb o as v)) ∈ acts → ∀ kv ∈ as, kv.val ≠ .invalid
  orderly : Orderly farm w fsub x pipe (initial farm w fsub z.p views pipe) acts
  runs : run farm w fsub x pipe (initial farm w fsub z.p views pipe) acts = some z

/-- Such a program until all calls on synchronous instruments have returned (`acts`); then the reader collects all its output metrics once more and exports (`coll`). Fewer
than 2^32 calls are made. -/
structure Ending (farm : Str → UInt64) (w : World C G) (fsub : Bits → Bits → Bits) (x : Views.Ext C) (views : List (Views.Views C)) (pipe : Nat) (acts : List (Act ν))
    (coll : List Whole.Act) (z z' : Sys C G ν) : Prop where
  running : Running farm w fsub x views pipe (acts ++ coll.map .run) z'
  few : (Whole.calls (rest acts)).length < 2 ^ 32
  before : run farm w fsub x pipe (initial farm w fsub z'.p views pipe) acts = some z
  returned : ∀ i, i < z.s.sync.nextOp → (z.s.sync.op i).pc = .done
  collected : ∀ s ∈ (reader w z.p pipe).scopes, ∀ o ∈ s.2, syncLeaf z.p o.leaf = true →
    Whole.Collected (Whole.parts farm w fsub z.p pipe) (reader w z.p pipe) o.leaf z.s coll z'.s
  quiet : Whole.calls coll = []

/-- Calls on the synchronous instruments shown under the name do not overlap. -/
def OneByOne (farm : Str → UInt64) (w : World C G) (fsub : Bits → Bits → Bits) (x : Views.Ext C) (views : List (Views.Views C)) (p : Provider.Provider C ν) (pipe k : Nat)
    (v : Views.Views C) (sc : Views.Scope) (n : Str) (acts : List (Act ν)) : Prop :=
  ∀ before i kvs b after y, acts = before ++ .run (.call i kvs b) :: after → run farm w fsub x pipe (initial farm w fsub p views pipe) before = some y →
    0 < times p k v sc n i.id → ∀ j, j < y.s.sync.nextOp → 0 < times p k v sc n (y.s.sync.op j).obs → (y.s.sync.op j).pc = .done

end Verif.Live
