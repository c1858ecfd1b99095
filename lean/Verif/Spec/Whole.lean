import Verif.Model.Whole
import Verif.Spec.AssemblyViews
import Verif.Spec.AsyncAssemblyViews
import Verif.Spec.Payload

/-!
What a user knows about a whole program, with synchronous and observable instruments.
-/

namespace Verif.Whole
open Verif.Attr Verif.Number Verif.Aggr Verif.Assembly
variable {C G ν : Type}

/-- What happens to the synchronous instruments: the calls, the tasks of readers, and the exports. -/
def syncActs (acts : List Act) : List Pipeline.Act :=
  acts.filterMap (fun a => match a with
    | .call i as n => some (.call i as n)
    | .sched a => some (.sched a)
    | .cb _ => none
    | .collect _ q => some (.export q))

/-- What happens to the observable instruments: the callbacks and the collections. -/
def asyncActs (acts : List Act) : List AsyncPipeline.Act :=
  acts.filterMap (fun a => match a with
    | .call _ _ _ => none
    | .sched _ => none
    | .cb a => some (.cb a)
    | .collect order q => some (.collect order q))

/-- What happens in a program without callbacks: its exports are collections in which nothing was observed. -/
def alone : Pipeline.Act → Act
  | .call i as n => .call i as n
  | .sched a => .sched a
  | .export q => .collect [] q

/-- The collections among the actions, with their clock readings. -/
def collections (acts : List Act) : List Times.Seq := acts.filterMap (fun a => match a with | .collect _ q => some q | _ => none)

/-- The calls on synchronous instruments. -/
def calls (acts : List Act) : List (Front.Inst × List KV × Bits) :=
  acts.filterMap (fun a => match a with | .call i as n => some (i, as, n) | _ => none)

/-- The metrics of a payload with this scope and name. -/
def metricsIn (lib : Export.Library) (name : Str) (p : Export.Payload) : List Export.PMetric :=
  (p.scopes.filter (fun s => s.library = lib)).flatMap (fun s => s.metrics.filter (fun m => m.name = name))

/-- Callbacks wait for the observations they start: whenever a collection goes on, none is half done. -/
def Orderly {H : Type} (P : Parts H) (R : Pipeline.Reader H) (acts : List Act) : Prop :=
  ∀ before order q after y, acts = before ++ .collect order q :: after → run P R (initial P) before = some y → ¬ Async.InFlight y.async

/-- A collection of the output metric `l` of synchronous instruments and its export: from `x`, the actions `mid` contain for each instrument feeding `l` a snapshot which
is finished in `y`; then `l` is collected, which is finished in `z`; then the collection ends and is exported. Other things may happen at the same time. -/
structure Collected {H : Type} (P : Parts H) (R : Pipeline.Reader H) (l : Nat) (x : Sys H) (acts : List Act) (x' : Sys H) : Prop where
  split : ∃ mid fin y z order q, acts = mid ++ .sched (.collect l) :: fin ++ [.collect order q] ∧ run P R x mid = some y ∧
    run P R y (.sched (.collect l) :: fin) = some z ∧ step P R z (.collect order q) = some x' ∧ z.sync.task y.sync.nextTask = .done ∧
    ∀ o, l ∈ P.c.leavesOf o → ∃ m1 m2 w, mid = m1 ++ .sched (.snapshot o) :: m2 ∧ run P R x m1 = some w ∧ y.sync.task w.sync.nextTask = .done

/-- A program with a provider made before, and the push exporter of one of its readers: synchronous instruments are called, callbacks observe, collections are made and
exported. Attributes are typed, and callbacks wait for the observations they start. -/
structure Running (farm : Str → UInt64) (w : World C G) (fsub : Bits → Bits → Bits) (p : Provider.Provider C ν) (pipe : Nat) (acts : List Act) (x : Sys G) : Prop where
  resource : Export.Exportable w.resource
  typed : ∀ e ∈ calls acts, ∀ kv ∈ e.1.attrs e.2.1, kv.val ≠ .invalid
  observed : ∀ cb o as v, .cb (.observe cb o as v) ∈ acts → ∀ kv ∈ as, kv.val ≠ .invalid
  orderly : Orderly (parts farm w fsub p pipe) (reader w p pipe) acts
  runs : run (parts farm w fsub p pipe) (reader w p pipe) (initial (parts farm w fsub p pipe)) acts = some x

/-- Such a program until all calls on synchronous instruments have returned (`acts`); then the reader collects all its output metrics once more and exports (`coll`). The
calls are made on instruments of the provider, and fewer than 2^32 calls are made. -/
structure Ending (farm : Str → UInt64) (w : World C G) (fsub : Bits → Bits → Bits) (p : Provider.Provider C ν) (pipe : Nat) (acts coll : List Act) (x x' : Sys G) :
    Prop where
  running : Running farm w fsub p pipe (acts ++ coll) x'
  genuine : ∀ e ∈ calls acts, ∃ k i m o proc, p.ordered[k]? = some m ∧ m.insts[i]? = some o ∧ o.desc.kind.synchronous = true ∧ e.1 = instrument w k i o proc
  few : (calls acts).length < 2 ^ 32
  before : run (parts farm w fsub p pipe) (reader w p pipe) (initial (parts farm w fsub p pipe)) acts = some x
  returned : ∀ i, i < x.sync.nextOp → (x.sync.op i).pc = .done
  collected : ∀ s ∈ (reader w p pipe).scopes, ∀ o ∈ s.2, syncLeaf p o.leaf = true → Collected (parts farm w fsub p pipe) (reader w p pipe) o.leaf x coll x'
  quiet : calls coll = []

/-- Calls on the synchronous instruments shown under the name do not overlap. -/
def OneByOne (farm : Str → UInt64) (w : World C G) (fsub : Bits → Bits → Bits) (p : Provider.Provider C ν) (pipe k : Nat) (v : Views.Views C) (sc : Views.Scope) (n : Str)
    (acts : List Act) : Prop :=
  ∀ before i kvs b after y, acts = before ++ .call i kvs b :: after →
    run (parts farm w fsub p pipe) (reader w p pipe) (initial (parts farm w fsub p pipe)) before = some y → 0 < times p k v sc n i.id →
    ∀ j, j < y.sync.nextOp → 0 < times p k v sc n (y.sync.op j).obs → (y.sync.op j).pc = .done

/-- The observations which counted, in order. -/
def seenIn (x : Sys G) : List Seen := x.async.log.map (fun v => (v.coll, v.obs, v.set, v.val))

end Verif.Whole
