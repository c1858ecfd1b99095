import Verif.Model.Delivery
import Verif.Spec.Launched

/-!
What a user knows about a program with its periodic reader.
-/

namespace Verif.Delivery
open Verif.Attr Verif.Number Verif.Assembly Verif.Launched
open Verif.Front (IKind)
open Verif.Views (Tempo)
variable {C G ν : Type} [DecidableEq C]

/-- The calls for meters and instruments, in order. -/
def makes (acts : List (Act ν)) : List (Provider.Call ν) := acts.filterMap (fun a => match a with | .make c => some c | _ => none)

/-- The calls on synchronous instruments, in order. -/
def measured (acts : List (Act ν)) : List Pipeline.Act := acts.filterMap (fun a => match a with | .call i as n => some (.call i as n) | _ => none)

/-- What happens at the reader, in order. -/
def readerActs (acts : List (Act ν)) : List Periodic.Act := acts.filterMap (fun a => match a with | .reader a _ => some a | _ => none)

/-- Callbacks wait for the observations they start: whenever `Produce` returns, none is half done. -/
def Orderly (farm : Str → UInt64) (w : World C G) (fsub : Bits → Bits → Bits) (x : Views.Ext C) (pipe : Nat) (s0 : Sys C G ν) (acts : List (Act ν)) : Prop :=
  ∀ before a order after y, acts = before ++ .reader a order :: after → run farm w fsub x pipe s0 before = some y → returns y.r a = true → ¬ Async.InFlight y.z.s.async

/-- A program, starting at time `start` with a new provider, one of whose readers is a periodic reader with a push exporter: at any time meters and instruments are asked
for, synchronous instruments are called, callbacks observe, the ticker fires, the reader is flushed or shut down. Attributes are typed, and callbacks wait for the
observations they start. -/
structure Running (farm : Str → UInt64) (w : World C G) (fsub : Bits → Bits → Bits) (x : Views.Ext C) (views : List (Views.Views C)) (pipe : Nat) (start : Int)
    (acts : List (Act ν)) (s : Sys C G ν) : Prop where
  resource : Export.Exportable w.resource
  typed : ∀ e ∈ Pipeline.calls (measured acts), ∀ kv ∈ e.1.attrs e.2.1, kv.val ≠ .invalid
  observed : ∀ cb o as v, .cb (.observe cb o as v) ∈ acts → ∀ kv ∈ as, kv.val ≠ .invalid
  orderly : Orderly farm w fsub x pipe (initial farm w fsub s.z.p views pipe start) acts
  runs : run farm w fsub x pipe (initial farm w fsub s.z.p views pipe start) acts = some s

/-- Such a program until all calls on synchronous instruments have returned (`acts`). Then `ForceFlush` or `Shutdown` of the reader is called and returns; meanwhile no
synchronous instrument is called, and no meter or instrument is asked for (`after`). Fewer than 2^32 calls on synchronous instruments are made. -/
structure Closing (farm : Str → UInt64) (w : World C G) (fsub : Bits → Bits → Bits) (x : Views.Ext C) (views : List (Views.Views C)) (pipe : Nat) (start : Int)
    (acts after : List (Act ν)) (s s' : Sys C G ν) : Prop where
  running : Running farm w fsub x views pipe start (acts ++ after) s'
  few : (measured acts).length < 2 ^ 32
  before : run farm w fsub x pipe (initial farm w fsub s'.z.p views pipe start) acts = some s
  returned : ∀ i, i < s.z.s.sync.nextOp → (s.z.s.sync.op i).pc = .done
  quiet : makes after = [] ∧ measured after = []
  /-- A call which had not been made in `s` has returned in `s'`. -/
  call : ∃ t kind, s.r.threads.length ≤ t ∧ s'.r.threads[t]? = some ⟨kind, .done⟩

/-- A program which uses the provider installed by the launcher. -/
abbrev Runs (e : Outside C G) (pc : Launcher.PipelineConfig) (t : IKind → Tempo) (start : Int) (acts : List (Act ν)) (s : Sys C G ν) : Prop :=
  Running e.farm (world e pc) e.fsub e.x (views e t) 0 start acts s

/-- Such a program until `ForceFlush` or `Shutdown` returns. -/
abbrev Closes (e : Outside C G) (pc : Launcher.PipelineConfig) (t : IKind → Tempo) (start : Int) (acts after : List (Act ν)) (s s' : Sys C G ν) : Prop :=
  Closing e.farm (world e pc) e.fsub e.x (views e t) 0 start acts after s s'

/-- Calls on the instruments with this name of the `k`th meter do not overlap. -/
def OneByOne (e : Outside C G) (pc : Launcher.PipelineConfig) (t : IKind → Tempo) (start : Int) (p : Provider.Provider C ν) (k : Nat) (n : Str) (acts : List (Act ν)) : Prop :=
  ∀ before i kvs b after y, acts = before ++ .call i kvs b :: after →
    run e.farm (world e pc) e.fsub e.x 0 (initial e.farm (world e pc) e.fsub p (views e t) 0 start) before = some y →
    Called p k n i.id → ∀ j, j < y.z.s.sync.nextOp → Called p k n (y.z.s.sync.op j).obs → (y.z.s.sync.op j).pc = .done

end Verif.Delivery
