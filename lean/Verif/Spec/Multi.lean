import Verif.Model.Multi
import Verif.Spec.Delivery

/-!
What a user knows about a program with several readers.
-/

namespace Verif.Multi
open Verif.Attr Verif.Number Verif.Assembly
variable {C G ν : Type} [DecidableEq C]

/-- The calls for meters and instruments, and those of `Shutdown`, in order. -/
def makes (acts : List (Act ν)) : List (Provider.Call ν) := acts.filterMap (fun a => match a with | .make c => some c | .shutdown => some .shutdown | _ => none)

/-- The calls on synchronous instruments, in order. -/
def measured (acts : List (Act ν)) : List Pipeline.Act := acts.filterMap (fun a => match a with | .call i as n => some (.call i as n) | _ => none)

/-- Callbacks wait for the observations they start: whenever `Produce` returns, none of its reader is half done. -/
def Orderly (farm : Str → UInt64) (w : World C G) (fsub : Bits → Bits → Bits) (x : Views.Ext C) (y0 : Sys C G ν) (acts : List (Act ν)) : Prop :=
  ∀ before i a order after y, acts = before ++ .reader i a order :: after → run farm w fsub x y0 before = some y → Delivery.returns (y.readers i).r a = true →
    ¬ Async.InFlight (y.readers i).async

/-- A program, starting at time `start` with a new provider, all of whose readers are periodic readers with push exporters: at any time meters and instruments are asked for,
synchronous instruments are called, callbacks observe, tickers fire, and the provider or a reader is flushed or shut down. Attributes are typed, and callbacks wait for the
observations they start. -/
structure Running (farm : Str → UInt64) (w : World C G) (fsub : Bits → Bits → Bits) (x : Views.Ext C) (views : List (Views.Views C)) (start : Int) (acts : List (Act ν))
    (y : Sys C G ν) : Prop where
  resource : Export.Exportable w.resource
  typed : ∀ e ∈ Pipeline.calls (measured acts), ∀ kv ∈ e.1.attrs e.2.1, kv.val ≠ .invalid
  observed : ∀ i cb o as v, .cb i (.observe cb o as v) ∈ acts → ∀ kv ∈ as, kv.val ≠ .invalid
  orderly : Orderly farm w fsub x (initial farm w fsub y.p views start) acts
  runs : run farm w fsub x (initial farm w fsub y.p views start) acts = some y

/-- Such a program until all calls on synchronous instruments have returned (`acts`), and then until `ForceFlush` or `Shutdown` of the provider, which has not yet called a reader, has
returned; meanwhile no synchronous instrument is called, and no meter or instrument is asked for (`after`). `Shutdown` is not a second one. Fewer than 2^32 calls on synchronous
instruments are made. -/
structure Closing (farm : Str → UInt64) (w : World C G) (fsub : Bits → Bits → Bits) (x : Views.Ext C) (views : List (Views.Views C)) (start : Int) (acts after : List (Act ν))
    (y y' : Sys C G ν) : Prop where
  running : Running farm w fsub x views start (acts ++ after) y'
  few : (measured acts).length < 2 ^ 32
  before : run farm w fsub x (initial farm w fsub y'.p views start) acts = some y
  returned : ∀ i, i < y.sync.nextOp → (y.sync.op i).pc = .done
  quiet : makes after = [] ∧ measured after = []
  call : ∃ t : Nat, (y.calls[t]? = none ∨ ∃ kind, y.calls[t]? = some (Pc.loop kind 0 none)) ∧ y'.calls[t]? = some (Pc.done false)

/-- Calls on the synchronous instruments which these views show under the name do not overlap. -/
def OneByOne (farm : Str → UInt64) (w : World C G) (fsub : Bits → Bits → Bits) (x : Views.Ext C) (views : List (Views.Views C)) (start : Int) (p : Provider.Provider C ν) (k : Nat)
    (v : Views.Views C) (sc : Views.Scope) (n : Str) (acts : List (Act ν)) : Prop :=
  ∀ before i kvs b after y, acts = before ++ .call i kvs b :: after → run farm w fsub x (initial farm w fsub p views start) before = some y →
    0 < times p k v sc n i.id → ∀ j, j < y.sync.nextOp → 0 < times p k v sc n (y.sync.op j).obs → (y.sync.op j).pc = .done

end Verif.Multi
