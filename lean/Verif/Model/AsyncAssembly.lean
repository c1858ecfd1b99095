import Verif.Model.Assembly
import Verif.Model.AsyncPipeline

/-!
The assembly of asynchronous instruments: how the running system for observations (`Model/AsyncPipeline.lean`) is wired up by a provider with its meters,
instruments and compiled views, for one reader.

Simplifications: the provider's state is the one after the instruments were created (`Model/Live.lean` creates them while the program runs, C93). The callbacks of all meters run before the output metrics of all meters are
collected; in the code this happens meter after meter (producer.go:78-85), but meters share neither instruments nor output metrics. The payloads have the asynchronous
output metrics only; for both kinds in the same payloads see `Model/Whole.lean`.
-/

namespace Verif.Assembly
open Verif.Attr Verif.Number Verif.Front Verif.Views Verif.Provider
variable {C G ν : Type}

/-- The accumulators of an asynchronous instrument for a reader (async.go:123-151 `getOrCreate`, viewstate.go:556-587 `multiInstrument`): its output metrics for this
reader in order; none when the instrument is disabled for the reader (async.go:126-129). -/
def asyncLeavesOf (p : Provider C ν) (pipe o : Nat) : List Nat :=
  match instAt p o with
  | none => []
  | some i => if i.desc.kind.synchronous then [] else ((i.leaves[pipe]?).getD []).map (leafAddr (unpair o).1 pipe)

/-- The instrument as used by callbacks (async.go:88-103): its descriptor serves the range test, its performance settings the truncation of attributes. Addresses without
an instrument get one which is not enabled. -/
def asyncInst (w : World C G) (p : Provider C ν) (o : Nat) : Front.Inst :=
  match instAt p o with
  | none => { id := o, kind := .asyncGauge, num := .int64, sizeLimit := w.sizeLimit, proc := none }
  | some i => { id := o, kind := i.desc.kind, num := i.desc.num, sizeLimit := w.sizeLimit, proc := none }

/-- The machine: `newAsyncView` (viewstate.go:492-527) and `instrumentBase` (base_instrument.go:34-59) for each output metric; `fsub` is float subtraction. -/
def asyncSetup (w : World C G) (fsub : Bits → Bits → Bits) (p : Provider C ν) (pipe : Nat) : AsyncPipeline.Setup where
  inst := asyncInst w p
  leavesOf := asyncLeavesOf p pipe
  keys := fun l => (leafAt p l).bind (·.keys)
  lim := fun l => ((leafAt p l).map (·.acfg.limit)).getD 0
  delta := fun l => ((leafAt p l).map (·.delta)).getD false
  gauge := fun l => ((leafAt p l).map (fun f => decide (f.kind = .gauge))).getD false
  num := fun l => ((leafAt p l).map (·.desc.num)).getD .int64
  fadd := w.fadd
  fsub := fsub

/-- The asynchronous output metrics which the `k`th meter has for a reader, in order of creation (viewstate.go:323-403 `collectors`). -/
def asyncOutsOf (k pipe : Nat) (m : Meter C ν) : List Pipeline.Out :=
  (((m.comps[pipe]?).map (·.collectors)).getD []).zipIdx.flatMap (fun l =>
    if !l.1.desc.kind.synchronous then [outOf (leafAddr k pipe l.2) l.1] else [])

/-- A reader of the provider with its exporter: the meters in order (producer.go:78-100). -/
def asyncReader (w : World C G) (p : Provider C ν) (pipe : Nat) : Pipeline.Reader G where
  resource := w.resource
  scopes := p.ordered.zipIdx.map (fun e => (libOf e.1.scope, asyncOutsOf e.2 pipe e.1))
  toHist := w.toHist
  mapping := w.mapping

end Verif.Assembly
