import Verif.Model.Whole

/-!
A whole program which creates meters and instruments while it runs.

Composes `Model/Provider.lean` and `Model/Whole.lean`: `Meter` and the constructors of instruments are called between other steps, and each step runs with the
instruments and output metrics which exist at the time.

Simplification: a collection goes through the meters which existed when it began (producer.go:53, provider.go:190-194) and the output metrics which existed when it came to
their meter (producer.go:124); here the payload shows those which exist when the collection ends. The others have no points in this collection, and metrics without points
are not sent; but a meter created during the collection appears in the payload as a scope without metrics.
-/

namespace Verif.Live
open Verif.Attr Verif.Number Verif.Aggr Verif.Assembly
variable {C G ν : Type}

/-- The running system with its provider. -/
structure Sys (C G ν : Type) where
  p : Provider.Provider C ν
  s : Whole.Sys G

inductive Act (ν : Type) where
  /-- a goroutine asks for a meter or an instrument, or shuts the provider down -/
  | make (c : Provider.Call ν)
  /-- anything else -/
  | run (a : Whole.Act)

/-- There is an instrument at the address. -/
def hasInst (p : Provider.Provider C ν) (o : Nat) : Bool := (instAt p o).isSome

/-- The user has this instrument: it is the synchronous one at its address, as made by `configureInstrument` (meter.go:132-184) and called (sync.go:330-364). -/
def holds (w : World C G) (p : Provider.Provider C ν) (i : Front.Inst) : Bool :=
  match instAt p i.id with
  | none => false
  | some o => o.desc.kind.synchronous && decide (i.kind = o.desc.kind) && decide (i.num = o.desc.num) && decide (i.sizeLimit = w.sizeLimit)

/-- Steps are made on instruments and output metrics which exist: pointers are handed out by `configureInstrument` (meter.go:132-184), callbacks are registered with
instruments of their meter (callback.go:52-67), and `collectFor` goes through the lists of a meter (producer.go:103-126). A collection with a nil synchronous instrument
panics (producer.go:113-115, sync.go:97-99; see C32), so it does not end; here it may. -/
def possible (w : World C G) (p : Provider.Provider C ν) : Whole.Act → Bool
  | .call i _ _ => holds w p i
  | .sched (.snapshot o) => hasInst p o
  | .sched (.collect l) => (leafAt p l).isSome
  | .sched _ => true
  | .cb (.startCb insts) => insts.all (hasInst p)
  | .cb (.observe _ o _ _) => hasInst p o
  | .cb _ => true
  | .collect _ _ => true

variable [DecidableEq C]

/-- One step; `none` when it cannot happen. -/
def step (farm : Str → UInt64) (w : World C G) (fsub : Bits → Bits → Bits) (x : Views.Ext C) (pipe : Nat) (z : Sys C G ν) : Act ν → Option (Sys C G ν)
  | .make c => some { z with p := (Provider.step x z.p c).1 }
  | .run a =>
    if possible w z.p a then (Whole.step (Whole.parts farm w fsub z.p pipe) (reader w z.p pipe) z.s a).map (fun s => { z with s := s }) else none

def run (farm : Str → UInt64) (w : World C G) (fsub : Bits → Bits → Bits) (x : Views.Ext C) (pipe : Nat) : Sys C G ν → List (Act ν) → Option (Sys C G ν)
  | z, [] => some z
  | z, a :: as => (step farm w fsub x pipe z a).bind (fun z' => run farm w fsub x pipe z' as)

omit [DecidableEq C] in
/-- The system after `NewMeterProvider` (provider.go:62-88), before any other call. The cells of the heap which are not allocated yet (see `Sync.initial`) are those of
the provider `fill`; they are not read. -/
def initial (farm : Str → UInt64) (w : World C G) (fsub : Bits → Bits → Bits) (fill : Provider.Provider C ν) (views : List (Views.Views C)) (pipe : Nat) : Sys C G ν :=
  { p := Provider.new views, s := Whole.initial (Whole.parts farm w fsub fill pipe) }

end Verif.Live
