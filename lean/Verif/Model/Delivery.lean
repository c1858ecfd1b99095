import Verif.Model.Launched
import Verif.Model.Periodic

/-!
A whole program with its periodic reader: the collections are those which the reader makes.

Composes `Model/Live.lean` and `Model/Periodic.lean`: the goroutine which holds the lock of the reader (periodic.go:155-167) goes through `Produce` and `collectFor`
(producer.go:52-127) step by step, while other goroutines go on.

Simplifications: the asynchronous instruments of all meters are read at the end of `Produce` (see `Model/AsyncAssembly.lean`), and what is handed to the exporter is fixed
at this point; the call of the exporter's method follows (periodic.go:164-166). Contexts and errors are not represented (see `Model/Periodic.lean`). Provider's `Shutdown`
and `ForceFlush` (provider.go:145-187) call those of the reader.
-/

namespace Verif.Delivery
open Verif.Attr Verif.Number Verif.Assembly
variable {C G ν : Type}

/-- Where the goroutine which holds the lock is within `Produce`; `q` are the times read, `ks` the meters still to come, `k` the meter at hand, `wait` the running
`SnapshotAndProcess` or `Collect`. -/
inductive Pos where
  /-- nobody is within `Produce` -/
  | out
  /-- at the loop over the meters (producer.go:78-85) -/
  | meters (q : Times.Seq) (ks : List Nat)
  /-- the callbacks of the meter run (producer.go:109-111); `insts` are the synchronous instruments, read before (producer.go:103-107) -/
  | callbacks (q : Times.Seq) (k : Nat) (insts : List (Option Nat)) (ks : List Nat)
  /-- at the loop over the synchronous instruments (producer.go:113-115) -/
  | insts (q : Times.Seq) (k : Nat) (todo : List (Option Nat)) (wait : Option Nat) (ks : List Nat)
  /-- at the loop over the output metrics (producer.go:124-126) -/
  | outputs (q : Times.Seq) (k : Nat) (todo : List Nat) (wait : Option Nat) (ks : List Nat)
deriving DecidableEq

/-- The program, the clock, the reader and its collection in progress. -/
structure Sys (C G ν : Type) where
  z : Live.Sys C G ν
  clock : Times.State
  r : Periodic.State
  pos : Pos

inductive Act (ν : Type) where
  /-- a goroutine asks for a meter or an instrument, or marks the provider as shut down -/
  | make (c : Provider.Call ν)
  /-- a goroutine calls a synchronous instrument -/
  | call (i : Front.Inst) (attrs : List KV) (num : Bits)
  /-- such a call goes on -/
  | op (i : Nat)
  /-- a running `SnapshotAndProcess` or `Collect` goes on; `choice` resolves the iteration order of maps -/
  | task (t choice : Nat)
  /-- callbacks start, observe and return -/
  | cb (a : Async.Action (List KV) Bits)
  /-- another reader starts `SnapshotAndProcess` on an instrument or `Collect` on one of its output metrics -/
  | other (a : Sync.Action (List KV) Bits)
  /-- the goroutine within `Produce` goes on; the clock's reading is used when it begins -/
  | produce (now : Int)
  /-- the ticker fires, `Shutdown` or `ForceFlush` is called, or a goroutine of the reader goes on; `order` is the iteration order of maps at the end of `Produce` -/
  | reader (a : Periodic.Act) (order : List (Async.Entry (List KV) Bits))

/-- A goroutine has the lock and is about to call `Produce` or within it. -/
def producing (r : Periodic.State) : Bool :=
  match r.lock with
  | none => false
  | some t => match r.threads[t]? with
    | none => false
    | some th => decide (th.pos = .crit .locked)

/-- The step of the reader is the return of `Produce` (periodic.go:164). -/
def returns (r : Periodic.State) : Periodic.Act → Bool
  | .go t _ => match r.threads[t]? with
    | none => false
    | some th => decide (th.pos = .crit .locked)
  | _ => false

/-- Callbacks are started by `collectFor` for the instruments of its meter (producer.go:109-111, callback.go:52-67); observations may be made any time. -/
def permitted (pos : Pos) : Async.Action (List KV) Bits → Bool
  | .startCb insts => match pos with
    | .callbacks _ k _ _ => insts.all (fun o => (unpair o).1 == k)
    | _ => false
  | .finish _ => false
  | _ => true

/-- What other readers start. -/
def foreign (pipe : Nat) : Sync.Action (List KV) Bits → Bool
  | .snapshot _ => true
  | .collect l => (unpair (unpair l).2).1 != pipe
  | _ => false

variable [DecidableEq C]

/-- The goroutine within `Produce` goes on (producer.go:52-127); `none` when it cannot, or panics at a nil synchronous instrument (producer.go:113-115, sync.go:97-99). -/
def produce (farm : Str → UInt64) (w : World C G) (fsub : Bits → Bits → Bits) (x : Views.Ext C) (pipe : Nat) (now : Int) (s : Sys C G ν) : Option (Sys C G ν) :=
  match s.pos with
  | .out =>
    -- `getOrdered` (producer.go:53) and the times (producer.go:62-75)
    if producing s.r then
      some { s with clock := (Times.produce s.clock pipe now).1, pos := .meters (Times.produce s.clock pipe now).2 (List.range s.z.p.ordered.length) }
    else none
  | .meters _ [] => none
  | .meters q (k :: ks) => match s.z.p.ordered[k]? with
    | none => none
    | some m => some { s with pos := .callbacks q k m.sync ks }
  | .callbacks q k insts ks => if Async.noneLive s.z.s.async then some { s with pos := .insts q k insts none ks } else none
  | .insts q k todo (some t) ks => if s.z.s.sync.task t matches .done then some { s with pos := .insts q k todo none ks } else none
  | .insts q k (some i :: todo) none ks =>
    (Live.step farm w fsub x pipe s.z (.run (.sched (.snapshot (instAddr k i))))).map
      (fun z => { s with z := z, pos := .insts q k todo (some s.z.s.sync.nextTask) ks })
  | .insts _ _ (none :: _) none _ => none
  | .insts q k [] none ks => match (s.z.p.ordered[k]?).bind (·.comps[pipe]?) with
    | none => none
    | some c => some { s with pos := .outputs q k (List.range c.collectors.length) none ks }
  | .outputs q k todo (some t) ks => if s.z.s.sync.task t matches .done then some { s with pos := .outputs q k todo none ks } else none
  | .outputs q k (j :: todo) none ks =>
    -- the output metrics of asynchronous instruments are read at the end
    if syncLeaf s.z.p (leafAddr k pipe j) then
      (Live.step farm w fsub x pipe s.z (.run (.sched (.collect (leafAddr k pipe j))))).map
        (fun z => { s with z := z, pos := .outputs q k todo (some s.z.s.sync.nextTask) ks })
    else some { s with pos := .outputs q k todo none ks }
  | .outputs q _ [] none ks => some { s with pos := .meters q ks }

/-- One step; `none` when it cannot happen. -/
def step (farm : Str → UInt64) (w : World C G) (fsub : Bits → Bits → Bits) (x : Views.Ext C) (pipe : Nat) (s : Sys C G ν) : Act ν → Option (Sys C G ν)
  | .make c => (Live.step farm w fsub x pipe s.z (.make c)).map (fun z => { s with z := z })
  | .call i attrs num => (Live.step farm w fsub x pipe s.z (.run (.call i attrs num))).map (fun z => { s with z := z })
  | .op i => (Live.step farm w fsub x pipe s.z (.run (.sched (.op i)))).map (fun z => { s with z := z })
  | .task t choice => (Live.step farm w fsub x pipe s.z (.run (.sched (.task t choice)))).map (fun z => { s with z := z })
  | .cb a => if permitted s.pos a then (Live.step farm w fsub x pipe s.z (.run (.cb a))).map (fun z => { s with z := z }) else none
  | .other a => if foreign pipe a then (Live.step farm w fsub x pipe s.z (.run (.sched a))).map (fun z => { s with z := z }) else none
  | .produce now => produce farm w fsub x pipe now s
  | .reader a order =>
    if returns s.r a then
      -- `Produce` returns when it has been through all meters
      match s.pos with
      | .meters q [] => (Live.step farm w fsub x pipe s.z (.run (.collect order q))).map (fun z => { s with z := z, r := Periodic.step s.r a, pos := .out })
      | _ => none
    else some { s with r := Periodic.step s.r a }

def run (farm : Str → UInt64) (w : World C G) (fsub : Bits → Bits → Bits) (x : Views.Ext C) (pipe : Nat) : Sys C G ν → List (Act ν) → Option (Sys C G ν)
  | s, [] => some s
  | s, a :: as => (step farm w fsub x pipe s a).bind (fun s' => run farm w fsub x pipe s' as)

omit [DecidableEq C] in
/-- The system after `NewMeterProvider` (provider.go:62-88), which registers the reader; for `fill` see `Live.initial`. -/
def initial (farm : Str → UInt64) (w : World C G) (fsub : Bits → Bits → Bits) (fill : Provider.Provider C ν) (views : List (Views.Views C)) (pipe : Nat) (start : Int) :
    Sys C G ν :=
  { z := Live.initial farm w fsub fill views pipe, clock := Times.new start, r := Periodic.new, pos := .out }

end Verif.Delivery
