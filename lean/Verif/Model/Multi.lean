import Verif.Model.Delivery

/-!
A whole program with any number of periodic readers, and `ForceFlush` and `Shutdown` of its provider.

Composes one `Model/Delivery.lean` for each reader: the provider with its meters and instruments and the state of the synchronous instruments are shared (sync.go:39-58), each
reader has its own loop, lock, exporter and collection in progress (periodic.go:30-60), its own time of the last collection (producer.go:29-34), and its own state of asynchronous
instruments (producer.go:107). Models `MeterProvider.{ForceFlush,Shutdown}` (provider.go:145-187) on top of these.

Simplifications: see `Model/Delivery.lean`. A call of `Shutdown` is represented from the point where it has the lock (provider.go:174); the results of readers are not represented
(see `Model/Shutdown.lean`).
-/

namespace Verif.Multi
open Verif.Attr Verif.Number Verif.Assembly
variable {C G ν : Type}

/-- What belongs to one reader: the fields of `Whole.Sys` and `Delivery.Sys` which are not shared. -/
structure One where
  seen : Nat
  async : Async.State (List KV) Bits Bits
  rm : Export.ResourceMap
  sent : List Export.Payload
  clock : Times.State
  r : Periodic.State
  pos : Delivery.Pos

/-- A call of `ForceFlush` or `Shutdown` of the provider: at the loop over the readers (provider.go:147-149, 182-184), before the call on reader `r` or waiting for the thread of this
reader which serves it; or returned, `already` with `ErrAlreadyShutdown` (provider.go:178-180). -/
inductive Pc where
  | loop (kind : Periodic.Kind) (r : Nat) (wait : Option Nat)
  | done (already : Bool)
deriving DecidableEq

/-- The provider, the state of the synchronous instruments, the readers, and the calls made on the provider. -/
structure Sys (C G ν : Type) where
  p : Provider.Provider C ν
  sync : Sync.State (List KV) (List KV) Bits (Aggr.Cell Bits G)
  readers : Nat → One
  calls : List Pc

/-- The program as one reader has it. -/
def view (y : Sys C G ν) (i : Nat) : Delivery.Sys C G ν :=
  { z := { p := y.p, s := { sync := y.sync, seen := (y.readers i).seen, async := (y.readers i).async, rm := (y.readers i).rm, sent := (y.readers i).sent } },
    clock := (y.readers i).clock, r := (y.readers i).r, pos := (y.readers i).pos }

/-- What belongs to this reader. -/
def one (s : Delivery.Sys C G ν) : One :=
  { seen := s.z.s.seen, async := s.z.s.async, rm := s.z.s.rm, sent := s.z.s.sent, clock := s.clock, r := s.r, pos := s.pos }

/-- A step at one reader changes what is shared, and what belongs to it. -/
def put (y : Sys C G ν) (i : Nat) (s : Delivery.Sys C G ν) : Sys C G ν :=
  { y with p := s.z.p, sync := s.z.s.sync, readers := fun j => if j = i then one s else y.readers j }

inductive Act (ν : Type) where
  /-- a goroutine asks for a meter or an instrument -/
  | make (c : Provider.Call ν)
  /-- a goroutine calls a synchronous instrument -/
  | call (i : Front.Inst) (attrs : List KV) (num : Bits)
  /-- such a call goes on -/
  | op (i : Nat)
  /-- a running `SnapshotAndProcess` or `Collect` goes on -/
  | task (t choice : Nat)
  /-- callbacks run by a reader's collection start, observe and return -/
  | cb (i : Nat) (a : Async.Action (List KV) Bits)
  /-- a reader's goroutine within `Produce` goes on -/
  | produce (i : Nat) (now : Int)
  /-- a reader's ticker fires, a goroutine of it goes on, or `ForceFlush` or `Shutdown` of the reader itself is called -/
  | reader (i : Nat) (a : Periodic.Act) (order : List (Async.Entry (List KV) Bits))
  /-- `ForceFlush` of the provider is called -/
  | flush
  /-- `Shutdown` of the provider is called and gets the lock -/
  | shutdown
  /-- such a call goes on -/
  | go (t : Nat)

/-- The call on a reader (provider.go:148, 183). -/
def request : Periodic.Kind → Periodic.Act
  | .shutdown => .callShutdown
  | _ => .callFlush

variable [DecidableEq C]

/-- What happens at a reader. -/
def at' (farm : Str → UInt64) (w : World C G) (fsub : Bits → Bits → Bits) (x : Views.Ext C) (y : Sys C G ν) (i : Nat) (a : Delivery.Act ν) : Option (Sys C G ν) :=
  if i < y.p.views.length then (Delivery.step farm w fsub x i (view y i) a).map (put y i) else none

/-- What happens to the provider or the synchronous instruments, whichever the reader. -/
def shared (farm : Str → UInt64) (w : World C G) (fsub : Bits → Bits → Bits) (x : Views.Ext C) (y : Sys C G ν) (a : Delivery.Act ν) : Option (Sys C G ν) :=
  (Delivery.step farm w fsub x 0 (view y 0) a).map (fun s => { y with p := s.z.p, sync := s.z.s.sync })

/-- A call on the provider goes on (provider.go:145-151, 168-187). -/
def advance (farm : Str → UInt64) (w : World C G) (fsub : Bits → Bits → Bits) (x : Views.Ext C) (y : Sys C G ν) (t : Nat) : Pc → Option (Sys C G ν)
  | .loop kind r none =>
    if r < y.p.views.length then
      (at' farm w fsub x y r (.reader (request kind) [])).map (fun y' => { y' with calls := y.calls.set t (.loop kind r (some (y.readers r).r.threads.length)) })
    else some { y with calls := y.calls.set t (.done false) }
  | .loop kind r (some u) => match (y.readers r).r.threads[u]? with
    | none => none
    | some th => if th.pos = .done then some { y with calls := y.calls.set t (.loop kind (r + 1) none) } else none
  | .done _ => none

/-- One step; `none` when it cannot happen. -/
def step (farm : Str → UInt64) (w : World C G) (fsub : Bits → Bits → Bits) (x : Views.Ext C) (y : Sys C G ν) : Act ν → Option (Sys C G ν)
  | .make c => shared farm w fsub x y (.make c)
  | .call i attrs num => shared farm w fsub x y (.call i attrs num)
  | .op i => shared farm w fsub x y (.op i)
  | .task t choice => shared farm w fsub x y (.task t choice)
  | .cb i a => at' farm w fsub x y i (.cb a)
  | .produce i now => at' farm w fsub x y i (.produce now)
  | .reader i a order => at' farm w fsub x y i (.reader a order)
  | .flush => some { y with calls := y.calls ++ [.loop .flush 0 none] }
  | .shutdown => (shared farm w fsub x y (.make .shutdown)).map (fun y' =>
      { y' with calls := y.calls ++ [if y.p.map.isSome then .loop .shutdown 0 none else .done true] })
  | .go t => match y.calls[t]? with
    | none => none
    | some pc => advance farm w fsub x y t pc

def run (farm : Str → UInt64) (w : World C G) (fsub : Bits → Bits → Bits) (x : Views.Ext C) : Sys C G ν → List (Act ν) → Option (Sys C G ν)
  | y, [] => some y
  | y, a :: as => (step farm w fsub x y a).bind (fun y' => run farm w fsub x y' as)

omit [DecidableEq C] in
/-- The system after `NewMeterProvider` (provider.go:62-88), which registers the readers; for `fill` see `Live.initial`. -/
def initial (farm : Str → UInt64) (w : World C G) (fsub : Bits → Bits → Bits) (fill : Provider.Provider C ν) (views : List (Views.Views C)) (start : Int) : Sys C G ν :=
  { p := Provider.new views
    sync := (Delivery.initial farm w fsub fill views 0 start).z.s.sync
    readers := fun i => one (Delivery.initial farm w fsub fill views i start)
    calls := [] }

end Verif.Multi
