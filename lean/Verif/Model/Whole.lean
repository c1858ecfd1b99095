import Verif.Model.AsyncAssembly

/-!
A whole program with synchronous and asynchronous instruments: what the exporter of one reader is handed has the points of both.

Composes `Model/Pipeline.lean` and `Model/AsyncPipeline.lean`: the two kinds of instruments have their own state, and both kinds of output metrics are in the same
payloads.
-/

namespace Verif.Whole
open Verif.Attr Verif.Number Verif.Aggr
variable {H : Type}

/-- What the machine is made of: the machines of the two kinds of instruments, and which output metrics are of synchronous instruments. -/
structure Parts (H : Type) where
  c : Sync.Cfg (List KV) (List KV) Bits (Cell Bits H)
  u : AsyncPipeline.Setup
  sync : Nat → Bool

/-- The instrument of the output for an output metric: its collector's `Collect` (viewstate.go:405-410; collectors.go:34-91 for synchronous, 93-169 for asynchronous
instruments). -/
def instrumentOf (P : Parts H) (toHist : H → Export.ExpHist) (q : Times.Seq) (es : List (Sync.Emit (List KV) (Cell Bits H)))
    (out : Nat → List (List KV × Bits)) (o : Pipeline.Out) : Export.Instrument :=
  if P.sync o.leaf then Pipeline.instrumentOf toHist P.c.delta q es o else AsyncPipeline.instrumentOf P.u q out o

/-- The output of `Produce` (producer.go:52-127): all output metrics of a meter in order of creation, whatever their kind (producer.go:124-126). -/
def metricsOf (P : Parts H) (R : Pipeline.Reader H) (q : Times.Seq) (es : List (Sync.Emit (List KV) (Cell Bits H))) (out : Nat → List (List KV × Bits)) :
    Export.Metrics :=
  { resource := R.resource
    scopes := R.scopes.map (fun sc => { library := sc.1, instruments := sc.2.map (instrumentOf P R.toHist q es out) }) }

/-- The running system: the state of the synchronous instruments with the number of points collected before the last export, the state of the asynchronous ones, the
exporter's resource cache, and the payloads handed over, oldest first. -/
structure Sys (H : Type) where
  sync : Sync.State (List KV) (List KV) Bits (Cell Bits H)
  seen : Nat
  async : Async.State (List KV) Bits Bits
  rm : Export.ResourceMap
  sent : List Export.Payload

inductive Act where
  /-- a goroutine, maybe one running a callback, calls a synchronous instrument -/
  | call (i : Front.Inst) (attrs : List KV) (num : Bits)
  /-- the scheduler: a call or a task goes on, or a reader starts a task on a synchronous instrument or output metric; not `observe` -/
  | sched (a : Sync.Action (List KV) Bits)
  /-- callbacks start, observe and return; not the end of a collection -/
  | cb (a : Async.Action (List KV) Bits)
  /-- the collection ends and is exported (periodic.go:151-167, export.go:319-338); the clock readings are given. In the code the snapshots and collections of
  synchronous instruments are made between the callbacks and this point (producer.go:109-126); here they may be made any time, and the points collected since the last
  export are exported. -/
  | collect (order : List (Async.Entry (List KV) Bits)) (q : Times.Seq)

/-- The points of synchronous instruments collected since the last export, oldest first. -/
def fresh (x : Sys H) : List (Sync.Emit (List KV) (Cell Bits H)) := (x.sync.emits.take (x.sync.emits.length - x.seen)).reverse

/-- One step; `none` when it cannot happen. A conversion that panics sends nothing. -/
def step (P : Parts H) (R : Pipeline.Reader H) (x : Sys H) : Act → Option (Sys H)
  | .call i attrs num => some { x with sync := Front.observe P.c x.sync (some i) attrs num }
  | .sched a => if Pipeline.isObserve a then none else (Sync.step P.c x.sync a).map (fun s => { x with sync := s })
  | .cb a => if AsyncPipeline.isFinish a then none else (Async.step (AsyncPipeline.cfg P.u) x.async a).map (fun s => { x with async := s })
  | .collect order q => (Async.step (AsyncPipeline.cfg P.u) x.async (.finish order)).map (fun s =>
      let r := Export.d2pd R.mapping x.rm (metricsOf P R q (fresh x) (s.out x.async.coll)) true
      { x with seen := x.sync.emits.length, async := s, rm := r.1, sent := x.sent ++ r.2.toList })

/-- The system before any call. -/
def initial (P : Parts H) : Sys H :=
  { sync := Sync.initial P.c 0, seen := 0, async := Async.initial (AsyncPipeline.cfg P.u) [], rm := Export.ResourceMap.new, sent := [] }

def run (P : Parts H) (R : Pipeline.Reader H) : Sys H → List Act → Option (Sys H)
  | x, [] => some x
  | x, a :: as => (step P R x a).bind (fun x' => run P R x' as)

/-- The machine of a provider and one of its readers (`Model/Assembly.lean`, `Model/AsyncAssembly.lean`); `fsub` is float subtraction. -/
def parts {C G ν : Type} (farm : Str → UInt64) (w : Assembly.World C G) (fsub : Bits → Bits → Bits) (p : Provider.Provider C ν) (pipe : Nat) : Parts G where
  c := Front.realCfg farm (Assembly.setup w p)
  u := Assembly.asyncSetup w fsub p pipe
  sync := Assembly.syncLeaf p

end Verif.Whole
