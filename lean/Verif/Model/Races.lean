import Verif.Model.Locks

/-!
# Memory accesses of the metrics SDK

Which plain memory every public function of the metrics SDK reads and writes, and with which locks held. As in
`Model/Locks`, a function is the set of sequences of operations it can execute: loops become "any number of times", branches
"one of them"; the values read and written are not in this model (the other models have them).

Memory is divided into cells: a cell is a field, or several fields always used together. Objects are made while the
program runs. What is written into a new object before a pointer to it is stored anywhere is put together in front of the
moment where it is stored (`make`): nobody can tell the difference. Whoever uses an object has got a pointer to it (`see`), which
is possible after it was made only.

Not in the model: local variables, the output of a collection by a `ManualReader` (which belongs to the caller), the data
structures of libraries (their use is the use of the cell they are in).
-/

namespace Verif.Races
open Verif.Locks (Lock Mode)

/-- Objects made while the program runs. -/
inductive Obj where
  /-- `meter`, meter.go:37-49 -/
  | meter (m : Nat)
  /-- `Compiler`, internal/viewstate/viewstate.go:60-77, one for each reader of a meter -/
  | compiler (c : Nat)
  /-- `syncstate.Observer` or `asyncstate.Observer` -/
  | inst (i : Nat)
  /-- `recordKV`, internal/syncstate/sync.go:191-233 -/
  | record (r : Nat)
  /-- what `recordKV.once` initialises -/
  | made (r : Nat)
  /-- `syncAccumulator`, `asyncAccumulator`, internal/viewstate/accumulators.go:97-104, 124-128 -/
  | accum (a : Nat)
  /-- the state of an aggregator: `current` of an accumulator, or in the table of a view -/
  | stor (h : Nat)
  /-- `instrumentBase`, internal/viewstate/base_instrument.go:52-61 -/
  | view (v : Nat)
  /-- an element of an array behind a slice that is only appended to -/
  | elem (x k : Nat)
  /-- `asyncstate.Callback`, internal/asyncstate/callback.go:28-35 -/
  | callback (b : Nat)
  /-- `callbackState`, internal/asyncstate/callback.go:86-98 -/
  | cbstate (c : Nat)
  /-- `asyncstate.State`, internal/asyncstate/async.go:33-45 -/
  | state (s : Nat)
  /-- `metricRegistration`, meter.go:53-59 -/
  | registration (i : Nat)
  /-- a list of attributes handed to the SDK -/
  | slice (k : Nat)
deriving DecidableEq, Repr

/-- Memory. -/
inductive Cell where
  /-- `MeterProvider.ordered`, `MeterProvider.meters`, provider.go:46-48 -/
  | ordered (p : Nat)
  | meters (p : Nat)
  /-- `providerProducer.lastCollect`, producer.go:33 -/
  | lastCollect (p : Nat)
  /-- `meter.byDesc`, `syncInsts`, `asyncInsts`, `callbacks`, meter.go:45-49 -/
  | byDesc (m : Nat)
  | syncInsts (m : Nat)
  | asyncInsts (m : Nat)
  | callbacks (m : Nat)
  | slot (x k : Nat)
  /-- `metricRegistration.callback`, meter.go:58 -/
  | registered (i : Nat)
  /-- `Compiler.names`, `Compiler.collectors`, internal/viewstate/viewstate.go:69-77 -/
  | names (c : Nat)
  | collectors (c : Nat)
  /-- `instrumentBase.desc.Description`; `instrumentBase.data` and `prior` -/
  | viewDesc (v : Nat)
  | viewData (v : Nat)
  /-- the fields of an instrument that never change -/
  | observer (i : Nat)
  /-- the fields of a callback, which never change -/
  | callbackFields (b : Nat)
  /-- `Observer.currentFP`, and `next`, `collectedCount`, `inactiveCount` of its records, sync.go:53-58, 167-199 -/
  | table (i : Nat)
  /-- `recordKV.attrsList` -/
  | attrs (r : Nat)
  /-- `record.refMapped`, `record.updateCount`: atomic -/
  | counts (r : Nat)
  /-- `recordKV.accumulatorUnsafe` -/
  | accumulator (r : Nat)
  /-- `syncAccumulator.snapshot`, `asyncAccumulator.current`, `holder` -/
  | snapshot (a : Nat)
  | current (a : Nat)
  | holder (a : Nat)
  /-- the state of an aggregator -/
  | value (h : Nat)
  /-- `storageHolder.auxiliary`: atomic -/
  | refs (h : Nat)
  /-- `callbackState.callback` -/
  | cbState (c : Nat)
  /-- `State.store` -/
  | store (s : Nat)
  /-- `PeriodicReader.data`, periodic.go:53 -/
  | readerData (r : Nat)
  /-- `mostRecentInvocationMap`, internal/doevery/doevery.go:33 -/
  | everyMap
  /-- `ResourceMap`, lightstep/sdk/internal/common.go:34-40 -/
  | resource (x : Nat)
  /-- the elements of a list of attributes -/
  | slice (k : Nat)
  /-- data of the application -/
  | app (k : Nat)
deriving DecidableEq, Repr

/-- The object a cell is part of; `none` for what exists from the beginning. -/
def obj : Cell → Option Obj
  | .byDesc m | .syncInsts m | .asyncInsts m | .callbacks m => some (.meter m)
  | .slot x k => some (.elem x k)
  | .registered i => some (.registration i)
  | .names c | .collectors c => some (.compiler c)
  | .viewDesc v | .viewData v => some (.view v)
  | .observer i | .table i => some (.inst i)
  | .callbackFields b => some (.callback b)
  | .attrs r | .counts r => some (.record r)
  | .accumulator r => some (.made r)
  | .snapshot a | .current a | .holder a => some (.accum a)
  | .value h | .refs h => some (.stor h)
  | .cbState c => some (.cbstate c)
  | .store s => some (.state s)
  | .slice k => some (.slice k)
  | .ordered _ | .meters _ | .lastCollect _ | .readerData _ | .everyMap | .resource _ | .app _ => none

/-- Plain and atomic accesses. -/
inductive Kind where
  | read
  | write
  /-- `atomic.Load…` -/
  | load
  /-- `atomic.Store…`, `Add…`, `Swap…`, `CompareAndSwap…` -/
  | store
deriving DecidableEq, Repr

def Kind.writes : Kind → Bool
  | .write | .store => true
  | .read | .load => false

def Kind.atomic : Kind → Bool
  | .load | .store => true
  | .read | .write => false

/-- Two accesses that must not happen at once: one writes, and not both are atomic. The Go memory model,
https://go.dev/ref/mem ("data race"). -/
def Kind.conflict (a b : Kind) : Bool := (a.writes || b.writes) && !(a.atomic && b.atomic)

inductive Op where
  | acq (l : Lock) (m : Mode)
  | rel (l : Lock)
  /-- a new object -/
  | alloc (o : Obj)
  /-- a pointer to it is stored -/
  | pub (o : Obj)
  /-- a pointer to it is read -/
  | see (o : Obj)
  | acc (c : Cell) (k : Kind)
deriving DecidableEq, Repr

abbrev Lang := List Op → Prop

def skip : Lang := fun t => t = []

/-- The operations listed. -/
def ops (l : List Op) : Lang := fun t => t = l

/-- `A; B` -/
def seq (A B : Lang) : Lang := fun t => ∃ u v, A u ∧ B v ∧ t = u ++ v

/-- `A` or `B` -/
def alt (A B : Lang) : Lang := fun t => A t ∨ B t

/-- `A` or nothing -/
def opt (A : Lang) : Lang := alt skip A

/-- `A`, any number of times -/
inductive Many (A : Lang) : Lang where
  | nil : Many A []
  | cons {u v : List Op} : A u → Many A v → Many A (u ++ v)

/-- `l.Lock(); A; l.Unlock()` -/
def locked (l : Lock) (A : Lang) : Lang := fun t => ∃ u, A u ∧ t = .acq l .write :: (u ++ [.rel l])

/-- `l.RLock(); A; l.RUnlock()` -/
def rlocked (l : Lock) (A : Lang) : Lang := fun t => ∃ u, A u ∧ t = .acq l .read :: (u ++ [.rel l])

/-- `A i`, for some `i` -/
def some' (A : Nat → Lang) : Lang := fun t => ∃ i, A i t

/-- `A`, where `P` holds. -/
def when (P : Prop) (A : Lang) : Lang := fun t => P ∧ A t

/-- A new object, with what is written into it. -/
def make (o : Obj) (cs : List Cell) : List Op := .alloc o :: (cs.map (.acc · .write) ++ [.pub o])

/-- How the state of an aggregator is protected. -/
inductive Storage where
  /-- gauges, histograms, minimum/maximum/sum/count: a lock of their own -/
  | locked
  /-- sums: atomic operations, aggregator/sum/sum.go:110-132 -/
  | sum
  /-- sums of asynchronous instruments with delta temporality, of a reader: `SubtractSwap` uses no atomic operations,
  aggregator/sum/sum.go:143-145 -/
  | diff (r : Nat)
deriving DecidableEq, Repr

/-- What is configured and plugged in. -/
structure World where
  /-- does the instrument of a record ignore hash collisions (sdkinstrument/performance.go:26-36)? -/
  ignore : Nat → Bool
  storage : Nat → Storage
  /-- the compiler a view instrument belongs to, and the meter a compiler belongs to -/
  compilerOf : Nat → Nat
  meterOf : Nat → Nat
  callback : Lang
  exporter : Lang
  processor : Lang
  handler : Lang

/-- `append(s, x)` for a slice with header `hd`: in place, or after copying all elements to a new array. -/
def append (hd : Cell) : Lang :=
  seq (ops [.acc hd .read]) (seq (Many (some' fun x => some' fun k => ops [.see (.elem x k), .acc (.slot x k) .read]))
    (seq (Many (some' fun x => some' fun k => ops (make (.elem x k) [.slot x k]))) (ops [.acc hd .write])))

/-- An element of a slice whose header has been copied. -/
def element : Lang := some' fun x => some' fun k => ops [.see (.elem x k), .acc (.slot x k) .read]

/-- `doevery.TimePeriod(d, otel.Handle…)`, internal/doevery/doevery.go:70-114 -/
def everyHandle (w : World) : Lang :=
  seq (locked .every (seq (ops [.acc .everyMap .read]) (opt (ops [.acc .everyMap .write])))) (opt w.handler)

/-- `RangeTest`, aggregator/aggregator.go:40-70 -/
def rangeTest (w : World) : Lang := opt (everyHandle w)

/-- `findStorage`, internal/viewstate/accumulators.go:43-54, 70-79, with `getOrCreateEntry` (base_instrument.go:142-187): an entry
that is there, or a new one. -/
def findStorage (w : World) (v h : Nat) (A : Lang) : Lang :=
  seq (opt (everyHandle w)) (seq (ops [.see (.view v)]) (locked (.view v) (seq (ops [.acc (.viewData v) .read]) (seq (opt (everyHandle w))
    (seq (alt (ops [.see (.stor h)]) (ops (make (.stor h) [.value h] ++ [.acc (.viewData v) .write]))) A)))))

/-- `NewAccumulator` of a synchronous instrument, accumulators.go:32-39: the reference count is increased under the lock (52). `c` is
the aggregator `current`. -/
def newSync (w : World) : Lang :=
  Many (some' fun v => some' fun h => some' fun a => some' fun c =>
    seq (findStorage w v h (ops [.acc (.refs h) .store])) (ops (make (.stor c) [.value c] ++ make (.accum a) [.snapshot a, .holder a])))

/-- `NewAccumulator` of an asynchronous instrument, accumulators.go:62-67. -/
def newAsync (w : World) : Lang :=
  Many (some' fun v => some' fun h => some' fun a => seq (findStorage w v h skip) (ops (make (.accum a) [.current a, .holder a])))

/-- `Update` of an aggregator, aggregator/gauge/gauge.go:137-144, aggregator/histogram/histogram.go:131-135,
aggregator/minmaxsumcount/minmaxsumcount.go:127-146, aggregator/sum/sum.go:120-123. -/
def update (w : World) (h : Nat) : Lang :=
  match w.storage h with
  | .locked => locked (.storage h) (ops [.acc (.value h) .read, .acc (.value h) .write])
  | .sum | .diff _ => ops [.acc (.value h) .store]

/-- `Move` out of an aggregator, gauge.go:123-131, histogram.go:137-143, minmaxsumcount.go:114-119, sum.go:111-114; the destination is
`to`, if it is shared. -/
def move (w : World) (h : Nat) (to : List Cell) : Lang :=
  match w.storage h with
  | .locked => locked (.storage h) (ops ([.acc (.value h) .read] ++ to.map (.acc · .write) ++ [.acc (.value h) .write]))
  | .sum | .diff _ => ops ([.acc (.value h) .store] ++ to.map (.acc · .write))

/-- `Copy`, gauge.go:130-135, histogram.go:145-149, minmaxsumcount.go:121-126, sum.go:125-128; the destination is not shared. -/
def copy (w : World) (h : Nat) : Lang :=
  match w.storage h with
  | .locked => locked (.storage h) (ops [.acc (.value h) .read])
  | .sum | .diff _ => ops [.acc (.value h) .load]

/-- `Merge` of `snapshot` into an aggregator, gauge.go:147-155, histogram.go:151-155, minmaxsumcount.go:148-168,
sum.go:130-133. -/
def merge (w : World) (a h : Nat) : Lang :=
  match w.storage h with
  | .locked => locked (.storage h) (ops [.acc (.snapshot a) .read, .acc (.value h) .read, .acc (.value h) .write])
  | .sum | .diff _ => ops [.acc (.snapshot a) .read, .acc (.value h) .store]

/-- `SubtractSwap` and `HasChange` on the result, sum.go:116-118, 143-145. -/
def subtract (p h : Nat) : Lang := ops [.acc (.value h) .read, .acc (.value p) .read, .acc (.value p) .write, .acc (.value p) .read]

/-- The aggregators of synchronous instruments, and of asynchronous instruments of reader `r`. -/
def World.sync (w : World) (h : Nat) : Prop := ∀ r, w.storage h ≠ .diff r
def World.ofReader (w : World) (r h : Nat) : Prop := ∀ r', w.storage h = .diff r' → r' = r

/-- `Update` of a synchronous accumulator, accumulators.go:90-94, 106-109. -/
def syncUpdate (w : World) : Lang :=
  Many (some' fun a => some' fun c => when (w.sync c) (seq (ops [.see (.accum a), .see (.stor c)]) (update w c)))

/-- `SnapshotAndProcess` of a synchronous accumulator, accumulators.go:84-88, 111-121. -/
def syncSnapshot (w : World) : Lang :=
  Many (some' fun a => some' fun c => some' fun h => when (w.sync c ∧ w.sync h) (seq (ops [.see (.accum a), .see (.stor c), .see (.stor h)])
    (locked (.acc a) (seq (move w c [.snapshot a]) (seq (ops [.acc (.holder a) .read]) (seq (merge w a h)
      (opt (ops [.acc (.refs h) .store]))))))))

/-- `Update` of an asynchronous accumulator, accumulators.go:130-134. -/
def asyncUpdate : Lang := Many (some' fun a => seq (ops [.see (.accum a)]) (locked (.acc a) (ops [.acc (.current a) .write])))

/-- `SnapshotAndProcess` of an asynchronous accumulator, accumulators.go:136-142. -/
def asyncSnapshot (w : World) (r : Nat) : Lang :=
  Many (some' fun a => some' fun h => when (w.ofReader r h) (seq (ops [.see (.accum a), .see (.stor h)])
    (locked (.acc a) (seq (ops [.acc (.holder a) .read, .acc (.current a) .read]) (update w h)))))

/-- `readAccumulator`, internal/syncstate/sync.go:274-279, with `initialize` (284-298). `sync.Once`: one caller executes the function
holding a lock, the others go on when it has ended. With `IgnoreCollisions`, `attrsList` is the list of the caller and set to
nil. -/
def readAccumulator (w : World) (r : Nat) : Lang :=
  seq (ops [.see (.record r)]) (seq
    (alt (ops [.see (.made r)]) (locked (.once r) (alt (ops [.see (.made r)])
      (seq (ops [.acc (.attrs r) .read]) (seq
        (if w.ignore r then seq (some' fun k => ops [.see (.slice k), .acc (.slice k) .read]) (ops [.acc (.attrs r) .write]) else skip) (seq
        (newSync w) (ops (make (.made r) [.accumulator r]))))))))
    (ops [.acc (.accumulator r) .read]))

/-- Looking for a record in the table of an instrument: `acquireReadLockedKV` (bykeyvalue.go:144-174), the loop of `acquireWriteKV`
(221-231). -/
def lookup (w : World) (i : Nat) : Lang :=
  seq (ops [.acc (.table i) .read]) (Many (some' fun r => seq (ops [.see (.record r)]) (seq
    (if w.ignore r then skip else ops [.acc (.attrs r) .read]) (opt (ops [.acc (.counts r) .store])))))

/-- `acquireNotfoundKV` with `acquireWriteKV`, bykeyvalue.go:193-236: some attempts, the last of which finds a record or inserts a
new one. -/
def acquireNotFound (w : World) (i : Nat) : Lang :=
  seq (Many (locked (.inst i) (lookup w i))) (some' fun r => opt (locked (.inst i) (seq (lookup w i)
    (ops (make (.record r) [.attrs r, .counts r] ++ [.acc (.table i) .write])))))

/-- The list of attributes of a measurement: a new one, written by the caller and by `TruncateAttributes`
(sdkinstrument/performance.go:109-128), or a shared one, none of whose values has to be truncated. -/
def attributes : Lang :=
  some' fun k => alt (ops (make (.slice k) [.slice k, .slice k])) (ops [.see (.slice k), .acc (.slice k) .read])

/-- A list of attributes the caller has made before, with a value to be truncated, which is truncated in place
(sdkinstrument/performance.go:109-128). -/
def truncated : Lang := some' fun k => ops [.see (.slice k), .acc (.slice k) .read, .acc (.slice k) .write]

/-- `Observe` of a synchronous instrument, sync.go:330-364, with a list of attributes. -/
def syncObserveWith (list : Lang) (w : World) : Lang :=
  seq (rangeTest w) (opt (seq list (seq (opt w.processor) (some' fun i => some' fun r =>
    seq (ops [.see (.inst i), .acc (.observer i) .read]) (seq (rlocked (.inst i) (lookup w i)) (seq (opt (acquireNotFound w i))
      (seq (readAccumulator w r) (seq (syncUpdate w) (ops [.acc (.counts r) .store])))))))))

def syncObserve (w : World) : Lang := syncObserveWith attributes w

/-- `getOrCreate`, internal/asyncstate/async.go:123-151 -/
def asyncGetOrCreate (w : World) : Lang :=
  some' fun s => seq (ops [.see (.state s)]) (locked (.state s) (seq (ops [.acc (.store s) .read]) (seq (opt (ops [.acc (.store s) .write]))
    (opt (seq (newAsync w) (ops [.acc (.store s) .write]))))))

/-- `Observe` of an asynchronous instrument, async.go:153-182, with `getCallback` (callback.go:106-110). -/
def asyncObserve (w : World) : Lang :=
  seq (some' fun c => seq (ops [.see (.cbstate c)]) (locked (.callback c) (ops [.acc (.cbState c) .read]))) (alt (opt w.handler)
    (some' fun b => some' fun i => seq (ops [.see (.callback b), .acc (.callbackFields b) .read, .see (.inst i), .acc (.observer i) .read])
      (seq (rangeTest w) (opt (seq (asyncGetOrCreate w) asyncUpdate)))))

/-- `Compile`, internal/viewstate/viewstate.go:263-401: for each behaviour, an equal view instrument is found (comparing
descriptors, 333-369, and merging the description, base_instrument.go:96-102) or a new one is added (371-382). -/
def compile (w : World) (c : Nat) : Lang :=
  seq (Many w.handler) (seq (ops [.see (.compiler c)]) (locked (.compiler c) (Many (seq (ops [.acc (.names c) .read]) (seq
    (Many (some' fun v => when (w.compilerOf v = c) (seq (ops [.see (.view v), .acc (.viewDesc v) .read])
      (opt (locked (.view v) (ops [.acc (.viewDesc v) .read, .acc (.viewDesc v) .write]))))))
    (opt (some' fun v => when (w.compilerOf v = c) (seq (ops (make (.view v) [.viewDesc v, .viewData v]))
      (seq (append (.collectors c)) (ops [.acc (.names c) .write]))))))))))

/-- Formatting a conflict (`Error`, internal/viewstate/errors.go:141-222): descriptors are copied. -/
def errorText (P : Nat → Prop) : Lang := Many (some' fun v => when (P v) (ops [.see (.view v), .acc (.viewDesc v) .read]))

/-- `configureInstrument`, meter.go:132-184. The error handler formats the error. -/
def createInstrument (w : World) : Lang :=
  some' fun m => seq (ops [.see (.meter m)]) (locked (.meter m) (seq (ops [.acc (.byDesc m) .read]) (seq
    (Many (some' fun c => when (w.meterOf c = m) (compile w c))) (seq
    (opt (some' fun i => seq (ops (make (.inst i) [.observer i, .table i] ++ [.acc (.byDesc m) .write]))
      (alt (append (.syncInsts m)) (append (.asyncInsts m)))))
    (opt (seq (errorText (fun v => w.meterOf (w.compilerOf v) = m)) w.handler))))))

/-- `MeterProvider.Meter`, provider.go:103-135 -/
def getMeter : Lang :=
  some' fun p => locked (.provider p) (seq (ops [.acc (.meters p) .read]) (opt (some' fun m =>
    seq (Many (some' fun c => ops (make (.compiler c) [.names c, .collectors c]))) (seq
      (ops (make (.meter m) [.byDesc m, .syncInsts m, .asyncInsts m, .callbacks m])) (seq (append (.ordered p)) (ops [.acc (.meters p) .write]))))))

/-- `RegisterCallback`, meter.go:76-90 -/
def registerCallback : Lang :=
  some' fun m => some' fun b => some' fun i => seq (ops [.see (.meter m)]) (opt (locked (.meter m)
    (seq (ops (make (.callback b) [.callbackFields b])) (seq (append (.callbacks m)) (ops (make (.registration i) [.registered i]))))))

/-- `Unregister`, meter.go:93-115: the slice of the meter is used without the lock of the meter. -/
def unregister : Lang :=
  some' fun i => some' fun m => some' fun x => some' fun k => seq (ops [.see (.registration i), .see (.meter m)]) (locked (.registration i)
    (seq (ops [.acc (.registered i) .read]) (opt (seq (ops [.acc (.callbacks m) .read]) (seq (Many element) (seq
      (opt (ops [.see (.elem x k), .acc (.slot x k) .write, .acc (.callbacks m) .write])) (ops [.acc (.registered i) .write])))))))

/-- `Callback.Run`, internal/asyncstate/callback.go:75-82, with `invalidate` (100-104). -/
def runCallback (w : World) : Lang :=
  some' fun b => some' fun c => seq (ops (make (.cbstate c) [.cbState c] ++ [.see (.callback b), .acc (.callbackFields b) .read]))
    (seq w.callback (seq (ops [.see (.cbstate c)]) (locked (.callback c) (ops [.acc (.cbState c) .write]))))

/-- The callback of the Go runtime metrics, lightstep/instrumentation/runtime/builtin.go:187-206: every execution lets the runtime
write into the same `samples` (`app 0`), and reads them. -/
def runtimeCallback (w : World) : Lang := seq (ops [.acc (.app 0) .write]) (Many (seq (ops [.acc (.app 0) .read]) (asyncObserve w)))

/-- `SnapshotAndProcess` of a synchronous instrument, sync.go:97-143, with `collect` and `conditionalCollect` (147-271). -/
def syncSnapshotAll (w : World) : Lang :=
  some' fun i => seq (ops [.see (.inst i)]) (locked (.inst i) (seq (ops [.acc (.table i) .read]) (Many (some' fun r =>
    seq (ops [.see (.record r), .acc (.counts r) .load, .acc (.table i) .read]) (seq (opt (seq (readAccumulator w r) (syncSnapshot w)))
      (seq (opt (seq (ops [.acc (.counts r) .store]) (opt (seq (readAccumulator w r) (syncSnapshot w))))) (opt (ops [.acc (.table i) .write]))))))))

/-- `SnapshotAndProcess` of an asynchronous instrument, async.go:112-121. -/
def asyncSnapshotAll (w : World) (r : Nat) : Lang :=
  some' fun i => some' fun s => seq (ops [.see (.inst i), .see (.state s)]) (locked (.state s) (seq (ops [.acc (.store s) .read])
    (Many (asyncSnapshot w r))))

/-- `Collect` of an output, internal/viewstate/collectors.go:34-43, 51-92, 101-113, 132-179. -/
def collectView (w : World) (r : Nat) : Lang :=
  some' fun v => seq (ops [.see (.view v)]) (locked (.view v) (seq (ops [.acc (.viewDesc v) .read, .acc (.viewData v) .read]) (seq
    (Many (some' fun h => when (w.ofReader r h) (seq (ops [.see (.stor h)]) (alt (copy w h) (alt
      (seq (ops [.acc (.refs h) .load]) (move w h []))
      (some' fun p => when (w.storage h = .diff r ∧ w.storage p = .diff r) (seq (ops [.see (.stor p)]) (subtract p h))))))))
    (seq (opt (some' fun h => ops (make (.stor h) [.value h]))) (opt (ops [.acc (.viewData v) .write]))))))

/-- `collectFor`, producer.go:91-127, with `Collectors` (viewstate.go:189-193). -/
def collectFor (w : World) (r : Nat) : Lang :=
  some' fun m => some' fun s => some' fun c => seq (ops [.see (.meter m)]) (seq
    (locked (.meter m) (ops [.acc (.syncInsts m) .read, .acc (.asyncInsts m) .read, .acc (.callbacks m) .read])) (seq
    (ops (make (.state s) [.store s])) (seq (Many (seq element (runCallback w))) (seq (Many (seq element (syncSnapshotAll w))) (seq
    (Many (seq element (asyncSnapshotAll w r))) (seq (ops [.see (.compiler c)]) (seq
    (locked (.compiler c) (ops [.acc (.collectors c) .read])) (Many (seq element (collectView w r))))))))))

/-- `Produce`, producer.go:46-88, with `getOrdered` (provider.go:190-194). -/
def produce (w : World) (r : Nat) : Lang :=
  some' fun p => seq (locked (.provider p) (ops [.acc (.ordered p) .read])) (seq
    (locked (.producer p) (ops [.acc (.lastCollect p) .read, .acc (.lastCollect p) .write])) (Many (seq element (collectFor w r))))

/-- `ResourceMap.Get`, lightstep/sdk/internal/common.go:42-69 -/
def convertResource : Lang :=
  some' fun x => locked (.resource x) (seq (ops [.acc (.resource x) .read]) (opt (ops [.acc (.resource x) .write])))

/-- `PeriodicReader.collect`, periodic.go:155-167: flushing, shutting down and every round of the export loop. -/
def collect (w : World) (r : Nat) : Lang :=
  locked (.reader r) (seq (ops [.acc (.readerData r) .read]) (seq (produce w r) (seq (ops [.acc (.readerData r) .write, .acc (.readerData r) .read])
    w.exporter)))

/-- `MeterProvider.Shutdown`, provider.go:168-187: before the readers are shut down. -/
def shutdown : Lang := some' fun p => locked (.provider p) (ops [.acc (.meters p) .read, .acc (.meters p) .write])

/-! ## Threads -/

/-- A thread: the locks it holds (last taken first), and what it has yet to do. -/
structure Thread where
  held : List (Lock × Mode)
  todo : List Op
deriving DecidableEq, Repr

/-- All threads, the objects allocated and those with a pointer to them stored somewhere. -/
structure State where
  threads : List Thread
  born : List Obj
  known : List Obj
deriving DecidableEq, Repr

/-- Can `o` be executed now by a thread that holds `held`? -/
def free (s : State) (held : List (Lock × Mode)) : Op → Prop
  | .acq l .write => ∀ t ∈ s.threads, ∀ m, (l, m) ∉ t.held
  | .acq l .read => ∀ t ∈ s.threads, (l, .write) ∉ t.held
  | .rel l => ∃ m rest, held = (l, m) :: rest
  | .alloc o => o ∉ s.born
  | .see o => o ∈ s.known
  | .pub _ => True
  | .acc _ _ => True

/-- The effect on what is held. -/
def after (held : List (Lock × Mode)) : Op → List (Lock × Mode)
  | .acq l m => (l, m) :: held
  | .rel _ => held.tail
  | _ => held

/-- The effect on the objects. -/
def allocated (born : List Obj) : Op → List Obj
  | .alloc o => o :: born
  | _ => born

def published (known : List Obj) : Op → List Obj
  | .pub o => o :: known
  | _ => known

/-- One thread executes its next operation. -/
inductive Step : State → State → Prop where
  | run {pre post : List Thread} {t : Thread} {o : Op} {rest : List Op} {born known : List Obj} :
      t.todo = o :: rest → free ⟨pre ++ t :: post, born, known⟩ t.held o →
      Step ⟨pre ++ t :: post, born, known⟩ ⟨pre ++ ⟨after t.held o, rest⟩ :: post, allocated born o, published known o⟩

inductive Reaches : State → State → Prop where
  | refl {s : State} : Reaches s s
  | step {s s' s'' : State} : Reaches s s' → Step s' s'' → Reaches s s''

/-- Threads before their first operation; the objects `os` have been made before. -/
def start (os : List Obj) (ts : List (List Op)) : State := ⟨ts.map (fun t => ⟨[], t⟩), os, os⟩

end Verif.Races
