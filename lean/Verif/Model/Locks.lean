/-!
# Locks of the metrics SDK

Which locks every public function of the metrics SDK takes, in which order and around what. The data the locks protect is not
in this model (the other models have it); what a function does is reduced to the sequence of lock operations it executes, and a
function is modelled by the set of such sequences it can produce (`Lang`): loops become "any number of times", branches "one of
them". Everything a user plugs in (callbacks, exporters, measurement processors, the error handler) is a set of sequences too.

The second half says how threads executing such sequences block one another.
-/

namespace Verif.Locks

/-- The locks. Each family is indexed by the object the lock belongs to. -/
inductive Lock where
  /-- `PeriodicReader.lock`, periodic.go:52 -/
  | reader (r : Nat)
  /-- A lock of the application, for instance the one in lightstep/instrumentation/host/host.go:136. -/
  | app (k : Nat)
  /-- `providerProducer.lock`, producer.go:30 -/
  | producer (p : Nat)
  /-- `MeterProvider.lock`, provider.go:45 -/
  | provider (p : Nat)
  /-- `metricRegistration.lock`, meter.go:56 -/
  | registration (i : Nat)
  /-- `meter.lock`, meter.go:45 -/
  | meter (m : Nat)
  /-- `Compiler.compilerLock`, internal/viewstate/viewstate.go:69 -/
  | compiler (c : Nat)
  /-- `callbackState.lock`, internal/asyncstate/callback.go:90 -/
  | callback (c : Nat)
  /-- `State.lock`, internal/asyncstate/async.go:38-40 -/
  | state (s : Nat)
  /-- `Observer.lock`, the only reader/writer lock, internal/syncstate/sync.go:54 -/
  | inst (i : Nat)
  /-- `recordKV.once`, internal/syncstate/sync.go:205-222. A `sync.Once` makes all callers wait while the first executes the
  function: a lock held during the function. -/
  | once (r : Nat)
  /-- `instrumentBase.instLock`, internal/viewstate/base_instrument.go:53 -/
  | view (v : Nat)
  /-- `syncLock` and `asyncLock` of accumulators, internal/viewstate/accumulators.go:97-103, 124-128 -/
  | acc (a : Nat)
  /-- `lock` in the aggregator states: aggregator/gauge/gauge.go:40, aggregator/histogram/histogram.go:33,
  aggregator/minmaxsumcount/minmaxsumcount.go:45 -/
  | storage (h : Nat)
  /-- `ResourceMap.lock`, lightstep/sdk/internal/common.go:34-40 -/
  | resource (e : Nat)
  /-- `mu` in internal/doevery/doevery.go -/
  | every
  /-- A lock of the error handler (for instance of a logger). -/
  | handler (k : Nat)
deriving DecidableEq, Repr

inductive Mode where
  | read
  | write
deriving DecidableEq, Repr

/-- What a thread does, as far as blocking is concerned: take a lock (for writing: alone), release it, or wait for the export loop
of a reader to end (`pr.wait.Wait()`, periodic.go:140). -/
inductive Op where
  | acq (l : Lock) (m : Mode)
  | rel (l : Lock)
  | join (r : Nat)
deriving DecidableEq, Repr

/-- The sequences of lock operations a piece of code can execute. -/
abbrev Lang := List Op → Prop

/-- Code that takes no lock. -/
def skip : Lang := fun t => t = []

/-- `A; B` -/
def seq (A B : Lang) : Lang := fun t => ∃ u v, A u ∧ B v ∧ t = u ++ v

/-- `A` or `B` -/
def alt (A B : Lang) : Lang := fun t => A t ∨ B t

/-- `A` or nothing -/
def opt (A : Lang) : Lang := alt skip A

/-- `A`, any number of times -/
inductive Many (A : Lang) : Lang where
  | nil : Many A []
  | cons {u v : List Op} : A u → Many A v → Many A (u ++ v)

/-- `l.Lock(); A; l.Unlock()` -/
def locked (l : Lock) (A : Lang) : Lang := fun t => ∃ u, A u ∧ t = .acq l .write :: (u ++ [.rel l])

/-- `l.RLock(); A; l.RUnlock()` -/
def rlocked (l : Lock) (A : Lang) : Lang := fun t => ∃ u, A u ∧ t = .acq l .read :: (u ++ [.rel l])

/-- `A i`, for some `i` -/
def some' (A : Nat → Lang) : Lang := fun t => ∃ i, A i t

/-- What users plug in: the function of a callback, the methods of an exporter, the measurement processor, the error handler. -/
structure Env where
  callback : Lang
  exporter : Lang
  processor : Lang
  handler : Lang

/-- `doevery.TimePeriod(d, otel.Handle…)`, internal/doevery/doevery.go:70-114: the lock is released before the function is
called. -/
def everyHandle (e : Env) : Lang := seq (locked .every skip) (opt e.handler)

/-- `RangeTest`, aggregator/aggregator.go:40-70 -/
def rangeTest (e : Env) : Lang := opt (everyHandle e)

/-- `findStorage` of a view, internal/viewstate/accumulators.go:43-54, 70-79, with `applyKeysFilter` (error about empty keys before
the lock is taken, base_instrument.go:117-140) and `getOrCreateEntry` (error about the limit, under the lock,
base_instrument.go:142-187). -/
def findStorage (e : Env) (v : Nat) : Lang :=
  seq (opt (everyHandle e)) (locked (.view v) (opt (everyHandle e)))

/-- `NewAccumulator`, internal/viewstate/accumulators.go:32-39, 62-67 and for instruments with several outputs
internal/viewstate/viewstate.go:577-586: one for each output. -/
def newAccumulator (e : Env) : Lang := Many (some' (findStorage e))

/-- Any method of an aggregator: at most its lock, briefly. Sums use atomic operations instead. gauge.go:123-159,
histogram.go:131-158, minmaxsumcount.go:114-168, sum.go:110-145 (all in aggregator/). `Move`, `Copy` and `Merge` lock one of the
two states only. -/
def aggregate : Lang := opt (some' (fun h => locked (.storage h) skip))

/-- `Update` of a synchronous accumulator, accumulators.go:90-94, 106-109. -/
def syncUpdate : Lang := Many aggregate

/-- `SnapshotAndProcess` of a synchronous accumulator, accumulators.go:84-88, 111-121: `Move`, then `Merge`. -/
def syncSnapshot : Lang := Many (some' (fun a => locked (.acc a) (seq aggregate aggregate)))

/-- `Update` of an asynchronous accumulator, accumulators.go:130-134. -/
def asyncUpdate : Lang := Many (some' (fun a => locked (.acc a) skip))

/-- `SnapshotAndProcess` of an asynchronous accumulator, accumulators.go:136-142. -/
def asyncSnapshot : Lang := Many (some' (fun a => locked (.acc a) aggregate))

/-- `readAccumulator`, internal/syncstate/sync.go:274-295: after the first time, `once` no longer locks. -/
def readAccumulator (e : Env) : Lang := opt (some' (fun r => locked (.once r) (newAccumulator e)))

/-- `Observe` of a synchronous instrument (`Add`, `Record`), sync.go:330-364, with `acquireReadKV` (bykeyvalue.go:124-142),
`acquireNotfoundKV` and `acquireWriteKV` (bykeyvalue.go:193-236: the write lock is taken as often as the record found is being
removed). -/
def syncObserve (e : Env) : Lang :=
  seq (rangeTest e) (opt (seq (opt e.processor) (some' (fun i =>
    seq (rlocked (.inst i) skip) (seq (Many (locked (.inst i) skip)) (seq (readAccumulator e) syncUpdate))))))

/-- `getOrCreate`, internal/asyncstate/async.go:123-151 -/
def asyncGetOrCreate (e : Env) : Lang := some' (fun s => locked (.state s) (opt (newAccumulator e)))

/-- `Observe` of an asynchronous instrument, async.go:153-182, with `getCallback` (callback.go:106-110). -/
def asyncObserve (e : Env) : Lang :=
  seq (some' (fun c => locked (.callback c) skip)) (alt (opt e.handler)
    (seq (rangeTest e) (opt (seq (asyncGetOrCreate e) asyncUpdate))))

/-- `Compile`, internal/viewstate/viewstate.go:263-401: errors of hints (216-249) before the lock is taken, `mergeDescription`
(base_instrument.go:96-102) under it. -/
def compile (e : Env) : Lang :=
  seq (Many e.handler) (some' (fun c => locked (.compiler c) (Many (some' (fun v => locked (.view v) skip)))))

/-- `configureInstrument`, meter.go:132-184: everything, the report of conflicts included (181), happens under the lock of the
meter. -/
def createInstrument (e : Env) (m : Nat) : Lang := locked (.meter m) (seq (Many (compile e)) (opt e.handler))

/-- `MeterProvider.Meter`, provider.go:103-135 -/
def getMeter : Lang := some' (fun p => locked (.provider p) skip)

/-- `RegisterCallback`, meter.go:76-90. (With instruments that do not belong to the meter: no lock.) -/
def registerCallback : Lang := opt (some' (fun m => locked (.meter m) skip))

/-- `Unregister`, meter.go:93-115 -/
def unregister : Lang := some' (fun i => locked (.registration i) skip)

/-- `Callback.Run`, internal/asyncstate/callback.go:75-82, with `invalidate` (100-104). -/
def runCallback (e : Env) : Lang := seq e.callback (some' (fun c => locked (.callback c) skip))

/-- `SnapshotAndProcess` of a synchronous instrument, sync.go:97-143, with `collect` and `conditionalCollect` (147-271). -/
def syncSnapshotAll (e : Env) : Lang := some' (fun i => locked (.inst i) (Many (seq (readAccumulator e) syncSnapshot)))

/-- `SnapshotAndProcess` of an asynchronous instrument, async.go:112-121. -/
def asyncSnapshotAll : Lang := some' (fun s => locked (.state s) (Many asyncSnapshot))

/-- `Collect` of an output, internal/viewstate/collectors.go:34-43, 51-92, 101-113, 132-179: `Move` and `Copy` of aggregators under
the lock. -/
def collectView : Lang := some' (fun v => locked (.view v) (Many aggregate))

/-- `collectFor`, producer.go:91-127, with `Collectors` (viewstate.go:189-193). The lock of the meter is not held while callbacks
run. -/
def collectFor (e : Env) : Lang :=
  seq (some' (fun m => locked (.meter m) skip)) (seq (Many (runCallback e)) (seq (Many (syncSnapshotAll e)) (seq
    (Many asyncSnapshotAll) (seq (some' (fun c => locked (.compiler c) skip)) (Many collectView)))))

/-- `Produce`, producer.go:46-88, with `getOrdered` (provider.go:190-194): what a reader without lock of its own does
(manual.go:51-57 hands it to the application). -/
def produce (e : Env) : Lang :=
  seq (some' (fun p => locked (.provider p) skip)) (seq (some' (fun p => locked (.producer p) skip)) (Many (collectFor e)))

/-- `ResourceMap.Get`, lightstep/sdk/internal/common.go:42-69, called by the OTLP exporters. -/
def convertResource : Lang := some' (fun x => locked (.resource x) skip)

/-- `PeriodicReader.collect`, periodic.go:155-167: the lock is held while callbacks run and while the exporter works. -/
def collect (e : Env) (r : Nat) : Lang := locked (.reader r) (seq (produce e) e.exporter)

/-- `MeterProvider.ForceFlush`, provider.go:145-151, periodic.go:148-150 -/
def forceFlush (e : Env) : Lang := Many (some' (collect e))

/-- `PeriodicReader.Shutdown`, periodic.go:138-142 -/
def readerShutdown (e : Env) (r : Nat) : Lang := seq (fun t => t = [.join r]) (collect e r)

/-- `MeterProvider.Shutdown`, provider.go:168-187: the lock of the provider is released before readers are shut down. -/
def shutdown (e : Env) : Lang :=
  seq (some' (fun p => locked (.provider p) skip)) (Many (some' (readerShutdown e)))

/-- The export loop of a periodic reader, periodic.go:112-126. Any finite number of rounds: the loop ends when `Shutdown`
cancels its context (139), which no lock delays. -/
def loop (e : Env) (r : Nat) : Lang := Many (seq (collect e r) (opt e.handler))

/-- Every call of the API except those that collect through a periodic reader. -/
def calls (e : Env) : Lang := fun t =>
  getMeter t ∨ some' (createInstrument e) t ∨ registerCallback t ∨ unregister t ∨ syncObserve e t ∨ asyncObserve e t ∨
    produce e t ∨ convertResource t ∨ opt e.handler t

/-! ## Threads -/

/-- A thread: which reader's export loop it is (if any), what it holds (last taken first), what it has yet to do. -/
structure Thread where
  loopOf : Option Nat
  held : List (Lock × Mode)
  todo : List Op
deriving DecidableEq, Repr

/-- All threads. -/
abbrev State := List Thread

/-- Can `o` be executed now by a thread that holds `held`? A lock is free for writing if no one holds it, for reading if no one
holds it for writing. Go's `sync.Mutex` and `sync.RWMutex`. -/
def free (s : State) (held : List (Lock × Mode)) : Op → Prop
  | .acq l .write => ∀ t ∈ s, ∀ m, (l, m) ∉ t.held
  | .acq l .read => ∀ t ∈ s, (l, .write) ∉ t.held
  | .rel l => ∃ m rest, held = (l, m) :: rest
  | .join r => ∀ t ∈ s, t.loopOf = some r → t.todo = []

/-- Is a thread about to take `l` for writing? `RWMutex.RLock` also waits for writers that are waiting. -/
def wanted (s : State) (l : Lock) : Prop := ∃ t ∈ s, ∃ rest, t.todo = .acq l .write :: rest

/-- The effect of an operation on what is held. -/
def after (held : List (Lock × Mode)) : Op → List (Lock × Mode)
  | .acq l m => (l, m) :: held
  | .rel _ => held.tail
  | .join _ => held

/-- One thread executes its next operation. -/
inductive Step : State → State → Prop where
  | run {pre post : List Thread} {t : Thread} {o : Op} {rest : List Op} :
      t.todo = o :: rest → free (pre ++ t :: post) t.held o →
      Step (pre ++ t :: post) (pre ++ ⟨t.loopOf, after t.held o, rest⟩ :: post)

/-- Any number of steps. -/
inductive Reaches : State → State → Prop where
  | refl {s : State} : Reaches s s
  | step {s s' s'' : State} : Reaches s s' → Step s' s'' → Reaches s s''

/-- A thread that certainly need not wait: its next operation is possible, and if it is taking a lock for reading, no writer is
waiting for it either. (`Step` lets readers overtake waiting writers; Go sometimes does, sometimes does not.) -/
def Ready (s : State) (t : Thread) : Prop :=
  t ∈ s ∧ ∃ o rest, t.todo = o :: rest ∧ free s t.held o ∧ ∀ l, o = .acq l .read → ¬ wanted s l

/-- Threads before their first operation. -/
def start (ts : List (Option Nat × List Op)) : State := ts.map (fun t => ⟨t.1, [], t.2⟩)

end Verif.Locks
