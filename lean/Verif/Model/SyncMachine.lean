import Verif.Basic
import Verif.Model.Storage

/-!
# The synchronous metric pipeline as an interleaving state machine

Models, as small steps of concurrently running measurement calls and collector tasks:

* `lightstep/sdk/metric/internal/syncstate/{sync.go, bykeyvalue.go, refcount_mapped.go}`
* `lightstep/sdk/metric/internal/viewstate/{accumulators.go, collectors.go, base_instrument.go}` (synchronous part)

Granularity: every atomic operation and every critical section whose effects are invisible to others until it ends
is one step. The long critical section of `SnapshotAndProcess` (held across many accumulator operations) is split in
many steps with an explicit lock, because measurement calls that already hold a record run concurrently with it.

Simplifications (each is also stated at the definition concerned):
* The map of linked lists `currentFP` is one list of record ids per instrument; the chain of a fingerprint is the
  sub-list of records with that fingerprint, newest first.
* `sync.Once` initialisation is a sequence of steps "create the accumulator for the next view"; any thread waiting in
  `once.Do` may perform the next one (a superset of the real schedules).
* A reader's collection is a set of tasks `SnapshotAndProcess(instrument)` and `Collect(view)`; the machine allows
  starting them in any order and number (a superset of what `producer.go` does).
* Ghost data (`ops` lists in storages, `rank`, `updN`, `colN`, `applied`, `emits`) is never read by control flow.
-/

namespace Verif.Sync

open Verif

/-- One aggregator as seen by the pipeline: the mutating subset of `aggregator.Methods` (aggregator.go:137-184).
`upd` receives the sequence number that `gauge.Methods.Update` draws (gauge.go:141); other aggregators ignore it.
`Move(from,to)` is `to := from; from := reset from`. `Merge(from,to)` is `to := merge to from`. -/
structure Agg (N S : Type) where
  /-- `Init` -/
  init : S
  /-- `Update` -/
  upd : S → N → Nat → S
  /-- the state `Move` leaves in its input -/
  reset : S → S
  /-- `Merge`: first argument is the output, second the input -/
  merge : S → S → S
  /-- `HasChange` -/
  hasChange : S → Bool

/-- Static configuration of all instruments and views. -/
structure Cfg (AL KS N S : Type) where
  /-- `fingerprintAttributes` (bykeyvalue.go:26-36) -/
  fp : AL → UInt64
  /-- `attributesEqual` (bykeyvalue.go:82-118) -/
  eqv : AL → AL → Bool
  /-- `Performance.IgnoreCollisions` -/
  ignoreColl : Bool
  /-- `pipeline.OverflowAttributes` (overflow.go:21-26) -/
  overflowAL : AL
  /-- `pipeline.OverflowAttributeSet` -/
  overflowKS : KS
  /-- `attribute.NewSet` -/
  newSet : AL → KS
  /-- `Performance.InstrumentCardinalityLimit`, at least 1 after `Validate` -/
  limit : Nat
  /-- `Performance.InactiveCollectionPeriods` -/
  periods : Nat
  /-- the modulus of the `uint32` counters, `2^32` in the code -/
  W : Nat
  /-- the views (of all readers) an instrument writes to, in `multiInstrument` order (viewstate.go:575-585) -/
  leavesOf : Nat → List Nat
  /-- `applyKeysFilter` of a view (base_instrument.go:117-140) -/
  filt : Nat → KS → KS
  /-- `acfg.CardinalityLimit` of a view -/
  lim : Nat → Nat
  /-- true for `lowmemorySyncInstrument` (delta), false for `statefulSyncInstrument` (cumulative) -/
  delta : Nat → Bool
  /-- the aggregator of a view -/
  agg : Nat → Agg N S

/-- An aggregator storage with the ghost list of the updates it contains, each as a pair (measurement call, sequence
number drawn for this update). -/
structure Store (S : Type) where
  val : S
  ops : List (Nat × Nat)

/-- `syncAccumulator` (accumulators.go:97-104). `slock` is `syncLock`, held between `mv` and `rl` steps.
`leaf`, `rc`, `key` (the view, the record and the series key of `holder`) and `released` are ghost. -/
structure Acc (KS S : Type) where
  leaf : Nat
  rc : Nat
  key : KS
  cur : Store S
  snap : Store S
  holder : Nat
  slock : Option Nat
  released : Bool

/-- `recordKV` (sync.go:180-237). `word` is `refMapped.value`; `accs` are the accumulators created so far by
`initialize`; `updN`, `colN` are ghost unbounded versions of `updateCount`, `collectedCount`. -/
structure Rec (AL : Type) where
  obs : Nat
  attrs : AL
  word : Int
  updateCount : Nat
  collectedCount : Nat
  inactive : Nat
  accs : List Nat
  updN : Nat
  colN : Nat

/-- `storageHolder` (base_instrument.go:43-46). `leaf` and `key` are ghost. -/
structure Holder (KS S : Type) where
  leaf : Nat
  key : KS
  aux : Int
  store : Store S

/-- Program counter of a measurement call (`Observe`, sync.go:330-364). -/
inductive OPc (AL : Type) where
  | idle
  | rd (a : AL)              -- about to run `acquireReadKV`
  | wr (a : AL)              -- about to run `acquireWriteKV`
  | ini (r : Nat)            -- `readAccumulator`
  | fetch (r k : Nat)        -- `Update` of accumulator `k`: draw a sequence number
  | upd (r k sq : Nat)       -- `Update` of accumulator `k`: apply
  | cnt (r : Nat)            -- `atomic.AddUint32(&rec.updateCount, 1)`
  | unref (r : Nat)          -- deferred `unref`
  | done
deriving DecidableEq

/-- A measurement call. `rank` is ghost: the value of `updN` right after its own counter increment. -/
structure Op (AL N : Type) where
  obs : Nat
  attrs : AL
  num : N
  pc : OPc AL
  rank : Nat

/-- Program counter of a collector task. `todo` are the records (or series) still to be visited.
`mods` is the loaded counter value (with its ghost unbounded version `modsN`), `rel` the `release` argument. -/
inductive TPc (KS : Type) where
  | idle
  | lockw (o : Nat)
  | scan (o : Nat) (todo : List Nat)
  | unmap (o : Nat) (todo : List Nat) (r : Nat)
  | sload (o : Nat) (todo : List Nat) (r : Nat) (rel : Bool)
  | ini (o : Nat) (todo : List Nat) (r mods modsN : Nat) (rel : Bool)
  | mv (o : Nat) (todo : List Nat) (r mods modsN : Nat) (rel : Bool) (k : Nat)
  | mg (o : Nat) (todo : List Nat) (r mods modsN : Nat) (rel : Bool) (k : Nat)
  | rl (o : Nat) (todo : List Nat) (r mods modsN : Nat) (rel : Bool) (k : Nat)
  | lockl (l : Nat)
  | lscan (l : Nat) (todo : List (KS × Nat))
  | lmv (l : Nat) (todo : List (KS × Nat)) (key : KS) (h : Nat) (numRefs : Int)
  | done
deriving DecidableEq

/-- The records a snapshot task still has to visit (the rest of the map iteration of sync.go:99-139). -/
def TPc.todoR : TPc KS → List Nat
  | .scan _ td => td
  | .unmap _ td _ => td
  | .sload _ td _ _ => td
  | .ini _ td _ _ _ _ => td
  | .mv _ td _ _ _ _ _ => td
  | .mg _ td _ _ _ _ _ => td
  | .rl _ td _ _ _ _ _ => td
  | .idle => []
  | .lockw _ => []
  | .lockl _ => []
  | .lscan _ _ => []
  | .lmv _ _ _ _ _ => []
  | .done => []

/-- The record a snapshot task is collecting at the moment, beyond the idle check (`rec` of sync.go:147-176). -/
def TPc.curR : TPc KS → Option Nat
  | .unmap _ _ r => some r
  | .sload _ _ r _ => some r
  | .ini _ _ r _ _ _ => some r
  | .mv _ _ r _ _ _ _ => some r
  | .mg _ _ r _ _ _ _ => some r
  | .rl _ _ r _ _ _ _ => some r
  | .idle => none
  | .lockw _ => none
  | .scan _ _ => none
  | .lockl _ => none
  | .lscan _ _ => none
  | .lmv _ _ _ _ _ => none
  | .done => none

/-- One point reported by `Collect`. `kept = false` marks a delta point removed again because `HasChange` was false
(collectors.go:76-84). -/
structure Emit (KS S : Type) where
  leaf : Nat
  key : KS
  val : S
  ops : List (Nat × Nat)
  kept : Bool

structure State (AL KS N S : Type) where
  nextOp : Nat
  op : Nat → Op AL N
  nextTask : Nat
  task : Nat → TPc KS
  nextRec : Nat
  recs : Nat → Rec AL
  nextAcc : Nat
  acc : Nat → Acc KS S
  nextHold : Nat
  hold : Nat → Holder KS S
  /-- `Observer.currentFP` (sync.go:57), flattened -/
  table : Nat → List Nat
  /-- writer of `Observer.lock` (readers are instantaneous) -/
  lock : Nat → Option Nat
  /-- `instrumentBase.data` (base_instrument.go:57) -/
  data : Nat → Storage.Table KS Nat
  /-- `instrumentBase.instLock` -/
  llock : Nat → Option Nat
  /-- `gauge.sequenceVar` (gauge.go:59) -/
  seq : Nat
  /-- ghost: reported points, newest first -/
  emits : List (Emit KS S)
  /-- ghost: (view, series key, (measurement call, sequence number)) for every applied update -/
  applied : List (Nat × KS × Nat × Nat)

variable {AL KS N S : Type} [DecidableEq KS]

/-! ### Reference counting (refcount_mapped.go) -/

/-- `ref()` (refcount_mapped.go:41-45): new word and result. -/
def refWord (w : Int) : Int × Bool := (w + 2, (w + 2) % 2 == 0)

/-- `unref()` (refcount_mapped.go:47-49). -/
def unrefWord (w : Int) : Int := w - 2

/-- `tryUnmap()` (refcount_mapped.go:57-66). The load-then-CAS pair is one atomic step: its outcome is that of a CAS
at the time of the load (when the load is non-zero) or of the CAS. -/
def tryUnmapWord (w : Int) : Int × Bool := if w = 0 then (1, true) else (w, false)

/-- `newRefcountMapped()` (refcount_mapped.go:33-37). -/
def newWord : Int := 2

/-! ### Record lookup (bykeyvalue.go) -/

/-- The chain of records under one fingerprint, newest first (`inst.currentFP[fp]` and `next` pointers). -/
def chain (c : Cfg AL KS N S) (s : State AL KS N S) (o : Nat) (f : UInt64) : List Nat :=
  (s.table o).filter (fun r => c.fp (s.recs r).attrs == f)

/-- `len(inst.currentFP)`: the number of distinct fingerprints in the table. -/
def tableLen (c : Cfg AL KS N S) (s : State AL KS N S) (o : Nat) : Nat :=
  ((s.table o).map (fun r => c.fp (s.recs r).attrs)).eraseDups.length

/-- The search of `acquireReadLockedKV` (bykeyvalue.go:145-152). -/
def findRead (c : Cfg AL KS N S) (s : State AL KS N S) (o : Nat) (a : AL) : Option Nat :=
  if c.ignoreColl then (chain c s o (c.fp a)).head?
  else (chain c s o (c.fp a)).find? (fun r => c.eqv a (s.recs r).attrs)

/-- The search of `acquireWriteKV` (bykeyvalue.go:222-224). -/
def findWrite (c : Cfg AL KS N S) (s : State AL KS N S) (o : Nat) (a : AL) : Option Nat :=
  (chain c s o (c.fp a)).find? (fun r => c.ignoreColl || c.eqv (s.recs r).attrs a)

def setRec (s : State AL KS N S) (r : Nat) (f : Rec AL → Rec AL) : State AL KS N S :=
  { s with recs := upd s.recs r (f (s.recs r)) }
def setOpPc (s : State AL KS N S) (i : Nat) (pc : OPc AL) : State AL KS N S :=
  { s with op := upd s.op i { s.op i with pc := pc } }
def setTask (s : State AL KS N S) (t : Nat) (pc : TPc KS) : State AL KS N S :=
  { s with task := upd s.task t pc }
def setAcc (s : State AL KS N S) (a : Nat) (f : Acc KS S → Acc KS S) : State AL KS N S :=
  { s with acc := upd s.acc a (f (s.acc a)) }
def setHold (s : State AL KS N S) (h : Nat) (f : Holder KS S → Holder KS S) : State AL KS N S :=
  { s with hold := upd s.hold h (f (s.hold h)) }

/-- `rec.refMapped.ref()` on a record. -/
def tryRef (s : State AL KS N S) (r : Nat) : State AL KS N S × Bool :=
  (setRec s r (fun x => { x with word := (refWord x.word).1 }), (refWord (s.recs r).word).2)

/-- One call of `acquireReadLockedKV` up to line 159: search and `ref()`. -/
def readPass (c : Cfg AL KS N S) (s : State AL KS N S) (o : Nat) (a : AL) : State AL KS N S × Option Nat :=
  match findRead c s o a with
  | none => (s, none)
  | some r => ((tryRef s r).1, if (tryRef s r).2 then some r else none)

/-- `acquireReadKV` (bykeyvalue.go:124-173), including the cardinality check (165) and the second pass with the
overflow attributes (141). Returns the state, the attributes to continue with, and the acquired record. -/
def acquireRead (c : Cfg AL KS N S) (s : State AL KS N S) (o : Nat) (a : AL) :
    State AL KS N S × AL × Option Nat :=
  match readPass c s o a with
  | (s1, some r) => (s1, a, some r)
  | (s1, none) =>
    if c.limit - 1 ≤ tableLen c s1 o then
      ((readPass c s1 o c.overflowAL).1, c.overflowAL, (readPass c s1 o c.overflowAL).2)
    else (s1, a, none)

/-- A record freshly built by `acquireNotfoundKV` (bykeyvalue.go:194-200). -/
def newRec (o : Nat) (a : AL) : Rec AL :=
  { obs := o, attrs := a, word := newWord, updateCount := 0, collectedCount := 0, inactive := 0, accs := [],
    updN := 0, colN := 0 }

/-- `acquireWriteKV` (bykeyvalue.go:218-236). `none` is the `(nil, false)` result that makes the caller retry. -/
def acquireWrite (c : Cfg AL KS N S) (s : State AL KS N S) (o : Nat) (a : AL) :
    State AL KS N S × Option Nat :=
  match findWrite c s o a with
  | some r => ((tryRef s r).1, if (tryRef s r).2 then some r else none)
  | none =>
    ({ s with recs := upd s.recs s.nextRec (newRec o a), nextRec := s.nextRec + 1,
              table := upd s.table o (s.nextRec :: s.table o) }, some s.nextRec)

/-! ### Accumulator creation (sync.go:283-295, accumulators.go:32-54) -/

/-- Number of accumulators a complete record has. -/
def numLeaves (c : Cfg AL KS N S) (s : State AL KS N S) (r : Nat) : Nat :=
  (c.leavesOf (s.recs r).obs).length

/-- One step of `initialize`: `NewAccumulator` for the next view of the record, i.e. `findStorage`
(accumulators.go:43-54): filter the keys, find or create the series under `instLock`, add a reference.
`none` when everything is initialised or the view's lock is held. -/
def initStep (c : Cfg AL KS N S) (s : State AL KS N S) (r : Nat) : Option (State AL KS N S) :=
  match (c.leavesOf (s.recs r).obs)[(s.recs r).accs.length]? with
  | none => none
  | some l =>
    if s.llock l ≠ none then none
    else
      let k0 := c.filt l (c.newSet (s.recs r).attrs)
      let g := Storage.getOrCreate (c.lim l) c.overflowKS (s.data l) k0 s.nextHold
      let k := g.1
      let h := g.2.1
      -- the (possibly fresh) holder with `auxiliary` incremented
      let isNew := (Storage.find (s.data l) k).isNone
      let base : Holder KS S :=
        if isNew then { leaf := l, key := k, aux := 0, store := { val := (c.agg l).init, ops := [] } } else s.hold h
      some { s with
        data := upd s.data l g.2.2
        hold := upd s.hold h { base with aux := base.aux + 1 }
        nextHold := if isNew then s.nextHold + 1 else s.nextHold
        acc := upd s.acc s.nextAcc
          { leaf := l, rc := r, key := k, cur := { val := (c.agg l).init, ops := [] },
            snap := { val := (c.agg l).init, ops := [] }, holder := h, slock := none, released := false }
        nextAcc := s.nextAcc + 1
        recs := upd s.recs r { s.recs r with accs := (s.recs r).accs ++ [s.nextAcc] } }

/-! ### Steps of a measurement call -/

/-- The next step of measurement call `i` (sync.go:330-364); `none` when blocked or finished. -/
def stepOp (c : Cfg AL KS N S) (s : State AL KS N S) (i : Nat) : Option (State AL KS N S) :=
  let o := (s.op i).obs
  match (s.op i).pc with
  | .idle => none
  | .done => none
  | .rd a =>
    -- needs the read lock: no writer
    if s.lock o ≠ none then none
    else
      match acquireRead c s o a with
      | (s1, _, some r) => some (setOpPc s1 i (.ini r))
      | (s1, a1, none) => some (setOpPc s1 i (.wr a1))
  | .wr a =>
    if s.lock o ≠ none then none
    else
      match acquireWrite c s o a with
      | (s1, some r) => some (setOpPc s1 i (.ini r))
      | (s1, none) => some s1
  | .ini r =>
    if (s.recs r).accs.length < numLeaves c s r then initStep c s r
    else some (setOpPc s i (.fetch r 0))
  | .fetch r k =>
    if k < (s.recs r).accs.length then
      some (setOpPc { s with seq := s.seq + 1 } i (.upd r k (s.seq + 1)))
    else some (setOpPc s i (.cnt r))
  | .upd r k sq =>
    match (s.recs r).accs[k]? with
    | none => none
    | some a =>
      let x := s.acc a
      some (setOpPc
        { (setAcc s a (fun x => { x with cur := { val := (c.agg x.leaf).upd x.cur.val (s.op i).num sq,
                                                  ops := (i, sq) :: x.cur.ops } })) with
          applied := (x.leaf, x.key, i, sq) :: s.applied } i (.fetch r (k + 1)))
  | .cnt r =>
    let s1 := setRec s r (fun x => { x with updateCount := (x.updateCount + 1) % c.W, updN := x.updN + 1 })
    some { s1 with op := upd s1.op i { s1.op i with pc := .unref r, rank := (s.recs r).updN + 1 } }
  | .unref r =>
    some (setOpPc (setRec s r (fun x => { x with word := unrefWord x.word })) i .done)

/-! ### Steps of a collector task -/

/-- End of `conditionalCollect` and `collect` for record `r` after a snapshot (sync.go:148-151, 163-175, 267-270):
`collectedCount = mods`, `inactiveCount = 0`; the record is dropped from the table iff it was unmapped (`rel`). -/
def finishRec (s : State AL KS N S) (t o : Nat) (todo : List Nat) (r mods modsN : Nat) (rel : Bool) :
    State AL KS N S :=
  let s1 := setRec s r (fun x => { x with collectedCount := mods, colN := modsN, inactive := 0 })
  let s2 := if rel then { s1 with table := upd s1.table o ((s1.table o).filter (fun x => !(x == r))) } else s1
  setTask s2 t (.scan o todo)

/-- The next step of collector task `t`; `choice` resolves map iteration order. `none` when blocked or finished. -/
def stepTask (c : Cfg AL KS N S) (s : State AL KS N S) (t : Nat) (choice : Nat) : Option (State AL KS N S) :=
  match s.task t with
  | .idle => none
  | .done => none
  | .lockw o =>
    -- `inst.lock.Lock()` (sync.go:98)
    if s.lock o ≠ none then none
    else some (setTask { s with lock := upd s.lock o (some t) } t (.scan o (s.table o)))
  | .scan o todo =>
    match todo[choice]? with
    | none =>
      -- end of loop, deferred `Unlock`
      if todo.isEmpty then some (setTask { s with lock := upd s.lock o none } t .done) else none
    | some r =>
      let todo' := todo.filter (fun x => !(x == r))
      let x := s.recs r
      -- `normalCollect()`: load and compare (sync.go:257-264)
      if x.updateCount = x.collectedCount then
        -- sync.go:155-159
        let s1 := setRec s r (fun x => { x with inactive := x.inactive + 1 })
        if x.inactive + 1 < c.periods then some (setTask s1 t (.scan o todo'))
        else some (setTask s1 t (.unmap o todo' r))
      else some (setTask s t (.ini o todo' r x.updateCount x.updN false))
  | .unmap o todo r =>
    -- sync.go:162
    let w := tryUnmapWord (s.recs r).word
    some (setTask (setRec s r (fun x => { x with word := w.1 })) t (.sload o todo r w.2))
  | .sload o todo r rel =>
    -- `scavengeCollect(unmapped)` (sync.go:167, 257-264)
    let x := s.recs r
    if rel = false ∧ x.updateCount = x.collectedCount then
      -- sync.go:170-175 with `unmapped = false`
      some (setTask (setRec s r (fun x => { x with inactive := 0 })) t (.scan o todo))
    else some (setTask s t (.ini o todo r x.updateCount x.updN rel))
  | .ini o todo r mods modsN rel =>
    -- `readAccumulator()` (sync.go:266, 274-277)
    if (s.recs r).accs.length < numLeaves c s r then initStep c s r
    else some (setTask s t (.mv o todo r mods modsN rel 0))
  | .mv o todo r mods modsN rel k =>
    match (s.recs r).accs[k]? with
    | none => some (finishRec s t o todo r mods modsN rel)
    | some a =>
      -- accumulators.go:113-115
      if (s.acc a).slock ≠ none then none
      else
        some (setTask (setAcc s a (fun x =>
          { x with snap := x.cur, cur := { val := (c.agg x.leaf).reset x.cur.val, ops := [] }, slock := some t })) t
          (.mg o todo r mods modsN rel k))
  | .mg o todo r mods modsN rel k =>
    match (s.recs r).accs[k]? with
    | none => none
    | some a =>
      -- accumulators.go:116; the snapshot keeps its stale value, its ghost content moves to the holder
      let x := s.acc a
      let s1 := setHold s x.holder (fun y =>
        { y with store := { val := (c.agg x.leaf).merge y.store.val x.snap.val, ops := x.snap.ops ++ y.store.ops } })
      let s2 := setAcc s1 a (fun x => { x with snap := { x.snap with ops := [] } })
      some (setTask s2 t (.rl o todo r mods modsN rel k))
  | .rl o todo r mods modsN rel k =>
    match (s.recs r).accs[k]? with
    | none => none
    | some a =>
      -- accumulators.go:117-120 and the deferred unlock
      let x := s.acc a
      let s1 := if rel then setHold s x.holder (fun y => { y with aux := y.aux - 1 }) else s
      let s2 := setAcc s1 a (fun x => { x with slock := none, released := rel })
      some (setTask s2 t (.mv o todo r mods modsN rel (k + 1)))
  | .lockl l =>
    -- collectors.go:35-36, 54-55
    if s.llock l ≠ none then none
    else some (setTask { s with llock := upd s.llock l (some t) } t (.lscan l (s.data l)))
  | .lscan l todo =>
    match todo[choice]? with
    | none => if todo.isEmpty then some (setTask { s with llock := upd s.llock l none } t .done) else none
    | some (k, h) =>
      let todo' := todo.filter (fun e => !(e.1 == k))
      if c.delta l then
        -- collectors.go:64
        some (setTask s t (.lmv l todo' k h (s.hold h).aux))
      else
        -- collectors.go:40-42 (`Copy`)
        some (setTask { s with emits := { leaf := l, key := k, val := (s.hold h).store.val,
                                          ops := (s.hold h).store.ops, kept := true } :: s.emits } t (.lscan l todo'))
  | .lmv l todo k h numRefs =>
    -- collectors.go:66-90
    let y := (s.hold h).store
    let ch := (c.agg l).hasChange y.val
    let s1 := setHold s h (fun x => { x with store := { val := (c.agg l).reset y.val, ops := [] } })
    let s2 := { s1 with emits := { leaf := l, key := k, val := y.val, ops := y.ops, kept := ch } :: s1.emits }
    let s3 := if ch = false ∧ numRefs = 0 then { s2 with data := upd s2.data l (Storage.delete (s2.data l) k) } else s2
    some (setTask s3 t (.lscan l todo))

/-! ### The whole system -/

inductive Action (AL N : Type) where
  /-- a goroutine calls the instrument with attributes and an in-range value -/
  | observe (o : Nat) (a : AL) (n : N)
  /-- a reader starts `SnapshotAndProcess` on an instrument -/
  | snapshot (o : Nat)
  /-- a reader starts `Collect` on a view -/
  | collect (l : Nat)
  /-- the scheduler runs one step of a measurement call -/
  | op (i : Nat)
  /-- the scheduler runs one step of a collector task -/
  | task (t : Nat) (choice : Nat)

def step (c : Cfg AL KS N S) (s : State AL KS N S) : Action AL N → Option (State AL KS N S)
  | .observe o a n =>
    some { s with op := upd s.op s.nextOp { obs := o, attrs := a, num := n, pc := .rd a, rank := 0 },
                  nextOp := s.nextOp + 1 }
  | .snapshot o => some { s with task := upd s.task s.nextTask (.lockw o), nextTask := s.nextTask + 1 }
  | .collect l => some { s with task := upd s.task s.nextTask (.lockl l), nextTask := s.nextTask + 1 }
  | .op i => stepOp c s i
  | .task t ch => stepTask c s t ch

/-- Initial state: no calls, no records, no series. `n0` and `k0` only fill unused heap cells. -/
def initial (c : Cfg AL KS N S) (n0 : N) : State AL KS N S :=
  { nextOp := 0, op := fun _ => { obs := 0, attrs := c.overflowAL, num := n0, pc := .idle, rank := 0 }
    nextTask := 0, task := fun _ => .idle
    nextRec := 0, recs := fun _ => newRec 0 c.overflowAL
    nextAcc := 0
    acc := fun _ => { leaf := 0, rc := 0, key := c.overflowKS, cur := ⟨(c.agg 0).init, []⟩,
                      snap := ⟨(c.agg 0).init, []⟩, holder := 0, slock := none, released := false }
    nextHold := 0
    hold := fun _ => { leaf := 0, key := c.overflowKS, aux := 0, store := ⟨(c.agg 0).init, []⟩ }
    table := fun _ => [], lock := fun _ => none, data := fun _ => [], llock := fun _ => none
    seq := 1, emits := [], applied := [] }

/-- Run a schedule from a state; `none` if some action was not enabled. -/
def run (c : Cfg AL KS N S) : State AL KS N S → List (Action AL N) → Option (State AL KS N S)
  | s, [] => some s
  | s, a :: as => (step c s a).bind (fun s' => run c s' as)

/-- States reachable under some schedule. -/
def Reachable (c : Cfg AL KS N S) (n0 : N) (s : State AL KS N S) : Prop :=
  ∃ acts, run c (initial c n0) acts = some s

end Verif.Sync
