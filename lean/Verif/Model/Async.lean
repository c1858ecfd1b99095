import Verif.Basic
import Verif.Model.Storage

/-!
# Asynchronous instruments

Models `lightstep/sdk/metric/internal/asyncstate/{async.go, callback.go}`, the asynchronous parts of
`internal/viewstate/{accumulators.go, collectors.go}` and the asynchronous part of `producer.go: collectFor`, for one
meter and one reader.

Observations are small steps (they may be made by goroutines that a callback leaks): the liveness check of the callback,
`getOrCreate` under the state lock, and the update under the accumulator lock are separate steps.

Simplifications:
* Collections of the reader do not overlap: `finish` does the snapshot of all instruments and the collection of all
  views in one step. (A late observation falling between them has the same effect as one falling right before or after.)
* Series values are kept in the table of the view; an accumulator refers to its series by key. This is the same as
  the code's pointer as long as the table is not replaced, which happens in `finish` only; accumulators of finished
  collections are never read again.
* Every instrument a callback may observe is in the instrument list of the collection, because both lists are read under
  the same lock (producer.go:103-107) and a callback can only be registered with existing instruments of its meter
  (callback.go:52-67); so `finish` snapshots all entries.
-/

namespace Verif.Async
open Verif

/-- The part of `aggregator.Methods` used by asynchronous views. `sub operand argument` is the new value of the operand
in `SubtractSwap` (sum.go:142-145). -/
structure AAgg (N S : Type) where
  init : S
  upd : S → N → S
  sub : S → S → S
  hasChange : S → Bool

structure Cfg (K N S : Type) where
  /-- views of an instrument for this reader; `[]` when `obs.compiled[pipe]` is nil (async.go:124-129) -/
  leavesOf : Nat → List Nat
  /-- `applyKeysFilter` of a view -/
  filt : Nat → K → K
  /-- `acfg.CardinalityLimit` of a view -/
  lim : Nat → Nat
  ovf : K
  agg : Nat → AAgg N S
  /-- true for `statefulAsyncInstrument`, false for `lowmemoryAsyncInstrument` -/
  delta : Nat → Bool
  /-- `RangeTest` with the instrument's descriptor (async.go:174) -/
  inRange : Nat → N → Bool
  /-- `attribute.NewSet(TruncateAttributes(...))` (async.go:140-142) -/
  canon : Nat → K → K
  /-- zero value of `asyncAccumulator.current` -/
  zero : N

/-- An element of `state.store` (async.go:43): instrument, attribute set, the series its accumulators point to (one per
view, `multiAccumulator`), and the value they hold. -/
structure Entry (K N : Type) where
  obs : Nat
  set : K
  keys : List (Nat × K)
  cur : N
deriving DecidableEq

/-- A view: `instrumentBase.data` and `statefulAsyncInstrument.prior` (collectors.go:117-121). -/
structure View (K S : Type) where
  data : Storage.Table K S
  prior : Storage.Table K S

/-- `callbackState` (callback.go:86-98): `live` is `callback != nil`. -/
structure Cb where
  coll : Nat
  insts : List Nat
  live : Bool
deriving DecidableEq

inductive Pc where
  | check | create | update | done | rejected
deriving DecidableEq

/-- An observation in progress. `startedLive` is ghost: whether the callback was still running when it began. -/
structure Op (K N : Type) where
  cb : Nat
  obs : Nat
  set : K
  val : N
  pc : Pc
  startedLive : Bool

/-- Ghost record of an applied update. -/
structure Ev (K N : Type) where
  coll : Nat
  op : Nat
  obs : Nat
  set : K
  val : N

structure State (K N S : Type) where
  view : Nat → View K S
  /-- number of the current (or next) collection -/
  coll : Nat
  /-- `State.store` of every collection -/
  store : Nat → List (Entry K N)
  nextCb : Nat
  cb : Nat → Cb
  nextOp : Nat
  op : Nat → Op K N
  /-- points reported by each collection for each view -/
  out : Nat → Nat → List (K × S)
  /-- ghost: the table of each view in each collection after the snapshot -/
  seen : Nat → Nat → Storage.Table K S
  /-- ghost: applied updates, oldest first -/
  log : List (Ev K N)

inductive Action (K N : Type) where
  /-- `Callback.Run` begins (callback.go:75-80) -/
  | startCb (insts : List Nat)
  /-- the callback function returned; `invalidate` (callback.go:81) -/
  | endCb (id : Nat)
  /-- `ObserveInt64`/`ObserveFloat64` is called on the observer of a callback -/
  | observe (cb obs : Nat) (set : K) (val : N)
  /-- the next step of an observation -/
  | op (i : Nat)
  /-- the rest of `collectFor` (producer.go:119-126); `order` is the iteration order of the maps -/
  | finish (order : List (Entry K N))

variable {K N S : Type} [DecidableEq K] [DecidableEq N]

/-- Apply a function to the entry under a key. -/
def modify (t : Storage.Table K S) (k : K) (f : S → S) : Storage.Table K S :=
  t.map (fun e => if e.1 = k then (e.1, f e.2) else e)

/-- `NewAccumulator` of one view (accumulators.go:62-79): the series key and the new table. -/
def newAcc (c : Cfg K N S) (l : Nat) (t : Storage.Table K S) (set : K) : K × Storage.Table K S :=
  let g := Storage.getOrCreate (c.lim l) c.ovf t (c.filt l set) (c.agg l).init
  (g.1, g.2.2)

/-- `multiInstrument.NewAccumulator` (viewstate.go:578-585). -/
def newAccs (c : Cfg K N S) (set : K) : List Nat → (Nat → View K S) → List (Nat × K) × (Nat → View K S)
  | [], v => ([], v)
  | l :: ls, v =>
    let a := newAcc c l (v l).data set
    let r := newAccs c set ls (upd v l { v l with data := a.2 })
    ((l, a.1) :: r.1, r.2)

/-- `getOrCreate` (async.go:123-151) for the store of collection `n`. The store map is keyed by instrument and set. -/
def getOrCreate (c : Cfg K N S) (s : State K N S) (n obs : Nat) (set : K) : State K N S :=
  if (s.store n).any (fun e => e.obs == obs && e.set == set) then s
  else
    let r := newAccs c set (c.leavesOf obs) s.view
    { s with view := r.2,
             store := upd s.store n (s.store n ++ [{ obs := obs, set := set, keys := r.1, cur := c.zero }]) }

/-- `multiAccumulator.Update` / `asyncAccumulator.Update` (accumulators.go:90-94, 130-134). -/
def setCur (es : List (Entry K N)) (obs : Nat) (set : K) (v : N) : List (Entry K N) :=
  es.map (fun e => if e.obs = obs ∧ e.set = set then { e with cur := v } else e)

/-- `asyncAccumulator.SnapshotAndProcess` for all accumulators pointing into view `l` (async.go:112-121,
accumulators.go:136-142). -/
def snap (c : Cfg K N S) (l : Nat) (t : Storage.Table K S) (order : List (Entry K N)) : Storage.Table K S :=
  order.foldl (fun t e => e.keys.foldl (fun t p => if p.1 = l then modify t p.2 (fun x => (c.agg l).upd x e.cur) else t) t) t

/-- The loop of `statefulAsyncInstrument.Collect` (collectors.go:142-161). -/
def deltaPoints (a : AAgg N S) (prior : Storage.Table K S) (t : Storage.Table K S) : List (K × S) :=
  t.filterMap (fun e =>
    match Storage.find prior e.1 with
    | none => some e
    | some p => if a.hasChange (a.sub p e.2) then some (e.1, a.sub p e.2) else none)

/-- The next table of a stateful view (collectors.go:168-179): the overflow entry is carried over. -/
def carry (ovf : K) (t : Storage.Table K S) : Storage.Table K S :=
  match Storage.find t ovf with
  | none => []
  | some v => [(ovf, v)]

/-- `Collect` of one view (collectors.go:101-113, 132-179) given the table after the snapshot: points and new view. -/
def collect (c : Cfg K N S) (l : Nat) (v : View K S) (t : Storage.Table K S) : List (K × S) × View K S :=
  if c.delta l then (deltaPoints (c.agg l) v.prior t, { data := carry c.ovf t, prior := t })
  else (t, { data := [], prior := [] })

/-- No callback of the current collection is running. -/
def noneLive (s : State K N S) : Bool := (List.range s.nextCb).all (fun i => !((s.cb i).live && (s.cb i).coll == s.coll))

def step (c : Cfg K N S) (s : State K N S) : Action K N → Option (State K N S)
  | .startCb insts =>
    some { s with cb := upd s.cb s.nextCb { coll := s.coll, insts := insts, live := true }, nextCb := s.nextCb + 1 }
  | .endCb id => if id < s.nextCb then some { s with cb := upd s.cb id { s.cb id with live := false } } else none
  | .observe cb obs set val =>
    if cb < s.nextCb then
      some { s with op := upd s.op s.nextOp { cb := cb, obs := obs, set := set, val := val, pc := .check, startedLive := (s.cb cb).live },
                    nextOp := s.nextOp + 1 }
    else none
  | .op i =>
    if s.nextOp ≤ i then none
    else
      let o := s.op i
      let b := s.cb o.cb
      match o.pc with
      | .check =>
        -- async.go:154-176
        if b.live && b.insts.contains o.obs && c.inRange o.obs o.val then
          -- a view that disables the instrument returns nil (async.go:124-129, 178)
          if (c.leavesOf o.obs).isEmpty then some { s with op := upd s.op i { o with pc := .rejected } }
          else some { s with op := upd s.op i { o with pc := .create } }
        else some { s with op := upd s.op i { o with pc := .rejected } }
      | .create =>
        let s1 := getOrCreate c s b.coll o.obs (c.canon o.obs o.set)
        some { s1 with op := upd s1.op i { o with pc := .update } }
      | .update =>
        some { s with
          store := upd s.store b.coll (setCur (s.store b.coll) o.obs (c.canon o.obs o.set) o.val)
          op := upd s.op i { o with pc := .done }
          log := s.log ++ [{ coll := b.coll, op := i, obs := o.obs, set := c.canon o.obs o.set, val := o.val }] }
      | _ => none
  | .finish order =>
    if noneLive s ∧ order.isPerm (s.store s.coll) then
      let t : Nat → Storage.Table K S := fun l => snap c l (s.view l).data order
      some { s with
        view := fun l => (collect c l (s.view l) (t l)).2
        out := upd s.out s.coll (fun l => (collect c l (s.view l) (t l)).1)
        seen := upd s.seen s.coll t
        coll := s.coll + 1 }
    else none

def initial (c : Cfg K N S) (k0 : K) : State K N S where
  view := fun _ => { data := [], prior := [] }
  coll := 0
  store := fun _ => []
  nextCb := 0
  cb := fun _ => { coll := 0, insts := [], live := false }
  nextOp := 0
  op := fun _ => { cb := 0, obs := 0, set := k0, val := c.zero, pc := .rejected, startedLive := false }
  out := fun _ _ => []
  seen := fun _ _ => []
  log := []

def run (c : Cfg K N S) : State K N S → List (Action K N) → Option (State K N S)
  | s, [] => some s
  | s, a :: as => (step c s a).bind (fun s' => run c s' as)

end Verif.Async
