import Verif.Basic
import Verif.Model.Async

/-!
# Overlapping collections of asynchronous instruments

`Producer.Produce` may be called concurrently (reader.go:57) and `providerProducer.Produce` does not prevent
concurrent collection (producer.go:50-57). This file models collections of one meter by one reader that may overlap.
Every collection has its own `asyncstate.State` (producer.go:107), but the tables of the views are shared. The
accumulators of a collection hold pointers into these tables (accumulators.go:124-128), and the tables are replaced by
`Collect` (collectors.go:112, 168). So here the tables hold addresses of a heap of `storageHolder`s.

Models `lightstep/sdk/metric/producer.go: collectFor`, `internal/asyncstate/async.go: getOrCreate, SnapshotAndProcess`,
`internal/viewstate/accumulators.go: compiledAsyncBase, asyncAccumulator` and
`internal/viewstate/collectors.go: lowmemoryAsyncInstrument, statefulAsyncInstrument`.

Simplifications:
* An observation is one step and is one that passed the checks of `Observe` (async.go:153-176), for an instrument not
  disabled for the reader. Observations of leaked goroutines are the subject of `Verif.Model.Async`.
* The update of one holder is one step (aggregators are atomic or take a lock), and so is `Collect` of one view (it holds
  `instLock`, collectors.go:102, 135).
* The set of views is fixed.
-/

namespace Verif.Overlap
open Verif Verif.Async

/-- Configuration: that of `Verif.Async` with the list of collectors (viewstate.go:189, `Collectors`), which contains every
view of every instrument once. -/
structure Cfg (K N S : Type) extends Async.Cfg K N S where
  views : List Nat
  views_nodup : views.Nodup
  views_all : ∀ o l, l ∈ leavesOf o → l ∈ views

/-- An element of `State.store` (async.go:44): the address its accumulator points to in every view, and the value it
holds (accumulators.go:124-128). -/
structure Acc (K N : Type) where
  obs : Nat
  set : K
  ptrs : List (Nat × Nat)
  cur : N
deriving DecidableEq

/-- The progress of `collectFor` (producer.go:107-126). -/
inductive Phase (N : Type) where
  /-- callbacks are running (producer.go:109-111) -/
  | callbacks
  /-- accumulators still to be added to their holders (producer.go:117-119): view, address, value -/
  | snapshot (rest : List (Nat × Nat × N))
  /-- views still to be collected (producer.go:124-126) -/
  | collect (todo : List Nat)
deriving DecidableEq

/-- The maps of a view: `data` and `prior`, holding addresses (base_instrument.go:57, collectors.go:119). -/
structure View (K : Type) where
  data : Storage.Table K Nat
  prior : Storage.Table K Nat

structure State (K N S : Type) where
  view : Nat → View K
  heap : Nat → S
  /-- next free address -/
  next : Nat
  /-- number of collections begun -/
  count : Nat
  phase : Nat → Phase N
  store : Nat → List (Acc K N)
  /-- points reported by each collection for each view -/
  out : Nat → Nat → List (K × S)

inductive Action (K N : Type) where
  /-- `collectFor` begins (producer.go:91-107) -/
  | start
  /-- a callback run by collection `n` observes -/
  | observe (n obs : Nat) (set : K) (val : N)
  /-- all callbacks of the collection returned -/
  | returned (n : Nat)
  /-- one accumulator (the `i`th of those left) is added to its holder; maps are iterated in any order -/
  | snap (n i : Nat)
  /-- the next view is collected -/
  | collect (n : Nat)
deriving DecidableEq

variable {K N S : Type} [DecidableEq K] [DecidableEq N]

/-- `NewAccumulator` of one view (accumulators.go:62-79) with `getOrCreateEntry` (base_instrument.go:142-187): the address
of the holder, and the state with a new holder if the entry did not exist. (Existing addresses are below `next`.) -/
def newAcc (c : Cfg K N S) (s : State K N S) (l : Nat) (set : K) : Nat × State K N S :=
  let g := Storage.getOrCreate (c.lim l) c.ovf (s.view l).data (c.filt l set) s.next
  if g.2.1 = s.next then
    (g.2.1, { s with view := upd s.view l { s.view l with data := g.2.2 }, heap := upd s.heap s.next (c.agg l).init, next := s.next + 1 })
  else (g.2.1, s)

/-- `multiInstrument.NewAccumulator` (viewstate.go:578-585). -/
def newAccs (c : Cfg K N S) (set : K) : List Nat → State K N S → List (Nat × Nat) × State K N S
  | [], s => ([], s)
  | l :: ls, s =>
    let a := newAcc c s l set
    let r := newAccs c set ls a.2
    ((l, a.1) :: r.1, r.2)

/-- `getOrCreate` and the update of the accumulator (async.go:123-151, 178-180; accumulators.go:130-134). -/
def observe (c : Cfg K N S) (s : State K N S) (n obs : Nat) (set : K) (val : N) : State K N S :=
  let k := c.canon obs set
  if (s.store n).any (fun e => e.obs == obs && e.set == k) then
    { s with store := upd s.store n ((s.store n).map (fun e => if e.obs = obs ∧ e.set = k then { e with cur := val } else e)) }
  else
    let r := newAccs c k (c.leavesOf obs) s
    { r.2 with store := upd r.2.store n (r.2.store n ++ [{ obs := obs, set := k, ptrs := r.1, cur := val }]) }

/-- The accumulators of a collection, one for each view. -/
def pending (es : List (Acc K N)) : List (Nat × Nat × N) :=
  es.flatMap (fun e => e.ptrs.map (fun p => (p.1, p.2, e.cur)))

/-- The loop of `statefulAsyncInstrument.Collect` (collectors.go:142-161): the points and the heap, in which the holders
of `prior` are overwritten by `SubtractSwap`. -/
def deltaLoop (a : AAgg N S) (prior : Storage.Table K Nat) : Storage.Table K Nat → (Nat → S) → List (K × S) × (Nat → S)
  | [], h => ([], h)
  | e :: t, h =>
    match Storage.find prior e.1 with
    | none =>
      let r := deltaLoop a prior t h
      ((e.1, h e.2) :: r.1, r.2)
    | some p =>
      let d := a.sub (h p) (h e.2)
      let r := deltaLoop a prior t (upd h p d)
      (if a.hasChange d then (e.1, d) :: r.1 else r.1, r.2)

/-- `Collect` of view `l` in collection `n` (collectors.go:101-113, 132-179). -/
def collectView (c : Cfg K N S) (s : State K N S) (n l : Nat) : State K N S :=
  let v := s.view l
  if c.delta l then
    let r := deltaLoop (c.agg l) v.prior v.data s.heap
    let s1 : State K N S := { s with out := upd s.out n (upd (s.out n) l r.1), heap := r.2 }
    match Storage.find v.data c.ovf with
    | none => { s1 with view := upd s.view l { data := [], prior := v.data } }
    | some p =>
      { s1 with view := upd s.view l { data := [(c.ovf, s.next)], prior := v.data }, heap := upd r.2 s.next (r.2 p), next := s.next + 1 }
  else
    { s with view := upd s.view l { v with data := [] }, out := upd s.out n (upd (s.out n) l (v.data.map (fun e => (e.1, s.heap e.2)))) }

def step (c : Cfg K N S) (s : State K N S) : Action K N → Option (State K N S)
  | .start =>
    some { s with phase := upd s.phase s.count .callbacks, store := upd s.store s.count [], count := s.count + 1 }
  | .observe n obs set val =>
    if n < s.count ∧ s.phase n = .callbacks ∧ c.leavesOf obs ≠ [] then some (observe c s n obs set val) else none
  | .returned n =>
    if n < s.count ∧ s.phase n = .callbacks then some { s with phase := upd s.phase n (.snapshot (pending (s.store n))) } else none
  | .snap n i =>
    if n < s.count then
      match s.phase n with
      | .snapshot rest =>
        match rest[i]? with
        | some x =>
          let rest' := rest.eraseIdx i
          let ph : Phase N := if rest' = [] then .collect c.views else .snapshot rest'
          some { s with heap := upd s.heap x.2.1 ((c.agg x.1).upd (s.heap x.2.1) x.2.2), phase := upd s.phase n ph }
        | none => if rest = [] then some { s with phase := upd s.phase n (.collect c.views) } else none
      | _ => none
    else none
  | .collect n =>
    if n < s.count then
      match s.phase n with
      | .collect (l :: todo) => some { collectView c s n l with phase := upd s.phase n (.collect todo) }
      | _ => none
    else none

def initial (c : Cfg K N S) : State K N S where
  view := fun _ => { data := [], prior := [] }
  heap := fun _ => (c.agg 0).init
  next := 0
  count := 0
  phase := fun _ => .collect []
  store := fun _ => []
  out := fun _ _ => []

def run (c : Cfg K N S) : State K N S → List (Action K N) → Option (State K N S)
  | s, [] => some s
  | s, a :: as => (step c s a).bind (fun s' => run c s' as)

end Verif.Overlap
