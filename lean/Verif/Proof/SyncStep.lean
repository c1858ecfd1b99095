import Verif.Model.SyncMachine

/-!
Helper file: an inductive presentation of the steps of the synchronous machine, and the predicates used in its
invariants. No property theorems here.
-/

namespace Verif.Sync

open Verif

variable {AL KS N S : Type} [DecidableEq KS]

/-- The call holds (has pinned) record `r`. -/
def OPc.holds : OPc AL → Nat → Bool
  | .ini r', r => r' == r
  | .fetch r' _, r => r' == r
  | .upd r' _ _, r => r' == r
  | .cnt r', r => r' == r
  | .unref r', r => r' == r
  | .idle, _ => false
  | .rd _, _ => false
  | .wr _, _ => false
  | .done, _ => false

/-- The call has passed `readAccumulator` on record `r`. -/
def OPc.past : OPc AL → Nat → Bool
  | .fetch r' _, r => r' == r
  | .upd r' _ _, r => r' == r
  | .cnt r', r => r' == r
  | .unref r', r => r' == r
  | .idle, _ => false
  | .rd _, _ => false
  | .wr _, _ => false
  | .ini _, _ => false
  | .done, _ => false

/-- Number of calls pinning record `r`. -/
def pins (s : State AL KS N S) (r : Nat) : Nat :=
  sumTo s.nextOp (fun i => if (s.op i).pc.holds r then 1 else 0)

def TPc.lockObs : TPc KS → Option Nat
  | .scan o _ => some o
  | .unmap o _ _ => some o
  | .sload o _ _ _ => some o
  | .ini o _ _ _ _ _ => some o
  | .mv o _ _ _ _ _ _ => some o
  | .mg o _ _ _ _ _ _ => some o
  | .rl o _ _ _ _ _ _ => some o
  | .idle => none
  | .lockw _ => none
  | .lockl _ => none
  | .lscan _ _ => none
  | .lmv _ _ _ _ _ => none
  | .done => none

def TPc.lockLeaf : TPc KS → Option Nat
  | .lscan l _ => some l
  | .lmv l _ _ _ _ => some l
  | .idle => none
  | .lockw _ => none
  | .scan _ _ => none
  | .unmap _ _ _ => none
  | .sload _ _ _ _ => none
  | .ini _ _ _ _ _ _ => none
  | .mv _ _ _ _ _ _ _ => none
  | .mg _ _ _ _ _ _ _ => none
  | .rl _ _ _ _ _ _ _ => none
  | .lockl _ => none
  | .done => none

/-- The record whose final snapshot is in progress. -/
def TPc.relR : TPc KS → Option Nat
  | .sload _ _ r rel => if rel then some r else none
  | .ini _ _ r _ _ rel => if rel then some r else none
  | .mv _ _ r _ _ rel _ => if rel then some r else none
  | .mg _ _ r _ _ rel _ => if rel then some r else none
  | .rl _ _ r _ _ rel _ => if rel then some r else none
  | .idle => none
  | .lockw _ => none
  | .scan _ _ => none
  | .unmap _ _ _ => none
  | .lockl _ => none
  | .lscan _ _ => none
  | .lmv _ _ _ _ _ => none
  | .done => none

/-- Number of accumulators of the current record already completely processed. -/
def TPc.idx : TPc KS → Nat
  | .mv _ _ _ _ _ _ k => k
  | .mg _ _ _ _ _ _ k => k
  | .rl _ _ _ _ _ _ k => k
  | .idle => 0
  | .lockw _ => 0
  | .scan _ _ => 0
  | .unmap _ _ _ => 0
  | .sload _ _ _ _ => 0
  | .ini _ _ _ _ _ _ => 0
  | .lockl _ => 0
  | .lscan _ _ => 0
  | .lmv _ _ _ _ _ => 0
  | .done => 0

/-- The (record, position) whose accumulator lock is held. -/
def TPc.busy : TPc KS → Option (Nat × Nat)
  | .mg _ _ r _ _ _ k => some (r, k)
  | .rl _ _ r _ _ _ k => some (r, k)
  | .idle => none
  | .lockw _ => none
  | .scan _ _ => none
  | .unmap _ _ _ => none
  | .sload _ _ _ _ => none
  | .ini _ _ _ _ _ _ => none
  | .mv _ _ _ _ _ _ _ => none
  | .lockl _ => none
  | .lscan _ _ => none
  | .lmv _ _ _ _ _ => none
  | .done => none

/-- The record whose accumulators are known to be complete. -/
def TPc.fullR : TPc KS → Option Nat
  | .mv _ _ r _ _ _ _ => some r
  | .mg _ _ r _ _ _ _ => some r
  | .rl _ _ r _ _ _ _ => some r
  | .idle => none
  | .lockw _ => none
  | .scan _ _ => none
  | .unmap _ _ _ => none
  | .sload _ _ _ _ => none
  | .ini _ _ _ _ _ _ => none
  | .lockl _ => none
  | .lscan _ _ => none
  | .lmv _ _ _ _ _ => none
  | .done => none

def TPc.todoL : TPc KS → List (KS × Nat)
  | .lscan _ td => td
  | .lmv _ td _ _ _ => td
  | .idle => []
  | .lockw _ => []
  | .scan _ _ => []
  | .unmap _ _ _ => []
  | .sload _ _ _ _ => []
  | .ini _ _ _ _ _ _ => []
  | .mv _ _ _ _ _ _ _ => []
  | .mg _ _ _ _ _ _ _ => []
  | .rl _ _ _ _ _ _ _ => []
  | .lockl _ => []
  | .done => []

/-- The record matches the attribute list under the search used with the read lock. -/
def matchRead (c : Cfg AL KS N S) (s : State AL KS N S) (a : AL) (r : Nat) : Prop :=
  c.fp (s.recs r).attrs = c.fp a ∧ (c.ignoreColl = true ∨ c.eqv a (s.recs r).attrs = true)

/-- The record matches the attribute list under the search used with the write lock. -/
def matchWrite (c : Cfg AL KS N S) (s : State AL KS N S) (a : AL) (r : Nat) : Prop :=
  c.fp (s.recs r).attrs = c.fp a ∧ (c.ignoreColl = true ∨ c.eqv (s.recs r).attrs a = true)

/-- State after creating the accumulator of record `r` for view `l` on an existing series. -/
def initOld (c : Cfg AL KS N S) (s : State AL KS N S) (r l : Nat) (k : KS) (h : Nat) : State AL KS N S :=
  { s with
    hold := upd s.hold h { s.hold h with aux := (s.hold h).aux + 1 }
    acc := upd s.acc s.nextAcc
      { leaf := l, rc := r, key := k, cur := { val := (c.agg l).init, ops := [] },
        snap := { val := (c.agg l).init, ops := [] }, holder := h, slock := none, released := false }
    nextAcc := s.nextAcc + 1
    recs := upd s.recs r { s.recs r with accs := (s.recs r).accs ++ [s.nextAcc] } }

/-- State after creating the accumulator of record `r` for view `l` with a fresh series. -/
def initNew (c : Cfg AL KS N S) (s : State AL KS N S) (r l : Nat) (k : KS) : State AL KS N S :=
  { s with
    data := upd s.data l ((k, s.nextHold) :: s.data l)
    hold := upd s.hold s.nextHold
      { leaf := l, key := k, aux := 1, store := { val := (c.agg l).init, ops := [] } }
    nextHold := s.nextHold + 1
    acc := upd s.acc s.nextAcc
      { leaf := l, rc := r, key := k, cur := { val := (c.agg l).init, ops := [] },
        snap := { val := (c.agg l).init, ops := [] }, holder := s.nextHold, slock := none, released := false }
    nextAcc := s.nextAcc + 1
    recs := upd s.recs r { s.recs r with accs := (s.recs r).accs ++ [s.nextAcc] } }

/-- `atomic.AddInt64(&holder.auxiliary, -1)`; a definition only to keep terms small. -/
def decAux (n : Int) : Int := n - 1

/-- Why a `.rd` step moves on to the write path with attributes `a'`. -/
def readMiss (c : Cfg AL KS N S) (s : State AL KS N S) (o : Nat) (a a' : AL) : Prop :=
  findRead c s o a = none ∧
  ((a' = a ∧ tableLen c s o < c.limit - 1) ∨
   (a' = c.overflowAL ∧ c.limit - 1 ≤ tableLen c s o ∧ findRead c s o c.overflowAL = none))

/-- The possible steps, with explicit successor states (reference acquisition always succeeds, see `step_sound`). -/
inductive Step (c : Cfg AL KS N S) (s : State AL KS N S) : State AL KS N S → Prop
  | observe (o : Nat) (a : AL) (n : N) :
    Step c s { s with op := upd s.op s.nextOp { obs := o, attrs := a, num := n, pc := .rd a, rank := 0 },
                      nextOp := s.nextOp + 1 }
  | snapshot (o : Nat) :
    Step c s { s with task := upd s.task s.nextTask (.lockw o), nextTask := s.nextTask + 1 }
  | collect (l : Nat) :
    Step c s { s with task := upd s.task s.nextTask (.lockl l), nextTask := s.nextTask + 1 }
  | rdHit (i : Nat) (a a' : AL) (r : Nat) (hpc : (s.op i).pc = .rd a) (hl : s.lock (s.op i).obs = none)
      (hr : r ∈ s.table (s.op i).obs)
      (ha : a' = a ∨ (a' = c.overflowAL ∧ findRead c s (s.op i).obs a = none ∧ c.limit - 1 ≤ tableLen c s (s.op i).obs))
      (hm : matchRead c s a' r) :
    Step c s (setOpPc (setRec s r (fun x => { x with word := x.word + 2 })) i (.ini r))
  | rdMiss (i : Nat) (a a' : AL) (hpc : (s.op i).pc = .rd a) (hl : s.lock (s.op i).obs = none)
      (hm : readMiss c s (s.op i).obs a a') :
    Step c s (setOpPc s i (.wr a'))
  | wrHit (i : Nat) (a : AL) (r : Nat) (hpc : (s.op i).pc = .wr a) (hl : s.lock (s.op i).obs = none)
      (hr : r ∈ s.table (s.op i).obs) (hm : matchWrite c s a r) :
    Step c s (setOpPc (setRec s r (fun x => { x with word := x.word + 2 })) i (.ini r))
  | wrNew (i : Nat) (a : AL) (hpc : (s.op i).pc = .wr a) (hl : s.lock (s.op i).obs = none)
      (hf : findWrite c s (s.op i).obs a = none) :
    Step c s (setOpPc { s with recs := upd s.recs s.nextRec (newRec (s.op i).obs a), nextRec := s.nextRec + 1,
                               table := upd s.table (s.op i).obs (s.nextRec :: s.table (s.op i).obs) } i (.ini s.nextRec))
  | initOld (r l : Nat) (k : KS) (h : Nat)
      (hw : (∃ i, (s.op i).pc = .ini r) ∨ (∃ t o td m mN rel, s.task t = .ini o td r m mN rel))
      (hl : (c.leavesOf (s.recs r).obs)[(s.recs r).accs.length]? = some l) (hll : s.llock l = none)
      (hk : k = Storage.resolveKey (c.lim l) c.overflowKS (s.data l) (c.filt l (c.newSet (s.recs r).attrs)))
      (hf : Storage.find (s.data l) k = some h) :
    Step c s (initOld c s r l k h)
  | initNew (r l : Nat) (k : KS)
      (hw : (∃ i, (s.op i).pc = .ini r) ∨ (∃ t o td m mN rel, s.task t = .ini o td r m mN rel))
      (hl : (c.leavesOf (s.recs r).obs)[(s.recs r).accs.length]? = some l) (hll : s.llock l = none)
      (hk : k = Storage.resolveKey (c.lim l) c.overflowKS (s.data l) (c.filt l (c.newSet (s.recs r).attrs)))
      (hf : Storage.find (s.data l) k = none) :
    Step c s (initNew c s r l k)
  | iniDone (i r : Nat) (hpc : (s.op i).pc = .ini r) (hlen : numLeaves c s r ≤ (s.recs r).accs.length) :
    Step c s (setOpPc s i (.fetch r 0))
  | fetch (i r k : Nat) (hpc : (s.op i).pc = .fetch r k) (hk : k < (s.recs r).accs.length) :
    Step c s (setOpPc { s with seq := s.seq + 1 } i (.upd r k (s.seq + 1)))
  | fetchEnd (i r k : Nat) (hpc : (s.op i).pc = .fetch r k) (hk : (s.recs r).accs.length ≤ k) :
    Step c s (setOpPc s i (.cnt r))
  | upd (i r k sq a : Nat) (hpc : (s.op i).pc = .upd r k sq) (ha : (s.recs r).accs[k]? = some a) :
    Step c s (setOpPc
        { (setAcc s a (fun x => { x with cur := { val := (c.agg x.leaf).upd x.cur.val (s.op i).num sq,
                                                  ops := (i, sq) :: x.cur.ops } })) with
          applied := ((s.acc a).leaf, (s.acc a).key, i, sq) :: s.applied } i (.fetch r (k + 1)))
  | cnt (i r : Nat) (hpc : (s.op i).pc = .cnt r) :
    Step c s { s with
      recs := upd s.recs r { s.recs r with updateCount := ((s.recs r).updateCount + 1) % c.W, updN := (s.recs r).updN + 1 }
      op := upd s.op i { s.op i with pc := .unref r, rank := (s.recs r).updN + 1 } }
  | unref (i r : Nat) (hpc : (s.op i).pc = .unref r) :
    Step c s (setOpPc (setRec s r (fun x => { x with word := unrefWord x.word })) i .done)
  | lockw (t o : Nat) (hpc : s.task t = .lockw o) (hl : s.lock o = none) :
    Step c s (setTask { s with lock := Verif.upd s.lock o (some t) } t (.scan o (s.table o)))
  | scanEnd (t o : Nat) (hpc : s.task t = .scan o []) :
    Step c s (setTask { s with lock := Verif.upd s.lock o none } t .done)
  | scanIdle (t o : Nat) (td : List Nat) (r : Nat) (hpc : s.task t = .scan o td) (hr : r ∈ td)
      (he : (s.recs r).updateCount = (s.recs r).collectedCount) (hp : (s.recs r).inactive + 1 < c.periods) :
    Step c s (setTask (setRec s r (fun x => { x with inactive := x.inactive + 1 })) t
      (.scan o (td.filter (fun x => !(x == r)))))
  | scanUnmap (t o : Nat) (td : List Nat) (r : Nat) (hpc : s.task t = .scan o td) (hr : r ∈ td)
      (he : (s.recs r).updateCount = (s.recs r).collectedCount) (hp : c.periods ≤ (s.recs r).inactive + 1) :
    Step c s (setTask (setRec s r (fun x => { x with inactive := x.inactive + 1 })) t
      (.unmap o (td.filter (fun x => !(x == r))) r))
  | scanSnap (t o : Nat) (td : List Nat) (r : Nat) (hpc : s.task t = .scan o td) (hr : r ∈ td)
      (he : (s.recs r).updateCount ≠ (s.recs r).collectedCount) :
    Step c s (setTask s t (.ini o (td.filter (fun x => !(x == r))) r (s.recs r).updateCount (s.recs r).updN false))
  | unmapOk (t o : Nat) (td : List Nat) (r : Nat) (hpc : s.task t = .unmap o td r) (hw : (s.recs r).word = 0) :
    Step c s (setTask (setRec s r (fun x => { x with word := 1 })) t (.sload o td r true))
  | unmapFail (t o : Nat) (td : List Nat) (r : Nat) (hpc : s.task t = .unmap o td r) (hw : (s.recs r).word ≠ 0) :
    Step c s (setTask s t (.sload o td r false))
  | sloadSkip (t o : Nat) (td : List Nat) (r : Nat) (hpc : s.task t = .sload o td r false)
      (he : (s.recs r).updateCount = (s.recs r).collectedCount) :
    Step c s (setTask (setRec s r (fun x => { x with inactive := 0 })) t (.scan o td))
  | sloadGo (t o : Nat) (td : List Nat) (r : Nat) (rel : Bool) (hpc : s.task t = .sload o td r rel)
      (he : rel = true ∨ (s.recs r).updateCount ≠ (s.recs r).collectedCount) :
    Step c s (setTask s t (.ini o td r (s.recs r).updateCount (s.recs r).updN rel))
  | tIniDone (t o : Nat) (td : List Nat) (r m mN : Nat) (rel : Bool) (hpc : s.task t = .ini o td r m mN rel)
      (hlen : numLeaves c s r ≤ (s.recs r).accs.length) :
    Step c s (setTask s t (.mv o td r m mN rel 0))
  | mv (t o : Nat) (td : List Nat) (r m mN : Nat) (rel : Bool) (k a : Nat) (hpc : s.task t = .mv o td r m mN rel k)
      (ha : (s.recs r).accs[k]? = some a) (hs : (s.acc a).slock = none) :
    Step c s (setTask (setAcc s a (fun x =>
          { x with snap := x.cur, cur := { val := (c.agg x.leaf).reset x.cur.val, ops := [] }, slock := some t })) t
          (.mg o td r m mN rel k))
  | finKeep (t o : Nat) (td : List Nat) (r m mN : Nat) (k : Nat) (hpc : s.task t = .mv o td r m mN false k)
      (ha : (s.recs r).accs[k]? = none) :
    Step c s (setTask (setRec s r (fun x => { x with collectedCount := m, colN := mN, inactive := 0 })) t (.scan o td))
  | finRel (t o : Nat) (td : List Nat) (r m mN : Nat) (k : Nat) (hpc : s.task t = .mv o td r m mN true k)
      (ha : (s.recs r).accs[k]? = none) :
    Step c s (setTask { (setRec s r (fun x => { x with collectedCount := m, colN := mN, inactive := 0 })) with
      table := Verif.upd s.table o ((s.table o).filter (fun x => !(x == r))) } t (.scan o td))
  | mg (t o : Nat) (td : List Nat) (r m mN : Nat) (rel : Bool) (k a : Nat) (hpc : s.task t = .mg o td r m mN rel k)
      (ha : (s.recs r).accs[k]? = some a) :
    Step c s (setTask (setAcc (setHold s (s.acc a).holder (fun y =>
        { y with store := { val := (c.agg (s.acc a).leaf).merge y.store.val (s.acc a).snap.val,
                            ops := (s.acc a).snap.ops ++ y.store.ops } }))
        a (fun x => { x with snap := { x.snap with ops := [] } })) t (.rl o td r m mN rel k))
  | rlKeep (t o : Nat) (td : List Nat) (r m mN : Nat) (k a : Nat) (hpc : s.task t = .rl o td r m mN false k)
      (ha : (s.recs r).accs[k]? = some a) :
    Step c s (setTask (setAcc s a (fun x => { x with slock := none, released := false })) t
      (.mv o td r m mN false (k + 1)))
  | rlRel (t o : Nat) (td : List Nat) (r m mN : Nat) (k a : Nat) (hpc : s.task t = .rl o td r m mN true k)
      (ha : (s.recs r).accs[k]? = some a) :
    Step c s (setTask (setAcc (setHold s (s.acc a).holder (fun y => { y with aux := decAux y.aux }))
      a (fun x => { x with slock := none, released := true })) t (.mv o td r m mN true (k + 1)))
  | lockl (t l : Nat) (hpc : s.task t = .lockl l) (hl : s.llock l = none) :
    Step c s (setTask { s with llock := Verif.upd s.llock l (some t) } t (.lscan l (s.data l)))
  | lscanEnd (t l : Nat) (hpc : s.task t = .lscan l []) :
    Step c s (setTask { s with llock := Verif.upd s.llock l none } t .done)
  | lscanDelta (t l : Nat) (td : List (KS × Nat)) (k : KS) (h : Nat) (hpc : s.task t = .lscan l td)
      (hr : (k, h) ∈ td) (hd : c.delta l = true) :
    Step c s (setTask s t (.lmv l (td.filter (fun e => !(e.1 == k))) k h (s.hold h).aux))
  | lscanCum (t l : Nat) (td : List (KS × Nat)) (k : KS) (h : Nat) (hpc : s.task t = .lscan l td)
      (hr : (k, h) ∈ td) (hd : c.delta l = false) :
    Step c s (setTask { s with emits := { leaf := l, key := k, val := (s.hold h).store.val,
                                          ops := (s.hold h).store.ops, kept := true } :: s.emits } t
      (.lscan l (td.filter (fun e => !(e.1 == k)))))
  | lmvKeep (t l : Nat) (td : List (KS × Nat)) (k : KS) (h : Nat) (nr : Int) (hpc : s.task t = .lmv l td k h nr)
      (hc : (c.agg l).hasChange (s.hold h).store.val = true ∨ nr ≠ 0) :
    Step c s (setTask { (setHold s h (fun x => { x with store :=
        { val := (c.agg l).reset (s.hold h).store.val, ops := [] } })) with
        emits := { leaf := l, key := k, val := (s.hold h).store.val, ops := (s.hold h).store.ops,
                   kept := (c.agg l).hasChange (s.hold h).store.val } :: s.emits } t (.lscan l td))
  | lmvDel (t l : Nat) (td : List (KS × Nat)) (k : KS) (h : Nat) (hpc : s.task t = .lmv l td k h 0)
      (hc : (c.agg l).hasChange (s.hold h).store.val = false) :
    Step c s (setTask { (setHold s h (fun x => { x with store :=
        { val := (c.agg l).reset (s.hold h).store.val, ops := [] } })) with
        emits := { leaf := l, key := k, val := (s.hold h).store.val, ops := (s.hold h).store.ops,
                   kept := false } :: s.emits
        data := Verif.upd s.data l (Storage.delete (s.data l) k) } t (.lscan l td))

theorem initStep_sound {c : Cfg AL KS N S} {s s' : State AL KS N S} {r : Nat}
    (hw : (∃ i, (s.op i).pc = .ini r) ∨ (∃ t o td m mN rel, s.task t = .ini o td r m mN rel))
    (h : initStep c s r = some s') : Step c s s' := by
  unfold initStep at h
  split at h
  · cases h
  · rename_i l hl
    split at h
    · cases h
    · rename_i hll
      have hll : s.llock l = none := by
        cases hx : s.llock l with
        | none => rfl
        | some x => simp [hx] at hll
      cases hf : Storage.find (s.data l) (Storage.resolveKey (c.lim l) c.overflowKS (s.data l)
          (c.filt l (c.newSet (s.recs r).attrs))) with
      | none =>
        have := Step.initNew (c := c) (s := s) r l _ hw hl hll rfl hf
        simp only [Storage.getOrCreate, hf, Option.isNone_none, if_true, Option.some.injEq] at h
        rw [← h]
        simpa [initNew] using this
      | some x =>
        have := Step.initOld (c := c) (s := s) r l _ x hw hl hll rfl hf
        simp only [Storage.getOrCreate, hf, Option.isNone_some, Option.some.injEq] at h
        rw [← h]
        have hd : Verif.upd s.data l (s.data l) = s.data := by
          funext y; simp [upd_apply]; intro hy; rw [hy]
        simpa [initOld, hd] using this

omit [DecidableEq KS] in
theorem findRead_spec {c : Cfg AL KS N S} {s : State AL KS N S} {o : Nat} {a : AL} {r : Nat}
    (h : findRead c s o a = some r) : r ∈ s.table o ∧ matchRead c s a r := by
  unfold findRead at h
  split at h
  · rename_i hi
    have hm := List.mem_of_mem_head? h
    simp only [chain, List.mem_filter, beq_iff_eq] at hm
    exact ⟨hm.1, hm.2, Or.inl hi⟩
  · have hm := List.mem_of_find?_eq_some h
    have hp := List.find?_some h
    simp only [chain, List.mem_filter, beq_iff_eq] at hm
    exact ⟨hm.1, hm.2, Or.inr hp⟩

omit [DecidableEq KS] in
theorem findWrite_spec {c : Cfg AL KS N S} {s : State AL KS N S} {o : Nat} {a : AL} {r : Nat}
    (h : findWrite c s o a = some r) : r ∈ s.table o ∧ matchWrite c s a r := by
  unfold findWrite at h
  have hm := List.mem_of_find?_eq_some h
  have hp := List.find?_some h
  simp only [chain, List.mem_filter, beq_iff_eq] at hm
  simp only [Bool.or_eq_true] at hp
  exact ⟨hm.1, hm.2, hp⟩

/-- Every executable step is one of the listed ones, provided records visible in an unlocked table are mapped. -/
theorem step_sound {c : Cfg AL KS N S} {s s' : State AL KS N S} {act : Action AL N}
    (hev : ∀ o r, s.lock o = none → r ∈ s.table o → (s.recs r).word % 2 = 0)
    (h : step c s act = some s') : Step c s s' := by
  cases act with
  | observe o a n => simp only [step, Option.some.injEq] at h; subst h; exact .observe o a n
  | snapshot o => simp only [step, Option.some.injEq] at h; subst h; exact .snapshot o
  | collect l => simp only [step, Option.some.injEq] at h; subst h; exact .collect l
  | op i =>
    simp only [step, stepOp] at h
    split at h
    · cases h
    · cases h
    · rename_i a hpc
      split at h
      · cases h
      · rename_i hl
        have hl : s.lock (s.op i).obs = none := by
          cases hx : s.lock (s.op i).obs with
          | none => rfl
          | some x => simp [hx] at hl
        have href : ∀ r, r ∈ s.table (s.op i).obs →
            tryRef s r = (setRec s r (fun x => { x with word := x.word + 2 }), true) := by
          intro r hr
          have := hev _ r hl hr
          simp only [tryRef, refWord, Prod.mk.injEq, true_and, beq_iff_eq]
          omega
        cases hf : findRead c s (s.op i).obs a with
        | some r =>
          have hs := findRead_spec hf
          have h1 : acquireRead c s (s.op i).obs a =
              (setRec s r (fun x => { x with word := x.word + 2 }), a, some r) := by
            simp [acquireRead, readPass, hf, href r hs.1]
          rw [h1] at h
          simp only [Option.some.injEq] at h
          rw [← h]
          exact .rdHit i a a r hpc hl hs.1 (Or.inl rfl) hs.2
        | none =>
          by_cases hlim : c.limit - 1 ≤ tableLen c s (s.op i).obs
          · cases hf2 : findRead c s (s.op i).obs c.overflowAL with
            | some r =>
              have hs := findRead_spec hf2
              have h1 : acquireRead c s (s.op i).obs a =
                  (setRec s r (fun x => { x with word := x.word + 2 }), c.overflowAL, some r) := by
                simp [acquireRead, readPass, hf, hlim, hf2, href r hs.1]
              rw [h1] at h
              simp only [Option.some.injEq] at h
              rw [← h]
              exact .rdHit i a c.overflowAL r hpc hl hs.1 (Or.inr ⟨rfl, hf, hlim⟩) hs.2
            | none =>
              have h1 : acquireRead c s (s.op i).obs a = (s, c.overflowAL, none) := by
                simp [acquireRead, readPass, hf, hlim, hf2]
              rw [h1] at h
              simp only [Option.some.injEq] at h
              rw [← h]
              exact .rdMiss i a c.overflowAL hpc hl ⟨hf, Or.inr ⟨rfl, hlim, hf2⟩⟩
          · have h1 : acquireRead c s (s.op i).obs a = (s, a, none) := by
              simp [acquireRead, readPass, hf, hlim]
            rw [h1] at h
            simp only [Option.some.injEq] at h
            rw [← h]
            exact .rdMiss i a a hpc hl ⟨hf, Or.inl ⟨rfl, by omega⟩⟩
    · rename_i a hpc
      split at h
      · cases h
      · rename_i hl
        have hl : s.lock (s.op i).obs = none := by
          cases hx : s.lock (s.op i).obs with
          | none => rfl
          | some x => simp [hx] at hl
        cases hf : findWrite c s (s.op i).obs a with
        | some r =>
          have hs := findWrite_spec hf
          have hw := hev _ r hl hs.1
          have h1 : acquireWrite c s (s.op i).obs a =
              (setRec s r (fun x => { x with word := x.word + 2 }), some r) := by
            have : ((s.recs r).word + 2) % 2 = 0 := by omega
            simp [acquireWrite, hf, tryRef, refWord, this]
          rw [h1] at h
          simp only [Option.some.injEq] at h
          rw [← h]
          exact .wrHit i a r hpc hl hs.1 hs.2
        | none =>
          simp only [acquireWrite, hf, Option.some.injEq] at h
          rw [← h]
          exact .wrNew i a hpc hl hf
    · rename_i r hpc
      split at h
      · exact initStep_sound (Or.inl ⟨i, hpc⟩) h
      · simp only [Option.some.injEq] at h
        rw [← h]
        exact .iniDone i r hpc (by omega)
    · rename_i r k hpc
      split at h
      · rename_i hk
        simp only [Option.some.injEq] at h; rw [← h]; exact .fetch i r k hpc hk
      · rename_i hk
        simp only [Option.some.injEq] at h; rw [← h]; exact .fetchEnd i r k hpc (by omega)
    · rename_i r k sq hpc
      split at h
      · cases h
      · rename_i a ha
        simp only [Option.some.injEq] at h; rw [← h]; exact .upd i r k sq a hpc ha
    · rename_i r hpc
      simp only [Option.some.injEq] at h; rw [← h]
      exact .cnt i r hpc
    · rename_i r hpc
      simp only [Option.some.injEq] at h; rw [← h]; exact .unref i r hpc
  | task t ch =>
    simp only [step, stepTask] at h
    split at h
    · cases h
    · cases h
    · rename_i o hpc
      split at h
      · cases h
      · rename_i hl
        have hl : s.lock o = none := by
          cases hx : s.lock o with
          | none => rfl
          | some x => simp [hx] at hl
        simp only [Option.some.injEq] at h; rw [← h]; exact .lockw t o hpc hl
    · rename_i o td hpc
      split at h
      · split at h
        · rename_i he
          simp only [List.isEmpty_iff] at he
          subst he
          simp only [Option.some.injEq] at h; rw [← h]; exact .scanEnd t o hpc
        · cases h
      · rename_i r hr
        have hr := List.mem_of_getElem? hr
        split at h
        · rename_i he
          split at h
          · rename_i hp
            simp only [Option.some.injEq] at h; rw [← h]; exact .scanIdle t o td r hpc hr he hp
          · rename_i hp
            simp only [Option.some.injEq] at h; rw [← h]; exact .scanUnmap t o td r hpc hr he (by omega)
        · rename_i he
          simp only [Option.some.injEq] at h; rw [← h]; exact .scanSnap t o td r hpc hr he
    · rename_i o td r hpc
      simp only [Option.some.injEq] at h
      by_cases hw : (s.recs r).word = 0
      · have := Step.unmapOk (c := c) t o td r hpc hw
        rw [← h]; simpa [tryUnmapWord, hw] using this
      · have := Step.unmapFail (c := c) t o td r hpc hw
        rw [← h]
        have hid : setRec s r (fun x => { x with word := (s.recs r).word }) = s := by
          have : upd s.recs r (s.recs r) = s.recs := by
            funext y; simp [upd_apply]; intro hy; rw [hy]
          simp [setRec, this]
        simp only [tryUnmapWord, hw, if_false]
        rw [hid]; exact this
    · rename_i o td r rel hpc
      split at h
      · rename_i he
        obtain ⟨he1, he2⟩ := he
        subst he1
        simp only [Option.some.injEq] at h; rw [← h]; exact .sloadSkip t o td r hpc he2
      · rename_i he
        simp only [Option.some.injEq] at h; rw [← h]
        refine .sloadGo t o td r rel hpc ?_
        cases rel with
        | true => exact Or.inl rfl
        | false => right; intro hx; exact he ⟨rfl, hx⟩
    · rename_i o td r m mN rel hpc
      split at h
      · exact initStep_sound (Or.inr ⟨t, o, td, m, mN, rel, hpc⟩) h
      · simp only [Option.some.injEq] at h; rw [← h]; exact .tIniDone t o td r m mN rel hpc (by omega)
    · rename_i o td r m mN rel k hpc
      split at h
      · rename_i ha
        simp only [Option.some.injEq] at h; rw [← h]
        cases rel with
        | false => exact .finKeep t o td r m mN k hpc ha
        | true => exact .finRel t o td r m mN k hpc ha
      · rename_i a ha
        split at h
        · cases h
        · rename_i hs
          have hs : (s.acc a).slock = none := by
            cases hx : (s.acc a).slock with
            | none => rfl
            | some x => simp [hx] at hs
          simp only [Option.some.injEq] at h; rw [← h]; exact .mv t o td r m mN rel k a hpc ha hs
    · rename_i o td r m mN rel k hpc
      split at h
      · cases h
      · rename_i a ha
        simp only [Option.some.injEq] at h; rw [← h]; exact .mg t o td r m mN rel k a hpc ha
    · rename_i o td r m mN rel k hpc
      split at h
      · cases h
      · rename_i a ha
        simp only [Option.some.injEq] at h; rw [← h]
        cases rel with
        | false => exact .rlKeep t o td r m mN k a hpc ha
        | true => exact .rlRel t o td r m mN k a hpc ha
    · rename_i l hpc
      split at h
      · cases h
      · rename_i hl
        have hl : s.llock l = none := by
          cases hx : s.llock l with
          | none => rfl
          | some x => simp [hx] at hl
        simp only [Option.some.injEq] at h; rw [← h]; exact .lockl t l hpc hl
    · rename_i l td hpc
      split at h
      · split at h
        · rename_i he
          simp only [List.isEmpty_iff] at he
          subst he
          simp only [Option.some.injEq] at h; rw [← h]; exact .lscanEnd t l hpc
        · cases h
      · rename_i k hh hr
        have hr := List.mem_of_getElem? hr
        split at h
        · rename_i hd
          simp only [Option.some.injEq] at h; rw [← h]; exact .lscanDelta t l td k hh hpc hr hd
        · rename_i hd
          simp only [Option.some.injEq] at h; rw [← h]
          exact .lscanCum t l td k hh hpc hr (by simpa using hd)
    · rename_i l td k hh nr hpc
      simp only [Option.some.injEq] at h
      by_cases hc : (c.agg l).hasChange (s.hold hh).store.val = false ∧ nr = 0
      · obtain ⟨hc, hn⟩ := hc
        subst hn
        have := Step.lmvDel (c := c) t l td k hh hpc hc
        rw [← h]; simpa [hc, setHold] using this
      · have hc' : (c.agg l).hasChange (s.hold hh).store.val = true ∨ nr ≠ 0 := by
          cases hx : (c.agg l).hasChange (s.hold hh).store.val with
          | true => exact Or.inl rfl
          | false => right; intro hn; exact hc ⟨hx, hn⟩
        have := Step.lmvKeep (c := c) t l td k hh nr hpc hc'
        rw [← h]; simpa [hc, setHold] using this

end Verif.Sync
