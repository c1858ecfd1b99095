import Verif.Model.SyncMachine

/-!
Specification vocabulary for the synchronous pipeline: what has been reported, for which view and series.
-/

namespace Verif.Sync
variable {AL KS N S : Type} [DecidableEq KS]

/-- Everything reported so far for series `k` of view `l`: the updates contained in all points of that series. -/
def reported (s : State AL KS N S) (l : Nat) (k : KS) : List (Nat × Nat) :=
  (s.emits.filter (fun e => e.leaf == l && e.key == k)).flatMap (·.ops)

/-- Everything reported so far for view `l`, under any series. -/
def reportedView (s : State AL KS N S) (l : Nat) : List (Nat × Nat) :=
  (s.emits.filter (fun e => e.leaf == l)).flatMap (·.ops)

/-- How many times measurement call `i` is contained in the points reported so far for view `l`. -/
def timesReported (s : State AL KS N S) (l i : Nat) : Nat := (reportedView s l).countP (fun e => e.1 == i)

/-- Updates applied to series `k` of view `l`. -/
def appliedTo (s : State AL KS N S) (l : Nat) (k : KS) : List (Nat × Nat) :=
  (s.applied.filter (fun e => e.1 == l && e.2.1 == k)).map (·.2.2)

/-- The numbers recorded by the calls of a list of updates. -/
def values (s : State AL KS N S) (ops : List (Nat × Nat)) : List N := ops.map (fun e => (s.op e.1).num)

/-- All updates applied to view `l`, under any series. -/
def appliedAll (s : State AL KS N S) (l : Nat) : List (Nat × Nat) := (s.applied.filter (fun e => e.1 == l)).map (·.2.2)

/-- The points of view `l` that were actually exported (not suppressed), newest first. -/
def exported (s : State AL KS N S) (l : Nat) : List (Emit KS S) := s.emits.filter (fun e => e.leaf == l && e.kept)

/-- Updates of series `k` of view `l` still in the per-attribute-list accumulators (or between `Move` and `Merge`). -/
def inAccs (s : State AL KS N S) (l : Nat) (k : KS) : List (Nat × Nat) :=
  ((List.range s.nextAcc).filter (fun a => (s.acc a).leaf == l && (s.acc a).key == k)).flatMap
    (fun a => (s.acc a).cur.ops ++ (s.acc a).snap.ops)

/-- Updates stored in series `k` of view `l`, provided the view still lists that series. -/
def inSeries (s : State AL KS N S) (l : Nat) (k : KS) : List (Nat × Nat) :=
  ((s.data l).filter (fun e => e.1 == k)).flatMap (fun e => (s.hold e.2).store.ops)

/-- Updates of view `l`, any series, still in accumulators (or between `Move` and `Merge`). -/
def inAccsAll (s : State AL KS N S) (l : Nat) : List (Nat × Nat) :=
  ((List.range s.nextAcc).filter (fun a => (s.acc a).leaf == l)).flatMap (fun a => (s.acc a).cur.ops ++ (s.acc a).snap.ops)

/-- Updates stored in any series listed by view `l`. -/
def inSeriesAll (s : State AL KS N S) (l : Nat) : List (Nat × Nat) :=
  (s.data l).flatMap (fun e => (s.hold e.2).store.ops)

/-- The numbers recorded by all calls made so far on instruments feeding view `l`, each as often as the instrument
lists the view (once, normally). -/
def recorded (c : Cfg AL KS N S) (s : State AL KS N S) (l : Nat) : List N :=
  (List.range s.nextOp).flatMap (fun i => List.replicate ((c.leavesOf (s.op i).obs).count l) (s.op i).num)

/-- Fewer than `W` updates reached each record of instrument `o` since its last snapshot. -/
def NoWrap (c : Cfg AL KS N S) (o : Nat) (s : State AL KS N S) : Prop :=
  ∀ r, r < s.nextRec → (s.recs r).obs = o → (s.recs r).updN < (s.recs r).colN + c.W

/-- A predicate holds in every state of a run. -/
def Along (c : Cfg AL KS N S) (P : State AL KS N S → Prop) : State AL KS N S → List (Action AL N) → Prop
  | s, [] => P s
  | s, a :: as => P s ∧ ∀ s', step c s a = some s' → Along c P s' as

/-- Runs in which calls on the instruments in `G` do not overlap: such a call starts only after every earlier one has
returned. Collections, and calls on other instruments, still interleave freely. -/
inductive SeqReachable (c : Cfg AL KS N S) (G : Nat → Prop) (n0 : N) : State AL KS N S → Prop
  | init : SeqReachable c G n0 (initial c n0)
  | step {s s' : State AL KS N S} (a : Action AL N) (h : SeqReachable c G n0 s) (hs : step c s a = some s')
      (hq : ∀ o x n, a = .observe o x n → G o → ∀ i, i < s.nextOp → G (s.op i).obs → (s.op i).pc = .done) :
      SeqReachable c G n0 s'

/-- In this step some snapshot task visits record `r`: it takes it off the list of records to visit. -/
def Visits (s s' : State AL KS N S) (r : Nat) : Prop := ∃ t, r ∈ (s.task t).todoR ∧ ¬ r ∈ (s'.task t).todoR

/-- A run from `s` during which `Q` holds before every step and record `r` is visited exactly `n` times. -/
inductive RunV (c : Cfg AL KS N S) (r : Nat) (Q : State AL KS N S → Prop) (s : State AL KS N S) : Nat → State AL KS N S → Prop
  | start : RunV c r Q s 0 s
  | visit {n : Nat} {s1 s2 : State AL KS N S} (a : Action AL N) (h : RunV c r Q s n s1) (hq : Q s1) (hs : step c s1 a = some s2)
      (hv : Visits s1 s2 r) : RunV c r Q s (n + 1) s2
  | other {n : Nat} {s1 s2 : State AL KS N S} (a : Action AL N) (h : RunV c r Q s n s1) (hq : Q s1) (hs : step c s1 a = some s2)
      (hv : ¬ Visits s1 s2 r) : RunV c r Q s n s2

/-- In this step the idle count of record `r` restarts: the record is created, or a visit that went beyond the idle check
(because there were updates, or because removal was attempted) ends and leaves the record in the table. -/
def Restarts (s s' : State AL KS N S) (r : Nat) : Prop :=
  (r = s.nextRec ∧ r < s'.nextRec) ∨
  ((∃ t, (s.task t).curR = some r ∧ (s'.task t).curR ≠ some r) ∧ r ∈ s'.table (s'.recs r).obs)

/-- Call `i` is using record `r`: it has found or created the record and has not yet finished with it. -/
def Uses (s : State AL KS N S) (i r : Nat) : Prop :=
  (s.op i).pc = .ini r ∨ (∃ k, (s.op i).pc = .fetch r k) ∨ (∃ k q, (s.op i).pc = .upd r k q) ∨ (s.op i).pc = .cnt r ∨
  (s.op i).pc = .unref r

/-- No call is using record `r`, and no update happened since its last snapshot. -/
def Idle (s : State AL KS N S) (r : Nat) : Prop :=
  (∀ i, ¬ Uses s i r) ∧ (s.recs r).updateCount = (s.recs r).collectedCount

/-- Snapshot task `t` is at record `r`, beyond the idle check, and has decided to keep it. -/
def Keeps (s : State AL KS N S) (t r : Nat) : Prop :=
  ∃ o td, s.task t = .sload o td r false ∨ ∃ m mN, s.task t = .ini o td r m mN false ∨
    ∃ k, s.task t = .mv o td r m mN false k ∨ s.task t = .mg o td r m mN false k ∨ s.task t = .rl o td r m mN false k

end Verif.Sync
