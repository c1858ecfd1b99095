import Verif.Model.Async

/-! Vocabulary for the properties of asynchronous instruments. -/

namespace Verif.Async
open Verif

variable {K N S : Type} [DecidableEq K] [DecidableEq N]

/-- Some observation has passed its checks but has not been applied yet. -/
def InFlight (s : State K N S) : Prop := ∃ i, i < s.nextOp ∧ ((s.op i).pc = .create ∨ (s.op i).pc = .update)

/-- States reachable by any schedule. -/
def Reachable (c : Cfg K N S) (k0 : K) (s : State K N S) : Prop := ∃ acts, run c (initial c k0) acts = some s

/-- Schedules in which callbacks wait for the observations they start: when the callbacks have returned and the collection
goes on, no observation is half done. -/
inductive Quiet (c : Cfg K N S) (k0 : K) : State K N S → Prop
  | init : Quiet c k0 (initial c k0)
  | step {s s' : State K N S} {a : Action K N} : Quiet c k0 s → step c s a = some s' →
      (∀ order, a = .finish order → ¬ InFlight s) → Quiet c k0 s'

/-- The last value observed in collection `n` for an instrument and attribute set. -/
def lastObs (log : List (Ev K N)) (n obs : Nat) (set : K) : Option N :=
  (log.reverse.find? (fun e => e.coll == n && e.obs == obs && e.set == set)).map (·.val)

/-- The value reported for series `k` by view `l` in collection `n`. -/
def reported (s : State K N S) (n l : Nat) (k : K) : Option S := Storage.find (s.out n l) k

/-- The cumulative value of series `k` of view `l` in collection `n`. -/
def cumulative (s : State K N S) (n l : Nat) (k : K) : Option S := Storage.find (s.seen n l) k

end Verif.Async
