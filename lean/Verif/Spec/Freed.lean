import Verif.Spec.Sync

/-!
Specification vocabulary for a program that has stopped recording while collections go on (C109).
-/

namespace Verif.Sync
variable {AL KS N S : Type} [DecidableEq KS]

/-- No measurement call and no collector task is under way. -/
def AtRest (s : State AL KS N S) : Prop :=
  (∀ i, i < s.nextOp → (s.op i).pc = .done) ∧ (∀ t, t < s.nextTask → s.task t = .done)

/-- No measurement call is made in a schedule. -/
def Silent (acts : List (Action AL N)) : Prop := ∀ o a n, ¬ Action.observe o a n ∈ acts

/-- In the run of schedule `acts` from `s` the collector task `k` is started, and it has finished at the end. -/
def CarriedOut (c : Cfg AL KS N S) (s : State AL KS N S) (acts : List (Action AL N)) (k : Action AL N) : Prop :=
  ∃ pre post s1 s2, acts = pre ++ k :: post ∧ run c s pre = some s1 ∧ run c s acts = some s2 ∧
    s2.task s1.nextTask = .done

/-- `n` collections, one after the other, without any measurement call: in each, `SnapshotAndProcess` of every
instrument in `os` and `Collect` of every view in `ls` is carried out, in any order and interleaved in any way with each
other and with other collector tasks. -/
inductive Rounds (c : Cfg AL KS N S) (os ls : List Nat) : Nat → State AL KS N S → State AL KS N S → Prop
  | none (s : State AL KS N S) : Rounds c os ls 0 s s
  | more {n : Nat} {s s1 s2 : State AL KS N S} (acts : List (Action AL N)) (h : Rounds c os ls n s s1)
      (hrun : run c s1 acts = some s2) (hq : Silent acts)
      (ho : ∀ o, o ∈ os → CarriedOut c s1 acts (.snapshot o))
      (hl : ∀ l, l ∈ ls → CarriedOut c s1 acts (.collect l)) : Rounds c os ls (n + 1) s s2

end Verif.Sync
