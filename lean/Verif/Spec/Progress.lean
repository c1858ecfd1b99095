import Verif.Spec.Delivery

/-!
Steps by which a program finishes what has begun.
-/

namespace Verif.Delivery
open Verif.Attr Verif.Number Verif.Assembly
variable {C G ν : Type} [DecidableEq C]

/-- Something which has begun goes on: a call on an instrument, a `SnapshotAndProcess` or `Collect`, an observation or callback, `Produce`, the loop of the reader, a
`ForceFlush` or `Shutdown`. Nothing begins: no call is made, no callback starts, the ticker does not fire. -/
def ongoing : Act ν → Bool
  | .op _ => true
  | .task _ _ => true
  | .cb (.op _) => true
  | .cb (.endCb _) => true
  | .produce _ => true
  | .reader (.go _ _) _ => true
  | _ => false

/-- Some goroutine does something which has an effect. -/
def Goes (farm : Str → UInt64) (w : World C G) (fsub : Bits → Bits → Bits) (x : Views.Ext C) (pipe : Nat) (s s' : Sys C G ν) : Prop :=
  s' ≠ s ∧ ∃ a, ongoing a = true ∧ step farm w fsub x pipe s a = some s'

/-- One possible schedule from `s` on, while nothing new begins: as long as some goroutine can do something, one does. -/
def Schedule (farm : Str → UInt64) (w : World C G) (fsub : Bits → Bits → Bits) (x : Views.Ext C) (pipe : Nat) (s : Sys C G ν) (f : Nat → Sys C G ν) : Prop :=
  f 0 = s ∧ ∀ n, Goes farm w fsub x pipe (f n) (f (n + 1)) ∨ ((∀ y, ¬ Goes farm w fsub x pipe (f n) y) ∧ f (n + 1) = f n)

/-- Everything has returned: calls on synchronous instruments, observations (those made too late are rejected), callbacks, each `SnapshotAndProcess` and `Collect` of any
reader, and each `ForceFlush` and `Shutdown`. The loop of the reader waits for the next tick, or has returned too. -/
structure AllReturned (s : Sys C G ν) : Prop where
  calls : ∀ i, i < s.z.s.sync.nextOp → (s.z.s.sync.op i).pc = .done
  tasks : ∀ t, t < s.z.s.sync.nextTask → s.z.s.sync.task t = .done
  observations : ∀ i, i < s.z.s.async.nextOp → (s.z.s.async.op i).pc = .done ∨ (s.z.s.async.op i).pc = .rejected
  callbacks : ∀ i, i < s.z.s.async.nextCb → (s.z.s.async.cb i).live = false
  collection : s.pos = .out
  requests : ∀ (t : Nat) (th : Periodic.Thread), s.r.threads[t]? = some th → th.pos = .done ∨ (t = 0 ∧ th.pos = .idle ∧ s.r.chan = false ∧ s.r.cancelled = false)

/-- The `i`th request asks a meter which had been handed out for an instrument, and is answered without one (see C32: all readers drop it). -/
def Refused (x : Views.Ext C) (views : List (Views.Views C)) (cs : List (Provider.Call ν)) (i : Nat) : Prop :=
  ∃ k d, cs[i]? = some (.instrument k d) ∧ (∃ sc, (Provider.firsts (Provider.asked (cs.take i)))[k]? = some sc) ∧
    (Provider.responses x (Provider.new views : Provider.Provider C ν) cs)[i]? = some (.pointer none)

/-- Every request for an instrument was answered with one. -/
def Answered (x : Views.Ext C) (views : List (Views.Views C)) (cs : List (Provider.Call ν)) : Prop := ∀ i, ¬ Refused x views cs i

/-- The hint in the description asks to drop the instrument. -/
def DropHint (x : Views.Ext C) (d : Views.Desc) : Prop := ∃ h, Views.hintIn x d = some h ∧ h.aggregation ≠ [] ∧ x.lower h.aggregation = Views.lit "drop"

/-- The number of steps which the `i`th call takes in a part of an execution. -/
def stepsOf (i : Nat) : List (Act ν) → Nat
  | [] => 0
  | .op j :: acts => (if j = i then 1 else 0) + stepsOf i acts
  | _ :: acts => stepsOf i acts

/-- The number of output metrics of an instrument, over all readers. -/
def outputs (o : Provider.Inst) : Nat := (o.leaves.map List.length).sum

/-- No `SnapshotAndProcess` and no `Collect` is running, of any reader. -/
def Quiet (s : Sys C G ν) : Prop := ∀ t, t < s.z.s.sync.nextTask → s.z.s.sync.task t = .done

end Verif.Delivery
