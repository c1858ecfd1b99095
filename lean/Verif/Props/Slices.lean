import Verif.Proof.Slices
import Verif.Examples.SyncCfg

/-!
# C59: the caller may reuse its attribute slice once the call has returned

Also with `IgnoreCollisions`, where the SDK does not copy the slice.
-/

namespace Verif.Props
open Verif Verif.Sync
variable {AL KS N S : Type} [DecidableEq KS] [DecidableEq AL]

/-- The actions of a schedule other than the callers' writes. -/
def withoutWrites (acts : List (Slices.Action AL N)) : List (Sync.Action AL N) :=
  acts.filterMap (fun a => match a with | .base b => some b | .write _ _ => none)

/-- **C59.** Take any execution in which callers overwrite, at any time after their call returned, the slice they passed.
The SDK ends in exactly the state it would be in had nobody written: the same series, the same values, the same reported
points. -/
theorem C59_reuse_invisible (c : Cfg AL KS N S) (n0 : N) (acts : List (Slices.Action AL N)) (w : Slices.State AL KS N S)
    (h : Slices.run c (Slices.initial c n0) acts = some w) :
    Sync.run c (Sync.initial c n0) (withoutWrites acts) = some w.base :=
  (Slices.run_base acts _ ⟨[], rfl⟩ (Slices.Inv.initial n0) h).2.2

/-- **C59.** The SDK looks at the slice of a call, to set up the series, only while that call is in progress. -/
theorem C59_read_only_during_call (c : Cfg AL KS N S) (n0 : N) (acts : List (Slices.Action AL N)) (w : Slices.State AL KS N S)
    (h : Slices.run c (Slices.initial c n0) acts = some w) (a : Sync.Action AL N) (r i : Nat)
    (hr : Slices.initialises c w.base a = some r) (hsrc : w.src r = some i) : (w.base.op i).pc ≠ .done := by
  obtain ⟨hr', hinv, -⟩ := Slices.run_base acts _ ⟨[], rfl⟩ (Slices.Inv.initial n0) h
  obtain ⟨-, hlt, hw⟩ := Slices.initialises_step hr
  have hp := reachable_prog hr'
  have := (hinv.own r i (ini_lt hp.1.wf.opRec hp.1.wf.todoMem hp.1.wf.tblLt hw) hlt hsrc).2.1
  rw [this]
  simp

/-! A concrete case: collisions are ignored, the first call fills its slice with 1 and creates the record; a second call on
the same attributes arrives in between and initialises part of the record; both return, overwrite their slices, and a
collection follows. The series reported is the one of attribute list 1. -/

section
open Verif.Examples

def cfgIgnore : C := { cfg with ignoreColl := true }

def reuseSched : List (Slices.Action Nat Number.Bits) :=
  ([.observe 0 1 5, .op 0, .op 0, .op 0, .observe 0 1 7, .op 1] ++ call 1 9 ++ call 0 8 : List Act).map .base ++
  [.write 0 3, .write 1 2] ++
  ([.snapshot 0] ++ steps 0 11 ++ [.collect 0] ++ steps 1 4 : List Act).map .base

example : ∃ w, Slices.run cfgIgnore (Slices.initial cfgIgnore 0) reuseSched = some w ∧
    (w.mem 0 = 3 ∧ w.mem 1 = 2 ∧ w.base.emits.map (fun e => (e.leaf, e.key)) = [(0, 1)] ∧
      (w.base.op 0).pc = .done ∧ (w.base.op 1).pc = .done) :=
  exists_of_eval (by decide +kernel)

/-- The first call is in the middle of creating its series, and the next step reads its slice. -/
example : ∃ w, Slices.run cfgIgnore (Slices.initial cfgIgnore 0) (reuseSched.take 3) = some w ∧
    (Slices.initialises cfgIgnore w.base (.op 0) = some 0 ∧ w.src 0 = some 0) :=
  exists_of_eval (by decide +kernel)

/-- Writing is harmful while the call runs: had the caller overwritten its slice now, the series would be another one. -/
example : ∃ w, Slices.run cfgIgnore (Slices.initial cfgIgnore 0) (reuseSched.take 3) = some w ∧
    ((Slices.listOf cfgIgnore w 0, Slices.listOf cfgIgnore { w with mem := upd w.mem 0 3 } 0) = (1, 3)) :=
  exists_of_eval (by decide +kernel)

end

end Verif.Props
