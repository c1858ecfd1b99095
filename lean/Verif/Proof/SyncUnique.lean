import Verif.Proof.SyncIdle

/-! Helper file: the records of an instrument's table have pairwise different attribute lists. -/

namespace Verif.Sync
open Verif

section
variable {AL KS N S : Type} [DecidableEq KS]
variable {c : Cfg AL KS N S} {s s' : State AL KS N S}
set_option maxHeartbeats 1000000

/-- An older and a newer record of a table never match under the search made with the write lock. -/
def TblDistinct (c : Cfg AL KS N S) (s : State AL KS N S) : Prop :=
  ∀ o r r', r ∈ s.table o → r' ∈ s.table o → r < r' → c.fp (s.recs r).attrs = c.fp (s.recs r').attrs →
    c.ignoreColl = false ∧ c.eqv (s.recs r).attrs (s.recs r').attrs = false

omit [DecidableEq KS] in
theorem findWrite_none {o : Nat} {a : AL} (h : findWrite c s o a = none) {r : Nat} (hr : r ∈ s.table o)
    (hf : c.fp (s.recs r).attrs = c.fp a) : c.ignoreColl = false ∧ c.eqv (s.recs r).attrs a = false := by
  unfold findWrite at h
  rw [List.find?_eq_none] at h
  have := h r (by simp [chain, hr, hf])
  simpa using this

theorem TblDistinct.preserved (h : TblDistinct c s) (w : Wf c s) (hs : Step c s s') : TblDistinct c s' := by
  cases hs
  case wrNew i a hpc hl hf =>
    have key := @findWrite_none AL KS N S c s _ a hf
    have hlt : ∀ o r, r ∈ s.table o → r < s.nextRec := fun o r hr => (w.tblLt o r hr).1
    unfold TblDistinct at *
    intro o r r' hr hr' hlt' hfp
    revert hr hr' hfp
    simp only [setOpPc, upd_apply]
    intro hr hr' hfp
    have h1 := h o r r'
    have h2 := hlt o r
    have h3 := hlt o r'
    have h4 := @key r
    grind [newRec]
  all_goals first
    | exact h
    | (unfold TblDistinct at *
       intro o r r' hr hr' hlt' hfp
       have h1 := h o r r'
       revert hr hr' hfp h1
       simp only [setRec, setOpPc, setTask, setAcc, setHold, initOld, initNew, upd_apply]
       grind)

theorem reachable_distinct {n0 : N} (hr : Reachable c n0 s) : TblDistinct c s :=
  (reachable_ind (P := TblDistinct c) (by intro o r r' h; simp [Sync.initial] at h) (fun _ _ hi h hs => h.preserved hi.wf hs) hr).2

end
end Verif.Sync
