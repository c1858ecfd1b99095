import Verif.Proof.SyncRef

/-!
Helper file: release of records and series. Released accumulators are empty and never written again; the reference
count of a series is its number of unreleased accumulators; series are deleted only without references.
-/

namespace Verif.Sync
open Verif
variable {AL KS N S : Type} [DecidableEq KS]

macro "ssimp" : tactic =>
  `(tactic| simp only [setRec, setOpPc, setTask, setAcc, setHold, initOld, initNew, upd_apply])

/-- A record out of the table is complete and all its accumulators are released. -/
def RelDead (c : Cfg AL KS N S) (s : State AL KS N S) : Prop :=
  ∀ r, r < s.nextRec → ¬ r ∈ s.table (s.recs r).obs →
    numLeaves c s r ≤ (s.recs r).accs.length ∧ ∀ a, a ∈ (s.recs r).accs → (s.acc a).released = true
/-- In the table, exactly the accumulators already passed by a releasing task are released. -/
def RelPos (s : State AL KS N S) : Prop :=
  ∀ (r k a : Nat), r < s.nextRec → r ∈ s.table (s.recs r).obs → (s.recs r).accs[k]? = some a →
    ((s.acc a).released = true ↔ ∃ t, (s.task t).relR = some r ∧ k < (s.task t).idx)

section
variable {c : Cfg AL KS N S} {s s' : State AL KS N S}
set_option maxHeartbeats 1000000

omit [DecidableEq KS] in
/-- At most one task works on a record, and it is the holder of the lock. -/
theorem cur_unique (w : Wf c s) {t t' r : Nat} (h : (s.task t).curR = some r) (h' : (s.task t').curR = some r) :
    t = t' := by
  have key : ∀ {t}, (s.task t).curR = some r → ∃ o, (s.task t).lockObs = some o := by
    intro t h
    cases hp : s.task t <;> simp_all [TPc.curR, TPc.lockObs]
  obtain ⟨o, ho⟩ := key h
  obtain ⟨o', ho'⟩ := key h'
  have h1 := w.tblLt o r ((w.todoMem t o ho).2 r h).1
  have h2 := w.tblLt o' r ((w.todoMem t' o' ho').2 r h').1
  have h3 := w.lockTask t o ho
  have h4 := w.lockTask t' o' ho'
  have : o = o' := by rw [← h1.2, h2.2]
  subst this
  rw [h3] at h4; simpa using h4

omit [DecidableEq KS] in
theorem rel_cur {t r : Nat} (h : (s.task t).relR = some r) : (s.task t).curR = some r := by
  cases hp : s.task t <;>
    simp only [hp, TPc.relR, reduceCtorEq, Option.ite_none_right_eq_some, Option.some.injEq] at h
  all_goals simp [TPc.curR, h.2]

omit [DecidableEq KS] in
/-- A pinned record is in the table and not being released. -/
theorem pinned_live (w : Wf c s) (h : Ref s) {i r : Nat} (hp : (s.op i).pc.holds r = true) :
    r ∈ s.table (s.recs r).obs ∧ ∀ t, (s.task t).relR ≠ some r := by
  have hlt := w.opRec i r hp
  have hi : i < s.nextOp := op_lt w.opIdle (by intro hc; simp [hc, OPc.holds] at hp)
  have hpos : 0 < pins s r := sumTo_pos_of (a := i) hi (by simp [hp])
  by_cases hd : ¬ r ∈ s.table (s.recs r).obs ∨ ∃ t, (s.task t).relR = some r
  · have := h.2 r hlt.1 hd; omega
  · constructor
    · exact Classical.not_not.1 (fun hc => hd (Or.inl hc))
    · intro t ht; exact hd (Or.inr ⟨t, ht⟩)

theorem RelDead.preserved (h : RelDead c s) (hp : RelPos s) (w : Wf c s) (hr : Ref s) (hs : Step c s s') : RelDead c s' := by
  have hlive := fun i r => @pinned_live _ _ _ _ c s w hr i r
  have hmem := w.accsMem
  unfold AccsMem at hmem
  cases hs
  case finRel t o td r m mN k hpc ha =>
    have hc := (w.todoMem t o (by rw [hpc]; rfl)).2 r (by rw [hpc]; rfl)
    have hfull := w.taskFull t r (by rw [hpc]; rfl)
    have hlt := w.tblLt o r hc.1
    have hrel : ∀ a, a ∈ (s.recs r).accs → (s.acc a).released = true := by
      intro a ha'
      obtain ⟨j, hj⟩ := List.getElem?_of_mem ha'
      rw [hp r j a hlt.1 (hlt.2 ▸ hc.1) hj]
      refine ⟨t, by rw [hpc]; rfl, ?_⟩
      rw [hpc]
      show j < k
      have h1 : (s.recs r).accs.length ≤ k := List.getElem?_eq_none_iff.1 ha
      have h2 : j < (s.recs r).accs.length := by
        by_cases hj2 : j < (s.recs r).accs.length
        · exact hj2
        · rw [List.getElem?_eq_none (by omega)] at hj; cases hj
      omega
    unfold RelDead numLeaves at *
    intro x h1 h2
    have := h x
    clear h hp hr hlive hmem
    revert h1 h2
    ssimp
    grind
  case initOld r l k h' hw hl hll hk hf =>
    have hin : r ∈ s.table (s.recs r).obs := by
      rcases hw with ⟨i, hi⟩ | ⟨t, o, td, m, mN, rel, ht⟩
      · exact (hlive i r (by rw [hi]; simp [OPc.holds])).1
      · have h1 := ((w.todoMem t o (by rw [ht]; rfl)).2 r (by rw [ht]; rfl)).1
        rw [(w.tblLt o r h1).2]; exact h1
    unfold RelDead numLeaves at *
    intro x h1 h2
    have := h x
    have := hmem x
    clear h hp hr hlive hmem
    revert h1 h2
    ssimp
    grind
  case initNew r l k hw hl hll hk hf =>
    have hin : r ∈ s.table (s.recs r).obs := by
      rcases hw with ⟨i, hi⟩ | ⟨t, o, td, m, mN, rel, ht⟩
      · exact (hlive i r (by rw [hi]; simp [OPc.holds])).1
      · have h1 := ((w.todoMem t o (by rw [ht]; rfl)).2 r (by rw [ht]; rfl)).1
        rw [(w.tblLt o r h1).2]; exact h1
    unfold RelDead numLeaves at *
    intro x h1 h2
    have := h x
    have := hmem x
    clear h hp hr hlive hmem
    revert h1 h2
    ssimp
    grind
  case rlKeep t o td r m mN k a hpc ha =>
    have hc := (w.todoMem t o (by rw [hpc]; rfl)).2 r (by rw [hpc]; rfl)
    have hlt := w.tblLt o r hc.1
    have hm := hmem r a hlt.1 (List.mem_of_getElem? ha)
    unfold RelDead numLeaves at *
    intro x h1 h2
    have := h x
    have := hmem x
    clear h hp hr hlive hmem
    revert h1 h2
    ssimp
    grind
  all_goals first
   | exact h
   | (unfold RelDead numLeaves at *
      intro x h1 h2
      have := h x
      clear h hp hr hlive hmem
      revert h1 h2
      ssimp
      grind [newRec])

theorem RelPos.preserved (h : RelPos s) (w : Wf c s) (hr : Ref s) (hs : Step c s s') : RelPos s' := by
  have hlive := fun i r => @pinned_live _ _ _ _ c s w hr i r
  have hmem := w.accsMem
  have huniq := fun t t' r => @cur_unique _ _ _ _ c s w t t' r
  have hrc := fun t r => @rel_cur _ _ _ _ s t r
  unfold AccsMem at hmem
  cases hs
  case initOld r l k h' hw hl hll hk hf =>
    have hlen : (s.recs r).accs.length < (c.leavesOf (s.recs r).obs).length := by
      have := (List.getElem?_eq_some_iff.1 hl).1; exact this
    have hnone : ∀ t, (s.task t).relR = some r → (s.task t).idx = 0 := by
      intro t ht
      have hf := w.taskFull t r
      unfold numLeaves at hf
      cases hp : s.task t <;>
        simp only [hp, TPc.relR, TPc.fullR, TPc.idx, reduceCtorEq, Option.ite_none_right_eq_some, Option.some.injEq] at ht hf ⊢
      all_goals (have := hf ht.2; omega)
    unfold RelPos at *
    intro x j a h1 h2 h3
    have := h x j a
    have := hmem x a
    clear h hr hmem hlive huniq hrc w
    revert h1 h2 h3
    ssimp
    grind
  case initNew r l k hw hl hll hk hf =>
    have hlen : (s.recs r).accs.length < (c.leavesOf (s.recs r).obs).length := by
      have := (List.getElem?_eq_some_iff.1 hl).1; exact this
    have hnone : ∀ t, (s.task t).relR = some r → (s.task t).idx = 0 := by
      intro t ht
      have hf := w.taskFull t r
      unfold numLeaves at hf
      cases hp : s.task t <;>
        simp only [hp, TPc.relR, TPc.fullR, TPc.idx, reduceCtorEq, Option.ite_none_right_eq_some, Option.some.injEq] at ht hf ⊢
      all_goals (have := hf ht.2; omega)
    unfold RelPos at *
    intro x j a h1 h2 h3
    have := h x j a
    have := hmem x a
    clear h hr hmem hlive huniq hrc w
    revert h1 h2 h3
    ssimp
    grind
  case finRel t o td r m mN k hpc ha =>
    have htl := w.tblLt
    unfold TblLt at htl
    unfold RelPos at *
    intro x j a h1 h2 h3
    have h0 := h x j a
    have hcur := huniq t
    by_cases hx : x = r
    · subst hx
      exfalso
      have hc := (w.todoMem t o (by rw [hpc]; rfl)).2 x (by rw [hpc]; rfl)
      have := (htl o x hc.1).2
      simp [setTask, setRec, this] at h2
    · have hmem' : x ∈ s.table (s.recs x).obs := by
        by_cases ho : (s.recs x).obs = o
        · simp [setTask, setRec, hx, ho] at h2; rw [ho]; exact h2
        · simpa [setTask, setRec, hx, ho] using h2
      have h3' : (s.recs x).accs[j]? = some a := by simpa [setTask, setRec, hx] using h3
      refine Iff.trans (h0 h1 hmem' h3') ?_
      constructor
      · rintro ⟨t', h5, h6⟩
        refine ⟨t', ?_⟩
        have : t' ≠ t := by
          intro e; subst e; rw [hpc] at h5; simp [TPc.relR] at h5; exact hx h5.symm
        simpa [setTask, this] using ⟨h5, h6⟩
      · rintro ⟨t', h5, h6⟩
        refine ⟨t', ?_⟩
        have : t' ≠ t := by
          intro e; subst e; simp [setTask, TPc.relR] at h5
        simp only [setTask, setRec, upd_ne _ _ this] at h5 h6
        exact ⟨h5, h6⟩
  case rlKeep t o td r m mN k a' hpc ha =>
    have hc := (w.todoMem t o (by rw [hpc]; rfl)).2 r (by rw [hpc]; rfl)
    have hlt := w.tblLt o r hc.1
    have hm := hmem r a' hlt.1 (List.mem_of_getElem? ha)
    have hno : ∀ t', (s.task t').relR ≠ some r := by
      intro t' ht'
      have := huniq t' t r (hrc t' r ht') (by rw [hpc]; rfl)
      subst this
      rw [hpc] at ht'; simp [TPc.relR] at ht'
    unfold RelPos at *
    intro x j a h1 h2 h3
    have := h x j a
    have := hmem x a
    have := List.mem_of_getElem? h3
    clear h hr hlive huniq hrc w hmem
    revert h1 h2 h3
    ssimp
    grind [TPc.relR, TPc.idx]
  case rlRel t o td r m mN k a' hpc ha =>
    have hc := (w.todoMem t o (by rw [hpc]; rfl)).2 r (by rw [hpc]; rfl)
    have hlt := w.tblLt o r hc.1
    have hm := hmem r a' hlt.1 (List.mem_of_getElem? ha)
    have hnd := w.accsNodup r hlt.1
    have htt : (s.task t).relR = some r := by rw [hpc]; rfl
    have hti : (s.task t).idx = k := by rw [hpc]; rfl
    unfold RelPos at *
    intro x j a h1 h2 h3
    have h0 := h x j a h1 h2 h3
    have h3' : (s.recs x).accs[j]? = some a := h3
    by_cases hx : x = r
    · subst hx
      have hkey : (∃ t', ((setTask (setAcc (setHold s (s.acc a').holder (fun y => { y with aux := decAux y.aux })) a'
          (fun x => { x with slock := none, released := true })) t (.mv o td x m mN true (k + 1))).task t').relR = some x ∧
          j < ((setTask (setAcc (setHold s (s.acc a').holder (fun y => { y with aux := decAux y.aux })) a'
          (fun x => { x with slock := none, released := true })) t (.mv o td x m mN true (k + 1))).task t').idx) ↔ j < k + 1 := by
        constructor
        · rintro ⟨t', h5, h6⟩
          by_cases ht : t' = t
          · subst ht; simpa [setTask, TPc.idx] using h6
          · have h5' : (s.task t').relR = some x := by simpa [setTask, setAcc, setHold, ht] using h5
            exact absurd (huniq t' t x (hrc t' x h5') (by rw [hpc]; rfl)) ht
        · intro hj
          exact ⟨t, by simp [setTask, TPc.relR], by simpa [setTask, TPc.idx] using hj⟩
      have hold : (∃ t', (s.task t').relR = some x ∧ j < (s.task t').idx) ↔ j < k := by
        constructor
        · rintro ⟨t', h5, h6⟩
          have := huniq t' t x (hrc t' x h5) (by rw [hpc]; rfl)
          subst this; omega
        · intro hj; exact ⟨t, htt, by omega⟩
      rw [hkey]
      rw [hold] at h0
      by_cases ha' : a = a'
      · subst ha'
        have : j = k := by
          have hj : j < (s.recs x).accs.length := (List.getElem?_eq_some_iff.1 h3').1
          exact (List.getElem?_inj hj hnd).1 (h3'.trans ha.symm)
        simp [setTask, setAcc, this]
      · have hjk : j ≠ k := by
          intro e; subst e; rw [h3'] at ha; simp at ha; exact ha' ha
        simp only [setTask, setAcc, setHold, upd_ne _ _ ha']
        rw [h0]; omega
    · have ha' : a ≠ a' := by
        intro e; subst e
        have := (hmem x a h1 (List.mem_of_getElem? h3')).2
        exact hx (this.symm.trans hm.2)
      simp only [setTask, setAcc, setHold, upd_ne _ _ ha']
      rw [h0]
      constructor
      · rintro ⟨t', h5, h6⟩
        refine ⟨t', ?_⟩
        have : t' ≠ t := by
          intro e; subst e; rw [htt] at h5; simp at h5; exact hx h5.symm
        simpa [this] using ⟨h5, h6⟩
      · rintro ⟨t', h5, h6⟩
        refine ⟨t', ?_⟩
        have : t' ≠ t := by
          intro e; subst e; simp [TPc.relR] at h5; exact hx h5.symm
        rw [upd_ne _ _ this] at h5 h6
        exact ⟨h5, h6⟩
  all_goals first
   | exact h
   | (unfold RelPos at *
      intro x k a h1 h2 h3
      have := h x k a
      have := w.taskIdle
      unfold TaskIdle at this
      clear h hr hmem
      revert h1 h2 h3
      ssimp
      grind [newRec, TPc.relR, TPc.idx])

end
end Verif.Sync
