import Verif.Proof.SyncWf

/-!
Helper file: reference counting and release invariants of the synchronous machine.
-/

namespace Verif.Sync
open Verif
variable {AL KS N S : Type} [DecidableEq KS]

/-- All well-formedness invariants together. -/
structure Wf (c : Cfg AL KS N S) (s : State AL KS N S) : Prop where
  taskIdle : TaskIdle s
  opIdle : OpIdle s
  lockTask : LockTask s
  llockTask : LLockTask s
  tblLt : TblLt s
  tblNodup : TblNodup s
  opRec : OpRec s
  todoNodup : TodoNodup s
  todoMem : TodoMem s
  accsNodup : AccsNodup s
  accsMem : AccsMem s
  accsLeaf : AccsLeaf c s
  accRc : AccRc s
  accHold : AccHold s
  dataOk : DataOk s
  dataKeys : DataKeys s
  opFull : OpFull c s
  taskFull : TaskFull c s
  busyLock : BusyLock s
  sLock : SLock s
  lTodo : LTodo s
  lCur : LCur s

theorem Wf.preserved {c : Cfg AL KS N S} {s s' : State AL KS N S} (h : Wf c s) (hs : Step c s s') : Wf c s' where
  taskIdle := h.taskIdle.preserved hs
  opIdle := h.opIdle.preserved hs
  lockTask := h.lockTask.preserved hs
  llockTask := h.llockTask.preserved hs
  tblLt := h.tblLt.preserved hs
  tblNodup := h.tblNodup.preserved h.tblLt hs
  opRec := h.opRec.preserved h.tblLt hs
  todoNodup := h.todoNodup.preserved h.tblNodup hs
  todoMem := h.todoMem.preserved h.lockTask hs
  accsNodup := h.accsNodup.preserved h.accsMem hs
  accsMem := h.accsMem.preserved hs
  accsLeaf := h.accsLeaf.preserved h.accsMem hs
  accRc := h.accRc.preserved h.opRec h.todoMem h.tblLt hs
  accHold := h.accHold.preserved h.dataOk hs
  dataOk := h.dataOk.preserved hs
  dataKeys := h.dataKeys.preserved hs
  opFull := h.opFull.preserved h.opRec hs
  taskFull := h.taskFull.preserved h.todoMem h.tblLt hs
  busyLock := h.busyLock.preserved h.accsMem h.todoMem h.tblLt hs
  sLock := h.sLock.preserved h.accRc h.taskIdle h.accsMem h.todoMem h.tblLt hs
  lTodo := h.lTodo.preserved h.llockTask h.dataKeys h.lCur hs
  lCur := h.lCur.preserved h.llockTask h.lTodo hs

theorem Wf.initial (c : Cfg AL KS N S) (n0 : N) : Wf c (initial c n0) := by
  constructor
  all_goals
    simp [TaskIdle, OpIdle, LockTask, LLockTask, TblLt, TblNodup, OpRec, TodoNodup, TodoMem, AccsNodup, AccsMem,
      AccsLeaf, AccRc, AccHold, DataOk, DataKeys, OpFull, TaskFull, BusyLock, SLock, LTodo, LCur, Sync.initial,
      OPc.holds, OPc.past, TPc.lockObs, TPc.lockLeaf, TPc.todoR, TPc.curR, TPc.busy, TPc.fullR, newRec]

/-- A mapped record in the table: the word is twice the number of pinning calls. -/
def WordLive (s : State AL KS N S) : Prop :=
  ∀ o r, r ∈ s.table o → (∀ t, (s.task t).relR ≠ some r) → (s.recs r).word = 2 * (pins s r : Int)
/-- An unmapped record has word 1 and nobody pins it. -/
def WordDead (s : State AL KS N S) : Prop :=
  ∀ r, r < s.nextRec → (¬ r ∈ s.table (s.recs r).obs ∨ ∃ t, (s.task t).relR = some r) →
    (s.recs r).word = 1 ∧ pins s r = 0

def one (b : Bool) : Nat := if b then 1 else 0

omit [DecidableEq KS] in
/-- Effect of changing one call on the number of pins. -/
theorem pins_upd {s : State AL KS N S} (x : Op AL N) {i : Nat} (hi : i < s.nextOp) (r : Nat)
    (f : Nat → Op AL N) (hf : f = upd s.op i x) :
    sumTo s.nextOp (fun j => if (f j).pc.holds r then 1 else 0) + one ((s.op i).pc.holds r)
      = pins s r + one (x.pc.holds r) := by
  have := sumTo_change (n := s.nextOp) (a := i)
    (f := fun j => if (s.op j).pc.holds r then 1 else 0)
    (g := fun j => if (f j).pc.holds r then 1 else 0) hi
    (by intro j _ hne; simp [hf, hne])
  simp only [hf, upd_same] at this
  simpa [pins, one, hf] using this

omit [DecidableEq KS] in
theorem op_lt {s : State AL KS N S} (h : OpIdle s) {i : Nat} (hne : (s.op i).pc ≠ .idle) : i < s.nextOp := by
  have := h i
  by_cases hc : s.nextOp ≤ i
  · exact absurd (this hc) hne
  · omega

omit [DecidableEq KS] in
/-- A record being released is in the table of a locked instrument. -/
theorem rel_locked {s : State AL KS N S} (ht : TodoMem s) (hl : LockTask s) (hb : TblLt s) {t r : Nat}
    (h : (s.task t).relR = some r) :
    r ∈ s.table (s.recs r).obs ∧ s.lock (s.recs r).obs = some t := by
  have : ∃ o, (s.task t).lockObs = some o ∧ (s.task t).curR = some r := by
    cases hp : s.task t <;>
      simp only [hp, TPc.relR, reduceCtorEq, Option.ite_none_right_eq_some, Option.some.injEq] at h
    all_goals simp [TPc.lockObs, TPc.curR, h.2]
  obtain ⟨o, ho, hc⟩ := this
  have h1 := ((ht t o ho).2 r hc).1
  have h2 := hl t o ho
  have h3 := (hb o r h1).2
  rw [h3]; exact ⟨h1, h2⟩

section
variable {c : Cfg AL KS N S} {s s' : State AL KS N S}

set_option maxHeartbeats 1000000

/-- Number of pins after a step that changes call `i` to pc `pc`. -/
theorem pins_setOpPc (hi : OpIdle s) {i : Nat} (hne : (s.op i).pc ≠ .idle) (pc : OPc AL) (r : Nat) :
    pins (setOpPc s i pc) r + one ((s.op i).pc.holds r) = pins s r + one (pc.holds r) :=
  pins_upd (s := s) { s.op i with pc := pc } (op_lt hi hne) r _ rfl

theorem pins_zero_of_fresh (h : OpRec s) : pins s s.nextRec = 0 := by
  unfold pins
  rw [sumTo_eq_zero]
  intro i _
  have := h i s.nextRec
  by_cases hb : (s.op i).pc.holds s.nextRec = true
  · have := (this hb).1; omega
  · simp [hb]

omit [DecidableEq KS] in
theorem pins_same {s s' : State AL KS N S} (r : Nat) (hn : s'.nextOp = s.nextOp)
    (hp : ∀ i, (s'.op i).pc.holds r = (s.op i).pc.holds r) : pins s' r = pins s r := by
  unfold pins
  rw [hn]
  exact sumTo_congr (fun i _ => by rw [hp i])

omit [DecidableEq KS] in
theorem pins_observe (s : State AL KS N S) (o : Nat) (a : AL) (n : N) (r : Nat) :
    sumTo (s.nextOp + 1) (fun i => if ((upd s.op s.nextOp { obs := o, attrs := a, num := n, pc := .rd a, rank := 0 }) i).pc.holds r
      then 1 else 0) = pins s r := by
  simp only [pins, sumTo_succ]
  rw [sumTo_congr (g := fun i => if (s.op i).pc.holds r then 1 else 0)]
  · simp [OPc.holds]
  · intro j hj; rw [upd_ne _ _ (by omega)]

/-- The two word invariants. -/
def Ref (s : State AL KS N S) : Prop := WordLive s ∧ WordDead s

omit [DecidableEq KS] in
theorem ref_frame {s s' : State AL KS N S} (h : Ref s) (hn : s'.nextOp = s.nextOp)
    (hp : ∀ i r, (s'.op i).pc.holds r = (s.op i).pc.holds r) (hw : ∀ r, (s'.recs r).word = (s.recs r).word)
    (ho : ∀ r, (s'.recs r).obs = (s.recs r).obs) (ht : s'.table = s.table) (hr : s'.nextRec = s.nextRec)
    (hrel : ∀ t, (s'.task t).relR = (s.task t).relR) : Ref s' := by
  have hpin : ∀ r, pins s' r = pins s r := fun r => pins_same r hn (fun i => hp i r)
  refine ⟨?_, ?_⟩
  · intro o r h1 h2
    rw [hw, hpin]
    exact h.1 o r (ht ▸ h1) (fun t => hrel t ▸ h2 t)
  · intro r h1 h2
    rw [hw, hpin]
    rw [ho, ht] at h2
    exact h.2 r (hr ▸ h1) (h2.imp id (fun ⟨t, h⟩ => ⟨t, hrel t ▸ h⟩))

theorem Ref.preserved (h : Ref s) (w : Wf c s) (hs : Step c s s') : Ref s' := by
  obtain ⟨h, hd⟩ := h
  have hrl := fun t r => @rel_locked _ _ _ _ s w.todoMem w.lockTask w.tblLt t r
  have htl := w.tblLt
  have hor := w.opRec
  have hcm := w.todoMem
  unfold WordLive at h
  unfold WordDead at hd
  unfold TblLt at htl
  unfold OpRec at hor
  cases hs
  case observe o a n =>
    refine ⟨?_, ?_⟩
    · intro o' r h1 h2
      rw [pins, pins_observe]
      exact h o' r h1 h2
    · intro r h1 h2
      rw [pins, pins_observe]
      exact hd r h1 h2
  case rdHit i a a' r hpc hl hr _ _ =>
    have hp := fun x => pins_setOpPc (s := setRec s r (fun x => { x with word := x.word + 2 })) w.opIdle (i := i)
      (by simp [setRec, hpc]) (.ini r) x
    have ho := (htl _ _ hr).2
    refine ⟨?_, ?_⟩
    · intro o' x h1 h2
      have hpx := hp x
      have hx := h o' x h1 h2
      simp only [setRec, hpc, OPc.holds, one] at hpx
      simp only [setRec, setOpPc, upd_apply] at hpx ⊢
      have : pins s x = pins { s with recs := upd s.recs r { s.recs r with word := (s.recs r).word + 2 } } x := rfl
      grind
    · intro x h1 h2
      have hpx := hp x
      simp only [setRec, hpc, OPc.holds, one] at hpx
      simp only [setRec, setOpPc, upd_apply] at hpx h1 h2 ⊢
      have : pins s x = pins { s with recs := upd s.recs r { s.recs r with word := (s.recs r).word + 2 } } x := rfl
      have hdx := hd x h1
      grind
  case wrHit i a r hpc hl hr _ =>
    have hp := fun x => pins_setOpPc (s := setRec s r (fun x => { x with word := x.word + 2 })) w.opIdle (i := i)
      (by simp [setRec, hpc]) (.ini r) x
    have ho := (htl _ _ hr).2
    refine ⟨?_, ?_⟩
    · intro o' x h1 h2
      have hpx := hp x
      have hx := h o' x h1 h2
      simp only [setRec, hpc, OPc.holds, one] at hpx
      simp only [setRec, setOpPc, upd_apply] at hpx ⊢
      have : pins s x = pins { s with recs := upd s.recs r { s.recs r with word := (s.recs r).word + 2 } } x := rfl
      grind
    · intro x h1 h2
      have hpx := hp x
      simp only [setRec, hpc, OPc.holds, one] at hpx
      simp only [setRec, setOpPc, upd_apply] at hpx h1 h2 ⊢
      have : pins s x = pins { s with recs := upd s.recs r { s.recs r with word := (s.recs r).word + 2 } } x := rfl
      have hdx := hd x h1
      grind
  case wrNew i a hpc hl hf =>
    have hp := fun x => pins_setOpPc (s := { s with recs := upd s.recs s.nextRec (newRec (s.op i).obs a), nextRec := s.nextRec + 1, table := upd s.table (s.op i).obs (s.nextRec :: s.table (s.op i).obs) }) w.opIdle (i := i)
      (by simp [hpc]) (.ini s.nextRec) x
    have h0 := pins_zero_of_fresh hor
    have hid : ∀ x, pins s x = pins { s with recs := upd s.recs s.nextRec (newRec (s.op i).obs a), nextRec := s.nextRec + 1, table := upd s.table (s.op i).obs (s.nextRec :: s.table (s.op i).obs) } x := fun _ => rfl
    refine ⟨?_, ?_⟩
    · intro o' x h1 h2
      have hpx := hp x
      have hx := h o' x
      have htx := htl o' x
      rw [← hid] at hpx
      simp only [hpc, OPc.holds, one] at hpx
      simp only [setOpPc, upd_apply] at hpx h1 h2 ⊢
      grind [newRec, newWord]
    · intro x h1 h2
      have hpx := hp x
      rw [← hid] at hpx
      simp only [hpc, OPc.holds, one] at hpx
      simp only [setOpPc, upd_apply] at hpx h1 h2 ⊢
      have hdx := hd x
      grind [newRec]
  case unref i r hpc =>
    have hp := fun x => pins_setOpPc (s := setRec s r (fun x => { x with word := unrefWord x.word })) w.opIdle (i := i)
      (by simp [setRec, hpc]) .done x
    have hid : ∀ x, pins s x = pins (setRec s r (fun x => { x with word := unrefWord x.word })) x := fun _ => rfl
    have ho := hor i r (by simp [hpc, OPc.holds])
    have hpos : 0 < pins s r := sumTo_pos_of (a := i) (op_lt w.opIdle (by simp [hpc])) (by simp [hpc, OPc.holds])
    refine ⟨?_, ?_⟩
    · intro o' x h1 h2
      have hpx := hp x
      have hx := h o' x h1 h2
      rw [← hid] at hpx
      simp only [setRec, hpc, OPc.holds, one] at hpx
      simp only [setRec, setOpPc, upd_apply] at hpx ⊢
      grind [unrefWord]
    · intro x h1 h2
      have hpx := hp x
      rw [← hid] at hpx
      simp only [setRec, hpc, OPc.holds, one] at hpx
      simp only [setRec, setOpPc, upd_apply] at hpx h1 h2 ⊢
      have hdx := hd x h1
      grind
  case unmapOk t o td r hpc hw =>
    have hc := (hcm t o (by rw [hpc]; rfl)).2 r (by rw [hpc]; rfl)
    have hno : ∀ t', (s.task t').relR ≠ some r := by
      intro t' ht'
      have h1 := hrl t' r ht'
      have h2 := w.lockTask t o (by rw [hpc]; rfl)
      have h3 := htl o r hc.1
      have : t' = t := by grind
      subst this
      simp [hpc, TPc.relR] at ht'
    have h0 := h o r hc.1 hno
    refine ⟨?_, ?_⟩
    · intro o' x h1 h2
      have hx := h o' x h1
      have : ∀ t', t' ≠ t → (s.task t').relR ≠ some x := by
        intro t' ht'; have := h2 t'; simpa [setTask, setRec, ht'] using this
      have : x ≠ r := by
        intro hxr; have := h2 t; simp [setTask, TPc.relR, hxr] at this
      show (upd s.recs r _ x).word = 2 * (pins s x : Int)
      rw [upd_ne _ _ this]
      apply hx
      intro t'
      by_cases ht : t' = t
      · subst ht; simp [hpc, TPc.relR]
      · simpa [setTask, setRec, ht] using h2 t'
    · intro x h1 h2
      by_cases hxr : x = r
      · subst hxr
        refine ⟨by simp [setTask, setRec], ?_⟩
        show pins s x = 0
        omega
      · have hdx := hd x h1
        show (upd s.recs r _ x).word = 1 ∧ pins s x = 0
        rw [upd_ne _ _ hxr]
        apply hdx
        rcases h2 with h2 | ⟨t', h2⟩
        · left; simpa [setTask, setRec, hxr] using h2
        · right
          refine ⟨t', ?_⟩
          by_cases ht : t' = t
          · subst ht; simp [setTask, TPc.relR] at h2; exact absurd h2.symm hxr
          · simpa [setTask, setRec, ht] using h2
  case finRel t o td r m mN k hpc ha =>
    have hc := (hcm t o (by rw [hpc]; rfl)).2 r (by rw [hpc]; rfl)
    have htr : (s.task t).relR = some r := by rw [hpc]; rfl
    have hdr := hd r (htl o r hc.1).1 (Or.inr ⟨t, htr⟩)
    refine ⟨?_, ?_⟩
    · intro o' x h1 h2
      show (upd s.recs r _ x).word = 2 * (pins s x : Int)
      have hxr : x ≠ r := by
        intro hxr; subst hxr
        have : o' = o := by
          by_cases hoo : o' = o
          · exact hoo
          · have h3 : x ∈ s.table o' := by simpa [setTask, setRec, hoo] using h1
            have := htl o' x h3; have := htl o x hc.1; grind
        subst this
        simp [setTask, setRec] at h1
      rw [upd_ne _ _ hxr]
      apply h o' x
      · by_cases hoo : o' = o
        · subst hoo; simp [setTask, setRec] at h1; exact h1.1
        · simpa [setTask, setRec, hoo] using h1
      · intro t'
        by_cases ht : t' = t
        · subst ht; rw [htr]; simpa using fun e => hxr e.symm
        · simpa [setTask, setRec, ht] using h2 t'
    · intro x h1 h2
      show (upd s.recs r _ x).word = 1 ∧ pins s x = 0
      by_cases hxr : x = r
      · subst hxr; simpa using hdr
      · rw [upd_ne _ _ hxr]
        apply hd x h1
        rcases h2 with h2 | ⟨t', h2⟩
        · left
          intro h3; apply h2
          by_cases hoo : (s.recs x).obs = o
          · simp [setTask, setRec, hxr, hoo]; rw [hoo] at h3; exact h3
          · simp [setTask, setRec, hxr, hoo]; exact h3
        · right
          refine ⟨t', ?_⟩
          by_cases ht : t' = t
          · subst ht; simp [setTask, TPc.relR] at h2
          · simpa [setTask, setRec, ht] using h2
  -- steps that change neither pins, words, tables nor the released record
  all_goals
    refine ref_frame ⟨h, hd⟩ rfl ?_ ?_ ?_ rfl rfl ?_
    · clear h hd hrl htl hor hcm
      intro j r
      simp only [setRec, setOpPc, setTask, setAcc, setHold, initOld, initNew, upd_apply] <;> grind [OPc.holds]
    · clear h hd hrl htl hor hcm
      intro r
      simp only [setRec, setOpPc, setTask, setAcc, setHold, initOld, initNew, upd_apply] <;> grind
    · clear h hd hrl htl hor hcm
      intro r
      simp only [setRec, setOpPc, setTask, setAcc, setHold, initOld, initNew, upd_apply] <;> grind
    · clear h hd hrl htl hor hcm
      intro t
      have := w.taskIdle t
      simp only [setRec, setOpPc, setTask, setAcc, setHold, initOld, initNew, upd_apply] <;> grind [TPc.relR]

end
end Verif.Sync
