import Verif.Proof.SyncRel

/-!
Helper file: released accumulators and idle snapshots are empty.
-/

namespace Verif.Sync
open Verif
variable {AL KS N S : Type} [DecidableEq KS]

/-- A released accumulator holds no measurement. -/
def RelEmpty (s : State AL KS N S) : Prop := ∀ a, a < s.nextAcc → (s.acc a).released = true → (s.acc a).cur.ops = []
/-- Between the last move and the release of an accumulator nothing is written to it. -/
def BusyEmpty (s : State AL KS N S) : Prop :=
  ∀ (t r k a : Nat), (s.task t).relR = some r → (s.task t).busy = some (r, k) → (s.recs r).accs[k]? = some a →
    (s.acc a).cur.ops = []
/-- The snapshot of an unlocked accumulator holds no measurement. -/
def SnapIdle (s : State AL KS N S) : Prop := ∀ a, a < s.nextAcc → (s.acc a).slock = none → (s.acc a).snap.ops = []
/-- The snapshot of an accumulator after its merge holds no measurement. -/
def SnapRl (s : State AL KS N S) : Prop :=
  ∀ (t o : Nat) td (r m mN : Nat) rel (k a : Nat), s.task t = .rl o td r m mN rel k → (s.recs r).accs[k]? = some a →
    (s.acc a).snap.ops = []

section
variable {c : Cfg AL KS N S} {s s' : State AL KS N S}
set_option maxHeartbeats 1000000

omit [DecidableEq KS] in
theorem full_cur {t r : Nat} (h : (s.task t).fullR = some r) : (s.task t).curR = some r := by
  cases hp : s.task t <;> simp_all [TPc.fullR, TPc.curR]

omit [DecidableEq KS] in
theorem busy_full {t r k : Nat} (h : (s.task t).busy = some (r, k)) : (s.task t).fullR = some r := by
  cases hp : s.task t <;> simp_all [TPc.busy, TPc.fullR]

omit [DecidableEq KS] in
/-- The accumulator a pinning call is about to write is not released and not being released. -/
theorem upd_live (w : Wf c s) (hr : Ref s) (hp : RelPos s) {i r k a : Nat} (hh : (s.op i).pc.holds r = true)
    (ha : (s.recs r).accs[k]? = some a) :
    r < s.nextRec ∧ a < s.nextAcc ∧ (s.acc a).rc = r ∧ (s.acc a).released = false ∧ ∀ t, (s.task t).relR ≠ some r := by
  have h1 := pinned_live w hr hh
  have h2 := w.opRec i r hh
  have h3 := w.accsMem r a h2.1 (List.mem_of_getElem? ha)
  refine ⟨h2.1, h3.1, h3.2, ?_, h1.2⟩
  cases hb : (s.acc a).released with
  | false => rfl
  | true =>
    obtain ⟨t, ht, _⟩ := (hp r k a h2.1 h1.1 ha).1 hb
    exact absurd ht (h1.2 t)

omit [DecidableEq KS] in
/-- The accumulator a task is processing: record, position and release state. -/
theorem task_acc (w : Wf c s) (hp : RelPos s) {t r k a : Nat} (hc : (s.task t).curR = some r)
    (ha : (s.recs r).accs[k]? = some a) (hk : (s.task t).idx = k) :
    r < s.nextRec ∧ a < s.nextAcc ∧ (s.acc a).rc = r ∧ (s.acc a).released = false ∧
      r ∈ s.table (s.recs r).obs := by
  have hlo : ∃ o, (s.task t).lockObs = some o := by
    cases hp : s.task t <;> simp_all [TPc.curR, TPc.lockObs]
  obtain ⟨o, ho⟩ := hlo
  have h1 := ((w.todoMem t o ho).2 r hc).1
  have h2 := w.tblLt o r h1
  have h3 := w.accsMem r a h2.1 (List.mem_of_getElem? ha)
  have h4 : r ∈ s.table (s.recs r).obs := by rw [h2.2]; exact h1
  refine ⟨h2.1, h3.1, h3.2, ?_, h4⟩
  cases hb : (s.acc a).released with
  | false => rfl
  | true =>
    obtain ⟨t', ht, hlt⟩ := (hp r k a h2.1 h4 ha).1 hb
    have := cur_unique w (rel_cur ht) hc
    subst this; omega

theorem BusyEmpty.preserved (h : BusyEmpty s) (w : Wf c s) (hr : Ref s) (hp : RelPos s) (hs : Step c s s') : BusyEmpty s' := by
  have hmem := w.accsMem
  have hfl := fun t r => @full_lt _ _ _ _ s t r w.todoMem w.tblLt
  have hbf := fun t r k => @busy_full _ _ _ _ s t r k
  unfold AccsMem at hmem
  cases hs
  case upd i r k sq a hpc ha =>
    have := upd_live w hr hp (i := i) (r := r) (by rw [hpc]; simp [OPc.holds]) ha
    unfold BusyEmpty at *
    intro t' r' k' a' h1 h2 h3
    have := h t' r' k' a'
    have := hmem r' a'
    have := hfl t' r'
    have := hbf t' r' k'
    have := List.mem_of_getElem? h3
    clear h hr w hmem hfl hbf hp
    revert h1 h2 h3
    ssimp
    grind
  all_goals first
   | exact h
   | (unfold BusyEmpty at *
      intro t' r' k' a' h1 h2 h3
      have := h t' r' k' a'
      have := hmem r' a'
      have := hfl t' r'
      have := hbf t' r' k'
      have := w.taskIdle t'
      clear h hr w hmem hfl hbf hp
      revert h1 h2 h3
      ssimp
      grind [newRec, TPc.relR, TPc.busy])

theorem RelEmpty.preserved (h : RelEmpty s) (hb : BusyEmpty s) (w : Wf c s) (hr : Ref s) (hp : RelPos s) (hs : Step c s s') : RelEmpty s' := by
  cases hs
  case upd i r k sq a hpc ha =>
    have := upd_live w hr hp (i := i) (r := r) (by rw [hpc]; simp [OPc.holds]) ha
    unfold RelEmpty at *
    intro a' h1 h2
    have := h a'
    clear h hr w hb hp
    revert h1 h2
    ssimp
    grind
  case rlRel t o td r m mN k a hpc ha =>
    have := hb t r k a (by rw [hpc]; rfl) (by rw [hpc]; rfl) ha
    unfold RelEmpty at *
    intro a' h1 h2
    have := h a'
    clear h hr w hb hp
    revert h1 h2
    ssimp
    grind
  all_goals first
   | exact h
   | (unfold RelEmpty at *
      intro a' h1 h2
      have := h a'
      clear h hr w hb hp
      revert h1 h2
      ssimp
      grind)

theorem SnapRl.preserved (h : SnapRl s) (w : Wf c s) (hs : Step c s s') : SnapRl s' := by
  have hmem := w.accsMem
  have hfl := fun t r => @full_lt _ _ _ _ s t r w.todoMem w.tblLt
  have hbl := w.busyLock
  unfold BusyLock at hbl
  unfold AccsMem at hmem
  cases hs
  all_goals first
   | exact h
   | (unfold SnapRl at *
      intro t' o' td' r' m' mN' rel' k' a' h1 h3
      have := h t' o' td' r' m' mN' rel' k' a'
      have := hmem r' a'
      have := hfl t' r'
      have := hbl t' r' k'
      have := w.taskIdle t'
      clear h w hmem hfl hbl
      revert h1 h3
      ssimp
      grind [newRec, TPc.busy, TPc.fullR])

theorem SnapIdle.preserved (h : SnapIdle s) (hb : SnapRl s) (w : Wf c s) (hs : Step c s s') : SnapIdle s' := by
  cases hs
  all_goals first
   | exact h
   | (unfold SnapIdle SnapRl at *
      intro a' h1 h2
      have := h a'
      clear h w
      revert h1 h2
      ssimp
      grind)

end
end Verif.Sync
