import Verif.Proof.SyncSeq

/-!
Helper file: idle records are kept for the configured number of visits and then removed (C05).
-/

namespace Verif.Sync
open Verif
variable {AL KS N S : Type}

/-- The record a task is trying to remove. -/
def TPc.tryR : TPc KS → Option Nat
  | .unmap _ _ r => some r
  | .sload _ _ r _ => some r
  | .ini _ _ r _ _ rel => if rel then some r else none
  | .mv _ _ r _ _ rel _ => if rel then some r else none
  | .mg _ _ r _ _ rel _ => if rel then some r else none
  | .rl _ _ r _ _ rel _ => if rel then some r else none
  | .idle => none
  | .lockw _ => none
  | .scan _ _ => none
  | .lockl _ => none
  | .lscan _ _ => none
  | .lmv _ _ _ _ _ => none
  | .done => none

/-- The record was visited at most `n` times since its idle count restarted, and no removal is under way. -/
def Young (s : State AL KS N S) (r n : Nat) : Prop :=
  r < s.nextRec ∧ r ∈ s.table (s.recs r).obs ∧ (s.recs r).inactive ≤ n ∧ ∀ t, (s.task t).tryR ≠ some r

variable [DecidableEq KS]
variable {c : Cfg AL KS N S} {s s' : State AL KS N S}
set_option maxHeartbeats 1000000

theorem Young.step {r n m : Nat} (h : Young s r n) (hm : n ≤ m)
    (hv : ∀ t, r ∈ (s.task t).todoR → ¬ r ∈ (s'.task t).todoR → n < m ∧ n + 1 < c.periods) (w : Wf c s)
    (hs : Step c s s') : Young s' r m := by
  obtain ⟨h1, h2, h3, h4⟩ := h
  have hlt := w.tblLt
  unfold TblLt at hlt
  unfold Young
  cases hs
  case scanIdle t o td r' hpc hr he hin =>
    have := hv t; clear hv w hlt; revert this; ssimp; grind [TPc.todoR, TPc.tryR]
  case scanUnmap t o td r' hpc hr he hin =>
    have := hv t; clear hv w hlt; revert this; ssimp; grind [TPc.todoR, TPc.tryR]
  case scanSnap t o td r' hpc hr he =>
    have := hv t; clear hv w hlt; revert this; ssimp; grind [TPc.todoR, TPc.tryR]
  case finRel t o td r' m mN k hpc ha =>
    clear hv w; ssimp; grind [TPc.todoR, TPc.tryR]
  case wrNew i a hpc hl hf =>
    clear hv w; ssimp; grind [TPc.todoR, TPc.tryR]
  all_goals first
   | (clear hv w hlt; ssimp; grind [TPc.todoR, TPc.tryR, TPc.relR, newRec])

/-- A removal of record `r` is under way that will succeed. -/
def TPc.remR : TPc KS → Option Nat
  | .unmap _ _ r => some r
  | .sload _ _ r rel => if rel then some r else none
  | .ini _ _ r _ _ rel => if rel then some r else none
  | .mv _ _ r _ _ rel _ => if rel then some r else none
  | .mg _ _ r _ _ rel _ => if rel then some r else none
  | .rl _ _ r _ _ rel _ => if rel then some r else none
  | .idle => none
  | .lockw _ => none
  | .scan _ _ => none
  | .lockl _ => none
  | .lscan _ _ => none
  | .lmv _ _ _ _ _ => none
  | .done => none

omit [DecidableEq KS] in
theorem rem_cur {t r : Nat} (h : (s.task t).remR = some r) :
    (s.task t).curR = some r ∧ ∃ o, (s.task t).lockObs = some o := by
  cases hp : s.task t <;>
    simp only [hp, TPc.remR, reduceCtorEq, Option.ite_none_right_eq_some, Option.some.injEq] at h
  all_goals simp [TPc.curR, TPc.lockObs, h]

/-- The state of a record visited `n` times in a row while idle. -/
def Counting (s : State AL KS N S) (P r n : Nat) : Prop :=
  r < s.nextRec ∧
  ((n < P ∧ r ∈ s.table (s.recs r).obs ∧ (s.recs r).inactive = n ∧ ∀ t, (s.task t).curR ≠ some r) ∨
   (n = P ∧ r ∈ s.table (s.recs r).obs ∧ ∃ t, (s.task t).remR = some r) ∨
   (n = P ∧ ¬ r ∈ s.table (s.recs r).obs))

omit [DecidableEq KS] in
theorem todo_tbl (w : Wf c s) {t r : Nat} (h : r ∈ (s.task t).todoR) :
    r ∈ s.table (s.recs r).obs ∧ s.lock (s.recs r).obs = some t ∧ (s.task t).curR ≠ some r := by
  have : ∃ o, (s.task t).lockObs = some o := by
    cases hp : s.task t <;> simp_all [TPc.todoR, TPc.lockObs]
  obtain ⟨o, ho⟩ := this
  have h1 := w.todoMem t o ho
  have h2 := h1.1 r h
  have h3 := (w.tblLt o r h2).2
  rw [h3]
  exact ⟨h2, w.lockTask t o ho, fun hc => (h1.2 r hc).2 h⟩

omit [DecidableEq KS] in
theorem cur_tbl (w : Wf c s) {t r : Nat} (h : (s.task t).curR = some r) :
    r ∈ s.table (s.recs r).obs ∧ s.lock (s.recs r).obs = some t := by
  have : ∃ o, (s.task t).lockObs = some o := by
    cases hp : s.task t <;> simp_all [TPc.curR, TPc.lockObs]
  obtain ⟨o, ho⟩ := this
  have h1 := (w.todoMem t o ho).2 r h
  have h3 := (w.tblLt o r h1.1).2
  rw [h3]
  exact ⟨h1.1, w.lockTask t o ho⟩

omit [DecidableEq KS] in
theorem idle_pins {r : Nat} (h : Idle s r) : pins s r = 0 := by
  unfold pins
  rw [sumTo_eq_zero]
  intro i _
  have := h.1 i
  cases hp : (s.op i).pc <;> simp_all [OPc.holds, Uses]

/-- While a removal is under way nobody else visits the record. -/
theorem Counting.step2 {P r : Nat} (hr : r < s.nextRec) (h2 : r ∈ s.table (s.recs r).obs) {t : Nat}
    (ht : (s.task t).remR = some r) (hw : (s.task t).relR ≠ some r → (s.recs r).word = 0)
    (w : Wf c s) (hs : Step c s s') : Counting s' P r P := by
  have hc := rem_cur ht
  have hlt := w.tblLt
  have hni := w.taskIdle s.nextTask (Nat.le_refl _)
  unfold TblLt at hlt
  unfold Counting
  refine ⟨?_, ?_⟩
  · clear hw w ht hc hlt h2
    cases hs <;> first | exact hr | (ssimp; grind)
  right
  by_cases hx : r ∈ s'.table (s'.recs r).obs
  case neg => exact Or.inr ⟨rfl, hx⟩
  refine Or.inl ⟨rfl, hx, t, ?_⟩
  cases hs
  case finRel t' o td r' m mN k hpc ha =>
    have h3 := (w.todoMem t' o (by rw [hpc]; rfl)).2 r' (by rw [hpc]; rfl)
    have h4 := (hlt o r' h3.1).2
    clear w hlt; revert hx; ssimp; grind [TPc.remR, TPc.relR, TPc.curR]
  all_goals (clear w hlt; revert hx; ssimp; grind [TPc.remR, TPc.relR, TPc.curR])

theorem Counting.step3 {P r : Nat} (hr : r < s.nextRec) (h2 : ¬ r ∈ s.table (s.recs r).obs) (hs : Step c s s') :
    Counting s' P r P := by
  refine ⟨?_, Or.inr (Or.inr ⟨rfl, ?_⟩)⟩
  · cases hs <;> first | exact hr | (ssimp; grind)
  · cases hs <;> first | exact h2 | (ssimp; grind [newRec])

theorem Counting.step1 {r n m : Nat} (hr : r < s.nextRec) (h2 : r ∈ s.table (s.recs r).obs)
    (h3 : (s.recs r).inactive = n) (h4 : ∀ t, (s.task t).curR ≠ some r) (hn : n < c.periods)
    (hc : (s.recs r).updateCount = (s.recs r).collectedCount)
    (hv : ∀ t, r ∈ (s.task t).todoR → ¬ r ∈ (s'.task t).todoR → m = n + 1)
    (hv' : (∀ t, r ∈ (s.task t).todoR → r ∈ (s'.task t).todoR) → m = n) (w : Wf c s)
    (hs : Step c s s') : Counting s' c.periods r m := by
  have hlt := w.tblLt
  unfold TblLt at hlt
  have hni := w.taskIdle s.nextTask (Nat.le_refl _)
  refine ⟨?_, ?_⟩
  · clear h2 h3 h4 hn hc hv hv' w hlt
    cases hs <;> first | exact hr | (ssimp; grind)
  cases hs
  case scanIdle t o td r' hpc hr' he hin =>
    have := hv t; clear hv w hlt; revert this hv'; ssimp; grind [TPc.todoR, TPc.curR]
  case scanUnmap t o td r' hpc hr' he hin =>
    by_cases e : r' = r
    · subst e
      have hm := hv t (by rw [hpc]; exact hr') (by simp [setTask, TPc.todoR])
      right; left
      refine ⟨by omega, ?_, t, ?_⟩
      · clear hv hv' hlt w; ssimp; grind
      · simp [setTask, TPc.remR]
    · left
      have hm := hv' (by
        intro t' ht'
        clear hv hv' hlt w
        ssimp
        grind [TPc.todoR])
      clear hv hv' hlt w; ssimp; grind [TPc.curR]
  case scanSnap t o td r' hpc hr' he =>
    have := hv t; clear hv w hlt; revert this hv'; ssimp; grind [TPc.todoR, TPc.curR]
  case wrNew i a hpc hl hf =>
    have hm := hv' (by intro t' ht'; exact ht')
    clear hv hv' w; left; ssimp; grind
  all_goals first
   | (left; have hm := hv' (by intro t' ht'; exact ht'); exact ⟨by omega, h2, by omega, h4⟩)
   | (left
      have hm := hv' (by
        intro t' ht'
        clear hv hv' hlt w h4
        revert ht'
        ssimp
        grind [TPc.todoR])
      clear hv hv' hlt w; ssimp; grind [TPc.curR])

/-- The idle count of record `r` has just restarted. -/
def Fresh (s : State AL KS N S) (r : Nat) : Prop :=
  r < s.nextRec ∧ r ∈ s.table (s.recs r).obs ∧ (s.recs r).inactive = 0 ∧ ∀ t, (s.task t).curR ≠ some r

omit [DecidableEq KS] in
theorem try_cur {t r : Nat} (h : (s.task t).tryR = some r) : (s.task t).curR = some r := by
  cases hp : s.task t <;>
    simp only [hp, TPc.tryR, reduceCtorEq, Option.ite_none_right_eq_some, Option.some.injEq] at h
  all_goals simp [TPc.curR, h]

omit [DecidableEq KS] in
theorem Fresh.young {r : Nat} (h : Fresh s r) : Young s r 0 :=
  ⟨h.1, h.2.1, by have := h.2.2.1; omega, fun t ht => h.2.2.2 t (try_cur ht)⟩

omit [DecidableEq KS] in
theorem Fresh.counting {P r : Nat} (hP : 0 < P) (h : Fresh s r) : Counting s P r 0 :=
  ⟨h.1, Or.inl ⟨hP, h.2.1, h.2.2.1, h.2.2.2⟩⟩

theorem restarts_fresh {r : Nat} (h : Restarts s s' r) (w : Wf c s) (w' : Wf c s') (hs : Step c s s') : Fresh s' r := by
  rcases h with ⟨h1, h2⟩ | ⟨⟨t, h1, h2⟩, h3⟩
  · have hno : ∀ t, (s.task t).curR ≠ some r := by
      intro t ht
      have := cur_tbl w ht
      have := (w.tblLt _ _ this.1).1
      omega
    refine ⟨h2, ?_⟩
    clear w w'
    subst h1
    cases hs
    all_goals first
     | exact absurd h2 (Nat.lt_irrefl _)
     | (ssimp; grind [newRec])
  · refine ⟨(w'.tblLt _ _ h3).1, h3, ?_⟩
    have huniq : ∀ t', (s.task t').curR = some r → t' = t := fun t' ht' => cur_unique w ht' h1
    have hni := w.taskIdle s.nextTask (Nat.le_refl _)
    have hob : ∀ t o td r' m mN k, s.task t = .mv o td r' m mN true k → (s.recs r').obs = o := by
      intro t o td r' m mN k hpc
      exact (w.tblLt o r' ((w.todoMem t o (by rw [hpc]; rfl)).2 r' (by rw [hpc]; rfl)).1).2
    clear w w'
    revert h2 h3
    cases hs
    case finRel t' o td r' m mN k hpc ha =>
      have := hob _ _ _ _ _ _ _ hpc
      clear hob
      ssimp; grind [TPc.curR]
    all_goals (clear hob; ssimp; grind [TPc.curR])

omit [DecidableEq KS] in
theorem uses_holds {i r : Nat} (h : Uses s i r) : (s.op i).pc.holds r = true := by
  rcases h with h | ⟨k, h⟩ | ⟨k, q, h⟩ | h | h <;> simp [h, OPc.holds]

theorem visit_keeps {r : Nat} (w : Wf c s) (hv : Visits s s' r) (hu : (s.recs r).updateCount ≠ (s.recs r).collectedCount)
    (hs : Step c s s') : ∃ t, Keeps s' t r := by
  obtain ⟨t, h1, h2⟩ := hv
  refine ⟨t, ?_⟩
  unfold Keeps
  have hni := w.taskIdle s.nextTask (Nat.le_refl _)
  clear w
  revert h2
  cases hs
  all_goals (ssimp; grind [TPc.todoR])

theorem unmap_keeps {t o r : Nat} {td : List Nat} (ht : s.task t = .unmap o td r) (hp : (s.recs r).word ≠ 0)
    (hm : s'.task t ≠ s.task t) (hni : s.task s.nextTask = .idle) (hs : Step c s s') : Keeps s' t r := by
  unfold Keeps
  revert hm
  cases hs
  all_goals (ssimp; grind)

theorem keeps_step {t r : Nat} (h : Keeps s t r) (w : Wf c s) (hs : Step c s s') : Keeps s' t r ∨ Restarts s s' r := by
  have hc : (s.task t).curR = some r := by
    obtain ⟨o, td, h | ⟨m, mN, h | ⟨k, h | h | h⟩⟩⟩ := h <;> simp [h, TPc.curR]
  have hnr : ∀ t', (s.task t').relR ≠ some r := by
    intro t' ht'
    have := cur_unique w hc (rel_cur ht')
    subst this
    obtain ⟨o, td, h | ⟨m, mN, h | ⟨k, h | h | h⟩⟩⟩ := h <;> simp [h, TPc.relR] at ht'
  have hin := (cur_tbl w hc).1
  have hlt := w.tblLt _ _ hin
  have hni := w.taskIdle s.nextTask (Nat.le_refl _)
  by_cases e : (s'.task t).curR = some r
  · left
    clear w hnr
    unfold Keeps at *
    revert e
    cases hs
    all_goals (ssimp; grind [TPc.curR])
  · right
    right
    refine ⟨⟨t, hc, e⟩, ?_⟩
    clear w e hc h
    cases hs
    all_goals first
     | exact hin
     | (ssimp; grind [TPc.relR])

theorem reachable_step {n0 : N} {a : Action AL N} (hr : Reachable c n0 s) (hs : step c s a = some s') : Reachable c n0 s' := by
  obtain ⟨as, has⟩ := hr
  exact ⟨as ++ [a], by rw [run_append, has]; simp only [Option.bind_some, run_one]; exact hs⟩

theorem survive_run {n0 : N} {r n : Nat} {Q : State AL KS N S → Prop} (hr : Reachable c n0 s) (hf : Fresh s r)
    (h : RunV c r Q s n s') (hn : n < c.periods) : Reachable c n0 s' ∧ Young s' r n := by
  induction h with
  | start => exact ⟨hr, hf.young⟩
  | visit a h hq hs hv ih =>
    have ⟨h1, h2⟩ := ih (by omega)
    have hi := (reachable_prog h1).1
    exact ⟨reachable_step h1 hs, h2.step (by omega) (fun t _ _ => ⟨by omega, hn⟩) hi.wf (hi.step_sound hs)⟩
  | other a h hq hs hv ih =>
    have ⟨h1, h2⟩ := ih (by omega)
    have hi := (reachable_prog h1).1
    exact ⟨reachable_step h1 hs, h2.step (by omega) (fun t h3 h4 => absurd ⟨t, h3, h4⟩ hv) hi.wf (hi.step_sound hs)⟩

theorem Counting.step {P r n m : Nat} (hP : P = c.periods) (h : Counting s P r n) (hi : Inv c s) (hq : Idle s r)
    (hv : ∀ t, r ∈ (s.task t).todoR → ¬ r ∈ (s'.task t).todoR → m = n + 1)
    (hv' : (∀ t, r ∈ (s.task t).todoR → r ∈ (s'.task t).todoR) → m = n) (hs : Step c s s') : Counting s' P r m := by
  subst hP
  obtain ⟨hr, h | h | h⟩ := h
  · exact Counting.step1 hr h.2.1 h.2.2.1 h.2.2.2 h.1 hq.2 hv hv' hi.wf hs
  · obtain ⟨h1, h2, t, ht⟩ := h
    have hm : m = c.periods := by
      rw [← h1]
      apply hv'
      intro t' ht'
      exfalso
      have h3 := todo_tbl hi.wf ht'
      have h4 := cur_tbl hi.wf (rem_cur ht).1
      have : t = t' := by have := h4.2.symm.trans h3.2.1; simpa using this
      subst this
      exact h3.2.2 (rem_cur ht).1
    rw [hm]
    refine Counting.step2 hr h2 ht ?_ hi.wf hs
    intro hno
    have hp := hi.ref.1 _ r h2 (by
      intro t' ht'
      have : t' = t := cur_unique hi.wf (rel_cur ht') (rem_cur ht).1
      subst this; exact hno ht')
    rw [hp, idle_pins hq]; rfl
  · obtain ⟨h1, h2⟩ := h
    have hm : m = c.periods := by
      rw [← h1]
      apply hv'
      intro t' ht'
      exact absurd (todo_tbl hi.wf ht').1 h2
    rw [hm]
    exact Counting.step3 hr h2 hs

theorem count_run {n0 : N} {r n : Nat} (hP : 0 < c.periods) (hr : Reachable c n0 s) (hf : Fresh s r)
    (h : RunV c r (fun s => Idle s r) s n s') : Reachable c n0 s' ∧ Counting s' c.periods r n := by
  induction h with
  | start => exact ⟨hr, hf.counting hP⟩
  | visit a h hq hs hv ih =>
    have hi := (reachable_prog ih.1).1
    refine ⟨reachable_step ih.1 hs, ih.2.step rfl hi hq (fun _ _ _ => rfl) (fun hc => ?_) (hi.step_sound hs)⟩
    obtain ⟨t, h1, h2⟩ := hv
    exact absurd (hc t h1) h2
  | other a h hq hs hv ih =>
    have hi := (reachable_prog ih.1).1
    exact ⟨reachable_step ih.1 hs, ih.2.step rfl hi hq (fun t h1 h2 => absurd ⟨t, h1, h2⟩ hv) (fun _ => rfl) (hi.step_sound hs)⟩

omit [DecidableEq KS] in
theorem findRead_none {o : Nat} {a : AL} (h : findRead c s o a = none) : ∀ r, r ∈ s.table o → ¬ matchRead c s a r := by
  rintro r hr ⟨h1, h2⟩
  have hm : r ∈ chain c s o (c.fp a) := by simp [chain, hr, h1]
  unfold findRead at h
  split at h
  · rw [List.head?_eq_none_iff] at h
    rw [h] at hm; cases hm
  · rename_i hi
    rw [List.find?_eq_none] at h
    have := h r hm
    rcases h2 with h2 | h2
    · exact hi h2
    · exact this h2

omit [DecidableEq KS] in
theorem keys_unique {V : Type} {t : List (KS × V)} {k : KS} {v v' : V} (hnd : (t.map (·.1)).Nodup) (h : (k, v) ∈ t)
    (h' : (k, v') ∈ t) : v = v' := by
  induction t with
  | nil => cases h
  | cons e t ih =>
    rw [List.map_cons, List.nodup_cons] at hnd
    rcases List.mem_cons.1 h with h | h <;> rcases List.mem_cons.1 h' with h' | h'
    · rw [← h] at h'; exact (Prod.mk.inj h').2.symm
    · exact absurd (List.mem_map_of_mem (f := (·.1)) h') (by rw [← h] at hnd; exact hnd.1)
    · exact absurd (List.mem_map_of_mem (f := (·.1)) h) (by rw [← h'] at hnd; exact hnd.1)
    · exact ih hnd.2 h h'

theorem find_of_mem {V : Type} {t : Storage.Table KS V} {k : KS} {v : V} (hnd : (t.map (·.1)).Nodup) (h : (k, v) ∈ t) :
    Storage.find t k = some v := by
  cases hf : Storage.find t k with
  | none => exact absurd h (find_none hf v)
  | some v' => rw [keys_unique hnd (find_mem hf) h]

theorem op_step {i : Nat} (hs : step c s (.op i) = some s') : stepOp c s i = some s' := hs

/-! Evaluating visits along a concrete schedule. -/

def visitsB (s s' : State AL KS N S) (r : Nat) : Bool :=
  (List.range s.nextTask).any (fun t => decide (r ∈ (s.task t).todoR) && !decide (r ∈ (s'.task t).todoR))

omit [DecidableEq KS] in
theorem visitsB_iff (w : TaskIdle s) (r : Nat) : visitsB s s' r = true ↔ Visits s s' r := by
  unfold visitsB Visits
  simp only [List.any_eq_true, List.mem_range, Bool.and_eq_true, decide_eq_true_eq, Bool.not_eq_true',
    decide_eq_false_iff_not]
  constructor
  · rintro ⟨t, _, h⟩; exact ⟨t, h⟩
  · rintro ⟨t, h⟩
    refine ⟨t, ?_, h⟩
    rcases Nat.lt_or_ge t s.nextTask with h' | h'
    · exact h'
    · rw [w t h'] at h; simp [TPc.todoR] at h

/-- Run a schedule, counting the visits of `r` and checking `Q` before every step. -/
def runV (c : Cfg AL KS N S) (Q : State AL KS N S → Bool) (r : Nat) :
    State AL KS N S → List (Action AL N) → Option (Nat × State AL KS N S)
  | s, [] => some (0, s)
  | s, a :: as =>
    if Q s then
      match step c s a with
      | none => none
      | some s' => (runV c Q r s' as).map (fun x => (if visitsB s s' r then x.1 + 1 else x.1, x.2))
    else none

theorem RunV.head {Q : State AL KS N S → Prop} {r n : Nat} {s1 : State AL KS N S} {a : Action AL N} (hq : Q s)
    (hs : step c s a = some s1) (h : RunV c r Q s1 n s') :
    (Visits s s1 r → RunV c r Q s (n + 1) s') ∧ (¬ Visits s s1 r → RunV c r Q s n s') := by
  induction h with
  | start => exact ⟨fun hv => .visit a .start hq hs hv, fun hv => .other a .start hq hs hv⟩
  | visit b h hq' hs' hv ih => exact ⟨fun hv' => .visit b (ih.1 hv') hq' hs' hv, fun hv' => .visit b (ih.2 hv') hq' hs' hv⟩
  | other b h hq' hs' hv ih => exact ⟨fun hv' => .other b (ih.1 hv') hq' hs' hv, fun hv' => .other b (ih.2 hv') hq' hs' hv⟩

theorem runV_sound {n0 : N} {Q : State AL KS N S → Prop} {Qb : State AL KS N S → Bool}
    (hQ : ∀ s, Reachable c n0 s → Qb s = true → Q s) {r n : Nat} {acts : List (Action AL N)} (hr : Reachable c n0 s)
    (h : runV c Qb r s acts = some (n, s')) : RunV c r Q s n s' := by
  induction acts generalizing s n with
  | nil =>
    simp only [runV, Option.some.injEq, Prod.mk.injEq] at h
    obtain ⟨rfl, rfl⟩ := h
    exact .start
  | cons a as ih =>
    simp only [runV] at h
    split at h
    · rename_i hq
      split at h
      · cases h
      · rename_i s1 hs
        simp only [Option.map_eq_some_iff, Prod.mk.injEq] at h
        obtain ⟨⟨m, s2⟩, h1, h2, h3⟩ := h
        dsimp only at h2 h3
        subst h3
        have hv := RunV.head (hQ s hr hq) hs (ih (reachable_step hr hs) h1)
        have hb := visitsB_iff (s' := s1) (reachable_prog hr).1.wf.taskIdle r
        split at h2
        · rename_i hv'; rw [← h2]; exact hv.1 (hb.1 hv')
        · rename_i hv'; rw [← h2]; exact hv.2 (fun hc => hv' (hb.2 hc))
    · cases h

end Verif.Sync
