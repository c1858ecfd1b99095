import Verif.Proof.SyncAux

/-!
Helper file: without new calls and collections the machine of synchronous instruments makes only finitely many steps, and when none is possible everything has returned.
-/

namespace Verif.Sync
open Verif
variable {AL KS N S : Type} [DecidableEq KS]
variable {c : Cfg AL KS N S} {s s' : State AL KS N S}

/-- A held lock is held by a task inside the critical section. -/
def LockHeld (s : State AL KS N S) : Prop := ∀ o t, s.lock o = some t → (s.task t).lockObs = some o
def LLockHeld (s : State AL KS N S) : Prop := ∀ l t, s.llock l = some t → (s.task t).lockLeaf = some l
/-- What was started is not idle. -/
def Begun (s : State AL KS N S) : Prop := (∀ i, i < s.nextOp → (s.op i).pc ≠ .idle) ∧ ∀ t, t < s.nextTask → s.task t ≠ .idle
/-- A call about to update has an accumulator to update. -/
def UpdLt (s : State AL KS N S) : Prop := ∀ i r k sq, (s.op i).pc = .upd r k sq → k < (s.recs r).accs.length

set_option maxHeartbeats 1000000

theorem LockHeld.preserved (h : LockHeld s) (hw : Wf c s) (hs : Step c s s') : LockHeld s' := by
  have hi := hw.taskIdle
  have hl := hw.lockTask
  unfold TaskIdle at hi
  unfold LockTask at hl
  cases hs
  all_goals first
   | exact h
   | (unfold LockHeld at *
      intro o t hh
      stsimp
      have := h o t
      grind [TPc.lockObs])

theorem LLockHeld.preserved (h : LLockHeld s) (hw : Wf c s) (hs : Step c s s') : LLockHeld s' := by
  have hi := hw.taskIdle
  have hl := hw.llockTask
  unfold TaskIdle at hi
  unfold LLockTask at hl
  cases hs
  all_goals first
   | exact h
   | (unfold LLockHeld at *
      intro o t hh
      stsimp
      have := h o t
      grind [TPc.lockLeaf])

theorem Begun.preserved (h : Begun s) (hs : Step c s s') : Begun s' := by
  obtain ⟨h1, h2⟩ := h
  refine ⟨?_, ?_⟩
  · cases hs
    all_goals first
     | exact h1
     | (intro i hi
        stsimp
        have := h1 i
        grind)
  · cases hs
    all_goals first
     | exact h2
     | (intro i hi
        stsimp
        have := h2 i
        grind)

theorem UpdLt.preserved (h : UpdLt s) (hw : Wf c s) (hs : Step c s s') : UpdLt s' := by
  have hr := hw.opRec
  unfold OpRec at hr
  cases hs
  all_goals first
   | exact h
   | (unfold UpdLt at *
      intro i r k sq hh
      have h3 := hr i r
      stsimp
      have := h i r k sq
      grind [OPc.holds, newRec])

/-- The invariants used here. -/
structure Halt (c : Cfg AL KS N S) (s : State AL KS N S) : Prop where
  inv : Inv c s
  lock : LockHeld s
  llock : LLockHeld s
  begun : Begun s
  updLt : UpdLt s

theorem Halt.preserved (h : Halt c s) (hs : Step c s s') : Halt c s' where
  inv := h.inv.preserved hs
  lock := h.lock.preserved h.inv.wf hs
  llock := h.llock.preserved h.inv.wf hs
  begun := h.begun.preserved hs
  updLt := h.updLt.preserved h.inv.wf hs

theorem Halt.initial (c : Cfg AL KS N S) (n0 : N) : Halt c (Sync.initial c n0) where
  inv := .initial c n0
  lock := by simp [LockHeld, Sync.initial]
  llock := by simp [LLockHeld, Sync.initial]
  begun := by simp [Begun, Sync.initial]
  updLt := by simp [UpdLt, Sync.initial]

theorem Halt.step (h : Halt c s) {a : Action AL N} (hs : step c s a = some s') : Halt c s' := h.preserved (h.inv.step_sound hs)

theorem Halt.run {acts : List (Action AL N)} : ∀ {s : State AL KS N S}, Halt c s → Sync.run c s acts = some s' → Halt c s' := by
  induction acts with
  | nil => intro s h hr; simp only [Sync.run, Option.some.injEq] at hr; subst hr; exact h
  | cons a as ih =>
    intro s h hr
    simp only [Sync.run, Option.bind_eq_some_iff] at hr
    obtain ⟨s1, h1, h2⟩ := hr
    exact ih (h.step h1) h2

/-! ### Steps are finite -/

/-- How far a call is from its return. -/
def OPc.rank (L : Nat) : OPc AL → Nat
  | .idle => 0
  | .rd _ => 2 * L + 6
  | .wr _ => 2 * L + 5
  | .ini _ => 2 * L + 4
  | .fetch _ k => 2 * (L - k) + 3
  | .upd _ k _ => 2 * (L - k) + 2
  | .cnt _ => 2
  | .unref _ => 1
  | .done => 0

/-- The task waits for the lock of its instrument or output metric. -/
def TPc.waits : TPc KS → Nat
  | .lockw _ | .lockl _ => 1
  | _ => 0

/-- How far a task which has the lock is from its end. -/
def TPc.rank (c : Cfg AL KS N S) : TPc KS → Nat
  | .scan o td => (3 * (c.leavesOf o).length + 7) * td.length + 1
  | .unmap o td _ => (3 * (c.leavesOf o).length + 7) * td.length + 3 * (c.leavesOf o).length + 7
  | .sload o td _ _ => (3 * (c.leavesOf o).length + 7) * td.length + 3 * (c.leavesOf o).length + 6
  | .ini o td _ _ _ _ => (3 * (c.leavesOf o).length + 7) * td.length + 3 * (c.leavesOf o).length + 5
  | .mv o td _ _ _ _ k => (3 * (c.leavesOf o).length + 7) * td.length + 3 * ((c.leavesOf o).length - k) + 4
  | .mg o td _ _ _ _ k => (3 * (c.leavesOf o).length + 7) * td.length + 3 * ((c.leavesOf o).length - k) + 3
  | .rl o td _ _ _ _ k => (3 * (c.leavesOf o).length + 7) * td.length + 3 * ((c.leavesOf o).length - k) + 2
  | .lscan _ td => 2 * td.length + 1
  | .lmv _ td _ _ _ => 2 * td.length + 2
  | _ => 0

/-- Accumulators still to be made for the records there are. -/
def missing (c : Cfg AL KS N S) (s : State AL KS N S) : Nat := sumTo s.nextRec (fun r => numLeaves c s r - (s.recs r).accs.length)
def callRanks (c : Cfg AL KS N S) (s : State AL KS N S) : Nat := sumTo s.nextOp (fun i => (s.op i).pc.rank (c.leavesOf (s.op i).obs).length)
def taskWaits (s : State AL KS N S) : Nat := sumTo s.nextTask (fun t => (s.task t).waits)
def taskRanks (c : Cfg AL KS N S) (s : State AL KS N S) : Nat := sumTo s.nextTask (fun t => (s.task t).rank c)

/-- What a step which is not a new call does. -/
inductive Moves (c : Cfg AL KS N S) (s s' : State AL KS N S) : Prop
  | call (i : Nat) (hi : i < s.nextOp) (hn : s'.nextOp = s.nextOp) (hj : ∀ j, j ≠ i → s'.op j = s.op j)
      (hr : (s'.op i).pc.rank (c.leavesOf (s'.op i).obs).length < (s.op i).pc.rank (c.leavesOf (s.op i).obs).length)
  | init (r : Nat) (hr : r < s.nextRec) (hn : s'.nextOp = s.nextOp) (ho : s'.op = s.op) (hm : s'.nextRec = s.nextRec) (hj : ∀ j, j ≠ r → s'.recs j = s.recs j)
      (hobs : (s'.recs r).obs = (s.recs r).obs) (hlt : (s.recs r).accs.length < numLeaves c s r) (hlen : (s'.recs r).accs.length = (s.recs r).accs.length + 1)
  | task (t : Nat) (ht : t < s.nextTask) (hn : s'.nextOp = s.nextOp) (ho : s'.op = s.op) (hm : s'.nextRec = s.nextRec)
      (hr : ∀ r, (s'.recs r).obs = (s.recs r).obs ∧ (s'.recs r).accs = (s.recs r).accs) (hk : s'.nextTask = s.nextTask) (hj : ∀ j, j ≠ t → s'.task j = s.task j)
      (hd : (s'.task t).waits < (s.task t).waits ∨ ((s'.task t).waits = (s.task t).waits ∧ (s'.task t).rank c < (s.task t).rank c))

theorem filter_lt {α : Type} {p : α → Bool} {l : List α} {a : α} (h : a ∈ l) (hp : p a = false) : (l.filter p).length < l.length := by
  induction l with
  | nil => cases h
  | cons b l ih =>
    rw [List.filter_cons]
    rcases List.mem_cons.1 h with rfl | h
    · rw [if_neg (by simp [hp])]
      exact Nat.lt_succ_of_le (List.length_filter_le _ _)
    · split
      · simp only [List.length_cons]; have := ih h; omega
      · simp only [List.length_cons]; have := ih h; omega

theorem mul_drop {W a b : Nat} (h : a < b) : W * a + W ≤ W * b := by
  calc W * a + W = W * (a + 1) := by rw [Nat.mul_succ]
    _ ≤ W * b := Nat.mul_le_mul_left _ h

theorem accs_le (hw : Wf c s) {r : Nat} (hr : r < s.nextRec) : (s.recs r).accs.length ≤ numLeaves c s r := by
  by_cases h : (s.recs r).accs.length = 0
  · omega
  · have h1 : (s.recs r).accs[(s.recs r).accs.length - 1]? = some (s.recs r).accs[(s.recs r).accs.length - 1] :=
      List.getElem?_eq_getElem (by omega)
    have h2 := hw.accsLeaf r _ _ hr h1
    have h3 := (List.getElem?_eq_some_iff.1 h2).1
    unfold numLeaves
    omega

theorem opn_lt (hw : Wf c s) {i : Nat} (h : (s.op i).pc ≠ .idle) : i < s.nextOp :=
  Nat.lt_of_not_le (fun hn => h (hw.opIdle i hn))

theorem task_lt (hw : Wf c s) {t : Nat} (h : s.task t ≠ .idle) : t < s.nextTask :=
  Nat.lt_of_not_le (fun hn => h (hw.taskIdle t hn))

/-- Every step which starts nothing moves a call, an initialisation or a task towards its end. -/
theorem Halt.moves (h : Halt c s) (hs : Step c s s') (hno : s'.nextOp = s.nextOp) (hnt : s'.nextTask = s.nextTask) : Moves c s s' := by
  have hw := h.inv.wf
  have hiniLt : ∀ r, ((∃ i, (s.op i).pc = .ini r) ∨ (∃ t o td m mN rel, s.task t = .ini o td r m mN rel)) → r < s.nextRec := by
    rintro r (⟨i, hi⟩ | ⟨t, o, td, m, mN, rel, ht⟩)
    · exact (hw.opRec i r (by simp [hi, OPc.holds])).1
    · exact (hw.tblLt o r (((hw.todoMem t o (by simp [ht, TPc.lockObs])).2 r (by simp [ht, TPc.curR])).1)).1
  have hobs : ∀ t o r, (s.task t).lockObs = some o → (s.task t).curR = some r → r < s.nextRec ∧ (s.recs r).obs = o := by
    intro t o r h1 h2
    exact hw.tblLt o r (((hw.todoMem t o h1).2 r h2).1)
  cases hs with
  | observe o a n => simp at hno
  | snapshot o => simp at hnt
  | collect l => simp at hnt
  | rdHit i a a' r hpc hl hr ha hm =>
    exact .call i (opn_lt hw (by simp [hpc])) rfl (fun j hj => by simp [setOpPc, setRec, hj]) (by simp [setOpPc, setRec, hpc, OPc.rank])
  | rdMiss i a a' hpc hl hm =>
    exact .call i (opn_lt hw (by simp [hpc])) rfl (fun j hj => by simp [setOpPc, hj]) (by simp [setOpPc, hpc, OPc.rank])
  | wrHit i a r hpc hl hr hm =>
    exact .call i (opn_lt hw (by simp [hpc])) rfl (fun j hj => by simp [setOpPc, setRec, hj]) (by simp [setOpPc, setRec, hpc, OPc.rank])
  | wrNew i a hpc hl hf =>
    exact .call i (opn_lt hw (by simp [hpc])) rfl (fun j hj => by simp [setOpPc, hj]) (by simp [setOpPc, hpc, OPc.rank])
  | initOld r l k h0 hw0 hl hll hk hf =>
    exact .init r (hiniLt r hw0) rfl rfl rfl (fun j hj => by simp [initOld, hj]) (by simp [initOld]) (List.getElem?_eq_some_iff.1 hl).1 (by simp [initOld])
  | initNew r l k hw0 hl hll hk hf =>
    exact .init r (hiniLt r hw0) rfl rfl rfl (fun j hj => by simp [initNew, hj]) (by simp [initNew]) (List.getElem?_eq_some_iff.1 hl).1 (by simp [initNew])
  | iniDone i r hpc hlen =>
    exact .call i (opn_lt hw (by simp [hpc])) rfl (fun j hj => by simp [setOpPc, hj]) (by simp [setOpPc, hpc, OPc.rank])
  | fetch i r k hpc hk =>
    exact .call i (opn_lt hw (by simp [hpc])) rfl (fun j hj => by simp [setOpPc, hj]) (by simp [setOpPc, hpc, OPc.rank])
  | fetchEnd i r k hpc hk =>
    exact .call i (opn_lt hw (by simp [hpc])) rfl (fun j hj => by simp [setOpPc, hj]) (by simp [setOpPc, hpc, OPc.rank])
  | upd i r k sq a hpc ha =>
    have h1 := hw.opRec i r (by simp [hpc, OPc.holds])
    have h2 := accs_le hw h1.1
    have h3 := (List.getElem?_eq_some_iff.1 ha).1
    unfold numLeaves at h2
    rw [h1.2] at h2
    exact .call i (opn_lt hw (by simp [hpc])) rfl (fun j hj => by simp [setOpPc, setAcc, hj]) (by simp [setOpPc, setAcc, hpc, OPc.rank]; omega)
  | cnt i r hpc =>
    exact .call i (opn_lt hw (by simp [hpc])) rfl (fun j hj => by simp [hj]) (by simp [hpc, OPc.rank])
  | unref i r hpc =>
    exact .call i (opn_lt hw (by simp [hpc])) rfl (fun j hj => by simp [setOpPc, setRec, hj]) (by simp [setOpPc, setRec, hpc, OPc.rank])
  | lockw t o hpc hl =>
    exact .task t (task_lt hw (by simp [hpc])) rfl rfl rfl (fun r => ⟨rfl, rfl⟩) rfl (fun j hj => by simp [setTask, hj]) (.inl (by simp [setTask, hpc, TPc.waits]))
  | scanEnd t o hpc =>
    exact .task t (task_lt hw (by simp [hpc])) rfl rfl rfl (fun r => ⟨rfl, rfl⟩) rfl (fun j hj => by simp [setTask, hj]) (.inr ⟨by simp [setTask, hpc, TPc.waits], by simp [setTask, hpc, TPc.rank]⟩)
  | scanIdle t o td r hpc hr he hp =>
    refine .task t (task_lt hw (by simp [hpc])) rfl rfl rfl (fun r' => ?_) rfl (fun j hj => by simp [setTask, setRec, hj]) (.inr ⟨by simp [setTask, hpc, TPc.waits], ?_⟩)
    · by_cases hh : r' = r <;> simp [setTask, setRec, hh]
    · have h1 := mul_drop (W := 3 * (c.leavesOf o).length + 7) (filter_lt (p := fun x => !(x == r)) hr (by simp))
      simp only [setTask, setRec, upd_same, hpc, TPc.rank]; omega
  | scanUnmap t o td r hpc hr he hp =>
    refine .task t (task_lt hw (by simp [hpc])) rfl rfl rfl (fun r' => ?_) rfl (fun j hj => by simp [setTask, setRec, hj]) (.inr ⟨by simp [setTask, hpc, TPc.waits], ?_⟩)
    · by_cases hh : r' = r <;> simp [setTask, setRec, hh]
    · have h1 := mul_drop (W := 3 * (c.leavesOf o).length + 7) (filter_lt (p := fun x => !(x == r)) hr (by simp))
      simp only [setTask, setRec, upd_same, hpc, TPc.rank]; omega
  | scanSnap t o td r hpc hr he =>
    refine .task t (task_lt hw (by simp [hpc])) rfl rfl rfl (fun r' => ⟨rfl, rfl⟩) rfl (fun j hj => by simp [setTask, hj]) (.inr ⟨by simp [setTask, hpc, TPc.waits], ?_⟩)
    have h1 := mul_drop (W := 3 * (c.leavesOf o).length + 7) (filter_lt (p := fun x => !(x == r)) hr (by simp))
    simp only [setTask, upd_same, hpc, TPc.rank]; omega
  | unmapOk t o td r hpc hw0 =>
    refine .task t (task_lt hw (by simp [hpc])) rfl rfl rfl (fun r' => ?_) rfl (fun j hj => by simp [setTask, setRec, hj]) (.inr ⟨by simp [setTask, hpc, TPc.waits], ?_⟩)
    · by_cases hh : r' = r <;> simp [setTask, setRec, hh]
    · simp only [setTask, setRec, upd_same, hpc, TPc.rank]; omega
  | unmapFail t o td r hpc hw0 =>
    refine .task t (task_lt hw (by simp [hpc])) rfl rfl rfl (fun r' => ⟨rfl, rfl⟩) rfl (fun j hj => by simp [setTask, hj]) (.inr ⟨by simp [setTask, hpc, TPc.waits], ?_⟩)
    simp only [setTask, upd_same, hpc, TPc.rank]; omega
  | sloadSkip t o td r hpc he =>
    refine .task t (task_lt hw (by simp [hpc])) rfl rfl rfl (fun r' => ?_) rfl (fun j hj => by simp [setTask, setRec, hj]) (.inr ⟨by simp [setTask, hpc, TPc.waits], ?_⟩)
    · by_cases hh : r' = r <;> simp [setTask, setRec, hh]
    · simp only [setTask, setRec, upd_same, hpc, TPc.rank]; omega
  | sloadGo t o td r rel hpc he =>
    refine .task t (task_lt hw (by simp [hpc])) rfl rfl rfl (fun r' => ⟨rfl, rfl⟩) rfl (fun j hj => by simp [setTask, hj]) (.inr ⟨by simp [setTask, hpc, TPc.waits], ?_⟩)
    simp only [setTask, upd_same, hpc, TPc.rank]; omega
  | tIniDone t o td r m mN rel hpc hlen =>
    refine .task t (task_lt hw (by simp [hpc])) rfl rfl rfl (fun r' => ⟨rfl, rfl⟩) rfl (fun j hj => by simp [setTask, hj]) (.inr ⟨by simp [setTask, hpc, TPc.waits], ?_⟩)
    simp only [setTask, upd_same, hpc, TPc.rank]; omega
  | mv t o td r m mN rel k a hpc ha hs =>
    refine .task t (task_lt hw (by simp [hpc])) rfl rfl rfl (fun r' => ⟨rfl, rfl⟩) rfl (fun j hj => by simp [setTask, setAcc, hj]) (.inr ⟨by simp [setTask, hpc, TPc.waits], ?_⟩)
    simp only [setTask, setAcc, upd_same, hpc, TPc.rank]; omega
  | finKeep t o td r m mN k hpc ha =>
    refine .task t (task_lt hw (by simp [hpc])) rfl rfl rfl (fun r' => ?_) rfl (fun j hj => by simp [setTask, setRec, hj]) (.inr ⟨by simp [setTask, hpc, TPc.waits], ?_⟩)
    · by_cases hh : r' = r <;> simp [setTask, setRec, hh]
    · simp only [setTask, setRec, upd_same, hpc, TPc.rank]; omega
  | finRel t o td r m mN k hpc ha =>
    refine .task t (task_lt hw (by simp [hpc])) rfl rfl rfl (fun r' => ?_) rfl (fun j hj => by simp [setTask, setRec, hj]) (.inr ⟨by simp [setTask, hpc, TPc.waits], ?_⟩)
    · by_cases hh : r' = r <;> simp [setTask, setRec, hh]
    · simp only [setTask, setRec, upd_same, hpc, TPc.rank]; omega
  | mg t o td r m mN rel k a hpc ha =>
    refine .task t (task_lt hw (by simp [hpc])) rfl rfl rfl (fun r' => ⟨rfl, rfl⟩) rfl (fun j hj => by simp [setTask, setAcc, setHold, hj]) (.inr ⟨by simp [setTask, hpc, TPc.waits], ?_⟩)
    simp only [setTask, setAcc, setHold, upd_same, hpc, TPc.rank]; omega
  | rlKeep t o td r m mN k a hpc ha =>
    have h1 := hobs t o r (by simp [hpc, TPc.lockObs]) (by simp [hpc, TPc.curR])
    have h2 := accs_le hw h1.1
    have h3 := (List.getElem?_eq_some_iff.1 ha).1
    unfold numLeaves at h2
    rw [h1.2] at h2
    refine .task t (task_lt hw (by simp [hpc])) rfl rfl rfl (fun r' => ⟨rfl, rfl⟩) rfl (fun j hj => by simp [setTask, setAcc, hj]) (.inr ⟨by simp [setTask, hpc, TPc.waits], ?_⟩)
    simp only [setTask, setAcc, upd_same, hpc, TPc.rank]; omega
  | rlRel t o td r m mN k a hpc ha =>
    have h1 := hobs t o r (by simp [hpc, TPc.lockObs]) (by simp [hpc, TPc.curR])
    have h2 := accs_le hw h1.1
    have h3 := (List.getElem?_eq_some_iff.1 ha).1
    unfold numLeaves at h2
    rw [h1.2] at h2
    refine .task t (task_lt hw (by simp [hpc])) rfl rfl rfl (fun r' => ⟨rfl, rfl⟩) rfl (fun j hj => by simp [setTask, setAcc, setHold, hj]) (.inr ⟨by simp [setTask, hpc, TPc.waits], ?_⟩)
    simp only [setTask, setAcc, setHold, upd_same, hpc, TPc.rank]; omega
  | lockl t l hpc hl =>
    exact .task t (task_lt hw (by simp [hpc])) rfl rfl rfl (fun r => ⟨rfl, rfl⟩) rfl (fun j hj => by simp [setTask, hj]) (.inl (by simp [setTask, hpc, TPc.waits]))
  | lscanEnd t l hpc =>
    exact .task t (task_lt hw (by simp [hpc])) rfl rfl rfl (fun r => ⟨rfl, rfl⟩) rfl (fun j hj => by simp [setTask, hj]) (.inr ⟨by simp [setTask, hpc, TPc.waits], by simp [setTask, hpc, TPc.rank]⟩)
  | lscanDelta t l td k h0 hpc hr hd =>
    refine .task t (task_lt hw (by simp [hpc])) rfl rfl rfl (fun r' => ⟨rfl, rfl⟩) rfl (fun j hj => by simp [setTask, hj]) (.inr ⟨by simp [setTask, hpc, TPc.waits], ?_⟩)
    have h1 := filter_lt (p := fun e : KS × Nat => !(e.1 == k)) hr (by simp)
    simp only [setTask, upd_same, hpc, TPc.rank]; omega
  | lscanCum t l td k h0 hpc hr hd =>
    refine .task t (task_lt hw (by simp [hpc])) rfl rfl rfl (fun r' => ⟨rfl, rfl⟩) rfl (fun j hj => by simp [setTask, hj]) (.inr ⟨by simp [setTask, hpc, TPc.waits], ?_⟩)
    have h1 := filter_lt (p := fun e : KS × Nat => !(e.1 == k)) hr (by simp)
    simp only [setTask, upd_same, hpc, TPc.rank]; omega
  | lmvKeep t l td k h0 nr hpc hc =>
    refine .task t (task_lt hw (by simp [hpc])) rfl rfl rfl (fun r' => ⟨rfl, rfl⟩) rfl (fun j hj => by simp [setTask, setHold, hj]) (.inr ⟨by simp [setTask, hpc, TPc.waits], ?_⟩)
    simp only [setTask, setHold, upd_same, hpc, TPc.rank]; omega
  | lmvDel t l td k h0 hpc hc =>
    refine .task t (task_lt hw (by simp [hpc])) rfl rfl rfl (fun r' => ⟨rfl, rfl⟩) rfl (fun j hj => by simp [setTask, setHold, hj]) (.inr ⟨by simp [setTask, hpc, TPc.waits], ?_⟩)
    simp only [setTask, setHold, upd_same, hpc, TPc.rank]; omega

/-- The measure: calls, initialisations, waiting tasks, running tasks, compared in that order. -/
def Lower (c : Cfg AL KS N S) (s' s : State AL KS N S) : Prop :=
  callRanks c s' < callRanks c s ∨ (callRanks c s' = callRanks c s ∧
    (missing c s' < missing c s ∨ (missing c s' = missing c s ∧
      (taskWaits s' < taskWaits s ∨ (taskWaits s' = taskWaits s ∧ taskRanks c s' < taskRanks c s)))))

theorem Moves.lower (h : Moves c s s') : Lower c s' s := by
  cases h with
  | call i hi hn hj hr =>
    left
    unfold callRanks
    rw [hn]
    have := sumTo_change (f := fun i => (s.op i).pc.rank (c.leavesOf (s.op i).obs).length)
      (g := fun i => (s'.op i).pc.rank (c.leavesOf (s'.op i).obs).length) hi (fun j _ hne => by rw [hj j hne])
    omega
  | init r hr hn ho hm hj hobs hlt hlen =>
    right
    refine ⟨by unfold callRanks; rw [hn, ho], .inl ?_⟩
    unfold missing
    rw [hm]
    have := sumTo_change (f := fun r => numLeaves c s r - (s.recs r).accs.length)
      (g := fun r => numLeaves c s' r - (s'.recs r).accs.length) hr (fun j _ hne => by dsimp only [numLeaves]; rw [hj j hne])
    have h2 : numLeaves c s' r = numLeaves c s r := by unfold numLeaves; rw [hobs]
    omega
  | task t ht hn ho hm hr hk hj hd =>
    right
    refine ⟨by unfold callRanks; rw [hn, ho], .inr ⟨?_, ?_⟩⟩
    · unfold missing
      rw [hm]
      refine sumTo_congr fun r _ => ?_
      unfold numLeaves
      rw [(hr r).1, (hr r).2]
    · have h1 := sumTo_change (f := fun t => (s.task t).waits) (g := fun t => (s'.task t).waits) ht (fun j _ hne => by rw [hj j hne])
      have h2 := sumTo_change (f := fun t => (s.task t).rank c) (g := fun t => (s'.task t).rank c) ht (fun j _ hne => by rw [hj j hne])
      unfold taskWaits taskRanks
      rw [hk]
      rcases hd with hd | ⟨hd1, hd2⟩
      · left; omega
      · right; omega

/-- Everything started has returned. -/
def AllDone (s : State AL KS N S) : Prop := (∀ i, i < s.nextOp → (s.op i).pc = .done) ∧ ∀ t, t < s.nextTask → s.task t = .done

theorem initStep_some {r : Nat} (h1 : (s.recs r).accs.length < numLeaves c s r) (h2 : ∀ l, s.llock l = none) : initStep c s r ≠ none := by
  unfold initStep
  rw [List.getElem?_eq_getElem (by unfold numLeaves at h1; exact h1)]
  simp [h2]

/-- When no call and no task can make a step, all have returned. -/
theorem Halt.stuck (h : Halt c s) (ho : ∀ i, stepOp c s i = none) (ht : ∀ t ch, stepTask c s t ch = none) : AllDone s := by
  have hw := h.inv.wf
  -- nobody is inside the critical section of an output metric
  have hll : ∀ l, s.llock l = none := by
    intro l
    cases hl : s.llock l with
    | none => rfl
    | some t =>
      exfalso
      have h1 := h.llock l t hl
      cases hp : s.task t with
      | lscan l' td =>
        cases td with
        | nil => have := ht t 0; simp [stepTask, hp] at this
        | cons e td =>
          have := ht t 0
          obtain ⟨k, h0⟩ := e
          simp only [stepTask, hp, List.getElem?_cons_zero] at this
          split at this <;> cases this
      | lmv l' td k h0 nr => have := ht t 0; simp [stepTask, hp] at this
      | _ => simp [hp, TPc.lockLeaf] at h1
  have hmgrl : ∀ t r k, (s.task t).busy ≠ some (r, k) := by
    intro t r k hb
    obtain ⟨a, ha, _⟩ := hw.busyLock t r k hb
    have h2 := ht t 0
    cases hp : s.task t with
    | mg o td r' m mN rel k' =>
      simp only [hp, TPc.busy, Option.some.injEq, Prod.mk.injEq] at hb
      obtain ⟨rfl, rfl⟩ := hb
      simp [stepTask, hp, ha] at h2
    | rl o td r' m mN rel k' =>
      simp only [hp, TPc.busy, Option.some.injEq, Prod.mk.injEq] at hb
      obtain ⟨rfl, rfl⟩ := hb
      simp [stepTask, hp, ha] at h2
    | _ => simp [hp, TPc.busy] at hb
  -- nobody is inside the critical section of an instrument
  have hlk : ∀ o, s.lock o = none := by
    intro o
    cases hl : s.lock o with
    | none => rfl
    | some t =>
      exfalso
      have h1 := h.lock o t hl
      have h2 := ht t 0
      cases hp : s.task t with
      | scan o' td =>
        cases td with
        | nil => simp [stepTask, hp] at h2
        | cons e td =>
          simp only [stepTask, hp, List.getElem?_cons_zero] at h2
          split at h2
          · split at h2 <;> cases h2
          · cases h2
      | unmap o' td r => simp [stepTask, hp] at h2
      | sload o' td r rel =>
        simp only [stepTask, hp] at h2
        split at h2 <;> cases h2
      | ini o' td r m mN rel =>
        simp only [stepTask, hp] at h2
        split at h2
        · rename_i hlt; exact initStep_some hlt hll h2
        · cases h2
      | mv o' td r m mN rel k =>
        simp only [stepTask, hp] at h2
        cases ha : (s.recs r).accs[k]? with
        | none => rw [ha] at h2; cases h2
        | some a =>
          rw [ha] at h2
          dsimp only at h2
          split at h2
          · rename_i hsl
            obtain ⟨t', ht'⟩ := Option.ne_none_iff_exists'.1 hsl
            have hr := hw.tblLt o' r (((hw.todoMem t o' (by simp [hp, TPc.lockObs])).2 r (by simp [hp, TPc.curR])).1)
            have hal := hw.accsMem r a hr.1 (List.mem_of_getElem? ha)
            obtain ⟨k', hk', _⟩ := hw.sLock a t' hal.1 ht'
            exact hmgrl t' _ _ hk'
          · cases h2
      | mg o' td r m mN rel k => exact hmgrl t r k (by simp [hp, TPc.busy])
      | rl o' td r m mN rel k => exact hmgrl t r k (by simp [hp, TPc.busy])
      | _ => simp [hp, TPc.lockObs] at h1
  refine ⟨fun i hi => ?_, fun t hlt => ?_⟩
  · have h1 := ho i
    cases hp : (s.op i).pc with
    | idle => exact absurd hp (h.begun.1 i hi)
    | done => rfl
    | rd a =>
      exfalso
      simp only [stepOp, hp, hlk, ne_eq, not_true_eq_false, if_false] at h1
      split at h1 <;> cases h1
    | wr a =>
      exfalso
      simp only [stepOp, hp, hlk, ne_eq, not_true_eq_false, if_false] at h1
      split at h1 <;> cases h1
    | ini r =>
      exfalso
      simp only [stepOp, hp] at h1
      split at h1
      · rename_i hlt; exact initStep_some hlt hll h1
      · cases h1
    | fetch r k =>
      exfalso
      simp only [stepOp, hp] at h1
      split at h1 <;> cases h1
    | upd r k sq =>
      exfalso
      simp [stepOp, hp, List.getElem?_eq_getElem (h.updLt i r k sq hp)] at h1
    | cnt r => simp [stepOp, hp] at h1
    | unref r => simp [stepOp, hp] at h1
  · have h1 := ht t 0
    have hno : (s.task t).lockObs = none := by
      cases hq : (s.task t).lockObs with
      | none => rfl
      | some o => have := hw.lockTask t o hq; rw [hlk] at this; cases this
    have hnl : (s.task t).lockLeaf = none := by
      cases hq : (s.task t).lockLeaf with
      | none => rfl
      | some o => have := hw.llockTask t o hq; rw [hll] at this; cases this
    cases hp : s.task t with
    | done => rfl
    | idle => exact absurd hp (h.begun.2 t hlt)
    | lockw o => simp [stepTask, hp, hlk] at h1
    | lockl l => simp [stepTask, hp, hll] at h1
    | _ => first | (simp [hp, TPc.lockObs] at hno; done) | (simp [hp, TPc.lockLeaf] at hnl; done)

/-- No step of a call starts anything. -/
theorem stepOp_next {i : Nat} (h : stepOp c s i = some s') : s'.nextOp = s.nextOp ∧ s'.nextTask = s.nextTask := by
  unfold stepOp at h
  dsimp only at h
  split at h
  all_goals try (cases h; done)
  · split at h
    · cases h
    · split at h
      all_goals
        rename_i hq
        injection h with h; subst h
        unfold acquireRead readPass at hq
        grind [setOpPc, tryRef, setRec]
  · split at h
    · cases h
    · split at h
      all_goals
        rename_i hq
        injection h with h; subst h
        unfold acquireWrite at hq
        grind [setOpPc, tryRef, setRec]
  all_goals grind [setOpPc, initStep, setAcc, setRec]

theorem stepTask_next {t ch : Nat} (h : stepTask c s t ch = some s') : s'.nextOp = s.nextOp ∧ s'.nextTask = s.nextTask := by
  unfold stepTask at h
  split at h
  all_goals try (cases h; done)
  all_goals grind [setTask, initStep, setAcc, setRec, setHold, finishRec]

theorem Halt.op_lower (h : Halt c s) {i : Nat} (hs : Sync.step c s (.op i) = some s') : Lower c s' s :=
  (h.moves (h.inv.step_sound hs) (stepOp_next hs).1 (stepOp_next hs).2).lower

theorem Halt.task_lower (h : Halt c s) {t ch : Nat} (hs : Sync.step c s (.task t ch) = some s') : Lower c s' s :=
  (h.moves (h.inv.step_sound hs) (stepTask_next hs).1 (stepTask_next hs).2).lower

end Verif.Sync
