import Verif.Proof.SyncStep

/-!
Helper file: well-formedness invariants of the synchronous machine (identifiers, tables, locks). Each invariant is a
separate predicate with its own preservation lemma.
-/

namespace Verif.Sync
open Verif
variable {AL KS N S : Type} [DecidableEq KS]

macro "stsimp" : tactic =>
  `(tactic| simp only [setRec, setOpPc, setTask, setAcc, setHold, initOld, initNew, upd_apply] at *)

/-- Task identifiers from `nextTask` on are unused. -/
def TaskIdle (s : State AL KS N S) : Prop := ∀ t, s.nextTask ≤ t → s.task t = .idle
/-- Call identifiers from `nextOp` on are unused. -/
def OpIdle (s : State AL KS N S) : Prop := ∀ i, s.nextOp ≤ i → (s.op i).pc = .idle
/-- A task inside the critical section of an instrument holds its lock. -/
def LockTask (s : State AL KS N S) : Prop := ∀ t o, (s.task t).lockObs = some o → s.lock o = some t
/-- A task inside the critical section of a view holds its lock. -/
def LLockTask (s : State AL KS N S) : Prop := ∀ t l, (s.task t).lockLeaf = some l → s.llock l = some t
/-- Records in a table are allocated and belong to that instrument. -/
def TblLt (s : State AL KS N S) : Prop := ∀ o r, r ∈ s.table o → r < s.nextRec ∧ (s.recs r).obs = o
def TblNodup (s : State AL KS N S) : Prop := ∀ o, (s.table o).Nodup
/-- A pinned record is allocated and belongs to the instrument of the call. -/
def OpRec (s : State AL KS N S) : Prop :=
  ∀ i r, (s.op i).pc.holds r = true → r < s.nextRec ∧ (s.recs r).obs = (s.op i).obs
def TodoNodup (s : State AL KS N S) : Prop := ∀ t, (s.task t).todoR.Nodup
/-- The records still to be visited and the one being visited are in the table and distinct. -/
def TodoMem (s : State AL KS N S) : Prop :=
  ∀ t o, (s.task t).lockObs = some o →
    (∀ r, r ∈ (s.task t).todoR → r ∈ s.table o) ∧
    (∀ r, (s.task t).curR = some r → r ∈ s.table o ∧ ¬ r ∈ (s.task t).todoR)
def AccsNodup (s : State AL KS N S) : Prop := ∀ r, r < s.nextRec → (s.recs r).accs.Nodup
def AccsMem (s : State AL KS N S) : Prop :=
  ∀ r a, r < s.nextRec → a ∈ (s.recs r).accs → a < s.nextAcc ∧ (s.acc a).rc = r
/-- The accumulators of a record are for the views of its instrument, in order. -/
def AccsLeaf (c : Cfg AL KS N S) (s : State AL KS N S) : Prop :=
  ∀ (r k a : Nat), r < s.nextRec → (s.recs r).accs[k]? = some a → (c.leavesOf (s.recs r).obs)[k]? = some (s.acc a).leaf
def AccRc (s : State AL KS N S) : Prop :=
  ∀ a, a < s.nextAcc → (s.acc a).rc < s.nextRec ∧ a ∈ (s.recs (s.acc a).rc).accs
def AccHold (s : State AL KS N S) : Prop :=
  ∀ a, a < s.nextAcc → (s.acc a).holder < s.nextHold ∧ (s.hold (s.acc a).holder).leaf = (s.acc a).leaf ∧
    (s.hold (s.acc a).holder).key = (s.acc a).key
def DataOk (s : State AL KS N S) : Prop :=
  ∀ l k h, (k, h) ∈ s.data l → h < s.nextHold ∧ (s.hold h).leaf = l ∧ (s.hold h).key = k
def DataKeys (s : State AL KS N S) : Prop := ∀ l, ((s.data l).map (·.1)).Nodup
def OpFull (c : Cfg AL KS N S) (s : State AL KS N S) : Prop :=
  ∀ i r, (s.op i).pc.past r = true → numLeaves c s r ≤ (s.recs r).accs.length
def TaskFull (c : Cfg AL KS N S) (s : State AL KS N S) : Prop :=
  ∀ t r, (s.task t).fullR = some r → numLeaves c s r ≤ (s.recs r).accs.length
/-- A task between `mv` and `rl` on an accumulator holds its lock. -/
def BusyLock (s : State AL KS N S) : Prop :=
  ∀ t r k, (s.task t).busy = some (r, k) → ∃ a, (s.recs r).accs[k]? = some a ∧ (s.acc a).slock = some t
/-- A locked accumulator is being processed by the task holding its lock. -/
def SLock (s : State AL KS N S) : Prop :=
  ∀ a t, a < s.nextAcc → (s.acc a).slock = some t →
    ∃ k, (s.task t).busy = some ((s.acc a).rc, k) ∧ (s.recs (s.acc a).rc).accs[k]? = some a
def LTodo (s : State AL KS N S) : Prop :=
  ∀ t l, (s.task t).lockLeaf = some l →
    ((s.task t).todoL.map (·.1)).Nodup ∧ (∀ e, e ∈ (s.task t).todoL → e ∈ s.data l)
/-- The series being collected is in the table, and will not be visited again. -/
def LCur (s : State AL KS N S) : Prop :=
  ∀ t l td k h n, s.task t = .lmv l td k h n → (k, h) ∈ s.data l ∧ ∀ h', ¬ (k, h') ∈ td

section
variable {c : Cfg AL KS N S} {s s' : State AL KS N S}

set_option maxHeartbeats 1000000

theorem TaskIdle.preserved (h : TaskIdle s) (hs : Step c s s') : TaskIdle s' := by
  cases hs
  all_goals first
   | exact h
   | (unfold TaskIdle at *
      intro t hh
      stsimp
      have := h t
      grind)

theorem OpIdle.preserved (h : OpIdle s) (hs : Step c s s') : OpIdle s' := by
  cases hs
  all_goals first
   | exact h
   | (unfold OpIdle at *
      intro t hh
      stsimp
      have := h t
      grind)

theorem LockTask.preserved (h : LockTask s) (hs : Step c s s') : LockTask s' := by
  cases hs
  all_goals first
   | exact h
   | (unfold LockTask at *
      intro t o hh
      stsimp
      have := h t o
      grind [TPc.lockObs])

theorem LLockTask.preserved (h : LLockTask s) (hs : Step c s s') : LLockTask s' := by
  cases hs
  all_goals first
   | exact h
   | (unfold LLockTask at *
      intro t o hh
      stsimp
      have := h t o
      grind [TPc.lockLeaf])

theorem TblLt.preserved (h : TblLt s) (hs : Step c s s') : TblLt s' := by
  cases hs
  all_goals first
   | exact h
   | (unfold TblLt at *
      intro o r hh
      stsimp
      have := h o r
      grind [newRec])

theorem TblNodup.preserved (h : TblNodup s) (hl : TblLt s) (hs : Step c s s') : TblNodup s' := by
  cases hs
  all_goals first
   | exact h
   | (unfold TblNodup TblLt at *
      intro o
      stsimp
      have := h o
      have := hl o s.nextRec
      grind)

theorem OpRec.preserved (h : OpRec s) (hl : TblLt s) (hs : Step c s s') : OpRec s' := by
  cases hs
  all_goals first
   | exact h
   | (unfold OpRec TblLt at *
      intro i r hh
      stsimp
      have := h i r
      grind [OPc.holds, newRec])

theorem TodoNodup.preserved (h : TodoNodup s) (hl : TblNodup s) (hs : Step c s s') : TodoNodup s' := by
  cases hs
  all_goals first
   | exact h
   | (unfold TodoNodup TblNodup at *
      intro t
      stsimp
      have := h t
      grind [TPc.todoR])

theorem TodoMem.preserved (h : TodoMem s) (hl : LockTask s) (hs : Step c s s') : TodoMem s' := by
  cases hs
  all_goals first
   | exact h
   | (unfold TodoMem LockTask at *
      intro t o hh
      stsimp
      have := h t o
      have := hl t o
      first
        | (clear h hl; grind [TPc.todoR, TPc.lockObs, TPc.curR])
        | grind [TPc.todoR, TPc.lockObs, TPc.curR])

theorem AccsNodup.preserved (h : AccsNodup s) (hm : AccsMem s) (hs : Step c s s') : AccsNodup s' := by
  cases hs
  all_goals first
   | exact h
   | (unfold AccsNodup AccsMem at *
      intro r hh
      stsimp
      have := h r
      have := hm r s.nextAcc
      clear h hm
      grind [newRec])

theorem AccsMem.preserved (h : AccsMem s) (hs : Step c s s') : AccsMem s' := by
  cases hs
  all_goals first
   | exact h
   | (unfold AccsMem at *
      intro r a hh hh2
      stsimp
      have := h r a
      clear h
      grind [newRec])

/-- A record about to get accumulators is allocated. -/
theorem ini_lt {r : Nat} (ho : OpRec s) (ht : TodoMem s) (hl : TblLt s)
    (hw : (∃ i, (s.op i).pc = .ini r) ∨ (∃ t o td m mN rel, s.task t = .ini o td r m mN rel)) : r < s.nextRec := by
  rcases hw with ⟨i, hi⟩ | ⟨t, o, td, m, mN, rel, hi⟩
  · exact (ho i r (by simp [hi, OPc.holds])).1
  · have := (ht t o (by simp [hi, TPc.lockObs])).2 r (by simp [hi, TPc.curR])
    exact (hl o r this.1).1

theorem AccsLeaf.preserved (h : AccsLeaf c s) (hm : AccsMem s) (hs : Step c s s') : AccsLeaf c s' := by
  cases hs
  all_goals first
   | exact h
   | (unfold AccsLeaf AccsMem at *
      intro r k a hh hh2
      stsimp
      have := h r k a
      have := hm r a
      clear h hm
      first
        | grind [newRec]
        | (split at hh2 <;> grind))

theorem AccRc.preserved (h : AccRc s) (ho : OpRec s) (ht : TodoMem s) (hl : TblLt s) (hs : Step c s s') : AccRc s' := by
  cases hs
  case initOld r l k h' hw _ _ _ _ =>
    have := ini_lt ho ht hl hw
    unfold AccRc at *
    intro a hh
    stsimp
    have := h a
    clear h
    grind
  case initNew r l k hw _ _ _ _ =>
    have := ini_lt ho ht hl hw
    unfold AccRc at *
    intro a hh
    stsimp
    have := h a
    clear h
    grind
  all_goals first
   | exact h
   | (unfold AccRc at *
      intro a hh
      stsimp
      have := h a
      clear h
      grind)

theorem find_mem {K V : Type} [DecidableEq K] {t : Storage.Table K V} {k : K} {v : V} (h : Storage.find t k = some v) : (k, v) ∈ t := by
  unfold Storage.find at h
  simp only [Option.map_eq_some_iff] at h
  obtain ⟨e, he, rfl⟩ := h
  have h1 := List.mem_of_find?_eq_some he
  have h2 := List.find?_some he
  simp only [beq_iff_eq] at h2
  rw [← h2]; exact h1

theorem find_none {K V : Type} [DecidableEq K] {t : Storage.Table K V} {k : K} (h : Storage.find t k = none) (v : V) : ¬ (k, v) ∈ t := by
  unfold Storage.find at h
  simp only [Option.map_eq_none_iff, List.find?_eq_none, beq_iff_eq] at h
  intro hm
  exact h _ hm rfl

theorem AccHold.preserved (h : AccHold s) (hd : DataOk s) (hs : Step c s s') : AccHold s' := by
  cases hs
  case initOld r l k h' hw _ _ _ hf =>
    have := hd l k h' (find_mem hf)
    unfold AccHold at *
    intro a hh
    stsimp
    have := h a
    clear h hd
    grind
  all_goals first
   | exact h
   | (unfold AccHold at *
      intro a hh
      stsimp
      have := h a
      clear h hd
      grind)

theorem DataOk.preserved (h : DataOk s) (hs : Step c s s') : DataOk s' := by
  cases hs
  all_goals first
   | exact h
   | (unfold DataOk at *
      intro l k hd hh
      stsimp
      have := h l k hd
      clear h
      grind [Storage.delete])

theorem DataKeys.preserved (h : DataKeys s) (hs : Step c s s') : DataKeys s' := by
  cases hs
  case initNew r l k hw _ _ _ hf =>
    unfold DataKeys at *
    intro l'
    stsimp
    have := h l'
    have := fun v => find_none hf v
    clear h
    grind
  case lmvDel t l td k h' hpc hc =>
    unfold DataKeys at *
    intro l'
    stsimp
    have := h l'
    have : ((Storage.delete (s.data l) k).map (·.1)).Nodup :=
      (h l).sublist (List.Sublist.map _ List.filter_sublist)
    clear h
    grind
  all_goals exact h

omit [DecidableEq KS] in
theorem past_holds {pc : OPc AL} {r : Nat} (h : pc.past r = true) : pc.holds r = true := by
  cases pc <;> simp_all [OPc.past, OPc.holds]

theorem OpFull.preserved (h : OpFull c s) (ho : OpRec s) (hs : Step c s s') : OpFull c s' := by
  cases hs
  all_goals first
   | exact h
   | (unfold OpFull OpRec numLeaves at *
      intro i r hh
      stsimp
      have := h i r
      have := ho i r
      have := @past_holds _ (s.op i).pc r
      clear h ho
      grind [OPc.past, OPc.holds, newRec])

omit [DecidableEq KS] in
theorem full_lt {t r : Nat} (ht : TodoMem s) (hl : TblLt s) (h : (s.task t).fullR = some r) : r < s.nextRec := by
  cases hp : s.task t <;> simp only [hp, TPc.fullR, Option.some.injEq, reduceCtorEq] at h
  all_goals
    subst h
    exact (hl _ _ ((ht t _ (by rw [hp]; rfl)).2 _ (by rw [hp]; rfl)).1).1

theorem TaskFull.preserved (h : TaskFull c s) (ht : TodoMem s) (hl : TblLt s) (hs : Step c s s') : TaskFull c s' := by
  cases hs
  all_goals first
   | exact h
   | (unfold TaskFull numLeaves at *
      intro t r hh
      have := h t r
      have := full_lt (t := t) (r := r) ht hl
      stsimp
      clear h ht hl
      grind [TPc.fullR, newRec])

theorem BusyLock.preserved (h : BusyLock s) (hm : AccsMem s) (ht : TodoMem s) (hl : TblLt s) (hs : Step c s s') :
    BusyLock s' := by
  cases hs
  all_goals first
   | exact h
   | (unfold BusyLock at *
      intro t r k hh
      have := h t r k
      have := full_lt (t := t) (r := r) ht hl
      have : (s.task t).busy = some (r, k) → (s.task t).fullR = some r := by
        cases s.task t <;> simp_all [TPc.busy, TPc.fullR]
      have := hm r
      stsimp
      clear ht hl hm
      first
        | (clear h; grind [TPc.busy, TPc.fullR, newRec])
        | grind [TPc.busy, TPc.fullR, newRec])

theorem SLock.preserved (h : SLock s) (hr : AccRc s) (hi : TaskIdle s) (hm : AccsMem s) (ht : TodoMem s)
    (hl : TblLt s) (hs : Step c s s') : SLock s' := by
  cases hs
  case mv t' o td r m mN rel k a' hpc ha hsl =>
    have hlt := full_lt (t := t') (r := r) ht hl (by rw [hpc]; rfl)
    have hmem := hm r a' hlt (List.mem_of_getElem? ha)
    unfold SLock AccRc at *
    intro a t hh hh2
    have := h a t
    stsimp
    clear h hr hi hm ht hl
    grind [TPc.busy, newRec]
  all_goals first
   | exact h
   | (unfold SLock AccRc at *
      intro a t hh hh2
      have := h a t
      have := hr a
      have := hi t
      stsimp
      clear h hr hi hm ht hl
      grind [TPc.busy, newRec])

theorem LTodo.preserved (h : LTodo s) (hl : LLockTask s) (hk : DataKeys s) (hc : LCur s) (hs : Step c s s') :
    LTodo s' := by
  cases hs
  case lmvDel t' l' td k h' hpc hch =>
    have hcur := (hc t' l' td k h' 0 hpc).2
    unfold LTodo DataKeys LLockTask at *
    intro t l hh
    have := h t l
    have := hl t l
    have := hl t' l'
    stsimp
    clear h hl hk hc
    grind [TPc.todoL, TPc.lockLeaf, Storage.delete]
  all_goals first
   | exact h
   | (unfold LTodo DataKeys LLockTask at *
      intro t l hh
      have := h t l
      have := hl t l
      have := hk l
      stsimp
      clear h hl hk
      grind [TPc.todoL, TPc.lockLeaf])

theorem LCur.preserved (h : LCur s) (hl : LLockTask s) (ht : LTodo s) (hs : Step c s s') : LCur s' := by
  cases hs
  case lmvDel t' l' td' k' h' hpc hch =>
    unfold LCur LLockTask LTodo at *
    intro t l td k hd n hh
    have := h t l td k hd n
    have := hl t l
    have := hl t' l'
    stsimp
    clear h hl ht
    grind [TPc.lockLeaf, Storage.delete]
  all_goals first
   | exact h
   | (unfold LCur LLockTask LTodo at *
      intro t l td k hd n hh
      have := h t l td k hd n
      have := hl t l
      have := ht t l
      stsimp
      clear h hl ht
      grind [TPc.todoL, TPc.lockLeaf])

end
end Verif.Sync
