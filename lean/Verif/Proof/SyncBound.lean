import Verif.Proof.SyncHalt
import Verif.Proof.DeliveryEnds

/-!
Helper file: a call on a synchronous instrument takes a bounded number of steps, whatever others do.
-/

namespace Verif.Sync
open Verif
variable {AL KS N S : Type} [DecidableEq KS] {c : Cfg AL KS N S} {s s' : State AL KS N S}

/-- Steps which a call has yet to take, at most; `L` is the number of outputs of the instrument, `len` the number of accumulators of each record. -/
def OPc.left (L : Nat) (len : Nat → Nat) (pc : OPc AL) : Nat :=
  pc.rank L + match pc with
    | .rd _ | .wr _ => L
    | .ini r => L - len r
    | _ => 0

def left (c : Cfg AL KS N S) (s : State AL KS N S) (i : Nat) : Nat := (s.op i).pc.left (c.leavesOf (s.op i).obs).length (fun r => (s.recs r).accs.length)

set_option maxHeartbeats 1000000 in
omit [DecidableEq KS] in
theorem accs_mono_step [DecidableEq KS] (hs : Step c s s') {r : Nat} (hr : r < s.nextRec) : (s.recs r).accs.length ≤ (s'.recs r).accs.length := by
  cases hs
  all_goals first
   | exact Nat.le_refl _
   | (stsimp; grind)

theorem initStep_accs {r : Nat} (h : initStep c s r = some s') : (s'.recs r).accs.length = (s.recs r).accs.length + 1 := by
  unfold initStep at h
  split at h
  · cases h
  · split at h
    · cases h
    · cases h
      simp

/-- A call goes on to its next line, makes an accumulator, or tries again. -/
theorem stepOp_changes {i : Nat} (h : stepOp c s i = some s') :
    (s'.op i).obs = (s.op i).obs ∧ ((s'.op i).pc ≠ (s.op i).pc ∨ (∃ r, (s.op i).pc = .ini r ∧ (s.recs r).accs.length < numLeaves c s r ∧ initStep c s r = some s') ∨
      (s'.op = s.op ∧ (∀ r, (s'.recs r).accs = (s.recs r).accs) ∧ s'.task = s.task)) := by
  have key : ∀ {s1 : State AL KS N S} {pc : OPc AL}, s1.op = s.op → ((setOpPc s1 i pc).op i).pc = pc ∧ ((setOpPc s1 i pc).op i).obs = (s.op i).obs := by
    intro s1 pc h1
    simp [setOpPc, h1]
  unfold stepOp at h
  dsimp only at h
  split at h
  · cases h
  · cases h
  · rename_i a hpc
    split at h
    · cases h
    · have hr := acquireRead_ops (c := c) (s := s) (s.op i).obs a
      split at h <;> rename_i e <;> rw [e] at hr <;> cases h <;> (obtain ⟨k1, k2⟩ := key hr; rw [k1, hpc]; exact ⟨k2, .inl (by simp)⟩)
  · rename_i a hpc
    split at h
    · cases h
    · have hr := acquireWrite_ops (c := c) (s := s) (s.op i).obs a
      split at h
      · rename_i e
        rw [e] at hr
        cases h
        obtain ⟨k1, k2⟩ := key hr
        rw [k1, hpc]
        exact ⟨k2, .inl (by simp)⟩
      · rename_i s1 e
        rw [e] at hr
        dsimp only at hr
        cases h
        rw [hr]
        refine ⟨rfl, .inr (.inr ⟨rfl, ?_⟩)⟩
        unfold acquireWrite at e
        split at e
        · obtain ⟨rfl, -⟩ := Prod.mk.inj e
          unfold tryRef
          refine ⟨fun r => ?_, rfl⟩
          dsimp only [setRec]
          rename_i r0 _
          by_cases hh : r = r0
          · subst hh; simp
          · simp [hh]
        · cases (Prod.mk.inj e).2
  · rename_i r hpc
    split at h
    · rename_i hlt
      rw [initStep_ops h]
      exact ⟨rfl, .inr (.inl ⟨r, hpc, hlt, h⟩)⟩
    · cases h
      obtain ⟨k1, k2⟩ := key (s1 := s) (pc := .fetch r 0) rfl
      rw [k1, hpc]
      exact ⟨k2, .inl (by simp)⟩
  · rename_i r k hpc
    split at h
    · cases h
      obtain ⟨k1, k2⟩ := key (s1 := { s with seq := s.seq + 1 }) (pc := .upd r k (s.seq + 1)) rfl
      rw [k1, hpc]
      exact ⟨k2, .inl (by simp)⟩
    · cases h
      obtain ⟨k1, k2⟩ := key (s1 := s) (pc := .cnt r) rfl
      rw [k1, hpc]
      exact ⟨k2, .inl (by simp)⟩
  · rename_i r k sq hpc
    split at h
    · cases h
    · cases h
      refine ⟨by simp [setOpPc, setAcc], .inl (by simp [setOpPc, hpc])⟩
  · rename_i r hpc
    cases h
    refine ⟨by simp [setRec], .inl (by simp [hpc])⟩
  · rename_i r hpc
    cases h
    refine ⟨by simp [setOpPc, setRec], .inl (by simp [setOpPc, hpc])⟩

theorem left_own (h : Halt c s) {i : Nat} (hs : step c s (.op i) = some s') : left c s' i + 1 ≤ left c s i ∧ (s'.op i).obs = (s.op i).obs := by
  have hs' : stepOp c s i = some s' := hs
  obtain ⟨hobs, hch⟩ := stepOp_changes hs'
  refine ⟨?_, hobs⟩
  have hmv := h.moves (h.inv.step_sound hs) (stepOp_next hs').1 (stepOp_next hs').2
  unfold left
  rw [hobs]
  rcases hch with hne | ⟨r, hpc, hlt, hin⟩ | ⟨h0, h1, h2⟩
  · -- another line
    cases hmv with
    | call j hj _ hoth hr =>
      have : j = i := Classical.byContradiction fun hji => by
        rw [(stepOp_done hs').2 j hji] at hr
        exact Nat.lt_irrefl _ hr
      subst this
      rw [hobs] at hr
      generalize (c.leavesOf (s.op j).obs).length = L at hr ⊢
      unfold OPc.left
      cases h1 : (s.op j).pc <;> rw [h1] at hr <;> cases h2 : (s'.op j).pc <;> rw [h2] at hr <;> simp only [OPc.rank] at hr ⊢ <;> omega
    | init r _ _ ho _ _ _ _ _ => rw [ho] at hne; exact absurd rfl hne
    | task t _ _ ho _ _ _ _ _ => rw [ho] at hne; exact absurd rfl hne
  · -- an accumulator
    have hrec := (h.inv.wf.opRec i r (by simp [hpc, OPc.holds]))
    rw [initStep_ops hin, hpc]
    unfold OPc.left
    simp only
    have := initStep_accs hin
    unfold numLeaves at hlt
    rw [hrec.2] at hlt
    rw [this]
    omega
  · -- another try: does not happen
    exfalso
    cases hmv with
    | call j hj _ hoth hr =>
      rw [h0] at hr
      exact Nat.lt_irrefl _ hr
    | init r _ _ _ _ _ _ _ hlen => rw [h1 r] at hlen; omega
    | task t _ _ _ _ _ _ _ hd => rw [h2] at hd; omega

theorem left_other (h : Halt c s) {i : Nat} (hi : i < s.nextOp) {a : Action AL N} (ha : a ≠ .op i) (hs : step c s a = some s') :
    left c s' i ≤ left c s i ∧ (s'.op i).obs = (s.op i).obs := by
  have hsame : s'.op i = s.op i := by
    cases a with
    | observe o x n =>
      cases hs
      show upd _ _ _ i = _
      rw [upd_ne _ _ (by omega)]
    | snapshot o => cases hs; rfl
    | collect l => cases hs; rfl
    | op j => exact (stepOp_done hs).2 i (fun e => ha (by rw [e]))
    | task t ch => rw [stepTask_ops hs]
  refine ⟨?_, by rw [hsame]⟩
  unfold left
  rw [hsame]
  unfold OPc.left
  cases hpc : (s.op i).pc with
  | ini r =>
    have := accs_mono_step (h.inv.step_sound hs) (h.inv.wf.opRec i r (by simp [hpc, OPc.holds])).1
    simp only
    omega
  | _ => exact Nat.le_refl _

/-- A step of call `i`; `took` counts them. -/
def Action.isOf (i : Nat) : Action AL N → Bool
  | .op j => j == i
  | _ => false

@[inherit_doc Action.isOf]
def took (i : Nat) (acts : List (Action AL N)) : Nat := acts.countP (Action.isOf i)

theorem took_le {acts : List (Action AL N)} {i : Nat} (hi : i < s.nextOp) (h : Halt c s) (hr : run c s acts = some s') :
    took i acts + left c s' i ≤ left c s i ∧ (s'.op i).obs = (s.op i).obs := by
  induction acts generalizing s with
  | nil => cases hr; exact ⟨Nat.le_of_eq (Nat.zero_add _), rfl⟩
  | cons a as ih =>
    simp only [run, Option.bind_eq_some_iff] at hr
    obtain ⟨s1, h1, h2⟩ := hr
    obtain ⟨g1, g2⟩ := ih (Nat.lt_of_lt_of_le hi (nextOp_mono h1)) (h.step h1) h2
    unfold took at g1 ⊢
    rw [List.countP_cons]
    by_cases ha : a = .op i
    · subst ha
      obtain ⟨g3, g4⟩ := left_own h h1
      refine ⟨?_, g2.trans g4⟩
      simp only [Action.isOf, beq_self_eq_true, if_true]
      omega
    · obtain ⟨g3, g4⟩ := left_other h hi ha h1
      refine ⟨?_, g2.trans g4⟩
      have : Action.isOf i a = false := by
        cases a with
        | op j => simp only [Action.isOf, beq_eq_false_iff_ne]; exact fun e => ha (by rw [e])
        | _ => rfl
      rw [this]
      simp only [Bool.false_eq_true, if_false]
      omega

/-- A call which cannot go on waits for a running task, which has the lock of its instrument or of one of its outputs. -/
theorem Halt.waits (h : Halt c s) {i : Nat} (hi : i < s.nextOp) (hn : (s.op i).pc ≠ .done) (hb : stepOp c s i = none) :
    ∃ t, t < s.nextTask ∧ s.task t ≠ .done ∧ (s.lock (s.op i).obs = some t ∨ ∃ l ∈ c.leavesOf (s.op i).obs, s.llock l = some t) := by
  have hlk : ∀ o, s.lock o ≠ none → ∃ t, t < s.nextTask ∧ s.task t ≠ .done ∧ s.lock o = some t := by
    intro o ho
    cases hl : s.lock o with
    | none => exact absurd hl ho
    | some t =>
      have := h.lock o t hl
      refine ⟨t, task_lt h.inv.wf (fun e => ?_), fun e => ?_, rfl⟩ <;> rw [e] at this <;> cases this
  have hll : ∀ l, s.llock l ≠ none → ∃ t, t < s.nextTask ∧ s.task t ≠ .done ∧ s.llock l = some t := by
    intro l ho
    cases hl : s.llock l with
    | none => exact absurd hl ho
    | some t =>
      have := h.llock l t hl
      refine ⟨t, task_lt h.inv.wf (fun e => ?_), fun e => ?_, rfl⟩ <;> rw [e] at this <;> cases this
  unfold stepOp at hb
  dsimp only at hb
  split at hb
  · rename_i hpc; exact absurd hpc (h.begun.1 i hi)
  · rename_i hpc; exact absurd hpc hn
  · split at hb
    · rename_i ho
      obtain ⟨t, h1, h2, h3⟩ := hlk _ ho
      exact ⟨t, h1, h2, .inl h3⟩
    · split at hb <;> cases hb
  · split at hb
    · rename_i ho
      obtain ⟨t, h1, h2, h3⟩ := hlk _ ho
      exact ⟨t, h1, h2, .inl h3⟩
    · split at hb <;> cases hb
  · rename_i r hpc
    split at hb
    · rename_i hlt
      have hrec := (h.inv.wf.opRec i r (by simp [hpc, OPc.holds]))
      unfold initStep at hb
      split at hb
      · rename_i hno
        exact absurd (List.getElem?_eq_none_iff.1 hno) (Nat.not_le.2 hlt)
      · rename_i l hl
        split at hb
        · rename_i ho
          obtain ⟨t, h1, h2, h3⟩ := hll _ ho
          refine ⟨t, h1, h2, .inr ⟨l, ?_, h3⟩⟩
          rw [← hrec.2]
          exact List.mem_of_getElem? hl
        · cases hb
    · cases hb
  · split at hb <;> cases hb
  · rename_i r k sq hpc
    have := h.updLt i r k sq hpc
    split at hb
    · rename_i hno
      exact absurd (List.getElem?_eq_none_iff.1 hno) (Nat.not_le.2 this)
    · cases hb
  · cases hb
  · cases hb

theorem initStep_task {r : Nat} (h : initStep c s r = some s') : s'.task = s.task := by
  unfold initStep at h
  split at h
  · cases h
  · split at h
    · cases h
    · cases h; rfl

theorem stepOp_task {i : Nat} (h : stepOp c s i = some s') : s'.task = s.task := by
  unfold stepOp at h
  dsimp only at h
  split at h
  · cases h
  · cases h
  · split at h
    · cases h
    · rename_i a _ _
      have hr : (acquireRead c s (s.op i).obs a).1.task = s.task := by
        have hp : ∀ s1 o a', (readPass c s1 o a').1.task = s1.task := by
          intro s1 o a'
          unfold readPass
          split <;> rfl
        unfold acquireRead
        split
        · rename_i e
          have := hp s (s.op i).obs a
          rw [e] at this
          exact this
        · rename_i s1 e
          have h1 := hp s (s.op i).obs a
          rw [e] at h1
          split
          · exact (hp s1 _ _).trans h1
          · exact h1
      split at h <;> rename_i e <;> rw [e] at hr <;> cases h <;> exact hr
  · split at h
    · cases h
    · rename_i a _ _
      have hr : (acquireWrite c s (s.op i).obs a).1.task = s.task := by
        unfold acquireWrite tryRef
        split <;> rfl
      split at h <;> rename_i e <;> rw [e] at hr <;> cases h <;> exact hr
  · split at h
    · exact initStep_task h
    · cases h; rfl
  · split at h <;> cases h <;> rfl
  · split at h
    · cases h
    · cases h; rfl
  · cases h; rfl
  · cases h; rfl

/-- While no task is running a call returns by its own steps. -/
theorem Halt.alone (h : Halt c s) {i : Nat} (hi : i < s.nextOp) (ht : ∀ t, t < s.nextTask → s.task t = .done) :
    ∃ n s', n ≤ left c s i ∧ Sync.run c s (List.replicate n (.op i)) = some s' ∧ (s'.op i).pc = .done := by
  generalize hl : left c s i = m
  induction m using Nat.strongRecOn generalizing s with
  | _ m ih =>
    by_cases hd : (s.op i).pc = .done
    · exact ⟨0, s, Nat.zero_le _, rfl, hd⟩
    · cases hs : stepOp c s i with
      | none =>
        obtain ⟨t, h1, h2, -⟩ := h.waits hi hd hs
        exact absurd (ht t h1) h2
      | some s1 =>
        obtain ⟨g1, -⟩ := left_own h (s' := s1) hs
        have hnx := stepOp_next hs
        obtain ⟨n, s', h1, h2, h3⟩ := ih (left c s1 i) (by omega) (h.step (a := .op i) hs) (by rw [hnx.1]; exact hi)
          (fun t h => by rw [stepOp_task hs]; exact ht t (by rw [hnx.2] at h; exact h)) rfl
        refine ⟨n + 1, s', by omega, ?_, h3⟩
        rw [List.replicate_succ, Sync.run]
        show (stepOp c s i).bind _ = _
        rw [hs]
        exact h2

end Verif.Sync
