import Verif.Proof.SyncBound
import Verif.Proof.DeliveryHalt

/-!
Helper file: under a fair schedule every call on a synchronous instrument and every `SnapshotAndProcess` and `Collect` returns, though others keep coming.
-/

namespace Verif
universe u

/-- What comes closer with every step of its own, and gets no farther by other steps, comes about if it has a step ever again. -/
theorem leads {α : Type u} {lt : α → α → Prop} (hwf : WellFounded lt) {D T : Nat → Prop} {μ : Nat → α} {n : Nat}
    (mono : ∀ k, n ≤ k → ¬ D k → ¬ D (k + 1) → μ (k + 1) = μ k ∨ lt (μ (k + 1)) (μ k))
    (own : ∀ k, n ≤ k → ¬ D k → ¬ D (k + 1) → T k → lt (μ (k + 1)) (μ k))
    (often : (∀ k, n ≤ k → ¬ D k) → ∀ m, n ≤ m → ∃ k, m ≤ k ∧ T k) : ∃ k, n ≤ k ∧ D k := by
  refine Classical.byContradiction fun hno => ?_
  have hD : ∀ k, n ≤ k → ¬ D k := fun k hk hd => hno ⟨k, hk, hd⟩
  have key : ∀ v, ∀ k, n ≤ k → μ k = v → False := by
    intro v
    induction v using hwf.induction with
    | _ v ih =>
      intro k hk hv
      obtain ⟨j, hj, ht⟩ := often hD k hk
      -- up to `j` the value stays or gets smaller
      have hstay : ∀ d, k + d ≤ j → μ (k + d) = v := by
        intro d
        induction d with
        | zero => exact fun _ => hv
        | succ d ihd =>
          intro hd
          have h1 := ihd (by omega)
          rcases mono (k + d) (by omega) (hD _ (by omega)) (hD _ (by omega)) with h | h
          · rw [← Nat.add_assoc, h, h1]
          · exact (ih _ (by rw [← h1]; exact h) (k + d + 1) (by omega) rfl).elim
      have h2 := hstay (j - k) (by omega)
      rw [Nat.add_sub_cancel' hj] at h2
      have h3 := own j (by omega) (hD _ (by omega)) (hD _ (by omega)) ht
      exact ih _ (by rw [← h2]; exact h3) (j + 1) (by omega) rfl
  exact key _ n (Nat.le_refl _) rfl

end Verif

namespace Verif.Sync
open Verif
variable {AL KS N S : Type} [DecidableEq KS] {c : Cfg AL KS N S} {s s' : State AL KS N S}

omit [DecidableEq KS] in
theorem setRec_accs {r r' : Nat} {g : Rec AL → Rec AL} (hg : ∀ x, (g x).accs = x.accs) : ((setRec s r g).recs r').accs = (s.recs r').accs := by
  by_cases hh : r' = r
  · subst hh; simp [setRec, hg]
  · simp [setRec, hh]

/-- A task goes on to its next line, or makes an accumulator. -/
theorem stepTask_changes {t ch : Nat} (h : stepTask c s t ch = some s') :
    (∀ j, j ≠ t → s'.task j = s.task j) ∧ ((∃ o td r m mN rel, s.task t = .ini o td r m mN rel ∧ initStep c s r = some s') ∨ ∀ r, (s'.recs r).accs = (s.recs r).accs) := by
  unfold stepTask at h
  split at h
  all_goals try (cases h; done)
  case h_7 o td r m mN rel hp =>
    split at h
    · exact ⟨fun j _ => by rw [initStep_task h], .inl ⟨o, td, r, m, mN, rel, hp, h⟩⟩
    · cases h
      exact ⟨fun j hj => by simp [setTask, hj], .inr fun _ => rfl⟩
  all_goals try dsimp only at h
  all_goals repeat' split at h
  all_goals try (cases h; done)
  all_goals cases h
  all_goals refine ⟨fun j hj => ?_, .inr fun r' => ?_⟩
  all_goals try unfold setTask
  all_goals try unfold finishRec
  all_goals try unfold setTask
  all_goals try dsimp only
  all_goals first
    | rfl
    | (rw [upd_ne _ _ hj] <;> first | rfl | (split <;> rfl))
    | (dsimp only [setRec, setAcc, setHold]; first | rfl | (split <;> rfl))
    | exact setRec_accs (fun _ => rfl)
    | (split <;> (try dsimp only) <;> refine setRec_accs (s := s) (fun x => ?_) <;> rfl)

/-- Accumulators which a task at `readAccumulator` has yet to make, at most. -/
def slack (c : Cfg AL KS N S) (s : State AL KS N S) (t : Nat) : Nat :=
  match s.task t with
  | .ini _ _ r _ _ _ => numLeaves c s r - (s.recs r).accs.length
  | _ => 0

/-- How far a task is from its end. -/
def far (c : Cfg AL KS N S) (s : State AL KS N S) (t : Nat) : Nat × Nat × Nat := ((s.task t).waits, (s.task t).rank c, slack c s t)

/-- Nearer. -/
def Near : Nat × Nat × Nat → Nat × Nat × Nat → Prop := LexBy [fun x => x.1, fun x => x.2.1, fun x => x.2.2]

set_option maxHeartbeats 1000000 in
omit [DecidableEq KS] in
theorem recs_keep [DecidableEq KS] (hs : Step c s s') {r : Nat} (hr : r < s.nextRec) : r < s'.nextRec ∧ (s'.recs r).obs = (s.recs r).obs := by
  cases hs
  all_goals first
   | exact ⟨hr, rfl⟩
   | (stsimp; grind)

theorem nextTask_mono {a : Action AL N} (hs : step c s a = some s') : s.nextTask ≤ s'.nextTask := by
  cases a with
  | observe o x n => cases hs; exact Nat.le_refl _
  | snapshot o => cases hs; exact Nat.le_succ _
  | collect l => cases hs; exact Nat.le_succ _
  | op i => rw [(stepOp_next hs).2]; exact Nat.le_refl _
  | task t ch => rw [(stepTask_next hs).2]; exact Nat.le_refl _

theorem far_own (h : Halt c s) {t ch : Nat} (hs : stepTask c s t ch = some s') : Near (far c s' t) (far c s t) := by
  obtain ⟨hoth, hch⟩ := stepTask_changes hs
  have hmv := h.moves (h.inv.step_sound (a := .task t ch) hs) (stepTask_next hs).1 (stepTask_next hs).2
  rcases hch with ⟨o, td, r, m, mN, rel, hp, hin⟩ | hacc
  · have h1 := initStep_accs hin
    have h2 := initStep_task hin
    have h3 : (s.recs r).accs.length < numLeaves c s r ∧ numLeaves c s' r = numLeaves c s r := by
      unfold initStep at hin
      split at hin
      · cases hin
      · rename_i l hl
        have := (List.getElem?_eq_some_iff.1 hl).1
        split at hin
        · cases hin
        · cases hin
          refine ⟨this, ?_⟩
          simp [numLeaves]
    refine .inr ⟨by simp [far, h2], .inr ⟨by simp [far, h2], .inl ?_⟩⟩
    simp only [far, slack, h2, hp]
    omega
  · cases hmv with
    | call i _ _ _ hr => rw [stepTask_ops hs] at hr; exact absurd hr (Nat.lt_irrefl _)
    | init r _ _ _ _ _ _ _ hlen => rw [hacc r] at hlen; omega
    | task t' _ _ _ _ _ _ _ hd =>
      have : t' = t := Classical.byContradiction fun hne => by rw [hoth t' hne] at hd; omega
      subst this
      rcases hd with hd | ⟨hd1, hd2⟩
      · exact .inl hd
      · exact .inr ⟨hd1, .inl hd2⟩

theorem task_other {t : Nat} (ht : t < s.nextTask) {a : Action AL N} (ha : ∀ ch, a ≠ .task t ch) (hs : step c s a = some s') : s'.task t = s.task t := by
  cases a with
  | observe o x n => cases hs; rfl
  | snapshot o => cases hs; show upd _ _ _ t = _; rw [upd_ne _ _ (by omega)]
  | collect l => cases hs; show upd _ _ _ t = _; rw [upd_ne _ _ (by omega)]
  | op i => rw [stepOp_task hs]
  | task t' ch => exact (stepTask_changes hs).1 t (fun e => ha ch (by rw [e]))

theorem op_other {i : Nat} (hi : i < s.nextOp) {a : Action AL N} (ha : a ≠ .op i) (hs : step c s a = some s') : s'.op i = s.op i := by
  cases a with
  | observe o x n => cases hs; show upd _ _ _ i = _; rw [upd_ne _ _ (by omega)]
  | snapshot o => cases hs; rfl
  | collect l => cases hs; rfl
  | op j => exact (stepOp_done hs).2 i (fun e => ha (by rw [e]))
  | task t ch => rw [stepTask_ops hs]

theorem far_other (h : Halt c s) {t : Nat} (ht : t < s.nextTask) {a : Action AL N} (ha : ∀ ch, a ≠ .task t ch) (hs : step c s a = some s') :
    far c s' t = far c s t ∨ Near (far c s' t) (far c s t) := by
  have h1 := task_other ht ha hs
  have hle : slack c s' t ≤ slack c s t := by
    unfold slack
    rw [h1]
    cases hp : s.task t with
    | ini o td r m mN rel =>
      have hr := (h.inv.wf.tblLt o r (((h.inv.wf.todoMem t o (by simp [hp, TPc.lockObs])).2 r (by simp [hp, TPc.curR])).1)).1
      have h2 := accs_mono_step (h.inv.step_sound hs) hr
      have h3 := (recs_keep (h.inv.step_sound hs) hr).2
      simp only [numLeaves]
      rw [h3]
      omega
    | _ => exact Nat.le_refl _
  rcases Nat.lt_or_eq_of_le hle with hlt | he
  · exact .inr (.inr ⟨by simp [far, h1], .inr ⟨by simp [far, h1], .inl hlt⟩⟩)
  · left
    unfold far
    rw [h1, he]

/-- A task which has its lock goes on, or waits for the lock of an output metric. -/
theorem Halt.runs (h : Halt c s) {t : Nat} (hi : s.task t ≠ .idle) (hd : s.task t ≠ .done) (hw : (s.task t).waits = 0) :
    (∃ ch, stepTask c s t ch ≠ none) ∨ ∃ o td r m mN rel, s.task t = .ini o td r m mN rel ∧ (s.recs r).accs.length < numLeaves c s r ∧ initStep c s r = none := by
  have wf := h.inv.wf
  cases hp : s.task t with
  | idle => exact absurd hp hi
  | done => exact absurd hp hd
  | lockw o => simp [hp, TPc.waits] at hw
  | lockl l => simp [hp, TPc.waits] at hw
  | scan o td =>
    refine .inl ⟨0, ?_⟩
    cases td with
    | nil => simp [stepTask, hp]
    | cons e td =>
      simp only [stepTask, hp, List.getElem?_cons_zero]
      split
      · split <;> simp
      · simp
  | unmap o td r => exact .inl ⟨0, by simp [stepTask, hp]⟩
  | sload o td r rel =>
    refine .inl ⟨0, ?_⟩
    simp only [stepTask, hp]
    split <;> simp
  | ini o td r m mN rel =>
    by_cases hlt : (s.recs r).accs.length < numLeaves c s r
    · cases hin : initStep c s r with
      | none => exact .inr ⟨o, td, r, m, mN, rel, rfl, hlt, hin⟩
      | some y => exact .inl ⟨0, by simp [stepTask, hp, hlt, hin]⟩
    · exact .inl ⟨0, by simp [stepTask, hp, hlt]⟩
  | mv o td r m mN rel k =>
    refine .inl ⟨0, ?_⟩
    simp only [stepTask, hp]
    cases ha : (s.recs r).accs[k]? with
    | none => simp
    | some a =>
      dsimp only
      split
      · rename_i hsl
        exfalso
        -- nobody else works on the records of this instrument
        obtain ⟨t', ht'⟩ := Option.ne_none_iff_exists'.1 hsl
        have hlo : (s.task t).lockObs = some o := by simp [hp, TPc.lockObs]
        have hr := wf.tblLt o r (((wf.todoMem t o hlo).2 r (by simp [hp, TPc.curR])).1)
        have hal := wf.accsMem r a hr.1 (List.mem_of_getElem? ha)
        obtain ⟨k', hk', _⟩ := wf.sLock a t' hal.1 ht'
        rw [hal.2] at hk'
        have hb : ∃ o', (s.task t').lockObs = some o' ∧ (s.task t').curR = some r := by
          cases hq : s.task t' with
          | mg o2 td2 r2 m2 mN2 rel2 k2 =>
            simp only [hq, TPc.busy, Option.some.injEq, Prod.mk.injEq] at hk'
            exact ⟨o2, rfl, by simp [TPc.curR, hk'.1]⟩
          | rl o2 td2 r2 m2 mN2 rel2 k2 =>
            simp only [hq, TPc.busy, Option.some.injEq, Prod.mk.injEq] at hk'
            exact ⟨o2, rfl, by simp [TPc.curR, hk'.1]⟩
          | _ => simp [hq, TPc.busy] at hk'
        obtain ⟨o', ho', hcur⟩ := hb
        have hr' := wf.tblLt o' r (((wf.todoMem t' o' ho').2 r hcur).1)
        have : o' = o := by rw [← hr'.2, hr.2]
        subst this
        have e := wf.lockTask t' o' ho'
        rw [wf.lockTask t o' hlo] at e
        injection e with e
        subst e
        rw [hp] at hk'
        cases hk'
      · simp
  | mg o td r m mN rel k =>
    obtain ⟨a, ha, _⟩ := wf.busyLock t r k (by simp [hp, TPc.busy])
    exact .inl ⟨0, by simp [stepTask, hp, ha]⟩
  | rl o td r m mN rel k =>
    obtain ⟨a, ha, _⟩ := wf.busyLock t r k (by simp [hp, TPc.busy])
    exact .inl ⟨0, by simp [stepTask, hp, ha]⟩
  | lscan l td =>
    refine .inl ⟨0, ?_⟩
    cases td with
    | nil => simp [stepTask, hp]
    | cons e td =>
      obtain ⟨k, h0⟩ := e
      simp only [stepTask, hp, List.getElem?_cons_zero]
      split <;> simp
  | lmv l td k h0 nr => exact .inl ⟨0, by simp [stepTask, hp]⟩

theorem lock_keep (hs : Step c s s') {o t : Nat} (h : s.lock o = some t) : s'.lock o = some t ∨ s'.lock o = none := by
  cases hs
  all_goals first
   | exact .inl h
   | (stsimp; grind)

theorem llock_keep (hs : Step c s s') {l t : Nat} (h : s.llock l = some t) : s'.llock l = some t ∨ s'.llock l = none := by
  cases hs
  all_goals first
   | exact .inl h
   | (stsimp; grind)

/-- An endless execution in which calls and tasks which could go on again and again do so again and again. -/
structure Trace (c : Cfg AL KS N S) (σ : Nat → State AL KS N S) (b : Nat → Option (Action AL N)) : Prop where
  halt : Halt c (σ 0)
  next : ∀ n, (b n = none ∧ σ (n + 1) = σ n) ∨ ∃ x, b n = some x ∧ step c (σ n) x = some (σ (n + 1))
  ops : ∀ i, (∀ m, ∃ k, m ≤ k ∧ stepOp c (σ k) i ≠ none) → ∀ m, ∃ k, m ≤ k ∧ b k = some (.op i)
  tasks : ∀ t, (∀ m, ∃ k, m ≤ k ∧ ∃ ch, stepTask c (σ k) t ch ≠ none) → ∀ m, ∃ k, m ≤ k ∧ ∃ ch, b k = some (.task t ch)

variable {σ : Nat → State AL KS N S} {b : Nat → Option (Action AL N)}

theorem Trace.halts (T : Trace c σ b) (n : Nat) : Halt c (σ n) := by
  induction n with
  | zero => exact T.halt
  | succ n ih =>
    rcases T.next n with ⟨-, h⟩ | ⟨x, -, h⟩
    · rw [h]; exact ih
    · exact ih.step h

/-- What holds at a time and is kept by steps, holds later. -/
theorem Trace.keeps (T : Trace c σ b) {P : State AL KS N S → Prop} {n : Nat} (h0 : P (σ n))
    (hs : ∀ k, n ≤ k → ∀ x, b k = some x → step c (σ k) x = some (σ (k + 1)) → P (σ k) → P (σ (k + 1))) : ∀ k, n ≤ k → P (σ k) := by
  intro k hk
  induction hk with
  | refl => exact h0
  | step hk ih =>
    rename_i m
    rcases T.next m with ⟨-, h⟩ | ⟨x, hx, h⟩
    · show P (σ (m + 1)); rw [h]; exact ih
    · exact hs m hk x hx h ih

theorem Trace.task_lt (T : Trace c σ b) {n t : Nat} (h : t < (σ n).nextTask) : ∀ k, n ≤ k → t < (σ k).nextTask :=
  T.keeps (P := fun s => t < s.nextTask) h (fun _ _ _ _ hs hp => Nat.lt_of_lt_of_le hp (nextTask_mono hs))

theorem Trace.op_lt (T : Trace c σ b) {n i : Nat} (h : i < (σ n).nextOp) : ∀ k, n ≤ k → i < (σ k).nextOp :=
  T.keeps (P := fun s => i < s.nextOp) h (fun _ _ _ _ hs hp => Nat.lt_of_lt_of_le hp (nextOp_mono hs))

/-- Up to a later time a task has made a step, or is where it was. -/
theorem Trace.task_still (T : Trace c σ b) {n t : Nat} (h : t < (σ n).nextTask) {m : Nat} (hm : n ≤ m) :
    (∃ k, n ≤ k ∧ ∃ ch, stepTask c (σ k) t ch ≠ none) ∨ (σ m).task t = (σ n).task t := by
  by_cases hex : ∃ k, n ≤ k ∧ ∃ ch, stepTask c (σ k) t ch ≠ none
  · exact .inl hex
  · right
    refine T.keeps (P := fun s => s.task t = (σ n).task t) rfl (fun k hk x hx hs hp => ?_) m hm
    rw [task_other (T.task_lt h k hk) (fun ch e => ?_) hs]
    · exact hp
    · subst e
      exact hex ⟨k, hk, ch, by rw [show stepTask c (σ k) t ch = some _ from hs]; simp⟩

theorem Trace.op_still (T : Trace c σ b) {n i : Nat} (h : i < (σ n).nextOp) {m : Nat} (hm : n ≤ m) :
    (∃ k, n ≤ k ∧ stepOp c (σ k) i ≠ none) ∨ (σ m).op i = (σ n).op i := by
  by_cases hex : ∃ k, n ≤ k ∧ stepOp c (σ k) i ≠ none
  · exact .inl hex
  · right
    refine T.keeps (P := fun s => s.op i = (σ n).op i) rfl (fun k hk x hx hs hp => ?_) m hm
    rw [op_other (T.op_lt h k hk) (fun e => ?_) hs]
    · exact hp
    · subst e
      exact hex ⟨k, hk, by rw [show stepOp c (σ k) i = some _ from hs]; simp⟩

/-- Tasks get their work done, once they can again and again go on. -/
theorem Trace.task_leads (T : Trace c σ b) {n t : Nat} (ht : t < (σ n).nextTask) {D : Nat → Prop}
    (often : (∀ k, n ≤ k → ¬ D k) → ∀ m, n ≤ m → ∃ k, m ≤ k ∧ ∃ ch, stepTask c (σ k) t ch ≠ none) : ∃ k, n ≤ k ∧ D k := by
  refine leads (lexBy_wf _ : WellFounded Near) (T := fun k => ∃ ch, b k = some (.task t ch)) (μ := fun k => far c (σ k) t) ?_ ?_ ?_
  · intro k hk _ _
    rcases T.next k with ⟨-, h⟩ | ⟨x, -, h⟩
    · left; rw [h]
    · by_cases hx : ∃ ch, x = .task t ch
      · obtain ⟨ch, rfl⟩ := hx
        exact .inr (far_own (T.halts k) h)
      · exact far_other (T.halts k) (T.task_lt ht k hk) (fun ch e => hx ⟨ch, e⟩) h
  · rintro k hk - - ⟨ch, hc⟩
    rcases T.next k with ⟨h, -⟩ | ⟨x, hx, h⟩
    · rw [hc] at h; cases h
    · rw [hc] at hx
      injection hx with hx
      subst hx
      exact far_own (T.halts k) h
  · intro hD m hm
    refine T.tasks t (fun m' => ?_) m
    obtain ⟨k, h1, h2⟩ := often hD (max n m') (Nat.le_max_left ..)
    exact ⟨k, Nat.le_trans (Nat.le_max_right ..) h1, h2⟩

/-- Again and again nobody has the lock of an output metric. -/
theorem Trace.leaf_free (T : Trace c σ b) (l n : Nat) : ∃ k, n ≤ k ∧ (σ k).llock l = none := by
  refine Classical.byContradiction fun hno => ?_
  have hne : ∀ k, n ≤ k → (σ k).llock l ≠ none := fun k hk e => hno ⟨k, hk, e⟩
  obtain ⟨t, ht⟩ := Option.ne_none_iff_exists'.1 (hne n (Nat.le_refl _))
  have hkeep : ∀ k, n ≤ k → (σ k).llock l = some t :=
    T.keeps (P := fun s => s.llock l = some t) ht (fun k hk x _ hs hp => (llock_keep ((T.halts k).inv.step_sound hs) hp).resolve_right (hne _ (by omega)))
  have hlf : ∀ k, n ≤ k → ((σ k).task t).lockLeaf = some l := fun k hk => (T.halts k).llock l t (hkeep k hk)
  have hlt : t < (σ n).nextTask := Sync.task_lt (T.halts n).inv.wf (fun e => by have := hlf n (Nat.le_refl _); rw [e] at this; cases this)
  obtain ⟨k, hk, hD⟩ := T.task_leads hlt (D := fun k => ((σ k).task t).lockLeaf ≠ some l) (fun _ m hm => by
    have h1 := hlf m hm
    rcases (T.halts m).runs (t := t) (fun e => by rw [e] at h1; cases h1) (fun e => by rw [e] at h1; cases h1)
      (by cases hp : (σ m).task t <;> rw [hp] at h1 <;> first | rfl | cases h1) with h | ⟨o, td, r, mm, mN, rel, hp, -⟩
    · exact ⟨m, Nat.le_refl _, h⟩
    · rw [hp] at h1; cases h1)
  exact hD (hlf k hk)

/-- Again and again the next accumulator of a record can be made, unless all have been made. -/
theorem Trace.init_free (T : Trace c σ b) {r n : Nat} (hr : r < (σ n).nextRec) :
    ∃ k, n ≤ k ∧ ((σ k).recs r).obs = ((σ n).recs r).obs ∧ (¬ ((σ k).recs r).accs.length < numLeaves c (σ k) r ∨ initStep c (σ k) r ≠ none) := by
  generalize hd : numLeaves c (σ n) r - ((σ n).recs r).accs.length = d
  induction d using Nat.strongRecOn generalizing n with
  | _ d ih =>
    by_cases hlt : ((σ n).recs r).accs.length < numLeaves c (σ n) r
    · obtain ⟨l, hl⟩ : ∃ l, (c.leavesOf ((σ n).recs r).obs)[((σ n).recs r).accs.length]? = some l := ⟨_, List.getElem?_eq_getElem hlt⟩
      obtain ⟨k, hk, hf⟩ := T.leaf_free l n
      have hkeep := T.keeps (P := fun s => r < s.nextRec ∧ (s.recs r).obs = ((σ n).recs r).obs ∧ ((σ n).recs r).accs.length ≤ (s.recs r).accs.length)
        ⟨hr, rfl, Nat.le_refl _⟩ (fun k _ x _ hs hp => by
          have h1 := recs_keep ((T.halts k).inv.step_sound hs) hp.1
          have h2 := accs_mono_step ((T.halts k).inv.step_sound hs) hp.1
          exact ⟨h1.1, h1.2.trans hp.2.1, Nat.le_trans hp.2.2 h2⟩) k hk
      obtain ⟨h1, h2, h3⟩ := hkeep
      have hnl : numLeaves c (σ k) r = numLeaves c (σ n) r := by unfold numLeaves; rw [h2]
      rcases Nat.lt_or_eq_of_le h3 with h4 | h4
      · obtain ⟨k', h5, h6, h7⟩ := ih _ (by omega) h1 rfl
        exact ⟨k', Nat.le_trans hk h5, h6.trans h2, h7⟩
      · refine ⟨k, hk, h2, .inr ?_⟩
        unfold initStep
        rw [h2, ← h4, hl]
        simp [hf]
    · exact ⟨n, Nat.le_refl _, rfl, .inl hlt⟩

/-- A task which has its lock can go on again and again. -/
theorem Trace.often (T : Trace c σ b) {n t : Nat} (ht : t < (σ n).nextTask) (hd : (σ n).task t ≠ .done) (hw : ((σ n).task t).waits = 0) :
    ∃ k, n ≤ k ∧ ∃ ch, stepTask c (σ k) t ch ≠ none := by
  rcases (T.halts n).runs (t := t) ((T.halts n).begun.2 t ht) hd hw with h | ⟨o, td, r, m, mN, rel, hp, -, -⟩
  · exact ⟨n, Nat.le_refl _, h⟩
  · have wf := (T.halts n).inv.wf
    have hr := wf.tblLt o r (((wf.todoMem t o (by simp [hp, TPc.lockObs])).2 r (by simp [hp, TPc.curR])).1)
    obtain ⟨k, hk, -, h1⟩ := T.init_free hr.1
    rcases T.task_still ht hk with h2 | h2
    · exact h2
    · refine ⟨k, hk, 0, ?_⟩
      rw [hp] at h2
      simp only [stepTask, h2]
      split
      · rename_i hlt
        exact h1.resolve_left (fun hn => hn hlt)
      · simp

/-- Again and again nobody has the lock of an instrument. -/
theorem Trace.inst_free (T : Trace c σ b) (o n : Nat) : ∃ k, n ≤ k ∧ (σ k).lock o = none := by
  refine Classical.byContradiction fun hno => ?_
  have hne : ∀ k, n ≤ k → (σ k).lock o ≠ none := fun k hk e => hno ⟨k, hk, e⟩
  obtain ⟨t, ht⟩ := Option.ne_none_iff_exists'.1 (hne n (Nat.le_refl _))
  have hkeep : ∀ k, n ≤ k → (σ k).lock o = some t :=
    T.keeps (P := fun s => s.lock o = some t) ht (fun k hk x _ hs hp => (lock_keep ((T.halts k).inv.step_sound hs) hp).resolve_right (hne _ (by omega)))
  have hlf : ∀ k, n ≤ k → ((σ k).task t).lockObs = some o := fun k hk => (T.halts k).lock o t (hkeep k hk)
  have hlt : t < (σ n).nextTask := Sync.task_lt (T.halts n).inv.wf (fun e => by have := hlf n (Nat.le_refl _); rw [e] at this; cases this)
  obtain ⟨k, hk, hD⟩ := T.task_leads hlt (D := fun k => ((σ k).task t).lockObs ≠ some o) (fun _ m hm => by
    have h1 := hlf m hm
    exact T.often (T.task_lt hlt m hm) (fun e => by rw [e] at h1; cases h1) (by cases hp : (σ m).task t <;> rw [hp] at h1 <;> first | rfl | cases h1))
  exact hD (hlf k hk)

/-- Every task returns. -/
theorem Trace.task_done (T : Trace c σ b) {n t : Nat} (ht : t < (σ n).nextTask) : ∃ k, n ≤ k ∧ (σ k).task t = .done := by
  refine T.task_leads ht (fun hD m hm => ?_)
  have hlt := T.task_lt ht m hm
  by_cases hw : ((σ m).task t).waits = 0
  · exact T.often hlt (hD m hm) hw
  · cases hp : (σ m).task t with
    | lockw o =>
      obtain ⟨k, hk, hf⟩ := T.inst_free o m
      rcases T.task_still hlt hk with h2 | h2
      · exact h2
      · refine ⟨k, hk, 0, ?_⟩
        rw [hp] at h2
        simp [stepTask, h2, hf]
    | lockl l =>
      obtain ⟨k, hk, hf⟩ := T.leaf_free l m
      rcases T.task_still hlt hk with h2 | h2
      · exact h2
      · refine ⟨k, hk, 0, ?_⟩
        rw [hp] at h2
        simp [stepTask, h2, hf]
    | _ => rw [hp] at hw; exact absurd rfl hw

/-- Every call returns. -/
theorem Trace.op_done (T : Trace c σ b) {n i : Nat} (hi : i < (σ n).nextOp) : ∃ k, n ≤ k ∧ ((σ k).op i).pc = .done := by
  refine leads (Nat.lt_wfRel.wf : WellFounded (· < ·)) (T := fun k => b k = some (.op i)) (μ := fun k => left c (σ k) i) ?_ ?_ ?_
  · intro k hk _ _
    rcases T.next k with ⟨-, h⟩ | ⟨x, -, h⟩
    · left; rw [h]
    · by_cases hx : x = .op i
      · subst hx
        exact .inr (left_own (T.halts k) h).1
      · rcases Nat.lt_or_eq_of_le (left_other (T.halts k) (T.op_lt hi k hk) hx h).1 with h1 | h1
        · exact .inr h1
        · exact .inl h1
  · intro k hk _ _ hc
    rcases T.next k with ⟨h, -⟩ | ⟨x, hx, h⟩
    · rw [hc] at h; cases h
    · rw [hc] at hx
      injection hx with hx
      subst hx
      exact (left_own (T.halts k) h).1
  · intro hD m hm
    refine T.ops i (fun m' => ?_) m
    have hmx : n ≤ max n m' := Nat.le_max_left ..
    suffices h : ∃ k, max n m' ≤ k ∧ stepOp c (σ k) i ≠ none by
      obtain ⟨k, h1, h2⟩ := h
      exact ⟨k, Nat.le_trans (Nat.le_max_right ..) h1, h2⟩
    generalize max n m' = q at hmx
    have hlt := T.op_lt hi q hmx
    have hfree : ∀ a, ((σ q).op i).pc = .rd a ∨ ((σ q).op i).pc = .wr a → ∃ k, q ≤ k ∧ stepOp c (σ k) i ≠ none := by
      intro a ha
      obtain ⟨k, hk, hf⟩ := T.inst_free ((σ q).op i).obs q
      rcases T.op_still hlt hk with h2 | h2
      · exact h2
      · refine ⟨k, hk, ?_⟩
        rcases ha with ha | ha
        · unfold stepOp
          simp only [h2, ha, hf, ne_eq, not_true_eq_false, if_false]
          split <;> simp
        · unfold stepOp
          simp only [h2, ha, hf, ne_eq, not_true_eq_false, if_false]
          split <;> simp
    cases hs : stepOp c (σ q) i with
    | some y => exact ⟨q, Nat.le_refl _, by rw [hs]; simp⟩
    | none =>
      cases hp : ((σ q).op i).pc with
      | rd a => exact hfree a (.inl hp)
      | wr a => exact hfree a (.inr hp)
      | ini r =>
        have hrec := (T.halts q).inv.wf.opRec i r (by simp [hp, OPc.holds])
        obtain ⟨k, hk, -, h1⟩ := T.init_free hrec.1
        rcases T.op_still hlt hk with h2 | h2
        · exact h2
        · refine ⟨k, hk, ?_⟩
          unfold stepOp
          simp only [h2, hp]
          split
          · rename_i hl
            exact h1.resolve_left (fun hn => hn hl)
          · simp
      | idle => exact absurd hp ((T.halts q).begun.1 i hlt)
      | done => exact absurd hp (hD q hmx)
      | fetch r k => simp only [stepOp, hp] at hs; split at hs <;> cases hs
      | upd r k sq =>
        have := (T.halts q).updLt i r k sq hp
        simp [stepOp, hp, List.getElem?_eq_getElem this] at hs
      | cnt r => simp [stepOp, hp] at hs
      | unref r => simp [stepOp, hp] at hs

end Verif.Sync
