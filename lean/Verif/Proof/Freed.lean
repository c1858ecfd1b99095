import Verif.Proof.SyncIdle
import Verif.Proof.SyncMore
import Verif.Proof.DeliveryEnds
import Verif.Spec.Freed

/-!
Helper file: without measurement calls, collections empty the tables of the instruments and of the delta views (C109).
-/

namespace Verif.Sync
open Verif
variable {AL KS N S : Type} [DecidableEq KS]

/-- The record, and its loaded counter, a task is taking a snapshot of without releasing it. -/
def TPc.keepR : TPc KS → Option (Nat × Nat)
  | .ini _ _ r m _ rel => if rel then none else some (r, m)
  | .mv _ _ r m _ rel _ => if rel then none else some (r, m)
  | .mg _ _ r m _ rel _ => if rel then none else some (r, m)
  | .rl _ _ r m _ rel _ => if rel then none else some (r, m)
  | .unmap _ _ _ => none
  | .sload _ _ _ _ => none
  | .idle => none
  | .lockw _ => none
  | .scan _ _ => none
  | .lockl _ => none
  | .lscan _ _ => none
  | .lmv _ _ _ _ _ => none
  | .done => none

/-- The task has failed to unmap a record. -/
def TPc.doubt : TPc KS → Bool
  | .sload _ _ _ rel => !rel
  | .ini _ _ _ _ _ _ => false
  | .mv _ _ _ _ _ _ _ => false
  | .mg _ _ _ _ _ _ _ => false
  | .rl _ _ _ _ _ _ _ => false
  | .unmap _ _ _ => false
  | .idle => false
  | .lockw _ => false
  | .scan _ _ => false
  | .lockl _ => false
  | .lscan _ _ => false
  | .lmv _ _ _ _ _ => false
  | .done => false

/-- No call is under way. -/
def Quiet (s : State AL KS N S) : Prop := ∀ i, (s.op i).pc = .idle ∨ (s.op i).pc = .done

/-- No collector task has met a measurement call. -/
def CalmT (s : State AL KS N S) : Prop :=
  ∀ t, (s.task t).doubt = false ∧
    ∀ r m, (s.task t).keepR = some (r, m) → (s.recs r).updateCount ≠ (s.recs r).collectedCount ∧ m = (s.recs r).updateCount

/-- How many more snapshots the record can survive. -/
def lifetime (c : Cfg AL KS N S) (s : State AL KS N S) (r : Nat) : Nat :=
  if (s.recs r).updateCount = (s.recs r).collectedCount then c.periods - (s.recs r).inactive else c.periods + 1

section
variable {c : Cfg AL KS N S} {s s' : State AL KS N S}
set_option maxHeartbeats 1000000

omit [DecidableEq KS] in
theorem quiet_pins (h : Quiet s) (r : Nat) : pins s r = 0 := by
  unfold pins
  rw [sumTo_eq_zero]
  intro i _
  rcases h i with h | h <;> simp [h, OPc.holds]

omit [DecidableEq KS] in
theorem unmap_word (i : Inv c s) (h : Quiet s) {t o r : Nat} {td : List Nat} (ht : s.task t = .unmap o td r) :
    (s.recs r).word = 0 := by
  have hc : (s.task t).curR = some r := by rw [ht]; rfl
  have h1 := (cur_tbl i.wf hc).1
  rw [i.ref.1 _ r h1 ?_, quiet_pins h]
  · rfl
  · intro t' ht'
    have hc' : (s.task t').curR = some r := by
      cases hp : s.task t' <;> simp_all [TPc.relR, TPc.curR]
    have := cur_unique i.wf hc hc'
    subst this
    rw [ht] at ht'
    cases ht'

theorem quiet_step {a : Action AL N} (h : Quiet s) (hs : step c s a = some s') (ha : ∀ o b n, a ≠ .observe o b n) :
    Quiet s' := by
  cases a with
  | observe o b n => exact absurd rfl (ha o b n)
  | snapshot o => simp only [step, Option.some.injEq] at hs; subst hs; exact h
  | collect l => simp only [step, Option.some.injEq] at hs; subst hs; exact h
  | op j =>
    simp only [step, stepOp] at hs
    rcases h j with e | e <;> simp [e] at hs
  | task t ch =>
    unfold Quiet
    rw [stepTask_ops (show stepTask c s t ch = some s' from hs)]
    exact h

theorem calm_step (h : CalmT s) (hq : Quiet s) (i : Inv c s) (hs : Step c s s') : CalmT s' := by
  have hu := fun t t' r => cur_unique i.wf (t := t) (t' := t') (r := r)
  have hw := fun t o td r => unmap_word i hq (t := t) (o := o) (r := r) (td := td)
  have hni := i.wf.taskIdle s.nextTask (Nat.le_refl _)
  clear i
  have hk : ∀ t r m, (s.task t).keepR = some (r, m) → (s.task t).curR = some r := by
    intro t r m
    cases s.task t <;> grind [TPc.keepR, TPc.curR]
  intro t'
  have ht := h t'
  cases hs
  all_goals first
   | exact ht
   | (unfold Quiet at hq
      revert ht
      clear h
      ssimp
      grind [TPc.keepR, TPc.doubt, TPc.curR])

theorem task_done {t : Nat} (h : s.task t = .done) (w : Wf c s) (hs : Step c s s') : s'.task t = .done := by
  have hni := w.taskIdle s.nextTask (Nat.le_refl _)
  clear w
  cases hs
  all_goals first
   | exact h
   | (ssimp; grind)

theorem mem_delete {V : Type} {d : Storage.Table KS V} {k : KS} {e : KS × V} : e ∈ Storage.delete d k ↔ e ∈ d ∧ e.1 ≠ k := by
  simp [Storage.delete]

/-- What task `t` still has to do on instrument `o`, with `L` the numbers of snapshots the records could survive when it
was started. -/
def Passing (c : Cfg AL KS N S) (s : State AL KS N S) (t o : Nat) (L : Nat → Nat) : Prop :=
  (∀ r, r ∈ s.table o → lifetime c s r ≤ L r) ∧
  (s.task t = .lockw o ∨
   ((s.task t).lockObs = some o ∧ ∀ r, r ∈ s.table o → r ∈ (s.task t).todoR ∨ (s.task t).curR = some r ∨ lifetime c s r < L r) ∨
   (s.task t = .done ∧ ∀ r, r ∈ s.table o → lifetime c s r < L r))

theorem lifetime_le (ht : CalmT s) (hq : Quiet s) (i : Inv c s) (hs : Step c s s') :
    ∀ o r, r ∈ s'.table o → r ∈ s.table o ∧ lifetime c s' r ≤ lifetime c s r := by
  have hm : ∀ t o r, (s.task t).lockObs = some o → (s.task t).curR = some r → r ∈ s.table o := fun t o r h1 h2 => ((i.wf.todoMem t o h1).2 r h2).1
  have htb := i.wf.tblLt
  clear i
  intro o r
  unfold lifetime Quiet at *
  unfold TblLt at htb
  cases hs
  case sloadSkip t o' td r' hpc he =>
    have := (ht t).1
    rw [hpc] at this
    cases this
  case finKeep t o' td r' m mN k hpc ha =>
    have := (ht t).2 r' m (by rw [hpc]; rfl)
    clear ht
    ssimp
    grind
  case finRel t o' td r' m mN k hpc ha =>
    have h1 := hm t o' r' (by rw [hpc]; rfl) (by rw [hpc]; rfl)
    have h2 := htb o' r' h1
    have h3 := htb o r
    clear ht htb hm
    ssimp
    grind
  all_goals first
   | (intro h; exact ⟨h, Nat.le_refl _⟩)
   | (clear ht
      ssimp
      grind [TPc.curR])

theorem Passing.step {t o : Nat} {L : Nat → Nat} (h : Passing c s t o L) (ht : CalmT s) (hq : Quiet s) (i : Inv c s)
    (hs : Step c s s') : Passing c s' t o L := by
  have hle := lifetime_le ht hq i hs o
  have hni := i.wf.taskIdle s.nextTask (Nat.le_refl _)
  have hlk := i.wf.lockTask
  have hm := i.wf.todoMem
  have htb := i.wf.tblLt
  refine ⟨fun r hr => Nat.le_trans (hle r hr).2 (h.1 r (hle r hr).1), ?_⟩
  obtain ⟨h1, h2 | ⟨h2, h3⟩ | ⟨h2, h3⟩⟩ := h
  · by_cases e : s'.task t = .lockw o
    · exact Or.inl e
    · right; left
      clear hle h1
      cases hs
      all_goals first
       | exact absurd h2 e
       | (revert e
          clear ht hq hm htb i
          unfold LockTask at hlk
          ssimp
          grind [TPc.lockObs, TPc.todoR, TPc.curR])
  · by_cases e : s'.task t = .done
    · right; right
      refine ⟨e, ?_⟩
      intro r hr
      have h4 := h3 r (hle r hr).1
      rcases h4 with h4 | h4 | h4
      · exfalso
        clear hle h1 h3 ht hq hlk hm htb i hr
        cases hs
        all_goals (revert e h4 h2; ssimp; grind [TPc.lockObs, TPc.todoR, TPc.curR])
      · exfalso
        clear hle h1 h3 ht hq hlk hm htb i hr
        cases hs
        all_goals (revert e h4 h2; ssimp; grind [TPc.lockObs, TPc.todoR, TPc.curR])
      · exact Nat.lt_of_le_of_lt (hle r hr).2 h4
    · right; left
      refine ⟨?_, ?_⟩
      · clear hle h1 h3 ht hq hlk hm htb i
        cases hs
        all_goals first
         | exact h2
         | (revert e h2; ssimp; grind [TPc.lockObs])
      · intro r hr
        have h4 := h3 r (hle r hr).1
        have h5 := (hle r hr).2
        have h6 := h1 r (hle r hr).1
        by_cases hlt : lifetime c s' r < L r
        · exact Or.inr (Or.inr hlt)
        rcases h4 with h4 | h4 | h4
        · by_cases e1 : r ∈ (s'.task t).todoR
          · exact Or.inl e1
          · right
            by_cases e2 : (s'.task t).curR = some r
            · exact Or.inl e2
            · right
              exfalso
              clear hle h1 h3 hlk hm htb i h5
              unfold lifetime Quiet at *
              cases hs
              all_goals first
               | exact e1 h4
               | (clear ht
                  revert h4 e e1 e2 hlt h6
                  ssimp
                  grind [TPc.todoR, TPc.curR])
        · by_cases e2 : (s'.task t).curR = some r
          · exact Or.inr (Or.inl e2)
          · exfalso
            have hto := (hm t o h2).2 r h4
            have hk := (ht t).2
            have hd := (ht t).1
            clear hle h1 h3 hlk hm htb i h5 ht
            unfold lifetime Quiet at *
            cases hs
            case finKeep t1 o1 td r1 m mN k hpc ha =>
              by_cases et : t1 = t
              · subst et
                rw [hpc] at h4
                simp only [TPc.curR, Option.some.injEq] at h4
                subst h4
                have hk2 := hk r1 m (by rw [hpc]; rfl)
                simp only [setTask, setRec, upd_same] at hlt
                rw [if_pos hk2.2.symm] at hlt
                rw [if_neg hk2.1] at h6
                omega
              · apply e2
                have et' : t ≠ t1 := fun x => et x.symm
                simpa [setTask, setRec, et'] using h4
            all_goals first
             | exact e2 h4
             | (revert h4 e e2 hlt h6 hk hd hr h2
                ssimp
                grind [TPc.curR, TPc.keepR, TPc.doubt, TPc.lockObs])
        · omega
  · exact Or.inr (Or.inr ⟨task_done h2 i.wf hs, fun r hr => Nat.lt_of_le_of_lt (hle r hr).2 (h3 r (hle r hr).1)⟩)

/-- The instruments feeding view `l` have no records. -/
def NoRecs (c : Cfg AL KS N S) (s : State AL KS N S) (l : Nat) : Prop := ∀ o, l ∈ c.leavesOf o → s.table o = []

theorem NoRecs.step {l : Nat} (h : NoRecs c s l) (ht : CalmT s) (hq : Quiet s) (i : Inv c s) (hs : Step c s s') :
    NoRecs c s' l := by
  intro o ho
  have h1 := h o ho
  rw [List.eq_nil_iff_forall_not_mem] at h1 ⊢
  exact fun r hr => h1 r (lifetime_le ht hq i hs o r hr).1

omit [DecidableEq KS] in
theorem NoRecs.acc {l a : Nat} (h : NoRecs c s l) (i : Inv c s) (ha : a < s.nextAcc) (hl : (s.acc a).leaf = l) :
    (s.acc a).released = true := by
  have h1 := i.wf.accRc a ha
  obtain ⟨k, hk⟩ := List.mem_iff_getElem?.mp h1.2
  have h2 := i.wf.accsLeaf _ k a h1.1 hk
  have h3 := h _ (List.mem_iff_getElem?.mpr ⟨k, h2⟩ |> fun x => by rw [hl] at x; exact x)
  exact (i.relDead _ h1.1 (by rw [h3]; simp)).2 a h1.2

omit [DecidableEq KS] in
theorem NoRecs.aux {l : Nat} {k : KS} {h : Nat} (hn : NoRecs c s l) (i : Inv c s) (hd : (k, h) ∈ s.data l) :
    (s.hold h).aux = 0 := by
  have h1 := i.wf.dataOk l k h hd
  rw [i.aux h h1.1]
  have : refsOf s h = 0 := by
    unfold refsOf
    rw [sumTo_eq_zero]
    intro a ha
    by_cases e : (s.acc a).holder = h
    · have h2 := (i.wf.accHold a ha).2.1
      rw [e, h1.2.1] at h2
      simp [hn.acc i ha h2.symm, one]
    · simp [e, one]
  rw [this]
  rfl

/-- Without records behind it, the series of a view only get fewer, and are only reset. -/
theorem series_step {l : Nat} (hn : NoRecs c s l) (hq : Quiet s) (i : Inv c s)
    (hr : ∀ v, (c.agg l).hasChange ((c.agg l).reset v) = false) (hs : Step c s s') :
    ∀ k h, (k, h) ∈ s'.data l → (k, h) ∈ s.data l ∧
      ((s'.hold h).store = (s.hold h).store ∨ (c.agg l).hasChange (s'.hold h).store.val = false) := by
  have hd := i.wf.dataOk l
  have hc : ∀ t r, (s.task t).curR = some r → ¬ l ∈ c.leavesOf (s.recs r).obs := by
    intro t r h1 h2
    have h3 := (cur_tbl i.wf h1).1
    rw [hn _ h2] at h3
    cases h3
  have hlc := i.wf.lCur
  have hdo := i.wf.dataOk
  intro k h
  cases hs
  case initOld r l' k' h' hw hl hll hk hf =>
    have hne : l' ≠ l := by
      intro e
      subst e
      rcases hw with ⟨j, hj⟩ | ⟨t, o, td, m, mN, rel, ht⟩
      · rcases hq j with e | e <;> rw [e] at hj <;> cases hj
      · exact hc t r (by rw [ht]; rfl) (List.mem_iff_getElem?.mpr ⟨_, hl⟩)
    have hne' : l ≠ l' := fun x => hne x.symm
    intro hm
    simp only [initOld] at hm
    refine ⟨hm, Or.inl ?_⟩
    have : h ≠ h' := by
      intro e
      subst e
      have h1 := (hd k h hm).2.1
      have h2 := (hdo l' k' h (find_mem hf)).2.1
      rw [h1] at h2
      exact hne' h2
    simp [initOld, this]
  case initNew r l' k' hw hl hll hk hf =>
    have hne : l' ≠ l := by
      intro e
      subst e
      rcases hw with ⟨j, hj⟩ | ⟨t, o, td, m, mN, rel, ht⟩
      · rcases hq j with e | e <;> rw [e] at hj <;> cases hj
      · exact hc t r (by rw [ht]; rfl) (List.mem_iff_getElem?.mpr ⟨_, hl⟩)
    have hne' : l ≠ l' := fun x => hne x.symm
    intro hm
    simp only [initNew, upd_ne _ _ hne'] at hm
    refine ⟨hm, Or.inl ?_⟩
    have : h ≠ s.nextHold := by
      have h1 := (hd k h hm).1
      omega
    simp [initNew, this]
  case mg t o td r m mN rel k' a hpc ha =>
    intro hm
    refine ⟨hm, Or.inl ?_⟩
    have hcr := hc t r (by rw [hpc]; rfl)
    have hrl := (i.wf.tblLt _ _ (cur_tbl i.wf (t := t) (r := r) (by rw [hpc]; rfl)).1).1
    have h1 := i.wf.accsLeaf r k' a hrl ha
    have h2 := (i.wf.accsMem r a hrl (List.mem_iff_getElem?.mpr ⟨_, ha⟩)).1
    have h3 := (i.wf.accHold a h2).2.1
    have : h ≠ (s.acc a).holder := by
      intro e
      have h4 := (hd k h hm).2.1
      rw [e, h3] at h4
      rw [h4] at h1
      exact hcr (List.mem_iff_getElem?.mpr ⟨_, h1⟩)
    simp [setTask, setAcc, setHold, this]
  case rlRel t o td r m mN k' a hpc ha =>
    intro hm
    refine ⟨hm, Or.inl ?_⟩
    simp only [setTask, setAcc, setHold, upd_apply]
    split <;> simp_all
  case lmvKeep t l' td k' h' nr hpc hch =>
    intro hm
    refine ⟨hm, ?_⟩
    by_cases e : h = h'
    · subst e
      have h1 := (hdo l' k' h (hlc t l' td k' h nr hpc).1).2.1
      have h2 := (hd k h hm).2.1
      rw [h2] at h1
      subst h1
      right
      simp [setTask, setHold, hr]
    · left; simp [setTask, setHold, e]
  case lmvDel t l' td k' h' hpc hch =>
    intro hm
    have hm' : (k, h) ∈ s.data l := by
      by_cases el : l = l'
      · subst el
        simp only [setTask, upd_same] at hm
        exact (mem_delete.mp hm).1
      · simpa [setTask, upd_ne _ _ el] using hm
    refine ⟨hm', ?_⟩
    by_cases e : h = h'
    · subst e
      have h1 := (hdo l' k' h (hlc t l' td k' h 0 hpc).1).2.1
      have h2 := (hd k h hm').2.1
      rw [h2] at h1
      subst h1
      right
      simp [setTask, setHold, hr]
    · left; simp [setTask, setHold, e]
  all_goals (intro hm; exact ⟨hm, Or.inl rfl⟩)

/-- No series of view `l` has anything to report. -/
def Clean (c : Cfg AL KS N S) (s : State AL KS N S) (l : Nat) : Prop :=
  ∀ k h, (k, h) ∈ s.data l → (c.agg l).hasChange (s.hold h).store.val = false

/-- Task `t` sweeping view `l`: what it has passed has nothing to report. -/
def Wiping (c : Cfg AL KS N S) (s : State AL KS N S) (t l : Nat) : Prop :=
  s.task t = .lockl l ∨
  ((s.task t).lockLeaf = some l ∧ ∀ k h, (k, h) ∈ s.data l →
    (k, h) ∈ (s.task t).todoL ∨ (c.agg l).hasChange (s.hold h).store.val = false ∨ ∃ td n, s.task t = .lmv l td k h n) ∨
  (s.task t = .done ∧ Clean c s l)

/-- Task `t` sweeping view `l`, in which nothing has anything to report: what it has passed is gone. -/
def Dropping (s : State AL KS N S) (t l : Nat) : Prop :=
  s.task t = .lockl l ∨
  ((s.task t).lockLeaf = some l ∧ ∀ k h, (k, h) ∈ s.data l →
    (k, h) ∈ (s.task t).todoL ∨ ∃ td, s.task t = .lmv l td k h 0) ∨
  (s.task t = .done ∧ s.data l = [])

theorem Clean.step {l : Nat} (h : Clean c s l) (hn : NoRecs c s l) (hq : Quiet s) (i : Inv c s)
    (hr : ∀ v, (c.agg l).hasChange ((c.agg l).reset v) = false) (hs : Step c s s') : Clean c s' l := by
  intro k h' hd
  obtain ⟨h1, h2 | h2⟩ := series_step hn hq i hr hs k h' hd
  · rw [h2]; exact h k h' h1
  · exact h2

theorem Wiping.step {t l : Nat} (h : Wiping c s t l) (hn : NoRecs c s l) (hq : Quiet s) (i : Inv c s)
    (hr : ∀ v, (c.agg l).hasChange ((c.agg l).reset v) = false) (hdl : c.delta l = true) (hs : Step c s s') :
    Wiping c s' t l := by
  have hss := series_step hn hq i hr hs
  have hni := i.wf.taskIdle s.nextTask (Nat.le_refl _)
  have hdk := i.wf.dataKeys l
  have hlt := i.wf.lTodo t l
  have hne := i.wf
  rcases h with h | ⟨h, h3⟩ | ⟨h, h3⟩
  · by_cases e : s'.task t = .lockl l
    · exact Or.inl e
    · right; left
      have hd0 : s'.data l = s.data l ∧ s'.task t = .lscan l (s.data l) := by
        clear hss i hdk hlt hne hn hr hq
        cases hs
        all_goals first
         | exact absurd h e
         | (revert e; ssimp; grind)
      rw [hd0.1, hd0.2]
      exact ⟨rfl, fun k h' hm => Or.inl hm⟩
  · by_cases e : s'.task t = .done
    · right; right
      refine ⟨e, ?_⟩
      intro k h' hd
      obtain ⟨h1, h2⟩ := hss k h' hd
      rcases h2 with h2 | h2
      · rw [h2]
        rcases h3 k h' h1 with h4 | h4 | ⟨td, n, h4⟩
        · exfalso
          clear hss i hdk hlt hne hn hr hq h3 h2 hd
          cases hs
          all_goals (revert e h4 h; ssimp; grind [TPc.todoL, TPc.lockLeaf])
        · exact h4
        · exfalso
          clear hss i hdk hlt hne hn hr hq h3 h2 hd
          cases hs
          all_goals (revert e h4 h; ssimp; grind [TPc.todoL, TPc.lockLeaf])
      · exact h2
    · right; left
      refine ⟨?_, ?_⟩
      · clear hss i hdk hlt hne hn hr hq h3
        cases hs
        all_goals first
         | exact h
         | (revert e h; ssimp; grind [TPc.lockLeaf])
      · intro k h' hd
        obtain ⟨h1, h2⟩ := hss k h' hd
        rcases h2 with h2 | h2
        · rcases h3 k h' h1 with h4 | h4 | ⟨td, n, h4⟩
          · by_cases e1 : (k, h') ∈ (s'.task t).todoL
            · exact Or.inl e1
            · right; right
              have hu : ∀ k1 h1, (k1, h1) ∈ s.data l → k1 = k → h1 = h' := fun k1 h2 hm hk => by
                subst hk
                exact (keys_unique hdk hm h1)
              have hl := (hlt h).2
              clear hss i hdk hlt hne hn hr hq h3 h2 hd
              cases hs
              all_goals first
               | exact absurd h4 e1
               | (revert e e1 h4 h hl; ssimp; grind [TPc.todoL, TPc.lockLeaf])
          · rw [h2]; exact Or.inr (Or.inl h4)
          · by_cases e1 : ∃ td n, s'.task t = .lmv l td k h' n
            · exact Or.inr (Or.inr e1)
            · right; left
              clear hss i hdk hlt hne hn hq h3 h2 hd
              cases hs
              all_goals first
               | (refine False.elim (e1 ⟨td, n, ?_⟩); exact h4)
               | (revert e e1 h4 h; ssimp; grind [TPc.todoL, TPc.lockLeaf])
        · exact Or.inr (Or.inl h2)
  · exact Or.inr (Or.inr ⟨task_done h i.wf hs, Clean.step h3 hn hq i hr hs⟩)

theorem Dropping.step {t l : Nat} (h : Dropping s t l) (hc : Clean c s l) (hn : NoRecs c s l) (hq : Quiet s) (i : Inv c s)
    (hr : ∀ v, (c.agg l).hasChange ((c.agg l).reset v) = false) (hdl : c.delta l = true) (hs : Step c s s') :
    Dropping s' t l := by
  have hss := series_step hn hq i hr hs
  have hni := i.wf.taskIdle s.nextTask (Nat.le_refl _)
  have hdk := i.wf.dataKeys l
  have hlt := i.wf.lTodo t l
  have haux := fun k h => NoRecs.aux hn i (k := k) (h := h)
  rcases h with h | ⟨h, h3⟩ | ⟨h, h3⟩
  · by_cases e : s'.task t = .lockl l
    · exact Or.inl e
    · right; left
      have hd0 : s'.data l = s.data l ∧ s'.task t = .lscan l (s.data l) := by
        clear hss i hdk hlt hn hr hq haux hc
        cases hs
        all_goals first
         | exact absurd h e
         | (revert e; ssimp; grind)
      rw [hd0.1, hd0.2]
      exact ⟨rfl, fun k h' hm => Or.inl hm⟩
  · by_cases e : s'.task t = .done
    · right; right
      refine ⟨e, ?_⟩
      rw [List.eq_nil_iff_forall_not_mem]
      rintro ⟨k, h'⟩ hd
      obtain ⟨h1, h2⟩ := hss k h' hd
      rcases h3 k h' h1 with h4 | ⟨td, h4⟩
      · clear hss i hdk hlt hn hr hq h3 h2 hd haux hc
        cases hs
        all_goals (revert e h4 h; ssimp; grind [TPc.todoL, TPc.lockLeaf])
      · clear hss i hdk hlt hn hr hq h3 h2 hd haux hc
        cases hs
        all_goals (revert e h4 h; ssimp; grind [TPc.todoL, TPc.lockLeaf])
    · right; left
      refine ⟨?_, ?_⟩
      · clear hss i hdk hlt hn hr hq h3 haux hc
        cases hs
        all_goals first
         | exact h
         | (revert e h; ssimp; grind [TPc.lockLeaf])
      · intro k h' hd
        obtain ⟨h1, h2⟩ := hss k h' hd
        rcases h3 k h' h1 with h4 | ⟨td, h4⟩
        · by_cases e1 : (k, h') ∈ (s'.task t).todoL
          · exact Or.inl e1
          · right
            have hu : ∀ k1 h1, (k1, h1) ∈ s.data l → k1 = k → h1 = h' := fun k1 h2 hm hk => by
              subst hk
              exact (keys_unique hdk hm h1)
            have hl := (hlt h).2
            have ha := haux k h' h1
            clear hss i hdk hlt hn hr hq h3 h2 hd haux hc
            cases hs
            all_goals first
             | exact absurd h4 e1
             | (revert e e1 h4 h hl; ssimp; grind [TPc.todoL, TPc.lockLeaf])
        · by_cases e1 : ∃ td, s'.task t = .lmv l td k h' 0
          · exact Or.inr e1
          · exfalso
            have hcl := hc k h' h1
            clear hss i hdk hlt hn hq h3 h2 haux hc
            cases hs
            all_goals first
             | (refine False.elim (e1 ⟨td, ?_⟩); exact h4)
             | (revert e e1 h4 h hd; ssimp; grind [TPc.todoL, TPc.lockLeaf, mem_delete])
  · refine Or.inr (Or.inr ⟨task_done h i.wf hs, ?_⟩)
    rw [List.eq_nil_iff_forall_not_mem] at h3 ⊢
    rintro ⟨k, h'⟩ hd
    exact h3 _ (hss k h' hd).1

/-- Task `t` working on instrument `o`, whose records do not survive another snapshot: what it has passed is gone. -/
def Emptying (s : State AL KS N S) (t o : Nat) : Prop :=
  s.task t = .lockw o ∨
  ((s.task t).lockObs = some o ∧ ∀ r, r ∈ s.table o → r ∈ (s.task t).todoR ∨ (s.task t).curR = some r) ∨
  (s.task t = .done ∧ s.table o = [])

theorem Emptying.step {t o : Nat} (h : Emptying s t o) (hP : 0 < c.periods) (hL : ∀ r, r ∈ s.table o → lifetime c s r ≤ 1)
    (ht : CalmT s) (hq : Quiet s) (i : Inv c s) (hs : Step c s s') : Emptying s' t o := by
  have hle := lifetime_le ht hq i hs o
  have hni := i.wf.taskIdle s.nextTask (Nat.le_refl _)
  have hm := i.wf.todoMem
  rcases h with h2 | ⟨h2, h3⟩ | ⟨h2, h3⟩
  · by_cases e : s'.task t = .lockw o
    · exact Or.inl e
    · right; left
      clear hle hL ht hm i
      cases hs
      all_goals first
       | exact absurd h2 e
       | (revert e
          clear hq
          ssimp
          grind [TPc.lockObs, TPc.todoR, TPc.curR])
  · by_cases e : s'.task t = .done
    · right; right
      refine ⟨e, ?_⟩
      rw [List.eq_nil_iff_forall_not_mem]
      intro r hr
      rcases h3 r (hle r hr).1 with h4 | h4
      all_goals
        (clear hle h3 ht hq hm i hr hL
         cases hs
         all_goals (revert e h4 h2; ssimp; grind [TPc.lockObs, TPc.todoR, TPc.curR]))
    · right; left
      refine ⟨?_, ?_⟩
      · clear hle h3 ht hq hm i hL
        cases hs
        all_goals first
         | exact h2
         | (revert e h2; ssimp; grind [TPc.lockObs])
      · intro r hr
        have h6 := hL r (hle r hr).1
        rcases h3 r (hle r hr).1 with h4 | h4
        · by_cases e1 : r ∈ (s'.task t).todoR
          · exact Or.inl e1
          · right
            apply Classical.byContradiction
            intro e2
            clear hle h3 hm i hL ht
            unfold lifetime Quiet at *
            cases hs
            all_goals first
             | exact e1 h4
             | (revert h4 e e1 e2 h6
                ssimp
                grind [TPc.todoR, TPc.curR])
        · right
          apply Classical.byContradiction
          intro e2
          have hk := (ht t).2
          have hd := (ht t).1
          clear hle h3 hm i hL ht
          unfold lifetime Quiet at *
          cases hs
          case finKeep t1 o1 td r1 m mN k hpc ha =>
            by_cases et : t1 = t
            · subst et
              rw [hpc] at h4
              simp only [TPc.curR, Option.some.injEq] at h4
              subst h4
              have hk2 := hk r1 m (by rw [hpc]; rfl)
              rw [if_neg hk2.1] at h6
              omega
            · apply e2
              have et' : t ≠ t1 := fun x => et x.symm
              simpa [setTask, setRec, et'] using h4
          all_goals first
           | exact e2 h4
           | (revert h4 e e2 h6 hk hd hr h2
              ssimp
              grind [TPc.curR, TPc.keepR, TPc.doubt, TPc.lockObs])
  · refine Or.inr (Or.inr ⟨task_done h2 i.wf hs, ?_⟩)
    rw [List.eq_nil_iff_forall_not_mem] at h3 ⊢
    exact fun r hr => h3 r (hle r hr).1

/-! ### Runs without measurement calls -/

/-- A state in which no measurement call is under way, nor was when the collector tasks under way began. -/
structure Still (c : Cfg AL KS N S) (s : State AL KS N S) : Prop where
  full : Full c s
  quiet : Quiet s
  calm : CalmT s

theorem AtRest.still {n0 : N} (h : AtRest s) (hr : Reachable c n0 s) : Still c s := by
  have hf := reachable_full hr
  refine ⟨hf, ?_, ?_⟩
  · intro i
    by_cases e : i < s.nextOp
    · exact Or.inr (h.1 i e)
    · exact Or.inl (hf.inv.wf.opIdle i (by omega))
  · intro t
    have : s.task t = .done ∨ s.task t = .idle := by
      by_cases e : t < s.nextTask
      · exact Or.inl (h.2 t e)
      · exact Or.inr (hf.inv.wf.taskIdle t (by omega))
    rcases this with e | e <;> rw [e] <;> simp [TPc.doubt, TPc.keepR]

theorem Still.step {a : Action AL N} (h : Still c s) (hs : step c s a = some s') (ha : ∀ o b n, a ≠ .observe o b n) : Still c s' :=
  ⟨h.full.preserved (h.full.inv.step_sound hs), quiet_step h.quiet hs ha,
    calm_step h.calm h.quiet h.full.inv (h.full.inv.step_sound hs)⟩

theorem silent_run {P : State AL KS N S → Prop} {acts : List (Action AL N)} (h : Still c s) (hsil : Silent acts)
    (hrun : run c s acts = some s') (hP : P s) (hstep : ∀ s s', Still c s → P s → Step c s s' → P s') : Still c s' ∧ P s' := by
  induction acts generalizing s with
  | nil => simp only [run, Option.some.injEq] at hrun; subst hrun; exact ⟨h, hP⟩
  | cons a as ih =>
    simp only [run, Option.bind_eq_some_iff] at hrun
    obtain ⟨s1, h1, h2⟩ := hrun
    exact ih (h.step h1 (fun o b n e => hsil o b n (by simp [e]))) (fun o b n hm => hsil o b n (List.mem_cons_of_mem _ hm)) h2
      (hstep _ _ h hP (h.full.inv.step_sound h1))

theorem run_split {pre post : List (Action AL N)} (h : run c s (pre ++ post) = some s') :
    ∃ s1, run c s pre = some s1 ∧ run c s1 post = some s' := by
  induction pre generalizing s with
  | nil => exact ⟨s, rfl, h⟩
  | cons a as ih =>
    simp only [List.cons_append, run, Option.bind_eq_some_iff] at h ⊢
    obtain ⟨s1, h1, h2⟩ := h
    obtain ⟨s2, h3, h4⟩ := ih h2
    exact ⟨s2, ⟨s1, h1, h3⟩, h4⟩

/-- A task carried out in a silent run: `P` up to its start, `Q` from its start on. -/
theorem carried {P Q : Nat → State AL KS N S → Prop} {acts : List (Action AL N)} {k : Action AL N} (h : Still c s)
    (hsil : Silent acts) (hrun : run c s acts = some s') (hk : CarriedOut c s acts k) (hP : ∀ t, P t s)
    (hPstep : ∀ t s s', Still c s → P t s → Step c s s' → P t s')
    (hPQ : ∀ s s', Still c s → (∀ t, P t s) → Sync.step c s k = some s' → Q s.nextTask s')
    (hQstep : ∀ t s s', Still c s → Q t s → Step c s s' → Q t s') :
    Still c s' ∧ ∃ t, s'.task t = .done ∧ Q t s' := by
  obtain ⟨pre, post, s1, s2, e, h1, h2, hd⟩ := hk
  rw [hrun] at h2
  simp only [Option.some.injEq] at h2
  subst h2
  subst e
  obtain ⟨s1', h3, h4⟩ := run_split hrun
  rw [h1] at h3
  simp only [Option.some.injEq] at h3
  subst h3
  have hsp : Silent pre := fun o b n hm => hsil o b n (List.mem_append_left _ hm)
  have hsq : Silent post := fun o b n hm => hsil o b n (List.mem_append_right _ (List.mem_cons_of_mem _ hm))
  obtain ⟨hs1, hp1⟩ := silent_run (P := fun s => ∀ t, P t s) h hsp h1 hP (fun s s' a b d t => hPstep t s s' a (b t) d)
  simp only [run, Option.bind_eq_some_iff] at h4
  obtain ⟨s3, h5, h6⟩ := h4
  have hs3 := hs1.step h5 (fun o b n e => hsil o b n (by simp [e]))
  obtain ⟨hs4, hq⟩ := silent_run (P := Q s1.nextTask) hs3 hsq h6 (hPQ s1 s3 hs1 hp1 h5) (fun s s' => hQstep _ s s')
  exact ⟨hs4, _, hd, hq⟩

theorem round_left {acts : List (Action AL N)} {o m : Nat} (h : Still c s) (hsil : Silent acts) (hrun : run c s acts = some s')
    (hk : CarriedOut c s acts (.snapshot o)) (hm : ∀ r, r ∈ s.table o → lifetime c s r ≤ m) :
    ∀ r, r ∈ s'.table o → lifetime c s' r < m := by
  obtain ⟨_, t, hd, hq⟩ := carried (P := fun _ s => ∀ r, r ∈ s.table o → lifetime c s r ≤ m)
    (Q := fun t s => Passing c s t o (fun _ => m)) h hsil hrun hk (fun _ => hm)
    (fun _ s s' hst hp hs r hr => by
      have h1 := lifetime_le hst.calm hst.quiet hst.full.inv hs o r hr
      exact Nat.le_trans h1.2 (hp r h1.1))
    (fun s s' hst hp hs => by
      simp only [step, Option.some.injEq] at hs
      subst hs
      exact ⟨hp 0, Or.inl (by simp)⟩)
    (fun t s s' hst hq hs => hq.step hst.calm hst.quiet hst.full.inv hs)
  rcases hq.2 with h1 | ⟨h1, _⟩ | h1
  · rw [hd] at h1; cases h1
  · rw [hd] at h1; cases h1
  · exact h1.2

theorem round_empty {acts : List (Action AL N)} {o : Nat} (hP : 0 < c.periods) (h : Still c s) (hsil : Silent acts)
    (hrun : run c s acts = some s') (hk : CarriedOut c s acts (.snapshot o)) (hm : ∀ r, r ∈ s.table o → lifetime c s r ≤ 1) :
    s'.table o = [] := by
  obtain ⟨_, t, hd, hq⟩ := carried (P := fun _ s => ∀ r, r ∈ s.table o → lifetime c s r ≤ 1)
    (Q := fun t s => Emptying s t o ∧ ∀ r, r ∈ s.table o → lifetime c s r ≤ 1) h hsil hrun hk (fun _ => hm)
    (fun _ s s' hst hp hs r hr => by
      have h1 := lifetime_le hst.calm hst.quiet hst.full.inv hs o r hr
      exact Nat.le_trans h1.2 (hp r h1.1))
    (fun s s' hst hp hs => by
      simp only [step, Option.some.injEq] at hs
      subst hs
      exact ⟨Or.inl (by simp), hp 0⟩)
    (fun t s s' hst hq hs => ⟨hq.1.step hP hq.2 hst.calm hst.quiet hst.full.inv hs, fun r hr => by
      have h1 := lifetime_le hst.calm hst.quiet hst.full.inv hs o r hr
      exact Nat.le_trans h1.2 (hq.2 r h1.1)⟩)
  rcases hq.1 with h1 | ⟨h1, _⟩ | h1
  · rw [hd] at h1; cases h1
  · rw [hd] at h1; cases h1
  · exact h1.2

theorem round_wipe {acts : List (Action AL N)} {l : Nat} (h : Still c s) (hsil : Silent acts)
    (hrun : run c s acts = some s') (hk : CarriedOut c s acts (.collect l)) (hn : NoRecs c s l) (hdl : c.delta l = true)
    (hr : ∀ v, (c.agg l).hasChange ((c.agg l).reset v) = false) : Clean c s' l := by
  obtain ⟨_, t, hd, hq⟩ := carried (P := fun _ s => NoRecs c s l)
    (Q := fun t s => Wiping c s t l ∧ NoRecs c s l) h hsil hrun hk (fun _ => hn)
    (fun _ s s' hst hp hs => hp.step hst.calm hst.quiet hst.full.inv hs)
    (fun s s' hst hp hs => by
      simp only [step, Option.some.injEq] at hs
      subst hs
      exact ⟨Or.inl (by simp), hp 0⟩)
    (fun t s s' hst hq hs => ⟨hq.1.step hq.2 hst.quiet hst.full.inv hr hdl hs,
      hq.2.step hst.calm hst.quiet hst.full.inv hs⟩)
  rcases hq.1 with h1 | ⟨h1, _⟩ | h1
  · rw [hd] at h1; cases h1
  · rw [hd] at h1; cases h1
  · exact h1.2

theorem round_drop {acts : List (Action AL N)} {l : Nat} (h : Still c s) (hsil : Silent acts)
    (hrun : run c s acts = some s') (hk : CarriedOut c s acts (.collect l)) (hn : NoRecs c s l) (hdl : c.delta l = true)
    (hr : ∀ v, (c.agg l).hasChange ((c.agg l).reset v) = false) (hc : Clean c s l) : s'.data l = [] := by
  obtain ⟨_, t, hd, hq⟩ := carried (P := fun _ s => NoRecs c s l ∧ Clean c s l)
    (Q := fun t s => Dropping s t l ∧ NoRecs c s l ∧ Clean c s l) h hsil hrun hk (fun _ => ⟨hn, hc⟩)
    (fun _ s s' hst hp hs => ⟨hp.1.step hst.calm hst.quiet hst.full.inv hs, hp.2.step hp.1 hst.quiet hst.full.inv hr hs⟩)
    (fun s s' hst hp hs => by
      simp only [step, Option.some.injEq] at hs
      subst hs
      exact ⟨Or.inl (by simp), hp 0⟩)
    (fun t s s' hst hq hs => ⟨hq.1.step hq.2.2 hq.2.1 hst.quiet hst.full.inv hr hdl hs,
      hq.2.1.step hst.calm hst.quiet hst.full.inv hs, hq.2.2.step hq.2.1 hst.quiet hst.full.inv hr hs⟩)
  rcases hq.1 with h1 | ⟨h1, _⟩ | h1
  · rw [hd] at h1; cases h1
  · rw [hd] at h1; cases h1
  · exact h1.2

/-- What holds after `n` rounds. -/
structure After (c : Cfg AL KS N S) (os ls : List Nat) (n : Nat) (s : State AL KS N S) : Prop where
  still : Still c s
  life : ∀ o, o ∈ os → ∀ r, r ∈ s.table o → lifetime c s r + n ≤ c.periods + 1
  empty : c.periods + 1 ≤ n → ∀ o, o ∈ os → s.table o = []
  clean : c.periods + 2 ≤ n → ∀ l, l ∈ ls → c.delta l = true → (∀ o, l ∈ c.leavesOf o → o ∈ os) →
    (∀ v, (c.agg l).hasChange ((c.agg l).reset v) = false) → Clean c s l
  gone : c.periods + 3 ≤ n → ∀ l, l ∈ ls → c.delta l = true → (∀ o, l ∈ c.leavesOf o → o ∈ os) →
    (∀ v, (c.agg l).hasChange ((c.agg l).reset v) = false) → s.data l = []

omit [DecidableEq KS] in
theorem lifetime_max (r : Nat) : lifetime c s r ≤ c.periods + 1 := by
  unfold lifetime
  split <;> omega

theorem rounds_after {os ls : List Nat} {n : Nat} (hP : 0 < c.periods) (h : Still c s) (hr : Rounds c os ls n s s') :
    After c os ls n s' := by
  induction hr with
  | none s => exact ⟨h, fun o _ r _ => lifetime_max r, fun hn => by omega, fun hn => by omega, fun hn => by omega⟩
  | more acts hr hrun hq ho hl ih =>
    rename_i n s0 s1 s2
    have ih := ih h
    obtain ⟨hst, -⟩ := silent_run (P := fun _ => True) ih.still hq hrun trivial (fun _ _ _ _ _ => trivial)
    have hempty : c.periods + 1 ≤ n + 1 → ∀ o, o ∈ os → s2.table o = [] := by
      intro hn o hm
      exact round_empty hP ih.still hq hrun (ho o hm) (fun r hr => by have := ih.life o hm r hr; omega)
    have hnr : c.periods + 1 ≤ n → ∀ l, (∀ o, l ∈ c.leavesOf o → o ∈ os) → NoRecs c s1 l :=
      fun hn l hf o hlo => ih.empty hn o (hf o hlo)
    refine ⟨hst, ?_, hempty, ?_, ?_⟩
    · intro o hm r hr
      by_cases hn : n ≤ c.periods + 1
      · have := round_left (m := c.periods + 1 - n) ih.still hq hrun (ho o hm)
          (fun r hr => by have := ih.life o hm r hr; omega) r hr
        omega
      · rw [hempty (by omega) o hm] at hr
        cases hr
    · intro hn l hm hdl hf hagg
      exact round_wipe ih.still hq hrun (hl l hm) (hnr (by omega) l hf) hdl hagg
    · intro hn l hm hdl hf hagg
      exact round_drop ih.still hq hrun (hl l hm) (hnr (by omega) l hf) hdl hagg (ih.clean (by omega) l hm hdl hf hagg)

theorem cum_kept {l : Nat} (hd : c.delta l = false) (hl : LmvDelta c s) (hs : Step c s s') {k : KS} {h : Nat}
    (hm : (k, h) ∈ s.data l) : (k, h) ∈ s'.data l := by
  cases hs
  case initNew r l' k' hw hl hll hk hf =>
    by_cases e : l = l'
    · subst e; simp only [initNew, upd_same]; exact List.mem_cons_of_mem _ hm
    · simpa [initNew, upd_ne _ _ e] using hm
  case lmvDel t l' td k' h' hpc hch =>
    have := hl _ _ _ _ _ _ hpc
    have e : l ≠ l' := by intro e; subst e; rw [hd] at this; cases this
    simpa [setTask, upd_ne _ _ e] using hm
  all_goals exact hm

end
end Verif.Sync
