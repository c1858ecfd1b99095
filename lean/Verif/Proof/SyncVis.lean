import Verif.Proof.SyncRank

/-!
Helper file: a completed measurement is found by the next snapshot and by the next collection after it.
-/

namespace Verif.Sync
open Verif
variable {AL KS N S : Type} [DecidableEq KS]

/-- All invariants of reachable states. -/
structure Full (c : Cfg AL KS N S) (s : State AL KS N S) : Prop where
  inv : Inv c s
  vals : Vals2 c s
  rank : Rank c s

/-- Call `i` is in no accumulator. -/
def Gone (s : State AL KS N S) (i : Nat) : Prop :=
  ∀ a sq, a < s.nextAcc → ¬ (i, sq) ∈ (s.acc a).cur.ops ∧ ¬ (i, sq) ∈ (s.acc a).snap.ops

def Finished (s : State AL KS N S) (i o : Nat) : Prop := (s.op i).pc = .done ∧ (s.op i).obs = o

/-- Accumulators still containing call `i` lie ahead of snapshot task `t`. -/
def JCur (s : State AL KS N S) (t i : Nat) : Prop :=
  ∀ a sq, a < s.nextAcc → (i, sq) ∈ (s.acc a).cur.ops →
    (s.acc a).rc ∈ (s.task t).todoR ∨
    ((s.task t).curR = some (s.acc a).rc ∧
      ∀ k : Nat, (s.recs (s.acc a).rc).accs[k]? = some a → (s.task t).moved ≤ k)

def J (s : State AL KS N S) (t o i : Nat) : Prop :=
  s.task t = .lockw o ∨ ((s.task t).lockObs = some o ∧ JCur s t i) ∨ (s.task t = .done ∧ Gone s i)

/-- Series of view `l` still containing call `i` lie ahead of collect task `t`. -/
def KCur (s : State AL KS N S) (t l i : Nat) : Prop :=
  ∀ h sq, h < s.nextHold → (s.hold h).leaf = l → (i, sq) ∈ (s.hold h).store.ops →
    ((s.hold h).key, h) ∈ (s.task t).todoL ∨ ∃ td k n, s.task t = .lmv l td k h n

def K (s : State AL KS N S) (t l i : Nat) : Prop :=
  s.task t = .lockl l ∨ ((s.task t).lockLeaf = some l ∧ KCur s t l i) ∨
  (s.task t = .done ∧ ∀ h sq, h < s.nextHold → (s.hold h).leaf = l → ¬ (i, sq) ∈ (s.hold h).store.ops)

/-- Cumulative version: series of view `l` containing call `i` lie ahead, or were reported since `e0`. -/
def CCur (s : State AL KS N S) (t l i : Nat) (e0 : List (Emit KS S)) : Prop :=
  ∀ h sq, h < s.nextHold → (s.hold h).leaf = l → (i, sq) ∈ (s.hold h).store.ops →
    ((s.hold h).key, h) ∈ (s.task t).todoL ∨
    ∃ pre, s.emits = pre ++ e0 ∧ ∃ e, e ∈ pre ∧ e.leaf = l ∧ e.key = (s.hold h).key ∧ (i, sq) ∈ e.ops

section
variable {c : Cfg AL KS N S} {s s' : State AL KS N S}
set_option maxHeartbeats 1000000

theorem Full.preserved (h : Full c s) (hs : Step c s s') : Full c s' where
  inv := h.inv.preserved hs
  vals := ⟨h.vals.p.preserved h.inv hs, h.vals.seqPos.preserved hs,
    h.vals.vals.preserved h.vals.seqPos h.vals.p.cons h.vals.p.lmvDelta h.inv hs,
    h.vals.kept.preserved h.vals.p.lmvDelta hs⟩
  rank := h.rank.preserved h.inv hs

theorem Full.initial (n0 : N) : Full c (Sync.initial c n0) where
  inv := Inv.initial c n0
  vals := ⟨Prog2.initial n0, SeqPos.initial n0, Vals.initial n0, by simp [KeptOk, Sync.initial]⟩
  rank := Rank.initial n0

/-- Induction along a run from a state satisfying the invariants. -/
theorem run_ind {P Q : State AL KS N S → Prop} {acts : List (Action AL N)} (hf : Full c s) (hP : P s) (hQ : Along c Q s acts)
    (hstep : ∀ s s', Full c s → Q s → P s → Step c s s' → P s') (hrun : run c s acts = some s') :
    Full c s' ∧ P s' := by
  induction acts generalizing s with
  | nil => simp only [run, Option.some.injEq] at hrun; subst hrun; exact ⟨hf, hP⟩
  | cons a as ih =>
    simp only [run, Option.bind_eq_some_iff] at hrun
    obtain ⟨s1, h1, h2⟩ := hrun
    have hst := hf.inv.step_sound h1
    exact ih (hf.preserved hst) (hstep _ _ hf hQ.1 hP hst) (hQ.2 s1 h1) h2

theorem along_true (acts : List (Action AL N)) : Along c (fun _ => True) s acts := by
  induction acts generalizing s with
  | nil => trivial
  | cons a as ih => exact ⟨trivial, fun _ _ => ih⟩

theorem reachable_full {n0 : N} (hr : Reachable c n0 s) : Full c s := by
  obtain ⟨acts, h⟩ := hr
  exact (run_ind (P := fun _ => True) (Full.initial n0) trivial (along_true acts) (fun _ _ _ _ _ _ => trivial) h).1

theorem Finished.preserved {i o : Nat} (h : Finished s i o) (w : Wf c s) (hs : Step c s s') : Finished s' i o := by
  have hi := op_lt w.opIdle (i := i) (by rw [h.1]; simp)
  cases hs
  all_goals first
   | exact h
   | (unfold Finished at *
      clear w
      ssimp
      grind)

theorem Gone.preserved {i o : Nat} (h : Gone s i) (hf : Finished s i o) (hs : Step c s s') : Gone s' i := by
  have hd := hf.1
  clear hf
  cases hs
  all_goals first
   | exact h
   | (unfold Gone at *
      intro a' sq' h1
      have := h a' sq'
      clear h
      revert h1
      ssimp
      grind)

/-- Nothing uncollected and counted is in the accumulators of a record whose counters agree. -/
theorem equal_counts {r o i : Nat} (hf : Full c s) (hn : NoWrap c o s) (hfin : Finished s i o) (hr : r < s.nextRec)
    (heq : (s.recs r).updateCount = (s.recs r).collectedCount) :
    ∀ a sq, a < s.nextAcc → (i, sq) ∈ (s.acc a).cur.ops → (s.acc a).rc ≠ r := by
  intro a sq ha hm hrc
  subst hrc
  have h1 := hf.rank.rankLe a i sq ha hm (by rw [hfin.1]; rfl)
  have h2 := hf.rank.rankGt a i sq ha hm (by rw [hfin.1]; rfl)
  have h3 := hf.rank.cntOk _ hr
  have h4 := (hf.rank.opsRec a i sq ha (Or.inl hm)).2.1
  have h5 := hn _ hr (by rw [h4, hfin.2])
  rw [h3.1, h3.2.1] at heq
  have h6 : (s.recs (s.acc a).rc).updN = (s.recs (s.acc a).rc).colN := by
    obtain ⟨d, hd⟩ := Nat.exists_eq_add_of_le h3.2.2
    rw [hd] at heq h5 ⊢
    have hdW : d < c.W := by omega
    have : d % c.W = 0 := by
      have := Nat.sub_mod_eq_zero_of_mod_eq heq
      rwa [Nat.add_sub_cancel_left] at this
    rw [Nat.mod_eq_of_lt hdW] at this
    omega
  omega

/-- With the instrument's lock taken by `t`, the snapshots of its records are empty unless `t` works on them. -/
theorem snap_empty {t o i : Nat} (hf : Full c s) (hl : (s.task t).lockObs = some o) (hb : (s.task t).busy = none)
    (hfin : Finished s i o) : ∀ a sq, a < s.nextAcc → ¬ (i, sq) ∈ (s.acc a).snap.ops := by
  intro a sq ha hm
  have w := hf.inv.wf
  have h1 := (hf.rank.opsRec a i sq ha (Or.inr hm)).2.1
  cases hsl : (s.acc a).slock with
  | none => rw [hf.inv.snapIdle a ha hsl] at hm; cases hm
  | some t' =>
    obtain ⟨k, hk, _⟩ := w.sLock a t' ha hsl
    have hcur := full_cur (busy_full hk)
    have hlo : ∃ o', (s.task t').lockObs = some o' := by
      cases hp : s.task t' <;> simp_all [TPc.busy, TPc.lockObs]
    obtain ⟨o', ho'⟩ := hlo
    have h2 := (w.tblLt o' _ ((w.todoMem t' o' ho').2 _ hcur).1).2
    have h3 := w.lockTask t' o' ho'
    have h4 := w.lockTask t o hl
    rw [h1, hfin.2] at h2
    subst h2
    rw [h4] at h3
    simp only [Option.some.injEq] at h3
    subst h3
    rw [hb] at hk
    cases hk

theorem J.preserved {t o i : Nat} (hJ : J s t o i) (hf : Full c s) (hfin : Finished s i o) (hn : NoWrap c o s)
    (hs : Step c s s') : J s' t o i := by
  have w := hf.inv.wf
  have hec := fun r => equal_counts (r := r) hf hn hfin
  rcases hJ with h | ⟨hl, hc⟩ | ⟨h, hg⟩
  · -- waiting for the lock
    have hlt : t < s.nextTask := by
      have := w.taskIdle t
      by_cases hlt : t < s.nextTask
      · exact hlt
      · rw [h] at this; exact absurd (this (by omega)) (by simp)
    cases hs
    case lockw t2 o2 hpc hl =>
      by_cases e : t2 = t
      · subst e
        rw [h] at hpc
        simp only [TPc.lockw.injEq] at hpc
        subst hpc
        right; left
        refine ⟨by simp [setTask, TPc.lockObs], ?_⟩
        intro a sq ha hm
        left
        have ha' : a < s.nextAcc := ha
        have hm' : (i, sq) ∈ (s.acc a).cur.ops := hm
        have h1 := (hf.rank.opsRec a i sq ha' (Or.inl hm')).2.1
        have h2 := w.accRc a ha'
        simp only [setTask, upd_same, TPc.todoR]
        rw [← hfin.2, ← h1]
        apply Classical.byContradiction
        intro hni
        have h3 := (hf.inv.relDead _ h2.1 hni).2 a h2.2
        rw [hf.inv.relEmpty a ha' h3] at hm'
        cases hm'
      · left
        have e' : t ≠ t2 := fun x => e x.symm
        simp [setTask, e', h]
    all_goals first
     | (left; exact h)
     | (left
        clear hec hn hf w hfin
        ssimp
        grind)
  · -- scanning
    have hlt : t < s.nextTask := by
      have := w.taskIdle t
      by_cases hlt : t < s.nextTask
      · exact hlt
      · rw [this (by omega)] at hl; simp [TPc.lockObs] at hl
    cases hs
    case scanEnd t2 o2 hpc =>
      by_cases e : t2 = t
      · subst e
        right; right
        refine ⟨by simp [setTask], ?_⟩
        intro a sq ha
        refine ⟨?_, snap_empty hf hl (by rw [hpc]; rfl) hfin a sq ha⟩
        intro hm
        have := hc a sq ha hm
        rw [hpc] at this
        simp [TPc.todoR, TPc.curR] at this
      · right; left
        have e' : t ≠ t2 := fun x => e x.symm
        refine ⟨by simp [setTask, e', hl], ?_⟩
        intro a sq ha hm
        have := hc a sq ha hm
        simpa [setTask, e'] using this
    case scanIdle t2 o2 td r hpc hr he hp =>
      have hrl := todo_lt w (t := t2) (o := o2) (r := r) (by rw [hpc]; rfl) (by rw [hpc]; exact hr)
      have hx := hec r hrl he
      right; left
      refine ⟨by clear hec hn hf w hfin hx hc; ssimp; grind [TPc.lockObs], ?_⟩
      intro a sq ha hm
      have h1 := hc a sq ha hm
      have h2 := hx a sq ha hm
      clear hec hn hf w hfin hx hc
      revert h1
      ssimp
      grind [TPc.todoR, TPc.curR, TPc.moved]
    case sloadSkip t2 o2 td r hpc he =>
      have hrl := cur_lt w (t := t2) (r := r) (by rw [hpc]; rfl)
      have hx := hec r hrl he
      right; left
      refine ⟨by clear hec hn hf w hfin hx hc; ssimp; grind [TPc.lockObs], ?_⟩
      intro a sq ha hm
      have h1 := hc a sq ha hm
      have h2 := hx a sq ha hm
      clear hec hn hf w hfin hx hc
      revert h1
      ssimp
      grind [TPc.todoR, TPc.curR, TPc.moved]
    case finKeep t2 o2 td r m mN k hpc hk =>
      right; left
      refine ⟨by clear hec hn hf w hfin hc; ssimp; grind [TPc.lockObs], ?_⟩
      intro a sq ha hm
      have h1 := hc a sq ha hm
      have h2 := (w.accRc a ha).2
      obtain ⟨k', hk'⟩ := List.mem_iff_getElem?.mp h2
      have hlen := (List.getElem?_eq_some_iff.mp hk').1
      rw [List.getElem?_eq_none_iff] at hk
      clear hec hn hf w hfin hc
      revert h1
      ssimp
      grind [TPc.todoR, TPc.curR, TPc.moved]
    case finRel t2 o2 td r m mN k hpc hk =>
      right; left
      refine ⟨by clear hec hn hf w hfin hc; ssimp; grind [TPc.lockObs], ?_⟩
      intro a sq ha hm
      have h1 := hc a sq ha hm
      have h2 := (w.accRc a ha).2
      obtain ⟨k', hk'⟩ := List.mem_iff_getElem?.mp h2
      have hlen := (List.getElem?_eq_some_iff.mp hk').1
      rw [List.getElem?_eq_none_iff] at hk
      clear hec hn hf w hfin hc
      revert h1
      ssimp
      grind [TPc.todoR, TPc.curR, TPc.moved]
    case mv t2 o2 td r m mN rel k a2 hpc ha2 hsl =>
      right; left
      refine ⟨by clear hec hn hf w hfin hc; ssimp; grind [TPc.lockObs], ?_⟩
      intro a sq ha hm
      have h1 := hc a sq ha
      clear hec hn hf w hfin hc
      revert h1 hm
      ssimp
      grind [TPc.todoR, TPc.curR, TPc.moved]
    case initOld r l k h' hw hl2 hll hk hfi =>
      right; left
      refine ⟨hl, ?_⟩
      intro a sq ha hm
      have ha' : a < s.nextAcc := by
        by_cases e : a = s.nextAcc
        · subst e; simp [initOld] at hm
        · simp only [initOld] at ha; omega
      have hne : a ≠ s.nextAcc := by omega
      have h1 := hc a sq ha' (by simpa [initOld, hne] using hm)
      simp only [initOld, upd_ne _ _ hne]
      rcases h1 with h1 | ⟨h1, h2⟩
      · left; exact h1
      · right
        refine ⟨h1, ?_⟩
        intro k' hk'
        apply h2
        by_cases e : (s.acc a).rc = r
        · rw [e, upd_same] at hk'
          rw [e]
          simp only [List.getElem?_append] at hk'
          split at hk'
          · exact hk'
          · rw [List.getElem?_singleton] at hk'
            split at hk'
            · simp only [Option.some.injEq] at hk'; exact absurd hk'.symm hne
            · cases hk'
        · rw [upd_ne _ _ e] at hk'; exact hk'
    case initNew r l k hw hl2 hll hk hfi =>
      right; left
      refine ⟨hl, ?_⟩
      intro a sq ha hm
      have ha' : a < s.nextAcc := by
        by_cases e : a = s.nextAcc
        · subst e; simp [initNew] at hm
        · simp only [initNew] at ha; omega
      have hne : a ≠ s.nextAcc := by omega
      have h1 := hc a sq ha' (by simpa [initNew, hne] using hm)
      simp only [initNew, upd_ne _ _ hne]
      rcases h1 with h1 | ⟨h1, h2⟩
      · left; exact h1
      · right
        refine ⟨h1, ?_⟩
        intro k' hk'
        apply h2
        by_cases e : (s.acc a).rc = r
        · rw [e, upd_same] at hk'
          rw [e]
          simp only [List.getElem?_append] at hk'
          split at hk'
          · exact hk'
          · rw [List.getElem?_singleton] at hk'
            split at hk'
            · simp only [Option.some.injEq] at hk'; exact absurd hk'.symm hne
            · cases hk'
        · rw [upd_ne _ _ e] at hk'; exact hk'
    case wrNew j a2 hpc hl2 hf2 =>
      right; left
      refine ⟨hl, ?_⟩
      intro a sq ha hm
      have h1 := hc a sq ha hm
      have h2 := (w.accRc a ha).1
      have hne : (s.acc a).rc ≠ s.nextRec := by omega
      simpa [setOpPc, hne] using h1
    case upd j r k sq2 a2 hpc ha2 =>
      have hd := hfin.1
      right; left
      refine ⟨hl, ?_⟩
      intro a sq ha hm
      have h1 := hc a sq ha
      clear hec hn hf w hfin hc
      revert h1 hm
      ssimp
      grind
    all_goals first
     | (right; left; exact ⟨hl, hc⟩)
     | (right; left
        refine ⟨by clear hec hn hf w hfin hc; ssimp; grind [TPc.lockObs], ?_⟩
        intro a sq ha hm
        have h1 := hc a sq
        clear hec hn hf w hfin hc
        revert h1 ha hm
        ssimp
        grind [TPc.todoR, TPc.curR, TPc.moved])
  · right; right
    have hlt : t < s.nextTask := by
      have := w.taskIdle t
      by_cases hlt : t < s.nextTask
      · exact hlt
      · rw [h] at this; exact absurd (this (by omega)) (by simp)
    refine ⟨?_, hg.preserved hfin hs⟩
    clear hg hec hn hf w hfin
    cases hs
    all_goals first
     | exact h
     | (ssimp
        grind)

omit [DecidableEq KS] in
theorem nodup_keys_eq {V : Type} {td : List (KS × V)} (h : (td.map (·.1)).Nodup) {k : KS} {x y : V} (hx : (k, x) ∈ td)
    (hy : (k, y) ∈ td) : x = y := by
  induction td with
  | nil => cases hx
  | cons e tl ih =>
    simp only [List.map_cons, List.nodup_cons, List.mem_map, not_exists, not_and] at h
    simp only [List.mem_cons] at hx hy
    rcases hx with hx | hx <;> rcases hy with hy | hy
    · rw [← hx] at hy; simp only [Prod.mk.injEq, true_and] at hy; exact hy.symm
    · subst hx; exact absurd rfl (h.1 (k, y) hy)
    · subst hy; exact absurd rfl (h.1 (k, x) hx)
    · exact ih h.2 hx hy

theorem K.preserved {t l o i : Nat} (hK : K s t l i) (hd : c.delta l = true) (hf : Full c s) (hfin : Finished s i o)
    (hg : Gone s i) (hs : Step c s s') : K s' t l i := by
  have w := hf.inv.wf
  rcases hK with h | ⟨hl, hc⟩ | ⟨h, hh⟩
  · have hlt : t < s.nextTask := by
      have := w.taskIdle t
      by_cases hlt : t < s.nextTask
      · exact hlt
      · rw [h] at this; exact absurd (this (by omega)) (by simp)
    cases hs
    case lockl t2 l2 hpc hl =>
      by_cases e : t2 = t
      · subst e
        rw [h] at hpc
        simp only [TPc.lockl.injEq] at hpc
        subst hpc
        right; left
        refine ⟨by simp [setTask, TPc.lockLeaf], ?_⟩
        intro x sq hx hlf hm
        left
        simp only [setTask, upd_same, TPc.todoL]
        apply Classical.byContradiction
        intro hni
        have := hf.inv.stranded x hx (by rw [show (s.hold x).leaf = l from hlf]; exact hni)
        have hm' : (i, sq) ∈ (s.hold x).store.ops := hm
        rw [this.1] at hm'
        cases hm'
      · left
        have e' : t ≠ t2 := fun x => e x.symm
        simp [setTask, e', h]
    all_goals first
     | (left; exact h)
     | (left
        clear hg hf w hfin
        ssimp
        grind)
  · have hlt : t < s.nextTask := by
      have := w.taskIdle t
      by_cases hlt : t < s.nextTask
      · exact hlt
      · rw [this (by omega)] at hl; simp [TPc.lockLeaf] at hl
    cases hs
    case lscanEnd t2 l2 hpc =>
      by_cases e : t2 = t
      · subst e
        right; right
        refine ⟨by simp [setTask], ?_⟩
        intro x sq hx hlf hm
        have := hc x sq hx hlf hm
        rw [hpc] at this
        simp [TPc.todoL] at this
      · right; left
        have e' : t ≠ t2 := fun x => e x.symm
        refine ⟨by simp [setTask, e', hl], ?_⟩
        intro x sq hx hlf hm
        have := hc x sq hx hlf hm
        simpa [setTask, e'] using this
    case lscanDelta t2 l2 td k h2 hpc hr hd2 =>
      right; left
      refine ⟨by clear hg hf w hfin hc; ssimp; grind [TPc.lockLeaf], ?_⟩
      intro x sq hx hlf hm
      have h1 := hc x sq hx hlf hm
      have hn := w.dataKeys l2
      have hs1 := (w.lTodo t2 l2 (by rw [hpc]; rfl))
      rw [hpc] at hs1
      simp only [TPc.todoL] at hs1
      by_cases e : t2 = t
      · subst e
        rw [hpc] at h1 hl
        simp only [TPc.lockLeaf, Option.some.injEq] at hl
        subst hl
        simp only [TPc.todoL, reduceCtorEq, exists_false, or_false] at h1
        simp only [setTask, upd_same, TPc.todoL, TPc.lmv.injEq, List.mem_filter]
        by_cases e2 : (s.hold x).key = k
        · right
          have h3 := hs1.1
          have : x = h2 := by
            rw [e2] at h1
            exact nodup_keys_eq h3 h1 hr
          exact ⟨_, _, _, trivial, rfl, rfl, this.symm, rfl⟩
        · left
          exact ⟨h1, by simp [e2]⟩
      · have e' : t ≠ t2 := fun x => e x.symm
        simpa [setTask, e'] using h1
    case lscanCum t2 l2 td k h2 hpc hr hd2 =>
      have e' : t ≠ t2 := by
        intro e; subst e
        rw [hpc] at hl
        simp only [TPc.lockLeaf, Option.some.injEq] at hl
        subst hl
        rw [hd] at hd2; cases hd2
      right; left
      refine ⟨by simp [setTask, e', hl], ?_⟩
      intro x sq hx hlf hm
      have := hc x sq hx hlf hm
      simpa [setTask, e'] using this
    case lmvKeep t2 l2 td k h2 nr hpc hcc =>
      have hlc := w.lCur t2 l2 td k h2 nr hpc
      right; left
      refine ⟨by clear hg hf w hfin hc; ssimp; grind [TPc.lockLeaf], ?_⟩
      intro x sq hx hlf hm
      have h1 := hc x sq hx
      clear hg hf w hfin hc
      revert h1 hlf hm
      ssimp
      grind [TPc.todoL]
    case lmvDel t2 l2 td k h2 hpc hcc =>
      have hlc := w.lCur t2 l2 td k h2 0 hpc
      right; left
      refine ⟨by clear hg hf w hfin hc; ssimp; grind [TPc.lockLeaf], ?_⟩
      intro x sq hx hlf hm
      have h1 := hc x sq hx
      clear hg hf w hfin hc
      revert h1 hlf hm
      ssimp
      grind [TPc.todoL]
    case mg t2 o2 td r m mN rel k a hpc ha =>
      have hta := task_acc w hf.inv.relPos (t := t2) (r := r) (k := k) (by rw [hpc]; rfl) ha (by rw [hpc]; rfl)
      have hna := fun sq => (hg a sq hta.2.1).2
      right; left
      refine ⟨by clear hg hf w hfin hc hna; ssimp; grind [TPc.lockLeaf], ?_⟩
      intro x sq hx hlf hm
      have h1 := hc x sq hx
      have h2 := hna sq
      clear hg hf w hfin hc hna
      revert h1 hlf hm
      ssimp
      grind [TPc.todoL]
    all_goals first
     | (right; left; exact ⟨hl, hc⟩)
     | (right; left
        refine ⟨by clear hg hf w hfin hc; ssimp; grind [TPc.lockLeaf], ?_⟩
        intro x sq hx hlf hm
        have h1 := hc x sq
        clear hg hf w hfin hc
        revert h1 hx hlf hm
        ssimp
        grind [TPc.todoL])
  · right; right
    have hlt : t < s.nextTask := by
      have := w.taskIdle t
      by_cases hlt : t < s.nextTask
      · exact hlt
      · rw [h] at this; exact absurd (this (by omega)) (by simp)
    refine ⟨?_, ?_⟩
    · clear hg hf w hfin hh
      cases hs
      all_goals first
       | exact h
       | (ssimp
          grind)
    · cases hs
      case mg t2 o2 td r m mN rel k a hpc ha =>
        have hta := task_acc w hf.inv.relPos (t := t2) (r := r) (k := k) (by rw [hpc]; rfl) ha (by rw [hpc]; rfl)
        have hna := fun sq => (hg a sq hta.2.1).2
        intro x sq hx hlf hm
        have h1 := hh x sq hx
        have h2 := hna sq
        clear hg hf w hfin hh hna
        revert h1 hlf hm
        ssimp
        grind
      all_goals first
       | exact hh
       | (intro x sq hx hlf hm
          have h1 := hh x sq
          clear hg hf w hfin hh
          revert h1 hx hlf hm
          ssimp
          grind)

/-- Cumulative collection: waiting, scanning, or done with every series containing call `i` reported. -/
def C (s : State AL KS N S) (t l i : Nat) (e0 : List (Emit KS S)) : Prop :=
  (s.task t = .lockl l ∧ ∃ pre, s.emits = pre ++ e0) ∨
  (((s.task t).lockLeaf = some l ∧ ∃ pre, s.emits = pre ++ e0) ∧ CCur s t l i e0) ∨
  (s.task t = .done ∧ CCur s t l i e0)

theorem emits_grow {e0 : List (Emit KS S)} (h : ∃ pre, s.emits = pre ++ e0) (hs : Step c s s') :
    ∃ pre, s'.emits = pre ++ e0 := by
  obtain ⟨pre, h⟩ := h
  cases hs
  case lscanCum t l td k h' hpc hr hd => exact ⟨_ :: pre, congrArg (List.cons _) h⟩
  case lmvKeep t l td k h' nr hpc hcc => exact ⟨_ :: pre, congrArg (List.cons _) h⟩
  case lmvDel t l td k h' hpc hcc => exact ⟨_ :: pre, congrArg (List.cons _) h⟩
  all_goals exact ⟨pre, h⟩

/-- What was reported since `e0` stays reported. -/
theorem seen_grow {e0 : List (Emit KS S)} {P : Emit KS S → Prop} (h : ∃ pre, s.emits = pre ++ e0 ∧ ∃ e, e ∈ pre ∧ P e)
    (hs : Step c s s') : ∃ pre, s'.emits = pre ++ e0 ∧ ∃ e, e ∈ pre ∧ P e := by
  obtain ⟨pre, h, e, he, hp⟩ := h
  cases hs
  case lscanCum t l td k h' hpc hr hd =>
    exact ⟨_ :: pre, congrArg (List.cons _) h, e, List.mem_cons_of_mem _ he, hp⟩
  case lmvKeep t l td k h' nr hpc hcc =>
    exact ⟨_ :: pre, congrArg (List.cons _) h, e, List.mem_cons_of_mem _ he, hp⟩
  case lmvDel t l td k h' hpc hcc =>
    exact ⟨_ :: pre, congrArg (List.cons _) h, e, List.mem_cons_of_mem _ he, hp⟩
  all_goals exact ⟨pre, h, e, he, hp⟩

/-- Series of a cumulative view keep call `i` in place while it is in no accumulator. -/
theorem cum_store {l o i : Nat} (hd : c.delta l = false) (hf : Full c s) (hfin : Finished s i o)
    (hg : Gone s i) (hs : Step c s s') : ∀ h sq, h < s'.nextHold → (s'.hold h).leaf = l →
      (i, sq) ∈ (s'.hold h).store.ops →
      h < s.nextHold ∧ (s.hold h).leaf = l ∧ (s'.hold h).key = (s.hold h).key ∧ (i, sq) ∈ (s.hold h).store.ops := by
  have w := hf.inv.wf
  cases hs
  case mg t2 o2 td r m mN rel k a hpc ha =>
    have hta := task_acc w hf.inv.relPos (t := t2) (r := r) (k := k) (by rw [hpc]; rfl) ha (by rw [hpc]; rfl)
    have hna := fun sq => (hg a sq hta.2.1).2
    intro x sq hx hlf hm
    have h2 := hna sq
    clear hg hf w hfin hna
    revert hx hlf hm
    ssimp
    grind
  all_goals
    intro x sq hx hlf hm
    first
     | exact ⟨hx, hlf, rfl, hm⟩
     | (clear hg hf w hfin
        revert hx hlf hm
        ssimp
        grind)

theorem C.preserved {t l o i : Nat} {e0 : List (Emit KS S)} (hC : C s t l i e0) (hd : c.delta l = false) (hf : Full c s)
    (hfin : Finished s i o) (hg : Gone s i) (hs : Step c s s') : C s' t l i e0 := by
  have w := hf.inv.wf
  have hcs := cum_store hd hf hfin hg hs
  have hlt : t < s.nextTask := by
    have := w.taskIdle t
    by_cases hlt : t < s.nextTask
    · exact hlt
    · have hid := this (by omega)
      rcases hC with ⟨h, _⟩ | ⟨⟨h, _⟩, _⟩ | ⟨h, _⟩ <;> rw [hid] at h <;> simp [TPc.lockLeaf] at h
  rcases hC with ⟨h, hpre⟩ | ⟨⟨hl, hpre⟩, hc⟩ | ⟨h, hc⟩
  · have hpre' := emits_grow hpre hs
    cases hs
    case lockl t2 l2 hpc hl =>
      by_cases e : t2 = t
      · subst e
        rw [h] at hpc
        simp only [TPc.lockl.injEq] at hpc
        subst hpc
        right; left
        refine ⟨⟨by simp [setTask, TPc.lockLeaf], hpre'⟩, ?_⟩
        intro x sq hx hlf hm
        left
        simp only [setTask, upd_same, TPc.todoL]
        apply Classical.byContradiction
        intro hni
        have := hf.inv.stranded x hx (by rw [show (s.hold x).leaf = l from hlf]; exact hni)
        have hm' : (i, sq) ∈ (s.hold x).store.ops := hm
        rw [this.1] at hm'
        cases hm'
      · left
        have e' : t ≠ t2 := fun x => e x.symm
        exact ⟨by simp [setTask, e', h], hpre'⟩
    all_goals first
     | (left; exact ⟨h, hpre'⟩)
     | (left
        refine ⟨?_, hpre'⟩
        clear hg hf w hfin hpre hpre' hcs
        ssimp
        grind)
  · have hpre' := emits_grow hpre hs
    have hseen := fun (P : Emit KS S → Prop) (x : ∃ pre, s.emits = pre ++ e0 ∧ ∃ e, e ∈ pre ∧ P e) => seen_grow x hs
    cases hs
    case lscanEnd t2 l2 hpc =>
      by_cases e : t2 = t
      · subst e
        right; right
        refine ⟨by simp [setTask], ?_⟩
        intro x sq hx hlf hm
        have := hc x sq hx hlf hm
        rw [hpc] at this
        simp only [TPc.todoL, List.not_mem_nil, false_or] at this
        right; exact this
      · right; left
        have e' : t ≠ t2 := fun x => e x.symm
        refine ⟨⟨by simp [setTask, e', hl], hpre'⟩, ?_⟩
        intro x sq hx hlf hm
        have := hc x sq hx hlf hm
        simpa [setTask, e'] using this
    case lscanCum t2 l2 td k h2 hpc hr hd2 =>
      right; left
      refine ⟨⟨by clear hg hf w hfin hc hpre hpre' hcs hseen; ssimp; grind [TPc.lockLeaf], hpre'⟩, ?_⟩
      intro x sq hx hlf hm
      have h1 := hc x sq hx hlf hm
      have hs1 := (w.lTodo t2 l2 (by rw [hpc]; rfl))
      rw [hpc] at hs1
      simp only [TPc.todoL] at hs1
      by_cases e : t2 = t
      · subst e
        rw [hpc] at h1 hl
        simp only [TPc.lockLeaf, Option.some.injEq] at hl
        subst hl
        rcases h1 with h1 | h1
        · by_cases e2 : (s.hold x).key = k
          · right
            simp only [TPc.todoL] at h1
            have : x = h2 := by
              rw [e2] at h1
              exact nodup_keys_eq hs1.1 h1 hr
            subst this
            obtain ⟨pre, hp⟩ := hpre
            refine ⟨_ :: pre, congrArg (List.cons _) hp, _, List.mem_cons_self, rfl, e2.symm, hm⟩
          · left
            simp only [setTask, upd_same, TPc.todoL, List.mem_filter]
            exact ⟨h1, by simp [e2]⟩
        · right
          exact hseen _ h1
      · have e' : t ≠ t2 := fun x => e x.symm
        rcases h1 with h1 | h1
        · left; simpa [setTask, e'] using h1
        · right; exact hseen _ h1
    case lscanDelta t2 l2 td k h2 hpc hr hd2 =>
      have e' : t ≠ t2 := by
        intro e; subst e
        rw [hpc] at hl
        simp only [TPc.lockLeaf, Option.some.injEq] at hl
        subst hl
        rw [hd] at hd2; cases hd2
      right; left
      refine ⟨⟨by simp [setTask, e', hl], hpre'⟩, ?_⟩
      intro x sq hx hlf hm
      have := hc x sq hx hlf hm
      simpa [setTask, e'] using this
    case lmvKeep t2 l2 td k h2 nr hpc hcc =>
      have hdl := hf.vals.p.lmvDelta t2 l2 td k h2 nr hpc
      have e' : t ≠ t2 := by
        intro e; subst e
        rw [hpc] at hl
        simp only [TPc.lockLeaf, Option.some.injEq] at hl
        subst hl
        rw [hd] at hdl; cases hdl
      right; left
      refine ⟨⟨by simp [setTask, e', hl, setHold], hpre'⟩, ?_⟩
      intro x sq hx hlf hm
      obtain ⟨g1, g2, g3, g4⟩ := hcs x sq hx hlf hm
      rcases hc x sq g1 g2 g4 with h1 | h1
      · left; rw [g3]; simpa [setTask, e', setHold] using h1
      · right; rw [g3]; exact hseen _ h1
    case lmvDel t2 l2 td k h2 hpc hcc =>
      have hdl := hf.vals.p.lmvDelta t2 l2 td k h2 0 hpc
      have e' : t ≠ t2 := by
        intro e; subst e
        rw [hpc] at hl
        simp only [TPc.lockLeaf, Option.some.injEq] at hl
        subst hl
        rw [hd] at hdl; cases hdl
      right; left
      refine ⟨⟨by simp [setTask, e', hl, setHold], hpre'⟩, ?_⟩
      intro x sq hx hlf hm
      obtain ⟨g1, g2, g3, g4⟩ := hcs x sq hx hlf hm
      rcases hc x sq g1 g2 g4 with h1 | h1
      · left; rw [g3]; simpa [setTask, e', setHold] using h1
      · right; rw [g3]; exact hseen _ h1
    all_goals first
     | (right; left; exact ⟨⟨hl, hpre'⟩, hc⟩)
     | (right; left
        refine ⟨⟨by clear hg hf w hfin hc hpre hpre' hcs hseen; ssimp; grind [TPc.lockLeaf], hpre'⟩, ?_⟩
        intro x sq hx hlf hm
        obtain ⟨g1, g2, g3, g4⟩ := hcs x sq hx hlf hm
        rw [g3]
        rcases hc x sq g1 g2 g4 with h1 | h1
        · left
          clear hg hf w hfin hc hpre hpre' hcs hseen hx hlf hm g1 g2 g3 g4
          revert h1
          ssimp
          grind [TPc.todoL]
        · right; exact hseen _ h1)
  · right; right
    refine ⟨?_, ?_⟩
    · clear hg hf w hfin hc hcs
      cases hs
      all_goals first
       | exact h
       | (ssimp
          grind)
    · intro x sq hx hlf hm
      obtain ⟨g1, g2, g3, g4⟩ := hcs x sq hx hlf hm
      rcases hc x sq g1 g2 g4 with h1 | h1
      · rw [h] at h1; simp [TPc.todoL] at h1
      · right; rw [g3]; exact seen_grow h1 hs

end
end Verif.Sync
