import Verif.Proof.SyncAux
import Verif.Spec.Sync

/-!
Helper file: conservation of updates.
-/

namespace Verif.Sync
open Verif
variable {AL KS N S : Type} [DecidableEq KS]

/-- Number of updates satisfying `p` in the accumulators of series `k` of view `l`. -/
def accW (s : State AL KS N S) (l : Nat) (k : KS) (p : Nat × Nat → Bool) : Nat :=
  sumTo s.nextAcc (fun a => if (s.acc a).leaf = l ∧ (s.acc a).key = k then
    (s.acc a).cur.ops.countP p + (s.acc a).snap.ops.countP p else 0)

/-- Number of updates satisfying `p` in the stored series `k` of view `l`. -/
def holdW (s : State AL KS N S) (l : Nat) (k : KS) (p : Nat × Nat → Bool) : Nat :=
  sumTo s.nextHold (fun h => if (s.hold h).leaf = l ∧ (s.hold h).key = k then (s.hold h).store.ops.countP p else 0)

/-- Only views with delta temporality run the moving collection step. -/
def LmvDelta (c : Cfg AL KS N S) (s : State AL KS N S) : Prop :=
  ∀ t l td k h n, s.task t = .lmv l td k h n → c.delta l = true

def emitW (c : Cfg AL KS N S) (s : State AL KS N S) (l : Nat) (k : KS) (p : Nat × Nat → Bool) : Nat :=
  if c.delta l = true then (reported s l k).countP p else 0

def Cons (c : Cfg AL KS N S) (s : State AL KS N S) : Prop :=
  ∀ l k p, (appliedTo s l k).countP p = emitW c s l k p + accW s l k p + holdW s l k p

section
variable {c : Cfg AL KS N S} {s s' : State AL KS N S}
set_option maxHeartbeats 1000000

theorem LmvDelta.preserved (h : LmvDelta c s) (hs : Step c s s') : LmvDelta c s' := by
  cases hs
  all_goals first
   | exact h
   | (unfold LmvDelta at *
      intro t' l' td k' hd n hh
      have := h t' l' td k' hd n
      clear h
      revert hh
      ssimp
      grind)

theorem accW_same {l : Nat} {k : KS} {p} (s' s : State AL KS N S) (hn : s'.nextAcc = s.nextAcc)
    (ha : ∀ a, a < s.nextAcc → (s'.acc a).leaf = (s.acc a).leaf ∧ (s'.acc a).key = (s.acc a).key ∧
      (s'.acc a).cur.ops.countP p + (s'.acc a).snap.ops.countP p = (s.acc a).cur.ops.countP p + (s.acc a).snap.ops.countP p) :
    accW s' l k p = accW s l k p := by
  unfold accW
  rw [hn]
  apply sumTo_congr
  intro a hlt
  obtain ⟨h1, h2, h3⟩ := ha a hlt
  rw [h1, h2, h3]

theorem accW_change {l : Nat} {k : KS} {p} (s' s : State AL KS N S) (a : Nat) (ha : a < s.nextAcc)
    (hn : s'.nextAcc = s.nextAcc) (hne : ∀ b, b ≠ a → s'.acc b = s.acc b)
    (hl : (s'.acc a).leaf = (s.acc a).leaf) (hk : (s'.acc a).key = (s.acc a).key) :
    accW s' l k p +
      (if (s.acc a).leaf = l ∧ (s.acc a).key = k then (s.acc a).cur.ops.countP p + (s.acc a).snap.ops.countP p else 0)
    = accW s l k p +
      (if (s.acc a).leaf = l ∧ (s.acc a).key = k then (s'.acc a).cur.ops.countP p + (s'.acc a).snap.ops.countP p else 0) := by
  have := sumTo_change (n := s.nextAcc) (a := a)
    (f := fun a => if (s.acc a).leaf = l ∧ (s.acc a).key = k then
      (s.acc a).cur.ops.countP p + (s.acc a).snap.ops.countP p else 0)
    (g := fun a => if (s'.acc a).leaf = l ∧ (s'.acc a).key = k then
      (s'.acc a).cur.ops.countP p + (s'.acc a).snap.ops.countP p else 0) ha
    (by intro b _ hb; simp [hne b hb])
  simp only [hl, hk] at this
  unfold accW
  rw [hn]
  exact this

theorem holdW_same {l : Nat} {k : KS} {p} (s' s : State AL KS N S) (hn : s'.nextHold = s.nextHold)
    (ha : ∀ a, a < s.nextHold → (s'.hold a).leaf = (s.hold a).leaf ∧ (s'.hold a).key = (s.hold a).key ∧
      (s'.hold a).store.ops = (s.hold a).store.ops) :
    holdW s' l k p = holdW s l k p := by
  unfold holdW
  rw [hn]
  apply sumTo_congr
  intro a hlt
  obtain ⟨h1, h2, h3⟩ := ha a hlt
  rw [h1, h2, h3]

theorem holdW_change {l : Nat} {k : KS} {p} (s' s : State AL KS N S) (h : Nat) (ha : h < s.nextHold)
    (hn : s'.nextHold = s.nextHold) (hne : ∀ b, b ≠ h → s'.hold b = s.hold b)
    (hl : (s'.hold h).leaf = (s.hold h).leaf) (hk : (s'.hold h).key = (s.hold h).key) :
    holdW s' l k p +
      (if (s.hold h).leaf = l ∧ (s.hold h).key = k then (s.hold h).store.ops.countP p else 0)
    = holdW s l k p +
      (if (s.hold h).leaf = l ∧ (s.hold h).key = k then (s'.hold h).store.ops.countP p else 0) := by
  have := sumTo_change (n := s.nextHold) (a := h)
    (f := fun a => if (s.hold a).leaf = l ∧ (s.hold a).key = k then (s.hold a).store.ops.countP p else 0)
    (g := fun a => if (s'.hold a).leaf = l ∧ (s'.hold a).key = k then (s'.hold a).store.ops.countP p else 0) ha
    (by intro b _ hb; simp [hne b hb])
  simp only [hl, hk] at this
  unfold holdW
  rw [hn]
  exact this

theorem Cons.preserved (h : Cons c s) (hd : LmvDelta c s) (inv : Inv c s) (hs : Step c s s') : Cons c s' := by
  have w := inv.wf
  cases hs
  case initOld r l' k' h' hw hl hll hk hf =>
    intro l k p
    have h0 := h l k p
    have hacc : accW (initOld c s r l' k' h') l k p = accW s l k p := by
      simp only [accW, initOld, sumTo_succ, upd_same]
      rw [sumTo_congr (g := fun a => if (s.acc a).leaf = l ∧ (s.acc a).key = k then
        (s.acc a).cur.ops.countP p + (s.acc a).snap.ops.countP p else 0)]
      · simp
      · intro a ha
        have hne : a ≠ s.nextAcc := by omega
        simp [hne]
    have hhold : holdW (initOld c s r l' k' h') l k p = holdW s l k p := by
      simp only [holdW, initOld]
      apply sumTo_congr
      intro a _
      by_cases e : a = h' <;> simp [e]
    rw [hacc, hhold]; exact h0
  case initNew r l' k' hw hl hll hk hf =>
    intro l k p
    have h0 := h l k p
    have hacc : accW (initNew c s r l' k') l k p = accW s l k p := by
      simp only [accW, initNew, sumTo_succ, upd_same]
      rw [sumTo_congr (g := fun a => if (s.acc a).leaf = l ∧ (s.acc a).key = k then
        (s.acc a).cur.ops.countP p + (s.acc a).snap.ops.countP p else 0)]
      · simp
      · intro a ha
        have hne : a ≠ s.nextAcc := by omega
        simp [hne]
    have hhold : holdW (initNew c s r l' k') l k p = holdW s l k p := by
      simp only [holdW, initNew, sumTo_succ, upd_same]
      rw [sumTo_congr (g := fun h => if (s.hold h).leaf = l ∧ (s.hold h).key = k then (s.hold h).store.ops.countP p else 0)]
      · simp
      · intro a ha
        have hne : a ≠ s.nextHold := by omega
        simp [hne]
    rw [hacc, hhold]; exact h0
  case upd i r k' sq a hpc ha =>
    intro l k p
    have h0 := h l k p
    have hl := upd_live w inv.ref inv.relPos (i := i) (r := r) (by rw [hpc]; simp [OPc.holds]) ha
    generalize hg : setOpPc _ _ _ = s2
    have hc := accW_change (l := l) (k := k) (p := p) s2 s a hl.2.1 (by rw [← hg]; rfl)
      (by rw [← hg]; intro b hb; simp [setOpPc, setAcc, hb])
      (by rw [← hg]; simp [setOpPc, setAcc]) (by rw [← hg]; simp [setOpPc, setAcc])
    have e1 : (s2.acc a).cur.ops = (i, sq) :: (s.acc a).cur.ops := by rw [← hg]; simp [setOpPc, setAcc]
    have e2 : (s2.acc a).snap = (s.acc a).snap := by rw [← hg]; simp [setOpPc, setAcc]
    have e3 : s2.applied = ((s.acc a).leaf, (s.acc a).key, i, sq) :: s.applied := by rw [← hg]; rfl
    have e4 : emitW c s2 l k p = emitW c s l k p := by rw [← hg]; rfl
    have e5 : holdW s2 l k p = holdW s l k p := by rw [← hg]; rfl
    rw [e4, e5]
    rw [e1, e2, List.countP_cons] at hc
    simp only [appliedTo, e3, List.filter_cons] at h0 ⊢
    by_cases hlk : (s.acc a).leaf = l ∧ (s.acc a).key = k
    · simp only [hlk, and_self, if_true, beq_self_eq_true, Bool.and_self, List.map_cons, List.countP_cons] at hc ⊢
      omega
    · simp only [hlk, if_false] at hc
      have : ((s.acc a).leaf == l && (s.acc a).key == k) = false := by
        grind
      simp only [this, Bool.false_eq_true, if_false]
      omega
  case mv t o td r m mN rel k' a hpc ha hsl =>
    intro l k p
    have h0 := h l k p
    have hta := task_acc w inv.relPos (t := t) (r := r) (k := k') (by rw [hpc]; rfl) ha (by rw [hpc]; rfl)
    have hsn := inv.snapIdle a hta.2.1 hsl
    generalize hg : setTask _ _ _ = s2
    have : accW s2 l k p = accW s l k p := by
      apply accW_same s2 s (by rw [← hg]; rfl)
      intro b hb
      rw [← hg]
      by_cases e : b = a
      · subst e; simp [setTask, setAcc, hsn]
      · simp [setTask, setAcc, e]
    rw [this, ← hg]; exact h0
  case mg t o td r m mN rel k' a hpc ha =>
    intro l k p
    have h0 := h l k p
    have hta := task_acc w inv.relPos (t := t) (r := r) (k := k') (by rw [hpc]; rfl) ha (by rw [hpc]; rfl)
    have hah := w.accHold a hta.2.1
    generalize hg : setTask _ _ _ = s2
    have hc := accW_change (l := l) (k := k) (p := p) s2 s a hta.2.1 (by rw [← hg]; rfl)
      (by rw [← hg]; intro b hb; simp [setTask, setAcc, setHold, hb])
      (by rw [← hg]; simp [setTask, setAcc, setHold]) (by rw [← hg]; simp [setTask, setAcc, setHold])
    have hc2 := holdW_change (l := l) (k := k) (p := p) s2 s _ hah.1 (by rw [← hg]; rfl)
      (by rw [← hg]; intro b hb; simp [setTask, setAcc, setHold, hb])
      (by rw [← hg]; simp [setTask, setAcc, setHold]) (by rw [← hg]; simp [setTask, setAcc, setHold])
    have e1 : (s2.acc a).cur = (s.acc a).cur := by rw [← hg]; simp [setTask, setAcc, setHold]
    have e2 : (s2.acc a).snap.ops = [] := by rw [← hg]; simp [setTask, setAcc, setHold]
    have e3 : (s2.hold (s.acc a).holder).store.ops = (s.acc a).snap.ops ++ (s.hold (s.acc a).holder).store.ops := by
      rw [← hg]; simp [setTask, setAcc, setHold]
    have e4 : emitW c s2 l k p = emitW c s l k p := by rw [← hg]; rfl
    have e5 : appliedTo s2 l k = appliedTo s l k := by rw [← hg]; rfl
    rw [e4, e5]
    rw [e1, e2] at hc
    rw [hah.2.1, hah.2.2, e3] at hc2
    by_cases hlk : (s.acc a).leaf = l ∧ (s.acc a).key = k
    · simp only [hlk, and_self, if_true, List.countP_append, List.countP_nil] at hc hc2
      omega
    · simp only [hlk, if_false] at hc hc2
      omega
  case lscanCum t l' td k' h' hpc hr hdel =>
    intro l k p
    have h0 := h l k p
    show (appliedTo s l k).countP p = emitW c _ l k p + accW s l k p + holdW s l k p
    rw [h0]
    congr 2
    unfold emitW
    split
    · rename_i hdl
      have : l' ≠ l := by intro e; subst e; rw [hdl] at hdel; cases hdel
      simp [reported, setTask, this]
    · rfl
  case lmvKeep t l' td k' h' nr hpc hcc =>
    intro l k p
    have h0 := h l k p
    have hdo := w.dataOk l' k' h' (w.lCur t l' td k' h' nr hpc).1
    have hdl := hd t l' td k' h' nr hpc
    generalize hg : setTask _ _ _ = s2
    have hc2 := holdW_change (l := l) (k := k) (p := p) s2 s h' hdo.1 (by rw [← hg]; rfl)
      (by rw [← hg]; intro b hb; simp [setTask, setHold, hb])
      (by rw [← hg]; simp [setTask, setHold]) (by rw [← hg]; simp [setTask, setHold])
    have e1 : accW s2 l k p = accW s l k p := by rw [← hg]; rfl
    have e2 : appliedTo s2 l k = appliedTo s l k := by rw [← hg]; rfl
    have e3 : (s2.hold h').store.ops = [] := by rw [← hg]; simp [setTask, setHold]
    have e4 : s2.emits = { leaf := l', key := k', val := (s.hold h').store.val, ops := (s.hold h').store.ops, kept := (c.agg l').hasChange (s.hold h').store.val } :: s.emits := by rw [← hg]; rfl
    rw [e1, e2]
    rw [hdo.2.1, hdo.2.2, e3] at hc2
    unfold emitW at h0 ⊢
    by_cases hlk : l' = l ∧ k' = k
    · clear e1 e2
      obtain ⟨f1, f2⟩ := hlk
      subst f1; subst f2
      simp only [hdl, if_true, and_self, List.countP_nil] at h0 hc2 ⊢
      simp only [reported, e4, List.filter_cons, beq_self_eq_true, Bool.and_self, if_true, List.flatMap_cons,
        List.countP_append] at h0 ⊢
      omega
    · simp only [hlk, if_false] at hc2
      have : (l' == l && k' == k) = false := by grind
      simp only [reported, e4, List.filter_cons, this, Bool.false_eq_true, if_false] at h0 ⊢
      omega
  case lmvDel t l' td k' h' hpc hcc =>
    intro l k p
    have h0 := h l k p
    have hdo := w.dataOk l' k' h' (w.lCur t l' td k' h' 0 hpc).1
    have hdl := hd t l' td k' h' 0 hpc
    generalize hg : setTask _ _ _ = s2
    have hc2 := holdW_change (l := l) (k := k) (p := p) s2 s h' hdo.1 (by rw [← hg]; rfl)
      (by rw [← hg]; intro b hb; simp [setTask, setHold, hb])
      (by rw [← hg]; simp [setTask, setHold]) (by rw [← hg]; simp [setTask, setHold])
    have e1 : accW s2 l k p = accW s l k p := by rw [← hg]; rfl
    have e2 : appliedTo s2 l k = appliedTo s l k := by rw [← hg]; rfl
    have e3 : (s2.hold h').store.ops = [] := by rw [← hg]; simp [setTask, setHold]
    have e4 : s2.emits = { leaf := l', key := k', val := (s.hold h').store.val, ops := (s.hold h').store.ops, kept := false } :: s.emits := by rw [← hg]; rfl
    rw [e1, e2]
    rw [hdo.2.1, hdo.2.2, e3] at hc2
    unfold emitW at h0 ⊢
    by_cases hlk : l' = l ∧ k' = k
    · clear e1 e2
      obtain ⟨f1, f2⟩ := hlk
      subst f1; subst f2
      simp only [hdl, if_true, and_self, List.countP_nil] at h0 hc2 ⊢
      simp only [reported, e4, List.filter_cons, beq_self_eq_true, Bool.and_self, if_true, List.flatMap_cons,
        List.countP_append] at h0 ⊢
      omega
    · simp only [hlk, if_false] at hc2
      have : (l' == l && k' == k) = false := by grind
      simp only [reported, e4, List.filter_cons, this, Bool.false_eq_true, if_false] at h0 ⊢
      omega
  case rlKeep t o td r m mN k' a hpc ha =>
    intro l k p
    have h0 := h l k p
    generalize hg : setTask _ _ _ = s2
    have : accW s2 l k p = accW s l k p := by
      apply accW_same s2 s (by rw [← hg]; rfl)
      intro b hb
      rw [← hg]
      by_cases e : b = a
      · subst e; simp [setTask, setAcc]
      · simp [setTask, setAcc, e]
    rw [this, ← hg]; exact h0
  case rlRel t o td r m mN k' a hpc ha =>
    intro l k p
    have h0 := h l k p
    generalize hg : setTask _ _ _ = s2
    have h1 : accW s2 l k p = accW s l k p := by
      apply accW_same s2 s (by rw [← hg]; rfl)
      intro b hb
      rw [← hg]
      by_cases e : b = a
      · subst e; simp [setTask, setAcc, setHold]
      · simp [setTask, setAcc, setHold, e]
    have h2 : holdW s2 l k p = holdW s l k p := by
      apply holdW_same s2 s (by rw [← hg]; rfl)
      intro b hb
      rw [← hg]
      by_cases e : b = (s.acc a).holder
      · subst e; simp [setTask, setAcc, setHold]
      · simp [setTask, setAcc, setHold, e]
    rw [h1, h2, ← hg]; exact h0
  all_goals exact h

theorem Cons.initial (n0 : N) : Cons c (Sync.initial c n0) := by
  intro l k p
  simp [Sync.initial, appliedTo, emitW, accW, holdW, reported]

theorem LmvDelta.initial (n0 : N) : LmvDelta c (Sync.initial c n0) := by
  simp [LmvDelta, Sync.initial]

theorem reachable_cons {n0 : N} {s : State AL KS N S} (hr : Reachable c n0 s) : Inv c s ∧ LmvDelta c s ∧ Cons c s :=
  reachable_ind (P := fun s => LmvDelta c s ∧ Cons c s) ⟨LmvDelta.initial n0, Cons.initial n0⟩
    (fun _ _ hi hp hs => ⟨hp.1.preserved hs, hp.2.preserved hp.1 hi hs⟩) hr

end
end Verif.Sync
