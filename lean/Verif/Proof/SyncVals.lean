import Verif.Proof.SyncProg

/-!
Helper file: the stored values are built from exactly the updates listed with them.
-/

namespace Verif.Sync
open Verif
variable {AL KS N S : Type} [DecidableEq KS]

/-- `Holds ag f b v ops`: value `v` results from applying aggregator operations to the updates `ops`
(`f` gives the number of each call). With `b = true` every `upd` brought a sequence number larger than those present. -/
inductive Holds (ag : Agg N S) (f : Nat → N) (b : Bool) : S → List (Nat × Nat) → Prop
  | init : Holds ag f b ag.init []
  | reset {v : S} {ops : List (Nat × Nat)} (h : Holds ag f b v ops) : Holds ag f b (ag.reset v) []
  | upd {v : S} {ops : List (Nat × Nat)} (i sq : Nat) (h : Holds ag f b v ops) (hsq : 1 ≤ sq)
      (hb : b = true → ∀ e, e ∈ ops → e.2 < sq) :
      Holds ag f b (ag.upd v (f i) sq) ((i, sq) :: ops)
  | merge {v1 v2 : S} {o1 o2 : List (Nat × Nat)} (h1 : Holds ag f b v1 o1) (h2 : Holds ag f b v2 o2) :
      Holds ag f b (ag.merge v1 v2) (o2 ++ o1)

/-- Sequence numbers of the updates applied to a series increase in the order of application. -/
def Ordered (ap : List (Nat × KS × Nat × Nat)) (l : Nat) (k : KS) : Prop :=
  ((ap.filter (fun e => e.1 == l && e.2.1 == k)).map (·.2.2)).Pairwise (fun x y => y.2 < x.2)

def CurOk (c : Cfg AL KS N S) (s : State AL KS N S) (b : Bool) (f : Nat → N) : Prop :=
  ∀ a, a < s.nextAcc → (b = true → Ordered s.applied (s.acc a).leaf (s.acc a).key) →
    Holds (c.agg (s.acc a).leaf) f b (s.acc a).cur.val (s.acc a).cur.ops

def SnapOk (c : Cfg AL KS N S) (s : State AL KS N S) (b : Bool) (f : Nat → N) : Prop :=
  ∀ (t o : Nat) td (r m mN : Nat) rel (k a : Nat), s.task t = .mg o td r m mN rel k → (s.recs r).accs[k]? = some a →
    (b = true → Ordered s.applied (s.acc a).leaf (s.acc a).key) →
    Holds (c.agg (s.acc a).leaf) f b (s.acc a).snap.val (s.acc a).snap.ops

def HoldOk (c : Cfg AL KS N S) (s : State AL KS N S) (b : Bool) (f : Nat → N) : Prop :=
  ∀ h, h < s.nextHold → (b = true → Ordered s.applied (s.hold h).leaf (s.hold h).key) →
    Holds (c.agg (s.hold h).leaf) f b (s.hold h).store.val (s.hold h).store.ops

def EmitOk (c : Cfg AL KS N S) (s : State AL KS N S) (b : Bool) (f : Nat → N) : Prop :=
  ∀ e, e ∈ s.emits → (b = true → Ordered s.applied e.leaf e.key) → Holds (c.agg e.leaf) f b e.val e.ops

def Agree (s : State AL KS N S) (f : Nat → N) : Prop := ∀ i, i < s.nextOp → f i = (s.op i).num

def Vals (c : Cfg AL KS N S) (s : State AL KS N S) : Prop :=
  ∀ b f, Agree s f → CurOk c s b f ∧ SnapOk c s b f ∧ HoldOk c s b f ∧ EmitOk c s b f

def SeqPos (s : State AL KS N S) : Prop := 1 ≤ s.seq ∧ ∀ i r k sq, (s.op i).pc = .upd r k sq → 1 ≤ sq

section
variable {c : Cfg AL KS N S} {s s' : State AL KS N S}
set_option maxHeartbeats 1000000

theorem SeqPos.preserved (h : SeqPos s) (hs : Step c s s') : SeqPos s' := by
  cases hs
  all_goals first
   | exact h
   | (refine ⟨by first | exact h.1 | (have := h.1; simp only [setOpPc]; omega), ?_⟩
      intro i' r' k' sq'
      have := h.2 i' r' k' sq'
      have := h.1
      ssimp
      grind)

theorem cur_applied (hc : Cons c s) {a : Nat} (ha : a < s.nextAcc) {e : Nat × Nat} (he : e ∈ (s.acc a).cur.ops) :
    e ∈ appliedTo s (s.acc a).leaf (s.acc a).key := by
  have h0 := hc (s.acc a).leaf (s.acc a).key (fun x => decide (x = e))
  have h1 : 0 < (s.acc a).cur.ops.countP (fun x => decide (x = e)) := by
    rw [List.countP_pos_iff]; exact ⟨e, he, by simp⟩
  have h2 := le_sumTo (n := s.nextAcc) (a := a) (f := fun b => if (s.acc b).leaf = (s.acc a).leaf ∧ (s.acc b).key = (s.acc a).key then
    (s.acc b).cur.ops.countP (fun x => decide (x = e)) + (s.acc b).snap.ops.countP (fun x => decide (x = e)) else 0) ha
  simp only [and_self, if_true] at h2
  have h3 : 0 < (appliedTo s (s.acc a).leaf (s.acc a).key).countP (fun x => decide (x = e)) := by
    rw [h0]; unfold accW; omega
  rw [List.countP_pos_iff] at h3
  obtain ⟨x, hx, hxe⟩ := h3
  simp only [decide_eq_true_eq] at hxe
  exact hxe ▸ hx

theorem ordered_upd {l : Nat} {k : KS} {l' : Nat} {k' : KS} {e : Nat × Nat} {s2 : State AL KS N S}
    (hap : s2.applied = (l', k', e) :: s.applied) (h : Ordered s2.applied l k) : Ordered s.applied l k := by
  unfold Ordered at *
  rw [hap, List.filter_cons] at h
  split at h
  · simp only [List.map_cons, List.pairwise_cons] at h; exact h.2
  · exact h

theorem Vals.preserved (h : Vals c s) (hq : SeqPos s) (hc : Cons c s) (hd : LmvDelta c s) (inv : Inv c s) (hs : Step c s s') :
    Vals c s' := by
  have w := inv.wf
  cases hs
  case observe o a n =>
    intro b f hf
    have hf' : Agree s f := by
      intro i hi
      have := hf i (by show i < s.nextOp + 1; omega)
      have hne : i ≠ s.nextOp := by omega
      simpa [hne] using this
    exact h b f hf'
  case upd i r k sq a hpc ha =>
    have hh : (s.op i).pc.holds r = true := by rw [hpc]; simp [OPc.holds]
    have hl := upd_live w inv.ref inv.relPos hh ha
    have hi : i < s.nextOp := op_lt w.opIdle (by rw [hpc]; simp)
    intro b f hf
    have hf' : Agree s f := by
      intro j hj
      have := hf j hj
      by_cases e : j = i
      · subst e; simpa [setOpPc, setAcc] using this
      · simpa [setOpPc, setAcc, e] using this
    obtain ⟨h1, h2, h3, h4⟩ := h b f hf'
    generalize hg : setOpPc _ _ _ = s2
    have e3 : s2.applied = ((s.acc a).leaf, (s.acc a).key, i, sq) :: s.applied := by rw [← hg]; rfl
    have hord : ∀ l k, Ordered s2.applied l k → Ordered s.applied l k := fun l k => ordered_upd e3
    refine ⟨?_, ?_, ?_, ?_⟩
    · intro a' ha' hb
      rw [show s2.nextAcc = s.nextAcc by rw [← hg]; rfl] at ha'
      have h1' := h1 a' ha'
      by_cases e : a' = a
      · subst e
        have e1 : (s2.acc a').leaf = (s.acc a').leaf := by rw [← hg]; simp [setOpPc, setAcc]
        have e2 : (s2.acc a').key = (s.acc a').key := by rw [← hg]; simp [setOpPc, setAcc]
        have e4 : (s2.acc a').cur = ⟨(c.agg (s.acc a').leaf).upd (s.acc a').cur.val (s.op i).num sq,
          (i, sq) :: (s.acc a').cur.ops⟩ := by rw [← hg]; simp [setOpPc, setAcc]
        rw [e1, e2] at hb
        rw [e1, e4, ← hf' i hi]
        refine .upd i sq (h1' (fun hb' => hord _ _ (hb hb'))) (hq.2 i r k sq hpc) ?_
        intro hb' e' he'
        have hm := cur_applied hc ha' he'
        have ho := hb hb'
        unfold Ordered at ho
        simp only [e3, List.filter_cons, beq_self_eq_true, Bool.and_self, if_true, List.map_cons,
          List.pairwise_cons] at ho
        exact ho.1 e' hm
      · have e1 : s2.acc a' = s.acc a' := by rw [← hg]; simp [setOpPc, setAcc, e]
        rw [e1] at hb ⊢
        exact h1' (fun hb' => hord _ _ (hb hb'))
    · intro t o td r' m mN rel k' a' ht ha' hb
      have ht' : s.task t = .mg o td r' m mN rel k' := by rw [← hg] at ht; exact ht
      have ha2 : (s.recs r').accs[k']? = some a' := by rw [← hg] at ha'; exact ha'
      have e1 : (s2.acc a').leaf = (s.acc a').leaf := by
        rw [← hg]; by_cases e : a' = a
        · subst e; simp [setOpPc, setAcc]
        · simp [setOpPc, setAcc, e]
      have e2 : (s2.acc a').key = (s.acc a').key := by
        rw [← hg]; by_cases e : a' = a
        · subst e; simp [setOpPc, setAcc]
        · simp [setOpPc, setAcc, e]
      have e4 : (s2.acc a').snap = (s.acc a').snap := by
        rw [← hg]; by_cases e : a' = a
        · subst e; simp [setOpPc, setAcc]
        · simp [setOpPc, setAcc, e]
      rw [e1, e2] at hb
      rw [e1, e4]
      exact h2 t o td r' m mN rel k' a' ht' ha2 (fun hb' => hord _ _ (hb hb'))
    · intro h' hh' hb
      have e1 : s2.hold = s.hold := by rw [← hg]; rfl
      have e2 : s2.nextHold = s.nextHold := by rw [← hg]; rfl
      rw [e1] at hb ⊢
      rw [e2] at hh'
      exact h3 h' hh' (fun hb' => hord _ _ (hb hb'))
    · intro e he hb
      have e1 : s2.emits = s.emits := by rw [← hg]; rfl
      rw [e1] at he
      exact h4 e he (fun hb' => hord _ _ (hb hb'))
  case initOld r l k h' hw hl hll hk hf =>
    intro b f hf'
    obtain ⟨h1, h2, h3, h4⟩ := h b f hf'
    refine ⟨?_, ?_, ?_, h4⟩
    · intro a' ha' hb
      by_cases e : a' = s.nextAcc
      · subst e; simp only [initOld, upd_same]; exact .init
      · have : a' < s.nextAcc := by simp only [initOld] at ha'; omega
        have := h1 a' this
        simpa [initOld, e] using this (by simpa [initOld, e] using hb)
    · intro t o td r' m mN rel k' a' ht ha' hb
      have ht' : s.task t = .mg o td r' m mN rel k' := ht
      have hfl := full_lt w.todoMem w.tblLt (s := s) (t := t) (r := r') (by rw [ht']; rfl)
      have hfu := w.taskFull t r' (by rw [ht']; rfl)
      have hrr : r' ≠ r := by
        intro e; subst e
        have := (List.getElem?_eq_some_iff.mp hl).1
        unfold numLeaves at hfu
        omega
      have ha2 : (s.recs r').accs[k']? = some a' := by simpa [initOld, hrr] using ha'
      have hne : a' ≠ s.nextAcc := by
        have := (w.accsMem r' a' hfl (List.mem_of_getElem? ha2)).1
        omega
      have := h2 t o td r' m mN rel k' a' ht' ha2
      simpa [initOld, hne] using this (by simpa [initOld, hne] using hb)
    · intro x hx hb
      have := h3 x hx
      by_cases e : x = h'
      · subst e; simpa [initOld] using this (by simpa [initOld] using hb)
      · simpa [initOld, e] using this (by simpa [initOld, e] using hb)
  case initNew r l k hw hl hll hk hf =>
    intro b f hf'
    obtain ⟨h1, h2, h3, h4⟩ := h b f hf'
    refine ⟨?_, ?_, ?_, h4⟩
    · intro a' ha' hb
      by_cases e : a' = s.nextAcc
      · subst e; simp only [initNew, upd_same]; exact .init
      · have : a' < s.nextAcc := by simp only [initNew] at ha'; omega
        have := h1 a' this
        simpa [initNew, e] using this (by simpa [initNew, e] using hb)
    · intro t o td r' m mN rel k' a' ht ha' hb
      have ht' : s.task t = .mg o td r' m mN rel k' := ht
      have hfl := full_lt w.todoMem w.tblLt (s := s) (t := t) (r := r') (by rw [ht']; rfl)
      have hfu := w.taskFull t r' (by rw [ht']; rfl)
      have hrr : r' ≠ r := by
        intro e; subst e
        have := (List.getElem?_eq_some_iff.mp hl).1
        unfold numLeaves at hfu
        omega
      have ha2 : (s.recs r').accs[k']? = some a' := by simpa [initNew, hrr] using ha'
      have hne : a' ≠ s.nextAcc := by
        have := (w.accsMem r' a' hfl (List.mem_of_getElem? ha2)).1
        omega
      have := h2 t o td r' m mN rel k' a' ht' ha2
      simpa [initNew, hne] using this (by simpa [initNew, hne] using hb)
    · intro x hx hb
      by_cases e : x = s.nextHold
      · subst e; simp only [initNew, upd_same]; exact .init
      · have hlt : x < s.nextHold := by simp only [initNew] at hx; omega
        have := h3 x hlt
        simpa [initNew, e] using this (by simpa [initNew, e] using hb)
  case mv t o td r m mN rel k a hpc ha hsl =>
    have hta := task_acc w inv.relPos (t := t) (r := r) (k := k) (by rw [hpc]; rfl) ha (by rw [hpc]; rfl)
    intro b f hf'
    obtain ⟨h1, h2, h3, h4⟩ := h b f hf'
    refine ⟨?_, ?_, h3, h4⟩
    · intro a' ha' hb
      have := h1 a' ha'
      by_cases e : a' = a
      · subst e
        simp only [setTask, setAcc, upd_same] at hb ⊢
        exact .reset (this hb)
      · simpa [setTask, setAcc, e] using this (by simpa [setTask, setAcc, e] using hb)
    · intro t' o' td' r' m' mN' rel' k' a' ht ha' hb
      by_cases e : a' = a
      · subst e
        simp only [setTask, setAcc, upd_same] at hb ⊢
        exact h1 a' hta.2.1 hb
      · by_cases et : t' = t
        · subst et
          simp only [setTask, setAcc, upd_same, TPc.mg.injEq] at ht
          obtain ⟨_, _, er, _, _, _, ek⟩ := ht
          subst er; subst ek
          have ha2 : (s.recs r).accs[k]? = some a' := ha'
          rw [ha] at ha2
          simp only [Option.some.injEq] at ha2
          exact absurd ha2.symm e
        · have ht' : s.task t' = .mg o' td' r' m' mN' rel' k' := by simpa [setTask, setAcc, et] using ht
          have := h2 t' o' td' r' m' mN' rel' k' a' ht' ha'
          simpa [setTask, setAcc, e] using this (by simpa [setTask, setAcc, e] using hb)
  case mg t o td r m mN rel k a hpc ha =>
    have hta := task_acc w inv.relPos (t := t) (r := r) (k := k) (by rw [hpc]; rfl) ha (by rw [hpc]; rfl)
    have hah := w.accHold a hta.2.1
    intro b f hf'
    obtain ⟨h1, h2, h3, h4⟩ := h b f hf'
    refine ⟨?_, ?_, ?_, h4⟩
    · intro a' ha' hb
      have := h1 a' ha'
      by_cases e : a' = a
      · subst e
        simpa [setTask, setAcc, setHold] using this (by simpa [setTask, setAcc, setHold] using hb)
      · simpa [setTask, setAcc, setHold, e] using this (by simpa [setTask, setAcc, setHold, e] using hb)
    · intro t' o' td' r' m' mN' rel' k' a' ht ha' hb
      have et : t' ≠ t := by
        intro et; subst et; simp [setTask] at ht
      have ht' : s.task t' = .mg o' td' r' m' mN' rel' k' := by simpa [setTask, setAcc, setHold, et] using ht
      have e : a' ≠ a := by
        intro e; subst e
        obtain ⟨x, hx1, hx2⟩ := w.busyLock t' r' k' (by rw [ht']; rfl)
        obtain ⟨y, hy1, hy2⟩ := w.busyLock t r k (by rw [hpc]; rfl)
        have ha2 : (s.recs r').accs[k']? = some a' := ha'
        rw [ha2] at hx1; rw [ha] at hy1
        simp only [Option.some.injEq] at hx1 hy1
        subst hx1; subst hy1
        rw [hx2] at hy2
        simp only [Option.some.injEq] at hy2
        exact et hy2
      have := h2 t' o' td' r' m' mN' rel' k' a' ht' ha'
      simpa [setTask, setAcc, setHold, e] using this (by simpa [setTask, setAcc, setHold, e] using hb)
    · intro x hx hb
      have := h3 x hx
      by_cases e : x = (s.acc a).holder
      · subst e
        have hb' : b = true → Ordered s.applied (s.hold (s.acc a).holder).leaf (s.hold (s.acc a).holder).key := by
          intro hbt
          have := hb hbt
          simpa [setTask, setAcc, setHold] using this
        have hh1 := this hb'
        rw [hah.2.1, hah.2.2] at hb'
        have hh2 := h2 t o td r m mN rel k a hpc ha hb'
        rw [hah.2.1] at hh1
        simp only [setTask, setAcc, setHold, upd_same, hah.2.1]
        exact .merge hh1 hh2
      · simpa [setTask, setAcc, setHold, e] using this (by simpa [setTask, setAcc, setHold, e] using hb)
  case lscanCum t l td k h' hpc hr hdel =>
    have hlt := (w.lTodo t l (by rw [hpc]; rfl)).2 (k, h') (by rw [hpc]; exact hr)
    have hdo := w.dataOk l k h' hlt
    intro b f hf'
    obtain ⟨h1, h2, h3, h4⟩ := h b f hf'
    refine ⟨h1, ?_, h3, ?_⟩
    · intro t' o' td' r' m' mN' rel' k' a' ht ha' hb
      have et : t' ≠ t := by
        intro et; subst et; simp [setTask] at ht
      have ht' : s.task t' = .mg o' td' r' m' mN' rel' k' := by simpa [setTask, et] using ht
      exact h2 t' o' td' r' m' mN' rel' k' a' ht' ha' hb
    · intro e he hb
      simp only [setTask, List.mem_cons] at he
      rcases he with he | he
      · subst he
        have := h3 h' hdo.1
        rw [hdo.2.1, hdo.2.2] at this
        exact this hb
      · exact h4 e he hb
  case lmvKeep t l td k h' nr hpc hcc =>
    have hdo := w.dataOk l k h' (w.lCur t l td k h' nr hpc).1
    intro b f hf'
    obtain ⟨h1, h2, h3, h4⟩ := h b f hf'
    refine ⟨h1, ?_, ?_, ?_⟩
    · intro t' o' td' r' m' mN' rel' k' a' ht ha' hb
      have et : t' ≠ t := by
        intro et; subst et; simp [setTask] at ht
      have ht' : s.task t' = .mg o' td' r' m' mN' rel' k' := by simpa [setTask, setHold, et] using ht
      exact h2 t' o' td' r' m' mN' rel' k' a' ht' ha' hb
    · intro x hx hb
      have := h3 x hx
      by_cases e : x = h'
      · subst e
        simp only [setTask, setHold, upd_same] at hb ⊢
        rw [hdo.2.1] at this ⊢
        exact .reset (this (by rw [hdo.2.1] at hb; exact hb))
      · simpa [setTask, setHold, e] using this (by simpa [setTask, setHold, e] using hb)
    · intro e he hb
      simp only [setTask, List.mem_cons] at he
      rcases he with he | he
      · subst he
        have := h3 h' hdo.1
        rw [hdo.2.1, hdo.2.2] at this
        exact this hb
      · exact h4 e he hb
  case lmvDel t l td k h' hpc hcc =>
    have hdo := w.dataOk l k h' (w.lCur t l td k h' 0 hpc).1
    intro b f hf'
    obtain ⟨h1, h2, h3, h4⟩ := h b f hf'
    refine ⟨h1, ?_, ?_, ?_⟩
    · intro t' o' td' r' m' mN' rel' k' a' ht ha' hb
      have et : t' ≠ t := by
        intro et; subst et; simp [setTask] at ht
      have ht' : s.task t' = .mg o' td' r' m' mN' rel' k' := by simpa [setTask, setHold, et] using ht
      exact h2 t' o' td' r' m' mN' rel' k' a' ht' ha' hb
    · intro x hx hb
      have := h3 x hx
      by_cases e : x = h'
      · subst e
        simp only [setTask, setHold, upd_same] at hb ⊢
        rw [hdo.2.1] at this ⊢
        exact .reset (this (by rw [hdo.2.1] at hb; exact hb))
      · simpa [setTask, setHold, e] using this (by simpa [setTask, setHold, e] using hb)
    · intro e he hb
      simp only [setTask, List.mem_cons] at he
      rcases he with he | he
      · subst he
        have := h3 h' hdo.1
        rw [hdo.2.1, hdo.2.2] at this
        exact this hb
      · exact h4 e he hb
  case rlRel t o td r m mN k a hpc ha =>
    intro b f hf'
    obtain ⟨h1, h2, h3, h4⟩ := h b f hf'
    refine ⟨?_, ?_, ?_, h4⟩
    · intro a' ha' hb
      have := h1 a' ha'
      by_cases e : a' = a
      · subst e
        simpa [setTask, setAcc, setHold] using this (by simpa [setTask, setAcc, setHold] using hb)
      · simpa [setTask, setAcc, setHold, e] using this (by simpa [setTask, setAcc, setHold, e] using hb)
    · intro t' o' td' r' m' mN' rel' k' a' ht ha' hb
      have et : t' ≠ t := by
        intro et; subst et; simp [setTask] at ht
      have ht' : s.task t' = .mg o' td' r' m' mN' rel' k' := by simpa [setTask, setAcc, setHold, et] using ht
      have := h2 t' o' td' r' m' mN' rel' k' a' ht' ha'
      by_cases e : a' = a
      · subst e
        simpa [setTask, setAcc, setHold] using this (by simpa [setTask, setAcc, setHold] using hb)
      · simpa [setTask, setAcc, setHold, e] using this (by simpa [setTask, setAcc, setHold, e] using hb)
    · intro x hx hb
      have := h3 x hx
      by_cases e : x = (s.acc a).holder
      · subst e
        simpa [setTask, setAcc, setHold] using this (by simpa [setTask, setAcc, setHold] using hb)
      · simpa [setTask, setAcc, setHold, e] using this (by simpa [setTask, setAcc, setHold, e] using hb)
  case rlKeep t o td r m mN k a hpc ha =>
    intro b f hf'
    obtain ⟨h1, h2, h3, h4⟩ := h b f hf'
    refine ⟨?_, ?_, h3, h4⟩
    · intro a' ha' hb
      have := h1 a' ha'
      by_cases e : a' = a
      · subst e
        simpa [setTask, setAcc, setHold] using this (by simpa [setTask, setAcc, setHold] using hb)
      · simpa [setTask, setAcc, setHold, e] using this (by simpa [setTask, setAcc, setHold, e] using hb)
    · intro t' o' td' r' m' mN' rel' k' a' ht ha' hb
      have et : t' ≠ t := by
        intro et; subst et; simp [setTask] at ht
      have ht' : s.task t' = .mg o' td' r' m' mN' rel' k' := by simpa [setTask, setAcc, setHold, et] using ht
      have := h2 t' o' td' r' m' mN' rel' k' a' ht' ha'
      by_cases e : a' = a
      · subst e
        simpa [setTask, setAcc, setHold] using this (by simpa [setTask, setAcc, setHold] using hb)
      · simpa [setTask, setAcc, setHold, e] using this (by simpa [setTask, setAcc, setHold, e] using hb)
  all_goals first
   | exact h
   | (intro b f hf
      have hf' : Agree s f := by
        intro j hj
        have hfj := hf j hj
        clear hf h hc w inv hd hq
        revert hfj
        ssimp
        grind
      obtain ⟨h1, h2, h3, h4⟩ := h b f hf'
      refine ⟨h1, ?_, h3, h4⟩
      intro t' o' td' r' m' mN' rel' k' a' ht ha' hb
      have hx := h2 t' o' td' r' m' mN' rel' k' a'
      have hfl := fun t r => @full_lt _ _ _ _ s t r w.todoMem w.tblLt
      have hfl2 := hfl t' r'
      clear h h1 h2 h3 h4 hc w inv hd hq hf hf' hfl
      revert ht ha' hb
      ssimp
      grind [TPc.fullR, newRec])

theorem Vals.initial (n0 : N) : Vals c (Sync.initial c n0) := by
  intro b f _
  simp [CurOk, SnapOk, HoldOk, EmitOk, Sync.initial]

theorem SeqPos.initial (n0 : N) : SeqPos (Sync.initial c n0) := by
  simp [SeqPos, Sync.initial]

/-- Whether a delta point was kept is decided by its value; cumulative points are always kept. -/
def KeptOk (c : Cfg AL KS N S) (s : State AL KS N S) : Prop :=
  ∀ e, e ∈ s.emits → e.kept = true ∨ (c.delta e.leaf = true ∧ (c.agg e.leaf).hasChange e.val = false)

theorem KeptOk.preserved (h : KeptOk c s) (hd : LmvDelta c s) (hs : Step c s s') : KeptOk c s' := by
  cases hs
  case lmvKeep t l td k h' nr hpc hcc =>
    intro e he
    simp only [setTask, List.mem_cons] at he
    rcases he with he | he
    · subst he
      simp only [hd t l td k h' nr hpc, true_and]
      cases (c.agg l).hasChange (s.hold h').store.val <;> simp
    · exact h e he
  case lmvDel t l td k h' hpc hcc =>
    intro e he
    simp only [setTask, List.mem_cons] at he
    rcases he with he | he
    · subst he
      right; exact ⟨hd t l td k h' 0 hpc, hcc⟩
    · exact h e he
  case lscanCum t l td k h' hpc hr hdel =>
    intro e he
    simp only [setTask, List.mem_cons] at he
    rcases he with he | he
    · subst he; left; rfl
    · exact h e he
  all_goals exact h

structure Vals2 (c : Cfg AL KS N S) (s : State AL KS N S) : Prop where
  p : Prog2 c s
  seqPos : SeqPos s
  vals : Vals c s
  kept : KeptOk c s

theorem reachable_vals {n0 : N} {s : State AL KS N S} (hr : Reachable c n0 s) : Inv c s ∧ Vals2 c s :=
  reachable_ind (P := Vals2 c) ⟨Prog2.initial n0, SeqPos.initial n0, Vals.initial n0, by simp [KeptOk, Sync.initial]⟩
    (fun _ _ hi hp hs => ⟨hp.p.preserved hi hs, hp.seqPos.preserved hs,
      hp.vals.preserved hp.seqPos hp.p.cons hp.p.lmvDelta hi hs, hp.kept.preserved hp.p.lmvDelta hs⟩) hr

end
end Verif.Sync
