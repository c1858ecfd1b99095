import Verif.Proof.SyncVals

/-!
Helper file: the change counter of a record and the measurements not yet collected.
-/

namespace Verif.Sync
open Verif
variable {AL KS N S : Type} [DecidableEq KS]

/-- The call has incremented the change counter of its record. -/
def OPc.counted : OPc AL → Bool
  | .unref _ => true
  | .done => true
  | .idle => false
  | .rd _ => false
  | .wr _ => false
  | .ini _ => false
  | .fetch _ _ => false
  | .upd _ _ _ => false
  | .cnt _ => false

/-- Record being snapshotted with the loaded counter. -/
def TPc.mods : TPc KS → Option (Nat × Nat × Nat)
  | .ini _ _ r m mN _ => some (r, m, mN)
  | .mv _ _ r m mN _ _ => some (r, m, mN)
  | .mg _ _ r m mN _ _ => some (r, m, mN)
  | .rl _ _ r m mN _ _ => some (r, m, mN)
  | .idle => none
  | .lockw _ => none
  | .scan _ _ => none
  | .unmap _ _ _ => none
  | .sload _ _ _ _ => none
  | .lockl _ => none
  | .lscan _ _ => none
  | .lmv _ _ _ _ _ => none
  | .done => none

/-- Number of accumulators whose content has been moved. -/
def TPc.moved : TPc KS → Nat
  | .mv _ _ _ _ _ _ k => k
  | .mg _ _ _ _ _ _ k => k + 1
  | .rl _ _ _ _ _ _ k => k + 1
  | .ini _ _ _ _ _ _ => 0
  | .idle => 0
  | .lockw _ => 0
  | .scan _ _ => 0
  | .unmap _ _ _ => 0
  | .sload _ _ _ _ => 0
  | .lockl _ => 0
  | .lscan _ _ => 0
  | .lmv _ _ _ _ _ => 0
  | .done => 0

/-- Calls found in an accumulator hold its record or are done. -/
def OpsRec (s : State AL KS N S) : Prop :=
  ∀ a i sq, a < s.nextAcc → ((i, sq) ∈ (s.acc a).cur.ops ∨ (i, sq) ∈ (s.acc a).snap.ops) →
    i < s.nextOp ∧ (s.recs (s.acc a).rc).obs = (s.op i).obs ∧
    ((s.op i).pc.holds (s.acc a).rc = true ∨ (s.op i).pc = .done)

def CntOk (c : Cfg AL KS N S) (s : State AL KS N S) : Prop :=
  ∀ r, r < s.nextRec → (s.recs r).updateCount = (s.recs r).updN % c.W ∧
    (s.recs r).collectedCount = (s.recs r).colN % c.W ∧ (s.recs r).colN ≤ (s.recs r).updN

def CntT (c : Cfg AL KS N S) (s : State AL KS N S) : Prop :=
  ∀ t r m mN, (s.task t).mods = some (r, m, mN) → m = mN % c.W ∧ mN ≤ (s.recs r).updN

def RankLe (s : State AL KS N S) : Prop :=
  ∀ a i sq, a < s.nextAcc → (i, sq) ∈ (s.acc a).cur.ops → (s.op i).pc.counted = true →
    (s.op i).rank ≤ (s.recs (s.acc a).rc).updN

def RankGt (s : State AL KS N S) : Prop :=
  ∀ a i sq, a < s.nextAcc → (i, sq) ∈ (s.acc a).cur.ops → (s.op i).pc.counted = true →
    (s.recs (s.acc a).rc).colN < (s.op i).rank

def RankMoved (s : State AL KS N S) : Prop :=
  ∀ (t r m mN k a i sq : Nat), (s.task t).mods = some (r, m, mN) → k < (s.task t).moved →
    (s.recs r).accs[k]? = some a → (i, sq) ∈ (s.acc a).cur.ops → (s.op i).pc.counted = true → mN < (s.op i).rank

section
variable {c : Cfg AL KS N S} {s s' : State AL KS N S}
set_option maxHeartbeats 1000000

omit [DecidableEq KS] in
theorem mods_cur {t r m mN : Nat} (h : (s.task t).mods = some (r, m, mN)) : (s.task t).curR = some r := by
  cases hp : s.task t <;> simp_all [TPc.mods, TPc.curR]

omit [DecidableEq KS] in
theorem cur_lt (w : Wf c s) {t r : Nat} (h : (s.task t).curR = some r) : r < s.nextRec := by
  have hlo : ∃ o, (s.task t).lockObs = some o := by
    cases hp : s.task t <;> simp_all [TPc.curR, TPc.lockObs]
  obtain ⟨o, ho⟩ := hlo
  exact (w.tblLt o r ((w.todoMem t o ho).2 r h).1).1

omit [DecidableEq KS] in
theorem todo_lt (w : Wf c s) {t r o : Nat} (h : (s.task t).lockObs = some o) (hr : r ∈ (s.task t).todoR) : r < s.nextRec :=
  (w.tblLt o r ((w.todoMem t o h).1 r hr)).1

theorem OpsRec.preserved (h : OpsRec s) (inv : Inv c s) (hs : Step c s s') : OpsRec s' := by
  have w := inv.wf
  cases hs
  case upd i r k sq a hpc ha =>
    have hh : (s.op i).pc.holds r = true := by rw [hpc]; simp [OPc.holds]
    have hl := upd_live w inv.ref inv.relPos hh ha
    have hi := op_lt w.opIdle (i := i) (by rw [hpc]; simp)
    have ho := (w.opRec i r hh).2
    unfold OpsRec at *
    intro a' i' sq' h1 h2
    have hx := h a' i' sq' h1
    clear h w inv
    revert h2
    ssimp
    grind [OPc.holds]
  case mg t o td r m mN rel k a hpc ha =>
    unfold OpsRec at *
    intro a' i' sq' h1 h2
    have hx := h a' i' sq' h1
    clear h w inv
    revert h2
    ssimp
    grind
  case unref i r hpc =>
    unfold OpsRec at *
    intro a' i' sq' h1 h2
    have hx := h a' i' sq' h1
    clear h w inv
    revert h2
    ssimp
    grind
  case wrNew i a hpc hl hf =>
    unfold OpsRec at *
    intro a' i' sq' h1 h2
    have hx := h a' i' sq' h1
    have hr := (w.accRc a' h1).1
    clear h w inv
    revert h2
    ssimp
    grind [OPc.holds]
  case observe o a n =>
    unfold OpsRec at *
    intro a' i' sq' h1 h2
    have hx := h a' i' sq' h1
    clear h w inv
    revert h2
    ssimp
    grind
  all_goals first
   | exact h
   | (unfold OpsRec at *
      intro a' i' sq' h1 h2
      have hx := h a' i' sq'
      clear h w inv
      revert h1 h2
      ssimp
      grind [OPc.holds])

theorem CntOk.preserved (h : CntOk c s) (ht : CntT c s) (inv : Inv c s) (hs : Step c s s') : CntOk c s' := by
  have w := inv.wf
  cases hs
  case cnt i r hpc =>
    have hr := (w.opRec i r (by rw [hpc]; simp [OPc.holds])).1
    intro r' hr'
    have := h r' hr'
    have h2 := h r hr
    by_cases e : r' = r
    · subst e
      simp only [upd_same]
      refine ⟨?_, h2.2.1, by omega⟩
      rw [h2.1]; simp
    · simpa [e] using this
  case finKeep t o td r m mN k hpc ha =>
    have hr := cur_lt w (t := t) (r := r) (by rw [hpc]; rfl)
    have h1 := ht t r m mN (by rw [hpc]; rfl)
    intro r' hr'
    have := h r' hr'
    by_cases e : r' = r
    · subst e; simp only [setTask, setRec, upd_same]; exact ⟨this.1, h1.1, h1.2⟩
    · simpa [setTask, setRec, e] using this
  case finRel t o td r m mN k hpc ha =>
    have hr := cur_lt w (t := t) (r := r) (by rw [hpc]; rfl)
    have h1 := ht t r m mN (by rw [hpc]; rfl)
    intro r' hr'
    have := h r' hr'
    by_cases e : r' = r
    · subst e; simp only [setTask, setRec, upd_same]; exact ⟨this.1, h1.1, h1.2⟩
    · simpa [setTask, setRec, e] using this
  case wrNew i a hpc hl hf =>
    intro r' hr'
    by_cases e : r' = s.nextRec
    · subst e; simp [setOpPc, newRec]
    · have := h r' (by simp only [setOpPc] at hr'; omega)
      simpa [setOpPc, e] using this
  all_goals first
   | exact h
   | (unfold CntOk at *
      intro r' hr'
      have := h r'
      clear h ht w inv
      revert hr'
      ssimp
      grind [newRec])

theorem CntT.preserved (h : CntT c s) (hc : CntOk c s) (inv : Inv c s) (hs : Step c s s') : CntT c s' := by
  have w := inv.wf
  cases hs
  case wrNew i a hpc hl hf =>
    unfold CntT at *
    intro t' r' m' mN' h1
    have hx := h t' r' m' mN'
    have hlt := fun x => cur_lt w (mods_cur (s := s) (t := t') (r := r') (m := m') (mN := mN') x)
    clear h w inv hc
    revert h1
    ssimp
    grind [TPc.mods]
  case scanSnap t o td r hpc hr he =>
    have hlt := todo_lt w (t := t) (o := o) (r := r) (by rw [hpc]; rfl) (by rw [hpc]; exact hr)
    have h2 := hc r hlt
    unfold CntT at *
    intro t' r' m' mN' h1
    have hx := h t' r' m' mN'
    clear h w inv hc
    revert h1
    ssimp
    grind [TPc.mods]
  case sloadGo t o td r rel hpc he =>
    have hlt := cur_lt w (t := t) (r := r) (by rw [hpc]; rfl)
    have h2 := hc r hlt
    unfold CntT at *
    intro t' r' m' mN' h1
    have hx := h t' r' m' mN'
    clear h w inv hc
    revert h1
    ssimp
    grind [TPc.mods]
  all_goals first
   | exact h
   | (unfold CntT at *
      intro t' r' m' mN' h1
      have hx := h t' r' m' mN'
      clear h w inv hc
      revert h1
      ssimp
      grind [TPc.mods])

theorem RankLe.preserved (h : RankLe s) (ho : OpsRec s) (inv : Inv c s) (hs : Step c s s') : RankLe s' := by
  have w := inv.wf
  cases hs
  case cnt i r hpc =>
    unfold RankLe at *
    intro a' i' sq' h1 h2 h3
    have hx := h a' i' sq' h1 h2
    have hy := ho a' i' sq' h1 (Or.inl h2)
    clear h w inv ho
    revert h3
    ssimp
    grind [OPc.counted, OPc.holds]
  case upd i r k sq a hpc ha =>
    unfold RankLe at *
    intro a' i' sq' h1 h2 h3
    have hx := h a' i' sq' h1
    clear h w inv ho
    revert h2 h3
    ssimp
    grind [OPc.counted]
  case wrNew i a hpc hl hf =>
    unfold RankLe at *
    intro a' i' sq' h1 h2 h3
    have hx := h a' i' sq' h1
    have hr := (w.accRc a' h1).1
    clear h w inv ho
    revert h2 h3
    ssimp
    grind [OPc.counted]
  case observe o a n =>
    unfold RankLe at *
    intro a' i' sq' h1 h2 h3
    have hx := h a' i' sq' h1
    clear h w inv ho
    revert h2 h3
    ssimp
    grind [OPc.counted]
  all_goals first
   | exact h
   | (unfold RankLe at *
      intro a' i' sq' h1 h2 h3
      have hx := h a' i' sq'
      clear h w inv ho
      revert h1 h2 h3
      ssimp
      grind [OPc.counted])

theorem RankMoved.preserved (h : RankMoved s) (ho : OpsRec s) (hc : CntT c s) (inv : Inv c s) (hs : Step c s s') :
    RankMoved s' := by
  have w := inv.wf
  have hmem := w.accsMem
  have hlt : ∀ t r m mN, (s.task t).mods = some (r, m, mN) → r < s.nextRec := fun t r m mN x => cur_lt w (mods_cur x)
  cases hs
  case cnt i r hpc =>
    unfold RankMoved at *
    intro t' r' m' mN' k' a' i' sq' h1 h2 h3 h4 h5
    have hx := h t' r' m' mN' k' a' i' sq' h1 h2
    have hr := hlt t' r' m' mN' h1
    have hz := hc t' r' m' mN' h1
    have hm : a' ∈ (s.recs r').accs := by
      refine List.mem_of_getElem? (i := k') ?_
      revert h3
      ssimp
      grind
    have hm2 := hmem r' a' hr hm
    have hy := ho a' i' sq' hm2.1 (Or.inl h4)
    clear h w inv ho hc hlt hmem
    revert h3 h5
    ssimp
    grind [OPc.counted, OPc.holds]
  case upd i r k sq a hpc ha =>
    unfold RankMoved at *
    intro t' r' m' mN' k' a' i' sq' h1 h2 h3 h4 h5
    have hx := h t' r' m' mN' k' a' i' sq'
    clear h w inv ho hc hlt hmem
    revert h1 h2 h3 h4 h5
    ssimp
    grind [OPc.counted]
  case wrNew i a hpc hl hf =>
    unfold RankMoved at *
    intro t' r' m' mN' k' a' i' sq' h1 h2 h3 h4 h5
    have hx := h t' r' m' mN' k' a' i' sq'
    have hr := hlt t' r' m' mN' h1
    clear h w inv ho hc hlt hmem
    revert h1 h2 h3 h4 h5
    ssimp
    grind [OPc.counted]
  case observe o a n =>
    unfold RankMoved at *
    intro t' r' m' mN' k' a' i' sq' h1 h2 h3 h4 h5
    have hx := h t' r' m' mN' k' a' i' sq'
    clear h w inv ho hc hlt hmem
    revert h1 h2 h3 h4 h5
    ssimp
    grind [OPc.counted]
  case initOld r l k h' hw hl hll hk hf =>
    have hlt2 := (List.getElem?_eq_some_iff.mp hl).1
    unfold RankMoved at *
    intro t' r' m' mN' k' a' i' sq' h1 h2 h3 h4 h5
    have hx := h t' r' m' mN' k' a' i' sq'
    have hfu := w.taskFull t' r'
    unfold numLeaves at hfu
    have hmm := hmem r' a'
    have hr := hlt t' r' m' mN' h1
    have hfr : 0 < (s.task t').moved → (s.task t').fullR = some r' := by
      have h1' : (s.task t').mods = some (r', m', mN') := h1
      revert h1'
      cases s.task t' <;> simp [TPc.mods, TPc.moved, TPc.fullR] <;> grind
    clear h w inv ho hc hlt hmem
    have h2' : 0 < (s.task t').moved := by have : k' < (s.task t').moved := h2; omega
    have h3 : (s.recs r').accs[k']? = some a' := by revert h3; ssimp; grind
    have hm := List.mem_of_getElem? h3
    revert h1 h2 h4 h5
    ssimp
    grind [OPc.counted]
  case initNew r l k hw hl hll hk hf =>
    have hlt2 := (List.getElem?_eq_some_iff.mp hl).1
    unfold RankMoved at *
    intro t' r' m' mN' k' a' i' sq' h1 h2 h3 h4 h5
    have hx := h t' r' m' mN' k' a' i' sq'
    have hfu := w.taskFull t' r'
    unfold numLeaves at hfu
    have hmm := hmem r' a'
    have hr := hlt t' r' m' mN' h1
    have hfr : 0 < (s.task t').moved → (s.task t').fullR = some r' := by
      have h1' : (s.task t').mods = some (r', m', mN') := h1
      revert h1'
      cases s.task t' <;> simp [TPc.mods, TPc.moved, TPc.fullR] <;> grind
    clear h w inv ho hc hlt hmem
    have h2' : 0 < (s.task t').moved := by have : k' < (s.task t').moved := h2; omega
    have h3 : (s.recs r').accs[k']? = some a' := by revert h3; ssimp; grind
    have hm := List.mem_of_getElem? h3
    revert h1 h2 h4 h5
    ssimp
    grind [OPc.counted]
  case mv t o td r m mN rel k a hpc ha hsl =>
    unfold RankMoved at *
    intro t' r' m' mN' k' a' i' sq' h1 h2 h3 h4 h5
    have hx := h t' r' m' mN' k' a' i' sq'
    clear h w inv ho hc hlt hmem
    revert h1 h2 h3 h4 h5
    ssimp
    grind [OPc.counted, TPc.mods, TPc.moved]
  all_goals first
   | exact h
   | (unfold RankMoved at *
      intro t' r' m' mN' k' a' i' sq' h1 h2 h3 h4 h5
      have hx := h t' r' m' mN' k' a' i' sq'
      clear h w inv ho hc hlt hmem
      revert h1 h2 h3 h4 h5
      ssimp
      grind [OPc.counted, TPc.mods, TPc.moved])

theorem RankGt.preserved (h : RankGt s) (hm : RankMoved s) (hc : CntOk c s) (ho : OpsRec s) (inv : Inv c s)
    (hs : Step c s s') : RankGt s' := by
  have w := inv.wf
  have fin : ∀ {t o td r m mN rel k}, s.task t = .mv o td r m mN rel k → (s.recs r).accs[k]? = none →
      ∀ a i sq, a < s.nextAcc → (s.acc a).rc = r → (i, sq) ∈ (s.acc a).cur.ops → (s.op i).pc.counted = true →
      mN < (s.op i).rank := by
    intro t o td r m mN rel k hpc ha a i sq h1 h2 h3 h4
    have h5 := (w.accRc a h1).2
    rw [h2] at h5
    obtain ⟨k', hk'⟩ := List.mem_iff_getElem?.mp h5
    have hlen := (List.getElem?_eq_some_iff.mp hk').1
    rw [List.getElem?_eq_none_iff] at ha
    exact hm t r m mN k' a i sq (by rw [hpc]; rfl) (by rw [hpc]; simp only [TPc.moved]; omega) hk' h3 h4
  cases hs
  case cnt i r hpc =>
    unfold RankGt at *
    intro a' i' sq' h1 h2 h3
    have hx := h a' i' sq' h1 h2
    have hy := ho a' i' sq' h1 (Or.inl h2)
    have hr := hc (s.acc a').rc (w.accRc a' h1).1
    clear h w inv ho hm hc fin
    revert h3
    ssimp
    grind [OPc.counted, OPc.holds]
  case finKeep t o td r m mN k hpc ha =>
    intro a' i' sq' h1 h2 h3
    have hx := h a' i' sq' h1 h2 h3
    have hy := fun e => fin hpc ha a' i' sq' h1 e h2 h3
    clear h w inv ho hm hc fin
    ssimp
    grind
  case finRel t o td r m mN k hpc ha =>
    intro a' i' sq' h1 h2 h3
    have hx := h a' i' sq' h1 h2 h3
    have hy := fun e => fin hpc ha a' i' sq' h1 e h2 h3
    clear h w inv ho hm hc fin
    ssimp
    grind
  case upd i r k sq a hpc ha =>
    unfold RankGt at *
    intro a' i' sq' h1 h2 h3
    have hx := h a' i' sq' h1
    clear h w inv ho hm hc fin
    revert h2 h3
    ssimp
    grind [OPc.counted]
  case wrNew i a hpc hl hf =>
    unfold RankGt at *
    intro a' i' sq' h1 h2 h3
    have hx := h a' i' sq' h1
    have hr := (w.accRc a' h1).1
    clear h w inv ho hm hc fin
    revert h2 h3
    ssimp
    grind [OPc.counted]
  case observe o a n =>
    unfold RankGt at *
    intro a' i' sq' h1 h2 h3
    have hx := h a' i' sq' h1
    clear h w inv ho hm hc fin
    revert h2 h3
    ssimp
    grind [OPc.counted]
  all_goals first
   | exact h
   | (unfold RankGt at *
      intro a' i' sq' h1 h2 h3
      have hx := h a' i' sq'
      clear h w inv ho hm hc fin
      revert h1 h2 h3
      ssimp
      grind [OPc.counted])

structure Rank (c : Cfg AL KS N S) (s : State AL KS N S) : Prop where
  opsRec : OpsRec s
  cntOk : CntOk c s
  cntT : CntT c s
  rankLe : RankLe s
  rankMoved : RankMoved s
  rankGt : RankGt s

theorem Rank.preserved (h : Rank c s) (inv : Inv c s) (hs : Step c s s') : Rank c s' where
  opsRec := h.opsRec.preserved inv hs
  cntOk := h.cntOk.preserved h.cntT inv hs
  cntT := h.cntT.preserved h.cntOk inv hs
  rankLe := h.rankLe.preserved h.opsRec inv hs
  rankMoved := h.rankMoved.preserved h.opsRec h.cntT inv hs
  rankGt := h.rankGt.preserved h.rankMoved h.cntOk h.opsRec inv hs

theorem Rank.initial (n0 : N) : Rank c (Sync.initial c n0) := by
  constructor <;>
  simp [OpsRec, CntOk, CntT, RankLe, RankMoved, RankGt, Sync.initial, TPc.mods]

end
end Verif.Sync
