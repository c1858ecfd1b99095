import Verif.Proof.SyncCalls
import Verif.Proof.SyncIdle

/-!
Helper file: as long as there is room for all attribute lists and sets in use, nothing goes to an overflow series.
-/

namespace Verif.Sync
open Verif
variable {AL KS N S : Type} [DecidableEq KS]

/-- Fewer attribute lists than the instrument limit, and fewer sets than the view limit, for view `l`. `A o` lists the attribute lists used with
instrument `o`, `B` the sets the view makes of them. -/
structure Room (c : Cfg AL KS N S) (l : Nat) (A : Nat → List AL) (B : List KS) : Prop where
  insts : ∀ o, l ∈ c.leavesOf o → (A o).length < c.limit
  view : B.length < c.lim l
  sets : ∀ o a, l ∈ c.leavesOf o → a ∈ A o → c.filt l (c.newSet a) ∈ B
  refl : ∀ o a, l ∈ c.leavesOf o → a ∈ A o → c.eqv a a = true

/-- Calls on instruments feeding view `l` use the listed attribute lists. -/
def UsesOnly (c : Cfg AL KS N S) (l : Nat) (A : Nat → List AL) (s : State AL KS N S) : Prop :=
  ∀ i, i < s.nextOp → l ∈ c.leavesOf (s.op i).obs → (s.op i).attrs ∈ A (s.op i).obs

def RWr (c : Cfg AL KS N S) (l : Nat) (s : State AL KS N S) : Prop :=
  ∀ i a, l ∈ c.leavesOf (s.op i).obs → (s.op i).pc = .wr a → a = (s.op i).attrs

def RRecs (c : Cfg AL KS N S) (l : Nat) (A : Nat → List AL) (s : State AL KS N S) : Prop :=
  ∀ r, r < s.nextRec → l ∈ c.leavesOf (s.recs r).obs → (s.recs r).attrs ∈ A (s.recs r).obs

def RData (l : Nat) (B : List KS) (s : State AL KS N S) : Prop := ∀ k h, (k, h) ∈ s.data l → k ∈ B

def RHold (c : Cfg AL KS N S) (l : Nat) (s : State AL KS N S) : Prop :=
  ∀ i r, l ∈ c.leavesOf (s.op i).obs → (s.op i).pc.holds r = true → AttrSame c (s.op i).attrs (s.recs r).attrs

def RAcc (c : Cfg AL KS N S) (l : Nat) (s : State AL KS N S) : Prop :=
  ∀ a, a < s.nextAcc → (s.acc a).leaf = l → (s.acc a).key = c.filt l (c.newSet (s.recs (s.acc a).rc).attrs)

def RApp (c : Cfg AL KS N S) (l : Nat) (s : State AL KS N S) : Prop :=
  ∀ k i sq, (l, k, i, sq) ∈ s.applied → ∃ b, AttrSame c (s.op i).attrs b ∧ k = c.filt l (c.newSet b)

section
variable {c : Cfg AL KS N S} {s s' : State AL KS N S} {l : Nat} {A : Nat → List AL} {B : List KS}
set_option maxHeartbeats 1000000

/-- A list the table does not have leaves room for one more. -/
theorem table_room (hA : Room c l A B) (hr : RRecs c l A s) (w : Wf c s) {o : Nat} {a : AL} (ho : l ∈ c.leavesOf o) (ha : a ∈ A o)
    (hf : findRead c s o a = none) : tableLen c s o < c.limit - 1 := by
  have hn := findRead_none hf
  have hne : ∀ r, r ∈ s.table o → (s.recs r).attrs ∈ A o ∧ (s.recs r).attrs ≠ a := by
    intro r hr'
    have h1 := w.tblLt o r hr'
    refine ⟨?_, ?_⟩
    · have := hr r h1.1 (by rw [h1.2]; exact ho)
      rw [h1.2] at this
      exact this
    · intro e
      refine hn r hr' ⟨by rw [e], .inr ?_⟩
      rw [e]
      exact hA.refl o a ho ha
  have hlen : tableLen c s o ≤ (((A o).filter (fun b => @decide (b ≠ a) (Classical.propDecidable _))).map c.fp).length := by
    unfold tableLen
    refine distinct_le ?_
    intro x hx
    obtain ⟨r, h1, h2⟩ := List.mem_map.1 hx
    rw [List.mem_map]
    refine ⟨(s.recs r).attrs, ?_, h2⟩
    rw [List.mem_filter]
    exact ⟨(hne r h1).1, by simpa using (hne r h1).2⟩
  rw [List.length_map] at hlen
  have hlt : ((A o).filter (fun b => @decide (b ≠ a) (Classical.propDecidable _))).length < (A o).length := by
    refine Nat.lt_of_le_of_ne (List.length_filter_le _ _) ?_
    intro e
    have := List.length_filter_eq_length_iff.1 e a ha
    simp at this
  have := hA.insts o ho
  omega

/-- The series used for a set is its own. -/
theorem own_key (hA : Room c l A B) (hd : RData l B s) (w : Wf c s) {k : KS} (hk : k ∈ B) :
    Storage.resolveKey (c.lim l) c.overflowKS (s.data l) k = k := by
  unfold Storage.resolveKey
  split
  · rfl
  · rename_i hh
    have hnot : ∀ x, x ∈ (s.data l).map (·.1) → x ∈ B.filter (fun b => !(b == k)) := by
      intro x hx
      obtain ⟨e, h1, h2⟩ := List.mem_map.1 hx
      rw [List.mem_filter]
      refine ⟨by rw [← h2]; exact hd e.1 e.2 h1, ?_⟩
      simp only [Bool.not_eq_true', beq_eq_false_iff_ne, ne_eq]
      intro e'
      refine hh (has_iff.2 ⟨e.2, ?_⟩)
      rw [← e', ← h2]
      exact h1
    have h1 := (w.dataKeys l).length_le_of_subset hnot
    rw [List.length_map] at h1
    have h2 : (B.filter (fun b => !(b == k))).length < B.length := by
      refine Nat.lt_of_le_of_ne (List.length_filter_le _ _) ?_
      intro e
      have := List.length_filter_eq_length_iff.1 e k hk
      simp at this
    have := hA.view
    rw [if_neg (by omega), if_neg (by omega)]

theorem RWr.preserved (h : RWr c l s) (hA : Room c l A B) (hu : UsesOnly c l A s) (hr : RRecs c l A s) (hw : OpWr c s) (w : Wf c s)
    (hs : Step c s s') : RWr c l s' := by
  cases hs
  case rdMiss i a a' hpc hl hm =>
    intro i' x hx hp
    by_cases e : i' = i
    · subst e
      simp only [setOpPc, upd_same] at hx hp ⊢
      have ha := hw.1 i' a hpc
      have hlt : i' < s.nextOp := op_lt w.opIdle (by rw [hpc]; simp)
      have hmem := hu i' hlt hx
      rw [← ha] at hmem
      have hroom := table_room hA hr w hx hmem hm.1
      cases hp
      rcases hm.2 with h1 | h1
      · rw [h1.1, ha]
      · omega
    · have h0 := h i' x
      simp_all [setOpPc]
  all_goals first
   | exact h
   | (intro i' x
      have h0 := h i' x
      clear h hw w hu hr hA
      revert h0
      ssimp
      grind)

theorem RRecs.preserved (h : RRecs c l A s) (hwr : RWr c l s) (hu : UsesOnly c l A s) (w : Wf c s)
    (hs : Step c s s') : RRecs c l A s' := by
  cases hs
  case wrNew i a hpc hl hf =>
    intro r hr hx
    by_cases e : r = s.nextRec
    · subst e
      simp only [setOpPc, upd_same, newRec] at hx ⊢
      have hlt : i < s.nextOp := op_lt w.opIdle (by rw [hpc]; simp)
      rw [hwr i a hx hpc]
      exact hu i hlt hx
    · have h0 := h r (by simp only [setOpPc] at hr; omega)
      simp_all [setOpPc]
  all_goals first
   | exact h
   | (intro r
      have h0 := h r
      clear h hwr w hu
      revert h0
      ssimp
      grind)

theorem RData.preserved (h : RData l B s) (hA : Room c l A B) (hr : RRecs c l A s) (w : Wf c s) (hs : Step c s s') : RData l B s' := by
  cases hs
  case initNew r l' k hw2 hl hll hk hf =>
    intro k' h' hm
    by_cases e : l = l'
    · subst e
      simp only [initNew, upd_same] at hm
      rcases List.mem_cons.1 hm with hm | hm
      · cases hm
        have hlt : r < s.nextRec := by
          rcases hw2 with ⟨i, hi⟩ | ⟨t, o, td, m, mN, rel, ht⟩
          · exact (w.opRec i r (by rw [hi]; simp [OPc.holds])).1
          · have := (w.todoMem t o (by rw [ht]; rfl)).2 r (by rw [ht]; rfl)
            exact (w.tblLt o r this.1).1
        have hx := List.mem_of_getElem? hl
        have := hA.sets _ _ hx (hr r hlt hx)
        rw [hk, own_key hA h w this]
        exact this
      · exact h _ _ hm
    · simp only [initNew, upd_apply, if_neg e] at hm
      exact h _ _ hm
  case lmvDel t l' td k hh hpc' hcc =>
    intro k' h' hm
    by_cases e : l = l'
    · subst e
      simp only [setTask, setHold, upd_same, Storage.delete] at hm
      exact h _ _ (List.mem_filter.1 hm).1
    · simp only [setTask, setHold, upd_apply, if_neg e] at hm
      exact h _ _ hm
  all_goals exact h

theorem RHold.preserved (h : RHold c l s) (hA : Room c l A B) (hu : UsesOnly c l A s) (hr : RRecs c l A s) (hwr : RWr c l s) (hw : OpWr c s)
    (inv : Inv c s) (hs : Step c s s') : RHold c l s' := by
  have w := inv.wf
  cases hs
  case rdHit i a a' r hpc hl hr' ha hm =>
    have h1 := hw.1 i a hpc
    intro i' r' hx hh
    have h0 := h i' r'
    by_cases e : i' = i
    · subst e
      have : r' = r := by simp [setOpPc, OPc.holds] at hh; exact hh.symm
      subst this
      have hs1 : AttrSame c a' (s.recs r').attrs := by
        unfold matchRead at hm; unfold AttrSame; grind
      simp only [setOpPc, setRec, upd_same] at hx ⊢
      rcases ha with ha | ha
      · rw [← h1, ← ha]; exact hs1
      · have hlt : i' < s.nextOp := op_lt w.opIdle (by rw [hpc]; simp)
        have hmem := hu i' hlt hx
        rw [← h1] at hmem
        have hroom := table_room hA hr w hx hmem ha.2.1
        omega
    · by_cases e2 : r' = r
      · subst e2; simp_all [setOpPc, setRec]
      · simp_all [setOpPc, setRec]
  case wrHit i a r hpc hl hr' hm =>
    intro i' r' hx hh
    have h0 := h i' r'
    by_cases e : i' = i
    · subst e
      have : r' = r := by simp [setOpPc, OPc.holds] at hh; exact hh.symm
      subst this
      have hs1 : AttrSame c a (s.recs r').attrs := by
        unfold matchWrite at hm; unfold AttrSame; grind
      simp only [setOpPc, setRec, upd_same] at hx ⊢
      rw [← hwr i' a hx hpc]
      exact hs1
    · by_cases e2 : r' = r
      · subst e2; simp_all [setOpPc, setRec]
      · simp_all [setOpPc, setRec]
  case wrNew i a hpc hl hf =>
    intro i' r' hx hh
    have h0 := h i' r'
    by_cases e : i' = i
    · subst e
      have : r' = s.nextRec := by simp [setOpPc, OPc.holds] at hh; exact hh.symm
      subst this
      simp only [setOpPc, upd_same, newRec] at hx ⊢
      left
      exact (hwr i' a hx hpc).symm
    · have hh' : (s.op i').pc.holds r' = true := by simpa [setOpPc, e] using hh
      have hlt := (w.opRec i' r' hh').1
      have hne : r' ≠ s.nextRec := by omega
      have hx' : l ∈ c.leavesOf (s.op i').obs := by simpa [setOpPc, e] using hx
      simpa [setOpPc, e, hne] using h0 hx' hh'
  case observe o a n =>
    intro i' r' hx hh
    have h0 := h i' r'
    by_cases e : i' = s.nextOp
    · subst e; simp [OPc.holds] at hh
    · simp_all
  case initOld r l k h' hw2 hl hll hk hf =>
    intro i' r' hx hh
    have h0 := h i' r' hx hh
    by_cases e : r' = r
    · subst e; simpa [initOld] using h0
    · simpa [initOld, e] using h0
  case initNew r l k hw2 hl hll hk hf =>
    intro i' r' hx hh
    have h0 := h i' r' hx hh
    by_cases e : r' = r
    · subst e; simpa [initNew] using h0
    · simpa [initNew, e] using h0
  all_goals first
   | exact h
   | (intro i' r' hx hh
      have h0 := h i' r'
      clear h hw inv w hu hr hA hwr
      revert h0 hh hx
      ssimp
      grind [OPc.holds])

theorem init_lt (w : Wf c s) {r : Nat} (hw2 : (∃ i, (s.op i).pc = .ini r) ∨ (∃ t o td m mN rel, s.task t = .ini o td r m mN rel)) : r < s.nextRec := by
  rcases hw2 with ⟨i, hi⟩ | ⟨t, o, td, m, mN, rel, ht⟩
  · exact (w.opRec i r (by rw [hi]; simp [OPc.holds])).1
  · have := (w.todoMem t o (by rw [ht]; rfl)).2 r (by rw [ht]; rfl)
    exact (w.tblLt o r this.1).1

theorem RAcc.preserved (h : RAcc c l s) (hA : Room c l A B) (hd : RData l B s) (hr : RRecs c l A s) (inv : Inv c s) (hs : Step c s s') :
    RAcc c l s' := by
  have w := inv.wf
  cases hs
  case wrNew i a hpc hl hf =>
    intro a' ha' hx
    have h0 := h a' ha' hx
    have := (w.accRc a' ha').1
    have hne : (s.acc a').rc ≠ s.nextRec := by omega
    simpa [setOpPc, hne] using h0
  case initOld r l' k h' hw2 hl hll hk hf =>
    intro a' ha' hx
    by_cases e : a' = s.nextAcc
    · subst e
      simp only [initOld, upd_same] at hx ⊢
      subst hx
      have hx := List.mem_of_getElem? hl
      rw [hk]
      exact own_key hA hd w (hA.sets _ _ hx (hr r (init_lt w hw2) hx))
    · have hlt : a' < s.nextAcc := by simp only [initOld] at ha'; omega
      have h0 := h a' hlt
      by_cases e2 : (s.acc a').rc = r <;> simp_all [initOld]
  case initNew r l' k hw2 hl hll hk hf =>
    intro a' ha' hx
    by_cases e : a' = s.nextAcc
    · subst e
      simp only [initNew, upd_same] at hx ⊢
      subst hx
      have hx := List.mem_of_getElem? hl
      rw [hk]
      exact own_key hA hd w (hA.sets _ _ hx (hr r (init_lt w hw2) hx))
    · have hlt : a' < s.nextAcc := by simp only [initNew] at ha'; omega
      have h0 := h a' hlt
      by_cases e2 : (s.acc a').rc = r <;> simp_all [initNew]
  all_goals first
   | exact h
   | (intro a' ha'
      have h0 := h a' ha'
      clear h inv w hd hr hA
      revert h0
      ssimp
      grind)

theorem RApp.preserved (h : RApp c l s) (hp : Prog c s) (ha : RHold c l s) (hk : RAcc c l s) (inv : Inv c s)
    (hs : Step c s s') : RApp c l s' := by
  have w := inv.wf
  cases hs
  case upd i r k sq a hpc haa =>
    have hh : (s.op i).pc.holds r = true := by rw [hpc]; simp [OPc.holds]
    have hl := upd_live w inv.ref inv.relPos hh haa
    have h2 := hk a hl.2.1
    rw [hl.2.2.1] at h2
    intro k' i' sq' hm
    have h0 := h k' i' sq'
    have hop : ((upd s.op i { s.op i with pc := .fetch r (k+1) }) i').attrs = (s.op i').attrs := by
      by_cases e : i' = i
      · subst e; simp
      · simp [e]
    simp only [setOpPc, setAcc, List.mem_cons, Prod.mk.injEq] at hm ⊢
    rw [hop]
    rcases hm with ⟨e1, e2, e3, e4⟩ | hm
    · subst e2; subst e3
      have hrec := w.opRec i' r hh
      have hleaf := w.accsLeaf r k a hrec.1 haa
      have hx : l ∈ c.leavesOf (s.op i').obs := by
        rw [← hrec.2, e1]
        exact List.mem_of_getElem? hleaf
      exact ⟨_, ha i' r hx hh, h2 e1.symm⟩
    · exact h0 hm
  case observe o a n =>
    intro k' i' sq' hm
    have h0 := h k' i' sq' hm
    have hlt := applied_lt hp w hm
    have hne : i' ≠ s.nextOp := by omega
    simpa [hne] using h0
  all_goals first
   | exact h
   | (intro k' i' sq' hm
      have h0 := h k' i' sq' hm
      clear h hp ha hk inv w
      revert h0
      ssimp
      intro h0
      split
      · rename_i e; subst e; exact h0
      · exact h0)

/-- Points have listed sets. -/
def REmit (l : Nat) (B : List KS) (s : State AL KS N S) : Prop := ∀ e, e ∈ s.emits → e.leaf = l → e.key ∈ B

theorem REmit.preserved (h : REmit l B s) (hd : RData l B s) (w : Wf c s) (hs : Step c s s') : REmit l B s' := by
  cases hs
  case lscanCum t l' td k hh hpc' hr hdl =>
    intro e he hl
    rcases List.mem_cons.1 he with he | he
    · rw [he] at hl ⊢
      have hm := (w.lTodo t l' (by rw [hpc']; rfl)).2 (k, hh) (by rw [hpc']; exact hr)
      have hl' : l' = l := hl
      rw [hl'] at hm
      exact hd _ _ hm
    · exact h e he hl
  case lmvKeep t l' td k hh nr hpc' hcc =>
    intro e he hl
    rcases List.mem_cons.1 he with he | he
    · rw [he] at hl ⊢
      have hm := (w.lCur t l' td k hh nr hpc').1
      have hl' : l' = l := hl
      rw [hl'] at hm
      exact hd _ _ hm
    · exact h e he hl
  case lmvDel t l' td k hh hpc' hcc =>
    intro e he hl
    rcases List.mem_cons.1 he with he | he
    · rw [he] at hl ⊢
      have hm := (w.lCur t l' td k hh 0 hpc').1
      have hl' : l' = l := hl
      rw [hl'] at hm
      exact hd _ _ hm
    · exact h e he hl
  all_goals exact h

/-- All of it. -/
structure RoomInv (c : Cfg AL KS N S) (l : Nat) (A : Nat → List AL) (B : List KS) (s : State AL KS N S) : Prop where
  uses : UsesOnly c l A s
  wr : RWr c l s
  recs : RRecs c l A s
  data : RData l B s
  hold : RHold c l s
  acc : RAcc c l s
  app : RApp c l s
  emit : REmit l B s

theorem RoomInv.preserved (h : RoomInv c l A B s) (hA : Room c l A B) (inv : Inv c s) (p : Prog2 c s) (hs : Step c s s')
    (hnew : UsesOnly c l A s') : RoomInv c l A B s' where
  uses := hnew
  wr := h.wr.preserved hA h.uses h.recs p.opWr inv.wf hs
  recs := h.recs.preserved h.wr h.uses inv.wf hs
  data := h.data.preserved hA h.recs inv.wf hs
  hold := h.hold.preserved hA h.uses h.recs h.wr p.opWr inv hs
  acc := h.acc.preserved hA h.data h.recs inv hs
  app := h.app.preserved p.prog h.hold h.acc inv hs
  emit := h.emit.preserved h.data inv.wf hs

theorem RoomInv.initial (n0 : N) : RoomInv c l A B (Sync.initial c n0) where
  uses := by intro i hi; exact absurd hi (Nat.not_lt_zero _)
  wr := by intro i a _ h; simp [Sync.initial] at h
  recs := by intro r h; exact absurd h (Nat.not_lt_zero _)
  data := by intro k h hm; cases hm
  hold := by intro i r _ h; simp [Sync.initial, OPc.holds] at h
  acc := by intro a h; exact absurd h (Nat.not_lt_zero _)
  app := by intro k i sq hm; cases hm
  emit := by intro e he; cases he

theorem nextOp_le (hs : Step c s s') : s.nextOp ≤ s'.nextOp := by
  cases hs
  case observe o a n => exact Nat.le_succ _
  all_goals exact Nat.le_refl _

theorem UsesOnly.back (h : UsesOnly c l A s') (hs : Step c s s') : UsesOnly c l A s := by
  intro i hi hl
  have h1 := op_static hs i hi
  have := h i (Nat.lt_of_lt_of_le hi (nextOp_le hs)) (by rw [h1.1]; exact hl)
  rw [h1.1, h1.2.1] at this
  exact this

theorem reachable_room {n0 : N} (hA : Room c l A B) (hr : Reachable c n0 s) (hu : UsesOnly c l A s) : RoomInv c l A B s :=
  (reachable_ind (P := fun s => Prog2 c s ∧ (UsesOnly c l A s → RoomInv c l A B s)) ⟨Prog2.initial n0, fun _ => RoomInv.initial n0⟩
    (fun _ _ hi hp hs => ⟨hp.1.preserved hi hs, fun h => (hp.2 (h.back hs)).preserved hA hi hp.1 hs h⟩) hr).2.2 hu

/-- The series of a measurement is its own. -/
theorem room_key {n0 : N} (hA : Room c l A B) (hr : Reachable c n0 s) (hu : UsesOnly c l A s) (hic : c.ignoreColl = false)
    (hsafe : ∀ a b, c.eqv a b = true → c.newSet a = c.newSet b) {k : KS} {i sq : Nat} (h : (l, k, i, sq) ∈ s.applied) :
    k = c.filt l (c.newSet (s.op i).attrs) := by
  obtain ⟨b, hb, hk⟩ := (reachable_room hA hr hu).app k i sq h
  have : c.newSet b = c.newSet (s.op i).attrs := by
    rcases hb with hb | ⟨_, hb | hb | hb⟩
    · rw [hb]
    · rw [hic] at hb; cases hb
    · exact (hsafe _ _ hb).symm
    · exact hsafe _ _ hb
  rw [hk, this]

end

end Verif.Sync
