import Verif.Proof.SyncCons

/-!
Helper file: progress of a measurement call through its views, sequence numbers, attribution.
-/

namespace Verif.Sync
open Verif
variable {AL KS N S : Type} [DecidableEq KS]

/-- The views a call has updated so far. -/
def progOf (c : Cfg AL KS N S) (x : Op AL N) : List Nat :=
  match x.pc with
  | .idle => []
  | .rd _ => []
  | .wr _ => []
  | .ini _ => []
  | .fetch _ k => (c.leavesOf x.obs).take k
  | .upd _ k _ => (c.leavesOf x.obs).take k
  | .cnt _ => c.leavesOf x.obs
  | .unref _ => c.leavesOf x.obs
  | .done => c.leavesOf x.obs

def Prog (c : Cfg AL KS N S) (s : State AL KS N S) : Prop :=
  ∀ i l, s.applied.countP (fun e => e.1 == l && e.2.2.1 == i) = (progOf c (s.op i)).count l

/-- Sequence numbers in use are not larger than the last one drawn. -/
def SeqLe (s : State AL KS N S) : Prop :=
  (∀ e, e ∈ s.applied → e.2.2.2 ≤ s.seq) ∧ (∀ i r k sq, (s.op i).pc = .upd r k sq → sq ≤ s.seq)

/-- Sequence numbers are drawn once. -/
def SeqNew (s : State AL KS N S) : Prop :=
  (∀ i r k sq, (s.op i).pc = .upd r k sq → ∀ e, e ∈ s.applied → e.2.2.2 ≠ sq) ∧
  (∀ i r k i' r' k' sq, (s.op i).pc = .upd r k sq → (s.op i').pc = .upd r' k' sq → i = i')

def SeqUniq (s : State AL KS N S) : Prop := (s.applied.map (·.2.2.2)).Nodup

/-- Attribute lists the lookup treats as the same. -/
def AttrSame (c : Cfg AL KS N S) (a b : AL) : Prop :=
  a = b ∨ (c.fp b = c.fp a ∧ (c.ignoreColl = true ∨ c.eqv a b = true ∨ c.eqv b a = true))

def OpWr (c : Cfg AL KS N S) (s : State AL KS N S) : Prop :=
  (∀ i a, (s.op i).pc = .rd a → a = (s.op i).attrs) ∧
  (∀ i a, (s.op i).pc = .wr a → a = (s.op i).attrs ∨ a = c.overflowAL)

def HoldAttr (c : Cfg AL KS N S) (s : State AL KS N S) : Prop :=
  ∀ i r, (s.op i).pc.holds r = true →
    AttrSame c (s.op i).attrs (s.recs r).attrs ∨ AttrSame c c.overflowAL (s.recs r).attrs

def AccKey (c : Cfg AL KS N S) (s : State AL KS N S) : Prop :=
  ∀ a, a < s.nextAcc → (s.acc a).key = c.filt (s.acc a).leaf (c.newSet (s.recs (s.acc a).rc).attrs) ∨
    (s.acc a).key = c.overflowKS

def AppliedKey (c : Cfg AL KS N S) (s : State AL KS N S) : Prop :=
  ∀ l k i sq, (l, k, i, sq) ∈ s.applied → k = c.overflowKS ∨
    ∃ b, (AttrSame c (s.op i).attrs b ∨ AttrSame c c.overflowAL b) ∧ k = c.filt l (c.newSet b)

section
variable {c : Cfg AL KS N S} {s s' : State AL KS N S}
set_option maxHeartbeats 1000000

theorem Prog.preserved (h : Prog c s) (inv : Inv c s) (hs : Step c s s') : Prog c s' := by
  have w := inv.wf
  cases hs
  case upd i r k sq a hpc ha =>
    have hh : (s.op i).pc.holds r = true := by rw [hpc]; simp [OPc.holds]
    have h1 := w.opRec i r hh
    have h2 := w.accsLeaf r k a h1.1 ha
    rw [h1.2] at h2
    intro i' l
    have h0 := h i' l
    simp only [setOpPc, setAcc, List.countP_cons, h0]
    by_cases e : i' = i
    · subst e
      simp only [upd_same, progOf, hpc, beq_self_eq_true, Bool.and_true, List.take_add_one, h2, Option.toList_some,
        List.count_append, List.count_singleton]
    · have : (i == i') = false := by simpa using fun h => e h.symm
      simp [e, this, progOf]
  case fetchEnd i r k hpc hk =>
    have hh : (s.op i).pc.holds r = true := by rw [hpc]; simp [OPc.holds]
    have h1 := w.opRec i r hh
    have h2 := w.opFull i r (by rw [hpc]; simp [OPc.past])
    intro i' l
    have h0 := h i' l
    by_cases e : i' = i
    · subst e
      simp only [progOf, hpc] at h0
      rw [List.take_of_length_le (by simp only [numLeaves, h1.2] at h2; omega)] at h0
      simpa [setOpPc, progOf] using h0
    · simpa [setOpPc, e] using h0
  case observe o a n =>
    intro i' l
    have h0 := h i' l
    by_cases e : i' = s.nextOp
    · subst e
      rw [show progOf c (s.op s.nextOp) = [] by simp [progOf, w.opIdle s.nextOp (Nat.le_refl _)]] at h0
      simpa [progOf] using h0
    · simpa [e] using h0
  all_goals first
   | exact h
   | (intro i' l
      have h0 := h i' l
      clear h inv w
      revert h0
      ssimp
      intro h0
      split
      · rename_i e
        subst e
        rw [h0]
        simp_all [progOf]
      · exact h0)

theorem SeqLe.preserved (h : SeqLe s) (hs : Step c s s') : SeqLe s' := by
  cases hs
  all_goals first
   | exact h
   | (obtain ⟨h1, h2⟩ := h
      unfold SeqLe
      refine ⟨?_, ?_⟩
      · intro e he
        have := h1 e
        clear h1
        revert he
        ssimp
        grind
      · intro i' r' k' sq'
        have := h2 i' r' k' sq'
        ssimp
        grind)

theorem SeqNew.preserved (h : SeqNew s) (hl : SeqLe s) (hs : Step c s s') : SeqNew s' := by
  have hl1 := hl.1
  have hl2 := hl.2
  clear hl
  cases hs
  case fetch i r k hpc hk =>
    refine ⟨?_, ?_⟩
    · intro i' r' k' sq' hp e he
      have h1 : (s.op i').pc = OPc.upd r' k' sq' → e.2.2.2 ≠ sq' := fun x => h.1 i' r' k' sq' x e he
      have h2 := hl1 e he
      clear h he
      revert hp
      ssimp
      grind
    · intro i' r' k' i2 r2 k2 sq' hp hp2
      have h1 := h.2 i' r' k' i2 r2 k2 sq'
      have h3 := hl2 i' r' k' sq'
      have h4 := hl2 i2 r2 k2 sq'
      revert hp hp2
      ssimp
      grind
  case upd i r k sq a hpc ha =>
    refine ⟨?_, ?_⟩
    · intro i' r' k' sq' hp e he
      have h1 := h.1 i' r' k' sq'
      have h2 := h.2 i r k i' r' k' sq
      revert hp he
      ssimp
      grind
    · intro i' r' k' i2 r2 k2 sq' hp hp2
      have h1 := h.2 i' r' k' i2 r2 k2 sq'
      revert hp hp2
      ssimp
      grind
  all_goals first
   | exact h
   | (clear hl1 hl2
      refine ⟨?_, ?_⟩
      · intro i' r' k' sq' hp e he
        have h1 := h.1 i' r' k' sq'
        revert hp
        revert he
        ssimp
        grind
      · intro i' r' k' i2 r2 k2 sq' hp hp2
        have h1 := h.2 i' r' k' i2 r2 k2 sq'
        revert hp hp2
        ssimp
        grind)

theorem SeqUniq.preserved (h : SeqUniq s) (hn : SeqNew s) (hs : Step c s s') : SeqUniq s' := by
  cases hs
  case upd i r k sq a hpc ha =>
    have h1 := hn.1 i r k sq hpc
    unfold SeqUniq at *
    simp only [setOpPc, List.map_cons, List.nodup_cons]
    refine ⟨?_, h⟩
    intro hm
    obtain ⟨e, he, heq⟩ := List.mem_map.mp hm
    exact h1 e he heq
  all_goals exact h

theorem OpWr.preserved (h : OpWr c s) (hs : Step c s s') : OpWr c s' := by
  cases hs
  case rdMiss i a a' hpc hl hm =>
    have h1 := h.1 i a hpc
    unfold readMiss at hm
    refine ⟨?_, ?_⟩
    · intro i' x hx
      have := h.1 i' x
      revert hx
      ssimp
      grind
    · intro i' x hx
      have := h.2 i' x
      revert hx
      ssimp
      grind
  all_goals first
   | exact h
   | (refine ⟨?_, ?_⟩
      · intro i' x hx
        have := h.1 i' x
        revert hx
        ssimp
        grind
      · intro i' x hx
        have := h.2 i' x
        revert hx
        ssimp
        grind)

theorem HoldAttr.preserved (h : HoldAttr c s) (hw : OpWr c s) (inv : Inv c s) (hs : Step c s s') : HoldAttr c s' := by
  have w := inv.wf
  cases hs
  case rdHit i a a' r hpc hl hr ha hm =>
    have h1 := hw.1 i a hpc
    intro i' r' hh
    have h0 := h i' r'
    by_cases e : i' = i
    · subst e
      have : r' = r := by simp [setOpPc, OPc.holds] at hh; exact hh.symm
      subst this
      have hs1 : AttrSame c a' (s.recs r').attrs := by
        unfold matchRead at hm; unfold AttrSame; grind
      simp only [setOpPc, setRec, upd_same]
      rcases ha with ha | ha
      · left; rw [← h1, ← ha]; exact hs1
      · right; rw [← ha.1]; exact hs1
    · by_cases e2 : r' = r
      · subst e2; simp_all [setOpPc, setRec]
      · simp_all [setOpPc, setRec]
  case wrHit i a r hpc hl hr hm =>
    have h1 := hw.2 i a hpc
    intro i' r' hh
    have h0 := h i' r'
    by_cases e : i' = i
    · subst e
      have : r' = r := by simp [setOpPc, OPc.holds] at hh; exact hh.symm
      subst this
      have hs1 : AttrSame c a (s.recs r').attrs := by
        unfold matchWrite at hm; unfold AttrSame; grind
      simp only [setOpPc, setRec, upd_same]
      rcases h1 with ha | ha
      · left; rw [← ha]; exact hs1
      · right; rw [← ha]; exact hs1
    · by_cases e2 : r' = r
      · subst e2; simp_all [setOpPc, setRec]
      · simp_all [setOpPc, setRec]
  case wrNew i a hpc hl hf =>
    have h1 := hw.2 i a hpc
    intro i' r' hh
    have h0 := h i' r'
    by_cases e : i' = i
    · subst e
      have : r' = s.nextRec := by simp [setOpPc, OPc.holds] at hh; exact hh.symm
      subst this
      simp only [setOpPc, upd_same, newRec]
      rcases h1 with ha | ha
      · left; left; exact ha.symm
      · right; left; exact ha.symm
    · have hh' : (s.op i').pc.holds r' = true := by simpa [setOpPc, e] using hh
      have hlt := (w.opRec i' r' hh').1
      have hne : r' ≠ s.nextRec := by omega
      simpa [setOpPc, e, hne] using h0 hh'
  case observe o a n =>
    intro i' r' hh
    have h0 := h i' r'
    by_cases e : i' = s.nextOp
    · subst e; simp [OPc.holds] at hh
    · simp_all
  case initOld r l k h' hw2 hl hll hk hf =>
    intro i' r' hh
    have h0 := h i' r' hh
    by_cases e : r' = r
    · subst e; simpa [initOld] using h0
    · simpa [initOld, e] using h0
  case initNew r l k hw2 hl hll hk hf =>
    intro i' r' hh
    have h0 := h i' r' hh
    by_cases e : r' = r
    · subst e; simpa [initNew] using h0
    · simpa [initNew, e] using h0
  all_goals first
   | exact h
   | (intro i' r' hh
      have h0 := h i' r'
      clear h hw inv w
      revert h0 hh
      ssimp
      grind [OPc.holds])

theorem AccKey.preserved (h : AccKey c s) (inv : Inv c s) (hs : Step c s s') : AccKey c s' := by
  have w := inv.wf
  cases hs
  case wrNew i a hpc hl hf =>
    intro a' ha'
    have h0 := h a' ha'
    have := (w.accRc a' ha').1
    have hne : (s.acc a').rc ≠ s.nextRec := by omega
    simpa [setOpPc, hne] using h0
  case initOld r l k h' hw2 hl hll hk hf =>
    intro a' ha'
    by_cases e : a' = s.nextAcc
    · subst e
      simp only [initOld, upd_same, hk, Storage.resolveKey]
      split <;> try (left; rfl)
      split
      · split
        · right; rfl
        · left; rfl
      · split
        · split
          · right; rfl
          · left; rfl
        · left; rfl
    · have hlt : a' < s.nextAcc := by simp only [initOld] at ha'; omega
      have h0 := h a' hlt
      by_cases e2 : (s.acc a').rc = r <;> simp_all [initOld]
  case initNew r l k hw2 hl hll hk hf =>
    intro a' ha'
    by_cases e : a' = s.nextAcc
    · subst e
      simp only [initNew, upd_same, hk, Storage.resolveKey]
      split <;> try (left; rfl)
      split
      · split
        · right; rfl
        · left; rfl
      · split
        · split
          · right; rfl
          · left; rfl
        · left; rfl
    · have hlt : a' < s.nextAcc := by simp only [initNew] at ha'; omega
      have h0 := h a' hlt
      by_cases e2 : (s.acc a').rc = r <;> simp_all [initNew]
  all_goals first
   | exact h
   | (intro a' ha'
      have h0 := h a' ha'
      clear h inv w
      revert h0
      ssimp
      grind)

theorem applied_lt (hp : Prog c s) (w : Wf c s) {l : Nat} {k : KS} {i sq : Nat} (h : (l, k, i, sq) ∈ s.applied) :
    i < s.nextOp := by
  by_cases hlt : i < s.nextOp
  · exact hlt
  · have h0 := hp i l
    rw [show progOf c (s.op i) = [] by simp [progOf, w.opIdle i (by omega)]] at h0
    simp only [List.count_nil, List.countP_eq_zero] at h0
    have := h0 _ h
    simp at this

theorem AppliedKey.preserved (h : AppliedKey c s) (hp : Prog c s) (ha : HoldAttr c s) (hk : AccKey c s) (inv : Inv c s)
    (hs : Step c s s') : AppliedKey c s' := by
  have w := inv.wf
  cases hs
  case upd i r k sq a hpc haa =>
    have hh : (s.op i).pc.holds r = true := by rw [hpc]; simp [OPc.holds]
    have hl := upd_live w inv.ref inv.relPos hh haa
    have h1 := ha i r hh
    have h2 := hk a hl.2.1
    rw [hl.2.2.1] at h2
    intro l' k' i' sq' hm
    have h0 := h l' k' i' sq'
    have hop : ((upd s.op i { s.op i with pc := .fetch r (k+1) }) i').attrs = (s.op i').attrs := by
      by_cases e : i' = i
      · subst e; simp
      · simp [e]
    simp only [setOpPc, setAcc, List.mem_cons, Prod.mk.injEq] at hm ⊢
    rw [hop]
    rcases hm with ⟨e1, e2, e3, e4⟩ | hm
    · subst e1; subst e2; subst e3
      rcases h2 with h2 | h2
      · right; exact ⟨_, h1, h2⟩
      · left; exact h2
    · exact h0 hm
  case observe o a n =>
    intro l' k' i' sq' hm
    have h0 := h l' k' i' sq' hm
    have hlt := applied_lt hp w hm
    have hne : i' ≠ s.nextOp := by omega
    simpa [hne] using h0
  all_goals first
   | exact h
   | (intro l' k' i' sq' hm
      have h0 := h l' k' i' sq' hm
      clear h hp ha hk inv w
      revert h0
      ssimp
      intro h0
      split
      · rename_i e; subst e; exact h0
      · exact h0)

/-- Everything proved in this file, for reachable states. -/
structure Prog2 (c : Cfg AL KS N S) (s : State AL KS N S) : Prop where
  lmvDelta : LmvDelta c s
  cons : Cons c s
  prog : Prog c s
  seqLe : SeqLe s
  seqNew : SeqNew s
  seqUniq : SeqUniq s
  opWr : OpWr c s
  holdAttr : HoldAttr c s
  accKey : AccKey c s
  appliedKey : AppliedKey c s

theorem Prog2.preserved (h : Prog2 c s) (inv : Inv c s) (hs : Step c s s') : Prog2 c s' where
  lmvDelta := h.lmvDelta.preserved hs
  cons := h.cons.preserved h.lmvDelta inv hs
  prog := h.prog.preserved inv hs
  seqLe := h.seqLe.preserved hs
  seqNew := h.seqNew.preserved h.seqLe hs
  seqUniq := h.seqUniq.preserved h.seqNew hs
  opWr := h.opWr.preserved hs
  holdAttr := h.holdAttr.preserved h.opWr inv hs
  accKey := h.accKey.preserved inv hs
  appliedKey := h.appliedKey.preserved h.prog h.holdAttr h.accKey inv hs

theorem Prog2.initial (n0 : N) : Prog2 c (Sync.initial c n0) where
  lmvDelta := LmvDelta.initial n0
  cons := Cons.initial n0
  prog := by simp [Prog, Sync.initial, progOf]
  seqLe := by simp [SeqLe, Sync.initial]
  seqNew := by simp [SeqNew, Sync.initial]
  seqUniq := by simp [SeqUniq, Sync.initial]
  opWr := by simp [OpWr, Sync.initial]
  holdAttr := by simp [HoldAttr, Sync.initial, OPc.holds]
  accKey := by simp [AccKey, Sync.initial]
  appliedKey := by simp [AppliedKey, Sync.initial]

theorem reachable_prog {n0 : N} {s : State AL KS N S} (hr : Reachable c n0 s) : Inv c s ∧ Prog2 c s :=
  reachable_ind (P := Prog2 c) (Prog2.initial n0) (fun _ _ hi hp hs => hp.preserved hi hs) hr

end
end Verif.Sync
