import Verif.Proof.SyncMore

/-!
Helper file: runs in which the calls on a group of instruments do not overlap.
-/

namespace Verif.Sync
open Verif
variable {AL KS N S : Type} [DecidableEq KS]
variable {c : Cfg AL KS N S} {s s' : State AL KS N S}
set_option maxHeartbeats 1000000

theorem nextOp_initStep {r : Nat} (h : initStep c s r = some s') : s'.nextOp = s.nextOp := by
  unfold initStep at h
  split at h
  · cases h
  · split at h
    · cases h
    · simp only [Option.some.injEq] at h; rw [← h]

omit [DecidableEq KS] in
theorem nextOp_readPass {o : Nat} {a : AL} : (readPass c s o a).1.nextOp = s.nextOp := by
  unfold readPass; split <;> rfl

omit [DecidableEq KS] in
theorem nextOp_acquireRead {o : Nat} {a : AL} : (acquireRead c s o a).1.nextOp = s.nextOp := by
  unfold acquireRead
  have h := nextOp_readPass (c := c) (s := s) (o := o) (a := a)
  split
  · rename_i h1; rw [h1] at h; exact h
  · rename_i h1
    rw [h1] at h
    split
    · rw [nextOp_readPass]; exact h
    · exact h

omit [DecidableEq KS] in
theorem nextOp_acquireWrite {o : Nat} {a : AL} : (acquireWrite c s o a).1.nextOp = s.nextOp := by
  unfold acquireWrite; split <;> rfl

theorem nextOp_step {a : Action AL N} (hna : ∀ o x n, a ≠ .observe o x n) (h : step c s a = some s') :
    s'.nextOp = s.nextOp := by
  cases a with
  | observe o x n => exact absurd rfl (hna o x n)
  | snapshot o => simp only [step, Option.some.injEq] at h; rw [← h]
  | collect o => simp only [step, Option.some.injEq] at h; rw [← h]
  | op i =>
    simp only [step, stepOp] at h
    split at h
    · cases h
    · cases h
    · rename_i a _
      split at h
      · cases h
      · have := nextOp_acquireRead (c := c) (s := s) (o := (s.op i).obs) (a := a)
        split at h <;> rename_i h1 <;> rw [h1] at this <;> simp only [Option.some.injEq] at h <;> rw [← h] <;> exact this
    · rename_i a _
      split at h
      · cases h
      · have := nextOp_acquireWrite (c := c) (s := s) (o := (s.op i).obs) (a := a)
        split at h <;> rename_i h1 <;> rw [h1] at this <;> simp only [Option.some.injEq] at h <;> rw [← h] <;> exact this
    · split at h
      · exact nextOp_initStep h
      · simp only [Option.some.injEq] at h; rw [← h]; rfl
    · split at h <;> (simp only [Option.some.injEq] at h; rw [← h]; rfl)
    · split at h
      · cases h
      · simp only [Option.some.injEq] at h; rw [← h]; rfl
    · simp only [Option.some.injEq] at h; rw [← h]; rfl
    · simp only [Option.some.injEq] at h; rw [← h]; rfl
  | task t ch =>
    simp only [step, stepTask, finishRec] at h
    split at h
    all_goals first
     | (cases h; done)
     | exact nextOp_initStep h
     | (simp only [Option.some.injEq] at h; rw [← h]; rfl)
     | (split at h
        all_goals first
         | (cases h; done)
         | exact nextOp_initStep h
         | (simp only [Option.some.injEq] at h; rw [← h]; rfl)
         | (simp only [Option.some.injEq] at h; rw [← h]; simp only [setTask, setHold, setAcc, setRec]; split <;> rfl)
         | (split at h
            all_goals first
             | (cases h; done)
             | (simp only [Option.some.injEq] at h; rw [← h]; rfl)
             | (split at h
                all_goals (simp only [Option.some.injEq] at h; rw [← h]; rfl))))
     | (simp only [Option.some.injEq] at h; rw [← h]; simp only [setTask, setHold, setAcc, setRec]; split <;> rfl)

/-- What a step of a sequential run may do. -/
def SeqCond (G : Nat → Prop) (s s' : State AL KS N S) : Prop :=
  s'.nextOp ≠ s.nextOp → G (s'.op s.nextOp).obs → ∀ i, i < s.nextOp → G (s.op i).obs → (s.op i).pc = .done

/-- Induction over sequential runs. -/
theorem seq_ind {n0 : N} {G : Nat → Prop} {P : State AL KS N S → Prop} (h0 : P (Sync.initial c n0))
    (hstep : ∀ s s', More c s → P s → SeqCond G s s' → Step c s s' → P s') (hr : SeqReachable c G n0 s) :
    More c s ∧ P s := by
  induction hr with
  | init => exact ⟨More.initial n0, h0⟩
  | @step s s' a h hs hq ih =>
    have hst := ih.1.full.inv.step_sound hs
    refine ⟨ih.1.preserved hst, hstep _ _ ih.1 ih.2 ?_ hst⟩
    intro hn hG i hi hGi
    cases a with
    | observe o x n =>
      simp only [step, Option.some.injEq] at hs
      rw [← hs] at hG
      exact hq o x n rfl (by simpa using hG) i hi hGi
    | snapshot o => exact absurd (nextOp_step (by simp) hs) hn
    | collect o => exact absurd (nextOp_step (by simp) hs) hn
    | op o => exact absurd (nextOp_step (by simp) hs) hn
    | task t o => exact absurd (nextOp_step (by simp) hs) hn

theorem run_append {as bs : List (Action AL N)} {s : State AL KS N S} :
    run c s (as ++ bs) = (run c s as).bind (fun s' => run c s' bs) := by
  induction as generalizing s with
  | nil => simp [run]
  | cons a as ih =>
    simp only [List.cons_append, run]
    cases step c s a with
    | none => rfl
    | some s1 => simpa using ih (s := s1)

theorem run_one {a : Action AL N} {s : State AL KS N S} : run c s [a] = step c s a := by
  simp only [run]
  cases step c s a <;> rfl

theorem SeqReachable.reachable {n0 : N} {G : Nat → Prop} (hr : SeqReachable c G n0 s) : Reachable c n0 s := by
  induction hr with
  | init => exact ⟨[], rfl⟩
  | @step s s' a h hs hq ih =>
    obtain ⟨as, hra⟩ := ih
    exact ⟨as ++ [a], by rw [run_append, hra]; simp only [Option.bind_some, run_one]; exact hs⟩

/-- Only the newest call on the group may be running. -/
def OneActive (G : Nat → Prop) (s : State AL KS N S) : Prop :=
  ∀ i j, i < j → j < s.nextOp → G (s.op i).obs → G (s.op j).obs → (s.op i).pc = .done

theorem OneActive.preserved {G : Nat → Prop} (h : OneActive G s) (hq : SeqCond G s s') (hs : Step c s s') :
    OneActive G s' := by
  cases hs
  case observe o a n =>
    have hq' := hq (by simp)
    intro i j hij hj hGi hGj
    simp only [upd_same] at hq'
    have hi : i ≠ s.nextOp := by simp only at hj; omega
    simp only [upd_apply, hi, if_false] at hGi ⊢
    by_cases e : j = s.nextOp
    · subst e; simp only [upd_same] at hGj; exact hq' hGj i (by omega) hGi
    · simp only [upd_apply, e, if_false] at hGj
      exact h i j hij (by simp only at hj; omega) hGi hGj
  all_goals first
   | exact h
   | (intro i' j' hij hj
      have h1 := h i' j' hij hj
      clear h hq
      revert h1
      ssimp
      grind)

/-- In a sequential run a pending sequence number is larger than all those applied to the view. -/
def FreshMax (l : Nat) (c : Cfg AL KS N S) (s : State AL KS N S) : Prop :=
  ∀ i r k sq, (s.op i).pc = .upd r k sq → l ∈ c.leavesOf (s.op i).obs → ∀ e, e ∈ s.applied → e.1 = l → e.2.2.2 < sq

/-- Updates of the view were applied in the order of calls and of sequence numbers. -/
def InOrder (l : Nat) (s : State AL KS N S) : Prop :=
  (s.applied.filter (fun e => e.1 == l)).Pairwise (fun e e' => e'.2.2.2 < e.2.2.2 ∧ e'.2.2.1 ≤ e.2.2.1)

theorem prog_sub {x : Op AL N} {l : Nat} (h : l ∈ progOf c x) : l ∈ c.leavesOf x.obs := by
  unfold progOf at h
  split at h
  all_goals first
   | (cases h; done)
   | exact List.mem_of_mem_take h
   | exact h

theorem applied_feeds (hp : Prog c s) {l : Nat} {k : KS} {i sq : Nat} (h : (l, k, i, sq) ∈ s.applied) :
    l ∈ c.leavesOf (s.op i).obs := by
  apply prog_sub
  have := hp i l
  rw [← List.count_pos_iff, ← this, List.countP_pos_iff]
  exact ⟨_, h, by simp⟩

theorem upd_leaf (inv : Inv c s) {i r k sq a : Nat} (hpc : (s.op i).pc = .upd r k sq)
    (ha : (s.recs r).accs[k]? = some a) : (s.acc a).leaf ∈ c.leavesOf (s.op i).obs := by
  have w := inv.wf
  have hh : (s.op i).pc.holds r = true := by rw [hpc]; simp [OPc.holds]
  have h1 := w.opRec i r hh
  have h2 := w.accsLeaf r k a h1.1 ha
  rw [← h1.2]
  exact List.mem_of_getElem? h2

theorem FreshMax.preserved {l : Nat} (h : FreshMax l c s) (h1 : OneActive (fun o => l ∈ c.leavesOf o) s)
    (hm : More c s) (hs : Step c s s') : FreshMax l c s' := by
  have inv := hm.full.inv
  cases hs
  case fetch i r k hpc hk =>
    have hle := hm.full.vals.p.seqLe.1
    intro i' r' k' sq' hpc' hl' e he hel
    have h0 := h i' r' k' sq'
    simp only [setOpPc, upd_apply] at hpc' hl' he
    by_cases ei : i' = i
    · subst ei
      simp only [if_true, OPc.upd.injEq] at hpc'
      have := hle e he
      omega
    · simp only [ei, if_false] at hpc' hl'
      exact h0 hpc' hl' e he hel
  case upd i r k sq a hpc ha =>
    have hlf := upd_leaf inv hpc ha
    have hi : i < s.nextOp := by
      rcases Nat.lt_or_ge i s.nextOp with h | h
      · exact h
      · have := inv.wf.opIdle i h; rw [this] at hpc; cases hpc
    intro i' r' k' sq' hpc' hl' e he hel
    have h0 := h i' r' k' sq'
    simp only [setOpPc, setAcc, upd_apply, List.mem_cons] at hpc' hl' he
    by_cases ei : i' = i
    · subst ei
      simp only [if_true] at hpc'
      cases hpc'
    · simp only [ei, if_false] at hpc' hl'
      rcases he with he | he
      · subst he
        simp only at hel
        rw [hel] at hlf
        have hi' : i' < s.nextOp := by
          rcases Nat.lt_or_ge i' s.nextOp with h | h
          · exact h
          · have := inv.wf.opIdle i' h; rw [this] at hpc'; cases hpc'
        rcases Nat.lt_or_gt_of_ne ei with hlt | hlt
        · have := h1 i' i hlt hi hl' hlf; rw [this] at hpc'; cases hpc'
        · have := h1 i i' hlt hi' hlf hl'; rw [this] at hpc; cases hpc
      · exact h0 hpc' hl' e he hel
  all_goals first
   | exact h
   | (intro i' r' k' sq'
      have h0 := h i' r' k' sq'
      clear h h1 hm inv
      revert h0
      ssimp
      grind)

theorem InOrder.preserved {l : Nat} (h : InOrder l s) (hf : FreshMax l c s) (h1 : OneActive (fun o => l ∈ c.leavesOf o) s)
    (hm : More c s) (hs : Step c s s') : InOrder l s' := by
  have inv := hm.full.inv
  cases hs
  case upd i r k sq a hpc ha =>
    have hlf := upd_leaf inv hpc ha
    unfold InOrder at *
    simp only [setOpPc, setAcc, List.filter_cons]
    by_cases e : (s.acc a).leaf = l
    · simp only [e, beq_self_eq_true, if_true, List.pairwise_cons]
      refine ⟨?_, h⟩
      intro x hx
      rw [e] at hlf
      simp only [List.mem_filter, beq_iff_eq] at hx
      refine ⟨hf i r k sq hpc hlf x hx.1 hx.2, ?_⟩
      obtain ⟨xl, xk, xi, xs⟩ := x
      simp only at hx ⊢
      obtain ⟨hx1, hx2⟩ := hx
      subst hx2
      have hlt := applied_lt hm.full.vals.p.prog inv.wf hx1
      have hfe := applied_feeds hm.full.vals.p.prog hx1
      rcases Nat.lt_or_ge i xi with hlt2 | hge
      · have := h1 i xi hlt2 hlt hlf hfe; rw [this] at hpc; cases hpc
      · exact hge
    · have : ((s.acc a).leaf == l) = false := by simpa using e
      simpa [this] using h
  all_goals exact h

theorem seq_inOrder {n0 : N} {l : Nat} (hr : SeqReachable c (fun o => l ∈ c.leavesOf o) n0 s) : InOrder l s := by
  have := seq_ind (c := c) (n0 := n0) (G := fun o => l ∈ c.leavesOf o)
    (P := fun s => OneActive (fun o => l ∈ c.leavesOf o) s ∧ FreshMax l c s ∧ InOrder l s)
    ⟨by simp [OneActive, Sync.initial], by simp [FreshMax, Sync.initial], by simp [InOrder, Sync.initial]⟩
    (fun s s' hm hp hq hs => ⟨hp.1.preserved hq hs, hp.2.1.preserved hp.1 hm hs, hp.2.2.preserved hp.2.1 hp.1 hm hs⟩) hr
  exact this.2.2.2

theorem InOrder.ordered {l : Nat} (h : InOrder l s) (k : KS) : Ordered s.applied l k := by
  unfold Ordered InOrder at *
  rw [List.pairwise_map]
  have h2 := List.Pairwise.filter (fun e => e.2.1 == k) h
  rw [List.filter_filter] at h2
  have : (fun (e : Nat × KS × Nat × Nat) => e.1 == l && e.2.1 == k) = (fun e => e.2.1 == k && e.1 == l) := by
    funext e; rw [Bool.and_comm]
  rw [this]
  exact h2.imp (fun h => h.1)

/-- In a sequential run, for the same view, a larger sequence number belongs to a call that is not older. -/
theorem InOrder.calls {l : Nat} (h : InOrder l s) {k k' : KS} {i sq i' sq' : Nat} (h1 : (l, k, i, sq) ∈ s.applied)
    (h2 : (l, k', i', sq') ∈ s.applied) (hlt : sq' ≤ sq) : i' ≤ i := by
  have m1 : (l, k, i, sq) ∈ s.applied.filter (fun e => e.1 == l) := by simp [h1]
  have m2 : (l, k', i', sq') ∈ s.applied.filter (fun e => e.1 == l) := by simp [h2]
  unfold InOrder at h
  generalize s.applied.filter (fun e => e.1 == l) = L at *
  induction L with
  | nil => cases m1
  | cons e t ih =>
    rw [List.pairwise_cons] at h
    rw [List.mem_cons] at m1 m2
    rcases m1 with m1 | m1 <;> rcases m2 with m2 | m2
    · rw [← m1] at m2; simp only [Prod.mk.injEq] at m2; omega
    · have := h.1 _ m2; rw [← m1] at this; exact this.2
    · have := h.1 _ m1; rw [← m2] at this; simp only at this; omega
    · exact ih h.2 m1 m2

/-! ### Number of fingerprints and of records -/

/-- Fingerprints of the records held by an instrument. -/
def fps (c : Cfg AL KS N S) (s : State AL KS N S) (o : Nat) : List UInt64 :=
  (s.table o).map (fun r => c.fp (s.recs r).attrs)

theorem tableLen_fps (o : Nat) : tableLen c s o = (fps c s o).eraseDups.length := rfl

theorem tableLen_mono {o : Nat} (h : (fps c s' o).Sublist (fps c s o)) : tableLen c s' o ≤ tableLen c s o := by
  rw [tableLen_fps, tableLen_fps]
  exact distinct_le (fun x hx => List.mem_eraseDups.mpr (h.subset hx))

/-- Attributes of existing records and the instrument of existing calls never change; the table changes only
by insertion or removal. -/
theorem fps_step {o : Nat} (w : Wf c s) (hs : Step c s s') :
    (fps c s' o).Sublist (fps c s o) ∨
    (∃ i a, (s.op i).pc = .wr a ∧ (s.op i).obs = o ∧ findWrite c s o a = none ∧ fps c s' o = c.fp a :: fps c s o ∧
      (s'.op i).pc ≠ .wr a ∧ s'.table o = s.nextRec :: s.table o) := by
  cases hs
  case wrNew i a hpc hl hf =>
    have hmap : ∀ o, (s.table o).map (fun r => c.fp (upd s.recs s.nextRec (newRec (s.op i).obs a) r).attrs) = fps c s o := by
      intro o
      apply List.map_congr_left
      intro r hr
      have := (w.tblLt _ r hr).1
      have : r ≠ s.nextRec := by omega
      simp [this]
    by_cases e : o = (s.op i).obs
    · right
      subst e
      refine ⟨i, a, hpc, rfl, hf, ?_, by simp [setOpPc], by simp [setOpPc]⟩
      have := hmap (s.op i).obs
      simp only [fps, setOpPc, upd_same, List.map_cons, List.cons.injEq]
      exact ⟨rfl, this⟩
    · left
      have := hmap o
      simp only [fps, setOpPc, upd_ne _ _ e]
      rw [this]
      exact List.Sublist.refl _
  case finRel t o' td r m mN k hpc ha =>
    left
    have hat : ∀ x, ((setRec s r (fun x => { x with collectedCount := m, colN := mN, inactive := 0 })).recs x).attrs = (s.recs x).attrs := by
      intro x; ssimp; split
      · rename_i e; subst e; rfl
      · rfl
    simp only [fps, setTask, hat]
    by_cases e : o = o'
    · subst e; simp only [upd_same]; exact List.Sublist.map _ List.filter_sublist
    · simp only [upd_ne _ _ e]; exact List.Sublist.refl _
  all_goals left
  all_goals first
   | exact List.Sublist.refl _
   | (have : ∀ l : List UInt64, l = fps c s o → l.Sublist (fps c s o) := by intro l h; rw [h]; exact List.Sublist.refl _
      apply this
      apply List.map_congr_left
      intro x hx
      ssimp
      grind)

/-- In a sequential run a call that is about to insert still finds room. -/
def WrRoom (o : Nat) (c : Cfg AL KS N S) (s : State AL KS N S) : Prop :=
  ∀ i a, (s.op i).pc = .wr a → (s.op i).obs = o → a = c.overflowAL ∨ tableLen c s o + 1 ≤ c.limit - 1

/-- At most `limit - 1` fingerprints besides the overflow one. -/
def FpBound (o : Nat) (c : Cfg AL KS N S) (s : State AL KS N S) : Prop :=
  ∃ F : List UInt64, F.length ≤ c.limit - 1 ∧ ∀ f, f ∈ fps c s o → f ∈ c.fp c.overflowAL :: F

theorem WrRoom.preserved {o : Nat} (h : WrRoom o c s) (h1 : OneActive (fun x => x = o) s) (w : Wf c s) (hs : Step c s s') :
    WrRoom o c s' := by
  have hf := fps_step (o := o) w hs
  rcases hf with hf | ⟨j, b, hj1, hj2, hj3, hj4, hj5, hj6⟩
  · have hlen := tableLen_mono hf
    cases hs
    case rdMiss i a a' hpc hl hm =>
      intro i' b hpc' ho'
      have h0 := h i' b
      simp only [setOpPc, upd_apply] at hpc' ho'
      by_cases e : i' = i
      · subst e
        simp only [if_true, OPc.wr.injEq] at hpc' ho'
        rw [ho'] at hm
        rcases hm.2 with hh | hh
        · right; omega
        · left; rw [← hpc']; exact hh.1
      · simp only [e, if_false] at hpc' ho'
        rcases h0 hpc' ho' with hh | hh
        · left; exact hh
        · right; omega
    all_goals
      intro i' b
      have h0 := h i' b
      clear h h1 w hf
      revert h0 hlen
      generalize tableLen c s o = n1
      ssimp
      grind
  · intro i' a' hpc' ho'
    exfalso
    have hi' : ∃ a2, (s.op i').pc = .wr a2 ∨ (s.op i').pc = .rd a2 := by
      clear h h1 hj1 hj2 hj3 hj4 hj5 hj6
      revert hpc'
      cases hs
      all_goals ssimp
      all_goals grind
    have hne : i' ≠ j := by
      intro e; subst e
      revert hpc' hj5
      clear h h1 hj3 hj4 hj6 hi'
      cases hs
      case wrNew i a hpc hl hf =>
        ssimp
        grind
      case rdMiss i a a' hpc hl hm =>
        ssimp
        grind
      all_goals ssimp
      all_goals grind
    have hob : (s.op i').obs = o := by
      rw [← ho']
      obtain ⟨a2, hi'⟩ := hi'
      clear h h1 hj1 hj2 hj3 hj4 hj5 hj6 hne
      have hlt : i' < s.nextOp := by
        rcases Nat.lt_or_ge i' s.nextOp with h | h
        · exact h
        · have := w.opIdle i' h; rw [this] at hi'; rcases hi' with hi' | hi' <;> cases hi'
      clear w
      cases hs
      all_goals ssimp
      all_goals grind
    have lt : ∀ i, (s.op i).pc ≠ .idle → i < s.nextOp := by
      intro i hi
      rcases Nat.lt_or_ge i s.nextOp with h | h
      · exact h
      · exact absurd (w.opIdle i h) hi
    have hj' := lt j (by rw [hj1]; simp)
    obtain ⟨a2, hi'⟩ := hi'
    have hi2 := lt i' (by rcases hi' with hi' | hi' <;> rw [hi'] <;> simp)
    rcases Nat.lt_or_gt_of_ne hne with hlt | hlt
    · have := h1 i' j hlt hj' hob hj2; rw [this] at hi'; rcases hi' with hi' | hi' <;> cases hi'
    · have := h1 j i' hlt hi2 hj2 hob; rw [this] at hj1; cases hj1

theorem FpBound.preserved {o : Nat} (h : FpBound o c s) (hr : WrRoom o c s) (w : Wf c s) (hs : Step c s s') : FpBound o c s' := by
  obtain ⟨F, hF1, hF2⟩ := h
  rcases fps_step (o := o) w hs with hf | ⟨j, b, hj1, hj2, _, hj4, _, _⟩
  · exact ⟨F, hF1, fun f hx => hF2 f (hf.subset hx)⟩
  · rcases hr j b hj1 hj2 with hb | hb
    · refine ⟨F, hF1, ?_⟩
      intro f hx
      rw [hj4, List.mem_cons] at hx
      rcases hx with hx | hx
      · rw [hx, hb]; simp
      · exact hF2 f hx
    · refine ⟨c.fp b :: (fps c s o).eraseDups, ?_, ?_⟩
      · rw [tableLen_fps] at hb; simpa using hb
      · intro f hx
        rw [hj4, List.mem_cons] at hx
        rcases hx with hx | hx
        · simp [hx]
        · simp [List.mem_eraseDups, hx]

theorem seq_fpBound {n0 : N} {o : Nat} (hr : SeqReachable c (fun x => x = o) n0 s) :
    FpBound o c s := by
  have := seq_ind (c := c) (n0 := n0) (G := fun x => x = o)
    (P := fun s => OneActive (fun x => x = o) s ∧ WrRoom o c s ∧ FpBound o c s)
    ⟨by simp [OneActive, Sync.initial], by simp [WrRoom, Sync.initial], ⟨[], by simp, by simp [fps, Sync.initial]⟩⟩
    (fun s s' hm hp hq hs => ⟨hp.1.preserved hq hs, hp.2.1.preserved hp.1 hm.full.inv.wf hs,
      hp.2.2.preserved hp.2.1 hm.full.inv.wf hs⟩) hr
  exact this.2.2.2

theorem FpBound.len {o : Nat} (h : FpBound o c s) (hl : 1 ≤ c.limit) : tableLen c s o ≤ c.limit := by
  obtain ⟨F, h1, h2⟩ := h
  have := distinct_le h2
  rw [tableLen_fps]
  simp only [List.length_cons] at this
  omega

/-- Without collisions every record has its own fingerprint. -/
def FpNodup (c : Cfg AL KS N S) (s : State AL KS N S) : Prop := ∀ o, (fps c s o).Nodup

theorem FpNodup.preserved (hc : c.ignoreColl = true ∨ ∀ a b, c.fp a = c.fp b → c.eqv a b = true) (h : FpNodup c s)
    (w : Wf c s) (hs : Step c s s') : FpNodup c s' := by
  intro o
  have h0 := h o
  rcases fps_step (o := o) w hs with hf | ⟨j, b, hj1, hj2, hj3, hj4, _, _⟩
  · exact List.Nodup.sublist hf h0
  · rw [hj4, List.nodup_cons]
    refine ⟨?_, h0⟩
    unfold findWrite chain at hj3
    rw [List.find?_eq_none] at hj3
    intro hm
    obtain ⟨r, hr, hfr⟩ := List.mem_map.mp hm
    have := hj3 r (by simp [hr, hfr])
    simp only [Bool.or_eq_true, not_or, Bool.not_eq_true] at this
    rcases hc with hc | hc
    · rw [hc] at this; simp at this
    · have h2 := hc _ _ hfr; rw [h2] at this; simp at this

theorem reachable_fpNodup {n0 : N} (hc : c.ignoreColl = true ∨ ∀ a b, c.fp a = c.fp b → c.eqv a b = true)
    (hr : Reachable c n0 s) : FpNodup c s :=
  (reachable_ind (P := FpNodup c) (by simp [FpNodup, fps, Sync.initial])
    (fun _ _ hi hp hs => hp.preserved hc hi.wf hs) hr).2

theorem eraseDups_nodup {α : Type} [DecidableEq α] : ∀ {l : List α}, l.Nodup → l.eraseDups = l
  | [], _ => by simp
  | a :: t, h => by
    rw [List.nodup_cons] at h
    rw [List.eraseDups_cons]
    have : t.filter (fun b => !b == a) = t := by
      rw [List.filter_eq_self]
      intro x hx
      simp only [Bool.not_eq_true', beq_eq_false_iff_ne]
      intro e; subst e; exact h.1 hx
    rw [this, eraseDups_nodup h.2]

theorem FpNodup.len {o : Nat} (h : FpNodup c s) : (s.table o).length = tableLen c s o := by
  rw [tableLen_fps, eraseDups_nodup (h o)]
  simp [fps]

end Verif.Sync
