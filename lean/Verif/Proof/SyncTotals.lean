import Verif.Proof.SyncSeq
import Verif.Proof.Aggr

/-!
Helper file: the invariants of the synchronous machine in the vocabulary of `Verif.Spec.Sync`.
-/

namespace Verif.Sync
open Verif
variable {AL KS N S : Type} [DecidableEq KS]
variable {c : Cfg AL KS N S} {s s' : State AL KS N S}

theorem countP_flatMap_range {α : Type} {p : α → Bool} (n : Nat) (q : Nat → Bool) (f : Nat → List α) :
    (((List.range n).filter q).flatMap f).countP p = sumTo n (fun a => if q a then (f a).countP p else 0) := by
  induction n with
  | zero => simp
  | succ n ih =>
    rw [List.range_succ, List.filter_append, List.flatMap_append, List.countP_append, ih, sumTo_succ]
    congr 1
    by_cases h : q n
    · simp [h]
    · simp [h]

theorem countP_inAccs (l : Nat) (k : KS) (p : Nat × Nat → Bool) : (inAccs s l k).countP p = accW s l k p := by
  unfold inAccs accW
  rw [countP_flatMap_range]
  apply sumTo_congr
  intro a _
  simp [List.countP_append]

theorem sumTo_single {n h : Nat} {f : Nat → Nat} (hh : h < n) (h0 : ∀ i, i < n → i ≠ h → f i = 0) : sumTo n f = f h := by
  have h1 := sumTo_change (n := n) (f := fun _ => 0) (g := f) hh (fun i hi hne => h0 i hi hne)
  have h2 : sumTo n (fun _ => 0) = 0 := sumTo_eq_zero.mpr (fun _ _ => rfl)
  omega

theorem countP_inSeries (hi : Inv c s) (l : Nat) (k : KS) (p : Nat × Nat → Bool) :
    (inSeries s l k).countP p = holdW s l k p := by
  have w := hi.wf
  have hk := w.dataKeys l
  unfold inSeries holdW
  have hst : ∀ h, h < s.nextHold → (s.hold h).leaf = l → (s.hold h).key = k → ¬ (k, h) ∈ s.data l →
      (s.hold h).store.ops = [] := by
    intro h hh h1 h2 hn
    exact (hi.stranded h hh (by rw [h1, h2]; exact hn)).1
  by_cases hex : ∃ h, (k, h) ∈ s.data l
  · obtain ⟨h, hm⟩ := hex
    have hdo := w.dataOk l k h hm
    have hfil : (s.data l).filter (fun e => e.1 == k) = [(k, h)] := by
      clear hst hdo
      revert hk hm
      generalize s.data l = d
      intro hk hm
      induction d with
      | nil => cases hm
      | cons e t ih =>
        rw [List.map_cons, List.nodup_cons] at hk
        rw [List.mem_cons] at hm
        by_cases he : e.1 = k
        · have hnot : ∀ h', ¬ (k, h') ∈ t := fun h' hh' => hk.1 (List.mem_map.mpr ⟨_, hh', he.symm⟩)
          have heq : e = (k, h) := by
            rcases hm with hm | hm
            · exact hm.symm
            · exact absurd hm (hnot h)
          subst heq
          simp only [List.filter_cons, beq_self_eq_true, if_true, List.cons.injEq, true_and]
          rw [List.filter_eq_nil_iff]
          intro x hx hxk
          simp only [beq_iff_eq] at hxk
          exact hnot x.2 (by rw [← hxk]; exact hx)
        · have : (e.1 == k) = false := by simpa using he
          simp only [List.filter_cons, this, Bool.false_eq_true, if_false]
          rcases hm with hm | hm
          · rw [← hm] at he; exact absurd rfl he
          · exact ih hk.2 hm
    rw [hfil]
    have := sumTo_single (n := s.nextHold) (h := h) (f := fun h => if (s.hold h).leaf = l ∧ (s.hold h).key = k then (s.hold h).store.ops.countP p else 0) hdo.1 (by
      intro i hi' hne
      simp only [ite_eq_right_iff, and_imp]
      intro h1 h2
      rw [hst i hi' h1 h2 (fun hm' => hne (nodup_keys_eq hk hm' hm))]
      rfl)
    rw [this]
    simp [hdo.2.1, hdo.2.2]
  · have hfil : (s.data l).filter (fun e => e.1 == k) = [] := by
      rw [List.filter_eq_nil_iff]
      intro x hx hxk
      simp only [beq_iff_eq] at hxk
      exact hex ⟨x.2, by rw [← hxk]; exact hx⟩
    rw [hfil]
    symm
    simp only [List.flatMap_nil, List.countP_nil]
    apply sumTo_eq_zero.mpr
    intro i hi'
    simp only [ite_eq_right_iff, and_imp]
    intro h1 h2
    rw [hst i hi' h1 h2 (fun hm => hex ⟨i, hm⟩)]
    rfl

theorem cons_perm (hi : Inv c s) (hc : Cons c s) {l : Nat} (hd : c.delta l = true) (k : KS) :
    (appliedTo s l k).Perm (reported s l k ++ inAccs s l k ++ inSeries s l k) := by
  rw [List.perm_iff_count]
  intro x
  have := hc l k (fun y => y == x)
  rw [← countP_inAccs, ← countP_inSeries hi, emitW, if_pos hd] at this
  rw [List.count_append, List.count_append]
  exact this

theorem cons_perm_cum (hi : Inv c s) (hc : Cons c s) {l : Nat} (hd : c.delta l = false) (k : KS) :
    (appliedTo s l k).Perm (inAccs s l k ++ inSeries s l k) := by
  rw [List.perm_iff_count]
  intro x
  have := hc l k (fun y => y == x)
  rw [← countP_inAccs, ← countP_inSeries hi, emitW, if_neg (by simp [hd]), Nat.zero_add] at this
  rw [List.count_append]
  exact this

/-- Counting by call over all series of a view. -/
theorem countP_call_le {A B : List (KS × Nat × Nat)} {i : Nat} (h : ∀ k (x : Nat × Nat), x.1 = i → A.count (k, x) ≤ B.count (k, x)) :
    A.countP (fun e => e.2.1 == i) ≤ B.countP (fun e => e.2.1 == i) := by
  have key : (A.filter (fun e => e.2.1 == i)).countP (fun _ => true) ≤ (B.filter (fun e => e.2.1 == i)).countP (fun _ => true) := by
    apply countP_le_of_count_le
    intro x
    by_cases hx : x.2.1 = i
    · rw [List.count_filter (by simpa using hx), List.count_filter (by simpa using hx)]
      exact h x.1 x.2 hx
    · rw [List.count_eq_zero_of_not_mem (by simp [hx])]
      exact Nat.zero_le _
  simpa [List.countP_filter] using key

theorem applied_of_pos {l : Nat} {k : KS} {x : Nat × Nat} (h : 0 < (appliedTo s l k).countP (fun y => y == x)) :
    (l, k, x) ∈ s.applied := by
  rw [List.countP_pos_iff] at h
  obtain ⟨y, hy, hyx⟩ := h
  simp only [beq_iff_eq] at hyx
  subst hyx
  unfold appliedTo at hy
  rw [List.mem_map] at hy
  obtain ⟨e, he, rfl⟩ := hy
  simp only [List.mem_filter, Bool.and_eq_true, beq_iff_eq] at he
  obtain ⟨a, b, cc⟩ := e
  simp only at he
  obtain ⟨h1, h2, h3⟩ := he
  subst h2; subst h3; exact h1

theorem mem_appliedTo {l : Nat} {k : KS} {x : Nat × Nat} : x ∈ appliedTo s l k ↔ (l, k, x) ∈ s.applied := by
  constructor
  · intro h
    apply applied_of_pos
    rw [List.countP_pos_iff]
    exact ⟨x, h, by simp⟩
  · intro h
    unfold appliedTo
    rw [List.mem_map]
    exact ⟨(l, k, x), by simp [h], rfl⟩

theorem reported_le (hm : More c s) {l : Nat} (hd : c.delta l = true) (i : Nat) :
    timesReported s l i ≤ (progOf c (s.op i)).count l := by
  rw [timesReported_eq, ← hm.full.vals.p.prog i l, ← appliedView_countP]
  apply countP_call_le
  intro k x _
  rw [count_appliedView, count_reportedKV]
  have := hm.full.vals.p.cons l k (fun y => y == x)
  rw [emitW, if_pos hd] at this
  unfold reported at this
  omega

/-- A call in no accumulator and in no series of a delta view has been reported completely. -/
theorem reported_eq (hm : More c s) {l : Nat} (hd : c.delta l = true) {i : Nat} (hg : Gone s i)
    (hh : ∀ h sq, h < s.nextHold → (s.hold h).leaf = l → ¬ (i, sq) ∈ (s.hold h).store.ops) :
    timesReported s l i = (progOf c (s.op i)).count l := by
  apply Nat.le_antisymm (reported_le hm hd i)
  rw [timesReported_eq, ← hm.full.vals.p.prog i l, ← appliedView_countP]
  apply countP_call_le
  intro k x hx
  rw [count_appliedView, count_reportedKV]
  have h1 := hm.full.vals.p.cons l k (fun y => y == x)
  rw [emitW, if_pos hd] at h1
  have h2 : accW s l k (fun y => y == x) = 0 := by
    apply sumTo_eq_zero.mpr
    intro a ha
    simp only [ite_eq_right_iff]
    intro _
    have e1 : (s.acc a).cur.ops.countP (fun y => y == x) = 0 := by
      rw [List.countP_eq_zero]
      intro y hy hyx
      simp only [beq_iff_eq] at hyx
      subst hyx
      exact (hg a y.2 ha).1 (by rw [← hx]; exact hy)
    have e2 : (s.acc a).snap.ops.countP (fun y => y == x) = 0 := by
      rw [List.countP_eq_zero]
      intro y hy hyx
      simp only [beq_iff_eq] at hyx
      subst hyx
      exact (hg a y.2 ha).2 (by rw [← hx]; exact hy)
    rw [e1, e2]
  have h3 : holdW s l k (fun y => y == x) = 0 := by
    apply sumTo_eq_zero.mpr
    intro a ha
    simp only [ite_eq_right_iff]
    intro hl
    rw [List.countP_eq_zero]
    intro y hy hyx
    simp only [beq_iff_eq] at hyx
    subst hyx
    exact hh a y.2 ha hl.1 (by rw [← hx]; exact hy)
  rw [h2, h3] at h1
  unfold reported at h1
  omega

/-- What is reported was applied (delta and cumulative). -/
theorem emit_applied (hm : More c s) {e : Emit KS S} (he : e ∈ s.emits) {x : Nat × Nat} (hx : x ∈ e.ops) :
    (e.leaf, e.key, x) ∈ s.applied := by
  apply applied_of_pos
  have h1 := hm.emitLe e he (fun y => y == x)
  have h2 : 0 < e.ops.countP (fun y => y == x) := by
    rw [List.countP_pos_iff]; exact ⟨x, hx, by simp⟩
  omega

/-- Every invariant holds along a run. -/
theorem More.run {acts : List (Action AL N)} (h : More c s) (hr : run c s acts = some s') : More c s' := by
  induction acts generalizing s with
  | nil => simp only [Sync.run, Option.some.injEq] at hr; subst hr; exact h
  | cons a as ih =>
    simp only [Sync.run, Option.bind_eq_some_iff] at hr
    obtain ⟨s1, h1, h2⟩ := hr
    exact ih (h.preserved (h.full.inv.step_sound h1)) h2

theorem More.step {a : Action AL N} (h : More c s) (hr : Sync.step c s a = some s') : More c s' :=
  h.preserved (h.full.inv.step_sound hr)

theorem Finished.run {acts : List (Action AL N)} {i o : Nat} (hf : Full c s) (h : Finished s i o)
    (hr : run c s acts = some s') : Finished s' i o :=
  (run_ind (P := fun s => Finished s i o) (Q := fun _ => True) hf h (along_true acts)
    (fun _ _ hf _ hp hs => hp.preserved hf.inv.wf hs) hr).2

/-- A completed snapshot task started after the call completed leaves nothing of it in accumulators. -/
theorem gone_of_snapshot {i : Nat} {acts : List (Action AL N)} {s1 s2 : State AL KS N S} (hm : More c s)
    (hdone : (s.op i).pc = .done) (h1 : Sync.step c s (.snapshot (s.op i).obs) = some s1)
    (hw : Along c (NoWrap c (s.op i).obs) s1 acts) (h2 : Sync.run c s1 acts = some s2)
    (ht : s2.task s.nextTask = .done) : Gone s2 i ∧ Finished s2 i (s.op i).obs := by
  have hfin : Finished s i (s.op i).obs := ⟨hdone, rfl⟩
  have hst := hm.full.inv.step_sound h1
  have hfin1 := hfin.preserved hm.full.inv.wf hst
  have hf1 := hm.full.preserved hst
  have hj : J s1 s.nextTask (s.op i).obs i := by
    simp only [Sync.step, Option.some.injEq] at h1
    left; rw [← h1]; simp
  have := run_ind (P := fun s' => Finished s' i (s.op i).obs ∧ J s' s.nextTask (s.op i).obs i) hf1 ⟨hfin1, hj⟩ hw
    (fun s s' hf hq hp hs => ⟨hp.1.preserved hf.inv.wf hs, hp.2.preserved hf hp.1 hq hs⟩) h2
  refine ⟨?_, this.2.1⟩
  rcases this.2.2 with h | ⟨h, _⟩ | ⟨_, h⟩
  · rw [ht] at h; cases h
  · rw [ht] at h; cases h
  · exact h

theorem Gone.run {acts : List (Action AL N)} {i o : Nat} (hf : Full c s) (h : Finished s i o) (hg : Gone s i)
    (hr : run c s acts = some s') : Gone s' i :=
  (run_ind (P := fun s => Finished s i o ∧ Gone s i) (Q := fun _ => True) hf ⟨h, hg⟩ (along_true acts)
    (fun _ _ hf _ hp hs => ⟨hp.1.preserved hf.inv.wf hs, hp.2.preserved hp.1 hs⟩) hr).2.2

theorem drained_of_collect {i l o : Nat} {acts : List (Action AL N)} {s1 s2 : State AL KS N S} (hm : More c s)
    (hd : c.delta l = true) (hfin : Finished s i o) (hg : Gone s i) (h1 : Sync.step c s (.collect l) = some s1)
    (h2 : Sync.run c s1 acts = some s2) (ht : s2.task s.nextTask = .done) :
    ∀ h sq, h < s2.nextHold → (s2.hold h).leaf = l → ¬ (i, sq) ∈ (s2.hold h).store.ops := by
  have hst := hm.full.inv.step_sound h1
  have hfin1 := hfin.preserved hm.full.inv.wf hst
  have hg1 := hg.preserved hfin hst
  have hf1 := hm.full.preserved hst
  have hk : K s1 s.nextTask l i := by
    simp only [Sync.step, Option.some.injEq] at h1
    left; rw [← h1]; simp
  have := run_ind (P := fun s' => Finished s' i o ∧ Gone s' i ∧ K s' s.nextTask l i) (Q := fun _ => True) hf1
    ⟨hfin1, hg1, hk⟩ (along_true acts)
    (fun s s' hf _ hp hs => ⟨hp.1.preserved hf.inv.wf hs, hp.2.1.preserved hp.1 hs,
      hp.2.2.preserved hd hf hp.1 hp.2.1 hs⟩) h2
  rcases this.2.2.2 with h | ⟨h, _⟩ | ⟨_, h⟩
  · rw [ht] at h; cases h
  · rw [ht] at h; cases h
  · exact h

theorem cum_of_collect {i l o : Nat} {acts : List (Action AL N)} {s1 s2 : State AL KS N S} (hm : More c s)
    (hd : c.delta l = false) (hfin : Finished s i o) (hg : Gone s i) (h1 : Sync.step c s (.collect l) = some s1)
    (h2 : Sync.run c s1 acts = some s2) (ht : s2.task s.nextTask = .done) :
    CCur s2 s.nextTask l i s.emits := by
  have hst := hm.full.inv.step_sound h1
  have hfin1 := hfin.preserved hm.full.inv.wf hst
  have hg1 := hg.preserved hfin hst
  have hf1 := hm.full.preserved hst
  have hk : C s1 s.nextTask l i s.emits := by
    simp only [Sync.step, Option.some.injEq] at h1
    left; rw [← h1]; simp
  have := run_ind (P := fun s' => Finished s' i o ∧ Gone s' i ∧ C s' s.nextTask l i s.emits) (Q := fun _ => True) hf1
    ⟨hfin1, hg1, hk⟩ (along_true acts)
    (fun s s' hf _ hp hs => ⟨hp.1.preserved hf.inv.wf hs, hp.2.1.preserved hp.1 hs,
      hp.2.2.preserved hd hf hp.1 hp.2.1 hs⟩) h2
  rcases this.2.2.2 with ⟨h, _⟩ | ⟨⟨h, _⟩, _⟩ | ⟨_, h⟩
  · rw [ht] at h; cases h
  · rw [ht] at h; cases h
  · exact h

theorem done_prog {i : Nat} (h : (s.op i).pc = .done) : progOf c (s.op i) = c.leavesOf (s.op i).obs := by
  simp [progOf, h]

end Verif.Sync
