import Verif.Proof.SyncTotals
import Verif.Examples.SyncCfg

/-!
# Accounting of synchronous measurements (C01, C02, C03, C04, C08, C12)

Throughout, `Reachable c n0 s` means: `s` is the state after some interleaving of any number of measurement calls,
`SnapshotAndProcess` tasks and `Collect` tasks. A measurement call is identified by its number `i`; `(s.op i).obs` is
its instrument, `(s.op i).attrs` its attribute list, `(s.op i).num` its value, and `(s.op i).pc = .done` says that it
has returned. `c.leavesOf o` lists the output views (of all readers) of instrument `o`.
-/

namespace Verif.Props
open Verif Verif.Sync
variable {AL KS N S : Type} [DecidableEq KS] {c : Cfg AL KS N S} {n0 : N} {s : State AL KS N S}

/-! ## C01 exactly-once accounting -/

/-- C01 (conservation). At every moment, for every delta view and every series: the measurements applied to the series
are, as a multiset, those already reported in its points, plus those still in accumulators, plus those stored in the
series as listed by the view. Nothing is lost, duplicated or invented. -/
theorem C01_accounting (hr : Reachable c n0 s) (l : Nat) (hd : c.delta l = true) (k : KS) :
    (appliedTo s l k).Perm (reported s l k ++ inAccs s l k ++ inSeries s l k) := by
  have h := reachable_more hr
  exact cons_perm h.full.inv h.full.vals.p.cons hd k

/-- C01 (what is still in memory will be drained). An accumulator with undrained measurements belongs to a record that
is still in its instrument's table, where the next snapshot visits it. -/
theorem C01_memory_is_visited (hr : Reachable c n0 s) (a : Nat) (ha : a < s.nextAcc) (hne : (s.acc a).cur.ops ≠ []) :
    (s.acc a).rc ∈ s.table (s.recs (s.acc a).rc).obs ∧ a ∈ (s.recs (s.acc a).rc).accs := by
  have h := (reachable_more hr).full.inv
  have h2 := h.wf.accRc a ha
  refine ⟨?_, h2.2⟩
  apply Classical.byContradiction
  intro hni
  exact hne (h.relEmpty a ha ((h.relDead _ h2.1 hni).2 a h2.2))

/-- C01 (applied exactly once). A call that has returned was applied to each output view exactly as often as the
instrument lists the view; no call is ever applied more often. -/
theorem C01_applied_exactly_once (hr : Reachable c n0 s) (i l : Nat) (hdone : (s.op i).pc = .done) :
    s.applied.countP (fun e => e.1 == l && e.2.2.1 == i) = (c.leavesOf (s.op i).obs).count l := by
  rw [(reachable_more hr).full.vals.p.prog i l, done_prog hdone]

theorem take_count_le {l : List Nat} {k x : Nat} : (l.take k).count x ≤ l.count x :=
  List.Sublist.count_le _ (List.take_sublist k l)

/-- C01 (reported at most once). However collections interleave, a delta view never reports a call more often than the
instrument lists the view (once, when the views are distinct). -/
theorem C01_at_most_once (hr : Reachable c n0 s) (l : Nat) (hd : c.delta l = true) (i : Nat) :
    timesReported s l i ≤ (c.leavesOf (s.op i).obs).count l := by
  have h := reported_le (reachable_more hr) hd i
  refine Nat.le_trans h ?_
  unfold progOf
  split <;> first | (simp only [List.count_nil]; exact Nat.zero_le _) | exact take_count_le | exact Nat.le_refl _

/-- C01 (nothing invented). Everything in a reported point, delta or cumulative, comes from a call that was made on an
instrument feeding that view. -/
theorem C01_nothing_invented (hr : Reachable c n0 s) (e : Emit KS S) (he : e ∈ s.emits) (i sq : Nat)
    (hi : (i, sq) ∈ e.ops) : i < s.nextOp ∧ e.leaf ∈ c.leavesOf (s.op i).obs := by
  have h := reachable_more hr
  have ha := emit_applied h he hi
  exact ⟨applied_lt h.full.vals.p.prog h.full.inv.wf ha, applied_feeds h.full.vals.p.prog ha⟩

/-- C01 (exactly once when drained). Once a returned call is in no accumulator and in no stored series of a delta view,
the view has reported it exactly as often as the instrument lists the view. -/
theorem C01_exactly_once_when_drained (hr : Reachable c n0 s) (l : Nat) (hd : c.delta l = true) (i : Nat)
    (hdone : (s.op i).pc = .done)
    (hacc : ∀ a sq, a < s.nextAcc → ¬ (i, sq) ∈ (s.acc a).cur.ops ∧ ¬ (i, sq) ∈ (s.acc a).snap.ops)
    (hser : ∀ k sq, ¬ (i, sq) ∈ inSeries s l k) :
    timesReported s l i = (c.leavesOf (s.op i).obs).count l := by
  have h := reachable_more hr
  rw [← done_prog (c := c) hdone]
  apply reported_eq h hd hacc
  intro x sq hx hl hm
  have hc := countP_inSeries h.full.inv l (s.hold x).key (fun y => y == (i, sq))
  have h0 : (inSeries s l (s.hold x).key).countP (fun y => y == (i, sq)) = 0 := by
    rw [List.countP_eq_zero]
    intro y hy hyx
    simp only [beq_iff_eq] at hyx
    subst hyx
    exact hser _ _ hy
  rw [h0] at hc
  have h1 := sumTo_eq_zero.mp hc.symm x hx
  simp only [hl, true_and, if_true, and_self] at h1
  rw [List.countP_eq_zero] at h1
  exact h1 _ hm (by simp)

/-! ## C02 visibility -/

/-- C02 (delta). Suppose call `i` has returned in state `s`. A reader then runs `SnapshotAndProcess` on its instrument
(task `s.nextTask`, started by the first step) to completion, and then `Collect` on a delta view `l` to completion,
both interleaved with anything else. Then the call has been reported by the view exactly as often as it should be.
`NoWrap` is the proviso that fewer than `c.W` (2^32) measurements hit one record since its last snapshot. -/
theorem C02_delta {s1 s2 s3 s4 : State AL KS N S} {acts1 acts2 : List (Action AL N)} {i l : Nat} (hr : Reachable c n0 s)
    (hdone : (s.op i).pc = .done) (hd : c.delta l = true)
    (h1 : step c s (.snapshot (s.op i).obs) = some s1) (h2 : run c s1 acts1 = some s2)
    (hw : Along c (NoWrap c (s.op i).obs) s1 acts1) (ht1 : s2.task s.nextTask = .done)
    (h3 : step c s2 (.collect l) = some s3) (h4 : run c s3 acts2 = some s4) (ht2 : s4.task s2.nextTask = .done) :
    timesReported s4 l i = (c.leavesOf (s.op i).obs).count l := by
  have m0 := reachable_more hr
  have m1 := m0.step h1
  have m2 := m1.run h2
  have m3 := m2.step h3
  have m4 := m3.run h4
  obtain ⟨hg2, hf2⟩ := gone_of_snapshot m0 hdone h1 hw h2 ht1
  have hdr := drained_of_collect m2 hd hf2 hg2 h3 h4 ht2
  have hst3 := m2.full.inv.step_sound h3
  have hf3 := hf2.preserved m2.full.inv.wf hst3
  have hg3 := hg2.preserved hf2 hst3
  have hg4 := hg3.run m3.full hf3 h4
  have hf4 := hf3.run m3.full h4
  rw [reported_eq m4 hd hg4 hdr, done_prog hf4.1, hf4.2]

/-- C02 (cumulative). Same situation with a cumulative view the instrument feeds: the points reported during this
collection contain the call. -/
theorem C02_cumulative {s1 s2 s3 s4 : State AL KS N S} {acts1 acts2 : List (Action AL N)} {i l : Nat} (hr : Reachable c n0 s)
    (hdone : (s.op i).pc = .done) (hd : c.delta l = false) (hl : l ∈ c.leavesOf (s.op i).obs)
    (h1 : step c s (.snapshot (s.op i).obs) = some s1) (h2 : run c s1 acts1 = some s2)
    (hw : Along c (NoWrap c (s.op i).obs) s1 acts1) (ht1 : s2.task s.nextTask = .done)
    (h3 : step c s2 (.collect l) = some s3) (h4 : run c s3 acts2 = some s4) (ht2 : s4.task s2.nextTask = .done) :
    ∃ pre, s4.emits = pre ++ s2.emits ∧ ∃ e sq, e ∈ pre ∧ e.leaf = l ∧ (i, sq) ∈ e.ops := by
  have m0 := reachable_more hr
  have m1 := m0.step h1
  have m2 := m1.run h2
  have m3 := m2.step h3
  have m4 := m3.run h4
  obtain ⟨hg2, hf2⟩ := gone_of_snapshot m0 hdone h1 hw h2 ht1
  have hcum := cum_of_collect m2 hd hf2 hg2 h3 h4 ht2
  have hst3 := m2.full.inv.step_sound h3
  have hf3 := hf2.preserved m2.full.inv.wf hst3
  have hg3 := hg2.preserved hf2 hst3
  have hg4 := hg3.run m3.full hf3 h4
  have hf4 := hf3.run m3.full h4
  -- the call was applied, hence is in some stored series
  have hp := m4.full.vals.p.prog i l
  rw [done_prog hf4.1, hf4.2] at hp
  have hpos : 0 < s4.applied.countP (fun e => e.1 == l && e.2.2.1 == i) := by
    rw [hp]; exact List.count_pos_iff.mpr hl
  rw [List.countP_pos_iff] at hpos
  obtain ⟨⟨l', k, i', sq⟩, hm, he⟩ := hpos
  simp only [Bool.and_eq_true, beq_iff_eq] at he
  obtain ⟨rfl, rfl⟩ := he
  have hperm := cons_perm_cum m4.full.inv m4.full.vals.p.cons hd k
  have hin := hperm.mem_iff.mp (mem_appliedTo.mpr hm)
  rw [List.mem_append] at hin
  rcases hin with hin | hin
  · unfold inAccs at hin
    simp only [List.mem_flatMap, List.mem_filter, List.mem_range, List.mem_append] at hin
    obtain ⟨a, ⟨ha, _⟩, hh | hh⟩ := hin
    · exact absurd hh (hg4 a sq ha).1
    · exact absurd hh (hg4 a sq ha).2
  · unfold inSeries at hin
    simp only [List.mem_flatMap, List.mem_filter, beq_iff_eq] at hin
    obtain ⟨⟨k', h⟩, ⟨hmem, rfl⟩, hops⟩ := hin
    have hdo := m4.full.inv.wf.dataOk l' k' h hmem
    rcases hcum h sq hdo.1 hdo.2.1 hops with hh | ⟨pre, hpre, e, he1, he2, _, he4⟩
    · rw [ht2] at hh; cases hh
    · exact ⟨pre, hpre, e, sq, he1, he2, he4⟩

/-! ## C03 attribution -/

/-- C03. With collision safety on, and provided the attribute comparison only equates lists with the same attribute
set (proved for the actual comparison in C17), every measurement is applied to the series of its own attribute set
after the view's key filter, or to an overflow series: the view's overflow series, or (when the instrument itself
overflows) the series the view derives from the overflow attribute. No assumption on fingerprints. -/
theorem C03_attribution (hr : Reachable c n0 s) (hic : c.ignoreColl = false)
    (hsafe : ∀ a b, c.eqv a b = true → c.newSet a = c.newSet b)
    (l : Nat) (k : KS) (i sq : Nat) (h : (l, k, i, sq) ∈ s.applied) :
    k = c.filt l (c.newSet (s.op i).attrs) ∨ k = c.overflowKS ∨ k = c.filt l (c.newSet c.overflowAL) := by
  have same : ∀ a b, AttrSame c a b → c.newSet b = c.newSet a := by
    intro a b hab
    rcases hab with hab | ⟨_, hab | hab | hab⟩
    · rw [hab]
    · rw [hic] at hab; cases hab
    · exact (hsafe _ _ hab).symm
    · exact hsafe _ _ hab
  rcases (reachable_more hr).full.vals.p.appliedKey l k i sq h with h | ⟨b, hb | hb, hk⟩
  · right; left; exact h
  · left; rw [hk, same _ _ hb]
  · right; right; rw [hk, same _ _ hb]

/-- C03 (as seen in reports). The same for every measurement contained in a reported point. -/
theorem C03_reported_attribution (hr : Reachable c n0 s) (hic : c.ignoreColl = false)
    (hsafe : ∀ a b, c.eqv a b = true → c.newSet a = c.newSet b)
    (e : Emit KS S) (he : e ∈ s.emits) (i sq : Nat) (hi : (i, sq) ∈ e.ops) :
    e.key = c.filt e.leaf (c.newSet (s.op i).attrs) ∨ e.key = c.overflowKS ∨
      e.key = c.filt e.leaf (c.newSet c.overflowAL) :=
  C03_attribution hr hic hsafe _ _ _ _ (emit_applied (reachable_more hr) he hi)

/-! ## C04 recycling -/

/-- C04 (pinning). A record found in an unlocked table can always be pinned: `ref()` returns true. -/
theorem C04_pin_succeeds (hr : Reachable c n0 s) (o r : Nat) (hl : s.lock o = none) (hm : r ∈ s.table o) :
    (tryRef s r).2 = true := by
  have := (reachable_more hr).full.inv.even o r hl hm
  simp only [tryRef, refWord, beq_iff_eq]
  omega

/-- C04 (no spinning). The write path never takes the retry branch: when it is not blocked it ends with a record. -/
theorem C04_no_retry (hr : Reachable c n0 s) (i : Nat) (a : AL) (hpc : (s.op i).pc = .wr a)
    (hl : s.lock (s.op i).obs = none) : ∃ s' r, step c s (.op i) = some s' ∧ (s'.op i).pc = .ini r := by
  have hev := (reachable_more hr).full.inv.even
  simp only [step, stepOp, hpc, hl]
  cases hf : findWrite c s (s.op i).obs a with
  | some r =>
    have hm := (findWrite_spec hf).1
    have hw := hev _ r hl hm
    have h2 : (tryRef s r).2 = true := by simp only [tryRef, refWord, beq_iff_eq]; omega
    simp [acquireWrite, hf, h2, setOpPc]
  | none => simp [acquireWrite, hf, setOpPc]

/-- C04 (no writes after the final snapshot). Whenever a call is about to apply its update, the record is still in the
table, its accumulator has not had its final snapshot, and no task is performing the final snapshot of the record. -/
theorem C04_no_write_after_release (hr : Reachable c n0 s) (i r k sq a : Nat) (hpc : (s.op i).pc = .upd r k sq)
    (ha : (s.recs r).accs[k]? = some a) :
    r ∈ s.table (s.recs r).obs ∧ (s.acc a).released = false ∧ ∀ t, (s.task t).relR ≠ some r := by
  have h := (reachable_more hr).full.inv
  have hh : (s.op i).pc.holds r = true := by rw [hpc]; simp [OPc.holds]
  have h1 := upd_live h.wf h.ref h.relPos hh ha
  exact ⟨(pinned_live h.wf h.ref hh).1, h1.2.2.2.1, h1.2.2.2.2⟩

/-- C04 (removal only when unused). No call is using a record that has left its table, and nothing undrained is left
in it. -/
theorem C04_removed_unused (hr : Reachable c n0 s) (r : Nat) (hlt : r < s.nextRec)
    (hout : ¬ r ∈ s.table (s.recs r).obs) :
    (∀ i, (s.op i).pc.holds r = false) ∧ ∀ a, a ∈ (s.recs r).accs → (s.acc a).cur.ops = [] := by
  have h := (reachable_more hr).full.inv
  constructor
  · intro i
    cases hh : (s.op i).pc.holds r with
    | false => rfl
    | true => exact absurd (pinned_live h.wf h.ref hh).1 hout
  · intro a ha
    exact h.relEmpty a (h.wf.accsMem r a hlt ha).1 ((h.relDead r hlt hout).2 a ha)

/-! ## C08 readers are independent -/

/-- The view a collection task is working on. -/
def collecting (s : State AL KS N S) (t : Nat) : Option Nat := (s.task t).lockLeaf

/-- C08 (frame). A step of a collection of view `l'` changes nothing that matters to another view `l`: neither its
reports, nor the measurements it stores, nor those waiting in accumulators. -/
theorem C08_collect_frame (hr : Reachable c n0 s) {s' : State AL KS N S} (t ch l l' : Nat) (hne : l' ≠ l)
    (ht : collecting s t = some l') (hs : step c s (.task t ch) = some s') :
    (∀ k, reported s' l k = reported s l k) ∧ (∀ k, inSeries s' l k = inSeries s l k) ∧
    (∀ k, inAccs s' l k = inAccs s l k) ∧ s'.data l = s.data l ∧ s'.applied = s.applied ∧ s'.table = s.table := by
  have w := (reachable_more hr).full.inv.wf
  have hb : (l' == l) = false := by simpa using hne
  have hne' : l ≠ l' := fun e => hne e.symm
  -- holders of series of view `l` are not those of view `l'`
  have hold_ne : ∀ td k h n, s.task t = .lmv l' td k h n → ∀ k2 h2, (k2, h2) ∈ s.data l → h2 ≠ h := by
    intro td k h n hpc k2 h2 hm e
    subst e
    have h1 := (w.dataOk _ _ _ (w.lCur t l' td k h2 n hpc).1).2.1
    have h2' := (w.dataOk _ _ _ hm).2.1
    exact hne (h1.symm.trans h2')
  simp only [step, stepTask] at hs
  unfold collecting at ht
  cases hpc : s.task t with
  | lscan l2 td =>
    rw [hpc] at ht
    simp only [TPc.lockLeaf, Option.some.injEq] at ht
    subst ht
    rw [hpc] at hs
    simp only at hs
    split at hs
    · split at hs
      · simp only [Option.some.injEq] at hs; subst hs
        exact ⟨fun _ => rfl, fun _ => rfl, fun _ => rfl, rfl, rfl, rfl⟩
      · cases hs
    · split at hs
      · simp only [Option.some.injEq] at hs; subst hs
        exact ⟨fun _ => rfl, fun _ => rfl, fun _ => rfl, rfl, rfl, rfl⟩
      · simp only [Option.some.injEq] at hs; subst hs
        refine ⟨?_, fun _ => rfl, fun _ => rfl, rfl, rfl, rfl⟩
        intro k
        simp [reported, setTask, hb]
  | lmv l2 td k h n =>
    rw [hpc] at ht
    simp only [TPc.lockLeaf, Option.some.injEq] at ht
    subst ht
    have hh := hold_ne td k h n hpc
    rw [hpc] at hs
    simp only [Option.some.injEq] at hs
    have hser : ∀ (k2 : KS) (f : Nat → Holder KS S), (∀ x, x ≠ h → f x = s.hold x) →
        ((s.data l).filter (fun e => e.1 == k2)).flatMap (fun e => (f e.2).store.ops) = inSeries s l k2 := by
      intro k2 f hf
      unfold inSeries
      have hmem : ∀ e, e ∈ (s.data l).filter (fun e => e.1 == k2) → (f e.2).store.ops = (s.hold e.2).store.ops := by
        intro e he
        rw [hf e.2 (hh e.1 e.2 (List.mem_filter.mp he).1)]
      revert hmem
      generalize (s.data l).filter (fun e => e.1 == k2) = L
      intro hmem
      induction L with
      | nil => rfl
      | cons e t ih =>
        simp only [List.flatMap_cons]
        rw [hmem e (List.mem_cons_self ..), ih (fun e he => hmem e (List.mem_cons_of_mem _ he))]
    split at hs
    · subst hs
      refine ⟨?_, ?_, fun _ => rfl, by simp [setTask, setHold, hne'], rfl, rfl⟩
      · intro k2; simp [reported, setTask, setHold, hb]
      · intro k2
        simp only [inSeries, setTask, setHold, upd_ne _ _ hne']
        exact hser k2 _ (fun x hx => by simp [hx])
    · subst hs
      refine ⟨?_, ?_, fun _ => rfl, rfl, rfl, rfl⟩
      · intro k2; simp [reported, setTask, setHold, hb]
      · intro k2
        simp only [inSeries, setTask, setHold]
        exact hser k2 _ (fun x hx => by simp [hx])
  | _ => rw [hpc] at ht; cases ht

/-- C08 (result). Two delta views of the same instrument that have both been drained have received the same measurements,
each the number of times the instrument lists the view, whatever collections (of any reader) happened. -/
theorem C08_same_data (hr : Reachable c n0 s) (l l' : Nat) (hd : c.delta l = true) (hd' : c.delta l' = true) (i : Nat)
    (hdone : (s.op i).pc = .done) (hsame : (c.leavesOf (s.op i).obs).count l = (c.leavesOf (s.op i).obs).count l')
    (hacc : ∀ a sq, a < s.nextAcc → ¬ (i, sq) ∈ (s.acc a).cur.ops ∧ ¬ (i, sq) ∈ (s.acc a).snap.ops)
    (hser : ∀ k sq, ¬ (i, sq) ∈ inSeries s l k ∧ ¬ (i, sq) ∈ inSeries s l' k) :
    timesReported s l i = timesReported s l' i := by
  rw [C01_exactly_once_when_drained hr l hd i hdone hacc (fun k sq => (hser k sq).1),
    C01_exactly_once_when_drained hr l' hd' i hdone hacc (fun k sq => (hser k sq).2), hsame]

/-! ## C12 forgetting a series -/

/-- C12 (nothing stranded). A series that its view no longer lists holds no measurement and no live accumulator refers
to it. -/
theorem C12_forgotten_is_empty (hr : Reachable c n0 s) (h : Nat) (hlt : h < s.nextHold)
    (hgone : ¬ ((s.hold h).key, h) ∈ s.data (s.hold h).leaf) :
    (s.hold h).store.ops = [] ∧ ∀ a, a < s.nextAcc → (s.acc a).holder = h → (s.acc a).released = true :=
  (reachable_more hr).full.inv.stranded h hlt hgone

/-- C12 (merges go to listed series). Whenever a task is about to merge a snapshot into a series, the view lists that
series. -/
theorem C12_merge_into_listed (hr : Reachable c n0 s) (t o : Nat) (td : List Nat) (r m mN : Nat) (rel : Bool) (k a : Nat)
    (hpc : s.task t = .mg o td r m mN rel k) (ha : (s.recs r).accs[k]? = some a) :
    ((s.hold (s.acc a).holder).key, (s.acc a).holder) ∈ s.data (s.acc a).leaf := by
  have h := (reachable_more hr).full.inv
  have hta := task_acc h.wf h.relPos (t := t) (r := r) (k := k) (by rw [hpc]; rfl) ha (by rw [hpc]; rfl)
  have hh := h.wf.accHold a hta.2.1
  apply Classical.byContradiction
  intro hn
  have := (h.stranded _ hh.1 (by rw [hh.2.1]; exact hn)).2 a hta.2.1 rfl
  rw [hta.2.2.2.1] at this
  cases this

/-- C12 (reference counts). The reference count of a series is the number of accumulators that can still write to it. -/
theorem C12_refcount (hr : Reachable c n0 s) (h : Nat) (hlt : h < s.nextHold) :
    (s.hold h).aux = (((List.range s.nextAcc).filter (fun a => decide ((s.acc a).holder = h) && !(s.acc a).released)).length : Int) := by
  rw [(reachable_more hr).full.inv.aux h hlt]
  unfold refsOf
  congr 1
  generalize s.nextAcc = n
  induction n with
  | zero => rfl
  | succ n ih =>
    rw [sumTo_succ, List.range_succ, List.filter_append, List.length_append, ih]
    congr 1
    cases hq : (decide ((s.acc n).holder = h) && !(s.acc n).released) <;> simp [one, hq]

/-! ## Concrete cases -/

section Examples
open Verif.Examples

/-- The schedule `sched0` (two calls on colliding attribute lists, overlapping with a snapshot) followed by `sched1`
(snapshot, then collection of the delta and of the cumulative view) is executable and ends with both calls returned,
all tasks done, and one point per series. -/
theorem ex_run : ∃ s, run cfg init0 (sched0 ++ sched1) = some s ∧
    (s.op 0).pc = .done ∧ (s.op 1).pc = .done ∧
    s.emits.map (fun e => (e.leaf, e.key, e.val.value.toNat, e.ops.map (·.1))) =
      [(1, 0, 12, [0, 1]), (0, 1, 5, [0]), (0, 5, 7, [1])] :=
  exists_of_eval (by decide +kernel)

/-- C01, C03: a reachable state with reported points to which the theorems apply. -/
example : ∃ s : St, Reachable cfg 0 s ∧ s.emits.length = 3 ∧ timesReported s 0 1 = 1 ∧ (s.op 1).pc = .done := by
  obtain ⟨s, h1, h2⟩ : ∃ s, run cfg init0 (sched0 ++ sched1) = some s ∧
    (s.emits.length = 3 ∧ timesReported s 0 1 = 1 ∧ (s.op 1).pc = .done) := exists_of_eval (by decide +kernel)
  exact ⟨s, ⟨_, h1⟩, h2⟩

/-- C03: the fingerprints of attribute lists 1 and 5 really collide in this configuration, and the comparison hypothesis
of the theorem holds. -/
example : cfg.fp 1 = cfg.fp 5 ∧ cfg.ignoreColl = false ∧ (∀ a b, cfg.eqv a b = true → cfg.newSet a = cfg.newSet b) :=
  ⟨by decide, rfl, fun a b h => by simpa [cfg] using h⟩

/-- C02: all hypotheses of `C02_delta` hold for call 1 in the state after `sched0`, with the tasks of `sched1`. -/
example : ∃ s s1 s2 s3 s4 : St, Reachable cfg 0 s ∧ (s.op 1).pc = .done ∧ (s.op 1).obs = 0 ∧
    step cfg s (.snapshot 0) = some s1 ∧ run cfg s1 (steps 1 12) = some s2 ∧
    Along cfg (NoWrap cfg 0) s1 (steps 1 12) ∧ s2.task s.nextTask = .done ∧
    step cfg s2 (.collect 0) = some s3 ∧ run cfg s3 (steps 2 6) = some s4 ∧ s4.task s2.nextTask = .done := by
  obtain ⟨s, h1, hd, ho, hn⟩ : ∃ s, run cfg init0 sched0 = some s ∧ ((s.op 1).pc = .done ∧ (s.op 1).obs = 0 ∧
    s.nextTask = 1) := exists_of_eval (by decide +kernel)
  obtain ⟨s1, hs1, hw⟩ : ∃ s1, run cfg init0 (sched0 ++ [.snapshot 0]) = some s1 ∧
    alongB (fun s => decide (NoWrap cfg 0 s)) s1 (steps 1 12) = true := exists_of_eval (by decide +kernel)
  obtain ⟨s2, hs2, ht, hn2⟩ : ∃ s2, run cfg init0 (sched0 ++ [.snapshot 0] ++ steps 1 12) = some s2 ∧
    (s2.task 1 = .done ∧ s2.nextTask = 2) := exists_of_eval (by decide +kernel)
  obtain ⟨s3, hs3, _⟩ : ∃ s3, run cfg init0 (sched0 ++ [.snapshot 0] ++ steps 1 12 ++ [.collect 0]) = some s3 ∧
    s3.nextTask = 3 := exists_of_eval (by decide +kernel)
  obtain ⟨s4, hs4, ht4⟩ : ∃ s4, run cfg init0 (sched0 ++ [.snapshot 0] ++ steps 1 12 ++ [.collect 0] ++ steps 2 6) = some s4 ∧
    s4.task 2 = .done := exists_of_eval (by decide +kernel)
  rw [run_append, h1] at hs1
  rw [run_append, run_append, h1] at hs2
  rw [run_append, run_append, run_append, h1] at hs3
  rw [run_append, run_append, run_append, run_append, h1] at hs4
  simp only [Option.bind_some] at hs1 hs2 hs3 hs4
  rw [hs1] at hs2 hs3 hs4
  simp only [Option.bind_some] at hs2 hs3 hs4
  rw [hs2] at hs3 hs4
  simp only [Option.bind_some] at hs3 hs4
  rw [hs3] at hs4
  simp only [Option.bind_some] at hs4
  simp only [run_one] at hs1 hs3
  exact ⟨s, s1, s2, s3, s4, ⟨_, h1⟩, hd, ho, hs1, hs2, along_of_eval hw, by rw [hn]; exact ht, hs3, hs4,
    by rw [hn2]; exact ht4⟩

end Examples

end Verif.Props
