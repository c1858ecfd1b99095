import Verif.Props.SyncAccounting
import Verif.Props.SyncValues
import Verif.Proof.SyncIdle
import Verif.Model.Times

/-!
C83: a delta point contains the measurements of its interval.

A collection reads the clock first (producer.go:56-60): this is the end of its interval, and the start of the interval of the reader's next collection
(C35). Then, for each meter, callbacks run, `SnapshotAndProcess` runs on its instruments, and `Collect` on its views (producer.go:78-85, 91-127).
-/

namespace Verif.Props
open Verif Verif.Sync Verif.Aggr Verif.Number Verif.Examples
variable {AL KS N S : Type} [DecidableEq KS] {c : Cfg AL KS N S} {n0 : N}

/-- One collection, as far as instrument `o` and its view `l` are concerned: the clock is read in state `s`; later `SnapshotAndProcess` of the instrument
starts and ends; later `Collect` of the view starts and ends; this is in state `s'`. Anything else may happen in between. The proviso on
wrapping counters is that of C02. -/
def Collection (c : Cfg AL KS N S) (o l : Nat) (s s' : State AL KS N S) : Prop :=
  ∃ (s0 s1 s2 s3 : State AL KS N S) (acts0 acts1 acts2 : List (Action AL N)),
    run c s acts0 = some s0 ∧ step c s0 (.snapshot o) = some s1 ∧ run c s1 acts1 = some s2 ∧ Along c (NoWrap c o) s1 acts1 ∧
    s2.task s0.nextTask = .done ∧ step c s2 (.collect l) = some s3 ∧ run c s3 acts2 = some s' ∧ s'.task s2.nextTask = .done

theorem reach_run {s s' : State AL KS N S} {acts : List (Action AL N)} (hr : Reachable c n0 s) (h : run c s acts = some s') : Reachable c n0 s' := by
  obtain ⟨as, has⟩ := hr
  exact ⟨as ++ acts, by rw [run_append, has]; exact h⟩

theorem Collection.reach {o l : Nat} {s s' : State AL KS N S} (h : Collection c o l s s') (hr : Reachable c n0 s) : Reachable c n0 s' := by
  obtain ⟨s0, s1, s2, s3, a0, a1, a2, h0, h1, h2, _, _, h3, h4, _⟩ := h
  exact reach_run (reachable_step (reach_run (reachable_step (reach_run hr h0) h1) h2) h3) h4

theorem grow_run {s s' : State AL KS N S} {acts : List (Action AL N)} (hr : Reachable c n0 s) (h : run c s acts = some s') :
    ∃ pre, s'.emits = pre ++ s.emits :=
  (run_ind (P := fun t => ∃ pre, t.emits = pre ++ s.emits) (Q := fun _ => True) (reachable_more hr).full ⟨[], rfl⟩ (along_true acts)
    (fun _ _ _ _ hp hs => emits_grow hp hs) h).2

/-- C83 (not before the interval). A call had returned when the clock was read by a collection of a delta view. Once that collection is over, no point
of the view made from then on contains the call; so points whose interval starts at that clock reading contain only calls which had not returned
at the start of the interval. -/
theorem C83_not_before_partial {s s' t : State AL KS N S} {acts : List (Action AL N)} {i l : Nat} (hr : Reachable c n0 s) (hdone : (s.op i).pc = .done)
    (hd : c.delta l = true) (hcol : Collection c (s.op i).obs l s s') (hrun : run c s' acts = some t) :
    ∃ pre, t.emits = pre ++ s'.emits ∧ ∀ e ∈ pre, e.leaf = l → ∀ sq, (i, sq) ∉ e.ops := by
  have hr' := hcol.reach hr
  obtain ⟨s0, s1, s2, s3, a0, a1, a2, h0, h1, h2, hw, ht1, h3, h4, ht2⟩ := hcol
  have hf0 : Finished s0 i (s.op i).obs := Finished.run (reachable_more hr).full ⟨hdone, rfl⟩ h0
  have hr0 := reach_run hr h0
  rw [← hf0.2] at h1 hw
  have h5 := C02_delta hr0 hf0.1 hd h1 h2 hw ht1 h3 h4 ht2
  have hft : Finished t i (s.op i).obs := by
    have hr1 := reachable_step hr0 h1
    have hf1 := hf0.preserved (reachable_more hr0).full.inv.wf ((reachable_more hr0).full.inv.step_sound h1)
    have hf2 := hf1.run (reachable_more hr1).full h2
    have hr2 := reach_run hr1 h2
    have hf3 := hf2.preserved (reachable_more hr2).full.inv.wf ((reachable_more hr2).full.inv.step_sound h3)
    have hf4 := hf3.run (reachable_more (reachable_step hr2 h3)).full h4
    exact hf4.run (reachable_more hr').full hrun
  have h6 := C01_at_most_once (reach_run hr' hrun) l hd i
  obtain ⟨pre, hpre⟩ := grow_run hr' hrun
  refine ⟨pre, hpre, ?_⟩
  intro e he hl sq hm
  have hcount : timesReported t l i = ((pre.filter (fun e => e.leaf == l)).flatMap (·.ops)).countP (fun e => e.1 == i) + timesReported s' l i := by
    unfold timesReported reportedView
    rw [hpre, List.filter_append, List.flatMap_append, List.countP_append]
  have hpos : 0 < ((pre.filter (fun e => e.leaf == l)).flatMap (·.ops)).countP (fun e => e.1 == i) := by
    rw [List.countP_pos_iff]
    refine ⟨(i, sq), ?_, by simp⟩
    rw [List.mem_flatMap]
    exact ⟨e, List.mem_filter.2 ⟨he, by simp [hl]⟩, hm⟩
  rw [hft.2] at h6
  rw [hf0.2] at h5
  omega

/-- C83 (whose interval). Two consecutive collections of a delta view by one reader, the second beginning when the first is over: every call in a point
the second one makes had not returned when the first read its clock (the start of the interval), and it began before the second was over.
Missing: that it began before the second read its clock (the end of the interval), which is false (`C83_after_end_fails`), and collections which
overlap (`C83_overlap_fails`). -/
theorem C83_interval_partial {s s' t t' : State AL KS N S} {acts : List (Action AL N)} {o l : Nat} (hr : Reachable c n0 s) (hd : c.delta l = true)
    (hfeeds : ∀ i, l ∈ c.leavesOf i → i = o) (h1 : Collection c o l s s') (h2 : run c s' acts = some t) (h3 : Collection c o l t t') :
    ∃ pre, t'.emits = pre ++ s'.emits ∧ ∀ e ∈ pre, e.leaf = l → ∀ i sq, (i, sq) ∈ e.ops → (s.op i).pc ≠ .done ∧ i < t'.nextOp := by
  have hr' := h1.reach hr
  have hrt := reach_run hr' h2
  obtain ⟨acts', hrun⟩ : ∃ acts', run c s' acts' = some t' := by
    obtain ⟨s0, s1, s2, s3, a0, a1, a2, g0, g1, g2, _, _, g3, g4, _⟩ := h3
    refine ⟨acts ++ (a0 ++ (.snapshot o :: (a1 ++ (.collect l :: a2)))), ?_⟩
    rw [run_append, h2, Option.bind_some, run_append, g0, Option.bind_some]
    show (step c s0 (.snapshot o)).bind _ = _
    rw [g1, Option.bind_some, run_append, g2, Option.bind_some]
    show (step c s2 (.collect l)).bind _ = _
    rw [g3, Option.bind_some]
    exact g4
  obtain ⟨pre, hpre⟩ := grow_run hr' hrun
  refine ⟨pre, hpre, ?_⟩
  intro e he hl i sq hm
  have hrt' := reach_run hr' hrun
  obtain ⟨hlt, hfeed⟩ := C01_nothing_invented hrt' e (by rw [hpre]; exact List.mem_append_left _ he) i sq hm
  refine ⟨?_, hlt⟩
  intro hdone
  rw [hl] at hfeed
  have hft : (t'.op i).obs = (s.op i).obs := by
    obtain ⟨b0, hb0⟩ : ∃ b0, run c s b0 = some s' := by
      obtain ⟨s0, s1, s2, s3, a0, a1, a2, g0, g1, g2, _, _, g3, g4, _⟩ := h1
      refine ⟨a0 ++ (.snapshot o :: (a1 ++ (.collect l :: a2))), ?_⟩
      rw [run_append, g0, Option.bind_some]
      show (step c s0 (.snapshot o)).bind _ = _
      rw [g1, Option.bind_some, run_append, g2, Option.bind_some]
      show (step c s2 (.collect l)).bind _ = _
      rw [g3, Option.bind_some]
      exact g4
    exact ((Finished.run (reachable_more hr).full ⟨hdone, rfl⟩ hb0).run (reachable_more hr').full hrun).2
  have hobs : (s.op i).obs = o := by rw [← hft]; exact hfeeds _ hfeed
  rw [← hobs] at h1
  obtain ⟨pre', hpre', hno⟩ := C83_not_before_partial hr hdone hd h1 hrun
  have : pre' = pre := List.append_cancel_right (hpre'.symm.trans hpre)
  subst this
  exact hno e he hl sq hm

section Examples

/-- Run a collection of the small configuration: what happens between reading the clock and the snapshot, during the snapshot, and during `Collect`. -/
def evalCollection (o l : Nat) (s : St) (acts0 acts1 acts2 : List Act) : Option St :=
  (run cfg s acts0).bind fun s0 => (step cfg s0 (.snapshot o)).bind fun s1 => (run cfg s1 acts1).bind fun s2 =>
    (step cfg s2 (.collect l)).bind fun s3 => (run cfg s3 acts2).bind fun s' =>
      if alongB (fun s => decide (NoWrap cfg o s)) s1 acts1 = true ∧ s2.task s0.nextTask = .done ∧ s'.task s2.nextTask = .done then some s' else none

theorem collection_of_eval {o l : Nat} {s s' : St} {acts0 acts1 acts2 : List Act} (h : evalCollection o l s acts0 acts1 acts2 = some s') :
    Collection cfg o l s s' := by
  unfold evalCollection at h
  simp only [Option.bind_eq_some_iff] at h
  obtain ⟨s0, h0, s1, h1, s2, h2, s3, h3, s4, h4, h5⟩ := h
  split at h5
  · rename_i hc
    simp only [Option.some.injEq] at h5
    subst h5
    exact ⟨s0, s1, s2, s3, _, _, _, h0, h1, h2, along_of_eval hc.1, hc.2.1, h3, h4, hc.2.2⟩
  · cases h5

/-- C83 fails in full (end of the interval). A collection reads its clock before any call is made; then a call is made and returns; then the collection takes
its snapshot: the point it reports contains the call, which began after the end of the interval. -/
theorem C83_after_end_fails :
    ¬ ∀ (s s' : St), Reachable cfg 0 s → Collection cfg 0 0 s s' → ∀ pre, s'.emits = pre ++ s.emits → ∀ e ∈ pre, e.leaf = 0 →
      ∀ i sq, (i, sq) ∈ e.ops → i < s.nextOp := by
  intro h
  obtain ⟨s', h1, h2, h3⟩ : ∃ s', evalCollection 0 0 init0 ([.observe 0 1 7] ++ call 0 12) (steps 0 11) (steps 1 4) = some s' ∧
      (s'.emits.map (fun e => (e.leaf, e.ops.map (·.1))) = [(0, [0])] ∧ s'.nextOp = 1) := exists_of_eval (by decide +kernel)
  cases he : s'.emits with
  | nil => rw [he] at h2; cases h2
  | cons e es =>
    rw [he] at h2
    simp only [List.map_cons, List.cons.injEq, Prod.mk.injEq] at h2
    obtain ⟨⟨hl, hops⟩, _⟩ := h2
    cases ho : e.ops with
    | nil => rw [ho] at hops; cases hops
    | cons p ps =>
      rw [ho] at hops
      simp only [List.map_cons, List.cons.injEq] at hops
      have := h init0 s' ⟨[], rfl⟩ (collection_of_eval h1) s'.emits (by simp [init0, initial]) e (by rw [he]; exact List.mem_cons_self) hl p.1 p.2
        (by rw [ho]; exact List.mem_cons_self)
      exact absurd this (by simp [init0, initial])

/-- C83 fails for collections of one reader which overlap. A call returns; collection A reads its clock (5); collection B reads its clock (6), so its interval
is from 5 to 6; B takes the snapshot and collects before A does: its point contains the call, which had returned before 5. -/
theorem C83_overlap_fails :
    (Times.history (Times.new 0) [(0, 5), (0, 6)]).map (fun x => (x.2.last, x.2.now)) = [(0, 5), (5, 6)] ∧
    ∃ s t : St, Reachable cfg 0 s ∧ (s.op 0).pc = .done ∧ Collection cfg 0 0 s t ∧
      ∃ pre, t.emits = pre ++ s.emits ∧ ∃ e ∈ pre, e.leaf = 0 ∧ ∃ sq, (0, sq) ∈ e.ops := by
  refine ⟨by decide, ?_⟩
  obtain ⟨s, h1, h2, h3⟩ : ∃ s, run cfg init0 ([.observe 0 1 7] ++ call 0 12) = some s ∧ ((s.op 0).pc = .done ∧ s.emits.length = 0) :=
    exists_of_eval (by decide +kernel)
  obtain ⟨t, g1, g2⟩ : ∃ t, (run cfg init0 ([.observe 0 1 7] ++ call 0 12)).bind (fun s => evalCollection 0 0 s [] (steps 0 11) (steps 1 4)) = some t ∧
      t.emits.map (fun e => (e.leaf, e.ops.map (·.1))) = [(0, [0])] := exists_of_eval (by decide +kernel)
  rw [h1, Option.bind_some] at g1
  refine ⟨s, t, ⟨_, h1⟩, h2, collection_of_eval g1, t.emits, ?_, ?_⟩
  · rw [List.eq_nil_of_length_eq_zero h3, List.append_nil]
  · cases he : t.emits with
    | nil => rw [he] at g2; cases g2
    | cons e es =>
      rw [he] at g2
      simp only [List.map_cons, List.cons.injEq, Prod.mk.injEq] at g2
      obtain ⟨⟨hl, hops⟩, _⟩ := g2
      cases ho : e.ops with
      | nil => rw [ho] at hops; cases hops
      | cons p ps =>
        rw [ho] at hops
        simp only [List.map_cons, List.cons.injEq] at hops
        refine ⟨e, List.mem_cons_self, hl, p.2, ?_⟩
        rw [ho, ← hops.1]
        exact List.mem_cons_self

/-- C83: two consecutive collections with a call before the first, one during it (between clock and snapshot) and one between them; the hypotheses of
`C83_interval_partial` hold, and the second collection reports only the last call. -/
example : ∃ s s' t' : St, Reachable cfg 0 s ∧ (∀ i, 0 ∈ cfg.leavesOf i → i = 0) ∧ cfg.delta 0 = true ∧ Collection cfg 0 0 s s' ∧ Collection cfg 0 0 s' t' ∧
    s'.emits.map (fun e => e.ops.map (·.1)) = [[1, 0]] ∧ t'.emits.map (fun e => e.ops.map (·.1)) = [[2], [1, 0]] := by
  obtain ⟨s, h1, _⟩ : ∃ s, run cfg init0 ([.observe 0 1 7] ++ call 0 12) = some s ∧ True := exists_of_eval (by decide +kernel)
  obtain ⟨s', g1, g2⟩ : ∃ t, (run cfg init0 ([.observe 0 1 7] ++ call 0 12)).bind (fun s => evalCollection 0 0 s ([.observe 0 1 8] ++ call 1 9) (steps 0 11) (steps 1 4)) = some t ∧
      t.emits.map (fun e => e.ops.map (·.1)) = [[1, 0]] := exists_of_eval (by decide +kernel)
  obtain ⟨t', k1, k2⟩ : ∃ t, ((run cfg init0 ([.observe 0 1 7] ++ call 0 12)).bind (fun s => evalCollection 0 0 s ([.observe 0 1 8] ++ call 1 9) (steps 0 11) (steps 1 4))).bind
      (fun s' => evalCollection 0 0 s' ([.observe 0 1 9] ++ call 2 9) (steps 2 11) (steps 3 4)) = some t ∧
      t.emits.map (fun e => e.ops.map (·.1)) = [[2], [1, 0]] := exists_of_eval (by decide +kernel)
  rw [h1, Option.bind_some] at g1 k1
  rw [g1, Option.bind_some] at k1
  refine ⟨s, s', t', ⟨_, h1⟩, ?_, rfl, collection_of_eval g1, collection_of_eval k1, g2, k2⟩
  intro i hi
  simp only [cfg] at hi
  split at hi
  · assumption
  · split at hi <;> simp at hi

end Examples

end Verif.Props
