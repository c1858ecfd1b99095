import Verif.Proof.SyncValues
import Verif.Proof.Number
import Verif.Examples.SyncCfg

/-!
# Values reported by the synchronous pipeline (C06, C07, C13, C14, C54)

`Reachable` and the vocabulary are those of `Props/SyncAccounting.lean` and `Spec/Sync.lean`. `values s ops` are the
numbers recorded by the calls in `ops`. Integers are 64-bit words with wrapping addition, `total64` is their sum.
-/

namespace Verif.Props
open Verif Verif.Sync Verif.Number Verif.Aggr Verif.Spec
variable {AL KS H : Type} [DecidableEq KS] {hh : HistOps Bits H}
variable {c : Cfg AL KS Bits (Cell Bits H)} {n0 : Bits} {s s' : State AL KS Bits (Cell Bits H)}

/-! ## C06 integer delta sums -/

/-- C06 (one point). An integer sum point, delta or cumulative, carries the 64-bit sum of exactly the measurements it
contains. -/
theorem C06_point (hr : Reachable c n0 s) (e : Emit KS (Cell Bits H)) (he : e ∈ s.emits)
    (ha : c.agg e.leaf = sumAgg intOps hh) : e.val.value = total64 (values s e.ops) :=
  int_point (reachable_more hr) he ha

/-- C06 (suppressed points). A point that is not exported because it shows no change has value zero. -/
theorem C06_suppressed_is_zero (hr : Reachable c n0 s) (e : Emit KS (Cell Bits H)) (he : e ∈ s.emits)
    (ha : c.agg e.leaf = sumAgg intOps hh) (hk : e.kept = false) : e.val.value = 0 :=
  suppressed_zero (reachable_kept hr) he ha hk

/-- C06 (one output metric, any moment). The sum of all exported values of a delta view plus the sum of what is still
pending in memory is the sum of all measurements applied to it. -/
theorem C06_total (hr : Reachable c n0 s) (l : Nat) (hd : c.delta l = true) (ha : c.agg l = sumAgg intOps hh) :
    total64 ((exported s l).map (·.val.value)) + total64 (values s (inAccsAll s l ++ inSeriesAll s l)) =
      total64 (values s (appliedAll s l)) := by
  have hm := reachable_more hr
  have hp := values_perm (s := s) (view_cons hm hd)
  rw [total64_perm hp, List.append_assoc, values_append (reportedView s l), total64_append]
  congr 1
  unfold reportedView
  rw [total64_flatMap (s := s) _ (fun e : Emit KS (Cell Bits H) => e.ops) (fun e => e.val.value)]
  · rw [total64_kept (s.emits.filter (fun e => e.leaf == l))]
    · unfold exported
      rw [List.filter_filter]
      congr 2
      apply List.filter_congr
      intro e _
      exact Bool.and_comm _ _
    · intro e he hk
      rw [List.mem_filter] at he
      have hl : e.leaf = l := by simpa using he.2
      exact suppressed_zero (reachable_kept hr) he.1 (by rw [hl]; exact ha) hk
  · intro e he
    rw [List.mem_filter] at he
    have hl : e.leaf = l := by simpa using he.2
    exact int_point hm he.1 (by rw [hl]; exact ha)

/-- C06 (against what the user recorded). Once every call has returned, exported plus pending is the sum of all recorded
values. -/
theorem C06_total_recorded (hr : Reachable c n0 s) (l : Nat) (hd : c.delta l = true) (ha : c.agg l = sumAgg intOps hh)
    (hall : ∀ i, i < s.nextOp → (s.op i).pc = .done) :
    total64 ((exported s l).map (·.val.value)) + total64 (values s (inAccsAll s l ++ inSeriesAll s l)) =
      total64 (recorded c s l) := by
  rw [C06_total hr l hd ha]
  exact total64_perm (applied_calls (reachable_more hr) l hall)

/-- C06 (one series, any moment). The same for every single series of the view. -/
theorem C06_series (hr : Reachable c n0 s) (l : Nat) (hd : c.delta l = true) (ha : c.agg l = sumAgg intOps hh) (k : KS) :
    total64 (((exported s l).filter (fun e => e.key == k)).map (·.val.value)) +
        total64 (values s (inAccs s l k ++ inSeries s l k)) = total64 (values s (appliedTo s l k)) := by
  have hm := reachable_more hr
  have hp := values_perm (s := s) (cons_perm hm.full.inv hm.full.vals.p.cons hd k)
  rw [total64_perm hp, List.append_assoc, values_append (reported s l k), total64_append]
  congr 1
  unfold reported
  have hleaf : ∀ e, e ∈ s.emits.filter (fun e => e.leaf == l && e.key == k) → e ∈ s.emits ∧ e.leaf = l := by
    intro e he
    rw [List.mem_filter, Bool.and_eq_true, beq_iff_eq] at he
    exact ⟨he.1, he.2.1⟩
  rw [total64_flatMap (s := s) _ (fun e : Emit KS (Cell Bits H) => e.ops) (fun e => e.val.value)]
  · rw [total64_kept (s.emits.filter (fun e => e.leaf == l && e.key == k))]
    · unfold exported
      rw [List.filter_filter, List.filter_filter]
      congr 2
      apply List.filter_congr
      intro e _
      cases e.leaf == l <;> cases e.key == k <;> cases e.kept <;> rfl
    · intro e he hk
      exact suppressed_zero (reachable_kept hr) (hleaf e he).1 (by rw [(hleaf e he).2]; exact ha) hk
  · intro e he
    exact int_point hm (hleaf e he).1 (by rw [(hleaf e he).2]; exact ha)

/-! ## C07 cumulative sums -/

section Generic
variable {N S : Type} {c : Cfg AL KS N S} {n0 : N} {s s' s1 s2 : State AL KS N S}

/-- C07 (everything so far). The moment a cumulative point is produced, it contains all measurements of its series since
the start except those still in accumulators: nothing drained is missing, and no history is lost. Any aggregator. -/
theorem C07_reports_all_drained (hr : Reachable c n0 s) {a : Action AL N} (hs : step c s a = some s') (e : Emit KS S)
    (he : s'.emits = e :: s.emits) (hd : c.delta e.leaf = false) :
    (appliedTo s e.leaf e.key).Perm (inAccs s e.leaf e.key ++ e.ops) := by
  have hm := reachable_more hr
  exact cum_emit_step (a := a) hm (hm.full.inv.step_sound hs) he hd

/-- C07 (series are never removed). -/
theorem C07_series_stay (hr : Reachable c n0 s) {acts : List (Action AL N)} (hs : run c s acts = some s') (l : Nat)
    (hd : c.delta l = false) (e : KS × Nat) (he : e ∈ s.data l) : e ∈ s'.data l :=
  cum_data_run hd (reachable_more hr) he hs

/-- C07 (every series is reported). A collection of a cumulative view that completes, interleaved with anything, reports
a point for every series the view had when the collection was requested. -/
theorem C07_every_series_reported (hr : Reachable c n0 s) {acts : List (Action AL N)} (l : Nat) (hd : c.delta l = false)
    (h1 : step c s (.collect l) = some s1) (h2 : run c s1 acts = some s2) (ht : s2.task s.nextTask = .done)
    (k : KS) (h : Nat) (hk : (k, h) ∈ s.data l) :
    ∃ pre, s2.emits = pre ++ s.emits ∧ ∃ e, e ∈ pre ∧ e.leaf = l ∧ e.key = k ∧ e.kept = true := by
  have hm := reachable_more hr
  have hm1 := hm.step h1
  have hE : Each s1 s.nextTask l k s.emits := by
    simp only [step, Option.some.injEq] at h1
    subst h1
    exact ⟨⟨[], rfl⟩, Or.inl ⟨by simp, h, hk⟩⟩
  have hE2 := each_run hd hm1 hE h2
  have hr2 : Reachable c n0 s2 := by
    obtain ⟨as, ha⟩ := hr
    refine ⟨as ++ .collect l :: acts, ?_⟩
    rw [run_append, ha]
    simp only [Option.bind_some, run, h1]
    exact h2
  rcases hE2.2 with ⟨h3, _⟩ | ⟨_, _, h3, _⟩ | ⟨pre, e, h3, h4, h5, h6⟩
  · rw [ht] at h3; cases h3
  · rw [ht] at h3; cases h3
  · refine ⟨pre, h3, e, h4, h5, h6, ?_⟩
    have := reachable_kept hr2 e (by rw [h3]; exact List.mem_append_left _ h4)
    rw [h5, hd] at this
    simpa using this

/-- C07 (history). Of two points of the same cumulative series the later one contains everything in the earlier one.
(`emits` is newest first.) -/
theorem C07_history (hr : Reachable c n0 s) :
    s.emits.Pairwise (fun new old => old.leaf = new.leaf → old.key = new.key → c.delta new.leaf = false →
      old.ops <:+ new.ops) :=
  (reachable_more hr).cumMono

end Generic

/-- C07 (value). A cumulative integer sum point is the sum of all measurements of its series since the start, except
those still in accumulators. -/
theorem C07_value (hr : Reachable c n0 s) {a : Action AL Bits} (hs : step c s a = some s') (e : Emit KS (Cell Bits H))
    (he : s'.emits = e :: s.emits) (hd : c.delta e.leaf = false) (ha : c.agg e.leaf = sumAgg intOps hh) :
    e.val.value + total64 (values s (inAccs s e.leaf e.key)) = total64 (values s (appliedTo s e.leaf e.key)) := by
  have hm := reachable_more hr
  have hp := cum_emit_step (a := a) hm (hm.full.inv.step_sound hs) he hd
  have hm' := hm.step hs
  have hv := int_point hm' (e := e) (by rw [he]; exact List.mem_cons_self ..) ha
  have hnum : values s' e.ops = values s e.ops := by
    unfold values
    apply List.map_congr_left
    intro x hx
    have happ := mem_appliedTo.mp (hp.mem_iff.mpr (List.mem_append_right _ hx))
    have hlt := applied_lt hm.full.vals.p.prog hm.full.inv.wf happ
    have hst := hm.full.inv.step_sound hs
    have : (s'.op x.1).num = (s.op x.1).num := by
      clear hv he hp hm hm' hs hr happ ha hd hx
      cases hst
      all_goals first
       | rfl
       | (ssimp; grind)
    exact this
  rw [hv, hnum, total64_perm (values_perm (s := s) hp), values_append, total64_append, BitVec.add_comm]

/-- C07 (monotone). With non-negative values and no overflow of the newer total, successive values of a cumulative
integer sum series never decrease. -/
theorem C07_monotone (hr : Reachable c n0 s) :
    s.emits.Pairwise (fun new old => old.leaf = new.leaf → old.key = new.key → c.delta new.leaf = false →
      c.agg new.leaf = sumAgg intOps hh → (∀ v, v ∈ values s new.ops → 0 ≤ v.toInt) →
      ((values s new.ops).map BitVec.toInt).sum < 2 ^ 63 → old.val.value.toInt ≤ new.val.value.toInt) := by
  have hm := reachable_more hr
  have h := hm.cumMono
  have hall : ∀ e, e ∈ s.emits → c.agg e.leaf = sumAgg intOps hh → e.val.value = total64 (values s e.ops) :=
    fun e he ha => int_point hm he ha
  unfold CumMono at h
  revert h hall
  generalize s.emits = L
  intro h hall
  induction h with
  | nil => exact .nil
  | @cons e t h1 _ ih =>
    refine .cons ?_ (ih (fun x hx => hall x (List.mem_cons_of_mem _ hx)))
    intro old hold hl hk hd ha hnn hlt
    obtain ⟨pre, hpre⟩ := h1 old hold hl hk hd
    rw [hall e (List.mem_cons_self ..) ha, hall old (List.mem_cons_of_mem _ hold) (by rw [hl]; exact ha)]
    rw [← hpre, values_append] at hnn hlt ⊢
    have hsum : ((values s pre ++ values s old.ops).map BitVec.toInt).sum =
        ((values s pre).map BitVec.toInt).sum + ((values s old.ops).map BitVec.toInt).sum := by
      rw [List.map_append, List.sum_append]
    have hpos : 0 ≤ ((values s pre).map BitVec.toInt).sum := by
      have : ∀ x, x ∈ (values s pre).map BitVec.toInt → 0 ≤ x := by
        intro x hx
        rw [List.mem_map] at hx
        obtain ⟨y, hy, rfl⟩ := hx
        exact hnn y (List.mem_append_left _ hy)
      generalize (values s pre).map BitVec.toInt = P at this
      induction P with
      | nil => simp
      | cons a b ihh =>
        have h1 := this a (List.mem_cons_self ..)
        have h2 := ihh (fun x hx => this x (List.mem_cons_of_mem _ hx))
        simp only [List.sum_cons]; omega
    have t1 := total64_toInt _ hnn hlt
    have t2 := total64_toInt (values s old.ops) (fun v hv => hnn v (List.mem_append_right _ hv)) (by omega)
    rw [t1.1, t2.1]; omega

/-! ## C13 MinMaxSumCount -/

/-- The storage the aggregator's methods produce for a split. -/
def evalSplit {N S : Type} (ag : Agg N S) : Split N → S
  | .empty => ag.init
  | .update t n => ag.upd (evalSplit ag t) n 1
  | .emptied t => ag.reset (evalSplit ag t)
  | .merge a b => ag.merge (evalSplit ag a) (evalSplit ag b)

theorem mmsc_split {N H : Type} {o : Ops N} {hh : HistOps N H} {ok : N → Prop} (hl : LtLaws o.lt ok) (t : Split N)
    (hok : ∀ x, x ∈ t.contents → ok x) : MmscIs o (evalSplit (mmscAgg o hh) t) t.contents := by
  induction t with
  | empty => exact ⟨rfl, .zero, fun h => absurd rfl h⟩
  | emptied t _ => exact ⟨rfl, .zero, fun h => absurd rfl h⟩
  | update t n ih => exact (ih (fun x hx => hok x (List.mem_cons_of_mem _ hx))).upd hl n
  | merge a b iha ihb =>
    refine (iha (fun x hx => hok x (List.mem_append_right _ hx))).merge hl (ihb (fun x hx => hok x (List.mem_append_left _ hx))) ?_
    intro x hx
    rcases hx with hx | hx
    · exact hok x (List.mem_append_right _ hx)
    · exact hok x (List.mem_append_left _ hx)

theorem describes_of {N H : Type} {o : Ops N} {v : Cell N H} {vals : List N} (h : MmscIs o v vals) :
    Describes o.zero o.add o.lt v.min v.max v.sum v.count vals :=
  ⟨h.1, h.2.1, fun hn => (h.2.2 hn).1, fun hn => (h.2.2 hn).2⟩

theorem intLt_lt : intLt = fun a b => decide (a.toInt < b.toInt) := rfl

theorem less_lt : fltLt = fun a b => decide (Less a b) := by
  funext a b
  rw [Bool.eq_iff_iff, fltLt_less]
  simp

/-- C13 (any split, integers). However values are distributed over storages by updates, moves and merges, in any tree,
the resulting min, max, sum and count are those of exactly the values contained; the sum is their exact 64-bit sum. -/
theorem C13_split_int (t : Split Bits) :
    let v := evalSplit (mmscAgg intOps hh) t
    Describes 0 (· + ·) (fun a b => decide (a.toInt < b.toInt)) v.min v.max v.sum v.count t.contents ∧ v.sum = total64 t.contents := by
  have h := mmsc_split (hh := hh) intLaws t (fun _ _ => trivial)
  exact ⟨intLt_lt ▸ describes_of h, SumOf.total64 h.2.1⟩

/-- C13 (any split, floats). The same for floats without NaN (NaN is rejected before recording, C09); the sum is obtained
by float additions of exactly the values, in an order depending on the split. -/
theorem C13_split_float (fadd : Bits → Bits → Bits) (t : Split Bits) (hnan : ∀ x, x ∈ t.contents → ¬ NaN x) :
    let v := evalSplit (mmscAgg (fltOps fadd) hh) t
    Describes 0 fadd (fun a b => decide (Less a b)) v.min v.max v.sum v.count t.contents :=
  less_lt ▸ describes_of (mmsc_split (hh := hh) (fltLaws fadd) t (fun x hx => (nan_false_iff x).2 (hnan x hx)))

/-- C13 (pipeline, integers). Every MinMaxSumCount point the pipeline reports, under any schedule, describes exactly the
measurements it contains (which C01/C07 identify). -/
theorem C13_point_int (hr : Reachable c n0 s) (e : Emit KS (Cell Bits H)) (he : e ∈ s.emits)
    (ha : c.agg e.leaf = mmscAgg intOps hh) :
    Describes 0 (· + ·) (fun a b => decide (a.toInt < b.toInt)) e.val.min e.val.max e.val.sum e.val.count (values s e.ops) ∧
      e.val.sum = total64 (values s e.ops) := by
  have h := emit_holds (reachable_more hr) he
  rw [ha] at h
  have h2 := holds_mmsc intLaws h (fun _ _ => trivial)
  exact ⟨intLt_lt ▸ describes_of h2, SumOf.total64 h2.2.1⟩

/-- C13 (pipeline, floats). -/
theorem C13_point_float (fadd : Bits → Bits → Bits) (hr : Reachable c n0 s) (e : Emit KS (Cell Bits H)) (he : e ∈ s.emits)
    (ha : c.agg e.leaf = mmscAgg (fltOps fadd) hh) (hnan : ∀ x, x ∈ values s e.ops → ¬ NaN x) :
    Describes 0 fadd (fun a b => decide (Less a b)) e.val.min e.val.max e.val.sum e.val.count (values s e.ops) := by
  have h := emit_holds (reachable_more hr) he
  rw [ha] at h
  exact less_lt ▸ describes_of (holds_mmsc (fltLaws fadd) h (fun x hx => (nan_false_iff _).2 (hnan _ (List.mem_map.mpr ⟨x, hx, rfl⟩))))

/-- C13 (empty). A MinMaxSumCount delta point is exported exactly when it contains measurements. -/
theorem C13_exported_iff (hr : Reachable c n0 s) (e : Emit KS (Cell Bits H)) (he : e ∈ s.emits)
    (ha : c.agg e.leaf = mmscAgg intOps hh) (hd : c.delta e.leaf = true) : e.kept = true ↔ e.ops ≠ [] := by
  have h1 := (C13_point_int hr e he ha).1.count
  have h2 := reachable_kept hr e he
  rw [hd, if_pos rfl, ha] at h2
  rw [h2]
  simp only [mmscAgg, bne_iff_ne, ne_eq, h1, values, List.length_map, List.length_eq_zero_iff]

/-! ## C14 gauges -/

/-- C14 (recorded value). A gauge point that contains measurements carries the value of one of them, under any schedule. -/
theorem C14_value_recorded_partial (hr : Reachable c n0 s) (o : Ops Bits) (e : Emit KS (Cell Bits H)) (he : e ∈ s.emits)
    (ha : c.agg e.leaf = gaugeAgg o hh) (hne : e.ops ≠ []) :
    ∃ i sq, (i, sq) ∈ e.ops ∧ e.val.value = (s.op i).num := by
  have h := emit_holds (reachable_more hr) he
  rw [ha] at h
  obtain ⟨i, h1, h2⟩ := (holds_gauge h).2 hne
  exact ⟨i, _, h1, h2⟩

/-- C14 (delta gauges). A delta gauge point is exported exactly when it contains measurements, so every exported delta
gauge point carries a recorded value. -/
theorem C14_delta_exported_iff (hr : Reachable c n0 s) (o : Ops Bits) (e : Emit KS (Cell Bits H)) (he : e ∈ s.emits)
    (ha : c.agg e.leaf = gaugeAgg o hh) (hd : c.delta e.leaf = true) : e.kept = true ↔ e.ops ≠ [] := by
  have h := emit_holds (reachable_more hr) he
  rw [ha] at h
  have h2 := reachable_kept hr e he
  rw [hd, if_pos rfl, ha] at h2
  rw [h2]
  simp only [gaugeAgg, bne_iff_ne, ne_eq]
  exact not_congr (holds_gauge h).1

/-- C14 (most recent). When calls on the instruments feeding the view do not overlap each other (they may overlap with any
number of snapshots and collections), the value is that of the latest call among those the point contains. Call numbers
increase in the order of the calls. -/
theorem C14_last_value_sequential (e : Emit KS (Cell Bits H)) (hr : SeqReachable c (fun o => e.leaf ∈ c.leavesOf o) n0 s)
    (o : Ops Bits) (he : e ∈ s.emits) (ha : c.agg e.leaf = gaugeAgg o hh) (hne : e.ops ≠ []) :
    ∃ i sq, (i, sq) ∈ e.ops ∧ e.val.value = (s.op i).num ∧ ∀ j sq', (j, sq') ∈ e.ops → j ≤ i := by
  have hm := reachable_more hr.reachable
  have hin := seq_inOrder hr
  have h := (hm.full.vals.vals true _ agree_self).2.2.2 e he (fun _ => hin.ordered e.key)
  rw [ha] at h
  obtain ⟨i, h1, h2⟩ := (holds_gauge h).2 hne
  refine ⟨i, _, h1, h2, ?_⟩
  intro j sq' hj
  exact hin.calls (emit_applied hm he h1) (emit_applied hm he hj) (holds_gauge_max h _ hj)

/-! ## C54 temporality does not change totals -/

/-- C54 (totals). A delta view `l₁` and a cumulative view `l₂` list the same instruments, all calls have returned and have
been drained (nothing of `l₁` is left in memory, nothing of `l₂` is left in accumulators). Then a collection of `l₂` at this
point, whatever the iteration order, reports values adding up to the sum of all deltas `l₁` ever exported. -/
theorem C54_totals {s1 s2 : State AL KS Bits (Cell Bits H)} (hr : Reachable c n0 s) (l₁ l₂ : Nat)
    (hd₁ : c.delta l₁ = true) (hd₂ : c.delta l₂ = false) (ha₁ : c.agg l₁ = sumAgg intOps hh) (ha₂ : c.agg l₂ = sumAgg intOps hh)
    (hsame : ∀ o, (c.leavesOf o).count l₁ = (c.leavesOf o).count l₂)
    (hall : ∀ i, i < s.nextOp → (s.op i).pc = .done)
    (hdr₁ : inAccsAll s l₁ = [] ∧ inSeriesAll s l₁ = []) (hdr₂ : inAccsAll s l₂ = [])
    {acts : List (Action AL Bits)} (hsolo : ∀ a, a ∈ acts → ∃ ch, a = .task s.nextTask ch)
    (h1 : step c s (.collect l₂) = some s1) (h2 : run c s1 acts = some s2) (ht : s2.task s.nextTask = .done) :
    ∃ pre, s2.emits = pre ++ s.emits ∧ (∀ e, e ∈ pre → e.leaf = l₂ ∧ e.kept = true) ∧
      total64 (pre.map (·.val.value)) = total64 ((exported s l₁).map (·.val.value)) := by
  have hm := reachable_more hr
  have hw := hm.full.inv.wf
  obtain ⟨pre, hp1, hp2⟩ := solo_collect hw hd₂ hsolo h1 h2 ht
  refine ⟨pre, hp1, ?_, ?_⟩
  · intro e he
    have := hp2.mem_iff.mp he
    rw [List.mem_map] at this
    obtain ⟨x, _, rfl⟩ := this
    exact ⟨rfl, rfl⟩
  · have hrec : recorded c s l₁ = recorded c s l₂ := by
      unfold recorded
      congr 1
      funext i
      rw [hsame]
    have hdelta := C06_total_recorded hr l₁ hd₁ ha₁ hall
    rw [hdr₁.1, hdr₁.2] at hdelta
    simp only [List.append_nil] at hdelta
    have h0 : total64 (values s []) = 0 := rfl
    rw [h0] at hdelta
    simp only [BitVec.add_zero, BitVec.ofNat_eq_ofNat] at hdelta
    rw [hdelta, hrec, ← total64_perm (applied_calls hm l₂ hall),
      total64_perm (values_perm (s := s) (view_cons_cum hm hd₂)), hdr₂, List.nil_append]
    unfold inSeriesAll
    rw [total64_flatMap (s := s) _ (fun e : KS × Nat => (s.hold e.2).store.ops) (fun e => (s.hold e.2).store.val.value)]
    · refine (total64_perm (hp2.map (·.val.value))).trans ?_
      rw [List.map_map]
      rfl
    · rintro ⟨k, h⟩ he
      have hok := hw.dataOk l₂ k h he
      exact int_hold hm hok.1 (by rw [hok.2.1]; exact ha₂)

/-- C54 (one series). If in addition both views use the same key filter and neither has put a measurement in an overflow
series, the statement holds for every single series. -/
theorem C54_series {s1 s2 : State AL KS Bits (Cell Bits H)} (hr : Reachable c n0 s) (l₁ l₂ : Nat)
    (hd₁ : c.delta l₁ = true) (hd₂ : c.delta l₂ = false) (ha₁ : c.agg l₁ = sumAgg intOps hh) (ha₂ : c.agg l₂ = sumAgg intOps hh)
    (hsame : ∀ o, (c.leavesOf o).count l₁ = (c.leavesOf o).count l₂) (hfilt : c.filt l₁ = c.filt l₂)
    (hover : ∀ l k i sq, l = l₁ ∨ l = l₂ → (l, k, i, sq) ∈ s.applied → k = c.filt l (c.newSet (s.op i).attrs))
    (hall : ∀ i, i < s.nextOp → (s.op i).pc = .done)
    (k : KS) (hdr₁ : inAccs s l₁ k = [] ∧ inSeries s l₁ k = []) (hdr₂ : inAccs s l₂ k = [])
    {acts : List (Action AL Bits)} (hsolo : ∀ a, a ∈ acts → ∃ ch, a = .task s.nextTask ch)
    (h1 : step c s (.collect l₂) = some s1) (h2 : run c s1 acts = some s2) (ht : s2.task s.nextTask = .done) :
    ∃ pre, s2.emits = pre ++ s.emits ∧
      total64 ((pre.filter (fun e => e.key == k)).map (·.val.value)) =
        total64 (((exported s l₁).filter (fun e => e.key == k)).map (·.val.value)) := by
  have hm := reachable_more hr
  have hw := hm.full.inv.wf
  obtain ⟨pre, hp1, hp2⟩ := solo_collect hw hd₂ hsolo h1 h2 ht
  refine ⟨pre, hp1, ?_⟩
  have hcount : ∀ l, l = l₁ ∨ l = l₂ → ∀ i, ((appliedTo s l k).map (·.1)).count i =
      if k = c.filt l₁ (c.newSet (s.op i).attrs) then (progOf c (s.op i)).count l else 0 := by
    intro l hl i
    rw [← hm.full.vals.p.prog i l]
    unfold appliedTo
    rw [List.count, List.countP_map, List.countP_map, List.countP_filter]
    by_cases hk : k = c.filt l₁ (c.newSet (s.op i).attrs)
    · rw [if_pos hk]
      apply List.countP_congr
      rintro ⟨l', k', i', sq'⟩ he
      simp only [Function.comp_apply, Bool.and_eq_true, beq_iff_eq]
      constructor
      · rintro ⟨h1, h2, h3⟩; exact ⟨h2, h1⟩
      · rintro ⟨h1, h2⟩
        subst h1 h2
        refine ⟨rfl, rfl, ?_⟩
        have := hover l' k' i' sq' hl he
        rw [this, hk]
        rcases hl with rfl | rfl
        · rfl
        · rw [hfilt]
    · rw [if_neg hk, List.countP_eq_zero]
      rintro ⟨l', k', i', sq'⟩ he
      simp only [Function.comp_apply, Bool.and_eq_true, beq_iff_eq]
      rintro ⟨h1, h2, h3⟩
      subst h1 h2 h3
      have := hover l' k' i' sq' hl he
      apply hk
      rw [this]
      rcases hl with rfl | rfl
      · rfl
      · rw [hfilt]
  have hperm : (values s (appliedTo s l₁ k)).Perm (values s (appliedTo s l₂ k)) := by
    have h3 : ((appliedTo s l₁ k).map (·.1)).Perm ((appliedTo s l₂ k).map (·.1)) := by
      rw [List.perm_iff_count]
      intro i
      rw [hcount l₁ (Or.inl rfl) i, hcount l₂ (Or.inr rfl) i]
      by_cases hi : i < s.nextOp
      · rw [done_prog (hall i hi), hsame]
      · have := hw.opIdle i (by omega)
        simp [progOf, this]
    have h4 := h3.map (fun i => (s.op i).num)
    simpa [values, Function.comp_def] using h4
  have hdelta := C06_series hr l₁ hd₁ ha₁ k
  rw [hdr₁.1, hdr₁.2] at hdelta
  simp only [List.append_nil] at hdelta
  have h0 : total64 (values s []) = 0 := rfl
  rw [h0] at hdelta
  simp only [BitVec.add_zero, BitVec.ofNat_eq_ofNat] at hdelta
  rw [hdelta, total64_perm hperm,
    total64_perm (values_perm (s := s) (cons_perm_cum hm.full.inv hm.full.vals.p.cons hd₂ k)), hdr₂, List.nil_append]
  unfold inSeries
  rw [total64_flatMap (s := s) _ (fun e : KS × Nat => (s.hold e.2).store.ops) (fun e => (s.hold e.2).store.val.value)]
  · refine (total64_perm ((hp2.filter (fun e => e.key == k)).map (·.val.value))).trans ?_
    rw [List.filter_map, List.map_map]
    rfl
  · rintro ⟨k', h⟩ he
    have hok := hw.dataOk l₂ k' h (List.mem_filter.mp he).1
    exact int_hold hm hok.1 (by rw [hok.2.1]; exact ha₂)

/-! ## Concrete cases and counterexamples -/

section Examples
open Verif.Examples

/-- C06, C07, C54: after `sched0` and a snapshot and delta collection everything is drained; the hypotheses of `C54_totals`
hold for views 0 and 1, and the deltas 7 + 5 add up to the cumulative 12. -/
example : ∃ s : St, Reachable cfg 0 s ∧ (∀ i, i < s.nextOp → (s.op i).pc = .done) ∧
    (inAccsAll s 0 = [] ∧ inSeriesAll s 0 = []) ∧ inAccsAll s 1 = [] ∧
    (exported s 0).map (·.val.value.toNat) = [5, 7] ∧ recorded cfg s 0 = [5, 7] := by
  obtain ⟨s, h1, h2⟩ : ∃ s, run cfg init0 (sched0 ++ ([.snapshot 0] ++ steps 1 12 ++ [.collect 0] ++ steps 2 6)) = some s ∧
    ((∀ i, i < s.nextOp → (s.op i).pc = .done) ∧ (inAccsAll s 0 = [] ∧ inSeriesAll s 0 = []) ∧ inAccsAll s 1 = [] ∧
    (exported s 0).map (·.val.value.toNat) = [5, 7] ∧ recorded cfg s 0 = [5, 7]) := exists_of_eval (by decide +kernel)
  exact ⟨s, ⟨_, h1⟩, h2⟩

example : (∀ o, (cfg.leavesOf o).count 0 = (cfg.leavesOf o).count 1) ∧ cfg.delta 0 = true ∧ cfg.delta 1 = false ∧
    cfg.agg 0 = sumAgg intOps hOps ∧ cfg.agg 1 = sumAgg intOps hOps := by
  refine ⟨?_, rfl, rfl, rfl, rfl⟩
  intro o
  by_cases h0 : o = 0
  · subst h0; rfl
  · by_cases h1 : o = 1
    · subst h1; rfl
    · simp [cfg, h0, h1]

/-- C13: a split with two storages, one of them moved out and reused, merged in a tree. -/
example : (Split.merge (.merge (.emptied (.update .empty (9 : Bits))) (.update (.update .empty 3) 8)) (.update .empty 5)).contents
    = [5, 8, 3] := rfl

/-- C13: a MinMaxSumCount point of three calls. -/
example : ∃ s : St, Reachable cfg 0 s ∧ s.emits.map (fun e => (e.val.min, e.val.max, e.val.sum, e.val.count)) = [(3, 9, 17, 3)] := by
  obtain ⟨s, h1, h2⟩ : ∃ s, run cfg init0 ([.observe 2 1 5, .observe 2 1 9, .observe 2 1 3] ++ call 0 9 ++ call 1 7 ++ call 2 7 ++
    [.snapshot 2] ++ steps 0 8 ++ [.collect 3] ++ steps 1 4) = some s ∧
    s.emits.map (fun e => (e.val.min, e.val.max, e.val.sum, e.val.count)) = [(3, 9, 17, 3)] := exists_of_eval (by decide +kernel)
  exact ⟨s, ⟨_, h1⟩, h2⟩

/-- A cumulative gauge: instrument 0 feeds view 0. -/
def cfgG : C := { cfg with leavesOf := fun _ => [0], delta := fun _ => false, agg := fun _ => gaugeAgg intOps hOps, filt := fun _ k => k }

/-- C14 fails in full: while the first call (value 7) for an attribute set is between creating the series and applying its
update, a collection of a cumulative gauge view exports the value 0, which nobody recorded. -/
theorem C14_unset_cumulative_gauge_fails :
    ¬ ∀ (s : St), Reachable cfgG 0 s → ∀ e, e ∈ s.emits → e.kept = true → cfgG.agg e.leaf = gaugeAgg intOps hOps →
      ∃ i, i < s.nextOp ∧ e.val.value = (s.op i).num := by
  intro h
  obtain ⟨s, h1, h2, h3, h4⟩ : ∃ s, run cfgG (initial cfgG 0) ([.observe 0 1 7] ++ call 0 3 ++ [.collect 0] ++ steps 0 3) = some s ∧
    (s.nextOp = 1 ∧ (s.op 0).num = 7 ∧ s.emits.map (fun e => (e.kept, e.val.value)) = [(true, 0)]) :=
    exists_of_eval (by decide +kernel)
  have hl : ∃ e, e ∈ s.emits ∧ e.kept = true ∧ e.val.value = 0 := by
    cases he : s.emits with
    | nil => rw [he] at h4; cases h4
    | cons e t =>
      rw [he] at h4
      simp only [List.map_cons, List.cons.injEq, Prod.mk.injEq] at h4
      exact ⟨e, List.mem_cons_self .., h4.1.1, h4.1.2⟩
  obtain ⟨e, he, hk, hv⟩ := hl
  obtain ⟨i, hi, hn⟩ := h s ⟨_, h1⟩ e he hk rfl
  have : i = 0 := by omega
  subst this
  rw [hv, h3] at hn
  exact absurd hn (by decide)

/-- C14 fails in full, also when nothing is in progress: a collection has taken the snapshot of the instrument; then the first call
(value 7) for an attribute set runs from start to end; then the collection reads the cumulative gauge view and exports the value 0. -/
theorem C14_unset_after_return_fails :
    ¬ ∀ (s : St), Reachable cfgG 0 s → (∀ i, i < s.nextOp → (s.op i).pc = .done) → ∀ e, e ∈ s.emits → e.kept = true →
      cfgG.agg e.leaf = gaugeAgg intOps hOps → ∃ i, i < s.nextOp ∧ e.val.value = (s.op i).num := by
  intro h
  obtain ⟨s, h1, h2, h3, h4, h5⟩ : ∃ s, run cfgG (initial cfgG 0) ([.snapshot 0] ++ steps 0 2 ++ [.observe 0 1 7] ++ call 0 9 ++ [.collect 0] ++ steps 1 3) = some s ∧
    (s.nextOp = 1 ∧ (s.op 0).num = 7 ∧ (s.op 0).pc = .done ∧ s.emits.map (fun e => (e.kept, e.val.value)) = [(true, 0)]) :=
    exists_of_eval (by decide +kernel)
  have hl : ∃ e, e ∈ s.emits ∧ e.kept = true ∧ e.val.value = 0 := by
    cases he : s.emits with
    | nil => rw [he] at h5; cases h5
    | cons e t =>
      rw [he] at h5
      simp only [List.map_cons, List.cons.injEq, Prod.mk.injEq] at h5
      exact ⟨e, List.mem_cons_self .., h5.1.1, h5.1.2⟩
  obtain ⟨e, he, hk, hv⟩ := hl
  obtain ⟨i, hi, hn⟩ := h s ⟨_, h1⟩ (fun i hi => by have : i = 0 := by omega
                                                    rw [this]; exact h4) e he hk rfl
  have : i = 0 := by omega
  rw [hv, this, h3] at hn
  exact absurd hn (by decide)

/-- C14: non-overlapping calls are needed for "most recent". Call 0 (value 100) draws its sequence number and is delayed; call 1
(value 6) completes and is merged into the series by a snapshot; call 2 (value 7) starts after call 1 has returned and
completes; then call 0 finishes, overwriting value 7 with the older sequence number, and the merge discards it. The
reported value is 6, although the point contains call 2, which began after call 1 had returned. -/
theorem C14_overlapping_calls_lose_newer_value : ∃ s : St, Reachable cfg 0 s ∧
    (s.op 0).num = 100 ∧ (s.op 1).num = 6 ∧ (s.op 2).num = 7 ∧
    s.emits.map (fun e => (e.leaf, e.kept, e.val.value, e.ops.map (·.1))) = [(2, true, 6, [0, 2, 1])] := by
  obtain ⟨s, h1, h2⟩ : ∃ s, run cfg init0 ([.observe 1 1 100] ++ call 0 5 ++ [.observe 1 1 6] ++ call 1 7 ++ [.snapshot 1] ++ steps 0 8 ++
    [.observe 1 1 7] ++ call 2 7 ++ call 0 4 ++ [.snapshot 1] ++ steps 1 8 ++ [.collect 2] ++ steps 2 4) = some s ∧
    ((s.op 0).num = 100 ∧ (s.op 1).num = 6 ∧ (s.op 2).num = 7 ∧
    s.emits.map (fun e => (e.leaf, e.kept, e.val.value, e.ops.map (·.1))) = [(2, true, 6, [0, 2, 1])]) := exists_of_eval (by decide +kernel)
  exact ⟨s, ⟨_, h1⟩, h2⟩

/-- The schedule of the next example: two calls in sequence, then a snapshot and a collection. -/
def schedSeq : List Act :=
  [.observe 1 1 100] ++ call 0 9 ++ [.observe 1 1 6] ++ call 1 7 ++ [.snapshot 1] ++ steps 0 8 ++ [.collect 2] ++ steps 1 4

/-- C14: a sequential run to which `C14_last_value_sequential` applies. -/
example : ∃ s : St, SeqReachable cfg (fun o => 2 ∈ cfg.leavesOf o) 0 s ∧ (s.op 0).pc = .done ∧ (s.op 1).num = 6 ∧
    s.emits.map (fun e => (e.leaf, e.val.value, e.ops.map (·.1))) = [(2, 6, [1, 0])] := by
  obtain ⟨s, h1, h2⟩ : ∃ s, run cfg init0 schedSeq = some s ∧
    ((s.op 0).pc = .done ∧ (s.op 1).num = 6 ∧ s.emits.map (fun e => (e.leaf, e.val.value, e.ops.map (·.1))) = [(2, 6, [1, 0])]) :=
      exists_of_eval (by decide +kernel)
  refine ⟨s, ?_, h2⟩
  have := seq_of_eval (c := cfg) (G := fun o => decide (2 ∈ cfg.leavesOf o)) (n0 := 0) .init (acts := schedSeq) (by decide +kernel) h1
  simpa using this

end Examples

end Verif.Props
