import Verif.Proof.PipelineSums
import Verif.Examples.PipelineCfg

/-!
C72: what is sent is what was recorded, from the calls of the program to the payloads.

A `Session` is a program making any calls in any number of goroutines while readers collect and export as they like; in the end all calls have returned,
and the reader collects and exports once more. `recordedOn … Q acts` are the valid values recorded on the instruments feeding the metric, by calls whose
attributes satisfy `Q`; `Describes f as m` says that the exported attributes `m` show the attributes `as` through a view with key list `f`.
-/

namespace Verif.Props
open Verif Verif.Attr Verif.Number Verif.Aggr Verif.Export Verif.Spec Verif.Pipeline
variable {H : Type} {farm : Str → UInt64} {u : Front.Setup (Cell Bits H)} {R : Reader H} {lib : Library} {name : Str} {o : Out} {hh : HistOps Bits H}
  {ops : Ops Bits} {acts coll : List Act} {x x' : Sys H}

/-! ### Sums of integers -/

/-- C72 (delta sum, total). The integers in all payloads sent so far for the metric add up (modulo 2^64) to exactly the integers recorded. -/
theorem C72_sent_total (h : Session farm u R lib name o [.monotonic, .nonMonotonic] acts coll x x') (hn : o.num = .int64)
    (hd : u.delta o.leaf = true) (ha : u.agg o.leaf = sumAgg intOps hh) :
    total64 (ints (sentPoints numbers lib name x'.sent)) = total64 (recordedOn u.leavesOf o.leaf (fun _ => True) acts) := by
  obtain ⟨y, e⟩ := h.ended extracts_numbers (by simp [Shape.kind])
  have := e.delta_ints hn h.shape hd ha (fun _ => true) (fun _ => true) (fun _ => True) (fun _ _ _ => rfl) (fun _ _ _ _ => by simp)
  rwa [List.filter_eq_self.2 (fun _ _ => rfl)] at this

/-- C72 (delta sum, every attribute set). For all attributes `m`: the integers sent in points with exactly the attributes `m` add up to the integers
recorded by the calls whose attributes the view shows as `m`. -/
theorem C72_sent_series (h : Session farm u R lib name o [.monotonic, .nonMonotonic] acts coll x x') (hn : o.num = .int64)
    (hd : u.delta o.leaf = true) (ha : u.agg o.leaf = sumAgg intOps hh) (hic : u.ignoreColl = false) (hf : Fits u o.leaf acts) (m : PMap) :
    total64 (ints ((sentPoints numbers lib name x'.sent).filter (fun d => d.attrs = m))) =
      total64 (recordedOn u.leavesOf o.leaf (fun as => Describes (u.keys o.leaf) as m) acts) := by
  obtain ⟨y, e⟩ := h.ended extracts_numbers (by simp [Shape.kind])
  exact e.delta_ints hn h.shape hd ha _ _ _ (attrs_decide (attrs := PNumber.attrs) (fun _ _ h => h.1)) (e.described hic hf h.typed m)

/-- C72 (cumulative sum). For all attributes `m` with which something was recorded: the last point sent with the attributes `m` is the sum of all
integers recorded by the calls whose attributes the view shows as `m`. -/
theorem C72_last_series (h : Session farm u R lib name o [.monotonic, .nonMonotonic] acts coll x x') (hn : o.num = .int64)
    (hd : u.delta o.leaf = false) (ha : u.agg o.leaf = sumAgg intOps hh) (hic : u.ignoreColl = false) (hf : Fits u o.leaf acts)
    (hne : ∀ e ∈ Pipeline.calls acts, NoEmptyList (e.1.attrs e.2.1)) (m : PMap)
    (hrec : recordedOn u.leavesOf o.leaf (fun as => Describes (u.keys o.leaf) as m) acts ≠ []) :
    ((sentPoints numbers lib name x'.sent).filter (fun d => d.attrs = m)).getLast?.map (·.value) =
      some (.int (total64 (recordedOn u.leavesOf o.leaf (fun as => Describes (u.keys o.leaf) as m) acts))) := by
  obtain ⟨y, e⟩ := h.ended extracts_numbers (by simp [Shape.kind])
  obtain ⟨p, d, h1, h2, h3, h4, h5⟩ := e.last hd hic hf h.typed hne _ (attrs_decide (attrs := PNumber.attrs) (fun _ _ h => h.1)) hrec
  have hm := Sync.reachable_more e.reach
  have h6 := Sync.int_point hm h3 (by rw [h4]; exact ha)
  rw [total64_perm h5] at h6
  rw [h1, Option.map_some, ← h6]
  have h7 := ints_of (ps := [p]) (ds := [d]) hn (by have := h.shape; simp only [List.mem_cons, List.not_mem_nil, or_false] at this ⊢; rcases this with h | h; exact .inl h; exact .inr (.inl h))
    (Pipeline.pointwise_cons h2 Pipeline.pointwise_nil)
  unfold ints at h7
  rw [List.filterMap_cons] at h7
  cases hv : d.value with
  | int v => rw [hv] at h7; simp only [List.filterMap_nil, List.map_cons, List.map_nil, List.cons.injEq, and_true] at h7; rw [h7]
  | double v => rw [hv] at h7; simp at h7

/-! ### Counts of exponential histograms -/

/-- C72 (delta histogram, total). The counts in all payloads sent so far add up to the number of values recorded. -/
theorem C72_hist_sent_total (h : Session farm u R lib name o [.hist] acts coll x x') (hd : u.delta o.leaf = true)
    (ha : u.agg o.leaf = histAgg ops hh) (hl : Counts hh) (hc : ∀ g, (R.toHist g).count = hh.count g) :
    ((sentPoints expPoints lib name x'.sent).map (·.count)).sum = (recordedOn u.leavesOf o.leaf (fun _ => True) acts).length := by
  obtain ⟨y, e⟩ := h.ended extracts_exp (by simp [Shape.kind])
  have := e.delta_counts (counted_hist (by simpa using h.shape) hl hc ops) hd ha (fun _ => true) (fun _ => true) (fun _ => True) (fun _ _ _ => rfl)
    (fun _ _ _ _ => by simp)
  rwa [List.filter_eq_self.2 (fun _ _ => rfl)] at this

/-- C72 (delta histogram, every attribute set). -/
theorem C72_hist_sent_series (h : Session farm u R lib name o [.hist] acts coll x x') (hd : u.delta o.leaf = true)
    (ha : u.agg o.leaf = histAgg ops hh) (hl : Counts hh) (hc : ∀ g, (R.toHist g).count = hh.count g) (hic : u.ignoreColl = false)
    (hf : Fits u o.leaf acts) (m : PMap) :
    (((sentPoints expPoints lib name x'.sent).filter (fun d => d.attrs = m)).map (·.count)).sum =
      (recordedOn u.leavesOf o.leaf (fun as => Describes (u.keys o.leaf) as m) acts).length := by
  obtain ⟨y, e⟩ := h.ended extracts_exp (by simp [Shape.kind])
  exact e.delta_counts (counted_hist (by simpa using h.shape) hl hc ops) hd ha _ _ _ (attrs_decide (attrs := PExp.attrs) (fun _ _ h => h.2.2.1))
    (e.described hic hf h.typed m)

/-- C72 (cumulative histogram). -/
theorem C72_hist_last_series (h : Session farm u R lib name o [.hist] acts coll x x') (hd : u.delta o.leaf = false)
    (ha : u.agg o.leaf = histAgg ops hh) (hl : Counts hh) (hc : ∀ g, (R.toHist g).count = hh.count g) (hic : u.ignoreColl = false)
    (hf : Fits u o.leaf acts) (hne : ∀ e ∈ Pipeline.calls acts, NoEmptyList (e.1.attrs e.2.1)) (m : PMap)
    (hrec : recordedOn u.leavesOf o.leaf (fun as => Describes (u.keys o.leaf) as m) acts ≠ []) :
    ((sentPoints expPoints lib name x'.sent).filter (fun d => d.attrs = m)).getLast?.map (·.count) =
      some (recordedOn u.leavesOf o.leaf (fun as => Describes (u.keys o.leaf) as m) acts).length := by
  obtain ⟨y, e⟩ := h.ended extracts_exp (by simp [Shape.kind])
  exact e.last_count (counted_hist (by simpa using h.shape) hl hc ops) hd ha hic hf h.typed hne _
    (attrs_decide (attrs := PExp.attrs) (fun _ _ h => h.2.2.1)) hrec

/-! ### Counts of min/max/sum/count metrics -/

/-- C72 (delta min/max/sum/count, total). -/
theorem C72_mmsc_sent_total (h : Session farm u R lib name o [.mmsc] acts coll x x') (hd : u.delta o.leaf = true)
    (ha : u.agg o.leaf = mmscAgg ops hh) :
    ((sentPoints histPoints lib name x'.sent).map (·.count)).sum = (recordedOn u.leavesOf o.leaf (fun _ => True) acts).length := by
  obtain ⟨y, e⟩ := h.ended extracts_mmsc (by simp [Shape.kind])
  have := e.delta_counts (counted_mmsc (by simpa using h.shape) ops) hd ha (fun _ => true) (fun _ => true) (fun _ => True) (fun _ _ _ => rfl)
    (fun _ _ _ _ => by simp)
  rwa [List.filter_eq_self.2 (fun _ _ => rfl)] at this

/-- C72 (delta min/max/sum/count, every attribute set). -/
theorem C72_mmsc_sent_series (h : Session farm u R lib name o [.mmsc] acts coll x x') (hd : u.delta o.leaf = true)
    (ha : u.agg o.leaf = mmscAgg ops hh) (hic : u.ignoreColl = false) (hf : Fits u o.leaf acts) (m : PMap) :
    (((sentPoints histPoints lib name x'.sent).filter (fun d => d.attrs = m)).map (·.count)).sum =
      (recordedOn u.leavesOf o.leaf (fun as => Describes (u.keys o.leaf) as m) acts).length := by
  obtain ⟨y, e⟩ := h.ended extracts_mmsc (by simp [Shape.kind])
  exact e.delta_counts (counted_mmsc (by simpa using h.shape) ops) hd ha _ _ _ (attrs_decide (attrs := PHist.attrs) (fun _ _ h => h.2.2.1))
    (e.described hic hf h.typed m)

/-- C72 (cumulative min/max/sum/count). -/
theorem C72_mmsc_last_series (h : Session farm u R lib name o [.mmsc] acts coll x x') (hd : u.delta o.leaf = false)
    (ha : u.agg o.leaf = mmscAgg ops hh) (hic : u.ignoreColl = false)
    (hf : Fits u o.leaf acts) (hne : ∀ e ∈ Pipeline.calls acts, NoEmptyList (e.1.attrs e.2.1)) (m : PMap)
    (hrec : recordedOn u.leavesOf o.leaf (fun as => Describes (u.keys o.leaf) as m) acts ≠ []) :
    ((sentPoints histPoints lib name x'.sent).filter (fun d => d.attrs = m)).getLast?.map (·.count) =
      some (recordedOn u.leavesOf o.leaf (fun as => Describes (u.keys o.leaf) as m) acts).length := by
  obtain ⟨y, e⟩ := h.ended extracts_mmsc (by simp [Shape.kind])
  exact e.last_count (counted_mmsc (by simpa using h.shape) ops) hd ha hic hf h.typed hne _
    (attrs_decide (attrs := PHist.attrs) (fun _ _ h => h.2.2.1)) hrec

/-! ### Nothing else is sent -/

/-- C72 (no other series, numbers). Every point sent for the metric shows attributes with which something was recorded. -/
theorem C72_sent_known (h : Session farm u R lib name o [.monotonic, .nonMonotonic, .gauge] acts coll x x') (hf : Fits u o.leaf acts)
    (d : PNumber) (hd : d ∈ sentPoints numbers lib name x'.sent) :
    recordedOn u.leavesOf o.leaf (fun as => Describes (u.keys o.leaf) as d.attrs) acts ≠ [] := by
  obtain ⟨y, e⟩ := h.ended extracts_numbers (by simp [Shape.kind])
  exact e.known hf h.typed (attrs := PNumber.attrs) (fun _ _ h => h.1) d hd

/-- C72 (no other series, histograms). -/
theorem C72_hist_sent_known (h : Session farm u R lib name o [.hist] acts coll x x') (hf : Fits u o.leaf acts)
    (d : PExp) (hd : d ∈ sentPoints expPoints lib name x'.sent) :
    recordedOn u.leavesOf o.leaf (fun as => Describes (u.keys o.leaf) as d.attrs) acts ≠ [] := by
  obtain ⟨y, e⟩ := h.ended extracts_exp (by simp [Shape.kind])
  exact e.known hf h.typed (attrs := PExp.attrs) (fun _ _ h => h.2.2.1) d hd

/-- C72 (no other series, min/max/sum/count). -/
theorem C72_mmsc_sent_known (h : Session farm u R lib name o [.mmsc] acts coll x x') (hf : Fits u o.leaf acts)
    (d : PHist) (hd : d ∈ sentPoints histPoints lib name x'.sent) :
    recordedOn u.leavesOf o.leaf (fun as => Describes (u.keys o.leaf) as d.attrs) acts ≠ [] := by
  obtain ⟨y, e⟩ := h.ended extracts_mmsc (by simp [Shape.kind])
  exact e.known hf h.typed (attrs := PHist.attrs) (fun _ _ h => h.2.2.1) d hd

/-! ### A concrete program

Two overlapping calls record 7 and 5 on a counter, a third call is rejected, there is a collection and an export, then 30 and two histogram values are
recorded; then the last collection and export happen. -/

section Example
open Verif.Examples Verif.Examples.Pipe

/-- The delta sum: 5 and 7 are in the first payload, 30 in the second. -/
example : ∃ t, stages 0 6 = some t ∧
    Session (fun _ => 0) su rd Pipe.lib [109, 0] (out 0 .int64 .monotonic) [.monotonic, .nonMonotonic] Pipe.acts (Pipe.coll 0 6) t.x t.x' ∧
    su.delta 0 = true ∧ su.agg 0 = sumAgg intOps hOps ∧ su.ignoreColl = false ∧ Fits su 0 Pipe.acts ∧
    ints (sentPoints numbers Pipe.lib [109, 0] t.x'.sent) = [5, 7, 30] ∧
    ints ((sentPoints numbers Pipe.lib [109, 0] t.x'.sent).filter (fun d => d.attrs = [([97], .one (.bool true))])) = [7, 30] := by
  obtain ⟨t, h, h1, h2, h3⟩ := exists_of_eval (x := stages 0 6) (P := fun t => Good t ∧ ints (sentPoints numbers Pipe.lib [109, 0] t.x'.sent) = [5, 7, 30] ∧
    ints ((sentPoints numbers Pipe.lib [109, 0] t.x'.sent).filter (fun d => d.attrs = [([97], .one (.bool true))])) = [7, 30]) (by decide +kernel)
  exact ⟨t, h, session (o := out 0 .int64 .monotonic) rfl rfl List.mem_cons_self h h1, rfl, rfl, rfl, fits 0, h2, h3⟩

/-- The cumulative sum of one key. -/
example : ∃ t, stages 1 3 = some t ∧
    Session (fun _ => 0) su rd Pipe.lib [109, 1] (out 1 .int64 .monotonic) [.monotonic, .nonMonotonic] Pipe.acts (Pipe.coll 1 3) t.x t.x' ∧
    su.delta 1 = false ∧ su.agg 1 = sumAgg intOps hOps ∧ Fits su 1 Pipe.acts ∧ (∀ e ∈ Pipeline.calls Pipe.acts, NoEmptyList (e.1.attrs e.2.1)) ∧
    ((sentPoints numbers Pipe.lib [109, 1] t.x'.sent).filter (fun d => d.attrs = [([97], .one (.bool true))])).getLast?.map (·.value) = some (.int 42) := by
  obtain ⟨t, h, h1, h2⟩ := exists_of_eval (x := stages 1 3) (P := fun t => Good t ∧
    ((sentPoints numbers Pipe.lib [109, 1] t.x'.sent).filter (fun d => d.attrs = [([97], .one (.bool true))])).getLast?.map (·.value) = some (.int 42))
    (by decide +kernel)
  exact ⟨t, h, session (o := out 1 .int64 .monotonic) rfl rfl List.mem_cons_self h h1, rfl, rfl, fits 1, noEmpty, h2⟩

/-- The delta histogram. -/
example : ∃ t, stages 2 6 = some t ∧
    Session (fun _ => 0) su rd Pipe.lib [109, 2] (out 2 .float64 .hist) [.hist] Pipe.acts (Pipe.coll 2 6) t.x t.x' ∧
    su.delta 2 = true ∧ su.agg 2 = histAgg (fltOps (fun a _ => a)) hOps ∧ Counts hOps ∧ (∀ g, (rd.toHist g).count = hOps.count g) ∧
    (sentPoints expPoints Pipe.lib [109, 2] t.x'.sent).map (fun d => (d.attrs, d.count)) = [([], 1), ([([97], .one (.bool true))], 1)] := by
  obtain ⟨t, h, h1, h2⟩ := exists_of_eval (x := stages 2 6) (P := fun t => Good t ∧
    (sentPoints expPoints Pipe.lib [109, 2] t.x'.sent).map (fun d => (d.attrs, d.count)) = [([], 1), ([([97], .one (.bool true))], 1)]) (by decide +kernel)
  exact ⟨t, h, session (o := out 2 .float64 .hist) rfl rfl List.mem_cons_self h h1, rfl, rfl, ⟨rfl, fun _ _ => rfl, fun _ _ => rfl⟩, fun _ => rfl, h2⟩

/-- The cumulative min/max/sum/count. -/
example : ∃ t, stages 3 4 = some t ∧
    Session (fun _ => 0) su rd Pipe.lib [109, 3] (out 3 .float64 .mmsc) [.mmsc] Pipe.acts (Pipe.coll 3 4) t.x t.x' ∧
    su.delta 3 = false ∧ su.agg 3 = mmscAgg (fltOps (fun a _ => a)) hOps ∧
    (sentPoints histPoints Pipe.lib [109, 3] t.x'.sent).map (fun d => (d.attrs, d.count)) = [([], 1), ([([97], .one (.bool true))], 1)] := by
  obtain ⟨t, h, h1, h2⟩ := exists_of_eval (x := stages 3 4) (P := fun t => Good t ∧
    (sentPoints histPoints Pipe.lib [109, 3] t.x'.sent).map (fun d => (d.attrs, d.count)) = [([], 1), ([([97], .one (.bool true))], 1)]) (by decide +kernel)
  exact ⟨t, h, session (o := out 3 .float64 .mmsc) rfl rfl List.mem_cons_self h h1, rfl, rfl, h2⟩

/-- What was recorded and shown as `[97 ↦ true]` by the unfiltered view: 7 and 30, not the rejected −1, not the 5 with one more key. -/
example : Describes none [kvb 97 true] [([97], .one (.bool true))] ∧ ¬ Describes none [kvb 97 true, kvb 98 false] [([97], .one (.bool true))] ∧
    Describes (some [[97]]) [kvb 97 true, kvb 98 false] [([97], .one (.bool true))] := by
  refine ⟨(describes_iff (by unfold TypedList; decide) _).1 ?_, fun h => ?_, (describes_iff (by unfold TypedList; decide) _).1 ?_⟩
  · exact Pipeline.pointwise_cons ⟨rfl, rfl⟩ Pipeline.pointwise_nil
  · have := (describes_iff (f := none) (as := [kvb 97 true, kvb 98 false]) (by unfold TypedList; decide) _).2 h
    exact absurd this.1 (by decide)
  · exact Pipeline.pointwise_cons ⟨rfl, rfl⟩ Pipeline.pointwise_nil

end Example

/-! ### Empty lists -/

/-- C72 (empty lists are exported alike). Two attribute sets which are different series are exported with the same attributes: the last point sent with
these attributes is then about one of them only, hence the condition of the cumulative theorems. -/
theorem C72_empty_lists_alike : ∃ (a b : List KV) (m : PMap), ¬ SameSeries none a b ∧ newSet a ≠ newSet b ∧ Describes none a m ∧ Describes none b m := by
  refine ⟨[⟨[97], .bools []⟩], [⟨[97], .ints []⟩], [([97], .slice [])], ?_, by decide, ?_, ?_⟩
  · intro h
    have := h [97] (by decide) (by intro ks h; cases h)
    revert this
    decide
  · refine (describes_iff (by unfold TypedList; decide) _).1 (Pipeline.pointwise_cons ⟨rfl, ?_⟩ Pipeline.pointwise_nil)
    exact Pipeline.pointwise_nil
  · refine (describes_iff (by unfold TypedList; decide) _).1 (Pipeline.pointwise_cons ⟨rfl, ?_⟩ Pipeline.pointwise_nil)
    exact Pipeline.pointwise_nil

end Verif.Props
