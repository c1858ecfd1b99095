import Verif.Proof.AssemblyViews
import Verif.Proof.PipelineShape
import Verif.Props.Pipeline
import Verif.Props.PipelineMore
import Verif.Props.Assembly
import Verif.Examples.AssemblyViewsProgram

/-!
C91: what is sent of instruments shown through views.

`Viewed x views cs p pipe k v sc n L`: the calls `cs` made a provider; the reader number `pipe` has the views `v`, by which instruments of the `k`th meter (with scope
`sc`) are shown under the name `n`; all of them look like `L` there: its aggregation, number kind, unit, selected attribute keys, configuration and temporality.
`recordedVia p k v sc n Q acts` are the values recorded on the instruments shown under the name.
-/

namespace Verif.Props
open Verif Verif.Attr Verif.Number Verif.Aggr Verif.Export Verif.Spec Verif.Pipeline Verif.Assembly
open Verif.Views (Views Ext)
open Verif.Provider (Provider Call)

variable {C G ν : Type} [DecidableEq C] {farm : Str → UInt64} {w : World C G} {p : Provider C ν} {x : Ext C} {views : List (Views C)} {cs : List (Call ν)}
  {pipe k : Nat} {v : Views C} {sc : Views.Scope} {n : Str} {L : Look C} {acts coll : List Pipeline.Act} {s s' : Sys G}

/-! ### What is sent under the name -/

/-- C91 (unit and kind). In every payload sent, a metric of the scope with the name has the unit, kind and temporality of the look. -/
theorem C91_metric (h : Viewed x views cs p pipe k v sc n L) (hsy : L.sync = true)
    (hr : Pipeline.run (Front.realCfg farm (setup w p)) (reader w p pipe) (initial (Front.realCfg farm (setup w p))) acts = some s)
    (pl : Payload) (hpl : pl ∈ s.sent) (e : PScope) (he : e ∈ pl.scopes) (hl : e.library = sentScope sc) (m : PMetric) (hm : m ∈ e.metrics) (hn : m.name = n) :
    m.unit = L.unit ∧ DataFor L.kind (if L.delta = true then .delta else .cumulative) m.data := by
  obtain ⟨o, f, hw⟩ := Assembly.fed w h hsy
  obtain ⟨h1, h2⟩ := sent_shape hw.only hr pl hpl (by simp [initial]) e he hl m hm hn
  constructor
  · obtain ⟨l, e⟩ := hw.out
    rw [h1, ← hw.unit, e]
    rfl
  · have hd : (Front.realCfg farm (setup w p)).delta o.leaf = L.delta := hw.setup_delta
    rw [hd, hw.shape_eq] at h2
    obtain ⟨ik, hleg, -⟩ := h.implemented
    revert h2 hleg
    generalize L.kind = a
    intro h2 hleg
    cases a <;> cases hdata : m.data <;> rw [hdata] at h2 <;> simp only [HasShape, shapeOf, DataFor] at h2 ⊢ <;>
      first
        | (simp at h2; done)
        | simpa using h2
        | (exfalso; cases ik <;> simp [Views.Implemented, Front.IKind.synchronous] at hleg)

/-! ### Sums of integers -/

/-- C91 (integer sums, cumulative). For all attributes `m` which remain, after the selection of keys, of those with which something was recorded: the last point sent
with the attributes `m` is the sum of all integers recorded with attributes of which `m` remain, on all instruments shown under the name. -/
theorem C91_sum_last (h : Viewed x views cs p pipe k v sc n L) (hsy : L.sync = true) (hp : Program farm w p pipe acts coll s s') (hn : L.num = .int64)
    (ha : L.kind = .monoSum ∨ L.kind = .nonMonoSum) (ht : L.delta = false)
    (hic : w.ignoreColl = false) (hf : FewVia w p k v sc n L.keys L.acfg.limit acts)
    (hne : ∀ e ∈ Pipeline.calls acts, NoEmptyList (e.1.attrs e.2.1)) (m : PMap)
    (hrec : recordedVia p k v sc n (fun as => Describes L.keys as m) acts ≠ []) :
    ((sentPoints numbers (sentScope sc) n s'.sent).filter (fun d => d.attrs = m)).getLast?.map (·.value) =
      some (.int (total64 (recordedVia p k v sc n (fun as => Describes L.keys as m) acts))) := by
  obtain ⟨o, f, hw⟩ := Assembly.fed w h hsy
  have hag : (setup w p).agg o.leaf = sumAgg intOps (w.hist L.num L.acfg.hist) := by
    rw [hw.setup_agg]
    rcases ha with ha | ha <;> simp only [ha, World.agg, hn, World.ops]
  have hsh : o.shape ∈ [Shape.monotonic, .nonMonotonic] := by
    rw [hw.shape_eq]
    rcases ha with ha | ha <;> simp [ha, shapeOf]
  have := C72_last_series (hw.session hp hsh) (hw.num_eq.trans hn) (by rw [hw.setup_delta]; exact ht) hag hic (hw.fits hf) hne m
    (by rw [hw.describes, hw.recorded]; exact hrec)
  rw [hw.describes, hw.recorded] at this
  exact this

/-- C91 (integer sums, delta). The integers sent in points with exactly the attributes `m` add up to the integers recorded with attributes of
which `m` remain. -/
theorem C91_sum_sent (h : Viewed x views cs p pipe k v sc n L) (hsy : L.sync = true) (hp : Program farm w p pipe acts coll s s') (hn : L.num = .int64)
    (ha : L.kind = .monoSum ∨ L.kind = .nonMonoSum) (ht : L.delta = true)
    (hic : w.ignoreColl = false) (hf : FewVia w p k v sc n L.keys L.acfg.limit acts) (m : PMap) :
    total64 (ints ((sentPoints numbers (sentScope sc) n s'.sent).filter (fun d => d.attrs = m))) =
      total64 (recordedVia p k v sc n (fun as => Describes L.keys as m) acts) := by
  obtain ⟨o, f, hw⟩ := Assembly.fed w h hsy
  have hag : (setup w p).agg o.leaf = sumAgg intOps (w.hist L.num L.acfg.hist) := by
    rw [hw.setup_agg]
    rcases ha with ha | ha <;> simp only [ha, World.agg, hn, World.ops]
  have hsh : o.shape ∈ [Shape.monotonic, .nonMonotonic] := by
    rw [hw.shape_eq]
    rcases ha with ha | ha <;> simp [ha, shapeOf]
  have := C72_sent_series (hw.session hp hsh) (hw.num_eq.trans hn) (by rw [hw.setup_delta]; exact ht) hag hic (hw.fits hf) m
  rw [hw.describes, hw.recorded] at this
  exact this

/-- C91 (integer sums, delta, total). Whatever the attributes and limits, the integers sent add up to the integers recorded. -/
theorem C91_sum_total (h : Viewed x views cs p pipe k v sc n L) (hsy : L.sync = true) (hp : Program farm w p pipe acts coll s s') (hn : L.num = .int64)
    (ha : L.kind = .monoSum ∨ L.kind = .nonMonoSum) (ht : L.delta = true) :
    total64 (ints (sentPoints numbers (sentScope sc) n s'.sent)) = total64 (recordedVia p k v sc n (fun _ => True) acts) := by
  obtain ⟨o, f, hw⟩ := Assembly.fed w h hsy
  have hag : (setup w p).agg o.leaf = sumAgg intOps (w.hist L.num L.acfg.hist) := by
    rw [hw.setup_agg]
    rcases ha with ha | ha <;> simp only [ha, World.agg, hn, World.ops]
  have hsh : o.shape ∈ [Shape.monotonic, .nonMonotonic] := by
    rw [hw.shape_eq]
    rcases ha with ha | ha <;> simp [ha, shapeOf]
  have := C72_sent_total (hw.session hp hsh) (hw.num_eq.trans hn) (by rw [hw.setup_delta]; exact ht) hag
  rw [hw.recorded] at this
  exact this

/-! ### Sums of floats -/

/-- C91 (float sums, cumulative). The last point sent with the attributes `m` is the result of adding up, in some order, all floats recorded
with attributes of which `m` remain. -/
theorem C91_float_last (h : Viewed x views cs p pipe k v sc n L) (hsy : L.sync = true) (hp : Program farm w p pipe acts coll s s') (hn : L.num = .float64)
    (ha : L.kind = .monoSum ∨ L.kind = .nonMonoSum) (ht : L.delta = false)
    (hic : w.ignoreColl = false) (hf : FewVia w p k v sc n L.keys L.acfg.limit acts)
    (hne : ∀ e ∈ Pipeline.calls acts, NoEmptyList (e.1.attrs e.2.1)) (m : PMap)
    (hrec : recordedVia p k v sc n (fun as => Describes L.keys as m) acts ≠ []) :
    ∃ b vals, ((sentPoints numbers (sentScope sc) n s'.sent).filter (fun d => d.attrs = m)).getLast?.map (·.value) = some (.double b) ∧
      vals.Perm (recordedVia p k v sc n (fun as => Describes L.keys as m) acts) ∧ SumOf 0 w.fadd b vals := by
  obtain ⟨o, f, hw⟩ := Assembly.fed w h hsy
  have hag : (setup w p).agg o.leaf = sumAgg (fltOps w.fadd) (w.hist L.num L.acfg.hist) := by
    rw [hw.setup_agg]
    rcases ha with ha | ha <;> simp only [ha, World.agg, hn, World.ops]
  have hsh : o.shape ∈ [Shape.monotonic, .nonMonotonic] := by
    rw [hw.shape_eq]
    rcases ha with ha | ha <;> simp [ha, shapeOf]
  have := C72_float_last_series w.fadd (hw.session hp hsh) (hw.num_eq.trans hn) (by rw [hw.setup_delta]; exact ht) hag hic (hw.fits hf) hne m
    (by rw [hw.describes, hw.recorded]; exact hrec)
  rw [hw.describes, hw.recorded] at this
  exact this

/-- C91 (float sums, delta). The floats recorded with attributes of which `m` remain are divided into groups; the points sent with the attributes `m` are the
sums, in some order, of the groups, except for groups whose sum is zero, which are not sent. -/
theorem C91_float_sent (h : Viewed x views cs p pipe k v sc n L) (hsy : L.sync = true) (hp : Program farm w p pipe acts coll s s') (hn : L.num = .float64)
    (ha : L.kind = .monoSum ∨ L.kind = .nonMonoSum) (ht : L.delta = true)
    (hic : w.ignoreColl = false) (hf : FewVia w p k v sc n L.keys L.acfg.limit acts) (m : PMap) :
    ∃ gs zs : List (List Bits), (gs ++ zs).flatten.Perm (recordedVia p k v sc n (fun as => Describes L.keys as m) acts) ∧
      Pointwise (fun g d => ∃ b, SumOf 0 w.fadd b g ∧ d.value = .double b ∧ scaled b ≠ 0) gs
        ((sentPoints numbers (sentScope sc) n s'.sent).filter (fun d => d.attrs = m)) ∧
      ∀ g ∈ zs, ∃ b, SumOf 0 w.fadd b g ∧ scaled b = 0 := by
  obtain ⟨o, f, hw⟩ := Assembly.fed w h hsy
  have hag : (setup w p).agg o.leaf = sumAgg (fltOps w.fadd) (w.hist L.num L.acfg.hist) := by
    rw [hw.setup_agg]
    rcases ha with ha | ha <;> simp only [ha, World.agg, hn, World.ops]
  have hsh : o.shape ∈ [Shape.monotonic, .nonMonotonic] := by
    rw [hw.shape_eq]
    rcases ha with ha | ha <;> simp [ha, shapeOf]
  have := C72_float_sent_series w.fadd (hw.session hp hsh) (hw.num_eq.trans hn) (by rw [hw.setup_delta]; exact ht) hag hic (hw.fits hf) m
  rw [hw.describes, hw.recorded] at this
  exact this

/-! ### Gauges -/

/-- C91 (gauges, cumulative). When calls on the instruments shown under the name do not overlap: the last point sent with the attributes `m` carries the value of
the last call with attributes of which `m` remain. -/
theorem C91_gauge_last (h : Viewed x views cs p pipe k v sc n L) (hsy : L.sync = true) (hp : Program farm w p pipe acts coll s s')
    (ha : L.kind = .gauge) (ht : L.delta = false) (hq : OneByOneVia farm w p pipe k v sc n acts)
    (hic : w.ignoreColl = false) (hf : FewVia w p k v sc n L.keys L.acfg.limit acts)
    (hne : ∀ e ∈ Pipeline.calls acts, NoEmptyList (e.1.attrs e.2.1)) (m : PMap)
    (hrec : recordedVia p k v sc n (fun as => Describes L.keys as m) acts ≠ []) :
    ∃ d b, ((sentPoints numbers (sentScope sc) n s'.sent).filter (fun d => d.attrs = m)).getLast? = some d ∧
      (recordedVia p k v sc n (fun as => Describes L.keys as m) acts).getLast? = some b ∧ NumOf L.num b d.value := by
  obtain ⟨o, f, hw⟩ := Assembly.fed w h hsy
  have hag : (setup w p).agg o.leaf = gaugeAgg (w.ops L.num) (w.hist L.num L.acfg.hist) := by
    rw [hw.setup_agg]
    simp only [ha, World.agg]
  have hsh : o.shape ∈ [Shape.gauge] := by rw [hw.shape_eq]; simp [ha, shapeOf]
  have := C88_gauge_last (hw.session hp hsh) (by rw [hw.setup_delta]; exact ht) hag hic (hw.fits hf) hne (hw.sequential hq) m
    (by rw [hw.describes, hw.recorded]; exact hrec)
  rw [hw.describes, hw.recorded, hw.num_eq] at this
  exact this

/-- C91 (gauges, delta). When calls on the instruments shown under the name do not overlap: the values recorded with attributes of which `m` remain are divided into
groups, each in the order of the calls, one for each point sent with the attributes `m`; the point carries the last value of its group. (The last point need not
have the last value of all: see `C88_gauge_delta_last_fails`.) -/
theorem C91_gauge_sent (h : Viewed x views cs p pipe k v sc n L) (hsy : L.sync = true) (hp : Program farm w p pipe acts coll s s')
    (ha : L.kind = .gauge) (ht : L.delta = true) (hq : OneByOneVia farm w p pipe k v sc n acts)
    (hic : w.ignoreColl = false) (hf : FewVia w p k v sc n L.keys L.acfg.limit acts) (m : PMap) :
    ∃ gs : List (List Bits), gs.flatten.Perm (recordedVia p k v sc n (fun as => Describes L.keys as m) acts) ∧
      (∀ g ∈ gs, g.Sublist (recordedVia p k v sc n (fun as => Describes L.keys as m) acts)) ∧
      Pointwise (fun g d => ∃ b, g.getLast? = some b ∧ NumOf L.num b d.value) gs
        ((sentPoints numbers (sentScope sc) n s'.sent).filter (fun d => d.attrs = m)) := by
  obtain ⟨o, f, hw⟩ := Assembly.fed w h hsy
  have hag : (setup w p).agg o.leaf = gaugeAgg (w.ops L.num) (w.hist L.num L.acfg.hist) := by
    rw [hw.setup_agg]
    simp only [ha, World.agg]
  have hsh : o.shape ∈ [Shape.gauge] := by rw [hw.shape_eq]; simp [ha, shapeOf]
  have := C88_gauge_sent_partial (hw.session hp hsh) (by rw [hw.setup_delta]; exact ht) hag hic (hw.fits hf) (hw.sequential hq) m
  rw [hw.describes, hw.recorded, hw.num_eq] at this
  exact this

/-! ### Histograms -/

/-- C91 (histograms, cumulative). The last point sent with the attributes `m` has the content of an exponential histogram, with the configuration of the look,
made of exactly the values recorded with attributes of which `m` remain. -/
theorem C91_hist_last (h : Viewed x views cs p pipe k v sc n L) (hsy : L.sync = true) (hp : Program farm w p pipe acts coll s s')
    (ha : L.kind = .histogram) (ht : L.delta = false)
    (hic : w.ignoreColl = false) (hf : FewVia w p k v sc n L.keys L.acfg.limit acts)
    (hne : ∀ e ∈ Pipeline.calls acts, NoEmptyList (e.1.attrs e.2.1)) (m : PMap)
    (hrec : recordedVia p k v sc n (fun as => Describes L.keys as m) acts ≠ []) :
    ∃ d vals, ((sentPoints expPoints (sentScope sc) n s'.sent).filter (fun d => d.attrs = m)).getLast? = some d ∧
      vals.Perm (recordedVia p k v sc n (fun as => Describes L.keys as m) acts) ∧
      ShowsHist (reader w p pipe) (w.hist L.num L.acfg.hist) L.num vals d := by
  obtain ⟨o, f, hw⟩ := Assembly.fed w h hsy
  have hag : (setup w p).agg o.leaf = histAgg (w.ops L.num) (w.hist L.num L.acfg.hist) := by
    rw [hw.setup_agg]
    simp only [ha, World.agg]
  have hsh : o.shape ∈ [Shape.hist] := by rw [hw.shape_eq]; simp [ha, shapeOf]
  have := C72_hist_last_content (hw.session hp hsh) (by rw [hw.setup_delta]; exact ht) hag hic (hw.fits hf) hne m
    (by rw [hw.describes, hw.recorded]; exact hrec)
  rw [hw.describes, hw.recorded, hw.num_eq] at this
  exact this

/-- C91 (histograms, delta). The values recorded with attributes of which `m` remain are divided into groups, one for each point sent with the attributes `m`, which has the content
of an exponential histogram made of exactly its group. -/
theorem C91_hist_sent (h : Viewed x views cs p pipe k v sc n L) (hsy : L.sync = true) (hp : Program farm w p pipe acts coll s s')
    (ha : L.kind = .histogram) (ht : L.delta = true)
    (hl : Counts (w.hist L.num L.acfg.hist))
    (hic : w.ignoreColl = false) (hf : FewVia w p k v sc n L.keys L.acfg.limit acts) (m : PMap) :
    Grouped (ShowsHist (reader w p pipe) (w.hist L.num L.acfg.hist) L.num)
      (recordedVia p k v sc n (fun as => Describes L.keys as m) acts) ((sentPoints expPoints (sentScope sc) n s'.sent).filter (fun d => d.attrs = m)) := by
  obtain ⟨o, f, hw⟩ := Assembly.fed w h hsy
  have hag : (setup w p).agg o.leaf = histAgg (w.ops L.num) (w.hist L.num L.acfg.hist) := by
    rw [hw.setup_agg]
    simp only [ha, World.agg]
  have hsh : o.shape ∈ [Shape.hist] := by rw [hw.shape_eq]; simp [ha, shapeOf]
  have := C72_hist_sent_content (hw.session hp hsh) (by rw [hw.setup_delta]; exact ht) hag hl hic (hw.fits hf) m
  rw [hw.describes, hw.recorded, hw.num_eq] at this
  exact this

/-! ### Minimum, maximum, sum and count -/

/-- C91 (min/max/sum/count of floats, cumulative). The last point sent with the attributes `m` shows these of exactly the values recorded with attributes of which
`m` remain. -/
theorem C91_mmsc_last (h : Viewed x views cs p pipe k v sc n L) (hsy : L.sync = true) (hp : Program farm w p pipe acts coll s s') (hn : L.num = .float64)
    (ha : L.kind = .mmsc) (ht : L.delta = false)
    (hic : w.ignoreColl = false) (hf : FewVia w p k v sc n L.keys L.acfg.limit acts)
    (hne : ∀ e ∈ Pipeline.calls acts, NoEmptyList (e.1.attrs e.2.1)) (m : PMap)
    (hrec : recordedVia p k v sc n (fun as => Describes L.keys as m) acts ≠ []) :
    ∃ d vals, ((sentPoints histPoints (sentScope sc) n s'.sent).filter (fun d => d.attrs = m)).getLast? = some d ∧
      vals.Perm (recordedVia p k v sc n (fun as => Describes L.keys as m) acts) ∧ ShowsStats w.fadd vals d := by
  obtain ⟨o, f, hw⟩ := Assembly.fed w h hsy
  have hag : (setup w p).agg o.leaf = mmscAgg (fltOps w.fadd) (w.hist L.num L.acfg.hist) := by
    rw [hw.setup_agg]
    simp only [ha, World.agg, hn, World.ops]
  have hsh : o.shape ∈ [Shape.mmsc] := by rw [hw.shape_eq]; simp [ha, shapeOf]
  have hnum := hw.calls_num h hp.genuine
  rw [hn] at hnum
  have := C72_mmsc_last_values w.fadd (hw.session hp hsh) (hw.num_eq.trans hn) (by rw [hw.setup_delta]; exact ht) hag hic (hw.fits hf) hnum hne m
    (by rw [hw.describes, hw.recorded]; exact hrec)
  rw [hw.describes, hw.recorded] at this
  exact this

/-- C91 (min/max/sum/count of floats, delta). The floats recorded with attributes of which `m` remain are divided into groups, one for each point sent with the
attributes `m`, which shows these of exactly its group. -/
theorem C91_mmsc_sent (h : Viewed x views cs p pipe k v sc n L) (hsy : L.sync = true) (hp : Program farm w p pipe acts coll s s') (hn : L.num = .float64)
    (ha : L.kind = .mmsc) (ht : L.delta = true)
    (hic : w.ignoreColl = false) (hf : FewVia w p k v sc n L.keys L.acfg.limit acts) (m : PMap) :
    Grouped (ShowsStats w.fadd) (recordedVia p k v sc n (fun as => Describes L.keys as m) acts)
      ((sentPoints histPoints (sentScope sc) n s'.sent).filter (fun d => d.attrs = m)) := by
  obtain ⟨o, f, hw⟩ := Assembly.fed w h hsy
  have hag : (setup w p).agg o.leaf = mmscAgg (fltOps w.fadd) (w.hist L.num L.acfg.hist) := by
    rw [hw.setup_agg]
    simp only [ha, World.agg, hn, World.ops]
  have hsh : o.shape ∈ [Shape.mmsc] := by rw [hw.shape_eq]; simp [ha, shapeOf]
  have hnum := hw.calls_num h hp.genuine
  rw [hn] at hnum
  have := C72_mmsc_sent_values w.fadd (hw.session hp hsh) (hw.num_eq.trans hn) (by rw [hw.setup_delta]; exact ht) hag hic (hw.fits hf) hnum m
  rw [hw.describes, hw.recorded] at this
  exact this

/-- C91 (min/max/sum/count of integers, cumulative). The last point sent with the attributes `m` shows sum and count of exactly the integers recorded with attributes of which
`m` remain. -/
theorem C91_mmsc_int_last (h : Viewed x views cs p pipe k v sc n L) (hsy : L.sync = true) (hp : Program farm w p pipe acts coll s s') (hn : L.num = .int64)
    (ha : L.kind = .mmsc) (ht : L.delta = false)
    (hic : w.ignoreColl = false) (hf : FewVia w p k v sc n L.keys L.acfg.limit acts)
    (hne : ∀ e ∈ Pipeline.calls acts, NoEmptyList (e.1.attrs e.2.1)) (m : PMap)
    (hrec : recordedVia p k v sc n (fun as => Describes L.keys as m) acts ≠ []) :
    ∃ d vals, ((sentPoints histPoints (sentScope sc) n s'.sent).filter (fun d => d.attrs = m)).getLast? = some d ∧
      vals.Perm (recordedVia p k v sc n (fun as => Describes L.keys as m) acts) ∧ ShowsIntStats vals d := by
  obtain ⟨o, f, hw⟩ := Assembly.fed w h hsy
  have hag : (setup w p).agg o.leaf = mmscAgg intOps (w.hist L.num L.acfg.hist) := by
    rw [hw.setup_agg]
    simp only [ha, World.agg, hn, World.ops]
  have hsh : o.shape ∈ [Shape.mmsc] := by rw [hw.shape_eq]; simp [ha, shapeOf]
  have := C72_mmsc_last_ints (hw.session hp hsh) (hw.num_eq.trans hn) (by rw [hw.setup_delta]; exact ht) hag hic (hw.fits hf) hne m
    (by rw [hw.describes, hw.recorded]; exact hrec)
  rw [hw.describes, hw.recorded] at this
  exact this

/-- C91 (min/max/sum/count of integers, delta). The integers recorded with attributes of which `m` remain are divided into groups, one for each point sent with the
attributes `m`, which shows sum and count of exactly its group. -/
theorem C91_mmsc_int_sent (h : Viewed x views cs p pipe k v sc n L) (hsy : L.sync = true) (hp : Program farm w p pipe acts coll s s') (hn : L.num = .int64)
    (ha : L.kind = .mmsc) (ht : L.delta = true)
    (hic : w.ignoreColl = false) (hf : FewVia w p k v sc n L.keys L.acfg.limit acts) (m : PMap) :
    Grouped ShowsIntStats (recordedVia p k v sc n (fun as => Describes L.keys as m) acts)
      ((sentPoints histPoints (sentScope sc) n s'.sent).filter (fun d => d.attrs = m)) := by
  obtain ⟨o, f, hw⟩ := Assembly.fed w h hsy
  have hag : (setup w p).agg o.leaf = mmscAgg intOps (w.hist L.num L.acfg.hist) := by
    rw [hw.setup_agg]
    simp only [ha, World.agg, hn, World.ops]
  have hsh : o.shape ∈ [Shape.mmsc] := by rw [hw.shape_eq]; simp [ha, shapeOf]
  have := C72_mmsc_sent_ints (hw.session hp hsh) (hw.num_eq.trans hn) (by rw [hw.setup_delta]; exact ht) hag hic (hw.fits hf) m
  rw [hw.describes, hw.recorded] at this
  exact this

/-! ### Nothing else -/

/-- C91 (nothing else is sent, numbers). Every number point sent under the name shows what remains of attributes with which something was
recorded. -/
theorem C91_known (h : Viewed x views cs p pipe k v sc n L) (hsy : L.sync = true) (hp : Program farm w p pipe acts coll s s')
    (ha : L.kind = .monoSum ∨ L.kind = .nonMonoSum ∨ L.kind = .gauge)
    (hf : FewVia w p k v sc n L.keys L.acfg.limit acts) (d : PNumber) (hd : d ∈ sentPoints numbers (sentScope sc) n s'.sent) :
    recordedVia p k v sc n (fun as => Describes L.keys as d.attrs) acts ≠ [] := by
  obtain ⟨o, f, hw⟩ := Assembly.fed w h hsy
  have hsh : o.shape ∈ [Shape.monotonic, .nonMonotonic, .gauge] := by
    rw [hw.shape_eq]
    rcases ha with ha | ha | ha <;> simp [ha, shapeOf]
  have := C72_sent_known (hw.session hp hsh) (hw.fits hf) d hd
  rw [hw.describes, hw.recorded] at this
  exact this

/-- C91 (nothing else is sent, histograms). -/
theorem C91_hist_known (h : Viewed x views cs p pipe k v sc n L) (hsy : L.sync = true) (hp : Program farm w p pipe acts coll s s')
    (ha : L.kind = .histogram)
    (hf : FewVia w p k v sc n L.keys L.acfg.limit acts) (d : PExp) (hd : d ∈ sentPoints expPoints (sentScope sc) n s'.sent) :
    recordedVia p k v sc n (fun as => Describes L.keys as d.attrs) acts ≠ [] := by
  obtain ⟨o, f, hw⟩ := Assembly.fed w h hsy
  have hsh : o.shape ∈ [Shape.hist] := by rw [hw.shape_eq]; simp [ha, shapeOf]
  have := C72_hist_sent_known (hw.session hp hsh) (hw.fits hf) d hd
  rw [hw.describes, hw.recorded] at this
  exact this

/-- C91 (nothing else is sent, min/max/sum/count). -/
theorem C91_mmsc_known (h : Viewed x views cs p pipe k v sc n L) (hsy : L.sync = true) (hp : Program farm w p pipe acts coll s s')
    (ha : L.kind = .mmsc)
    (hf : FewVia w p k v sc n L.keys L.acfg.limit acts) (d : PHist) (hd : d ∈ sentPoints histPoints (sentScope sc) n s'.sent) :
    recordedVia p k v sc n (fun as => Describes L.keys as d.attrs) acts ≠ [] := by
  obtain ⟨o, f, hw⟩ := Assembly.fed w h hsy
  have hsh : o.shape ∈ [Shape.mmsc] := by rw [hw.shape_eq]; simp [ha, shapeOf]
  have := C72_mmsc_sent_known (hw.session hp hsh) (hw.fits hf) d hd
  rw [hw.describes, hw.recorded] at this
  exact this

/-! ### A concrete program

The reader shows two counters as `y`, keeping only the attribute `a`; a histogram as `x`, without attributes; a gauge as `g` and as `gg`; a counter twice as `dd`. -/

section Examples
open Verif.Examples Verif.Examples.Asm Verif.Examples.AsmV
open Verif.Views (AggKind Tempo lit)

/-- Counters are delta, gauges and histograms cumulative. The conditions of the theorems hold. Of the counters 7 is sent, later 5 + 2; the one shown twice, on which
3 and -1 were recorded, is 4. -/
example : ∃ s, AsmV.stages .delta .cumulative .histogram = some s ∧
    Program (fun _ => 0) Asm.w (AsmV.p .delta .cumulative .histogram) 0 (AsmV.acts .delta .cumulative) (AsmV.coll .delta .cumulative) s.x s.x' ∧
    Viewed ViewEx.x (AsmV.views .delta .cumulative .histogram) AsmV.cs (AsmV.p .delta .cumulative .histogram) 0 0 (AsmV.v .delta .cumulative .histogram) scA (lit "y")
      (lookY .delta) ∧
    Viewed ViewEx.x (AsmV.views .delta .cumulative .histogram) AsmV.cs (AsmV.p .delta .cumulative .histogram) 0 0 (AsmV.v .delta .cumulative .histogram) scA (lit "dd")
      (lookD .delta) ∧
    Viewed ViewEx.x (AsmV.views .delta .cumulative .histogram) AsmV.cs (AsmV.p .delta .cumulative .histogram) 0 0 (AsmV.v .delta .cumulative .histogram) scA (lit "gg")
      (lookG .cumulative) ∧
    Viewed ViewEx.x (AsmV.views .delta .cumulative .histogram) AsmV.cs (AsmV.p .delta .cumulative .histogram) 0 0 (AsmV.v .delta .cumulative .histogram) scA (lit "x")
      (lookX .cumulative .histogram) ∧
    FewVia Asm.w (AsmV.p .delta .cumulative .histogram) 0 (AsmV.v .delta .cumulative .histogram) scA (lit "y") (lookY .delta).keys (lookY .delta).acfg.limit
      (AsmV.acts .delta .cumulative) ∧
    FewVia Asm.w (AsmV.p .delta .cumulative .histogram) 0 (AsmV.v .delta .cumulative .histogram) scA (lit "x") (lookX .cumulative .histogram).keys
      (lookX .cumulative .histogram).acfg.limit (AsmV.acts .delta .cumulative) ∧
    OneByOneVia (fun _ => 0) Asm.w (AsmV.p .delta .cumulative .histogram) 0 0 (AsmV.v .delta .cumulative .histogram) scA (lit "gg") (AsmV.acts .delta .cumulative) ∧
    (∀ e ∈ Pipeline.calls (AsmV.acts .delta .cumulative), NoEmptyList (e.1.attrs e.2.1)) ∧
    recordedVia (AsmV.p .delta .cumulative .histogram) 0 (AsmV.v .delta .cumulative .histogram) scA (lit "gg") (fun as => Describes (lookG .cumulative).keys as ma)
      (AsmV.acts .delta .cumulative) ≠ [] ∧
    recordedVia (AsmV.p .delta .cumulative .histogram) 0 (AsmV.v .delta .cumulative .histogram) scA (lit "x") (fun as => Describes (lookX .cumulative .histogram).keys as [])
      (AsmV.acts .delta .cumulative) ≠ [] ∧
    times (AsmV.p .delta .cumulative .histogram) 0 (AsmV.v .delta .cumulative .histogram) scA (lit "dd") 8 = 2 ∧
    (sentPoints numbers (sentScope scA) (lit "y") s.x'.sent).map (fun d => (d.attrs, d.value)) = [(ma, .int 7), (ma, .int 7)] ∧
    ints (sentPoints numbers (sentScope scA) (lit "dd") s.x'.sent) = [4] ∧
    ints ((sentPoints numbers (sentScope scA) (lit "gg") s.x'.sent).filter (fun d => d.attrs = ma)) = [4] ∧
    (sentPoints expPoints (sentScope scA) (lit "x") s.x'.sent).map (fun d => (d.attrs, d.count)) = [([], 1), ([], 2)] := by
  obtain ⟨s, h1, h2⟩ := AsmV.of_evaluated (t := .delta) (t' := .cumulative) (a := .histogram) (by decide +kernel)
  have hy : (AsmV.stages .delta .cumulative .histogram).map (fun s => (sentPoints numbers (sentScope scA) (lit "y") s.x'.sent).map (fun d => (d.attrs, d.value))) = some [(ma, .int 7), (ma, .int 7)] := by
    decide +kernel
  rw [h2, Option.map_some, Option.some.injEq] at hy
  have hd : (AsmV.stages .delta .cumulative .histogram).map (fun s => ints (sentPoints numbers (sentScope scA) (lit "dd") s.x'.sent)) = some [4] := by
    decide +kernel
  rw [h2, Option.map_some, Option.some.injEq] at hd
  have hg : (AsmV.stages .delta .cumulative .histogram).map (fun s => ints ((sentPoints numbers (sentScope scA) (lit "gg") s.x'.sent).filter (fun d => d.attrs = ma))) = some [4] := by
    decide +kernel
  rw [h2, Option.map_some, Option.some.injEq] at hg
  have hx : (AsmV.stages .delta .cumulative .histogram).map (fun s => (sentPoints expPoints (sentScope scA) (lit "x") s.x'.sent).map (fun d => (d.attrs, d.count))) = some [([], 1), ([], 2)] := by
    decide +kernel
  rw [h2, Option.map_some, Option.some.injEq] at hx
  refine ⟨s, h2, h1, viewed (by decide +kernel), viewed (by decide +kernel), viewed (by decide +kernel), viewed (by decide +kernel), AsmV.few _ _ _ _ _, few_x _ _ _ _,
    AsmV.oneByOne (i := 3) (by decide +kernel) (by decide +kernel), AsmV.noEmpty _ _,
    AsmV.recorded (e := (ig, ka, 3)) (by simp [AsmV.called]) (by unfold Rejected; decide +kernel) describes_ka (by decide +kernel),
    AsmV.recorded (e := (ih, kb, two)) (by simp [AsmV.called]) (by unfold Rejected; decide +kernel) (describes_nothing _) (by decide +kernel),
    by rw [times_eq]; decide +kernel, hy, hd, hg, hx⟩

/-- The other way: 7 and later 14 are sent of the counters; the histogram sends each value once. -/
example : ∃ s, AsmV.stages .cumulative .delta .histogram = some s ∧
    Program (fun _ => 0) Asm.w (AsmV.p .cumulative .delta .histogram) 0 (AsmV.acts .cumulative .delta) (AsmV.coll .cumulative .delta) s.x s.x' ∧
    Viewed ViewEx.x (AsmV.views .cumulative .delta .histogram) AsmV.cs (AsmV.p .cumulative .delta .histogram) 0 0 (AsmV.v .cumulative .delta .histogram) scA (lit "y")
      (lookY .cumulative) ∧
    Viewed ViewEx.x (AsmV.views .cumulative .delta .histogram) AsmV.cs (AsmV.p .cumulative .delta .histogram) 0 0 (AsmV.v .cumulative .delta .histogram) scA (lit "g")
      (lookG .delta) ∧
    Viewed ViewEx.x (AsmV.views .cumulative .delta .histogram) AsmV.cs (AsmV.p .cumulative .delta .histogram) 0 0 (AsmV.v .cumulative .delta .histogram) scA (lit "x")
      (lookX .delta .histogram) ∧
    OneByOneVia (fun _ => 0) Asm.w (AsmV.p .cumulative .delta .histogram) 0 0 (AsmV.v .cumulative .delta .histogram) scA (lit "g") (AsmV.acts .cumulative .delta) ∧
    recordedVia (AsmV.p .cumulative .delta .histogram) 0 (AsmV.v .cumulative .delta .histogram) scA (lit "y") (fun as => Describes (lookY .cumulative).keys as ma)
      (AsmV.acts .cumulative .delta) ≠ [] ∧
    Counts (Asm.w.hist .float64 7) ∧
    (sentPoints numbers (sentScope scA) (lit "y") s.x'.sent).map (fun d => (d.attrs, d.value)) = [(ma, .int 7), (ma, .int 14)] ∧
    ints (sentPoints numbers (sentScope scA) (lit "g") s.x'.sent) = [6, 4] ∧
    (sentPoints expPoints (sentScope scA) (lit "x") s.x'.sent).map (fun d => (d.attrs, d.count)) = [([], 1), ([], 1)] := by
  obtain ⟨s, h1, h2⟩ := AsmV.of_evaluated (t := .cumulative) (t' := .delta) (a := .histogram) (by decide +kernel)
  have hy : (AsmV.stages .cumulative .delta .histogram).map (fun s => (sentPoints numbers (sentScope scA) (lit "y") s.x'.sent).map (fun d => (d.attrs, d.value))) = some [(ma, .int 7), (ma, .int 14)] := by
    decide +kernel
  rw [h2, Option.map_some, Option.some.injEq] at hy
  have hg : (AsmV.stages .cumulative .delta .histogram).map (fun s => ints (sentPoints numbers (sentScope scA) (lit "g") s.x'.sent)) = some [6, 4] := by
    decide +kernel
  rw [h2, Option.map_some, Option.some.injEq] at hg
  have hx : (AsmV.stages .cumulative .delta .histogram).map (fun s => (sentPoints expPoints (sentScope scA) (lit "x") s.x'.sent).map (fun d => (d.attrs, d.count))) = some [([], 1), ([], 1)] := by
    decide +kernel
  rw [h2, Option.map_some, Option.some.injEq] at hx
  exact ⟨s, h2, h1, viewed (by decide +kernel), viewed (by decide +kernel), viewed (by decide +kernel), AsmV.oneByOne (i := 3) (by decide +kernel) (by decide +kernel),
    AsmV.recorded (e := (im, kab, 7)) (by simp [AsmV.called]) (by unfold Rejected; decide +kernel) describes_kab (by decide +kernel),
    ⟨rfl, fun _ _ => rfl, fun a b => (List.length_append).trans (Nat.add_comm _ _)⟩, hy, hg, hx⟩

/-- The histogram shown as a sum of floats or as min/max/sum/count. -/
example : ∃ s s' s'', AsmV.stages .delta .cumulative .monoSum = some s ∧ AsmV.stages .cumulative .delta .monoSum = some s' ∧
    AsmV.stages .cumulative .delta .mmsc = some s'' ∧
    Program (fun _ => 0) Asm.w (AsmV.p .delta .cumulative .monoSum) 0 (AsmV.acts .delta .cumulative) (AsmV.coll .delta .cumulative) s.x s.x' ∧
    Program (fun _ => 0) Asm.w (AsmV.p .cumulative .delta .monoSum) 0 (AsmV.acts .cumulative .delta) (AsmV.coll .cumulative .delta) s'.x s'.x' ∧
    Program (fun _ => 0) Asm.w (AsmV.p .cumulative .delta .mmsc) 0 (AsmV.acts .cumulative .delta) (AsmV.coll .cumulative .delta) s''.x s''.x' ∧
    Viewed ViewEx.x (AsmV.views .delta .cumulative .monoSum) AsmV.cs (AsmV.p .delta .cumulative .monoSum) 0 0 (AsmV.v .delta .cumulative .monoSum) scA (lit "x")
      (lookX .cumulative .monoSum) ∧
    Viewed ViewEx.x (AsmV.views .cumulative .delta .monoSum) AsmV.cs (AsmV.p .cumulative .delta .monoSum) 0 0 (AsmV.v .cumulative .delta .monoSum) scA (lit "x")
      (lookX .delta .monoSum) ∧
    Viewed ViewEx.x (AsmV.views .cumulative .delta .mmsc) AsmV.cs (AsmV.p .cumulative .delta .mmsc) 0 0 (AsmV.v .cumulative .delta .mmsc) scA (lit "x")
      (lookX .delta .mmsc) ∧
    (sentPoints numbers (sentScope scA) (lit "x") s.x'.sent).map (·.value) = [.double one, .double (one + two)] ∧
    (sentPoints numbers (sentScope scA) (lit "x") s'.x'.sent).map (·.value) = [.double one, .double two] ∧
    (sentPoints histPoints (sentScope scA) (lit "x") s''.x'.sent).map (·.count) = [1, 1] := by
  obtain ⟨s, h1, h2⟩ := AsmV.of_evaluated (t := .delta) (t' := .cumulative) (a := .monoSum) (by decide +kernel)
  obtain ⟨s', h1', h2'⟩ := AsmV.of_evaluated (t := .cumulative) (t' := .delta) (a := .monoSum) (by decide +kernel)
  obtain ⟨s'', h1'', h2''⟩ := AsmV.of_evaluated (t := .cumulative) (t' := .delta) (a := .mmsc) (by decide +kernel)
  have hv : (AsmV.stages .delta .cumulative .monoSum).map (fun s => (sentPoints numbers (sentScope scA) (lit "x") s.x'.sent).map (·.value)) =
      some [.double one, .double (one + two)] := by decide +kernel
  have hv' : (AsmV.stages .cumulative .delta .monoSum).map (fun s => (sentPoints numbers (sentScope scA) (lit "x") s.x'.sent).map (·.value)) =
      some [.double one, .double two] := by decide +kernel
  have hv'' : (AsmV.stages .cumulative .delta .mmsc).map (fun s => (sentPoints histPoints (sentScope scA) (lit "x") s.x'.sent).map (·.count)) = some [1, 1] := by
    decide +kernel
  rw [h2, Option.map_some, Option.some.injEq] at hv
  rw [h2', Option.map_some, Option.some.injEq] at hv'
  rw [h2'', Option.map_some, Option.some.injEq] at hv''
  exact ⟨s, s', s'', h2, h2', h2'', h1, h1', h1'', viewed (by decide +kernel), viewed (by decide +kernel), viewed (by decide +kernel), hv, hv', hv''⟩

/-- The counter with the hint `minmaxsumcount`, with delta and cumulative temporality: the statistics of the one integer recorded, 100, are sent. -/
example : ∃ s s', AsmV.stages .delta .cumulative .histogram = some s ∧ AsmV.stages .cumulative .delta .histogram = some s' ∧
    Program (fun _ => 0) Asm.w (AsmV.p .delta .cumulative .histogram) 0 (AsmV.acts .delta .cumulative) (AsmV.coll .delta .cumulative) s.x s.x' ∧
    Program (fun _ => 0) Asm.w (AsmV.p .cumulative .delta .histogram) 0 (AsmV.acts .cumulative .delta) (AsmV.coll .cumulative .delta) s'.x s'.x' ∧
    Viewed ViewEx.x (AsmV.views .delta .cumulative .histogram) AsmV.cs (AsmV.p .delta .cumulative .histogram) 0 0 (AsmV.v .delta .cumulative .histogram) scA (lit "o")
      (AsmV.lookO .delta) ∧
    Viewed ViewEx.x (AsmV.views .cumulative .delta .histogram) AsmV.cs (AsmV.p .cumulative .delta .histogram) 0 0 (AsmV.v .cumulative .delta .histogram) scA (lit "o")
      (AsmV.lookO .cumulative) ∧
    FewVia Asm.w (AsmV.p .cumulative .delta .histogram) 0 (AsmV.v .cumulative .delta .histogram) scA (lit "o") (AsmV.lookO .cumulative).keys
      (AsmV.lookO .cumulative).acfg.limit (AsmV.acts .cumulative .delta) ∧
    recordedVia (AsmV.p .cumulative .delta .histogram) 0 (AsmV.v .cumulative .delta .histogram) scA (lit "o") (fun as => Describes (AsmV.lookO .cumulative).keys as ma)
      (AsmV.acts .cumulative .delta) ≠ [] ∧
    (sentPoints histPoints (sentScope scA) (lit "o") s.x'.sent).map (fun d => (d.attrs, d.count, d.sum)) = [(ma, 1, 0x4059000000000000)] ∧
    (sentPoints histPoints (sentScope scA) (lit "o") s'.x'.sent).map (fun d => (d.attrs, d.count, d.sum)) = [(ma, 1, 0x4059000000000000)] := by
  obtain ⟨s, h1, h2⟩ := AsmV.of_evaluated (t := .delta) (t' := .cumulative) (a := .histogram) (by decide +kernel)
  obtain ⟨s', h1', h2'⟩ := AsmV.of_evaluated (t := .cumulative) (t' := .delta) (a := .histogram) (by decide +kernel)
  have hv : (AsmV.stages .delta .cumulative .histogram).map (fun s => (sentPoints histPoints (sentScope scA) (lit "o") s.x'.sent).map (fun d => (d.attrs, d.count, d.sum))) =
      some [(ma, 1, 0x4059000000000000)] := by decide +kernel
  have hv' : (AsmV.stages .cumulative .delta .histogram).map (fun s => (sentPoints histPoints (sentScope scA) (lit "o") s.x'.sent).map (fun d => (d.attrs, d.count, d.sum))) =
      some [(ma, 1, 0x4059000000000000)] := by decide +kernel
  rw [h2, Option.map_some, Option.some.injEq] at hv
  rw [h2', Option.map_some, Option.some.injEq] at hv'
  exact ⟨s, s', h2, h2', h1, h1', AsmV.hinted (by decide +kernel) (by decide +kernel), AsmV.hinted (by decide +kernel) (by decide +kernel), AsmV.few _ _ _ _ _,
    AsmV.recorded (e := (io, ka, 100)) (by simp [AsmV.called]) (by unfold Rejected; decide +kernel) describes_ka (by decide +kernel), hv, hv'⟩

/-- The counter with the hint `minmaxsumcount` and two clauses, with delta and cumulative temporality. Through the first clause, which keeps one key, the statistics of both
calls, 100 and 200, are sent. Through the second clause, for which the hint no longer counts, the sums of the two attribute sets are sent. -/
example : ∃ s s', AsmV.stages .delta .cumulative .histogram = some s ∧ AsmV.stages .cumulative .delta .histogram = some s' ∧
    Program (fun _ => 0) Asm.w (AsmV.p .delta .cumulative .histogram) 0 (AsmV.acts .delta .cumulative) (AsmV.coll .delta .cumulative) s.x s.x' ∧
    Program (fun _ => 0) Asm.w (AsmV.p .cumulative .delta .histogram) 0 (AsmV.acts .cumulative .delta) (AsmV.coll .cumulative .delta) s'.x s'.x' ∧
    Viewed ViewEx.x (AsmV.views .delta .cumulative .histogram) AsmV.cs (AsmV.p .delta .cumulative .histogram) 0 0 (AsmV.v .delta .cumulative .histogram) scA (lit "qq")
      (AsmV.lookQQ .delta) ∧
    Viewed ViewEx.x (AsmV.views .cumulative .delta .histogram) AsmV.cs (AsmV.p .cumulative .delta .histogram) 0 0 (AsmV.v .cumulative .delta .histogram) scA (lit "q")
      (AsmV.lookQ .cumulative) ∧
    FewVia Asm.w (AsmV.p .cumulative .delta .histogram) 0 (AsmV.v .cumulative .delta .histogram) scA (lit "q") (AsmV.lookQ .cumulative).keys
      (AsmV.lookQ .cumulative).acfg.limit (AsmV.acts .cumulative .delta) ∧
    recordedVia (AsmV.p .cumulative .delta .histogram) 0 (AsmV.v .cumulative .delta .histogram) scA (lit "q") (fun as => Describes (AsmV.lookQ .cumulative).keys as ma)
      (AsmV.acts .cumulative .delta) ≠ [] ∧
    (sentPoints histPoints (sentScope scA) (lit "qq") s.x'.sent).map (fun d => (d.attrs, d.count, d.sum)) = [(ma, 2, 0x4072C00000000000)] ∧
    (sentPoints numbers (sentScope scA) (lit "q") s'.x'.sent).map (fun d => (d.attrs.length, d.value)) = [(1, .int 200), (2, .int 100)] := by
  obtain ⟨s, h1, h2⟩ := AsmV.of_evaluated (t := .delta) (t' := .cumulative) (a := .histogram) (by decide +kernel)
  obtain ⟨s', h1', h2'⟩ := AsmV.of_evaluated (t := .cumulative) (t' := .delta) (a := .histogram) (by decide +kernel)
  have hv : (AsmV.stages .delta .cumulative .histogram).map (fun s => (sentPoints histPoints (sentScope scA) (lit "qq") s.x'.sent).map (fun d => (d.attrs, d.count, d.sum))) =
      some [(ma, 2, 0x4072C00000000000)] := by decide +kernel
  have hv' : (AsmV.stages .cumulative .delta .histogram).map (fun s => (sentPoints numbers (sentScope scA) (lit "q") s.x'.sent).map (fun d => (d.attrs.length, d.value))) =
      some [(1, .int 200), (2, .int 100)] := by decide +kernel
  rw [h2, Option.map_some, Option.some.injEq] at hv
  rw [h2', Option.map_some, Option.some.injEq] at hv'
  exact ⟨s, s', h2, h2', h1, h1', AsmV.viewed_qq (by decide +kernel), AsmV.viewed_q (by decide +kernel), AsmV.few _ _ _ _ _,
    AsmV.recorded (e := (iq, ka, 200)) (by simp [AsmV.called]) (by unfold Rejected; decide +kernel) describes_ka (by decide +kernel), hv, hv'⟩

end Examples

end Verif.Props
