import Verif.Proof.AssemblyWired
import Verif.Proof.PipelineShape
import Verif.Props.Pipeline
import Verif.Props.PipelineMore
import Verif.Examples.AssemblyProgram

/-!
C89: from the constructor of an instrument to the payloads.

`Metric x views cs p pipe k v sc c n unit`: the calls `cs` made a provider with a meter (the `k`th, with scope `sc`) in which the constructor `c` made an instrument named
`n` with this unit; reader number `pipe` has the views `v`, which do not concern the name. `Program farm w p pipe acts coll x x'`: with this provider any calls,
collections and exports happen, until all calls have returned; then the reader collects and exports once more. `recordedBy p k n Q acts` are the values recorded
on the instruments named `n`. Temporality and aggregation are those which the reader has by default for the kind of the instrument.
-/

namespace Verif.Props
open Verif Verif.Attr Verif.Number Verif.Aggr Verif.Export Verif.Spec Verif.Pipeline Verif.Assembly
open Verif.Views (Views Ext)
open Verif.Provider (Provider Call)
open Verif.Instruments (Ctor)

variable {C G ν : Type} [DecidableEq C] {farm : Str → UInt64} {w : World C G} {p : Provider C ν} {x : Ext C} {views : List (Views C)} {cs : List (Call ν)}
  {pipe k : Nat} {v : Views C} {sc : Views.Scope} {c : Ctor} {n unit : Str} {acts coll : List Pipeline.Act} {s s' : Sys G}

theorem Metric.wired (h : Metric x views cs p pipe k v sc c n unit) : ∃ o f, Wired w p pipe k sc v c n unit o f := by
  obtain ⟨m, i, h1, h2, h3, h4⟩ := h.inst
  have ha : Assembled x views cs p := by rw [h.made]; exact assembled x views cs
  subst h2
  exact Assembly.wired w ha h.reader h1 h.plain h.legal h.sync ⟨i, h3, h4⟩

/-! ### What is sent under the name -/

/-- C89 (unit and kind). In every payload sent, a metric of the scope with the name has the unit of the instrument, and is of the kind and temporality which the
reader has for the kind of the instrument. -/
theorem C89_metric (h : Metric x views cs p pipe k v sc c n unit)
    (hr : Pipeline.run (Front.realCfg farm (setup w p)) (reader w p pipe) (initial (Front.realCfg farm (setup w p))) acts = some s)
    (pl : Payload) (hpl : pl ∈ s.sent) (e : PScope) (he : e ∈ pl.scopes) (hl : e.library = sentScope sc) (m : PMetric) (hm : m ∈ e.metrics) (hn : m.name = n) :
    m.unit = unit ∧ DataFor (v.defaults.agg c.kinds.2) (if v.defaults.tempo c.kinds.2 = .delta then .delta else .cumulative) m.data := by
  obtain ⟨o, f, hw⟩ := Metric.wired (w := w) h
  obtain ⟨h1, h2⟩ := sent_shape hw.only hr pl hpl (by simp [initial]) e he hl m hm hn
  constructor
  · obtain ⟨l, e⟩ := hw.out
    rw [h1, ← hw.unit, e]
    rfl
  · have hd : (Front.realCfg farm (setup w p)).delta o.leaf = decide (v.defaults.tempo c.kinds.2 = .delta) := hw.setup_delta
    rw [hd, hw.shape_eq] at h2
    have hleg := h.legal
    revert h2 hleg
    generalize v.defaults.agg c.kinds.2 = a
    generalize c.kinds.2 = ik
    intro h2 hleg
    have ht : (if decide (v.defaults.tempo ik = .delta) = true then PTemporality.delta else .cumulative) =
        (if v.defaults.tempo ik = .delta then .delta else .cumulative) := by simp only [decide_eq_true_eq]
    cases a <;> cases hdata : m.data <;> rw [hdata] at h2 <;> simp only [HasShape, shapeOf, DataFor, ht] at h2 ⊢ <;>
      first
        | (simp at h2; done)
        | simpa using h2
        | (exfalso; cases ik <;> simp [Views.Legal] at hleg)

/-! ### Sums of integers -/

/-- C89 (integer sums, cumulative). For an `Int64Counter`, `Int64UpDownCounter` or `Int64Histogram` shown as a sum: for all attributes `m` with which something was
recorded, the last point sent with the attributes `m` is the sum of all integers recorded with them. -/
theorem C89_sum_last (h : Metric x views cs p pipe k v sc c n unit) (hp : Program farm w p pipe acts coll s s') (hn : c.kinds.1 = .int64)
    (ha : v.defaults.agg c.kinds.2 = .monoSum ∨ v.defaults.agg c.kinds.2 = .nonMonoSum) (ht : v.defaults.tempo c.kinds.2 ≠ .delta)
    (hic : w.ignoreColl = false) (hf : FewAttributes w p k n (v.defaults.acfg c.kinds.2 c.kinds.1).limit acts)
    (hne : ∀ e ∈ Pipeline.calls acts, NoEmptyList (e.1.attrs e.2.1)) (m : PMap)
    (hrec : recordedBy p k n (fun as => Describes none as m) acts ≠ []) :
    ((sentPoints numbers (sentScope sc) n s'.sent).filter (fun d => d.attrs = m)).getLast?.map (·.value) =
      some (.int (total64 (recordedBy p k n (fun as => Describes none as m) acts))) := by
  obtain ⟨o, f, hw⟩ := Metric.wired (w := w) h
  have hag : (setup w p).agg o.leaf = sumAgg intOps (w.hist c.kinds.1 (v.defaults.acfg c.kinds.2 c.kinds.1).hist) := by
    rw [hw.setup_agg]
    rcases ha with ha | ha <;> simp only [ha, World.agg, hn, World.ops]
  have hsh : o.shape ∈ [Shape.monotonic, .nonMonotonic] := by
    rw [hw.shape_eq]
    rcases ha with ha | ha <;> simp [ha, shapeOf]
  have := C72_last_series (hw.session hp hsh) (hw.num_eq.trans hn) (by rw [hw.setup_delta]; exact decide_eq_false ht) hag hic (hw.fits hf) hne m
    (by rw [hw.setup_keys, hw.recorded]; exact hrec)
  rw [hw.setup_keys, hw.recorded] at this
  exact this

/-- C89 (integer sums, delta). The integers sent in points with exactly the attributes `m` add up to the integers recorded with them. -/
theorem C89_sum_sent (h : Metric x views cs p pipe k v sc c n unit) (hp : Program farm w p pipe acts coll s s') (hn : c.kinds.1 = .int64)
    (ha : v.defaults.agg c.kinds.2 = .monoSum ∨ v.defaults.agg c.kinds.2 = .nonMonoSum) (ht : v.defaults.tempo c.kinds.2 = .delta)
    (hic : w.ignoreColl = false) (hf : FewAttributes w p k n (v.defaults.acfg c.kinds.2 c.kinds.1).limit acts) (m : PMap) :
    total64 (ints ((sentPoints numbers (sentScope sc) n s'.sent).filter (fun d => d.attrs = m))) =
      total64 (recordedBy p k n (fun as => Describes none as m) acts) := by
  obtain ⟨o, f, hw⟩ := Metric.wired (w := w) h
  have hag : (setup w p).agg o.leaf = sumAgg intOps (w.hist c.kinds.1 (v.defaults.acfg c.kinds.2 c.kinds.1).hist) := by
    rw [hw.setup_agg]
    rcases ha with ha | ha <;> simp only [ha, World.agg, hn, World.ops]
  have hsh : o.shape ∈ [Shape.monotonic, .nonMonotonic] := by
    rw [hw.shape_eq]
    rcases ha with ha | ha <;> simp [ha, shapeOf]
  have := C72_sent_series (hw.session hp hsh) (hw.num_eq.trans hn) (by rw [hw.setup_delta]; exact decide_eq_true ht) hag hic (hw.fits hf) m
  rw [hw.setup_keys, hw.recorded] at this
  exact this

/-- C89 (integer sums, delta, total). Whatever the attributes and limits, the integers sent add up to the integers recorded. -/
theorem C89_sum_total (h : Metric x views cs p pipe k v sc c n unit) (hp : Program farm w p pipe acts coll s s') (hn : c.kinds.1 = .int64)
    (ha : v.defaults.agg c.kinds.2 = .monoSum ∨ v.defaults.agg c.kinds.2 = .nonMonoSum) (ht : v.defaults.tempo c.kinds.2 = .delta) :
    total64 (ints (sentPoints numbers (sentScope sc) n s'.sent)) = total64 (recordedBy p k n (fun _ => True) acts) := by
  obtain ⟨o, f, hw⟩ := Metric.wired (w := w) h
  have hag : (setup w p).agg o.leaf = sumAgg intOps (w.hist c.kinds.1 (v.defaults.acfg c.kinds.2 c.kinds.1).hist) := by
    rw [hw.setup_agg]
    rcases ha with ha | ha <;> simp only [ha, World.agg, hn, World.ops]
  have hsh : o.shape ∈ [Shape.monotonic, .nonMonotonic] := by
    rw [hw.shape_eq]
    rcases ha with ha | ha <;> simp [ha, shapeOf]
  have := C72_sent_total (hw.session hp hsh) (hw.num_eq.trans hn) (by rw [hw.setup_delta]; exact decide_eq_true ht) hag
  rw [hw.recorded] at this
  exact this

/-! ### Sums of floats -/

/-- C89 (float sums, cumulative). The last point sent with the attributes `m` is the result of adding up all floats recorded with them, in some order. -/
theorem C89_float_last (h : Metric x views cs p pipe k v sc c n unit) (hp : Program farm w p pipe acts coll s s') (hn : c.kinds.1 = .float64)
    (ha : v.defaults.agg c.kinds.2 = .monoSum ∨ v.defaults.agg c.kinds.2 = .nonMonoSum) (ht : v.defaults.tempo c.kinds.2 ≠ .delta)
    (hic : w.ignoreColl = false) (hf : FewAttributes w p k n (v.defaults.acfg c.kinds.2 c.kinds.1).limit acts)
    (hne : ∀ e ∈ Pipeline.calls acts, NoEmptyList (e.1.attrs e.2.1)) (m : PMap)
    (hrec : recordedBy p k n (fun as => Describes none as m) acts ≠ []) :
    ∃ b vals, ((sentPoints numbers (sentScope sc) n s'.sent).filter (fun d => d.attrs = m)).getLast?.map (·.value) = some (.double b) ∧
      vals.Perm (recordedBy p k n (fun as => Describes none as m) acts) ∧ SumOf 0 w.fadd b vals := by
  obtain ⟨o, f, hw⟩ := Metric.wired (w := w) h
  have hag : (setup w p).agg o.leaf = sumAgg (fltOps w.fadd) (w.hist c.kinds.1 (v.defaults.acfg c.kinds.2 c.kinds.1).hist) := by
    rw [hw.setup_agg]
    rcases ha with ha | ha <;> simp only [ha, World.agg, hn, World.ops]
  have hsh : o.shape ∈ [Shape.monotonic, .nonMonotonic] := by
    rw [hw.shape_eq]
    rcases ha with ha | ha <;> simp [ha, shapeOf]
  have := C72_float_last_series w.fadd (hw.session hp hsh) (hw.num_eq.trans hn) (by rw [hw.setup_delta]; exact decide_eq_false ht) hag hic (hw.fits hf) hne m
    (by rw [hw.setup_keys, hw.recorded]; exact hrec)
  rw [hw.setup_keys, hw.recorded] at this
  exact this

/-- C89 (float sums, delta). The floats recorded with attributes `m` are divided into groups; the points sent with the attributes `m` are the sums, in some order,
of the groups, except for groups whose sum is zero, which are not sent. -/
theorem C89_float_sent (h : Metric x views cs p pipe k v sc c n unit) (hp : Program farm w p pipe acts coll s s') (hn : c.kinds.1 = .float64)
    (ha : v.defaults.agg c.kinds.2 = .monoSum ∨ v.defaults.agg c.kinds.2 = .nonMonoSum) (ht : v.defaults.tempo c.kinds.2 = .delta)
    (hic : w.ignoreColl = false) (hf : FewAttributes w p k n (v.defaults.acfg c.kinds.2 c.kinds.1).limit acts) (m : PMap) :
    ∃ gs zs : List (List Bits), (gs ++ zs).flatten.Perm (recordedBy p k n (fun as => Describes none as m) acts) ∧
      Pointwise (fun g d => ∃ b, SumOf 0 w.fadd b g ∧ d.value = .double b ∧ scaled b ≠ 0) gs
        ((sentPoints numbers (sentScope sc) n s'.sent).filter (fun d => d.attrs = m)) ∧
      ∀ g ∈ zs, ∃ b, SumOf 0 w.fadd b g ∧ scaled b = 0 := by
  obtain ⟨o, f, hw⟩ := Metric.wired (w := w) h
  have hag : (setup w p).agg o.leaf = sumAgg (fltOps w.fadd) (w.hist c.kinds.1 (v.defaults.acfg c.kinds.2 c.kinds.1).hist) := by
    rw [hw.setup_agg]
    rcases ha with ha | ha <;> simp only [ha, World.agg, hn, World.ops]
  have hsh : o.shape ∈ [Shape.monotonic, .nonMonotonic] := by
    rw [hw.shape_eq]
    rcases ha with ha | ha <;> simp [ha, shapeOf]
  have := C72_float_sent_series w.fadd (hw.session hp hsh) (hw.num_eq.trans hn) (by rw [hw.setup_delta]; exact decide_eq_true ht) hag hic (hw.fits hf) m
  rw [hw.setup_keys, hw.recorded] at this
  exact this

/-! ### Gauges -/

/-- C89 (gauges, cumulative). When calls on the instruments with the name do not overlap: the last point sent with the attributes `m` carries the value of the last
call with them. -/
theorem C89_gauge_last (h : Metric x views cs p pipe k v sc c n unit) (hp : Program farm w p pipe acts coll s s')
    (ha : v.defaults.agg c.kinds.2 = .gauge) (ht : v.defaults.tempo c.kinds.2 ≠ .delta) (hq : OneByOne farm w p pipe k n acts)
    (hic : w.ignoreColl = false) (hf : FewAttributes w p k n (v.defaults.acfg c.kinds.2 c.kinds.1).limit acts)
    (hne : ∀ e ∈ Pipeline.calls acts, NoEmptyList (e.1.attrs e.2.1)) (m : PMap)
    (hrec : recordedBy p k n (fun as => Describes none as m) acts ≠ []) :
    ∃ d b, ((sentPoints numbers (sentScope sc) n s'.sent).filter (fun d => d.attrs = m)).getLast? = some d ∧
      (recordedBy p k n (fun as => Describes none as m) acts).getLast? = some b ∧ NumOf c.kinds.1 b d.value := by
  obtain ⟨o, f, hw⟩ := Metric.wired (w := w) h
  have hag : (setup w p).agg o.leaf = gaugeAgg (w.ops c.kinds.1) (w.hist c.kinds.1 (v.defaults.acfg c.kinds.2 c.kinds.1).hist) := by
    rw [hw.setup_agg]
    simp only [ha, World.agg]
  have hsh : o.shape ∈ [Shape.gauge] := by rw [hw.shape_eq]; simp [ha, shapeOf]
  have := C88_gauge_last (hw.session hp hsh) (by rw [hw.setup_delta]; exact decide_eq_false ht) hag hic (hw.fits hf) hne (hw.sequential hq) m
    (by rw [hw.setup_keys, hw.recorded]; exact hrec)
  rw [hw.setup_keys, hw.recorded, hw.num_eq] at this
  exact this

/-! ### Histograms -/

/-- C89 (histograms, cumulative). The last point sent with the attributes `m` has the content of an exponential histogram, with the configuration of the reader,
made of exactly the values recorded with them. -/
theorem C89_hist_last (h : Metric x views cs p pipe k v sc c n unit) (hp : Program farm w p pipe acts coll s s')
    (ha : v.defaults.agg c.kinds.2 = .histogram) (ht : v.defaults.tempo c.kinds.2 ≠ .delta)
    (hic : w.ignoreColl = false) (hf : FewAttributes w p k n (v.defaults.acfg c.kinds.2 c.kinds.1).limit acts)
    (hne : ∀ e ∈ Pipeline.calls acts, NoEmptyList (e.1.attrs e.2.1)) (m : PMap)
    (hrec : recordedBy p k n (fun as => Describes none as m) acts ≠ []) :
    ∃ d vals, ((sentPoints expPoints (sentScope sc) n s'.sent).filter (fun d => d.attrs = m)).getLast? = some d ∧
      vals.Perm (recordedBy p k n (fun as => Describes none as m) acts) ∧
      ShowsHist (reader w p pipe) (w.hist c.kinds.1 (v.defaults.acfg c.kinds.2 c.kinds.1).hist) c.kinds.1 vals d := by
  obtain ⟨o, f, hw⟩ := Metric.wired (w := w) h
  have hag : (setup w p).agg o.leaf = histAgg (w.ops c.kinds.1) (w.hist c.kinds.1 (v.defaults.acfg c.kinds.2 c.kinds.1).hist) := by
    rw [hw.setup_agg]
    simp only [ha, World.agg]
  have hsh : o.shape ∈ [Shape.hist] := by rw [hw.shape_eq]; simp [ha, shapeOf]
  have := C72_hist_last_content (hw.session hp hsh) (by rw [hw.setup_delta]; exact decide_eq_false ht) hag hic (hw.fits hf) hne m
    (by rw [hw.setup_keys, hw.recorded]; exact hrec)
  rw [hw.setup_keys, hw.recorded, hw.num_eq] at this
  exact this

/-- C89 (histograms, delta). The values recorded with attributes `m` are divided into groups, one for each point sent with the attributes `m`, which has the content
of an exponential histogram made of exactly its group. -/
theorem C89_hist_sent (h : Metric x views cs p pipe k v sc c n unit) (hp : Program farm w p pipe acts coll s s')
    (ha : v.defaults.agg c.kinds.2 = .histogram) (ht : v.defaults.tempo c.kinds.2 = .delta)
    (hl : Counts (w.hist c.kinds.1 (v.defaults.acfg c.kinds.2 c.kinds.1).hist))
    (hic : w.ignoreColl = false) (hf : FewAttributes w p k n (v.defaults.acfg c.kinds.2 c.kinds.1).limit acts) (m : PMap) :
    Grouped (ShowsHist (reader w p pipe) (w.hist c.kinds.1 (v.defaults.acfg c.kinds.2 c.kinds.1).hist) c.kinds.1)
      (recordedBy p k n (fun as => Describes none as m) acts) ((sentPoints expPoints (sentScope sc) n s'.sent).filter (fun d => d.attrs = m)) := by
  obtain ⟨o, f, hw⟩ := Metric.wired (w := w) h
  have hag : (setup w p).agg o.leaf = histAgg (w.ops c.kinds.1) (w.hist c.kinds.1 (v.defaults.acfg c.kinds.2 c.kinds.1).hist) := by
    rw [hw.setup_agg]
    simp only [ha, World.agg]
  have hsh : o.shape ∈ [Shape.hist] := by rw [hw.shape_eq]; simp [ha, shapeOf]
  have := C72_hist_sent_content (hw.session hp hsh) (by rw [hw.setup_delta]; exact decide_eq_true ht) hag hl hic (hw.fits hf) m
  rw [hw.setup_keys, hw.recorded, hw.num_eq] at this
  exact this

/-! ### Minimum, maximum, sum and count -/

/-- C89 (min/max/sum/count of floats, cumulative). -/
theorem C89_mmsc_last (h : Metric x views cs p pipe k v sc c n unit) (hp : Program farm w p pipe acts coll s s') (hn : c.kinds.1 = .float64)
    (ha : v.defaults.agg c.kinds.2 = .mmsc) (ht : v.defaults.tempo c.kinds.2 ≠ .delta)
    (hic : w.ignoreColl = false) (hf : FewAttributes w p k n (v.defaults.acfg c.kinds.2 c.kinds.1).limit acts)
    (hne : ∀ e ∈ Pipeline.calls acts, NoEmptyList (e.1.attrs e.2.1)) (m : PMap)
    (hrec : recordedBy p k n (fun as => Describes none as m) acts ≠ []) :
    ∃ d vals, ((sentPoints histPoints (sentScope sc) n s'.sent).filter (fun d => d.attrs = m)).getLast? = some d ∧
      vals.Perm (recordedBy p k n (fun as => Describes none as m) acts) ∧ ShowsStats w.fadd vals d := by
  obtain ⟨o, f, hw⟩ := Metric.wired (w := w) h
  have hag : (setup w p).agg o.leaf = mmscAgg (fltOps w.fadd) (w.hist c.kinds.1 (v.defaults.acfg c.kinds.2 c.kinds.1).hist) := by
    rw [hw.setup_agg]
    simp only [ha, World.agg, hn, World.ops]
  have hsh : o.shape ∈ [Shape.mmsc] := by rw [hw.shape_eq]; simp [ha, shapeOf]
  obtain ⟨me, i, h1, h2, -, -⟩ := h.inst
  have has : Assembled x views cs p := by rw [h.made]; exact assembled x views cs
  subst h2
  have hnum := hw.calls_num has h1 h.plain hp.genuine
  rw [hn] at hnum
  have := C72_mmsc_last_values w.fadd (hw.session hp hsh) (hw.num_eq.trans hn) (by rw [hw.setup_delta]; exact decide_eq_false ht) hag hic (hw.fits hf) hnum hne m
    (by rw [hw.setup_keys, hw.recorded]; exact hrec)
  rw [hw.setup_keys, hw.recorded] at this
  exact this

/-! ### Nothing else -/

/-- C89 (nothing else is sent, numbers). Every number point sent under the name shows attributes with which something was recorded. -/
theorem C89_known (h : Metric x views cs p pipe k v sc c n unit) (hp : Program farm w p pipe acts coll s s')
    (ha : v.defaults.agg c.kinds.2 = .monoSum ∨ v.defaults.agg c.kinds.2 = .nonMonoSum ∨ v.defaults.agg c.kinds.2 = .gauge)
    (hf : FewAttributes w p k n (v.defaults.acfg c.kinds.2 c.kinds.1).limit acts) (d : PNumber) (hd : d ∈ sentPoints numbers (sentScope sc) n s'.sent) :
    recordedBy p k n (fun as => Describes none as d.attrs) acts ≠ [] := by
  obtain ⟨o, f, hw⟩ := Metric.wired (w := w) h
  have hsh : o.shape ∈ [Shape.monotonic, .nonMonotonic, .gauge] := by
    rw [hw.shape_eq]
    rcases ha with ha | ha | ha <;> simp [ha, shapeOf]
  have := C72_sent_known (hw.session hp hsh) (hw.fits hf) d hd
  rw [hw.setup_keys, hw.recorded] at this
  exact this

/-- C89 (nothing else is sent, histograms). -/
theorem C89_hist_known (h : Metric x views cs p pipe k v sc c n unit) (hp : Program farm w p pipe acts coll s s')
    (ha : v.defaults.agg c.kinds.2 = .histogram)
    (hf : FewAttributes w p k n (v.defaults.acfg c.kinds.2 c.kinds.1).limit acts) (d : PExp) (hd : d ∈ sentPoints expPoints (sentScope sc) n s'.sent) :
    recordedBy p k n (fun as => Describes none as d.attrs) acts ≠ [] := by
  obtain ⟨o, f, hw⟩ := Metric.wired (w := w) h
  have hsh : o.shape ∈ [Shape.hist] := by rw [hw.shape_eq]; simp [ha, shapeOf]
  have := C72_hist_sent_known (hw.session hp hsh) (hw.fits hf) d hd
  rw [hw.setup_keys, hw.recorded] at this
  exact this

/-! ### Concrete programs

Two readers and two meters; the first reader is pushed. In the first meter the counter `n` was asked for twice, calls on the two overlap, and there is a histogram, a
gauge, and an up-down counter renamed by a view; the second meter has a counter `n`, too. -/

section Examples
open Verif.Examples Verif.Examples.Asm
open Verif.Views (lit)

/-- Counters are delta sums, histograms are cumulative: the second counter is collected later than the first, and one call was rejected. -/
example : ∃ s, stages .delta .cumulative .histogram = some s ∧
    Metric ViewEx.x (Asm.views .delta .cumulative .histogram) Asm.cs (Asm.p .delta .cumulative .histogram) 0 0 (v0 .delta .cumulative .histogram) scA .int64Counter (lit "n")
      (lit "s") ∧
    Metric ViewEx.x (Asm.views .delta .cumulative .histogram) Asm.cs (Asm.p .delta .cumulative .histogram) 0 0 (v0 .delta .cumulative .histogram) scA .float64Histogram
      (lit "h") (lit "s") ∧
    Program (fun _ => 0) Asm.w (Asm.p .delta .cumulative .histogram) 0 (Asm.acts .delta .cumulative) (Asm.coll .delta .cumulative) s.x s.x' ∧
    (v0 .delta .cumulative .histogram).defaults.agg .syncCounter = .monoSum ∧ (v0 .delta .cumulative .histogram).defaults.tempo .syncCounter = .delta ∧
    (v0 .delta .cumulative .histogram).defaults.agg .syncHistogram = .histogram ∧ (v0 .delta .cumulative .histogram).defaults.tempo .syncHistogram ≠ .delta ∧
    FewAttributes Asm.w (Asm.p .delta .cumulative .histogram) 0 (lit "n") 4 (Asm.acts .delta .cumulative) ∧
    FewAttributes Asm.w (Asm.p .delta .cumulative .histogram) 0 (lit "h") 4 (Asm.acts .delta .cumulative) ∧
    recordedBy (Asm.p .delta .cumulative .histogram) 0 (lit "h") (fun as => Describes none as ma) (Asm.acts .delta .cumulative) ≠ [] ∧
    (ints (sentPoints numbers (sentScope scA) (lit "n") s.x'.sent)) = [7, 2, 5] ∧
    (sentPoints expPoints (sentScope scA) (lit "h") s.x'.sent).map (·.count) = [1, 1, 2] := by
  obtain ⟨s, h1, h2⟩ := of_evaluated (t := .delta) (t' := .cumulative) (a := .histogram) (by decide +kernel)
  have hv : (stages .delta .cumulative .histogram).map (fun s => (ints (sentPoints numbers (sentScope scA) (lit "n") s.x'.sent),
      (sentPoints expPoints (sentScope scA) (lit "h") s.x'.sent).map (·.count))) = some ([7, 2, 5], [1, 1, 2]) := by decide +kernel
  rw [h2, Option.map_some, Option.some.injEq, Prod.mk.injEq] at hv
  exact ⟨s, h2, metric_n (by decide +kernel), metric_h (by decide +kernel) (Or.inr (Or.inr (Or.inl rfl))), h1, rfl, rfl, rfl, (by decide), few _ _ _ _ _, few _ _ _ _ _,
    recorded (e := (hA, ka, one)) (by simp [called]) (by unfold Rejected; decide +kernel) describes_ka (isCalled_spec (i := 1) (by decide +kernel)), hv.1, hv.2⟩

/-- Counters and gauges are cumulative, histograms are delta: the sums are 7 and later 12, the gauge shows the last value. -/
example : ∃ s, stages .cumulative .delta .histogram = some s ∧
    Metric ViewEx.x (Asm.views .cumulative .delta .histogram) Asm.cs (Asm.p .cumulative .delta .histogram) 0 0 (v0 .cumulative .delta .histogram) scA .int64Counter (lit "n")
      (lit "s") ∧
    Metric ViewEx.x (Asm.views .cumulative .delta .histogram) Asm.cs (Asm.p .cumulative .delta .histogram) 0 0 (v0 .cumulative .delta .histogram) scA .int64Gauge (lit "g") [] ∧
    Metric ViewEx.x (Asm.views .cumulative .delta .histogram) Asm.cs (Asm.p .cumulative .delta .histogram) 0 0 (v0 .cumulative .delta .histogram) scA .float64Histogram
      (lit "h") (lit "s") ∧
    Program (fun _ => 0) Asm.w (Asm.p .cumulative .delta .histogram) 0 (Asm.acts .cumulative .delta) (Asm.coll .cumulative .delta) s.x s.x' ∧
    OneByOne (fun _ => 0) Asm.w (Asm.p .cumulative .delta .histogram) 0 0 (lit "g") (Asm.acts .cumulative .delta) ∧
    recordedBy (Asm.p .cumulative .delta .histogram) 0 (lit "n") (fun as => Describes none as ma) (Asm.acts .cumulative .delta) ≠ [] ∧
    recordedBy (Asm.p .cumulative .delta .histogram) 0 (lit "g") (fun as => Describes none as ma) (Asm.acts .cumulative .delta) ≠ [] ∧
    (∀ e ∈ Pipeline.calls (Asm.acts .cumulative .delta), NoEmptyList (e.1.attrs e.2.1)) ∧ Counts (Asm.w.hist .float64 0) ∧
    ints ((sentPoints numbers (sentScope scA) (lit "n") s.x'.sent).filter (fun d => d.attrs = ma)) = [7, 12] ∧
    (sentPoints numbers (sentScope scA) (lit "g") s.x'.sent).map (·.value) = [.int 6] ∧
    (sentPoints expPoints (sentScope scA) (lit "h") s.x'.sent).map (·.count) = [1, 1, 1] := by
  obtain ⟨s, h1, h2⟩ := of_evaluated (t := .cumulative) (t' := .delta) (a := .histogram) (by decide +kernel)
  have hv : (stages .cumulative .delta .histogram).map (fun s => (ints ((sentPoints numbers (sentScope scA) (lit "n") s.x'.sent).filter (fun d => d.attrs = ma)),
      (sentPoints numbers (sentScope scA) (lit "g") s.x'.sent).map (·.value), (sentPoints expPoints (sentScope scA) (lit "h") s.x'.sent).map (·.count))) =
      some ([7, 12], [.int 6], [1, 1, 1]) := by decide +kernel
  rw [h2, Option.map_some, Option.some.injEq, Prod.mk.injEq, Prod.mk.injEq] at hv
  exact ⟨s, h2, metric_n (by decide +kernel), metric_g (by decide +kernel), metric_h (by decide +kernel) (Or.inr (Or.inr (Or.inl rfl))), h1,
    oneByOne (i := 4) (by decide +kernel) (by decide +kernel),
    recorded (e := (nA, ka, 7)) (by simp [called]) (by unfold Rejected; decide +kernel) describes_ka (isCalled_spec (i := 0) (by decide +kernel)),
    recorded (e := (gA, ka, 3)) (by simp [called]) (by unfold Rejected; decide +kernel) describes_ka (isCalled_spec (i := 4) (by decide +kernel)),
    noEmpty _ _, ⟨rfl, fun _ _ => rfl, fun a b => (List.length_append).trans (Nat.add_comm _ _)⟩, hv.1, hv.2.1, hv.2.2⟩

/-- Histograms shown as sums of floats or as min/max/sum/count. -/
example : ∃ s s' s'', stages .delta .cumulative .monoSum = some s ∧ stages .cumulative .delta .monoSum = some s' ∧ stages .delta .cumulative .mmsc = some s'' ∧
    Metric ViewEx.x (Asm.views .delta .cumulative .monoSum) Asm.cs (Asm.p .delta .cumulative .monoSum) 0 0 (v0 .delta .cumulative .monoSum) scA .float64Histogram
      (lit "h") (lit "s") ∧
    Metric ViewEx.x (Asm.views .cumulative .delta .monoSum) Asm.cs (Asm.p .cumulative .delta .monoSum) 0 0 (v0 .cumulative .delta .monoSum) scA .float64Histogram
      (lit "h") (lit "s") ∧
    Metric ViewEx.x (Asm.views .delta .cumulative .mmsc) Asm.cs (Asm.p .delta .cumulative .mmsc) 0 0 (v0 .delta .cumulative .mmsc) scA .float64Histogram
      (lit "h") (lit "s") ∧
    Program (fun _ => 0) Asm.w (Asm.p .delta .cumulative .monoSum) 0 (Asm.acts .delta .cumulative) (Asm.coll .delta .cumulative) s.x s.x' ∧
    Program (fun _ => 0) Asm.w (Asm.p .cumulative .delta .monoSum) 0 (Asm.acts .cumulative .delta) (Asm.coll .cumulative .delta) s'.x s'.x' ∧
    Program (fun _ => 0) Asm.w (Asm.p .delta .cumulative .mmsc) 0 (Asm.acts .delta .cumulative) (Asm.coll .delta .cumulative) s''.x s''.x' ∧
    (sentPoints numbers (sentScope scA) (lit "h") s.x'.sent).map (·.value) = [.double one, .double two, .double (one + two)] ∧
    (sentPoints numbers (sentScope scA) (lit "h") s'.x'.sent).map (·.value) = [.double one, .double two, .double two] ∧
    (sentPoints histPoints (sentScope scA) (lit "h") s''.x'.sent).map (·.count) = [1, 1, 2] := by
  obtain ⟨s, h1, h2⟩ := of_evaluated (t := .delta) (t' := .cumulative) (a := .monoSum) (by decide +kernel)
  obtain ⟨s', h1', h2'⟩ := of_evaluated (t := .cumulative) (t' := .delta) (a := .monoSum) (by decide +kernel)
  obtain ⟨s'', h1'', h2''⟩ := of_evaluated (t := .delta) (t' := .cumulative) (a := .mmsc) (by decide +kernel)
  have hv : (stages .delta .cumulative .monoSum).map (fun s => (sentPoints numbers (sentScope scA) (lit "h") s.x'.sent).map (·.value)) =
      some [.double one, .double two, .double (one + two)] := by decide +kernel
  have hv' : (stages .cumulative .delta .monoSum).map (fun s => (sentPoints numbers (sentScope scA) (lit "h") s.x'.sent).map (·.value)) =
      some [.double one, .double two, .double two] := by decide +kernel
  have hv'' : (stages .delta .cumulative .mmsc).map (fun s => (sentPoints histPoints (sentScope scA) (lit "h") s.x'.sent).map (·.count)) = some [1, 1, 2] := by
    decide +kernel
  rw [h2, Option.map_some, Option.some.injEq] at hv
  rw [h2', Option.map_some, Option.some.injEq] at hv'
  rw [h2'', Option.map_some, Option.some.injEq] at hv''
  exact ⟨s, s', s'', h2, h2', h2'', metric_h (by decide +kernel) (Or.inl rfl), metric_h (by decide +kernel) (Or.inl rfl),
    metric_h (by decide +kernel) (Or.inr (Or.inr (Or.inr rfl))), h1, h1', h1'', hv, hv', hv''⟩

end Examples

end Verif.Props
