import Verif.Proof.Busy
import Verif.Examples.BusyProgram

/-!
C106: what has been sent when `ForceFlush` or `Shutdown` returns while the program goes on recording.

`Busy.Flushes e pc sel start acts after s s'`: a program which uses the provider installed by the launcher; in `s`, after `acts`, some calls on synchronous instruments have returned and others
may be running; then the reader is flushed or shut down, which returns in `s'`, while calls go on and new calls are made. `Busy.returnedBy … s` are the values of the calls which had returned in
`s`, `recordedBy … (acts ++ after)` those of all calls made until `s'`. `Between before sent all`: `sent` is `before` with some more of `all`.
-/

namespace Verif.Props
open Verif Verif.Attr Verif.Number Verif.Aggr Verif.Export Verif.Spec Verif.Assembly Verif.Instruments Verif.Delivery Verif.Busy
open Verif.Launched (Named Few FewUpTo Launch world views view look recorded_eq Outside)
open Verif.Pipeline (numbers expPoints sentPoints ints NoEmptyList Describes Grouped Shape)
open Verif.Front (IKind)
open Verif.Views (Tempo)
open Verif.Launcher (documented)

variable {C G ν : Type} [DecidableEq C] {lx : Launcher.Ext} {lw : Launcher.World} {opts : List Launcher.Opt} {pref : Launcher.Preference} {pc : Launcher.PipelineConfig}
  {sel : IKind → Tempo} {e : Outside C G} {k : Nat} {sc : Views.Scope} {c : Ctor} {n unit : Str} {start : Int} {acts after : List (Delivery.Act ν)}
  {s s' : Delivery.Sys C G ν}

omit [DecidableEq C] in
theorem recordedBy_more {p : Provider.Provider C ν} {as bs : List Pipeline.Act} {more : List (Front.Inst × List KV × Bits)} (h : Pipeline.calls as = Pipeline.calls bs ++ more)
    (Q : List KV → Prop) : ∃ l, recordedBy p k n Q as = recordedBy p k n Q bs ++ l := by
  unfold recordedBy
  rw [h, List.filter_append, List.map_append]
  exact ⟨_, rfl⟩

omit [DecidableEq C] in
theorem few_less {p : Provider.Provider C ν} {as bs : List Pipeline.Act} {more : List (Front.Inst × List KV × Bits)} (h : Pipeline.calls as = Pipeline.calls bs ++ more)
    (hf : Few p k n as) : Few p k n bs := by
  obtain ⟨A, B, h1, h2, h3, h4⟩ := hf
  exact ⟨A, B, h1, h2, fun c hc => h3 c (by rw [h]; exact List.mem_append_left _ hc), h4⟩

theorem busy_made (hp : Flushes e pc sel start acts after s s') : s'.z.p = Provider.run e.x (Provider.new (views e sel)) (makes acts) := by
  have h1 := Live.run_prov (run_lives hp.running.runs)
  rw [lives_makes hp.running.runs] at h1
  have h2 : makes (acts ++ after) = makes acts := by
    have : makes (acts ++ after) = makes acts ++ makes after := List.filterMap_append ..
    rw [this, hp.fixed, List.append_nil]
  rw [h2] at h1
  exact h1

/-- The part of the program with the synchronous instruments up to the last collection, and this collection. -/
theorem busy_full (hl : Launch lx lw opts pref pc sel) (h : Named (makes acts) s'.z.p k sc c n unit) (hp : Flushes e pc sel start acts after s s')
    (hsy : (promise c).observed = false) :
    ∃ o f pacts pcoll xs xs' more, Fed (world e pc) s'.z.p 0 k sc (view e sel) n (look e pref c unit) o f ∧
      (∀ shapes, o.shape ∈ shapes → Pipeline.Busy e.farm (setup (world e pc) s'.z.p) (reader (world e pc) s'.z.p 0) (sentScope sc) n o shapes pacts pcoll xs xs') ∧
      (∀ i, Returned s.z.s.sync i → i < xs.s.nextOp ∧ (xs.s.op i).pc = .done) ∧
      Pipeline.calls (measured (acts ++ after)) = Pipeline.calls (pacts ++ pcoll) ++ more ∧
      (∀ Q, Pipeline.returnedOn (setup (world e pc) s'.z.p) xs'.s (Returned s.z.s.sync) o.leaf Q = returnedBy s'.z.p k n Q s.z.s.sync) ∧
      (∀ (Q : List KV → Prop) (b v : List Bits), Between b v (Pipeline.recordedOn (setup (world e pc) s'.z.p).leavesOf o.leaf Q (pacts ++ pcoll)) →
        Between b v (recordedBy s'.z.p k n Q (measured (acts ++ after)))) ∧
      (∀ {D : Type} (get : PData → List D), s'.z.s.sent.map (Pipeline.pointsIn get (sentScope sc) n) = xs'.sent.map (Pipeline.pointsIn get (sentScope sc) n)) ∧
      ∃ c1 c0 q x1, pcoll = c1 ++ (c0 ++ [.export q]) ∧ (∀ a ∈ c0, ∀ q, a ≠ .export q) ∧
        Pipeline.run (Front.realCfg e.farm (setup (world e pc) s'.z.p)) (reader (world e pc) s'.z.p 0) xs c1 = some x1 ∧
        Pipeline.Collected (Front.realCfg e.farm (setup (world e pc) s'.z.p)) (reader (world e pc) s'.z.p 0) o.leaf x1 (c0 ++ [.export q]) xs' := by
  have hv := h.viewed hl (busy_made hp)
  obtain ⟨o, f, pacts, pcoll, xs, xs', more, h1, h2, h3, -, h4, h5, h6, -⟩ := Flushing.pipeline hp hv (look_sync hsy)
  refine ⟨o, f, pacts, pcoll, xs, xs', more, h1, h2, ?_, h4, ?_, ?_, h5, h6⟩
  · intro i hi
    rw [h3]
    exact hi
  · intro Q
    have hsame := h2 [o.shape] (List.mem_singleton_self _)
    have hk : o.shape = .monotonic ∨ o.shape = .nonMonotonic ∨ o.shape = .gauge ∨ o.shape = .hist := by
      rw [h1.shape_eq]
      cases c <;> simp [look, Views.usualAgg, Ctor.kinds, shapeOf]
    have : xs.s.nextOp ≤ xs'.s.nextOp ∧
        ∀ i, i < xs.s.nextOp → (xs'.s.op i).obs = (xs.s.op i).obs ∧ (xs'.s.op i).attrs = (xs.s.op i).attrs ∧ (xs'.s.op i).num = (xs.s.op i).num := by
      rcases hk with hk | hk | hk | hk
      · exact hsame.same Pipeline.extracts_numbers (by rw [hk]; simp [Shape.kind])
      · exact hsame.same Pipeline.extracts_numbers (by rw [hk]; simp [Shape.kind])
      · exact hsame.same Pipeline.extracts_numbers (by rw [hk]; simp [Shape.kind])
      · exact hsame.same Pipeline.extracts_exp (by rw [hk]; simp [Shape.kind])
    rw [h3] at this
    exact returned_eq h1 this Q
  · intro Q b v hb
    rw [h1.recorded, recorded_eq] at hb
    obtain ⟨l, hl⟩ := recordedBy_more (p := s'.z.p) (k := k) (n := n) h4 Q
    exact hb.more l hl

/-- What is needed for all theorems below. -/
theorem busy_case (hl : Launch lx lw opts pref pc sel) (h : Named (makes acts) s'.z.p k sc c n unit) (hp : Flushes e pc sel start acts after s s')
    (hsy : (promise c).observed = false) :
    ∃ o f pacts pcoll xs xs' more, Fed (world e pc) s'.z.p 0 k sc (view e sel) n (look e pref c unit) o f ∧
      (∀ shapes, o.shape ∈ shapes → Pipeline.Busy e.farm (setup (world e pc) s'.z.p) (reader (world e pc) s'.z.p 0) (sentScope sc) n o shapes pacts pcoll xs xs') ∧
      (∀ i, Returned s.z.s.sync i → i < xs.s.nextOp ∧ (xs.s.op i).pc = .done) ∧
      Pipeline.calls (measured (acts ++ after)) = Pipeline.calls (pacts ++ pcoll) ++ more ∧
      (∀ Q, Pipeline.returnedOn (setup (world e pc) s'.z.p) xs'.s (Returned s.z.s.sync) o.leaf Q = returnedBy s'.z.p k n Q s.z.s.sync) ∧
      (∀ (Q : List KV → Prop) (b v : List Bits), Between b v (Pipeline.recordedOn (setup (world e pc) s'.z.p).leavesOf o.leaf Q (pacts ++ pcoll)) →
        Between b v (recordedBy s'.z.p k n Q (measured (acts ++ after)))) ∧
      ∀ {D : Type} (get : PData → List D), sentPoints get (sentScope sc) n s'.z.s.sent = sentPoints get (sentScope sc) n xs'.sent := by
  obtain ⟨o, f, pacts, pcoll, xs, xs', more, h1, h2, h3, h4, h5, h6, h7, -⟩ := busy_full hl h hp hsy
  exact ⟨o, f, pacts, pcoll, xs, xs', more, h1, h2, h3, h4, h5, h6, fun get => by rw [sentPoints, sentPoints, List.flatMap_def, List.flatMap_def, h7]⟩

/-! ### Sums of integers -/

/-- C106 (counters and up-down counters of integers, cumulative). When the preference says cumulative: if a call with the attributes `m` had returned before, the last point sent with these is the sum of all integers whose recording with them had returned before, and of some of those recorded meanwhile. -/
theorem C106_sum_last (hl : Launch lx lw opts pref pc sel) (h : Named (makes acts) s'.z.p k sc c n unit) (hp : Flushes e pc sel start acts after s s')
    (hsy : (promise c).observed = false) (hn : (promise c).num = .int64) (ho : (promise c).output = .monotonicSum ∨ (promise c).output = .sum)
    (ht : documented pref c.kinds.2 = .cumulative) (hf : Few s'.z.p k n (measured (acts ++ after)))
    (hne : ∀ a ∈ Pipeline.calls (measured (acts ++ after)), NoEmptyList (a.1.attrs a.2.1)) (m : PMap)
    (hrec : returnedBy s'.z.p k n (fun as => Describes none as m) s.z.s.sync ≠ []) :
    ∃ vals, Between (returnedBy s'.z.p k n (fun as => Describes none as m) s.z.s.sync) vals (recordedBy s'.z.p k n (fun as => Describes none as m) (measured (acts ++ after))) ∧
      ((sentPoints numbers (sentScope sc) n s'.z.s.sent).filter (fun d => d.attrs = m)).getLast?.map (·.value) = some (.int (total64 vals)) := by
  obtain ⟨o, f, pacts, pcoll, xs, xs', more, hw, hb, hret, hc, hq, hbt, hsent⟩ := busy_case hl h hp hsy
  have ha := look_sum (e := e) (pref := pref) (unit := unit) ho
  have hag : (setup (world e pc) s'.z.p).agg o.leaf = sumAgg intOps ((world e pc).hist (look e pref c unit).num (look e pref c unit).acfg.hist) := by
    rw [hw.setup_agg]
    rcases ha with ha | ha <;> simp only [ha, World.agg, look_num hn, World.ops]
  have hsh : o.shape ∈ [Shape.monotonic, .nonMonotonic] := by
    rw [hw.shape_eq]
    rcases ha with ha | ha <;> simp [ha, shapeOf]
  have := Pipeline.Busy.last_series (m := m) hret (hb _ hsh) (hw.num_eq.trans (look_num hn)) (by rw [hw.setup_delta]; exact look_cumulative (Or.inl ht)) hag rfl
    (hw.fits ((few_less hc hf).via e pc sel sc)) (fun a ha => hne a (by rw [hc]; exact List.mem_append_left _ ha)) (by rw [hq, hw.describes]; exact hrec)
  rw [hq, hw.describes] at this
  obtain ⟨vals, v1, v2⟩ := this
  exact ⟨vals, hbt _ _ _ v1, by rw [hsent]; exact v2⟩

/-- C106 (counters and up-down counters of integers, delta). When the preference says delta: the integers sent in points with the attributes `m` add up to all integers whose recording with them had returned before, and some of those recorded meanwhile. -/
theorem C106_sum_sent (hl : Launch lx lw opts pref pc sel) (h : Named (makes acts) s'.z.p k sc c n unit) (hp : Flushes e pc sel start acts after s s')
    (hsy : (promise c).observed = false) (hn : (promise c).num = .int64) (ho : (promise c).output = .monotonicSum ∨ (promise c).output = .sum)
    (ht : documented pref c.kinds.2 = .delta) (hf : Few s'.z.p k n (measured (acts ++ after))) (m : PMap) :
    ∃ vals, Between (returnedBy s'.z.p k n (fun as => Describes none as m) s.z.s.sync) vals (recordedBy s'.z.p k n (fun as => Describes none as m) (measured (acts ++ after))) ∧
      total64 (ints ((sentPoints numbers (sentScope sc) n s'.z.s.sent).filter (fun d => d.attrs = m))) = total64 vals := by
  obtain ⟨o, f, pacts, pcoll, xs, xs', more, hw, hb, hret, hc, hq, hbt, hsent⟩ := busy_case hl h hp hsy
  have ha := look_sum (e := e) (pref := pref) (unit := unit) ho
  have hag : (setup (world e pc) s'.z.p).agg o.leaf = sumAgg intOps ((world e pc).hist (look e pref c unit).num (look e pref c unit).acfg.hist) := by
    rw [hw.setup_agg]
    rcases ha with ha | ha <;> simp only [ha, World.agg, look_num hn, World.ops]
  have hsh : o.shape ∈ [Shape.monotonic, .nonMonotonic] := by
    rw [hw.shape_eq]
    rcases ha with ha | ha <;> simp [ha, shapeOf]
  have := Pipeline.Busy.sent_series (m := m) hret (hb _ hsh) (hw.num_eq.trans (look_num hn)) (by rw [hw.setup_delta]; exact look_delta ht (sum_not_gauge ho)) hag rfl
    (hw.fits ((few_less hc hf).via e pc sel sc))
  rw [hq, hw.describes] at this
  obtain ⟨vals, v1, v2⟩ := this
  exact ⟨vals, hbt _ _ _ v1, by rw [hsent]; exact v2⟩

/-- C106 (counters and up-down counters of integers, delta, point by point). All integers whose recording with the attributes `m` had returned before, and some of those recorded meanwhile, are divided into groups; the points sent with the attributes `m` are the sums of the groups, except for groups whose sum is zero. -/
theorem C106_int_sent (hl : Launch lx lw opts pref pc sel) (h : Named (makes acts) s'.z.p k sc c n unit) (hp : Flushes e pc sel start acts after s s')
    (hsy : (promise c).observed = false) (hn : (promise c).num = .int64) (ho : (promise c).output = .monotonicSum ∨ (promise c).output = .sum)
    (ht : documented pref c.kinds.2 = .delta) (hf : Few s'.z.p k n (measured (acts ++ after))) (m : PMap) :
    ∃ gs zs : List (List Bits), Between (returnedBy s'.z.p k n (fun as => Describes none as m) s.z.s.sync) (gs ++ zs).flatten (recordedBy s'.z.p k n (fun as => Describes none as m) (measured (acts ++ after))) ∧
      Pointwise (fun g d => d.value = .int (total64 g)) gs ((sentPoints numbers (sentScope sc) n s'.z.s.sent).filter (fun d => d.attrs = m)) ∧
      ∀ g ∈ zs, total64 g = 0 := by
  obtain ⟨o, f, pacts, pcoll, xs, xs', more, hw, hb, hret, hc, hq, hbt, hsent⟩ := busy_case hl h hp hsy
  have ha := look_sum (e := e) (pref := pref) (unit := unit) ho
  have hag : (setup (world e pc) s'.z.p).agg o.leaf = sumAgg intOps ((world e pc).hist (look e pref c unit).num (look e pref c unit).acfg.hist) := by
    rw [hw.setup_agg]
    rcases ha with ha | ha <;> simp only [ha, World.agg, look_num hn, World.ops]
  have hsh : o.shape ∈ [Shape.monotonic, .nonMonotonic] := by
    rw [hw.shape_eq]
    rcases ha with ha | ha <;> simp [ha, shapeOf]
  have := Pipeline.Busy.int_sent (m := m) hret (hb _ hsh) (hw.num_eq.trans (look_num hn)) (by rw [hw.setup_delta]; exact look_delta ht (sum_not_gauge ho)) hag rfl
    (hw.fits ((few_less hc hf).via e pc sel sc))
  rw [hq, hw.describes] at this
  obtain ⟨gs, zs, v1, v2, v3⟩ := this
  exact ⟨gs, zs, hbt _ _ _ v1, by rw [hsent]; exact v2, v3⟩

/-- C106 (counters and up-down counters of integers, delta, total). Whatever the attributes and their number, the integers sent add up to all integers whose recording had returned before, and some of those recorded meanwhile. -/
theorem C106_sum_total (hl : Launch lx lw opts pref pc sel) (h : Named (makes acts) s'.z.p k sc c n unit) (hp : Flushes e pc sel start acts after s s')
    (hsy : (promise c).observed = false) (hn : (promise c).num = .int64) (ho : (promise c).output = .monotonicSum ∨ (promise c).output = .sum)
    (ht : documented pref c.kinds.2 = .delta) :
    ∃ vals, Between (returnedBy s'.z.p k n (fun _ => True) s.z.s.sync) vals (recordedBy s'.z.p k n (fun _ => True) (measured (acts ++ after))) ∧
      total64 (ints (sentPoints numbers (sentScope sc) n s'.z.s.sent)) = total64 vals := by
  obtain ⟨o, f, pacts, pcoll, xs, xs', more, hw, hb, hret, hc, hq, hbt, hsent⟩ := busy_case hl h hp hsy
  have ha := look_sum (e := e) (pref := pref) (unit := unit) ho
  have hag : (setup (world e pc) s'.z.p).agg o.leaf = sumAgg intOps ((world e pc).hist (look e pref c unit).num (look e pref c unit).acfg.hist) := by
    rw [hw.setup_agg]
    rcases ha with ha | ha <;> simp only [ha, World.agg, look_num hn, World.ops]
  have hsh : o.shape ∈ [Shape.monotonic, .nonMonotonic] := by
    rw [hw.shape_eq]
    rcases ha with ha | ha <;> simp [ha, shapeOf]
  have := Pipeline.Busy.sent_total hret (hb _ hsh) (hw.num_eq.trans (look_num hn)) (by rw [hw.setup_delta]; exact look_delta ht (sum_not_gauge ho)) hag
  rw [hq] at this
  obtain ⟨vals, v1, v2⟩ := this
  exact ⟨vals, hbt _ _ _ v1, by rw [hsent]; exact v2⟩

/-! ### Sums of floats -/

/-- C106 (counters and up-down counters of floats, cumulative). The last point sent with the attributes `m` is the result of adding up, in some order, all floats whose recording with them had returned before, and some of those recorded meanwhile. -/
theorem C106_float_last (hl : Launch lx lw opts pref pc sel) (h : Named (makes acts) s'.z.p k sc c n unit) (hp : Flushes e pc sel start acts after s s')
    (hsy : (promise c).observed = false) (hn : (promise c).num = .float64) (ho : (promise c).output = .monotonicSum ∨ (promise c).output = .sum)
    (ht : documented pref c.kinds.2 = .cumulative) (hf : Few s'.z.p k n (measured (acts ++ after)))
    (hne : ∀ a ∈ Pipeline.calls (measured (acts ++ after)), NoEmptyList (a.1.attrs a.2.1)) (m : PMap)
    (hrec : returnedBy s'.z.p k n (fun as => Describes none as m) s.z.s.sync ≠ []) :
    ∃ b vals, Between (returnedBy s'.z.p k n (fun as => Describes none as m) s.z.s.sync) vals (recordedBy s'.z.p k n (fun as => Describes none as m) (measured (acts ++ after))) ∧
      ((sentPoints numbers (sentScope sc) n s'.z.s.sent).filter (fun d => d.attrs = m)).getLast?.map (·.value) = some (.double b) ∧ SumOf 0 e.fadd b vals := by
  obtain ⟨o, f, pacts, pcoll, xs, xs', more, hw, hb, hret, hc, hq, hbt, hsent⟩ := busy_case hl h hp hsy
  have ha := look_sum (e := e) (pref := pref) (unit := unit) ho
  have hag : (setup (world e pc) s'.z.p).agg o.leaf = sumAgg (fltOps e.fadd) ((world e pc).hist (look e pref c unit).num (look e pref c unit).acfg.hist) := by
    rw [hw.setup_agg]
    rcases ha with ha | ha <;> simp only [ha, World.agg, look_num hn, World.ops] <;> rfl
  have hsh : o.shape ∈ [Shape.monotonic, .nonMonotonic] := by
    rw [hw.shape_eq]
    rcases ha with ha | ha <;> simp [ha, shapeOf]
  have := Pipeline.Busy.float_last (m := m) hret e.fadd (hb _ hsh) (hw.num_eq.trans (look_num hn)) (by rw [hw.setup_delta]; exact look_cumulative (Or.inl ht)) hag rfl
    (hw.fits ((few_less hc hf).via e pc sel sc)) (fun a ha => hne a (by rw [hc]; exact List.mem_append_left _ ha)) (by rw [hq, hw.describes]; exact hrec)
  rw [hq, hw.describes] at this
  obtain ⟨b, vals, v1, v2, v3⟩ := this
  exact ⟨b, vals, hbt _ _ _ v1, by rw [hsent]; exact v2, v3⟩

/-- C106 (counters and up-down counters of floats, delta). All floats whose recording with the attributes `m` had returned before, and some of those recorded meanwhile, are divided into groups; the points sent with the attributes `m` are the sums, in some order, of the groups, except for groups whose sum is zero, which are not sent. -/
theorem C106_float_sent (hl : Launch lx lw opts pref pc sel) (h : Named (makes acts) s'.z.p k sc c n unit) (hp : Flushes e pc sel start acts after s s')
    (hsy : (promise c).observed = false) (hn : (promise c).num = .float64) (ho : (promise c).output = .monotonicSum ∨ (promise c).output = .sum)
    (ht : documented pref c.kinds.2 = .delta) (hf : Few s'.z.p k n (measured (acts ++ after))) (m : PMap) :
    ∃ gs zs : List (List Bits), Between (returnedBy s'.z.p k n (fun as => Describes none as m) s.z.s.sync) (gs ++ zs).flatten
        (recordedBy s'.z.p k n (fun as => Describes none as m) (measured (acts ++ after))) ∧
      Pointwise (fun g d => ∃ b, SumOf 0 e.fadd b g ∧ d.value = .double b ∧ scaled b ≠ 0) gs
        ((sentPoints numbers (sentScope sc) n s'.z.s.sent).filter (fun d => d.attrs = m)) ∧
      ∀ g ∈ zs, ∃ b, SumOf 0 e.fadd b g ∧ scaled b = 0 := by
  obtain ⟨o, f, pacts, pcoll, xs, xs', more, hw, hb, hret, hc, hq, hbt, hsent⟩ := busy_case hl h hp hsy
  have ha := look_sum (e := e) (pref := pref) (unit := unit) ho
  have hag : (setup (world e pc) s'.z.p).agg o.leaf = sumAgg (fltOps e.fadd) ((world e pc).hist (look e pref c unit).num (look e pref c unit).acfg.hist) := by
    rw [hw.setup_agg]
    rcases ha with ha | ha <;> simp only [ha, World.agg, look_num hn, World.ops] <;> rfl
  have hsh : o.shape ∈ [Shape.monotonic, .nonMonotonic] := by
    rw [hw.shape_eq]
    rcases ha with ha | ha <;> simp [ha, shapeOf]
  have := Pipeline.Busy.float_sent (m := m) hret e.fadd (hb _ hsh) (hw.num_eq.trans (look_num hn)) (by rw [hw.setup_delta]; exact look_delta ht (sum_not_gauge ho)) hag rfl
    (hw.fits ((few_less hc hf).via e pc sel sc))
  rw [hq, hw.describes] at this
  obtain ⟨gs, zs, v1, v2, v3⟩ := this
  exact ⟨gs, zs, hbt _ _ _ v1, by rw [hsent]; exact v2, v3⟩

/-! ### Histograms -/

/-- C106 (histograms, cumulative). The last point sent with the attributes `m` has the content of an exponential histogram with the default configuration made of all values whose recording with them had returned before, and some of those recorded meanwhile. -/
theorem C106_hist_last (hl : Launch lx lw opts pref pc sel) (h : Named (makes acts) s'.z.p k sc c n unit) (hp : Flushes e pc sel start acts after s s')
    (hsy : (promise c).observed = false) (ho : (promise c).output = .histogram)
    (ht : documented pref c.kinds.2 = .cumulative) (hf : Few s'.z.p k n (measured (acts ++ after)))
    (hne : ∀ a ∈ Pipeline.calls (measured (acts ++ after)), NoEmptyList (a.1.attrs a.2.1)) (m : PMap)
    (hrec : returnedBy s'.z.p k n (fun as => Describes none as m) s.z.s.sync ≠ []) :
    ∃ d vals, Between (returnedBy s'.z.p k n (fun as => Describes none as m) s.z.s.sync) vals (recordedBy s'.z.p k n (fun as => Describes none as m) (measured (acts ++ after))) ∧
      ((sentPoints expPoints (sentScope sc) n s'.z.s.sent).filter (fun d => d.attrs = m)).getLast? = some d ∧
      ShowsHist (reader (world e pc) s'.z.p 0) (e.hist (promise c).num (e.x.validH e.zero)) (promise c).num vals d := by
  obtain ⟨o, f, pacts, pcoll, xs, xs', more, hw, hb, hret, hc, hq, hbt, hsent⟩ := busy_case hl h hp hsy
  have ha := look_hist (e := e) (pref := pref) (unit := unit) ho
  have hnum : (look e pref c unit).num = (promise c).num := look_num rfl
  have hag : (setup (world e pc) s'.z.p).agg o.leaf = histAgg ((world e pc).ops (promise c).num) (e.hist (promise c).num (e.x.validH e.zero)) := by
    rw [hw.setup_agg]
    simp only [ha, World.agg, hnum]
    rfl
  have hsh : o.shape ∈ [Shape.hist] := by rw [hw.shape_eq]; simp [ha, shapeOf]
  have := Pipeline.Busy.hist_last (m := m) hret (hb _ hsh) (by rw [hw.setup_delta]; exact look_cumulative (Or.inl ht)) hag rfl
    (hw.fits ((few_less hc hf).via e pc sel sc)) (fun a ha => hne a (by rw [hc]; exact List.mem_append_left _ ha)) (by rw [hq, hw.describes]; exact hrec)
  rw [hq, hw.describes, hw.num_eq, hnum] at this
  obtain ⟨d, vals, v1, v2, v3⟩ := this
  exact ⟨d, vals, hbt _ _ _ v1, by rw [hsent]; exact v2, v3⟩

/-- C106 (histograms, delta). All values whose recording with the attributes `m` had returned before, and some of those recorded meanwhile, are divided into groups, one for each point sent with these attributes, which has the content of an exponential histogram with the default configuration made of exactly its group. -/
theorem C106_hist_sent (hl : Launch lx lw opts pref pc sel) (h : Named (makes acts) s'.z.p k sc c n unit) (hp : Flushes e pc sel start acts after s s')
    (hsy : (promise c).observed = false) (ho : (promise c).output = .histogram)
    (ht : documented pref c.kinds.2 = .delta) (hcn : Counts (e.hist (promise c).num (e.x.validH e.zero)))
    (hf : Few s'.z.p k n (measured (acts ++ after))) (m : PMap) :
    ∃ vals, Between (returnedBy s'.z.p k n (fun as => Describes none as m) s.z.s.sync) vals (recordedBy s'.z.p k n (fun as => Describes none as m) (measured (acts ++ after))) ∧
      Grouped (ShowsHist (reader (world e pc) s'.z.p 0) (e.hist (promise c).num (e.x.validH e.zero)) (promise c).num) vals
        ((sentPoints expPoints (sentScope sc) n s'.z.s.sent).filter (fun d => d.attrs = m)) := by
  obtain ⟨o, f, pacts, pcoll, xs, xs', more, hw, hb, hret, hc, hq, hbt, hsent⟩ := busy_case hl h hp hsy
  have ha := look_hist (e := e) (pref := pref) (unit := unit) ho
  have hnum : (look e pref c unit).num = (promise c).num := look_num rfl
  have hag : (setup (world e pc) s'.z.p).agg o.leaf = histAgg ((world e pc).ops (promise c).num) (e.hist (promise c).num (e.x.validH e.zero)) := by
    rw [hw.setup_agg]
    simp only [ha, World.agg, hnum]
    rfl
  have hsh : o.shape ∈ [Shape.hist] := by rw [hw.shape_eq]; simp [ha, shapeOf]
  have := Pipeline.Busy.hist_sent (m := m) hret (hb _ hsh) (by rw [hw.setup_delta]; exact look_delta ht (sync_not_gauge hsy)) hag hcn rfl
    (hw.fits ((few_less hc hf).via e pc sel sc))
  rw [hq, hw.describes, hw.num_eq, hnum] at this
  obtain ⟨vals, v1, v2⟩ := this
  exact ⟨vals, hbt _ _ _ v1, by rw [hsent]; exact v2⟩

/-! ### Nothing else -/

theorem recordedBy_mono {p : Provider.Provider C ν} {as bs : List Pipeline.Act} {more : List (Front.Inst × List KV × Bits)} (h : Pipeline.calls as = Pipeline.calls bs ++ more)
    {Q : List KV → Prop} (hr : recordedBy p k n Q bs ≠ []) : recordedBy p k n Q as ≠ [] := by
  obtain ⟨l, hl⟩ := recordedBy_more (p := p) (k := k) (n := n) h Q
  rw [hl]
  intro h0
  exact hr (List.append_eq_nil_iff.1 h0).1

/-- C106 (nothing else is sent, numbers). Every number point sent under the name of a counter, up-down counter or gauge has attributes with which something was recorded. -/
theorem C106_known (hl : Launch lx lw opts pref pc sel) (h : Named (makes acts) s'.z.p k sc c n unit) (hp : Flushes e pc sel start acts after s s')
    (hsy : (promise c).observed = false) (ho : (promise c).output ≠ .histogram)
    (hf : Few s'.z.p k n (measured (acts ++ after))) (d : PNumber) (hd : d ∈ sentPoints numbers (sentScope sc) n s'.z.s.sent) :
    recordedBy s'.z.p k n (fun as => Describes none as d.attrs) (measured (acts ++ after)) ≠ [] := by
  obtain ⟨o, f, pacts, pcoll, xs, xs', more, hw, hb, hret, hc, hq, hbt, hsent⟩ := busy_case hl h hp hsy
  have hsh : o.shape ∈ [Shape.monotonic, .nonMonotonic, .gauge] := by
    rw [hw.shape_eq]
    rcases look_number (e := e) (pref := pref) (unit := unit) ho with ha | ha | ha <;> simp [ha, shapeOf]
  have := (hb _ hsh).sent_known (hw.fits ((few_less hc hf).via e pc sel sc)) d (by rw [← hsent]; exact hd)
  rw [hw.describes, hw.recorded, recorded_eq] at this
  exact recordedBy_mono hc this

/-- C106 (nothing else is sent, histograms). Every point sent under the name of a histogram has attributes with which something was recorded. -/
theorem C106_hist_known (hl : Launch lx lw opts pref pc sel) (h : Named (makes acts) s'.z.p k sc c n unit) (hp : Flushes e pc sel start acts after s s')
    (hsy : (promise c).observed = false) (ho : (promise c).output = .histogram)
    (hf : Few s'.z.p k n (measured (acts ++ after))) (d : PExp) (hd : d ∈ sentPoints expPoints (sentScope sc) n s'.z.s.sent) :
    recordedBy s'.z.p k n (fun as => Describes none as d.attrs) (measured (acts ++ after)) ≠ [] := by
  obtain ⟨o, f, pacts, pcoll, xs, xs', more, hw, hb, hret, hc, hq, hbt, hsent⟩ := busy_case hl h hp hsy
  have ha := look_hist (e := e) (pref := pref) (unit := unit) ho
  have hsh : o.shape ∈ [Shape.hist] := by rw [hw.shape_eq]; simp [ha, shapeOf]
  have := (hb _ hsh).hist_known (hw.fits ((few_less hc hf).via e pc sel sc)) d (by rw [← hsent]; exact hd)
  rw [hw.describes, hw.recorded, recorded_eq] at this
  exact recordedBy_mono hc this

/-! ### Examples -/

section Examples
open Verif.Examples Verif.Examples.Asm
open Verif.Views (lit)
open Verif.Pipeline (pointsIn)

/-- What is known of the concrete program of `Verif.Examples.Bz`: the hypotheses of the theorems. `ForceFlush` is called when 7 (attributes `ma`) and 5 had been recorded and the recording of 2 with
`ma` had begun; meanwhile 4 is recorded, 9 and 1 with `ma`. -/
theorem c106_case {a : Launcher.Preference} {ct : Ln.Made} (h0 : ct.2 = .none) (h : Bz.evaluated a ct = true) (h1 : Bz.hasB a ct = true) :
    ∃ s s', Bz.stages a ct = some (s, s') ∧ Launch Launcher.exExt Ln.lw (Ln.opts a) a (Ln.pc a) (documented a) ∧
      Flushes Ln.out (Ln.pc a) (documented a) 1 (Bz.acts ct) (Bz.after a ct) s s' ∧
      Named (makes (Bz.acts ct)) s'.z.p 0 scA ct.1 (lit "n") (lit "s") ∧ Few s'.z.p 0 (lit "n") (measured (Bz.acts ct ++ Bz.after a ct)) ∧
      (∀ e ∈ Pipeline.calls (measured (Bz.acts ct ++ Bz.after a ct)), NoEmptyList (e.1.attrs e.2.1)) ∧
      returnedBy s'.z.p 0 (lit "n") (fun as => Describes none as ma) s.z.s.sync ≠ [] := by
  obtain ⟨s, s', e1, e2, e3, e4⟩ := Bz.of_evaluated h
  refine ⟨s, s', e1, Ln.launch a, e4, ?_, ?_, Bz.noEmpty, ?_⟩
  · rw [e2]; exact Bz.named h0 h1
  · rw [e2]; exact Bz.few
  · rw [e2]; exact Bz.returned h1 e3

/-- "lowMemory": 5 + 4 and 7 are sent. -/
example : ∃ s s', Bz.stages .lowmemory (.int64Counter, .none) = some (s, s') ∧
    Flushes Ln.out (Ln.pc .lowmemory) (documented .lowmemory) 1 (Bz.acts (.int64Counter, .none)) (Bz.after .lowmemory (.int64Counter, .none)) s s' ∧
    documented .lowmemory (Ctor.kinds .int64Counter).2 = .delta ∧ c97Sent s' (lit "n") = [[.int 9, .int 7]] := by
  obtain ⟨s, s', h1, -, h2, -⟩ := c106_case (a := .lowmemory) (ct := (.int64Counter, .none)) rfl (by decide +kernel) (by decide +kernel)
  obtain ⟨q, e1, e2⟩ : ∃ q, Bz.stages .lowmemory (.int64Counter, .none) = some q ∧ c97Sent q.2 (lit "n") = [[.int 9, .int 7]] := exists_of_eval (by decide +kernel)
  obtain rfl : (s, s') = q := by rw [h1] at e1; exact Option.some.inj e1
  exact ⟨s, s', h1, h2, by decide, e2⟩

/-- "cumulative": the theorem says that the last point with the attributes `ma` is a sum with 7. -/
example : ∃ s s', Bz.stages .cumulative (.int64Counter, .none) = some (s, s') ∧
    (∃ vals, Between (returnedBy s'.z.p 0 (lit "n") (fun as => Describes none as ma) s.z.s.sync) vals
        (recordedBy s'.z.p 0 (lit "n") (fun as => Describes none as ma) (measured (Bz.acts (.int64Counter, .none) ++ Bz.after .cumulative (.int64Counter, .none)))) ∧
      ((sentPoints numbers (sentScope scA) (lit "n") s'.z.s.sent).filter (fun d => d.attrs = ma)).getLast?.map (·.value) = some (.int (total64 vals))) ∧
    c97Sent s' (lit "n") = [[.int 9, .int 7]] := by
  obtain ⟨s, s', h1, h2, h3, h4, h5, h6, h7⟩ := c106_case (a := .cumulative) (ct := (.int64Counter, .none)) rfl (by decide +kernel) (by decide +kernel)
  obtain ⟨q, e1, e2⟩ : ∃ q, Bz.stages .cumulative (.int64Counter, .none) = some q ∧ c97Sent q.2 (lit "n") = [[.int 9, .int 7]] := exists_of_eval (by decide +kernel)
  obtain rfl : (s, s') = q := by rw [h1] at e1; exact Option.some.inj e1
  exact ⟨s, s', h1, C106_sum_last h2 h4 h3 rfl rfl (.inl rfl) (by decide) h5 h6 ma h7, e2⟩

/-- "delta": floats. -/
example : ∃ s s', Bz.stages .delta (.float64Counter, .none) = some (s, s') ∧
    Flushes Ln.out (Ln.pc .delta) (documented .delta) 1 (Bz.acts (.float64Counter, .none)) (Bz.after .delta (.float64Counter, .none)) s s' ∧
    documented .delta (Ctor.kinds .float64Counter).2 = .delta ∧ c97Sent s' (lit "n") = [[.double 9, .double 7]] := by
  obtain ⟨s, s', h1, -, h2, -⟩ := c106_case (a := .delta) (ct := (.float64Counter, .none)) rfl (by decide +kernel) (by decide +kernel)
  obtain ⟨q, e1, e2⟩ : ∃ q, Bz.stages .delta (.float64Counter, .none) = some q ∧ c97Sent q.2 (lit "n") = [[.double 9, .double 7]] := exists_of_eval (by decide +kernel)
  obtain rfl : (s, s') = q := by rw [h1] at e1; exact Option.some.inj e1
  exact ⟨s, s', h1, h2, by decide, e2⟩

/-- "delta": an up-down counter of floats is cumulative. -/
example : ∃ s s', Bz.stages .delta (.float64UpDownCounter, .none) = some (s, s') ∧
    Flushes Ln.out (Ln.pc .delta) (documented .delta) 1 (Bz.acts (.float64UpDownCounter, .none)) (Bz.after .delta (.float64UpDownCounter, .none)) s s' ∧
    documented .delta (Ctor.kinds .float64UpDownCounter).2 = .cumulative ∧ c97Sent s' (lit "n") = [[.double 9, .double 7]] := by
  obtain ⟨s, s', h1, -, h2, -⟩ := c106_case (a := .delta) (ct := (.float64UpDownCounter, .none)) rfl (by decide +kernel) (by decide +kernel)
  obtain ⟨q, e1, e2⟩ : ∃ q, Bz.stages .delta (.float64UpDownCounter, .none) = some q ∧ c97Sent q.2 (lit "n") = [[.double 9, .double 7]] := exists_of_eval (by decide +kernel)
  obtain rfl : (s, s') = q := by rw [h1] at e1; exact Option.some.inj e1
  exact ⟨s, s', h1, h2, by decide, e2⟩

/-- Histograms: two values and one. -/
example : ∃ s s', Bz.stages .lowmemory (.float64Histogram, .none) = some (s, s') ∧
    Flushes Ln.out (Ln.pc .lowmemory) (documented .lowmemory) 1 (Bz.acts (.float64Histogram, .none)) (Bz.after .lowmemory (.float64Histogram, .none)) s s' ∧
    documented .lowmemory (Ctor.kinds .float64Histogram).2 = .delta ∧
    s'.z.s.sent.map (fun pl => (pointsIn expPoints (sentScope scA) (lit "n") pl).map (·.count)) = [[2, 1]] := by
  obtain ⟨s, s', h1, -, h2, -⟩ := c106_case (a := .lowmemory) (ct := (.float64Histogram, .none)) rfl (by decide +kernel) (by decide +kernel)
  obtain ⟨q, e1, e2⟩ : ∃ q, Bz.stages .lowmemory (.float64Histogram, .none) = some q ∧
      q.2.z.s.sent.map (fun pl => (pointsIn expPoints (sentScope scA) (lit "n") pl).map (·.count)) = [[2, 1]] := exists_of_eval (by decide +kernel)
  obtain rfl : (s, s') = q := by rw [h1] at e1; exact Option.some.inj e1
  exact ⟨s, s', h1, h2, by decide, e2⟩

/-- The same, cumulative. -/
example : ∃ s s', Bz.stages .cumulative (.int64Histogram, .none) = some (s, s') ∧
    Flushes Ln.out (Ln.pc .cumulative) (documented .cumulative) 1 (Bz.acts (.int64Histogram, .none)) (Bz.after .cumulative (.int64Histogram, .none)) s s' ∧
    documented .cumulative (Ctor.kinds .int64Histogram).2 = .cumulative ∧
    s'.z.s.sent.map (fun pl => (pointsIn expPoints (sentScope scA) (lit "n") pl).map (·.count)) = [[2, 1]] := by
  obtain ⟨s, s', h1, -, h2, -⟩ := c106_case (a := .cumulative) (ct := (.int64Histogram, .none)) rfl (by decide +kernel) (by decide +kernel)
  obtain ⟨q, e1, e2⟩ : ∃ q, Bz.stages .cumulative (.int64Histogram, .none) = some q ∧
      q.2.z.s.sent.map (fun pl => (pointsIn expPoints (sentScope scA) (lit "n") pl).map (·.count)) = [[2, 1]] := exists_of_eval (by decide +kernel)
  obtain rfl : (s, s') = q := by rw [h1] at e1; exact Option.some.inj e1
  exact ⟨s, s', h1, h2, by decide, e2⟩

end Examples

end Verif.Props
