import Verif.Proof.BusyHinted
import Verif.Props.Busy
import Verif.Props.DeliveryHinted
import Verif.Examples.BusyGauge

/-!
C112: what has been sent of instruments with hints when `ForceFlush` or `Shutdown` returns while the program goes on recording.

`Hints e pref cs p k sc c n L` is as for C95, `Busy.Flushes`, `Busy.returnedBy` and `Between` as for C106. By hints, synchronous instruments can also be shown as gauges and with minimum, maximum, sum and
count.
-/

namespace Verif.Props
open Verif Verif.Attr Verif.Number Verif.Aggr Verif.Export Verif.Spec Verif.Assembly Verif.Instruments Verif.Delivery Verif.Busy
open Verif.Launched (Hints FewUpTo Launch world views view recorded_eq Outside Wants)
open Verif.Pipeline (numbers expPoints histPoints sentPoints pointsIn ints NoEmptyList Describes Grouped Shape)
open Verif.Front (IKind)
open Verif.Views (Tempo)
open Verif.Launcher (documented)

variable {C G ν : Type} [DecidableEq C] {lx : Launcher.Ext} {lw : Launcher.World} {opts : List Launcher.Opt} {pref : Launcher.Preference} {pc : Launcher.PipelineConfig}
  {sel : IKind → Tempo} {e : Outside C G} {k : Nat} {sc : Views.Scope} {c : Ctor} {n : Str} {L : Look C} {start : Int} {acts after : List (Delivery.Act ν)}
  {s s' : Delivery.Sys C G ν}

omit [DecidableEq C] in
theorem fewUpTo_less {lim : Nat} {p : Provider.Provider C ν} {as bs : List Pipeline.Act} {more : List (Front.Inst × List KV × Bits)} (h : Pipeline.calls as = Pipeline.calls bs ++ more)
    (hf : FewUpTo lim p k n as) : FewUpTo lim p k n bs := by
  obtain ⟨A, B, h1, h2, h3, h4⟩ := hf
  exact ⟨A, B, h1, h2, fun c hc => h3 c (by rw [h]; exact List.mem_append_left _ hc), h4⟩

/-- What is needed for the next theorem. -/
theorem viewed_full (hv : Viewed e.x (views e sel) (makes acts) s'.z.p 0 k (view e sel) sc n L) (hsy : L.sync = true) (hp : Flushes e pc sel start acts after s s')
    (hk : L.kind ∈ [.monoSum, .nonMonoSum, .gauge, .histogram, .mmsc]) :
    ∃ o f pacts pcoll xs xs' more, Fed (world e pc) s'.z.p 0 k sc (view e sel) n L o f ∧
      (∀ shapes, o.shape ∈ shapes → Pipeline.Busy e.farm (setup (world e pc) s'.z.p) (reader (world e pc) s'.z.p 0) (sentScope sc) n o shapes pacts pcoll xs xs') ∧
      (∀ i, Returned s.z.s.sync i → i < xs.s.nextOp ∧ (xs.s.op i).pc = .done) ∧
      Pipeline.calls (measured (acts ++ after)) = Pipeline.calls (pacts ++ pcoll) ++ more ∧
      (∀ Q, Pipeline.returnedOn (setup (world e pc) s'.z.p) xs'.s (Returned s.z.s.sync) o.leaf Q = returnedBy s'.z.p k n Q s.z.s.sync) ∧
      (∀ (Q : List KV → Prop) (b v : List Bits), Between b v (Pipeline.recordedOn (setup (world e pc) s'.z.p).leavesOf o.leaf Q (pacts ++ pcoll)) →
        Between b v (recordedBy s'.z.p k n Q (measured (acts ++ after)))) ∧
      (∀ {D : Type} (get : PData → List D), sentPoints get (sentScope sc) n s'.z.s.sent = sentPoints get (sentScope sc) n xs'.sent) ∧
      (∀ e' ∈ Pipeline.calls (pacts ++ pcoll), o.leaf ∈ (setup (world e pc) s'.z.p).leavesOf e'.1.id → e'.1.num = L.num) ∧
      (∀ Q, ∃ l, recordedBy s'.z.p k n Q (measured (acts ++ after)) = Pipeline.recordedOn (setup (world e pc) s'.z.p).leavesOf o.leaf Q (pacts ++ pcoll) ++ l) ∧
      (Delivery.OneByOne e pc sel start s'.z.p k n (acts ++ after) → Pipeline.Sequential (Front.realCfg e.farm (setup (world e pc) s'.z.p)) (reader (world e pc) s'.z.p 0) o.leaf (pacts ++ pcoll)) ∧
      (∀ {D : Type} (get : PData → List D), s'.z.s.sent.map (pointsIn get (sentScope sc) n) = xs'.sent.map (pointsIn get (sentScope sc) n)) ∧
      ∃ c1 c0 q x1, pcoll = c1 ++ (c0 ++ [.export q]) ∧ (∀ a ∈ c0, ∀ q, a ≠ .export q) ∧
        Pipeline.run (Front.realCfg e.farm (setup (world e pc) s'.z.p)) (reader (world e pc) s'.z.p 0) xs c1 = some x1 ∧
        Pipeline.Collected (Front.realCfg e.farm (setup (world e pc) s'.z.p)) (reader (world e pc) s'.z.p 0) o.leaf x1 (c0 ++ [.export q]) xs' := by
  obtain ⟨o, f, pacts, pcoll, xs, xs', more, h1, h2, h3, -, h4, h5, h8, las, tl, h6, h7⟩ := Flushing.pipeline hp hv hsy
  refine ⟨o, f, pacts, pcoll, xs, xs', more, h1, h2, ?_, h4, ?_, ?_, fun get => by rw [sentPoints, sentPoints, List.flatMap_def, List.flatMap_def, h5], ?_, ?_, ?_, h5, h8⟩
  · intro i hi
    rw [h3]
    exact hi
  · intro Q
    have hsame := h2 [o.shape] (List.mem_singleton_self _)
    have hk : o.shape = .monotonic ∨ o.shape = .nonMonotonic ∨ o.shape = .gauge ∨ o.shape = .hist ∨ o.shape = .mmsc := by
      rw [h1.shape_eq]
      simp only [List.mem_cons, List.not_mem_nil, or_false] at hk
      rcases hk with hk | hk | hk | hk | hk <;> simp [hk, shapeOf]
    have : xs.s.nextOp ≤ xs'.s.nextOp ∧
        ∀ i, i < xs.s.nextOp → (xs'.s.op i).obs = (xs.s.op i).obs ∧ (xs'.s.op i).attrs = (xs.s.op i).attrs ∧ (xs'.s.op i).num = (xs.s.op i).num := by
      rcases hk with hk | hk | hk | hk | hk
      · exact hsame.same Pipeline.extracts_numbers (by rw [hk]; simp [Shape.kind])
      · exact hsame.same Pipeline.extracts_numbers (by rw [hk]; simp [Shape.kind])
      · exact hsame.same Pipeline.extracts_numbers (by rw [hk]; simp [Shape.kind])
      · exact hsame.same Pipeline.extracts_exp (by rw [hk]; simp [Shape.kind])
      · exact hsame.same Pipeline.extracts_mmsc (by rw [hk]; simp [Shape.kind])
    rw [h3] at this
    exact returned_eq h1 this Q
  · intro Q b v hb
    rw [h1.recorded, recorded_eq] at hb
    obtain ⟨l, hl⟩ := recordedBy_more (p := s'.z.p) (k := k) (n := n) h4 Q
    exact hb.more l hl
  · have hg : Genuine (world e pc) s'.z.p (pacts ++ pcoll) := fun a ha => Busy.genuine hp.running a (by rw [h4]; exact List.mem_append_left _ ha)
    exact h1.calls_num hv hg
  · intro Q
    obtain ⟨l, hl⟩ := recordedBy_more (p := s'.z.p) (k := k) (n := n) h4 Q
    exact ⟨l, by rw [h1.recorded, recorded_eq]; exact hl⟩
  · intro hq
    have hq1 : Launched.OneByOne e pc sel s'.z.p k n (las ++ tl) := hq.live (ls := []) (by rw [← h6]; simp) rfl
    have hq2 : Launched.OneByOne e pc sel s'.z.p k n las := fun before i kvs b af y e1 e2 =>
      hq1 before i kvs b (af ++ tl) y (by rw [e1]; simp) e2
    exact h1.sequential (h7 (hq2.live sc))

/-- What is needed for the theorems below. -/
theorem hinted_full (hl : Launch lx lw opts pref pc sel) (h : Hints e pref (makes acts) s'.z.p k sc c n L) (hsy : L.sync = true) (hp : Flushes e pc sel start acts after s s')
    (hk : L.kind ∈ [.monoSum, .nonMonoSum, .gauge, .histogram, .mmsc]) :
    ∃ o f pacts pcoll xs xs' more, Fed (world e pc) s'.z.p 0 k sc (view e sel) n L o f ∧
      (∀ shapes, o.shape ∈ shapes → Pipeline.Busy e.farm (setup (world e pc) s'.z.p) (reader (world e pc) s'.z.p 0) (sentScope sc) n o shapes pacts pcoll xs xs') ∧
      (∀ i, Returned s.z.s.sync i → i < xs.s.nextOp ∧ (xs.s.op i).pc = .done) ∧
      Pipeline.calls (measured (acts ++ after)) = Pipeline.calls (pacts ++ pcoll) ++ more ∧
      (∀ Q, Pipeline.returnedOn (setup (world e pc) s'.z.p) xs'.s (Returned s.z.s.sync) o.leaf Q = returnedBy s'.z.p k n Q s.z.s.sync) ∧
      (∀ (Q : List KV → Prop) (b v : List Bits), Between b v (Pipeline.recordedOn (setup (world e pc) s'.z.p).leavesOf o.leaf Q (pacts ++ pcoll)) →
        Between b v (recordedBy s'.z.p k n Q (measured (acts ++ after)))) ∧
      (∀ {D : Type} (get : PData → List D), sentPoints get (sentScope sc) n s'.z.s.sent = sentPoints get (sentScope sc) n xs'.sent) ∧
      (∀ e' ∈ Pipeline.calls (pacts ++ pcoll), o.leaf ∈ (setup (world e pc) s'.z.p).leavesOf e'.1.id → e'.1.num = L.num) ∧
      (∀ Q, ∃ l, recordedBy s'.z.p k n Q (measured (acts ++ after)) = Pipeline.recordedOn (setup (world e pc) s'.z.p).leavesOf o.leaf Q (pacts ++ pcoll) ++ l) ∧
      (Delivery.OneByOne e pc sel start s'.z.p k n (acts ++ after) → Pipeline.Sequential (Front.realCfg e.farm (setup (world e pc) s'.z.p)) (reader (world e pc) s'.z.p 0) o.leaf (pacts ++ pcoll)) ∧
      (∀ {D : Type} (get : PData → List D), s'.z.s.sent.map (pointsIn get (sentScope sc) n) = xs'.sent.map (pointsIn get (sentScope sc) n)) ∧
      ∃ c1 c0 q x1, pcoll = c1 ++ (c0 ++ [.export q]) ∧ (∀ a ∈ c0, ∀ q, a ≠ .export q) ∧
        Pipeline.run (Front.realCfg e.farm (setup (world e pc) s'.z.p)) (reader (world e pc) s'.z.p 0) xs c1 = some x1 ∧
        Pipeline.Collected (Front.realCfg e.farm (setup (world e pc) s'.z.p)) (reader (world e pc) s'.z.p 0) o.leaf x1 (c0 ++ [.export q]) xs' :=
  viewed_full (h.viewed hl (busy_made hp)) hsy hp hk

/-- What is needed for most theorems below. -/
theorem hinted_busy (hl : Launch lx lw opts pref pc sel) (h : Hints e pref (makes acts) s'.z.p k sc c n L) (hsy : L.sync = true) (hp : Flushes e pc sel start acts after s s')
    (hk : L.kind ∈ [.monoSum, .nonMonoSum, .gauge, .histogram, .mmsc]) :
    ∃ o f pacts pcoll xs xs' more, Fed (world e pc) s'.z.p 0 k sc (view e sel) n L o f ∧
      (∀ shapes, o.shape ∈ shapes → Pipeline.Busy e.farm (setup (world e pc) s'.z.p) (reader (world e pc) s'.z.p 0) (sentScope sc) n o shapes pacts pcoll xs xs') ∧
      (∀ i, Returned s.z.s.sync i → i < xs.s.nextOp ∧ (xs.s.op i).pc = .done) ∧
      Pipeline.calls (measured (acts ++ after)) = Pipeline.calls (pacts ++ pcoll) ++ more ∧
      (∀ Q, Pipeline.returnedOn (setup (world e pc) s'.z.p) xs'.s (Returned s.z.s.sync) o.leaf Q = returnedBy s'.z.p k n Q s.z.s.sync) ∧
      (∀ (Q : List KV → Prop) (b v : List Bits), Between b v (Pipeline.recordedOn (setup (world e pc) s'.z.p).leavesOf o.leaf Q (pacts ++ pcoll)) →
        Between b v (recordedBy s'.z.p k n Q (measured (acts ++ after)))) ∧
      (∀ {D : Type} (get : PData → List D), sentPoints get (sentScope sc) n s'.z.s.sent = sentPoints get (sentScope sc) n xs'.sent) ∧
      (∀ e' ∈ Pipeline.calls (pacts ++ pcoll), o.leaf ∈ (setup (world e pc) s'.z.p).leavesOf e'.1.id → e'.1.num = L.num) := by
  obtain ⟨o, f, pacts, pcoll, xs, xs', more, h1, h2, h3, h4, h5, h6, h7, h8, -⟩ := hinted_full hl h hsy hp hk
  exact ⟨o, f, pacts, pcoll, xs, xs', more, h1, h2, h3, h4, h5, h6, h7, h8⟩

/-- C112 (sums of integers, cumulative). If a call with the attributes `m` had returned before, the last point sent with these is the sum of all integers whose recording with them had returned before, and of some of those recorded meanwhile. -/
theorem C112_sum_last (hl : Launch lx lw opts pref pc sel) (h : Hints e pref (makes acts) s'.z.p k sc c n L) (hsy : L.sync = true) (hp : Flushes e pc sel start acts after s s') (hn : L.num = .int64)
    (ha : L.kind = .monoSum ∨ L.kind = .nonMonoSum) (ht : L.delta = false) (hf : FewUpTo L.acfg.limit s'.z.p k n (measured (acts ++ after)))
    (hne : ∀ a ∈ Pipeline.calls (measured (acts ++ after)), NoEmptyList (a.1.attrs a.2.1)) (m : PMap)
    (hrec : returnedBy s'.z.p k n (fun as => Describes none as m) s.z.s.sync ≠ []) :
    ∃ vals, Between (returnedBy s'.z.p k n (fun as => Describes none as m) s.z.s.sync) vals (recordedBy s'.z.p k n (fun as => Describes none as m) (measured (acts ++ after))) ∧
      ((sentPoints numbers (sentScope sc) n s'.z.s.sent).filter (fun d => d.attrs = m)).getLast?.map (·.value) = some (.int (total64 vals)) := by
  obtain ⟨o, f, pacts, pcoll, xs, xs', more, hw, hb, hret, hc, hq, hbt, hsent, hnum⟩ := hinted_busy hl h hsy hp (by rcases ha with ha | ha <;> simp [ha])
  have hag : (setup (world e pc) s'.z.p).agg o.leaf = sumAgg intOps ((world e pc).hist L.num L.acfg.hist) := by
    rw [hw.setup_agg]
    rcases ha with ha | ha <;> simp only [ha, World.agg, hn, World.ops] <;> rfl
  have hsh : o.shape ∈ [Shape.monotonic, .nonMonotonic] := by
    rw [hw.shape_eq]
    rcases ha with ha | ha <;> simp [ha, shapeOf]
  have := Pipeline.Busy.last_series (m := m) hret (hb _ hsh) (hw.num_eq.trans hn) (by rw [hw.setup_delta]; exact ht) hag rfl (hw.fits (L := L) (by rw [h.keys]; exact (fewUpTo_less hc hf).via e pc sel sc))
    (fun a ha => hne a (by rw [hc]; exact List.mem_append_left _ ha)) (by rw [hq, hw.describes, h.keys]; exact hrec)
  rw [hq, hw.describes, h.keys] at this
  obtain ⟨vals, v1, v2⟩ := this
  exact ⟨vals, hbt _ _ _ v1, by rw [hsent]; exact v2⟩

/-- C112 (sums of integers, delta). The integers sent in points with the attributes `m` add up to all integers whose recording with them had returned before, and some of those recorded meanwhile. -/
theorem C112_sum_sent (hl : Launch lx lw opts pref pc sel) (h : Hints e pref (makes acts) s'.z.p k sc c n L) (hsy : L.sync = true) (hp : Flushes e pc sel start acts after s s') (hn : L.num = .int64)
    (ha : L.kind = .monoSum ∨ L.kind = .nonMonoSum) (ht : L.delta = true) (hf : FewUpTo L.acfg.limit s'.z.p k n (measured (acts ++ after))) (m : PMap) :
    ∃ vals, Between (returnedBy s'.z.p k n (fun as => Describes none as m) s.z.s.sync) vals (recordedBy s'.z.p k n (fun as => Describes none as m) (measured (acts ++ after))) ∧
      total64 (ints ((sentPoints numbers (sentScope sc) n s'.z.s.sent).filter (fun d => d.attrs = m))) = total64 vals := by
  obtain ⟨o, f, pacts, pcoll, xs, xs', more, hw, hb, hret, hc, hq, hbt, hsent, hnum⟩ := hinted_busy hl h hsy hp (by rcases ha with ha | ha <;> simp [ha])
  have hag : (setup (world e pc) s'.z.p).agg o.leaf = sumAgg intOps ((world e pc).hist L.num L.acfg.hist) := by
    rw [hw.setup_agg]
    rcases ha with ha | ha <;> simp only [ha, World.agg, hn, World.ops] <;> rfl
  have hsh : o.shape ∈ [Shape.monotonic, .nonMonotonic] := by
    rw [hw.shape_eq]
    rcases ha with ha | ha <;> simp [ha, shapeOf]
  have := Pipeline.Busy.sent_series (m := m) hret (hb _ hsh) (hw.num_eq.trans hn) (by rw [hw.setup_delta]; exact ht) hag rfl (hw.fits (L := L) (by rw [h.keys]; exact (fewUpTo_less hc hf).via e pc sel sc))
  rw [hq, hw.describes, h.keys] at this
  obtain ⟨vals, v1, v2⟩ := this
  exact ⟨vals, hbt _ _ _ v1, by rw [hsent]; exact v2⟩

/-- C112 (sums of integers, delta, point by point). All integers whose recording with the attributes `m` had returned before, and some of those recorded meanwhile, are divided into groups; the points sent with the attributes `m` are the sums of the groups, except for groups whose sum is zero. -/
theorem C112_int_sent (hl : Launch lx lw opts pref pc sel) (h : Hints e pref (makes acts) s'.z.p k sc c n L) (hsy : L.sync = true) (hp : Flushes e pc sel start acts after s s') (hn : L.num = .int64)
    (ha : L.kind = .monoSum ∨ L.kind = .nonMonoSum) (ht : L.delta = true) (hf : FewUpTo L.acfg.limit s'.z.p k n (measured (acts ++ after))) (m : PMap) :
    ∃ gs zs : List (List Bits), Between (returnedBy s'.z.p k n (fun as => Describes none as m) s.z.s.sync) (gs ++ zs).flatten (recordedBy s'.z.p k n (fun as => Describes none as m) (measured (acts ++ after))) ∧
      Pointwise (fun g d => d.value = .int (total64 g)) gs ((sentPoints numbers (sentScope sc) n s'.z.s.sent).filter (fun d => d.attrs = m)) ∧
      ∀ g ∈ zs, total64 g = 0 := by
  obtain ⟨o, f, pacts, pcoll, xs, xs', more, hw, hb, hret, hc, hq, hbt, hsent, hnum⟩ := hinted_busy hl h hsy hp (by rcases ha with ha | ha <;> simp [ha])
  have hag : (setup (world e pc) s'.z.p).agg o.leaf = sumAgg intOps ((world e pc).hist L.num L.acfg.hist) := by
    rw [hw.setup_agg]
    rcases ha with ha | ha <;> simp only [ha, World.agg, hn, World.ops] <;> rfl
  have hsh : o.shape ∈ [Shape.monotonic, .nonMonotonic] := by
    rw [hw.shape_eq]
    rcases ha with ha | ha <;> simp [ha, shapeOf]
  have := Pipeline.Busy.int_sent (m := m) hret (hb _ hsh) (hw.num_eq.trans hn) (by rw [hw.setup_delta]; exact ht) hag rfl (hw.fits (L := L) (by rw [h.keys]; exact (fewUpTo_less hc hf).via e pc sel sc))
  rw [hq, hw.describes, h.keys] at this
  obtain ⟨gs, zs, v1, v2, v3⟩ := this
  exact ⟨gs, zs, hbt _ _ _ v1, by rw [hsent]; exact v2, v3⟩

/-- C112 (sums of integers, delta, total). Whatever the attributes, their number and the limit, the integers sent add up to all integers whose recording had returned before, and some of those recorded meanwhile. -/
theorem C112_sum_total (hl : Launch lx lw opts pref pc sel) (h : Hints e pref (makes acts) s'.z.p k sc c n L) (hsy : L.sync = true) (hp : Flushes e pc sel start acts after s s') (hn : L.num = .int64)
    (ha : L.kind = .monoSum ∨ L.kind = .nonMonoSum) (ht : L.delta = true) :
    ∃ vals, Between (returnedBy s'.z.p k n (fun _ => True) s.z.s.sync) vals (recordedBy s'.z.p k n (fun _ => True) (measured (acts ++ after))) ∧
      total64 (ints (sentPoints numbers (sentScope sc) n s'.z.s.sent)) = total64 vals := by
  obtain ⟨o, f, pacts, pcoll, xs, xs', more, hw, hb, hret, hc, hq, hbt, hsent, hnum⟩ := hinted_busy hl h hsy hp (by rcases ha with ha | ha <;> simp [ha])
  have hag : (setup (world e pc) s'.z.p).agg o.leaf = sumAgg intOps ((world e pc).hist L.num L.acfg.hist) := by
    rw [hw.setup_agg]
    rcases ha with ha | ha <;> simp only [ha, World.agg, hn, World.ops] <;> rfl
  have hsh : o.shape ∈ [Shape.monotonic, .nonMonotonic] := by
    rw [hw.shape_eq]
    rcases ha with ha | ha <;> simp [ha, shapeOf]
  have := Pipeline.Busy.sent_total hret (hb _ hsh) (hw.num_eq.trans hn) (by rw [hw.setup_delta]; exact ht) hag
  rw [hq] at this
  obtain ⟨vals, v1, v2⟩ := this
  exact ⟨vals, hbt _ _ _ v1, by rw [hsent]; exact v2⟩

/-- C112 (sums of floats, cumulative). The same; the sum is taken in some order. -/
theorem C112_float_last (hl : Launch lx lw opts pref pc sel) (h : Hints e pref (makes acts) s'.z.p k sc c n L) (hsy : L.sync = true) (hp : Flushes e pc sel start acts after s s') (hn : L.num = .float64)
    (ha : L.kind = .monoSum ∨ L.kind = .nonMonoSum) (ht : L.delta = false) (hf : FewUpTo L.acfg.limit s'.z.p k n (measured (acts ++ after)))
    (hne : ∀ a ∈ Pipeline.calls (measured (acts ++ after)), NoEmptyList (a.1.attrs a.2.1)) (m : PMap)
    (hrec : returnedBy s'.z.p k n (fun as => Describes none as m) s.z.s.sync ≠ []) :
    ∃ v vals, Between (returnedBy s'.z.p k n (fun as => Describes none as m) s.z.s.sync) vals (recordedBy s'.z.p k n (fun as => Describes none as m) (measured (acts ++ after))) ∧
      ((sentPoints numbers (sentScope sc) n s'.z.s.sent).filter (fun d => d.attrs = m)).getLast?.map (·.value) = some (.double v) ∧ SumOf 0 e.fadd v vals := by
  obtain ⟨o, f, pacts, pcoll, xs, xs', more, hw, hb, hret, hc, hq, hbt, hsent, hnum⟩ := hinted_busy hl h hsy hp (by rcases ha with ha | ha <;> simp [ha])
  have hag : (setup (world e pc) s'.z.p).agg o.leaf = sumAgg (fltOps e.fadd) ((world e pc).hist L.num L.acfg.hist) := by
    rw [hw.setup_agg]
    rcases ha with ha | ha <;> simp only [ha, World.agg, hn, World.ops] <;> rfl
  have hsh : o.shape ∈ [Shape.monotonic, .nonMonotonic] := by
    rw [hw.shape_eq]
    rcases ha with ha | ha <;> simp [ha, shapeOf]
  have := Pipeline.Busy.float_last (m := m) hret e.fadd (hb _ hsh) (hw.num_eq.trans hn) (by rw [hw.setup_delta]; exact ht) hag rfl (hw.fits (L := L) (by rw [h.keys]; exact (fewUpTo_less hc hf).via e pc sel sc))
    (fun a ha => hne a (by rw [hc]; exact List.mem_append_left _ ha)) (by rw [hq, hw.describes, h.keys]; exact hrec)
  rw [hq, hw.describes, h.keys] at this
  obtain ⟨v, vals, v1, v2, v3⟩ := this
  exact ⟨v, vals, hbt _ _ _ v1, by rw [hsent]; exact v2, v3⟩

/-- C112 (sums of floats, delta). All floats whose recording with the attributes `m` had returned before, and some of those recorded meanwhile, are divided into groups; the points sent with the attributes `m` are the sums, in some order, of the groups, except for groups whose sum is zero. -/
theorem C112_float_sent (hl : Launch lx lw opts pref pc sel) (h : Hints e pref (makes acts) s'.z.p k sc c n L) (hsy : L.sync = true) (hp : Flushes e pc sel start acts after s s') (hn : L.num = .float64)
    (ha : L.kind = .monoSum ∨ L.kind = .nonMonoSum) (ht : L.delta = true) (hf : FewUpTo L.acfg.limit s'.z.p k n (measured (acts ++ after))) (m : PMap) :
    ∃ gs zs : List (List Bits), Between (returnedBy s'.z.p k n (fun as => Describes none as m) s.z.s.sync) (gs ++ zs).flatten (recordedBy s'.z.p k n (fun as => Describes none as m) (measured (acts ++ after))) ∧
      Pointwise (fun g d => ∃ v, SumOf 0 e.fadd v g ∧ d.value = .double v ∧ scaled v ≠ 0) gs ((sentPoints numbers (sentScope sc) n s'.z.s.sent).filter (fun d => d.attrs = m)) ∧
      ∀ g ∈ zs, ∃ v, SumOf 0 e.fadd v g ∧ scaled v = 0 := by
  obtain ⟨o, f, pacts, pcoll, xs, xs', more, hw, hb, hret, hc, hq, hbt, hsent, hnum⟩ := hinted_busy hl h hsy hp (by rcases ha with ha | ha <;> simp [ha])
  have hag : (setup (world e pc) s'.z.p).agg o.leaf = sumAgg (fltOps e.fadd) ((world e pc).hist L.num L.acfg.hist) := by
    rw [hw.setup_agg]
    rcases ha with ha | ha <;> simp only [ha, World.agg, hn, World.ops] <;> rfl
  have hsh : o.shape ∈ [Shape.monotonic, .nonMonotonic] := by
    rw [hw.shape_eq]
    rcases ha with ha | ha <;> simp [ha, shapeOf]
  have := Pipeline.Busy.float_sent (m := m) hret e.fadd (hb _ hsh) (hw.num_eq.trans hn) (by rw [hw.setup_delta]; exact ht) hag rfl (hw.fits (L := L) (by rw [h.keys]; exact (fewUpTo_less hc hf).via e pc sel sc))
  rw [hq, hw.describes, h.keys] at this
  obtain ⟨gs, zs, v1, v2, v3⟩ := this
  exact ⟨gs, zs, hbt _ _ _ v1, by rw [hsent]; exact v2, v3⟩

/-- C112 (gauges, cumulative). If a call with the attributes `m` had returned before, the last point sent with these carries one of the values recorded with them, until the flush or meanwhile. -/
theorem C112_gauge_last_partial (hl : Launch lx lw opts pref pc sel) (h : Hints e pref (makes acts) s'.z.p k sc c n L) (hsy : L.sync = true) (hp : Flushes e pc sel start acts after s s')
    (ha : L.kind = .gauge) (ht : L.delta = false) (hf : FewUpTo L.acfg.limit s'.z.p k n (measured (acts ++ after)))
    (hne : ∀ a ∈ Pipeline.calls (measured (acts ++ after)), NoEmptyList (a.1.attrs a.2.1)) (m : PMap)
    (hrec : returnedBy s'.z.p k n (fun as => Describes none as m) s.z.s.sync ≠ []) :
    ∃ d vals, Between (returnedBy s'.z.p k n (fun as => Describes none as m) s.z.s.sync) vals (recordedBy s'.z.p k n (fun as => Describes none as m) (measured (acts ++ after))) ∧
      ((sentPoints numbers (sentScope sc) n s'.z.s.sent).filter (fun d => d.attrs = m)).getLast? = some d ∧ ∃ b ∈ vals, NumOf L.num b d.value := by
  obtain ⟨o, f, pacts, pcoll, xs, xs', more, hw, hb, hret, hc, hq, hbt, hsent, hnum⟩ := hinted_busy hl h hsy hp (by simp [ha])
  have hag : (setup (world e pc) s'.z.p).agg o.leaf = gaugeAgg ((world e pc).ops L.num) ((world e pc).hist L.num L.acfg.hist) := by
    rw [hw.setup_agg]
    simp only [ha, World.agg]
    try rfl
  have hsh : o.shape ∈ [Shape.gauge] := by
    rw [hw.shape_eq]
    simp [ha, shapeOf]
  have := Pipeline.Busy.gauge_last (m := m) hret (hb _ hsh) (by rw [hw.setup_delta]; exact ht) hag rfl (hw.fits (L := L) (by rw [h.keys]; exact (fewUpTo_less hc hf).via e pc sel sc))
    (fun a ha => hne a (by rw [hc]; exact List.mem_append_left _ ha)) (by rw [hq, hw.describes, h.keys]; exact hrec)
  rw [hq, hw.describes, h.keys, hw.num_eq] at this
  obtain ⟨d, vals, v1, v2, v3⟩ := this
  exact ⟨d, vals, hbt _ _ _ v1, by rw [hsent]; exact v2, v3⟩

/-- C112 (gauges, cumulative, calls one by one). When calls on the instruments with the name do not overlap, and one with the attributes `m` had returned before: the last point sent with these carries the value of a call with them, made
until the flush or meanwhile, and no call which had returned before was made after this one. -/
theorem C112_gauge_newest (hl : Launch lx lw opts pref pc sel) (h : Hints e pref (makes acts) s'.z.p k sc c n L) (hsy : L.sync = true) (hp : Flushes e pc sel start acts after s s')
    (ha : L.kind = .gauge) (ht : L.delta = false) (hone : Delivery.OneByOne e pc sel start s'.z.p k n (acts ++ after)) (hf : FewUpTo L.acfg.limit s'.z.p k n (measured (acts ++ after)))
    (hne : ∀ a ∈ Pipeline.calls (measured (acts ++ after)), NoEmptyList (a.1.attrs a.2.1)) (m : PMap)
    (hrec : returnedBy s'.z.p k n (fun as => Describes none as m) s.z.s.sync ≠ []) :
    ∃ d pre b post, recordedBy s'.z.p k n (fun as => Describes none as m) (measured (acts ++ after)) = pre ++ b :: post ∧
      (returnedBy s'.z.p k n (fun as => Describes none as m) s.z.s.sync).Sublist (pre ++ [b]) ∧
      ((sentPoints numbers (sentScope sc) n s'.z.s.sent).filter (fun d => d.attrs = m)).getLast? = some d ∧ NumOf L.num b d.value := by
  obtain ⟨o, f, pacts, pcoll, xs, xs', more, hw, hb, hret, hc, hq, hbt, hsent, hnum, hrc, hse, -⟩ := hinted_full hl h hsy hp (by simp [ha])
  have hag : (setup (world e pc) s'.z.p).agg o.leaf = gaugeAgg ((world e pc).ops L.num) ((world e pc).hist L.num L.acfg.hist) := by
    rw [hw.setup_agg]
    simp only [ha, World.agg]
    try rfl
  have hsh : o.shape ∈ [Shape.gauge] := by
    rw [hw.shape_eq]
    simp [ha, shapeOf]
  have := Pipeline.Busy.gauge_newest (m := m) hret (hb _ hsh) (hse hone) (by rw [hw.setup_delta]; exact ht) hag rfl (hw.fits (L := L) (by rw [h.keys]; exact (fewUpTo_less hc hf).via e pc sel sc))
    (fun a ha => hne a (by rw [hc]; exact List.mem_append_left _ ha)) (by rw [hq, hw.describes, h.keys]; exact hrec)
  rw [hq, hw.describes, h.keys, hw.num_eq] at this
  obtain ⟨d, pre, b, post, v1, v2, v3, v4⟩ := this
  obtain ⟨l, hl'⟩ := hrc (fun as => Describes none as m)
  exact ⟨d, pre, b, post ++ l, by rw [hl', v1]; simp, v2, by rw [hsent]; exact v3, v4⟩

/-- C112 (gauges, delta). All values whose recording with the attributes `m` had returned before, and some of those recorded meanwhile, are divided into groups, one for each point sent with these attributes, which carries a value of its group. -/
theorem C112_gauge_sent (hl : Launch lx lw opts pref pc sel) (h : Hints e pref (makes acts) s'.z.p k sc c n L) (hsy : L.sync = true) (hp : Flushes e pc sel start acts after s s')
    (ha : L.kind = .gauge) (ht : L.delta = true) (hf : FewUpTo L.acfg.limit s'.z.p k n (measured (acts ++ after))) (m : PMap) :
    ∃ vals, Between (returnedBy s'.z.p k n (fun as => Describes none as m) s.z.s.sync) vals (recordedBy s'.z.p k n (fun as => Describes none as m) (measured (acts ++ after))) ∧
      Grouped (fun g d => ∃ b ∈ g, NumOf L.num b d.value) vals ((sentPoints numbers (sentScope sc) n s'.z.s.sent).filter (fun d => d.attrs = m)) := by
  obtain ⟨o, f, pacts, pcoll, xs, xs', more, hw, hb, hret, hc, hq, hbt, hsent, hnum⟩ := hinted_busy hl h hsy hp (by simp [ha])
  have hag : (setup (world e pc) s'.z.p).agg o.leaf = gaugeAgg ((world e pc).ops L.num) ((world e pc).hist L.num L.acfg.hist) := by
    rw [hw.setup_agg]
    simp only [ha, World.agg]
    try rfl
  have hsh : o.shape ∈ [Shape.gauge] := by
    rw [hw.shape_eq]
    simp [ha, shapeOf]
  have := Pipeline.Busy.gauge_sent (m := m) hret (hb _ hsh) (by rw [hw.setup_delta]; exact ht) hag rfl (hw.fits (L := L) (by rw [h.keys]; exact (fewUpTo_less hc hf).via e pc sel sc))
  rw [hq, hw.describes, h.keys, hw.num_eq] at this
  obtain ⟨vals, v1, v2⟩ := this
  exact ⟨vals, hbt _ _ _ v1, by rw [hsent]; exact v2⟩

/-- C112 (gauges, delta, calls one by one). When calls on the instruments with the name do not overlap: the groups of `C112_gauge_sent` are in the order of the calls, and the point carries the last value of its group. -/
theorem C112_gauge_sent_newest (hl : Launch lx lw opts pref pc sel) (h : Hints e pref (makes acts) s'.z.p k sc c n L) (hsy : L.sync = true) (hp : Flushes e pc sel start acts after s s')
    (ha : L.kind = .gauge) (ht : L.delta = true) (hone : Delivery.OneByOne e pc sel start s'.z.p k n (acts ++ after)) (hf : FewUpTo L.acfg.limit s'.z.p k n (measured (acts ++ after))) (m : PMap) :
    ∃ gs : List (List Bits), Between (returnedBy s'.z.p k n (fun as => Describes none as m) s.z.s.sync) gs.flatten (recordedBy s'.z.p k n (fun as => Describes none as m) (measured (acts ++ after))) ∧
      (∀ g ∈ gs, g.Sublist (recordedBy s'.z.p k n (fun as => Describes none as m) (measured (acts ++ after)))) ∧
      Pointwise (fun g d => ∃ b, g.getLast? = some b ∧ NumOf L.num b d.value) gs ((sentPoints numbers (sentScope sc) n s'.z.s.sent).filter (fun d => d.attrs = m)) := by
  obtain ⟨o, f, pacts, pcoll, xs, xs', more, hw, hb, hret, hc, hq, hbt, hsent, hnum, hrc, hse, -⟩ := hinted_full hl h hsy hp (by simp [ha])
  have hag : (setup (world e pc) s'.z.p).agg o.leaf = gaugeAgg ((world e pc).ops L.num) ((world e pc).hist L.num L.acfg.hist) := by
    rw [hw.setup_agg]
    simp only [ha, World.agg]
    try rfl
  have hsh : o.shape ∈ [Shape.gauge] := by
    rw [hw.shape_eq]
    simp [ha, shapeOf]
  have := Pipeline.Busy.gauge_sent_newest (m := m) hret (hb _ hsh) (hse hone) (by rw [hw.setup_delta]; exact ht) hag rfl (hw.fits (L := L) (by rw [h.keys]; exact (fewUpTo_less hc hf).via e pc sel sc))
  rw [hq, hw.describes, h.keys, hw.num_eq] at this
  obtain ⟨gs, v1, v2, v3⟩ := this
  obtain ⟨l, hl'⟩ := hrc (fun as => Describes none as m)
  exact ⟨gs, hbt _ _ _ v1, fun g hg => by rw [hl']; exact (v2 g hg).trans (List.sublist_append_left ..), by rw [hsent]; exact v3⟩

/-- C112 (histograms, cumulative). The last point sent with the attributes `m` has the content of an exponential histogram, with the configuration which the hint gives, made of all values whose recording with the attributes `m` had returned before, and some of those recorded meanwhile. -/
theorem C112_hist_last (hl : Launch lx lw opts pref pc sel) (h : Hints e pref (makes acts) s'.z.p k sc c n L) (hsy : L.sync = true) (hp : Flushes e pc sel start acts after s s')
    (ha : L.kind = .histogram) (ht : L.delta = false) (hf : FewUpTo L.acfg.limit s'.z.p k n (measured (acts ++ after)))
    (hne : ∀ a ∈ Pipeline.calls (measured (acts ++ after)), NoEmptyList (a.1.attrs a.2.1)) (m : PMap)
    (hrec : returnedBy s'.z.p k n (fun as => Describes none as m) s.z.s.sync ≠ []) :
    ∃ d vals, Between (returnedBy s'.z.p k n (fun as => Describes none as m) s.z.s.sync) vals (recordedBy s'.z.p k n (fun as => Describes none as m) (measured (acts ++ after))) ∧
      ((sentPoints expPoints (sentScope sc) n s'.z.s.sent).filter (fun d => d.attrs = m)).getLast? = some d ∧ ShowsHist (reader (world e pc) s'.z.p 0) (e.hist L.num L.acfg.hist) L.num vals d := by
  obtain ⟨o, f, pacts, pcoll, xs, xs', more, hw, hb, hret, hc, hq, hbt, hsent, hnum⟩ := hinted_busy hl h hsy hp (by simp [ha])
  have hag : (setup (world e pc) s'.z.p).agg o.leaf = histAgg ((world e pc).ops L.num) ((world e pc).hist L.num L.acfg.hist) := by
    rw [hw.setup_agg]
    simp only [ha, World.agg]
    try rfl
  have hsh : o.shape ∈ [Shape.hist] := by
    rw [hw.shape_eq]
    simp [ha, shapeOf]
  have := Pipeline.Busy.hist_last (m := m) hret (hb _ hsh) (by rw [hw.setup_delta]; exact ht) hag rfl (hw.fits (L := L) (by rw [h.keys]; exact (fewUpTo_less hc hf).via e pc sel sc))
    (fun a ha => hne a (by rw [hc]; exact List.mem_append_left _ ha)) (by rw [hq, hw.describes, h.keys]; exact hrec)
  rw [hq, hw.describes, h.keys, hw.num_eq] at this
  obtain ⟨d, vals, v1, v2, v3⟩ := this
  exact ⟨d, vals, hbt _ _ _ v1, by rw [hsent]; exact v2, v3⟩

/-- C112 (histograms, delta). All values whose recording with the attributes `m` had returned before, and some of those recorded meanwhile, are divided into groups, one for each point sent with these attributes, which has the content of an exponential histogram made of exactly its group. -/
theorem C112_hist_sent (hl : Launch lx lw opts pref pc sel) (h : Hints e pref (makes acts) s'.z.p k sc c n L) (hsy : L.sync = true) (hp : Flushes e pc sel start acts after s s')
    (ha : L.kind = .histogram) (ht : L.delta = true) (hcn : Counts (e.hist L.num L.acfg.hist)) (hf : FewUpTo L.acfg.limit s'.z.p k n (measured (acts ++ after))) (m : PMap) :
    ∃ vals, Between (returnedBy s'.z.p k n (fun as => Describes none as m) s.z.s.sync) vals (recordedBy s'.z.p k n (fun as => Describes none as m) (measured (acts ++ after))) ∧
      Grouped (ShowsHist (reader (world e pc) s'.z.p 0) (e.hist L.num L.acfg.hist) L.num) vals ((sentPoints expPoints (sentScope sc) n s'.z.s.sent).filter (fun d => d.attrs = m)) := by
  obtain ⟨o, f, pacts, pcoll, xs, xs', more, hw, hb, hret, hc, hq, hbt, hsent, hnum⟩ := hinted_busy hl h hsy hp (by simp [ha])
  have hag : (setup (world e pc) s'.z.p).agg o.leaf = histAgg ((world e pc).ops L.num) ((world e pc).hist L.num L.acfg.hist) := by
    rw [hw.setup_agg]
    simp only [ha, World.agg]
    try rfl
  have hsh : o.shape ∈ [Shape.hist] := by
    rw [hw.shape_eq]
    simp [ha, shapeOf]
  have := Pipeline.Busy.hist_sent (m := m) hret (hb _ hsh) (by rw [hw.setup_delta]; exact ht) hag hcn rfl (hw.fits (L := L) (by rw [h.keys]; exact (fewUpTo_less hc hf).via e pc sel sc))
  rw [hq, hw.describes, h.keys, hw.num_eq] at this
  obtain ⟨vals, v1, v2⟩ := this
  exact ⟨vals, hbt _ _ _ v1, by rw [hsent]; exact v2⟩

/-- C112 (min/max/sum/count of floats, cumulative). The last point sent with the attributes `m` shows these of all values whose recording with the attributes `m` had returned before, and some of those recorded meanwhile. -/
theorem C112_mmsc_last (hl : Launch lx lw opts pref pc sel) (h : Hints e pref (makes acts) s'.z.p k sc c n L) (hsy : L.sync = true) (hp : Flushes e pc sel start acts after s s') (hn : L.num = .float64)
    (ha : L.kind = .mmsc) (ht : L.delta = false) (hf : FewUpTo L.acfg.limit s'.z.p k n (measured (acts ++ after)))
    (hne : ∀ a ∈ Pipeline.calls (measured (acts ++ after)), NoEmptyList (a.1.attrs a.2.1)) (m : PMap)
    (hrec : returnedBy s'.z.p k n (fun as => Describes none as m) s.z.s.sync ≠ []) :
    ∃ d vals, Between (returnedBy s'.z.p k n (fun as => Describes none as m) s.z.s.sync) vals (recordedBy s'.z.p k n (fun as => Describes none as m) (measured (acts ++ after))) ∧
      ((sentPoints histPoints (sentScope sc) n s'.z.s.sent).filter (fun d => d.attrs = m)).getLast? = some d ∧ ShowsStats e.fadd vals d := by
  obtain ⟨o, f, pacts, pcoll, xs, xs', more, hw, hb, hret, hc, hq, hbt, hsent, hnum⟩ := hinted_busy hl h hsy hp (by simp [ha])
  have hag : (setup (world e pc) s'.z.p).agg o.leaf = mmscAgg (fltOps e.fadd) ((world e pc).hist L.num L.acfg.hist) := by
    rw [hw.setup_agg]
    simp only [ha, World.agg, hn, World.ops]
    try rfl
  have hsh : o.shape ∈ [Shape.mmsc] := by
    rw [hw.shape_eq]
    simp [ha, shapeOf]
  rw [hn] at hnum
  have := Pipeline.Busy.mmsc_last (m := m) hret e.fadd (hb _ hsh) (hw.num_eq.trans hn) (by rw [hw.setup_delta]; exact ht) hag rfl (hw.fits (L := L) (by rw [h.keys]; exact (fewUpTo_less hc hf).via e pc sel sc)) hnum
    (fun a ha => hne a (by rw [hc]; exact List.mem_append_left _ ha)) (by rw [hq, hw.describes, h.keys]; exact hrec)
  rw [hq, hw.describes, h.keys] at this
  obtain ⟨d, vals, v1, v2, v3⟩ := this
  exact ⟨d, vals, hbt _ _ _ v1, by rw [hsent]; exact v2, v3⟩

/-- C112 (min/max/sum/count of floats, delta). All values whose recording with the attributes `m` had returned before, and some of those recorded meanwhile, are divided into groups, one for each point sent with these attributes, which shows these of exactly its group. -/
theorem C112_mmsc_sent (hl : Launch lx lw opts pref pc sel) (h : Hints e pref (makes acts) s'.z.p k sc c n L) (hsy : L.sync = true) (hp : Flushes e pc sel start acts after s s') (hn : L.num = .float64)
    (ha : L.kind = .mmsc) (ht : L.delta = true) (hf : FewUpTo L.acfg.limit s'.z.p k n (measured (acts ++ after))) (m : PMap) :
    ∃ vals, Between (returnedBy s'.z.p k n (fun as => Describes none as m) s.z.s.sync) vals (recordedBy s'.z.p k n (fun as => Describes none as m) (measured (acts ++ after))) ∧
      Grouped (ShowsStats e.fadd) vals ((sentPoints histPoints (sentScope sc) n s'.z.s.sent).filter (fun d => d.attrs = m)) := by
  obtain ⟨o, f, pacts, pcoll, xs, xs', more, hw, hb, hret, hc, hq, hbt, hsent, hnum⟩ := hinted_busy hl h hsy hp (by simp [ha])
  have hag : (setup (world e pc) s'.z.p).agg o.leaf = mmscAgg (fltOps e.fadd) ((world e pc).hist L.num L.acfg.hist) := by
    rw [hw.setup_agg]
    simp only [ha, World.agg, hn, World.ops]
    try rfl
  have hsh : o.shape ∈ [Shape.mmsc] := by
    rw [hw.shape_eq]
    simp [ha, shapeOf]
  rw [hn] at hnum
  have := Pipeline.Busy.mmsc_sent (m := m) hret e.fadd (hb _ hsh) (hw.num_eq.trans hn) (by rw [hw.setup_delta]; exact ht) hag rfl (hw.fits (L := L) (by rw [h.keys]; exact (fewUpTo_less hc hf).via e pc sel sc)) hnum
  rw [hq, hw.describes, h.keys] at this
  obtain ⟨vals, v1, v2⟩ := this
  exact ⟨vals, hbt _ _ _ v1, by rw [hsent]; exact v2⟩

/-- C112 (min/max/sum/count of integers, cumulative). The last point sent with the attributes `m` shows these of all values whose recording with the attributes `m` had returned before, and some of those recorded meanwhile. -/
theorem C112_mmsc_int_last (hl : Launch lx lw opts pref pc sel) (h : Hints e pref (makes acts) s'.z.p k sc c n L) (hsy : L.sync = true) (hp : Flushes e pc sel start acts after s s') (hn : L.num = .int64)
    (ha : L.kind = .mmsc) (ht : L.delta = false) (hf : FewUpTo L.acfg.limit s'.z.p k n (measured (acts ++ after)))
    (hne : ∀ a ∈ Pipeline.calls (measured (acts ++ after)), NoEmptyList (a.1.attrs a.2.1)) (m : PMap)
    (hrec : returnedBy s'.z.p k n (fun as => Describes none as m) s.z.s.sync ≠ []) :
    ∃ d vals, Between (returnedBy s'.z.p k n (fun as => Describes none as m) s.z.s.sync) vals (recordedBy s'.z.p k n (fun as => Describes none as m) (measured (acts ++ after))) ∧
      ((sentPoints histPoints (sentScope sc) n s'.z.s.sent).filter (fun d => d.attrs = m)).getLast? = some d ∧ ShowsIntStats vals d := by
  obtain ⟨o, f, pacts, pcoll, xs, xs', more, hw, hb, hret, hc, hq, hbt, hsent, hnum⟩ := hinted_busy hl h hsy hp (by simp [ha])
  have hag : (setup (world e pc) s'.z.p).agg o.leaf = mmscAgg intOps ((world e pc).hist L.num L.acfg.hist) := by
    rw [hw.setup_agg]
    simp only [ha, World.agg, hn, World.ops]
    try rfl
  have hsh : o.shape ∈ [Shape.mmsc] := by
    rw [hw.shape_eq]
    simp [ha, shapeOf]
  have := Pipeline.Busy.mmsc_int_last (m := m) hret (hb _ hsh) (hw.num_eq.trans hn) (by rw [hw.setup_delta]; exact ht) hag rfl (hw.fits (L := L) (by rw [h.keys]; exact (fewUpTo_less hc hf).via e pc sel sc))
    (fun a ha => hne a (by rw [hc]; exact List.mem_append_left _ ha)) (by rw [hq, hw.describes, h.keys]; exact hrec)
  rw [hq, hw.describes, h.keys] at this
  obtain ⟨d, vals, v1, v2, v3⟩ := this
  exact ⟨d, vals, hbt _ _ _ v1, by rw [hsent]; exact v2, v3⟩

/-- C112 (min/max/sum/count of integers, delta). All values whose recording with the attributes `m` had returned before, and some of those recorded meanwhile, are divided into groups, one for each point sent with these attributes, which shows these of exactly its group. -/
theorem C112_mmsc_int_sent (hl : Launch lx lw opts pref pc sel) (h : Hints e pref (makes acts) s'.z.p k sc c n L) (hsy : L.sync = true) (hp : Flushes e pc sel start acts after s s') (hn : L.num = .int64)
    (ha : L.kind = .mmsc) (ht : L.delta = true) (hf : FewUpTo L.acfg.limit s'.z.p k n (measured (acts ++ after))) (m : PMap) :
    ∃ vals, Between (returnedBy s'.z.p k n (fun as => Describes none as m) s.z.s.sync) vals (recordedBy s'.z.p k n (fun as => Describes none as m) (measured (acts ++ after))) ∧
      Grouped ShowsIntStats vals ((sentPoints histPoints (sentScope sc) n s'.z.s.sent).filter (fun d => d.attrs = m)) := by
  obtain ⟨o, f, pacts, pcoll, xs, xs', more, hw, hb, hret, hc, hq, hbt, hsent, hnum⟩ := hinted_busy hl h hsy hp (by simp [ha])
  have hag : (setup (world e pc) s'.z.p).agg o.leaf = mmscAgg intOps ((world e pc).hist L.num L.acfg.hist) := by
    rw [hw.setup_agg]
    simp only [ha, World.agg, hn, World.ops]
    try rfl
  have hsh : o.shape ∈ [Shape.mmsc] := by
    rw [hw.shape_eq]
    simp [ha, shapeOf]
  have := Pipeline.Busy.mmsc_int_sent (m := m) hret (hb _ hsh) (hw.num_eq.trans hn) (by rw [hw.setup_delta]; exact ht) hag rfl (hw.fits (L := L) (by rw [h.keys]; exact (fewUpTo_less hc hf).via e pc sel sc))
  rw [hq, hw.describes, h.keys] at this
  obtain ⟨vals, v1, v2⟩ := this
  exact ⟨vals, hbt _ _ _ v1, by rw [hsent]; exact v2⟩

/-- C112 (nothing else is sent, numbers). Every such point sent under the name has attributes with which something was recorded. -/
theorem C112_known (hl : Launch lx lw opts pref pc sel) (h : Hints e pref (makes acts) s'.z.p k sc c n L) (hsy : L.sync = true) (hp : Flushes e pc sel start acts after s s')
    (ha : L.kind = .monoSum ∨ L.kind = .nonMonoSum ∨ L.kind = .gauge) (hf : FewUpTo L.acfg.limit s'.z.p k n (measured (acts ++ after))) (d : PNumber) (hd : d ∈ sentPoints numbers (sentScope sc) n s'.z.s.sent) :
    recordedBy s'.z.p k n (fun as => Describes none as d.attrs) (measured (acts ++ after)) ≠ [] := by
  obtain ⟨o, f, pacts, pcoll, xs, xs', more, hw, hb, hret, hc, hq, hbt, hsent, -⟩ := hinted_busy hl h hsy hp (by rcases ha with ha | ha | ha <;> simp [ha])
  have hsh : o.shape ∈ [Shape.monotonic, .nonMonotonic, .gauge] := by
    rw [hw.shape_eq]
    rcases ha with ha | ha | ha <;> simp [ha, shapeOf]
  have := (hb _ hsh).sent_known (hw.fits (L := L) (by rw [h.keys]; exact (fewUpTo_less hc hf).via e pc sel sc)) d (by rw [← hsent]; exact hd)
  rw [hw.describes, h.keys, hw.recorded, recorded_eq] at this
  exact recordedBy_mono hc this

/-- C112 (nothing else is sent, histograms). Every such point sent under the name has attributes with which something was recorded. -/
theorem C112_hist_known (hl : Launch lx lw opts pref pc sel) (h : Hints e pref (makes acts) s'.z.p k sc c n L) (hsy : L.sync = true) (hp : Flushes e pc sel start acts after s s')
    (ha : L.kind = .histogram) (hf : FewUpTo L.acfg.limit s'.z.p k n (measured (acts ++ after))) (d : PExp) (hd : d ∈ sentPoints expPoints (sentScope sc) n s'.z.s.sent) :
    recordedBy s'.z.p k n (fun as => Describes none as d.attrs) (measured (acts ++ after)) ≠ [] := by
  obtain ⟨o, f, pacts, pcoll, xs, xs', more, hw, hb, hret, hc, hq, hbt, hsent, -⟩ := hinted_busy hl h hsy hp (by simp [ha])
  have hsh : o.shape ∈ [Shape.hist] := by
    rw [hw.shape_eq]
    simp [ha, shapeOf]
  have := (hb _ hsh).hist_known (hw.fits (L := L) (by rw [h.keys]; exact (fewUpTo_less hc hf).via e pc sel sc)) d (by rw [← hsent]; exact hd)
  rw [hw.describes, h.keys, hw.recorded, recorded_eq] at this
  exact recordedBy_mono hc this

/-- C112 (nothing else is sent, min/max/sum/count). Every such point sent under the name has attributes with which something was recorded. -/
theorem C112_mmsc_known (hl : Launch lx lw opts pref pc sel) (h : Hints e pref (makes acts) s'.z.p k sc c n L) (hsy : L.sync = true) (hp : Flushes e pc sel start acts after s s')
    (ha : L.kind = .mmsc) (hf : FewUpTo L.acfg.limit s'.z.p k n (measured (acts ++ after))) (d : PHist) (hd : d ∈ sentPoints histPoints (sentScope sc) n s'.z.s.sent) :
    recordedBy s'.z.p k n (fun as => Describes none as d.attrs) (measured (acts ++ after)) ≠ [] := by
  obtain ⟨o, f, pacts, pcoll, xs, xs', more, hw, hb, hret, hc, hq, hbt, hsent, -⟩ := hinted_busy hl h hsy hp (by simp [ha])
  have hsh : o.shape ∈ [Shape.mmsc] := by
    rw [hw.shape_eq]
    simp [ha, shapeOf]
  have := (hb _ hsh).mmsc_known (hw.fits (L := L) (by rw [h.keys]; exact (fewUpTo_less hc hf).via e pc sel sc)) d (by rw [← hsent]; exact hd)
  rw [hw.describes, h.keys, hw.recorded, recorded_eq] at this
  exact recordedBy_mono hc this

/-! ### Examples -/

section Examples
open Verif.Examples Verif.Examples.Asm
open Verif.Views (lit AggKind Hint aggregationWords Implemented)

theorem c106_hints {a : Launcher.Preference} {m : Ln.Made} {h : Hint} {L : Look Nat} {p : Provider.Provider Nat Nat}
    (hb : (match p.ordered[0]? with | none => false | some m => decide (m.scope = scA) && m.insts[0]?.any (fun o => decide (o.desc.name = lit "n"))) = true) (hu : L.unit = lit "s")
    (hk : L.keys = none) (ht : (123 : UInt8) ∈ m.2.text) (hh : ViewEx.x.parseHint m.2.text = some h) (hw : Wants Ln.out a m.1 h L) :
    Hints Ln.out a (Bz.cs m) p 0 scA m.1 (lit "n") L := by
  cases hm : p.ordered[0]? with
  | none => rw [hm] at hb; cases hb
  | some mt =>
    rw [hm] at hb
    simp only [Bool.and_eq_true, decide_eq_true_eq, Option.any_eq_true] at hb
    obtain ⟨h1, o, ho, h2⟩ := hb
    refine ⟨⟨mt, o, hm, h1, List.mem_of_getElem? ho, h2⟩, hk, fun d hd hn => ?_⟩
    have hd' : d = m.1.desc (lit "n") m.2.text (lit "s") := by simpa [Bz.cs, requests] using hd
    subst hd'
    refine ⟨⟨m.2.text, by rw [hu]⟩, h, ?_, hw⟩
    unfold Views.hintIn
    exact (if_pos ht).trans hh

theorem c106_few {a : Launcher.Preference} {m : Ln.Made} {p : Provider.Provider Nat Nat} {k : Nat} {nm : Str} {lim : Nat} (h : 3 < lim) :
    FewUpTo lim p k nm (measured (Bz.acts m ++ Bz.after a m)) := by
  refine ⟨fun _ => [AsmV.kab, ka, kb], [AsmV.kab, ka, kb], fun _ _ => (by decide : 3 < 3000), h, ?_, fun id _ b hb => ⟨AsmV.noNaN b hb, b, hb, AsmV.sameSeries_refl _ _⟩⟩
  intro e he _
  rw [Bz.measured_all] at he
  have : ∀ e ∈ Pipeline.calls (Bz.called m), e.1.attrs e.2.1 ∈ [AsmV.kab, ka, kb] := by rcases m with ⟨c, h⟩ <;> cases c <;> cases h <;> decide
  exact this e he

/-- What is known of the program of `Verif.Examples.Bz` with a hint. -/
theorem c106_hinted {a : Launcher.Preference} {m : Ln.Made} {h : Hint} {L : Look Nat} (he : Bz.evaluated a m = true) (hb : Bz.hasB a m = true) (hu : L.unit = lit "s")
    (hk : L.keys = none) (ht : (123 : UInt8) ∈ m.2.text) (hh : ViewEx.x.parseHint m.2.text = some h) (hw : Wants Ln.out a m.1 h L) (hlim : 3 < L.acfg.limit) :
    ∃ s s', Bz.stages a m = some (s, s') ∧ Launch Launcher.exExt Ln.lw (Ln.opts a) a (Ln.pc a) (documented a) ∧
      Flushes Ln.out (Ln.pc a) (documented a) 1 (Bz.acts m) (Bz.after a m) s s' ∧
      Hints Ln.out a (makes (Bz.acts m)) s'.z.p 0 scA m.1 (lit "n") L ∧ FewUpTo L.acfg.limit s'.z.p 0 (lit "n") (measured (Bz.acts m ++ Bz.after a m)) ∧
      (∀ e ∈ Pipeline.calls (measured (Bz.acts m ++ Bz.after a m)), NoEmptyList (e.1.attrs e.2.1)) ∧
      returnedBy s'.z.p 0 (lit "n") (fun as => Describes none as ma) s.z.s.sync ≠ [] := by
  obtain ⟨s, s', e1, e2, e3, e4⟩ := Bz.of_evaluated he
  refine ⟨s, s', e1, Ln.launch a, e4, ?_, c106_few hlim, Bz.noEmpty, ?_⟩
  · rw [e2, Bz.makes_acts]
    exact c106_hints hb hu hk ht hh hw
  · rw [e2]
    exact Bz.returned hb e3

/-- "cumulative": a counter of floats shown as a gauge. The theorem says that the last point with the attributes `ma` carries a value recorded with these. -/
example : ∃ s s', Bz.stages .cumulative (.float64Counter, .gauge) = some (s, s') ∧
    (∃ d vals, Between (returnedBy s'.z.p 0 (lit "n") (fun as => Describes none as ma) s.z.s.sync) vals
        (recordedBy s'.z.p 0 (lit "n") (fun as => Describes none as ma) (measured (Bz.acts (.float64Counter, .gauge) ++ Bz.after .cumulative (.float64Counter, .gauge)))) ∧
      ((sentPoints numbers (sentScope scA) (lit "n") s'.z.s.sent).filter (fun d => d.attrs = ma)).getLast? = some d ∧ ∃ b ∈ vals, NumOf .float64 b d.value) ∧
    c97Sent s' (lit "n") = [[.double 4, .double 7]] := by
  obtain ⟨s, s', h1, h2, h3, h4, h5, h6, h7⟩ := c106_hinted (a := .cumulative) (m := (.float64Counter, .gauge)) (L := c95Look .float64Counter .gauge false ⟨160, 2000⟩) (by decide +kernel)
    (by decide +kernel) rfl rfl (show (123 : UInt8) ∈ lit "{gauge" by decide +kernel) c95_gauge
    (c95_wants (show lit "gauge" ≠ [] by decide +kernel) (show (lit "gauge", _) ∈ _ by decide +kernel) (by simp [Implemented, Ctor.kinds, Front.IKind.synchronous]) (.inl rfl) (by decide +kernel) rfl rfl)
    (show 3 < 2000 by decide)
  obtain ⟨q, e1, e2⟩ : ∃ q, Bz.stages .cumulative (.float64Counter, .gauge) = some q ∧ c97Sent q.2 (lit "n") = [[.double 4, .double 7]] := exists_of_eval (by decide +kernel)
  obtain rfl : (s, s') = q := by rw [h1] at e1; exact Option.some.inj e1
  exact ⟨s, s', h1, C112_gauge_last_partial h2 h4 rfl h3 rfl rfl h5 h6 ma h7, e2⟩

/-- "delta": the same. -/
example : ∃ s s', Bz.stages .delta (.float64Counter, .gauge) = some (s, s') ∧
    Flushes Ln.out (Ln.pc .delta) (documented .delta) 1 (Bz.acts (.float64Counter, .gauge)) (Bz.after .delta (.float64Counter, .gauge)) s s' ∧
    Hints Ln.out .delta (makes (Bz.acts (.float64Counter, .gauge))) s'.z.p 0 scA .float64Counter (lit "n") (c95Look .float64Counter .gauge true ⟨160, 2000⟩) ∧
    FewUpTo 2000 s'.z.p 0 (lit "n") (measured (Bz.acts (.float64Counter, .gauge) ++ Bz.after .delta (.float64Counter, .gauge))) ∧
    returnedBy s'.z.p 0 (lit "n") (fun as => Describes none as ma) s.z.s.sync ≠ [] ∧ c97Sent s' (lit "n") = [[.double 4, .double 7]] := by
  obtain ⟨s, s', h1, h2, h3, h4, h5, h6, h7⟩ := c106_hinted (a := .delta) (m := (.float64Counter, .gauge)) (L := c95Look .float64Counter .gauge true ⟨160, 2000⟩) (by decide +kernel)
    (by decide +kernel) rfl rfl (show (123 : UInt8) ∈ lit "{gauge" by decide +kernel) c95_gauge
    (c95_wants (show lit "gauge" ≠ [] by decide +kernel) (show (lit "gauge", _) ∈ _ by decide +kernel) (by simp [Implemented, Ctor.kinds, Front.IKind.synchronous]) (.inl rfl) (by decide +kernel) rfl rfl)
    (show 3 < 2000 by decide)
  obtain ⟨q, e1, e2⟩ : ∃ q, Bz.stages .delta (.float64Counter, .gauge) = some q ∧ c97Sent q.2 (lit "n") = [[.double 4, .double 7]] := exists_of_eval (by decide +kernel)
  obtain rfl : (s, s') = q := by rw [h1] at e1; exact Option.some.inj e1
  exact ⟨s, s', h1, h3, h4, h5, h7, e2⟩

/-- "cumulative": an up-down counter with a hint for delta temporality and a limit. -/
example : ∃ s s', Bz.stages .cumulative (.int64UpDownCounter, .deltas) = some (s, s') ∧
    Flushes Ln.out (Ln.pc .cumulative) (documented .cumulative) 1 (Bz.acts (.int64UpDownCounter, .deltas)) (Bz.after .cumulative (.int64UpDownCounter, .deltas)) s s' ∧
    Hints Ln.out .cumulative (makes (Bz.acts (.int64UpDownCounter, .deltas))) s'.z.p 0 scA .int64UpDownCounter (lit "n") (c95Look .int64UpDownCounter .monoSum true ⟨7, 5⟩) ∧
    FewUpTo 5 s'.z.p 0 (lit "n") (measured (Bz.acts (.int64UpDownCounter, .deltas) ++ Bz.after .cumulative (.int64UpDownCounter, .deltas))) ∧
    returnedBy s'.z.p 0 (lit "n") (fun as => Describes none as ma) s.z.s.sync ≠ [] ∧ c97Sent s' (lit "n") = [[.int 9, .int 7]] := by
  obtain ⟨s, s', h1, h2, h3, h4, h5, h6, h7⟩ := c106_hinted (a := .cumulative) (m := (.int64UpDownCounter, .deltas)) (L := c95Look .int64UpDownCounter .monoSum true ⟨7, 5⟩) (by decide +kernel)
    (by decide +kernel) rfl rfl (show (123 : UInt8) ∈ lit "{!monotonic_sum" by decide +kernel) c95_deltas
    (c95_wants (show lit "monotonic_sum" ≠ [] by decide +kernel) (show (lit "monotonic_sum", _) ∈ _ by decide +kernel) (by simp [Implemented, Ctor.kinds, Front.IKind.synchronous]) (.inr rfl) (by decide +kernel) rfl rfl)
    (show 3 < 5 by decide)
  obtain ⟨q, e1, e2⟩ : ∃ q, Bz.stages .cumulative (.int64UpDownCounter, .deltas) = some q ∧ c97Sent q.2 (lit "n") = [[.int 9, .int 7]] := exists_of_eval (by decide +kernel)
  obtain rfl : (s, s') = q := by rw [h1] at e1; exact Option.some.inj e1
  exact ⟨s, s', h1, h3, h4, h5, h7, e2⟩

/-- "cumulative": a histogram of integers with the hint `minmaxsumcount`. The sums are 9.0 and 7.0. -/
example : ∃ s s', Bz.stages .cumulative (.int64Histogram, .stats) = some (s, s') ∧
    Flushes Ln.out (Ln.pc .cumulative) (documented .cumulative) 1 (Bz.acts (.int64Histogram, .stats)) (Bz.after .cumulative (.int64Histogram, .stats)) s s' ∧
    Hints Ln.out .cumulative (makes (Bz.acts (.int64Histogram, .stats))) s'.z.p 0 scA .int64Histogram (lit "n") (c95Look .int64Histogram .mmsc false ⟨160, 2000⟩) ∧
    FewUpTo 2000 s'.z.p 0 (lit "n") (measured (Bz.acts (.int64Histogram, .stats) ++ Bz.after .cumulative (.int64Histogram, .stats))) ∧
    returnedBy s'.z.p 0 (lit "n") (fun as => Describes none as ma) s.z.s.sync ≠ [] ∧ s'.z.s.sent.map (fun pl => (pointsIn histPoints (sentScope scA) (lit "n") pl).map (fun d => (d.count, d.sum))) = [[(2, 0x4022000000000000), (1, 0x401c000000000000)]] := by
  obtain ⟨s, s', h1, h2, h3, h4, h5, h6, h7⟩ := c106_hinted (a := .cumulative) (m := (.int64Histogram, .stats)) (L := c95Look .int64Histogram .mmsc false ⟨160, 2000⟩) (by decide +kernel)
    (by decide +kernel) rfl rfl (show (123 : UInt8) ∈ lit "{minmaxsumcount" by decide +kernel) c95_stats
    (c95_wants (show lit "minmaxsumcount" ≠ [] by decide +kernel) (show (lit "minmaxsumcount", _) ∈ _ by decide +kernel) (by simp [Implemented, Ctor.kinds, Front.IKind.synchronous]) (.inl rfl) (by decide +kernel) rfl rfl)
    (show 3 < 2000 by decide)
  obtain ⟨q, e1, e2⟩ : ∃ q, Bz.stages .cumulative (.int64Histogram, .stats) = some q ∧ q.2.z.s.sent.map (fun pl => (pointsIn histPoints (sentScope scA) (lit "n") pl).map (fun d => (d.count, d.sum))) = [[(2, 0x4022000000000000), (1, 0x401c000000000000)]] := exists_of_eval (by decide +kernel)
  obtain rfl : (s, s') = q := by rw [h1] at e1; exact Option.some.inj e1
  exact ⟨s, s', h1, h3, h4, h5, h7, e2⟩

/-- "delta": the same of floats. -/
example : ∃ s s', Bz.stages .delta (.float64Histogram, .stats) = some (s, s') ∧
    Flushes Ln.out (Ln.pc .delta) (documented .delta) 1 (Bz.acts (.float64Histogram, .stats)) (Bz.after .delta (.float64Histogram, .stats)) s s' ∧
    Hints Ln.out .delta (makes (Bz.acts (.float64Histogram, .stats))) s'.z.p 0 scA .float64Histogram (lit "n") (c95Look .float64Histogram .mmsc true ⟨160, 2000⟩) ∧
    FewUpTo 2000 s'.z.p 0 (lit "n") (measured (Bz.acts (.float64Histogram, .stats) ++ Bz.after .delta (.float64Histogram, .stats))) ∧
    returnedBy s'.z.p 0 (lit "n") (fun as => Describes none as ma) s.z.s.sync ≠ [] ∧ s'.z.s.sent.map (fun pl => (pointsIn histPoints (sentScope scA) (lit "n") pl).map (fun d => (d.count, d.sum))) = [[(2, 9), (1, 7)]] := by
  obtain ⟨s, s', h1, h2, h3, h4, h5, h6, h7⟩ := c106_hinted (a := .delta) (m := (.float64Histogram, .stats)) (L := c95Look .float64Histogram .mmsc true ⟨160, 2000⟩) (by decide +kernel)
    (by decide +kernel) rfl rfl (show (123 : UInt8) ∈ lit "{minmaxsumcount" by decide +kernel) c95_stats
    (c95_wants (show lit "minmaxsumcount" ≠ [] by decide +kernel) (show (lit "minmaxsumcount", _) ∈ _ by decide +kernel) (by simp [Implemented, Ctor.kinds, Front.IKind.synchronous]) (.inl rfl) (by decide +kernel) rfl rfl)
    (show 3 < 2000 by decide)
  obtain ⟨q, e1, e2⟩ : ∃ q, Bz.stages .delta (.float64Histogram, .stats) = some q ∧ q.2.z.s.sent.map (fun pl => (pointsIn histPoints (sentScope scA) (lit "n") pl).map (fun d => (d.count, d.sum))) = [[(2, 9), (1, 7)]] := exists_of_eval (by decide +kernel)
  obtain rfl : (s, s') = q := by rw [h1] at e1; exact Option.some.inj e1
  exact ⟨s, s', h1, h3, h4, h5, h7, e2⟩

/-- "cumulative": a counter shown as a histogram, with delta temporality. -/
example : ∃ s s', Bz.stages .cumulative (.int64Counter, .sizes) = some (s, s') ∧
    Flushes Ln.out (Ln.pc .cumulative) (documented .cumulative) 1 (Bz.acts (.int64Counter, .sizes)) (Bz.after .cumulative (.int64Counter, .sizes)) s s' ∧
    Hints Ln.out .cumulative (makes (Bz.acts (.int64Counter, .sizes))) s'.z.p 0 scA .int64Counter (lit "n") (c95Look .int64Counter .histogram true ⟨7, 5⟩) ∧
    FewUpTo 5 s'.z.p 0 (lit "n") (measured (Bz.acts (.int64Counter, .sizes) ++ Bz.after .cumulative (.int64Counter, .sizes))) ∧
    returnedBy s'.z.p 0 (lit "n") (fun as => Describes none as ma) s.z.s.sync ≠ [] ∧ s'.z.s.sent.map (fun pl => (pointsIn expPoints (sentScope scA) (lit "n") pl).map (·.count)) = [[2, 1]] := by
  obtain ⟨s, s', h1, h2, h3, h4, h5, h6, h7⟩ := c106_hinted (a := .cumulative) (m := (.int64Counter, .sizes)) (L := c95Look .int64Counter .histogram true ⟨7, 5⟩) (by decide +kernel)
    (by decide +kernel) rfl rfl (show (123 : UInt8) ∈ lit "{!histogram" by decide +kernel) c95_sizes
    (c95_wants (show lit "histogram" ≠ [] by decide +kernel) (show (lit "histogram", _) ∈ _ by decide +kernel) (by simp [Implemented, Ctor.kinds, Front.IKind.synchronous]) (.inr rfl) (by decide +kernel) rfl rfl)
    (show 3 < 5 by decide)
  obtain ⟨q, e1, e2⟩ : ∃ q, Bz.stages .cumulative (.int64Counter, .sizes) = some q ∧ q.2.z.s.sent.map (fun pl => (pointsIn expPoints (sentScope scA) (lit "n") pl).map (·.count)) = [[2, 1]] := exists_of_eval (by decide +kernel)
  obtain rfl : (s, s') = q := by rw [h1] at e1; exact Option.some.inj e1
  exact ⟨s, s', h1, h3, h4, h5, h7, e2⟩

/-- "cumulative": an up-down counter with the hint `monotonic_sum`: 5 + 4 and 7 are sent. -/
example : ∃ s s', Bz.stages .cumulative (.int64UpDownCounter, .sums) = some (s, s') ∧
    (∃ vals, Between (returnedBy s'.z.p 0 (lit "n") (fun as => Describes none as ma) s.z.s.sync) vals (recordedBy s'.z.p 0 (lit "n") (fun as => Describes none as ma) (measured (Bz.acts (.int64UpDownCounter, .sums) ++ Bz.after .cumulative (.int64UpDownCounter, .sums)))) ∧
      ((sentPoints numbers (sentScope scA) (lit "n") s'.z.s.sent).filter (fun d => d.attrs = ma)).getLast?.map (·.value) = some (.int (total64 vals))) ∧
    c97Sent s' (lit "n") = [[.int 9, .int 7]] := by
  obtain ⟨s, s', h1, h2, h3, h4, h5, h6, h7⟩ := c106_hinted (a := .cumulative) (m := (.int64UpDownCounter, .sums)) (L := c95Look .int64UpDownCounter .monoSum false ⟨160, 2000⟩) (by decide +kernel)
    (by decide +kernel) rfl rfl (show (123 : UInt8) ∈ lit "{monotonic_sum" by decide +kernel) c95_sums
    (c95_wants (show lit "monotonic_sum" ≠ [] by decide +kernel) (show (lit "monotonic_sum", _) ∈ _ by decide +kernel) (by simp [Implemented, Ctor.kinds, Front.IKind.synchronous]) (.inl rfl) (by decide +kernel) rfl rfl)
    (show 3 < 2000 by decide)
  obtain ⟨q, e1, e2⟩ : ∃ q, Bz.stages .cumulative (.int64UpDownCounter, .sums) = some q ∧ c97Sent q.2 (lit "n") = [[.int 9, .int 7]] := exists_of_eval (by decide +kernel)
  obtain rfl : (s, s') = q := by rw [h1] at e1; exact Option.some.inj e1
  exact ⟨s, s', h1, C112_sum_last h2 h4 rfl h3 rfl (.inl rfl) rfl h5 h6 ma h7, e2⟩

/-- The same of floats. -/
example : ∃ s s', Bz.stages .cumulative (.float64UpDownCounter, .sums) = some (s, s') ∧
    (∃ v vals, Between (returnedBy s'.z.p 0 (lit "n") (fun as => Describes none as ma) s.z.s.sync) vals (recordedBy s'.z.p 0 (lit "n") (fun as => Describes none as ma) (measured (Bz.acts (.float64UpDownCounter, .sums) ++ Bz.after .cumulative (.float64UpDownCounter, .sums)))) ∧
      ((sentPoints numbers (sentScope scA) (lit "n") s'.z.s.sent).filter (fun d => d.attrs = ma)).getLast?.map (·.value) = some (.double v) ∧ SumOf 0 Ln.out.fadd v vals) ∧
    c97Sent s' (lit "n") = [[.double 9, .double 7]] := by
  obtain ⟨s, s', h1, h2, h3, h4, h5, h6, h7⟩ := c106_hinted (a := .cumulative) (m := (.float64UpDownCounter, .sums)) (L := c95Look .float64UpDownCounter .monoSum false ⟨160, 2000⟩) (by decide +kernel)
    (by decide +kernel) rfl rfl (show (123 : UInt8) ∈ lit "{monotonic_sum" by decide +kernel) c95_sums
    (c95_wants (show lit "monotonic_sum" ≠ [] by decide +kernel) (show (lit "monotonic_sum", _) ∈ _ by decide +kernel) (by simp [Implemented, Ctor.kinds, Front.IKind.synchronous]) (.inl rfl) (by decide +kernel) rfl rfl)
    (show 3 < 2000 by decide)
  obtain ⟨q, e1, e2⟩ : ∃ q, Bz.stages .cumulative (.float64UpDownCounter, .sums) = some q ∧ c97Sent q.2 (lit "n") = [[.double 9, .double 7]] := exists_of_eval (by decide +kernel)
  obtain rfl : (s, s') = q := by rw [h1] at e1; exact Option.some.inj e1
  exact ⟨s, s', h1, C112_float_last h2 h4 rfl h3 rfl (.inl rfl) rfl h5 h6 ma h7, e2⟩

/-- "cumulative": a counter with the hint `histogram`. -/
example : ∃ s s', Bz.stages .cumulative (.int64Counter, .buckets) = some (s, s') ∧
    (∃ d vals, Between (returnedBy s'.z.p 0 (lit "n") (fun as => Describes none as ma) s.z.s.sync) vals (recordedBy s'.z.p 0 (lit "n") (fun as => Describes none as ma) (measured (Bz.acts (.int64Counter, .buckets) ++ Bz.after .cumulative (.int64Counter, .buckets)))) ∧
      ((sentPoints expPoints (sentScope scA) (lit "n") s'.z.s.sent).filter (fun d => d.attrs = ma)).getLast? = some d ∧
      ShowsHist (reader (world Ln.out (Ln.pc .cumulative)) s'.z.p 0) (Ln.out.hist .int64 160) .int64 vals d) ∧
    s'.z.s.sent.map (fun pl => (pointsIn expPoints (sentScope scA) (lit "n") pl).map (·.count)) = [[2, 1]] := by
  obtain ⟨s, s', h1, h2, h3, h4, h5, h6, h7⟩ := c106_hinted (a := .cumulative) (m := (.int64Counter, .buckets)) (L := c95Look .int64Counter .histogram false ⟨160, 2000⟩) (by decide +kernel)
    (by decide +kernel) rfl rfl (show (123 : UInt8) ∈ lit "{histogram" by decide +kernel) c95_buckets
    (c95_wants (show lit "histogram" ≠ [] by decide +kernel) (show (lit "histogram", _) ∈ _ by decide +kernel) (by simp [Implemented, Ctor.kinds, Front.IKind.synchronous]) (.inl rfl) (by decide +kernel) rfl rfl)
    (show 3 < 2000 by decide)
  obtain ⟨q, e1, e2⟩ : ∃ q, Bz.stages .cumulative (.int64Counter, .buckets) = some q ∧ q.2.z.s.sent.map (fun pl => (pointsIn expPoints (sentScope scA) (lit "n") pl).map (·.count)) = [[2, 1]] := exists_of_eval (by decide +kernel)
  obtain rfl : (s, s') = q := by rw [h1] at e1; exact Option.some.inj e1
  exact ⟨s, s', h1, C112_hist_last (L := c95Look .int64Counter .histogram false ⟨160, 2000⟩) h2 h4 rfl h3 rfl rfl h5 h6 ma h7, e2⟩

/-- "cumulative", calls one by one: 7 had been recorded, and is sent. -/
example : ∃ s s', Bg.stages .cumulative (.int64Counter, .gauge) = some (s, s') ∧
    (∃ d pre b post, recordedBy s'.z.p 0 (lit "n") (fun as => Describes none as ma) (measured (Bg.acts (.int64Counter, .gauge) ++ Bg.after .cumulative (.int64Counter, .gauge))) = pre ++ b :: post ∧
      (returnedBy s'.z.p 0 (lit "n") (fun as => Describes none as ma) s.z.s.sync).Sublist (pre ++ [b]) ∧
      ((sentPoints numbers (sentScope scA) (lit "n") s'.z.s.sent).filter (fun d => d.attrs = ma)).getLast? = some d ∧ NumOf .int64 b d.value) ∧
    c97Sent s' (lit "n") = [[.int 0, .int 5, .int 7]] := by
  obtain ⟨s, s', e1, e2, e3, e4⟩ := Bg.of_evaluated (a := .cumulative) (ct := (.int64Counter, .gauge)) (by decide +kernel)
  obtain ⟨q, f1, f2⟩ : ∃ q, Bg.stages .cumulative (.int64Counter, .gauge) = some q ∧ c97Sent q.2 (lit "n") = [[.int 0, .int 5, .int 7]] := exists_of_eval (by decide +kernel)
  obtain rfl : (s, s') = q := by rw [e1] at f1; exact Option.some.inj f1
  have hb : Bg.hasB .cumulative (.int64Counter, .gauge) = true := by decide +kernel
  refine ⟨s, s', e1, C112_gauge_newest (c := .int64Counter) (L := c95Look .int64Counter .gauge false ⟨160, 2000⟩) (Ln.launch .cumulative) ?_ rfl e4 rfl rfl ?_ ?_ ?_ ma ?_, f2⟩
  · rw [e2, Bg.makes_acts]
    exact c106_hints (m := (.int64Counter, .gauge)) hb rfl rfl (show (123 : UInt8) ∈ lit "{gauge" by decide +kernel) c95_gauge
      (c95_wants (show lit "gauge" ≠ [] by decide +kernel) (show (lit "gauge", _) ∈ _ by decide +kernel) (by simp [Implemented, Ctor.kinds, Front.IKind.synchronous]) (.inl rfl) (by decide +kernel)
        rfl rfl)
  · rw [e2]
    intro before i kvs b af y h1 h2 _ j hj _
    exact Dl.quietB_spec (a := .cumulative) (x := Bg.initial .cumulative (.int64Counter, .gauge)) (by decide +kernel) before i kvs b af y h1 h2 j hj
  · refine ⟨fun _ => [AsmV.kab, ka, kb], [AsmV.kab, ka, kb], fun _ _ => (by decide : 3 < 3000), (by decide : 3 < 2000), ?_, fun id _ b hb => ⟨AsmV.noNaN b hb, b, hb, AsmV.sameSeries_refl _ _⟩⟩
    intro e he _
    rw [Bg.measured_all] at he
    have : ∀ e ∈ Pipeline.calls (Bg.called (.int64Counter, .gauge)), e.1.attrs e.2.1 ∈ [AsmV.kab, ka, kb] := by decide
    exact this e he
  · exact Bg.noEmpty
  · rw [e2]
    exact Bg.returned hb e3

/-- "delta", calls one by one: the same of floats; here nothing is sent of the call which is running. -/
example : ∃ s s', Bg.stages .delta (.float64Counter, .gauge) = some (s, s') ∧
    Flushes Ln.out (Ln.pc .delta) (documented .delta) 1 (Bg.acts (.float64Counter, .gauge)) (Bg.after .delta (.float64Counter, .gauge)) s s' ∧
    Hints Ln.out .delta (makes (Bg.acts (.float64Counter, .gauge))) s'.z.p 0 scA .float64Counter (lit "n") (c95Look .float64Counter .gauge true ⟨160, 2000⟩) ∧
    Delivery.OneByOne Ln.out (Ln.pc .delta) (documented .delta) 1 s'.z.p 0 (lit "n") (Bg.acts (.float64Counter, .gauge) ++ Bg.after .delta (.float64Counter, .gauge)) ∧
    c97Sent s' (lit "n") = [[.double 5, .double 7]] := by
  obtain ⟨s, s', e1, e2, e3, e4⟩ := Bg.of_evaluated (a := .delta) (ct := (.float64Counter, .gauge)) (by decide +kernel)
  obtain ⟨q, f1, f2⟩ : ∃ q, Bg.stages .delta (.float64Counter, .gauge) = some q ∧ c97Sent q.2 (lit "n") = [[.double 5, .double 7]] := exists_of_eval (by decide +kernel)
  obtain rfl : (s, s') = q := by rw [e1] at f1; exact Option.some.inj f1
  have hb : Bg.hasB .delta (.float64Counter, .gauge) = true := by decide +kernel
  refine ⟨s, s', e1, e4, ?_, ?_, f2⟩
  · rw [e2, Bg.makes_acts]
    exact c106_hints (m := (.float64Counter, .gauge)) hb rfl rfl (show (123 : UInt8) ∈ lit "{gauge" by decide +kernel) c95_gauge
      (c95_wants (show lit "gauge" ≠ [] by decide +kernel) (show (lit "gauge", _) ∈ _ by decide +kernel) (by simp [Implemented, Ctor.kinds, Front.IKind.synchronous]) (.inl rfl) (by decide +kernel)
        rfl rfl)
  · rw [e2]
    intro before i kvs b af y h1 h2 _ j hj _
    exact Dl.quietB_spec (a := .delta) (x := Bg.initial .delta (.float64Counter, .gauge)) (by decide +kernel) before i kvs b af y h1 h2 j hj

/-- C112 fails for cumulative gauges, without the condition that a call with the attributes had returned before: a launched program with a counter shown as a gauge records 7, 5 and 2, the 2 with
attributes which had not been used before; while this call is running, `ForceFlush` is called and returns. It sends a point with the value 0, which nobody recorded. -/
theorem C112_gauge_unset_fails : ∃ (acts after : List (Delivery.Act Nat)) (s s' : Delivery.Sys Nat (List Bits) Nat),
    Launch Launcher.exExt Ln.lw (Ln.opts .cumulative) .cumulative (Ln.pc .cumulative) (documented .cumulative) ∧
    Flushes Ln.out (Ln.pc .cumulative) (documented .cumulative) 1 acts after s s' ∧
    Hints Ln.out .cumulative (makes acts) s'.z.p 0 scA .int64Counter (lit "n") (c95Look .int64Counter .gauge false ⟨160, 2000⟩) ∧
    (Pipeline.calls (measured (acts ++ after))).map (fun c => c.2.2) = [7, 5, 2] ∧
    ∃ d ∈ sentPoints numbers (sentScope scA) (lit "n") s'.z.s.sent, d.value = .int 0 := by
  obtain ⟨s, s', e1, e2, -, e4⟩ := Bg.of_evaluated (a := .cumulative) (ct := (.int64Counter, .gauge)) (by decide +kernel)
  refine ⟨_, _, s, s', Ln.launch .cumulative, e4, ?_, by rw [Bg.measured_all]; rfl, ?_⟩
  · rw [e2, Bg.makes_acts]
    have hb : Bg.hasB .cumulative (.int64Counter, .gauge) = true := by decide +kernel
    exact c106_hints (m := (.int64Counter, .gauge)) hb rfl rfl (show (123 : UInt8) ∈ lit "{gauge" by decide +kernel) c95_gauge
      (c95_wants (show lit "gauge" ≠ [] by decide +kernel) (show (lit "gauge", _) ∈ _ by decide +kernel) (by simp [Implemented, Ctor.kinds, Front.IKind.synchronous]) (.inl rfl) (by decide +kernel)
        rfl rfl)
  · obtain ⟨q, f1, f2⟩ : ∃ q, Bg.stages .cumulative (.int64Counter, .gauge) = some q ∧
        (sentPoints numbers (sentScope scA) (lit "n") q.2.z.s.sent).head?.map (·.value) = some (.int 0) := exists_of_eval (by decide +kernel)
    obtain rfl : (s, s') = q := by rw [e1] at f1; exact Option.some.inj f1
    obtain ⟨d, hd, hv⟩ := Option.map_eq_some_iff.1 f2
    exact ⟨d, List.mem_of_mem_head? hd, hv⟩

end Examples

end Verif.Props
