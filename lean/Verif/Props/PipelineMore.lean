import Verif.Proof.PipelineMore
import Verif.Props.Pipeline
import Verif.Examples.PipelineGauge

/-!
C72 and C88, continued: gauges, float sums, minimum and maximum, and the content of histograms, from the calls of the program to the payloads.

`Session`, `recordedOn` and `Describes` as in `Props/Pipeline.lean`. `Sequential` says that calls on the instruments feeding the metric do not overlap.
`Grouped Shows vals ds`: the values `vals` are divided into groups, one for each of the points `ds`, which shows it.
-/

namespace Verif.Props
open Verif Verif.Attr Verif.Number Verif.Aggr Verif.Export Verif.Spec Verif.Pipeline
variable {H : Type} {farm : Str → UInt64} {u : Front.Setup (Cell Bits H)} {R : Reader H} {lib : Library} {name : Str} {o : Out} {hh : HistOps Bits H}
  {ops : Ops Bits} {acts coll : List Act} {x x' : Sys H}

/-! ### Gauges -/

/-- C88 (cumulative gauge). When calls on the instruments feeding the metric do not overlap, then for all attributes `m` with which something was
recorded: the last point sent with the attributes `m` carries the value of the last call whose attributes the view shows as `m`. -/
theorem C88_gauge_last (h : Session farm u R lib name o [.gauge] acts coll x x') (hd : u.delta o.leaf = false)
    (ha : u.agg o.leaf = gaugeAgg ops hh) (hic : u.ignoreColl = false) (hf : Fits u o.leaf acts)
    (hne : ∀ e ∈ Pipeline.calls acts, NoEmptyList (e.1.attrs e.2.1)) (hq : Sequential (Front.realCfg farm u) R o.leaf acts) (m : PMap)
    (hrec : recordedOn u.leavesOf o.leaf (fun as => Describes (u.keys o.leaf) as m) acts ≠ []) :
    ∃ d v, ((sentPoints numbers lib name x'.sent).filter (fun d => d.attrs = m)).getLast? = some d ∧
      (recordedOn u.leavesOf o.leaf (fun as => Describes (u.keys o.leaf) as m) acts).getLast? = some v ∧ NumOf o.num v d.value := by
  obtain ⟨y, e⟩ := h.ended extracts_numbers (by simp [Shape.kind])
  obtain ⟨p, d, h1, h2, h3, h4, h5⟩ := e.last_ids hd hic hf h.typed hne _ (attrs_decide (attrs := PNumber.attrs) (fun _ _ h => h.1)) hrec
  have hs := h.collected.quiet_seq (hq.reachable h.before) h.quiet
  have hagg : (Front.realCfg farm u).agg p.leaf = gaugeAgg ops hh := by rw [h4]; exact ha
  rw [← h4] at hs
  have hne' : p.ops ≠ [] := by
    intro h6
    rw [h6] at h5
    have h7 := recordedOn_ids (farm := farm) (u := u) e.calls o.leaf (fun as => Describes (u.keys o.leaf) as m)
    rw [List.nil_perm.1 h5] at h7
    exact hrec h7.symm
  obtain ⟨i, sq, i1, i2, i3⟩ := C14_last_value_sequential p hs ops h3 hagg hne'
  refine ⟨d, (x'.s.op i).num, h1, ?_, ?_⟩
  · rw [← recordedOn_ids (farm := farm) e.calls, List.getLast?_map, sorted_last (idsOn_sorted _ _) (i := i)]
    · rfl
    · exact h5.mem_iff.1 (List.mem_map.2 ⟨_, i1, rfl⟩)
    · intro j hj
      obtain ⟨⟨j', sq'⟩, j1, rfl⟩ := List.mem_map.1 (h5.mem_iff.2 hj)
      exact i3 j' sq' j1
  · rw [← i2]
    exact number_of (by have := h.shape; simp only [List.mem_singleton] at this; rw [this]; simp) h2

/-- C88 (cumulative gauge, overlapping calls). Under any schedule the last point sent with attributes `m` carries one of the values recorded with them. -/
theorem C88_gauge_last_recorded (h : Session farm u R lib name o [.gauge] acts coll x x') (hd : u.delta o.leaf = false)
    (ha : u.agg o.leaf = gaugeAgg ops hh) (hic : u.ignoreColl = false) (hf : Fits u o.leaf acts)
    (hne : ∀ e ∈ Pipeline.calls acts, NoEmptyList (e.1.attrs e.2.1)) (m : PMap)
    (hrec : recordedOn u.leavesOf o.leaf (fun as => Describes (u.keys o.leaf) as m) acts ≠ []) :
    ∃ d v, ((sentPoints numbers lib name x'.sent).filter (fun d => d.attrs = m)).getLast? = some d ∧
      v ∈ recordedOn u.leavesOf o.leaf (fun as => Describes (u.keys o.leaf) as m) acts ∧ NumOf o.num v d.value := by
  obtain ⟨y, e⟩ := h.ended extracts_numbers (by simp [Shape.kind])
  obtain ⟨p, d, h1, h2, h3, h4, h5⟩ := e.last hd hic hf h.typed hne _ (attrs_decide (attrs := PNumber.attrs) (fun _ _ h => h.1)) hrec
  have hagg : (Front.realCfg farm u).agg p.leaf = gaugeAgg ops hh := by rw [h4]; exact ha
  have hne' : p.ops ≠ [] := by
    intro h6
    rw [h6] at h5
    exact hrec (List.nil_perm.1 h5)
  obtain ⟨i, sq, i1, i2⟩ := C14_value_recorded_partial e.reach ops p h3 hagg hne'
  refine ⟨d, (x'.s.op i).num, h1, h5.mem_iff.1 (List.mem_map.2 ⟨_, i1, rfl⟩), ?_⟩
  rw [← i2]
  exact number_of (by have := h.shape; simp only [List.mem_singleton] at this; rw [this]; simp) h2

/-- C88 (delta gauge). When calls on the instruments feeding the metric do not overlap: the values recorded with attributes `m` are divided into groups,
each in the order of the calls, one for each point sent with the attributes `m`; the point carries the last value of its group. (The last point
need not have the last value of all: see `C88_gauge_delta_last_fails`.) -/
theorem C88_gauge_sent_partial (h : Session farm u R lib name o [.gauge] acts coll x x') (hd : u.delta o.leaf = true)
    (ha : u.agg o.leaf = gaugeAgg ops hh) (hic : u.ignoreColl = false) (hf : Fits u o.leaf acts)
    (hq : Sequential (Front.realCfg farm u) R o.leaf acts) (m : PMap) :
    ∃ gs : List (List Bits), gs.flatten.Perm (recordedOn u.leavesOf o.leaf (fun as => Describes (u.keys o.leaf) as m) acts) ∧
      (∀ g ∈ gs, g.Sublist (recordedOn u.leavesOf o.leaf (fun as => Describes (u.keys o.leaf) as m) acts)) ∧
      Pointwise (fun g d => ∃ v, g.getLast? = some v ∧ NumOf o.num v d.value) gs
        ((sentPoints numbers lib name x'.sent).filter (fun d => d.attrs = m)) := by
  obtain ⟨y, e⟩ := h.ended extracts_numbers (by simp [Shape.kind])
  obtain ⟨es, qs, h1, h2, h3, h4⟩ := e.delta_groups hd (fun d => decide (d.attrs = m)) (fun k => @decide (AttrsOf k m) (Classical.propDecidable _))
    (fun as => Pipeline.Describes (u.keys o.leaf) as m) (attrs_decide (attrs := PNumber.attrs) (fun _ _ h => h.1)) (e.described hic hf h.typed m)
  have hs := h.collected.quiet_seq (hq.reachable h.before) h.quiet
  have hagg : (Front.realCfg farm u).agg o.leaf = gaugeAgg ops hh := ha
  have hqs : qs.flatMap (fun e => e.ops) = [] := by
    rw [List.flatMap_eq_nil_iff]
    intro p hp
    have := (C14_delta_exported_iff e.reach ops p (h2 p hp).1 (by rw [(h2 p hp).2.1]; exact hagg) (by rw [(h2 p hp).2.1]; exact hd)).2
    refine Classical.byContradiction fun hn => ?_
    have := this hn
    rw [(h2 p hp).2.2] at this
    cases this
  rw [List.flatMap_append, hqs, List.append_nil] at h4
  generalize hL : Sync.idsOn (Front.realCfg farm u) x'.s o.leaf (fun a => @decide (Describes (u.keys o.leaf) a m) (Classical.propDecidable _)) = L at h4
  have hLs : L.Pairwise (· ≤ ·) := by rw [← hL]; exact idsOn_sorted _ _
  have hrec := recordedOn_ids (farm := farm) (u := u) e.calls o.leaf (fun as => Describes (u.keys o.leaf) as m)
  rw [hL] at hrec
  let ids : Sync.Emit (List KV) (Cell Bits H) → List Nat := fun p => (p.ops.map (·.1)).mergeSort
  have hperm : ∀ p, (ids p).Perm (p.ops.map (·.1)) := fun p => List.mergeSort_perm _ _
  have hsort : ∀ p, (ids p).Pairwise (· ≤ ·) := fun p => by
    have := List.pairwise_mergeSort (le := fun a b : Nat => decide (a ≤ b)) (by simp; omega) (by simp; omega) (p.ops.map (·.1))
    exact this.imp (fun h => of_decide_eq_true h)
  have hflat : (es.map ids).flatten.Perm L := by
    refine List.Perm.trans ?_ h4
    clear h1 h3 h4
    induction es with
    | nil => exact List.Perm.refl _
    | cons p es ih =>
      rw [List.map_cons, List.flatten_cons, List.flatMap_cons, List.map_append]
      exact (hperm p).append ih
  refine ⟨(es.map ids).map (List.map (fun i => (x'.s.op i).num)), ?_, ?_, ?_⟩
  · rw [← List.map_flatten, ← hrec]
    exact hflat.map _
  · intro g hg
    obtain ⟨l, hl, rfl⟩ := List.mem_map.1 hg
    rw [← hrec]
    refine List.Sublist.map _ ?_
    obtain ⟨p, hp, rfl⟩ := List.mem_map.1 hl
    refine sorted_sublist (hsort p) hLs ?_
    intro a
    rw [← hflat.count_eq]
    exact List.Sublist.count_le a (List.sublist_flatten_of_mem hl)
  · rw [List.map_map]
    refine pointwise_mapped _ h3 ?_
    intro p hp d hr
    obtain ⟨p1, p2, p3⟩ := h1 p hp
    have hne : p.ops ≠ [] := (C14_delta_exported_iff e.reach ops p p1 (by rw [p2]; exact hagg) (by rw [p2]; exact hd)).1 p3
    obtain ⟨i, sq, i1, i2, i3⟩ := C14_last_value_sequential p (by rw [p2]; exact hs) ops p1 (by rw [p2]; exact hagg) hne
    refine ⟨(x'.s.op i).num, ?_, ?_⟩
    · rw [Function.comp, List.getLast?_map, sorted_last (hsort p) (i := i)]
      · rfl
      · exact (hperm p).mem_iff.2 (List.mem_map.2 ⟨_, i1, rfl⟩)
      · intro j hj
        obtain ⟨⟨j', sq'⟩, j1, rfl⟩ := List.mem_map.1 ((hperm p).mem_iff.1 hj)
        exact i3 j' sq' j1
    · rw [← i2]
      exact number_of (by have := h.shape; simp only [List.mem_singleton] at this; rw [this]; simp) hr

/-! ### Sums of floats -/

theorem finite_of_zero {v : Bits} (h : scaled v = 0) : Finite v := by
  intro h5
  have h6 : absScaled v = 0 := by
    unfold scaled at h
    split at h <;> omega
  unfold absScaled at h6
  rw [if_neg (by omega), Nat.mul_eq_zero] at h6
  rcases h6 with h6 | h6
  · omega
  · exact absurd h6 (Nat.ne_of_gt (Nat.two_pow_pos _))

/-- C72 (cumulative float sum). For all attributes `m` with which something was recorded: the last point sent with the attributes `m` is the result of
adding up all floats recorded with them, in some order. -/
theorem C72_float_last_series (fadd : Bits → Bits → Bits) (h : Session farm u R lib name o [.monotonic, .nonMonotonic] acts coll x x') (hn : o.num = .float64)
    (hd : u.delta o.leaf = false) (ha : u.agg o.leaf = sumAgg (fltOps fadd) hh) (hic : u.ignoreColl = false) (hf : Fits u o.leaf acts)
    (hne : ∀ e ∈ Pipeline.calls acts, NoEmptyList (e.1.attrs e.2.1)) (m : PMap)
    (hrec : recordedOn u.leavesOf o.leaf (fun as => Describes (u.keys o.leaf) as m) acts ≠ []) :
    ∃ v vals, ((sentPoints numbers lib name x'.sent).filter (fun d => d.attrs = m)).getLast?.map (·.value) = some (.double v) ∧
      vals.Perm (recordedOn u.leavesOf o.leaf (fun as => Describes (u.keys o.leaf) as m) acts) ∧ SumOf 0 fadd v vals := by
  obtain ⟨y, e⟩ := h.ended extracts_numbers (by simp [Shape.kind])
  obtain ⟨p, d, h1, h2, h3, h4, h5⟩ := e.last hd hic hf h.typed hne _ (attrs_decide (attrs := PNumber.attrs) (fun _ _ h => h.1)) hrec
  have hold := Sync.emit_holds (Sync.reachable_more e.reach) h3
  have hagg : (Front.realCfg farm u).agg o.leaf = sumAgg (fltOps fadd) hh := ha
  rw [h4, hagg] at hold
  refine ⟨p.val.value, Sync.values x'.s p.ops, ?_, h5, holds_sum hold⟩
  have := number_of (by have := h.shape; simp only [List.mem_cons, List.not_mem_nil, or_false] at this ⊢; rcases this with h | h; exact .inl h; exact .inr (.inl h)) h2
  rw [hn] at this
  rw [h1, Option.map_some]
  exact congrArg some this

/-- C72 (delta float sum). The floats recorded with attributes `m` are divided into groups; the points sent with the attributes `m` are the sums, in some
order, of the groups, except for groups whose sum is zero, which are not sent. -/
theorem C72_float_sent_series (fadd : Bits → Bits → Bits) (h : Session farm u R lib name o [.monotonic, .nonMonotonic] acts coll x x') (hn : o.num = .float64)
    (hd : u.delta o.leaf = true) (ha : u.agg o.leaf = sumAgg (fltOps fadd) hh) (hic : u.ignoreColl = false) (hf : Fits u o.leaf acts) (m : PMap) :
    ∃ gs zs : List (List Bits), (gs ++ zs).flatten.Perm (recordedOn u.leavesOf o.leaf (fun as => Describes (u.keys o.leaf) as m) acts) ∧
      Pointwise (fun g d => ∃ v, SumOf 0 fadd v g ∧ d.value = .double v ∧ scaled v ≠ 0) gs
        ((sentPoints numbers lib name x'.sent).filter (fun d => d.attrs = m)) ∧
      ∀ g ∈ zs, ∃ v, SumOf 0 fadd v g ∧ scaled v = 0 := by
  obtain ⟨y, e⟩ := h.ended extracts_numbers (by simp [Shape.kind])
  obtain ⟨es, qs, h1, h2, h3, h4⟩ := e.delta_groups hd (fun d => decide (d.attrs = m)) (fun k => @decide (AttrsOf k m) (Classical.propDecidable _))
    (fun as => Pipeline.Describes (u.keys o.leaf) as m) (attrs_decide (attrs := PNumber.attrs) (fun _ _ h => h.1)) (e.described hic hf h.typed m)
  have hagg : (Front.realCfg farm u).agg o.leaf = sumAgg (fltOps fadd) hh := ha
  have hd' : (Front.realCfg farm u).delta o.leaf = true := hd
  have hval : ∀ p, p ∈ x'.s.emits → p.leaf = o.leaf → SumOf 0 fadd p.val.value (Sync.values x'.s p.ops) ∧
      (p.kept = false ↔ scaled p.val.value = 0) := by
    intro p hp hl
    have hold := Sync.emit_holds (Sync.reachable_more e.reach) hp
    rw [hl, hagg] at hold
    refine ⟨holds_sum hold, ?_⟩
    have hk := Sync.reachable_kept e.reach p hp
    rw [hl, hd', if_pos rfl, hagg] at hk
    rw [hk]
    simp only [sumAgg, fltOps, Bool.or_eq_false_iff, bne_eq_false_iff_eq]
    have hz : key p.val.value = 0 ↔ scaled p.val.value = 0 := key_eq_iff p.val.value 0
    rw [hz]
    exact ⟨fun h => h.2, fun h => ⟨nan_not_finite (finite_of_zero h), h⟩⟩
  refine ⟨es.map (fun p => Sync.values x'.s p.ops), qs.map (fun p => Sync.values x'.s p.ops), ?_, ?_, ?_⟩
  · have h5 := h4.map (fun i => (x'.s.op i).num)
    rw [List.map_map, recordedOn_ids e.calls, List.map_flatMap, List.flatMap_def, List.map_append] at h5
    exact h5
  · refine pointwise_mapped _ h3 ?_
    intro p hp d hr
    obtain ⟨p1, p2, p3⟩ := h1 p hp
    refine ⟨p.val.value, (hval p p1 p2).1, ?_, ?_⟩
    · have := number_of (by have := h.shape; simp only [List.mem_cons, List.not_mem_nil, or_false] at this ⊢; rcases this with h | h; exact .inl h; exact .inr (.inl h)) hr
      rw [hn] at this
      exact this
    · intro h0
      rw [(hval p p1 p2).2.2 h0] at p3
      cases p3
  · intro g hg
    obtain ⟨p, hp, rfl⟩ := List.mem_map.1 hg
    obtain ⟨p1, p2, p3⟩ := h2 p hp
    exact ⟨p.val.value, (hval p p1 p2).1, (hval p p1 p2).2.1 p3⟩

/-! ### Minimum, maximum, sum -/

/-- The point shows minimum, maximum, sum and count of these floats. -/
def ShowsStats (fadd : Bits → Bits → Bits) (vals : List Bits) (d : PHist) : Prop :=
  ∃ mn mx, d.min = some mn ∧ d.max = some mx ∧ Spec.Describes 0 fadd (fun a b => decide (Less a b)) mn mx d.sum d.count vals

theorem shows_stats (fadd : Bits → Bits → Bits) (hn : o.num = .float64) (hs : o.shape = .mmsc) {s : Sync.State (List KV) (List KV) Bits (Cell Bits H)}
    (hr : Sync.Reachable (Front.realCfg farm u) 0 s) {e : Sync.Emit (List KV) (Cell Bits H)} (he : e ∈ s.emits) (hl : e.leaf = o.leaf)
    (ha : u.agg o.leaf = mmscAgg (fltOps fadd) hh) (hne : e.ops ≠ []) (hfin : ∀ v ∈ Sync.values s e.ops, Finite v) {d : PHist}
    (h : EmitRel R o HistPointOf e d) : ShowsStats fadd (Sync.values s e.ops) d := by
  obtain ⟨h1, h2, h3⟩ := mmsc_of hs h
  have hagg : (Front.realCfg farm u).agg e.leaf = mmscAgg (fltOps fadd) hh := by rw [hl]; exact ha
  have hdesc := C13_point_float fadd hr e he hagg (fun x hx hn => hfin x hx hn.1)
  have hc : e.val.count ≠ 0 := by
    rw [hdesc.count]
    unfold Sync.values
    rw [List.length_map]
    exact fun h0 => hne (List.length_eq_zero_iff.1 h0)
  obtain ⟨h4, h5⟩ := h3 hn
  rw [hn] at h2 h4 h5
  obtain ⟨mn, e1, e2⟩ := h4.2 hc
  obtain ⟨mx, e3, e4⟩ := h5.2 hc
  refine ⟨mn, mx, e1, e3, ?_⟩
  have e2' : mn = e.val.min := e2
  have e4' : mx = e.val.max := e4
  have h2' : d.sum = e.val.sum := h2
  rw [e2', e4', h2', h1]
  exact hdesc

/-- C72 (cumulative min/max/sum/count of floats, values). For all attributes `m` with which something was recorded: the last point sent with the
attributes `m` has exactly the minimum, the maximum, the sum (in some order) and the number of the floats recorded with them. -/
theorem C72_mmsc_last_values (fadd : Bits → Bits → Bits) (h : Session farm u R lib name o [.mmsc] acts coll x x') (hn : o.num = .float64)
    (hd : u.delta o.leaf = false) (ha : u.agg o.leaf = mmscAgg (fltOps fadd) hh) (hic : u.ignoreColl = false) (hf : Fits u o.leaf acts)
    (hk : ∀ e ∈ Pipeline.calls acts, o.leaf ∈ u.leavesOf e.1.id → e.1.num = .float64)
    (hne : ∀ e ∈ Pipeline.calls acts, NoEmptyList (e.1.attrs e.2.1)) (m : PMap)
    (hrec : recordedOn u.leavesOf o.leaf (fun as => Describes (u.keys o.leaf) as m) acts ≠ []) :
    ∃ d vals, ((sentPoints histPoints lib name x'.sent).filter (fun d => d.attrs = m)).getLast? = some d ∧
      vals.Perm (recordedOn u.leavesOf o.leaf (fun as => Describes (u.keys o.leaf) as m) acts) ∧ ShowsStats fadd vals d := by
  obtain ⟨y, e⟩ := h.ended extracts_mmsc (by simp [Shape.kind])
  obtain ⟨p, d, h1, h2, h3, h4, h5⟩ := e.last hd hic hf h.typed hne _ (attrs_decide (attrs := PHist.attrs) (fun _ _ h => h.2.2.1)) hrec
  refine ⟨d, Sync.values x'.s p.ops, h1, h5, shows_stats fadd hn (by simpa using h.shape) e.reach h3 h4 ha ?_ ?_ h2⟩
  · intro h6
    rw [h6] at h5
    exact hrec (List.nil_perm.1 h5)
  · intro v hv
    exact recorded_finite hk v (h5.mem_iff.1 hv)

/-- C72 (delta min/max/sum/count of floats, values). The floats recorded with attributes `m` are divided into groups, one for each point sent with the
attributes `m`, which has exactly the minimum, the maximum, the sum (in some order) and the number of the values in its group. -/
theorem C72_mmsc_sent_values (fadd : Bits → Bits → Bits) (h : Session farm u R lib name o [.mmsc] acts coll x x') (hn : o.num = .float64)
    (hd : u.delta o.leaf = true) (ha : u.agg o.leaf = mmscAgg (fltOps fadd) hh) (hic : u.ignoreColl = false) (hf : Fits u o.leaf acts)
    (hk : ∀ e ∈ Pipeline.calls acts, o.leaf ∈ u.leavesOf e.1.id → e.1.num = .float64) (m : PMap) :
    Grouped (ShowsStats fadd) (recordedOn u.leavesOf o.leaf (fun as => Describes (u.keys o.leaf) as m) acts)
      ((sentPoints histPoints lib name x'.sent).filter (fun d => d.attrs = m)) := by
  obtain ⟨y, e⟩ := h.ended extracts_mmsc (by simp [Shape.kind])
  have hagg : (Front.realCfg farm u).agg o.leaf = mmscAgg (fltOps fadd) hh := ha
  have hc := counted_mmsc (R := R) (hh := hh) (by simpa using h.shape : o.shape = .mmsc) (fltOps fadd)
  have hkept : ∀ p ∈ x'.s.emits, p.leaf = o.leaf → (p.kept = false ↔ p.ops = []) := by
    intro p hp hl
    have hold := Sync.emit_holds (Sync.reachable_more e.reach) hp
    rw [hl, hagg] at hold
    have h1 := hc.holds _ _ _ hold
    have h2 := Sync.reachable_kept e.reach p hp
    have hd' : (Front.realCfg farm u).delta o.leaf = true := hd
    rw [hl, hagg, hd', if_pos rfl] at h2
    rw [h2, ← List.length_eq_zero_iff, ← h1]
    simp [mmscAgg]
  refine e.delta_grouped hd _ _ _ (attrs_decide (attrs := PHist.attrs) (fun _ _ h => h.2.2.1)) (e.described hic hf h.typed m)
    (fun p hp hl hk => (hkept p hp hl).1 hk) ?_
  intro p d hp hl hkp hmem hr
  refine shows_stats fadd hn (by simpa using h.shape) e.reach hp hl ha ?_ (fun v hv => recorded_finite hk v (hmem v hv)) hr
  intro h0
  rw [(hkept p hp hl).2 h0] at hkp
  cases hkp

/-- The point shows sum and count of these integers: the count is their number, the sum the float closest to their total (in int64 arithmetic) unless that is negative.
The minimum and the maximum sent are not those of the integers, see C42. -/
def ShowsIntStats (vals : List Bits) (d : PHist) : Prop := d.count = vals.length ∧ (0 ≤ (total64 vals).toInt → RoundsTo (total64 vals).toInt d.sum)

theorem shows_int_stats (hn : o.num = .int64) (hs : o.shape = .mmsc) {s : Sync.State (List KV) (List KV) Bits (Cell Bits H)}
    (hr : Sync.Reachable (Front.realCfg farm u) 0 s) {e : Sync.Emit (List KV) (Cell Bits H)} (he : e ∈ s.emits) (hl : e.leaf = o.leaf)
    (ha : u.agg o.leaf = mmscAgg intOps hh) {d : PHist} (h : EmitRel R o HistPointOf e d) : ShowsIntStats (Sync.values s e.ops) d := by
  obtain ⟨h1, h2, -⟩ := mmsc_of hs h
  have hagg : (Front.realCfg farm u).agg e.leaf = mmscAgg intOps hh := by rw [hl]; exact ha
  obtain ⟨hdesc, hsum⟩ := C13_point_int hr e he hagg
  rw [hn, hsum] at h2
  exact ⟨h1.trans hdesc.count, h2⟩

/-- C72 (cumulative min/max/sum/count of integers, values). For all attributes `m` with which something was recorded: the last point sent with the
attributes `m` has exactly the sum and the number of the integers recorded with them. -/
theorem C72_mmsc_last_ints (h : Session farm u R lib name o [.mmsc] acts coll x x') (hn : o.num = .int64)
    (hd : u.delta o.leaf = false) (ha : u.agg o.leaf = mmscAgg intOps hh) (hic : u.ignoreColl = false) (hf : Fits u o.leaf acts)
    (hne : ∀ e ∈ Pipeline.calls acts, NoEmptyList (e.1.attrs e.2.1)) (m : PMap)
    (hrec : recordedOn u.leavesOf o.leaf (fun as => Describes (u.keys o.leaf) as m) acts ≠ []) :
    ∃ d vals, ((sentPoints histPoints lib name x'.sent).filter (fun d => d.attrs = m)).getLast? = some d ∧
      vals.Perm (recordedOn u.leavesOf o.leaf (fun as => Describes (u.keys o.leaf) as m) acts) ∧ ShowsIntStats vals d := by
  obtain ⟨y, e⟩ := h.ended extracts_mmsc (by simp [Shape.kind])
  obtain ⟨p, d, h1, h2, h3, h4, h5⟩ := e.last hd hic hf h.typed hne _ (attrs_decide (attrs := PHist.attrs) (fun _ _ h => h.2.2.1)) hrec
  exact ⟨d, Sync.values x'.s p.ops, h1, h5, shows_int_stats hn (by simpa using h.shape) e.reach h3 h4 ha h2⟩

/-- C72 (delta min/max/sum/count of integers, values). The integers recorded with attributes `m` are divided into groups, one for each point sent with the
attributes `m`, which has exactly the sum and the number of the integers in its group. -/
theorem C72_mmsc_sent_ints (h : Session farm u R lib name o [.mmsc] acts coll x x') (hn : o.num = .int64)
    (hd : u.delta o.leaf = true) (ha : u.agg o.leaf = mmscAgg intOps hh) (hic : u.ignoreColl = false) (hf : Fits u o.leaf acts) (m : PMap) :
    Grouped ShowsIntStats (recordedOn u.leavesOf o.leaf (fun as => Describes (u.keys o.leaf) as m) acts)
      ((sentPoints histPoints lib name x'.sent).filter (fun d => d.attrs = m)) := by
  obtain ⟨y, e⟩ := h.ended extracts_mmsc (by simp [Shape.kind])
  have hagg : (Front.realCfg farm u).agg o.leaf = mmscAgg intOps hh := ha
  have hc := counted_mmsc (R := R) (hh := hh) (by simpa using h.shape : o.shape = .mmsc) intOps
  have hkept : ∀ p ∈ x'.s.emits, p.leaf = o.leaf → (p.kept = false ↔ p.ops = []) := by
    intro p hp hl
    have hold := Sync.emit_holds (Sync.reachable_more e.reach) hp
    rw [hl, hagg] at hold
    have h1 := hc.holds _ _ _ hold
    have h2 := Sync.reachable_kept e.reach p hp
    have hd' : (Front.realCfg farm u).delta o.leaf = true := hd
    rw [hl, hagg, hd', if_pos rfl] at h2
    rw [h2, ← List.length_eq_zero_iff, ← h1]
    simp [mmscAgg]
  refine e.delta_grouped hd _ _ _ (attrs_decide (attrs := PHist.attrs) (fun _ _ h => h.2.2.1)) (e.described hic hf h.typed m)
    (fun p hp hl hk => (hkept p hp hl).1 hk) ?_
  intro p d hp hl hkp hmem hr
  exact shows_int_stats hn (by simpa using h.shape) e.reach hp hl ha hr

/-! ### The content of histograms -/

/-- The point has the content (sum, count, minimum, maximum, zero count, scale and buckets) of a histogram made by recording these values, each once, into
empty histograms and merging these. -/
def ShowsHist (R : Reader H) (hh : HistOps Bits H) (k : Kind) (vals : List Bits) (d : PExp) : Prop :=
  ∃ g, HistOf hh.empty hh.update hh.mergeFrom g vals ∧ ExpIs k (R.toHist g) d

/-- C72 (cumulative histogram, content). For all attributes `m` with which something was recorded: the last point sent with the attributes `m` has the
content of a histogram made of exactly the values recorded with them. -/
theorem C72_hist_last_content (h : Session farm u R lib name o [.hist] acts coll x x') (hd : u.delta o.leaf = false)
    (ha : u.agg o.leaf = histAgg ops hh) (hic : u.ignoreColl = false) (hf : Fits u o.leaf acts)
    (hne : ∀ e ∈ Pipeline.calls acts, NoEmptyList (e.1.attrs e.2.1)) (m : PMap)
    (hrec : recordedOn u.leavesOf o.leaf (fun as => Describes (u.keys o.leaf) as m) acts ≠ []) :
    ∃ d vals, ((sentPoints expPoints lib name x'.sent).filter (fun d => d.attrs = m)).getLast? = some d ∧
      vals.Perm (recordedOn u.leavesOf o.leaf (fun as => Describes (u.keys o.leaf) as m) acts) ∧ ShowsHist R hh o.num vals d := by
  obtain ⟨y, e⟩ := h.ended extracts_exp (by simp [Shape.kind])
  obtain ⟨p, d, h1, h2, h3, h4, h5⟩ := e.last hd hic hf h.typed hne _ (attrs_decide (attrs := PExp.attrs) (fun _ _ h => h.2.2.1)) hrec
  exact ⟨d, Sync.values x'.s p.ops, h1, h5, p.val.hist, C61_point e.reach p h3 (by rw [h4]; exact ha), exp_of (by simpa using h.shape) h2⟩

/-- C72 (delta histogram, content). The values recorded with attributes `m` are divided into groups, one for each point sent with the attributes `m`, which
has the content of a histogram made of exactly its group. -/
theorem C72_hist_sent_content (h : Session farm u R lib name o [.hist] acts coll x x') (hd : u.delta o.leaf = true)
    (ha : u.agg o.leaf = histAgg ops hh) (hl : Counts hh) (hic : u.ignoreColl = false) (hf : Fits u o.leaf acts) (m : PMap) :
    Grouped (ShowsHist R hh o.num) (recordedOn u.leavesOf o.leaf (fun as => Describes (u.keys o.leaf) as m) acts)
      ((sentPoints expPoints lib name x'.sent).filter (fun d => d.attrs = m)) := by
  obtain ⟨y, e⟩ := h.ended extracts_exp (by simp [Shape.kind])
  have hagg : (Front.realCfg farm u).agg o.leaf = histAgg ops hh := ha
  refine e.delta_grouped hd _ _ _ (attrs_decide (attrs := PExp.attrs) (fun _ _ h => h.2.2.1)) (e.described hic hf h.typed m) ?_ ?_
  · intro p hp hpl hk
    refine Classical.byContradiction fun hn => ?_
    have := (C61_exported_iff hl e.reach p hp (by rw [hpl]; exact hagg)).2 (.inr hn)
    rw [hk] at this
    cases this
  · intro p d hp hpl _ _ hr
    exact ⟨p.val.hist, C61_point e.reach p hp (by rw [hpl]; exact hagg), exp_of (by simpa using h.shape) hr⟩

/-! ### A concrete program

Calls do not overlap. A gauge gets 3 with one attribute, then 4 with another; floats 1.0 and 2.0, then 2.0 again are recorded. Output metric 0 is a delta
gauge without attributes; another reader takes a snapshot of the gauge while this metric is collected and exported. -/

section Example
open Verif.Examples Verif.Examples.PipeG
open Verif.Examples.Pipe (out)

/-- C88 (delta gauge, the full claim fails). Calls do not overlap; 3, then 4 are recorded; the last point sent has 3. -/
theorem C88_gauge_delta_last_fails : ∃ (u : Front.Setup (Cell Bits (List Bits))) (R : Reader (List Bits)) (o : Out) (hh : HistOps Bits (List Bits))
    (acts coll : List Pipeline.Act) (x x' : Sys (List Bits)) (m : PMap),
    Session (fun _ => 0) u R Pipe.lib o.name o [.gauge] acts coll x x' ∧ u.delta o.leaf = true ∧ u.agg o.leaf = gaugeAgg intOps hh ∧ u.ignoreColl = false ∧
    Fits u o.leaf acts ∧ (∀ e ∈ Pipeline.calls acts, NoEmptyList (e.1.attrs e.2.1)) ∧ Sequential (Front.realCfg (fun _ => 0) u) R o.leaf acts ∧
    (recordedOn u.leavesOf o.leaf (fun as => Describes (u.keys o.leaf) as m) acts) = [3, 4] ∧
    ((sentPoints numbers Pipe.lib o.name x'.sent).filter (fun d => d.attrs = m)).map (·.value) = [.int 4, .int 3] := by
  obtain ⟨t, h, h1, h2⟩ := exists_of_eval (x := stages 0 4) (P := fun t => Good t ∧
    ((sentPoints numbers Pipe.lib [109, 0] t.x'.sent).filter (fun d => d.attrs = [])).map (·.value) = [.int 4, .int 3]) (by decide +kernel)
  refine ⟨su, rd, out 0 .int64 .gauge, su.listH, acts, coll 0 4, t.x, t.x', [], session (o := out 0 .int64 .gauge) rfl rfl List.mem_cons_self h h1, rfl, rfl,
    rfl, fits 0, noEmpty, sequential 0, ?_, h2⟩
  have hd : ∀ as, Describes (su.keys 0) as [] := by
    intro as
    refine ⟨List.Pairwise.nil, fun k v => ⟨fun h => (by cases h), fun h => ?_⟩⟩
    exact absurd (h.2.1 [] rfl) List.not_mem_nil
  have hc : Pipeline.calls acts = [(gauge, ka, 3), (gauge, kb, 4), (histo, [], 0x3ff0000000000000), (histo, [], 0x4000000000000000),
    (histo, [], 0x4000000000000000)] := rfl
  have hr : ∀ v, ¬ Rejected .int64 .syncUpDownCounter v := by
    intro v hv
    simp [Rejected] at hv
  unfold recordedOn
  rw [hc, List.flatMap_cons, List.flatMap_cons, if_pos ⟨hr _, hd _⟩, if_pos ⟨hr _, hd _⟩]
  simp only [List.flatMap_cons, List.flatMap_nil]
  have h0 : List.count (out 0 .int64 .gauge).leaf (su.leavesOf histo.id) = 0 := rfl
  simp only [h0, List.replicate_zero, ite_self]
  rfl

/-- The cumulative gauge: the last point of each series has its last value. -/
example : ∃ t, stages 1 4 = some t ∧
    Session (fun _ => 0) su rd Pipe.lib [109, 1] (out 1 .int64 .gauge) [.gauge] PipeG.acts (PipeG.coll 1 4) t.x t.x' ∧
    su.delta 1 = false ∧ su.agg 1 = gaugeAgg intOps su.listH ∧ su.ignoreColl = false ∧ Fits su 1 PipeG.acts ∧
    (∀ e ∈ Pipeline.calls PipeG.acts, NoEmptyList (e.1.attrs e.2.1)) ∧ Sequential (Front.realCfg (fun _ => 0) su) rd 1 PipeG.acts ∧
    ((sentPoints numbers Pipe.lib [109, 1] t.x'.sent).filter (fun d => d.attrs = [([97], .one (.bool true))])).getLast?.map (·.value) = some (.int 3) := by
  obtain ⟨t, h, h1, h2⟩ := exists_of_eval (x := stages 1 4) (P := fun t => Good t ∧
    ((sentPoints numbers Pipe.lib [109, 1] t.x'.sent).filter (fun d => d.attrs = [([97], .one (.bool true))])).getLast?.map (·.value) = some (.int 3))
    (by decide +kernel)
  exact ⟨t, h, session (o := out 1 .int64 .gauge) rfl rfl List.mem_cons_self h h1, rfl, rfl, rfl, fits 1, noEmpty, sequential 1, h2⟩

theorem floats {e : Front.Inst × List KV × Bits} (he : e ∈ Pipeline.calls PipeG.acts) {l : Nat} (hl : 2 ≤ l) (h : l ∈ su.leavesOf e.1.id) : e.1.num = .float64 := by
  have h1 : ∀ e ∈ Pipeline.calls PipeG.acts, e.1 = gauge ∨ e.1 = histo := by
    intro e he
    have hc : Pipeline.calls acts = [(gauge, ka, 3), (gauge, kb, 4), (histo, [], 0x3ff0000000000000), (histo, [], 0x4000000000000000),
      (histo, [], 0x4000000000000000)] := rfl
    rw [hc] at he
    simp only [List.mem_cons, List.not_mem_nil, or_false] at he
    rcases he with rfl | rfl | rfl | rfl | rfl <;> simp
  rcases h1 e he with h2 | h2 <;> rw [h2] at h ⊢
  · have : l = 0 ∨ l = 1 := by simpa [su, gauge] using h
    omega
  · rfl

/-- Delta min/max/sum/count: the groups [1.0, 2.0] and [2.0]. -/
example : ∃ t, stages 2 4 = some t ∧
    Session (fun _ => 0) su rd Pipe.lib [109, 2] (out 2 .float64 .mmsc) [.mmsc] PipeG.acts (PipeG.coll 2 4) t.x t.x' ∧
    su.delta 2 = true ∧ su.agg 2 = mmscAgg (fltOps PipeG.fadd) su.listH ∧ Fits su 2 PipeG.acts ∧
    (∀ e ∈ Pipeline.calls PipeG.acts, 2 ∈ su.leavesOf e.1.id → e.1.num = .float64) ∧
    (sentPoints histPoints Pipe.lib [109, 2] t.x'.sent).map (fun d => (d.count, d.min, d.max)) =
      [(2, some 0x3ff0000000000000, some 0x4000000000000000), (1, some 0x4000000000000000, some 0x4000000000000000)] := by
  obtain ⟨t, h, h1, h2⟩ := exists_of_eval (x := stages 2 4) (P := fun t => Good t ∧
    (sentPoints histPoints Pipe.lib [109, 2] t.x'.sent).map (fun d => (d.count, d.min, d.max)) =
      [(2, some 0x3ff0000000000000, some 0x4000000000000000), (1, some 0x4000000000000000, some 0x4000000000000000)]) (by decide +kernel)
  exact ⟨t, h, session (o := out 2 .float64 .mmsc) rfl rfl List.mem_cons_self h h1, rfl, rfl, fits 2, fun _ he => floats he (by decide), h2⟩

/-- Cumulative min/max/sum/count: all three. -/
example : ∃ t, stages 3 3 = some t ∧
    Session (fun _ => 0) su rd Pipe.lib [109, 3] (out 3 .float64 .mmsc) [.mmsc] PipeG.acts (PipeG.coll 3 3) t.x t.x' ∧
    su.delta 3 = false ∧ su.agg 3 = mmscAgg (fltOps PipeG.fadd) su.listH ∧ Fits su 3 PipeG.acts ∧
    (∀ e ∈ Pipeline.calls PipeG.acts, 3 ∈ su.leavesOf e.1.id → e.1.num = .float64) ∧
    (sentPoints histPoints Pipe.lib [109, 3] t.x'.sent).map (fun d => (d.count, d.min, d.max)) =
      [(3, some 0x3ff0000000000000, some 0x4000000000000000)] := by
  obtain ⟨t, h, h1, h2⟩ := exists_of_eval (x := stages 3 3) (P := fun t => Good t ∧
    (sentPoints histPoints Pipe.lib [109, 3] t.x'.sent).map (fun d => (d.count, d.min, d.max)) =
      [(3, some 0x3ff0000000000000, some 0x4000000000000000)]) (by decide +kernel)
  exact ⟨t, h, session (o := out 3 .float64 .mmsc) rfl rfl List.mem_cons_self h h1, rfl, rfl, fits 3, fun _ he => floats he (by decide), h2⟩

/-- Delta and cumulative sums of floats (with some addition). -/
example : ∃ t t', stages 4 4 = some t ∧ stages 5 3 = some t' ∧
    Session (fun _ => 0) su rd Pipe.lib [109, 4] (out 4 .float64 .monotonic) [.monotonic, .nonMonotonic] PipeG.acts (PipeG.coll 4 4) t.x t.x' ∧
    Session (fun _ => 0) su rd Pipe.lib [109, 5] (out 5 .float64 .monotonic) [.monotonic, .nonMonotonic] PipeG.acts (PipeG.coll 5 3) t'.x t'.x' ∧
    su.delta 4 = true ∧ su.delta 5 = false ∧ su.agg 4 = sumAgg (fltOps PipeG.fadd) su.listH ∧ su.agg 5 = sumAgg (fltOps PipeG.fadd) su.listH ∧
    (sentPoints numbers Pipe.lib [109, 4] t.x'.sent).map (·.value) = [.double (0x3ff0000000000000 + 0x4000000000000000), .double 0x4000000000000000] ∧
    (sentPoints numbers Pipe.lib [109, 5] t'.x'.sent).map (·.value) = [.double (0x3ff0000000000000 + 0x4000000000000000 + 0x4000000000000000)] := by
  obtain ⟨t, h, h1, h2⟩ := exists_of_eval (x := stages 4 4) (P := fun t => Good t ∧
    (sentPoints numbers Pipe.lib [109, 4] t.x'.sent).map (·.value) = [.double (0x3ff0000000000000 + 0x4000000000000000), .double 0x4000000000000000])
    (by decide +kernel)
  obtain ⟨t', h', h1', h2'⟩ := exists_of_eval (x := stages 5 3) (P := fun t => Good t ∧
    (sentPoints numbers Pipe.lib [109, 5] t.x'.sent).map (·.value) = [.double (0x3ff0000000000000 + 0x4000000000000000 + 0x4000000000000000)])
    (by decide +kernel)
  exact ⟨t, t', h, h', session (o := out 4 .float64 .monotonic) rfl rfl List.mem_cons_self h h1,
    session (o := out 5 .float64 .monotonic) rfl rfl List.mem_cons_self h' h1', rfl, rfl, rfl, rfl, h2, h2'⟩

/-- Delta and cumulative histograms. -/
example : ∃ t t', stages 6 4 = some t ∧ stages 7 3 = some t' ∧
    Session (fun _ => 0) su rd Pipe.lib [109, 6] (out 6 .float64 .hist) [.hist] PipeG.acts (PipeG.coll 6 4) t.x t.x' ∧
    Session (fun _ => 0) su rd Pipe.lib [109, 7] (out 7 .float64 .hist) [.hist] PipeG.acts (PipeG.coll 7 3) t'.x t'.x' ∧
    su.delta 6 = true ∧ su.delta 7 = false ∧ su.agg 6 = histAgg (fltOps PipeG.fadd) su.listH ∧ su.agg 7 = histAgg (fltOps PipeG.fadd) su.listH ∧
    Counts su.listH ∧
    (sentPoints expPoints Pipe.lib [109, 6] t.x'.sent).map (·.count) = [2, 1] ∧ (sentPoints expPoints Pipe.lib [109, 7] t'.x'.sent).map (·.count) = [3] := by
  obtain ⟨t, h, h1, h2⟩ := exists_of_eval (x := stages 6 4) (P := fun t => Good t ∧
    (sentPoints expPoints Pipe.lib [109, 6] t.x'.sent).map (·.count) = [2, 1]) (by decide +kernel)
  obtain ⟨t', h', h1', h2'⟩ := exists_of_eval (x := stages 7 3) (P := fun t => Good t ∧
    (sentPoints expPoints Pipe.lib [109, 7] t.x'.sent).map (·.count) = [3]) (by decide +kernel)
  refine ⟨t, t', h, h', session (o := out 6 .float64 .hist) rfl rfl List.mem_cons_self h h1,
    session (o := out 7 .float64 .hist) rfl rfl List.mem_cons_self h' h1', rfl, rfl, rfl, rfl, ⟨rfl, fun _ _ => rfl, fun a b => ?_⟩, h2, h2'⟩
  show (b ++ a).length = _
  rw [List.length_append, Nat.add_comm]
  rfl

end Example

end Verif.Props
