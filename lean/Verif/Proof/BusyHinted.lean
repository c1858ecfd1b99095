import Verif.Proof.Busy
import Verif.Proof.Hinted

/-!
Helper file: gauges and min/max/sum/count of metrics collected while calls go on.
-/

namespace Verif.Pipeline
open Verif Verif.Attr Verif.Number Verif.Aggr Verif.Export Verif.Spec
variable {H : Type} {farm : Str → UInt64} {u : Front.Setup (Cell Bits H)} {R : Reader H}
variable {lib : Library} {name : Str} {o : Out} {acts coll : List Act} {x x' : Sys H} {m : PMap}

theorem between_nonempty {α : Type} {b v a : List α} (h : Verif.Busy.Between b v a) (hb : b ≠ []) : v ≠ [] := by
  obtain ⟨x, y, h1, -⟩ := h
  intro h0
  rw [h0] at h1
  exact hb (List.append_eq_nil_iff.1 (List.nil_perm.1 h1)).1

theorem between_mem {α : Type} {b v a : List α} (h : Verif.Busy.Between b v a) {c : α} (hc : c ∈ v) : c ∈ a := by
  obtain ⟨x, y, -, h1⟩ := h
  exact h1.mem_iff.2 (List.mem_append_left _ hc)

theorem run_join {c : Sync.Cfg (List KV) (List KV) Bits (Cell Bits H)} {as bs : List Act} {x y z : Sys H} (h : run c R x as = some y) (h' : run c R y bs = some z) :
    run c R x (as ++ bs) = some z := by
  induction as generalizing x with
  | nil => cases h; exact h'
  | cons a as ih =>
    rw [List.cons_append]
    rw [run] at h ⊢
    obtain ⟨v, h1, h2⟩ := Option.bind_eq_some_iff.1 h
    rw [h1]
    exact ih h2

theorem Collected.run {c : Sync.Cfg (List KV) (List KV) Bits (Cell Bits H)} {l : Nat} (h : Collected c R l x acts x') : Pipeline.run c R x acts = some x' := by
  obtain ⟨mid, fin, y, z, q, h1, h2, h3, h4, -⟩ := h.split
  rw [h1]
  refine run_join (run_join h2 h3) ?_
  rw [Pipeline.run, h4]
  rfl

/-- A list of numbers which never decreases is split at the last occurrence of a number. -/
theorem sorted_split {L : List Nat} (h : L.Pairwise (· ≤ ·)) {i : Nat} (hi : i ∈ L) : ∃ A B, L = A ++ i :: B ∧ ∀ j ∈ B, i < j := by
  induction L with
  | nil => cases hi
  | cons a L ih =>
    rw [List.pairwise_cons] at h
    by_cases hm : i ∈ L
    · obtain ⟨A, B, h1, h2⟩ := ih h.2 hm
      exact ⟨a :: A, B, by rw [h1]; rfl, h2⟩
    · rcases List.mem_cons.1 hi with rfl | hi
      · refine ⟨[], L, rfl, fun j hj => ?_⟩
        have := h.1 j hj
        have hne : i ≠ j := fun he => hm (he ▸ hj)
        omega
      · exact absurd hi hm

section
variable {ret : Nat → Prop} (hret : ∀ i, ret i → i < x.s.nextOp ∧ (x.s.op i).pc = .done)
include hret

/-- The value of a gauge is that of one of its calls. -/
theorem Busy.gauge_last (h : Busy farm u R lib name o [.gauge] acts coll x x') (hd : u.delta o.leaf = false)
    (ha : u.agg o.leaf = gaugeAgg ops hh) (hic : u.ignoreColl = false) (hf : Fits u o.leaf (acts ++ coll))
    (hne : ∀ e ∈ Pipeline.calls (acts ++ coll), NoEmptyList (e.1.attrs e.2.1))
    (hrec : returnedOn u x'.s ret o.leaf (fun as => Describes (u.keys o.leaf) as m) ≠ []) :
    ∃ d vals, Verif.Busy.Between (returnedOn u x'.s ret o.leaf (fun as => Describes (u.keys o.leaf) as m)) vals
        (recordedOn u.leavesOf o.leaf (fun as => Describes (u.keys o.leaf) as m) (acts ++ coll)) ∧
      ((sentPoints numbers lib name x'.sent).filter (fun d => d.attrs = m)).getLast? = some d ∧ ∃ b ∈ vals, NumOf o.num b d.value := by
  obtain ⟨y, e⟩ := h.caught extracts_numbers (by simp [Shape.kind]) hret
  obtain ⟨p, d, h1, h2, h3, h4, h5⟩ := e.last hd hic hf h.typed hne _ (attrs_decide (attrs := PNumber.attrs) (fun _ _ h => h.1)) hrec
  have hops : p.ops ≠ [] := fun h0 => between_nonempty h5 hrec (by rw [h0]; rfl)
  obtain ⟨i, sq, i1, i2⟩ := Props.C14_value_recorded_partial e.reach ops p h3 (by rw [h4]; exact ha) hops
  refine ⟨d, _, h5, h1, (x'.s.op i).num, List.mem_map.2 ⟨(i, sq), i1, rfl⟩, ?_⟩
  rw [← i2]
  exact number_of (by have := h.shape; simp only [List.mem_singleton] at this; rw [this]; simp) h2

/-- When calls do not overlap: the value of a gauge is that of one of its calls, and all calls which had returned are not after this. -/
theorem Busy.gauge_newest (h : Busy farm u R lib name o [.gauge] acts coll x x') (hq : Sequential (Front.realCfg farm u) R o.leaf (acts ++ coll)) (hd : u.delta o.leaf = false)
    (ha : u.agg o.leaf = gaugeAgg ops hh) (hic : u.ignoreColl = false) (hf : Fits u o.leaf (acts ++ coll))
    (hne : ∀ e ∈ Pipeline.calls (acts ++ coll), NoEmptyList (e.1.attrs e.2.1))
    (hrec : returnedOn u x'.s ret o.leaf (fun as => Describes (u.keys o.leaf) as m) ≠ []) :
    ∃ d pre b post, recordedOn u.leavesOf o.leaf (fun as => Describes (u.keys o.leaf) as m) (acts ++ coll) = pre ++ b :: post ∧
      (returnedOn u x'.s ret o.leaf (fun as => Describes (u.keys o.leaf) as m)).Sublist (pre ++ [b]) ∧
      ((sentPoints numbers lib name x'.sent).filter (fun d => d.attrs = m)).getLast? = some d ∧ NumOf o.num b d.value := by
  obtain ⟨y, e⟩ := h.caught extracts_numbers (by simp [Shape.kind]) hret
  obtain ⟨p, d, h1, h2, h3, h4, -, r, h5, h6⟩ := e.last_ids hd hic hf h.typed hne _ (attrs_decide (attrs := PNumber.attrs) (fun _ _ h => h.1)) (e.has hrec)
  have hrun : run (Front.realCfg farm u) R (initial (Front.realCfg farm u)) (acts ++ coll) = some x' := run_join h.before h.collected.run
  have hs := hq.reachable hrun
  have hbt := e.between _ h5 h6
  rw [List.map_map] at hbt
  have hops : p.ops ≠ [] := fun h0 => between_nonempty hbt hrec (by rw [h0]; rfl)
  rw [← h4] at hs
  obtain ⟨i, sq, i1, i2, i3⟩ := Props.C14_last_value_sequential p hs ops h3 (by rw [h4]; exact ha) hops
  have hmem : i ∈ Sync.idsOn (Front.realCfg farm u) x'.s o.leaf (fun a => @decide (Describes (u.keys o.leaf) a m) (Classical.propDecidable _)) :=
    h5.mem_iff.2 (List.mem_append_left _ (List.mem_map.2 ⟨_, i1, rfl⟩))
  obtain ⟨A, B, s1, s2⟩ := sorted_split (idsOn_sorted _ _) hmem
  have hB : ∀ j ∈ B, ¬ ret j := by
    intro j hj hr
    have hj' := h5.mem_iff.1 (show j ∈ _ by rw [s1]; simp [hj])
    rcases List.mem_append.1 hj' with hj' | hj'
    · obtain ⟨⟨j', sq'⟩, j1, rfl⟩ := List.mem_map.1 hj'
      have := i3 _ _ j1
      have := s2 _ hj
      dsimp only at this
      omega
    · exact h6 j hj' hr
  refine ⟨d, A.map (fun i => (x'.s.op i).num), (x'.s.op i).num, B.map (fun i => (x'.s.op i).num), ?_, ?_, h1, ?_⟩
  · rw [← recordedOn_ids (farm := farm) e.calls, s1, List.map_append, List.map_cons]
  · unfold returnedOn
    rw [← idsOn_eq (farm := farm) o.leaf (fun as => Describes (u.keys o.leaf) as m), s1]
    have hs3 : A ++ i :: B = (A ++ [i]) ++ B := by simp
    have hfl : B.filter (fun i => @decide (ret i) (Classical.propDecidable _)) = [] := List.filter_eq_nil_iff.2 (fun j hj => by simpa using hB j hj)
    rw [hs3, List.filter_append, hfl, List.append_nil]
    have := (List.filter_sublist (p := fun i => @decide (ret i) (Classical.propDecidable _)) (l := A ++ [i])).map (fun i => (x'.s.op i).num)
    rw [List.map_append] at this
    exact this
  · rw [← i2]
    exact number_of (by have := h.shape; simp only [List.mem_singleton] at this; rw [this]; simp) h2

/-- The calls of a delta gauge are divided into its points. -/
theorem Busy.gauge_sent (h : Busy farm u R lib name o [.gauge] acts coll x x') (hd : u.delta o.leaf = true)
    (ha : u.agg o.leaf = gaugeAgg ops hh) (hic : u.ignoreColl = false) (hf : Fits u o.leaf (acts ++ coll)) :
    ∃ vals, Verif.Busy.Between (returnedOn u x'.s ret o.leaf (fun as => Describes (u.keys o.leaf) as m)) vals
        (recordedOn u.leavesOf o.leaf (fun as => Describes (u.keys o.leaf) as m) (acts ++ coll)) ∧
      Grouped (fun g d => ∃ b ∈ g, NumOf o.num b d.value) vals ((sentPoints numbers lib name x'.sent).filter (fun d => d.attrs = m)) := by
  obtain ⟨y, e⟩ := h.caught extracts_numbers (by simp [Shape.kind]) hret
  obtain ⟨es, qs, h1, h2, h3, h4⟩ := e.delta_groups hd (fun d => decide (d.attrs = m)) (fun k => @decide (AttrsOf k m) (Classical.propDecidable _))
    (fun as => Pipeline.Describes (u.keys o.leaf) as m) (attrs_decide (attrs := PNumber.attrs) (fun _ _ h => h.1)) (e.described hic hf h.typed m)
  have hagg : (Front.realCfg farm u).agg o.leaf = gaugeAgg ops hh := ha
  have hd' : (Front.realCfg farm u).delta o.leaf = true := hd
  have hqs : (qs.map (fun e => Sync.values x'.s e.ops)).flatten = [] := by
    rw [List.flatten_eq_nil_iff]
    intro l hlm
    obtain ⟨p, hp, rfl⟩ := List.mem_map.1 hlm
    obtain ⟨p1, p2, p3⟩ := h2 p hp
    have : p.ops = [] := Classical.byContradiction fun hn => by
      have := (Props.C14_delta_exported_iff e.reach ops p p1 (by rw [p2]; exact hagg) (by rw [p2]; exact hd')).2 hn
      rw [p3] at this
      cases this
    rw [this]
    rfl
  rw [List.map_append, List.flatten_append, hqs, List.append_nil] at h4
  refine ⟨_, h4, es.map (fun e => Sync.values x'.s e.ops), List.Perm.refl _, ?_⟩
  refine pointwise_mapped _ h3 ?_
  intro p hp d hr
  obtain ⟨p1, p2, p3⟩ := h1 p hp
  obtain ⟨i, sq, i1, i2⟩ := Props.C14_value_recorded_partial e.reach ops p p1 (by rw [p2]; exact hagg)
    ((Props.C14_delta_exported_iff e.reach ops p p1 (by rw [p2]; exact hagg) (by rw [p2]; exact hd')).1 p3)
  refine ⟨(x'.s.op i).num, List.mem_map.2 ⟨(i, sq), i1, rfl⟩, ?_⟩
  rw [← i2]
  exact number_of (by have := h.shape; simp only [List.mem_singleton] at this; rw [this]; simp) hr

theorem Busy.mmsc_last (fadd : Bits → Bits → Bits) (h : Busy farm u R lib name o [.mmsc] acts coll x x') (hn : o.num = .float64) (hd : u.delta o.leaf = false)
    (ha : u.agg o.leaf = mmscAgg (fltOps fadd) hh) (hic : u.ignoreColl = false) (hf : Fits u o.leaf (acts ++ coll))
    (hk : ∀ e ∈ Pipeline.calls (acts ++ coll), o.leaf ∈ u.leavesOf e.1.id → e.1.num = .float64)
    (hne : ∀ e ∈ Pipeline.calls (acts ++ coll), NoEmptyList (e.1.attrs e.2.1))
    (hrec : returnedOn u x'.s ret o.leaf (fun as => Describes (u.keys o.leaf) as m) ≠ []) :
    ∃ d vals, Verif.Busy.Between (returnedOn u x'.s ret o.leaf (fun as => Describes (u.keys o.leaf) as m)) vals
        (recordedOn u.leavesOf o.leaf (fun as => Describes (u.keys o.leaf) as m) (acts ++ coll)) ∧
      ((sentPoints histPoints lib name x'.sent).filter (fun d => d.attrs = m)).getLast? = some d ∧ Props.ShowsStats fadd vals d := by
  obtain ⟨y, e⟩ := h.caught extracts_mmsc (by simp [Shape.kind]) hret
  obtain ⟨p, d, h1, h2, h3, h4, h5⟩ := e.last hd hic hf h.typed hne _ (attrs_decide (attrs := PHist.attrs) (fun _ _ h => h.2.2.1)) hrec
  exact ⟨d, _, h5, h1, Props.shows_stats fadd hn (by simpa using h.shape) e.reach h3 h4 ha (fun h0 => between_nonempty h5 hrec (by rw [h0]; rfl))
    (fun v hv => recorded_finite hk v (between_mem h5 hv)) h2⟩

theorem Busy.mmsc_int_last (h : Busy farm u R lib name o [.mmsc] acts coll x x') (hn : o.num = .int64) (hd : u.delta o.leaf = false)
    (ha : u.agg o.leaf = mmscAgg intOps hh) (hic : u.ignoreColl = false) (hf : Fits u o.leaf (acts ++ coll))
    (hne : ∀ e ∈ Pipeline.calls (acts ++ coll), NoEmptyList (e.1.attrs e.2.1))
    (hrec : returnedOn u x'.s ret o.leaf (fun as => Describes (u.keys o.leaf) as m) ≠ []) :
    ∃ d vals, Verif.Busy.Between (returnedOn u x'.s ret o.leaf (fun as => Describes (u.keys o.leaf) as m)) vals
        (recordedOn u.leavesOf o.leaf (fun as => Describes (u.keys o.leaf) as m) (acts ++ coll)) ∧
      ((sentPoints histPoints lib name x'.sent).filter (fun d => d.attrs = m)).getLast? = some d ∧ Props.ShowsIntStats vals d := by
  obtain ⟨y, e⟩ := h.caught extracts_mmsc (by simp [Shape.kind]) hret
  obtain ⟨p, d, h1, h2, h3, h4, h5⟩ := e.last hd hic hf h.typed hne _ (attrs_decide (attrs := PHist.attrs) (fun _ _ h => h.2.2.1)) hrec
  exact ⟨d, _, h5, h1, Props.shows_int_stats hn (by simpa using h.shape) e.reach h3 h4 ha h2⟩

/-- When calls do not overlap: the calls of a delta gauge are divided into its points, each of which has the value of the last call of its group. -/
theorem Busy.gauge_sent_newest (h : Busy farm u R lib name o [.gauge] acts coll x x') (hq : Sequential (Front.realCfg farm u) R o.leaf (acts ++ coll)) (hd : u.delta o.leaf = true)
    (ha : u.agg o.leaf = gaugeAgg ops hh) (hic : u.ignoreColl = false) (hf : Fits u o.leaf (acts ++ coll)) :
    ∃ gs : List (List Bits), Verif.Busy.Between (returnedOn u x'.s ret o.leaf (fun as => Describes (u.keys o.leaf) as m)) gs.flatten
        (recordedOn u.leavesOf o.leaf (fun as => Describes (u.keys o.leaf) as m) (acts ++ coll)) ∧
      (∀ g ∈ gs, g.Sublist (recordedOn u.leavesOf o.leaf (fun as => Describes (u.keys o.leaf) as m) (acts ++ coll))) ∧
      Pointwise (fun g d => ∃ v, g.getLast? = some v ∧ NumOf o.num v d.value) gs ((sentPoints numbers lib name x'.sent).filter (fun d => d.attrs = m)) := by
  obtain ⟨y, e⟩ := h.caught extracts_numbers (by simp [Shape.kind]) hret
  have hs := hq.reachable (run_join h.before h.collected.run)
  have hagg : (Front.realCfg farm u).agg o.leaf = gaugeAgg ops hh := ha
  have hd' : (Front.realCfg farm u).delta o.leaf = true := hd
  have h3 := e.selected (fun d => decide (d.attrs = m)) (fun k => @decide (AttrsOf k m) (Classical.propDecidable _)) (attrs_decide (attrs := PNumber.attrs) (fun _ _ h => h.1))
  obtain ⟨r, h4, h5⟩ := e.delta_ids hd (fun k => @decide (AttrsOf k m) (Classical.propDecidable _)) (fun as => Pipeline.Describes (u.keys o.leaf) as m) (e.described hic hf h.typed m)
  generalize hF : x'.s.emits.filter (fun e => e.leaf == o.leaf && @decide (AttrsOf e.key m) (Classical.propDecidable _)) = F at h3 h4
  have hmem : ∀ p ∈ F, p ∈ x'.s.emits ∧ p.leaf = o.leaf := by
    intro p hp
    rw [← hF, List.mem_filter, Bool.and_eq_true, beq_iff_eq] at hp
    exact ⟨hp.1, hp.2.1⟩
  let ids : Sync.Emit (List KV) (Cell Bits H) → List Nat := fun p => (p.ops.map (·.1)).mergeSort
  have hperm : ∀ p, (ids p).Perm (p.ops.map (·.1)) := fun p => List.mergeSort_perm _ _
  have hsort : ∀ p, (ids p).Pairwise (· ≤ ·) := fun p => by
    have := List.pairwise_mergeSort (le := fun a b : Nat => decide (a ≤ b)) (by simp; omega) (by simp; omega) (p.ops.map (·.1))
    exact this.imp (fun h => of_decide_eq_true h)
  have hflat : ∀ es : List (Sync.Emit (List KV) (Cell Bits H)), (es.map ids).flatten.Perm ((es.flatMap (fun e => e.ops)).map (·.1)) := by
    intro es
    induction es with
    | nil => exact List.Perm.refl _
    | cons p es ih =>
      rw [List.map_cons, List.flatten_cons, List.flatMap_cons, List.map_append]
      exact (hperm p).append ih
  have hqs : (F.filter (fun e => !e.kept)).flatMap (fun e => e.ops) = [] := by
    rw [List.flatMap_eq_nil_iff]
    intro p hp
    rw [List.mem_filter] at hp
    obtain ⟨p1, p2⟩ := hmem p hp.1
    refine Classical.byContradiction fun hn => ?_
    have := (Props.C14_delta_exported_iff e.reach ops p p1 (by rw [p2]; exact hagg) (by rw [p2]; exact hd')).2 hn
    rw [this] at hp
    exact absurd hp.2 (by simp)
  have hE : (((F.filter (·.kept)).reverse.map ids).flatten).Perm ((F.flatMap (fun e => e.ops)).map (·.1)) := by
    refine (hflat _).trans (List.Perm.map _ ?_)
    refine (List.Perm.flatMap_right _ (List.reverse_perm _)).trans ?_
    have := List.Perm.flatMap_right (fun e : Sync.Emit (List KV) (Cell Bits H) => e.ops) (List.filter_append_perm (fun e => e.kept) F)
    rw [List.flatMap_append, hqs, List.append_nil] at this
    exact this
  have h6 := h4.trans (hE.symm.append_right r)
  have hrec := recordedOn_ids (farm := farm) (u := u) e.calls o.leaf (fun as => Describes (u.keys o.leaf) as m)
  refine ⟨((F.filter (·.kept)).reverse.map ids).map (List.map (fun i => (x'.s.op i).num)), ?_, ?_, ?_⟩
  · rw [← List.map_flatten]
    exact e.between _ h6 h5
  · intro g hg
    obtain ⟨l, hl, rfl⟩ := List.mem_map.1 hg
    rw [← hrec]
    refine List.Sublist.map _ ?_
    obtain ⟨p, hp, rfl⟩ := List.mem_map.1 hl
    refine sorted_sublist (hsort p) (idsOn_sorted _ _) ?_
    intro a
    rw [h6.count_eq, List.count_append]
    exact Nat.le_trans (List.Sublist.count_le a (List.sublist_flatten_of_mem hl)) (Nat.le_add_right _ _)
  · rw [List.map_map]
    refine pointwise_mapped _ h3 ?_
    intro p hp d hr
    rw [List.mem_reverse, List.mem_filter] at hp
    obtain ⟨p1, p2⟩ := hmem p hp.1
    have hne : p.ops ≠ [] := (Props.C14_delta_exported_iff e.reach ops p p1 (by rw [p2]; exact hagg) (by rw [p2]; exact hd')).1 hp.2
    obtain ⟨i, sq, i1, i2, i3⟩ := Props.C14_last_value_sequential p (by rw [p2]; exact hs) ops p1 (by rw [p2]; exact hagg) hne
    refine ⟨(x'.s.op i).num, ?_, ?_⟩
    · rw [Function.comp, List.getLast?_map, sorted_last (hsort p) (i := i)]
      · rfl
      · exact (hperm p).mem_iff.2 (List.mem_map.2 ⟨_, i1, rfl⟩)
      · intro j hj
        obtain ⟨⟨j', sq'⟩, j1, rfl⟩ := List.mem_map.1 ((hperm p).mem_iff.1 hj)
        exact i3 j' sq' j1
    · rw [← i2]
      exact number_of (by have := h.shape; simp only [List.mem_singleton] at this; rw [this]; simp) hr

/-- The calls of a delta metric with min/max/sum/count are divided into its points. -/
theorem Busy.mmsc_groups (ops : Ops Bits) (h : Busy farm u R lib name o [.mmsc] acts coll x x') (hd : u.delta o.leaf = true)
    (ha : u.agg o.leaf = mmscAgg ops hh) (hic : u.ignoreColl = false) (hf : Fits u o.leaf (acts ++ coll)) (P : List Bits → PHist → Prop)
    (hP : ∀ p d, Sync.Reachable (Front.realCfg farm u) 0 x'.s → p ∈ x'.s.emits → p.leaf = o.leaf → p.ops ≠ [] → EmitRel R o HistPointOf p d →
      (∀ v ∈ Sync.values x'.s p.ops, v ∈ recordedOn u.leavesOf o.leaf (fun as => Describes (u.keys o.leaf) as m) (acts ++ coll)) → P (Sync.values x'.s p.ops) d) :
    ∃ vals, Verif.Busy.Between (returnedOn u x'.s ret o.leaf (fun as => Describes (u.keys o.leaf) as m)) vals
        (recordedOn u.leavesOf o.leaf (fun as => Describes (u.keys o.leaf) as m) (acts ++ coll)) ∧
      Grouped P vals ((sentPoints histPoints lib name x'.sent).filter (fun d => d.attrs = m)) := by
  obtain ⟨y, e⟩ := h.caught extracts_mmsc (by simp [Shape.kind]) hret
  obtain ⟨es, qs, h1, h2, h3, h4⟩ := e.delta_groups hd (fun d => decide (d.attrs = m)) (fun k => @decide (AttrsOf k m) (Classical.propDecidable _))
    (fun as => Pipeline.Describes (u.keys o.leaf) as m) (attrs_decide (attrs := PHist.attrs) (fun _ _ h => h.2.2.1)) (e.described hic hf h.typed m)
  have hagg : (Front.realCfg farm u).agg o.leaf = mmscAgg ops hh := ha
  have hc := counted_mmsc (R := R) (hh := hh) (by simpa using h.shape : o.shape = .mmsc) ops
  have hkept : ∀ p ∈ x'.s.emits, p.leaf = o.leaf → (p.kept = false ↔ p.ops = []) := by
    intro p hp hl
    have hold := Sync.emit_holds (Sync.reachable_more e.reach) hp
    rw [hl, hagg] at hold
    have h1 := hc.holds _ _ _ hold
    have h2 := Sync.reachable_kept e.reach p hp
    have hd' : (Front.realCfg farm u).delta o.leaf = true := hd
    rw [hl, hagg, hd', if_pos rfl] at h2
    rw [h2, ← List.length_eq_zero_iff, ← h1]
    simp [mmscAgg]
  have hqs : (qs.map (fun e => Sync.values x'.s e.ops)).flatten = [] := by
    rw [List.flatten_eq_nil_iff]
    intro l hlm
    obtain ⟨p, hp, rfl⟩ := List.mem_map.1 hlm
    obtain ⟨p1, p2, p3⟩ := h2 p hp
    rw [(hkept p p1 p2).1 p3]
    rfl
  rw [List.map_append, List.flatten_append, hqs, List.append_nil] at h4
  refine ⟨_, h4, es.map (fun e => Sync.values x'.s e.ops), List.Perm.refl _, ?_⟩
  refine pointwise_mapped _ h3 ?_
  intro p hp d hr
  obtain ⟨p1, p2, p3⟩ := h1 p hp
  refine hP p d e.reach p1 p2 (fun h0 => ?_) hr (fun v hv => between_mem h4 (List.mem_flatten.2 ⟨_, List.mem_map.2 ⟨p, hp, rfl⟩, hv⟩))
  rw [(hkept p p1 p2).2 h0] at p3
  cases p3

theorem Busy.mmsc_sent (fadd : Bits → Bits → Bits) (h : Busy farm u R lib name o [.mmsc] acts coll x x') (hn : o.num = .float64) (hd : u.delta o.leaf = true)
    (ha : u.agg o.leaf = mmscAgg (fltOps fadd) hh) (hic : u.ignoreColl = false) (hf : Fits u o.leaf (acts ++ coll))
    (hk : ∀ e ∈ Pipeline.calls (acts ++ coll), o.leaf ∈ u.leavesOf e.1.id → e.1.num = .float64) :
    ∃ vals, Verif.Busy.Between (returnedOn u x'.s ret o.leaf (fun as => Describes (u.keys o.leaf) as m)) vals
        (recordedOn u.leavesOf o.leaf (fun as => Describes (u.keys o.leaf) as m) (acts ++ coll)) ∧
      Grouped (Props.ShowsStats fadd) vals ((sentPoints histPoints lib name x'.sent).filter (fun d => d.attrs = m)) :=
  h.mmsc_groups hret (fltOps fadd) hd ha hic hf _ (fun _ _ hr hp hl h0 hd hv =>
    Props.shows_stats fadd hn (by simpa using h.shape) hr hp hl ha h0 (fun v hm => recorded_finite hk v (hv v hm)) hd)

theorem Busy.mmsc_int_sent (h : Busy farm u R lib name o [.mmsc] acts coll x x') (hn : o.num = .int64) (hd : u.delta o.leaf = true)
    (ha : u.agg o.leaf = mmscAgg intOps hh) (hic : u.ignoreColl = false) (hf : Fits u o.leaf (acts ++ coll)) :
    ∃ vals, Verif.Busy.Between (returnedOn u x'.s ret o.leaf (fun as => Describes (u.keys o.leaf) as m)) vals
        (recordedOn u.leavesOf o.leaf (fun as => Describes (u.keys o.leaf) as m) (acts ++ coll)) ∧
      Grouped Props.ShowsIntStats vals ((sentPoints histPoints lib name x'.sent).filter (fun d => d.attrs = m)) :=
  h.mmsc_groups hret intOps hd ha hic hf _ (fun _ _ hr hp hl _ hd _ => Props.shows_int_stats hn (by simpa using h.shape) hr hp hl ha hd)

end

theorem Busy.mmsc_known (h : Busy farm u R lib name o [.mmsc] acts coll x x') (hf : Fits u o.leaf (acts ++ coll))
    (d : PHist) (hd : d ∈ sentPoints histPoints lib name x'.sent) :
    recordedOn u.leavesOf o.leaf (fun as => Describes (u.keys o.leaf) as d.attrs) (acts ++ coll) ≠ [] := by
  obtain ⟨y, e⟩ := h.caught extracts_mmsc (by simp [Shape.kind]) (ret := fun _ => False) (fun _ h => h.elim)
  exact e.known hf h.typed (attrs := PHist.attrs) (fun _ _ h => h.2.2.1) d hd

end Verif.Pipeline

namespace Verif.Busy
open Verif Verif.Attr Verif.Number Verif.Aggr Verif.Assembly Verif.Delivery

variable {C G ν : Type} [DecidableEq C] {farm : Str → UInt64} {w : World C G} {fsub : Bits → Bits → Bits} {x : Views.Ext C} {views : List (Views.Views C)} {pipe : Nat} {start : Int}

theorem live_genuine {acts : List (Live.Act ν)} {z : Live.Sys C G ν} (h : Live.Running farm w fsub x views pipe acts z) :
    ∀ e ∈ Whole.calls (Live.rest acts), ∃ k i m o proc, z.p.ordered[k]? = some m ∧ m.insts[i]? = some o ∧ o.desc.kind.synchronous = true ∧ e.1 = instrument w k i o proc := by
  intro e he
  obtain ⟨a, ha, hae⟩ := List.mem_filterMap.1 he
  cases a with
  | call i as n =>
    cases hae
    obtain ⟨b, c, hbc⟩ := List.append_of_mem ha
    obtain ⟨before, after, rfl, -, -⟩ := Live.rest_split hbc
    obtain ⟨yb, -, -, j2, j3, -, -⟩ := Live.middle h.runs rfl
    rw [Live.run] at j2
    obtain ⟨y1, j4, -⟩ := Option.bind_eq_some_iff.1 j2
    simp only [Live.step] at j4
    split at j4
    · rename_i hpos
      exact Live.genuine (j3.holds hpos)
    · cases j4
  | sched _ => cases hae
  | cb _ => cases hae
  | collect _ _ => cases hae

/-- The calls are made on synchronous instruments of the provider. -/
theorem genuine {acts : List (Delivery.Act ν)} {s : Delivery.Sys C G ν} (h : Delivery.Running farm w fsub x views pipe start acts s) : Genuine w s.z.p (measured acts) := by
  have := live_genuine h.live
  rw [lives_calls h.runs] at this
  exact this

end Verif.Busy
