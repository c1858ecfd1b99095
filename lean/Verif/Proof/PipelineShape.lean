import Verif.Proof.Pipeline

/-!
The metrics in the payloads: unit and kind of data.
-/

namespace Verif.Pipeline
open Verif.Attr Verif.Number Verif.Aggr Verif.Export
variable {H : Type}

/-- The data is of the shape and has the temporality. -/
def HasShape (s : Shape) (delta : Bool) : PData → Prop
  | .sum mono t _ => (s = .monotonic ∧ mono = true ∨ s = .nonMonotonic ∧ mono = false) ∧ t = (if delta then .delta else .cumulative)
  | .gauge _ => s = .gauge
  | .hist t _ => s = .mmsc ∧ t = (if delta then .delta else .cumulative)
  | .exp t _ => s = .hist ∧ t = (if delta then .delta else .cumulative)

theorem copyInstruments_mem {m : Mapping} {e : Bool} {is : List Instrument} {ms : List PMetric} (h : copyInstruments m e is = some ms) {pm : PMetric}
    (hm : pm ∈ ms) : ∃ i ∈ is, ∃ p0 ps, i.points = p0 :: ps ∧ pm.name = i.name ∧ pm.unit = i.unit ∧ copyPoints m e p0 i.points = some pm.data := by
  induction is generalizing ms with
  | nil =>
    simp only [copyInstruments, Option.some.injEq] at h
    subst h
    cases hm
  | cons i is ih =>
    unfold copyInstruments at h
    split at h
    · obtain ⟨i', h1, h2⟩ := ih h hm
      exact ⟨i', List.mem_cons_of_mem _ h1, h2⟩
    · rename_i p0 ps hp
      simp only [Option.bind_eq_some_iff, Option.some.injEq] at h
      obtain ⟨d, h1, ms', h2, h3⟩ := h
      subst h3
      rcases List.mem_cons.1 hm with rfl | hm
      · exact ⟨i, List.mem_cons_self, p0, ps, hp, rfl, rfl, h1⟩
      · obtain ⟨i', h1, h2⟩ := ih h2 hm
        exact ⟨i', List.mem_cons_of_mem _ h1, h2⟩

theorem mapM_mem {α β : Type} {f : α → Option β} {l : List α} {r : List β} (h : Export.mapM f l = some r) {b : β} (hb : b ∈ r) : ∃ a ∈ l, f a = some b := by
  induction l generalizing r with
  | nil =>
    simp only [Export.mapM, Option.some.injEq] at h
    subst h
    cases hb
  | cons a l ih =>
    simp only [Export.mapM, Option.bind_eq_some_iff, Option.some.injEq] at h
    obtain ⟨b', h1, r', h2, h3⟩ := h
    subst h3
    rcases List.mem_cons.1 hb with rfl | hb
    · exact ⟨a, List.mem_cons_self, h1⟩
    · obtain ⟨a', h4, h5⟩ := ih h2 hb
      exact ⟨a', List.mem_cons_of_mem _ h4, h5⟩

theorem copyPoints_shape {m : Mapping} {toHist : H → ExpHist} {delta : Bool} {q : Times.Seq} {o : Out} {e : Sync.Emit (List KV) (Cell Bits H)}
    {ps : List Point} {d : PData} (h : copyPoints m true (pointOf toHist delta q o e) ps = some d) : HasShape o.shape delta d := by
  have ht : toTemporality (pointOf toHist delta q o e).temporality = (if delta then .delta else .cumulative) := by
    cases delta <;> rfl
  have ha : (pointOf toHist delta q o e).agg = aggOf toHist o e.val := rfl
  unfold copyPoints at h
  dsimp only at h
  rw [ht, ha] at h
  unfold aggOf at h
  cases hs : o.shape <;> rw [hs] at h <;> simp only [if_true] at h <;> obtain ⟨_, _, rfl⟩ := Option.map_eq_some_iff.1 h <;> simp [HasShape]

theorem sent_shape {c : Sync.Cfg (List KV) (List KV) Bits (Cell Bits H)} {R : Reader H} {lib : Library} {n : Str} {o : Out} (ho : Only R lib n o)
    {acts : List Act} {x y : Sys H} (h : run c R x acts = some y) (pl : Payload) (hpl : pl ∈ y.sent) (hx : pl ∉ x.sent) (s : PScope) (hs : s ∈ pl.scopes)
    (hl : s.library = lib) (m : PMetric) (hm : m ∈ s.metrics) (hn : m.name = n) : m.unit = o.unit ∧ HasShape o.shape (c.delta o.leaf) m.data := by
  have key : ∃ rm q es, (d2pd R.mapping rm (metricsOf R c.delta q es) true).2 = some pl := by
    induction acts generalizing x with
    | nil =>
      simp only [run, Option.some.injEq] at h
      subst h
      exact absurd hpl hx
    | cons a acts ih =>
      simp only [run, Option.bind_eq_some_iff] at h
      obtain ⟨z, h1, h2⟩ := h
      by_cases hz : pl ∈ z.sent
      · cases a with
        | call i as v =>
          simp only [step, Option.some.injEq] at h1
          subst h1
          exact absurd hz hx
        | sched a =>
          simp only [step] at h1
          split at h1
          · cases h1
          · obtain ⟨s', -, rfl⟩ := Option.map_eq_some_iff.1 h1
            exact absurd hz hx
        | «export» q =>
          simp only [step, Option.some.injEq] at h1
          subst h1
          rcases List.mem_append.1 hz with hz | hz
          · exact absurd hz hx
          · exact ⟨x.rm, q, fresh x, Option.mem_toList.1 hz⟩
      · exact ih h2 hz
  obtain ⟨rm, q, es, h1⟩ := key
  unfold d2pd at h1
  simp only [Option.bind_eq_some_iff, Option.map_eq_some_iff] at h1
  obtain ⟨res, -, scs, h2, h3⟩ := h1
  subst h3
  obtain ⟨sc, h4, h5⟩ := mapM_mem h2 hs
  unfold copyScope at h5
  obtain ⟨ms, h6, rfl⟩ := Option.map_eq_some_iff.1 h5
  obtain ⟨i, h7, p0, ps, h8, h9, h10, h11⟩ := copyInstruments_mem h6 hm
  obtain ⟨rs, h12, rfl⟩ := List.mem_map.1 h4
  obtain ⟨o', h13, rfl⟩ := List.mem_map.1 h7
  have hoo : o' = o := by
    have hmem : o' ∈ R.scopes.flatMap (fun sc => sc.2.filter (fun o => sc.1 = lib ∧ o.name = n)) := by
      refine List.mem_flatMap.2 ⟨rs, h12, List.mem_filter.2 ⟨h13, ?_⟩⟩
      simp only [decide_eq_true_eq]
      exact ⟨hl, h9.symm.trans hn⟩
    rw [ho, List.mem_singleton] at hmem
    exact hmem
  subst hoo
  refine ⟨h10, ?_⟩
  have hp0 : p0 ∈ (instrumentOf R.toHist c.delta q es o').points := by rw [h8]; exact List.mem_cons_self
  obtain ⟨e, -, rfl⟩ := List.mem_map.1 hp0
  exact copyPoints_shape h11

end Verif.Pipeline
