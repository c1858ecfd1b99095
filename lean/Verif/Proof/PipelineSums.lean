import Verif.Proof.PipelineValues

/-!
Helper file: sums and counts of the points sent.
-/

namespace Verif.Pipeline
open Verif Verif.Attr Verif.Number Verif.Aggr Verif.Export Verif.Spec
variable {H : Type} {farm : Str → UInt64} {u : Front.Setup (Cell Bits H)} {R : Reader H} {lib : Library} {name : Str} {o : Out}
  {acts coll : List Act} {y z : Sync.State (List KV) (List KV) Bits (Cell Bits H)} {sent : List Payload} {x x' : Sys H} {hh : HistOps Bits H}
  {m : PMap}

/-- The point is an exported number. -/
theorem ints_of {ps : List (Sync.Emit (List KV) (Cell Bits H))} {ds : List PNumber} (hn : o.num = .int64)
    (hs : o.shape ∈ [Shape.monotonic, .nonMonotonic, .gauge]) (h : Pointwise (EmitRel R o NumberRel) ps ds) : ints ds = ps.map (·.val.value) :=
  pointwise_ind (P := fun ps ds => ints ds = ps.map (·.val.value)) rfl (fun e d es ds hr _ ih => by
    obtain ⟨delta, q, h1, h2⟩ := hr
    have h3 : d.value = .int e.val.value := by
      have : ∃ k v, ((pointOf R.toHist delta q o e).agg = .monotonic k v ∨ (pointOf R.toHist delta q o e).agg = .nonMonotonic k v ∨
          (pointOf R.toHist delta q o e).agg = .gauge k v) ∧ k = .int64 ∧ v = e.val.value := by
        refine ⟨o.num, e.val.value, ?_, hn, rfl⟩
        unfold pointOf aggOf
        simp only [List.mem_cons, List.not_mem_nil, or_false] at hs
        rcases hs with hs | hs | hs <;> rw [hs]
        · exact .inl rfl
        · exact .inr (.inl rfl)
        · exact .inr (.inr rfl)
      obtain ⟨k, v, ha, hk, hv⟩ := this
      have := h2 k v ha
      rw [hk, hv] at this
      exact this
    unfold ints at ih ⊢
    rw [List.filterMap_cons, h3]
    dsimp only
    rw [ih, List.map_cons]) h

theorem Ended.delta_ints (h : Ended farm u R lib name o numbers NumberRel acts y z sent) (hn : o.num = .int64)
    (hs : o.shape ∈ [Shape.monotonic, .nonMonotonic]) (hd : u.delta o.leaf = true) (ha : u.agg o.leaf = sumAgg intOps hh)
    (p : PNumber → Bool) (P : List KV → Bool) (Q : List KV → Prop) (hp : ∀ e d, EmitRel R o NumberRel e d → P e.key = p d)
    (hPQ : ∀ k i sq, (o.leaf, k, i, sq) ∈ z.applied → (P k = true ↔ Q (z.op i).attrs)) :
    total64 (ints ((sentPoints numbers lib name sent).filter p)) = total64 (recordedOn u.leavesOf o.leaf Q acts) := by
  have hm := Sync.reachable_more h.reach
  have hleaf : ∀ e, e ∈ z.emits.filter (fun e => e.leaf == o.leaf && P e.key) → e ∈ z.emits ∧ e.leaf = o.leaf := by
    intro e he
    rw [List.mem_filter, Bool.and_eq_true, beq_iff_eq] at he
    exact ⟨he.1, he.2.1⟩
  have hagg : (Front.realCfg farm u).agg o.leaf = sumAgg intOps hh := ha
  rw [← total64_perm (h.delta_values hd P Q hPQ), Sync.total64_flatMap (s := z) _ (fun e : Sync.Emit (List KV) (Cell Bits H) => e.ops) (fun e => e.val.value), Sync.total64_kept]
  · rw [ints_of hn (by simp only [List.mem_cons, List.not_mem_nil, or_false] at hs ⊢; rcases hs with h | h; exact .inl h; exact .inr (.inl h))
      (h.selected p P hp), List.map_reverse]
    exact total64_perm (List.reverse_perm _)
  · intro e he hk
    exact Sync.suppressed_zero (Sync.reachable_kept h.reach) (hleaf e he).1 (by rw [(hleaf e he).2]; exact hagg) hk
  · intro e he
    exact Sync.int_point hm (hleaf e he).1 (by rw [(hleaf e he).2]; exact hagg)

/-- Points with a count. -/
structure Counted (R : Reader H) (o : Out) {D : Type} (Rel : Point → D → Prop) (ag : Sync.Agg Bits (Cell Bits H)) (count : D → Nat) (of : Cell Bits H → Nat) :
    Prop where
  rel : ∀ e d, EmitRel R o Rel e d → count d = of e.val
  holds : ∀ f v ops, Sync.Holds ag f false v ops → of v = ops.length
  change : ∀ v, ag.hasChange v = false → of v = 0

theorem Ended.delta_counts {D : Type} {get : PData → List D} {Rel : Point → D → Prop} {ag : Sync.Agg Bits (Cell Bits H)} {count : D → Nat}
    {of : Cell Bits H → Nat} (h : Ended farm u R lib name o get Rel acts y z sent) (hc : Counted R o Rel ag count of) (hd : u.delta o.leaf = true)
    (ha : u.agg o.leaf = ag) (p : D → Bool) (P : List KV → Bool) (Q : List KV → Prop) (hp : ∀ e d, EmitRel R o Rel e d → P e.key = p d)
    (hPQ : ∀ k i sq, (o.leaf, k, i, sq) ∈ z.applied → (P k = true ↔ Q (z.op i).attrs)) :
    (((sentPoints get lib name sent).filter p).map count).sum = (recordedOn u.leavesOf o.leaf Q acts).length := by
  have hm := Sync.reachable_more h.reach
  have hleaf : ∀ e, e ∈ z.emits.filter (fun e => e.leaf == o.leaf && P e.key) → e ∈ z.emits ∧ e.leaf = o.leaf := by
    intro e he
    rw [List.mem_filter, Bool.and_eq_true, beq_iff_eq] at he
    exact ⟨he.1, he.2.1⟩
  have hagg : (Front.realCfg farm u).agg o.leaf = ag := ha
  rw [← (h.delta_values hd P Q hPQ).length_eq]
  have h1 : ∀ ps ds, Pointwise (EmitRel R o Rel) ps ds → (ds.map count).sum = (ps.map (fun e => of e.val)).sum := fun ps ds hpd =>
    pointwise_ind (P := fun ps ds => (ds.map count).sum = (ps.map (fun e => of e.val)).sum) rfl (fun e d es ds hr _ ih => by
      rw [List.map_cons, List.map_cons, List.sum_cons, List.sum_cons, ih, hc.rel e d hr]) hpd
  rw [h1 _ _ (h.selected p P hp), List.map_reverse, List.sum_reverse]
  have hkept := Sync.reachable_kept h.reach
  have hlen : ∀ e, e ∈ z.emits → e.leaf = o.leaf → of e.val = e.ops.length ∧ (e.kept = false → e.ops = []) := by
    intro e he hl
    have h2 := Sync.emit_holds hm he
    rw [hl, hagg] at h2
    have h3 := hc.holds _ _ _ h2
    refine ⟨h3, ?_⟩
    intro hk
    have h4 := hkept e he
    have hd' : (Front.realCfg farm u).delta o.leaf = true := hd
    rw [hl, hagg, hk, hd', if_pos rfl] at h4
    rw [hc.change _ h4.symm] at h3
    exact List.length_eq_zero_iff.1 h3.symm
  unfold Sync.values
  rw [List.length_map]
  generalize hL : z.emits.filter (fun e => e.leaf == o.leaf && P e.key) = L at hleaf
  have hall : ∀ e ∈ L, of e.val = e.ops.length ∧ (e.kept = false → e.ops = []) := fun e he => hlen e (hleaf e he).1 (hleaf e he).2
  clear hleaf hL hlen
  induction L with
  | nil => rfl
  | cons e L ih =>
    have ih := ih (fun b hb => hall b (List.mem_cons_of_mem _ hb))
    obtain ⟨h5, h6⟩ := hall e List.mem_cons_self
    rw [List.flatMap_cons, List.length_append, ← ih, List.filter_cons]
    cases hk : e.kept with
    | true => rw [if_pos rfl, List.map_cons, List.sum_cons, h5]
    | false => rw [h6 hk]; simp

theorem Ended.last_count {D : Type} {get : PData → List D} {Rel : Point → D → Prop} {ag : Sync.Agg Bits (Cell Bits H)} {count : D → Nat}
    {of : Cell Bits H → Nat} (h : Ended farm u R lib name o get Rel acts y z sent) (hc : Counted R o Rel ag count of) (hd : u.delta o.leaf = false)
    (ha : u.agg o.leaf = ag) (hic : u.ignoreColl = false) (hf : Fits u o.leaf acts) (ht : Typed acts)
    (hne : ∀ e ∈ Pipeline.calls acts, NoEmptyList (e.1.attrs e.2.1)) (p : D → Bool)
    (hp : ∀ e d, EmitRel R o Rel e d → @decide (AttrsOf e.key m) (Classical.propDecidable _) = p d)
    (hrec : recordedOn u.leavesOf o.leaf (fun as => Describes (u.keys o.leaf) as m) acts ≠ []) :
    (((sentPoints get lib name sent).filter p).getLast?.map count) =
      some (recordedOn u.leavesOf o.leaf (fun as => Describes (u.keys o.leaf) as m) acts).length := by
  obtain ⟨e, d, h1, h2, h3, h4, h5⟩ := h.last hd hic hf ht hne p hp hrec
  have hm := Sync.reachable_more h.reach
  have h6 := Sync.emit_holds hm h3
  have hagg : (Front.realCfg farm u).agg o.leaf = ag := ha
  rw [h4, hagg] at h6
  rw [h1, Option.map_some, hc.rel e d h2, hc.holds _ _ _ h6, ← h5.length_eq]
  unfold Sync.values
  rw [List.length_map]

theorem counted_hist (hs : o.shape = .hist) (hl : Props.Counts hh) (hc : ∀ h, (R.toHist h).count = hh.count h) (ops : Ops Bits) :
    Counted R o ExpPointOf (histAgg ops hh) (·.count)
      (fun v => hh.count v.hist) where
  rel := by
    rintro e d ⟨delta, q, _, _, _, h⟩
    rw [← hc]
    refine (h o.num _ ?_).1
    unfold pointOf aggOf
    rw [hs]
  holds := by
    intro f v l h
    induction h with
    | init => exact hl.empty
    | reset _ _ => exact hl.empty
    | upd i sq _ _ _ ih => simp only [histAgg, hl.update, ih, List.length_cons]
    | merge _ _ ih1 ih2 => simp only [histAgg, hl.merge, ih1, ih2, List.length_append]; omega
  change := by
    intro v h
    simpa [histAgg] using h

theorem counted_mmsc (hs : o.shape = .mmsc) (ops : Ops Bits) :
    Counted R o HistPointOf (mmscAgg ops hh) (·.count)
      (fun v => v.count) where
  rel := by
    rintro e d ⟨delta, q, _, _, _, _, h⟩
    refine (h o.num { sum := e.val.sum, count := e.val.count, min := e.val.min, max := e.val.max } ?_).1
    unfold pointOf aggOf
    rw [hs]
  holds := by
    intro f v l h
    induction h with
    | init => rfl
    | reset _ _ => rfl
    | upd i sq _ _ _ ih => simp only [mmscAgg, mmscUpd, ih, List.length_cons]
    | merge _ _ ih1 ih2 => simp only [mmscAgg, mmscMerge, ih1, ih2, List.length_append]; omega
  change := by
    intro v h
    simpa [mmscAgg] using h

/-- Exactly these attributes. -/
theorem attrs_decide {D : Type} {Rel : Point → D → Prop} {attrs : D → PMap} (hr : ∀ p d, Rel p d → AttrsOf p.attrs (attrs d))
    (e : Sync.Emit (List KV) (Cell Bits H)) (d : D) (h : EmitRel R o Rel e d) :
    @decide (AttrsOf e.key m) (Classical.propDecidable _) = decide (attrs d = m) := by
  obtain ⟨delta, q, h1⟩ := h
  have h2 : AttrsOf e.key (attrs d) := hr _ _ h1
  rw [Bool.eq_iff_iff, @decide_eq_true_eq _ (Classical.propDecidable _), decide_eq_true_eq]
  constructor
  · exact fun h3 => attrsOf_fun h2 h3
  · intro h3; rw [← h3]; exact h2

/-- With room, the sums of the points with attributes `m` are about the calls described by `m`. -/
theorem Ended.described {D : Type} {get : PData → List D} {Rel : Point → D → Prop} (h : Ended farm u R lib name o get Rel acts y z sent)
    (hic : u.ignoreColl = false) (hf : Fits u o.leaf acts) (ht : Typed acts) (m : PMap) :
    ∀ k i sq, (o.leaf, k, i, sq) ∈ z.applied →
      (@decide (AttrsOf k m) (Classical.propDecidable _) = true ↔ Describes (u.keys o.leaf) (z.op i).attrs m) := by
  intro k i sq hk
  rw [@decide_eq_true_eq _ (Classical.propDecidable _)]
  exact (key_describes hic hf ht h.reach h.calls m k i sq hk).2

theorem Session.ended {D : Type} {get : PData → List D} {Rel : Point → D → Prop} {kinds : DataKind → Prop} {shapes : List Shape}
    (h : Session farm u R lib name o shapes acts coll x x') (hx : Extracts get Rel kinds) (hk : ∀ s ∈ shapes, kinds s.kind) :
    ∃ y, Ended farm u R lib name o get Rel acts y x'.s x'.sent :=
  Pipeline.ended h.resource ⟨h.only, hx, hk _ h.shape⟩ h.typed h.few h.before h.returned h.collected h.quiet

/-- With room, every series belongs to a call. -/
theorem Fits.only {S : Type} {u : Front.Setup S} {l : Nat} (hf : Fits u l acts) :
    ∃ (A : Nat → List (List KV)) (B : List (List KV)),
    (∀ o, l ∈ u.leavesOf o → (A o).length < u.limit) ∧ B.length < u.lim l ∧
    (∀ e ∈ started acts, l ∈ u.leavesOf e.1 → e.2.1 ∈ A e.1) ∧
    (∀ o, l ∈ u.leavesOf o → ∀ a ∈ A o, ¬ HasNaNSlice a ∧ ∃ b ∈ B, SameSeries (u.keys l) a b) ∧
    ∀ b ∈ B, ∃ e ∈ started acts, l ∈ u.leavesOf e.1 ∧ SameSeries (u.keys l) e.2.1 b := by
  classical
  obtain ⟨A, B, h1, h2, h3, h4⟩ := hf
  refine ⟨fun o => (A o).filter (fun a => decide (∃ e ∈ started acts, e.1 = o ∧ e.2.1 = a)),
    B.filter (fun b => decide (∃ e ∈ started acts, l ∈ u.leavesOf e.1 ∧ SameSeries (u.keys l) e.2.1 b)), ?_, ?_, ?_, ?_, ?_⟩
  · intro o ho
    exact Nat.lt_of_le_of_lt (List.length_filter_le _ _) (h1 o ho)
  · exact Nat.lt_of_le_of_lt (List.length_filter_le _ _) h2
  · intro e he hl
    rw [List.mem_filter]
    refine ⟨?_, decide_eq_true ⟨e, he, rfl, rfl⟩⟩
    obtain ⟨i, as, n, h5, h6⟩ := mem_calls_of_started he
    rw [h6] at hl ⊢
    exact h3 _ h5 hl
  · intro o ho a ha
    rw [List.mem_filter] at ha
    obtain ⟨h5, b, hb, h6⟩ := h4 o ho a ha.1
    refine ⟨h5, b, ?_, h6⟩
    rw [List.mem_filter]
    refine ⟨hb, ?_⟩
    obtain ⟨e, he, e1, e2⟩ := of_decide_eq_true ha.2
    exact decide_eq_true ⟨e, he, by rw [e1]; exact ho, by rw [e2]; exact h6⟩
  · intro b hb
    exact of_decide_eq_true (List.mem_filter.1 hb).2

theorem Ended.known {D : Type} {get : PData → List D} {Rel : Point → D → Prop} {attrs : D → PMap}
    (h : Ended farm u R lib name o get Rel acts y z sent) (hf : Fits u o.leaf acts) (ht : Typed acts)
    (hr : ∀ p d, Rel p d → AttrsOf p.attrs (attrs d)) (d : D) (hd : d ∈ sentPoints get lib name sent) :
    recordedOn u.leavesOf o.leaf (fun as => Describes (u.keys o.leaf) as (attrs d)) acts ≠ [] := by
  obtain ⟨A, B, h1, h2, h3, h4, h5⟩ := hf.only
  have hroom : Sync.Room (Front.realCfg farm u) o.leaf A (B.map (fun b => applyKeysFilter (u.keys o.leaf) (newSet b))) := by
    refine ⟨h1, by rw [List.length_map]; exact h2, ?_, ?_⟩
    · intro i a hi ha
      obtain ⟨b, hb, hs⟩ := (h4 i hi a ha).2
      exact List.mem_map.2 ⟨b, hb, (Props.C19_equal_after_filter _ _ _ hs).symm⟩
    · intro i a hi ha
      exact attributesEqual_refl (h4 i hi a ha).1
  have huse : Sync.UsesOnly (Front.realCfg farm u) o.leaf A z := by
    intro i hi hl
    have hi' := hi
    rw [h.calls.1] at hi'
    have hs := h.calls.2 i _ (List.getElem?_eq_getElem hi')
    rw [hs.1] at hl
    rw [hs.1, hs.2.1]
    exact h3 _ (List.getElem_mem hi') hl
  have hB := (Sync.reachable_room hroom h.reach huse).emit
  obtain ⟨e, he, delta, q, h6⟩ := pointwise_mem_right h.sent hd
  have h7 := hr _ _ h6
  rw [List.mem_filter, Bool.and_eq_true, beq_iff_eq] at he
  obtain ⟨b, hb, hk⟩ := List.mem_map.1 (hB e (List.mem_reverse.1 he.1) he.2.1)
  obtain ⟨c, hc, hcl, hcs⟩ := h5 b hb
  have h8 : AttrsOf (applyKeysFilter (u.keys o.leaf) (newSet c.2.1)) (attrs d) := by
    rw [Props.C19_equal_after_filter _ _ _ hcs, hk]
    exact h7
  rw [describes_iff (typed_started ht c hc)] at h8
  rw [← started_recordedOn]
  intro h9
  rw [List.flatMap_eq_nil_iff] at h9
  have := h9 c hc
  rw [if_pos (@decide_eq_true _ (Classical.propDecidable _) h8), List.replicate_eq_nil_iff, List.count_eq_zero] at this
  exact this hcl

end Verif.Pipeline
