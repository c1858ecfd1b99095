import Verif.Proof.BusyIds
import Verif.Props.PipelineMore
import Verif.Spec.Busy

/-!
Helper file: a collection while calls go on. Which values are contained in the points.
-/

namespace Verif.Busy
open Verif

theorem between_of_ids {α : Type} {ret : Nat → Prop} {ids E r : List Nat} (h : ids.Perm (E ++ r)) (hr : ∀ i ∈ r, ¬ ret i) (f : Nat → α) :
    Between ((ids.filter (fun i => @decide (ret i) (Classical.propDecidable _))).map f) (E.map f) (ids.map f) := by
  classical
  have h1 : (ids.filter (fun i => @decide (ret i) (Classical.propDecidable _))).Perm (E.filter (fun i => @decide (ret i) (Classical.propDecidable _))) := by
    have := h.filter (fun i => @decide (ret i) (Classical.propDecidable _))
    rw [List.filter_append, (List.filter_eq_nil_iff (l := r)).2 (by intro i hi; simpa using hr i hi), List.append_nil] at this
    exact this
  refine ⟨(E.filter (fun i => !@decide (ret i) (Classical.propDecidable _))).map f, r.map f, ?_, ?_⟩
  · rw [← List.map_append]
    refine List.Perm.map f ?_
    exact (List.filter_append_perm _ E).symm.trans (h1.symm.append_right _)
  · rw [← List.map_append]
    exact h.map f

theorem Between.more {α : Type} {b v a a' : List α} (h : Between b v a) (more : List α) (ha : a' = a ++ more) : Between b v a' := by
  obtain ⟨m, r, h1, h2⟩ := h
  refine ⟨m, r ++ more, h1, ?_⟩
  rw [ha, ← List.append_assoc]
  exact h2.append_right more

end Verif.Busy

namespace Verif.Pipeline
open Verif Verif.Attr Verif.Number Verif.Aggr Verif.Export Verif.Spec
variable {H : Type} {farm : Str → UInt64} {u : Front.Setup (Cell Bits H)} {R : Reader H}
variable {D : Type} {get : PData → List D} {Rel : Point → D → Prop} {lib : Library} {name : Str} {o : Out} {acts coll : List Act}
  {y z : Sync.State (List KV) (List KV) Bits (Cell Bits H)} {sent : List Payload} {ret : Nat → Prop} {hh : HistOps Bits H} {ops : Ops Bits}

theorem _root_.Verif.Sync.emits_run {c : Sync.Cfg (List KV) (List KV) Bits (Cell Bits H)} {s t : Sync.State (List KV) (List KV) Bits (Cell Bits H)}
    {as : List (Sync.Action (List KV) Bits)} (hm : Sync.More c s) (h : Sync.run c s as = some t) : ∃ pre, t.emits = pre ++ s.emits := by
  induction as generalizing s with
  | nil => cases h; exact ⟨[], rfl⟩
  | cons a as ih =>
    rw [Sync.run] at h
    obtain ⟨s1, h1, h2⟩ := Option.bind_eq_some_iff.1 h
    obtain ⟨p1, e1⟩ := Sync.emits_step (hm.full.inv.step_sound h1)
    obtain ⟨p2, e2⟩ := ih (hm.step h1) h2
    exact ⟨p2 ++ p1, by rw [e2, e1, List.append_assoc]⟩

/-- The values recorded by the calls `ret` on instruments feeding the metric. -/
noncomputable def returnedOn (u : Front.Setup (Cell Bits H)) (z : Sync.State (List KV) (List KV) Bits (Cell Bits H)) (ret : Nat → Prop) (l : Nat) (Q : List KV → Prop) : List Bits :=
  (((List.range z.nextOp).flatMap (fun j => open Classical in if Q (z.op j).attrs then List.replicate ((u.leavesOf (z.op j).obs).count l) j else [])).filter
    (fun i => @decide (ret i) (Classical.propDecidable _))).map (fun i => (z.op i).num)

theorem idsOn_eq (l : Nat) (Q : List KV → Prop) : Sync.idsOn (Front.realCfg farm u) z l (fun a => @decide (Q a) (Classical.propDecidable _)) =
    (List.range z.nextOp).flatMap (fun j => open Classical in if Q (z.op j).attrs then List.replicate ((u.leavesOf (z.op j).obs).count l) j else []) := by
  have := Sync.idsOn_map (c := Front.realCfg farm u) (s := z) l (fun a => @decide (Q a) (Classical.propDecidable _)) id
  rw [List.map_id] at this
  rw [this]
  congr 1
  funext j
  by_cases hq : Q (z.op j).attrs
  · rw [if_pos (by simpa using hq), if_pos hq]; rfl
  · rw [if_neg (by simpa using hq), if_neg hq]

theorem Caught.between (h : Caught farm u R lib name o get Rel acts ret y z sent) (Q : List KV → Prop) {E r : List Nat}
    (hp : (Sync.idsOn (Front.realCfg farm u) z o.leaf (fun a => @decide (Q a) (Classical.propDecidable _))).Perm (E ++ r)) (hr : ∀ i ∈ r, ¬ ret i) :
    Verif.Busy.Between (returnedOn u z ret o.leaf Q) (E.map (fun i => (z.op i).num)) (recordedOn u.leavesOf o.leaf Q acts) := by
  have := Verif.Busy.between_of_ids hp hr (fun i => (z.op i).num)
  rw [recordedOn_ids h.calls] at this
  rw [idsOn_eq] at this
  exact this

/-- The measurements contained in the points of a delta metric. -/
theorem Caught.delta_values (h : Caught farm u R lib name o get Rel acts ret y z sent) (hd : u.delta o.leaf = true) (P : List KV → Bool) (Q : List KV → Prop)
    (hPQ : ∀ k i sq, (o.leaf, k, i, sq) ∈ z.applied → (P k = true ↔ Q (z.op i).attrs)) :
    Verif.Busy.Between (returnedOn u z ret o.leaf Q) (Sync.values z ((z.emits.filter (fun e => e.leaf == o.leaf && P e.key)).flatMap (fun e => e.ops)))
      (recordedOn u.leavesOf o.leaf Q acts) := by
  obtain ⟨r, h1, h2⟩ := h.delta_ids hd P Q hPQ
  have := h.between Q h1 h2
  rw [List.map_map] at this
  exact this

theorem Caught.delta_ints (h : Caught farm u R lib name o numbers NumberRel acts ret y z sent) (hn : o.num = .int64)
    (hs : o.shape ∈ [Shape.monotonic, .nonMonotonic]) (hd : u.delta o.leaf = true) (ha : u.agg o.leaf = sumAgg intOps hh)
    (p : PNumber → Bool) (P : List KV → Bool) (Q : List KV → Prop) (hp : ∀ e d, EmitRel R o NumberRel e d → P e.key = p d)
    (hPQ : ∀ k i sq, (o.leaf, k, i, sq) ∈ z.applied → (P k = true ↔ Q (z.op i).attrs)) :
    ∃ vals, Verif.Busy.Between (returnedOn u z ret o.leaf Q) vals (recordedOn u.leavesOf o.leaf Q acts) ∧
      total64 (ints ((sentPoints numbers lib name sent).filter p)) = total64 vals := by
  refine ⟨_, h.delta_values hd P Q hPQ, ?_⟩
  have hm := Sync.reachable_more h.reach
  have hleaf : ∀ e, e ∈ z.emits.filter (fun e => e.leaf == o.leaf && P e.key) → e ∈ z.emits ∧ e.leaf = o.leaf := by
    intro e he
    rw [List.mem_filter, Bool.and_eq_true, beq_iff_eq] at he
    exact ⟨he.1, he.2.1⟩
  have hagg : (Front.realCfg farm u).agg o.leaf = sumAgg intOps hh := ha
  rw [Sync.total64_flatMap (s := z) _ (fun e : Sync.Emit (List KV) (Cell Bits H) => e.ops) (fun e => e.val.value), Sync.total64_kept]
  · rw [ints_of hn (by simp only [List.mem_cons, List.not_mem_nil, or_false] at hs ⊢; rcases hs with h | h; exact .inl h; exact .inr (.inl h))
      (h.selected p P hp), List.map_reverse]
    exact total64_perm (List.reverse_perm _)
  · intro e he hk
    exact Sync.suppressed_zero (Sync.reachable_kept h.reach) (hleaf e he).1 (by rw [(hleaf e he).2]; exact hagg) hk
  · intro e he
    exact Sync.int_point hm (hleaf e he).1 (by rw [(hleaf e he).2]; exact hagg)

/-- The calls of a delta metric are divided into the points made, sent or not. -/
theorem Caught.delta_groups (h : Caught farm u R lib name o get Rel acts ret y z sent)
    (hd : u.delta o.leaf = true) (p : D → Bool) (P : List KV → Bool) (Q : List KV → Prop) (hp : ∀ e d, EmitRel R o Rel e d → P e.key = p d)
    (hPQ : ∀ k i sq, (o.leaf, k, i, sq) ∈ z.applied → (P k = true ↔ Q (z.op i).attrs)) :
    ∃ es qs : List (Sync.Emit (List KV) (Cell Bits H)), (∀ e ∈ es, e ∈ z.emits ∧ e.leaf = o.leaf ∧ e.kept = true) ∧
      (∀ e ∈ qs, e ∈ z.emits ∧ e.leaf = o.leaf ∧ e.kept = false) ∧
      Pointwise (EmitRel R o Rel) es ((sentPoints get lib name sent).filter p) ∧
      Verif.Busy.Between (returnedOn u z ret o.leaf Q) ((es ++ qs).map (fun e => Sync.values z e.ops)).flatten (recordedOn u.leavesOf o.leaf Q acts) := by
  have hmem : ∀ e, e ∈ z.emits.filter (fun e => e.leaf == o.leaf && P e.key) → e ∈ z.emits ∧ e.leaf = o.leaf := by
    intro e he
    rw [List.mem_filter, Bool.and_eq_true, beq_iff_eq] at he
    exact ⟨he.1, he.2.1⟩
  refine ⟨((z.emits.filter (fun e => e.leaf == o.leaf && P e.key)).filter (·.kept)).reverse,
    (z.emits.filter (fun e => e.leaf == o.leaf && P e.key)).filter (fun e => !e.kept), ?_, ?_, h.selected p P hp, ?_⟩
  · intro e he
    rw [List.mem_reverse, List.mem_filter] at he
    exact ⟨(hmem e he.1).1, (hmem e he.1).2, he.2⟩
  · intro e he
    rw [List.mem_filter] at he
    exact ⟨(hmem e he.1).1, (hmem e he.1).2, by simpa using he.2⟩
  · obtain ⟨m, r, h1, h2⟩ := h.delta_values hd P Q hPQ
    have hq : (((((z.emits.filter (fun e => e.leaf == o.leaf && P e.key)).filter (·.kept)).reverse ++
        (z.emits.filter (fun e => e.leaf == o.leaf && P e.key)).filter (fun e => !e.kept)).map (fun e => Sync.values z e.ops)).flatten).Perm
        (Sync.values z ((z.emits.filter (fun e => e.leaf == o.leaf && P e.key)).flatMap (fun e => e.ops))) := by
      have e1 : ∀ l : List (Sync.Emit (List KV) (Cell Bits H)), (l.map (fun e => Sync.values z e.ops)).flatten = Sync.values z (l.flatMap (fun e => e.ops)) := by
        intro l
        unfold Sync.values
        rw [List.map_flatMap, List.flatMap_def]
      rw [e1]
      unfold Sync.values
      refine List.Perm.map _ (List.Perm.flatMap_right _ ?_)
      exact (List.Perm.append_right _ (List.reverse_perm _)).trans (List.filter_append_perm _ _)
    exact ⟨m, r, hq.trans h1, h2.trans (hq.symm.append_right r)⟩

/-- A call of the series which had returned. -/
theorem Caught.has (h : Caught farm u R lib name o get Rel acts ret y z sent) {m : PMap}
    (hrec : returnedOn u z ret o.leaf (fun as => Describes (u.keys o.leaf) as m) ≠ []) :
    ∃ i, ret i ∧ o.leaf ∈ u.leavesOf (y.op i).obs ∧ Describes (u.keys o.leaf) (y.op i).attrs m := by
  have my := Sync.reachable_more h.reachY
  obtain ⟨pfin, hpf⟩ := h.fin
  have hst := Sync.op_static_run my hpf
  unfold returnedOn at hrec
  rw [Ne, List.map_eq_nil_iff] at hrec
  obtain ⟨i, hi⟩ := List.exists_mem_of_ne_nil _ hrec
  rw [List.mem_filter] at hi
  have hret : ret i := @of_decide_eq_true _ (Classical.propDecidable _) hi.2
  obtain ⟨j, _, hj2⟩ := List.mem_flatMap.1 hi.1
  split at hj2
  · rename_i hq
    rw [List.mem_replicate] at hj2
    obtain ⟨hc, rfl⟩ := hj2
    have hlt := (h.gone i hret).1
    rw [(hst i hlt).2.1] at hq
    rw [(hst i hlt).1] at hc
    exact ⟨i, hret, List.count_pos_iff.1 (Nat.pos_of_ne_zero hc), hq⟩
  · cases hj2

/-- Since the last collection began, a point of the series has been sent. -/
theorem Caught.shown {out : PMap} {acts0 : List Act} {x : Sys H} {as : List (Sync.Action (List KV) Bits)} (h : Caught farm u R lib name o get Rel acts ret y z sent) (hd : u.delta o.leaf = false) (hic : u.ignoreColl = false)
    (hf : Fits u o.leaf acts) (ht : Typed acts) (hne : ∀ e ∈ Pipeline.calls acts, NoEmptyList (e.1.attrs e.2.1)) {m : PMap} (p : D → Bool)
    (hp : ∀ e d, EmitRel R o Rel e d → @decide (AttrsOf e.key m) (Classical.propDecidable _) = p d)
    (hrec : returnedOn u z ret o.leaf (fun as => Describes (u.keys o.leaf) as m) ≠ [])
    (hx : Inv farm u R lib name o get Rel out acts0 x) (hy : Sync.run (Front.realCfg farm u) x.s as = some y) :
    ((sentPoints get lib name x.sent).filter p).length < ((sentPoints get lib name sent).filter p).length := by
  obtain ⟨e, d, h1, h2, h3, h4, ⟨pre, h5, h6⟩, -⟩ := h.last_ids hd hic hf ht hne p hp (h.has hrec)
  have hm := Sync.reachable_more hx.reach
  have hz := (pointwise_filter (fun e => @decide (AttrsOf e.key m) (Classical.propDecidable _)) p h.sent hp).1
  have hx' := (pointwise_filter (fun e => @decide (AttrsOf e.key m) (Classical.propDecidable _)) p hx.sent hp).1
  rw [← hz, ← hx', h5]
  have hkept : e.kept = true := by
    have := Sync.reachable_kept h.reach e h3
    rw [h4] at this
    have hd' : (Front.realCfg farm u).delta o.leaf = false := hd
    rw [hd'] at this
    simpa using this
  have hattr : @decide (AttrsOf e.key m) (Classical.propDecidable _) = true := by
    rw [hp e d h2]
    exact (List.mem_filter.1 (List.mem_of_getLast? h1)).2
  obtain ⟨more, h7⟩ := Sync.emits_run hm hy
  have hle : (((x.s.emits.reverse.take x.seen).filter (fun e => e.leaf == o.leaf && e.kept)).filter (fun e => @decide (AttrsOf e.key m) (Classical.propDecidable _))).length ≤
      ((y.emits.reverse.filter (fun e => e.leaf == o.leaf && e.kept)).filter (fun e => @decide (AttrsOf e.key m) (Classical.propDecidable _))).length := by
    refine (List.Sublist.filter _ (List.Sublist.filter _ ((List.take_sublist _ _).trans ?_))).length_le
    rw [h7, List.reverse_append]
    exact List.sublist_append_left ..
  refine Nat.lt_of_le_of_lt hle ?_
  rw [List.reverse_append, List.filter_append, List.filter_append, List.length_append]
  refine Nat.lt_add_of_pos_right (List.length_pos_of_mem (a := e) ?_)
  rw [List.mem_filter, List.mem_filter, List.mem_reverse]
  exact ⟨⟨h6, by simp [h4, hkept]⟩, hattr⟩

/-- The last point sent for a series of a cumulative metric. -/
theorem Caught.last (h : Caught farm u R lib name o get Rel acts ret y z sent) (hd : u.delta o.leaf = false) (hic : u.ignoreColl = false)
    (hf : Fits u o.leaf acts) (ht : Typed acts) (hne : ∀ e ∈ Pipeline.calls acts, NoEmptyList (e.1.attrs e.2.1)) {m : PMap} (p : D → Bool)
    (hp : ∀ e d, EmitRel R o Rel e d → @decide (AttrsOf e.key m) (Classical.propDecidable _) = p d)
    (hrec : returnedOn u z ret o.leaf (fun as => Describes (u.keys o.leaf) as m) ≠ []) :
    ∃ e d, ((sentPoints get lib name sent).filter p).getLast? = some d ∧ EmitRel R o Rel e d ∧ e ∈ z.emits ∧ e.leaf = o.leaf ∧
      Verif.Busy.Between (returnedOn u z ret o.leaf (fun as => Describes (u.keys o.leaf) as m)) (Sync.values z e.ops)
        (recordedOn u.leavesOf o.leaf (fun as => Describes (u.keys o.leaf) as m) acts) := by
  obtain ⟨e, d, h1, h2, h3, h4, -, r, h5, h6⟩ := h.last_ids hd hic hf ht hne p hp (h.has hrec)
  refine ⟨e, d, h1, h2, h3, h4, ?_⟩
  have := h.between _ h5 h6
  rw [List.map_map] at this
  exact this

theorem Caught.known {attrs : D → PMap}
    (h : Caught farm u R lib name o get Rel acts ret y z sent) (hf : Fits u o.leaf acts) (ht : Typed acts)
    (hr : ∀ p d, Rel p d → AttrsOf p.attrs (attrs d)) (d : D) (hd : d ∈ sentPoints get lib name sent) :
    recordedOn u.leavesOf o.leaf (fun as => Describes (u.keys o.leaf) as (attrs d)) acts ≠ [] := by
  obtain ⟨A, B, h1, h2, h3, h4, h5⟩ := hf.only
  have hroom : Sync.Room (Front.realCfg farm u) o.leaf A (B.map (fun b => applyKeysFilter (u.keys o.leaf) (newSet b))) := by
    refine ⟨h1, by rw [List.length_map]; exact h2, ?_, ?_⟩
    · intro i a hi ha
      obtain ⟨b, hb, hs⟩ := (h4 i hi a ha).2
      exact List.mem_map.2 ⟨b, hb, (Props.C19_equal_after_filter _ _ _ hs).symm⟩
    · intro i a hi ha
      exact attributesEqual_refl (h4 i hi a ha).1
  have huse : Sync.UsesOnly (Front.realCfg farm u) o.leaf A z := by
    intro i hi hl
    have hi' := hi
    rw [h.calls.1] at hi'
    have hs := h.calls.2 i _ (List.getElem?_eq_getElem hi')
    rw [hs.1] at hl
    rw [hs.1, hs.2.1]
    exact h3 _ (List.getElem_mem hi') hl
  have hB := (Sync.reachable_room hroom h.reach huse).emit
  obtain ⟨e, he, delta, q, h6⟩ := pointwise_mem_right h.sent hd
  have h7 := hr _ _ h6
  rw [List.mem_filter, Bool.and_eq_true, beq_iff_eq] at he
  obtain ⟨b, hb, hk⟩ := List.mem_map.1 (hB e (List.mem_reverse.1 he.1) he.2.1)
  obtain ⟨c, hc, hcl, hcs⟩ := h5 b hb
  have h8 : AttrsOf (applyKeysFilter (u.keys o.leaf) (newSet c.2.1)) (attrs d) := by
    rw [Props.C19_equal_after_filter _ _ _ hcs, hk]
    exact h7
  rw [describes_iff (typed_started ht c hc)] at h8
  rw [← started_recordedOn]
  intro h9
  rw [List.flatMap_eq_nil_iff] at h9
  have := h9 c hc
  rw [if_pos (@decide_eq_true _ (Classical.propDecidable _) h8), List.replicate_eq_nil_iff, List.count_eq_zero] at this
  exact this hcl

/-! ### Each kind of metric -/

theorem run_append' {c : Sync.Cfg (List KV) (List KV) Bits (Cell Bits H)} {x : Sys H} (as bs : List Act) : run c R x (as ++ bs) = (run c R x as).bind (fun y => run c R y bs) := by
  induction as generalizing x with
  | nil => rfl
  | cons a as ih =>
    rw [List.cons_append, run, run]
    cases step c R x a with
    | none => rfl
    | some y => exact ih

theorem sent_kept {c : Sync.Cfg (List KV) (List KV) Bits (Cell Bits H)} {x y : Sys H} {as : List Act} (h0 : ∀ a ∈ as, ∀ q, a ≠ .export q) (h : run c R x as = some y) :
    y.sent = x.sent := by
  induction as generalizing x with
  | nil => cases h; rfl
  | cons a as ih =>
    rw [run] at h
    obtain ⟨z, h1, h2⟩ := Option.bind_eq_some_iff.1 h
    rw [ih (fun a ha => h0 a (List.mem_cons_of_mem _ ha)) h2]
    cases a with
    | call i kvs n => cases h1; rfl
    | sched a =>
      simp only [Pipeline.step] at h1
      split at h1
      · cases h1
      · obtain ⟨s, -, rfl⟩ := Option.map_eq_some_iff.1 h1
        rfl
    | «export» q => exact absurd rfl (h0 _ (List.mem_cons_self ..) q)

section
variable {shapes : List Shape} {x x' : Sys H} {m : PMap} (hret : ∀ i, ret i → i < x.s.nextOp ∧ (x.s.op i).pc = .done)
include hret

theorem Busy.sent_total (h : Busy farm u R lib name o [.monotonic, .nonMonotonic] acts coll x x') (hn : o.num = .int64)
    (hd : u.delta o.leaf = true) (ha : u.agg o.leaf = sumAgg intOps hh) :
    ∃ vals, Verif.Busy.Between (returnedOn u x'.s ret o.leaf (fun _ => True)) vals (recordedOn u.leavesOf o.leaf (fun _ => True) (acts ++ coll)) ∧
      total64 (ints (sentPoints numbers lib name x'.sent)) = total64 vals := by
  obtain ⟨y, e⟩ := h.caught extracts_numbers (by simp [Shape.kind]) hret
  have := e.delta_ints hn h.shape hd ha (fun _ => true) (fun _ => true) (fun _ => True) (fun _ _ _ => rfl) (fun _ _ _ _ => by simp)
  rwa [List.filter_eq_self.2 (fun _ _ => rfl)] at this

theorem Busy.sent_series (h : Busy farm u R lib name o [.monotonic, .nonMonotonic] acts coll x x') (hn : o.num = .int64)
    (hd : u.delta o.leaf = true) (ha : u.agg o.leaf = sumAgg intOps hh) (hic : u.ignoreColl = false) (hf : Fits u o.leaf (acts ++ coll)) :
    ∃ vals, Verif.Busy.Between (returnedOn u x'.s ret o.leaf (fun as => Describes (u.keys o.leaf) as m)) vals
        (recordedOn u.leavesOf o.leaf (fun as => Describes (u.keys o.leaf) as m) (acts ++ coll)) ∧
      total64 (ints ((sentPoints numbers lib name x'.sent).filter (fun d => d.attrs = m))) = total64 vals := by
  obtain ⟨y, e⟩ := h.caught extracts_numbers (by simp [Shape.kind]) hret
  exact e.delta_ints hn h.shape hd ha _ _ _ (attrs_decide (attrs := PNumber.attrs) (fun _ _ h => h.1)) (e.described hic hf h.typed m)

/-- The integers of a delta metric are divided into the points made. Those which are zero are not sent. -/
theorem Busy.int_sent (h : Busy farm u R lib name o [.monotonic, .nonMonotonic] acts coll x x') (hn : o.num = .int64)
    (hd : u.delta o.leaf = true) (ha : u.agg o.leaf = sumAgg intOps hh) (hic : u.ignoreColl = false) (hf : Fits u o.leaf (acts ++ coll)) :
    ∃ gs zs : List (List Bits), Verif.Busy.Between (returnedOn u x'.s ret o.leaf (fun as => Describes (u.keys o.leaf) as m)) (gs ++ zs).flatten
        (recordedOn u.leavesOf o.leaf (fun as => Describes (u.keys o.leaf) as m) (acts ++ coll)) ∧
      Pointwise (fun g d => d.value = .int (total64 g)) gs ((sentPoints numbers lib name x'.sent).filter (fun d => d.attrs = m)) ∧
      ∀ g ∈ zs, total64 g = 0 := by
  obtain ⟨y, e⟩ := h.caught extracts_numbers (by simp [Shape.kind]) hret
  obtain ⟨es, qs, h1, h2, h3, h4⟩ := e.delta_groups hd (fun d => decide (d.attrs = m)) (fun k => @decide (AttrsOf k m) (Classical.propDecidable _))
    (fun as => Pipeline.Describes (u.keys o.leaf) as m) (attrs_decide (attrs := PNumber.attrs) (fun _ _ h => h.1)) (e.described hic hf h.typed m)
  have hagg : (Front.realCfg farm u).agg o.leaf = sumAgg intOps hh := ha
  have hm := Sync.reachable_more e.reach
  refine ⟨es.map (fun p => Sync.values x'.s p.ops), qs.map (fun p => Sync.values x'.s p.ops), ?_, ?_, ?_⟩
  · rw [← List.map_append]
    exact h4
  · refine pointwise_mapped _ h3 ?_
    intro p hp d hr
    obtain ⟨p1, p2, p3⟩ := h1 p hp
    have := number_of (by have := h.shape; simp only [List.mem_cons, List.not_mem_nil, or_false] at this ⊢; rcases this with h | h; exact .inl h; exact .inr (.inl h)) hr
    rw [hn] at this
    rw [← Sync.int_point hm p1 (by rw [p2]; exact hagg)]
    exact this
  · intro g hg
    obtain ⟨p, hp, rfl⟩ := List.mem_map.1 hg
    obtain ⟨p1, p2, p3⟩ := h2 p hp
    rw [← Sync.int_point hm p1 (by rw [p2]; exact hagg)]
    exact Sync.suppressed_zero (Sync.reachable_kept e.reach) p1 (by rw [p2]; exact hagg) p3

/-- A collection with one export, at its end: the payload has a point for the series. -/
theorem Busy.shown {attrs : D → PMap} {kinds : DataKind → Prop} (h : Busy farm u R lib name o shapes acts coll x x') (hx : Extracts get Rel kinds) (hk : ∀ s ∈ shapes, kinds s.kind)
    (hr : ∀ p d, Rel p d → AttrsOf p.attrs (attrs d))
    {c0 : List Act} {q : Times.Seq} (hc : coll = c0 ++ [.export q]) (h0 : ∀ a ∈ c0, ∀ q, a ≠ .export q)
    (hd : u.delta o.leaf = false) (hic : u.ignoreColl = false) (hf : Fits u o.leaf (acts ++ coll))
    (hne : ∀ e ∈ Pipeline.calls (acts ++ coll), NoEmptyList (e.1.attrs e.2.1))
    (hrec : returnedOn u x'.s ret o.leaf (fun as => Describes (u.keys o.leaf) as m) ≠ []) :
    ∃ pl, x'.sent = x.sent ++ [pl] ∧ (pointsIn get lib name pl).filter (fun d => attrs d = m) ≠ [] := by
  obtain ⟨y, e, as, hy⟩ := Pipeline.caught h.resource ⟨h.only, hx, hk _ h.shape⟩ h.typed h.few h.before hret h.collected
  obtain ⟨out, hout, _⟩ := copyAttributes_ok h.resource
  have ht : Typed acts := by
    intro e he
    refine h.typed e ?_
    unfold Pipeline.calls at he ⊢
    rw [List.filterMap_append]
    exact List.mem_append_left _ he
  have ix : Inv farm u R lib name o get Rel out acts x :=
    Inv.initial (farm := farm) (u := u) (R := R) (lib := lib) (name := name) (o := o) (out := out) |>.run ⟨h.only, hx, hk _ h.shape⟩ hout ht h.before
  have hlt := e.shown hd hic hf h.typed hne (fun d => decide (attrs d = m)) (attrs_decide hr) hrec ix hy
  have hsent : ∃ r : Option Payload, x'.sent = x.sent ++ r.toList := by
    obtain ⟨mid, fin, y', z, q', hsplit, h1, h2, h3, -, -⟩ := h.collected.split
    have hz : z.sent = x.sent := by
      have e1 : mid ++ .sched (.collect o.leaf) :: fin = c0 := by
        rw [hc] at hsplit
        exact (List.append_inj' hsplit rfl).1.symm
      have hrun : run (Front.realCfg farm u) R x c0 = some z := by
        rw [← e1, run_append', h1]
        exact h2
      exact sent_kept h0 hrun
    simp only [Pipeline.step, Option.some.injEq] at h3
    subst h3
    exact ⟨_, by rw [← hz]⟩
  obtain ⟨r, hr'⟩ := hsent
  rw [hr'] at hlt
  cases r with
  | none => simp at hlt
  | some pl =>
    refine ⟨pl, hr', fun h1 => ?_⟩
    rw [sentPoints, sentPoints, List.flatMap_append, List.filter_append] at hlt
    simp [h1] at hlt

theorem Busy.last_series (h : Busy farm u R lib name o [.monotonic, .nonMonotonic] acts coll x x') (hn : o.num = .int64)
    (hd : u.delta o.leaf = false) (ha : u.agg o.leaf = sumAgg intOps hh) (hic : u.ignoreColl = false) (hf : Fits u o.leaf (acts ++ coll))
    (hne : ∀ e ∈ Pipeline.calls (acts ++ coll), NoEmptyList (e.1.attrs e.2.1))
    (hrec : returnedOn u x'.s ret o.leaf (fun as => Describes (u.keys o.leaf) as m) ≠ []) :
    ∃ vals, Verif.Busy.Between (returnedOn u x'.s ret o.leaf (fun as => Describes (u.keys o.leaf) as m)) vals
        (recordedOn u.leavesOf o.leaf (fun as => Describes (u.keys o.leaf) as m) (acts ++ coll)) ∧
      ((sentPoints numbers lib name x'.sent).filter (fun d => d.attrs = m)).getLast?.map (·.value) = some (.int (total64 vals)) := by
  obtain ⟨y, e⟩ := h.caught extracts_numbers (by simp [Shape.kind]) hret
  obtain ⟨p, d, h1, h2, h3, h4, h5⟩ := e.last hd hic hf h.typed hne _ (attrs_decide (attrs := PNumber.attrs) (fun _ _ h => h.1)) hrec
  refine ⟨_, h5, ?_⟩
  have hm := Sync.reachable_more e.reach
  have h6 := Sync.int_point hm h3 (by rw [h4]; exact ha)
  rw [h1, Option.map_some, ← h6]
  have h7 := number_of (by have := h.shape; simp only [List.mem_cons, List.not_mem_nil, or_false] at this ⊢; rcases this with h | h; exact .inl h; exact .inr (.inl h)) h2
  rw [hn] at h7
  exact congrArg some h7

theorem Busy.float_last (fadd : Bits → Bits → Bits) (h : Busy farm u R lib name o [.monotonic, .nonMonotonic] acts coll x x') (hn : o.num = .float64)
    (hd : u.delta o.leaf = false) (ha : u.agg o.leaf = sumAgg (fltOps fadd) hh) (hic : u.ignoreColl = false) (hf : Fits u o.leaf (acts ++ coll))
    (hne : ∀ e ∈ Pipeline.calls (acts ++ coll), NoEmptyList (e.1.attrs e.2.1))
    (hrec : returnedOn u x'.s ret o.leaf (fun as => Describes (u.keys o.leaf) as m) ≠ []) :
    ∃ v vals, Verif.Busy.Between (returnedOn u x'.s ret o.leaf (fun as => Describes (u.keys o.leaf) as m)) vals
        (recordedOn u.leavesOf o.leaf (fun as => Describes (u.keys o.leaf) as m) (acts ++ coll)) ∧
      ((sentPoints numbers lib name x'.sent).filter (fun d => d.attrs = m)).getLast?.map (·.value) = some (.double v) ∧ SumOf 0 fadd v vals := by
  obtain ⟨y, e⟩ := h.caught extracts_numbers (by simp [Shape.kind]) hret
  obtain ⟨p, d, h1, h2, h3, h4, h5⟩ := e.last hd hic hf h.typed hne _ (attrs_decide (attrs := PNumber.attrs) (fun _ _ h => h.1)) hrec
  have hold := Sync.emit_holds (Sync.reachable_more e.reach) h3
  have hagg : (Front.realCfg farm u).agg o.leaf = sumAgg (fltOps fadd) hh := ha
  rw [h4, hagg] at hold
  refine ⟨p.val.value, Sync.values x'.s p.ops, h5, ?_, holds_sum hold⟩
  have := number_of (by have := h.shape; simp only [List.mem_cons, List.not_mem_nil, or_false] at this ⊢; rcases this with h | h; exact .inl h; exact .inr (.inl h)) h2
  rw [hn] at this
  rw [h1, Option.map_some]
  exact congrArg some this

theorem Busy.float_sent (fadd : Bits → Bits → Bits) (h : Busy farm u R lib name o [.monotonic, .nonMonotonic] acts coll x x') (hn : o.num = .float64)
    (hd : u.delta o.leaf = true) (ha : u.agg o.leaf = sumAgg (fltOps fadd) hh) (hic : u.ignoreColl = false) (hf : Fits u o.leaf (acts ++ coll)) :
    ∃ gs zs : List (List Bits), Verif.Busy.Between (returnedOn u x'.s ret o.leaf (fun as => Describes (u.keys o.leaf) as m)) (gs ++ zs).flatten
        (recordedOn u.leavesOf o.leaf (fun as => Describes (u.keys o.leaf) as m) (acts ++ coll)) ∧
      Pointwise (fun g d => ∃ v, SumOf 0 fadd v g ∧ d.value = .double v ∧ scaled v ≠ 0) gs
        ((sentPoints numbers lib name x'.sent).filter (fun d => d.attrs = m)) ∧
      ∀ g ∈ zs, ∃ v, SumOf 0 fadd v g ∧ scaled v = 0 := by
  obtain ⟨y, e⟩ := h.caught extracts_numbers (by simp [Shape.kind]) hret
  obtain ⟨es, qs, h1, h2, h3, h4⟩ := e.delta_groups hd (fun d => decide (d.attrs = m)) (fun k => @decide (AttrsOf k m) (Classical.propDecidable _))
    (fun as => Pipeline.Describes (u.keys o.leaf) as m) (attrs_decide (attrs := PNumber.attrs) (fun _ _ h => h.1)) (e.described hic hf h.typed m)
  have hagg : (Front.realCfg farm u).agg o.leaf = sumAgg (fltOps fadd) hh := ha
  have hd' : (Front.realCfg farm u).delta o.leaf = true := hd
  have hval : ∀ p, p ∈ x'.s.emits → p.leaf = o.leaf → SumOf 0 fadd p.val.value (Sync.values x'.s p.ops) ∧
      (p.kept = false ↔ scaled p.val.value = 0) := by
    intro p hp hl
    have hold := Sync.emit_holds (Sync.reachable_more e.reach) hp
    rw [hl, hagg] at hold
    refine ⟨holds_sum hold, ?_⟩
    have hk := Sync.reachable_kept e.reach p hp
    rw [hl, hd', if_pos rfl, hagg] at hk
    rw [hk]
    simp only [sumAgg, fltOps, Bool.or_eq_false_iff, bne_eq_false_iff_eq]
    have hz : key p.val.value = 0 ↔ scaled p.val.value = 0 := Number.key_eq_iff p.val.value 0
    rw [hz]
    exact ⟨fun h => h.2, fun h => ⟨Number.nan_not_finite (Props.finite_of_zero h), h⟩⟩
  refine ⟨es.map (fun p => Sync.values x'.s p.ops), qs.map (fun p => Sync.values x'.s p.ops), ?_, ?_, ?_⟩
  · rw [← List.map_append]
    exact h4
  · refine pointwise_mapped _ h3 ?_
    intro p hp d hr
    obtain ⟨p1, p2, p3⟩ := h1 p hp
    refine ⟨p.val.value, (hval p p1 p2).1, ?_, ?_⟩
    · have := number_of (by have := h.shape; simp only [List.mem_cons, List.not_mem_nil, or_false] at this ⊢; rcases this with h | h; exact .inl h; exact .inr (.inl h)) hr
      rw [hn] at this
      exact this
    · intro h0
      rw [(hval p p1 p2).2.2 h0] at p3
      cases p3
  · intro g hg
    obtain ⟨p, hp, rfl⟩ := List.mem_map.1 hg
    obtain ⟨p1, p2, p3⟩ := h2 p hp
    exact ⟨p.val.value, (hval p p1 p2).1, (hval p p1 p2).2.1 p3⟩

theorem Busy.hist_last (h : Busy farm u R lib name o [.hist] acts coll x x') (hd : u.delta o.leaf = false)
    (ha : u.agg o.leaf = histAgg ops hh) (hic : u.ignoreColl = false) (hf : Fits u o.leaf (acts ++ coll))
    (hne : ∀ e ∈ Pipeline.calls (acts ++ coll), NoEmptyList (e.1.attrs e.2.1))
    (hrec : returnedOn u x'.s ret o.leaf (fun as => Describes (u.keys o.leaf) as m) ≠ []) :
    ∃ d vals, Verif.Busy.Between (returnedOn u x'.s ret o.leaf (fun as => Describes (u.keys o.leaf) as m)) vals
        (recordedOn u.leavesOf o.leaf (fun as => Describes (u.keys o.leaf) as m) (acts ++ coll)) ∧
      ((sentPoints expPoints lib name x'.sent).filter (fun d => d.attrs = m)).getLast? = some d ∧ Props.ShowsHist R hh o.num vals d := by
  obtain ⟨y, e⟩ := h.caught extracts_exp (by simp [Shape.kind]) hret
  obtain ⟨p, d, h1, h2, h3, h4, h5⟩ := e.last hd hic hf h.typed hne _ (attrs_decide (attrs := PExp.attrs) (fun _ _ h => h.2.2.1)) hrec
  exact ⟨d, Sync.values x'.s p.ops, h5, h1, p.val.hist, Props.C61_point e.reach p h3 (by rw [h4]; exact ha), exp_of (by simpa using h.shape) h2⟩

theorem Busy.hist_sent (h : Busy farm u R lib name o [.hist] acts coll x x') (hd : u.delta o.leaf = true)
    (ha : u.agg o.leaf = histAgg ops hh) (hl : Props.Counts hh) (hic : u.ignoreColl = false) (hf : Fits u o.leaf (acts ++ coll)) :
    ∃ vals, Verif.Busy.Between (returnedOn u x'.s ret o.leaf (fun as => Describes (u.keys o.leaf) as m)) vals
        (recordedOn u.leavesOf o.leaf (fun as => Describes (u.keys o.leaf) as m) (acts ++ coll)) ∧
      Grouped (Props.ShowsHist R hh o.num) vals ((sentPoints expPoints lib name x'.sent).filter (fun d => d.attrs = m)) := by
  obtain ⟨y, e⟩ := h.caught extracts_exp (by simp [Shape.kind]) hret
  obtain ⟨es, qs, h1, h2, h3, h4⟩ := e.delta_groups hd (fun d => decide (d.attrs = m)) (fun k => @decide (AttrsOf k m) (Classical.propDecidable _))
    (fun as => Pipeline.Describes (u.keys o.leaf) as m) (attrs_decide (attrs := PExp.attrs) (fun _ _ h => h.2.2.1)) (e.described hic hf h.typed m)
  have hagg : (Front.realCfg farm u).agg o.leaf = histAgg ops hh := ha
  have hqs : (qs.map (fun e => Sync.values x'.s e.ops)).flatten = [] := by
    rw [List.flatten_eq_nil_iff]
    intro l hlm
    obtain ⟨p, hp, rfl⟩ := List.mem_map.1 hlm
    obtain ⟨p1, p2, p3⟩ := h2 p hp
    have : p.ops = [] := Classical.byContradiction fun hn => by
      have := (Props.C61_exported_iff hl e.reach p p1 (by rw [p2]; exact hagg)).2 (.inr hn)
      rw [p3] at this
      cases this
    rw [this]
    rfl
  rw [List.map_append, List.flatten_append, hqs, List.append_nil] at h4
  refine ⟨_, h4, es.map (fun e => Sync.values x'.s e.ops), List.Perm.refl _, ?_⟩
  refine pointwise_mapped _ h3 ?_
  intro p hp d hr
  obtain ⟨p1, p2, p3⟩ := h1 p hp
  exact ⟨p.val.hist, Props.C61_point e.reach p p1 (by rw [p2]; exact hagg), exp_of (by simpa using h.shape) hr⟩

end

theorem Busy.sent_known {x x' : Sys H} (h : Busy farm u R lib name o [.monotonic, .nonMonotonic, .gauge] acts coll x x') (hf : Fits u o.leaf (acts ++ coll))
    (d : PNumber) (hd : d ∈ sentPoints numbers lib name x'.sent) :
    recordedOn u.leavesOf o.leaf (fun as => Describes (u.keys o.leaf) as d.attrs) (acts ++ coll) ≠ [] := by
  obtain ⟨y, e⟩ := h.caught extracts_numbers (by simp [Shape.kind]) (ret := fun _ => False) (fun _ h => h.elim)
  exact e.known hf h.typed (attrs := PNumber.attrs) (fun _ _ h => h.1) d hd

theorem Busy.hist_known {x x' : Sys H} (h : Busy farm u R lib name o [.hist] acts coll x x') (hf : Fits u o.leaf (acts ++ coll))
    (d : PExp) (hd : d ∈ sentPoints expPoints lib name x'.sent) :
    recordedOn u.leavesOf o.leaf (fun as => Describes (u.keys o.leaf) as d.attrs) (acts ++ coll) ≠ [] := by
  obtain ⟨y, e⟩ := h.caught extracts_exp (by simp [Shape.kind]) (ret := fun _ => False) (fun _ h => h.elim)
  exact e.known hf h.typed (attrs := PExp.attrs) (fun _ _ h => h.2.2.1) d hd

end Verif.Pipeline
