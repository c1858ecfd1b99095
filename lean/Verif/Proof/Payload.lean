import Verif.Proof.PipelineEnd
import Verif.Spec.Payload

/-!
Helper file: what each payload says.
-/

namespace Verif.Pipeline
open Verif.Attr Verif.Number Verif.Aggr Verif.Export
variable {H : Type} {farm : Str → UInt64} {u : Front.Setup (Cell Bits H)} {R : Reader H}

theorem pointwise_forall {α β : Type} {Q : α → β → Prop} {P : β → Prop} {l : List α} {m : List β} (h : Pointwise Q l m)
    (hi : ∀ a b, a ∈ l → Q a b → P b) : ∀ b ∈ m, P b := by
  intro b hb
  obtain ⟨i, hi'⟩ := List.getElem?_of_mem hb
  have hlt : i < l.length := h.1.symm ▸ (List.getElem?_eq_some_iff.1 hi').1
  exact hi _ b (List.getElem_mem hlt) (h.2 i _ b (List.getElem?_eq_getElem hlt) hi')

theorem pointwise_ne_nil {α β : Type} {Q : α → β → Prop} {l : List α} {m : List β} (h : Pointwise Q l m) (hl : l ≠ []) : m ≠ [] := by
  intro e
  subst e
  exact hl (List.length_eq_zero_iff.1 h.1)

theorem numOf_kind {k : Kind} {v : Bits} {n : PNum} (h : NumOf k v n) : OfKind k n := by
  cases k <;> exact ⟨v, h⟩

theorem dataFor {o : Out} {delta : Bool} {q : Times.Seq} {toHist : H → ExpHist} {es : List (Sync.Emit (List KV) (Cell Bits H))} (hne : es ≠ [])
    {t : Temporality} {kind : DataKind} (hk : kind = o.shape.kind) (ht : t = tempo (if delta then .delta else .cumulative)) {data : PData}
    (h : DataOf true kind t (es.map (pointOf toHist delta q o)) data) : DataFor o delta q data := by
  have hstart : ∀ e, (pointOf toHist delta q o e).start = if delta then q.last else q.start := by intro e; cases delta <;> rfl
  have hstop : ∀ e, (pointOf toHist delta q o e).stop = q.now := by intro e; cases delta <;> rfl
  have htemp : ∀ pt, TempoOf t pt → pt = tempoFor delta := by intro pt hpt; rw [ht] at hpt; cases delta <;> exact hpt
  have hne' : es.map (pointOf toHist delta q o) ≠ [] := by simpa using hne
  have hmem : ∀ p ∈ es.map (pointOf toHist delta q o), ∃ e, p = pointOf toHist delta q o e := by
    intro p hp; obtain ⟨e, _, h⟩ := List.mem_map.1 hp; exact ⟨e, h.symm⟩
  cases data with
  | sum mono pt ds =>
    obtain ⟨h1, h2, h3⟩ := h
    refine ⟨?_, htemp _ h2, pointwise_ne_nil h3 hne', pointwise_forall h3 ?_⟩
    · rcases h1 with ⟨e, h1⟩ | ⟨e, h1⟩
      · refine .inl ⟨?_, h1⟩
        rw [hk] at e
        cases hs : o.shape <;> rw [hs] at e <;> first | rfl | cases e
      · refine .inr ⟨?_, h1⟩
        rw [hk] at e
        cases hs : o.shape <;> rw [hs] at e <;> first | rfl | cases e
    · intro p d hp hd
      obtain ⟨e, rfl⟩ := hmem p hp
      refine ⟨by rw [hd.1, hstart]; rfl, by rw [hd.2.1, hstop], ?_⟩
      refine numOf_kind (v := e.val.value) (hd.2.2.2 _ _ ?_)
      unfold pointOf aggOf
      rw [hk] at h1
      rcases h1 with ⟨e1, _⟩ | ⟨e1, _⟩
      · left; cases hs : o.shape <;> rw [hs] at e1 <;> first | rfl | cases e1
      · right; cases hs : o.shape <;> rw [hs] at e1 <;> first | rfl | cases e1
  | gauge ds =>
    obtain ⟨h1, h3⟩ := h
    have hs : o.shape = .gauge := by
      rw [hk] at h1
      cases hs : o.shape <;> rw [hs] at h1 <;> first | rfl | cases h1
    refine ⟨hs, pointwise_ne_nil h3 hne', pointwise_forall h3 ?_⟩
    intro p d hp hd
    obtain ⟨e, rfl⟩ := hmem p hp
    refine ⟨hd.1, by rw [hd.2.1, hstop], ?_⟩
    refine numOf_kind (v := e.val.value) (hd.2.2.2 _ _ ?_)
    unfold pointOf aggOf
    rw [hs]
  | hist pt ds =>
    obtain ⟨h1, h2, h3⟩ := h
    refine ⟨?_, htemp _ h2, pointwise_ne_nil h3 hne', pointwise_forall h3 ?_⟩
    · rcases h1 with ⟨_, e⟩ | h1
      · cases e
      · rw [hk] at h1
        cases hs : o.shape <;> rw [hs] at h1 <;> first | rfl | cases h1
    · intro p d hp hd
      obtain ⟨e, rfl⟩ := hmem p hp
      exact ⟨by rw [hd.1, hstart]; rfl, by rw [hd.2.1, hstop]⟩
  | exp pt ds =>
    obtain ⟨h1, _, h2, h3⟩ := h
    refine ⟨?_, htemp _ h2, pointwise_ne_nil h3 hne', pointwise_forall h3 ?_⟩
    · rw [hk] at h1
      cases hs : o.shape <;> rw [hs] at h1 <;> first | rfl | cases h1
    · intro p d hp hd
      obtain ⟨e, rfl⟩ := hmem p hp
      exact ⟨by rw [hd.1, hstart]; rfl, by rw [hd.2.1, hstop]⟩

theorem metricFor {o : Out} {delta : Nat → Bool} {q : Times.Seq} {toHist : H → ExpHist} {es : List (Sync.Emit (List KV) (Cell Bits H))}
    (hne : (instrumentOf toHist delta q es o).points ≠ []) {m : PMetric} (h : MetricOf true (instrumentOf toHist delta q es o) m) :
    MetricFor delta q o m := by
  refine ⟨h.1, h.2.1, h.2.2.1, ?_⟩
  have hne' : es.filter (fun e => e.leaf == o.leaf && e.kept) ≠ [] := by
    intro e
    unfold instrumentOf at hne
    rw [e] at hne
    exact hne rfl
  cases hp : (instrumentOf toHist delta q es o).points with
  | nil => exact absurd hp hne
  | cons p ps =>
    have hm : p ∈ (instrumentOf toHist delta q es o).points := by rw [hp]; exact List.mem_cons_self
    have h1 := h.2.2.2 p hm
    obtain ⟨e, _, rfl⟩ := List.mem_map.1 hm
    refine dataFor hne' ?_ ?_ h1
    · unfold pointOf aggOf
      dsimp only
      cases o.shape <;> rfl
    · cases hd : delta o.leaf <;> rfl

theorem payloadFor {rm : ResourceMap} {out : PMap} (hc : copyAttributes [] R.resource = some out) (ha : AttrsOf R.resource out)
    (hrm : RmOk R.resource out rm) (delta : Nat → Bool) (q : Times.Seq)
    (es : List (Sync.Emit (List KV) (Cell Bits H))) (he : ∀ e ∈ es, Exportable e.key) :
    RmOk R.resource out (d2pd R.mapping rm (metricsOf R delta q es) true).1 ∧
    ∃ p, (d2pd R.mapping rm (metricsOf R delta q es) true).2 = some p ∧ PayloadFor R delta q p := by
  have hu : ∀ s ∈ (metricsOf R delta q es).scopes, ∀ i ∈ s.instruments, Uniform i := by
    intro s hs i hi
    obtain ⟨sc, _, rfl⟩ := List.mem_map.1 hs
    obtain ⟨o', _, rfl⟩ := List.mem_map.1 hi
    exact instrumentOf_uniform _ _ _ _ _ he
  obtain ⟨ss, h1, h2⟩ := mapM_pointwise (f := copyScope R.mapping true) (R := ScopeOf true)
    (fun s hs => copyScope_ok (m := R.mapping) (useExp := true) (hu s hs) (fun e => by cases e))
  obtain ⟨h3, h4⟩ := rm_get hrm hc
  refine ⟨h4, ⟨out, ss⟩, ?_, ha, ?_⟩
  · unfold d2pd
    have : (metricsOf R delta q es).resource = R.resource := rfl
    dsimp only
    rw [this, h3, Option.bind_some, h1]
    rfl
  · refine pointwise_imp (Pipeline.pointwise_map h2) ?_
    intro sc s _ hs
    refine ⟨hs.1, sc.2.filter (fun o => !(instrumentOf R.toHist delta q es o).points.isEmpty), List.filter_sublist, ?_⟩
    have h5 := hs.2
    rw [List.filter_map] at h5
    refine pointwise_imp (Pipeline.pointwise_map h5) ?_
    intro o m ho hm
    refine metricFor ?_ hm
    intro e
    have := (List.mem_filter.1 ho).2
    rw [e] at this
    cases this

/-- What is known after the actions `acts`. -/
structure PayInv (farm : Str → UInt64) (u : Front.Setup (Cell Bits H)) (R : Reader H) (out : PMap) (acts : List Act) (x : Sys H) : Prop where
  reach : Sync.Reachable (Front.realCfg farm u) 0 x.s
  calls : Sync.CallsAre x.s (started acts)
  keys : Sync.KeysFrom (Front.realCfg farm u) TypedList x.s
  rm : RmOk R.resource out x.rm
  seen : x.seen ≤ x.s.emits.length
  sent : Pointwise (PayloadFor R u.delta) (exports acts) x.sent

theorem PayInv.machine {out : PMap} {acts : List Act} {x : Sys H} (h : PayInv farm u R out acts x)
    {b : Sync.Action (List KV) Bits} {s' : Sync.State (List KV) (List KV) Bits (Cell Bits H)}
    (hs : Sync.step (Front.realCfg farm u) x.s b = some s') {acts' : List Act} (hc : Sync.CallsAre s' (started acts')) (ht : Typed acts')
    (he : exports acts' = exports acts) : PayInv farm u R out acts' { x with s := s' } := by
  have hm := Sync.reachable_more h.reach
  have hst := hm.full.inv.step_sound hs
  obtain ⟨pre, hpre⟩ := Sync.emits_grow ⟨[], rfl⟩ hst
  refine ⟨reachable_snoc h.reach hs, hc, h.keys.preserved overflow_typed hm.full.inv.wf hst (callsAre_all hc (typed_started ht)), h.rm, ?_, ?_⟩
  · dsimp only
    rw [hpre, List.length_append]
    exact Nat.le_trans h.seen (Nat.le_add_left _ _)
  · rw [he]
    exact h.sent

theorem exports_snoc (acts : List Act) (a : Act) : exports (acts ++ [a]) = exports acts ++ exports [a] := List.filterMap_append

theorem PayInv.step {out : PMap} {acts : List Act} {x x' : Sys H} (h : PayInv farm u R out acts x) (hc : copyAttributes [] R.resource = some out)
    (hao : AttrsOf R.resource out) {a : Act} (ht : Typed (acts ++ [a])) (hs : step (Front.realCfg farm u) R x a = some x') :
    PayInv farm u R out (acts ++ [a]) x' := by
  cases a with
  | call i as n =>
    have hex : exports (acts ++ [Act.call i as n]) = exports acts := by rw [exports_snoc]; exact List.append_nil _
    simp only [Pipeline.step, Option.some.injEq] at hs
    subst hs
    unfold Front.observe
    dsimp only
    by_cases hr : Front.rangeTest i.num n i.kind = true
    · rw [if_pos hr]
      have hst : Sync.step (Front.realCfg farm u) x.s (.observe i.id (i.attrs as) n) = some _ := rfl
      rw [hst]
      dsimp only
      refine h.machine hst ?_ ht hex
      have := h.calls.observe hst
      rw [started_snoc]
      have he : started [Act.call i as n] = [(i.id, i.attrs as, n)] := by simp [started, hr]
      rw [he]
      exact this
    · rw [if_neg hr]
      have he : started (acts ++ [Act.call i as n]) = started acts := by
        rw [started_snoc]
        have : started [Act.call i as n] = [] := by simp [started, hr]
        rw [this, List.append_nil]
      refine ⟨h.reach, ?_, h.keys, h.rm, h.seen, by rw [hex]; exact h.sent⟩
      rw [he]
      exact h.calls
  | sched b =>
    simp only [Pipeline.step] at hs
    split at hs
    · cases hs
    · rename_i hb
      cases hst : Sync.step (Front.realCfg farm u) x.s b with
      | none => rw [hst] at hs; cases hs
      | some s' =>
        rw [hst] at hs
        cases hs
        refine h.machine hst ?_ ht (by rw [exports_snoc]; exact List.append_nil _)
        have he : started (acts ++ [Act.sched b]) = started acts := by
          rw [started_snoc]
          exact List.append_nil _
        rw [he]
        refine h.calls.step (Sync.reachable_more h.reach).full.inv hst ?_
        intro o' x' n' e
        rw [e] at hb
        exact hb rfl
  | «export» q =>
    simp only [Pipeline.step, Option.some.injEq] at hs
    subst hs
    have hex : ∀ e ∈ fresh x, Exportable e.key := by
      intro e he
      have : e ∈ x.s.emits := by
        rw [← List.mem_reverse, fresh_eq h.seen]
        exact List.mem_append_right _ he
      exact key_exportable (h.keys.emits e this)
    obtain ⟨h1, p, h2, h3⟩ := payloadFor hc hao h.rm (Front.realCfg farm u).delta q (fresh x) hex
    have he : started (acts ++ [Act.export q]) = started acts := by
      rw [started_snoc]
      exact List.append_nil _
    refine ⟨h.reach, by rw [he]; exact h.calls, h.keys, h1, Nat.le_refl _, ?_⟩
    dsimp only
    rw [h2, exports_snoc]
    exact Pipeline.pointwise_append h.sent (Pipeline.pointwise_cons h3 Pipeline.pointwise_nil)

theorem PayInv.run {out : PMap} {more acts : List Act} {x x' : Sys H} (h : PayInv farm u R out acts x) (hc : copyAttributes [] R.resource = some out)
    (hao : AttrsOf R.resource out) (ht : Typed (acts ++ more)) (hs : Pipeline.run (Front.realCfg farm u) R x more = some x') :
    PayInv farm u R out (acts ++ more) x' := by
  induction more generalizing acts x with
  | nil => cases hs; rw [List.append_nil]; exact h
  | cons a more ih =>
    rw [Pipeline.run] at hs
    cases ha : Pipeline.step (Front.realCfg farm u) R x a with
    | none => rw [ha] at hs; cases hs
    | some y =>
      rw [ha] at hs
      have ht' : Typed (acts ++ [a]) := by
        intro e he
        refine ht e ?_
        have e1 : acts ++ a :: more = (acts ++ [a]) ++ more := by rw [List.append_assoc]; rfl
        rw [e1]
        unfold Pipeline.calls at he ⊢
        rw [List.filterMap_append]
        exact List.mem_append_left _ he
      have := ih (h.step hc hao ht' ha) (by rw [List.append_assoc]; exact ht) hs
      rw [List.append_assoc] at this
      exact this

theorem PayInv.initial {out : PMap} : PayInv farm u R out [] (Pipeline.initial (Front.realCfg farm u)) where
  reach := ⟨[], rfl⟩
  calls := ⟨rfl, by intro i e he; cases he⟩
  keys := Sync.KeysFrom.initial overflow_typed 0
  rm := by intro i hi; cases hi
  seen := Nat.le_refl 0
  sent := Pipeline.pointwise_nil

end Verif.Pipeline
