import Verif.Proof.AsyncValues

/-!
Helper file: points sent for asynchronous instruments.
-/

namespace Verif.AsyncPipeline
open Verif Verif.Attr Verif.Number Verif.Export Verif.Async Verif.Pipeline
variable {H : Type} {u : Setup} {R : Reader H} {s : Async.State (List KV) Bits Bits}

theorem pointwise_keys {α β γ : Type} {Q : β → γ → Prop} {f : α → β} {l : List α} {m : List γ} (h : Pointwise (fun a c => Q (f a) c) l m) :
    Pointwise Q (l.map f) m := by
  refine ⟨by rw [List.length_map]; exact h.1, ?_⟩
  intro i b c hb hc
  rw [List.getElem?_map, Option.map_eq_some_iff] at hb
  obtain ⟨a, ha, rfl⟩ := hb
  exact h.2 i a c ha hc

theorem dataFor {o : Out} (ho : Agrees u o) {q : Times.Seq} {es : List (List KV × Bits)} (hne : es ≠ []) {t : Temporality} {kind : DataKind}
    (hk : kind = o.shape.kind)
    (ht : t = tempo (Times.pointTimes (Times.collectorFor false (u.delta o.leaf) (u.gauge o.leaf)) q).1) {data : PData}
    (h : DataOf true kind t (es.map (pointOf u q o)) data) : DataFor o (u.delta o.leaf) q data := by
  have hstop : ∀ e, (pointOf u q o e).stop = q.now := by
    intro e; unfold pointOf; cases u.delta o.leaf <;> cases u.gauge o.leaf <;> rfl
  have hne' : es.map (pointOf u q o) ≠ [] := by simpa using hne
  have hmem : ∀ p ∈ es.map (pointOf u q o), ∃ e, p = pointOf u q o e := by
    intro p hp; obtain ⟨e, _, h⟩ := List.mem_map.1 hp; exact ⟨e, h.symm⟩
  have hsh := ho.shape
  cases data with
  | sum mono pt ds =>
    obtain ⟨h1, h2, h3⟩ := h
    have hs : o.shape = .monotonic ∧ mono = true ∨ o.shape = .nonMonotonic ∧ mono = false := by
      rcases h1 with ⟨e, h1⟩ | ⟨e, h1⟩
      · refine .inl ⟨?_, h1⟩
        rw [hk] at e
        cases hs : o.shape <;> rw [hs] at e <;> first | rfl | cases e
      · refine .inr ⟨?_, h1⟩
        rw [hk] at e
        cases hs : o.shape <;> rw [hs] at e <;> first | rfl | cases e
    have hg : u.gauge o.leaf = false := by
      cases hg : u.gauge o.leaf with
      | false => rfl
      | true =>
        rw [hg, if_pos rfl] at hsh
        rcases hs with ⟨e, _⟩ | ⟨e, _⟩ <;> rw [hsh] at e <;> cases e
    have htemp : pt = tempoFor (u.delta o.leaf) := by
      rw [ht, hg] at h2
      cases hd : u.delta o.leaf <;> rw [hd] at h2 <;> exact h2
    have hstart : ∀ e, (pointOf u q o e).start = if u.delta o.leaf then q.last else q.start := by
      intro e; unfold pointOf; rw [hg]; cases u.delta o.leaf <;> rfl
    refine ⟨hs, htemp, pointwise_ne_nil h3 hne', pointwise_forall h3 ?_⟩
    intro p d hp hd
    obtain ⟨e, rfl⟩ := hmem p hp
    refine ⟨by rw [hd.1, hstart]; rfl, by rw [hd.2.1, hstop], ?_⟩
    refine numOf_kind (v := e.2) (hd.2.2.2 _ _ ?_)
    show aggOf o e.2 = _ ∨ aggOf o e.2 = _
    unfold aggOf
    rcases hs with ⟨e1, _⟩ | ⟨e1, _⟩ <;> rw [e1] <;> simp
  | gauge ds =>
    obtain ⟨h1, h3⟩ := h
    have hs : o.shape = .gauge := by
      rw [hk] at h1
      cases hs : o.shape <;> rw [hs] at h1 <;> first | rfl | cases h1
    refine ⟨hs, pointwise_ne_nil h3 hne', pointwise_forall h3 ?_⟩
    intro p d hp hd
    obtain ⟨e, rfl⟩ := hmem p hp
    refine ⟨hd.1, by rw [hd.2.1, hstop], ?_⟩
    refine numOf_kind (v := e.2) (hd.2.2.2 _ _ ?_)
    show aggOf o e.2 = _
    unfold aggOf
    rw [hs]
  | hist pt ds =>
    exfalso
    rcases h.1 with ⟨_, e⟩ | e
    · cases e
    · rw [hk] at e
      cases hg : u.gauge o.leaf <;> rw [hg] at hsh
      · rcases hsh with hsh | hsh <;> rw [hsh] at e <;> cases e
      · rw [if_pos rfl] at hsh; rw [hsh] at e; cases e
  | exp pt ds =>
    exfalso
    have e := h.1
    rw [hk] at e
    cases hg : u.gauge o.leaf <;> rw [hg] at hsh
    · rcases hsh with hsh | hsh <;> rw [hsh] at e <;> cases e
    · rw [if_pos rfl] at hsh; rw [hsh] at e; cases e

theorem payloadFor {q : Times.Seq} {out : Nat → List (List KV × Bits)} {p : Payload} (hall : ∀ sc ∈ R.scopes, ∀ o ∈ sc.2, Agrees u o)
    (hb : Built u R q out p) : PayloadFor R u.delta q p := by
  refine ⟨hb.1, ?_⟩
  refine pointwise_imp (Pipeline.pointwise_map hb.2) ?_
  intro sc s hsc hs
  refine ⟨hs.1, sc.2.filter (fun o => !(instrumentOf u q out o).points.isEmpty), List.filter_sublist, ?_⟩
  have h5 := hs.2
  rw [List.filter_map] at h5
  refine pointwise_imp (Pipeline.pointwise_map h5) ?_
  intro o m ho hm
  have hag := hall sc hsc o (List.mem_filter.1 ho).1
  have hne : (instrumentOf u q out o).points ≠ [] := by
    intro e
    have := (List.mem_filter.1 ho).2
    rw [e] at this
    cases this
  refine ⟨hm.1, hm.2.1, hm.2.2.1, ?_⟩
  cases hp : (instrumentOf u q out o).points with
  | nil => exact absurd hp hne
  | cons p0 ps =>
    have hmm : p0 ∈ (instrumentOf u q out o).points := by rw [hp]; exact List.mem_cons_self
    have h1 := hm.2.2.2 p0 hmm
    obtain ⟨e, he, rfl⟩ := List.mem_map.1 hmm
    exact dataFor hag (List.ne_nil_of_mem he) (aggOf_kind hag e.2) rfl h1

theorem cumAt_observed {log : Log} {l n : Nat} {k : List KV} {v : Bits} (h : CumAt u log l n k v) : Observed u log l n k := by
  obtain ⟨ps, hne, hv, _⟩ := h
  cases ps with
  | nil => exact absurd rfl hne
  | cons p ps =>
    obtain ⟨h1, h2, h3⟩ := (hv.2 p.1 p.2.1 p.2.2).1 List.mem_cons_self
    obtain ⟨ev, hev, e1, e2, e3⟩ := Props.lastObs_some h3
    exact ⟨ev, hev, e1, by rw [e2]; exact h1, by rw [e3]; exact h2⟩

/-- The points of a delta view. -/
theorem mem_delta {a : AAgg Bits Bits} {prior t : Storage.Table (List KV) Bits} {k : List KV} {w : Bits} :
    (k, w) ∈ deltaPoints a prior t ↔ ∃ v, (k, v) ∈ t ∧ ((Storage.find prior k = none ∧ w = v) ∨
      ∃ p, Storage.find prior k = some p ∧ a.hasChange (a.sub p v) = true ∧ w = a.sub p v) := by
  unfold deltaPoints
  rw [List.mem_filterMap]
  constructor
  · rintro ⟨⟨k', v⟩, hm, h⟩
    dsimp only at h
    cases hf : Storage.find prior k' with
    | none => rw [hf] at h; cases h; exact ⟨_, hm, .inl ⟨hf, rfl⟩⟩
    | some p =>
      rw [hf] at h
      dsimp only at h
      split at h
      · rename_i hc; cases h; exact ⟨v, hm, .inr ⟨p, hf, hc, rfl⟩⟩
      · cases h
  · rintro ⟨v, hm, ⟨h1, rfl⟩ | ⟨p, h1, h2, rfl⟩⟩
    · exact ⟨(k, w), hm, by dsimp only; rw [h1]⟩
    · refine ⟨(k, v), hm, ?_⟩
      dsimp only
      rw [h1]
      dsimp only
      rw [if_pos h2]

theorem delta_keys {a : AAgg Bits Bits} {prior t : Storage.Table (List KV) Bits} (h : (t.map (·.1)).Nodup) :
    ((deltaPoints a prior t).map (·.1)).Nodup := by
  induction t with
  | nil => exact .nil
  | cons e t ih =>
    rw [List.map_cons, List.nodup_cons] at h
    have hnot : e.1 ∉ (deltaPoints a prior t).map (·.1) := by
      intro hm
      obtain ⟨⟨k, w⟩, hkw, e1⟩ := List.mem_map.1 hm
      obtain ⟨v, hv, _⟩ := mem_delta.1 hkw
      exact h.1 (by rw [← e1]; exact List.mem_map_of_mem (f := (·.1)) hv)
    have hcons : ∀ w, (((e.1, w) :: deltaPoints a prior t).map (·.1)).Nodup := fun w => List.nodup_cons.2 ⟨hnot, ih h.2⟩
    unfold deltaPoints
    rw [List.filterMap_cons]
    cases hf : Storage.find prior e.1 with
    | none => exact hcons e.2
    | some p =>
      dsimp only
      split
      · rename_i hsp
        split at hsp
        · cases hsp
        · exact ih h.2
      · rename_i y hsp
        split at hsp
        · cases hsp; exact hcons _
        · cases hsp

/-- The value sent for a series, in total, is the value collected. -/
theorem total_points {k : List KV} (hk : NoEmptyList k) {t : List (List KV × Bits)} (hn : (t.map (·.1)).Nodup) {ds : List PNumber}
    (h : Pointwise (fun e d => AttrsOf e.1 d.attrs ∧ NumOf .int64 e.2 d.value) t ds) :
    Verif.Spec.total64 (ints (ds.filter (fun d => @decide (AttrsOf k d.attrs) (Classical.propDecidable _)))) = (Storage.find t k).getD 0 := by
  induction t generalizing ds with
  | nil =>
    cases ds with
    | nil => rfl
    | cons d ds => exact absurd h.1 (by simp)
  | cons e t ih =>
    cases ds with
    | nil => exact absurd h.1 (by simp)
    | cons d ds =>
      obtain ⟨⟨h1, h2⟩, h3⟩ := pointwise_tail h
      rw [List.map_cons, List.nodup_cons] at hn
      rw [List.filter_cons, find_cons]
      by_cases hek : e.1 = k
      · have hd : AttrsOf k d.attrs := by rw [← hek]; exact h1
        have hnone : Storage.find t k = none := by
          cases hf : Storage.find t k with
          | none => rfl
          | some v => exact absurd (List.mem_map_of_mem (f := (·.1)) (mem_of_find hf)) (by rw [← hek]; exact hn.1)
        have hrest := ih hn.2 h3
        rw [hnone] at hrest
        rw [if_pos (by simpa using hd), if_pos hek]
        have hv : d.value = .int e.2 := h2
        unfold ints at hrest ⊢
        rw [List.filterMap_cons, hv]
        show e.2 + Verif.Spec.total64 _ = _
        rw [hrest]
        exact BitVec.add_zero _
      · have hd : ¬ AttrsOf k d.attrs := fun hd => hek (attrsOf_inj hk hd h1).symm
        rw [if_neg (by simpa using hd), if_neg hek]
        exact ih hn.2 h3

end Verif.AsyncPipeline
