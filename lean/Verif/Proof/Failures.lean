import Verif.Spec.Failures
import Verif.Props.Busy

/-!
Helper file: what arrives when exports fail.
-/

namespace Verif.Failures
open Verif Verif.Attr Verif.Number Verif.Export Verif.Pipeline

theorem arrived_sublist (ok : Nat → Bool) (sent : List Payload) : (arrived ok sent).Sublist sent := by
  have := (List.filter_sublist (l := sent.zipIdx) (p := fun e => ok e.2)).map (·.1)
  rw [List.zipIdx_map_fst] at this
  exact this

theorem arrived_all (sent : List Payload) : arrived (fun _ => true) sent = sent := by
  unfold arrived
  rw [List.filter_eq_self.2 (fun _ _ => rfl), List.zipIdx_map_fst]

theorem arrived_snoc (ok : Nat → Bool) (front : List Payload) (pl : Payload) (h : LastArrives ok (front ++ [pl])) : arrived ok (front ++ [pl]) = arrived ok front ++ [pl] := by
  have h' : ok front.length = true := by simpa [LastArrives] using h
  unfold arrived
  rw [List.zipIdx_append, List.filter_append, List.map_append]
  simp [h']

section
variable {D : Type} {get : PData → List D} {lib : Library} {n : Str}

theorem points_sublist {as bs : List Payload} (h : as.Sublist bs) : (sentPoints get lib n as).Sublist (sentPoints get lib n bs) := by
  unfold sentPoints
  induction h with
  | slnil => exact List.Sublist.refl _
  | cons a _ ih => rw [List.flatMap_cons]; exact ih.trans (List.sublist_append_right ..)
  | cons_cons a _ ih => rw [List.flatMap_cons, List.flatMap_cons]; exact ih.append_left _

theorem last_of (as : List Payload) (pl : Payload) (p : D → Bool) (h : (pointsIn get lib n pl).filter p ≠ []) :
    ((sentPoints get lib n (as ++ [pl])).filter p).getLast? = ((pointsIn get lib n pl).filter p).getLast? := by
  unfold sentPoints
  rw [List.flatMap_append, List.filter_append, List.getLast?_append]
  have : List.flatMap (pointsIn get lib n) [pl] = pointsIn get lib n pl := by simp
  rw [this]
  cases hl : ((pointsIn get lib n pl).filter p).getLast? with
  | none => exact absurd (List.getLast?_eq_none_iff.1 hl) h
  | some d => rfl

/-- When the last payload arrives and has a point, the last point is the same. -/
theorem last_arrived {ok : Nat → Bool} {sent : List Payload} {p : D → Bool} (h : ∃ front pl, sent = front ++ [pl] ∧ (pointsIn get lib n pl).filter p ≠ []) (hok : LastArrives ok sent) :
    ((sentPoints get lib n (arrived ok sent)).filter p).getLast? = ((sentPoints get lib n sent).filter p).getLast? := by
  obtain ⟨front, pl, rfl, h1⟩ := h
  rw [arrived_snoc _ _ _ hok, last_of _ _ _ h1, last_of _ _ _ h1]

end

theorem pointwise_cons {α β : Type} {R : α → β → Prop} {a : α} {b : β} {as : List α} {bs : List β} : Pointwise R (a :: as) (b :: bs) ↔ R a b ∧ Pointwise R as bs := by
  constructor
  · intro h
    refine ⟨h.2 0 a b rfl rfl, by simpa using h.1, fun i x y h1 h2 => h.2 (i + 1) x y h1 h2⟩
  · intro h
    refine ⟨by simp [h.2.1], fun i x y h1 h2 => ?_⟩
    cases i with
    | zero => cases h1; cases h2; exact h.1
    | succ i => exact h.2.2 i x y h1 h2

theorem pointwise_sublist {α β : Type} {R : α → β → Prop} {as : List α} {bs bs' : List β} (h : Pointwise R as bs) (hs : bs'.Sublist bs) :
    ∃ as', as'.Sublist as ∧ Pointwise R as' bs' := by
  induction hs generalizing as with
  | slnil => exact ⟨[], List.nil_sublist _, ⟨rfl, by simp⟩⟩
  | cons b _ ih =>
    cases as with
    | nil => cases h.1
    | cons a as =>
      obtain ⟨as', h1, h2⟩ := ih (pointwise_cons.1 h).2
      exact ⟨as', h1.cons a, h2⟩
  | cons_cons b _ ih =>
    cases as with
    | nil => cases h.1
    | cons a as =>
      obtain ⟨as', h1, h2⟩ := ih (pointwise_cons.1 h).2
      exact ⟨a :: as', h1.cons_cons a, pointwise_cons.2 ⟨(pointwise_cons.1 h).1, h2⟩⟩

theorem among_sublist {α : Type} {as bs : List α} (h : as.Sublist bs) : Among as bs := by
  induction h with
  | slnil => exact ⟨[], List.Perm.refl _⟩
  | cons a _ ih =>
    obtain ⟨r, h⟩ := ih
    exact ⟨a :: r, (h.cons a).trans List.perm_middle.symm⟩
  | cons_cons a _ ih =>
    obtain ⟨r, h⟩ := ih
    exact ⟨r, h.cons a⟩

theorem Among.trans {α : Type} {as bs cs : List α} (h : Among as bs) (h' : Among bs cs) : Among as cs := by
  obtain ⟨r, h⟩ := h
  obtain ⟨t, h'⟩ := h'
  exact ⟨r ++ t, by rw [← List.append_assoc]; exact h'.trans (h.append_right t)⟩

theorem among_perm {α : Type} {as bs : List α} (h : as.Perm bs) : Among as bs := ⟨[], by rw [List.append_nil]; exact h.symm⟩

theorem among_append {α : Type} (as bs : List α) : Among as (as ++ bs) := ⟨bs, List.Perm.refl _⟩

theorem _root_.Verif.Busy.Between.among {α : Type} {b v a : List α} (h : Busy.Between b v a) : Among v a := h.elim fun _ h => h.imp fun _ h => h.2

/-- Everything had been recorded before. -/
theorem _root_.Verif.Busy.Between.exact {α : Type} {v a : List α} (h : Busy.Between a v a) : v.Perm a := by
  obtain ⟨m, r, h1, h2⟩ := h
  have hl := h1.length_eq
  have hl2 := h2.length_eq
  rw [List.length_append] at hl hl2
  have : m = [] := List.eq_nil_of_length_eq_zero (by omega)
  rw [this, List.append_nil] at h1
  exact h1

theorem flatten_sublist {α : Type} {as bs : List (List α)} (h : as.Sublist bs) : as.flatten.Sublist bs.flatten := by
  induction h with
  | slnil => exact List.Sublist.refl _
  | cons a _ ih => rw [List.flatten_cons]; exact ih.trans (List.sublist_append_right ..)
  | cons_cons a _ ih => rw [List.flatten_cons, List.flatten_cons]; exact ih.append_left _

end Verif.Failures

namespace Verif.Props
open Verif Verif.Attr Verif.Number Verif.Aggr Verif.Export Verif.Spec Verif.Assembly Verif.Instruments Verif.Delivery Verif.Busy
open Verif.Launched (Named Few FewUpTo Launch world views view look recorded_eq Outside)
open Verif.Pipeline (numbers expPoints sentPoints ints NoEmptyList Describes Grouped Shape pointsIn)
open Verif.Front (IKind)
open Verif.Views (Tempo)
open Verif.Launcher (documented)

variable {C G ν : Type} [DecidableEq C] {lx : Launcher.Ext} {lw : Launcher.World} {opts : List Launcher.Opt} {pref : Launcher.Preference} {pc : Launcher.PipelineConfig}
  {sel : IKind → Tempo} {e : Outside C G} {k : Nat} {sc : Views.Scope} {c : Ctor} {n unit : Str} {start : Int} {acts after : List (Delivery.Act ν)}
  {s s' : Delivery.Sys C G ν}

omit [DecidableEq C] in
theorem look_shape (c : Ctor) : (shapeOf (look e pref c unit).kind = .monotonic ∨ shapeOf (look e pref c unit).kind = .nonMonotonic ∨ shapeOf (look e pref c unit).kind = .gauge) ∨
    shapeOf (look e pref c unit).kind = .hist := by
  cases c <;> simp [look, Views.usualAgg, Ctor.kinds, shapeOf]

/-- A program which does not record while it is flushed or shut down. -/
theorem closing_flushes (hp : Closes e pc sel start acts after s s') : Flushes e pc sel start acts after s s' := by
  obtain ⟨t, kind, ht, hth⟩ := hp.call
  refine ⟨hp.running, ?_, hp.before, hp.quiet.1, t, _, ht, hth, Or.inr rfl⟩
  have : measured (acts ++ after) = measured acts ++ measured after := List.filterMap_append ..
  rw [this, hp.quiet.2, List.append_nil]
  exact hp.few

theorem closing_measured (hp : Closes e pc sel start acts after s s') : measured (acts ++ after) = measured acts := by
  have : measured (acts ++ after) = measured acts ++ measured after := List.filterMap_append ..
  rw [this, hp.quiet.2, List.append_nil]

/-- Then all values recorded are those of calls which have returned. -/
theorem closing_returned (hl : Launch lx lw opts pref pc sel) (h : Named (makes acts) s'.z.p k sc c n unit) (hp : Closes e pc sel start acts after s s')
    (hsy : (promise c).observed = false) (Q : List KV → Prop) : returnedBy s'.z.p k n Q s.z.s.sync = recordedBy s'.z.p k n Q (measured acts) := by
  have hfl := closing_flushes hp
  have hv := h.viewed hl (busy_made hfl)
  obtain ⟨o, f, pacts, pcoll, xs, xs', more, h1, h2, h3, h4, -⟩ := Flushing.pipeline hfl hv (look_sync hsy)
  have hb := h2 [o.shape] (List.mem_singleton_self _)
  have hc : Sync.CallsAre s.z.s.sync (Pipeline.started pacts) := by
    rw [← h3]
    rcases look_shape (e := e) (pref := pref) (unit := unit) c with (hk | hk | hk) | hk
    · exact hb.calls_before Pipeline.extracts_numbers (by rw [h1.shape_eq, hk]; simp [Shape.kind])
    · exact hb.calls_before Pipeline.extracts_numbers (by rw [h1.shape_eq, hk]; simp [Shape.kind])
    · exact hb.calls_before Pipeline.extracts_numbers (by rw [h1.shape_eq, hk]; simp [Shape.kind])
    · exact hb.calls_before Pipeline.extracts_exp (by rw [h1.shape_eq, hk]; simp [Shape.kind])
  rw [← returned_eq (s := s.z.s.sync) (z := s.z.s.sync) h1 ⟨Nat.le_refl _, fun _ _ => ⟨rfl, rfl, rfl⟩⟩ Q]
  have h5 := Pipeline.recordedOn_ids (farm := e.farm) (u := setup (world e pc) s'.z.p) hc o.leaf Q
  rw [Pipeline.idsOn_eq, h1.recorded, recorded_eq] at h5
  have h6 : recordedBy s'.z.p k n Q pacts = recordedBy s'.z.p k n Q (measured acts) := by unfold recordedBy; rw [h4]
  rw [← h6, ← h5]
  unfold Pipeline.returnedOn
  congr 1
  rw [List.filter_eq_self]
  intro i hi
  obtain ⟨j, hj, h7⟩ := List.mem_flatMap.1 hi
  have hij : i = j := by
    split at h7
    · exact (List.mem_replicate.1 h7).2
    · cases h7
  have hlt := List.mem_range.1 hj
  subst hij
  exact @decide_eq_true _ (Classical.propDecidable _) ⟨hlt, hp.returned i hlt⟩

/-- The last payload has a point for each series of a cumulative metric. -/
theorem busy_shown {D : Type} {get : PData → List D} {Rel : Export.Point → D → Prop} {kinds : DataKind → Prop} {attrs : D → PMap}
    (hx : Pipeline.Extracts get Rel kinds) (hr : ∀ p d, Rel p d → AttrsOf p.attrs (attrs d))
    (hl : Launch lx lw opts pref pc sel) (h : Named (makes acts) s'.z.p k sc c n unit) (hp : Flushes e pc sel start acts after s s')
    (hk : kinds (shapeOf (look e pref c unit).kind).kind)
    (hsy : (promise c).observed = false) (ht : documented pref c.kinds.2 = .cumulative) (hf : Few s'.z.p k n (measured (acts ++ after)))
    (hne : ∀ a ∈ Pipeline.calls (measured (acts ++ after)), NoEmptyList (a.1.attrs a.2.1)) (m : PMap)
    (hrec : returnedBy s'.z.p k n (fun as => Describes none as m) s.z.s.sync ≠ []) :
    ∃ front pl, s'.z.s.sent = front ++ [pl] ∧ (pointsIn get (sentScope sc) n pl).filter (fun d => attrs d = m) ≠ [] := by
  obtain ⟨o, f, pacts, pcoll, xs, xs', more, hw, hb, hret, hc, hq, hbt, hsent, c1, c0, q, x1, g1, g2, g3, g4⟩ := busy_full hl h hp hsy
  have hb0 := hb [o.shape] (List.mem_singleton_self _)
  have e1 : (pacts ++ c1) ++ (c0 ++ [.export q]) = pacts ++ pcoll := by rw [g1, List.append_assoc]
  have hb1 : Pipeline.Busy e.farm (setup (world e pc) s'.z.p) (reader (world e pc) s'.z.p 0) (sentScope sc) n o [o.shape] (pacts ++ c1) (c0 ++ [.export q]) x1 xs' :=
    ⟨hb0.resource, hb0.only, hb0.shape, by rw [e1]; exact hb0.typed, by rw [e1]; exact hb0.few, by rw [Pipeline.run_append', hb0.before]; exact g3, g4⟩
  have hret1 : ∀ i, Returned s.z.s.sync i → i < x1.s.nextOp ∧ (x1.s.op i).pc = .done := by
    intro i hi
    obtain ⟨i1, i2⟩ := hret i hi
    have hreach : Sync.Reachable (Front.realCfg e.farm (setup (world e pc) s'.z.p)) 0 xs.s := ⟨_, Pipeline.run_proj hb0.before⟩
    have mx := Sync.reachable_more hreach
    have hrun := Pipeline.run_proj g3
    have f0 : Sync.Finished xs.s i (xs.s.op i).obs := ⟨i2, rfl⟩
    exact ⟨Nat.lt_of_lt_of_le i1 (Sync.nextOp_run mx hrun), (f0.run mx.full hrun).1⟩
  obtain ⟨pl, k1, k2⟩ := Pipeline.Busy.shown (m := m) hret1 hb1 hx (by intro sh hsh; rw [List.mem_singleton.1 hsh, hw.shape_eq]; exact hk) hr rfl g2
    (by rw [hw.setup_delta]; exact look_cumulative (Or.inl ht)) rfl (by rw [e1]; exact hw.fits ((few_less hc hf).via e pc sel sc))
    (fun a ha => hne a (by rw [hc, ← e1]; exact List.mem_append_left _ ha)) (by rw [hq, hw.describes]; exact hrec)
  have hm := hsent get
  rw [k1, List.map_append, List.map_cons, List.map_nil] at hm
  obtain ⟨front, last, h1, h2, h3⟩ := List.map_eq_append_iff.1 hm
  cases last with
  | nil => simp at h3
  | cons a last =>
    cases last with
    | cons _ _ => simp at h3
    | nil =>
      refine ⟨front, a, h1, ?_⟩
      have : pointsIn get (sentScope sc) n a = pointsIn get (sentScope sc) n pl := by simpa using h3
      rw [this]
      exact k2

end Verif.Props
