import Verif.Props.BusyHinted
import Verif.Props.Failures

/-!
C107 for instruments with hints: what arrives of them when exports fail. `Hints e pref cs p k sc c n L` is as for C95; the rest as in `Verif.Props.Failures`.
-/

namespace Verif.Props
open Verif Verif.Attr Verif.Number Verif.Aggr Verif.Export Verif.Spec Verif.Assembly Verif.Instruments Verif.Delivery Verif.Busy Verif.Failures
open Verif.Launched (Hints FewUpTo Launch world views view recorded_eq Outside Wants)
open Verif.Pipeline (numbers expPoints histPoints sentPoints pointsIn ints NoEmptyList Describes Grouped Shape)
open Verif.Front (IKind)
open Verif.Views (Tempo)
open Verif.Launcher (documented)

variable {C G ν : Type} [DecidableEq C] {lx : Launcher.Ext} {lw : Launcher.World} {opts : List Launcher.Opt} {pref : Launcher.Preference} {pc : Launcher.PipelineConfig}
  {sel : IKind → Tempo} {e : Outside C G} {k : Nat} {sc : Views.Scope} {c : Ctor} {n : Str} {L : Look C} {start : Int} {acts after : List (Delivery.Act ν)}
  {s s' : Delivery.Sys C G ν}

/-- The last payload has a point for each series of a cumulative metric. -/
theorem hinted_shown {D : Type} {get : PData → List D} {Rel : Export.Point → D → Prop} {kinds : DataKind → Prop} {attrs : D → PMap}
    (hx : Pipeline.Extracts get Rel kinds) (hr : ∀ p d, Rel p d → AttrsOf p.attrs (attrs d))
    (hl : Launch lx lw opts pref pc sel) (h : Hints e pref (makes acts) s'.z.p k sc c n L) (hsy : L.sync = true) (hp : Flushes e pc sel start acts after s s')
    (hk : kinds (shapeOf L.kind).kind) (hk' : L.kind ∈ [.monoSum, .nonMonoSum, .gauge, .histogram, .mmsc]) (ht : L.delta = false)
    (hf : FewUpTo L.acfg.limit s'.z.p k n (measured (acts ++ after)))
    (hne : ∀ a ∈ Pipeline.calls (measured (acts ++ after)), NoEmptyList (a.1.attrs a.2.1)) (m : PMap)
    (hrec : returnedBy s'.z.p k n (fun as => Describes none as m) s.z.s.sync ≠ []) :
    ∃ front pl, s'.z.s.sent = front ++ [pl] ∧ (pointsIn get (sentScope sc) n pl).filter (fun d => attrs d = m) ≠ [] := by
  obtain ⟨o, f, pacts, pcoll, xs, xs', more, hw, hb, hret, hc, hq, hbt, -, -, -, -, hsent, c1, c0, q, x1, g1, g2, g3, g4⟩ := hinted_full hl h hsy hp hk'
  have hb0 := hb [o.shape] (List.mem_singleton_self _)
  have e1 : (pacts ++ c1) ++ (c0 ++ [.export q]) = pacts ++ pcoll := by rw [g1, List.append_assoc]
  have hb1 : Pipeline.Busy e.farm (setup (world e pc) s'.z.p) (reader (world e pc) s'.z.p 0) (sentScope sc) n o [o.shape] (pacts ++ c1) (c0 ++ [.export q]) x1 xs' :=
    ⟨hb0.resource, hb0.only, hb0.shape, by rw [e1]; exact hb0.typed, by rw [e1]; exact hb0.few, by rw [Pipeline.run_append', hb0.before]; exact g3, g4⟩
  have hret1 : ∀ i, Returned s.z.s.sync i → i < x1.s.nextOp ∧ (x1.s.op i).pc = .done := by
    intro i hi
    obtain ⟨i1, i2⟩ := hret i hi
    have hreach : Sync.Reachable (Front.realCfg e.farm (setup (world e pc) s'.z.p)) 0 xs.s := ⟨_, Pipeline.run_proj hb0.before⟩
    have mx := Sync.reachable_more hreach
    have hrun := Pipeline.run_proj g3
    have f0 : Sync.Finished xs.s i (xs.s.op i).obs := ⟨i2, rfl⟩
    exact ⟨Nat.lt_of_lt_of_le i1 (Sync.nextOp_run mx hrun), (f0.run mx.full hrun).1⟩
  obtain ⟨pl, k1, k2⟩ := Pipeline.Busy.shown (m := m) hret1 hb1 hx (by intro sh hsh; rw [List.mem_singleton.1 hsh, hw.shape_eq]; exact hk) hr rfl g2
    (by rw [hw.setup_delta]; exact ht) rfl (by rw [e1]; exact hw.fits (L := L) (by rw [h.keys]; exact (fewUpTo_less hc hf).via e pc sel sc))
    (fun a ha => hne a (by rw [hc, ← e1]; exact List.mem_append_left _ ha)) (by rw [hq, hw.describes, h.keys]; exact hrec)
  have hm := hsent get
  rw [k1, List.map_append, List.map_cons, List.map_nil] at hm
  obtain ⟨front, last, h1, h2, h3⟩ := List.map_eq_append_iff.1 hm
  cases last with
  | nil => simp at h3
  | cons a last =>
    cases last with
    | cons _ _ => simp at h3
    | nil =>
      refine ⟨front, a, h1, ?_⟩
      have : pointsIn get (sentScope sc) n a = pointsIn get (sentScope sc) n pl := by simpa using h3
      rw [this]
      exact k2

/-! ### Cumulative -/

/-- C107 (hints, sums of integers, cumulative). Whichever exports before have failed: if the last export succeeds, the last point which arrives with the attributes `m` is as `C112_sum_last` tells of the last point sent. -/
theorem C107_hinted_sum_last (hl : Launch lx lw opts pref pc sel) (h : Hints e pref (makes acts) s'.z.p k sc c n L) (hsy : L.sync = true) (hp : Flushes e pc sel start acts after s s') (hn : L.num = .int64)
    (ha : L.kind = .monoSum ∨ L.kind = .nonMonoSum) (ht : L.delta = false) (hf : FewUpTo L.acfg.limit s'.z.p k n (measured (acts ++ after)))
    (hne : ∀ a ∈ Pipeline.calls (measured (acts ++ after)), NoEmptyList (a.1.attrs a.2.1)) (m : PMap)
    (hrec : returnedBy s'.z.p k n (fun as => Describes none as m) s.z.s.sync ≠ []) {ok : Nat → Bool} (hok : LastArrives ok s'.z.s.sent) :
    ∃ vals, Between (returnedBy s'.z.p k n (fun as => Describes none as m) s.z.s.sync) vals (recordedBy s'.z.p k n (fun as => Describes none as m) (measured (acts ++ after))) ∧
      ((sentPoints numbers (sentScope sc) n (arrived ok s'.z.s.sent)).filter (fun d => d.attrs = m)).getLast?.map (·.value) = some (.int (total64 vals)) := by
  rw [last_arrived (hinted_shown Pipeline.extracts_numbers (attrs := PNumber.attrs) (fun _ _ h => h.1) hl h hsy hp (by rcases ha with ha | ha <;> rw [ha] <;> simp [shapeOf, Shape.kind]) (by rcases ha with ha | ha <;> simp [ha]) ht hf hne m hrec) hok]
  exact C112_sum_last hl h hsy hp hn ha ht hf hne m hrec

/-- C107 (hints, sums of floats, cumulative). -/
theorem C107_hinted_float_last (hl : Launch lx lw opts pref pc sel) (h : Hints e pref (makes acts) s'.z.p k sc c n L) (hsy : L.sync = true) (hp : Flushes e pc sel start acts after s s') (hn : L.num = .float64)
    (ha : L.kind = .monoSum ∨ L.kind = .nonMonoSum) (ht : L.delta = false) (hf : FewUpTo L.acfg.limit s'.z.p k n (measured (acts ++ after)))
    (hne : ∀ a ∈ Pipeline.calls (measured (acts ++ after)), NoEmptyList (a.1.attrs a.2.1)) (m : PMap)
    (hrec : returnedBy s'.z.p k n (fun as => Describes none as m) s.z.s.sync ≠ []) {ok : Nat → Bool} (hok : LastArrives ok s'.z.s.sent) :
    ∃ v vals, Between (returnedBy s'.z.p k n (fun as => Describes none as m) s.z.s.sync) vals (recordedBy s'.z.p k n (fun as => Describes none as m) (measured (acts ++ after))) ∧
      ((sentPoints numbers (sentScope sc) n (arrived ok s'.z.s.sent)).filter (fun d => d.attrs = m)).getLast?.map (·.value) = some (.double v) ∧ SumOf 0 e.fadd v vals := by
  rw [last_arrived (hinted_shown Pipeline.extracts_numbers (attrs := PNumber.attrs) (fun _ _ h => h.1) hl h hsy hp (by rcases ha with ha | ha <;> rw [ha] <;> simp [shapeOf, Shape.kind]) (by rcases ha with ha | ha <;> simp [ha]) ht hf hne m hrec) hok]
  exact C112_float_last hl h hsy hp hn ha ht hf hne m hrec

/-- C107 (hints, histograms, cumulative). -/
theorem C107_hinted_hist_last (hl : Launch lx lw opts pref pc sel) (h : Hints e pref (makes acts) s'.z.p k sc c n L) (hsy : L.sync = true) (hp : Flushes e pc sel start acts after s s')
    (ha : L.kind = .histogram) (ht : L.delta = false) (hf : FewUpTo L.acfg.limit s'.z.p k n (measured (acts ++ after)))
    (hne : ∀ a ∈ Pipeline.calls (measured (acts ++ after)), NoEmptyList (a.1.attrs a.2.1)) (m : PMap)
    (hrec : returnedBy s'.z.p k n (fun as => Describes none as m) s.z.s.sync ≠ []) {ok : Nat → Bool} (hok : LastArrives ok s'.z.s.sent) :
    ∃ d vals, Between (returnedBy s'.z.p k n (fun as => Describes none as m) s.z.s.sync) vals (recordedBy s'.z.p k n (fun as => Describes none as m) (measured (acts ++ after))) ∧
      ((sentPoints expPoints (sentScope sc) n (arrived ok s'.z.s.sent)).filter (fun d => d.attrs = m)).getLast? = some d ∧ ShowsHist (reader (world e pc) s'.z.p 0) (e.hist L.num L.acfg.hist) L.num vals d := by
  rw [last_arrived (hinted_shown Pipeline.extracts_exp (attrs := PExp.attrs) (fun _ _ h => h.2.2.1) hl h hsy hp (by rw [ha]; simp [shapeOf, Shape.kind]) (by simp [ha]) ht hf hne m hrec) hok]
  exact C112_hist_last hl h hsy hp ha ht hf hne m hrec

/-- C107 (hints, min/max/sum/count of floats, cumulative). -/
theorem C107_hinted_mmsc_last (hl : Launch lx lw opts pref pc sel) (h : Hints e pref (makes acts) s'.z.p k sc c n L) (hsy : L.sync = true) (hp : Flushes e pc sel start acts after s s') (hn : L.num = .float64)
    (ha : L.kind = .mmsc) (ht : L.delta = false) (hf : FewUpTo L.acfg.limit s'.z.p k n (measured (acts ++ after)))
    (hne : ∀ a ∈ Pipeline.calls (measured (acts ++ after)), NoEmptyList (a.1.attrs a.2.1)) (m : PMap)
    (hrec : returnedBy s'.z.p k n (fun as => Describes none as m) s.z.s.sync ≠ []) {ok : Nat → Bool} (hok : LastArrives ok s'.z.s.sent) :
    ∃ d vals, Between (returnedBy s'.z.p k n (fun as => Describes none as m) s.z.s.sync) vals (recordedBy s'.z.p k n (fun as => Describes none as m) (measured (acts ++ after))) ∧
      ((sentPoints histPoints (sentScope sc) n (arrived ok s'.z.s.sent)).filter (fun d => d.attrs = m)).getLast? = some d ∧ ShowsStats e.fadd vals d := by
  rw [last_arrived (hinted_shown Pipeline.extracts_mmsc (attrs := PHist.attrs) (fun _ _ h => h.2.2.1) hl h hsy hp (by rw [ha]; simp [shapeOf, Shape.kind]) (by simp [ha]) ht hf hne m hrec) hok]
  exact C112_mmsc_last hl h hsy hp hn ha ht hf hne m hrec

/-- C107 (hints, min/max/sum/count of integers, cumulative). -/
theorem C107_hinted_mmsc_int_last (hl : Launch lx lw opts pref pc sel) (h : Hints e pref (makes acts) s'.z.p k sc c n L) (hsy : L.sync = true) (hp : Flushes e pc sel start acts after s s') (hn : L.num = .int64)
    (ha : L.kind = .mmsc) (ht : L.delta = false) (hf : FewUpTo L.acfg.limit s'.z.p k n (measured (acts ++ after)))
    (hne : ∀ a ∈ Pipeline.calls (measured (acts ++ after)), NoEmptyList (a.1.attrs a.2.1)) (m : PMap)
    (hrec : returnedBy s'.z.p k n (fun as => Describes none as m) s.z.s.sync ≠ []) {ok : Nat → Bool} (hok : LastArrives ok s'.z.s.sent) :
    ∃ d vals, Between (returnedBy s'.z.p k n (fun as => Describes none as m) s.z.s.sync) vals (recordedBy s'.z.p k n (fun as => Describes none as m) (measured (acts ++ after))) ∧
      ((sentPoints histPoints (sentScope sc) n (arrived ok s'.z.s.sent)).filter (fun d => d.attrs = m)).getLast? = some d ∧ ShowsIntStats vals d := by
  rw [last_arrived (hinted_shown Pipeline.extracts_mmsc (attrs := PHist.attrs) (fun _ _ h => h.2.2.1) hl h hsy hp (by rw [ha]; simp [shapeOf, Shape.kind]) (by simp [ha]) ht hf hne m hrec) hok]
  exact C112_mmsc_int_last hl h hsy hp hn ha ht hf hne m hrec

/-- C107 (hints, gauges, cumulative, calls one by one). Whichever exports before have failed: if the last export succeeds, the last point which arrives with the attributes `m` carries the value of a call with them, and no call which had returned before the call of `ForceFlush` or `Shutdown` was made after this one. -/
theorem C107_hinted_gauge_newest (hl : Launch lx lw opts pref pc sel) (h : Hints e pref (makes acts) s'.z.p k sc c n L) (hsy : L.sync = true) (hp : Flushes e pc sel start acts after s s')
    (ha : L.kind = .gauge) (ht : L.delta = false) (hone : Delivery.OneByOne e pc sel start s'.z.p k n (acts ++ after)) (hf : FewUpTo L.acfg.limit s'.z.p k n (measured (acts ++ after)))
    (hne : ∀ a ∈ Pipeline.calls (measured (acts ++ after)), NoEmptyList (a.1.attrs a.2.1)) (m : PMap)
    (hrec : returnedBy s'.z.p k n (fun as => Describes none as m) s.z.s.sync ≠ []) {ok : Nat → Bool} (hok : LastArrives ok s'.z.s.sent) :
    ∃ d pre b post, recordedBy s'.z.p k n (fun as => Describes none as m) (measured (acts ++ after)) = pre ++ b :: post ∧
      (returnedBy s'.z.p k n (fun as => Describes none as m) s.z.s.sync).Sublist (pre ++ [b]) ∧
      ((sentPoints numbers (sentScope sc) n (arrived ok s'.z.s.sent)).filter (fun d => d.attrs = m)).getLast? = some d ∧ NumOf L.num b d.value := by
  rw [last_arrived (hinted_shown Pipeline.extracts_numbers (attrs := PNumber.attrs) (fun _ _ h => h.1) hl h hsy hp (by rw [ha]; simp [shapeOf, Shape.kind]) (by simp [ha]) ht hf hne m hrec) hok]
  exact C112_gauge_newest hl h hsy hp ha ht hone hf hne m hrec

/-- If all calls have returned before `ForceFlush` or `Shutdown` is called, all values recorded are those of calls which have returned. -/
theorem hinted_returned (hl : Launch lx lw opts pref pc sel) (h : Hints e pref (makes acts) s'.z.p k sc c n L) (hsy : L.sync = true) (hp : Closes e pc sel start acts after s s')
    (hk : L.kind ∈ [.monoSum, .nonMonoSum, .gauge, .histogram, .mmsc]) (Q : List KV → Prop) : returnedBy s'.z.p k n Q s.z.s.sync = recordedBy s'.z.p k n Q (measured acts) := by
  have hfl := closing_flushes hp
  have hv := h.viewed hl (busy_made hfl)
  obtain ⟨o, f, pacts, pcoll, xs, xs', more, h1, h2, h3, h4, -⟩ := Flushing.pipeline hfl hv hsy
  have hb := h2 [o.shape] (List.mem_singleton_self _)
  have hc : Sync.CallsAre s.z.s.sync (Pipeline.started pacts) := by
    rw [← h3]
    simp only [List.mem_cons, List.not_mem_nil, or_false] at hk
    rcases hk with hk | hk | hk | hk | hk
    · exact hb.calls_before Pipeline.extracts_numbers (by rw [h1.shape_eq, hk]; simp [shapeOf, Shape.kind])
    · exact hb.calls_before Pipeline.extracts_numbers (by rw [h1.shape_eq, hk]; simp [shapeOf, Shape.kind])
    · exact hb.calls_before Pipeline.extracts_numbers (by rw [h1.shape_eq, hk]; simp [shapeOf, Shape.kind])
    · exact hb.calls_before Pipeline.extracts_exp (by rw [h1.shape_eq, hk]; simp [shapeOf, Shape.kind])
    · exact hb.calls_before Pipeline.extracts_mmsc (by rw [h1.shape_eq, hk]; simp [shapeOf, Shape.kind])
  rw [← returned_eq (s := s.z.s.sync) (z := s.z.s.sync) h1 ⟨Nat.le_refl _, fun _ _ => ⟨rfl, rfl, rfl⟩⟩ Q]
  have h5 := Pipeline.recordedOn_ids (farm := e.farm) (u := setup (world e pc) s'.z.p) hc o.leaf Q
  rw [Pipeline.idsOn_eq, h1.recorded, recorded_eq] at h5
  have h6 : recordedBy s'.z.p k n Q pacts = recordedBy s'.z.p k n Q (measured acts) := by unfold recordedBy; rw [h4]
  rw [← h6, ← h5]
  unfold Pipeline.returnedOn
  congr 1
  rw [List.filter_eq_self]
  intro i hi
  obtain ⟨j, hj, h7⟩ := List.mem_flatMap.1 hi
  have hij : i = j := by
    split at h7
    · exact (List.mem_replicate.1 h7).2
    · cases h7
  have hlt := List.mem_range.1 hj
  subst hij
  exact @decide_eq_true _ (Classical.propDecidable _) ⟨hlt, hp.returned i hlt⟩

/-- C107 (hints, sums of integers, cumulative, all calls have returned). What arrives last is the total of all values recorded. -/
theorem C107_hinted_sum_all (hl : Launch lx lw opts pref pc sel) (h : Hints e pref (makes acts) s'.z.p k sc c n L) (hsy : L.sync = true) (hp : Closes e pc sel start acts after s s') (hn : L.num = .int64)
    (ha : L.kind = .monoSum ∨ L.kind = .nonMonoSum) (ht : L.delta = false) (hf : FewUpTo L.acfg.limit s'.z.p k n (measured acts))
    (hne : ∀ a ∈ Pipeline.calls (measured acts), NoEmptyList (a.1.attrs a.2.1)) (m : PMap)
    (hrec : recordedBy s'.z.p k n (fun as => Describes none as m) (measured acts) ≠ []) {ok : Nat → Bool} (hok : LastArrives ok s'.z.s.sent) :
    ((sentPoints numbers (sentScope sc) n (arrived ok s'.z.s.sent)).filter (fun d => d.attrs = m)).getLast?.map (·.value) =
      some (.int (total64 (recordedBy s'.z.p k n (fun as => Describes none as m) (measured acts)))) := by
  have hr := hinted_returned hl h hsy hp (by rcases ha with ha | ha <;> simp [ha]) (fun as => Describes none as m)
  obtain ⟨vals, h1, h2⟩ := C107_hinted_sum_last hl h hsy (closing_flushes hp) hn ha ht (by rw [closing_measured hp]; exact hf) (by rw [closing_measured hp]; exact hne) m (by rw [hr]; exact hrec) hok
  rw [hr, closing_measured hp] at h1
  rw [h2, total64_perm h1.exact]

/-- C107 (hints, sums of floats, cumulative, all calls have returned). What arrives last shows all values recorded, each once. -/
theorem C107_hinted_float_all (hl : Launch lx lw opts pref pc sel) (h : Hints e pref (makes acts) s'.z.p k sc c n L) (hsy : L.sync = true) (hp : Closes e pc sel start acts after s s') (hn : L.num = .float64)
    (ha : L.kind = .monoSum ∨ L.kind = .nonMonoSum) (ht : L.delta = false) (hf : FewUpTo L.acfg.limit s'.z.p k n (measured acts))
    (hne : ∀ a ∈ Pipeline.calls (measured acts), NoEmptyList (a.1.attrs a.2.1)) (m : PMap)
    (hrec : recordedBy s'.z.p k n (fun as => Describes none as m) (measured acts) ≠ []) {ok : Nat → Bool} (hok : LastArrives ok s'.z.s.sent) :
    ∃ v vals, vals.Perm (recordedBy s'.z.p k n (fun as => Describes none as m) (measured acts)) ∧
      ((sentPoints numbers (sentScope sc) n (arrived ok s'.z.s.sent)).filter (fun d => d.attrs = m)).getLast?.map (·.value) = some (.double v) ∧ SumOf 0 e.fadd v vals := by
  have hr := hinted_returned hl h hsy hp (by rcases ha with ha | ha <;> simp [ha]) (fun as => Describes none as m)
  obtain ⟨v, vals, h1, h2⟩ := C107_hinted_float_last hl h hsy (closing_flushes hp) hn ha ht (by rw [closing_measured hp]; exact hf) (by rw [closing_measured hp]; exact hne) m (by rw [hr]; exact hrec) hok
  rw [hr, closing_measured hp] at h1
  exact ⟨v, vals, h1.exact, h2⟩

/-- C107 (hints, histograms, cumulative, all calls have returned). What arrives last shows all values recorded, each once. -/
theorem C107_hinted_hist_all (hl : Launch lx lw opts pref pc sel) (h : Hints e pref (makes acts) s'.z.p k sc c n L) (hsy : L.sync = true) (hp : Closes e pc sel start acts after s s')
    (ha : L.kind = .histogram) (ht : L.delta = false) (hf : FewUpTo L.acfg.limit s'.z.p k n (measured acts))
    (hne : ∀ a ∈ Pipeline.calls (measured acts), NoEmptyList (a.1.attrs a.2.1)) (m : PMap)
    (hrec : recordedBy s'.z.p k n (fun as => Describes none as m) (measured acts) ≠ []) {ok : Nat → Bool} (hok : LastArrives ok s'.z.s.sent) :
    ∃ d vals, vals.Perm (recordedBy s'.z.p k n (fun as => Describes none as m) (measured acts)) ∧
      ((sentPoints expPoints (sentScope sc) n (arrived ok s'.z.s.sent)).filter (fun d => d.attrs = m)).getLast? = some d ∧ ShowsHist (reader (world e pc) s'.z.p 0) (e.hist L.num L.acfg.hist) L.num vals d := by
  have hr := hinted_returned hl h hsy hp (by simp [ha]) (fun as => Describes none as m)
  obtain ⟨d, vals, h1, h2⟩ := C107_hinted_hist_last hl h hsy (closing_flushes hp) ha ht (by rw [closing_measured hp]; exact hf) (by rw [closing_measured hp]; exact hne) m (by rw [hr]; exact hrec) hok
  rw [hr, closing_measured hp] at h1
  exact ⟨d, vals, h1.exact, h2⟩

/-- C107 (hints, min/max/sum/count of floats, cumulative, all calls have returned). What arrives last shows all values recorded, each once. -/
theorem C107_hinted_mmsc_all (hl : Launch lx lw opts pref pc sel) (h : Hints e pref (makes acts) s'.z.p k sc c n L) (hsy : L.sync = true) (hp : Closes e pc sel start acts after s s') (hn : L.num = .float64)
    (ha : L.kind = .mmsc) (ht : L.delta = false) (hf : FewUpTo L.acfg.limit s'.z.p k n (measured acts))
    (hne : ∀ a ∈ Pipeline.calls (measured acts), NoEmptyList (a.1.attrs a.2.1)) (m : PMap)
    (hrec : recordedBy s'.z.p k n (fun as => Describes none as m) (measured acts) ≠ []) {ok : Nat → Bool} (hok : LastArrives ok s'.z.s.sent) :
    ∃ d vals, vals.Perm (recordedBy s'.z.p k n (fun as => Describes none as m) (measured acts)) ∧
      ((sentPoints histPoints (sentScope sc) n (arrived ok s'.z.s.sent)).filter (fun d => d.attrs = m)).getLast? = some d ∧ ShowsStats e.fadd vals d := by
  have hr := hinted_returned hl h hsy hp (by simp [ha]) (fun as => Describes none as m)
  obtain ⟨d, vals, h1, h2⟩ := C107_hinted_mmsc_last hl h hsy (closing_flushes hp) hn ha ht (by rw [closing_measured hp]; exact hf) (by rw [closing_measured hp]; exact hne) m (by rw [hr]; exact hrec) hok
  rw [hr, closing_measured hp] at h1
  exact ⟨d, vals, h1.exact, h2⟩

/-- C107 (hints, min/max/sum/count of integers, cumulative, all calls have returned). What arrives last shows all values recorded, each once. -/
theorem C107_hinted_mmsc_int_all (hl : Launch lx lw opts pref pc sel) (h : Hints e pref (makes acts) s'.z.p k sc c n L) (hsy : L.sync = true) (hp : Closes e pc sel start acts after s s') (hn : L.num = .int64)
    (ha : L.kind = .mmsc) (ht : L.delta = false) (hf : FewUpTo L.acfg.limit s'.z.p k n (measured acts))
    (hne : ∀ a ∈ Pipeline.calls (measured acts), NoEmptyList (a.1.attrs a.2.1)) (m : PMap)
    (hrec : recordedBy s'.z.p k n (fun as => Describes none as m) (measured acts) ≠ []) {ok : Nat → Bool} (hok : LastArrives ok s'.z.s.sent) :
    ∃ d vals, vals.Perm (recordedBy s'.z.p k n (fun as => Describes none as m) (measured acts)) ∧
      ((sentPoints histPoints (sentScope sc) n (arrived ok s'.z.s.sent)).filter (fun d => d.attrs = m)).getLast? = some d ∧ ShowsIntStats vals d := by
  have hr := hinted_returned hl h hsy hp (by simp [ha]) (fun as => Describes none as m)
  obtain ⟨d, vals, h1, h2⟩ := C107_hinted_mmsc_int_last hl h hsy (closing_flushes hp) hn ha ht (by rw [closing_measured hp]; exact hf) (by rw [closing_measured hp]; exact hne) m (by rw [hr]; exact hrec) hok
  rw [hr, closing_measured hp] at h1
  exact ⟨d, vals, h1.exact, h2⟩

/-- No calls are made meanwhile, so calls made one by one stay so. -/
theorem closing_oneByOne (hp : Closes e pc sel start acts after s s') (h : Delivery.OneByOne e pc sel start s'.z.p k n acts) :
    Delivery.OneByOne e pc sel start s'.z.p k n (acts ++ after) := by
  intro before i kvs b af y h1 h2
  have no : ∀ l r, after ≠ l ++ .call i kvs b :: r := by
    intro l r hlr
    have hm := hp.quiet.2
    have : Pipeline.Act.call i kvs b ∈ measured after := by
      rw [hlr, measured]
      simp
    rw [hm] at this
    cases this
  rcases List.append_eq_append_iff.1 h1 with ⟨l, g1, g2⟩ | ⟨l, g1, g2⟩
  · exact absurd g2 (no l af)
  · cases l with
    | nil => exact absurd g2.symm (no [] af)
    | cons x l =>
      rw [List.cons_append, List.cons.injEq] at g2
      exact h before i kvs b l y (by rw [g1, ← g2.1]) h2

/-- C107 (hints, gauges, cumulative, calls one by one, all calls have returned). What arrives last is the value recorded last. -/
theorem C107_hinted_gauge_all (hl : Launch lx lw opts pref pc sel) (h : Hints e pref (makes acts) s'.z.p k sc c n L) (hsy : L.sync = true) (hp : Closes e pc sel start acts after s s')
    (ha : L.kind = .gauge) (ht : L.delta = false) (hone : Delivery.OneByOne e pc sel start s'.z.p k n acts) (hf : FewUpTo L.acfg.limit s'.z.p k n (measured acts))
    (hne : ∀ a ∈ Pipeline.calls (measured acts), NoEmptyList (a.1.attrs a.2.1)) (m : PMap)
    (hrec : recordedBy s'.z.p k n (fun as => Describes none as m) (measured acts) ≠ []) {ok : Nat → Bool} (hok : LastArrives ok s'.z.s.sent) :
    ∃ d b, (recordedBy s'.z.p k n (fun as => Describes none as m) (measured acts)).getLast? = some b ∧
      ((sentPoints numbers (sentScope sc) n (arrived ok s'.z.s.sent)).filter (fun d => d.attrs = m)).getLast? = some d ∧ NumOf L.num b d.value := by
  have hr := hinted_returned hl h hsy hp (by simp [ha]) (fun as => Describes none as m)
  obtain ⟨d, pre, b, post, h1, h2, h3, h4⟩ := C107_hinted_gauge_newest hl h hsy (closing_flushes hp) ha ht (closing_oneByOne hp hone) (by rw [closing_measured hp]; exact hf) (by rw [closing_measured hp]; exact hne) m
    (by rw [hr]; exact hrec) hok
  rw [closing_measured hp] at h1
  rw [hr, h1] at h2
  have hlen := h2.length_le
  simp only [List.length_append, List.length_cons, List.length_nil] at hlen
  obtain rfl : post = [] := List.length_eq_zero_iff.1 (by omega)
  exact ⟨d, b, by rw [h1]; simp, h3, h4⟩

/-! ### Delta -/

/-- C107 (hints, sums of integers, delta). The values recorded with the attributes `m` are divided into groups, without overlap: each point which arrives with these attributes is the sum of one group. So nothing arrives twice. Missing: with delta, values may not arrive at all, see `C107_delta_fails`. -/
theorem C107_hinted_int_sent_partial (hl : Launch lx lw opts pref pc sel) (h : Hints e pref (makes acts) s'.z.p k sc c n L) (hsy : L.sync = true) (hp : Flushes e pc sel start acts after s s') (hn : L.num = .int64)
    (ha : L.kind = .monoSum ∨ L.kind = .nonMonoSum) (ht : L.delta = true) (hf : FewUpTo L.acfg.limit s'.z.p k n (measured (acts ++ after))) (m : PMap) (ok : Nat → Bool) :
    ∃ gs : List (List Bits), Among gs.flatten (recordedBy s'.z.p k n (fun as => Describes none as m) (measured (acts ++ after))) ∧
      Pointwise (fun g d => d.value = .int (total64 g)) gs ((sentPoints numbers (sentScope sc) n (arrived ok s'.z.s.sent)).filter (fun d => d.attrs = m)) := by
  obtain ⟨gs, zs, h1, h2, -⟩ := C112_int_sent hl h hsy hp hn ha ht hf m
  obtain ⟨gs', h3, h4⟩ := pointwise_sublist h2 ((points_sublist (arrived_sublist ok s'.z.s.sent)).filter _)
  refine ⟨gs', ?_, h4⟩
  refine ((among_sublist (flatten_sublist h3)).trans ?_).trans h1.among
  rw [List.flatten_append]
  exact among_append ..

/-- C107 (hints, sums of floats, delta). -/
theorem C107_hinted_float_sent_partial (hl : Launch lx lw opts pref pc sel) (h : Hints e pref (makes acts) s'.z.p k sc c n L) (hsy : L.sync = true) (hp : Flushes e pc sel start acts after s s') (hn : L.num = .float64)
    (ha : L.kind = .monoSum ∨ L.kind = .nonMonoSum) (ht : L.delta = true) (hf : FewUpTo L.acfg.limit s'.z.p k n (measured (acts ++ after))) (m : PMap) (ok : Nat → Bool) :
    ∃ gs : List (List Bits), Among gs.flatten (recordedBy s'.z.p k n (fun as => Describes none as m) (measured (acts ++ after))) ∧
      Pointwise (fun g d => ∃ v, SumOf 0 e.fadd v g ∧ d.value = .double v ∧ scaled v ≠ 0) gs ((sentPoints numbers (sentScope sc) n (arrived ok s'.z.s.sent)).filter (fun d => d.attrs = m)) := by
  obtain ⟨gs, zs, h1, h2, -⟩ := C112_float_sent hl h hsy hp hn ha ht hf m
  obtain ⟨gs', h3, h4⟩ := pointwise_sublist h2 ((points_sublist (arrived_sublist ok s'.z.s.sent)).filter _)
  refine ⟨gs', ?_, h4⟩
  refine ((among_sublist (flatten_sublist h3)).trans ?_).trans h1.among
  rw [List.flatten_append]
  exact among_append ..

/-- C107 (hints, histograms, delta). The same: nothing arrives twice. -/
theorem C107_hinted_hist_sent_partial (hl : Launch lx lw opts pref pc sel) (h : Hints e pref (makes acts) s'.z.p k sc c n L) (hsy : L.sync = true) (hp : Flushes e pc sel start acts after s s')
    (ha : L.kind = .histogram) (ht : L.delta = true) (hcn : Counts (e.hist L.num L.acfg.hist)) (hf : FewUpTo L.acfg.limit s'.z.p k n (measured (acts ++ after))) (m : PMap) (ok : Nat → Bool) :
    ∃ gs : List (List Bits), Among gs.flatten (recordedBy s'.z.p k n (fun as => Describes none as m) (measured (acts ++ after))) ∧
      Pointwise (ShowsHist (reader (world e pc) s'.z.p 0) (e.hist L.num L.acfg.hist) L.num) gs ((sentPoints expPoints (sentScope sc) n (arrived ok s'.z.s.sent)).filter (fun d => d.attrs = m)) := by
  obtain ⟨vals, h1, gs, h5, h2⟩ := C112_hist_sent hl h hsy hp ha ht hcn hf m
  obtain ⟨gs', h3, h4⟩ := pointwise_sublist h2 ((points_sublist (arrived_sublist ok s'.z.s.sent)).filter _)
  exact ⟨gs', ((among_sublist (flatten_sublist h3)).trans (among_perm h5)).trans h1.among, h4⟩

/-- C107 (hints, min/max/sum/count of floats, delta). -/
theorem C107_hinted_mmsc_sent_partial (hl : Launch lx lw opts pref pc sel) (h : Hints e pref (makes acts) s'.z.p k sc c n L) (hsy : L.sync = true) (hp : Flushes e pc sel start acts after s s') (hn : L.num = .float64)
    (ha : L.kind = .mmsc) (ht : L.delta = true) (hf : FewUpTo L.acfg.limit s'.z.p k n (measured (acts ++ after))) (m : PMap) (ok : Nat → Bool) :
    ∃ gs : List (List Bits), Among gs.flatten (recordedBy s'.z.p k n (fun as => Describes none as m) (measured (acts ++ after))) ∧
      Pointwise (ShowsStats e.fadd) gs ((sentPoints histPoints (sentScope sc) n (arrived ok s'.z.s.sent)).filter (fun d => d.attrs = m)) := by
  obtain ⟨vals, h1, gs, h5, h2⟩ := C112_mmsc_sent hl h hsy hp hn ha ht hf m
  obtain ⟨gs', h3, h4⟩ := pointwise_sublist h2 ((points_sublist (arrived_sublist ok s'.z.s.sent)).filter _)
  exact ⟨gs', ((among_sublist (flatten_sublist h3)).trans (among_perm h5)).trans h1.among, h4⟩

/-- C107 (hints, min/max/sum/count of integers, delta). -/
theorem C107_hinted_mmsc_int_sent_partial (hl : Launch lx lw opts pref pc sel) (h : Hints e pref (makes acts) s'.z.p k sc c n L) (hsy : L.sync = true) (hp : Flushes e pc sel start acts after s s') (hn : L.num = .int64)
    (ha : L.kind = .mmsc) (ht : L.delta = true) (hf : FewUpTo L.acfg.limit s'.z.p k n (measured (acts ++ after))) (m : PMap) (ok : Nat → Bool) :
    ∃ gs : List (List Bits), Among gs.flatten (recordedBy s'.z.p k n (fun as => Describes none as m) (measured (acts ++ after))) ∧
      Pointwise ShowsIntStats gs ((sentPoints histPoints (sentScope sc) n (arrived ok s'.z.s.sent)).filter (fun d => d.attrs = m)) := by
  obtain ⟨vals, h1, gs, h5, h2⟩ := C112_mmsc_int_sent hl h hsy hp hn ha ht hf m
  obtain ⟨gs', h3, h4⟩ := pointwise_sublist h2 ((points_sublist (arrived_sublist ok s'.z.s.sent)).filter _)
  exact ⟨gs', ((among_sublist (flatten_sublist h3)).trans (among_perm h5)).trans h1.among, h4⟩

/-- C107 (hints, gauges, delta). -/
theorem C107_hinted_gauge_sent_partial (hl : Launch lx lw opts pref pc sel) (h : Hints e pref (makes acts) s'.z.p k sc c n L) (hsy : L.sync = true) (hp : Flushes e pc sel start acts after s s')
    (ha : L.kind = .gauge) (ht : L.delta = true) (hf : FewUpTo L.acfg.limit s'.z.p k n (measured (acts ++ after))) (m : PMap) (ok : Nat → Bool) :
    ∃ gs : List (List Bits), Among gs.flatten (recordedBy s'.z.p k n (fun as => Describes none as m) (measured (acts ++ after))) ∧
      Pointwise (fun g d => ∃ b ∈ g, NumOf L.num b d.value) gs ((sentPoints numbers (sentScope sc) n (arrived ok s'.z.s.sent)).filter (fun d => d.attrs = m)) := by
  obtain ⟨vals, h1, gs, h5, h2⟩ := C112_gauge_sent hl h hsy hp ha ht hf m
  obtain ⟨gs', h3, h4⟩ := pointwise_sublist h2 ((points_sublist (arrived_sublist ok s'.z.s.sent)).filter _)
  exact ⟨gs', ((among_sublist (flatten_sublist h3)).trans (among_perm h5)).trans h1.among, h4⟩

/-- C107 (hints, gauges, delta, calls one by one). The groups are each in the order of the calls, and each point which arrives with the attributes `m` carries the last value of one group. Missing: with delta, values may not arrive at all, see `C107_delta_fails`. -/
theorem C107_hinted_gauge_sent_newest_partial (hl : Launch lx lw opts pref pc sel) (h : Hints e pref (makes acts) s'.z.p k sc c n L) (hsy : L.sync = true) (hp : Flushes e pc sel start acts after s s')
    (ha : L.kind = .gauge) (ht : L.delta = true) (hone : Delivery.OneByOne e pc sel start s'.z.p k n (acts ++ after)) (hf : FewUpTo L.acfg.limit s'.z.p k n (measured (acts ++ after))) (m : PMap)
    (ok : Nat → Bool) :
    ∃ gs : List (List Bits), Among gs.flatten (recordedBy s'.z.p k n (fun as => Describes none as m) (measured (acts ++ after))) ∧
      (∀ g ∈ gs, g.Sublist (recordedBy s'.z.p k n (fun as => Describes none as m) (measured (acts ++ after)))) ∧
      Pointwise (fun g d => ∃ b, g.getLast? = some b ∧ NumOf L.num b d.value) gs ((sentPoints numbers (sentScope sc) n (arrived ok s'.z.s.sent)).filter (fun d => d.attrs = m)) := by
  obtain ⟨gs, h1, h5, h2⟩ := C112_gauge_sent_newest hl h hsy hp ha ht hone hf m
  obtain ⟨gs', h3, h4⟩ := pointwise_sublist h2 ((points_sublist (arrived_sublist ok s'.z.s.sent)).filter _)
  exact ⟨gs', (among_sublist (flatten_sublist h3)).trans h1.among, fun g hg => h5 g (h3.subset hg), h4⟩

/-! ### Examples -/

section Examples
open Verif.Examples Verif.Examples.Asm
open Verif.Views (lit AggKind Hint aggregationWords Implemented)

/-- What the examples have in common. -/
theorem c107_hinted {a : Launcher.Preference} {m : Ln.Made} {l : Dl.Last} {h : Hint} {L : Look Nat} {lim : Nat} {P : Delivery.Sys Nat (List Bits) Nat → Prop} (he : Dl.evaluated a m l = true)
    (hb : Dl.hasB a m l (lit "n") = true)
    (hu : L.unit = lit "s") (hk : L.keys = none) (ht : (123 : UInt8) ∈ m.2.text) (hh : ViewEx.x.parseHint m.2.text = some h) (hw : Wants Ln.out a m.1 h L) (hlim : 3 < lim)
    (hP : ∃ q, Dl.stages a m l = some q ∧ (firstB a m l q.1 = true ∧ q.2.z.s.sent.length = 2 ∧ P q.2)) :
    ∃ s s', Dl.stages a m l = some (s, s') ∧ Closes Ln.out (Ln.pc a) (documented a) 1 (Dl.acts m l) (Dl.after a m l) s s' ∧
      Flushes Ln.out (Ln.pc a) (documented a) 1 (Dl.acts m l) (Dl.after a m l) s s' ∧ s'.z.p = Dl.p a m l ∧
      Hints Ln.out a (makes (Dl.acts m l)) s'.z.p 0 scA m.1 (lit "n") L ∧ FewUpTo lim s'.z.p 0 (lit "n") (measured (Dl.acts m l ++ Dl.after a m l)) ∧
      (∀ e ∈ Pipeline.calls (measured (Dl.acts m l ++ Dl.after a m l)), NoEmptyList (e.1.attrs e.2.1)) ∧
      returnedBy s'.z.p 0 (lit "n") (fun as => Describes none as ma) s.z.s.sync ≠ [] ∧ LastArrives (fun i => decide (i = 1)) s'.z.s.sent ∧ P s' := by
  obtain ⟨s, s', h1, h2, -, h3⟩ := Dl.of_evaluated he
  obtain ⟨q, e1, e2, e3, e4⟩ := hP
  obtain rfl : (s, s') = q := by rw [h1] at e1; exact Option.some.inj e1
  have h4 := closing_measured h3
  refine ⟨s, s', h1, h3, closing_flushes h3, h2, ?_, ?_, ?_, ?_, by unfold LastArrives; rw [e3]; rfl, e4⟩
  · rw [h2]; exact c97_hints hb hu hk ht hh hw
  · rw [h4, h2]; exact c97_few hlim
  · rw [h4]; exact Dl.noEmpty
  · rw [h2]; exact c107_returned e2

/-- "cumulative": a histogram of integers with the hint `minmaxsumcount`. The first export fails; what arrives shows both values with the attributes `ma`. -/
example : ∃ s s', Dl.stages .cumulative (.int64Histogram, .stats) .flush = some (s, s') ∧
    Closes Ln.out (Ln.pc .cumulative) (documented .cumulative) 1 (Dl.acts (.int64Histogram, .stats) .flush) (Dl.after .cumulative (.int64Histogram, .stats) .flush) s s' ∧
    (∃ d vals, Between (returnedBy s'.z.p 0 (lit "n") (fun as => Describes none as ma) s.z.s.sync) vals (recordedBy s'.z.p 0 (lit "n") (fun as => Describes none as ma) (measured (Dl.acts (.int64Histogram, .stats) .flush ++ Dl.after .cumulative (.int64Histogram, .stats) .flush))) ∧
      ((sentPoints histPoints (sentScope scA) (lit "n") (arrived (fun i => decide (i = 1)) s'.z.s.sent)).filter (fun d => d.attrs = ma)).getLast? = some d ∧ ShowsIntStats vals d) ∧
    (sentPoints histPoints (sentScope scA) (lit "n") (arrived (fun i => decide (i = 1)) s'.z.s.sent)).map (fun d => (d.count, d.sum)) = [(1, 0x4014000000000000), (2, 0x4022000000000000)] := by
  obtain ⟨s, s', h1, hc, h3, hp, h4, h5, h6, h7, hok, e2⟩ := c107_hinted (a := .cumulative) (m := (.int64Histogram, .stats)) (l := .flush) (L := c95Look .int64Histogram .mmsc false ⟨160, 2000⟩)
    (P := fun s' => (sentPoints histPoints (sentScope scA) (lit "n") (arrived (fun i => decide (i = 1)) s'.z.s.sent)).map (fun d => (d.count, d.sum)) = [(1, 0x4014000000000000), (2, 0x4022000000000000)])
    (by decide +kernel) (by decide +kernel) rfl rfl (show (123 : UInt8) ∈ lit "{minmaxsumcount" by decide +kernel) c95_stats
    (c95_wants (show lit "minmaxsumcount" ≠ [] by decide +kernel) (show (lit "minmaxsumcount", _) ∈ _ by decide +kernel) (by simp [Implemented, Ctor.kinds, Front.IKind.synchronous]) (.inl rfl) (by decide +kernel) rfl rfl)
    (show 3 < 2000 by decide) (exists_of_eval (by decide +kernel))
  exact ⟨s, s', h1, hc, C107_hinted_mmsc_int_last (Ln.launch .cumulative) h4 rfl h3 rfl rfl rfl h5 h6 ma h7 hok, e2⟩

/-- "cumulative": a counter of floats shown as a gauge. -/
example : ∃ s s', Dl.stages .cumulative (.float64Counter, .gauge) .shutdown = some (s, s') ∧
    (∃ d pre b post, (recordedBy s'.z.p 0 (lit "n") (fun as => Describes none as ma) (measured (Dl.acts (.float64Counter, .gauge) .shutdown ++ Dl.after .cumulative (.float64Counter, .gauge) .shutdown))) = pre ++ b :: post ∧ (returnedBy s'.z.p 0 (lit "n") (fun as => Describes none as ma) s.z.s.sync).Sublist (pre ++ [b]) ∧
      ((sentPoints numbers (sentScope scA) (lit "n") (arrived (fun i => decide (i = 1)) s'.z.s.sent)).filter (fun d => d.attrs = ma)).getLast? = some d ∧ NumOf .float64 b d.value) ∧
    (sentPoints numbers (sentScope scA) (lit "n") (arrived (fun i => decide (i = 1)) s'.z.s.sent)).map (·.value) = [.double 5, .double 2] := by
  obtain ⟨s, s', h1, hc, h3, hp, h4, h5, h6, h7, hok, e2⟩ := c107_hinted (a := .cumulative) (m := (.float64Counter, .gauge)) (l := .shutdown) (L := c95Look .float64Counter .gauge false ⟨160, 2000⟩)
    (P := fun s' => (sentPoints numbers (sentScope scA) (lit "n") (arrived (fun i => decide (i = 1)) s'.z.s.sent)).map (·.value) = [.double 5, .double 2])
    (by decide +kernel) (by decide +kernel) rfl rfl (show (123 : UInt8) ∈ lit "{gauge" by decide +kernel) c95_gauge
    (c95_wants (show lit "gauge" ≠ [] by decide +kernel) (show (lit "gauge", _) ∈ _ by decide +kernel) (by simp [Implemented, Ctor.kinds, Front.IKind.synchronous]) (.inl rfl) (by decide +kernel) rfl rfl)
    (show 3 < 2000 by decide) (exists_of_eval (by decide +kernel))
  exact ⟨s, s', h1, C107_hinted_gauge_newest (L := c95Look .float64Counter .gauge false ⟨160, 2000⟩) (Ln.launch .cumulative) h4 rfl h3 rfl rfl (by
    rw [hp]
    intro before i kvs b af y g1 g2 _ j hj _
    exact Dl.quietB_spec (a := .cumulative) (x := Dl.initial .cumulative (.float64Counter, .gauge) .shutdown) (by decide +kernel) before i kvs b af y g1 g2 j hj) h5 h6 ma h7 hok, e2⟩

/-- "cumulative": an up-down counter with a hint for delta temporality. The first export fails, and only the 2 arrives. -/
example : ∃ s s', Dl.stages .cumulative (.int64UpDownCounter, .deltas) .shutdown = some (s, s') ∧
    (∃ gs : List (List Bits), Among gs.flatten (recordedBy s'.z.p 0 (lit "n") (fun as => Describes none as ma) (measured (Dl.acts (.int64UpDownCounter, .deltas) .shutdown ++ Dl.after .cumulative (.int64UpDownCounter, .deltas) .shutdown))) ∧
      Pointwise (fun g d => d.value = .int (total64 g)) gs ((sentPoints numbers (sentScope scA) (lit "n") (arrived (fun i => decide (i = 1)) s'.z.s.sent)).filter (fun d => d.attrs = ma))) ∧
    (sentPoints numbers (sentScope scA) (lit "n") (arrived (fun i => decide (i = 1)) s'.z.s.sent)).map (·.value) = [.int 2] := by
  obtain ⟨s, s', h1, hc, h3, hp, h4, h5, h6, h7, hok, e2⟩ := c107_hinted (a := .cumulative) (m := (.int64UpDownCounter, .deltas)) (l := .shutdown) (L := c95Look .int64UpDownCounter .monoSum true ⟨7, 5⟩)
    (P := fun s' => (sentPoints numbers (sentScope scA) (lit "n") (arrived (fun i => decide (i = 1)) s'.z.s.sent)).map (·.value) = [.int 2])
    (by decide +kernel) (by decide +kernel) rfl rfl (show (123 : UInt8) ∈ lit "{!monotonic_sum" by decide +kernel) c95_deltas
    (c95_wants (show lit "monotonic_sum" ≠ [] by decide +kernel) (show (lit "monotonic_sum", _) ∈ _ by decide +kernel) (by simp [Implemented, Ctor.kinds, Front.IKind.synchronous]) (.inr rfl) (by decide +kernel) rfl rfl)
    (show 3 < 5 by decide) (exists_of_eval (by decide +kernel))
  exact ⟨s, s', h1, C107_hinted_int_sent_partial (Ln.launch .cumulative) h4 rfl h3 rfl (.inl rfl) rfl h5 ma _, e2⟩

/-- "cumulative": an up-down counter with the hint `monotonic_sum`. The first export fails; what arrives are the sums of all values. -/
example : ∃ s s', Dl.stages .cumulative (.int64UpDownCounter, .sums) .flush = some (s, s') ∧
    (∃ vals, Between (returnedBy s'.z.p 0 (lit "n") (fun as => Describes none as ma) s.z.s.sync) vals (recordedBy s'.z.p 0 (lit "n") (fun as => Describes none as ma) (measured (Dl.acts (.int64UpDownCounter, .sums) .flush ++ Dl.after .cumulative (.int64UpDownCounter, .sums) .flush))) ∧
      ((sentPoints numbers (sentScope scA) (lit "n") (arrived (fun i => decide (i = 1)) s'.z.s.sent)).filter (fun d => d.attrs = ma)).getLast?.map (·.value) = some (.int (total64 vals))) ∧
    (sentPoints numbers (sentScope scA) (lit "n") (arrived (fun i => decide (i = 1)) s'.z.s.sent)).map (·.value) = [.int 5, .int 9] := by
  obtain ⟨s, s', h1, hc, h3, hp, h4, h5, h6, h7, hok, e2⟩ := c107_hinted (a := .cumulative) (m := (.int64UpDownCounter, .sums)) (l := .flush) (L := c95Look .int64UpDownCounter .monoSum false ⟨160, 2000⟩)
    (P := fun s' => (sentPoints numbers (sentScope scA) (lit "n") (arrived (fun i => decide (i = 1)) s'.z.s.sent)).map (·.value) = [.int 5, .int 9])
    (by decide +kernel) (by decide +kernel) rfl rfl (show (123 : UInt8) ∈ lit "{monotonic_sum" by decide +kernel) c95_sums
    (c95_wants (show lit "monotonic_sum" ≠ [] by decide +kernel) (show (lit "monotonic_sum", _) ∈ _ by decide +kernel) (by simp [Implemented, Ctor.kinds, Front.IKind.synchronous]) (.inl rfl) (by decide +kernel) rfl rfl)
    (show 3 < 2000 by decide) (exists_of_eval (by decide +kernel))
  exact ⟨s, s', h1, C107_hinted_sum_last (Ln.launch .cumulative) h4 rfl h3 rfl (.inl rfl) rfl h5 h6 ma h7 hok, e2⟩

/-- The same of floats, with `Shutdown`. -/
example : ∃ s s', Dl.stages .cumulative (.float64UpDownCounter, .sums) .shutdown = some (s, s') ∧
    (∃ v vals, Between (returnedBy s'.z.p 0 (lit "n") (fun as => Describes none as ma) s.z.s.sync) vals (recordedBy s'.z.p 0 (lit "n") (fun as => Describes none as ma) (measured (Dl.acts (.float64UpDownCounter, .sums) .shutdown ++ Dl.after .cumulative (.float64UpDownCounter, .sums) .shutdown))) ∧
      ((sentPoints numbers (sentScope scA) (lit "n") (arrived (fun i => decide (i = 1)) s'.z.s.sent)).filter (fun d => d.attrs = ma)).getLast?.map (·.value) = some (.double v) ∧ SumOf 0 Ln.out.fadd v vals) ∧
    (sentPoints numbers (sentScope scA) (lit "n") (arrived (fun i => decide (i = 1)) s'.z.s.sent)).map (·.value) = [.double 5, .double 9] := by
  obtain ⟨s, s', h1, hc, h3, hp, h4, h5, h6, h7, hok, e2⟩ := c107_hinted (a := .cumulative) (m := (.float64UpDownCounter, .sums)) (l := .shutdown) (L := c95Look .float64UpDownCounter .monoSum false ⟨160, 2000⟩)
    (P := fun s' => (sentPoints numbers (sentScope scA) (lit "n") (arrived (fun i => decide (i = 1)) s'.z.s.sent)).map (·.value) = [.double 5, .double 9])
    (by decide +kernel) (by decide +kernel) rfl rfl (show (123 : UInt8) ∈ lit "{monotonic_sum" by decide +kernel) c95_sums
    (c95_wants (show lit "monotonic_sum" ≠ [] by decide +kernel) (show (lit "monotonic_sum", _) ∈ _ by decide +kernel) (by simp [Implemented, Ctor.kinds, Front.IKind.synchronous]) (.inl rfl) (by decide +kernel) rfl rfl)
    (show 3 < 2000 by decide) (exists_of_eval (by decide +kernel))
  exact ⟨s, s', h1, C107_hinted_float_last (Ln.launch .cumulative) h4 rfl h3 rfl (.inl rfl) rfl h5 h6 ma h7 hok, e2⟩

/-- "cumulative": a counter with the hint `histogram`. -/
example : ∃ s s', Dl.stages .cumulative (.int64Counter, .buckets) .flush = some (s, s') ∧
    (∃ d vals, Between (returnedBy s'.z.p 0 (lit "n") (fun as => Describes none as ma) s.z.s.sync) vals (recordedBy s'.z.p 0 (lit "n") (fun as => Describes none as ma) (measured (Dl.acts (.int64Counter, .buckets) .flush ++ Dl.after .cumulative (.int64Counter, .buckets) .flush))) ∧
      ((sentPoints expPoints (sentScope scA) (lit "n") (arrived (fun i => decide (i = 1)) s'.z.s.sent)).filter (fun d => d.attrs = ma)).getLast? = some d ∧
      ShowsHist (reader (world Ln.out (Ln.pc .cumulative)) s'.z.p 0) (Ln.out.hist .int64 160) .int64 vals d) ∧
    (sentPoints expPoints (sentScope scA) (lit "n") (arrived (fun i => decide (i = 1)) s'.z.s.sent)).map (·.count) = [1, 2] := by
  obtain ⟨s, s', h1, hc, h3, hp, h4, h5, h6, h7, hok, e2⟩ := c107_hinted (a := .cumulative) (m := (.int64Counter, .buckets)) (l := .flush) (L := c95Look .int64Counter .histogram false ⟨160, 2000⟩)
    (P := fun s' => (sentPoints expPoints (sentScope scA) (lit "n") (arrived (fun i => decide (i = 1)) s'.z.s.sent)).map (·.count) = [1, 2])
    (by decide +kernel) (by decide +kernel) rfl rfl (show (123 : UInt8) ∈ lit "{histogram" by decide +kernel) c95_buckets
    (c95_wants (show lit "histogram" ≠ [] by decide +kernel) (show (lit "histogram", _) ∈ _ by decide +kernel) (by simp [Implemented, Ctor.kinds, Front.IKind.synchronous]) (.inl rfl) (by decide +kernel) rfl rfl)
    (show 3 < 2000 by decide) (exists_of_eval (by decide +kernel))
  exact ⟨s, s', h1, C107_hinted_hist_last (L := c95Look .int64Counter .histogram false ⟨160, 2000⟩) (Ln.launch .cumulative) h4 rfl h3 rfl rfl h5 h6 ma h7 hok, e2⟩

/-- "delta": a counter of floats shown as a gauge. The first export fails, and only the 2 arrives. -/
example : ∃ s s', Dl.stages .delta (.float64Counter, .gauge) .flush = some (s, s') ∧
    (∃ gs : List (List Bits), Among gs.flatten (recordedBy s'.z.p 0 (lit "n") (fun as => Describes none as ma) (measured (Dl.acts (.float64Counter, .gauge) .flush ++ Dl.after .delta (.float64Counter, .gauge) .flush))) ∧ (∀ g ∈ gs, g.Sublist (recordedBy s'.z.p 0 (lit "n") (fun as => Describes none as ma) (measured (Dl.acts (.float64Counter, .gauge) .flush ++ Dl.after .delta (.float64Counter, .gauge) .flush)))) ∧
      Pointwise (fun g d => ∃ b, g.getLast? = some b ∧ NumOf .float64 b d.value) gs ((sentPoints numbers (sentScope scA) (lit "n") (arrived (fun i => decide (i = 1)) s'.z.s.sent)).filter (fun d => d.attrs = ma))) ∧
    (sentPoints numbers (sentScope scA) (lit "n") (arrived (fun i => decide (i = 1)) s'.z.s.sent)).map (·.value) = [.double 2] := by
  obtain ⟨s, s', h1, hc, h3, hp, h4, h5, h6, h7, hok, e2⟩ := c107_hinted (a := .delta) (m := (.float64Counter, .gauge)) (l := .flush) (L := c95Look .float64Counter .gauge true ⟨160, 2000⟩)
    (P := fun s' => (sentPoints numbers (sentScope scA) (lit "n") (arrived (fun i => decide (i = 1)) s'.z.s.sent)).map (·.value) = [.double 2])
    (by decide +kernel) (by decide +kernel) rfl rfl (show (123 : UInt8) ∈ lit "{gauge" by decide +kernel) c95_gauge
    (c95_wants (show lit "gauge" ≠ [] by decide +kernel) (show (lit "gauge", _) ∈ _ by decide +kernel) (by simp [Implemented, Ctor.kinds, Front.IKind.synchronous]) (.inl rfl) (by decide +kernel) rfl rfl)
    (show 3 < 2000 by decide) (exists_of_eval (by decide +kernel))
  exact ⟨s, s', h1, C107_hinted_gauge_sent_newest_partial (L := c95Look .float64Counter .gauge true ⟨160, 2000⟩) (Ln.launch .delta) h4 rfl h3 rfl rfl (by
    rw [hp]
    intro before i kvs b af y g1 g2 _ j hj _
    exact Dl.quietB_spec (a := .delta) (x := Dl.initial .delta (.float64Counter, .gauge) .flush) (by decide +kernel) before i kvs b af y g1 g2 j hj) h5 ma _, e2⟩

end Examples

end Verif.Props
