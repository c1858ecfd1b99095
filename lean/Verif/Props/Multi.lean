import Verif.Proof.Multi
import Verif.Props.Prom
import Verif.Props.DeliveryHinted
import Verif.Examples.MultiProgram

/-!
C102: a program with several readers.

`Multi.Running farm w fsub x vs start acts y`: a program as for C97, whose readers, given by the views `vs`, are all periodic, each with an exporter of its own: `(y.readers i).sent` are the payloads
handed to that of reader `i`. Also `ForceFlush` and `Shutdown` of the provider are called, which call those of the readers one after the other. `Multi.Closing`: such a program until all calls on
synchronous instruments have returned, and then until such a call on the provider has returned.
-/

namespace Verif.Props
open Verif Verif.Attr Verif.Number Verif.Aggr Verif.Export Verif.Spec Verif.Assembly Verif.Multi
open Verif.Pipeline (numbers expPoints histPoints sentPoints pointsIn ints NoEmptyList Describes Grouped)

variable {C G ν : Type} [DecidableEq C] {farm : Str → UInt64} {w : World C G} {fsub : Bits → Bits → Bits} {x : Views.Ext C} {vs : List (Views.Views C)}
  {start : Int} {acts after : List (Multi.Act ν)} {y y' : Multi.Sys C G ν} {i k : Nat} {v : Views.Views C} {sc : Views.Scope} {n : Str} {L : Look C}

/-- C102 (each reader). To each reader the program is one of those of C97, with the same calls, whatever the other readers do. -/
theorem C102_program (h : Multi.Running farm w fsub x vs start acts y) (i : Nat) :
    ∃ dacts, Delivery.Running farm w fsub x vs i start dacts (view y i) ∧ Delivery.makes dacts = makes acts ∧ Delivery.measured dacts = measured acts :=
  ⟨_, h.of i, seen_makes h.runs i, seen_measured h.runs i⟩

/-- C102 (payloads). The exporter of each reader has been handed one payload for each collection of this reader. -/
theorem C102_payloads (h : Multi.Running farm w fsub x vs start acts y) (i : Nat) :
    (y.readers i).sent.length = ((y.readers i).r.log.filter (fun a => decide (a.2 = .collect))).length :=
  (C97_reader (h.of i)).2

/-- C102 (calls of the readers). When `ForceFlush` or `Shutdown` of the provider returns, without `ErrAlreadyShutdown`, then on each reader the same call has been made since it began, and has
returned. -/
theorem C102_served {kind : Periodic.Kind} {t : Nat} (h : Multi.Running farm w fsub x vs start (acts ++ after) y')
    (hb : run farm w fsub x (initial farm w fsub y'.p vs start) acts = some y) (hy : y.calls[t]? = some (Pc.loop kind 0 none)) (hd : y'.calls[t]? = some (Pc.done false))
    (hi : i < vs.length) : ∃ u, (y.readers i).r.threads.length ≤ u ∧ (y'.readers i).r.threads[u]? = some ⟨kind, .done⟩ := by
  have hv : y.p.views.length = vs.length := by rw [Multi.run_views hb]; rfl
  obtain ⟨u, k, rfl, h1, h2⟩ := served (h.before hb) (no_tick hb rfl hy) hy hd (hv ▸ hi)
  exact ⟨u, h1, h2⟩

/-- C102 (closing). To each reader the program is one which ends with a call of its own `ForceFlush` or `Shutdown`, as for C97. -/
theorem C102_closing (h : Multi.Closing farm w fsub x vs start acts after y y') (hi : i < vs.length) :
    ∃ dacts dafter, Delivery.Closing farm w fsub x vs i start dacts dafter (view y i) (view y' i) ∧ Delivery.makes dacts = makes acts ∧ Delivery.measured dacts = measured acts :=
  h.of hi

theorem ends_at (h : Multi.Closing farm w fsub x vs start acts after y y') (hi : i < vs.length) :
    ∃ lacts coll z z', Live.Ending farm w fsub x vs i lacts coll z z' ∧ z'.p = y'.p ∧ z'.s.sent = (y'.readers i).sent ∧ Live.makes lacts = makes acts ∧
      Whole.calls (Live.rest lacts) = Pipeline.calls (measured acts) := by
  obtain ⟨dacts, dafter, h1, h2, h3⟩ := C102_closing h hi
  obtain ⟨lacts, coll, z, z', g1, g2, g3, g4, g5⟩ := C97_ends h1
  exact ⟨lacts, coll, z, z', g1, g2, g3, g4.trans h2, by rw [g5, h3]⟩

theorem ends_calls (h : Multi.Closing farm w fsub x vs start acts after y y') (hi : i < vs.length) :
    ∃ lacts coll z z', Live.Ending farm w fsub x vs i lacts coll z z' ∧ z'.p = y'.p ∧ z'.s.sent = (y'.readers i).sent ∧ Live.makes lacts = makes acts ∧
      Whole.calls (Live.rest lacts) = Pipeline.calls (measured acts) ∧
      ∀ k v sc n, Multi.OneByOne farm w fsub x vs start y'.p k v sc n acts → Live.OneByOne farm w fsub x vs y'.p i k v sc n lacts := by
  obtain ⟨dafter, h1⟩ := h.seen hi
  obtain ⟨lacts, coll, z, z', g1, g2, g3, g4, g5, ls, g6, g7⟩ := h1.ends
  exact ⟨lacts, coll, z, z', g1, g2, g3, g4.trans (seen_makes h.before i), by rw [g5, seen_measured h.before i], fun k v sc n hq => hq.live g6 g7⟩

theorem viewed_lt {cs : List (Provider.Call ν)} {p : Provider.Provider C ν} (h : Viewed x vs cs p i k v sc n L) : i < vs.length := (List.getElem?_eq_some_iff.1 h.reader).1

/-- C102 (integer sums, cumulative). The last point which a reader sends with the attributes `m` is the sum of all integers recorded with attributes of which `m` remain. -/
theorem C102_sum_last (h : Viewed x vs (makes acts) y'.p i k v sc n L) (hsy : L.sync = true) (hp : Multi.Closing farm w fsub x vs start acts after y y') (hn : L.num = .int64)
    (ha : L.kind = .monoSum ∨ L.kind = .nonMonoSum) (ht : L.delta = false)
    (hic : w.ignoreColl = false) (hf : FewVia w y'.p k v sc n L.keys L.acfg.limit (measured acts))
    (hne : ∀ e ∈ Pipeline.calls (measured acts), NoEmptyList (e.1.attrs e.2.1)) (m : PMap)
    (hrec : recordedVia y'.p k v sc n (fun as => Describes L.keys as m) (measured acts) ≠ []) :
    ((sentPoints numbers (sentScope sc) n (y'.readers i).sent).filter (fun d => d.attrs = m)).getLast?.map (·.value) =
      some (.int (total64 (recordedVia y'.p k v sc n (fun as => Describes L.keys as m) (measured acts)))) := by
  obtain ⟨lacts, coll, z, z', h1, h2, h3, h4, h5⟩ := ends_at hp (viewed_lt h)
  have h6 : Pipeline.calls (Whole.syncActs (Live.rest lacts)) = Pipeline.calls (measured acts) := (Whole.calls_sync _).trans h5
  have h' := h
  rw [← h2, ← h4] at h'
  rw [← h2] at hf
  have := C93_sum_last h' hsy h1 hn ha ht hic (fewVia_same h6 hf) (by rw [h5]; exact hne) m (by rw [h2, recordedVia_same h6]; exact hrec)
  rw [h2, h3, recordedVia_same h6] at this
  exact this

/-- C102 (integer sums, delta). The integers which a reader sends in points with exactly the attributes `m` add up to the integers recorded with attributes of which `m` remain. -/
theorem C102_sum_sent (h : Viewed x vs (makes acts) y'.p i k v sc n L) (hsy : L.sync = true) (hp : Multi.Closing farm w fsub x vs start acts after y y') (hn : L.num = .int64)
    (ha : L.kind = .monoSum ∨ L.kind = .nonMonoSum) (ht : L.delta = true)
    (hic : w.ignoreColl = false) (hf : FewVia w y'.p k v sc n L.keys L.acfg.limit (measured acts)) (m : PMap) :
    total64 (ints ((sentPoints numbers (sentScope sc) n (y'.readers i).sent).filter (fun d => d.attrs = m))) =
      total64 (recordedVia y'.p k v sc n (fun as => Describes L.keys as m) (measured acts)) := by
  obtain ⟨lacts, coll, z, z', h1, h2, h3, h4, h5⟩ := ends_at hp (viewed_lt h)
  have h6 : Pipeline.calls (Whole.syncActs (Live.rest lacts)) = Pipeline.calls (measured acts) := (Whole.calls_sync _).trans h5
  have h' := h
  rw [← h2, ← h4] at h'
  rw [← h2] at hf
  have := C93_sum_sent h' hsy h1 hn ha ht hic (fewVia_same h6 hf) m
  rw [h2, h3, recordedVia_same h6] at this
  exact this

/-- C102 (float sums, cumulative). The last point which a reader sends with the attributes `m` is the result of adding up, in some order, all floats recorded with attributes of which `m`
remain. -/
theorem C102_float_last (h : Viewed x vs (makes acts) y'.p i k v sc n L) (hsy : L.sync = true) (hp : Multi.Closing farm w fsub x vs start acts after y y') (hn : L.num = .float64)
    (ha : L.kind = .monoSum ∨ L.kind = .nonMonoSum) (ht : L.delta = false)
    (hic : w.ignoreColl = false) (hf : FewVia w y'.p k v sc n L.keys L.acfg.limit (measured acts))
    (hne : ∀ e ∈ Pipeline.calls (measured acts), NoEmptyList (e.1.attrs e.2.1)) (m : PMap)
    (hrec : recordedVia y'.p k v sc n (fun as => Describes L.keys as m) (measured acts) ≠ []) :
    ∃ b vals, ((sentPoints numbers (sentScope sc) n (y'.readers i).sent).filter (fun d => d.attrs = m)).getLast?.map (·.value) = some (.double b) ∧
      vals.Perm (recordedVia y'.p k v sc n (fun as => Describes L.keys as m) (measured acts)) ∧ SumOf 0 w.fadd b vals := by
  obtain ⟨lacts, coll, z, z', h1, h2, h3, h4, h5⟩ := ends_at hp (viewed_lt h)
  have h6 : Pipeline.calls (Whole.syncActs (Live.rest lacts)) = Pipeline.calls (measured acts) := (Whole.calls_sync _).trans h5
  have h' := h
  rw [← h2, ← h4] at h'
  rw [← h2] at hf
  have := C93_float_last h' hsy h1 hn ha ht hic (fewVia_same h6 hf) (by rw [h5]; exact hne) m (by rw [h2, recordedVia_same h6]; exact hrec)
  rw [h2, h3, recordedVia_same h6] at this
  exact this

/-- C102 (float sums, delta). The floats recorded with attributes of which `m` remain are split into groups; a reader sends one point with the attributes `m`, the sum of the group, for
each group whose sum is not zero. -/
theorem C102_float_sent (h : Viewed x vs (makes acts) y'.p i k v sc n L) (hsy : L.sync = true) (hp : Multi.Closing farm w fsub x vs start acts after y y') (hn : L.num = .float64)
    (ha : L.kind = .monoSum ∨ L.kind = .nonMonoSum) (ht : L.delta = true)
    (hic : w.ignoreColl = false) (hf : FewVia w y'.p k v sc n L.keys L.acfg.limit (measured acts)) (m : PMap) :
    ∃ gs zs : List (List Bits), (gs ++ zs).flatten.Perm (recordedVia y'.p k v sc n (fun as => Describes L.keys as m) (measured acts)) ∧
      Pointwise (fun g d => ∃ b, SumOf 0 w.fadd b g ∧ d.value = .double b ∧ scaled b ≠ 0) gs
        ((sentPoints numbers (sentScope sc) n (y'.readers i).sent).filter (fun d => d.attrs = m)) ∧
      ∀ g ∈ zs, ∃ b, SumOf 0 w.fadd b g ∧ scaled b = 0 := by
  obtain ⟨lacts, coll, z, z', h1, h2, h3, h4, h5⟩ := ends_at hp (viewed_lt h)
  have h6 : Pipeline.calls (Whole.syncActs (Live.rest lacts)) = Pipeline.calls (measured acts) := (Whole.calls_sync _).trans h5
  have h' := h
  rw [← h2, ← h4] at h'
  rw [← h2] at hf
  have := C93_float_sent h' hsy h1 hn ha ht hic (fewVia_same h6 hf) m
  rw [h2, h3, recordedVia_same h6] at this
  exact this

/-- C102 (gauges, cumulative). When calls on the instruments shown under the name do not overlap: the last point which a reader sends with the attributes `m` carries the value of the last call
with attributes of which `m` remain. -/
theorem C102_gauge_last (h : Viewed x vs (makes acts) y'.p i k v sc n L) (hsy : L.sync = true) (hp : Multi.Closing farm w fsub x vs start acts after y y')
    (ha : L.kind = .gauge) (ht : L.delta = false) (hq : Multi.OneByOne farm w fsub x vs start y'.p k v sc n acts)
    (hic : w.ignoreColl = false) (hf : FewVia w y'.p k v sc n L.keys L.acfg.limit (measured acts))
    (hne : ∀ e ∈ Pipeline.calls (measured acts), NoEmptyList (e.1.attrs e.2.1)) (m : PMap)
    (hrec : recordedVia y'.p k v sc n (fun as => Describes L.keys as m) (measured acts) ≠ []) :
    ∃ d b, ((sentPoints numbers (sentScope sc) n (y'.readers i).sent).filter (fun d => d.attrs = m)).getLast? = some d ∧
      (recordedVia y'.p k v sc n (fun as => Describes L.keys as m) (measured acts)).getLast? = some b ∧ NumOf L.num b d.value := by
  obtain ⟨lacts, coll, z, z', h1, h2, h3, h4, h5, hl⟩ := ends_calls hp (viewed_lt h)
  have h6 : Pipeline.calls (Whole.syncActs (Live.rest lacts)) = Pipeline.calls (measured acts) := (Whole.calls_sync _).trans h5
  have h' := h
  have hq := hl k v sc n hq
  rw [← h2, ← h4] at h'
  rw [← h2] at hf hq
  have := C93_gauge_last h' hsy h1 ha ht hq hic (fewVia_same h6 hf) (by rw [h5]; exact hne) m (by rw [h2, recordedVia_same h6]; exact hrec)
  rw [h2, h3, recordedVia_same h6] at this
  exact this

/-- C102 (gauges, delta). When calls on the instruments shown under the name do not overlap: the values recorded with attributes of which `m` remain are divided into groups, each in the order of
the calls, one for each point which a reader sends with the attributes `m`; the point carries the last value of its group. -/
theorem C102_gauge_sent (h : Viewed x vs (makes acts) y'.p i k v sc n L) (hsy : L.sync = true) (hp : Multi.Closing farm w fsub x vs start acts after y y')
    (ha : L.kind = .gauge) (ht : L.delta = true) (hq : Multi.OneByOne farm w fsub x vs start y'.p k v sc n acts)
    (hic : w.ignoreColl = false) (hf : FewVia w y'.p k v sc n L.keys L.acfg.limit (measured acts)) (m : PMap) :
    ∃ gs : List (List Bits), gs.flatten.Perm (recordedVia y'.p k v sc n (fun as => Describes L.keys as m) (measured acts)) ∧
      (∀ g ∈ gs, g.Sublist (recordedVia y'.p k v sc n (fun as => Describes L.keys as m) (measured acts))) ∧
      Pointwise (fun g d => ∃ b, g.getLast? = some b ∧ NumOf L.num b d.value) gs
        ((sentPoints numbers (sentScope sc) n (y'.readers i).sent).filter (fun d => d.attrs = m)) := by
  obtain ⟨lacts, coll, z, z', h1, h2, h3, h4, h5, hl⟩ := ends_calls hp (viewed_lt h)
  have h6 : Pipeline.calls (Whole.syncActs (Live.rest lacts)) = Pipeline.calls (measured acts) := (Whole.calls_sync _).trans h5
  have h' := h
  have hq := hl k v sc n hq
  rw [← h2, ← h4] at h'
  rw [← h2] at hf hq
  have := C93_gauge_sent h' hsy h1 ha ht hq hic (fewVia_same h6 hf) m
  rw [h2, h3, recordedVia_same h6] at this
  exact this

/-- C102 (histograms, cumulative). The last point which a reader sends with the attributes `m` shows the histogram, with the configuration of the look, of exactly the values recorded with
attributes of which `m` remain. -/
theorem C102_hist_last (h : Viewed x vs (makes acts) y'.p i k v sc n L) (hsy : L.sync = true) (hp : Multi.Closing farm w fsub x vs start acts after y y')
    (ha : L.kind = .histogram) (ht : L.delta = false)
    (hic : w.ignoreColl = false) (hf : FewVia w y'.p k v sc n L.keys L.acfg.limit (measured acts))
    (hne : ∀ e ∈ Pipeline.calls (measured acts), NoEmptyList (e.1.attrs e.2.1)) (m : PMap)
    (hrec : recordedVia y'.p k v sc n (fun as => Describes L.keys as m) (measured acts) ≠ []) :
    ∃ d vals, ((sentPoints expPoints (sentScope sc) n (y'.readers i).sent).filter (fun d => d.attrs = m)).getLast? = some d ∧
      vals.Perm (recordedVia y'.p k v sc n (fun as => Describes L.keys as m) (measured acts)) ∧
      ShowsHist (reader w y'.p i) (w.hist L.num L.acfg.hist) L.num vals d := by
  obtain ⟨lacts, coll, z, z', h1, h2, h3, h4, h5⟩ := ends_at hp (viewed_lt h)
  have h6 : Pipeline.calls (Whole.syncActs (Live.rest lacts)) = Pipeline.calls (measured acts) := (Whole.calls_sync _).trans h5
  have h' := h
  rw [← h2, ← h4] at h'
  rw [← h2] at hf
  have := C93_hist_last h' hsy h1 ha ht hic (fewVia_same h6 hf) (by rw [h5]; exact hne) m (by rw [h2, recordedVia_same h6]; exact hrec)
  rw [h2, h3, recordedVia_same h6] at this
  exact this

/-- C102 (histograms, delta). The values recorded with attributes of which `m` remain are split into groups; a reader sends for each group one point with the attributes `m`, the histogram
of the group. -/
theorem C102_hist_sent (h : Viewed x vs (makes acts) y'.p i k v sc n L) (hsy : L.sync = true) (hp : Multi.Closing farm w fsub x vs start acts after y y')
    (ha : L.kind = .histogram) (ht : L.delta = true) (hl : Counts (w.hist L.num L.acfg.hist))
    (hic : w.ignoreColl = false) (hf : FewVia w y'.p k v sc n L.keys L.acfg.limit (measured acts)) (m : PMap) :
    Grouped (ShowsHist (reader w y'.p i) (w.hist L.num L.acfg.hist) L.num)
      (recordedVia y'.p k v sc n (fun as => Describes L.keys as m) (measured acts)) ((sentPoints expPoints (sentScope sc) n (y'.readers i).sent).filter (fun d => d.attrs = m)) := by
  obtain ⟨lacts, coll, z, z', h1, h2, h3, h4, h5⟩ := ends_at hp (viewed_lt h)
  have h6 : Pipeline.calls (Whole.syncActs (Live.rest lacts)) = Pipeline.calls (measured acts) := (Whole.calls_sync _).trans h5
  have h' := h
  rw [← h2, ← h4] at h'
  rw [← h2] at hf
  have := C93_hist_sent h' hsy h1 ha ht hl hic (fewVia_same h6 hf) m
  rw [h2, h3, recordedVia_same h6] at this
  exact this

/-- C102 (min/max/sum/count of floats, cumulative). The last point which a reader sends with the attributes `m` shows these of exactly the values recorded with attributes of which `m`
remain. -/
theorem C102_mmsc_last (h : Viewed x vs (makes acts) y'.p i k v sc n L) (hsy : L.sync = true) (hp : Multi.Closing farm w fsub x vs start acts after y y') (hn : L.num = .float64)
    (ha : L.kind = .mmsc) (ht : L.delta = false)
    (hic : w.ignoreColl = false) (hf : FewVia w y'.p k v sc n L.keys L.acfg.limit (measured acts))
    (hne : ∀ e ∈ Pipeline.calls (measured acts), NoEmptyList (e.1.attrs e.2.1)) (m : PMap)
    (hrec : recordedVia y'.p k v sc n (fun as => Describes L.keys as m) (measured acts) ≠ []) :
    ∃ d vals, ((sentPoints histPoints (sentScope sc) n (y'.readers i).sent).filter (fun d => d.attrs = m)).getLast? = some d ∧
      vals.Perm (recordedVia y'.p k v sc n (fun as => Describes L.keys as m) (measured acts)) ∧ ShowsStats w.fadd vals d := by
  obtain ⟨lacts, coll, z, z', h1, h2, h3, h4, h5⟩ := ends_at hp (viewed_lt h)
  have h6 : Pipeline.calls (Whole.syncActs (Live.rest lacts)) = Pipeline.calls (measured acts) := (Whole.calls_sync _).trans h5
  have h' := h
  rw [← h2, ← h4] at h'
  rw [← h2] at hf
  have := C93_mmsc_last h' hsy h1 hn ha ht hic (fewVia_same h6 hf) (by rw [h5]; exact hne) m (by rw [h2, recordedVia_same h6]; exact hrec)
  rw [h2, h3, recordedVia_same h6] at this
  exact this

/-- C102 (nothing else, numbers). Every number point which a reader sends under the name shows what remains of attributes with which something was recorded. -/
theorem C102_known (h : Viewed x vs (makes acts) y'.p i k v sc n L) (hsy : L.sync = true) (hp : Multi.Closing farm w fsub x vs start acts after y y')
    (ha : L.kind = .monoSum ∨ L.kind = .nonMonoSum ∨ L.kind = .gauge)
    (hf : FewVia w y'.p k v sc n L.keys L.acfg.limit (measured acts)) (d : PNumber) (hd : d ∈ sentPoints numbers (sentScope sc) n (y'.readers i).sent) :
    recordedVia y'.p k v sc n (fun as => Describes L.keys as d.attrs) (measured acts) ≠ [] := by
  obtain ⟨lacts, coll, z, z', h1, h2, h3, h4, h5⟩ := ends_at hp (viewed_lt h)
  have h6 : Pipeline.calls (Whole.syncActs (Live.rest lacts)) = Pipeline.calls (measured acts) := (Whole.calls_sync _).trans h5
  have h' := h
  rw [← h2, ← h4] at h'
  rw [← h2] at hf
  have := C93_known h' hsy h1 ha (fewVia_same h6 hf) d (by rw [h3]; exact hd)
  rw [h2, recordedVia_same h6] at this
  exact this

/-- C102 (nothing else, histograms). -/
theorem C102_hist_known (h : Viewed x vs (makes acts) y'.p i k v sc n L) (hsy : L.sync = true) (hp : Multi.Closing farm w fsub x vs start acts after y y')
    (ha : L.kind = .histogram)
    (hf : FewVia w y'.p k v sc n L.keys L.acfg.limit (measured acts)) (d : PExp) (hd : d ∈ sentPoints expPoints (sentScope sc) n (y'.readers i).sent) :
    recordedVia y'.p k v sc n (fun as => Describes L.keys as d.attrs) (measured acts) ≠ [] := by
  obtain ⟨lacts, coll, z, z', h1, h2, h3, h4, h5⟩ := ends_at hp (viewed_lt h)
  have h6 : Pipeline.calls (Whole.syncActs (Live.rest lacts)) = Pipeline.calls (measured acts) := (Whole.calls_sync _).trans h5
  have h' := h
  rw [← h2, ← h4] at h'
  rw [← h2] at hf
  have := C93_hist_known h' hsy h1 ha (fewVia_same h6 hf) d (by rw [h3]; exact hd)
  rw [h2, recordedVia_same h6] at this
  exact this

/-- C102 (readers agree). Where one reader shows sums of integers as cumulative and another as delta, under the same name and with the same attributes left, the last point of the first is the sum
of all points of the second. -/
theorem C102_agree {j : Nat} {v' : Views.Views C} {L' : Look C} (h : Viewed x vs (makes acts) y'.p i k v sc n L) (h' : Viewed x vs (makes acts) y'.p j k v' sc n L')
    (hsame : ∀ id, times y'.p k v sc n id = times y'.p k v' sc n id) (hk : L'.keys = L.keys) (hsy : L.sync = true) (hsy' : L'.sync = true)
    (hp : Multi.Closing farm w fsub x vs start acts after y y') (hn : L.num = .int64) (hn' : L'.num = .int64)
    (ha : L.kind = .monoSum ∨ L.kind = .nonMonoSum) (ha' : L'.kind = .monoSum ∨ L'.kind = .nonMonoSum) (ht : L.delta = false) (ht' : L'.delta = true)
    (hic : w.ignoreColl = false) (hf : FewVia w y'.p k v sc n L.keys L.acfg.limit (measured acts)) (hf' : FewVia w y'.p k v' sc n L'.keys L'.acfg.limit (measured acts))
    (hne : ∀ e ∈ Pipeline.calls (measured acts), NoEmptyList (e.1.attrs e.2.1)) (m : PMap)
    (hrec : recordedVia y'.p k v sc n (fun as => Describes L.keys as m) (measured acts) ≠ []) :
    ((sentPoints numbers (sentScope sc) n (y'.readers i).sent).filter (fun d => d.attrs = m)).getLast?.map (·.value) =
      some (.int (total64 (ints ((sentPoints numbers (sentScope sc) n (y'.readers j).sent).filter (fun d => d.attrs = m))))) := by
  rw [C102_sum_last h hsy hp hn ha ht hic hf hne m hrec, C102_sum_sent h' hsy' hp hn' ha' ht' hic hf' m, hk]
  have : recordedVia y'.p k v sc n (fun as => Describes L.keys as m) (measured acts) = recordedVia y'.p k v' sc n (fun as => Describes L.keys as m) (measured acts) := by
    unfold recordedVia
    simp only [hsame]
  rw [this]

/-- C102 (silence). When `Shutdown` of the provider has returned, and all other calls of `ForceFlush` and `Shutdown`, on the provider and on the readers, have returned too, nothing more is handed
to any exporter, whatever the program does, also if it calls `Shutdown` of the provider again, unless it calls `ForceFlush` of the provider, or `ForceFlush` or `Shutdown` of a reader. -/
theorem C102_silent {more : List (Multi.Act ν)} {t : Nat} {y2 : Multi.Sys C G ν} (h : Multi.Running farm w fsub x vs start (acts ++ after) y')
    (hb : run farm w fsub x (initial farm w fsub y'.p vs start) acts = some y) (hy : y.calls[t]? = some (Pc.loop .shutdown 0 none)) (hd : y'.calls[t]? = some (Pc.done false))
    (hcalls : ∀ pc ∈ y'.calls, ∃ b, pc = Pc.done b)
    (hall : ∀ (j u : Nat) (th : Periodic.Thread), j < vs.length → u ≠ 0 → (y'.readers j).r.threads[u]? = some th → th.pos = .done)
    (hmore : ∀ a ∈ more, a ≠ .flush ∧ ∀ j o, a ≠ .reader j .callFlush o ∧ a ≠ .reader j .callShutdown o)
    (hrun : run farm w fsub x y' more = some y2) (hi : i < vs.length) : (y2.readers i).sent = (y'.readers i).sent := by
  have hover : Over y' := ⟨by rw [run_prov (h.before hb)]; exact Provider.run_down _ ((no_tick hb rfl hy).2 rfl), hcalls⟩
  obtain ⟨u, -, h1⟩ := C102_served h hb hy hd hi
  refine C97_silent (h.of i) (s' := view y2 i) (t := u) h1 (fun u th hu => hall i u th hi hu) (fun a ha => ?_) (run_view hrun i)
  obtain ⟨o, ho⟩ := hover.requests hrun (fun a ha => (hmore a ha).1) ha
  exact ⟨fun e => ((hmore _ ho).2 i o).1 (by rw [e]), fun e => ((hmore _ ho).2 i o).2 (by rw [e])⟩

/-! ### Observable instruments -/

/-- C102 (observable instruments, cumulative). The payload of every collection of a reader has, under the name, exactly one point for each set of attributes left which callbacks observed in this
collection of this reader, with the amount observed; what callbacks observed for other readers does not matter. -/
theorem C102_async_cumulative (h : Viewed x vs (makes acts) y.p i k v sc n L) (hasy : L.sync = false) (hp : Multi.Running farm w fsub x vs start acts y) (hone : ShownOnce y.p k v sc n)
    (ht : L.delta = false ∨ L.kind = .gauge) {t : Nat} (htl : t < (y.readers i).sent.length)
    (hf : FewSets (Feeds y.p k v sc n) L.keys L.acfg.limit (Whole.seenIn (view y i).z.s) t) :
    ∃ pl, (y.readers i).sent[t]? = some pl ∧ ∃ as : List (List KV), as.Nodup ∧ (∀ a, a ∈ as ↔ Shows (Feeds y.p k v sc n) L.keys (Whole.seenIn (view y i).z.s) t a) ∧
      Pointwise (fun a d => AttrsOf a d.attrs ∧ ∃ b, Amount w (Feeds y.p k v sc n) L.keys L.kind L.num (Whole.seenIn (view y i).z.s) t a b ∧ NumOf L.num b d.value) as
        (pointsIn numbers (sentScope sc) n pl) := by
  obtain ⟨dacts, h1, h2, -⟩ := C102_program hp i
  obtain ⟨lacts, h3, h4, -⟩ := C97_program h1
  rw [← h2, ← h4] at h
  exact C93_async_cumulative h hasy h3 hone ht (by rw [← (C93_payloads h3).1]; exact htl) hf

/-- C102 (observable instruments of integers, delta). The payload of every collection of a reader has, under the name, exactly one point for each set of attributes left whose amount is not the one
which callbacks observed in the previous collection of this reader, with the difference. -/
theorem C102_async_delta (h : Viewed x vs (makes acts) y.p i k v sc n L) (hasy : L.sync = false) (hp : Multi.Running farm w fsub x vs start acts y) (hone : ShownOnce y.p k v sc n)
    (hn : L.num = .int64) (ht : L.delta = true) (hg : L.kind ≠ .gauge)
    (hf : ∀ t, t < (y.readers i).sent.length → FewSets (Feeds y.p k v sc n) L.keys L.acfg.limit (Whole.seenIn (view y i).z.s) t)
    (hov : ∀ e ∈ Whole.seenIn (view y i).z.s, Feeds y.p k v sc n e.2.1 → shown L.keys e.2.2.1 ≠ overflowSet) {t : Nat} (htl : t < (y.readers i).sent.length) :
    ∃ pl, (y.readers i).sent[t]? = some pl ∧ ∃ as : List (List KV), as.Nodup ∧
      (∀ a, a ∈ as ↔ ∃ b, Amount w (Feeds y.p k v sc n) L.keys L.kind .int64 (Whole.seenIn (view y i).z.s) t a b ∧
        ¬ AmountBefore w (Feeds y.p k v sc n) L.keys L.kind .int64 (Whole.seenIn (view y i).z.s) t a b) ∧
      Pointwise (fun a d => AttrsOf a d.attrs ∧ ∃ c, Amount w (Feeds y.p k v sc n) L.keys L.kind .int64 (Whole.seenIn (view y i).z.s) t a c ∧
        ((∃ b, AmountBefore w (Feeds y.p k v sc n) L.keys L.kind .int64 (Whole.seenIn (view y i).z.s) t a b ∧ d.value = .int (c - b)) ∨
          ((∀ b, ¬ AmountBefore w (Feeds y.p k v sc n) L.keys L.kind .int64 (Whole.seenIn (view y i).z.s) t a b) ∧ d.value = .int c)))
        as (pointsIn numbers (sentScope sc) n pl) := by
  obtain ⟨dacts, h1, h2, -⟩ := C102_program hp i
  obtain ⟨lacts, h3, h4, -⟩ := C97_program h1
  rw [← h2, ← h4] at h
  have hlen := (C93_payloads h3).1
  exact C93_async_delta h hasy h3 hone hn ht hg (fun t ht' => hf t (by rw [← hlen] at ht'; exact ht')) hov (by rw [← hlen]; exact htl)

/-- C102 (observable instruments of floats, delta). The payload of every collection of a reader has, under the name, one point for each set of attributes left which callbacks observed, with the
difference from the amount which they observed in the previous collection of this reader; where the difference is zero, there is none. -/
theorem C102_async_delta_float (h : Viewed x vs (makes acts) y.p i k v sc n L) (hasy : L.sync = false) (hp : Multi.Running farm w fsub x vs start acts y) (hone : ShownOnce y.p k v sc n)
    (hn : L.num = .float64) (ht : L.delta = true) (hg : L.kind ≠ .gauge)
    (hf : ∀ t, t < (y.readers i).sent.length → FewSets (Feeds y.p k v sc n) L.keys L.acfg.limit (Whole.seenIn (view y i).z.s) t)
    (hov : ∀ e ∈ Whole.seenIn (view y i).z.s, Feeds y.p k v sc n e.2.1 → shown L.keys e.2.2.1 ≠ overflowSet) {t : Nat} (htl : t < (y.readers i).sent.length) :
    ∃ pl, (y.readers i).sent[t]? = some pl ∧ ∃ as : List (List KV), as.Nodup ∧ (∀ a ∈ as, Shows (Feeds y.p k v sc n) L.keys (Whole.seenIn (view y i).z.s) t a) ∧
      (∀ a, Shows (Feeds y.p k v sc n) L.keys (Whole.seenIn (view y i).z.s) t a → a ∉ as →
        ∃ c b, Amount w (Feeds y.p k v sc n) L.keys L.kind .float64 (Whole.seenIn (view y i).z.s) t a c ∧
          AmountBefore w (Feeds y.p k v sc n) L.keys L.kind .float64 (Whole.seenIn (view y i).z.s) t a b ∧ FloatZero (fsub c b)) ∧
      Pointwise (fun a d => AttrsOf a d.attrs ∧ ∃ c, Amount w (Feeds y.p k v sc n) L.keys L.kind .float64 (Whole.seenIn (view y i).z.s) t a c ∧
        ((∃ b, AmountBefore w (Feeds y.p k v sc n) L.keys L.kind .float64 (Whole.seenIn (view y i).z.s) t a b ∧ ¬ FloatZero (fsub c b) ∧ d.value = .double (fsub c b)) ∨
          ((∀ b, ¬ AmountBefore w (Feeds y.p k v sc n) L.keys L.kind .float64 (Whole.seenIn (view y i).z.s) t a b) ∧ d.value = .double c)))
        as (pointsIn numbers (sentScope sc) n pl) := by
  obtain ⟨dacts, h1, h2, -⟩ := C102_program hp i
  obtain ⟨lacts, h3, h4, -⟩ := C97_program h1
  rw [← h2, ← h4] at h
  have hlen := (C93_payloads h3).1
  exact C93_async_delta_float h hasy h3 hone hn ht hg (fun t ht' => hf t (by rw [← hlen] at ht'; exact ht')) hov (by rw [← hlen]; exact htl)

/-- C102 (observable instruments, integer delta totals). If moreover something shown as `a` was observed in every collection of a reader since the first such one, all values which this reader
sends with the attributes `a` add up to the amount observed in its last collection. -/
theorem C102_async_delta_total (h : Viewed x vs (makes acts) y.p i k v sc n L) (hasy : L.sync = false) (hp : Multi.Running farm w fsub x vs start acts y) (hone : ShownOnce y.p k v sc n)
    (hn : L.num = .int64) (ht : L.delta = true) (hg : L.kind ≠ .gauge)
    (hf : ∀ t, t < (y.readers i).sent.length → FewSets (Feeds y.p k v sc n) L.keys L.acfg.limit (Whole.seenIn (view y i).z.s) t)
    (hov : ∀ e ∈ Whole.seenIn (view y i).z.s, Feeds y.p k v sc n e.2.1 → shown L.keys e.2.2.1 ≠ overflowSet) {a : List KV} (hne : NoEmptyList a) {first last : Nat}
    (hlast : (y.readers i).sent.length = last + 1) (hle : first ≤ last) (hno : ∀ t, t < first → ¬ Shows (Feeds y.p k v sc n) L.keys (Whole.seenIn (view y i).z.s) t a)
    (hobs : ∀ t, first ≤ t → t ≤ last → Shows (Feeds y.p k v sc n) L.keys (Whole.seenIn (view y i).z.s) t a) {c : Bits}
    (hc : Amount w (Feeds y.p k v sc n) L.keys L.kind .int64 (Whole.seenIn (view y i).z.s) last a c) :
    Spec.total64 (ints ((sentPoints numbers (sentScope sc) n (y.readers i).sent).filter (fun d => @decide (AttrsOf a d.attrs) (Classical.propDecidable _)))) = c := by
  obtain ⟨dacts, h1, h2, -⟩ := C102_program hp i
  obtain ⟨lacts, h3, h4, -⟩ := C97_program h1
  rw [← h2, ← h4] at h
  have hlen := (C93_payloads h3).1
  exact C93_async_delta_total h hasy h3 hone hn ht hg (fun t ht' => hf t (by rw [← hlen] at ht'; exact ht')) hov hne (by rw [← hlen]; exact hlast) hle hno hobs hc

/-! ### Examples -/

section Examples
open Verif.Examples
open Verif.Views (lit)
open Verif.Instruments Verif.Launched
open Verif.Launcher (documented)
open Verif.Examples.Asm (scA ka kb)

def c102Has (p : Provider.Provider Nat Nat) (n : Str) : Bool := match p.ordered[0]? with
  | none => false
  | some m => decide (m.scope = scA) && m.insts.any (fun o => decide (o.desc.name = n))

theorem c102Has.meter {p : Provider.Provider Nat Nat} {n : Str} (h : c102Has p n = true) : ∃ m o, p.ordered[0]? = some m ∧ m.scope = scA ∧ o ∈ m.insts ∧ o.desc.name = n := by
  unfold c102Has at h
  cases hm : p.ordered[0]? with
  | none => rw [hm] at h; cases h
  | some m =>
    rw [hm] at h
    simp only [Bool.and_eq_true, decide_eq_true_eq, List.any_eq_true] at h
    obtain ⟨h1, o, ho, h2⟩ := h
    exact ⟨m, o, rfl, h1, ho, h2⟩

/-- The program with only the reader whose preference is `a`. -/
def c102Alone (a : Launcher.Preference) (ct : Ln.Made) : Provider.Provider Nat Nat := Provider.run ViewEx.x (Provider.new (Launched.views Ln.out (documented a))) (Mu.cs ct)

theorem c102_of {i : Nat} {a : Launcher.Preference} {ct : Ln.Made} {n : Str} {L : Look Nat} (hi : Mu.vs[i]? = some (Launched.view Ln.out (documented a))) (h : c102Has (Mu.p ct) n = true)
    (hv : Viewed ViewEx.x (Launched.views Ln.out (documented a)) (Mu.cs ct) (c102Alone a ct) 0 0 (Launched.view Ln.out (documented a)) scA n L) :
    Viewed ViewEx.x Mu.vs (makes (Mu.acts ct)) (Mu.p ct) i 0 (Launched.view Ln.out (documented a)) scA n L := by
  rw [Mu.makes_acts]
  refine ⟨by unfold Mu.p; rfl, hi, ?_, hv.alike⟩
  obtain ⟨m, o, hm, h1, ho, h2⟩ := c102Has.meter h
  exact ⟨m, o, hm, h1, ho, by rw [ways_view, if_pos h2]; simp⟩

theorem c102_requests {ct : Ln.Made} {d : Views.Desc} (hd : d ∈ requests 0 (Mu.cs ct)) :
    d = ct.1.desc (lit "n") ct.2.text (lit "s") ∨ d = Ctor.int64ObservableCounter.desc (lit "y") [] (lit "s") := by
  simpa [Mu.cs, requests] using hd

theorem c102_names : (lit "n" : Str) ≠ lit "y" := by decide +kernel

/-- Both readers show a synchronous instrument without a hint. -/
theorem c102_plain {i : Nat} {a : Launcher.Preference} {c : Ctor} (hi : Mu.vs[i]? = some (Launched.view Ln.out (documented a))) (h : c102Has (Mu.p (c, .none)) (lit "n") = true)
    (h' : c102Has (c102Alone a (c, .none)) (lit "n") = true) :
    Viewed ViewEx.x Mu.vs (makes (Mu.acts (c, .none))) (Mu.p (c, .none)) i 0 (Launched.view Ln.out (documented a)) scA (lit "n") (look Ln.out a c (lit "s")) := by
  refine c102_of hi h (Named.viewed (e := Ln.out) (Ln.launch a) rfl ⟨c102Has.meter h', fun d hd hdn => ?_⟩)
  rcases c102_requests hd with rfl | rfl
  · exact ⟨by unfold Views.NoHint; simp [Ctor.desc, Ln.Hinting.text], [], rfl⟩
  · exact absurd hdn.symm c102_names

/-- Both readers show the observable counter. -/
theorem c102_observed {i : Nat} {a : Launcher.Preference} {ct : Ln.Made} (hi : Mu.vs[i]? = some (Launched.view Ln.out (documented a))) (h : c102Has (Mu.p ct) (lit "y") = true)
    (h' : c102Has (c102Alone a ct) (lit "y") = true) :
    Viewed ViewEx.x Mu.vs (makes (Mu.acts ct)) (Mu.p ct) i 0 (Launched.view Ln.out (documented a)) scA (lit "y") (look Ln.out a .int64ObservableCounter (lit "s")) := by
  refine c102_of hi h (Named.viewed (e := Ln.out) (Ln.launch a) rfl ⟨c102Has.meter h', fun d hd hdn => ?_⟩)
  rcases c102_requests hd with rfl | rfl
  · exact absurd hdn c102_names
  · exact ⟨by unfold Views.NoHint; simp [Ctor.desc], [], rfl⟩

/-- Both readers show a synchronous instrument with a hint. -/
theorem c102_hinted {i : Nat} {a : Launcher.Preference} {ct : Ln.Made} {hint : Views.Hint} {L : Look Nat} (hi : Mu.vs[i]? = some (Launched.view Ln.out (documented a)))
    (h : c102Has (Mu.p ct) (lit "n") = true) (h' : c102Has (c102Alone a ct) (lit "n") = true) (hu : L.unit = lit "s") (hk : L.keys = none) (ht : (123 : UInt8) ∈ ct.2.text)
    (hh : ViewEx.x.parseHint ct.2.text = some hint) (hw : Wants Ln.out a ct.1 hint L) :
    Viewed ViewEx.x Mu.vs (makes (Mu.acts ct)) (Mu.p ct) i 0 (Launched.view Ln.out (documented a)) scA (lit "n") L := by
  refine c102_of hi h (Hints.viewed (e := Ln.out) (c := ct.1) (Ln.launch a) rfl ⟨c102Has.meter h', hk, fun d hd hdn => ?_⟩)
  rcases c102_requests hd with rfl | rfl
  · refine ⟨⟨ct.2.text, by rw [hu]⟩, hint, ?_, hw⟩
    unfold Views.hintIn
    exact (if_pos ht).trans hh
  · exact absurd hdn.symm c102_names

theorem c102_few {ct : Ln.Made} {n : Str} (v : Views.Views Nat) : FewVia Mu.w (Mu.p ct) 0 v scA n none 2000 (measured (Mu.acts ct)) := by
  refine ⟨fun _ => [AsmV.kab, ka, kb], [AsmV.kab, ka, kb], fun _ _ => (by decide : 3 < 3000), (by decide : 3 < 2000), ?_, fun id _ b hb => ⟨AsmV.noNaN b hb, b, hb, AsmV.sameSeries_refl _ _⟩⟩
  intro e he _
  rw [Mu.measured_acts] at he
  have : ∀ e ∈ Pipeline.calls (Mu.called ct), e.1.attrs e.2.1 ∈ [AsmV.kab, ka, kb] := by rcases ct with ⟨c, h⟩ <;> cases c <;> cases h <;> decide
  exact this e he

/-- What callbacks observed on the observable counter, for each reader. -/
def c102Seen : Nat → List Seen
  | 0 => [(1, 2, Asm.ka, 11), (1, 2, Asm.kb, 20)]
  | _ => [(0, 2, Asm.ka, 10), (0, 2, Asm.kb, 20), (1, 2, Asm.ka, 13), (1, 2, Asm.kb, 20)]

theorem c102_sets {p : Provider.Provider Nat Nat} {v : Views.Views Nat} {l : List Seen} (hl : l = c102Seen 0 ∨ l = c102Seen 1) :
    (∀ t, FewSets (Feeds p 0 v scA (lit "y")) none 2000 l t) ∧ ∀ e ∈ l, Feeds p 0 v scA (lit "y") e.2.1 → shown none e.2.2.1 ≠ overflowSet := by
  have hs : ∀ l : List KV, shown none l = l.filter (fun kv => decide (kv.key ≠ [])) := fun l => by simp [shown]
  refine ⟨fun i => ⟨[Asm.ka, Asm.kb], (by decide : 2 < 2000), fun e he _ _ => ?_⟩, fun e he _ hov => ?_⟩
  · rw [hs]
    have : ∀ i ∈ [0, 1], ∀ e ∈ c102Seen i, e.2.2.1.filter (fun kv => decide (kv.key ≠ [])) ∈ [Asm.ka, Asm.kb] := by decide
    rcases hl with rfl | rfl
    · exact this 0 (by decide) e he
    · exact this 1 (by decide) e he
  · have hin : ∀ i ∈ [0, 1], ∀ e ∈ c102Seen i, ∀ kv ∈ overflowSet, kv ∉ e.2.2.1 := by decide +kernel
    have this : ∀ kv ∈ overflowSet, kv ∉ e.2.2.1 := by
      rcases hl with rfl | rfl
      · exact hin 0 (by decide) e he
      · exact hin 1 (by decide) e he
    have hne : overflowSet ≠ [] := by decide +kernel
    obtain ⟨kv, hkv⟩ := List.exists_mem_of_ne_nil _ hne
    refine this kv hkv ?_
    rw [← hov] at hkv
    exact (List.mem_filter.1 hkv).1

/-- The values sent under a name, for each reader, payload by payload. -/
def c102Sent (s : Mu.S) (n : Str) : List (List (List PNum)) := (List.range 2).map (fun i => (s.readers i).sent.map (fun pl => (pointsIn numbers (sentScope scA) n pl).map (·.value)))

/-- In what is evaluated. -/
theorem c102_at {ct : Ln.Made} {s s' s2 : Mu.S} (h1 : Mu.stages ct = some (s, s', s2)) (P : Mu.S → Prop) (h : ∃ q, Mu.stages ct = some q ∧ P q.2.1) : P s' := by
  obtain ⟨q, e1, e2⟩ := h
  obtain rfl : (s, s', s2) = q := by rw [h1] at e1; exact Option.some.inj e1
  exact e2

/-- Two readers, `ForceFlush` and `Shutdown` of the provider: the hypotheses of the theorems above are met for both readers and both instruments. The first reader, with cumulative temporality,
sends 5 and 7, then 5 and 9 for the counter; the second, with delta temporality, sends 5 and 9, then nothing. For the observable counter the first reader, whose callbacks observed nothing in the
first collection and 11 and 20 in the second, sends these; the second, whose callbacks observed 10 and 20, then 13 and 20, sends 10 and 20, then 3. What the program does afterwards, among which
another `Shutdown`, sends nothing more. -/
example : ∃ s s' s2, Multi.Closing (fun _ => 0) Mu.w Wh.fsub ViewEx.x Mu.vs 1 (Mu.acts (.int64Counter, .none)) Mu.after s s' ∧
    Viewed ViewEx.x Mu.vs (makes (Mu.acts (.int64Counter, .none))) s'.p 0 0 (Launched.view Ln.out (documented .cumulative)) scA (lit "n") (look Ln.out .cumulative .int64Counter (lit "s")) ∧
    Viewed ViewEx.x Mu.vs (makes (Mu.acts (.int64Counter, .none))) s'.p 1 0 (Launched.view Ln.out (documented .delta)) scA (lit "n") (look Ln.out .delta .int64Counter (lit "s")) ∧
    Viewed ViewEx.x Mu.vs (makes (Mu.acts (.int64Counter, .none))) s'.p 0 0 (Launched.view Ln.out (documented .cumulative)) scA (lit "y")
      (look Ln.out .cumulative .int64ObservableCounter (lit "s")) ∧
    Viewed ViewEx.x Mu.vs (makes (Mu.acts (.int64Counter, .none))) s'.p 1 0 (Launched.view Ln.out (documented .delta)) scA (lit "y") (look Ln.out .delta .int64ObservableCounter (lit "s")) ∧
    (∀ a, FewVia Mu.w s'.p 0 (Launched.view Ln.out (documented a)) scA (lit "n") none 2000 (measured (Mu.acts (.int64Counter, .none)))) ∧
    (∀ id, times s'.p 0 (Launched.view Ln.out (documented .cumulative)) scA (lit "n") id = times s'.p 0 (Launched.view Ln.out (documented .delta)) scA (lit "n") id) ∧
    c102Sent s' (lit "n") = [[[.int 5, .int 7], [.int 5, .int 9]], [[.int 5, .int 9], []]] ∧
    (∀ a, ShownOnce s'.p 0 (Launched.view Ln.out (documented a)) scA (lit "y")) ∧
    (∀ i t a, i < 2 → FewSets (Feeds s'.p 0 (Launched.view Ln.out (documented a)) scA (lit "y")) none 2000 (Whole.seenIn (view s' i).z.s) t) ∧
    (∀ e ∈ Whole.seenIn (view s' 1).z.s, Feeds s'.p 0 (Launched.view Ln.out (documented .delta)) scA (lit "y") e.2.1 → shown none e.2.2.1 ≠ overflowSet) ∧
    c102Sent s' (lit "y") = [[[], [.int 20, .int 11]], [[.int 20, .int 10], [.int 3]]] ∧
    Multi.run (fun _ => 0) Mu.w Wh.fsub ViewEx.x s' (Mu.more (.int64Counter, .none)) = some s2 ∧ s2.calls = [.done false, .done false, .done true] ∧
    ∀ i, i < 2 → (s2.readers i).sent = (s'.readers i).sent := by
  obtain ⟨s, s', s2, h1, h2, h3, h4, h5, h6⟩ := Mu.of_evaluated (ct := (.int64Counter, .none)) (by decide +kernel)
  have e2 := c102_at h1 (fun q => c102Sent q (lit "n") = [[[.int 5, .int 7], [.int 5, .int 9]], [[.int 5, .int 9], []]]) (exists_of_eval (by decide +kernel))
  have e3 := c102_at h1 (fun q => c102Sent q (lit "y") = [[[], [.int 20, .int 11]], [[.int 20, .int 10], [.int 3]]]) (exists_of_eval (by decide +kernel))
  have e5 := c102_at h1 (fun q => Whole.seenIn (view q 0).z.s = c102Seen 0) (exists_of_eval (by decide +kernel))
  have e6 := c102_at h1 (fun q => Whole.seenIn (view q 1).z.s = c102Seen 1) (exists_of_eval (by decide +kernel))
  have e4 : s2.calls = [.done false, .done false, .done true] := by
    obtain ⟨q, g1, g2⟩ : ∃ q, Mu.stages (.int64Counter, .none) = some q ∧ q.2.2.calls = [.done false, .done false, .done true] := exists_of_eval (by decide +kernel)
    obtain rfl : (s, s', s2) = q := by rw [h1] at g1; exact Option.some.inj g1
    exact g2
  have hseen : ∀ i, i < 2 → Whole.seenIn (view s' i).z.s = c102Seen 0 ∨ Whole.seenIn (view s' i).z.s = c102Seen 1 := fun i hi => by
    match i, hi with
    | 0, _ => exact .inl e5
    | 1, _ => exact .inr e6
  refine ⟨s, s', s2, h6, ?_, ?_, ?_, ?_, fun a => ?_, ?_, e2, fun a => times_le _ _ _, fun i t a hi => (c102_sets (hseen i hi)).1 t, (c102_sets (hseen 1 (by decide))).2, e3, h4, e4,
    fun i hi => ?_⟩
  · rw [h2]; exact c102_plain rfl (by decide +kernel) (by decide +kernel)
  · rw [h2]; exact c102_plain rfl (by decide +kernel) (by decide +kernel)
  · rw [h2]; exact c102_observed rfl (by decide +kernel) (by decide +kernel)
  · rw [h2]; exact c102_observed rfl (by decide +kernel) (by decide +kernel)
  · rw [h2]; exact c102_few _
  · intro id
    unfold times
    cases s'.p.ordered[0]? with
    | none => rfl
    | some m => simp only [ways_view]
  · refine C102_silent h6.running h6.before h3.2.1 (by rw [h3.2.2.1]; rfl) (fun pc hpc => ?_) (fun j u th hj _ hu => ?_) (Mu.no_flush _) h4 hi
    · rw [h3.2.2.1] at hpc
      simp at hpc
      exact ⟨false, hpc⟩
    · exact of_decide_eq_true (List.all_eq_true.1 (h3.2.2.2 j hj) th (List.mem_of_getElem? hu))

/-- The same with a counter of floats shown as a gauge. -/
example : ∃ s s', Multi.Closing (fun _ => 0) Mu.w Wh.fsub ViewEx.x Mu.vs 1 (Mu.acts (.float64Counter, .gauge)) Mu.after s s' ∧
    Viewed ViewEx.x Mu.vs (makes (Mu.acts (.float64Counter, .gauge))) s'.p 0 0 (Launched.view Ln.out (documented .cumulative)) scA (lit "n") (c95Look .float64Counter .gauge false ⟨160, 2000⟩) ∧
    Viewed ViewEx.x Mu.vs (makes (Mu.acts (.float64Counter, .gauge))) s'.p 1 0 (Launched.view Ln.out (documented .delta)) scA (lit "n") (c95Look .float64Counter .gauge true ⟨160, 2000⟩) ∧
    (∀ a, Multi.OneByOne (fun _ => 0) Mu.w Wh.fsub ViewEx.x Mu.vs 1 s'.p 0 (Launched.view Ln.out (documented a)) scA (lit "n") (Mu.acts (.float64Counter, .gauge)) ∧
      FewVia Mu.w s'.p 0 (Launched.view Ln.out (documented a)) scA (lit "n") none 2000 (measured (Mu.acts (.float64Counter, .gauge)))) ∧
    c102Sent s' (lit "n") = [[[.double 5, .double 7], [.double 5, .double 2]], [[.double 5, .double 2], []]] := by
  obtain ⟨s, s', s2, h1, h2, h3, h4, h5, h6⟩ := Mu.of_evaluated (ct := (.float64Counter, .gauge)) (by decide +kernel)
  have e2 := c102_at h1 (fun q => c102Sent q (lit "n") = [[[.double 5, .double 7], [.double 5, .double 2]], [[.double 5, .double 2], []]]) (exists_of_eval (by decide +kernel))
  have hw : ∀ {a delta} (_ : delta = decide (documented a (Ctor.float64Counter).kinds.2 = .delta)), Wants Ln.out a .float64Counter (c95Hint (lit "gauge")) (c95Look .float64Counter .gauge delta ⟨160, 2000⟩) :=
    fun {a delta} hd => c95_wants (show lit "gauge" ≠ [] by decide +kernel) (show (lit "gauge", _) ∈ _ by decide +kernel) (by simp [Views.Implemented, Ctor.kinds, Front.IKind.synchronous])
      (.inl rfl) (by rw [hd]; cases a <;> decide +kernel) rfl rfl
  refine ⟨s, s', h6, ?_, ?_, fun a => ⟨?_, ?_⟩, e2⟩
  · rw [h2]; exact c102_hinted rfl (by decide +kernel) (by decide +kernel) rfl rfl (show (123 : UInt8) ∈ lit "{gauge" by decide +kernel) c95_gauge (hw (by decide +kernel))
  · rw [h2]; exact c102_hinted rfl (by decide +kernel) (by decide +kernel) rfl rfl (show (123 : UInt8) ∈ lit "{gauge" by decide +kernel) c95_gauge (hw (by decide +kernel))
  · rw [h2]; exact Mu.oneByOne (by decide +kernel) _ _ _ _
  · rw [h2]; exact c102_few _

/-- The same with a histogram of integers: the counts of its points. -/
example : ∃ s s', Multi.Closing (fun _ => 0) Mu.w Wh.fsub ViewEx.x Mu.vs 1 (Mu.acts (.int64Histogram, .none)) Mu.after s s' ∧
    Viewed ViewEx.x Mu.vs (makes (Mu.acts (.int64Histogram, .none))) s'.p 0 0 (Launched.view Ln.out (documented .cumulative)) scA (lit "n") (look Ln.out .cumulative .int64Histogram (lit "s")) ∧
    Viewed ViewEx.x Mu.vs (makes (Mu.acts (.int64Histogram, .none))) s'.p 1 0 (Launched.view Ln.out (documented .delta)) scA (lit "n") (look Ln.out .delta .int64Histogram (lit "s")) ∧
    (∀ a, FewVia Mu.w s'.p 0 (Launched.view Ln.out (documented a)) scA (lit "n") none 2000 (measured (Mu.acts (.int64Histogram, .none)))) ∧
    (List.range 2).map (fun i => (s'.readers i).sent.map (fun pl => (pointsIn expPoints (sentScope scA) (lit "n") pl).map (·.count))) = [[[1, 1], [1, 2]], [[1, 2], []]] := by
  obtain ⟨s, s', s2, h1, h2, h3, h4, h5, h6⟩ := Mu.of_evaluated (ct := (.int64Histogram, .none)) (by decide +kernel)
  have e2 := c102_at h1 (fun q => (List.range 2).map (fun i => (q.readers i).sent.map (fun pl => (pointsIn expPoints (sentScope scA) (lit "n") pl).map (·.count))) = [[[1, 1], [1, 2]], [[1, 2], []]])
    (exists_of_eval (by decide +kernel))
  refine ⟨s, s', h6, ?_, ?_, fun a => ?_, e2⟩
  · rw [h2]; exact c102_plain rfl (by decide +kernel) (by decide +kernel)
  · rw [h2]; exact c102_plain rfl (by decide +kernel) (by decide +kernel)
  · rw [h2]; exact c102_few _

/-- The same with a histogram of floats shown by its minimum, maximum, sum and count. -/
example : ∃ s s', Multi.Closing (fun _ => 0) Mu.w Wh.fsub ViewEx.x Mu.vs 1 (Mu.acts (.float64Histogram, .stats)) Mu.after s s' ∧
    Viewed ViewEx.x Mu.vs (makes (Mu.acts (.float64Histogram, .stats))) s'.p 0 0 (Launched.view Ln.out (documented .cumulative)) scA (lit "n") (c95Look .float64Histogram .mmsc false ⟨160, 2000⟩) ∧
    (∀ a, FewVia Mu.w s'.p 0 (Launched.view Ln.out (documented a)) scA (lit "n") none 2000 (measured (Mu.acts (.float64Histogram, .stats)))) ∧
    (s'.readers 0).sent.map (fun pl => (pointsIn histPoints (sentScope scA) (lit "n") pl).map (fun d => (d.count, d.sum))) = [[(1, 5), (1, 7)], [(1, 5), (2, 9)]] := by
  obtain ⟨s, s', s2, h1, h2, h3, h4, h5, h6⟩ := Mu.of_evaluated (ct := (.float64Histogram, .stats)) (by decide +kernel)
  have e2 := c102_at h1 (fun q => (q.readers 0).sent.map (fun pl => (pointsIn histPoints (sentScope scA) (lit "n") pl).map (fun d => (d.count, d.sum))) = [[(1, 5), (1, 7)], [(1, 5), (2, 9)]])
    (exists_of_eval (by decide +kernel))
  refine ⟨s, s', h6, ?_, fun a => ?_, e2⟩
  · rw [h2]
    exact c102_hinted rfl (by decide +kernel) (by decide +kernel) rfl rfl (show (123 : UInt8) ∈ lit "{minmaxsumcount" by decide +kernel) c95_stats
      (c95_wants (show lit "minmaxsumcount" ≠ [] by decide +kernel) (show (lit "minmaxsumcount", _) ∈ _ by decide +kernel) (by simp [Views.Implemented, Ctor.kinds, Front.IKind.synchronous])
        (.inl rfl) (by decide +kernel) rfl rfl)
  · rw [h2]; exact c102_few _

end Examples

end Verif.Props
