import Verif.Props.Hinted
import Verif.Props.Delivery

/-!
C97 for instruments with hints: what has been sent of them when `ForceFlush` or `Shutdown` returns.

`Hints e pref cs p k sc c n L` is as for C95, `Closes` as for C97.
-/

namespace Verif.Props
open Verif Verif.Attr Verif.Number Verif.Aggr Verif.Export Verif.Spec Verif.Assembly Verif.Instruments Verif.Delivery
open Verif.Launched (Hints FewUpTo Launch world views Outside Wants)
open Verif.Pipeline (numbers expPoints histPoints pointsIn sentPoints ints NoEmptyList Describes Grouped)
open Verif.Front (IKind)
open Verif.Views (Tempo)
open Verif.Launcher (documented)

variable {C G ν : Type} [DecidableEq C] {lx : Launcher.Ext} {lw : Launcher.World} {opts : List Launcher.Opt} {pref : Launcher.Preference} {pc : Launcher.PipelineConfig}
  {sel : IKind → Tempo} {e : Outside C G} {k : Nat} {sc : Views.Scope} {c : Ctor} {n : Str} {L : Look C} {start : Int} {acts after : List (Delivery.Act ν)}
  {s s' : Delivery.Sys C G ν}

omit [DecidableEq C] in
theorem fewUpTo_same {lim k : Nat} {n : Str} {p : Provider.Provider C ν} {as bs : List Pipeline.Act} (h : Pipeline.calls as = Pipeline.calls bs) (hf : FewUpTo lim p k n bs) :
    FewUpTo lim p k n as := by
  unfold FewUpTo at *
  rw [h]
  exact hf

/-- C97 (hints, integer sums, cumulative). For all attributes `m` which remain, after the selection of keys, of those with which something was recorded: the last point sent
with the attributes `m` is the sum of all integers recorded with these attributes, on all instruments with the name. -/
theorem C97_hinted_sum_last (hl : Launch lx lw opts pref pc sel) (h : Hints e pref (makes acts) s'.z.p k sc c n L) (hsy : L.sync = true) (hp : Closes e pc sel start acts after s s') (hn : L.num = .int64)
    (ha : L.kind = .monoSum ∨ L.kind = .nonMonoSum) (ht : L.delta = false)
    (hf : FewUpTo L.acfg.limit s'.z.p k n (measured acts))
    (hne : ∀ a ∈ Pipeline.calls (measured acts), NoEmptyList (a.1.attrs a.2.1)) (m : PMap)
    (hrec : recordedBy s'.z.p k n (fun as => Describes none as m) (measured acts) ≠ []) :
    ((sentPoints numbers (sentScope sc) n s'.z.s.sent).filter (fun d => d.attrs = m)).getLast?.map (·.value) =
      some (.int (total64 (recordedBy s'.z.p k n (fun as => Describes none as m) (measured acts)))) := by
  obtain ⟨lacts, coll, z, z', h1, h2, h3, h4, h5⟩ := C97_ends hp
  have h6 : Pipeline.calls (Whole.syncActs (Live.rest lacts)) = Pipeline.calls (measured acts) := (Whole.calls_sync _).trans h5
  have h' := h
  rw [← h2, ← h4] at h'
  rw [← h2] at hf
  have := C95_sum_last hl h' hsy h1 hn ha ht (fewUpTo_same h6 hf) (by rw [h5]; exact hne) m (by rw [h2, recordedBy_same h6]; exact hrec)
  rw [h2, h3, recordedBy_same h6] at this
  exact this

/-- C97 (hints, integer sums, delta). The integers sent in points with exactly the attributes `m` add up to the integers recorded with attributes of
which `m` remain. -/
theorem C97_hinted_sum_sent (hl : Launch lx lw opts pref pc sel) (h : Hints e pref (makes acts) s'.z.p k sc c n L) (hsy : L.sync = true) (hp : Closes e pc sel start acts after s s') (hn : L.num = .int64)
    (ha : L.kind = .monoSum ∨ L.kind = .nonMonoSum) (ht : L.delta = true)
    (hf : FewUpTo L.acfg.limit s'.z.p k n (measured acts)) (m : PMap) :
    total64 (ints ((sentPoints numbers (sentScope sc) n s'.z.s.sent).filter (fun d => d.attrs = m))) =
      total64 (recordedBy s'.z.p k n (fun as => Describes none as m) (measured acts)) := by
  obtain ⟨lacts, coll, z, z', h1, h2, h3, h4, h5⟩ := C97_ends hp
  have h6 : Pipeline.calls (Whole.syncActs (Live.rest lacts)) = Pipeline.calls (measured acts) := (Whole.calls_sync _).trans h5
  have h' := h
  rw [← h2, ← h4] at h'
  rw [← h2] at hf
  have := C95_sum_sent hl h' hsy h1 hn ha ht (fewUpTo_same h6 hf) m
  rw [h2, h3, recordedBy_same h6] at this
  exact this

/-- C97 (hints, integer sums, delta, total). Whatever the attributes and limits, the integers sent add up to the integers recorded. -/
theorem C97_hinted_sum_total (hl : Launch lx lw opts pref pc sel) (h : Hints e pref (makes acts) s'.z.p k sc c n L) (hsy : L.sync = true) (hp : Closes e pc sel start acts after s s') (hn : L.num = .int64)
    (ha : L.kind = .monoSum ∨ L.kind = .nonMonoSum) (ht : L.delta = true) :
    total64 (ints (sentPoints numbers (sentScope sc) n s'.z.s.sent)) = total64 (recordedBy s'.z.p k n (fun _ => True) (measured acts)) := by
  obtain ⟨lacts, coll, z, z', h1, h2, h3, h4, h5⟩ := C97_ends hp
  have h6 : Pipeline.calls (Whole.syncActs (Live.rest lacts)) = Pipeline.calls (measured acts) := (Whole.calls_sync _).trans h5
  have h' := h
  rw [← h2, ← h4] at h'
  have := C95_sum_total hl h' hsy h1 hn ha ht
  rw [h2, h3, recordedBy_same h6] at this
  exact this

/-- C97 (hints, float sums, cumulative). The last point sent with the attributes `m` is the result of adding up, in some order, all floats recorded
with these attributes. -/
theorem C97_hinted_float_last (hl : Launch lx lw opts pref pc sel) (h : Hints e pref (makes acts) s'.z.p k sc c n L) (hsy : L.sync = true) (hp : Closes e pc sel start acts after s s') (hn : L.num = .float64)
    (ha : L.kind = .monoSum ∨ L.kind = .nonMonoSum) (ht : L.delta = false)
    (hf : FewUpTo L.acfg.limit s'.z.p k n (measured acts))
    (hne : ∀ a ∈ Pipeline.calls (measured acts), NoEmptyList (a.1.attrs a.2.1)) (m : PMap)
    (hrec : recordedBy s'.z.p k n (fun as => Describes none as m) (measured acts) ≠ []) :
    ∃ b vals, ((sentPoints numbers (sentScope sc) n s'.z.s.sent).filter (fun d => d.attrs = m)).getLast?.map (·.value) = some (.double b) ∧
      vals.Perm (recordedBy s'.z.p k n (fun as => Describes none as m) (measured acts)) ∧ SumOf 0 e.fadd b vals := by
  obtain ⟨lacts, coll, z, z', h1, h2, h3, h4, h5⟩ := C97_ends hp
  have h6 : Pipeline.calls (Whole.syncActs (Live.rest lacts)) = Pipeline.calls (measured acts) := (Whole.calls_sync _).trans h5
  have h' := h
  rw [← h2, ← h4] at h'
  rw [← h2] at hf
  have := C95_float_last hl h' hsy h1 hn ha ht (fewUpTo_same h6 hf) (by rw [h5]; exact hne) m (by rw [h2, recordedBy_same h6]; exact hrec)
  rw [h2, h3, recordedBy_same h6] at this
  exact this

/-- C97 (hints, float sums, delta). The floats recorded with these attributes are divided into groups; the points sent with the attributes `m` are the
sums, in some order, of the groups, except for groups whose sum is zero, which are not sent. -/
theorem C97_hinted_float_sent (hl : Launch lx lw opts pref pc sel) (h : Hints e pref (makes acts) s'.z.p k sc c n L) (hsy : L.sync = true) (hp : Closes e pc sel start acts after s s') (hn : L.num = .float64)
    (ha : L.kind = .monoSum ∨ L.kind = .nonMonoSum) (ht : L.delta = true)
    (hf : FewUpTo L.acfg.limit s'.z.p k n (measured acts)) (m : PMap) :
    ∃ gs zs : List (List Bits), (gs ++ zs).flatten.Perm (recordedBy s'.z.p k n (fun as => Describes none as m) (measured acts)) ∧
      Pointwise (fun g d => ∃ b, SumOf 0 e.fadd b g ∧ d.value = .double b ∧ scaled b ≠ 0) gs
        ((sentPoints numbers (sentScope sc) n s'.z.s.sent).filter (fun d => d.attrs = m)) ∧
      ∀ g ∈ zs, ∃ b, SumOf 0 e.fadd b g ∧ scaled b = 0 := by
  obtain ⟨lacts, coll, z, z', h1, h2, h3, h4, h5⟩ := C97_ends hp
  have h6 : Pipeline.calls (Whole.syncActs (Live.rest lacts)) = Pipeline.calls (measured acts) := (Whole.calls_sync _).trans h5
  have h' := h
  rw [← h2, ← h4] at h'
  rw [← h2] at hf
  have := C95_float_sent hl h' hsy h1 hn ha ht (fewUpTo_same h6 hf) m
  rw [h2, h3, recordedBy_same h6] at this
  exact this

/-- C97 (hints, gauges, cumulative). When calls on the instruments with the name do not overlap: the last point sent with the attributes `m` carries the value of
the last call with these attributes. -/
theorem C97_hinted_gauge_last (hl : Launch lx lw opts pref pc sel) (h : Hints e pref (makes acts) s'.z.p k sc c n L) (hsy : L.sync = true) (hp : Closes e pc sel start acts after s s')
    (ha : L.kind = .gauge) (ht : L.delta = false) (hq : Delivery.OneByOne e pc sel start s'.z.p k n acts)
    (hf : FewUpTo L.acfg.limit s'.z.p k n (measured acts))
    (hne : ∀ a ∈ Pipeline.calls (measured acts), NoEmptyList (a.1.attrs a.2.1)) (m : PMap)
    (hrec : recordedBy s'.z.p k n (fun as => Describes none as m) (measured acts) ≠ []) :
    ∃ d b, ((sentPoints numbers (sentScope sc) n s'.z.s.sent).filter (fun d => d.attrs = m)).getLast? = some d ∧
      (recordedBy s'.z.p k n (fun as => Describes none as m) (measured acts)).getLast? = some b ∧ NumOf L.num b d.value := by
  obtain ⟨lacts, coll, z, z', h1, h2, h3, h4, h5, ls, h7, hz⟩ := hp.ends
  have h6 : Pipeline.calls (Whole.syncActs (Live.rest lacts)) = Pipeline.calls (measured acts) := (Whole.calls_sync _).trans h5
  have h' := h
  rw [← h2, ← h4] at h'
  rw [← h2] at hf
  rw [← h2] at h7 hq
  have := C95_gauge_last hl h' hsy h1 ha ht (hq.live h7 hz) (fewUpTo_same h6 hf) (by rw [h5]; exact hne) m (by rw [h2, recordedBy_same h6]; exact hrec)
  rw [h2, h3, recordedBy_same h6] at this
  exact this

/-- C97 (hints, gauges, delta). When calls on the instruments with the name do not overlap: the values recorded with these attributes are divided into
groups, each in the order of the calls, one for each point sent with the attributes `m`; the point carries the last value of its group. (The last point need not
have the last value of all: see `C88_gauge_delta_last_fails`.) -/
theorem C97_hinted_gauge_sent (hl : Launch lx lw opts pref pc sel) (h : Hints e pref (makes acts) s'.z.p k sc c n L) (hsy : L.sync = true) (hp : Closes e pc sel start acts after s s')
    (ha : L.kind = .gauge) (ht : L.delta = true) (hq : Delivery.OneByOne e pc sel start s'.z.p k n acts)
    (hf : FewUpTo L.acfg.limit s'.z.p k n (measured acts)) (m : PMap) :
    ∃ gs : List (List Bits), gs.flatten.Perm (recordedBy s'.z.p k n (fun as => Describes none as m) (measured acts)) ∧
      (∀ g ∈ gs, g.Sublist (recordedBy s'.z.p k n (fun as => Describes none as m) (measured acts))) ∧
      Pointwise (fun g d => ∃ b, g.getLast? = some b ∧ NumOf L.num b d.value) gs
        ((sentPoints numbers (sentScope sc) n s'.z.s.sent).filter (fun d => d.attrs = m)) := by
  obtain ⟨lacts, coll, z, z', h1, h2, h3, h4, h5, ls, h7, hz⟩ := hp.ends
  have h6 : Pipeline.calls (Whole.syncActs (Live.rest lacts)) = Pipeline.calls (measured acts) := (Whole.calls_sync _).trans h5
  have h' := h
  rw [← h2, ← h4] at h'
  rw [← h2] at hf
  rw [← h2] at h7 hq
  have := C95_gauge_sent hl h' hsy h1 ha ht (hq.live h7 hz) (fewUpTo_same h6 hf) m
  rw [h2, h3, recordedBy_same h6] at this
  exact this

/-- C97 (hints, histograms, cumulative). The last point sent with the attributes `m` has the content of an exponential histogram, with the configuration which the hint gives,
made of exactly the values recorded with these attributes. -/
theorem C97_hinted_hist_last (hl : Launch lx lw opts pref pc sel) (h : Hints e pref (makes acts) s'.z.p k sc c n L) (hsy : L.sync = true) (hp : Closes e pc sel start acts after s s')
    (ha : L.kind = .histogram) (ht : L.delta = false)
    (hf : FewUpTo L.acfg.limit s'.z.p k n (measured acts))
    (hne : ∀ a ∈ Pipeline.calls (measured acts), NoEmptyList (a.1.attrs a.2.1)) (m : PMap)
    (hrec : recordedBy s'.z.p k n (fun as => Describes none as m) (measured acts) ≠ []) :
    ∃ d vals, ((sentPoints expPoints (sentScope sc) n s'.z.s.sent).filter (fun d => d.attrs = m)).getLast? = some d ∧
      vals.Perm (recordedBy s'.z.p k n (fun as => Describes none as m) (measured acts)) ∧
      ShowsHist (reader (world e pc) s'.z.p 0) (e.hist L.num L.acfg.hist) L.num vals d := by
  obtain ⟨lacts, coll, z, z', h1, h2, h3, h4, h5⟩ := C97_ends hp
  have h6 : Pipeline.calls (Whole.syncActs (Live.rest lacts)) = Pipeline.calls (measured acts) := (Whole.calls_sync _).trans h5
  have h' := h
  rw [← h2, ← h4] at h'
  rw [← h2] at hf
  have := C95_hist_last hl h' hsy h1 ha ht (fewUpTo_same h6 hf) (by rw [h5]; exact hne) m (by rw [h2, recordedBy_same h6]; exact hrec)
  rw [h2, h3, recordedBy_same h6] at this
  exact this

/-- C97 (hints, histograms, delta). The values recorded with these attributes are divided into groups, one for each point sent with the attributes `m`, which has the content
of an exponential histogram made of exactly its group. -/
theorem C97_hinted_hist_sent (hl : Launch lx lw opts pref pc sel) (h : Hints e pref (makes acts) s'.z.p k sc c n L) (hsy : L.sync = true) (hp : Closes e pc sel start acts after s s')
    (ha : L.kind = .histogram) (ht : L.delta = true)
    (hc : Counts (e.hist L.num L.acfg.hist))
    (hf : FewUpTo L.acfg.limit s'.z.p k n (measured acts)) (m : PMap) :
    Grouped (ShowsHist (reader (world e pc) s'.z.p 0) (e.hist L.num L.acfg.hist) L.num)
      (recordedBy s'.z.p k n (fun as => Describes none as m) (measured acts)) ((sentPoints expPoints (sentScope sc) n s'.z.s.sent).filter (fun d => d.attrs = m)) := by
  obtain ⟨lacts, coll, z, z', h1, h2, h3, h4, h5⟩ := C97_ends hp
  have h6 : Pipeline.calls (Whole.syncActs (Live.rest lacts)) = Pipeline.calls (measured acts) := (Whole.calls_sync _).trans h5
  have h' := h
  rw [← h2, ← h4] at h'
  rw [← h2] at hf
  have := C95_hist_sent hl h' hsy h1 ha ht hc (fewUpTo_same h6 hf) m
  rw [h2, h3, recordedBy_same h6] at this
  exact this

/-- C97 (hints, min/max/sum/count of floats, cumulative). The last point sent with the attributes `m` shows these of exactly the values recorded with these attributes. -/
theorem C97_hinted_mmsc_last (hl : Launch lx lw opts pref pc sel) (h : Hints e pref (makes acts) s'.z.p k sc c n L) (hsy : L.sync = true) (hp : Closes e pc sel start acts after s s') (hn : L.num = .float64)
    (ha : L.kind = .mmsc) (ht : L.delta = false)
    (hf : FewUpTo L.acfg.limit s'.z.p k n (measured acts))
    (hne : ∀ a ∈ Pipeline.calls (measured acts), NoEmptyList (a.1.attrs a.2.1)) (m : PMap)
    (hrec : recordedBy s'.z.p k n (fun as => Describes none as m) (measured acts) ≠ []) :
    ∃ d vals, ((sentPoints histPoints (sentScope sc) n s'.z.s.sent).filter (fun d => d.attrs = m)).getLast? = some d ∧
      vals.Perm (recordedBy s'.z.p k n (fun as => Describes none as m) (measured acts)) ∧ ShowsStats e.fadd vals d := by
  obtain ⟨lacts, coll, z, z', h1, h2, h3, h4, h5⟩ := C97_ends hp
  have h6 : Pipeline.calls (Whole.syncActs (Live.rest lacts)) = Pipeline.calls (measured acts) := (Whole.calls_sync _).trans h5
  have h' := h
  rw [← h2, ← h4] at h'
  rw [← h2] at hf
  have := C95_mmsc_last hl h' hsy h1 hn ha ht (fewUpTo_same h6 hf) (by rw [h5]; exact hne) m (by rw [h2, recordedBy_same h6]; exact hrec)
  rw [h2, h3, recordedBy_same h6] at this
  exact this

/-- C97 (hints, min/max/sum/count of floats, delta). The floats recorded with these attributes are divided into groups, one for each point sent with the
attributes `m`, which shows these of exactly its group. -/
theorem C97_hinted_mmsc_sent (hl : Launch lx lw opts pref pc sel) (h : Hints e pref (makes acts) s'.z.p k sc c n L) (hsy : L.sync = true) (hp : Closes e pc sel start acts after s s') (hn : L.num = .float64)
    (ha : L.kind = .mmsc) (ht : L.delta = true)
    (hf : FewUpTo L.acfg.limit s'.z.p k n (measured acts)) (m : PMap) :
    Grouped (ShowsStats e.fadd) (recordedBy s'.z.p k n (fun as => Describes none as m) (measured acts))
      ((sentPoints histPoints (sentScope sc) n s'.z.s.sent).filter (fun d => d.attrs = m)) := by
  obtain ⟨lacts, coll, z, z', h1, h2, h3, h4, h5⟩ := C97_ends hp
  have h6 : Pipeline.calls (Whole.syncActs (Live.rest lacts)) = Pipeline.calls (measured acts) := (Whole.calls_sync _).trans h5
  have h' := h
  rw [← h2, ← h4] at h'
  rw [← h2] at hf
  have := C95_mmsc_sent hl h' hsy h1 hn ha ht (fewUpTo_same h6 hf) m
  rw [h2, h3, recordedBy_same h6] at this
  exact this

/-- C97 (hints, min/max/sum/count of integers, cumulative). The last point sent with the attributes `m` shows sum and count of exactly the integers recorded with these attributes. -/
theorem C97_hinted_mmsc_int_last (hl : Launch lx lw opts pref pc sel) (h : Hints e pref (makes acts) s'.z.p k sc c n L) (hsy : L.sync = true) (hp : Closes e pc sel start acts after s s') (hn : L.num = .int64)
    (ha : L.kind = .mmsc) (ht : L.delta = false)
    (hf : FewUpTo L.acfg.limit s'.z.p k n (measured acts))
    (hne : ∀ a ∈ Pipeline.calls (measured acts), NoEmptyList (a.1.attrs a.2.1)) (m : PMap)
    (hrec : recordedBy s'.z.p k n (fun as => Describes none as m) (measured acts) ≠ []) :
    ∃ d vals, ((sentPoints histPoints (sentScope sc) n s'.z.s.sent).filter (fun d => d.attrs = m)).getLast? = some d ∧
      vals.Perm (recordedBy s'.z.p k n (fun as => Describes none as m) (measured acts)) ∧ ShowsIntStats vals d := by
  obtain ⟨lacts, coll, z, z', h1, h2, h3, h4, h5⟩ := C97_ends hp
  have h6 : Pipeline.calls (Whole.syncActs (Live.rest lacts)) = Pipeline.calls (measured acts) := (Whole.calls_sync _).trans h5
  have h' := h
  rw [← h2, ← h4] at h'
  rw [← h2] at hf
  have := C95_mmsc_int_last hl h' hsy h1 hn ha ht (fewUpTo_same h6 hf) (by rw [h5]; exact hne) m (by rw [h2, recordedBy_same h6]; exact hrec)
  rw [h2, h3, recordedBy_same h6] at this
  exact this

/-- C97 (hints, min/max/sum/count of integers, delta). The integers recorded with these attributes are divided into groups, one for each point sent with the
attributes `m`, which shows sum and count of exactly its group. -/
theorem C97_hinted_mmsc_int_sent (hl : Launch lx lw opts pref pc sel) (h : Hints e pref (makes acts) s'.z.p k sc c n L) (hsy : L.sync = true) (hp : Closes e pc sel start acts after s s') (hn : L.num = .int64)
    (ha : L.kind = .mmsc) (ht : L.delta = true)
    (hf : FewUpTo L.acfg.limit s'.z.p k n (measured acts)) (m : PMap) :
    Grouped ShowsIntStats (recordedBy s'.z.p k n (fun as => Describes none as m) (measured acts))
      ((sentPoints histPoints (sentScope sc) n s'.z.s.sent).filter (fun d => d.attrs = m)) := by
  obtain ⟨lacts, coll, z, z', h1, h2, h3, h4, h5⟩ := C97_ends hp
  have h6 : Pipeline.calls (Whole.syncActs (Live.rest lacts)) = Pipeline.calls (measured acts) := (Whole.calls_sync _).trans h5
  have h' := h
  rw [← h2, ← h4] at h'
  rw [← h2] at hf
  have := C95_mmsc_int_sent hl h' hsy h1 hn ha ht (fewUpTo_same h6 hf) m
  rw [h2, h3, recordedBy_same h6] at this
  exact this

/-- C97 (hints, nothing else is sent, numbers). Every number point sent under the name shows attributes with which something was
recorded. -/
theorem C97_hinted_known (hl : Launch lx lw opts pref pc sel) (h : Hints e pref (makes acts) s'.z.p k sc c n L) (hsy : L.sync = true) (hp : Closes e pc sel start acts after s s')
    (ha : L.kind = .monoSum ∨ L.kind = .nonMonoSum ∨ L.kind = .gauge)
    (hf : FewUpTo L.acfg.limit s'.z.p k n (measured acts)) (d : PNumber) (hd : d ∈ sentPoints numbers (sentScope sc) n s'.z.s.sent) :
    recordedBy s'.z.p k n (fun as => Describes none as d.attrs) (measured acts) ≠ [] := by
  obtain ⟨lacts, coll, z, z', h1, h2, h3, h4, h5⟩ := C97_ends hp
  have h6 : Pipeline.calls (Whole.syncActs (Live.rest lacts)) = Pipeline.calls (measured acts) := (Whole.calls_sync _).trans h5
  have h' := h
  rw [← h2, ← h4] at h'
  rw [← h2] at hf
  have := C95_known hl h' hsy h1 ha (fewUpTo_same h6 hf) d (by rw [h3]; exact hd)
  rw [h2, recordedBy_same h6] at this
  exact this

/-- C97 (hints, nothing else is sent, histograms). -/
theorem C97_hinted_hist_known (hl : Launch lx lw opts pref pc sel) (h : Hints e pref (makes acts) s'.z.p k sc c n L) (hsy : L.sync = true) (hp : Closes e pc sel start acts after s s')
    (ha : L.kind = .histogram)
    (hf : FewUpTo L.acfg.limit s'.z.p k n (measured acts)) (d : PExp) (hd : d ∈ sentPoints expPoints (sentScope sc) n s'.z.s.sent) :
    recordedBy s'.z.p k n (fun as => Describes none as d.attrs) (measured acts) ≠ [] := by
  obtain ⟨lacts, coll, z, z', h1, h2, h3, h4, h5⟩ := C97_ends hp
  have h6 : Pipeline.calls (Whole.syncActs (Live.rest lacts)) = Pipeline.calls (measured acts) := (Whole.calls_sync _).trans h5
  have h' := h
  rw [← h2, ← h4] at h'
  rw [← h2] at hf
  have := C95_hist_known hl h' hsy h1 ha (fewUpTo_same h6 hf) d (by rw [h3]; exact hd)
  rw [h2, recordedBy_same h6] at this
  exact this

/-- C97 (hints, nothing else is sent, min/max/sum/count). -/
theorem C97_hinted_mmsc_known (hl : Launch lx lw opts pref pc sel) (h : Hints e pref (makes acts) s'.z.p k sc c n L) (hsy : L.sync = true) (hp : Closes e pc sel start acts after s s')
    (ha : L.kind = .mmsc)
    (hf : FewUpTo L.acfg.limit s'.z.p k n (measured acts)) (d : PHist) (hd : d ∈ sentPoints histPoints (sentScope sc) n s'.z.s.sent) :
    recordedBy s'.z.p k n (fun as => Describes none as d.attrs) (measured acts) ≠ [] := by
  obtain ⟨lacts, coll, z, z', h1, h2, h3, h4, h5⟩ := C97_ends hp
  have h6 : Pipeline.calls (Whole.syncActs (Live.rest lacts)) = Pipeline.calls (measured acts) := (Whole.calls_sync _).trans h5
  have h' := h
  rw [← h2, ← h4] at h'
  rw [← h2] at hf
  have := C95_mmsc_known hl h' hsy h1 ha (fewUpTo_same h6 hf) d (by rw [h3]; exact hd)
  rw [h2, recordedBy_same h6] at this
  exact this

/-! ### Examples -/

section Examples
open Verif.Examples Verif.Examples.Asm
open Verif.Views (lit AggKind Hint aggregationWords Implemented)

theorem c97_hints {a : Launcher.Preference} {m : Ln.Made} {l : Dl.Last} {h : Hint} {L : Look Nat} (hb : Dl.hasB a m l (lit "n") = true) (hu : L.unit = lit "s") (hk : L.keys = none)
    (ht : (123 : UInt8) ∈ m.2.text) (hh : ViewEx.x.parseHint m.2.text = some h) (hw : Wants Ln.out a m.1 h L) :
    Hints Ln.out a (makes (Dl.acts m l)) (Dl.p a m l) 0 scA m.1 (lit "n") L := by
  rw [Dl.makes_acts]
  unfold Dl.hasB at hb
  cases hm : (Dl.p a m l).ordered[0]? with
  | none => rw [hm] at hb; cases hb
  | some mt =>
    rw [hm] at hb
    simp only [Bool.and_eq_true, decide_eq_true_eq, List.any_eq_true] at hb
    obtain ⟨h1, o, ho, h2⟩ := hb
    refine ⟨⟨mt, o, hm, h1, ho, h2⟩, hk, fun d hd hn => ?_⟩
    have hn' : (lit "n" : Str) ≠ lit "y" := by decide +kernel
    have hd' : d = m.1.desc (lit "n") m.2.text (lit "s") ∨ d = Ctor.int64ObservableCounter.desc (lit "y") [] (lit "s") := by
      cases l <;> simpa [Dl.cs, Dl.Last.mark, requests] using hd
    rcases hd' with rfl | rfl
    · refine ⟨⟨m.2.text, by rw [hu]⟩, h, ?_, hw⟩
      unfold Views.hintIn
      exact (if_pos ht).trans hh
    · exact absurd hn.symm hn'

theorem c97_few {a : Launcher.Preference} {m : Ln.Made} {l : Dl.Last} {k : Nat} {nm : Str} {lim : Nat} (h : 3 < lim) : FewUpTo lim (Dl.p a m l) k nm (measured (Dl.acts m l)) := by
  refine ⟨fun _ => [AsmV.kab, ka, kb], [AsmV.kab, ka, kb], fun _ _ => (by decide : 3 < 3000), h, ?_, fun id _ b hb => ⟨AsmV.noNaN b hb, b, hb, AsmV.sameSeries_refl _ _⟩⟩
  intro e he _
  rw [Dl.measured_acts] at he
  have : ∀ e ∈ Pipeline.calls (Dl.called m), e.1.attrs e.2.1 ∈ [AsmV.kab, ka, kb] := by rcases m with ⟨c, h⟩ <;> cases c <;> cases h <;> decide
  exact this e he

/-- "cumulative", `Shutdown`: an up-down counter with a hint for delta temporality. -/
example : ∃ s s', Dl.stages .cumulative (.int64UpDownCounter, .deltas) .shutdown = some (s, s') ∧
    Closes Ln.out (Ln.pc .cumulative) (documented .cumulative) 1 (Dl.acts (.int64UpDownCounter, .deltas) .shutdown) (Dl.after .cumulative (.int64UpDownCounter, .deltas) .shutdown) s s' ∧
    Hints Ln.out .cumulative (makes (Dl.acts (.int64UpDownCounter, .deltas) .shutdown)) s'.z.p 0 scA .int64UpDownCounter (lit "n") (c95Look .int64UpDownCounter .monoSum true ⟨7, 5⟩) ∧
    FewUpTo 5 s'.z.p 0 (lit "n") (measured (Dl.acts (.int64UpDownCounter, .deltas) .shutdown)) ∧
    Delivery.OneByOne Ln.out (Ln.pc .cumulative) (documented .cumulative) 1 s'.z.p 0 (lit "n") (Dl.acts (.int64UpDownCounter, .deltas) .shutdown) ∧
    c97Sent s' (lit "n") = [[.int 5, .int 7], [.int 2]] := by
  obtain ⟨s, s', h1, h2, -, h3⟩ := Dl.of_evaluated (a := .cumulative) (ct := (.int64UpDownCounter, .deltas)) (k := .shutdown) (by decide +kernel)
  obtain ⟨q, e1, e2⟩ : ∃ q, Dl.stages .cumulative (.int64UpDownCounter, .deltas) .shutdown = some q ∧
    c97Sent q.2 (lit "n") = [[.int 5, .int 7], [.int 2]] := exists_of_eval (by decide +kernel)
  obtain rfl : (s, s') = q := by rw [h1] at e1; exact Option.some.inj e1
  refine ⟨s, s', h1, h3, ?_, by rw [h2]; exact c97_few (by decide), by rw [h2]; exact Dl.oneByOne (by decide +kernel), e2⟩
  rw [h2]
  exact c97_hints (m := (.int64UpDownCounter, .deltas)) (by decide +kernel) rfl rfl (show (123 : UInt8) ∈ lit "{!monotonic_sum" by decide +kernel) c95_deltas
    (c95_wants (show lit "monotonic_sum" ≠ [] by decide +kernel) (show (lit "monotonic_sum", _) ∈ _ by decide +kernel) (by simp [Implemented, Ctor.kinds, Front.IKind.synchronous])
      (.inr rfl) (by decide +kernel) rfl rfl)

/-- "delta", `ForceFlush`: a counter of floats shown as a gauge. -/
example : ∃ s s', Dl.stages .delta (.float64Counter, .gauge) .flush = some (s, s') ∧
    Closes Ln.out (Ln.pc .delta) (documented .delta) 1 (Dl.acts (.float64Counter, .gauge) .flush) (Dl.after .delta (.float64Counter, .gauge) .flush) s s' ∧
    Hints Ln.out .delta (makes (Dl.acts (.float64Counter, .gauge) .flush)) s'.z.p 0 scA .float64Counter (lit "n") (c95Look .float64Counter .gauge true ⟨160, 2000⟩) ∧
    FewUpTo 2000 s'.z.p 0 (lit "n") (measured (Dl.acts (.float64Counter, .gauge) .flush)) ∧
    Delivery.OneByOne Ln.out (Ln.pc .delta) (documented .delta) 1 s'.z.p 0 (lit "n") (Dl.acts (.float64Counter, .gauge) .flush) ∧
    c97Sent s' (lit "n") = [[.double 5, .double 7], [.double 2]] := by
  obtain ⟨s, s', h1, h2, -, h3⟩ := Dl.of_evaluated (a := .delta) (ct := (.float64Counter, .gauge)) (k := .flush) (by decide +kernel)
  obtain ⟨q, e1, e2⟩ : ∃ q, Dl.stages .delta (.float64Counter, .gauge) .flush = some q ∧
    c97Sent q.2 (lit "n") = [[.double 5, .double 7], [.double 2]] := exists_of_eval (by decide +kernel)
  obtain rfl : (s, s') = q := by rw [h1] at e1; exact Option.some.inj e1
  refine ⟨s, s', h1, h3, ?_, by rw [h2]; exact c97_few (by decide), by rw [h2]; exact Dl.oneByOne (by decide +kernel), e2⟩
  rw [h2]
  exact c97_hints (m := (.float64Counter, .gauge)) (by decide +kernel) rfl rfl (show (123 : UInt8) ∈ lit "{gauge" by decide +kernel) c95_gauge
    (c95_wants (show lit "gauge" ≠ [] by decide +kernel) (show (lit "gauge", _) ∈ _ by decide +kernel) (by simp [Implemented, Ctor.kinds, Front.IKind.synchronous])
      (.inl rfl) (by decide +kernel) rfl rfl)

/-- "cumulative", `ForceFlush`: a histogram of integers with the hint `minmaxsumcount`. -/
example : ∃ s s', Dl.stages .cumulative (.int64Histogram, .stats) .flush = some (s, s') ∧
    Closes Ln.out (Ln.pc .cumulative) (documented .cumulative) 1 (Dl.acts (.int64Histogram, .stats) .flush) (Dl.after .cumulative (.int64Histogram, .stats) .flush) s s' ∧
    Hints Ln.out .cumulative (makes (Dl.acts (.int64Histogram, .stats) .flush)) s'.z.p 0 scA .int64Histogram (lit "n") (c95Look .int64Histogram .mmsc false ⟨160, 2000⟩) ∧
    FewUpTo 2000 s'.z.p 0 (lit "n") (measured (Dl.acts (.int64Histogram, .stats) .flush)) ∧
    Delivery.OneByOne Ln.out (Ln.pc .cumulative) (documented .cumulative) 1 s'.z.p 0 (lit "n") (Dl.acts (.int64Histogram, .stats) .flush) ∧
    s'.z.s.sent.map (fun pl => (pointsIn histPoints (sentScope scA) (lit "n") pl).map (fun d => (d.count, d.sum))) = [[(1, 0x4014000000000000), (1, 0x401c000000000000)], [(1, 0x4014000000000000), (2, 0x4022000000000000)]] := by
  obtain ⟨s, s', h1, h2, -, h3⟩ := Dl.of_evaluated (a := .cumulative) (ct := (.int64Histogram, .stats)) (k := .flush) (by decide +kernel)
  obtain ⟨q, e1, e2⟩ : ∃ q, Dl.stages .cumulative (.int64Histogram, .stats) .flush = some q ∧
    q.2.z.s.sent.map (fun pl => (pointsIn histPoints (sentScope scA) (lit "n") pl).map (fun d => (d.count, d.sum))) = [[(1, 0x4014000000000000), (1, 0x401c000000000000)], [(1, 0x4014000000000000), (2, 0x4022000000000000)]] := exists_of_eval (by decide +kernel)
  obtain rfl : (s, s') = q := by rw [h1] at e1; exact Option.some.inj e1
  refine ⟨s, s', h1, h3, ?_, by rw [h2]; exact c97_few (by decide), by rw [h2]; exact Dl.oneByOne (by decide +kernel), e2⟩
  rw [h2]
  exact c97_hints (m := (.int64Histogram, .stats)) (by decide +kernel) rfl rfl (show (123 : UInt8) ∈ lit "{minmaxsumcount" by decide +kernel) c95_stats
    (c95_wants (show lit "minmaxsumcount" ≠ [] by decide +kernel) (show (lit "minmaxsumcount", _) ∈ _ by decide +kernel) (by simp [Implemented, Ctor.kinds, Front.IKind.synchronous])
      (.inl rfl) (by decide +kernel) rfl rfl)

/-- "delta", `Shutdown`: the same of floats. -/
example : ∃ s s', Dl.stages .delta (.float64Histogram, .stats) .shutdown = some (s, s') ∧
    Closes Ln.out (Ln.pc .delta) (documented .delta) 1 (Dl.acts (.float64Histogram, .stats) .shutdown) (Dl.after .delta (.float64Histogram, .stats) .shutdown) s s' ∧
    Hints Ln.out .delta (makes (Dl.acts (.float64Histogram, .stats) .shutdown)) s'.z.p 0 scA .float64Histogram (lit "n") (c95Look .float64Histogram .mmsc true ⟨160, 2000⟩) ∧
    FewUpTo 2000 s'.z.p 0 (lit "n") (measured (Dl.acts (.float64Histogram, .stats) .shutdown)) ∧
    Delivery.OneByOne Ln.out (Ln.pc .delta) (documented .delta) 1 s'.z.p 0 (lit "n") (Dl.acts (.float64Histogram, .stats) .shutdown) ∧
    s'.z.s.sent.map (fun pl => (pointsIn histPoints (sentScope scA) (lit "n") pl).map (fun d => (d.count, d.sum))) = [[(1, 5), (1, 7)], [(1, 2)]] := by
  obtain ⟨s, s', h1, h2, -, h3⟩ := Dl.of_evaluated (a := .delta) (ct := (.float64Histogram, .stats)) (k := .shutdown) (by decide +kernel)
  obtain ⟨q, e1, e2⟩ : ∃ q, Dl.stages .delta (.float64Histogram, .stats) .shutdown = some q ∧
    q.2.z.s.sent.map (fun pl => (pointsIn histPoints (sentScope scA) (lit "n") pl).map (fun d => (d.count, d.sum))) = [[(1, 5), (1, 7)], [(1, 2)]] := exists_of_eval (by decide +kernel)
  obtain rfl : (s, s') = q := by rw [h1] at e1; exact Option.some.inj e1
  refine ⟨s, s', h1, h3, ?_, by rw [h2]; exact c97_few (by decide), by rw [h2]; exact Dl.oneByOne (by decide +kernel), e2⟩
  rw [h2]
  exact c97_hints (m := (.float64Histogram, .stats)) (by decide +kernel) rfl rfl (show (123 : UInt8) ∈ lit "{minmaxsumcount" by decide +kernel) c95_stats
    (c95_wants (show lit "minmaxsumcount" ≠ [] by decide +kernel) (show (lit "minmaxsumcount", _) ∈ _ by decide +kernel) (by simp [Implemented, Ctor.kinds, Front.IKind.synchronous])
      (.inl rfl) (by decide +kernel) rfl rfl)

/-- "cumulative", `Shutdown`: a counter shown as a histogram, with delta temporality. -/
example : ∃ s s', Dl.stages .cumulative (.int64Counter, .sizes) .shutdown = some (s, s') ∧
    Closes Ln.out (Ln.pc .cumulative) (documented .cumulative) 1 (Dl.acts (.int64Counter, .sizes) .shutdown) (Dl.after .cumulative (.int64Counter, .sizes) .shutdown) s s' ∧
    Hints Ln.out .cumulative (makes (Dl.acts (.int64Counter, .sizes) .shutdown)) s'.z.p 0 scA .int64Counter (lit "n") (c95Look .int64Counter .histogram true ⟨7, 5⟩) ∧
    FewUpTo 5 s'.z.p 0 (lit "n") (measured (Dl.acts (.int64Counter, .sizes) .shutdown)) ∧
    Delivery.OneByOne Ln.out (Ln.pc .cumulative) (documented .cumulative) 1 s'.z.p 0 (lit "n") (Dl.acts (.int64Counter, .sizes) .shutdown) ∧
    s'.z.s.sent.map (fun pl => (pointsIn expPoints (sentScope scA) (lit "n") pl).map (·.count)) = [[1, 1], [1]] := by
  obtain ⟨s, s', h1, h2, -, h3⟩ := Dl.of_evaluated (a := .cumulative) (ct := (.int64Counter, .sizes)) (k := .shutdown) (by decide +kernel)
  obtain ⟨q, e1, e2⟩ : ∃ q, Dl.stages .cumulative (.int64Counter, .sizes) .shutdown = some q ∧
    q.2.z.s.sent.map (fun pl => (pointsIn expPoints (sentScope scA) (lit "n") pl).map (·.count)) = [[1, 1], [1]] := exists_of_eval (by decide +kernel)
  obtain rfl : (s, s') = q := by rw [h1] at e1; exact Option.some.inj e1
  refine ⟨s, s', h1, h3, ?_, by rw [h2]; exact c97_few (by decide), by rw [h2]; exact Dl.oneByOne (by decide +kernel), e2⟩
  rw [h2]
  exact c97_hints (m := (.int64Counter, .sizes)) (by decide +kernel) rfl rfl (show (123 : UInt8) ∈ lit "{!histogram" by decide +kernel) c95_sizes
    (c95_wants (show lit "histogram" ≠ [] by decide +kernel) (show (lit "histogram", _) ∈ _ by decide +kernel) (by simp [Implemented, Ctor.kinds, Front.IKind.synchronous])
      (.inr rfl) (by decide +kernel) rfl rfl)

end Examples

end Verif.Props
