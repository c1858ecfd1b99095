import Verif.Proof.Hinted
import Verif.Props.Launched

/-!
C95: instruments with hints, in programs which start the launcher.

`Hints e pref cs p k sc c n L`: everything asked for in the `k`th meter with the name `n` was made by the constructor `c` with a hint in the description, by which its metric looks like
`L` (`Wants`). `Launch`, `Ends` and `Runs` are as for C94.
-/

namespace Verif.Props
open Verif Verif.Attr Verif.Number Verif.Aggr Verif.Export Verif.Spec Verif.Assembly Verif.Instruments Verif.Launched
open Verif.Pipeline (numbers expPoints histPoints pointsIn sentPoints ints NoEmptyList Describes Grouped)
open Verif.Whole (syncActs metricsIn)
open Verif.Live (makes rest)
open Verif.Front (IKind)
open Verif.Views (Tempo usualAgg)
open Verif.Launcher (documented)

variable {C G ν : Type} [DecidableEq C] {lx : Launcher.Ext} {lw : Launcher.World} {opts : List Launcher.Opt} {pref : Launcher.Preference} {pc : Launcher.PipelineConfig}
  {sel : IKind → Tempo} {e : Outside C G} {k : Nat} {sc : Views.Scope} {c : Ctor} {n : Str} {L : Look C} {acts : List (Live.Act ν)} {coll : List Whole.Act} {z z' : Live.Sys C G ν}

/-- C95 (unit and kind). In every payload sent, a metric of the scope with the name has the unit, kind and temporality which the hint gives. -/
theorem C95_metric (hl : Launch lx lw opts pref pc sel) (h : Hints e pref (makes acts) z.p k sc c n L) (hp : Runs e pc sel acts z) (pl : Payload) (hpl : pl ∈ z.s.sent) (s : PScope)
    (hs : s ∈ pl.scopes) (hlib : s.library = sentScope sc) (m : PMetric) (hm : m ∈ s.metrics) (hn : m.name = n) :
    m.unit = L.unit ∧ DataFor L.kind (if L.delta = true then .delta else .cumulative) m.data := by
  have hv := h.viewed hl (Live.run_prov hp.runs)
  have := C93_metric hv hp pl hpl s hs hlib m hm hn
  exact this

/-- C95 (integer sums, cumulative). For all attributes `m` which remain, after the selection of keys, of those with which something was recorded: the last point sent
with the attributes `m` is the sum of all integers recorded with these attributes, on all instruments with the name. -/
theorem C95_sum_last (hl : Launch lx lw opts pref pc sel) (h : Hints e pref (makes acts) z'.p k sc c n L) (hsy : L.sync = true) (hp : Ends e pc sel acts coll z z') (hn : L.num = .int64)
    (ha : L.kind = .monoSum ∨ L.kind = .nonMonoSum) (ht : L.delta = false)
    (hf : FewUpTo L.acfg.limit z'.p k n (syncActs (rest acts)))
    (hne : ∀ a ∈ Whole.calls (rest acts), NoEmptyList (a.1.attrs a.2.1)) (m : PMap)
    (hrec : recordedBy z'.p k n (fun as => Describes none as m) (syncActs (rest acts)) ≠ []) :
    ((sentPoints numbers (sentScope sc) n z'.s.sent).filter (fun d => d.attrs = m)).getLast?.map (·.value) =
      some (.int (total64 (recordedBy z'.p k n (fun as => Describes none as m) (syncActs (rest acts))))) := by
  have hv := h.viewed hl (made_end hp)
  have := C93_sum_last hv hsy hp hn ha ht rfl (by rw [h.keys]; exact hf.via e pc sel sc) hne m (by rw [recorded_eq, h.keys]; exact hrec)
  rw [recorded_eq, h.keys] at this
  exact this

/-- C95 (integer sums, delta). The integers sent in points with exactly the attributes `m` add up to the integers recorded with attributes of
which `m` remain. -/
theorem C95_sum_sent (hl : Launch lx lw opts pref pc sel) (h : Hints e pref (makes acts) z'.p k sc c n L) (hsy : L.sync = true) (hp : Ends e pc sel acts coll z z') (hn : L.num = .int64)
    (ha : L.kind = .monoSum ∨ L.kind = .nonMonoSum) (ht : L.delta = true)
    (hf : FewUpTo L.acfg.limit z'.p k n (syncActs (rest acts))) (m : PMap) :
    total64 (ints ((sentPoints numbers (sentScope sc) n z'.s.sent).filter (fun d => d.attrs = m))) =
      total64 (recordedBy z'.p k n (fun as => Describes none as m) (syncActs (rest acts))) := by
  have hv := h.viewed hl (made_end hp)
  have := C93_sum_sent hv hsy hp hn ha ht rfl (by rw [h.keys]; exact hf.via e pc sel sc) m
  rw [recorded_eq, h.keys] at this
  exact this

/-- C95 (integer sums, delta, total). Whatever the attributes and limits, the integers sent add up to the integers recorded. -/
theorem C95_sum_total (hl : Launch lx lw opts pref pc sel) (h : Hints e pref (makes acts) z'.p k sc c n L) (hsy : L.sync = true) (hp : Ends e pc sel acts coll z z') (hn : L.num = .int64)
    (ha : L.kind = .monoSum ∨ L.kind = .nonMonoSum) (ht : L.delta = true) :
    total64 (ints (sentPoints numbers (sentScope sc) n z'.s.sent)) = total64 (recordedBy z'.p k n (fun _ => True) (syncActs (rest acts))) := by
  have hv := h.viewed hl (made_end hp)
  have := C93_sum_total hv hsy hp hn ha ht
  rw [recorded_eq] at this
  exact this

/-- C95 (float sums, cumulative). The last point sent with the attributes `m` is the result of adding up, in some order, all floats recorded
with these attributes. -/
theorem C95_float_last (hl : Launch lx lw opts pref pc sel) (h : Hints e pref (makes acts) z'.p k sc c n L) (hsy : L.sync = true) (hp : Ends e pc sel acts coll z z') (hn : L.num = .float64)
    (ha : L.kind = .monoSum ∨ L.kind = .nonMonoSum) (ht : L.delta = false)
    (hf : FewUpTo L.acfg.limit z'.p k n (syncActs (rest acts)))
    (hne : ∀ a ∈ Whole.calls (rest acts), NoEmptyList (a.1.attrs a.2.1)) (m : PMap)
    (hrec : recordedBy z'.p k n (fun as => Describes none as m) (syncActs (rest acts)) ≠ []) :
    ∃ b vals, ((sentPoints numbers (sentScope sc) n z'.s.sent).filter (fun d => d.attrs = m)).getLast?.map (·.value) = some (.double b) ∧
      vals.Perm (recordedBy z'.p k n (fun as => Describes none as m) (syncActs (rest acts))) ∧ SumOf 0 e.fadd b vals := by
  have hv := h.viewed hl (made_end hp)
  have := C93_float_last hv hsy hp hn ha ht rfl (by rw [h.keys]; exact hf.via e pc sel sc) hne m (by rw [recorded_eq, h.keys]; exact hrec)
  rw [recorded_eq, h.keys] at this
  exact this

/-- C95 (float sums, delta). The floats recorded with these attributes are divided into groups; the points sent with the attributes `m` are the
sums, in some order, of the groups, except for groups whose sum is zero, which are not sent. -/
theorem C95_float_sent (hl : Launch lx lw opts pref pc sel) (h : Hints e pref (makes acts) z'.p k sc c n L) (hsy : L.sync = true) (hp : Ends e pc sel acts coll z z') (hn : L.num = .float64)
    (ha : L.kind = .monoSum ∨ L.kind = .nonMonoSum) (ht : L.delta = true)
    (hf : FewUpTo L.acfg.limit z'.p k n (syncActs (rest acts))) (m : PMap) :
    ∃ gs zs : List (List Bits), (gs ++ zs).flatten.Perm (recordedBy z'.p k n (fun as => Describes none as m) (syncActs (rest acts))) ∧
      Pointwise (fun g d => ∃ b, SumOf 0 e.fadd b g ∧ d.value = .double b ∧ scaled b ≠ 0) gs
        ((sentPoints numbers (sentScope sc) n z'.s.sent).filter (fun d => d.attrs = m)) ∧
      ∀ g ∈ zs, ∃ b, SumOf 0 e.fadd b g ∧ scaled b = 0 := by
  have hv := h.viewed hl (made_end hp)
  have := C93_float_sent hv hsy hp hn ha ht rfl (by rw [h.keys]; exact hf.via e pc sel sc) m
  rw [recorded_eq, h.keys] at this
  exact this

/-- C95 (gauges, cumulative). When calls on the instruments with the name do not overlap: the last point sent with the attributes `m` carries the value of
the last call with these attributes. -/
theorem C95_gauge_last (hl : Launch lx lw opts pref pc sel) (h : Hints e pref (makes acts) z'.p k sc c n L) (hsy : L.sync = true) (hp : Ends e pc sel acts coll z z')
    (ha : L.kind = .gauge) (ht : L.delta = false) (hq : Launched.OneByOne e pc sel z'.p k n acts)
    (hf : FewUpTo L.acfg.limit z'.p k n (syncActs (rest acts)))
    (hne : ∀ a ∈ Whole.calls (rest acts), NoEmptyList (a.1.attrs a.2.1)) (m : PMap)
    (hrec : recordedBy z'.p k n (fun as => Describes none as m) (syncActs (rest acts)) ≠ []) :
    ∃ d b, ((sentPoints numbers (sentScope sc) n z'.s.sent).filter (fun d => d.attrs = m)).getLast? = some d ∧
      (recordedBy z'.p k n (fun as => Describes none as m) (syncActs (rest acts))).getLast? = some b ∧ NumOf L.num b d.value := by
  have hv := h.viewed hl (made_end hp)
  have := C93_gauge_last hv hsy hp ha ht (hq.live sc) rfl (by rw [h.keys]; exact hf.via e pc sel sc) hne m (by rw [recorded_eq, h.keys]; exact hrec)
  rw [recorded_eq, h.keys] at this
  exact this

/-- C95 (gauges, delta). When calls on the instruments with the name do not overlap: the values recorded with these attributes are divided into
groups, each in the order of the calls, one for each point sent with the attributes `m`; the point carries the last value of its group. (The last point need not
have the last value of all: see `C88_gauge_delta_last_fails`.) -/
theorem C95_gauge_sent (hl : Launch lx lw opts pref pc sel) (h : Hints e pref (makes acts) z'.p k sc c n L) (hsy : L.sync = true) (hp : Ends e pc sel acts coll z z')
    (ha : L.kind = .gauge) (ht : L.delta = true) (hq : Launched.OneByOne e pc sel z'.p k n acts)
    (hf : FewUpTo L.acfg.limit z'.p k n (syncActs (rest acts))) (m : PMap) :
    ∃ gs : List (List Bits), gs.flatten.Perm (recordedBy z'.p k n (fun as => Describes none as m) (syncActs (rest acts))) ∧
      (∀ g ∈ gs, g.Sublist (recordedBy z'.p k n (fun as => Describes none as m) (syncActs (rest acts)))) ∧
      Pointwise (fun g d => ∃ b, g.getLast? = some b ∧ NumOf L.num b d.value) gs
        ((sentPoints numbers (sentScope sc) n z'.s.sent).filter (fun d => d.attrs = m)) := by
  have hv := h.viewed hl (made_end hp)
  have := C93_gauge_sent hv hsy hp ha ht (hq.live sc) rfl (by rw [h.keys]; exact hf.via e pc sel sc) m
  rw [recorded_eq, h.keys] at this
  exact this

/-- C95 (histograms, cumulative). The last point sent with the attributes `m` has the content of an exponential histogram, with the configuration which the hint gives,
made of exactly the values recorded with these attributes. -/
theorem C95_hist_last (hl : Launch lx lw opts pref pc sel) (h : Hints e pref (makes acts) z'.p k sc c n L) (hsy : L.sync = true) (hp : Ends e pc sel acts coll z z')
    (ha : L.kind = .histogram) (ht : L.delta = false)
    (hf : FewUpTo L.acfg.limit z'.p k n (syncActs (rest acts)))
    (hne : ∀ a ∈ Whole.calls (rest acts), NoEmptyList (a.1.attrs a.2.1)) (m : PMap)
    (hrec : recordedBy z'.p k n (fun as => Describes none as m) (syncActs (rest acts)) ≠ []) :
    ∃ d vals, ((sentPoints expPoints (sentScope sc) n z'.s.sent).filter (fun d => d.attrs = m)).getLast? = some d ∧
      vals.Perm (recordedBy z'.p k n (fun as => Describes none as m) (syncActs (rest acts))) ∧
      ShowsHist (reader (world e pc) z'.p 0) (e.hist L.num L.acfg.hist) L.num vals d := by
  have hv := h.viewed hl (made_end hp)
  have := C93_hist_last hv hsy hp ha ht rfl (by rw [h.keys]; exact hf.via e pc sel sc) hne m (by rw [recorded_eq, h.keys]; exact hrec)
  rw [recorded_eq, h.keys] at this
  exact this

/-- C95 (histograms, delta). The values recorded with these attributes are divided into groups, one for each point sent with the attributes `m`, which has the content
of an exponential histogram made of exactly its group. -/
theorem C95_hist_sent (hl : Launch lx lw opts pref pc sel) (h : Hints e pref (makes acts) z'.p k sc c n L) (hsy : L.sync = true) (hp : Ends e pc sel acts coll z z')
    (ha : L.kind = .histogram) (ht : L.delta = true)
    (hc : Counts (e.hist L.num L.acfg.hist))
    (hf : FewUpTo L.acfg.limit z'.p k n (syncActs (rest acts))) (m : PMap) :
    Grouped (ShowsHist (reader (world e pc) z'.p 0) (e.hist L.num L.acfg.hist) L.num)
      (recordedBy z'.p k n (fun as => Describes none as m) (syncActs (rest acts))) ((sentPoints expPoints (sentScope sc) n z'.s.sent).filter (fun d => d.attrs = m)) := by
  have hv := h.viewed hl (made_end hp)
  have := C93_hist_sent hv hsy hp ha ht hc rfl (by rw [h.keys]; exact hf.via e pc sel sc) m
  rw [recorded_eq, h.keys] at this
  exact this

/-- C95 (min/max/sum/count of floats, cumulative). The last point sent with the attributes `m` shows these of exactly the values recorded with these attributes. -/
theorem C95_mmsc_last (hl : Launch lx lw opts pref pc sel) (h : Hints e pref (makes acts) z'.p k sc c n L) (hsy : L.sync = true) (hp : Ends e pc sel acts coll z z') (hn : L.num = .float64)
    (ha : L.kind = .mmsc) (ht : L.delta = false)
    (hf : FewUpTo L.acfg.limit z'.p k n (syncActs (rest acts)))
    (hne : ∀ a ∈ Whole.calls (rest acts), NoEmptyList (a.1.attrs a.2.1)) (m : PMap)
    (hrec : recordedBy z'.p k n (fun as => Describes none as m) (syncActs (rest acts)) ≠ []) :
    ∃ d vals, ((sentPoints histPoints (sentScope sc) n z'.s.sent).filter (fun d => d.attrs = m)).getLast? = some d ∧
      vals.Perm (recordedBy z'.p k n (fun as => Describes none as m) (syncActs (rest acts))) ∧ ShowsStats e.fadd vals d := by
  have hv := h.viewed hl (made_end hp)
  have := C93_mmsc_last hv hsy hp hn ha ht rfl (by rw [h.keys]; exact hf.via e pc sel sc) hne m (by rw [recorded_eq, h.keys]; exact hrec)
  rw [recorded_eq, h.keys] at this
  exact this

/-- C95 (min/max/sum/count of floats, delta). The floats recorded with these attributes are divided into groups, one for each point sent with the
attributes `m`, which shows these of exactly its group. -/
theorem C95_mmsc_sent (hl : Launch lx lw opts pref pc sel) (h : Hints e pref (makes acts) z'.p k sc c n L) (hsy : L.sync = true) (hp : Ends e pc sel acts coll z z') (hn : L.num = .float64)
    (ha : L.kind = .mmsc) (ht : L.delta = true)
    (hf : FewUpTo L.acfg.limit z'.p k n (syncActs (rest acts))) (m : PMap) :
    Grouped (ShowsStats e.fadd) (recordedBy z'.p k n (fun as => Describes none as m) (syncActs (rest acts)))
      ((sentPoints histPoints (sentScope sc) n z'.s.sent).filter (fun d => d.attrs = m)) := by
  have hv := h.viewed hl (made_end hp)
  have := C93_mmsc_sent hv hsy hp hn ha ht rfl (by rw [h.keys]; exact hf.via e pc sel sc) m
  rw [recorded_eq, h.keys] at this
  exact this

/-- C95 (min/max/sum/count of integers, cumulative). The last point sent with the attributes `m` shows sum and count of exactly the integers recorded with these attributes. -/
theorem C95_mmsc_int_last (hl : Launch lx lw opts pref pc sel) (h : Hints e pref (makes acts) z'.p k sc c n L) (hsy : L.sync = true) (hp : Ends e pc sel acts coll z z') (hn : L.num = .int64)
    (ha : L.kind = .mmsc) (ht : L.delta = false)
    (hf : FewUpTo L.acfg.limit z'.p k n (syncActs (rest acts)))
    (hne : ∀ a ∈ Whole.calls (rest acts), NoEmptyList (a.1.attrs a.2.1)) (m : PMap)
    (hrec : recordedBy z'.p k n (fun as => Describes none as m) (syncActs (rest acts)) ≠ []) :
    ∃ d vals, ((sentPoints histPoints (sentScope sc) n z'.s.sent).filter (fun d => d.attrs = m)).getLast? = some d ∧
      vals.Perm (recordedBy z'.p k n (fun as => Describes none as m) (syncActs (rest acts))) ∧ ShowsIntStats vals d := by
  have hv := h.viewed hl (made_end hp)
  have := C93_mmsc_int_last hv hsy hp hn ha ht rfl (by rw [h.keys]; exact hf.via e pc sel sc) hne m (by rw [recorded_eq, h.keys]; exact hrec)
  rw [recorded_eq, h.keys] at this
  exact this

/-- C95 (min/max/sum/count of integers, delta). The integers recorded with these attributes are divided into groups, one for each point sent with the
attributes `m`, which shows sum and count of exactly its group. -/
theorem C95_mmsc_int_sent (hl : Launch lx lw opts pref pc sel) (h : Hints e pref (makes acts) z'.p k sc c n L) (hsy : L.sync = true) (hp : Ends e pc sel acts coll z z') (hn : L.num = .int64)
    (ha : L.kind = .mmsc) (ht : L.delta = true)
    (hf : FewUpTo L.acfg.limit z'.p k n (syncActs (rest acts))) (m : PMap) :
    Grouped ShowsIntStats (recordedBy z'.p k n (fun as => Describes none as m) (syncActs (rest acts)))
      ((sentPoints histPoints (sentScope sc) n z'.s.sent).filter (fun d => d.attrs = m)) := by
  have hv := h.viewed hl (made_end hp)
  have := C93_mmsc_int_sent hv hsy hp hn ha ht rfl (by rw [h.keys]; exact hf.via e pc sel sc) m
  rw [recorded_eq, h.keys] at this
  exact this

/-- C95 (nothing else is sent, numbers). Every number point sent under the name shows attributes with which something was
recorded. -/
theorem C95_known (hl : Launch lx lw opts pref pc sel) (h : Hints e pref (makes acts) z'.p k sc c n L) (hsy : L.sync = true) (hp : Ends e pc sel acts coll z z')
    (ha : L.kind = .monoSum ∨ L.kind = .nonMonoSum ∨ L.kind = .gauge)
    (hf : FewUpTo L.acfg.limit z'.p k n (syncActs (rest acts))) (d : PNumber) (hd : d ∈ sentPoints numbers (sentScope sc) n z'.s.sent) :
    recordedBy z'.p k n (fun as => Describes none as d.attrs) (syncActs (rest acts)) ≠ [] := by
  have hv := h.viewed hl (made_end hp)
  have := C93_known hv hsy hp ha (by rw [h.keys]; exact hf.via e pc sel sc) d hd
  rw [recorded_eq, h.keys] at this
  exact this

/-- C95 (nothing else is sent, histograms). -/
theorem C95_hist_known (hl : Launch lx lw opts pref pc sel) (h : Hints e pref (makes acts) z'.p k sc c n L) (hsy : L.sync = true) (hp : Ends e pc sel acts coll z z')
    (ha : L.kind = .histogram)
    (hf : FewUpTo L.acfg.limit z'.p k n (syncActs (rest acts))) (d : PExp) (hd : d ∈ sentPoints expPoints (sentScope sc) n z'.s.sent) :
    recordedBy z'.p k n (fun as => Describes none as d.attrs) (syncActs (rest acts)) ≠ [] := by
  have hv := h.viewed hl (made_end hp)
  have := C93_hist_known hv hsy hp ha (by rw [h.keys]; exact hf.via e pc sel sc) d hd
  rw [recorded_eq, h.keys] at this
  exact this

/-- C95 (nothing else is sent, min/max/sum/count). -/
theorem C95_mmsc_known (hl : Launch lx lw opts pref pc sel) (h : Hints e pref (makes acts) z'.p k sc c n L) (hsy : L.sync = true) (hp : Ends e pc sel acts coll z z')
    (ha : L.kind = .mmsc)
    (hf : FewUpTo L.acfg.limit z'.p k n (syncActs (rest acts))) (d : PHist) (hd : d ∈ sentPoints histPoints (sentScope sc) n z'.s.sent) :
    recordedBy z'.p k n (fun as => Describes none as d.attrs) (syncActs (rest acts)) ≠ [] := by
  have hv := h.viewed hl (made_end hp)
  have := C93_mmsc_known hv hsy hp ha (by rw [h.keys]; exact hf.via e pc sel sc) d hd
  rw [recorded_eq, h.keys] at this
  exact this

/-- C95 (observable instruments, cumulative sums and gauges). For every collection in which the observed sets fit: the payload has exactly one point for each
attribute set of an observation of this collection by an instrument with the name, with exactly these
attributes, and its value is made of the last values observed. -/
theorem C95_async_cumulative (hl : Launch lx lw opts pref pc sel) (h : Hints e pref (makes acts) z.p k sc c n L) (hasy : L.sync = false) (hp : Runs e pc sel acts z)
    (ht : L.delta = false ∨ L.kind = .gauge) {t : Nat} (htl : t < (Whole.collections (rest acts)).length)
    (hf : FewSets (Called z.p k n) none L.acfg.limit (Whole.seenIn z.s) t) :
    ∃ pl, z.s.sent[t]? = some pl ∧ ∃ as : List (List KV), as.Nodup ∧ (∀ a, a ∈ as ↔ Shows (Called z.p k n) none (Whole.seenIn z.s) t a) ∧
      Pointwise (fun a d => AttrsOf a d.attrs ∧ ∃ y, Amount (world e pc) (Called z.p k n) none L.kind L.num (Whole.seenIn z.s) t a y ∧ NumOf L.num y d.value) as
        (pointsIn numbers (sentScope sc) n pl) := by
  have hv := h.viewed hl (Live.run_prov hp.runs)
  have := C93_async_cumulative hv hasy hp (times_le e sel sc) ht htl (by rw [feeds_eq, h.keys]; exact hf)
  rw [feeds_eq, h.keys] at this
  exact this

/-- C95 (observable instruments, integer delta sums). When the sets of all collections fit: the payload of every collection has exactly one point for each
attribute set shown for an observation of this collection whose value changed since the collection before or which was not observed in that one; its value is the
difference, or the whole value. -/
theorem C95_async_delta (hl : Launch lx lw opts pref pc sel) (h : Hints e pref (makes acts) z.p k sc c n L) (hasy : L.sync = false) (hp : Runs e pc sel acts z) (hn : L.num = .int64)
    (ht : L.delta = true) (hg : L.kind ≠ .gauge)
    (hf : ∀ t, t < (Whole.collections (rest acts)).length → FewSets (Called z.p k n) none L.acfg.limit (Whole.seenIn z.s) t)
    (hov : ∀ o ∈ Whole.seenIn z.s, Called z.p k n o.2.1 → shown none o.2.2.1 ≠ overflowSet) {t : Nat} (htl : t < (Whole.collections (rest acts)).length) :
    ∃ pl, z.s.sent[t]? = some pl ∧ ∃ as : List (List KV), as.Nodup ∧
      (∀ a, a ∈ as ↔ ∃ y, Amount (world e pc) (Called z.p k n) none L.kind .int64 (Whole.seenIn z.s) t a y ∧
        ¬ AmountBefore (world e pc) (Called z.p k n) none L.kind .int64 (Whole.seenIn z.s) t a y) ∧
      Pointwise (fun a d => AttrsOf a d.attrs ∧ ∃ y, Amount (world e pc) (Called z.p k n) none L.kind .int64 (Whole.seenIn z.s) t a y ∧
        ((∃ b, AmountBefore (world e pc) (Called z.p k n) none L.kind .int64 (Whole.seenIn z.s) t a b ∧ d.value = .int (y - b)) ∨
          ((∀ b, ¬ AmountBefore (world e pc) (Called z.p k n) none L.kind .int64 (Whole.seenIn z.s) t a b) ∧ d.value = .int y)))
        as (pointsIn numbers (sentScope sc) n pl) := by
  have hv := h.viewed hl (Live.run_prov hp.runs)
  have := C93_async_delta hv hasy hp (times_le e sel sc) hn ht hg (by rw [feeds_eq, h.keys]; exact hf) (by rw [feeds_eq, h.keys]; exact hov) htl
  rw [feeds_eq, h.keys] at this
  exact this

/-- C95 (observable instruments, float delta sums). When the sets of all collections fit: each point of the payload is for an attribute set shown for an
observation of this collection; its value is the float difference of its cumulative value and the one in the collection before, and is not zero, or its whole value
when it was not observed in that one; an attribute set shown without a point has a zero difference. -/
theorem C95_async_delta_float (hl : Launch lx lw opts pref pc sel) (h : Hints e pref (makes acts) z.p k sc c n L) (hasy : L.sync = false) (hp : Runs e pc sel acts z) (hn : L.num = .float64)
    (ht : L.delta = true) (hg : L.kind ≠ .gauge)
    (hf : ∀ t, t < (Whole.collections (rest acts)).length → FewSets (Called z.p k n) none L.acfg.limit (Whole.seenIn z.s) t)
    (hov : ∀ o ∈ Whole.seenIn z.s, Called z.p k n o.2.1 → shown none o.2.2.1 ≠ overflowSet) {t : Nat} (htl : t < (Whole.collections (rest acts)).length) :
    ∃ pl, z.s.sent[t]? = some pl ∧ ∃ as : List (List KV), as.Nodup ∧ (∀ a ∈ as, Shows (Called z.p k n) none (Whole.seenIn z.s) t a) ∧
      (∀ a, Shows (Called z.p k n) none (Whole.seenIn z.s) t a → a ∉ as → ∃ y b, Amount (world e pc) (Called z.p k n) none L.kind .float64 (Whole.seenIn z.s) t a y ∧
        AmountBefore (world e pc) (Called z.p k n) none L.kind .float64 (Whole.seenIn z.s) t a b ∧ FloatZero (e.fsub y b)) ∧
      Pointwise (fun a d => AttrsOf a d.attrs ∧ ∃ y, Amount (world e pc) (Called z.p k n) none L.kind .float64 (Whole.seenIn z.s) t a y ∧
        ((∃ b, AmountBefore (world e pc) (Called z.p k n) none L.kind .float64 (Whole.seenIn z.s) t a b ∧ ¬ FloatZero (e.fsub y b) ∧ d.value = .double (e.fsub y b)) ∨
          ((∀ b, ¬ AmountBefore (world e pc) (Called z.p k n) none L.kind .float64 (Whole.seenIn z.s) t a b) ∧ d.value = .double y)))
        as (pointsIn numbers (sentScope sc) n pl) := by
  have hv := h.viewed hl (Live.run_prov hp.runs)
  have := C93_async_delta_float hv hasy hp (times_le e sel sc) hn ht hg (by rw [feeds_eq, h.keys]; exact hf) (by rw [feeds_eq, h.keys]; exact hov) htl
  rw [feeds_eq, h.keys] at this
  exact this

/-- C95 (observable instruments, integer delta totals). If moreover something shown as `a` was observed in every collection since the first such one, all
values sent with the attributes `a` add up to their last cumulative value. -/
theorem C95_async_delta_total (hl : Launch lx lw opts pref pc sel) (h : Hints e pref (makes acts) z.p k sc c n L) (hasy : L.sync = false) (hp : Runs e pc sel acts z) (hn : L.num = .int64)
    (ht : L.delta = true) (hg : L.kind ≠ .gauge)
    (hf : ∀ t, t < (Whole.collections (rest acts)).length → FewSets (Called z.p k n) none L.acfg.limit (Whole.seenIn z.s) t)
    (hov : ∀ o ∈ Whole.seenIn z.s, Called z.p k n o.2.1 → shown none o.2.2.1 ≠ overflowSet) {a : List KV} (hne : NoEmptyList a) {first last : Nat}
    (hlast : (Whole.collections (rest acts)).length = last + 1) (hle : first ≤ last) (hno : ∀ t, t < first → ¬ Shows (Called z.p k n) none (Whole.seenIn z.s) t a)
    (hobs : ∀ t, first ≤ t → t ≤ last → Shows (Called z.p k n) none (Whole.seenIn z.s) t a) {y : Bits}
    (hy : Amount (world e pc) (Called z.p k n) none L.kind .int64 (Whole.seenIn z.s) last a y) :
    Spec.total64 (ints ((sentPoints numbers (sentScope sc) n z.s.sent).filter (fun d => @decide (AttrsOf a d.attrs) (Classical.propDecidable _)))) = y := by
  have hv := h.viewed hl (Live.run_prov hp.runs)
  have := C93_async_delta_total hv hasy hp (times_le e sel sc) hn ht hg (by rw [feeds_eq, h.keys]; exact hf) (by rw [feeds_eq, h.keys]; exact hov) hne hlast hle (by rw [feeds_eq, h.keys]; exact hno) (by rw [feeds_eq, h.keys]; exact hobs) (by rw [feeds_eq, h.keys]; exact hy)
  exact this

/-! ### Concrete programs -/

section Examples
open Verif.Examples Verif.Examples.Asm
open Verif.Views (lit AggKind Hint aggregationWords temporalityWords Implemented)

/-- How an instrument of these programs looks. -/
def c95Look (c : Ctor) (kind : AggKind) (delta : Bool) (acfg : Views.ACfg Nat) : Look Nat where
  sync := !(promise c).observed
  kind := kind
  num := (promise c).num
  unit := lit "s"
  keys := none
  acfg := acfg
  delta := delta

theorem c95_wants {a : Launcher.Preference} {c : Ctor} {h : Hint} {kind : AggKind} {delta : Bool} {acfg : Views.ACfg Nat} (ha : h.aggregation ≠ [])
    (hm : (h.aggregation, kind) ∈ aggregationWords) (hi : Implemented c.kinds.2 kind) (ht : h.temporality = [] ∨ h.temporality = lit "delta")
    (hd : delta = (decide ((promise c).observed = false ∨ kind ≠ .gauge) && (decide (h.temporality ≠ []) || decide (documented a c.kinds.2 = .delta))))
    (hs : acfg.hist = if h.maxSize = 0 then 160 else ViewEx.x.validH (ViewEx.x.histNew h.maxSize)) (hl : acfg.limit = if h.limit = 0 then 2000 else h.limit) :
    Wants Ln.out a c h (c95Look c kind delta acfg) := by
  refine ⟨by simp [c95Look], rfl, .inl ⟨ha, hm⟩, hi, ?_, hs, hl⟩
  show delta = true ↔ (((!(promise c).observed) = true ∨ kind ≠ .gauge) ∧ ((h.temporality ≠ [] ∧ (h.temporality, Tempo.delta) ∈ temporalityWords) ∨
    ((h.temporality = [] ∨ ∀ b, (h.temporality, b) ∉ temporalityWords) ∧ documented a c.kinds.2 = .delta)))
  have hw : (lit "delta", Tempo.delta) ∈ temporalityWords := by decide +kernel
  rw [hd]
  rcases ht with ht | ht <;> rw [ht]
  · simp
  · have hne : lit "delta" ≠ [] := by decide +kernel
    have hno : ¬ ∀ b, (lit "delta", b) ∉ temporalityWords := fun h => h _ hw
    simp [hne, hw]

theorem c95_hints {a : Launcher.Preference} {m : Ln.Made} {s : Ln.Stages} {c : Ctor} {nm text : Str} {h : Hint} {L : Look Nat} (hp : s.last.p = Ln.p a m)
    (hb : Ln.hasB a m nm = true) (hr : ∀ d ∈ requests 0 (Ln.cs m), d.name = nm → d = c.desc nm text L.unit) (hk : L.keys = none) (ht : (123 : UInt8) ∈ text)
    (hh : ViewEx.x.parseHint text = some h) (hw : Wants Ln.out a c h L) : Hints Ln.out a (makes (Ln.acts a m)) s.last.p 0 scA c nm L := by
  rw [hp, Ln.makes_acts]
  unfold Ln.hasB at hb
  cases hm : (Ln.p a m).ordered[0]? with
  | none => rw [hm] at hb; cases hb
  | some mt =>
    rw [hm] at hb
    simp only [Bool.and_eq_true, decide_eq_true_eq, List.any_eq_true] at hb
    obtain ⟨h1, o, ho, h2⟩ := hb
    refine ⟨⟨mt, o, hm, h1, ho, h2⟩, hk, fun d hd hn => ?_⟩
    have := hr d hd hn
    refine ⟨⟨text, this⟩, h, ?_, hw⟩
    rw [this]
    unfold Views.hintIn
    exact (if_pos ht).trans hh

theorem c95_requests (m : Ln.Made) :
    (∀ d ∈ requests 0 (Ln.cs m), d.name = lit "n" → d = m.1.desc (lit "n") m.2.text (lit "s")) ∧
      ∀ d ∈ requests 0 (Ln.cs m), d.name = lit "y" → d = Ctor.int64ObservableCounter.desc (lit "y") m.2.text' (lit "s") := by
  have hb : (lit "n" : Str) ≠ lit "y" := by decide +kernel
  constructor <;> intro d hd hn <;>
    simp only [Ln.cs, requests, List.filterMap_cons, List.filterMap_nil, if_true, List.mem_cons, List.not_mem_nil, or_false] at hd
  · rcases hd with rfl | rfl
    · rfl
    · exact absurd hn.symm hb
  · rcases hd with rfl | rfl
    · exact absurd hn hb
    · rfl

theorem c95_few {a : Launcher.Preference} {m : Ln.Made} {s : Ln.Stages} {k : Nat} {nm : Str} {lim : Nat} (h : 3 < lim) :
    FewUpTo lim s.last.p k nm (syncActs (rest (Ln.acts a m))) := by
  obtain ⟨A, B, h1, -, h3, h4⟩ := Ln.few (a := a) (ct := m) (s := s) (k := k) (nm := nm)
  refine ⟨fun _ => [AsmV.kab, ka, kb], [AsmV.kab, ka, kb], fun _ _ => (by decide : 3 < 3000), h, ?_, fun id _ b hb => ⟨AsmV.noNaN b hb, b, hb, AsmV.sameSeries_refl _ _⟩⟩
  intro e he _
  rw [Whole.calls_sync, Ln.calls_acts] at he
  have : ∀ e ∈ Ln.called m, e.1.attrs e.2.1 ∈ [AsmV.kab, ka, kb] := by rcases m with ⟨c, h⟩ <;> cases c <;> cases h <;> decide
  exact this e he

def c95Hint (agg : Str) : Hint := { description := [], aggregation := agg, temporality := [], maxSize := 0, limit := 0 }
def c95Delta (agg : Str) : Hint := { description := [], aggregation := agg, temporality := lit "delta", maxSize := 7, limit := 5 }

theorem c95_stats : ViewEx.x.parseHint (lit "{minmaxsumcount") = some (c95Hint (lit "minmaxsumcount")) := by
  rw [show lit "{minmaxsumcount" = 123 :: lit "minmaxsumcount" by decide +kernel, show lit "minmaxsumcount" = 109 :: lit "inmaxsumcount" by decide +kernel]
  rfl
theorem c95_gauge : ViewEx.x.parseHint (lit "{gauge") = some (c95Hint (lit "gauge")) := by
  rw [show lit "{gauge" = 123 :: lit "gauge" by decide +kernel, show lit "gauge" = 103 :: lit "auge" by decide +kernel]
  rfl
theorem c95_deltas : ViewEx.x.parseHint (lit "{!monotonic_sum") = some (c95Delta (lit "monotonic_sum")) := by
  rw [show lit "{!monotonic_sum" = 123 :: 33 :: lit "monotonic_sum" by decide +kernel]
  rfl
theorem c95_sizes : ViewEx.x.parseHint (lit "{!histogram") = some (c95Delta (lit "histogram")) := by
  rw [show lit "{!histogram" = 123 :: 33 :: lit "histogram" by decide +kernel]
  rfl
theorem c95_sums : ViewEx.x.parseHint (lit "{monotonic_sum") = some (c95Hint (lit "monotonic_sum")) := by
  rw [show lit "{monotonic_sum" = 123 :: lit "monotonic_sum" by decide +kernel, show lit "monotonic_sum" = 109 :: lit "onotonic_sum" by decide +kernel]
  rfl
theorem c95_buckets : ViewEx.x.parseHint (lit "{histogram") = some (c95Hint (lit "histogram")) := by
  rw [show lit "{histogram" = 123 :: lit "histogram" by decide +kernel, show lit "histogram" = 104 :: lit "istogram" by decide +kernel]
  rfl

/-- "cumulative": a histogram of integers with the hint `minmaxsumcount`: 5 and 7 are recorded, then 2 more with the attributes of 7. The sums sent are 5.0 and 7.0, then 5.0 and
9.0. -/
example : ∃ s, Ln.stages .cumulative (.int64Histogram, .stats) = some s ∧
    Ends Ln.out (Ln.pc .cumulative) (documented .cumulative) (Ln.acts .cumulative (.int64Histogram, .stats)) (Ln.coll .cumulative (.int64Histogram, .stats)) s.x s.last ∧
    Hints Ln.out .cumulative (makes (Ln.acts .cumulative (.int64Histogram, .stats))) s.last.p 0 scA .int64Histogram (lit "n")
      (c95Look .int64Histogram .mmsc false ⟨160, 2000⟩) ∧
    FewUpTo 2000 s.last.p 0 (lit "n") (syncActs (rest (Ln.acts .cumulative (.int64Histogram, .stats)))) ∧
    s.last.s.sent.map (fun pl => (pointsIn histPoints (sentScope scA) (lit "n") pl).map (fun d => (d.count, d.sum))) =
      [[(1, 0x4014000000000000), (1, 0x401c000000000000)], [(1, 0x4014000000000000), (2, 0x4022000000000000)]] := by
  obtain ⟨s, e1, e2, e3⟩ := Ln.of_evaluated (a := .cumulative) (ct := (.int64Histogram, .stats)) (by decide +kernel)
  obtain ⟨s', e4, e5⟩ : ∃ s, Ln.stages .cumulative (.int64Histogram, .stats) = some s ∧
    (s.last.s.sent.map (fun pl => (pointsIn histPoints (sentScope scA) (lit "n") pl).map (fun d => (d.count, d.sum))) =
      [[(1, 0x4014000000000000), (1, 0x401c000000000000)], [(1, 0x4014000000000000), (2, 0x4022000000000000)]]) := exists_of_eval (by decide +kernel)
  obtain rfl : s = s' := by rw [e1] at e4; exact Option.some.inj e4
  exact ⟨s, e1, e3, c95_hints e2 (by decide +kernel) (c95_requests _).1 rfl (show (123 : UInt8) ∈ lit "{minmaxsumcount" by decide +kernel) c95_stats
    (c95_wants (show lit "minmaxsumcount" ≠ [] by decide +kernel) (show (lit "minmaxsumcount", _) ∈ _ by decide +kernel) (by simp [Implemented, Ctor.kinds, Front.IKind.synchronous])
      (.inl rfl) (by decide) rfl rfl), c95_few (by decide), e5⟩

/-- "Delta": the same of floats; the second payload shows the last value only. -/
example : ∃ s, Ln.stages .delta (.float64Histogram, .stats) = some s ∧
    Ends Ln.out (Ln.pc .delta) (documented .delta) (Ln.acts .delta (.float64Histogram, .stats)) (Ln.coll .delta (.float64Histogram, .stats)) s.x s.last ∧
    Hints Ln.out .delta (makes (Ln.acts .delta (.float64Histogram, .stats))) s.last.p 0 scA .float64Histogram (lit "n")
      (c95Look .float64Histogram .mmsc true ⟨160, 2000⟩) ∧
    (s.last.s.sent.map (fun pl => (pointsIn histPoints (sentScope scA) (lit "n") pl).map (fun d => (d.count, d.sum))) = [[(1, 5), (1, 7)], [(1, 2)]] ∧
      s.last.s.sent.map (fun pl => (pointsIn histPoints (sentScope scA) (lit "n") pl).map (fun d => (d.min, d.max))) =
        [[(some 5, some 5), (some 7, some 7)], [(some 2, some 2)]]) := by
  obtain ⟨s, e1, e2, e3⟩ := Ln.of_evaluated (a := .delta) (ct := (.float64Histogram, .stats)) (by decide +kernel)
  obtain ⟨s', e4, e5⟩ : ∃ s, Ln.stages .delta (.float64Histogram, .stats) = some s ∧
    ((s.last.s.sent.map (fun pl => (pointsIn histPoints (sentScope scA) (lit "n") pl).map (fun d => (d.count, d.sum))) = [[(1, 5), (1, 7)], [(1, 2)]] ∧
      s.last.s.sent.map (fun pl => (pointsIn histPoints (sentScope scA) (lit "n") pl).map (fun d => (d.min, d.max))) =
        [[(some 5, some 5), (some 7, some 7)], [(some 2, some 2)]])) := exists_of_eval (by decide +kernel)
  obtain rfl : s = s' := by rw [e1] at e4; exact Option.some.inj e4
  exact ⟨s, e1, e3, c95_hints e2 (by decide +kernel) (c95_requests _).1 rfl (show (123 : UInt8) ∈ lit "{minmaxsumcount" by decide +kernel) c95_stats
    (c95_wants (show lit "minmaxsumcount" ≠ [] by decide +kernel) (show (lit "minmaxsumcount", _) ∈ _ by decide +kernel) (by simp [Implemented, Ctor.kinds, Front.IKind.synchronous])
      (.inl rfl) (by decide) rfl rfl), e5⟩

/-- "cumulative": an up-down counter and an observable counter with hints for monotonic sums, delta, at most 5 sets. -/
example : ∃ s, Ln.stages .cumulative (.int64UpDownCounter, .deltas) = some s ∧
    Ends Ln.out (Ln.pc .cumulative) (documented .cumulative) (Ln.acts .cumulative (.int64UpDownCounter, .deltas)) (Ln.coll .cumulative (.int64UpDownCounter, .deltas)) s.x s.last ∧
    Hints Ln.out .cumulative (makes (Ln.acts .cumulative (.int64UpDownCounter, .deltas))) s.last.p 0 scA .int64UpDownCounter (lit "n")
      (c95Look .int64UpDownCounter .monoSum true ⟨7, 5⟩) ∧
    Hints Ln.out .cumulative (makes (Ln.acts .cumulative (.int64UpDownCounter, .deltas))) s.last.p 0 scA .int64ObservableCounter (lit "y")
      (c95Look .int64ObservableCounter .monoSum true ⟨7, 5⟩) ∧
    FewUpTo 5 s.last.p 0 (lit "n") (syncActs (rest (Ln.acts .cumulative (.int64UpDownCounter, .deltas)))) ∧
    c92Sent s.last.s (lit "n") = [[.int 5, .int 7], [.int 2]] ∧ c92Sent s.last.s (lit "y") = [[], [.int 5, .int 10]] := by
  obtain ⟨s, e1, e2, e3⟩ := Ln.of_evaluated (a := .cumulative) (ct := (.int64UpDownCounter, .deltas)) (by decide +kernel)
  obtain ⟨s', e4, e5⟩ : ∃ s, Ln.stages .cumulative (.int64UpDownCounter, .deltas) = some s ∧
    (c92Sent s.last.s (lit "n") = [[.int 5, .int 7], [.int 2]] ∧ c92Sent s.last.s (lit "y") = [[], [.int 5, .int 10]]) := exists_of_eval (by decide +kernel)
  obtain rfl : s = s' := by rw [e1] at e4; exact Option.some.inj e4
  exact ⟨s, e1, e3,
    c95_hints e2 (by decide +kernel) (c95_requests _).1 rfl (show (123 : UInt8) ∈ lit "{!monotonic_sum" by decide +kernel) c95_deltas
      (c95_wants (show lit "monotonic_sum" ≠ [] by decide +kernel) (show (lit "monotonic_sum", _) ∈ _ by decide +kernel) (by simp [Implemented, Ctor.kinds, Front.IKind.synchronous])
        (.inr rfl) (by decide +kernel) rfl rfl),
    c95_hints e2 (by decide +kernel) (c95_requests _).2 rfl (show (123 : UInt8) ∈ lit "{!monotonic_sum" by decide +kernel) c95_deltas
      (c95_wants (show lit "monotonic_sum" ≠ [] by decide +kernel) (show (lit "monotonic_sum", _) ∈ _ by decide +kernel) (by simp [Implemented, Ctor.kinds, Front.IKind.synchronous])
        (.inr rfl) (by decide +kernel) rfl rfl), c95_few (by decide), e5⟩

/-- "Delta": a counter of floats and an observable counter with hints for gauges. -/
example : ∃ s, Ln.stages .delta (.float64Counter, .gauge) = some s ∧
    Ends Ln.out (Ln.pc .delta) (documented .delta) (Ln.acts .delta (.float64Counter, .gauge)) (Ln.coll .delta (.float64Counter, .gauge)) s.x s.last ∧
    Hints Ln.out .delta (makes (Ln.acts .delta (.float64Counter, .gauge))) s.last.p 0 scA .float64Counter (lit "n") (c95Look .float64Counter .gauge true ⟨160, 2000⟩) ∧
    Hints Ln.out .delta (makes (Ln.acts .delta (.float64Counter, .gauge))) s.last.p 0 scA .int64ObservableCounter (lit "y")
      (c95Look .int64ObservableCounter .gauge false ⟨160, 2000⟩) ∧
    Launched.OneByOne Ln.out (Ln.pc .delta) (documented .delta) s.last.p 0 (lit "n") (Ln.acts .delta (.float64Counter, .gauge)) ∧
    c92Sent s.last.s (lit "n") = [[.double 5, .double 7], [.double 2]] ∧ c92Sent s.last.s (lit "y") = [[], [.int 5, .int 10]] := by
  obtain ⟨s, e1, e2, e3⟩ := Ln.of_evaluated (a := .delta) (ct := (.float64Counter, .gauge)) (by decide +kernel)
  obtain ⟨s', e4, e5⟩ : ∃ s, Ln.stages .delta (.float64Counter, .gauge) = some s ∧
    (c92Sent s.last.s (lit "n") = [[.double 5, .double 7], [.double 2]] ∧ c92Sent s.last.s (lit "y") = [[], [.int 5, .int 10]]) := exists_of_eval (by decide +kernel)
  obtain rfl : s = s' := by rw [e1] at e4; exact Option.some.inj e4
  exact ⟨s, e1, e3,
    c95_hints e2 (by decide +kernel) (c95_requests _).1 rfl (show (123 : UInt8) ∈ lit "{gauge" by decide +kernel) c95_gauge
      (c95_wants (show lit "gauge" ≠ [] by decide +kernel) (show (lit "gauge", _) ∈ _ by decide +kernel) (by simp [Implemented, Ctor.kinds, Front.IKind.synchronous])
        (.inl rfl) (by decide) rfl rfl),
    c95_hints e2 (by decide +kernel) (c95_requests _).2 rfl (show (123 : UInt8) ∈ lit "{gauge" by decide +kernel) c95_gauge
      (c95_wants (show lit "gauge" ≠ [] by decide +kernel) (show (lit "gauge", _) ∈ _ by decide +kernel) (by simp [Implemented, Ctor.kinds, Front.IKind.synchronous])
        (.inl rfl) (by decide) rfl rfl), Ln.oneByOne e2 (by decide +kernel), e5⟩

/-- "cumulative": a counter with a hint for a delta histogram with a maximal size. -/
example : ∃ s, Ln.stages .cumulative (.int64Counter, .sizes) = some s ∧
    Ends Ln.out (Ln.pc .cumulative) (documented .cumulative) (Ln.acts .cumulative (.int64Counter, .sizes)) (Ln.coll .cumulative (.int64Counter, .sizes)) s.x s.last ∧
    Hints Ln.out .cumulative (makes (Ln.acts .cumulative (.int64Counter, .sizes))) s.last.p 0 scA .int64Counter (lit "n") (c95Look .int64Counter .histogram true ⟨7, 5⟩) ∧
    s.last.s.sent.map (fun pl => (pointsIn expPoints (sentScope scA) (lit "n") pl).map (·.count)) = [[1, 1], [1]] := by
  obtain ⟨s, e1, e2, e3⟩ := Ln.of_evaluated (a := .cumulative) (ct := (.int64Counter, .sizes)) (by decide +kernel)
  obtain ⟨s', e4, e5⟩ : ∃ s, Ln.stages .cumulative (.int64Counter, .sizes) = some s ∧
    (s.last.s.sent.map (fun pl => (pointsIn expPoints (sentScope scA) (lit "n") pl).map (·.count)) = [[1, 1], [1]]) := exists_of_eval (by decide +kernel)
  obtain rfl : s = s' := by rw [e1] at e4; exact Option.some.inj e4
  exact ⟨s, e1, e3,
    c95_hints e2 (by decide +kernel) (c95_requests _).1 rfl (show (123 : UInt8) ∈ lit "{!histogram" by decide +kernel) c95_sizes
      (c95_wants (show lit "histogram" ≠ [] by decide +kernel) (show (lit "histogram", _) ∈ _ by decide +kernel) (by simp [Implemented, Ctor.kinds, Front.IKind.synchronous])
        (.inr rfl) (by decide +kernel) rfl rfl), e5⟩

end Examples

end Verif.Props
