import Verif.Proof.Launched
import Verif.Props.Live
import Verif.Examples.LaunchedProgram

/-!
C94: programs which start the launcher.

`Launch lx lw opts pref pc sel`: the launcher, configured by the options `opts` in the environment `lw`, started its metrics pipeline; the preference given is `pref`. `Runs e pc sel acts z`
and `Ends e pc sel acts coll z z'`: programs as for C93 which use the installed provider. `Named cs p k sc c n unit`: the `k`th meter, whose scope is `sc`, has an instrument with the
name `n`, and everything asked for with this name was made by the constructor `c`. `promise` is the documentation of the constructors (see C68), `documented` that of the preferences
(see C50).
-/

namespace Verif.Props
open Verif Verif.Attr Verif.Number Verif.Aggr Verif.Export Verif.Spec Verif.Assembly Verif.Instruments Verif.Launched
open Verif.Pipeline (numbers expPoints histPoints pointsIn sentPoints ints NoEmptyList Describes Grouped)
open Verif.Whole (syncActs metricsIn)
open Verif.Live (makes rest)
open Verif.Front (IKind)
open Verif.Views (Tempo usualAgg)
open Verif.Launcher (documented)

variable {C G ν : Type} [DecidableEq C] {lx : Launcher.Ext} {lw : Launcher.World} {opts : List Launcher.Opt} {pref : Launcher.Preference} {pc : Launcher.PipelineConfig}
  {sel : IKind → Tempo} {e : Outside C G} {k : Nat} {sc : Views.Scope} {c : Ctor} {n unit : Str} {acts : List (Live.Act ν)} {coll : List Whole.Act} {z z' : Live.Sys C G ν}

omit [DecidableEq C] in
theorem look_sync (h : (promise c).observed = false) : (look e pref c unit).sync = true := by cases c <;> first | rfl | cases h
omit [DecidableEq C] in
theorem look_async (h : (promise c).observed = true) : (look e pref c unit).sync = false := by cases c <;> first | rfl | cases h
omit [DecidableEq C] in
theorem look_num {a : Kind} (h : (promise c).num = a) : (look e pref c unit).num = a := by subst h; cases c <;> rfl
omit [DecidableEq C] in
theorem look_sum (h : (promise c).output = .monotonicSum ∨ (promise c).output = .sum) :
    (look e pref c unit).kind = .monoSum ∨ (look e pref c unit).kind = .nonMonoSum := by
  cases c <;> simp [promise] at h <;> first | exact Or.inl rfl | exact Or.inr rfl
omit [DecidableEq C] in
theorem look_gauge (h : (promise c).output = .gauge) : (look e pref c unit).kind = .gauge := by cases c <;> first | rfl | cases h
omit [DecidableEq C] in
theorem look_hist (h : (promise c).output = .histogram) : (look e pref c unit).kind = .histogram := by cases c <;> first | rfl | cases h
omit [DecidableEq C] in
theorem look_number (h : (promise c).output ≠ .histogram) :
    (look e pref c unit).kind = .monoSum ∨ (look e pref c unit).kind = .nonMonoSum ∨ (look e pref c unit).kind = .gauge := by
  cases c <;> first | exact Or.inl rfl | exact Or.inr (Or.inl rfl) | exact Or.inr (Or.inr rfl) | exact absurd rfl h
omit [DecidableEq C] in
theorem look_not_gauge (h : (promise c).output ≠ .gauge) : (look e pref c unit).kind ≠ .gauge := by
  intro h'; cases c <;> first | exact absurd rfl h | cases h'
theorem sum_not_gauge (h : (promise c).output = .monotonicSum ∨ (promise c).output = .sum) : c.kinds.2 ≠ .asyncGauge := by
  intro h'; cases c <;> simp [promise, Ctor.kinds] at h h'
theorem sync_not_gauge (h : (promise c).observed = false) : c.kinds.2 ≠ .asyncGauge := by
  intro h'; cases c <;> simp [promise, Ctor.kinds] at h h'
theorem not_gauge (h : (promise c).output ≠ .gauge) : c.kinds.2 ≠ .asyncGauge := by
  intro h'; cases c <;> simp [promise, Ctor.kinds] at h h'
theorem async_gauge (h : (promise c).observed = true) (h' : (promise c).output = .gauge) : c.kinds.2 = .asyncGauge := by
  cases c <;> simp_all [promise, Ctor.kinds]
omit [DecidableEq C] in
theorem look_cumulative (h : documented pref c.kinds.2 = .cumulative ∨ c.kinds.2 = .asyncGauge) : (look e pref c unit).delta = false := by
  unfold look
  rcases h with h | h
  · rw [h]; rfl
  · rw [h]; simp
omit [DecidableEq C] in
theorem look_delta (h : documented pref c.kinds.2 = .delta) (h' : c.kinds.2 ≠ .asyncGauge) : (look e pref c unit).delta = true := by
  unfold look
  rw [h]
  simp [h']

theorem made_end (hp : Ends e pc sel acts coll z z') : z'.p = Provider.run e.x (Provider.new (views e sel)) (makes acts) := (C93_ending hp).1

/-! ### The resource and the metrics -/

omit [DecidableEq C] in
/-- C94 (the resource is well-formed). The resource can be exported. -/
theorem C94_exportable (hl : Launch lx lw opts pref pc sel) : Exportable (world e pc).resource := by
  obtain ⟨c, eff, h1, h2, -⟩ := hl.spec
  show Exportable pc.resource
  rw [h2]
  exact resource_exportable h1

/-- C94 (resource). Every payload sent has exactly the texts which the options and the environment give as resource attributes (see C49). -/
theorem C94_resource (hl : Launch lx lw opts pref pc sel) (hp : Runs e pc sel acts z) (hw : Launcher.EnvResourceOk lw.envResource)
    (hd : (Launcher.configuredAttrs lw opts).Pairwise (fun a b => a.1 ≠ b.1)) (pl : Payload) (hpl : pl ∈ z.s.sent) (key text : Str) (hk : key ≠ []) :
    (key, PVal.one (.str text)) ∈ pl.resource ↔ Launcher.expectedAttr lw opts key = some text := by
  obtain ⟨c, eff, h1, h2, -⟩ := hl.spec
  obtain ⟨c', eff', g1, g2⟩ := Launcher.C49_precedence_partial lx lw opts hw hd
  rw [h1] at g1
  cases g1
  have hres : AttrsOf pc.resource pl.resource := by
    obtain ⟨s, hs, hsim⟩ := hp.static
    obtain ⟨i, hi⟩ := List.getElem?_of_mem hpl
    obtain ⟨pl', hi', hsame⟩ := Live.each_get' hsim.sent i pl hi
    rw [← hsame.1]
    exact ((C92_payloads (Live.run_prov hp.runs) hs).2 pl' (List.mem_of_getElem? hi')).1
  rw [h2] at hres
  rw [text_exported (resource_exportable h1) hres, g2 key hk]
  cases Launcher.expectedAttr lw opts key <;> simp

/-- The data documented for a constructor. -/
def outputOf : Ctor → Export.PTemporality → PData → Prop
  | c, t, .sum mono t' _ => ((promise c).output = .monotonicSum ∧ mono = true ∨ (promise c).output = .sum ∧ mono = false) ∧ t' = t
  | c, _, .gauge _ => (promise c).output = .gauge
  | c, t, .exp t' _ => (promise c).output = .histogram ∧ t' = t
  | _, _, .hist _ _ => False

/-- C94 (kind and temporality). In every payload sent, a metric of the scope with the name has the unit given, the data documented for the constructor, and the temporality documented
for the preference. -/
theorem C94_metric (hl : Launch lx lw opts pref pc sel) (h : Named (makes acts) z.p k sc c n unit) (hp : Runs e pc sel acts z) (pl : Payload) (hpl : pl ∈ z.s.sent) (s : PScope)
    (hs : s ∈ pl.scopes) (hlib : s.library = sentScope sc) (m : PMetric) (hm : m ∈ s.metrics) (hn : m.name = n) :
    m.unit = unit ∧ outputOf c (if documented pref c.kinds.2 = .delta then .delta else .cumulative) m.data := by
  have hv := h.viewed hl (Live.run_prov hp.runs)
  obtain ⟨h1, h2⟩ := C93_metric hv hp pl hpl s hs hlib m hm hn
  refine ⟨h1, ?_⟩
  generalize m.data = dd at h2
  cases pref <;> cases c <;> cases dd <;> simp [DataFor, look, outputOf, promise, Ctor.kinds, usualAgg, documented] at h2 ⊢ <;> exact h2

/-! ### Synchronous instruments -/

/-- C94 (counters and up-down counters of integers, cumulative). When the preference says cumulative: the last point sent with the attributes `m`, if something was recorded with these, is the sum of all integers recorded with them on the instruments with the name. -/
theorem C94_sum_last (hl : Launch lx lw opts pref pc sel) (h : Named (makes acts) z'.p k sc c n unit) (hp : Ends e pc sel acts coll z z')
    (hsy : (promise c).observed = false) (hn : (promise c).num = .int64) (ho : (promise c).output = .monotonicSum ∨ (promise c).output = .sum)
    (ht : documented pref c.kinds.2 = .cumulative) (hf : Few z'.p k n (syncActs (rest acts)))
    (hne : ∀ a ∈ Whole.calls (rest acts), NoEmptyList (a.1.attrs a.2.1)) (m : PMap)
    (hrec : recordedBy z'.p k n (fun as => Describes none as m) (syncActs (rest acts)) ≠ []) :
    ((sentPoints numbers (sentScope sc) n z'.s.sent).filter (fun d => d.attrs = m)).getLast?.map (·.value) =
      some (.int (total64 (recordedBy z'.p k n (fun as => Describes none as m) (syncActs (rest acts))))) := by
  have hv := h.viewed hl (made_end hp)
  have := C93_sum_last hv (look_sync hsy) hp (look_num hn) (look_sum ho) (look_cumulative (Or.inl ht)) rfl (hf.via e pc sel sc) hne m
    (by rw [recorded_eq]; exact hrec)
  rw [recorded_eq] at this
  exact this

/-- C94 (counters and up-down counters of integers, delta). When the preference says delta: the integers sent in points with exactly the attributes `m` add up to the integers recorded with them. -/
theorem C94_sum_sent (hl : Launch lx lw opts pref pc sel) (h : Named (makes acts) z'.p k sc c n unit) (hp : Ends e pc sel acts coll z z')
    (hsy : (promise c).observed = false) (hn : (promise c).num = .int64) (ho : (promise c).output = .monotonicSum ∨ (promise c).output = .sum)
    (ht : documented pref c.kinds.2 = .delta) (hf : Few z'.p k n (syncActs (rest acts))) (m : PMap) :
    total64 (ints ((sentPoints numbers (sentScope sc) n z'.s.sent).filter (fun d => d.attrs = m))) =
      total64 (recordedBy z'.p k n (fun as => Describes none as m) (syncActs (rest acts))) := by
  have hv := h.viewed hl (made_end hp)
  have := C93_sum_sent hv (look_sync hsy) hp (look_num hn) (look_sum ho) (look_delta ht (sum_not_gauge ho)) rfl (hf.via e pc sel sc) m
  rw [recorded_eq] at this
  exact this

/-- C94 (counters and up-down counters of integers, delta, total). Whatever the attributes and their number, the integers sent add up to the integers recorded. -/
theorem C94_sum_total (hl : Launch lx lw opts pref pc sel) (h : Named (makes acts) z'.p k sc c n unit) (hp : Ends e pc sel acts coll z z')
    (hsy : (promise c).observed = false) (hn : (promise c).num = .int64) (ho : (promise c).output = .monotonicSum ∨ (promise c).output = .sum)
    (ht : documented pref c.kinds.2 = .delta) :
    total64 (ints (sentPoints numbers (sentScope sc) n z'.s.sent)) = total64 (recordedBy z'.p k n (fun _ => True) (syncActs (rest acts))) := by
  have hv := h.viewed hl (made_end hp)
  have := C93_sum_total hv (look_sync hsy) hp (look_num hn) (look_sum ho) (look_delta ht (sum_not_gauge ho))
  rw [recorded_eq] at this
  exact this

/-- C94 (counters and up-down counters of floats, cumulative). The last point sent with the attributes `m` is the result of adding up, in some order, all floats recorded with them. -/
theorem C94_float_last (hl : Launch lx lw opts pref pc sel) (h : Named (makes acts) z'.p k sc c n unit) (hp : Ends e pc sel acts coll z z')
    (hsy : (promise c).observed = false) (hn : (promise c).num = .float64) (ho : (promise c).output = .monotonicSum ∨ (promise c).output = .sum)
    (ht : documented pref c.kinds.2 = .cumulative) (hf : Few z'.p k n (syncActs (rest acts)))
    (hne : ∀ a ∈ Whole.calls (rest acts), NoEmptyList (a.1.attrs a.2.1)) (m : PMap)
    (hrec : recordedBy z'.p k n (fun as => Describes none as m) (syncActs (rest acts)) ≠ []) :
    ∃ b vals, ((sentPoints numbers (sentScope sc) n z'.s.sent).filter (fun d => d.attrs = m)).getLast?.map (·.value) = some (.double b) ∧
      vals.Perm (recordedBy z'.p k n (fun as => Describes none as m) (syncActs (rest acts))) ∧ SumOf 0 e.fadd b vals := by
  have hv := h.viewed hl (made_end hp)
  have := C93_float_last hv (look_sync hsy) hp (look_num hn) (look_sum ho) (look_cumulative (Or.inl ht)) rfl (hf.via e pc sel sc) hne m
    (by rw [recorded_eq]; exact hrec)
  rw [recorded_eq] at this
  exact this

/-- C94 (counters and up-down counters of floats, delta). The floats recorded with the attributes `m` are divided into groups; the points sent with the attributes `m` are the sums, in some order, of the groups, except for groups whose sum is zero, which are not sent. -/
theorem C94_float_sent (hl : Launch lx lw opts pref pc sel) (h : Named (makes acts) z'.p k sc c n unit) (hp : Ends e pc sel acts coll z z')
    (hsy : (promise c).observed = false) (hn : (promise c).num = .float64) (ho : (promise c).output = .monotonicSum ∨ (promise c).output = .sum)
    (ht : documented pref c.kinds.2 = .delta) (hf : Few z'.p k n (syncActs (rest acts))) (m : PMap) :
    ∃ gs zs : List (List Bits), (gs ++ zs).flatten.Perm (recordedBy z'.p k n (fun as => Describes none as m) (syncActs (rest acts))) ∧
      Pointwise (fun g d => ∃ b, SumOf 0 e.fadd b g ∧ d.value = .double b ∧ scaled b ≠ 0) gs
        ((sentPoints numbers (sentScope sc) n z'.s.sent).filter (fun d => d.attrs = m)) ∧
      ∀ g ∈ zs, ∃ b, SumOf 0 e.fadd b g ∧ scaled b = 0 := by
  have hv := h.viewed hl (made_end hp)
  have := C93_float_sent hv (look_sync hsy) hp (look_num hn) (look_sum ho) (look_delta ht (sum_not_gauge ho)) rfl (hf.via e pc sel sc) m
  rw [recorded_eq] at this
  exact this

/-- C94 (gauges, cumulative). When calls on the instruments with the name do not overlap: the last point sent with the attributes `m` carries the value of the last call with them. -/
theorem C94_gauge_last (hl : Launch lx lw opts pref pc sel) (h : Named (makes acts) z'.p k sc c n unit) (hp : Ends e pc sel acts coll z z')
    (hsy : (promise c).observed = false) (ho : (promise c).output = .gauge)
    (ht : documented pref c.kinds.2 = .cumulative) (hq : Launched.OneByOne e pc sel z'.p k n acts) (hf : Few z'.p k n (syncActs (rest acts)))
    (hne : ∀ a ∈ Whole.calls (rest acts), NoEmptyList (a.1.attrs a.2.1)) (m : PMap)
    (hrec : recordedBy z'.p k n (fun as => Describes none as m) (syncActs (rest acts)) ≠ []) :
    ∃ d b, ((sentPoints numbers (sentScope sc) n z'.s.sent).filter (fun d => d.attrs = m)).getLast? = some d ∧
      (recordedBy z'.p k n (fun as => Describes none as m) (syncActs (rest acts))).getLast? = some b ∧ NumOf (promise c).num b d.value := by
  have hv := h.viewed hl (made_end hp)
  have := C93_gauge_last hv (look_sync hsy) hp (look_gauge ho) (look_cumulative (Or.inl ht)) (hq.live sc) rfl (hf.via e pc sel sc) hne m
    (by rw [recorded_eq]; exact hrec)
  rw [recorded_eq, show (look e pref c unit).num = (promise c).num from look_num rfl] at this
  exact this

/-- C94 (gauges, delta). When calls on the instruments with the name do not overlap: the values recorded with the attributes `m` are divided into groups, each in the order of the calls, one for each point sent with these attributes; the point carries the last value of its group. -/
theorem C94_gauge_sent (hl : Launch lx lw opts pref pc sel) (h : Named (makes acts) z'.p k sc c n unit) (hp : Ends e pc sel acts coll z z')
    (hsy : (promise c).observed = false) (ho : (promise c).output = .gauge)
    (ht : documented pref c.kinds.2 = .delta) (hq : Launched.OneByOne e pc sel z'.p k n acts) (hf : Few z'.p k n (syncActs (rest acts))) (m : PMap) :
    ∃ gs : List (List Bits), gs.flatten.Perm (recordedBy z'.p k n (fun as => Describes none as m) (syncActs (rest acts))) ∧
      (∀ g ∈ gs, g.Sublist (recordedBy z'.p k n (fun as => Describes none as m) (syncActs (rest acts)))) ∧
      Pointwise (fun g d => ∃ b, g.getLast? = some b ∧ NumOf (promise c).num b d.value) gs
        ((sentPoints numbers (sentScope sc) n z'.s.sent).filter (fun d => d.attrs = m)) := by
  have hv := h.viewed hl (made_end hp)
  have := C93_gauge_sent hv (look_sync hsy) hp (look_gauge ho) (look_delta ht (sync_not_gauge hsy)) (hq.live sc) rfl (hf.via e pc sel sc) m
  rw [recorded_eq, show (look e pref c unit).num = (promise c).num from look_num rfl] at this
  exact this

/-- C94 (histograms, cumulative). The last point sent with the attributes `m` has the content of an exponential histogram with the default configuration, made of exactly the values recorded with them. -/
theorem C94_hist_last (hl : Launch lx lw opts pref pc sel) (h : Named (makes acts) z'.p k sc c n unit) (hp : Ends e pc sel acts coll z z')
    (hsy : (promise c).observed = false) (ho : (promise c).output = .histogram)
    (ht : documented pref c.kinds.2 = .cumulative) (hf : Few z'.p k n (syncActs (rest acts)))
    (hne : ∀ a ∈ Whole.calls (rest acts), NoEmptyList (a.1.attrs a.2.1)) (m : PMap)
    (hrec : recordedBy z'.p k n (fun as => Describes none as m) (syncActs (rest acts)) ≠ []) :
    ∃ d vals, ((sentPoints expPoints (sentScope sc) n z'.s.sent).filter (fun d => d.attrs = m)).getLast? = some d ∧
      vals.Perm (recordedBy z'.p k n (fun as => Describes none as m) (syncActs (rest acts))) ∧
      ShowsHist (reader (world e pc) z'.p 0) (e.hist (promise c).num (e.x.validH e.zero)) (promise c).num vals d := by
  have hv := h.viewed hl (made_end hp)
  have := C93_hist_last hv (look_sync hsy) hp (look_hist ho) (look_cumulative (Or.inl ht)) rfl (hf.via e pc sel sc) hne m
    (by rw [recorded_eq]; exact hrec)
  rw [recorded_eq, show (look e pref c unit).num = (promise c).num from look_num rfl] at this
  exact this

/-- C94 (histograms, delta). The values recorded with the attributes `m` are divided into groups, one for each point sent with these attributes, which has the content of an exponential histogram with the default configuration made of exactly its group. -/
theorem C94_hist_sent (hl : Launch lx lw opts pref pc sel) (h : Named (makes acts) z'.p k sc c n unit) (hp : Ends e pc sel acts coll z z')
    (hsy : (promise c).observed = false) (ho : (promise c).output = .histogram)
    (ht : documented pref c.kinds.2 = .delta) (hc : Counts (e.hist (promise c).num (e.x.validH e.zero)))
    (hf : Few z'.p k n (syncActs (rest acts))) (m : PMap) :
    Grouped (ShowsHist (reader (world e pc) z'.p 0) (e.hist (promise c).num (e.x.validH e.zero)) (promise c).num)
      (recordedBy z'.p k n (fun as => Describes none as m) (syncActs (rest acts))) ((sentPoints expPoints (sentScope sc) n z'.s.sent).filter (fun d => d.attrs = m)) := by
  have hv := h.viewed hl (made_end hp)
  have hnum : (look e pref c unit).num = (promise c).num := look_num rfl
  have := C93_hist_sent hv (look_sync hsy) hp (look_hist ho) (look_delta ht (sync_not_gauge hsy)) (by rw [hnum]; exact hc) rfl (hf.via e pc sel sc) m
  rw [recorded_eq, hnum] at this
  exact this

/-- C94 (nothing else is sent, numbers). Every number point sent under the name of a counter, up-down counter or gauge has attributes with which something was recorded. -/
theorem C94_known (hl : Launch lx lw opts pref pc sel) (h : Named (makes acts) z'.p k sc c n unit) (hp : Ends e pc sel acts coll z z')
    (hsy : (promise c).observed = false) (ho : (promise c).output ≠ .histogram)
    (hf : Few z'.p k n (syncActs (rest acts))) (d : PNumber) (hd : d ∈ sentPoints numbers (sentScope sc) n z'.s.sent) :
    recordedBy z'.p k n (fun as => Describes none as d.attrs) (syncActs (rest acts)) ≠ [] := by
  have hv := h.viewed hl (made_end hp)
  have := C93_known hv (look_sync hsy) hp (look_number ho) (hf.via e pc sel sc) d hd
  rw [recorded_eq] at this
  exact this

/-- C94 (nothing else is sent, histograms). Every point sent under the name of a histogram has attributes with which something was recorded. -/
theorem C94_hist_known (hl : Launch lx lw opts pref pc sel) (h : Named (makes acts) z'.p k sc c n unit) (hp : Ends e pc sel acts coll z z')
    (hsy : (promise c).observed = false) (ho : (promise c).output = .histogram)
    (hf : Few z'.p k n (syncActs (rest acts))) (d : PExp) (hd : d ∈ sentPoints expPoints (sentScope sc) n z'.s.sent) :
    recordedBy z'.p k n (fun as => Describes none as d.attrs) (syncActs (rest acts)) ≠ [] := by
  have hv := h.viewed hl (made_end hp)
  have := C93_hist_known hv (look_sync hsy) hp (look_hist ho) (hf.via e pc sel sc) d hd
  rw [recorded_eq] at this
  exact this

/-! ### Observable instruments -/

/-- C94 (observable instruments, cumulative, and observable gauges). For every collection with fewer than 2000 attribute sets: the payload has exactly one point for each attribute set observed in this collection by an instrument with the name, with exactly these attributes, and its value is made of the last values observed. -/
theorem C94_async_cumulative (hl : Launch lx lw opts pref pc sel) (h : Named (makes acts) z.p k sc c n unit) (hp : Runs e pc sel acts z)
    (hasy : (promise c).observed = true) (ht : documented pref c.kinds.2 = .cumulative ∨ (promise c).output = .gauge)
    {t : Nat} (htl : t < (Whole.collections (rest acts)).length) (hf : FewSets (Called z.p k n) none 2000 (Whole.seenIn z.s) t) :
    ∃ pl, z.s.sent[t]? = some pl ∧ ∃ as : List (List KV), as.Nodup ∧ (∀ a, a ∈ as ↔ Shows (Called z.p k n) none (Whole.seenIn z.s) t a) ∧
      Pointwise (fun a d => AttrsOf a d.attrs ∧ ∃ y, Amount (world e pc) (Called z.p k n) none (usualAgg c.kinds.2) (promise c).num (Whole.seenIn z.s) t a y ∧
        NumOf (promise c).num y d.value) as (pointsIn numbers (sentScope sc) n pl) := by
  have hv := h.viewed hl (Live.run_prov hp.runs)
  have hnum : (look e pref c unit).num = (promise c).num := look_num rfl
  have := C93_async_cumulative hv (look_async hasy) hp (times_le e sel sc) (Or.inl (look_cumulative (ht.imp_right (async_gauge hasy)))) htl (by rw [feeds_eq]; exact hf)
  rw [feeds_eq, hnum] at this
  exact this

/-- C94 (observable counters and up-down counters of integers, delta). When the sets of all collections fit: the payload of every collection has exactly one point for each attribute set observed in this collection whose value changed since the collection before or which was not observed in that one; its value is the difference, or the whole value. -/
theorem C94_async_delta (hl : Launch lx lw opts pref pc sel) (h : Named (makes acts) z.p k sc c n unit) (hp : Runs e pc sel acts z)
    (hasy : (promise c).observed = true) (ht : documented pref c.kinds.2 = .delta)
    (hn : (promise c).num = .int64) (hg : (promise c).output ≠ .gauge)
    (hf : ∀ t, t < (Whole.collections (rest acts)).length → FewSets (Called z.p k n) none 2000 (Whole.seenIn z.s) t)
    (hov : ∀ o ∈ Whole.seenIn z.s, Called z.p k n o.2.1 → shown none o.2.2.1 ≠ overflowSet)
    {t : Nat} (htl : t < (Whole.collections (rest acts)).length) :
    ∃ pl, z.s.sent[t]? = some pl ∧ ∃ as : List (List KV), as.Nodup ∧
      (∀ a, a ∈ as ↔ ∃ y, Amount (world e pc) (Called z.p k n) none (usualAgg c.kinds.2) .int64 (Whole.seenIn z.s) t a y ∧
        ¬ AmountBefore (world e pc) (Called z.p k n) none (usualAgg c.kinds.2) .int64 (Whole.seenIn z.s) t a y) ∧
      Pointwise (fun a d => AttrsOf a d.attrs ∧ ∃ y, Amount (world e pc) (Called z.p k n) none (usualAgg c.kinds.2) .int64 (Whole.seenIn z.s) t a y ∧
        ((∃ b, AmountBefore (world e pc) (Called z.p k n) none (usualAgg c.kinds.2) .int64 (Whole.seenIn z.s) t a b ∧ d.value = .int (y - b)) ∨
          ((∀ b, ¬ AmountBefore (world e pc) (Called z.p k n) none (usualAgg c.kinds.2) .int64 (Whole.seenIn z.s) t a b) ∧ d.value = .int y)))
        as (pointsIn numbers (sentScope sc) n pl) := by
  have hv := h.viewed hl (Live.run_prov hp.runs)
  have := C93_async_delta hv (look_async hasy) hp (times_le e sel sc) (look_num hn) (look_delta ht (not_gauge hg)) (look_not_gauge hg) (by rw [feeds_eq]; exact hf)
    (by rw [feeds_eq]; exact hov) htl
  rw [feeds_eq] at this
  exact this

/-- C94 (observable counters and up-down counters of floats, delta). When the sets of all collections fit: each point of the payload is for an attribute set observed in this collection; its value is the float difference of its cumulative value and the one in the collection before, and is not zero, or its whole value when it was not observed in that one; an attribute set observed without a point has a zero difference. -/
theorem C94_async_delta_float (hl : Launch lx lw opts pref pc sel) (h : Named (makes acts) z.p k sc c n unit) (hp : Runs e pc sel acts z)
    (hasy : (promise c).observed = true) (ht : documented pref c.kinds.2 = .delta)
    (hn : (promise c).num = .float64) (hg : (promise c).output ≠ .gauge)
    (hf : ∀ t, t < (Whole.collections (rest acts)).length → FewSets (Called z.p k n) none 2000 (Whole.seenIn z.s) t)
    (hov : ∀ o ∈ Whole.seenIn z.s, Called z.p k n o.2.1 → shown none o.2.2.1 ≠ overflowSet)
    {t : Nat} (htl : t < (Whole.collections (rest acts)).length) :
    ∃ pl, z.s.sent[t]? = some pl ∧ ∃ as : List (List KV), as.Nodup ∧ (∀ a ∈ as, Shows (Called z.p k n) none (Whole.seenIn z.s) t a) ∧
      (∀ a, Shows (Called z.p k n) none (Whole.seenIn z.s) t a → a ∉ as → ∃ y b, Amount (world e pc) (Called z.p k n) none (usualAgg c.kinds.2) .float64 (Whole.seenIn z.s) t a y ∧
        AmountBefore (world e pc) (Called z.p k n) none (usualAgg c.kinds.2) .float64 (Whole.seenIn z.s) t a b ∧ FloatZero (e.fsub y b)) ∧
      Pointwise (fun a d => AttrsOf a d.attrs ∧ ∃ y, Amount (world e pc) (Called z.p k n) none (usualAgg c.kinds.2) .float64 (Whole.seenIn z.s) t a y ∧
        ((∃ b, AmountBefore (world e pc) (Called z.p k n) none (usualAgg c.kinds.2) .float64 (Whole.seenIn z.s) t a b ∧ ¬ FloatZero (e.fsub y b) ∧ d.value = .double (e.fsub y b)) ∨
          ((∀ b, ¬ AmountBefore (world e pc) (Called z.p k n) none (usualAgg c.kinds.2) .float64 (Whole.seenIn z.s) t a b) ∧ d.value = .double y)))
        as (pointsIn numbers (sentScope sc) n pl) := by
  have hv := h.viewed hl (Live.run_prov hp.runs)
  have := C93_async_delta_float hv (look_async hasy) hp (times_le e sel sc) (look_num hn) (look_delta ht (not_gauge hg)) (look_not_gauge hg) (by rw [feeds_eq]; exact hf)
    (by rw [feeds_eq]; exact hov) htl
  rw [feeds_eq] at this
  exact this

/-- C94 (observable counters and up-down counters of integers, delta, totals). If moreover the attributes `a` were observed in every collection since the first such one, all values sent with the attributes `a` add up to their last cumulative value. -/
theorem C94_async_delta_total (hl : Launch lx lw opts pref pc sel) (h : Named (makes acts) z.p k sc c n unit) (hp : Runs e pc sel acts z)
    (hasy : (promise c).observed = true) (ht : documented pref c.kinds.2 = .delta)
    (hn : (promise c).num = .int64) (hg : (promise c).output ≠ .gauge)
    (hf : ∀ t, t < (Whole.collections (rest acts)).length → FewSets (Called z.p k n) none 2000 (Whole.seenIn z.s) t)
    (hov : ∀ o ∈ Whole.seenIn z.s, Called z.p k n o.2.1 → shown none o.2.2.1 ≠ overflowSet)
    {a : List KV} (hne : NoEmptyList a) {first last : Nat}
    (hlast : (Whole.collections (rest acts)).length = last + 1) (hle : first ≤ last) (hno : ∀ t, t < first → ¬ Shows (Called z.p k n) none (Whole.seenIn z.s) t a)
    (hobs : ∀ t, first ≤ t → t ≤ last → Shows (Called z.p k n) none (Whole.seenIn z.s) t a) {y : Bits}
    (hy : Amount (world e pc) (Called z.p k n) none (usualAgg c.kinds.2) .int64 (Whole.seenIn z.s) last a y) :
    total64 (ints ((sentPoints numbers (sentScope sc) n z.s.sent).filter (fun d => @decide (AttrsOf a d.attrs) (Classical.propDecidable _)))) = y := by
  have hv := h.viewed hl (Live.run_prov hp.runs)
  have := C93_async_delta_total hv (look_async hasy) hp (times_le e sel sc) (look_num hn) (look_delta ht (not_gauge hg)) (look_not_gauge hg) (by rw [feeds_eq]; exact hf)
    (by rw [feeds_eq]; exact hov) hne hlast hle (by rw [feeds_eq]; exact hno) (by rw [feeds_eq]; exact hobs) (by rw [feeds_eq]; exact hy)
  exact this
/-! ### Concrete programs -/

section Examples
open Verif.Examples Verif.Examples.Asm
open Verif.Views (lit)

/-- What is known of a concrete program of `Verif.Examples.Ln`, with the constructor `ct` for the instrument `n`. -/
theorem c94_case {a : Launcher.Preference} {ct : Ctor} (h : Ln.evaluated a (ct, .none) = true) (h1 : Ln.hasB a (ct, .none) (lit "n") = true) (h2 : Ln.hasB a (ct, .none) (lit "y") = true)
    (hq : Ln.quietB a (Ln.initial a (ct, .none)) (Ln.acts a (ct, .none)) = true) (hs : (Ln.stages a (ct, .none)).map (fun s => decide (Whole.seenIn s.last.s = Ln.seen)) = some true) :
    ∃ s, Ln.stages a (ct, .none) = some s ∧ Launch Launcher.exExt Ln.lw (Ln.opts a) a (Ln.pc a) (documented a) ∧
      Ends Ln.out (Ln.pc a) (documented a) (Ln.acts a (ct, .none)) (Ln.coll a (ct, .none)) s.x s.last ∧
      Runs Ln.out (Ln.pc a) (documented a) (Ln.acts a (ct, .none) ++ (Ln.coll a (ct, .none)).map .run) s.last ∧
      Named (makes (Ln.acts a (ct, .none))) s.last.p 0 scA ct (lit "n") (lit "s") ∧ Named (makes (Ln.acts a (ct, .none))) s.last.p 0 scA .int64ObservableCounter (lit "y") (lit "s") ∧
      Few s.last.p 0 (lit "n") (syncActs (rest (Ln.acts a (ct, .none)))) ∧ Launched.OneByOne Ln.out (Ln.pc a) (documented a) s.last.p 0 (lit "n") (Ln.acts a (ct, .none)) ∧
      (∀ e ∈ Whole.calls (rest (Ln.acts a (ct, .none))), NoEmptyList (e.1.attrs e.2.1)) ∧
      (∀ i, FewSets (Called s.last.p 0 (lit "y")) none 2000 (Whole.seenIn s.last.s) i) ∧
      (∀ e ∈ Whole.seenIn s.last.s, Called s.last.p 0 (lit "y") e.2.1 → shown none e.2.2.1 ≠ overflowSet) := by
  obtain ⟨s, e1, e2, e3⟩ := Ln.of_evaluated h
  rw [e1] at hs
  have hs : Whole.seenIn s.last.s = Ln.seen := of_decide_eq_true (Option.some.inj hs)
  have hb : (lit "n" : Str) ≠ lit "y" := by decide +kernel
  refine ⟨s, e1, Ln.launch a, e3, e3.running, Ln.named e2 h1 ?_, Ln.named e2 h2 ?_, Ln.few, Ln.oneByOne e2 hq, Ln.noEmpty, by rw [e2]; exact (Ln.sets hs).1,
    by rw [e2]; exact (Ln.sets hs).2⟩
  · intro d hd hn
    simp only [Ln.cs, requests, List.filterMap_cons, List.filterMap_nil, if_true, List.mem_cons, List.not_mem_nil, or_false] at hd
    rcases hd with rfl | rfl
    · rfl
    · exact absurd hn.symm hb
  · intro d hd hn
    simp only [Ln.cs, requests, List.filterMap_cons, List.filterMap_nil, if_true, List.mem_cons, List.not_mem_nil, or_false] at hd
    rcases hd with rfl | rfl
    · exact absurd hn hb
    · rfl

/-- "lowMemory": the counter `n` is sent as deltas, 5 and 7, then 2; the observable counter `y`, asked for after the first collection, is 5 and 10. -/
example : ∃ s, Ln.stages .lowmemory (.int64Counter, .none) = some s ∧ Ends Ln.out (Ln.pc .lowmemory) (documented .lowmemory) (Ln.acts .lowmemory (.int64Counter, .none)) (Ln.coll .lowmemory (.int64Counter, .none)) s.x s.last ∧
    documented .lowmemory (Ctor.kinds .int64Counter).2 = .delta ∧ c92Sent s.last.s (lit "n") = [[.int 5, .int 7], [.int 2]] ∧ c92Sent s.last.s (lit "y") = [[], [.int 5, .int 10]] := by
  obtain ⟨s, h1, -, h2, -⟩ := c94_case (a := .lowmemory) (ct := .int64Counter) (by decide +kernel) (by decide +kernel) (by decide +kernel) (by decide +kernel) (by decide +kernel)
  obtain ⟨s', e1, e2⟩ : ∃ s, Ln.stages .lowmemory (.int64Counter, .none) = some s ∧ (c92Sent s.last.s (lit "n") = [[.int 5, .int 7], [.int 2]] ∧ c92Sent s.last.s (lit "y") = [[], [.int 5, .int 10]]) := exists_of_eval (by decide +kernel)
  obtain rfl : s = s' := by rw [h1] at e1; exact Option.some.inj e1
  exact ⟨s, h1, h2, by decide, e2⟩

/-- "Delta": the same, but the observable counter is sent as deltas too. -/
example : ∃ s, Ln.stages .delta (.int64Counter, .none) = some s ∧ Ends Ln.out (Ln.pc .delta) (documented .delta) (Ln.acts .delta (.int64Counter, .none)) (Ln.coll .delta (.int64Counter, .none)) s.x s.last ∧
    documented .delta (Ctor.kinds .int64ObservableCounter).2 = .delta ∧ c92Sent s.last.s (lit "n") = [[.int 5, .int 7], [.int 2]] ∧ c92Sent s.last.s (lit "y") = [[], [.int 5, .int 10]] := by
  obtain ⟨s, h1, -, h2, -⟩ := c94_case (a := .delta) (ct := .int64Counter) (by decide +kernel) (by decide +kernel) (by decide +kernel) (by decide +kernel) (by decide +kernel)
  obtain ⟨s', e1, e2⟩ : ∃ s, Ln.stages .delta (.int64Counter, .none) = some s ∧ (c92Sent s.last.s (lit "n") = [[.int 5, .int 7], [.int 2]] ∧ c92Sent s.last.s (lit "y") = [[], [.int 5, .int 10]]) := exists_of_eval (by decide +kernel)
  obtain rfl : s = s' := by rw [h1] at e1; exact Option.some.inj e1
  exact ⟨s, h1, h2, by decide, e2⟩

/-- "Delta": an up-down counter is still cumulative. -/
example : ∃ s, Ln.stages .delta (.float64UpDownCounter, .none) = some s ∧ Ends Ln.out (Ln.pc .delta) (documented .delta) (Ln.acts .delta (.float64UpDownCounter, .none)) (Ln.coll .delta (.float64UpDownCounter, .none)) s.x s.last ∧
    documented .delta (Ctor.kinds .float64UpDownCounter).2 = .cumulative ∧ c92Sent s.last.s (lit "n") = [[.double 5, .double 7], [.double 5, .double 9]] ∧ c92Sent s.last.s (lit "y") = [[], [.int 5, .int 10]] := by
  obtain ⟨s, h1, -, h2, -⟩ := c94_case (a := .delta) (ct := .float64UpDownCounter) (by decide +kernel) (by decide +kernel) (by decide +kernel) (by decide +kernel) (by decide +kernel)
  obtain ⟨s', e1, e2⟩ : ∃ s, Ln.stages .delta (.float64UpDownCounter, .none) = some s ∧ (c92Sent s.last.s (lit "n") = [[.double 5, .double 7], [.double 5, .double 9]] ∧ c92Sent s.last.s (lit "y") = [[], [.int 5, .int 10]]) := exists_of_eval (by decide +kernel)
  obtain rfl : s = s' := by rw [h1] at e1; exact Option.some.inj e1
  exact ⟨s, h1, h2, by decide, e2⟩

/-- "Delta": a gauge; only the attributes set since the last collection are sent again. -/
example : ∃ s, Ln.stages .delta (.int64Gauge, .none) = some s ∧ Ends Ln.out (Ln.pc .delta) (documented .delta) (Ln.acts .delta (.int64Gauge, .none)) (Ln.coll .delta (.int64Gauge, .none)) s.x s.last ∧
    documented .delta (Ctor.kinds .int64Gauge).2 = .delta ∧ c92Sent s.last.s (lit "n") = [[.int 5, .int 7], [.int 2]] ∧ c92Sent s.last.s (lit "y") = [[], [.int 5, .int 10]] := by
  obtain ⟨s, h1, -, h2, -⟩ := c94_case (a := .delta) (ct := .int64Gauge) (by decide +kernel) (by decide +kernel) (by decide +kernel) (by decide +kernel) (by decide +kernel)
  obtain ⟨s', e1, e2⟩ : ∃ s, Ln.stages .delta (.int64Gauge, .none) = some s ∧ (c92Sent s.last.s (lit "n") = [[.int 5, .int 7], [.int 2]] ∧ c92Sent s.last.s (lit "y") = [[], [.int 5, .int 10]]) := exists_of_eval (by decide +kernel)
  obtain rfl : s = s' := by rw [h1] at e1; exact Option.some.inj e1
  exact ⟨s, h1, h2, by decide, e2⟩

/-- "cumulative": a gauge. -/
example : ∃ s, Ln.stages .cumulative (.float64Gauge, .none) = some s ∧ Ends Ln.out (Ln.pc .cumulative) (documented .cumulative) (Ln.acts .cumulative (.float64Gauge, .none)) (Ln.coll .cumulative (.float64Gauge, .none)) s.x s.last ∧
    documented .cumulative (Ctor.kinds .float64Gauge).2 = .cumulative ∧ c92Sent s.last.s (lit "n") = [[.double 5, .double 7], [.double 5, .double 2]] ∧ c92Sent s.last.s (lit "y") = [[], [.int 5, .int 10]] := by
  obtain ⟨s, h1, -, h2, -⟩ := c94_case (a := .cumulative) (ct := .float64Gauge) (by decide +kernel) (by decide +kernel) (by decide +kernel) (by decide +kernel) (by decide +kernel)
  obtain ⟨s', e1, e2⟩ : ∃ s, Ln.stages .cumulative (.float64Gauge, .none) = some s ∧ (c92Sent s.last.s (lit "n") = [[.double 5, .double 7], [.double 5, .double 2]] ∧ c92Sent s.last.s (lit "y") = [[], [.int 5, .int 10]]) := exists_of_eval (by decide +kernel)
  obtain rfl : s = s' := by rw [h1] at e1; exact Option.some.inj e1
  exact ⟨s, h1, h2, by decide, e2⟩

/-- "lowMemory": a histogram; the second payload has one value. -/
example : ∃ s, Ln.stages .lowmemory (.float64Histogram, .none) = some s ∧ Ends Ln.out (Ln.pc .lowmemory) (documented .lowmemory) (Ln.acts .lowmemory (.float64Histogram, .none)) (Ln.coll .lowmemory (.float64Histogram, .none)) s.x s.last ∧
    documented .lowmemory (Ctor.kinds .float64Histogram).2 = .delta ∧ s.last.s.sent.map (fun pl => (pointsIn expPoints (sentScope scA) (lit "n") pl).map (·.count)) = [[1, 1], [1]] := by
  obtain ⟨s, h1, -, h2, -⟩ := c94_case (a := .lowmemory) (ct := .float64Histogram) (by decide +kernel) (by decide +kernel) (by decide +kernel) (by decide +kernel) (by decide +kernel)
  obtain ⟨s', e1, e2⟩ : ∃ s, Ln.stages .lowmemory (.float64Histogram, .none) = some s ∧ (s.last.s.sent.map (fun pl => (pointsIn expPoints (sentScope scA) (lit "n") pl).map (·.count)) = [[1, 1], [1]]) := exists_of_eval (by decide +kernel)
  obtain rfl : s = s' := by rw [h1] at e1; exact Option.some.inj e1
  exact ⟨s, h1, h2, by decide, e2⟩

/-- "cumulative": a histogram; the second payload has all values. -/
example : ∃ s, Ln.stages .cumulative (.int64Histogram, .none) = some s ∧ Ends Ln.out (Ln.pc .cumulative) (documented .cumulative) (Ln.acts .cumulative (.int64Histogram, .none)) (Ln.coll .cumulative (.int64Histogram, .none)) s.x s.last ∧
    documented .cumulative (Ctor.kinds .int64Histogram).2 = .cumulative ∧ s.last.s.sent.map (fun pl => (pointsIn expPoints (sentScope scA) (lit "n") pl).map (·.count)) = [[1, 1], [1, 2]] := by
  obtain ⟨s, h1, -, h2, -⟩ := c94_case (a := .cumulative) (ct := .int64Histogram) (by decide +kernel) (by decide +kernel) (by decide +kernel) (by decide +kernel) (by decide +kernel)
  obtain ⟨s', e1, e2⟩ : ∃ s, Ln.stages .cumulative (.int64Histogram, .none) = some s ∧ (s.last.s.sent.map (fun pl => (pointsIn expPoints (sentScope scA) (lit "n") pl).map (·.count)) = [[1, 1], [1, 2]]) := exists_of_eval (by decide +kernel)
  obtain rfl : s = s' := by rw [h1] at e1; exact Option.some.inj e1
  exact ⟨s, h1, h2, by decide, e2⟩

/-- The resource: what the option gives, the service name, and nothing for other keys. -/
example : Launcher.EnvResourceOk Ln.lw.envResource ∧ (Launcher.configuredAttrs Ln.lw (Ln.opts .delta)).Pairwise (fun a b => a.1 ≠ b.1) ∧
    Launcher.expectedAttr Ln.lw (Ln.opts .delta) (lit "zone") = some (lit "here") ∧ Launcher.expectedAttr Ln.lw (Ln.opts .delta) (lit "service.name") = some (lit "svc") ∧
    Launcher.expectedAttr Ln.lw (Ln.opts .delta) (lit "region") = none :=
  ⟨Launcher.exOk _ _, List.pairwise_singleton _ _, by decide +kernel, by decide +kernel, by decide +kernel⟩

end Examples

end Verif.Props
