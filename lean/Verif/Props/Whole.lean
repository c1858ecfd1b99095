import Verif.Proof.Whole
import Verif.Props.AssemblyViews
import Verif.Props.AsyncAssemblyViews
import Verif.Examples.WholeProgram

/-!
C92: programs with synchronous and observable instruments.

`Running farm w fsub p pipe acts s`: with the provider `p`, synchronous instruments are called, callbacks observe and collections of one reader are exported (`acts`), any way.
`Ending farm w fsub p pipe acts coll s s'`: a program whose calls have returned after `acts`, and whose reader collects and exports once more (`coll`). `syncActs` and `asyncActs`
leave out what happens to the instruments of the other kind. `Viewed` is as for C91.
-/

namespace Verif.Props
open Verif Verif.Attr Verif.Number Verif.Aggr Verif.Export Verif.Spec Verif.Assembly
open Verif.Pipeline (numbers expPoints histPoints pointsIn sentPoints ints NoEmptyList Describes Grouped)
open Verif.Whole (syncActs asyncActs metricsIn Running Ending)
open Verif.Views (Views Ext)
open Verif.Provider (Provider Call)

variable {C G ν : Type} [DecidableEq C] {farm : Str → UInt64} {w : World C G} {fsub : Bits → Bits → Bits} {p : Provider C ν} {x : Ext C} {views : List (Views C)}
  {cs : List (Call ν)} {pipe k : Nat} {v : Views C} {sc : Views.Scope} {n : Str} {L : Look C} {acts coll : List Whole.Act} {s s' : Whole.Sys G}

/-! ### The two kinds of instruments do not disturb each other -/

/-- C92 (payloads). Every collection is exported in one payload; it has the resource and the scopes of all meters, in order. -/
theorem C92_payloads (hmade : p = Provider.run x (Provider.new views) cs) (hp : Running farm w fsub p pipe acts s) :
    s.sent.length = (Whole.collections acts).length ∧
      ∀ pl ∈ s.sent, AttrsOf w.resource pl.resource ∧ pl.scopes.map (·.library) = p.ordered.map (fun m => sentScope m.scope) := by
  obtain ⟨xs, xa, h1, h2, h3⟩ := hp.split
  have ha := hp.apart hmade h1 h2 h3
  refine ⟨ha.length, fun pl hpl => ?_⟩
  obtain ⟨t, ht⟩ := List.getElem?_of_mem hpl
  have hlt : t < xs.sent.length := by rw [ha.sync_length, ← ha.length]; exact (List.getElem?_eq_some_iff.1 ht).1
  obtain ⟨e1, e2⟩ := ha.head ht (List.getElem?_eq_getElem hlt)
  have hpay := C74_payloads (u := setup w p) (R := reader w p pipe) hp.resource (acts := syncActs acts) (by
      unfold Pipeline.Typed
      rw [Whole.calls_sync]
      exact hp.typed) h1
  have hq : t < (Pipeline.exports (syncActs acts)).length := by rw [hpay.1]; exact hlt
  refine ⟨?_, ?_⟩
  · rw [e1]
    exact (hpay.2 t _ _ (List.getElem?_eq_getElem hq) (List.getElem?_eq_getElem hlt)).1
  · rw [e2]
    unfold reader
    dsimp only
    rw [List.map_map]
    have : ∀ (l : List (Provider.Meter C ν)) (i : Nat), (l.zipIdx i).map ((fun s : Library × List Pipeline.Out => s.1) ∘ fun e => (libOf e.1.scope, outsOf e.2 pipe e.1)) =
        l.map (fun m => sentScope m.scope) := by
      intro l
      induction l with
      | nil => intro _; rfl
      | cons m l ih => intro i; rw [List.zipIdx_cons, List.map_cons, List.map_cons, ih]; rfl
    exact this p.ordered 0

/-- C92 (synchronous instruments). A program is, for its synchronous instruments, like one without observable instruments: the same calls, collections and exports make a
program in the sense of C89 and C91, and in every payload the metrics of these instruments are the same, whatever callbacks observe. -/
theorem C92_sync (hmade : p = Provider.run x (Provider.new views) cs) (hp : Ending farm w fsub p pipe acts coll s s') :
    ∃ xs xs' : Pipeline.Sys G, Program farm w p pipe (syncActs acts) (syncActs coll) xs xs' ∧ xs'.sent.length = s'.sent.length ∧
      ∀ {k v sc n L}, Viewed x views cs p pipe k v sc n L → L.sync = true →
        ∀ {t : Nat} {pl ps}, s'.sent[t]? = some pl → xs'.sent[t]? = some ps → metricsIn (sentScope sc) n pl = metricsIn (sentScope sc) n ps := by
  obtain ⟨xs', xa, h1, h2, h3⟩ := hp.running.split
  have ha := hp.running.apart hmade h1 h2 h3
  obtain ⟨xs, hprog⟩ := hp.program h1
  refine ⟨xs, xs', hprog, ha.sync_length.trans ha.length.symm, ?_⟩
  intro k v sc n L hv hsy t pl ps e1 e2
  obtain ⟨o, ho, hos⟩ := Whole.viewed_only w hv
  exact ha.sync e1 e2 ho (hos.trans hsy)

/-- C92 (observable instruments). A program is, for its observable instruments, like one without synchronous instruments: the same callbacks and collections make a
program in the sense of C90 and C91, in which the same observations count, and in every payload the metrics of these instruments are the same, whatever is recorded. -/
theorem C92_async (hmade : p = Provider.run x (Provider.new views) cs) (hp : Running farm w fsub p pipe acts s) :
    ∃ xa : AsyncPipeline.Sys, Observing w fsub p pipe (asyncActs acts) xa ∧ seenIn xa = Whole.seenIn s ∧ xa.sent.length = s.sent.length ∧
      ∀ {k v sc n L}, Viewed x views cs p pipe k v sc n L → L.sync = false →
        ∀ {t : Nat} {pl pa}, s.sent[t]? = some pl → xa.sent[t]? = some pa → metricsIn (sentScope sc) n pl = metricsIn (sentScope sc) n pa := by
  obtain ⟨xs, xa, h1, h2, h3⟩ := hp.split
  have ha := hp.apart hmade h1 h2 h3
  refine ⟨xa, h2, ?_, ha.async_length.trans ha.length.symm, ?_⟩
  · unfold seenIn Whole.seenIn
    rw [h3.a]
  · intro k v sc n L hv hsy t pl pa e1 e2
    obtain ⟨o, ho, hos⟩ := Whole.viewed_only w hv
    exact ha.async e1 e2 ho (hos.trans hsy)

omit [DecidableEq C] in
/-- C92 (no callbacks). Programs in the sense of C89 and C91 are such programs, in which nothing is observed. -/
theorem C92_alone {acts coll : List Pipeline.Act} {xs xs' : Pipeline.Sys G} (h : Program farm w p pipe acts coll xs xs')
    (hr : Pipeline.run (Front.realCfg farm (setup w p)) (reader w p pipe) xs coll = some xs') :
    ∃ s s', Ending farm w fsub p pipe (acts.map Whole.alone) (coll.map Whole.alone) s s' ∧ Whole.seenIn s' = [] ∧ syncActs (acts.map Whole.alone) = acts ∧
      ∀ {k v sc n}, OneByOneVia farm w p pipe k v sc n acts → Whole.OneByOne farm w fsub p pipe k v sc n (acts.map Whole.alone) := by
  obtain ⟨s, s', h1, h2⟩ := Whole.Program.ending (fsub := fsub) h hr
  exact ⟨s, s', h1, h2, Whole.sync_alone acts, fun ho => Whole.OneByOne.alone ho h.before⟩

/-- The points sent of a synchronous instrument. -/
theorem sync_points (h : Viewed x views cs p pipe k v sc n L) (hsy : L.sync = true) (hp : Ending farm w fsub p pipe acts coll s s') :
    ∃ xs xs' : Pipeline.Sys G, Program farm w p pipe (syncActs acts) (syncActs coll) xs xs' ∧
      ∀ {D : Type} (get : PData → List D), sentPoints get (sentScope sc) n s'.sent = sentPoints get (sentScope sc) n xs'.sent := by
  obtain ⟨xs, xs', h1, h2, h3⟩ := C92_sync h.made hp
  exact ⟨xs, xs', h1, fun get => Whole.sent_same get _ _ h2.symm (h3 h hsy)⟩

/-! ### Units and kinds -/

/-- C92 (unit and kind). In every payload sent, a metric of the scope with the name has the unit, kind and temporality of the look. -/
theorem C92_metric (h : Viewed x views cs p pipe k v sc n L) (hp : Running farm w fsub p pipe acts s) (pl : Payload) (hpl : pl ∈ s.sent) (e : PScope) (he : e ∈ pl.scopes)
    (hl : e.library = sentScope sc) (m : PMetric) (hm : m ∈ e.metrics) (hn : m.name = n) :
    m.unit = L.unit ∧ DataFor L.kind (if L.delta = true then .delta else .cumulative) m.data := by
  obtain ⟨xs, xa, h1, h2, h3⟩ := hp.split
  have ha := hp.apart h.made h1 h2 h3
  obtain ⟨o, ho, hos⟩ := Whole.viewed_only w h
  obtain ⟨t, ht⟩ := List.getElem?_of_mem hpl
  have hlt := (List.getElem?_eq_some_iff.1 ht).1
  have hmem : m ∈ metricsIn (sentScope sc) n pl :=
    List.mem_flatMap.2 ⟨e, List.mem_filter.2 ⟨he, decide_eq_true hl⟩, List.mem_filter.2 ⟨hm, decide_eq_true hn⟩⟩
  have back : ∀ {pl' : Payload}, m ∈ metricsIn (sentScope sc) n pl' → ∃ e' ∈ pl'.scopes, e'.library = sentScope sc ∧ m ∈ e'.metrics := by
    intro pl' hm'
    obtain ⟨e', a1, a2⟩ := List.mem_flatMap.1 hm'
    obtain ⟨b1, b2⟩ := List.mem_filter.1 a1
    exact ⟨e', b1, of_decide_eq_true b2, (List.mem_filter.1 a2).1⟩
  cases hsy : L.sync with
  | true =>
    have hlt' : t < xs.sent.length := by rw [ha.sync_length, ← ha.length]; exact hlt
    have hps := List.getElem?_eq_getElem hlt'
    rw [ha.sync ht hps ho (hos.trans hsy)] at hmem
    obtain ⟨e', b1, b2, b3⟩ := back hmem
    exact C91_metric h hsy h1 _ (List.getElem_mem hlt') e' b1 b2 m b3 hn
  | false =>
    have hlt' : t < xa.sent.length := by rw [ha.async_length, ← ha.length]; exact hlt
    have hps := List.getElem?_eq_getElem hlt'
    rw [ha.async ht hps ho (hos.trans hsy)] at hmem
    obtain ⟨e', b1, b2, b3⟩ := back hmem
    have hq : t < (AsyncPipeline.collections (asyncActs acts)).length := by rw [Whole.collections_async, ← ha.length]; exact hlt
    obtain ⟨c1, c2, -⟩ := C91_async_metric h hsy h2 (List.getElem?_eq_getElem hq) hps e' b1 b2 m b3 hn
    exact ⟨c1, c2⟩

/-! ### Sums of integers -/

/-- C92 (integer sums, cumulative). For all attributes `m` which remain, after the selection of keys, of those with which something was recorded: the last point sent
with the attributes `m` is the sum of all integers recorded with attributes of which `m` remain, on all instruments shown under the name. -/
theorem C92_sum_last (h : Viewed x views cs p pipe k v sc n L) (hsy : L.sync = true) (hp : Ending farm w fsub p pipe acts coll s s') (hn : L.num = .int64)
    (ha : L.kind = .monoSum ∨ L.kind = .nonMonoSum) (ht : L.delta = false)
    (hic : w.ignoreColl = false) (hf : FewVia w p k v sc n L.keys L.acfg.limit (syncActs acts))
    (hne : ∀ e ∈ Whole.calls acts, NoEmptyList (e.1.attrs e.2.1)) (m : PMap)
    (hrec : recordedVia p k v sc n (fun as => Describes L.keys as m) (syncActs acts) ≠ []) :
    ((sentPoints numbers (sentScope sc) n s'.sent).filter (fun d => d.attrs = m)).getLast?.map (·.value) =
      some (.int (total64 (recordedVia p k v sc n (fun as => Describes L.keys as m) (syncActs acts)))) := by
  obtain ⟨xs, xs', hprog, hsent⟩ := sync_points h hsy hp
  rw [hsent]
  exact C91_sum_last h hsy hprog hn ha ht hic hf (by rw [Whole.calls_sync]; exact hne) m hrec

/-- C92 (integer sums, delta). The integers sent in points with exactly the attributes `m` add up to the integers recorded with attributes of
which `m` remain. -/
theorem C92_sum_sent (h : Viewed x views cs p pipe k v sc n L) (hsy : L.sync = true) (hp : Ending farm w fsub p pipe acts coll s s') (hn : L.num = .int64)
    (ha : L.kind = .monoSum ∨ L.kind = .nonMonoSum) (ht : L.delta = true)
    (hic : w.ignoreColl = false) (hf : FewVia w p k v sc n L.keys L.acfg.limit (syncActs acts)) (m : PMap) :
    total64 (ints ((sentPoints numbers (sentScope sc) n s'.sent).filter (fun d => d.attrs = m))) =
      total64 (recordedVia p k v sc n (fun as => Describes L.keys as m) (syncActs acts)) := by
  obtain ⟨xs, xs', hprog, hsent⟩ := sync_points h hsy hp
  rw [hsent]
  exact C91_sum_sent h hsy hprog hn ha ht hic hf m

/-- C92 (integer sums, delta, total). Whatever the attributes and limits, the integers sent add up to the integers recorded. -/
theorem C92_sum_total (h : Viewed x views cs p pipe k v sc n L) (hsy : L.sync = true) (hp : Ending farm w fsub p pipe acts coll s s') (hn : L.num = .int64)
    (ha : L.kind = .monoSum ∨ L.kind = .nonMonoSum) (ht : L.delta = true) :
    total64 (ints (sentPoints numbers (sentScope sc) n s'.sent)) = total64 (recordedVia p k v sc n (fun _ => True) (syncActs acts)) := by
  obtain ⟨xs, xs', hprog, hsent⟩ := sync_points h hsy hp
  rw [hsent]
  exact C91_sum_total h hsy hprog hn ha ht

/-! ### Sums of floats -/

/-- C92 (float sums, cumulative). The last point sent with the attributes `m` is the result of adding up, in some order, all floats recorded
with attributes of which `m` remain. -/
theorem C92_float_last (h : Viewed x views cs p pipe k v sc n L) (hsy : L.sync = true) (hp : Ending farm w fsub p pipe acts coll s s') (hn : L.num = .float64)
    (ha : L.kind = .monoSum ∨ L.kind = .nonMonoSum) (ht : L.delta = false)
    (hic : w.ignoreColl = false) (hf : FewVia w p k v sc n L.keys L.acfg.limit (syncActs acts))
    (hne : ∀ e ∈ Whole.calls acts, NoEmptyList (e.1.attrs e.2.1)) (m : PMap)
    (hrec : recordedVia p k v sc n (fun as => Describes L.keys as m) (syncActs acts) ≠ []) :
    ∃ b vals, ((sentPoints numbers (sentScope sc) n s'.sent).filter (fun d => d.attrs = m)).getLast?.map (·.value) = some (.double b) ∧
      vals.Perm (recordedVia p k v sc n (fun as => Describes L.keys as m) (syncActs acts)) ∧ SumOf 0 w.fadd b vals := by
  obtain ⟨xs, xs', hprog, hsent⟩ := sync_points h hsy hp
  rw [hsent]
  exact C91_float_last h hsy hprog hn ha ht hic hf (by rw [Whole.calls_sync]; exact hne) m hrec

/-- C92 (float sums, delta). The floats recorded with attributes of which `m` remain are divided into groups; the points sent with the attributes `m` are the
sums, in some order, of the groups, except for groups whose sum is zero, which are not sent. -/
theorem C92_float_sent (h : Viewed x views cs p pipe k v sc n L) (hsy : L.sync = true) (hp : Ending farm w fsub p pipe acts coll s s') (hn : L.num = .float64)
    (ha : L.kind = .monoSum ∨ L.kind = .nonMonoSum) (ht : L.delta = true)
    (hic : w.ignoreColl = false) (hf : FewVia w p k v sc n L.keys L.acfg.limit (syncActs acts)) (m : PMap) :
    ∃ gs zs : List (List Bits), (gs ++ zs).flatten.Perm (recordedVia p k v sc n (fun as => Describes L.keys as m) (syncActs acts)) ∧
      Pointwise (fun g d => ∃ b, SumOf 0 w.fadd b g ∧ d.value = .double b ∧ scaled b ≠ 0) gs
        ((sentPoints numbers (sentScope sc) n s'.sent).filter (fun d => d.attrs = m)) ∧
      ∀ g ∈ zs, ∃ b, SumOf 0 w.fadd b g ∧ scaled b = 0 := by
  obtain ⟨xs, xs', hprog, hsent⟩ := sync_points h hsy hp
  rw [hsent]
  exact C91_float_sent h hsy hprog hn ha ht hic hf m

/-! ### Gauges -/

/-- C92 (gauges, cumulative). When calls on the instruments shown under the name do not overlap: the last point sent with the attributes `m` carries the value of
the last call with attributes of which `m` remain. -/
theorem C92_gauge_last (h : Viewed x views cs p pipe k v sc n L) (hsy : L.sync = true) (hp : Ending farm w fsub p pipe acts coll s s')
    (ha : L.kind = .gauge) (ht : L.delta = false) (hq : Whole.OneByOne farm w fsub p pipe k v sc n acts)
    (hic : w.ignoreColl = false) (hf : FewVia w p k v sc n L.keys L.acfg.limit (syncActs acts))
    (hne : ∀ e ∈ Whole.calls acts, NoEmptyList (e.1.attrs e.2.1)) (m : PMap)
    (hrec : recordedVia p k v sc n (fun as => Describes L.keys as m) (syncActs acts) ≠ []) :
    ∃ d b, ((sentPoints numbers (sentScope sc) n s'.sent).filter (fun d => d.attrs = m)).getLast? = some d ∧
      (recordedVia p k v sc n (fun as => Describes L.keys as m) (syncActs acts)).getLast? = some b ∧ NumOf L.num b d.value := by
  obtain ⟨xs, xs', hprog, hsent⟩ := sync_points h hsy hp
  rw [hsent]
  exact C91_gauge_last h hsy hprog ha ht (hq.sync hp.before) hic hf (by rw [Whole.calls_sync]; exact hne) m hrec

/-- C92 (gauges, delta). When calls on the instruments shown under the name do not overlap: the values recorded with attributes of which `m` remain are divided into
groups, each in the order of the calls, one for each point sent with the attributes `m`; the point carries the last value of its group. (The last point need not
have the last value of all: see `C88_gauge_delta_last_fails`.) -/
theorem C92_gauge_sent (h : Viewed x views cs p pipe k v sc n L) (hsy : L.sync = true) (hp : Ending farm w fsub p pipe acts coll s s')
    (ha : L.kind = .gauge) (ht : L.delta = true) (hq : Whole.OneByOne farm w fsub p pipe k v sc n acts)
    (hic : w.ignoreColl = false) (hf : FewVia w p k v sc n L.keys L.acfg.limit (syncActs acts)) (m : PMap) :
    ∃ gs : List (List Bits), gs.flatten.Perm (recordedVia p k v sc n (fun as => Describes L.keys as m) (syncActs acts)) ∧
      (∀ g ∈ gs, g.Sublist (recordedVia p k v sc n (fun as => Describes L.keys as m) (syncActs acts))) ∧
      Pointwise (fun g d => ∃ b, g.getLast? = some b ∧ NumOf L.num b d.value) gs
        ((sentPoints numbers (sentScope sc) n s'.sent).filter (fun d => d.attrs = m)) := by
  obtain ⟨xs, xs', hprog, hsent⟩ := sync_points h hsy hp
  rw [hsent]
  exact C91_gauge_sent h hsy hprog ha ht (hq.sync hp.before) hic hf m

/-! ### Histograms -/

/-- C92 (histograms, cumulative). The last point sent with the attributes `m` has the content of an exponential histogram, with the configuration of the look,
made of exactly the values recorded with attributes of which `m` remain. -/
theorem C92_hist_last (h : Viewed x views cs p pipe k v sc n L) (hsy : L.sync = true) (hp : Ending farm w fsub p pipe acts coll s s')
    (ha : L.kind = .histogram) (ht : L.delta = false)
    (hic : w.ignoreColl = false) (hf : FewVia w p k v sc n L.keys L.acfg.limit (syncActs acts))
    (hne : ∀ e ∈ Whole.calls acts, NoEmptyList (e.1.attrs e.2.1)) (m : PMap)
    (hrec : recordedVia p k v sc n (fun as => Describes L.keys as m) (syncActs acts) ≠ []) :
    ∃ d vals, ((sentPoints expPoints (sentScope sc) n s'.sent).filter (fun d => d.attrs = m)).getLast? = some d ∧
      vals.Perm (recordedVia p k v sc n (fun as => Describes L.keys as m) (syncActs acts)) ∧
      ShowsHist (reader w p pipe) (w.hist L.num L.acfg.hist) L.num vals d := by
  obtain ⟨xs, xs', hprog, hsent⟩ := sync_points h hsy hp
  rw [hsent]
  exact C91_hist_last h hsy hprog ha ht hic hf (by rw [Whole.calls_sync]; exact hne) m hrec

/-- C92 (histograms, delta). The values recorded with attributes of which `m` remain are divided into groups, one for each point sent with the attributes `m`, which has the content
of an exponential histogram made of exactly its group. -/
theorem C92_hist_sent (h : Viewed x views cs p pipe k v sc n L) (hsy : L.sync = true) (hp : Ending farm w fsub p pipe acts coll s s')
    (ha : L.kind = .histogram) (ht : L.delta = true)
    (hl : Counts (w.hist L.num L.acfg.hist))
    (hic : w.ignoreColl = false) (hf : FewVia w p k v sc n L.keys L.acfg.limit (syncActs acts)) (m : PMap) :
    Grouped (ShowsHist (reader w p pipe) (w.hist L.num L.acfg.hist) L.num)
      (recordedVia p k v sc n (fun as => Describes L.keys as m) (syncActs acts)) ((sentPoints expPoints (sentScope sc) n s'.sent).filter (fun d => d.attrs = m)) := by
  obtain ⟨xs, xs', hprog, hsent⟩ := sync_points h hsy hp
  rw [hsent]
  exact C91_hist_sent h hsy hprog ha ht hl hic hf m

/-! ### Minimum, maximum, sum and count -/

/-- C92 (min/max/sum/count of floats, cumulative). The last point sent with the attributes `m` shows these of exactly the values recorded with attributes of which
`m` remain. -/
theorem C92_mmsc_last (h : Viewed x views cs p pipe k v sc n L) (hsy : L.sync = true) (hp : Ending farm w fsub p pipe acts coll s s') (hn : L.num = .float64)
    (ha : L.kind = .mmsc) (ht : L.delta = false)
    (hic : w.ignoreColl = false) (hf : FewVia w p k v sc n L.keys L.acfg.limit (syncActs acts))
    (hne : ∀ e ∈ Whole.calls acts, NoEmptyList (e.1.attrs e.2.1)) (m : PMap)
    (hrec : recordedVia p k v sc n (fun as => Describes L.keys as m) (syncActs acts) ≠ []) :
    ∃ d vals, ((sentPoints histPoints (sentScope sc) n s'.sent).filter (fun d => d.attrs = m)).getLast? = some d ∧
      vals.Perm (recordedVia p k v sc n (fun as => Describes L.keys as m) (syncActs acts)) ∧ ShowsStats w.fadd vals d := by
  obtain ⟨xs, xs', hprog, hsent⟩ := sync_points h hsy hp
  rw [hsent]
  exact C91_mmsc_last h hsy hprog hn ha ht hic hf (by rw [Whole.calls_sync]; exact hne) m hrec

/-- C92 (min/max/sum/count of floats, delta). The floats recorded with attributes of which `m` remain are divided into groups, one for each point sent with the
attributes `m`, which shows these of exactly its group. -/
theorem C92_mmsc_sent (h : Viewed x views cs p pipe k v sc n L) (hsy : L.sync = true) (hp : Ending farm w fsub p pipe acts coll s s') (hn : L.num = .float64)
    (ha : L.kind = .mmsc) (ht : L.delta = true)
    (hic : w.ignoreColl = false) (hf : FewVia w p k v sc n L.keys L.acfg.limit (syncActs acts)) (m : PMap) :
    Grouped (ShowsStats w.fadd) (recordedVia p k v sc n (fun as => Describes L.keys as m) (syncActs acts))
      ((sentPoints histPoints (sentScope sc) n s'.sent).filter (fun d => d.attrs = m)) := by
  obtain ⟨xs, xs', hprog, hsent⟩ := sync_points h hsy hp
  rw [hsent]
  exact C91_mmsc_sent h hsy hprog hn ha ht hic hf m

/-- C92 (min/max/sum/count of integers, cumulative). The last point sent with the attributes `m` shows sum and count of exactly the integers recorded with attributes of which
`m` remain. -/
theorem C92_mmsc_int_last (h : Viewed x views cs p pipe k v sc n L) (hsy : L.sync = true) (hp : Ending farm w fsub p pipe acts coll s s') (hn : L.num = .int64)
    (ha : L.kind = .mmsc) (ht : L.delta = false)
    (hic : w.ignoreColl = false) (hf : FewVia w p k v sc n L.keys L.acfg.limit (syncActs acts))
    (hne : ∀ e ∈ Whole.calls acts, NoEmptyList (e.1.attrs e.2.1)) (m : PMap)
    (hrec : recordedVia p k v sc n (fun as => Describes L.keys as m) (syncActs acts) ≠ []) :
    ∃ d vals, ((sentPoints histPoints (sentScope sc) n s'.sent).filter (fun d => d.attrs = m)).getLast? = some d ∧
      vals.Perm (recordedVia p k v sc n (fun as => Describes L.keys as m) (syncActs acts)) ∧ ShowsIntStats vals d := by
  obtain ⟨xs, xs', hprog, hsent⟩ := sync_points h hsy hp
  rw [hsent]
  exact C91_mmsc_int_last h hsy hprog hn ha ht hic hf (by rw [Whole.calls_sync]; exact hne) m hrec

/-- C92 (min/max/sum/count of integers, delta). The integers recorded with attributes of which `m` remain are divided into groups, one for each point sent with the
attributes `m`, which shows sum and count of exactly its group. -/
theorem C92_mmsc_int_sent (h : Viewed x views cs p pipe k v sc n L) (hsy : L.sync = true) (hp : Ending farm w fsub p pipe acts coll s s') (hn : L.num = .int64)
    (ha : L.kind = .mmsc) (ht : L.delta = true)
    (hic : w.ignoreColl = false) (hf : FewVia w p k v sc n L.keys L.acfg.limit (syncActs acts)) (m : PMap) :
    Grouped ShowsIntStats (recordedVia p k v sc n (fun as => Describes L.keys as m) (syncActs acts))
      ((sentPoints histPoints (sentScope sc) n s'.sent).filter (fun d => d.attrs = m)) := by
  obtain ⟨xs, xs', hprog, hsent⟩ := sync_points h hsy hp
  rw [hsent]
  exact C91_mmsc_int_sent h hsy hprog hn ha ht hic hf m

/-! ### Nothing else -/

/-- C92 (nothing else is sent, numbers). Every number point sent under the name shows what remains of attributes with which something was
recorded. -/
theorem C92_known (h : Viewed x views cs p pipe k v sc n L) (hsy : L.sync = true) (hp : Ending farm w fsub p pipe acts coll s s')
    (ha : L.kind = .monoSum ∨ L.kind = .nonMonoSum ∨ L.kind = .gauge)
    (hf : FewVia w p k v sc n L.keys L.acfg.limit (syncActs acts)) (d : PNumber) (hd : d ∈ sentPoints numbers (sentScope sc) n s'.sent) :
    recordedVia p k v sc n (fun as => Describes L.keys as d.attrs) (syncActs acts) ≠ [] := by
  obtain ⟨xs, xs', hprog, hsent⟩ := sync_points h hsy hp
  exact C91_known h hsy hprog ha hf d (by rw [← hsent]; exact hd)

/-- C92 (nothing else is sent, histograms). -/
theorem C92_hist_known (h : Viewed x views cs p pipe k v sc n L) (hsy : L.sync = true) (hp : Ending farm w fsub p pipe acts coll s s')
    (ha : L.kind = .histogram)
    (hf : FewVia w p k v sc n L.keys L.acfg.limit (syncActs acts)) (d : PExp) (hd : d ∈ sentPoints expPoints (sentScope sc) n s'.sent) :
    recordedVia p k v sc n (fun as => Describes L.keys as d.attrs) (syncActs acts) ≠ [] := by
  obtain ⟨xs, xs', hprog, hsent⟩ := sync_points h hsy hp
  exact C91_hist_known h hsy hprog ha hf d (by rw [← hsent]; exact hd)

/-- C92 (nothing else is sent, min/max/sum/count). -/
theorem C92_mmsc_known (h : Viewed x views cs p pipe k v sc n L) (hsy : L.sync = true) (hp : Ending farm w fsub p pipe acts coll s s')
    (ha : L.kind = .mmsc)
    (hf : FewVia w p k v sc n L.keys L.acfg.limit (syncActs acts)) (d : PHist) (hd : d ∈ sentPoints histPoints (sentScope sc) n s'.sent) :
    recordedVia p k v sc n (fun as => Describes L.keys as d.attrs) (syncActs acts) ≠ [] := by
  obtain ⟨xs, xs', hprog, hsent⟩ := sync_points h hsy hp
  exact C91_mmsc_known h hsy hprog ha hf d (by rw [← hsent]; exact hd)

/-! ### Observable instruments -/

/-- The points sent of an observable instrument. -/
theorem async_points (h : Viewed x views cs p pipe k v sc n L) (hasy : L.sync = false) (hp : Running farm w fsub p pipe acts s) :
    ∃ xa : AsyncPipeline.Sys, Observing w fsub p pipe (asyncActs acts) xa ∧ seenIn xa = Whole.seenIn s ∧
      (∀ (t : Nat) (pa : Payload), xa.sent[t]? = some pa → ∃ pl, s.sent[t]? = some pl ∧
        ∀ {D : Type} (get : PData → List D), pointsIn get (sentScope sc) n pl = pointsIn get (sentScope sc) n pa) ∧
      ∀ {D : Type} (get : PData → List D), sentPoints get (sentScope sc) n s.sent = sentPoints get (sentScope sc) n xa.sent := by
  obtain ⟨xa, h1, h2, h3, h4⟩ := C92_async h.made hp
  refine ⟨xa, h1, h2, fun t pa ht => ?_, fun get => Whole.sent_same get _ _ h3.symm (h4 h hasy)⟩
  have hlt : t < s.sent.length := by rw [← h3]; exact (List.getElem?_eq_some_iff.1 ht).1
  refine ⟨_, List.getElem?_eq_getElem hlt, fun get => ?_⟩
  rw [Whole.points_metrics, Whole.points_metrics, h4 h hasy (List.getElem?_eq_getElem hlt) ht]

/-- C92 (observable instruments, cumulative sums and gauges). For every collection in which the observed sets fit: the payload has exactly one point for each
attribute set which remains, after the selection of keys, of an observation of this collection by an instrument shown under the name, with exactly these
attributes, and its value is made of the last values observed. -/
theorem C92_async_cumulative (h : Viewed x views cs p pipe k v sc n L) (hasy : L.sync = false) (hp : Running farm w fsub p pipe acts s) (hone : ShownOnce p k v sc n)
    (ht : L.delta = false ∨ L.kind = .gauge) {t : Nat} (htl : t < (Whole.collections acts).length)
    (hf : FewSets (Feeds p k v sc n) L.keys L.acfg.limit (Whole.seenIn s) t) :
    ∃ pl, s.sent[t]? = some pl ∧ ∃ as : List (List KV), as.Nodup ∧ (∀ a, a ∈ as ↔ Shows (Feeds p k v sc n) L.keys (Whole.seenIn s) t a) ∧
      Pointwise (fun a d => AttrsOf a d.attrs ∧ ∃ y, Amount w (Feeds p k v sc n) L.keys L.kind L.num (Whole.seenIn s) t a y ∧ NumOf L.num y d.value) as
        (pointsIn numbers (sentScope sc) n pl) := by
  obtain ⟨xa, hob, hseen, hat, hsent⟩ := async_points h hasy hp
  obtain ⟨pa, e1, e2⟩ := C91_async_cumulative h hasy hob hone ht (by rw [Whole.collections_async]; exact htl) (by rw [hseen]; exact hf)
  obtain ⟨pl, e3, e4⟩ := hat t pa e1
  refine ⟨pl, e3, ?_⟩
  rw [e4, ← hseen]
  exact e2

/-- C92 (observable instruments, integer delta sums). When the sets of all collections fit: the payload of every collection has exactly one point for each
attribute set shown for an observation of this collection whose value changed since the collection before or which was not observed in that one; its value is the
difference, or the whole value. -/
theorem C92_async_delta (h : Viewed x views cs p pipe k v sc n L) (hasy : L.sync = false) (hp : Running farm w fsub p pipe acts s) (hone : ShownOnce p k v sc n) (hn : L.num = .int64)
    (ht : L.delta = true) (hg : L.kind ≠ .gauge)
    (hf : ∀ t, t < (Whole.collections acts).length → FewSets (Feeds p k v sc n) L.keys L.acfg.limit (Whole.seenIn s) t)
    (hov : ∀ e ∈ Whole.seenIn s, Feeds p k v sc n e.2.1 → shown L.keys e.2.2.1 ≠ overflowSet) {t : Nat} (htl : t < (Whole.collections acts).length) :
    ∃ pl, s.sent[t]? = some pl ∧ ∃ as : List (List KV), as.Nodup ∧
      (∀ a, a ∈ as ↔ ∃ y, Amount w (Feeds p k v sc n) L.keys L.kind .int64 (Whole.seenIn s) t a y ∧
        ¬ AmountBefore w (Feeds p k v sc n) L.keys L.kind .int64 (Whole.seenIn s) t a y) ∧
      Pointwise (fun a d => AttrsOf a d.attrs ∧ ∃ y, Amount w (Feeds p k v sc n) L.keys L.kind .int64 (Whole.seenIn s) t a y ∧
        ((∃ b, AmountBefore w (Feeds p k v sc n) L.keys L.kind .int64 (Whole.seenIn s) t a b ∧ d.value = .int (y - b)) ∨
          ((∀ b, ¬ AmountBefore w (Feeds p k v sc n) L.keys L.kind .int64 (Whole.seenIn s) t a b) ∧ d.value = .int y)))
        as (pointsIn numbers (sentScope sc) n pl) := by
  obtain ⟨xa, hob, hseen, hat, hsent⟩ := async_points h hasy hp
  obtain ⟨pa, e1, e2⟩ := C91_async_delta h hasy hob hone hn ht hg (by rw [hseen, Whole.collections_async]; exact hf) (by rw [hseen]; exact hov) (by rw [Whole.collections_async]; exact htl)
  obtain ⟨pl, e3, e4⟩ := hat t pa e1
  refine ⟨pl, e3, ?_⟩
  rw [e4, ← hseen]
  exact e2

/-- C92 (observable instruments, float delta sums). When the sets of all collections fit: each point of the payload is for an attribute set shown for an
observation of this collection; its value is the float difference of its cumulative value and the one in the collection before, and is not zero, or its whole value
when it was not observed in that one; an attribute set shown without a point has a zero difference. -/
theorem C92_async_delta_float (h : Viewed x views cs p pipe k v sc n L) (hasy : L.sync = false) (hp : Running farm w fsub p pipe acts s) (hone : ShownOnce p k v sc n) (hn : L.num = .float64)
    (ht : L.delta = true) (hg : L.kind ≠ .gauge)
    (hf : ∀ t, t < (Whole.collections acts).length → FewSets (Feeds p k v sc n) L.keys L.acfg.limit (Whole.seenIn s) t)
    (hov : ∀ e ∈ Whole.seenIn s, Feeds p k v sc n e.2.1 → shown L.keys e.2.2.1 ≠ overflowSet) {t : Nat} (htl : t < (Whole.collections acts).length) :
    ∃ pl, s.sent[t]? = some pl ∧ ∃ as : List (List KV), as.Nodup ∧ (∀ a ∈ as, Shows (Feeds p k v sc n) L.keys (Whole.seenIn s) t a) ∧
      (∀ a, Shows (Feeds p k v sc n) L.keys (Whole.seenIn s) t a → a ∉ as → ∃ y b, Amount w (Feeds p k v sc n) L.keys L.kind .float64 (Whole.seenIn s) t a y ∧
        AmountBefore w (Feeds p k v sc n) L.keys L.kind .float64 (Whole.seenIn s) t a b ∧ FloatZero (fsub y b)) ∧
      Pointwise (fun a d => AttrsOf a d.attrs ∧ ∃ y, Amount w (Feeds p k v sc n) L.keys L.kind .float64 (Whole.seenIn s) t a y ∧
        ((∃ b, AmountBefore w (Feeds p k v sc n) L.keys L.kind .float64 (Whole.seenIn s) t a b ∧ ¬ FloatZero (fsub y b) ∧ d.value = .double (fsub y b)) ∨
          ((∀ b, ¬ AmountBefore w (Feeds p k v sc n) L.keys L.kind .float64 (Whole.seenIn s) t a b) ∧ d.value = .double y)))
        as (pointsIn numbers (sentScope sc) n pl) := by
  obtain ⟨xa, hob, hseen, hat, hsent⟩ := async_points h hasy hp
  obtain ⟨pa, e1, e2⟩ := C91_async_delta_float h hasy hob hone hn ht hg (by rw [hseen, Whole.collections_async]; exact hf) (by rw [hseen]; exact hov) (by rw [Whole.collections_async]; exact htl)
  obtain ⟨pl, e3, e4⟩ := hat t pa e1
  refine ⟨pl, e3, ?_⟩
  rw [e4, ← hseen]
  exact e2

/-- C92 (observable instruments, integer delta totals). If moreover something shown as `a` was observed in every collection since the first such one, all
values sent with the attributes `a` add up to their last cumulative value. -/
theorem C92_async_delta_total (h : Viewed x views cs p pipe k v sc n L) (hasy : L.sync = false) (hp : Running farm w fsub p pipe acts s) (hone : ShownOnce p k v sc n) (hn : L.num = .int64)
    (ht : L.delta = true) (hg : L.kind ≠ .gauge)
    (hf : ∀ t, t < (Whole.collections acts).length → FewSets (Feeds p k v sc n) L.keys L.acfg.limit (Whole.seenIn s) t)
    (hov : ∀ e ∈ Whole.seenIn s, Feeds p k v sc n e.2.1 → shown L.keys e.2.2.1 ≠ overflowSet) {a : List KV} (hne : NoEmptyList a) {first last : Nat}
    (hlast : (Whole.collections acts).length = last + 1) (hle : first ≤ last) (hno : ∀ t, t < first → ¬ Shows (Feeds p k v sc n) L.keys (Whole.seenIn s) t a)
    (hobs : ∀ t, first ≤ t → t ≤ last → Shows (Feeds p k v sc n) L.keys (Whole.seenIn s) t a) {y : Bits}
    (hy : Amount w (Feeds p k v sc n) L.keys L.kind .int64 (Whole.seenIn s) last a y) :
    Spec.total64 (ints ((sentPoints numbers (sentScope sc) n s.sent).filter (fun d => @decide (AttrsOf a d.attrs) (Classical.propDecidable _)))) = y := by
  obtain ⟨xa, hob, hseen, hat, hsent⟩ := async_points h hasy hp
  rw [hsent]
  exact C91_async_delta_total h hasy hob hone hn ht hg (by rw [hseen, Whole.collections_async]; exact hf) (by rw [hseen]; exact hov) hne (by rw [Whole.collections_async]; exact hlast) hle (by rw [hseen]; exact hno) (by rw [hseen]; exact hobs) (by rw [hseen]; exact hy)

/-! ### A concrete program -/

section Examples
open Verif.Examples Verif.Examples.Asm
open Verif.Examples.AsmV (fedBy fedBy_spec kab noNaN sameSeries_refl)
open Verif.Views (lit Tempo)

theorem c92_few (t : Tempo) : FewVia Asm.w (Wh.p t) 0 (Wh.v t) scA (lit "n") (Wh.lookN t).keys (Wh.lookN t).acfg.limit (syncActs (Wh.acts t)) := by
  refine ⟨fun _ => [kab, ka, kb], [kab, ka, kb], fun _ _ => (by decide : 3 < 4), (by decide : 3 < 4), ?_, fun id _ b hb => ⟨noNaN b hb, b, hb, sameSeries_refl _ _⟩⟩
  intro e he _
  rw [Whole.calls_sync, Wh.calls_acts] at he
  have : ∀ e ∈ Wh.called, e.1.attrs e.2.1 ∈ [kab, ka, kb] := by decide
  exact this e he

theorem c92_noEmpty (t : Tempo) : ∀ e ∈ Whole.calls (Wh.acts t), NoEmptyList (e.1.attrs e.2.1) := by
  intro e he kv hkv
  rw [Wh.calls_acts] at he
  have h : ∀ e ∈ Wh.called,
      (e.1.attrs e.2.1).all (fun kv => decide (kv.val ≠ .bools [] ∧ kv.val ≠ .ints [] ∧ kv.val ≠ .floats [] ∧ kv.val ≠ .strs [])) = true := by
    decide
  exact of_decide_eq_true (List.all_eq_true.1 (h e he) kv hkv)

theorem c92_once {t : Tempo} (h : fedBy (Wh.p t) 0 (Wh.v t) scA (lit "y") [(2, 1)] = true) : ShownOnce (Wh.p t) 0 (Wh.v t) scA (lit "y") := by
  intro id
  rcases Nat.eq_zero_or_pos (times (Wh.p t) 0 (Wh.v t) scA (lit "y") id) with h0 | h0
  · omega
  · have := fedBy_spec h h0
    simp only [List.mem_singleton, Prod.mk.injEq] at this
    omega

theorem c92_sets {t : Tempo} {s : Whole.Sys (List Bits)} (h : Whole.seenIn s = Wh.seen) :
    (∀ i, FewSets (Feeds (Wh.p t) 0 (Wh.v t) scA (lit "y")) (Wh.lookY t).keys (Wh.lookY t).acfg.limit (Whole.seenIn s) i) ∧
      ∀ e ∈ Whole.seenIn s, Feeds (Wh.p t) 0 (Wh.v t) scA (lit "y") e.2.1 → shown (Wh.lookY t).keys e.2.2.1 ≠ overflowSet := by
  rw [h]
  refine ⟨fun i => ⟨[ka, []], (by decide : 2 < 4), fun e he _ _ => ?_⟩, fun e he _ hov => ?_⟩
  · have : ∀ e ∈ Wh.seen, shown (some [lit "a"]) e.2.2.1 ∈ [ka, []] := by
      have hl : lit "a" = [97] := by decide +kernel
      rw [hl]
      simp only [shown, Option.some.injEq, forall_eq']
      decide
    exact this e he
  · have : ∀ e ∈ Wh.seen, ∀ kv ∈ overflowSet, kv ∉ e.2.2.1 := by decide +kernel
    have hne : overflowSet ≠ [] := by decide +kernel
    obtain ⟨kv, hkv⟩ := List.exists_mem_of_ne_nil _ hne
    refine this e he kv hkv ?_
    rw [← hov] at hkv
    exact (List.mem_filter.1 hkv).1

/-- What is sent for a name in each payload. -/
def c92Sent (s : Whole.Sys (List Bits)) (n : Str) : List (List PNum) := s.sent.map (fun pl => (pointsIn numbers (sentScope scA) n pl).map (·.value))

/-- Delta: the counter `n` is 5 and 7, then 2; the observable `y` is 1 without attributes and 3, then 12 more. -/
example : ∃ s, Wh.stages .delta = some s ∧ Ending (fun _ => 0) Asm.w Wh.fsub (Wh.p .delta) 0 (Wh.acts .delta) (Wh.coll .delta) s.x s.x' ∧
    Running (fun _ => 0) Asm.w Wh.fsub (Wh.p .delta) 0 (Wh.acts .delta ++ Wh.coll .delta) s.x' ∧
    Viewed ViewEx.x [Wh.v .delta] Wh.cs (Wh.p .delta) 0 0 (Wh.v .delta) scA (lit "n") (Wh.lookN .delta) ∧
    Viewed ViewEx.x [Wh.v .delta] Wh.cs (Wh.p .delta) 0 0 (Wh.v .delta) scA (lit "y") (Wh.lookY .delta) ∧
    FewVia Asm.w (Wh.p .delta) 0 (Wh.v .delta) scA (lit "n") (Wh.lookN .delta).keys (Wh.lookN .delta).acfg.limit (syncActs (Wh.acts .delta)) ∧
    ShownOnce (Wh.p .delta) 0 (Wh.v .delta) scA (lit "y") ∧
    (∀ i, FewSets (Feeds (Wh.p .delta) 0 (Wh.v .delta) scA (lit "y")) (Wh.lookY .delta).keys (Wh.lookY .delta).acfg.limit (Whole.seenIn s.x') i) ∧
    (∀ e ∈ Whole.seenIn s.x', Feeds (Wh.p .delta) 0 (Wh.v .delta) scA (lit "y") e.2.1 → shown (Wh.lookY .delta).keys e.2.2.1 ≠ overflowSet) ∧
    Whole.seenIn s.x' = Wh.seen ∧ (Whole.collections (Wh.acts .delta ++ Wh.coll .delta)).length = 2 ∧
    c92Sent s.x' (lit "n") = [[.int 5, .int 7], [.int 2]] ∧ c92Sent s.x' (lit "y") = [[.int 1, .int 3], [.int 12]] := by
  obtain ⟨s, h1, h2⟩ := Wh.of_evaluated (t := .delta) (by decide +kernel)
  obtain ⟨s', e1, e2, e3, e4⟩ : ∃ s, Wh.stages .delta = some s ∧ (Whole.seenIn s.x' = Wh.seen ∧ c92Sent s.x' (lit "n") = [[.int 5, .int 7], [.int 2]] ∧
      c92Sent s.x' (lit "y") = [[.int 1, .int 3], [.int 12]]) := exists_of_eval (by decide +kernel)
  obtain rfl : s = s' := by rw [h1] at e1; exact Option.some.inj e1
  exact ⟨s, h1, h2, h2.running, Wh.viewed (by decide +kernel), Wh.viewed (by decide +kernel), c92_few _, c92_once (by decide +kernel), (c92_sets e2).1, (c92_sets e2).2, e2,
    by decide, e3, e4⟩

/-- Cumulative: the counter `n` is 5 and 7, then 5 and 9; the observable `y` is 1 without attributes and 3, then 15. -/
example : ∃ s, Wh.stages .cumulative = some s ∧ Ending (fun _ => 0) Asm.w Wh.fsub (Wh.p .cumulative) 0 (Wh.acts .cumulative) (Wh.coll .cumulative) s.x s.x' ∧
    Running (fun _ => 0) Asm.w Wh.fsub (Wh.p .cumulative) 0 (Wh.acts .cumulative ++ Wh.coll .cumulative) s.x' ∧
    Viewed ViewEx.x [Wh.v .cumulative] Wh.cs (Wh.p .cumulative) 0 0 (Wh.v .cumulative) scA (lit "n") (Wh.lookN .cumulative) ∧
    Viewed ViewEx.x [Wh.v .cumulative] Wh.cs (Wh.p .cumulative) 0 0 (Wh.v .cumulative) scA (lit "y") (Wh.lookY .cumulative) ∧
    FewVia Asm.w (Wh.p .cumulative) 0 (Wh.v .cumulative) scA (lit "n") (Wh.lookN .cumulative).keys (Wh.lookN .cumulative).acfg.limit (syncActs (Wh.acts .cumulative)) ∧
    (∀ e ∈ Whole.calls (Wh.acts .cumulative), NoEmptyList (e.1.attrs e.2.1)) ∧
    ShownOnce (Wh.p .cumulative) 0 (Wh.v .cumulative) scA (lit "y") ∧
    (∀ i, FewSets (Feeds (Wh.p .cumulative) 0 (Wh.v .cumulative) scA (lit "y")) (Wh.lookY .cumulative).keys (Wh.lookY .cumulative).acfg.limit (Whole.seenIn s.x') i) ∧
    Whole.seenIn s.x' = Wh.seen ∧ (Whole.collections (Wh.acts .cumulative ++ Wh.coll .cumulative)).length = 2 ∧
    c92Sent s.x' (lit "n") = [[.int 5, .int 7], [.int 5, .int 9]] ∧ c92Sent s.x' (lit "y") = [[.int 1, .int 3], [.int 15]] := by
  obtain ⟨s, h1, h2⟩ := Wh.of_evaluated (t := .cumulative) (by decide +kernel)
  obtain ⟨s', e1, e2, e3, e4⟩ : ∃ s, Wh.stages .cumulative = some s ∧ (Whole.seenIn s.x' = Wh.seen ∧ c92Sent s.x' (lit "n") = [[.int 5, .int 7], [.int 5, .int 9]] ∧
      c92Sent s.x' (lit "y") = [[.int 1, .int 3], [.int 15]]) := exists_of_eval (by decide +kernel)
  obtain rfl : s = s' := by rw [h1] at e1; exact Option.some.inj e1
  exact ⟨s, h1, h2, h2.running, Wh.viewed (by decide +kernel), Wh.viewed (by decide +kernel), c92_few _, c92_noEmpty _, c92_once (by decide +kernel), (c92_sets e2).1, e2,
    by decide, e3, e4⟩

/-- The program with gauges and histograms of C91, as a program without callbacks: delta counters, one of them with a hint, cumulative gauges and histograms. -/
example : ∃ (r : Asm.Stages) (s s' : Whole.Sys (List Bits)), AsmV.stages .delta .cumulative .histogram = some r ∧
    Ending (fun _ => 0) Asm.w Wh.fsub (AsmV.p .delta .cumulative .histogram) 0 ((AsmV.acts .delta .cumulative).map Whole.alone)
      ((AsmV.coll .delta .cumulative).map Whole.alone) s s' ∧
    Viewed ViewEx.x (AsmV.views .delta .cumulative .histogram) AsmV.cs (AsmV.p .delta .cumulative .histogram) 0 0 (AsmV.v .delta .cumulative .histogram) scA (lit "gg")
      (AsmV.lookG .cumulative) ∧
    Viewed ViewEx.x (AsmV.views .delta .cumulative .histogram) AsmV.cs (AsmV.p .delta .cumulative .histogram) 0 0 (AsmV.v .delta .cumulative .histogram) scA (lit "x")
      (AsmV.lookX .cumulative .histogram) ∧
    Viewed ViewEx.x (AsmV.views .delta .cumulative .histogram) AsmV.cs (AsmV.p .delta .cumulative .histogram) 0 0 (AsmV.v .delta .cumulative .histogram) scA (lit "o")
      (AsmV.lookO .delta) ∧
    Whole.OneByOne (fun _ => 0) Asm.w Wh.fsub (AsmV.p .delta .cumulative .histogram) 0 0 (AsmV.v .delta .cumulative .histogram) scA (lit "gg")
      ((AsmV.acts .delta .cumulative).map Whole.alone) ∧
    syncActs ((AsmV.acts .delta .cumulative).map Whole.alone) = AsmV.acts .delta .cumulative ∧
    recordedVia (AsmV.p .delta .cumulative .histogram) 0 (AsmV.v .delta .cumulative .histogram) scA (lit "gg") (fun as => Describes (AsmV.lookG .cumulative).keys as Asm.ma)
      (AsmV.acts .delta .cumulative) ≠ [] := by
  obtain ⟨r, h1, h2⟩ := AsmV.of_evaluated (t := .delta) (t' := .cumulative) (a := .histogram) (by decide +kernel)
  have hr : Pipeline.run (AsmV.cfg .delta .cumulative .histogram) (AsmV.rd .delta .cumulative .histogram) r.x (AsmV.coll .delta .cumulative) = some r.x' := by
    unfold AsmV.stages at h2
    simp only [Option.bind_eq_some_iff, Option.some.injEq] at h2
    obtain ⟨x, -, ⟨l, z⟩, g2, x', g3, rfl⟩ := h2
    refine run_app (states_run g2) ?_
    simp only [Pipeline.run, g3, Option.bind_some]
  obtain ⟨s, s', e1, -, e3, e4⟩ := C92_alone (fsub := Wh.fsub) h1 hr
  exact ⟨r, s, s', h2, e1, AsmV.viewed (by decide +kernel), AsmV.viewed (by decide +kernel), AsmV.hinted (by decide +kernel) (by decide +kernel), e4 (AsmV.oneByOne (i := 3) (by decide +kernel) (by decide +kernel)), e3,
    AsmV.recorded (e := (AsmV.ig, ka, 3)) (by simp [AsmV.called]) (by unfold Rejected; decide +kernel) Asm.describes_ka (by decide +kernel)⟩

end Examples

end Verif.Props
