import Verif.Proof.Live
import Verif.Props.Whole
import Verif.Examples.LiveProgram

/-!
C93: programs which ask for meters and instruments while they run.

`Running farm w fsub x views pipe acts z`: starting with a new provider with readers `views`, meters and instruments are asked for, synchronous instruments are called,
callbacks observe and collections of the reader `pipe` are exported (`acts`), in any order. `Ending farm w fsub x views pipe acts coll z z'`: a program whose calls have returned
after `acts`, and whose reader collects and exports once more (`coll`). `makes acts` are the calls for meters and instruments, `rest acts` everything else. `Viewed` is as for C91.
-/

namespace Verif.Props
open Verif Verif.Attr Verif.Number Verif.Aggr Verif.Export Verif.Spec Verif.Assembly
open Verif.Pipeline (numbers expPoints histPoints pointsIn sentPoints ints NoEmptyList Describes Grouped)
open Verif.Whole (syncActs metricsIn)
open Verif.Live (makes rest SamePayload Running Ending)
open Verif.Views (Views Ext)
open Verif.Provider (Provider Call)

variable {C G ν : Type} [DecidableEq C] {farm : Str → UInt64} {w : World C G} {fsub : Bits → Bits → Bits} {x : Ext C} {views : List (Views C)}
  {pipe k : Nat} {v : Views C} {sc : Views.Scope} {n : Str} {L : Look C} {acts : List (Live.Act ν)} {coll : List Whole.Act} {z z' : Live.Sys C G ν}

theorem each_pointwise {α β : Type} {R : α → β → Prop} {as : List α} {bs : List β} (h : Views.Each R as bs) : Pointwise R as bs := by
  refine ⟨(Live.each_get h).1, fun t a b ha hb => ?_⟩
  obtain ⟨a', ha', hr⟩ := (Live.each_get h).2 t b hb
  rw [ha] at ha'
  cases ha'
  exact hr

/-! ### When instruments are created does not matter -/

/-- C93 (all instruments made before). A program sends the same as one of C92 in which all its meters and instruments were made, in the same order, before anything else
happened: the same calls, callbacks and collections are possible with them, the same observations count, and the payloads are the same but for descriptions and scopes without
metrics. -/
theorem C93_running (hp : Running farm w fsub x views pipe acts z) :
    z.p = Provider.run x (Provider.new views) (makes acts) ∧
      ∃ s, Whole.Running farm w fsub z.p pipe (rest acts) s ∧ Whole.seenIn s = Whole.seenIn z.s ∧ Pointwise SamePayload z.s.sent s.sent := by
  obtain ⟨s, h1, h2⟩ := hp.static
  exact ⟨Live.run_prov hp.runs, s, h1, h2.seen, each_pointwise h2.sent⟩

/-- C93 (all instruments made before, to the end). The same for a program whose calls have returned, and a last collection. -/
theorem C93_ending (hp : Ending farm w fsub x views pipe acts coll z z') :
    z'.p = Provider.run x (Provider.new views) (makes acts) ∧
      ∃ s s', Whole.Ending farm w fsub z'.p pipe (rest acts) coll s s' ∧ Whole.seenIn s' = Whole.seenIn z'.s ∧ Pointwise SamePayload z'.s.sent s'.sent := by
  obtain ⟨s, s', h1, -, h2⟩ := hp.static
  refine ⟨?_, s, s', h1, h2.seen, each_pointwise h2.sent⟩
  have := Live.run_prov hp.running.runs
  rw [Live.makes_append, Live.makes_run, List.append_nil] at this
  exact this

/-- C93 (nothing new). Programs in the sense of C92 are such programs, if they use only instruments and output metrics which exist. -/
theorem C93_before {p : Provider C ν} {cs : List (Call ν)} {acts coll : List Whole.Act} {s s' : Whole.Sys G} (hmade : p = Provider.run x (Provider.new views) cs)
    (hp : ∀ a ∈ acts ++ coll, Live.possible w p a = true) (h : Whole.Ending farm w fsub p pipe acts coll s s') :
    Ending farm w fsub x views pipe (cs.map .make ++ acts.map .run) coll ⟨p, s⟩ ⟨p, s'⟩ ∧ makes (cs.map .make ++ acts.map .run) = cs ∧
      rest (cs.map .make ++ acts.map .run) = acts ∧
      ∀ {k v sc n}, Whole.OneByOne farm w fsub p pipe k v sc n acts → Live.OneByOne farm w fsub x views p pipe k v sc n (cs.map .make ++ acts.map .run) := by
  refine ⟨Live.Ending.of_static hmade hp h, ?_, ?_, Live.OneByOne.of_static hmade⟩
  · rw [Live.makes_append, Live.makes_make, Live.makes_run, List.append_nil]
  · rw [Live.rest_append, Live.rest_make, Live.rest_run]; rfl

/-- C93 (payloads). Every collection is exported in one payload; it has the resource, and the scopes of the meters which exist at the time, in order. -/
theorem C93_payloads (hp : Running farm w fsub x views pipe acts z) :
    z.s.sent.length = (Whole.collections (rest acts)).length ∧
      ∀ before order q after y, acts = before ++ .run (.collect order q) :: after →
        Live.run farm w fsub x pipe (Live.initial farm w fsub z.p views pipe) before = some y →
        ∃ pl, z.s.sent[(Whole.collections (rest before)).length]? = some pl ∧ AttrsOf w.resource pl.resource ∧
          pl.scopes.map (·.library) = y.p.ordered.map (fun m => sentScope m.scope) := by
  have hcut : ∀ before after : List (Live.Act ν), acts = before ++ after → ∀ y, Live.run farm w fsub x pipe (Live.initial farm w fsub z.p views pipe) before = some y →
      y.s.sent.length = (Whole.collections (rest before)).length ∧ ∀ pl ∈ y.s.sent, AttrsOf w.resource pl.resource := by
    intro before after hs y hr
    subst hs
    obtain ⟨s, h1, -⟩ := hp.static
    obtain ⟨y', t, k1, -, -, k4, k5⟩ := Live.middle hp.runs rfl
    rw [hr] at k1
    cases k1
    rw [Live.rest_append] at h1
    have hw : Whole.Running farm w fsub z.p pipe (rest before) t := by
      refine ⟨h1.resource, ?_, ?_, ?_, k4⟩
      · intro e he
        refine h1.typed e ?_
        unfold Whole.calls at he ⊢
        rw [List.filterMap_append]
        exact List.mem_append_left _ he
      · exact fun cb o as v hm => h1.observed cb o as v (List.mem_append_left _ hm)
      · intro b order q a y hb hrb
        exact h1.orderly b order q (a ++ rest after) y (by rw [hb, List.append_assoc]; rfl) hrb
    obtain ⟨h2, h3⟩ := C92_payloads (Live.run_prov hp.runs) hw
    refine ⟨by rw [(Live.each_get k5.sent).1, h2], fun pl hpl => ?_⟩
    obtain ⟨i, hi⟩ := List.getElem?_of_mem hpl
    obtain ⟨pl', hi', hsame⟩ := Live.each_get' k5.sent i pl hi
    rw [← hsame.1]
    exact (h3 pl' (List.mem_of_getElem? hi')).1
  refine ⟨(hcut acts [] (List.append_nil _).symm z hp.runs).1, fun before order q after y hs hr => ?_⟩
  have hl := (hcut before _ hs y hr).1
  have hruns := hp.runs
  rw [hs, Live.run_append, hr, Option.bind_some, Live.run] at hruns
  obtain ⟨y1, h1, h2⟩ := Option.bind_eq_some_iff.1 hruns
  have hr1 : Live.run farm w fsub x pipe (Live.initial farm w fsub z.p views pipe) (before ++ [.run (.collect order q)]) = some y1 := by
    rw [Live.run_append, hr, Option.bind_some, Live.run, h1]; rfl
  have hl1 := (hcut (before ++ [.run (.collect order q)]) after (by rw [hs, List.append_assoc]; rfl) y1 hr1).1
  obtain ⟨r, e1, hlib⟩ := Live.sent_collect h1
  obtain ⟨more, e2⟩ := Live.sent_prefix h2
  have hrl : r.length = 1 := by
    rw [e1, List.length_append, hl, Live.rest_append] at hl1
    unfold Whole.collections at hl1
    rw [List.filterMap_append, List.length_append] at hl1
    exact Nat.add_left_cancel hl1
  match r, hrl with
  | [pl], _ =>
    have hget : z.s.sent[(Whole.collections (rest before)).length]? = some pl := by
      rw [e2, e1, ← hl, List.append_assoc, List.getElem?_append_right (Nat.le_refl _), Nat.sub_self]
      rfl
    exact ⟨pl, hget, (hcut acts [] (List.append_nil _).symm z hp.runs).2 pl (List.mem_of_getElem? hget), hlib pl (List.mem_cons_self ..)⟩

/-- C93 (unit and kind). In every payload sent, a metric of the scope with the name has the unit, kind and temporality of the look. -/
theorem C93_metric (h : Viewed x views (makes acts) z.p pipe k v sc n L) (hp : Running farm w fsub x views pipe acts z) (pl : Payload) (hpl : pl ∈ z.s.sent) (e : PScope)
    (he : e ∈ pl.scopes) (hl : e.library = sentScope sc) (m : PMetric) (hm : m ∈ e.metrics) (hn : m.name = n) :
    m.unit = L.unit ∧ DataFor L.kind (if L.delta = true then .delta else .cumulative) m.data := by
  obtain ⟨s, h1, h2⟩ := hp.static
  obtain ⟨t, ht⟩ := List.getElem?_of_mem hpl
  obtain ⟨pl', ht', -, more, hs, -⟩ := Live.each_get' h2.sent t pl ht
  have hmem : (e.library, e.metrics.map Live.plain) ∈ pl'.scopes.map (fun s => (s.library, s.metrics.map Live.plain)) := by
    rw [hs]
    exact List.mem_append_left _ (List.mem_map.2 ⟨e, he, rfl⟩)
  obtain ⟨e', he', heq⟩ := List.mem_map.1 hmem
  rw [Prod.mk.injEq] at heq
  have hmm : Live.plain m ∈ e'.metrics.map Live.plain := by
    rw [heq.2]
    exact List.mem_map.2 ⟨m, hm, rfl⟩
  obtain ⟨m', hm', hpl'⟩ := List.mem_map.1 hmm
  unfold Live.plain at hpl'
  rw [PMetric.mk.injEq] at hpl'
  have := C92_metric h h1 pl' (List.mem_of_getElem? ht') e' he' (heq.1.trans hl) m' hm' (hpl'.1.trans hn)
  rw [hpl'.2.1, hpl'.2.2.2] at this
  exact this

/-! ### Synchronous instruments -/

/-- C93 (integer sums, cumulative). For all attributes `m` which remain, after the selection of keys, of those with which something was recorded: the last point sent
with the attributes `m` is the sum of all integers recorded with attributes of which `m` remain, on all instruments shown under the name. -/
theorem C93_sum_last (h : Viewed x views (makes acts) z'.p pipe k v sc n L) (hsy : L.sync = true) (hp : Ending farm w fsub x views pipe acts coll z z') (hn : L.num = .int64)
    (ha : L.kind = .monoSum ∨ L.kind = .nonMonoSum) (ht : L.delta = false)
    (hic : w.ignoreColl = false) (hf : FewVia w z'.p k v sc n L.keys L.acfg.limit (syncActs (rest acts)))
    (hne : ∀ e ∈ Whole.calls (rest acts), NoEmptyList (e.1.attrs e.2.1)) (m : PMap)
    (hrec : recordedVia z'.p k v sc n (fun as => Describes L.keys as m) (syncActs (rest acts)) ≠ []) :
    ((sentPoints numbers (sentScope sc) n z'.s.sent).filter (fun d => d.attrs = m)).getLast?.map (·.value) =
      some (.int (total64 (recordedVia z'.p k v sc n (fun as => Describes L.keys as m) (syncActs (rest acts))))) := by
  obtain ⟨s, s', hs, -, hsim⟩ := hp.static
  rw [← hsim.points numbers]
  exact C92_sum_last h hsy hs hn ha ht hic hf hne m hrec

/-- C93 (integer sums, delta). The integers sent in points with exactly the attributes `m` add up to the integers recorded with attributes of
which `m` remain. -/
theorem C93_sum_sent (h : Viewed x views (makes acts) z'.p pipe k v sc n L) (hsy : L.sync = true) (hp : Ending farm w fsub x views pipe acts coll z z') (hn : L.num = .int64)
    (ha : L.kind = .monoSum ∨ L.kind = .nonMonoSum) (ht : L.delta = true)
    (hic : w.ignoreColl = false) (hf : FewVia w z'.p k v sc n L.keys L.acfg.limit (syncActs (rest acts))) (m : PMap) :
    total64 (ints ((sentPoints numbers (sentScope sc) n z'.s.sent).filter (fun d => d.attrs = m))) =
      total64 (recordedVia z'.p k v sc n (fun as => Describes L.keys as m) (syncActs (rest acts))) := by
  obtain ⟨s, s', hs, -, hsim⟩ := hp.static
  rw [← hsim.points numbers]
  exact C92_sum_sent h hsy hs hn ha ht hic hf m

/-- C93 (integer sums, delta, total). Whatever the attributes and limits, the integers sent add up to the integers recorded. -/
theorem C93_sum_total (h : Viewed x views (makes acts) z'.p pipe k v sc n L) (hsy : L.sync = true) (hp : Ending farm w fsub x views pipe acts coll z z') (hn : L.num = .int64)
    (ha : L.kind = .monoSum ∨ L.kind = .nonMonoSum) (ht : L.delta = true) :
    total64 (ints (sentPoints numbers (sentScope sc) n z'.s.sent)) = total64 (recordedVia z'.p k v sc n (fun _ => True) (syncActs (rest acts))) := by
  obtain ⟨s, s', hs, -, hsim⟩ := hp.static
  rw [← hsim.points numbers]
  exact C92_sum_total h hsy hs hn ha ht

/-- C93 (float sums, cumulative). The last point sent with the attributes `m` is the result of adding up, in some order, all floats recorded
with attributes of which `m` remain. -/
theorem C93_float_last (h : Viewed x views (makes acts) z'.p pipe k v sc n L) (hsy : L.sync = true) (hp : Ending farm w fsub x views pipe acts coll z z') (hn : L.num = .float64)
    (ha : L.kind = .monoSum ∨ L.kind = .nonMonoSum) (ht : L.delta = false)
    (hic : w.ignoreColl = false) (hf : FewVia w z'.p k v sc n L.keys L.acfg.limit (syncActs (rest acts)))
    (hne : ∀ e ∈ Whole.calls (rest acts), NoEmptyList (e.1.attrs e.2.1)) (m : PMap)
    (hrec : recordedVia z'.p k v sc n (fun as => Describes L.keys as m) (syncActs (rest acts)) ≠ []) :
    ∃ b vals, ((sentPoints numbers (sentScope sc) n z'.s.sent).filter (fun d => d.attrs = m)).getLast?.map (·.value) = some (.double b) ∧
      vals.Perm (recordedVia z'.p k v sc n (fun as => Describes L.keys as m) (syncActs (rest acts))) ∧ SumOf 0 w.fadd b vals := by
  obtain ⟨s, s', hs, -, hsim⟩ := hp.static
  rw [← hsim.points numbers]
  exact C92_float_last h hsy hs hn ha ht hic hf hne m hrec

/-- C93 (float sums, delta). The floats recorded with attributes of which `m` remain are divided into groups; the points sent with the attributes `m` are the
sums, in some order, of the groups, except for groups whose sum is zero, which are not sent. -/
theorem C93_float_sent (h : Viewed x views (makes acts) z'.p pipe k v sc n L) (hsy : L.sync = true) (hp : Ending farm w fsub x views pipe acts coll z z') (hn : L.num = .float64)
    (ha : L.kind = .monoSum ∨ L.kind = .nonMonoSum) (ht : L.delta = true)
    (hic : w.ignoreColl = false) (hf : FewVia w z'.p k v sc n L.keys L.acfg.limit (syncActs (rest acts))) (m : PMap) :
    ∃ gs zs : List (List Bits), (gs ++ zs).flatten.Perm (recordedVia z'.p k v sc n (fun as => Describes L.keys as m) (syncActs (rest acts))) ∧
      Pointwise (fun g d => ∃ b, SumOf 0 w.fadd b g ∧ d.value = .double b ∧ scaled b ≠ 0) gs
        ((sentPoints numbers (sentScope sc) n z'.s.sent).filter (fun d => d.attrs = m)) ∧
      ∀ g ∈ zs, ∃ b, SumOf 0 w.fadd b g ∧ scaled b = 0 := by
  obtain ⟨s, s', hs, -, hsim⟩ := hp.static
  rw [← hsim.points numbers]
  exact C92_float_sent h hsy hs hn ha ht hic hf m

/-- C93 (gauges, cumulative). When calls on the instruments shown under the name do not overlap: the last point sent with the attributes `m` carries the value of
the last call with attributes of which `m` remain. -/
theorem C93_gauge_last (h : Viewed x views (makes acts) z'.p pipe k v sc n L) (hsy : L.sync = true) (hp : Ending farm w fsub x views pipe acts coll z z')
    (ha : L.kind = .gauge) (ht : L.delta = false) (hq : Live.OneByOne farm w fsub x views z'.p pipe k v sc n acts)
    (hic : w.ignoreColl = false) (hf : FewVia w z'.p k v sc n L.keys L.acfg.limit (syncActs (rest acts)))
    (hne : ∀ e ∈ Whole.calls (rest acts), NoEmptyList (e.1.attrs e.2.1)) (m : PMap)
    (hrec : recordedVia z'.p k v sc n (fun as => Describes L.keys as m) (syncActs (rest acts)) ≠ []) :
    ∃ d b, ((sentPoints numbers (sentScope sc) n z'.s.sent).filter (fun d => d.attrs = m)).getLast? = some d ∧
      (recordedVia z'.p k v sc n (fun as => Describes L.keys as m) (syncActs (rest acts))).getLast? = some b ∧ NumOf L.num b d.value := by
  obtain ⟨s, s', hs, -, hsim⟩ := hp.static
  rw [← hsim.points numbers]
  exact C92_gauge_last h hsy hs ha ht (Live.OneByOne.static hp.running.runs hq) hic hf hne m hrec

/-- C93 (gauges, delta). When calls on the instruments shown under the name do not overlap: the values recorded with attributes of which `m` remain are divided into
groups, each in the order of the calls, one for each point sent with the attributes `m`; the point carries the last value of its group. (The last point need not
have the last value of all: see `C88_gauge_delta_last_fails`.) -/
theorem C93_gauge_sent (h : Viewed x views (makes acts) z'.p pipe k v sc n L) (hsy : L.sync = true) (hp : Ending farm w fsub x views pipe acts coll z z')
    (ha : L.kind = .gauge) (ht : L.delta = true) (hq : Live.OneByOne farm w fsub x views z'.p pipe k v sc n acts)
    (hic : w.ignoreColl = false) (hf : FewVia w z'.p k v sc n L.keys L.acfg.limit (syncActs (rest acts))) (m : PMap) :
    ∃ gs : List (List Bits), gs.flatten.Perm (recordedVia z'.p k v sc n (fun as => Describes L.keys as m) (syncActs (rest acts))) ∧
      (∀ g ∈ gs, g.Sublist (recordedVia z'.p k v sc n (fun as => Describes L.keys as m) (syncActs (rest acts)))) ∧
      Pointwise (fun g d => ∃ b, g.getLast? = some b ∧ NumOf L.num b d.value) gs
        ((sentPoints numbers (sentScope sc) n z'.s.sent).filter (fun d => d.attrs = m)) := by
  obtain ⟨s, s', hs, -, hsim⟩ := hp.static
  rw [← hsim.points numbers]
  exact C92_gauge_sent h hsy hs ha ht (Live.OneByOne.static hp.running.runs hq) hic hf m

/-- C93 (histograms, cumulative). The last point sent with the attributes `m` has the content of an exponential histogram, with the configuration of the look,
made of exactly the values recorded with attributes of which `m` remain. -/
theorem C93_hist_last (h : Viewed x views (makes acts) z'.p pipe k v sc n L) (hsy : L.sync = true) (hp : Ending farm w fsub x views pipe acts coll z z')
    (ha : L.kind = .histogram) (ht : L.delta = false)
    (hic : w.ignoreColl = false) (hf : FewVia w z'.p k v sc n L.keys L.acfg.limit (syncActs (rest acts)))
    (hne : ∀ e ∈ Whole.calls (rest acts), NoEmptyList (e.1.attrs e.2.1)) (m : PMap)
    (hrec : recordedVia z'.p k v sc n (fun as => Describes L.keys as m) (syncActs (rest acts)) ≠ []) :
    ∃ d vals, ((sentPoints expPoints (sentScope sc) n z'.s.sent).filter (fun d => d.attrs = m)).getLast? = some d ∧
      vals.Perm (recordedVia z'.p k v sc n (fun as => Describes L.keys as m) (syncActs (rest acts))) ∧
      ShowsHist (reader w z'.p pipe) (w.hist L.num L.acfg.hist) L.num vals d := by
  obtain ⟨s, s', hs, -, hsim⟩ := hp.static
  rw [← hsim.points expPoints]
  exact C92_hist_last h hsy hs ha ht hic hf hne m hrec

/-- C93 (histograms, delta). The values recorded with attributes of which `m` remain are divided into groups, one for each point sent with the attributes `m`, which has the content
of an exponential histogram made of exactly its group. -/
theorem C93_hist_sent (h : Viewed x views (makes acts) z'.p pipe k v sc n L) (hsy : L.sync = true) (hp : Ending farm w fsub x views pipe acts coll z z')
    (ha : L.kind = .histogram) (ht : L.delta = true)
    (hl : Counts (w.hist L.num L.acfg.hist))
    (hic : w.ignoreColl = false) (hf : FewVia w z'.p k v sc n L.keys L.acfg.limit (syncActs (rest acts))) (m : PMap) :
    Grouped (ShowsHist (reader w z'.p pipe) (w.hist L.num L.acfg.hist) L.num)
      (recordedVia z'.p k v sc n (fun as => Describes L.keys as m) (syncActs (rest acts))) ((sentPoints expPoints (sentScope sc) n z'.s.sent).filter (fun d => d.attrs = m)) := by
  obtain ⟨s, s', hs, -, hsim⟩ := hp.static
  rw [← hsim.points expPoints]
  exact C92_hist_sent h hsy hs ha ht hl hic hf m

/-- C93 (min/max/sum/count of floats, cumulative). The last point sent with the attributes `m` shows these of exactly the values recorded with attributes of which
`m` remain. -/
theorem C93_mmsc_last (h : Viewed x views (makes acts) z'.p pipe k v sc n L) (hsy : L.sync = true) (hp : Ending farm w fsub x views pipe acts coll z z') (hn : L.num = .float64)
    (ha : L.kind = .mmsc) (ht : L.delta = false)
    (hic : w.ignoreColl = false) (hf : FewVia w z'.p k v sc n L.keys L.acfg.limit (syncActs (rest acts)))
    (hne : ∀ e ∈ Whole.calls (rest acts), NoEmptyList (e.1.attrs e.2.1)) (m : PMap)
    (hrec : recordedVia z'.p k v sc n (fun as => Describes L.keys as m) (syncActs (rest acts)) ≠ []) :
    ∃ d vals, ((sentPoints histPoints (sentScope sc) n z'.s.sent).filter (fun d => d.attrs = m)).getLast? = some d ∧
      vals.Perm (recordedVia z'.p k v sc n (fun as => Describes L.keys as m) (syncActs (rest acts))) ∧ ShowsStats w.fadd vals d := by
  obtain ⟨s, s', hs, -, hsim⟩ := hp.static
  rw [← hsim.points histPoints]
  exact C92_mmsc_last h hsy hs hn ha ht hic hf hne m hrec

/-- C93 (min/max/sum/count of floats, delta). The floats recorded with attributes of which `m` remain are divided into groups, one for each point sent with the
attributes `m`, which shows these of exactly its group. -/
theorem C93_mmsc_sent (h : Viewed x views (makes acts) z'.p pipe k v sc n L) (hsy : L.sync = true) (hp : Ending farm w fsub x views pipe acts coll z z') (hn : L.num = .float64)
    (ha : L.kind = .mmsc) (ht : L.delta = true)
    (hic : w.ignoreColl = false) (hf : FewVia w z'.p k v sc n L.keys L.acfg.limit (syncActs (rest acts))) (m : PMap) :
    Grouped (ShowsStats w.fadd) (recordedVia z'.p k v sc n (fun as => Describes L.keys as m) (syncActs (rest acts)))
      ((sentPoints histPoints (sentScope sc) n z'.s.sent).filter (fun d => d.attrs = m)) := by
  obtain ⟨s, s', hs, -, hsim⟩ := hp.static
  rw [← hsim.points histPoints]
  exact C92_mmsc_sent h hsy hs hn ha ht hic hf m

/-- C93 (min/max/sum/count of integers, cumulative). The last point sent with the attributes `m` shows sum and count of exactly the integers recorded with attributes of which
`m` remain. -/
theorem C93_mmsc_int_last (h : Viewed x views (makes acts) z'.p pipe k v sc n L) (hsy : L.sync = true) (hp : Ending farm w fsub x views pipe acts coll z z') (hn : L.num = .int64)
    (ha : L.kind = .mmsc) (ht : L.delta = false)
    (hic : w.ignoreColl = false) (hf : FewVia w z'.p k v sc n L.keys L.acfg.limit (syncActs (rest acts)))
    (hne : ∀ e ∈ Whole.calls (rest acts), NoEmptyList (e.1.attrs e.2.1)) (m : PMap)
    (hrec : recordedVia z'.p k v sc n (fun as => Describes L.keys as m) (syncActs (rest acts)) ≠ []) :
    ∃ d vals, ((sentPoints histPoints (sentScope sc) n z'.s.sent).filter (fun d => d.attrs = m)).getLast? = some d ∧
      vals.Perm (recordedVia z'.p k v sc n (fun as => Describes L.keys as m) (syncActs (rest acts))) ∧ ShowsIntStats vals d := by
  obtain ⟨s, s', hs, -, hsim⟩ := hp.static
  rw [← hsim.points histPoints]
  exact C92_mmsc_int_last h hsy hs hn ha ht hic hf hne m hrec

/-- C93 (min/max/sum/count of integers, delta). The integers recorded with attributes of which `m` remain are divided into groups, one for each point sent with the
attributes `m`, which shows sum and count of exactly its group. -/
theorem C93_mmsc_int_sent (h : Viewed x views (makes acts) z'.p pipe k v sc n L) (hsy : L.sync = true) (hp : Ending farm w fsub x views pipe acts coll z z') (hn : L.num = .int64)
    (ha : L.kind = .mmsc) (ht : L.delta = true)
    (hic : w.ignoreColl = false) (hf : FewVia w z'.p k v sc n L.keys L.acfg.limit (syncActs (rest acts))) (m : PMap) :
    Grouped ShowsIntStats (recordedVia z'.p k v sc n (fun as => Describes L.keys as m) (syncActs (rest acts)))
      ((sentPoints histPoints (sentScope sc) n z'.s.sent).filter (fun d => d.attrs = m)) := by
  obtain ⟨s, s', hs, -, hsim⟩ := hp.static
  rw [← hsim.points histPoints]
  exact C92_mmsc_int_sent h hsy hs hn ha ht hic hf m

/-- C93 (nothing else is sent, numbers). Every number point sent under the name shows what remains of attributes with which something was
recorded. -/
theorem C93_known (h : Viewed x views (makes acts) z'.p pipe k v sc n L) (hsy : L.sync = true) (hp : Ending farm w fsub x views pipe acts coll z z')
    (ha : L.kind = .monoSum ∨ L.kind = .nonMonoSum ∨ L.kind = .gauge)
    (hf : FewVia w z'.p k v sc n L.keys L.acfg.limit (syncActs (rest acts))) (d : PNumber) (hd : d ∈ sentPoints numbers (sentScope sc) n z'.s.sent) :
    recordedVia z'.p k v sc n (fun as => Describes L.keys as d.attrs) (syncActs (rest acts)) ≠ [] := by
  obtain ⟨s, s', hs, -, ht⟩ := hp.static
  exact C92_known h hsy hs ha hf d (by rw [ht.points]; exact hd)

/-- C93 (nothing else is sent, histograms). -/
theorem C93_hist_known (h : Viewed x views (makes acts) z'.p pipe k v sc n L) (hsy : L.sync = true) (hp : Ending farm w fsub x views pipe acts coll z z')
    (ha : L.kind = .histogram)
    (hf : FewVia w z'.p k v sc n L.keys L.acfg.limit (syncActs (rest acts))) (d : PExp) (hd : d ∈ sentPoints expPoints (sentScope sc) n z'.s.sent) :
    recordedVia z'.p k v sc n (fun as => Describes L.keys as d.attrs) (syncActs (rest acts)) ≠ [] := by
  obtain ⟨s, s', hs, -, ht⟩ := hp.static
  exact C92_hist_known h hsy hs ha hf d (by rw [ht.points]; exact hd)

/-- C93 (nothing else is sent, min/max/sum/count). -/
theorem C93_mmsc_known (h : Viewed x views (makes acts) z'.p pipe k v sc n L) (hsy : L.sync = true) (hp : Ending farm w fsub x views pipe acts coll z z')
    (ha : L.kind = .mmsc)
    (hf : FewVia w z'.p k v sc n L.keys L.acfg.limit (syncActs (rest acts))) (d : PHist) (hd : d ∈ sentPoints histPoints (sentScope sc) n z'.s.sent) :
    recordedVia z'.p k v sc n (fun as => Describes L.keys as d.attrs) (syncActs (rest acts)) ≠ [] := by
  obtain ⟨s, s', hs, -, ht⟩ := hp.static
  exact C92_mmsc_known h hsy hs ha hf d (by rw [ht.points]; exact hd)

/-! ### Observable instruments -/

/-- C93 (observable instruments, cumulative sums and gauges). For every collection in which the observed sets fit: the payload has exactly one point for each
attribute set which remains, after the selection of keys, of an observation of this collection by an instrument shown under the name, with exactly these
attributes, and its value is made of the last values observed. -/
theorem C93_async_cumulative (h : Viewed x views (makes acts) z.p pipe k v sc n L) (hasy : L.sync = false) (hp : Running farm w fsub x views pipe acts z) (hone : ShownOnce z.p k v sc n)
    (ht : L.delta = false ∨ L.kind = .gauge) {t : Nat} (htl : t < (Whole.collections (rest acts)).length)
    (hf : FewSets (Feeds z.p k v sc n) L.keys L.acfg.limit (Whole.seenIn z.s) t) :
    ∃ pl, z.s.sent[t]? = some pl ∧ ∃ as : List (List KV), as.Nodup ∧ (∀ a, a ∈ as ↔ Shows (Feeds z.p k v sc n) L.keys (Whole.seenIn z.s) t a) ∧
      Pointwise (fun a d => AttrsOf a d.attrs ∧ ∃ y, Amount w (Feeds z.p k v sc n) L.keys L.kind L.num (Whole.seenIn z.s) t a y ∧ NumOf L.num y d.value) as
        (pointsIn numbers (sentScope sc) n pl) := by
  obtain ⟨s, hs, hsim⟩ := hp.static
  rw [← hsim.seen] at hf ⊢
  obtain ⟨pl', h1, h2⟩ := C92_async_cumulative h hasy hs hone ht htl hf
  obtain ⟨pl, h3, h4⟩ := (Live.each_get hsim.sent).2 t pl' h1
  rw [Live.same_points numbers h4] at h2
  exact ⟨pl, h3, h2⟩

/-- C93 (observable instruments, integer delta sums). When the sets of all collections fit: the payload of every collection has exactly one point for each
attribute set shown for an observation of this collection whose value changed since the collection before or which was not observed in that one; its value is the
difference, or the whole value. -/
theorem C93_async_delta (h : Viewed x views (makes acts) z.p pipe k v sc n L) (hasy : L.sync = false) (hp : Running farm w fsub x views pipe acts z) (hone : ShownOnce z.p k v sc n) (hn : L.num = .int64)
    (ht : L.delta = true) (hg : L.kind ≠ .gauge)
    (hf : ∀ t, t < (Whole.collections (rest acts)).length → FewSets (Feeds z.p k v sc n) L.keys L.acfg.limit (Whole.seenIn z.s) t)
    (hov : ∀ e ∈ Whole.seenIn z.s, Feeds z.p k v sc n e.2.1 → shown L.keys e.2.2.1 ≠ overflowSet) {t : Nat} (htl : t < (Whole.collections (rest acts)).length) :
    ∃ pl, z.s.sent[t]? = some pl ∧ ∃ as : List (List KV), as.Nodup ∧
      (∀ a, a ∈ as ↔ ∃ y, Amount w (Feeds z.p k v sc n) L.keys L.kind .int64 (Whole.seenIn z.s) t a y ∧
        ¬ AmountBefore w (Feeds z.p k v sc n) L.keys L.kind .int64 (Whole.seenIn z.s) t a y) ∧
      Pointwise (fun a d => AttrsOf a d.attrs ∧ ∃ y, Amount w (Feeds z.p k v sc n) L.keys L.kind .int64 (Whole.seenIn z.s) t a y ∧
        ((∃ b, AmountBefore w (Feeds z.p k v sc n) L.keys L.kind .int64 (Whole.seenIn z.s) t a b ∧ d.value = .int (y - b)) ∨
          ((∀ b, ¬ AmountBefore w (Feeds z.p k v sc n) L.keys L.kind .int64 (Whole.seenIn z.s) t a b) ∧ d.value = .int y)))
        as (pointsIn numbers (sentScope sc) n pl) := by
  obtain ⟨s, hs, hsim⟩ := hp.static
  rw [← hsim.seen] at hf hov ⊢
  obtain ⟨pl', h1, h2⟩ := C92_async_delta h hasy hs hone hn ht hg hf hov htl
  obtain ⟨pl, h3, h4⟩ := (Live.each_get hsim.sent).2 t pl' h1
  rw [Live.same_points numbers h4] at h2
  exact ⟨pl, h3, h2⟩

/-- C93 (observable instruments, float delta sums). When the sets of all collections fit: each point of the payload is for an attribute set shown for an
observation of this collection; its value is the float difference of its cumulative value and the one in the collection before, and is not zero, or its whole value
when it was not observed in that one; an attribute set shown without a point has a zero difference. -/
theorem C93_async_delta_float (h : Viewed x views (makes acts) z.p pipe k v sc n L) (hasy : L.sync = false) (hp : Running farm w fsub x views pipe acts z) (hone : ShownOnce z.p k v sc n) (hn : L.num = .float64)
    (ht : L.delta = true) (hg : L.kind ≠ .gauge)
    (hf : ∀ t, t < (Whole.collections (rest acts)).length → FewSets (Feeds z.p k v sc n) L.keys L.acfg.limit (Whole.seenIn z.s) t)
    (hov : ∀ e ∈ Whole.seenIn z.s, Feeds z.p k v sc n e.2.1 → shown L.keys e.2.2.1 ≠ overflowSet) {t : Nat} (htl : t < (Whole.collections (rest acts)).length) :
    ∃ pl, z.s.sent[t]? = some pl ∧ ∃ as : List (List KV), as.Nodup ∧ (∀ a ∈ as, Shows (Feeds z.p k v sc n) L.keys (Whole.seenIn z.s) t a) ∧
      (∀ a, Shows (Feeds z.p k v sc n) L.keys (Whole.seenIn z.s) t a → a ∉ as → ∃ y b, Amount w (Feeds z.p k v sc n) L.keys L.kind .float64 (Whole.seenIn z.s) t a y ∧
        AmountBefore w (Feeds z.p k v sc n) L.keys L.kind .float64 (Whole.seenIn z.s) t a b ∧ FloatZero (fsub y b)) ∧
      Pointwise (fun a d => AttrsOf a d.attrs ∧ ∃ y, Amount w (Feeds z.p k v sc n) L.keys L.kind .float64 (Whole.seenIn z.s) t a y ∧
        ((∃ b, AmountBefore w (Feeds z.p k v sc n) L.keys L.kind .float64 (Whole.seenIn z.s) t a b ∧ ¬ FloatZero (fsub y b) ∧ d.value = .double (fsub y b)) ∨
          ((∀ b, ¬ AmountBefore w (Feeds z.p k v sc n) L.keys L.kind .float64 (Whole.seenIn z.s) t a b) ∧ d.value = .double y)))
        as (pointsIn numbers (sentScope sc) n pl) := by
  obtain ⟨s, hs, hsim⟩ := hp.static
  rw [← hsim.seen] at hf hov ⊢
  obtain ⟨pl', h1, h2⟩ := C92_async_delta_float h hasy hs hone hn ht hg hf hov htl
  obtain ⟨pl, h3, h4⟩ := (Live.each_get hsim.sent).2 t pl' h1
  rw [Live.same_points numbers h4] at h2
  exact ⟨pl, h3, h2⟩

/-- C93 (observable instruments, integer delta totals). If moreover something shown as `a` was observed in every collection since the first such one, all
values sent with the attributes `a` add up to their last cumulative value. -/
theorem C93_async_delta_total (h : Viewed x views (makes acts) z.p pipe k v sc n L) (hasy : L.sync = false) (hp : Running farm w fsub x views pipe acts z) (hone : ShownOnce z.p k v sc n) (hn : L.num = .int64)
    (ht : L.delta = true) (hg : L.kind ≠ .gauge)
    (hf : ∀ t, t < (Whole.collections (rest acts)).length → FewSets (Feeds z.p k v sc n) L.keys L.acfg.limit (Whole.seenIn z.s) t)
    (hov : ∀ e ∈ Whole.seenIn z.s, Feeds z.p k v sc n e.2.1 → shown L.keys e.2.2.1 ≠ overflowSet) {a : List KV} (hne : NoEmptyList a) {first last : Nat}
    (hlast : (Whole.collections (rest acts)).length = last + 1) (hle : first ≤ last) (hno : ∀ t, t < first → ¬ Shows (Feeds z.p k v sc n) L.keys (Whole.seenIn z.s) t a)
    (hobs : ∀ t, first ≤ t → t ≤ last → Shows (Feeds z.p k v sc n) L.keys (Whole.seenIn z.s) t a) {y : Bits}
    (hy : Amount w (Feeds z.p k v sc n) L.keys L.kind .int64 (Whole.seenIn z.s) last a y) :
    Spec.total64 (ints ((sentPoints numbers (sentScope sc) n z.s.sent).filter (fun d => @decide (AttrsOf a d.attrs) (Classical.propDecidable _)))) = y := by
  obtain ⟨s, hs, hsim⟩ := hp.static
  rw [← hsim.seen] at hf hov hno hobs hy
  rw [← hsim.points numbers]
  exact C92_async_delta_total h hasy hs hone hn ht hg hf hov hne hlast hle hno hobs hy

/-! ### A concrete program -/

section Examples
open Verif.Examples Verif.Examples.Asm
open Verif.Examples.AsmV (fedBy fedBy_spec kab noNaN sameSeries_refl)
open Verif.Views (lit Tempo)

theorem c93_few (t : Tempo) : FewVia Asm.w (Wh.p t) 0 (Wh.v t) scA (lit "n") (Wh.lookN t).keys (Wh.lookN t).acfg.limit (syncActs (rest (Lv.acts t))) := by
  refine ⟨fun _ => [kab, ka, kb], [kab, ka, kb], fun _ _ => (by decide : 3 < 4), (by decide : 3 < 4), ?_, fun id _ b hb => ⟨noNaN b hb, b, hb, sameSeries_refl _ _⟩⟩
  intro e he _
  rw [Whole.calls_sync, Lv.calls_acts] at he
  have : ∀ e ∈ Lv.called, e.1.attrs e.2.1 ∈ [kab, ka, kb] := by decide
  exact this e he

theorem c93_noEmpty (t : Tempo) : ∀ e ∈ Whole.calls (rest (Lv.acts t)), NoEmptyList (e.1.attrs e.2.1) := by
  intro e he kv hkv
  rw [Lv.calls_acts] at he
  have h : ∀ e ∈ Lv.called,
      (e.1.attrs e.2.1).all (fun kv => decide (kv.val ≠ .bools [] ∧ kv.val ≠ .ints [] ∧ kv.val ≠ .floats [] ∧ kv.val ≠ .strs [])) = true := by
    decide
  exact of_decide_eq_true (List.all_eq_true.1 (h e he) kv hkv)

theorem c93_sets {t : Tempo} {s : Whole.Sys (List Bits)} (h : Whole.seenIn s = Lv.seen) :
    (∀ i, FewSets (Feeds (Wh.p t) 0 (Wh.v t) scA (lit "y")) (Wh.lookY t).keys (Wh.lookY t).acfg.limit (Whole.seenIn s) i) ∧
      ∀ e ∈ Whole.seenIn s, Feeds (Wh.p t) 0 (Wh.v t) scA (lit "y") e.2.1 → shown (Wh.lookY t).keys e.2.2.1 ≠ overflowSet := by
  rw [h]
  refine ⟨fun i => ⟨[ka, []], (by decide : 2 < 4), fun e he _ _ => ?_⟩, fun e he _ hov => ?_⟩
  · have : ∀ e ∈ Lv.seen, shown (some [lit "a"]) e.2.2.1 ∈ [ka, []] := by
      have hl : lit "a" = [97] := by decide +kernel
      rw [hl]
      simp only [shown, Option.some.injEq, forall_eq']
      decide
    exact this e he
  · have : ∀ e ∈ Lv.seen, ∀ kv ∈ overflowSet, kv ∉ e.2.2.1 := by decide +kernel
    have hne : overflowSet ≠ [] := by decide +kernel
    obtain ⟨kv, hkv⟩ := List.exists_mem_of_ne_nil _ hne
    refine this e he kv hkv ?_
    rw [← hov] at hkv
    exact (List.mem_filter.1 hkv).1

/-- Delta: the counter `n` is 5 and 7, then 2; the observable `y`, asked for after the first collection, is 15. -/
example : ∃ s, Lv.stages .delta = some s ∧ Ending (fun _ => 0) Asm.w Wh.fsub ViewEx.x [Wh.v .delta] 0 (Lv.acts .delta) (Lv.coll .delta) s.x s.last ∧
    Running (fun _ => 0) Asm.w Wh.fsub ViewEx.x [Wh.v .delta] 0 (Lv.acts .delta ++ (Lv.coll .delta).map .run) s.last ∧
    Viewed ViewEx.x [Wh.v .delta] (makes (Lv.acts .delta)) s.last.p 0 0 (Wh.v .delta) scA (lit "n") (Wh.lookN .delta) ∧
    Viewed ViewEx.x [Wh.v .delta] (makes (Lv.acts .delta)) s.last.p 0 0 (Wh.v .delta) scA (lit "y") (Wh.lookY .delta) ∧
    FewVia Asm.w s.last.p 0 (Wh.v .delta) scA (lit "n") (Wh.lookN .delta).keys (Wh.lookN .delta).acfg.limit (syncActs (rest (Lv.acts .delta))) ∧
    ShownOnce s.last.p 0 (Wh.v .delta) scA (lit "y") ∧
    (∀ i, FewSets (Feeds s.last.p 0 (Wh.v .delta) scA (lit "y")) (Wh.lookY .delta).keys (Wh.lookY .delta).acfg.limit (Whole.seenIn s.last.s) i) ∧
    (∀ e ∈ Whole.seenIn s.last.s, Feeds s.last.p 0 (Wh.v .delta) scA (lit "y") e.2.1 → shown (Wh.lookY .delta).keys e.2.2.1 ≠ overflowSet) ∧
    Whole.seenIn s.last.s = Lv.seen ∧ (Whole.collections (rest (Lv.acts .delta ++ (Lv.coll .delta).map .run))).length = 2 ∧
    c92Sent s.last.s (lit "n") = [[.int 5, .int 7], [.int 2]] ∧ c92Sent s.last.s (lit "y") = [[], [.int 15]] := by
  obtain ⟨s, h1, hp, h2⟩ := Lv.of_evaluated (t := .delta) (by decide +kernel)
  obtain ⟨s', e1, e2, e3, e4⟩ : ∃ s, Lv.stages .delta = some s ∧ (Whole.seenIn s.last.s = Lv.seen ∧ c92Sent s.last.s (lit "n") = [[.int 5, .int 7], [.int 2]] ∧
      c92Sent s.last.s (lit "y") = [[], [.int 15]]) := exists_of_eval (by decide +kernel)
  obtain rfl : s = s' := by rw [h1] at e1; exact Option.some.inj e1
  refine ⟨s, h1, h2, h2.running, Lv.viewed hp (by decide +kernel), Lv.viewed hp (by decide +kernel), ?_⟩
  rw [hp]
  exact ⟨c93_few _, c92_once (by decide +kernel), (c93_sets e2).1, (c93_sets e2).2, e2, by decide, e3, e4⟩

/-- Cumulative: the counter `n` is 5 and 7, then 5 and 9; the observable `y` is 15. -/
example : ∃ s, Lv.stages .cumulative = some s ∧ Ending (fun _ => 0) Asm.w Wh.fsub ViewEx.x [Wh.v .cumulative] 0 (Lv.acts .cumulative) (Lv.coll .cumulative) s.x s.last ∧
    Running (fun _ => 0) Asm.w Wh.fsub ViewEx.x [Wh.v .cumulative] 0 (Lv.acts .cumulative ++ (Lv.coll .cumulative).map .run) s.last ∧
    Viewed ViewEx.x [Wh.v .cumulative] (makes (Lv.acts .cumulative)) s.last.p 0 0 (Wh.v .cumulative) scA (lit "n") (Wh.lookN .cumulative) ∧
    Viewed ViewEx.x [Wh.v .cumulative] (makes (Lv.acts .cumulative)) s.last.p 0 0 (Wh.v .cumulative) scA (lit "y") (Wh.lookY .cumulative) ∧
    FewVia Asm.w s.last.p 0 (Wh.v .cumulative) scA (lit "n") (Wh.lookN .cumulative).keys (Wh.lookN .cumulative).acfg.limit (syncActs (rest (Lv.acts .cumulative))) ∧
    ShownOnce s.last.p 0 (Wh.v .cumulative) scA (lit "y") ∧
    (∀ i, FewSets (Feeds s.last.p 0 (Wh.v .cumulative) scA (lit "y")) (Wh.lookY .cumulative).keys (Wh.lookY .cumulative).acfg.limit (Whole.seenIn s.last.s) i) ∧
    (∀ e ∈ Whole.calls (rest (Lv.acts .cumulative)), NoEmptyList (e.1.attrs e.2.1)) ∧
    Whole.seenIn s.last.s = Lv.seen ∧ (Whole.collections (rest (Lv.acts .cumulative ++ (Lv.coll .cumulative).map .run))).length = 2 ∧
    c92Sent s.last.s (lit "n") = [[.int 5, .int 7], [.int 5, .int 9]] ∧ c92Sent s.last.s (lit "y") = [[], [.int 15]] := by
  obtain ⟨s, h1, hp, h2⟩ := Lv.of_evaluated (t := .cumulative) (by decide +kernel)
  obtain ⟨s', e1, e2, e3, e4⟩ : ∃ s, Lv.stages .cumulative = some s ∧ (Whole.seenIn s.last.s = Lv.seen ∧ c92Sent s.last.s (lit "n") = [[.int 5, .int 7], [.int 5, .int 9]] ∧
      c92Sent s.last.s (lit "y") = [[], [.int 15]]) := exists_of_eval (by decide +kernel)
  obtain rfl : s = s' := by rw [h1] at e1; exact Option.some.inj e1
  refine ⟨s, h1, h2, h2.running, Lv.viewed hp (by decide +kernel), Lv.viewed hp (by decide +kernel), ?_⟩
  rw [hp]
  exact ⟨c93_few _, c92_once (by decide +kernel), (c93_sets e2).1, c93_noEmpty _, e2, by decide, e3, e4⟩

/-- The program with gauges and histograms of C91, whose instruments are made before: delta counters, one of them with a hint, cumulative gauges and histograms. -/
example : ∃ z z' : Live.Sys Nat (List Bits) Nat,
    Ending (fun _ => 0) Asm.w Wh.fsub ViewEx.x (AsmV.views .delta .cumulative .histogram) 0 (AsmV.cs.map .make ++ ((AsmV.acts .delta .cumulative).map Whole.alone).map .run)
      ((AsmV.coll .delta .cumulative).map Whole.alone) z z' ∧
    Viewed ViewEx.x (AsmV.views .delta .cumulative .histogram) (makes (AsmV.cs.map .make ++ ((AsmV.acts .delta .cumulative).map Whole.alone).map .run)) z'.p 0 0
      (AsmV.v .delta .cumulative .histogram) scA (lit "gg") (AsmV.lookG .cumulative) ∧
    Viewed ViewEx.x (AsmV.views .delta .cumulative .histogram) (makes (AsmV.cs.map .make ++ ((AsmV.acts .delta .cumulative).map Whole.alone).map .run)) z'.p 0 0
      (AsmV.v .delta .cumulative .histogram) scA (lit "x") (AsmV.lookX .cumulative .histogram) ∧
    Viewed ViewEx.x (AsmV.views .delta .cumulative .histogram) (makes (AsmV.cs.map .make ++ ((AsmV.acts .delta .cumulative).map Whole.alone).map .run)) z'.p 0 0
      (AsmV.v .delta .cumulative .histogram) scA (lit "o") (AsmV.lookO .delta) ∧
    Live.OneByOne (fun _ => 0) Asm.w Wh.fsub ViewEx.x (AsmV.views .delta .cumulative .histogram) z'.p 0 0 (AsmV.v .delta .cumulative .histogram) scA (lit "gg")
      (AsmV.cs.map .make ++ ((AsmV.acts .delta .cumulative).map Whole.alone).map .run) ∧
    recordedVia z'.p 0 (AsmV.v .delta .cumulative .histogram) scA (lit "gg") (fun as => Describes (AsmV.lookG .cumulative).keys as Asm.ma)
      (syncActs (rest (AsmV.cs.map .make ++ ((AsmV.acts .delta .cumulative).map Whole.alone).map .run))) ≠ [] := by
  obtain ⟨r, h1, h2⟩ := AsmV.of_evaluated (t := .delta) (t' := .cumulative) (a := .histogram) (by decide +kernel)
  have hr : Pipeline.run (AsmV.cfg .delta .cumulative .histogram) (AsmV.rd .delta .cumulative .histogram) r.x (AsmV.coll .delta .cumulative) = some r.x' := by
    unfold AsmV.stages at h2
    simp only [Option.bind_eq_some_iff, Option.some.injEq] at h2
    obtain ⟨x, -, ⟨l, z⟩, g2, x', g3, rfl⟩ := h2
    refine run_app (states_run g2) ?_
    simp only [Pipeline.run, g3, Option.bind_some]
  obtain ⟨s, s', e1, -, e3, e4⟩ := C92_alone (fsub := Wh.fsub) h1 hr
  have hpos : ((AsmV.acts .delta .cumulative).map Whole.alone ++ (AsmV.coll .delta .cumulative).map Whole.alone).all (Live.possible Asm.w (AsmV.p .delta .cumulative .histogram)) = true := by
    decide +kernel
  have hv := AsmV.viewed (t := .delta) (t' := .cumulative) (a := .histogram) (n := lit "gg") (L := AsmV.lookG .cumulative) (by decide +kernel)
  obtain ⟨f1, f2, f3, f4⟩ := C93_before hv.made (List.all_eq_true.1 hpos) e1
  refine ⟨_, _, f1, by rw [f2]; exact hv, by rw [f2]; exact AsmV.viewed (by decide +kernel), by rw [f2]; exact AsmV.hinted (by decide +kernel) (by decide +kernel), f4 (e4 (AsmV.oneByOne (i := 3) (by decide +kernel) (by decide +kernel))), ?_⟩
  rw [f3, e3]
  exact AsmV.recorded (e := (AsmV.ig, ka, 3)) (by simp [AsmV.called]) (by unfold Rejected; decide +kernel) Asm.describes_ka (by decide +kernel)

end Examples

end Verif.Props
