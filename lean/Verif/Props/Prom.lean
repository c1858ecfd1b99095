import Verif.Proof.Prom
import Verif.Props.Live
import Verif.Props.Delivery
import Verif.Props.Export
import Verif.Examples.PromProgram

/-!
C101: what the Prometheus exporter is handed.

`Prom.Running farm w fsub x vs pipe start acts y`: a program as for C97, with readers given by views `vs`, whose reader number `pipe` is periodic and has the Prometheus exporter; `y.sent` are the
payloads which this was handed. `y.prog` is the program as it is when the exporter is left out, and `y.prog.z.s.sent` what an OTLP exporter would have been handed instead. `Prom.Closing`: such a
program until all calls on synchronous instruments have returned, and then until `ForceFlush` or `Shutdown` has returned.
-/

namespace Verif.Props
open Verif Verif.Attr Verif.Number Verif.Aggr Verif.Export Verif.Spec Verif.Assembly Verif.Prom
open Verif.Pipeline (numbers expPoints histPoints sentPoints ints NoEmptyList Describes Grouped)
open Verif.Delivery (makes measured)

variable {C G ν : Type} [DecidableEq C] {farm : Str → UInt64} {w : World C G} {fsub : Bits → Bits → Bits} {x : Views.Ext C} {pipe : Nat} {vs : List (Views.Views C)}
  {start : Int} {acts after : List (Delivery.Act ν)} {y y' : Prom.Sys C G ν} {k : Nat} {v : Views.Views C} {sc : Views.Scope} {n : Str} {L : Look C}

/-- C101 (programs). But for its exporter the program is one of those of C97. -/
theorem C101_program (h : Prom.Running farm w fsub x vs pipe start acts y) : Delivery.Running farm w fsub x vs pipe start acts y.prog :=
  ⟨h.resource, h.typed, h.observed, h.orderly, run_prog h.runs⟩

theorem _root_.Verif.Prom.Closing.prog (h : Prom.Closing farm w fsub x vs pipe start acts after y y') : Delivery.Closing farm w fsub x vs pipe start acts after y.prog y'.prog :=
  ⟨C101_program h.running, h.few, run_prog h.before, h.returned, h.quiet, h.call⟩

/-- C101 (payloads). As long as the program has not panicked, the exporter has been handed one payload for each collection: that which an OTLP exporter would have been handed, but for
exponential histograms, which are replaced by histograms with boundaries. -/
theorem C101_payloads (h : Prom.Running farm w fsub x vs pipe start acts y) (hp : y.panicked = false) :
    Pointwise (PayloadIn w.mapping) y.prog.z.s.sent y.sent ∧ y.sent.length = (y.prog.r.log.filter (fun a => decide (a.2 = .collect))).length := by
  have h1 := (run_agree (initial_agree _ _ _) h.runs).same hp
  exact ⟨h1, by rw [← h1.1]; exact (C97_reader (C101_program h)).2⟩

/-- C101 (payloads, in any case). Also if it has panicked, the payloads handed before are those which an OTLP exporter would have been handed; only that of the last collection is missing. -/
theorem C101_before (h : Prom.Running farm w fsub x vs pipe start acts y) :
    ∃ l more, y.prog.z.s.sent = l ++ more ∧ more.length ≤ 1 ∧ Pointwise (PayloadIn w.mapping) l y.sent :=
  (run_agree (initial_agree _ _ _) h.runs).first

theorem made_sent {s : Delivery.Sys C G ν} (h : Delivery.Running farm w fsub x vs pipe start acts s) : made s = s.z.s.sent.length := by
  rw [(C93_payloads h.live).1, made]
  have h1 := Delivery.run_collects h.runs
  have h2 : Delivery.collectsOf (Delivery.initial farm w fsub s.z.p vs pipe start).r.log = [] := rfl
  simp only [h2, List.length_nil, Nat.zero_add] at h1
  exact h1

/-- C101 (panics). The program has panicked exactly if for some positive bucket of an exponential histogram to be sent there are no boundaries. -/
theorem C101_panics (h : Prom.Running farm w fsub x vs pipe start acts y) :
    y.panicked = true ↔ ∃ p ∈ y.prog.z.s.sent, ∃ d ∈ allExp p, ¬ Bounded w.mapping d := by
  constructor
  · intro hp
    refine run_panic (initial_agree _ _ _) h.runs rfl hp ?_
    rw [made_sent (C101_program h)]
    exact Nat.le_of_eq (Nat.add_comm _ _)
  · rintro ⟨p, hp, d, hd, hb⟩
    refine Classical.byContradiction fun hn => hb ?_
    obtain ⟨p', -, h1⟩ := Pipeline.pointwise_mem_left (C101_payloads h (by simpa using hn)).1 hp
    exact payloadIn_bounded h1 d hd

/-- C101 (goes on, partial). Every program of C97 with an OTLP exporter can be run with the Prometheus exporter instead, if boundaries are available for all positive buckets to be sent. Without
this condition it panics: see `C101_wide_fails`. -/
theorem C101_goes_partial {s : Delivery.Sys C G ν} (h : Delivery.Running farm w fsub x vs pipe start acts s) (hb : ∀ p ∈ s.z.s.sent, ∀ d ∈ allExp p, Bounded w.mapping d) :
    ∃ y, Prom.Running farm w fsub x vs pipe start acts y ∧ y.prog = s ∧ y.panicked = false := by
  obtain ⟨y, h1, h2, h3⟩ := run_goes (y := Prom.initial farm w fsub s.z.p vs pipe start) (initial_agree _ _ _) rfl h.runs (by
    rw [made_sent h]
    exact Nat.le_of_eq (Nat.add_comm _ _)) hb
  subst h2
  exact ⟨y, ⟨h.resource, h.typed, h.observed, h.orderly, h1⟩, rfl, h3⟩

/-- C101 (fails for wide ranges). With the logarithm mapping, which the code uses for all scales, a program panics as soon as it exports a histogram whose scale is not positive, that is whose
values span a wide range, and which has a positive value. -/
theorem C101_wide_fails {exact : Int → Int → Bits} (hm : w.mapping = logMapping exact) (h : Prom.Running farm w fsub x vs pipe start acts y) {p : Payload} (hp : p ∈ y.prog.z.s.sent)
    {d : PExp} (hd : d ∈ allExp p) (hs : d.scale ≤ 0) (hpos : d.pos.2 ≠ []) : y.panicked = true := by
  refine (C101_panics h).2 ⟨p, hp, d, hd, ?_⟩
  rintro (h1 | h1)
  · exact hpos h1
  · exact h1 (by rw [hm, logMapping, if_pos (by omega)])

/-! ### Points -/

/-- C101 (numbers). The exporter has been handed exactly the points of sums and gauges which an OTLP exporter would have been handed. -/
theorem C101_numbers (h : Prom.Running farm w fsub x vs pipe start acts y) (hp : y.panicked = false) (lib : Library) (n : Str) :
    sentPoints numbers lib n y.sent = sentPoints numbers lib n y.prog.z.s.sent :=
  pointwise_eq (sent_in (C101_payloads h hp).1 (fun _ _ _ _ _ hd => numbers_in hd))

theorem has_data {acts : List (Live.Act ν)} {z : Live.Sys C G ν} (h : Viewed x vs (Live.makes acts) z.p pipe k v sc n L) (hp : Live.Running farm w fsub x vs pipe acts z) {pl : Payload}
    (hpl : pl ∈ z.s.sent) {m : PMetric} (hm : Has (sentScope sc) n pl m) : DataFor L.kind (if L.delta = true then .delta else .cumulative) m.data := by
  obtain ⟨e, he, hl, hm, hn⟩ := hm
  exact (C93_metric h hp pl hpl e he hl m hm hn).2

/-- The name is that of metrics of one kind, as for C93. -/
theorem viewed_live (h : Viewed x vs (makes acts) y.prog.z.p pipe k v sc n L) (hp : Prom.Running farm w fsub x vs pipe start acts y) {pl : Payload} (hpl : pl ∈ y.prog.z.s.sent) {m : PMetric}
    (hm : Has (sentScope sc) n pl m) : DataFor L.kind (if L.delta = true then .delta else .cumulative) m.data := by
  obtain ⟨lacts, h1, h2, -⟩ := C97_program (C101_program hp)
  rw [← h2] at h
  exact has_data h h1 hpl hm

/-- C101 (min/max/sum/count). Where these are shown under the name, the exporter has been handed exactly the points which an OTLP exporter would have been handed. -/
theorem C101_stats (h : Viewed x vs (makes acts) y.prog.z.p pipe k v sc n L) (hp : Prom.Running farm w fsub x vs pipe start acts y) (ha : y.panicked = false) (hk : L.kind = .mmsc) :
    sentPoints histPoints (sentScope sc) n y.sent = sentPoints histPoints (sentScope sc) n y.prog.z.s.sent := by
  refine pointwise_eq (sent_in (C101_payloads hp ha).1 (fun p hpl m b hm hd => ?_))
  have h1 := viewed_live h hp hpl hm
  cases hdat : m.data with
  | exp t ds => rw [hdat, hk] at h1; exact absurd h1.1 (by decide)
  | _ => rw [hdat] at hd; cases hd; exact pointwise_refl _

/-- C101 (histograms). Where a histogram is shown under the name, the exporter has been handed one histogram with boundaries for each exponential histogram which an OTLP exporter would have
been handed, with the same attributes, times, count, sum, minimum and maximum, and with the same positive buckets. -/
theorem C101_hists (h : Viewed x vs (makes acts) y.prog.z.p pipe k v sc n L) (hp : Prom.Running farm w fsub x vs pipe start acts y) (ha : y.panicked = false) (hk : L.kind = .histogram) :
    Pointwise (PointIn w.mapping) (sentPoints expPoints (sentScope sc) n y.prog.z.s.sent) (sentPoints histPoints (sentScope sc) n y.sent) := by
  refine sent_in (C101_payloads hp ha).1 (fun p hpl m b hm hd => ?_)
  have h1 := viewed_live h hp hpl hm
  cases hdat : m.data with
  | exp t ds => rw [hdat] at hd; obtain ⟨ds', rfl, h2⟩ := hd; exact h2
  | _ => rw [hdat, hk] at h1; simp [DataFor] at h1

omit [DecidableEq C] in
/-- C101 (fails for negative values). The buckets of a histogram with values below zero, which the positive buckets do not show, do not contain these: the bucket counts add up to less than the
count. -/
theorem C101_negative_fails {d : PExp} {d' : PHist} (h : PointIn w.mapping d d') (hc : d.count = d.zeroCount + d.pos.2.sum + d.neg.2.sum) (hn : d.neg.2.sum ≠ 0) :
    d'.counts.sum + d.neg.2.sum = d'.count ∧ d'.counts.sum < d'.count := by
  obtain ⟨-, -, -, -, h1, -, -, h2, h3⟩ := h
  have h4 : d'.counts.sum = d.zeroCount + d.pos.2.sum := by
    by_cases hp : d.pos.2 = []
    · rw [(h2 hp).2, hp]; simp
    · obtain ⟨-, -, -, h5⟩ := h3 hp
      rw [h5]
      simp
  rw [h4, h1, hc]
  omega

/-! ### When `ForceFlush` or `Shutdown` returns -/

omit [DecidableEq C] in
theorem recordedVia_same {p : Provider.Provider C ν} {as bs : List Pipeline.Act} (h : Pipeline.calls as = Pipeline.calls bs) (Q : List KV → Prop) :
    recordedVia p k v sc n Q as = recordedVia p k v sc n Q bs := by
  unfold recordedVia
  rw [h]

omit [DecidableEq C] in
theorem fewVia_same {p : Provider.Provider C ν} {keys : Option (List Str)} {lim : Nat} {as bs : List Pipeline.Act} (h : Pipeline.calls as = Pipeline.calls bs)
    (hf : FewVia w p k v sc n keys lim bs) : FewVia w p k v sc n keys lim as := by
  unfold FewVia at *
  rw [h]
  exact hf

omit [DecidableEq C] in
theorem makes_two (as bs : List (Delivery.Act ν)) : makes (as ++ bs) = makes as ++ makes bs := List.filterMap_append

theorem makes_before (h : Prom.Closing farm w fsub x vs pipe start acts after y y') : makes (acts ++ after) = makes acts := by
  rw [makes_two, h.quiet.1, List.append_nil]

/-- C101 (integer sums, cumulative). The last point handed to the exporter with the attributes `m` is the sum of all integers recorded with attributes of which `m` remain. -/
theorem C101_sum_last (h : Viewed x vs (makes acts) y'.prog.z.p pipe k v sc n L) (hsy : L.sync = true) (hp : Prom.Closing farm w fsub x vs pipe start acts after y y') (hn : L.num = .int64)
    (ha : L.kind = .monoSum ∨ L.kind = .nonMonoSum) (ht : L.delta = false)
    (hic : w.ignoreColl = false) (hf : FewVia w y'.prog.z.p k v sc n L.keys L.acfg.limit (measured acts))
    (hne : ∀ e ∈ Pipeline.calls (measured acts), NoEmptyList (e.1.attrs e.2.1)) (m : PMap)
    (hrec : recordedVia y'.prog.z.p k v sc n (fun as => Describes L.keys as m) (measured acts) ≠ []) :
    ((sentPoints numbers (sentScope sc) n y'.sent).filter (fun d => d.attrs = m)).getLast?.map (·.value) =
      some (.int (total64 (recordedVia y'.prog.z.p k v sc n (fun as => Describes L.keys as m) (measured acts)))) := by
  obtain ⟨lacts, coll, z, z', h1, h2, h3, h4, h5⟩ := C97_ends hp.prog
  have h6 : Pipeline.calls (Whole.syncActs (Live.rest lacts)) = Pipeline.calls (measured acts) := (Whole.calls_sync _).trans h5
  rw [C101_numbers hp.running hp.alive, ← h3]
  rw [← h2, ← recordedVia_same h6] at hrec ⊢
  rw [← h2, ← h4] at h
  rw [← h2] at hf
  exact C93_sum_last h hsy h1 hn ha ht hic (fewVia_same h6 hf) (by rw [h5]; exact hne) m hrec

/-- C101 (integer sums, delta). The integers handed to the exporter in points with exactly the attributes `m` add up to the integers recorded with attributes of which `m` remain. -/
theorem C101_sum_sent (h : Viewed x vs (makes acts) y'.prog.z.p pipe k v sc n L) (hsy : L.sync = true) (hp : Prom.Closing farm w fsub x vs pipe start acts after y y') (hn : L.num = .int64)
    (ha : L.kind = .monoSum ∨ L.kind = .nonMonoSum) (ht : L.delta = true)
    (hic : w.ignoreColl = false) (hf : FewVia w y'.prog.z.p k v sc n L.keys L.acfg.limit (measured acts)) (m : PMap) :
    total64 (ints ((sentPoints numbers (sentScope sc) n y'.sent).filter (fun d => d.attrs = m))) =
      total64 (recordedVia y'.prog.z.p k v sc n (fun as => Describes L.keys as m) (measured acts)) := by
  obtain ⟨lacts, coll, z, z', h1, h2, h3, h4, h5⟩ := C97_ends hp.prog
  have h6 : Pipeline.calls (Whole.syncActs (Live.rest lacts)) = Pipeline.calls (measured acts) := (Whole.calls_sync _).trans h5
  rw [C101_numbers hp.running hp.alive, ← h3]
  rw [← h2, ← recordedVia_same h6]
  rw [← h2, ← h4] at h
  rw [← h2] at hf
  exact C93_sum_sent h hsy h1 hn ha ht hic (fewVia_same h6 hf) m

/-- C101 (float sums, cumulative). The last point handed to the exporter with the attributes `m` is the result of adding up, in some order, all floats recorded with attributes of which `m`
remain. -/
theorem C101_float_last (h : Viewed x vs (makes acts) y'.prog.z.p pipe k v sc n L) (hsy : L.sync = true) (hp : Prom.Closing farm w fsub x vs pipe start acts after y y') (hn : L.num = .float64)
    (ha : L.kind = .monoSum ∨ L.kind = .nonMonoSum) (ht : L.delta = false)
    (hic : w.ignoreColl = false) (hf : FewVia w y'.prog.z.p k v sc n L.keys L.acfg.limit (measured acts))
    (hne : ∀ e ∈ Pipeline.calls (measured acts), NoEmptyList (e.1.attrs e.2.1)) (m : PMap)
    (hrec : recordedVia y'.prog.z.p k v sc n (fun as => Describes L.keys as m) (measured acts) ≠ []) :
    ∃ b vals, ((sentPoints numbers (sentScope sc) n y'.sent).filter (fun d => d.attrs = m)).getLast?.map (·.value) = some (.double b) ∧
      vals.Perm (recordedVia y'.prog.z.p k v sc n (fun as => Describes L.keys as m) (measured acts)) ∧ SumOf 0 w.fadd b vals := by
  obtain ⟨lacts, coll, z, z', h1, h2, h3, h4, h5⟩ := C97_ends hp.prog
  have h6 : Pipeline.calls (Whole.syncActs (Live.rest lacts)) = Pipeline.calls (measured acts) := (Whole.calls_sync _).trans h5
  rw [C101_numbers hp.running hp.alive, ← h3]
  rw [← h2, ← recordedVia_same h6] at hrec ⊢
  rw [← h2, ← h4] at h
  rw [← h2] at hf
  exact C93_float_last h hsy h1 hn ha ht hic (fewVia_same h6 hf) (by rw [h5]; exact hne) m hrec

/-- C101 (nothing else, numbers). Every number point handed to the exporter under the name shows what remains of attributes with which something was recorded. -/
theorem C101_known (h : Viewed x vs (makes acts) y'.prog.z.p pipe k v sc n L) (hsy : L.sync = true) (hp : Prom.Closing farm w fsub x vs pipe start acts after y y')
    (ha : L.kind = .monoSum ∨ L.kind = .nonMonoSum ∨ L.kind = .gauge)
    (hf : FewVia w y'.prog.z.p k v sc n L.keys L.acfg.limit (measured acts)) (d : PNumber) (hd : d ∈ sentPoints numbers (sentScope sc) n y'.sent) :
    recordedVia y'.prog.z.p k v sc n (fun as => Describes L.keys as d.attrs) (measured acts) ≠ [] := by
  obtain ⟨lacts, coll, z, z', h1, h2, h3, h4, h5⟩ := C97_ends hp.prog
  have h6 : Pipeline.calls (Whole.syncActs (Live.rest lacts)) = Pipeline.calls (measured acts) := (Whole.calls_sync _).trans h5
  rw [C101_numbers hp.running hp.alive, ← h3] at hd
  rw [← h2, ← recordedVia_same h6]
  rw [← h2, ← h4] at h
  rw [← h2] at hf
  exact C93_known h hsy h1 ha (fewVia_same h6 hf) d hd

theorem pointIn_attrs {mp : Mapping} {l : List PExp} {l' : List PHist} (h : Pointwise (PointIn mp) l l') (m : PMap) :
    Pointwise (PointIn mp) (l.filter (fun d => d.attrs = m)) (l'.filter (fun d => d.attrs = m)) :=
  Pipeline.pointwise_filter _ _ h (fun a b hab => by rw [hab.2.2.1])

/-- C101 (histograms, cumulative). The last point handed to the exporter with the attributes `m` is the histogram with boundaries for an exponential histogram, with the configuration of the look,
made of exactly the values recorded with attributes of which `m` remain. -/
theorem C101_hist_last (h : Viewed x vs (makes acts) y'.prog.z.p pipe k v sc n L) (hsy : L.sync = true) (hp : Prom.Closing farm w fsub x vs pipe start acts after y y')
    (ha : L.kind = .histogram) (ht : L.delta = false)
    (hic : w.ignoreColl = false) (hf : FewVia w y'.prog.z.p k v sc n L.keys L.acfg.limit (measured acts))
    (hne : ∀ e ∈ Pipeline.calls (measured acts), NoEmptyList (e.1.attrs e.2.1)) (m : PMap)
    (hrec : recordedVia y'.prog.z.p k v sc n (fun as => Describes L.keys as m) (measured acts) ≠ []) :
    ∃ d d' vals, ((sentPoints histPoints (sentScope sc) n y'.sent).filter (fun d => d.attrs = m)).getLast? = some d' ∧ PointIn w.mapping d d' ∧
      vals.Perm (recordedVia y'.prog.z.p k v sc n (fun as => Describes L.keys as m) (measured acts)) ∧
      ShowsHist (reader w y'.prog.z.p pipe) (w.hist L.num L.acfg.hist) L.num vals d := by
  have hpw := pointIn_attrs (C101_hists (n := n) (by rw [makes_before hp]; exact h) hp.running hp.alive ha) m
  obtain ⟨lacts, coll, z, z', h1, h2, h3, h4, h5⟩ := C97_ends hp.prog
  have h6 : Pipeline.calls (Whole.syncActs (Live.rest lacts)) = Pipeline.calls (measured acts) := (Whole.calls_sync _).trans h5
  rw [← h2, ← recordedVia_same h6] at hrec ⊢
  rw [← h2, ← h4] at h
  rw [← h2] at hf
  obtain ⟨d, vals, g1, g2, g3⟩ := C93_hist_last h hsy h1 ha ht hic (fewVia_same h6 hf) (by rw [h5]; exact hne) m hrec
  rw [h3] at g1
  obtain ⟨d', g4, g5⟩ := pointwise_last hpw g1
  exact ⟨d, d', vals, g4, g5, g2, g3⟩

/-- C101 (min/max/sum/count of floats, cumulative). The last point handed to the exporter with the attributes `m` shows these of exactly the values recorded with attributes of which `m`
remain. -/
theorem C101_mmsc_last (h : Viewed x vs (makes acts) y'.prog.z.p pipe k v sc n L) (hsy : L.sync = true) (hp : Prom.Closing farm w fsub x vs pipe start acts after y y') (hn : L.num = .float64)
    (ha : L.kind = .mmsc) (ht : L.delta = false)
    (hic : w.ignoreColl = false) (hf : FewVia w y'.prog.z.p k v sc n L.keys L.acfg.limit (measured acts))
    (hne : ∀ e ∈ Pipeline.calls (measured acts), NoEmptyList (e.1.attrs e.2.1)) (m : PMap)
    (hrec : recordedVia y'.prog.z.p k v sc n (fun as => Describes L.keys as m) (measured acts) ≠ []) :
    ∃ d vals, ((sentPoints histPoints (sentScope sc) n y'.sent).filter (fun d => d.attrs = m)).getLast? = some d ∧
      vals.Perm (recordedVia y'.prog.z.p k v sc n (fun as => Describes L.keys as m) (measured acts)) ∧ ShowsStats w.fadd vals d := by
  rw [C101_stats (by rw [makes_before hp]; exact h) hp.running hp.alive ha]
  obtain ⟨lacts, coll, z, z', h1, h2, h3, h4, h5⟩ := C97_ends hp.prog
  have h6 : Pipeline.calls (Whole.syncActs (Live.rest lacts)) = Pipeline.calls (measured acts) := (Whole.calls_sync _).trans h5
  rw [← h3]
  rw [← h2, ← recordedVia_same h6] at hrec ⊢
  rw [← h2, ← h4] at h
  rw [← h2] at hf
  exact C93_mmsc_last h hsy h1 hn ha ht hic (fewVia_same h6 hf) (by rw [h5]; exact hne) m hrec

/-! ### Examples -/

section Examples
open Verif.Examples Verif.Examples.Asm
open Verif.Views (lit)
open Verif.Pipeline (pointsIn)
open Verif.Instruments Verif.Launched
open Verif.Launcher (documented)

/-- What is known of a concrete program of `Verif.Examples.Pm`. -/
theorem c101_case {a : Launcher.Preference} {hs : Pm.Shape} {ct : Ln.Made} {l : Dl.Last} (h0 : ct.2 = .none) (h : Pm.evaluated a hs ct l = true) (h1 : Dl.hasB a ct l (lit "n") = true) :
    ∃ s s', Pm.stages a hs ct l = some (s, s') ∧
      Prom.Closing (fun _ => 0) (Pm.w a hs) Wh.fsub ViewEx.x (Ln.vs a) 0 1 (Dl.acts ct l) (Dl.after a ct l) s s' ∧ s'.prog.r.threads[1]? = some ⟨l.kind, .done⟩ ∧
      Viewed ViewEx.x (Ln.vs a) (makes (Dl.acts ct l)) s'.prog.z.p 0 0 (view (Pm.out hs) (documented a)) scA (lit "n") (look (Pm.out hs) a ct.1 (lit "s")) ∧
      FewVia (Pm.w a hs) s'.prog.z.p 0 (view (Pm.out hs) (documented a)) scA (lit "n") none 2000 (measured (Dl.acts ct l)) ∧
      ∀ e ∈ Pipeline.calls (measured (Dl.acts ct l)), NoEmptyList (e.1.attrs e.2.1) := by
  obtain ⟨s, s', e1, e2, e3, e4⟩ := Pm.of_evaluated h
  have hb : (lit "n" : Str) ≠ lit "y" := by decide +kernel
  have hn : Named (makes (Dl.acts ct l)) (Dl.p a ct l) 0 scA ct.1 (lit "n") (lit "s") := by
    refine Dl.named h1 (fun d hd hn => ?_)
    have hd' : d = ct.1.desc (lit "n") ct.2.text (lit "s") ∨ d = Ctor.int64ObservableCounter.desc (lit "y") [] (lit "s") := by
      cases l <;> simpa [Dl.cs, Dl.Last.mark, requests] using hd
    rcases hd' with rfl | rfl
    · rw [h0]; rfl
    · exact absurd hn.symm hb
  refine ⟨s, s', e1, e4, e3, ?_, ?_, Dl.noEmpty⟩
  · rw [e2]
    refine Named.viewed (e := Pm.out hs) (Ln.launch a) ?_ hn
    rw [Dl.makes_acts]
    unfold Dl.p
    rfl
  · rw [e2]
    exact Launched.Few.via Dl.few (Pm.out hs) (Ln.pc a) (documented a) scA

/-- The boundaries and counts of the histograms handed to the exporter under a name, payload by payload. -/
def c101Sent (s : Pm.S) (n : Str) : List (List (List Bits × List Nat)) := s.sent.map (fun pl => (pointsIn histPoints (sentScope scA) n pl).map (fun d => (d.bounds, d.counts)))

/-- "cumulative", `ForceFlush`: a counter, as in the example for C97. -/
example : ∃ s s', Pm.stages .cumulative .narrow (.int64Counter, .none) .flush = some (s, s') ∧
    Prom.Closing (fun _ => 0) (Pm.w .cumulative .narrow) Wh.fsub ViewEx.x (Ln.vs .cumulative) 0 1 (Dl.acts (.int64Counter, .none) .flush) (Dl.after .cumulative (.int64Counter, .none) .flush) s s' ∧
    s'.sent.map (fun pl => (pointsIn numbers (sentScope scA) (lit "n") pl).map (·.value)) = [[.int 5, .int 7], [.int 5, .int 9]] := by
  obtain ⟨s, s', h1, h2, -⟩ := c101_case (a := .cumulative) (hs := .narrow) (ct := (.int64Counter, .none)) (l := .flush) rfl (by decide +kernel) (by decide +kernel)
  obtain ⟨q, e1, e2⟩ : ∃ q, Pm.stages .cumulative .narrow (.int64Counter, .none) .flush = some q ∧
      q.2.sent.map (fun pl => (pointsIn numbers (sentScope scA) (lit "n") pl).map (·.value)) = [[.int 5, .int 7], [.int 5, .int 9]] := exists_of_eval (by decide +kernel)
  obtain rfl : (s, s') = q := by rw [h1] at e1; exact Option.some.inj e1
  exact ⟨s, s', h1, h2, e2⟩

/-- "cumulative", `Shutdown`: a histogram of scale 1. All values are in the bucket between the boundaries 3 and 4 of the mapping of the example. The hypotheses of `C101_hist_last` are met. -/
example : ∃ s s', Pm.stages .cumulative .narrow (.float64Histogram, .none) .shutdown = some (s, s') ∧
    Prom.Closing (fun _ => 0) (Pm.w .cumulative .narrow) Wh.fsub ViewEx.x (Ln.vs .cumulative) 0 1 (Dl.acts (.float64Histogram, .none) .shutdown)
      (Dl.after .cumulative (.float64Histogram, .none) .shutdown) s s' ∧
    Viewed ViewEx.x (Ln.vs .cumulative) (makes (Dl.acts (.float64Histogram, .none) .shutdown)) s'.prog.z.p 0 0 (view (Pm.out .narrow) (documented .cumulative)) scA (lit "n")
      (look (Pm.out .narrow) .cumulative .float64Histogram (lit "s")) ∧
    c101Sent s' (lit "n") = [[([0, 3, 4], [0, 0, 1, 0]), ([0, 3, 4], [0, 0, 1, 0])], [([0, 3, 4], [0, 0, 1, 0]), ([0, 3, 4], [0, 0, 2, 0])]] := by
  obtain ⟨s, s', h1, h2, -, h3, -⟩ := c101_case (a := .cumulative) (hs := .narrow) (ct := (.float64Histogram, .none)) (l := .shutdown) rfl (by decide +kernel) (by decide +kernel)
  obtain ⟨q, e1, e2⟩ : ∃ q, Pm.stages .cumulative .narrow (.float64Histogram, .none) .shutdown = some q ∧
      c101Sent q.2 (lit "n") = [[([0, 3, 4], [0, 0, 1, 0]), ([0, 3, 4], [0, 0, 1, 0])], [([0, 3, 4], [0, 0, 1, 0]), ([0, 3, 4], [0, 0, 2, 0])]] := exists_of_eval (by decide +kernel)
  obtain rfl : (s, s') = q := by rw [h1] at e1; exact Option.some.inj e1
  exact ⟨s, s', h1, h2, h3, e2⟩

/-- A histogram of scale 0: the program panics when the reader calls the exporter for the first time; nothing has been handed to it. -/
example : ∃ s, Prom.Running (fun _ => 0) (Pm.w .cumulative .wide) Wh.fsub ViewEx.x (Ln.vs .cumulative) 0 1 (Pm.toFirst .cumulative (.float64Histogram, .none) .flush) s ∧
    s.panicked = true ∧ s.sent = [] ∧ s.prog.z.s.sent.map (fun pl => (allExp pl).map (fun d => (d.scale, d.pos.2))) = [[(0, [1]), (0, [1])]] := by
  obtain ⟨s, h1, h2⟩ := Pm.of_first (a := .cumulative) (h := .wide) (ct := (.float64Histogram, .none)) (k := .flush) (by decide +kernel)
  obtain ⟨q, e1, e2⟩ : ∃ q, Pm.runIn .cumulative .wide (Pm.initial .cumulative .wide (.float64Histogram, .none) .flush) (Pm.toFirst .cumulative (.float64Histogram, .none) .flush) = some q ∧
      (q.panicked = true ∧ q.sent.length = 0 ∧ q.prog.z.s.sent.map (fun pl => (allExp pl).map (fun d => (d.scale, d.pos.2))) = [[(0, [1]), (0, [1])]]) := exists_of_eval (by decide +kernel)
  obtain rfl : s = q := by rw [h1] at e1; exact Option.some.inj e1
  exact ⟨s, h2, e2.1, List.length_eq_zero_iff.1 e2.2.1, e2.2.2⟩

/-- Negative values: the buckets are empty, the count is not. -/
example : ∃ s s', Pm.stages .cumulative .negative (.float64Histogram, .none) .flush = some (s, s') ∧
    Prom.Closing (fun _ => 0) (Pm.w .cumulative .negative) Wh.fsub ViewEx.x (Ln.vs .cumulative) 0 1 (Dl.acts (.float64Histogram, .none) .flush)
      (Dl.after .cumulative (.float64Histogram, .none) .flush) s s' ∧
    s'.sent.map (fun pl => (pointsIn histPoints (sentScope scA) (lit "n") pl).map (fun d => (d.counts, d.count))) = [[([0, 0], 1), ([0, 0], 1)], [([0, 0], 1), ([0, 0], 2)]] := by
  obtain ⟨s, s', h1, h2, -⟩ := c101_case (a := .cumulative) (hs := .negative) (ct := (.float64Histogram, .none)) (l := .flush) rfl (by decide +kernel) (by decide +kernel)
  obtain ⟨q, e1, e2⟩ : ∃ q, Pm.stages .cumulative .negative (.float64Histogram, .none) .flush = some q ∧
      q.2.sent.map (fun pl => (pointsIn histPoints (sentScope scA) (lit "n") pl).map (fun d => (d.counts, d.count))) = [[([0, 0], 1), ([0, 0], 1)], [([0, 0], 1), ([0, 0], 2)]] :=
    exists_of_eval (by decide +kernel)
  obtain rfl : (s, s') = q := by rw [h1] at e1; exact Option.some.inj e1
  exact ⟨s, s', h1, h2, e2⟩

end Examples

end Verif.Props
