import Verif.Examples.RuntimeProgram

/-!
C104: the metrics of the Go runtime, from the values read from the runtime to what is sent.

`seriesOf` (see C58) says under which name, with which attributes and as which kind of instrument a runtime metric is reported. `Offers`: what the runtime offers. `Registered`: the
runtime instrumentation was started, and has a meter for itself. `Ran`: its callback ran once in the collection, with these values read.
-/

namespace Verif.Props
open Verif Verif.Attr Verif.Number Verif.Export Verif.Assembly Verif.Instruments Verif.Launched Verif.Runtime
open Verif.Pipeline (numbers pointsIn)
open Verif.Live (makes rest)
open Verif.Front (IKind)
open Verif.Views (Tempo)
open Verif.Launcher (documented)

variable {C G ν : Type} [DecidableEq C] {lx : Launcher.Ext} {lw : Launcher.World} {opts : List Launcher.Opt} {pref : Launcher.Preference} {pc : Launcher.PipelineConfig}
  {sel : IKind → Tempo} {e : Outside C G} {k : Nat} {sc : Views.Scope} {acts : List (Live.Act ν)} {z : Live.Sys C G ν}
  {all : List (Str × VKind)} {isFloat : Nat → Bool} {meter : Want → Option Nat} {r : Reg Nat}

theorem gauge_kind {w : Want} (h : w.kind = .gauge) : (promise w.ctor).output = .gauge := by
  obtain ⟨kind, f, n, u, pt⟩ := w
  cases h
  cases f <;> rfl

theorem sum_kind {w : Want} (h : w.kind ≠ .gauge) : (promise w.ctor).output ≠ .gauge := by
  obtain ⟨kind, f, n, u, pt⟩ := w
  cases kind <;> cases f <;> first | exact absurd rfl h | (intro h'; cases h')

theorem numberOf_eq (w : Want) : numberOf w = (promise w.ctor).num := by
  obtain ⟨kind, f, n, u, pt⟩ := w
  cases kind <;> cases f <;> rfl

theorem series_three {n : Str} {k : VKind} {w : Want} {a : List (Str × Str)} (h : seriesOf n k = some (w, a)) :
    (w.kind = .counter ∨ w.kind = .upDown ∨ w.kind = .gauge) ∧ (w.isFloat = true ↔ k = .float64) := by
  unfold seriesOf at h
  split at h
  · rename_i m _
    split at h
    · cases h
    · obtain ⟨w', h1, h2⟩ := Option.map_eq_some_iff.1 h
      cases h2
      unfold wanted at h1
      split at h1 <;> cases h1 <;> simp
  · cases h

/-- The data of a metric of the runtime: a gauge; a sum, monotonic for counters. Sums are cumulative, except counters under the preference "delta". -/
def RuntimeData (pref : Launcher.Preference) (w : Want) : PData → Prop
  | .gauge _ => w.kind = .gauge
  | .sum mono t _ => (w.kind = .counter ∧ mono = true ∧ (pref = .delta ∧ t = .delta ∨ pref ≠ .delta ∧ t = .cumulative)) ∨ (w.kind = .upDown ∧ mono = false ∧ t = .cumulative)
  | _ => False

/-- C104 (unit, kind and temporality). In every payload sent, whatever the values, a metric of the runtime instrumentation has the unit taken from the name of the runtime metric, and is a
gauge, a monotonic or a non-monotonic sum as its row of the table says; its numbers are floats if the runtime metric is one. -/
theorem C104_metric (hl : Launch lx lw opts pref pc sel) (hp : Runs e pc sel acts z) (ho : Offers all) (hr : Registered z.p k sc all isFloat meter r acts)
    {d0 : Str × VKind} {w : Want} {a0 : List (Str × Str)} (hd0 : d0 ∈ all) (hw0 : seriesOf d0.1 d0.2 = some (w, a0)) (pl : Payload) (hpl : pl ∈ z.s.sent) (s : PScope)
    (hs : s ∈ pl.scopes) (hlib : s.library = sentScope sc) (m : PMetric) (hm : m ∈ s.metrics) (hn : m.name = w.name) :
    m.unit = w.unit ∧ RuntimeData pref w m.data ∧ (numberOf w = .float64 ↔ d0.2 = .float64) := by
  obtain ⟨h1, h2⟩ := C94_metric hl (hr.named ho ⟨hd0, hw0, rfl⟩) hp pl hpl s hs hlib m hm hn
  have hk := series_three hw0
  refine ⟨h1, ?_, by rw [← hk.2, numberOf]; cases w.isFloat <;> simp⟩
  replace hk := hk.1
  generalize m.data = dd at h2
  obtain ⟨kind, f, n, u, pt⟩ := w
  cases pref <;> cases kind <;> cases f <;> cases dd <;> simp [Want.ctor, RuntimeData, outputOf, promise, Ctor.kinds, documented] at h2 hk ⊢ <;> exact h2

/-- C104 (gauges, and sums which are reported as cumulative ones). For every collection in which the callback ran: under each name, the payload has exactly one point for each runtime
metric which is reported under this name and whose value is accepted, with its classes as attributes, and the value which was read. -/
theorem C104_sent (hl : Launch lx lw opts pref pc sel) (hp : Runs e pc sel acts z) (ho : Offers all) (hr : Registered z.p k sc all isFloat meter r acts)
    {d0 : Str × VKind} {w : Want} {a0 : List (Str × Str)} (hd0 : d0 ∈ all) (hw0 : seriesOf d0.1 d0.2 = some (w, a0))
    (hw : Waits e pc sel z.p acts) (hin : InTurn e pc sel z.p k w.name acts) (hd : Finished z.p k w.name z) (ht : documented pref w.ctor.kinds.2 = .cumulative ∨ w.kind = .gauge)
    {t : Nat} (htl : t < (Whole.collections (rest acts)).length) {read : Str → VKind × Bits} (hran : Ran z.p k all isFloat r (rest acts) t read) :
    ∃ pl, z.s.sent[t]? = some pl ∧ ∃ ds : List (Str × VKind), ds.Nodup ∧
      (∀ d, d ∈ ds ↔ d ∈ all ∧ (∃ a, ReportedAs d w.name a) ∧ Accepts w.ctor (read d.1).2) ∧
      Pointwise (fun d p => ∃ a, ReportedAs d w.name a ∧ HasTexts a p.attrs ∧ NumOf (numberOf w) (single e w.ctor (read d.1).2) p.value) ds
        (pointsIn numbers (sentScope sc) w.name pl) := by
  rw [numberOf_eq]
  have hu : Under all w.name d0 w a0 := ⟨hd0, hw0, rfl⟩
  obtain ⟨pl, h1, ds, h2, h3, h4⟩ := once_cumulative hl (hr.named ho hu) hp (ctor_observed w) hw hin hd (ht.imp id gauge_kind) htl (hran.few ho hr _) (hran.once ho hr _)
  refine ⟨pl, h1, ds, h2, fun d => (h3 d).trans ?_, h4.1, fun i d p hi hp' => ?_⟩
  · constructor
    · rintro ⟨w', a, hu', hacc⟩
      exact ⟨hu'.1, ⟨a, w', hu'.2⟩, hacc⟩
    · rintro ⟨g1, ⟨a, w', g2⟩, g3⟩
      exact ⟨w', a, ⟨g1, g2⟩, g3⟩
  · obtain ⟨g1, g2⟩ := h4.2 i d p hi hp'
    obtain ⟨w', a, hu', -⟩ := (h3 d).1 (List.mem_of_getElem? hi)
    rw [setOf_eq hu'.2.1] at g1
    exact ⟨a, ⟨w', hu'.2⟩, (series_short hu'.2.1 (ho.short d hu'.1).1).has g1, g2⟩

/-- C104 (sums which are reported as deltas). When the callback ran in every collection: the payload of each collection has, under each name, exactly one point for each runtime metric
which is reported under this name, whose value is accepted, and changed since the collection before, or was not accepted in that one; its value is the difference, or the whole value.
(`hend`: what is observed after the last collection does not have the attributes for overflow.) -/
theorem C104_delta (hl : Launch lx lw opts pref pc sel) (hp : Runs e pc sel acts z) (ho : Offers all) (hr : Registered z.p k sc all isFloat meter r acts)
    {d0 : Str × VKind} {w : Want} {a0 : List (Str × Str)} (hd0 : d0 ∈ all) (hw0 : seriesOf d0.1 d0.2 = some (w, a0))
    (hw : Waits e pc sel z.p acts) (hin : InTurn e pc sel z.p k w.name acts) (hd : Finished z.p k w.name z) (ht : documented pref w.ctor.kinds.2 = .delta) (hg : w.kind ≠ .gauge)
    {read : Nat → Str → VKind × Bits} (hran : ∀ t, t < (Whole.collections (rest acts)).length → Ran z.p k all isFloat r (rest acts) t (read t))
    (hend : ∀ o ∈ observedOn z.p k w.ctor w.name (rest acts), (Whole.collections (rest acts)).length ≤ o.1 → shown none o.2.2.1 ≠ overflowSet)
    {t : Nat} (htl : t < (Whole.collections (rest acts)).length) :
    ∃ pl, z.s.sent[t]? = some pl ∧ ∃ ds : List (Str × VKind), ds.Nodup ∧
      (∀ d, d ∈ ds ↔ d ∈ all ∧ (∃ a, ReportedAs d w.name a) ∧ Accepts w.ctor (read t d.1).2 ∧
        ∀ t', t = t' + 1 → Accepts w.ctor (read t' d.1).2 → Moved e (numberOf w) (single e w.ctor (read t d.1).2) (single e w.ctor (read t' d.1).2)) ∧
      Pointwise (fun d p => ∃ a, ReportedAs d w.name a ∧ HasTexts a p.attrs ∧
        ((∃ t', t = t' + 1 ∧ Accepts w.ctor (read t' d.1).2 ∧
            NumOf (numberOf w) (difference e (numberOf w) (single e w.ctor (read t d.1).2) (single e w.ctor (read t' d.1).2)) p.value) ∨
          ((∀ t', t = t' + 1 → ¬ Accepts w.ctor (read t' d.1).2) ∧ NumOf (numberOf w) (single e w.ctor (read t d.1).2) p.value))) ds
        (pointsIn numbers (sentScope sc) w.name pl) := by
  rw [numberOf_eq]
  have hu : Under all w.name d0 w a0 := ⟨hd0, hw0, rfl⟩
  have hov : ∀ o ∈ observedOn z.p k w.ctor w.name (rest acts), Called z.p k w.name o.2.1 → shown none o.2.2.1 ≠ overflowSet := by
    intro o ho' hc
    by_cases hlt : o.1 < (Whole.collections (rest acts)).length
    · have hon := (hran o.1 hlt).once ho hr (n := w.name) w.ctor
      obtain ⟨d, hd', h3⟩ := hon.only o ho' rfl hc
      rw [h3, shown_all (hon.keys d hd')]
      obtain ⟨w', a, hu', -⟩ := hd'
      rw [setOf_eq hu'.2.1]
      exact (series_short hu'.2.1 (ho.short d hu'.1).1).overflow
    · exact hend o ho' (by omega)
  obtain ⟨pl, h1, ds, h2, h3, h4⟩ := once_delta hl (hr.named ho hu) hp (ctor_observed w) hw hin hd ht (sum_kind hg) (fun t ht => (hran t ht).few ho hr _) hov htl
    (fun t ht => (hran t ht).once ho hr _) (by
      rintro t t' d d' ⟨w1, a1, hu1, -⟩ ⟨w2, a2, hu2, -⟩ he
      rw [setOf_eq hu1.2.1, setOf_eq hu2.2.1] at he
      exact ho.unique hu1.1 hu2.1 (ho.distinct hu1 hu2 he))
  refine ⟨pl, h1, ds, h2, fun d => (h3 d).trans ?_, h4.1, fun i d p hi hp' => ?_⟩
  · constructor
    · rintro ⟨⟨w', a, hu', hacc⟩, hm⟩
      exact ⟨hu'.1, ⟨a, w', hu'.2⟩, hacc, fun t' ht' hacc' => hm t' ht' ⟨w', a, hu', hacc'⟩⟩
    · rintro ⟨g1, ⟨a, w', g2⟩, g3, g4⟩
      exact ⟨⟨w', a, ⟨g1, g2⟩, g3⟩, fun t' ht' ⟨_, _, _, hacc'⟩ => g4 t' ht' hacc'⟩
  · obtain ⟨g1, g2⟩ := h4.2 i d p hi hp'
    obtain ⟨⟨w', a, hu', -⟩, -⟩ := (h3 d).1 (List.mem_of_getElem? hi)
    rw [setOf_eq hu'.2.1] at g1
    refine ⟨a, ⟨w', hu'.2⟩, (series_short hu'.2.1 (ho.short d hu'.1).1).has g1, ?_⟩
    rcases g2 with ⟨t', g2, ⟨_, _, _, g3⟩, g4⟩ | ⟨g2, g3⟩
    · exact .inl ⟨t', g2, g3, g4⟩
    · exact .inr ⟨fun t' ht' hacc' => g2 t' ht' ⟨w', a, hu', hacc'⟩, g3⟩

/-! ### A concrete program -/

section Examples
open Verif.Examples
open Verif.Examples.Asm (scA)
open Verif.Views (lit)
open Verif.Examples.Rt (free objects gogc mutex wMem wGogc wMutex aFree aObjects)

theorem c104_offers : Offers Rt.all := by
  refine ⟨by decide +kernel, by decide +kernel, by decide +kernel, ?_⟩
  have h : ∀ d ∈ Rt.all, ∀ d' ∈ Rt.all, (match seriesOf d.1 d.2, seriesOf d'.1 d'.2 with
      | some s, some s' => decide (s.1.name = s'.1.name → s.1.unit = s'.1.unit ∧ s.1.isFloat = s'.1.isFloat)
      | _, _ => true) = true := by decide +kernel
  intro d hd d' hd' w a w' a' h1 h2
  have := h d hd d' hd'
  rw [h1, h2] at this
  exact of_decide_eq_true this

instance c104Dec' : DecidableEq (Nat × List (Str × Str) × Bits) := inferInstance
instance c104Dec : DecidableEq (Want × List (Str × Str)) := inferInstance

theorem c104_series : seriesOf free .uint64 = some (wMem, aFree) ∧ seriesOf objects .uint64 = some (wMem, aObjects) ∧ seriesOf gogc .uint64 = some (wGogc, []) ∧
    seriesOf mutex .float64 = some (wMutex, []) := ⟨by decide +kernel, by decide +kernel, by decide +kernel, by decide +kernel⟩

theorem c104_called {a : Launcher.Preference} {z : Live.Sys Nat (List Bits) Nat} (hz : z.p = Rt.p a Rt.cs)
    (h : ((Rt.p a Rt.cs).ordered[0]?).map (fun m => m.insts.map (·.desc.name)) = some [wMem.name, wGogc.name, wMutex.name]) :
    Called z.p 0 wMem.name 0 ∧ Called z.p 0 wGogc.name 2 ∧ Called z.p 0 wMutex.name 4 := by
  obtain ⟨m, h1, h2⟩ := Option.map_eq_some_iff.1 h
  have key : ∀ i nm, [wMem.name, wGogc.name, wMutex.name][i]? = some nm → Called z.p 0 nm (instAddr 0 i) := by
    intro i nm hi
    rw [← h2, List.getElem?_map] at hi
    obtain ⟨o, h3, h4⟩ := Option.map_eq_some_iff.1 hi
    exact ⟨m, i, o, by rw [hz]; exact h1, h3, h4, rfl⟩
  exact ⟨key 0 _ rfl, key 1 _ rfl, key 2 _ rfl⟩

theorem c104_registered {a : Launcher.Preference} {z : Live.Sys Nat (List Bits) Nat} (hz : z.p = Rt.p a Rt.cs)
    (h : ((Rt.p a Rt.cs).ordered[0]?).map (fun m => m.insts.map (·.desc.name)) = some [wMem.name, wGogc.name, wMutex.name])
    (hs : ((Rt.p a Rt.cs).ordered[0]?).map (·.scope) = some scA) :
    Registered z.p 0 scA Rt.all Rt.isFloat Rt.meter Rt.reg (Rt.acts Rt.cs Rt.body) := by
  obtain ⟨h1, h2, h3⟩ := c104_called hz h
  refine ⟨?_, ?_, ?_, by decide +kernel⟩
  · obtain ⟨m, g1, g2⟩ := Option.map_eq_some_iff.1 hs
    exact ⟨m, by rw [hz]; exact g1, g2⟩
  · intro d hd
    rw [Rt.makes_acts] at hd
    simp only [Rt.cs, requests, List.filterMap_cons, List.filterMap_nil, if_true, List.mem_cons, List.not_mem_nil, or_false] at hd
    rcases hd with rfl | rfl | rfl | rfl
    · exact ⟨(free, .uint64), by simp [Rt.all], _, _, c104_series.1, rfl⟩
    · exact ⟨(free, .uint64), by simp [Rt.all], _, _, c104_series.1, rfl⟩
    · exact ⟨(gogc, .uint64), by simp [Rt.all], _, _, c104_series.2.2.1, rfl⟩
    · exact ⟨(mutex, .float64), by simp [Rt.all], _, _, c104_series.2.2.2, rfl⟩
  · intro w id hw
    unfold Rt.meter at hw
    split at hw
    · rename_i hh; cases hw; rw [hh]; exact ⟨h1, rfl⟩
    · split at hw
      · rename_i hh; cases hw; rw [hh]; exact ⟨h2, rfl⟩
      · split at hw
        · rename_i hh; cases hw; rw [hh]; exact ⟨h3, rfl⟩
        · cases hw

theorem c104_ran {a : Launcher.Preference} {z : Live.Sys Nat (List Bits) Nat} (hz : z.p = Rt.p a Rt.cs)
    (h : ((Rt.p a Rt.cs).ordered[0]?).map (fun m => m.insts.map (·.desc.name)) = some [wMem.name, wGogc.name, wMutex.name]) :
    Ran z.p 0 Rt.all Rt.isFloat Rt.reg Rt.body 0 (Rt.read 100 50 75 5) ∧ Ran z.p 0 Rt.all Rt.isFloat Rt.reg Rt.body 1 (Rt.read 80 50 75 12) := by
  obtain ⟨h1, h2, h3⟩ := c104_called hz h
  have key : ∀ (t : Nat) (inst : ∀ e : Nat × Nat × List KV × Bits, Decidable (e.1 = t ∧ ∃ n, Called z.p 0 n e.2.1)),
      (Whole.observations Rt.body).filter (fun e => @decide (e.1 = t ∧ ∃ n, Called z.p 0 n e.2.1) (inst e)) =
      (Whole.observations Rt.body).filter (fun e => decide (e.1 = t)) := by
    intro t inst
    refine List.filter_congr (fun e he => ?_)
    have hall : ∀ e ∈ Whole.observations Rt.body, e.2.1 = 0 ∨ e.2.1 = 2 ∨ e.2.1 = 4 := by decide +kernel
    rw [Bool.eq_iff_iff, decide_eq_true_iff, decide_eq_true_iff]
    refine ⟨fun h => h.1, fun h => ⟨h, ?_⟩⟩
    rcases hall e he with h | h | h <;> rw [h]
    · exact ⟨_, h1⟩
    · exact ⟨_, h2⟩
    · exact ⟨_, h3⟩
  refine ⟨⟨by decide +kernel, [(0, aFree, 100), (0, aObjects, 50), (2, [], 75), (4, [], 5)], by decide +kernel, ?_⟩,
    ⟨by decide +kernel, [(0, aFree, 80), (0, aObjects, 50), (2, [], 75), (4, [], 12)], by decide +kernel, ?_⟩⟩
  · rw [key]
    decide +kernel
  · rw [key]
    decide +kernel

/-- "Delta". The runtime offers two classes of memory and their total, a histogram, a gauge, a counter of floats, and a metric which is not known. Two collections. The two classes, the
gauge and the counter are sent: the classes and the gauge as they are, of the counter the difference. -/
example : ∃ z, Rt.last .delta Rt.cs Rt.body = some z ∧
    Runs Ln.out (Ln.pc .delta) (documented .delta) (Rt.acts Rt.cs Rt.body) z ∧ Offers Rt.all ∧
    Registered z.p 0 scA Rt.all Rt.isFloat Rt.meter Rt.reg (Rt.acts Rt.cs Rt.body) ∧
    Waits Ln.out (Ln.pc .delta) (documented .delta) z.p (Rt.acts Rt.cs Rt.body) ∧
    (∀ n, InTurn Ln.out (Ln.pc .delta) (documented .delta) z.p 0 n (Rt.acts Rt.cs Rt.body) ∧ Finished z.p 0 n z) ∧
    documented .delta wMem.ctor.kinds.2 = .cumulative ∧ documented .delta wMutex.ctor.kinds.2 = .delta ∧
    Ran z.p 0 Rt.all Rt.isFloat Rt.reg (rest (Rt.acts Rt.cs Rt.body)) 0 (Rt.read 100 50 75 5) ∧
    Ran z.p 0 Rt.all Rt.isFloat Rt.reg (rest (Rt.acts Rt.cs Rt.body)) 1 (Rt.read 80 50 75 12) ∧
    (∀ o ∈ Whole.observations (rest (Rt.acts Rt.cs Rt.body)), o.1 < (Whole.collections (rest (Rt.acts Rt.cs Rt.body))).length) ∧
    c92Sent z.s wMem.name = [[.int 50, .int 100], [.int 50, .int 80]] ∧ c92Sent z.s wGogc.name = [[.int 75], [.int 75]] ∧ c92Sent z.s wMutex.name = [[.double 5], [.double 7]] := by
  obtain ⟨z, e1, e2, e3, e4, e5, e6⟩ := Rt.of_evaluated (a := .delta) (cs := Rt.cs) (body := Rt.body) (by decide +kernel)
  obtain ⟨z', e7, e8⟩ : ∃ z, Rt.last .delta Rt.cs Rt.body = some z ∧ c92Sent z.s wMem.name = [[.int 50, .int 100], [.int 50, .int 80]] ∧
      c92Sent z.s wGogc.name = [[.int 75], [.int 75]] ∧ c92Sent z.s wMutex.name = [[.double 5], [.double 7]] := exists_of_eval (by decide +kernel)
  obtain rfl : z = z' := by rw [e1] at e7; exact Option.some.inj e7
  have hn : ((Rt.p .delta Rt.cs).ordered[0]?).map (fun m => m.insts.map (·.desc.name)) = some [wMem.name, wGogc.name, wMutex.name] := by decide +kernel
  have hr := c104_ran e2 hn
  refine ⟨z, e1, e3, c104_offers, c104_registered e2 hn (by decide +kernel), e4, fun n => ⟨e5 _ _, e6 _ _⟩, by decide, by decide, ?_, ?_, ?_, e8⟩
  · rw [Rt.rest_acts]; exact hr.1
  · rw [Rt.rest_acts]; exact hr.2
  · rw [Rt.rest_acts]; decide +kernel

end Examples

end Verif.Props
