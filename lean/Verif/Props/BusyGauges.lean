import Verif.Props.BusyHinted
import Verif.Props.Failures

/-!
C106 and C107 for gauges: what has been sent, and what arrives, of synchronous gauges when `ForceFlush` or `Shutdown` returns while the program goes on recording. `Busy.Flushes`, `Busy.returnedBy` and
`Between` are as in `Verif.Props.Busy`. A gauge has a last value only if its calls are made one after another (`Delivery.OneByOne`): each begins when the calls before on the same gauge have returned.
-/

namespace Verif.Props
open Verif Verif.Attr Verif.Number Verif.Aggr Verif.Export Verif.Spec Verif.Assembly Verif.Instruments Verif.Delivery Verif.Busy Verif.Failures
open Verif.Launched (Named Few Launch world views view look recorded_eq Outside)
open Verif.Pipeline (numbers sentPoints pointsIn NoEmptyList Describes Shape)
open Verif.Front (IKind)
open Verif.Views (Tempo)
open Verif.Launcher (documented)

variable {C G ν : Type} [DecidableEq C] {lx : Launcher.Ext} {lw : Launcher.World} {opts : List Launcher.Opt} {pref : Launcher.Preference} {pc : Launcher.PipelineConfig}
  {sel : IKind → Tempo} {e : Outside C G} {k : Nat} {sc : Views.Scope} {c : Ctor} {n unit : Str} {start : Int} {acts after : List (Delivery.Act ν)}
  {s s' : Delivery.Sys C G ν}

/-- C106 (gauges, cumulative, calls one by one). The last point sent with the attributes `m` carries the value of a call with them, and no call which had returned before `ForceFlush` or `Shutdown` was called was made after this one. -/
theorem C106_gauge_newest (hl : Launch lx lw opts pref pc sel) (h : Named (makes acts) s'.z.p k sc c n unit) (hp : Flushes e pc sel start acts after s s')
    (hsy : (promise c).observed = false) (ho : (promise c).output = .gauge) (ht : documented pref c.kinds.2 = .cumulative) (hone : Delivery.OneByOne e pc sel start s'.z.p k n (acts ++ after)) (hf : Few s'.z.p k n (measured (acts ++ after)))
    (hne : ∀ a ∈ Pipeline.calls (measured (acts ++ after)), NoEmptyList (a.1.attrs a.2.1)) (m : PMap)
    (hrec : returnedBy s'.z.p k n (fun as => Describes none as m) s.z.s.sync ≠ []) :
    ∃ d pre b post, recordedBy s'.z.p k n (fun as => Describes none as m) (measured (acts ++ after)) = pre ++ b :: post ∧
      (returnedBy s'.z.p k n (fun as => Describes none as m) s.z.s.sync).Sublist (pre ++ [b]) ∧
      ((sentPoints numbers (sentScope sc) n s'.z.s.sent).filter (fun d => d.attrs = m)).getLast? = some d ∧ NumOf (promise c).num b d.value := by
  obtain ⟨o, f, pacts, pcoll, xs, xs', more, hw, hb, hret, hc, hq, hbt, hsent, hnum, hrc, hse, -⟩ := viewed_full (h.viewed hl (busy_made hp)) (look_sync hsy) hp (by simp [look_gauge ho])
  have ha := look_gauge (e := e) (pref := pref) (unit := unit) ho
  have hag : (setup (world e pc) s'.z.p).agg o.leaf = gaugeAgg ((world e pc).ops (look e pref c unit).num) ((world e pc).hist (look e pref c unit).num (look e pref c unit).acfg.hist) := by
    rw [hw.setup_agg]
    simp only [ha, World.agg]
    try rfl
  have hsh : o.shape ∈ [Shape.gauge] := by
    rw [hw.shape_eq]
    simp [ha, shapeOf]
  have := Pipeline.Busy.gauge_newest (m := m) hret (hb _ hsh) (hse hone) (by rw [hw.setup_delta]; exact look_cumulative (Or.inl ht)) hag rfl (hw.fits ((few_less hc hf).via e pc sel sc))
    (fun a ha => hne a (by rw [hc]; exact List.mem_append_left _ ha)) (by rw [hq, hw.describes]; exact hrec)
  rw [hq, hw.describes, hw.num_eq, look_num (e := e) (pref := pref) (unit := unit) (c := c) rfl] at this
  obtain ⟨d, pre, b, post, v1, v2, v3, v4⟩ := this
  have v1 : Pipeline.recordedOn (setup (world e pc) s'.z.p).leavesOf o.leaf (fun as => Describes none as m) (pacts ++ pcoll) = pre ++ b :: post := v1
  obtain ⟨l, hl'⟩ := hrc (fun as => Describes none as m)
  exact ⟨d, pre, b, post ++ l, by rw [hl', v1]; simp, v2, by rw [hsent]; exact v3, v4⟩

/-- C106 (gauges, delta, calls one by one). All values whose recording with the attributes `m` had returned before, and some of those recorded meanwhile, are divided into groups, each in the order of the calls, one for each point sent with these attributes, which carries the last value of its group. -/
theorem C106_gauge_sent_newest (hl : Launch lx lw opts pref pc sel) (h : Named (makes acts) s'.z.p k sc c n unit) (hp : Flushes e pc sel start acts after s s')
    (hsy : (promise c).observed = false) (ho : (promise c).output = .gauge) (ht : documented pref c.kinds.2 = .delta) (hone : Delivery.OneByOne e pc sel start s'.z.p k n (acts ++ after)) (hf : Few s'.z.p k n (measured (acts ++ after))) (m : PMap) :
    ∃ gs : List (List Bits), Between (returnedBy s'.z.p k n (fun as => Describes none as m) s.z.s.sync) gs.flatten (recordedBy s'.z.p k n (fun as => Describes none as m) (measured (acts ++ after))) ∧
      (∀ g ∈ gs, g.Sublist (recordedBy s'.z.p k n (fun as => Describes none as m) (measured (acts ++ after)))) ∧
      Pointwise (fun g d => ∃ b, g.getLast? = some b ∧ NumOf (promise c).num b d.value) gs ((sentPoints numbers (sentScope sc) n s'.z.s.sent).filter (fun d => d.attrs = m)) := by
  obtain ⟨o, f, pacts, pcoll, xs, xs', more, hw, hb, hret, hc, hq, hbt, hsent, hnum, hrc, hse, -⟩ := viewed_full (h.viewed hl (busy_made hp)) (look_sync hsy) hp (by simp [look_gauge ho])
  have ha := look_gauge (e := e) (pref := pref) (unit := unit) ho
  have hag : (setup (world e pc) s'.z.p).agg o.leaf = gaugeAgg ((world e pc).ops (look e pref c unit).num) ((world e pc).hist (look e pref c unit).num (look e pref c unit).acfg.hist) := by
    rw [hw.setup_agg]
    simp only [ha, World.agg]
    try rfl
  have hsh : o.shape ∈ [Shape.gauge] := by
    rw [hw.shape_eq]
    simp [ha, shapeOf]
  have := Pipeline.Busy.gauge_sent_newest (m := m) hret (hb _ hsh) (hse hone) (by rw [hw.setup_delta]; exact look_delta ht (by intro hc'; cases c <;> cases hsy <;> cases hc')) hag rfl (hw.fits ((few_less hc hf).via e pc sel sc))
  rw [hq, hw.describes, hw.num_eq, look_num (e := e) (pref := pref) (unit := unit) (c := c) rfl] at this
  obtain ⟨gs, v1, v2, v3⟩ := this
  obtain ⟨l, hl'⟩ := hrc (fun as => Describes none as m)
  exact ⟨gs, hbt _ _ _ v1, fun g hg => by rw [hl']; exact (v2 g hg).trans (List.sublist_append_left ..), by rw [hsent]; exact v3⟩

/-- C107 (gauges, cumulative, recording goes on). Whichever exports before have failed: if the last export succeeds, the last point which arrives with the attributes `m` carries the value of a call with them, and no call which had returned before `ForceFlush` or `Shutdown` was called was made after this one. -/
theorem C107_gauge_newest (hl : Launch lx lw opts pref pc sel) (h : Named (makes acts) s'.z.p k sc c n unit) (hp : Flushes e pc sel start acts after s s')
    (hsy : (promise c).observed = false) (ho : (promise c).output = .gauge) (ht : documented pref c.kinds.2 = .cumulative) (hone : Delivery.OneByOne e pc sel start s'.z.p k n (acts ++ after)) (hf : Few s'.z.p k n (measured (acts ++ after)))
    (hne : ∀ a ∈ Pipeline.calls (measured (acts ++ after)), NoEmptyList (a.1.attrs a.2.1)) (m : PMap)
    (hrec : returnedBy s'.z.p k n (fun as => Describes none as m) s.z.s.sync ≠ []) {ok : Nat → Bool} (hok : LastArrives ok s'.z.s.sent) :
    ∃ d pre b post, recordedBy s'.z.p k n (fun as => Describes none as m) (measured (acts ++ after)) = pre ++ b :: post ∧
      (returnedBy s'.z.p k n (fun as => Describes none as m) s.z.s.sync).Sublist (pre ++ [b]) ∧
      ((sentPoints numbers (sentScope sc) n (arrived ok s'.z.s.sent)).filter (fun d => d.attrs = m)).getLast? = some d ∧ NumOf (promise c).num b d.value := by
  rw [last_arrived (busy_shown Pipeline.extracts_numbers (attrs := PNumber.attrs) (fun _ _ h => h.1) hl h hp (by rw [look_gauge ho]; simp [shapeOf, Shape.kind]) hsy ht hf hne m hrec) hok]
  exact C106_gauge_newest hl h hp hsy ho ht hone hf hne m hrec

/-- C107 (gauges, delta, calls one by one). The values recorded with the attributes `m` are divided into groups, without overlap and each in the order of the calls: each point which arrives with these attributes carries the last value of one group. Missing: with delta, values may not arrive at all, see `C107_delta_fails`. -/
theorem C107_gauge_sent_partial (hl : Launch lx lw opts pref pc sel) (h : Named (makes acts) s'.z.p k sc c n unit) (hp : Flushes e pc sel start acts after s s')
    (hsy : (promise c).observed = false) (ho : (promise c).output = .gauge) (ht : documented pref c.kinds.2 = .delta)
    (hone : Delivery.OneByOne e pc sel start s'.z.p k n (acts ++ after)) (hf : Few s'.z.p k n (measured (acts ++ after))) (m : PMap) (ok : Nat → Bool) :
    ∃ gs : List (List Bits), Among gs.flatten (recordedBy s'.z.p k n (fun as => Describes none as m) (measured (acts ++ after))) ∧
      (∀ g ∈ gs, g.Sublist (recordedBy s'.z.p k n (fun as => Describes none as m) (measured (acts ++ after)))) ∧
      Pointwise (fun g d => ∃ b, g.getLast? = some b ∧ NumOf (promise c).num b d.value) gs ((sentPoints numbers (sentScope sc) n (arrived ok s'.z.s.sent)).filter (fun d => d.attrs = m)) := by
  obtain ⟨gs, h1, h5, h2⟩ := C106_gauge_sent_newest hl h hp hsy ho ht hone hf m
  obtain ⟨gs', h3, h4⟩ := pointwise_sublist h2 ((points_sublist (arrived_sublist ok s'.z.s.sent)).filter _)
  exact ⟨gs', (among_sublist (flatten_sublist h3)).trans h1.among, fun g hg => h5 g (h3.subset hg), h4⟩

section Examples
open Verif.Examples Verif.Examples.Asm
open Verif.Views (lit)

/-- What is known of the program of `Verif.Examples.Bg` without a hint. -/
theorem c106_gauge {a : Launcher.Preference} {ct : Ln.Made} (h0 : ct.2 = .none) (h : Bg.evaluated a ct = true) (h1 : Bg.hasB a ct = true)
    (hq : Dl.quietB a (Bg.initial a ct) (Bg.acts ct ++ Bg.after a ct) = true) :
    ∃ s s', Bg.stages a ct = some (s, s') ∧ Flushes Ln.out (Ln.pc a) (documented a) 1 (Bg.acts ct) (Bg.after a ct) s s' ∧
      Named (makes (Bg.acts ct)) s'.z.p 0 scA ct.1 (lit "n") (lit "s") ∧ Few s'.z.p 0 (lit "n") (measured (Bg.acts ct ++ Bg.after a ct)) ∧
      Delivery.OneByOne Ln.out (Ln.pc a) (documented a) 1 s'.z.p 0 (lit "n") (Bg.acts ct ++ Bg.after a ct) ∧
      (∀ e ∈ Pipeline.calls (measured (Bg.acts ct ++ Bg.after a ct)), NoEmptyList (e.1.attrs e.2.1)) ∧
      returnedBy s'.z.p 0 (lit "n") (fun as => Describes none as ma) s.z.s.sync ≠ [] := by
  obtain ⟨s, s', e1, e2, e3, e4⟩ := Bg.of_evaluated h
  refine ⟨s, s', e1, e4, ?_, ?_, ?_, Bg.noEmpty, ?_⟩
  · rw [e2]; exact Bg.named h0 h1
  · rw [e2]; exact Bg.few
  · rw [e2]
    intro before i kvs b af y h1 h2 _ j hj _
    exact Dl.quietB_spec hq before i kvs b af y h1 h2 j hj
  · rw [e2]; exact Bg.returned h1 e3

/-- "cumulative": 7 had been recorded with the attributes `ma`, and is sent. The theorems say that the last value with these attributes is not older, in what is sent and in what arrives. -/
example : ∃ s s', Bg.stages .cumulative (.int64Gauge, .none) = some (s, s') ∧
    (∃ d pre b post, recordedBy s'.z.p 0 (lit "n") (fun as => Describes none as ma) (measured (Bg.acts (.int64Gauge, .none) ++ Bg.after .cumulative (.int64Gauge, .none))) = pre ++ b :: post ∧
      (returnedBy s'.z.p 0 (lit "n") (fun as => Describes none as ma) s.z.s.sync).Sublist (pre ++ [b]) ∧
      ((sentPoints numbers (sentScope scA) (lit "n") s'.z.s.sent).filter (fun d => d.attrs = ma)).getLast? = some d ∧ NumOf .int64 b d.value) ∧
    (∃ d pre b post, recordedBy s'.z.p 0 (lit "n") (fun as => Describes none as ma) (measured (Bg.acts (.int64Gauge, .none) ++ Bg.after .cumulative (.int64Gauge, .none))) = pre ++ b :: post ∧
      (returnedBy s'.z.p 0 (lit "n") (fun as => Describes none as ma) s.z.s.sync).Sublist (pre ++ [b]) ∧
      ((sentPoints numbers (sentScope scA) (lit "n") (arrived (fun _ => true) s'.z.s.sent)).filter (fun d => d.attrs = ma)).getLast? = some d ∧ NumOf .int64 b d.value) ∧
    c97Sent s' (lit "n") = [[.int 0, .int 5, .int 7]] := by
  obtain ⟨s, s', e1, h1, h2, h3, h4, h5, h6⟩ := c106_gauge (a := .cumulative) (ct := (.int64Gauge, .none)) rfl (by decide +kernel) (by decide +kernel) (by decide +kernel)
  obtain ⟨q, f1, f2, f3⟩ : ∃ q, Bg.stages .cumulative (.int64Gauge, .none) = some q ∧ (c97Sent q.2 (lit "n") = [[.int 0, .int 5, .int 7]] ∧ q.2.z.s.sent.length = 1) := exists_of_eval (by decide +kernel)
  obtain rfl : (s, s') = q := by rw [e1] at f1; exact Option.some.inj f1
  exact ⟨s, s', e1, C106_gauge_newest (Ln.launch .cumulative) h2 h1 rfl rfl (by decide) h4 h3 h5 ma h6,
    C107_gauge_newest (Ln.launch .cumulative) h2 h1 rfl rfl (by decide) h4 h3 h5 ma h6 (by unfold LastArrives; rw [f3]), f2⟩

/-- "delta": the same of floats. -/
example : ∃ s s', Bg.stages .delta (.float64Gauge, .none) = some (s, s') ∧
    (∃ gs : List (List Bits), Between (returnedBy s'.z.p 0 (lit "n") (fun as => Describes none as ma) s.z.s.sync) gs.flatten
        (recordedBy s'.z.p 0 (lit "n") (fun as => Describes none as ma) (measured (Bg.acts (.float64Gauge, .none) ++ Bg.after .delta (.float64Gauge, .none)))) ∧
      (∀ g ∈ gs, g.Sublist (recordedBy s'.z.p 0 (lit "n") (fun as => Describes none as ma) (measured (Bg.acts (.float64Gauge, .none) ++ Bg.after .delta (.float64Gauge, .none))))) ∧
      Pointwise (fun g d => ∃ b, g.getLast? = some b ∧ NumOf .float64 b d.value) gs ((sentPoints numbers (sentScope scA) (lit "n") s'.z.s.sent).filter (fun d => d.attrs = ma))) ∧
    (∃ gs : List (List Bits), Among gs.flatten (recordedBy s'.z.p 0 (lit "n") (fun as => Describes none as ma) (measured (Bg.acts (.float64Gauge, .none) ++ Bg.after .delta (.float64Gauge, .none)))) ∧
      (∀ g ∈ gs, g.Sublist (recordedBy s'.z.p 0 (lit "n") (fun as => Describes none as ma) (measured (Bg.acts (.float64Gauge, .none) ++ Bg.after .delta (.float64Gauge, .none))))) ∧
      Pointwise (fun g d => ∃ b, g.getLast? = some b ∧ NumOf .float64 b d.value) gs
        ((sentPoints numbers (sentScope scA) (lit "n") (arrived (fun _ => true) s'.z.s.sent)).filter (fun d => d.attrs = ma))) ∧
    c97Sent s' (lit "n") = [[.double 5, .double 7]] := by
  obtain ⟨s, s', e1, h1, h2, h3, h4, h5, h6⟩ := c106_gauge (a := .delta) (ct := (.float64Gauge, .none)) rfl (by decide +kernel) (by decide +kernel) (by decide +kernel)
  obtain ⟨q, f1, f2⟩ : ∃ q, Bg.stages .delta (.float64Gauge, .none) = some q ∧ c97Sent q.2 (lit "n") = [[.double 5, .double 7]] := exists_of_eval (by decide +kernel)
  obtain rfl : (s, s') = q := by rw [e1] at f1; exact Option.some.inj f1
  exact ⟨s, s', e1, C106_gauge_sent_newest (Ln.launch .delta) h2 h1 rfl rfl (by decide) h4 h3 ma, C107_gauge_sent_partial (Ln.launch .delta) h2 h1 rfl rfl (by decide) h4 h3 ma _, f2⟩

end Examples

end Verif.Props
