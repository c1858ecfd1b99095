import Verif.Proof.SpanTelemetry
import Verif.Props.SelfTelemetry
import Verif.Props.Traced
import Verif.Examples.SpanTelemetryProgram

/-!
# What a launched program says of the spans it exports (C111)

`Reports e pc sel start xe res o acts after y y'`: a program which uses the provider installed by the launcher; in `y`, after `acts`, no call of the spans exporter on its counter is under way; then `ForceFlush` or
`Shutdown` of the metrics is called and in `y'` has handed its payload to the exporter. `answered xe success state y.t.log` are the numbers of spans of the payloads answered with an outcome.
-/

namespace Verif.Props
open Verif Verif.Attr Verif.Number Verif.Aggr Verif.Export Verif.Spec Verif.Assembly Verif.Instruments Verif.Delivery Verif.Busy Verif.SpanTelemetry
open Verif.Launched (Named Few FewUpTo Launch world views view look recorded_eq Outside)
open Verif.Pipeline (numbers expPoints sentPoints ints NoEmptyList Describes Grouped Shape)
open Verif.Front (IKind)
open Verif.Views (Tempo lit)
open Verif.Launcher (documented)
open Verif.SelfTelemetry (items outcome)

variable {C G ν E : Type} [DecidableEq C] {lx : Launcher.Ext} {lw : Launcher.World} {opts : List Launcher.Opt} {pref : Launcher.Preference} {pc pct : Launcher.PipelineConfig}
  {sel : IKind → Tempo} {e : Outside C G} {k o : Nat} {start : Int} {xe : Client.Errs E} {res : List KV} {acts after : List (SpanTelemetry.Act ν E)}
  {y y' : SpanTelemetry.Sys C G ν E}

/-- What the theorems below use: the values recorded on the counter. -/
theorem spanReports_case (hl : Launch lx lw opts pref pc sel) (h : Named (makes y.past) y'.d.z.p k spanScope .int64Counter items []) (hp : Reports e pc sel start xe res o acts after y y')
    (hone : ∀ id, Called y'.d.z.p k items id ↔ id = o) {success : Bool} {state : String} (hst : state ∈ ["ok", "canceled", "timeout", "error"]) :
    ∃ more, y'.past = y.past ++ more ∧ Busy.Flushes e pc sel start y.past more y.d y'.d ∧ Few y'.d.z.p k items (measured (y.past ++ more)) ∧
      returnedBy y'.d.z.p k items (fun as => Describes none as (outcome success state)) y.d.z.s.sync = answered xe success state y.t.log ∧
      recordedBy y'.d.z.p k items (fun as => Describes none as (outcome success state)) (measured (y.past ++ more)) = answered xe success state y'.t.log := by
  obtain ⟨more, hm, hf⟩ := hp.flushes
  have k1 := (SpanTelemetry.kept_initial (farm := e.farm) (w := world e pc) (fsub := e.fsub) (pipe := 0) (xe := xe) (o := o) y'.d.z.p (views e sel) start).run hp.before
  have k2 := k1.run hp.runs
  have hsub : ∀ q ∈ Traced.sent y.t.log, (Traced.spansIn q.1).length < 2 ^ 63 := by
    obtain ⟨l, hl⟩ := sent_more k1 hp.runs
    intro q hq
    exact hp.small q (by rw [hl]; exact List.mem_append_left _ hq)
  refine ⟨more, hm, hf, by rw [← hm]; exact SpanTelemetry.few_answered k2 hone, ?_, by rw [← hm]; exact SpanTelemetry.recorded_answered k2 hone hp.small hst⟩
  rw [flushes_returned hl h hf rfl (fun i hi hc => hp.returned i hi ((hone _).1 hc))]
  exact SpanTelemetry.recorded_answered k1 hone hsub hst

/-- C111 (delta). When the preference says delta for counters: the integers sent in the points of `otelsdk.telemetry.items` of the spans exporter which tell an outcome add up to the numbers of spans of all payloads
answered with this outcome before `ForceFlush` was called, and of some answered meanwhile. -/
theorem C111_delta (hl : Launch lx lw opts pref pc sel) (h : Named (makes y.past) y'.d.z.p k spanScope .int64Counter items []) (hp : Reports e pc sel start xe res o acts after y y')
    (hone : ∀ id, Called y'.d.z.p k items id ↔ id = o) (ht : documented pref .syncCounter = .delta)
    {success : Bool} {state : String} (hst : state ∈ ["ok", "canceled", "timeout", "error"]) :
    ∃ vals, Between (answered xe success state y.t.log) vals (answered xe success state y'.t.log) ∧
      total64 (ints ((sentPoints numbers (sentScope spanScope) items y'.d.z.s.sent).filter (fun d => d.attrs = outcome success state))) = total64 vals := by
  obtain ⟨more, -, hf, hfew, h1, h2⟩ := spanReports_case hl h hp hone (success := success) hst
  have := C106_sum_sent hl h hf rfl rfl (Or.inl rfl) ht hfew (outcome success state)
  rw [h1, h2] at this
  exact this

/-- C111 (cumulative). When the preference says cumulative for counters: if a payload had been answered with an outcome before `ForceFlush` was called, the last point which tells this outcome is the number of spans of
all payloads answered with it before, and of some answered meanwhile. -/
theorem C111_cumulative (hl : Launch lx lw opts pref pc sel) (h : Named (makes y.past) y'.d.z.p k spanScope .int64Counter items []) (hp : Reports e pc sel start xe res o acts after y y')
    (hone : ∀ id, Called y'.d.z.p k items id ↔ id = o) (ht : documented pref .syncCounter = .cumulative)
    (hne : ∀ a ∈ Pipeline.calls (measured y'.past), NoEmptyList (a.1.attrs a.2.1))
    {success : Bool} {state : String} (hst : state ∈ ["ok", "canceled", "timeout", "error"]) (hrec : answered xe success state y.t.log ≠ []) :
    ∃ vals, Between (answered xe success state y.t.log) vals (answered xe success state y'.t.log) ∧
      ((sentPoints numbers (sentScope spanScope) items y'.d.z.s.sent).filter (fun d => d.attrs = outcome success state)).getLast?.map (·.value) = some (.int (total64 vals)) := by
  obtain ⟨more, hm, hf, hfew, h1, h2⟩ := spanReports_case hl h hp hone (success := success) hst
  have := C106_sum_last hl h hf rfl rfl (Or.inl rfl) ht hfew (by rw [← hm]; exact hne) (outcome success state) (by rw [h1]; exact hrec)
  rw [h1, h2] at this
  exact this

/-- C111 (exactly, delta). When no batch was answered meanwhile, they add up to the numbers of spans of the payloads answered with this outcome. -/
theorem C111_delta_exact (hl : Launch lx lw opts pref pc sel) (h : Named (makes y.past) y'.d.z.p k spanScope .int64Counter items []) (hp : Reports e pc sel start xe res o acts after y y')
    (hone : ∀ id, Called y'.d.z.p k items id ↔ id = o) (ht : documented pref .syncCounter = .delta) (hno : Traced.batches (exporterCalls after) = [])
    {success : Bool} {state : String} (hst : state ∈ ["ok", "canceled", "timeout", "error"]) :
    total64 (ints ((sentPoints numbers (sentScope spanScope) items y'.d.z.s.sent).filter (fun d => d.attrs = outcome success state))) = total64 (answered xe success state y.t.log) := by
  obtain ⟨vals, h1, h2⟩ := C111_delta hl h hp hone ht (success := success) hst
  rw [h2]
  exact total64_perm (SelfTelemetry.between_same (answered_same hp.runs hno ▸ h1))

/-- C111 (exactly, cumulative). When no batch was answered meanwhile, the last point is the number of spans of the payloads answered with this outcome. -/
theorem C111_cumulative_exact (hl : Launch lx lw opts pref pc sel) (h : Named (makes y.past) y'.d.z.p k spanScope .int64Counter items []) (hp : Reports e pc sel start xe res o acts after y y')
    (hone : ∀ id, Called y'.d.z.p k items id ↔ id = o) (ht : documented pref .syncCounter = .cumulative) (hno : Traced.batches (exporterCalls after) = [])
    (hne : ∀ a ∈ Pipeline.calls (measured y'.past), NoEmptyList (a.1.attrs a.2.1))
    {success : Bool} {state : String} (hst : state ∈ ["ok", "canceled", "timeout", "error"]) (hrec : answered xe success state y.t.log ≠ []) :
    ((sentPoints numbers (sentScope spanScope) items y'.d.z.s.sent).filter (fun d => d.attrs = outcome success state)).getLast?.map (·.value) =
      some (.int (total64 (answered xe success state y.t.log))) := by
  obtain ⟨vals, h1, h2⟩ := C111_cumulative hl h hp hone ht hne (success := success) hst hrec
  rw [h2, total64_perm (SelfTelemetry.between_same (answered_same hp.runs hno ▸ h1))]

/-- C111 (nothing else). Every point of `otelsdk.telemetry.items` of the spans exporter which is sent tells the outcome of a payload answered. -/
theorem C111_known (hl : Launch lx lw opts pref pc sel) (h : Named (makes y.past) y'.d.z.p k spanScope .int64Counter items []) (hp : Reports e pc sel start xe res o acts after y y')
    (hone : ∀ id, Called y'.d.z.p k items id ↔ id = o) (d : PNumber) (hd : d ∈ sentPoints numbers (sentScope spanScope) items y'.d.z.s.sent) :
    ∃ p ∈ Traced.sent y'.t.log, ∃ state, Client.Named xe p.2 state ∧ d.attrs = outcome p.2.isNone state := by
  obtain ⟨more, hm, hf, hfew, -, -⟩ := spanReports_case hl h hp hone (success := true) (state := "ok") (by simp)
  have hr := C106_known hl h hf rfl (by simp [promise]) hfew d hd
  rw [← hm] at hr
  have k2 := ((SpanTelemetry.kept_initial (farm := e.farm) (w := world e pc) (fsub := e.fsub) (pipe := 0) (xe := xe) (o := o) y'.d.z.p (views e sel) start).run hp.before).run hp.runs
  obtain ⟨b, hb⟩ := List.exists_mem_of_ne_nil _ hr
  obtain ⟨q, hq, -⟩ := List.mem_map.1 hb
  obtain ⟨hq1, hq2⟩ := List.mem_filter.1 hq
  simp only [decide_eq_true_eq] at hq2
  obtain ⟨-, h3, h4⟩ := hq2
  have hmem : q ∈ SelfTelemetry.onCounter o y'.past := List.mem_filter.2 ⟨hq1, by simpa using (hone _).1 h4⟩
  rw [k2.calls] at hmem
  obtain ⟨r, hr1, rfl⟩ := List.mem_map.1 hmem
  refine ⟨r, hr1, _, stateOf_named xe r.2, ?_⟩
  change Describes none ((SelfTelemetry.counter (world e pc) o).attrs (SelfTelemetry.attrsOf xe r.2)) d.attrs at h3
  rw [SelfTelemetry.counter_attrs] at h3
  exact SelfTelemetry.describes_unique h3 ((SelfTelemetry.describes_iff r.2 (SelfTelemetry.stateOf_mem r.2)).2 ⟨rfl, rfl⟩)

/-- C111 (spans). The exporter of the program is that of C108 after the calls made so far, and the numbers of spans answered with an outcome are those of the batches handed to it, if their spans are ones which a program
can make with the SDK. -/
theorem C111_batches (hs : Traced.Starts lx lw opts pct) {p : Provider.Provider C ν}
    (h : SpanTelemetry.run e.farm (world e pc) e.fsub e.x 0 xe pct.resource o (SpanTelemetry.initial e.farm (world e pc) e.fsub p (views e sel) 0 start) acts = some y)
    (hb : ∀ l ∈ Traced.batches (exporterCalls acts), Traced.Proper l) (success : Bool) (state : String) :
    y.t = Traced.run xe pct.resource (exporterCalls acts) ∧
      answered xe success state y.t.log = answeredBatches xe success state (Traced.batches (exporterCalls acts)) ((Traced.sent y.t.log).map (·.2)) := by
  have h1 : y.t = Traced.run xe pct.resource (exporterCalls acts) := run_exporter h
  obtain ⟨-, h2, h3⟩ := C108_spans (x := xe) hs (exporterCalls acts) hb
  rw [← h1] at h2 h3
  refine ⟨h1, ?_⟩
  unfold answered answeredBatches
  refine (batches_answered h2 (fun i b q hi hq => ?_) (fun a => open Classical in decide (a.isNone = success ∧ Client.Named xe a state))).symm
  have := (h3 i b q hi hq).1
  rwa [List.length_map] at this

/-! ### Examples -/

section Examples
open Verif.Examples

/-- What is known of the concrete program of `Verif.Examples.Sp`: the hypotheses of the theorems. A batch of two spans was accepted, one of a single span was answered with a timeout; then `ForceFlush` is called. -/
theorem c111_case {a : Launcher.Preference} (h : Sp.evaluated a = true) (h1 : Sp.hasB a = true) :
    ∃ y y', Sp.stages a = some (y, y') ∧ Launch Launcher.exExt Ln.lw (Ln.opts a) a (Ln.pc a) (documented a) ∧
      Reports Ln.out (Ln.pc a) (documented a) 1 Sp.errs (Sp.res a) 0 Sp.acts (Sp.after a) y y' ∧ Named (makes y.past) y'.d.z.p 0 spanScope .int64Counter items [] ∧
      (∀ id, Called y'.d.z.p 0 items id ↔ id = 0) ∧ (∀ a ∈ Pipeline.calls (measured y'.past), NoEmptyList (a.1.attrs a.2.1)) ∧ Traced.batches (exporterCalls (Sp.after a)) = [] ∧
      answered Sp.errs true "ok" y.t.log = [2] ∧ answered Sp.errs false "timeout" y.t.log = [1] := by
  obtain ⟨y, y', e1, e2, e3, e4, e5⟩ := Sp.of_evaluated h
  obtain ⟨g1, g2, g3, g4, g5, g6, g7, g8, g9⟩ := e4
  refine ⟨y, y', e1, Ln.launch a, e5, ?_, ?_, ?_, by rw [Sp.exported_after]; rfl, Sp.answered_two g9⟩
  · rw [e2, e3]; exact Sp.named h1
  · rw [e2]; exact Sp.alone h1
  · exact fun e he kv hkv => (of_decide_eq_true (List.all_eq_true.1 (List.all_eq_true.1 g4 e he) kv hkv)).2

/-- "cumulative": the payload of `ForceFlush` tells two spans accepted and one answered with a timeout. -/
example : ∃ y y', Sp.stages .cumulative = some (y, y') ∧
    ((sentPoints numbers (sentScope spanScope) items y'.d.z.s.sent).filter (fun d => d.attrs = outcome true "ok")).getLast?.map (·.value) = some (.int 2) ∧
    ((sentPoints numbers (sentScope spanScope) items y'.d.z.s.sent).filter (fun d => d.attrs = outcome false "timeout")).getLast?.map (·.value) = some (.int 1) ∧
    Sp.told y' = [[.int 1, .int 2]] := by
  obtain ⟨y, y', h1, h2, h3, h4, h5, h6, h7, h8, h9⟩ := c111_case (a := .cumulative) (by decide +kernel) (by decide +kernel)
  obtain ⟨q, e1, e2⟩ : ∃ q, Sp.stages .cumulative = some q ∧ Sp.told q.2 = [[.int 1, .int 2]] := exists_of_eval (by decide +kernel)
  obtain rfl : (y, y') = q := by rw [h1] at e1; exact Option.some.inj e1
  have g1 := C111_cumulative_exact h2 h4 h3 h5 (by decide) h7 h6 (success := true) (state := "ok") (by simp) (by rw [h8]; simp)
  have g2 := C111_cumulative_exact h2 h4 h3 h5 (by decide) h7 h6 (success := false) (state := "timeout") (by simp) (by rw [h9]; simp)
  rw [h8] at g1
  rw [h9] at g2
  exact ⟨y, y', h1, g1, g2, e2⟩

/-- "delta": the same, as the sum of what is sent; and what is sent tells an outcome which occurred. -/
example : ∃ y y', Sp.stages .delta = some (y, y') ∧
    total64 (ints ((sentPoints numbers (sentScope spanScope) items y'.d.z.s.sent).filter (fun d => d.attrs = outcome true "ok"))) = 2 ∧
    total64 (ints ((sentPoints numbers (sentScope spanScope) items y'.d.z.s.sent).filter (fun d => d.attrs = outcome false "canceled"))) = total64 (answered Sp.errs false "canceled" y.t.log) ∧
    Sp.told y' = [[.int 1, .int 2]] ∧
    ∀ d ∈ sentPoints numbers (sentScope spanScope) items y'.d.z.s.sent, ∃ p ∈ Traced.sent y'.t.log, ∃ state, Client.Named Sp.errs p.2 state ∧ d.attrs = outcome p.2.isNone state := by
  obtain ⟨y, y', h1, h2, h3, h4, h5, h6, h7, h8, h9⟩ := c111_case (a := .delta) (by decide +kernel) (by decide +kernel)
  obtain ⟨q, e1, e2⟩ : ∃ q, Sp.stages .delta = some q ∧ Sp.told q.2 = [[.int 1, .int 2]] := exists_of_eval (by decide +kernel)
  obtain rfl : (y, y') = q := by rw [h1] at e1; exact Option.some.inj e1
  have g1 := C111_delta_exact h2 h4 h3 h5 (by decide) h7 (success := true) (state := "ok") (by simp)
  rw [h8] at g1
  exact ⟨y, y', h1, g1, C111_delta_exact h2 h4 h3 h5 (by decide) h7 (success := false) (state := "canceled") (by simp), e2, fun d hd => C111_known h2 h4 h3 h5 d hd⟩

/-- The numbers are those of the batches; the resource of spans is that of metrics (C108). -/
example : ∃ y y', Sp.stages .delta = some (y, y') ∧ answeredBatches Sp.errs true "ok" (Traced.batches (exporterCalls Sp.acts)) ((Traced.sent y.t.log).map (·.2)) = [2] := by
  obtain ⟨y, y', h1, h2, h3, h4, h5, h6, h7, h8, h9⟩ := c111_case (a := .delta) (by decide +kernel) (by decide +kernel)
  have hr : Sp.res .delta = TracedEx.cfg.resource := (C108_same_resource TracedEx.starts h2).symm
  have hb := h3.before
  rw [hr] at hb
  obtain ⟨-, g⟩ := C111_batches TracedEx.starts hb (by
    intro l hl s hs
    have hl : l ∈ [[SpanEx.span [97] [1] 1, SpanEx.span [98] [] 2], [SpanEx.span [98] [] 3]] := hl
    simp at hl
    rcases hl with rfl | rfl <;> simp at hs
    · rcases hs with rfl | rfl <;> exact ⟨TracedEx.typed .., by decide⟩
    · subst hs; exact ⟨TracedEx.typed .., by decide⟩) true "ok"
  exact ⟨y, y', h1, g ▸ h8⟩

end Examples

end Verif.Props
