import Verif.Proof.SelfTelemetry
import Verif.Props.Busy
import Verif.Examples.SelfTelemetryProgram

/-!
# What a launched program says of its own exports (C110)

`Reports e pc sel start xe o acts after y y'`: a program which uses the provider installed by the launcher; in `y`, after `acts`, no call of the exporter on its counter is under way; then `ForceFlush` or `Shutdown`
is called and in `y'` has handed its payload to the exporter. `y.answers` are the answers of the next component to the payloads so far, and `answered xe success state sent answers` the numbers of points of the payloads
answered with an outcome.
-/

namespace Verif.Props
open Verif Verif.Attr Verif.Number Verif.Aggr Verif.Export Verif.Spec Verif.Assembly Verif.Instruments Verif.Delivery Verif.Busy Verif.SelfTelemetry
open Verif.Launched (Named Few FewUpTo Launch world views view look recorded_eq Outside)
open Verif.Pipeline (numbers expPoints sentPoints ints NoEmptyList Describes Grouped Shape)
open Verif.Front (IKind)
open Verif.Views (Tempo lit)
open Verif.Launcher (documented)

variable {C G ν E : Type} [DecidableEq C] {lx : Launcher.Ext} {lw : Launcher.World} {opts : List Launcher.Opt} {pref : Launcher.Preference} {pc : Launcher.PipelineConfig}
  {sel : IKind → Tempo} {e : Outside C G} {k o : Nat} {start : Int} {xe : Client.Errs E} {acts after : List (SelfTelemetry.Act ν E)}
  {y y' : SelfTelemetry.Sys C G ν E}

/-- What the theorems below use: the values recorded on the counter. -/
theorem reports_case (hl : Launch lx lw opts pref pc sel) (h : Named (makes y.past) y'.d.z.p k selfScope .int64Counter items []) (hp : Reports e pc sel start xe o acts after y y')
    (hone : ∀ id, Called y'.d.z.p k items id ↔ id = o) {success : Bool} {state : String} (hst : state ∈ ["ok", "canceled", "timeout", "error"]) :
    ∃ more, y'.past = y.past ++ more ∧ Busy.Flushes e pc sel start y.past more y.d y'.d ∧ Few y'.d.z.p k items (measured (y.past ++ more)) ∧
      returnedBy y'.d.z.p k items (fun as => Describes none as (outcome success state)) y.d.z.s.sync = answered xe success state y.d.z.s.sent y.answers ∧
      recordedBy y'.d.z.p k items (fun as => Describes none as (outcome success state)) (measured (y.past ++ more)) = answered xe success state y'.d.z.s.sent y'.answers := by
  obtain ⟨more, hm, hf⟩ := hp.flushes
  have k1 := (kept_initial (farm := e.farm) (w := world e pc) (fsub := e.fsub) (pipe := 0) (xe := xe) (o := o) y'.d.z.p (views e sel) start).run hp.before
  have k2 := k1.run hp.runs
  have hsub : ∀ pl ∈ y.d.z.s.sent, Client.payloadPoints pl < 2 ^ 63 := by
    obtain ⟨l, hl⟩ := run_sent hp.runs
    intro pl hpl
    exact hp.small pl (by rw [hl]; exact List.mem_append_left _ hpl)
  refine ⟨more, hm, hf, by rw [← hm]; exact few_answered k2 hone, ?_, by rw [← hm]; exact recorded_answered k2 hone hp.small hst⟩
  rw [flushes_returned hl h hf rfl (fun i hi hc => hp.returned i hi ((hone _).1 hc))]
  exact recorded_answered k1 hone hsub hst

/-- C110 (delta). When the preference says delta for counters: the integers sent in the points of `otelsdk.telemetry.items` which tell an outcome add up to the numbers of points of all payloads answered with this outcome before `ForceFlush` was called, and of some answered meanwhile. -/
theorem C110_delta (hl : Launch lx lw opts pref pc sel) (h : Named (makes y.past) y'.d.z.p k selfScope .int64Counter items []) (hp : Reports e pc sel start xe o acts after y y')
    (hone : ∀ id, Called y'.d.z.p k items id ↔ id = o) (ht : documented pref .syncCounter = .delta)
    {success : Bool} {state : String} (hst : state ∈ ["ok", "canceled", "timeout", "error"]) :
    ∃ vals, Between (answered xe success state y.d.z.s.sent y.answers) vals (answered xe success state y'.d.z.s.sent y'.answers) ∧
      total64 (ints ((sentPoints numbers (sentScope selfScope) items y'.d.z.s.sent).filter (fun d => d.attrs = outcome success state))) = total64 vals := by
  obtain ⟨more, -, hf, hfew, h1, h2⟩ := reports_case hl h hp hone (success := success) hst
  have := C106_sum_sent hl h hf rfl rfl (Or.inl rfl) ht hfew (outcome success state)
  rw [h1, h2] at this
  exact this

/-- C110 (cumulative). When the preference says cumulative for counters: if a payload had been answered with an outcome before `ForceFlush` was called, the last point of `otelsdk.telemetry.items` which tells this outcome is the number of points of all payloads answered with it before, and of some answered meanwhile. -/
theorem C110_cumulative (hl : Launch lx lw opts pref pc sel) (h : Named (makes y.past) y'.d.z.p k selfScope .int64Counter items []) (hp : Reports e pc sel start xe o acts after y y')
    (hone : ∀ id, Called y'.d.z.p k items id ↔ id = o) (ht : documented pref .syncCounter = .cumulative)
    (hne : ∀ a ∈ Pipeline.calls (measured y'.past), NoEmptyList (a.1.attrs a.2.1))
    {success : Bool} {state : String} (hst : state ∈ ["ok", "canceled", "timeout", "error"]) (hrec : answered xe success state y.d.z.s.sent y.answers ≠ []) :
    ∃ vals, Between (answered xe success state y.d.z.s.sent y.answers) vals (answered xe success state y'.d.z.s.sent y'.answers) ∧
      ((sentPoints numbers (sentScope selfScope) items y'.d.z.s.sent).filter (fun d => d.attrs = outcome success state)).getLast?.map (·.value) = some (.int (total64 vals)) := by
  obtain ⟨more, hm, hf, hfew, h1, h2⟩ := reports_case hl h hp hone (success := success) hst
  have := C106_sum_last hl h hf rfl rfl (Or.inl rfl) ht hfew (by rw [← hm]; exact hne) (outcome success state) (by rw [h1]; exact hrec)
  rw [h1, h2] at this
  exact this

/-- C110 (exactly, delta). When no payload was answered meanwhile, they add up to the numbers of points of the payloads answered with this outcome. -/
theorem C110_delta_exact (hl : Launch lx lw opts pref pc sel) (h : Named (makes y.past) y'.d.z.p k selfScope .int64Counter items []) (hp : Reports e pc sel start xe o acts after y y')
    (hone : ∀ id, Called y'.d.z.p k items id ↔ id = o) (ht : documented pref .syncCounter = .delta) (hno : y'.answers = y.answers)
    {success : Bool} {state : String} (hst : state ∈ ["ok", "canceled", "timeout", "error"]) :
    total64 (ints ((sentPoints numbers (sentScope selfScope) items y'.d.z.s.sent).filter (fun d => d.attrs = outcome success state))) =
      total64 (answered xe success state y.d.z.s.sent y.answers) := by
  obtain ⟨vals, h1, h2⟩ := C110_delta hl h hp hone ht (success := success) hst
  rw [h2]
  exact total64_perm (between_same (answered_same hp hno ▸ h1))

/-- C110 (exactly, cumulative). When no payload was answered meanwhile, the last point is the number of points of the payloads answered with this outcome. -/
theorem C110_cumulative_exact (hl : Launch lx lw opts pref pc sel) (h : Named (makes y.past) y'.d.z.p k selfScope .int64Counter items []) (hp : Reports e pc sel start xe o acts after y y')
    (hone : ∀ id, Called y'.d.z.p k items id ↔ id = o) (ht : documented pref .syncCounter = .cumulative) (hno : y'.answers = y.answers)
    (hne : ∀ a ∈ Pipeline.calls (measured y'.past), NoEmptyList (a.1.attrs a.2.1))
    {success : Bool} {state : String} (hst : state ∈ ["ok", "canceled", "timeout", "error"]) (hrec : answered xe success state y.d.z.s.sent y.answers ≠ []) :
    ((sentPoints numbers (sentScope selfScope) items y'.d.z.s.sent).filter (fun d => d.attrs = outcome success state)).getLast?.map (·.value) =
      some (.int (total64 (answered xe success state y.d.z.s.sent y.answers))) := by
  obtain ⟨vals, h1, h2⟩ := C110_cumulative hl h hp hone ht hne (success := success) hst hrec
  rw [h2, total64_perm (between_same (answered_same hp hno ▸ h1))]

/-- C110 (nothing else). Every point of `otelsdk.telemetry.items` which is sent tells the outcome of a payload answered. -/
theorem C110_known (hl : Launch lx lw opts pref pc sel) (h : Named (makes y.past) y'.d.z.p k selfScope .int64Counter items []) (hp : Reports e pc sel start xe o acts after y y')
    (hone : ∀ id, Called y'.d.z.p k items id ↔ id = o) (d : PNumber) (hd : d ∈ sentPoints numbers (sentScope selfScope) items y'.d.z.s.sent) :
    ∃ a ∈ y'.answers, ∃ state, Client.Named xe a state ∧ d.attrs = outcome a.isNone state := by
  obtain ⟨more, hm, hf, hfew, -, -⟩ := reports_case hl h hp hone (success := true) (state := "ok") (by simp)
  have hr := C106_known hl h hf rfl (by simp [promise]) hfew d hd
  rw [← hm] at hr
  have k2 := ((kept_initial (farm := e.farm) (w := world e pc) (fsub := e.fsub) (pipe := 0) (xe := xe) (o := o) y'.d.z.p (views e sel) start).run hp.before).run hp.runs
  obtain ⟨b, hb⟩ := List.exists_mem_of_ne_nil _ hr
  obtain ⟨q, hq, -⟩ := List.mem_map.1 hb
  obtain ⟨hq1, hq2⟩ := List.mem_filter.1 hq
  simp only [decide_eq_true_eq] at hq2
  obtain ⟨-, h3, h4⟩ := hq2
  have hmem : q ∈ onCounter o y'.past := List.mem_filter.2 ⟨hq1, by simpa using (hone _).1 h4⟩
  rw [k2.calls] at hmem
  obtain ⟨r, hr1, rfl⟩ := List.mem_map.1 hmem
  refine ⟨r.2, (List.of_mem_zip hr1).2, _, stateOf_named xe r.2, ?_⟩
  change Describes none ((counter (world e pc) o).attrs (attrsOf xe r.2)) d.attrs at h3
  rw [counter_attrs] at h3
  exact describes_unique h3 ((describes_iff r.2 (stateOf_mem r.2)).2 ⟨rfl, rfl⟩)

/-- C110 (between exports). However the program was scheduled: when no export is under way, every payload sent has been answered, and every call on the counter has returned, which is what `Reports` asks of the moment in which `ForceFlush` is called. -/
theorem C110_settled {p : Provider.Provider C ν} (h : SelfTelemetry.run e.farm (world e pc) e.fsub e.x 0 xe o (SelfTelemetry.initial e.farm (world e pc) e.fsub p (views e sel) 0 start) acts = some y)
    (hid : Idle y.d.r) :
    y.answers.length = y.d.z.s.sent.length ∧ ∀ i, i < y.d.z.s.sync.nextOp → (y.d.z.s.sync.op i).obs = o → (y.d.z.s.sync.op i).pc = .done :=
  (even_initial p (views e sel) start).run h hid

/-! ### Examples -/

section Examples
open Verif.Examples

/-- What is known of the concrete program of `Verif.Examples.St`: the hypotheses of the theorems. A payload with two points was answered with a timeout; then `ForceFlush` is called. -/
theorem c110_case {a : Launcher.Preference} (h : St.evaluated a = true) (h1 : St.hasB a = true) :
    ∃ y y', St.stages a = some (y, y') ∧ Launch Launcher.exExt Ln.lw (Ln.opts a) a (Ln.pc a) (documented a) ∧
      Reports Ln.out (Ln.pc a) (documented a) 1 St.errs 0 (St.acts a) (St.after a) y y' ∧ Named (makes y.past) y'.d.z.p 0 selfScope .int64Counter items [] ∧
      (∀ id, Called y'.d.z.p 0 items id ↔ id = 0) ∧ (∀ a ∈ Pipeline.calls (measured y'.past), NoEmptyList (a.1.attrs a.2.1)) ∧ y'.answers = y.answers ∧
      answered St.errs false "timeout" y.d.z.s.sent y.answers = [2] := by
  obtain ⟨y, y', e1, e2, e3, e4, e5⟩ := St.of_evaluated h
  obtain ⟨g1, g2, g3, g4, g5, g6, g7, g8, g9, g10, g11⟩ := e4
  refine ⟨y, y', e1, Ln.launch a, e5, ?_, ?_, ?_, g10.trans g9.symm, ?_⟩
  · rw [e2, e3]; exact St.named h1
  · rw [e2]; exact St.alone h1
  · exact fun e he kv hkv => (of_decide_eq_true (List.all_eq_true.1 (List.all_eq_true.1 g4 e he) kv hkv)).2
  · rw [g9]; exact St.answered_one g11

/-- "cumulative": the payload of `ForceFlush` tells two points answered with a timeout. -/
example : ∃ y y', St.stages .cumulative = some (y, y') ∧
    ((sentPoints numbers (sentScope selfScope) items y'.d.z.s.sent).filter (fun d => d.attrs = outcome false "timeout")).getLast?.map (·.value) = some (.int 2) ∧
    St.told y' = ([[], [.int 2]], [2, 3]) := by
  obtain ⟨y, y', h1, h2, h3, h4, h5, h6, h7, h8⟩ := c110_case (a := .cumulative) (by decide +kernel) (by decide +kernel)
  obtain ⟨q, e1, e2⟩ : ∃ q, St.stages .cumulative = some q ∧ St.told q.2 = ([[], [.int 2]], [2, 3]) := exists_of_eval (by decide +kernel)
  obtain rfl : (y, y') = q := by rw [h1] at e1; exact Option.some.inj e1
  have := C110_cumulative_exact h2 h4 h3 h5 (by decide) h7 h6 (success := false) (state := "timeout") (by simp) (by rw [h8]; simp)
  rw [h8] at this
  exact ⟨y, y', h1, this, e2⟩

/-- "delta": the same; the points of the program itself are not sent again. -/
example : ∃ y y', St.stages .delta = some (y, y') ∧
    total64 (ints ((sentPoints numbers (sentScope selfScope) items y'.d.z.s.sent).filter (fun d => d.attrs = outcome false "timeout"))) = 2 ∧
    St.told y' = ([[], [.int 2]], [2, 1]) := by
  obtain ⟨y, y', h1, h2, h3, h4, h5, h6, h7, h8⟩ := c110_case (a := .delta) (by decide +kernel) (by decide +kernel)
  obtain ⟨q, e1, e2⟩ : ∃ q, St.stages .delta = some q ∧ St.told q.2 = ([[], [.int 2]], [2, 1]) := exists_of_eval (by decide +kernel)
  obtain rfl : (y, y') = q := by rw [h1] at e1; exact Option.some.inj e1
  have := C110_delta_exact h2 h4 h3 h5 (by decide) h7 (success := false) (state := "timeout") (by simp)
  rw [h8] at this
  exact ⟨y, y', h1, this, e2⟩

/-- The point sent tells the outcome of a payload answered. -/
example : ∃ y y' d, St.stages .delta = some (y, y') ∧ d ∈ sentPoints numbers (sentScope selfScope) items y'.d.z.s.sent ∧ ∃ a ∈ y'.answers, ∃ state, Client.Named St.errs a state ∧ d.attrs = outcome a.isNone state := by
  obtain ⟨y, y', h1, h2, h3, h4, h5, -⟩ := c110_case (a := .delta) (by decide +kernel) (by decide +kernel)
  obtain ⟨q, e1, e2⟩ : ∃ q, St.stages .delta = some q ∧ (sentPoints numbers (sentScope selfScope) items q.2.d.z.s.sent).length = 1 := exists_of_eval (by decide +kernel)
  obtain rfl : (y, y') = q := by rw [h1] at e1; exact Option.some.inj e1
  obtain ⟨d, hd⟩ := List.length_eq_one_iff.1 e2
  have hd : d ∈ sentPoints numbers (sentScope selfScope) items y'.d.z.s.sent := by rw [hd]; exact List.mem_singleton_self d
  exact ⟨y, y', d, h1, hd, C110_known h2 h4 h3 h5 d hd⟩

/-- Before `ForceFlush` no export is under way: the one payload sent was answered, and the call of the exporter on its counter, the third of the program, has returned. -/
example : ∃ y y', St.stages .delta = some (y, y') ∧ y.answers.length = 1 ∧ ∀ i, i < 3 → (y.d.z.s.sync.op i).obs = 0 → (y.d.z.s.sync.op i).pc = .done := by
  obtain ⟨y, y', h1, h2, h3, -⟩ := c110_case (a := .delta) (by decide +kernel) (by decide +kernel)
  obtain ⟨q, e1, e2⟩ : ∃ q, St.stages .delta = some q ∧ (q.1.d.r.threads.all (fun th => decide (th.pos ≠ .crit .produced ∧ th.pos ≠ .crit .exporting)) = true ∧ q.1.d.z.s.sent.length = 1 ∧ q.1.d.z.s.sync.nextOp = 3) :=
    exists_of_eval (by decide +kernel)
  obtain rfl : (y, y') = q := by rw [h1] at e1; exact Option.some.inj e1
  have := C110_settled h3.before (fun th hth => of_decide_eq_true (List.all_eq_true.1 e2.1 th hth))
  rw [e2.2.1, e2.2.2] at this
  exact ⟨y, y', h1, this⟩

end Examples

end Verif.Props
