import Verif.Proof.Failures

/-!
C107: what arrives when exports fail.

`Busy.Flushes …`: a program which uses the provider installed by the launcher until `ForceFlush` or `Shutdown` of the reader returns, while it may go on recording (see C106); `Delivery.Closes …`: one
which does not record meanwhile (see C97). `Failures.arrived ok sent` are the payloads among those handed to the exporter whose export succeeds.
-/

namespace Verif.Props
open Verif Verif.Attr Verif.Number Verif.Aggr Verif.Export Verif.Spec Verif.Assembly Verif.Instruments Verif.Delivery Verif.Busy Verif.Failures
open Verif.Launched (Named Few FewUpTo Launch world views view look Outside)
open Verif.Pipeline (numbers expPoints sentPoints ints NoEmptyList Describes Grouped Shape pointsIn)
open Verif.Front (IKind)
open Verif.Views (Tempo)
open Verif.Launcher (documented)

variable {C G ν : Type} [DecidableEq C] {lx : Launcher.Ext} {lw : Launcher.World} {opts : List Launcher.Opt} {pref : Launcher.Preference} {pc : Launcher.PipelineConfig}
  {sel : IKind → Tempo} {e : Outside C G} {k : Nat} {sc : Views.Scope} {c : Ctor} {n unit : Str} {start : Int} {acts after : List (Delivery.Act ν)}
  {s s' : Delivery.Sys C G ν}

/-! ### Cumulative -/

/-- C107 (sums of integers, cumulative). Whichever exports before have failed: if the last export succeeds, the last point which arrives with the attributes `m` is the sum of all integers whose recording with them had returned before the call of `ForceFlush` or `Shutdown`, and of some of those recorded meanwhile. -/
theorem C107_sum_last (hl : Launch lx lw opts pref pc sel) (h : Named (makes acts) s'.z.p k sc c n unit) (hp : Flushes e pc sel start acts after s s')
    (hsy : (promise c).observed = false) (hn : (promise c).num = .int64) (ho : (promise c).output = .monotonicSum ∨ (promise c).output = .sum)
    (ht : documented pref c.kinds.2 = .cumulative) (hf : Few s'.z.p k n (measured (acts ++ after)))
    (hne : ∀ a ∈ Pipeline.calls (measured (acts ++ after)), NoEmptyList (a.1.attrs a.2.1)) (m : PMap)
    (hrec : returnedBy s'.z.p k n (fun as => Describes none as m) s.z.s.sync ≠ []) {ok : Nat → Bool} (hok : LastArrives ok s'.z.s.sent) :
    ∃ vals, Between (returnedBy s'.z.p k n (fun as => Describes none as m) s.z.s.sync) vals (recordedBy s'.z.p k n (fun as => Describes none as m) (measured (acts ++ after))) ∧
      ((sentPoints numbers (sentScope sc) n (arrived ok s'.z.s.sent)).filter (fun d => d.attrs = m)).getLast?.map (·.value) = some (.int (total64 vals)) := by
  rw [last_arrived (busy_shown Pipeline.extracts_numbers (attrs := PNumber.attrs) (fun _ _ h => h.1) hl h hp (by rcases look_sum (e := e) (pref := pref) (unit := unit) ho with ha | ha <;> rw [ha] <;> simp [shapeOf, Shape.kind]) hsy ht hf hne m hrec) hok]
  exact C106_sum_last hl h hp hsy hn ho ht hf hne m hrec

/-- C107 (sums of floats, cumulative). -/
theorem C107_float_last (hl : Launch lx lw opts pref pc sel) (h : Named (makes acts) s'.z.p k sc c n unit) (hp : Flushes e pc sel start acts after s s')
    (hsy : (promise c).observed = false) (hn : (promise c).num = .float64) (ho : (promise c).output = .monotonicSum ∨ (promise c).output = .sum)
    (ht : documented pref c.kinds.2 = .cumulative) (hf : Few s'.z.p k n (measured (acts ++ after)))
    (hne : ∀ a ∈ Pipeline.calls (measured (acts ++ after)), NoEmptyList (a.1.attrs a.2.1)) (m : PMap)
    (hrec : returnedBy s'.z.p k n (fun as => Describes none as m) s.z.s.sync ≠ []) {ok : Nat → Bool} (hok : LastArrives ok s'.z.s.sent) :
    ∃ v vals, Between (returnedBy s'.z.p k n (fun as => Describes none as m) s.z.s.sync) vals (recordedBy s'.z.p k n (fun as => Describes none as m) (measured (acts ++ after))) ∧
      ((sentPoints numbers (sentScope sc) n (arrived ok s'.z.s.sent)).filter (fun d => d.attrs = m)).getLast?.map (·.value) = some (.double v) ∧ SumOf 0 e.fadd v vals := by
  rw [last_arrived (busy_shown Pipeline.extracts_numbers (attrs := PNumber.attrs) (fun _ _ h => h.1) hl h hp (by rcases look_sum (e := e) (pref := pref) (unit := unit) ho with ha | ha <;> rw [ha] <;> simp [shapeOf, Shape.kind]) hsy ht hf hne m hrec) hok]
  exact C106_float_last hl h hp hsy hn ho ht hf hne m hrec

/-- C107 (histograms, cumulative). -/
theorem C107_hist_last (hl : Launch lx lw opts pref pc sel) (h : Named (makes acts) s'.z.p k sc c n unit) (hp : Flushes e pc sel start acts after s s')
    (hsy : (promise c).observed = false) (ho : (promise c).output = .histogram)
    (ht : documented pref c.kinds.2 = .cumulative) (hf : Few s'.z.p k n (measured (acts ++ after)))
    (hne : ∀ a ∈ Pipeline.calls (measured (acts ++ after)), NoEmptyList (a.1.attrs a.2.1)) (m : PMap)
    (hrec : returnedBy s'.z.p k n (fun as => Describes none as m) s.z.s.sync ≠ []) {ok : Nat → Bool} (hok : LastArrives ok s'.z.s.sent) :
    ∃ d vals, Between (returnedBy s'.z.p k n (fun as => Describes none as m) s.z.s.sync) vals (recordedBy s'.z.p k n (fun as => Describes none as m) (measured (acts ++ after))) ∧
      ((sentPoints expPoints (sentScope sc) n (arrived ok s'.z.s.sent)).filter (fun d => d.attrs = m)).getLast? = some d ∧
      ShowsHist (reader (world e pc) s'.z.p 0) (e.hist (promise c).num (e.x.validH e.zero)) (promise c).num vals d := by
  rw [last_arrived (busy_shown Pipeline.extracts_exp (attrs := PExp.attrs) (fun _ _ h => h.2.2.1) hl h hp (by rw [look_hist ho]; simp [shapeOf, Shape.kind]) hsy ht hf hne m hrec) hok]
  exact C106_hist_last hl h hp hsy ho ht hf hne m hrec

/-- C107 (gauges, cumulative). With calls one after another, the last point which arrives is the value recorded last. -/
theorem C107_gauge_last (hl : Launch lx lw opts pref pc sel) (h : Named (makes acts) s'.z.p k sc c n unit) (hp : Closes e pc sel start acts after s s')
    (hsy : (promise c).observed = false) (ho : (promise c).output = .gauge)
    (ht : documented pref c.kinds.2 = .cumulative) (hq : Delivery.OneByOne e pc sel start s'.z.p k n acts) (hf : Few s'.z.p k n (measured acts))
    (hne : ∀ a ∈ Pipeline.calls (measured acts), NoEmptyList (a.1.attrs a.2.1)) (m : PMap)
    (hrec : recordedBy s'.z.p k n (fun as => Describes none as m) (measured acts) ≠ []) {ok : Nat → Bool} (hok : LastArrives ok s'.z.s.sent) :
    ∃ d b, ((sentPoints numbers (sentScope sc) n (arrived ok s'.z.s.sent)).filter (fun d => d.attrs = m)).getLast? = some d ∧
      (recordedBy s'.z.p k n (fun as => Describes none as m) (measured acts)).getLast? = some b ∧ NumOf (promise c).num b d.value := by
  rw [last_arrived (busy_shown Pipeline.extracts_numbers (attrs := PNumber.attrs) (fun _ _ h => h.1) hl h (closing_flushes hp) (by rw [look_gauge ho]; simp [shapeOf, Shape.kind]) hsy ht
    (by rw [closing_measured hp]; exact hf) (by rw [closing_measured hp]; exact hne) m (by rw [closing_returned hl h hp hsy]; exact hrec)) hok]
  exact C97_gauge_last hl h hp hsy ho ht hq hf hne m hrec

/-- C107 (recording has ended). When all calls on synchronous instruments had returned and none is made meanwhile, `vals` in the theorems above is everything which has been recorded; so the last sum which arrives is the sum of all. -/
theorem C107_sum_all (hl : Launch lx lw opts pref pc sel) (h : Named (makes acts) s'.z.p k sc c n unit) (hp : Closes e pc sel start acts after s s')
    (hsy : (promise c).observed = false) (hn : (promise c).num = .int64) (ho : (promise c).output = .monotonicSum ∨ (promise c).output = .sum)
    (ht : documented pref c.kinds.2 = .cumulative) (hf : Few s'.z.p k n (measured acts))
    (hne : ∀ a ∈ Pipeline.calls (measured acts), NoEmptyList (a.1.attrs a.2.1)) (m : PMap)
    (hrec : recordedBy s'.z.p k n (fun as => Describes none as m) (measured acts) ≠ []) {ok : Nat → Bool} (hok : LastArrives ok s'.z.s.sent) :
    ((sentPoints numbers (sentScope sc) n (arrived ok s'.z.s.sent)).filter (fun d => d.attrs = m)).getLast?.map (·.value) =
      some (.int (total64 (recordedBy s'.z.p k n (fun as => Describes none as m) (measured acts)))) := by
  obtain ⟨vals, h1, h2⟩ := C107_sum_last hl h (closing_flushes hp) hsy hn ho ht (by rw [closing_measured hp]; exact hf) (by rw [closing_measured hp]; exact hne) m
    (by rw [closing_returned hl h hp hsy]; exact hrec) hok
  rw [closing_returned hl h hp hsy, closing_measured hp] at h1
  rw [h2, total64_perm h1.exact]

/-- C107 (sums of floats, cumulative, recording has ended). What arrives last shows all values recorded, each once. -/
theorem C107_float_all (hl : Launch lx lw opts pref pc sel) (h : Named (makes acts) s'.z.p k sc c n unit) (hp : Closes e pc sel start acts after s s')
    (hsy : (promise c).observed = false) (hn : (promise c).num = .float64) (ho : (promise c).output = .monotonicSum ∨ (promise c).output = .sum)
    (ht : documented pref c.kinds.2 = .cumulative) (hf : Few s'.z.p k n (measured acts))
    (hne : ∀ a ∈ Pipeline.calls (measured acts), NoEmptyList (a.1.attrs a.2.1)) (m : PMap)
    (hrec : recordedBy s'.z.p k n (fun as => Describes none as m) (measured acts) ≠ []) {ok : Nat → Bool} (hok : LastArrives ok s'.z.s.sent) :
    ∃ v vals, vals.Perm (recordedBy s'.z.p k n (fun as => Describes none as m) (measured acts)) ∧
      ((sentPoints numbers (sentScope sc) n (arrived ok s'.z.s.sent)).filter (fun d => d.attrs = m)).getLast?.map (·.value) = some (.double v) ∧ SumOf 0 e.fadd v vals := by
  obtain ⟨v, vals, h1, h2⟩ := C107_float_last hl h (closing_flushes hp) hsy hn ho ht (by rw [closing_measured hp]; exact hf) (by rw [closing_measured hp]; exact hne) m
    (by rw [closing_returned hl h hp hsy]; exact hrec) hok
  rw [closing_returned hl h hp hsy, closing_measured hp] at h1
  exact ⟨v, vals, h1.exact, h2⟩

/-- C107 (histograms, cumulative, recording has ended). What arrives last shows all values recorded, each once. -/
theorem C107_hist_all (hl : Launch lx lw opts pref pc sel) (h : Named (makes acts) s'.z.p k sc c n unit) (hp : Closes e pc sel start acts after s s')
    (hsy : (promise c).observed = false) (ho : (promise c).output = .histogram)
    (ht : documented pref c.kinds.2 = .cumulative) (hf : Few s'.z.p k n (measured acts))
    (hne : ∀ a ∈ Pipeline.calls (measured acts), NoEmptyList (a.1.attrs a.2.1)) (m : PMap)
    (hrec : recordedBy s'.z.p k n (fun as => Describes none as m) (measured acts) ≠ []) {ok : Nat → Bool} (hok : LastArrives ok s'.z.s.sent) :
    ∃ d vals, vals.Perm (recordedBy s'.z.p k n (fun as => Describes none as m) (measured acts)) ∧
      ((sentPoints expPoints (sentScope sc) n (arrived ok s'.z.s.sent)).filter (fun d => d.attrs = m)).getLast? = some d ∧
      ShowsHist (reader (world e pc) s'.z.p 0) (e.hist (promise c).num (e.x.validH e.zero)) (promise c).num vals d := by
  obtain ⟨d, vals, h1, h2⟩ := C107_hist_last hl h (closing_flushes hp) hsy ho ht (by rw [closing_measured hp]; exact hf) (by rw [closing_measured hp]; exact hne) m
    (by rw [closing_returned hl h hp hsy]; exact hrec) hok
  rw [closing_returned hl h hp hsy, closing_measured hp] at h1
  exact ⟨d, vals, h1.exact, h2⟩

/-! ### Delta -/

/-- C107 (sums of integers, delta). The values recorded with the attributes `m` are divided into groups, without overlap: each point which arrives with these attributes is the sum of one group. So nothing arrives twice. Missing: with delta, values may not arrive at all, see `C107_delta_fails`. -/
theorem C107_int_sent_partial (hl : Launch lx lw opts pref pc sel) (h : Named (makes acts) s'.z.p k sc c n unit) (hp : Flushes e pc sel start acts after s s')
    (hsy : (promise c).observed = false) (hn : (promise c).num = .int64) (ho : (promise c).output = .monotonicSum ∨ (promise c).output = .sum)
    (ht : documented pref c.kinds.2 = .delta) (hf : Few s'.z.p k n (measured (acts ++ after))) (m : PMap) (ok : Nat → Bool) :
    ∃ gs : List (List Bits), Among gs.flatten (recordedBy s'.z.p k n (fun as => Describes none as m) (measured (acts ++ after))) ∧
      Pointwise (fun g d => d.value = .int (total64 g)) gs ((sentPoints numbers (sentScope sc) n (arrived ok s'.z.s.sent)).filter (fun d => d.attrs = m)) := by
  obtain ⟨gs, zs, h1, h2, -⟩ := C106_int_sent hl h hp hsy hn ho ht hf m
  obtain ⟨gs', h3, h4⟩ := pointwise_sublist h2 ((points_sublist (arrived_sublist ok s'.z.s.sent)).filter _)
  refine ⟨gs', ?_, h4⟩
  refine ((among_sublist (flatten_sublist h3)).trans ?_).trans h1.among
  rw [List.flatten_append]
  exact among_append ..

/-- C107 (sums of floats, delta). -/
theorem C107_float_sent_partial (hl : Launch lx lw opts pref pc sel) (h : Named (makes acts) s'.z.p k sc c n unit) (hp : Flushes e pc sel start acts after s s')
    (hsy : (promise c).observed = false) (hn : (promise c).num = .float64) (ho : (promise c).output = .monotonicSum ∨ (promise c).output = .sum)
    (ht : documented pref c.kinds.2 = .delta) (hf : Few s'.z.p k n (measured (acts ++ after))) (m : PMap) (ok : Nat → Bool) :
    ∃ gs : List (List Bits), Among gs.flatten (recordedBy s'.z.p k n (fun as => Describes none as m) (measured (acts ++ after))) ∧
      Pointwise (fun g d => ∃ b, SumOf 0 e.fadd b g ∧ d.value = .double b ∧ scaled b ≠ 0) gs ((sentPoints numbers (sentScope sc) n (arrived ok s'.z.s.sent)).filter (fun d => d.attrs = m)) := by
  obtain ⟨gs, zs, h1, h2, -⟩ := C106_float_sent hl h hp hsy hn ho ht hf m
  obtain ⟨gs', h3, h4⟩ := pointwise_sublist h2 ((points_sublist (arrived_sublist ok s'.z.s.sent)).filter _)
  refine ⟨gs', ?_, h4⟩
  refine ((among_sublist (flatten_sublist h3)).trans ?_).trans h1.among
  rw [List.flatten_append]
  exact among_append ..

/-- C107 (histograms, delta). -/
theorem C107_hist_sent_partial (hl : Launch lx lw opts pref pc sel) (h : Named (makes acts) s'.z.p k sc c n unit) (hp : Flushes e pc sel start acts after s s')
    (hsy : (promise c).observed = false) (ho : (promise c).output = .histogram)
    (ht : documented pref c.kinds.2 = .delta) (hcn : Counts (e.hist (promise c).num (e.x.validH e.zero)))
    (hf : Few s'.z.p k n (measured (acts ++ after))) (m : PMap) (ok : Nat → Bool) :
    ∃ gs : List (List Bits), Among gs.flatten (recordedBy s'.z.p k n (fun as => Describes none as m) (measured (acts ++ after))) ∧
      Pointwise (ShowsHist (reader (world e pc) s'.z.p 0) (e.hist (promise c).num (e.x.validH e.zero)) (promise c).num) gs ((sentPoints expPoints (sentScope sc) n (arrived ok s'.z.s.sent)).filter (fun d => d.attrs = m)) := by
  obtain ⟨vals, h1, gs, h5, h2⟩ := C106_hist_sent hl h hp hsy ho ht hcn hf m
  obtain ⟨gs', h3, h4⟩ := pointwise_sublist h2 ((points_sublist (arrived_sublist ok s'.z.s.sent)).filter _)
  exact ⟨gs', ((among_sublist (flatten_sublist h3)).trans (among_perm h5)).trans h1.among, h4⟩

section Examples
open Verif.Examples Verif.Examples.Asm
open Verif.Views (lit)

/-- The value of the first call has been recorded before `ForceFlush` or `Shutdown` is called. -/
def firstB (a : Launcher.Preference) (m : Ln.Made) (l : Dl.Last) (s : Delivery.Sys Nat (List Bits) Nat) : Bool :=
  decide (0 < s.z.s.sync.nextOp) && decide ((s.z.s.sync.op 0).pc = .done) && decide ((s.z.s.sync.op 0).attrs = ka) && decide ((s.z.s.sync.op 0).obs = instAddr 0 0) &&
  match (Dl.p a m l).ordered[0]? with
  | none => false
  | some mt => mt.insts[0]?.any (fun o => decide (o.desc.name = lit "n"))

theorem c107_returned {a : Launcher.Preference} {m : Ln.Made} {l : Dl.Last} {s : Delivery.Sys Nat (List Bits) Nat} (h : firstB a m l s = true) :
    returnedBy (Dl.p a m l) 0 (lit "n") (fun as => Describes none as ma) s.z.s.sync ≠ [] := by
  unfold firstB at h
  simp only [Bool.and_eq_true, decide_eq_true_eq] at h
  obtain ⟨⟨⟨⟨h1, h2⟩, h3⟩, h4⟩, h5⟩ := h
  unfold Busy.returnedBy
  rw [Ne, List.map_eq_nil_iff, List.filter_eq_nil_iff]
  intro h0
  refine h0 0 (List.mem_range.2 h1) ?_
  rw [h3, h4]
  simp only [decide_eq_true_eq]
  refine ⟨h2, describes_ka, ?_⟩
  cases hm : (Dl.p a m l).ordered[0]? with
  | none => rw [hm] at h5; cases h5
  | some mt =>
    rw [hm] at h5
    simp only [Option.any_eq_true, decide_eq_true_eq] at h5
    obtain ⟨o, ho, h6⟩ := h5
    exact ⟨mt, 0, o, hm, ho, h6, rfl⟩

theorem c107_recorded {a : Launcher.Preference} {m : Ln.Made} {l : Dl.Last} {s s' : Delivery.Sys Nat (List Bits) Nat} {c : Ctor} {unit : Str} (h : firstB a m l s = true) (hp : s'.z.p = Dl.p a m l)
    (hn : Named (makes (Dl.acts m l)) s'.z.p 0 scA c (lit "n") unit) (hc : Closes Ln.out (Ln.pc a) (documented a) 1 (Dl.acts m l) (Dl.after a m l) s s') (hsy : (promise c).observed = false) :
    recordedBy s'.z.p 0 (lit "n") (fun as => Describes none as ma) (measured (Dl.acts m l)) ≠ [] := by
  rw [← closing_returned (Ln.launch a) hn hc hsy, hp]
  exact c107_returned h

/-- "cumulative": a tick sends 5 and 7, which fails; `ForceFlush` sends 5 and 9, which succeeds. The theorem says that the last point which arrives is the sum of all. -/
example : ∃ s s', Dl.stages .cumulative (.int64Counter, .none) .flush = some (s, s') ∧ c97Sent s' (lit "n") = [[.int 5, .int 7], [.int 5, .int 9]] ∧
    LastArrives (fun i => decide (i = 1)) s'.z.s.sent ∧
    (((sentPoints numbers (sentScope scA) (lit "n") (arrived (fun i => decide (i = 1)) s'.z.s.sent)).filter (fun d => d.attrs = ma)).getLast?.map (·.value) =
        some (.int (total64 (recordedBy s'.z.p 0 (lit "n") (fun as => Describes none as ma) (measured (Dl.acts (.int64Counter, .none) .flush)))))) ∧
    (sentPoints numbers (sentScope scA) (lit "n") (arrived (fun i => decide (i = 1)) s'.z.s.sent)).map (·.value) = [.int 5, .int 9] := by
  obtain ⟨s, s', h1, h2, h3, -, h4, h5, h6, h7⟩ := c97_case (a := .cumulative) (ct := (.int64Counter, .none)) (l := .flush) rfl (by decide +kernel) (by decide +kernel) (by decide +kernel)
  obtain ⟨q, e1, e0, e2, e3, e4⟩ : ∃ q, Dl.stages .cumulative (.int64Counter, .none) .flush = some q ∧ (firstB .cumulative (.int64Counter, .none) .flush q.1 = true ∧ c97Sent q.2 (lit "n") = [[.int 5, .int 7], [.int 5, .int 9]] ∧
      q.2.z.s.sent.length = 2 ∧ (sentPoints numbers (sentScope scA) (lit "n") (arrived (fun i => decide (i = 1)) q.2.z.s.sent)).map (·.value) = [.int 5, .int 9]) :=
    exists_of_eval (by decide +kernel)
  obtain rfl : (s, s') = q := by rw [h1] at e1; exact Option.some.inj e1
  have hok : LastArrives (fun i => decide (i = 1)) s'.z.s.sent := by unfold LastArrives; rw [e3]; rfl
  have hp : s'.z.p = Dl.p .cumulative (.int64Counter, .none) .flush := by
    obtain ⟨_, _, g1, g2, -⟩ := Dl.of_evaluated (a := .cumulative) (ct := (.int64Counter, .none)) (k := .flush) (by decide +kernel)
    rw [h1] at g1
    cases g1
    exact g2
  exact ⟨s, s', h1, e2, hok, C107_sum_all h2 h4 h3 rfl rfl (.inl rfl) (by decide) h5 h7 ma (c107_recorded e0 hp h4 h3 rfl) hok, e4⟩

/-- C107 fails with delta: values whose export failed are lost. With "lowMemory", 7 and 2 are recorded with the attributes `ma`; 7 is sent by a tick, which fails, and 2 by `Shutdown`, which
succeeds. The sums which arrive are not those of everything recorded. -/
theorem C107_delta_fails : ∃ (s s' : Delivery.Sys Nat (List Bits) Nat) (ok : Nat → Bool), Launch Launcher.exExt Ln.lw (Ln.opts .lowmemory) .lowmemory (Ln.pc .lowmemory) (documented .lowmemory) ∧
    Closes Ln.out (Ln.pc .lowmemory) (documented .lowmemory) 1 (Dl.acts (.int64Counter, .none) .shutdown) (Dl.after .lowmemory (.int64Counter, .none) .shutdown) s s' ∧
    Named (makes (Dl.acts (.int64Counter, .none) .shutdown)) s'.z.p 0 scA .int64Counter (lit "n") (lit "s") ∧
    Few s'.z.p 0 (lit "n") (measured (Dl.acts (.int64Counter, .none) .shutdown)) ∧ documented .lowmemory (Ctor.kinds .int64Counter).2 = .delta ∧ LastArrives ok s'.z.s.sent ∧
    total64 (ints ((sentPoints numbers (sentScope scA) (lit "n") (arrived ok s'.z.s.sent)).filter (fun d => d.attrs = ma))) ≠
      total64 (recordedBy s'.z.p 0 (lit "n") (fun as => Describes none as ma) (measured (Dl.acts (.int64Counter, .none) .shutdown))) := by
  obtain ⟨s, s', h1, h2, h3, -, h4, h5, h6, h7⟩ := c97_case (a := .lowmemory) (ct := (.int64Counter, .none)) (l := .shutdown) rfl (by decide +kernel) (by decide +kernel) (by decide +kernel)
  obtain ⟨q, e1, e2, e3, e4⟩ : ∃ q, Dl.stages .lowmemory (.int64Counter, .none) .shutdown = some q ∧
      (ints ((sentPoints numbers (sentScope scA) (lit "n") q.2.z.s.sent).filter (fun d => d.attrs = ma)) = [7, 2] ∧
      q.2.z.s.sent.length = 2 ∧ ints ((sentPoints numbers (sentScope scA) (lit "n") (arrived (fun i => decide (i = 1)) q.2.z.s.sent)).filter (fun d => d.attrs = ma)) = [2]) :=
    exists_of_eval (by decide +kernel)
  obtain rfl : (s, s') = q := by rw [h1] at e1; exact Option.some.inj e1
  refine ⟨s, s', fun i => decide (i = 1), h2, h3, h4, h5, by decide, by unfold LastArrives; rw [e3]; rfl, ?_⟩
  rw [← C97_sum_sent h2 h4 h3 rfl rfl (.inl rfl) (by decide) h5 ma, e2, e4]
  decide

/-- A histogram, cumulative: one value with `ma`, then two. -/
example : ∃ s s', Dl.stages .cumulative (.float64Histogram, .none) .shutdown = some (s, s') ∧
    Closes Ln.out (Ln.pc .cumulative) (documented .cumulative) 1 (Dl.acts (.float64Histogram, .none) .shutdown) (Dl.after .cumulative (.float64Histogram, .none) .shutdown) s s' ∧
    LastArrives (fun i => decide (i = 1)) s'.z.s.sent ∧ documented .cumulative (Ctor.kinds .float64Histogram).2 = .cumulative ∧
    (∃ d vals, vals.Perm (recordedBy s'.z.p 0 (lit "n") (fun as => Describes none as ma) (measured (Dl.acts (.float64Histogram, .none) .shutdown))) ∧
        ((sentPoints expPoints (sentScope scA) (lit "n") (arrived (fun i => decide (i = 1)) s'.z.s.sent)).filter (fun d => d.attrs = ma)).getLast? = some d ∧
        ShowsHist (reader (world Ln.out (Ln.pc .cumulative)) s'.z.p 0) (Ln.out.hist (promise .float64Histogram).num (Ln.out.x.validH Ln.out.zero)) (promise .float64Histogram).num vals d) ∧
    (sentPoints expPoints (sentScope scA) (lit "n") (arrived (fun i => decide (i = 1)) s'.z.s.sent)).map (·.count) = [1, 2] := by
  obtain ⟨s, s', h1, h2, h3, -, h4, h5, -, h7⟩ := c97_case (a := .cumulative) (ct := (.float64Histogram, .none)) (l := .shutdown) rfl (by decide +kernel) (by decide +kernel) (by decide +kernel)
  obtain ⟨q, e1, e0, e2, e3⟩ : ∃ q, Dl.stages .cumulative (.float64Histogram, .none) .shutdown = some q ∧ (firstB .cumulative (.float64Histogram, .none) .shutdown q.1 = true ∧ q.2.z.s.sent.length = 2 ∧
      (sentPoints expPoints (sentScope scA) (lit "n") (arrived (fun i => decide (i = 1)) q.2.z.s.sent)).map (·.count) = [1, 2]) := exists_of_eval (by decide +kernel)
  obtain rfl : (s, s') = q := by rw [h1] at e1; exact Option.some.inj e1
  have hok : LastArrives (fun i => decide (i = 1)) s'.z.s.sent := by unfold LastArrives; rw [e2]; rfl
  have hp : s'.z.p = Dl.p .cumulative (.float64Histogram, .none) .shutdown := by
    obtain ⟨_, _, g1, g2, -⟩ := Dl.of_evaluated (a := .cumulative) (ct := (.float64Histogram, .none)) (k := .shutdown) (by decide +kernel)
    rw [h1] at g1
    cases g1
    exact g2
  exact ⟨s, s', h1, h3, hok, by decide, C107_hist_all h2 h4 h3 rfl rfl (by decide) h5 h7 ma (c107_recorded e0 hp h4 h3 rfl) hok, e3⟩

/-- A gauge, cumulative. -/
example : ∃ s s', Dl.stages .cumulative (.int64Gauge, .none) .shutdown = some (s, s') ∧
    Closes Ln.out (Ln.pc .cumulative) (documented .cumulative) 1 (Dl.acts (.int64Gauge, .none) .shutdown) (Dl.after .cumulative (.int64Gauge, .none) .shutdown) s s' ∧
    Delivery.OneByOne Ln.out (Ln.pc .cumulative) (documented .cumulative) 1 s'.z.p 0 (lit "n") (Dl.acts (.int64Gauge, .none) .shutdown) ∧
    LastArrives (fun i => decide (i = 1)) s'.z.s.sent ∧
    (sentPoints numbers (sentScope scA) (lit "n") (arrived (fun i => decide (i = 1)) s'.z.s.sent)).map (·.value) = [.int 5, .int 2] := by
  obtain ⟨s, s', h1, -, h3, -, -, -, h6, -⟩ := c97_case (a := .cumulative) (ct := (.int64Gauge, .none)) (l := .shutdown) rfl (by decide +kernel) (by decide +kernel) (by decide +kernel)
  obtain ⟨q, e1, e2, e3⟩ : ∃ q, Dl.stages .cumulative (.int64Gauge, .none) .shutdown = some q ∧ (q.2.z.s.sent.length = 2 ∧
      (sentPoints numbers (sentScope scA) (lit "n") (arrived (fun i => decide (i = 1)) q.2.z.s.sent)).map (·.value) = [.int 5, .int 2]) := exists_of_eval (by decide +kernel)
  obtain rfl : (s, s') = q := by rw [h1] at e1; exact Option.some.inj e1
  exact ⟨s, s', h1, h3, h6, by unfold LastArrives; rw [e2]; rfl, e3⟩

/-- Delta, floats: only the 2 arrives. -/
example : ∃ s s', Dl.stages .delta (.float64Counter, .none) .shutdown = some (s, s') ∧
    Flushes Ln.out (Ln.pc .delta) (documented .delta) 1 (Dl.acts (.float64Counter, .none) .shutdown) (Dl.after .delta (.float64Counter, .none) .shutdown) s s' ∧
    documented .delta (Ctor.kinds .float64Counter).2 = .delta ∧
    (sentPoints numbers (sentScope scA) (lit "n") (arrived (fun i => decide (i = 1)) s'.z.s.sent)).map (·.value) = [.double 2] := by
  obtain ⟨s, s', h1, -, h3, -⟩ := c97_case (a := .delta) (ct := (.float64Counter, .none)) (l := .shutdown) rfl (by decide +kernel) (by decide +kernel) (by decide +kernel)
  obtain ⟨q, e1, e2⟩ : ∃ q, Dl.stages .delta (.float64Counter, .none) .shutdown = some q ∧
      (sentPoints numbers (sentScope scA) (lit "n") (arrived (fun i => decide (i = 1)) q.2.z.s.sent)).map (·.value) = [.double 2] := exists_of_eval (by decide +kernel)
  obtain rfl : (s, s') = q := by rw [h1] at e1; exact Option.some.inj e1
  exact ⟨s, s', h1, closing_flushes h3, by decide, e2⟩

end Examples

end Verif.Props
