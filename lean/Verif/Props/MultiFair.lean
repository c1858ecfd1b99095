import Verif.Props.Multi
import Verif.Props.Fair
import Verif.Proof.MultiExists

/-!
C103: with several readers too, what has begun comes to an end, though more keeps beginning.

A program as for C102 goes on for ever (`Endless`): calls, observations, callbacks, ticks, `ForceFlush` and `Shutdown` of the provider and of its readers keep coming, any number of them; meters
and instruments are asked for any finite number of times, at any time. The schedule is fair (`Fair`): who can go on again and again, goes on some time.
-/

namespace Verif.Props
open Verif Verif.Attr Verif.Number Verif.Aggr Verif.Export Verif.Spec Verif.Assembly Verif.Multi
open Verif.Pipeline (numbers sentPoints NoEmptyList Describes)
open Verif.Delivery (Often)

variable {C G ν : Type} [DecidableEq C] {farm : Str → UInt64} {w : World C G} {fsub : Bits → Bits → Bits} {x : Views.Ext C} {vs : List (Views.Views C)} {start : Int}
  {p : Provider.Provider C ν} {f : Nat → Multi.Sys C G ν} {a : Nat → Multi.Act ν} {n r : Nat}

/-- C103 (calls). Every call on a synchronous instrument returns, if there is a reader. -/
theorem C103_calls (hv : 0 < vs.length) (E : Multi.Endless farm w fsub x vs start p f a) (F : Multi.Fair farm w fsub x vs f a) {i : Nat} (hi : i < (f n).sync.nextOp) :
    ∃ k, n ≤ k ∧ ((f k).sync.op i).pc = .done :=
  E.call_done F hv hi

/-- C103 (tasks). Every `SnapshotAndProcess` and every `Collect` of any reader returns. -/
theorem C103_tasks (hv : 0 < vs.length) (E : Multi.Endless farm w fsub x vs start p f a) (F : Multi.Fair farm w fsub x vs f a) {t : Nat} (ht : t < (f n).sync.nextTask) :
    ∃ k, n ≤ k ∧ (f k).sync.task t = .done :=
  E.task_done F hv ht

/-- C103 (observations). Every observation in any callback of any reader is made, or rejected as too late. -/
theorem C103_observations (hr : r < vs.length) (E : Multi.Endless farm w fsub x vs start p f a) (F : Multi.Fair farm w fsub x vs f a) {i : Nat} (hi : i < ((f n).readers r).async.nextOp) :
    ∃ k, n ≤ k ∧ ((((f k).readers r).async.op i).pc = .done ∨ (((f k).readers r).async.op i).pc = .rejected) :=
  E.obs_done F hr hi

/-- C103 (requests). If every request for an instrument is answered with one, every `ForceFlush` and every `Shutdown` of each reader returns. -/
theorem C103_requests_partial (hr : r < vs.length) (ha : Multi.Answered x vs a) (E : Multi.Endless farm w fsub x vs start p f a) (F : Multi.Fair farm w fsub x vs f a)
    {t : Nat} {th : Periodic.Thread} (h0 : t ≠ 0) (ht : ((f n).readers r).r.threads[t]? = some th) : ∃ k, n ≤ k ∧ Multi.Returned r t (f k) :=
  E.request_done F ha hr h0 ht

/-- C103 (the provider). If every request for an instrument is answered with one, every `ForceFlush` and every `Shutdown` of the provider returns. -/
theorem C103_provider_partial (ha : Multi.Answered x vs a) (E : Multi.Endless farm w fsub x vs start p f a) (F : Multi.Fair farm w fsub x vs f a) {t : Nat} (ht : t < (f n).calls.length) :
    ∃ k, n ≤ k ∧ Multi.Answers t (f k) :=
  E.provider_done F ha ht

/-- C103 (the loops). Once a `Shutdown` has stopped it, the loop of each reader returns. -/
theorem C103_loop_partial (hr : r < vs.length) (ha : Multi.Answered x vs a) (E : Multi.Endless farm w fsub x vs start p f a) (F : Multi.Fair farm w fsub x vs f a)
    (hc : ((f n).readers r).r.cancelled = true) : ∃ k, n ≤ k ∧ Multi.Returned r 0 (f k) :=
  E.loop_done F ha hr hc

/-- C103 (collections). Every collection of each reader ends. -/
theorem C103_collections_partial (hr : r < vs.length) (ha : Multi.Answered x vs a) (E : Multi.Endless farm w fsub x vs start p f a) (F : Multi.Fair farm w fsub x vs f a) :
    ∃ k, n ≤ k ∧ ((f k).readers r).pos = .out :=
  E.collection_done F ha hr n

/-- C103 (ticks). When the ticker of a reader has fired, and nothing more is asked for, its loop calls its exporter once more, unless it returns. -/
theorem C103_tick_partial (hr : r < vs.length) (ha : Multi.Answered x vs a) (E : Multi.Endless farm w fsub x vs start p f a) (F : Multi.Fair farm w fsub x vs f a)
    (hp : ∀ k, n ≤ k → (f k).p = p) (hc : ((f n).readers r).r.chan = true) : ∃ k, n ≤ k ∧ (Multi.exports r (f n) < Multi.exports r (f k) ∨ Multi.Returned r 0 (f k)) :=
  E.tick_served F ha hr hp hc

/-- C103 (exports). While its ticker goes on firing and its loop has not returned, the exporter of each reader is called without end, whatever the other readers do. -/
theorem C103_exports_partial (hr : r < vs.length) (ha : Multi.Answered x vs a) (E : Multi.Endless farm w fsub x vs start p f a) (F : Multi.Fair farm w fsub x vs f a)
    (ht : Often (fun k => ∃ order, a k = .reader r .tick order)) (hd : ∀ k, ¬ Multi.Returned r 0 (f k)) (m : Nat) : ∃ k, m ≤ Multi.exports r (f k) :=
  E.exports_often F ha hr ht hd m

/-- C103 (closing). When `ForceFlush` or `Shutdown` of the provider has begun, after all calls on synchronous instruments have returned, and none is made until it returns, then the program comes to
an end as C102 is about: the theorems of C102 tell what each reader has sent by then. -/
theorem C103_closing_partial (ha : Multi.Answered x vs a) (E : Multi.Endless farm w fsub x vs start p f a) (F : Multi.Fair farm w fsub x vs f a) (B : Multi.Behaved w f a)
    {m t : Nat} {kind : Periodic.Kind} (hp : ∀ k, m ≤ k → (f k).p = p) (hfew : (measured (first a m)).length < 2 ^ 32) (hret : ∀ i, i < (f m).sync.nextOp → ((f m).sync.op i).pc = .done)
    (hcall : (f m).calls[t]? = some (Multi.Pc.loop kind 0 none)) (hq : ∀ k, m ≤ k → ¬ Multi.Answers t (f k) → Multi.Silent (a k)) :
    ∃ k after, m ≤ k ∧ first a k = first a m ++ after ∧ Multi.Closing farm w fsub x vs start (first a m) after (f m) (f k) :=
  E.closing F ha B hp hfew hret hcall hq

/-- C103 (delivery). Then some time the last number sent by each reader with cumulative temporality, for an `int64` counter and any attributes, is the total recorded. -/
theorem C103_delivered_partial {i k : Nat} {v : Views.Views C} {sc : Views.Scope} {nm : Str} {L : Look C} (ha : Multi.Answered x vs a) (E : Multi.Endless farm w fsub x vs start p f a)
    (F : Multi.Fair farm w fsub x vs f a) (B : Multi.Behaved w f a)
    {m t : Nat} {kind : Periodic.Kind} (hp : ∀ k, m ≤ k → (f k).p = p) (hfew : (measured (first a m)).length < 2 ^ 32) (hret : ∀ i, i < (f m).sync.nextOp → ((f m).sync.op i).pc = .done)
    (hcall : (f m).calls[t]? = some (Multi.Pc.loop kind 0 none)) (hq : ∀ k, m ≤ k → ¬ Multi.Answers t (f k) → Multi.Silent (a k))
    (h : Viewed x vs (makes (first a m)) p i k v sc nm L) (hsy : L.sync = true) (hn : L.num = .int64) (hk : L.kind = .monoSum ∨ L.kind = .nonMonoSum) (ht : L.delta = false)
    (hic : w.ignoreColl = false) (hf : FewVia w p k v sc nm L.keys L.acfg.limit (measured (first a m)))
    (hne : ∀ e ∈ Pipeline.calls (measured (first a m)), NoEmptyList (e.1.attrs e.2.1)) (at_ : PMap)
    (hrec : recordedVia p k v sc nm (fun as => Describes L.keys as at_) (measured (first a m)) ≠ []) :
    ∃ j, m ≤ j ∧ ((sentPoints numbers (sentScope sc) nm ((f j).readers i).sent).filter (fun d => d.attrs = at_)).getLast?.map (·.value) =
      some (.int (total64 (recordedVia p k v sc nm (fun as => Describes L.keys as at_) (measured (first a m))))) := by
  obtain ⟨j, after, hj, -, hc⟩ := C103_closing_partial ha E F B hp hfew hret hcall hq
  have e := hp j hj
  refine ⟨j, hj, ?_⟩
  rw [← e] at h hf hrec ⊢
  exact C102_sum_last h hsy hc hn hk ht hic hf hne at_ hrec

/-- C103 (there are such executions). Whatever a program has done (`acts`), and whatever calls on instruments, ticks, `ForceFlush` and `Shutdown` are to come (`g`), there is a fair execution in which it
does that, then all of them come, and nothing else begins. -/
theorem C103_exists_partial {acts : List (Multi.Act ν)} {y : Multi.Sys C G ν} (hv : 0 < vs.length) (ha : Delivery.Answered x vs (makes acts))
    (h : Multi.run farm w fsub x (Multi.initial farm w fsub y.p vs start) acts = some y) {g : Nat → Multi.Act ν} (hg : ∀ n, Multi.arrives w y.p (g n) = true) :
    ∃ f a, Multi.Endless farm w fsub x vs start y.p f a ∧ Multi.Fair farm w fsub x vs f a ∧ first a acts.length = acts ∧ f acts.length = y ∧ (∀ n, acts.length ≤ n → (f n).p = y.p) ∧
      (∀ n, ∃ k, acts.length + n ≤ k ∧ a k = g n) ∧ ∀ k, acts.length ≤ k → Multi.ongoing (a k) = true ∨ ∃ n, a k = g n :=
  exists_fair hv ha h hg

/-- C103 fails: if a request for an instrument was answered without one, and a reader is not collecting, no `ForceFlush` or `Shutdown` of this reader called later ever returns, however fair the
schedule. -/
theorem C103_refused_fails {i : Nat} (hp : ∀ k, n ≤ k → (f k).p = p) (hr : Delivery.Refused x vs (makes (first a n)) i) (E : Multi.Endless farm w fsub x vs start p f a)
    (ho : ((f n).readers r).pos = .out) {t : Nat} (ht : ((f n).readers r).r.threads.length ≤ t) {k : Nat} (hk : n ≤ k) : ¬ Multi.Returned r t (f k) := by
  rintro ⟨th, h1, h2⟩
  have h3 := run_view (E.run n) r
  rw [view_initial] at h3
  have hs := seen_makes (E.run n) r
  obtain ⟨j, rfl⟩ := Nat.exists_eq_add_of_le hk
  have h4 := (E.of hp r).run j
  rw [← hs] at hr
  refine (C98_refused_fails (start := start) (s := view (f n) r) hr ?_ ho h4).2 t th ht h1 h2
  rw [show (view (f n) r).z.p = p from hp n (Nat.le_refl _)]
  exact h3

/-! ### Examples -/

section Examples
open Verif.Examples
open Verif.Instruments Verif.Launched
open Verif.Launcher (documented)
open Verif.Views (lit)
open Verif.Examples.Asm (scA ka kb)

/-- Ticks of both readers and `ForceFlush` of the provider in turn, for ever. -/
def c103Come (n : Nat) : Mu.Act := if n % 3 = 0 then .reader 0 .tick [] else if n % 3 = 1 then .reader 1 .tick [] else .flush

theorem c103_recorded : recordedVia (Mu.p (.int64Counter, .none)) 0 (Launched.view Ln.out (documented .cumulative)) scA (lit "n") (fun as => Describes none as Asm.ma)
    (measured (Mu.acts (.int64Counter, .none))) ≠ [] := by
  rw [Mu.measured_acts]
  apply List.ne_nil_of_mem (a := 7)
  unfold recordedVia
  refine List.mem_flatMap.2 ⟨(Mu.n (.int64Counter, .none), ka, 7), List.mem_cons_self .., ?_⟩
  have hk : (Mu.n (.int64Counter, .none)).attrs ka = ka := by decide
  dsimp only
  rw [hk, if_pos ⟨by unfold Rejected; decide, Asm.describes_ka⟩, AsmV.times_eq]
  exact List.mem_replicate.2 ⟨by decide +kernel, rfl⟩

/-- No callback observes. -/
def c103Plain : Mu.Act → Bool
  | .cb _ _ => false
  | _ => true

/-- The program of C102, when `ForceFlush` of the provider is under way and `Shutdown` has begun, goes on in a fair execution in which both tickers fire and `ForceFlush` of the provider is called
without end. In it every call on the provider returns, and some time 9 is the last number sent by the first reader for the attribute with which 7 and 2 were recorded. -/
example : ∃ y f a, Multi.run (fun _ => 0) Mu.w Wh.fsub ViewEx.x (Mu.initial (.int64Counter, .none)) (Mu.acts (.int64Counter, .none)) = some y ∧
    y.calls = [.loop .flush 0 (some 1), .loop .shutdown 0 none] ∧ (y.readers 0).pos ≠ .out ∧
    Multi.Endless (fun _ => 0) Mu.w Wh.fsub ViewEx.x Mu.vs 1 (Mu.p (.int64Counter, .none)) f a ∧ Multi.Fair (fun _ => 0) Mu.w Wh.fsub ViewEx.x Mu.vs f a ∧
    Multi.Answered ViewEx.x Mu.vs a ∧ Multi.Behaved Mu.w f a ∧ f (Mu.acts (.int64Counter, .none)).length = y ∧
    Often (fun k => a k = .reader 0 .tick []) ∧ Often (fun k => a k = .reader 1 .tick []) ∧ Often (fun k => a k = .flush) ∧
    (∀ n t, t < (f n).calls.length → ∃ k, n ≤ k ∧ Multi.Answers t (f k)) ∧
    ∃ k, ((sentPoints numbers (sentScope scA) (lit "n") ((f k).readers 0).sent).filter (fun d => d.attrs = Asm.ma)).getLast?.map (·.value) = some (.int 9) := by
  obtain ⟨s, s', s2, h1, h2, h3, h4, h5, h6⟩ := Mu.of_evaluated (ct := (.int64Counter, .none)) (by decide +kernel)
  have e1 : s.calls = [.loop .flush 0 (some 1), .loop .shutdown 0 none] ∧ (s.readers 0).pos ≠ .out := by
    have h : ∃ q, Mu.runIn (Mu.initial (.int64Counter, .none)) (Mu.acts (.int64Counter, .none)) = some q ∧
        (q.calls = [.loop .flush 0 (some 1), .loop .shutdown 0 none] ∧ (q.readers 0).pos ≠ .out) := exists_of_eval (by decide +kernel)
    obtain ⟨q, g1, g2⟩ := h
    rw [h5] at g1
    cases g1
    exact g2
  have e2 := c102_at h1 (fun q => ((sentPoints numbers (sentScope scA) (lit "n") (q.readers 0).sent).filter (fun d => d.attrs = Asm.ma)).getLast?.map (·.value) = some (.int 9))
    (exists_of_eval (by decide +kernel))
  have hp : s.p = Mu.p (.int64Counter, .none) := by
    rw [Mu.prov h5, Mu.makes_acts]
    unfold Mu.p
    rfl
  have hkept : ∀ cs : List (Provider.Call Nat), (∀ k d, .instrument k d ∈ cs → Provider.Call.instrument k d ∈ Mu.cs (.int64Counter, .none)) → Delivery.Answered ViewEx.x Mu.vs cs := by
    intro cs hcs
    refine Provider.answered_of_kept (fun k d sc hm hk hno => ?_)
    refine Delivery.launched_keeps (e := Ln.out) (t := documented .cumulative) (sc := sc) (d := d) ?_ (fun v hv => hno v (by rw [List.mem_singleton.1 hv]; exact List.mem_cons_self ..))
    have := hcs k d hm
    simp [Mu.cs] at this
    rintro ⟨h, hh, -⟩
    rcases this with ⟨-, rfl⟩ | ⟨-, rfl⟩ <;> cases hh
  have hans : Delivery.Answered ViewEx.x Mu.vs (makes (Mu.acts (.int64Counter, .none))) := by
    rw [Mu.makes_acts]
    exact hkept _ (fun _ _ h => h)
  have hrun : Multi.run (fun _ => 0) Mu.w Wh.fsub ViewEx.x (Multi.initial (fun _ => 0) Mu.w Wh.fsub s.p Mu.vs 1) (Mu.acts (.int64Counter, .none)) = some s := by
    rw [hp]; exact h5
  obtain ⟨f, a, E, F, g1, g2, g3, g4, g5⟩ := C103_exists_partial (by decide) hans hrun (g := c103Come) (fun n => by
    unfold c103Come
    have hv : s.p.views.length = 2 := by rw [hp]; decide +kernel
    split
    · simp [arrives, hv]
    · split
      · simp [arrives, hv]
      · rfl)
  rw [hp] at E g3
  have often : ∀ r, r < 3 → Often (fun k => a k = c103Come r) := by
    intro r hr n
    obtain ⟨k, hk, h6⟩ := g4 (3 * n + r)
    refine ⟨k, by omega, ?_⟩
    have : (3 * n + r) % 3 = r % 3 := by omega
    simp only [h6, c103Come, this]
  have hearly : ∀ k, k < (Mu.acts (.int64Counter, .none)).length → a k ∈ Mu.acts (.int64Counter, .none) := by
    intro k hk
    have : a k ∈ first a (Mu.acts (.int64Counter, .none)).length := List.mem_map.2 ⟨k, List.mem_range.2 hk, rfl⟩
    rwa [g1] at this
  have hlate : ∀ k, (Mu.acts (.int64Counter, .none)).length ≤ k → Multi.Silent (a k) ∧ ∀ i cb o as v, a k ≠ .cb i (.observe cb o as v) := by
    intro k hk
    rcases g5 k hk with h | ⟨n, h⟩
    · refine ⟨⟨fun c e => ?_, fun e => ?_, fun i as n e => ?_⟩, fun i cb o as v e => ?_⟩ <;> (rw [e] at h; cases h)
    · rw [h]
      unfold c103Come
      split
      · simp [Multi.Silent]
      · split <;> simp [Multi.Silent]
  have hplain : ∀ b ∈ Mu.acts (.int64Counter, .none), c103Plain b = true := by
    have : (Mu.acts (.int64Counter, .none)).all c103Plain = true := by decide +kernel
    exact List.all_eq_true.1 this
  have hnone : ∀ k i cb o as v, a k ≠ .cb i (.observe cb o as v) := by
    intro k i cb o as v e
    by_cases hk : k < (Mu.acts (.int64Counter, .none)).length
    · have := hplain _ (hearly k hk)
      rw [e] at this
      cases this
    · exact (hlate k (by omega)).2 i cb o as v e
  have A : Multi.Answered ViewEx.x Mu.vs a := by
    intro n
    refine hkept _ fun k d hm => ?_
    obtain ⟨b, hb, hc⟩ := List.mem_filterMap.1 hm
    obtain ⟨j, -, rfl⟩ := mem_first hb
    split at hc
    · rename_i c hj
      cases hc
      by_cases hk : j < (Mu.acts (.int64Counter, .none)).length
      · rw [← Mu.makes_acts]
        exact List.mem_filterMap.2 ⟨_, hearly j hk, by rw [hj]⟩
      · exact absurd hj ((hlate j (by omega)).1.1 _)
    · cases hc
    · cases hc
  have B : Multi.Behaved Mu.w f a := by
    refine ⟨Ln.exportable .cumulative, fun k i as n e => ?_, fun k i cb o as v e => absurd e (hnone k i cb o as v), fun k i b order _ _ hfl => ?_⟩
    · by_cases hk : k < (Mu.acts (.int64Counter, .none)).length
      · have h := hearly k hk
        rw [e] at h
        have h' : (i, as, n) ∈ Pipeline.calls (Mu.called (.int64Counter, .none)) := by
          rw [← Mu.measured_acts]
          exact List.mem_filterMap.2 ⟨_, List.mem_filterMap.2 ⟨_, h, rfl⟩, rfl⟩
        exact Mu.typed _ _ h'
      · exact absurd e ((hlate k (by omega)).1.2.2 i as n)
    · have h0 : ∀ k i, ((f k).readers i).async.nextOp = 0 := by
        intro k
        induction k with
        | zero => intro i; rw [E.start]; rfl
        | succ k ih => exact step_unobserved (E.next k) (hnone k) ih
      obtain ⟨j, hj, -⟩ := hfl
      rw [h0] at hj
      exact absurd hj (Nat.not_lt_zero j)
  refine ⟨s, f, a, h5, e1.1, e1.2, E, F, A, B, g2, often 0 (by omega), often 1 (by omega), often 2 (by omega), fun n t ht => C103_provider_partial A E F ht, ?_⟩
  have hV : Viewed ViewEx.x Mu.vs (makes (Mu.acts (.int64Counter, .none))) (Mu.p (.int64Counter, .none)) 0 0 (Launched.view Ln.out (documented .cumulative)) scA (lit "n")
      (look Ln.out .cumulative .int64Counter (lit "s")) := c102_plain rfl (by decide +kernel) (by decide +kernel)
  have hne : ∀ e ∈ Pipeline.calls (measured (Mu.acts (.int64Counter, .none))), NoEmptyList (e.1.attrs e.2.1) := by
    rw [Mu.measured_acts]
    unfold NoEmptyList
    decide +kernel
  have ht := C102_sum_last (by rw [h2]; exact hV) rfl h6 rfl (.inl rfl) rfl rfl (by rw [h2]; exact c102_few _) hne Asm.ma (by rw [h2]; exact c103_recorded)
  rw [e2, h2] at ht
  obtain ⟨k, -, hk⟩ := C103_delivered_partial (m := (Mu.acts (.int64Counter, .none)).length) (t := 1) (kind := .shutdown) A E F B g3 (by rw [g1, Mu.measured_acts]; decide)
    (by rw [g2]; exact h3.1) (by rw [g2]; exact h3.2.1) (fun k hk _ => (hlate k hk).1) (by rw [g1]; exact hV) rfl rfl (.inl rfl) rfl rfl (by rw [g1]; exact c102_few _)
    (by rw [g1]; exact hne) Asm.ma (by rw [g1]; exact c103_recorded)
  rw [g1] at hk
  exact ⟨k, hk.trans ht.symm⟩

end Examples

end Verif.Props
