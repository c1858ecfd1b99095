import Verif.Props.Bounded
import Verif.Proof.DeliveryExists

/-!
C100: what has begun comes to an end, though more keeps beginning.

A program as for C97 to C99, at any point of any execution, goes on for ever (`Endless`): calls, observations, callbacks, ticks, `ForceFlush`, `Shutdown` and collections of other readers keep coming, any number
of them. The schedule is fair (`Fair`): who can go on again and again, goes on some time. No more instruments are asked for.
-/

namespace Verif.Props
open Verif Verif.Attr Verif.Number Verif.Assembly Verif.Delivery
open Verif.Launched (Launch world views Outside)
open Verif.Front (IKind)
open Verif.Views (Tempo lit)
open Verif.Launcher (documented)

variable {C G ν : Type} [DecidableEq C] {farm : Str → UInt64} {w : World C G} {fsub : Bits → Bits → Bits} {x : Views.Ext C} {pipe : Nat} {vs : List (Views.Views C)} {start : Int}
  {acts : List (Delivery.Act ν)} {s : Delivery.Sys C G ν} {f : Nat → Delivery.Sys C G ν} {a : Nat → Delivery.Act ν} {n : Nat}

/-- C100 (calls). Every call on a synchronous instrument returns. -/
theorem C100_calls (hv : pipe < vs.length) (h : Delivery.run farm w fsub x pipe (initial farm w fsub s.z.p vs pipe start) acts = some s) (E : Endless farm w fsub x pipe s f a)
    (F : Fair farm w fsub x pipe f a) {i : Nat} (hi : i < (f n).z.s.sync.nextOp) : ∃ k, n ≤ k ∧ ((f k).z.s.sync.op i).pc = .done :=
  E.call_done F (good_run hv h) hi

/-- C100 (tasks). Every `SnapshotAndProcess` and every `Collect` of any reader returns. -/
theorem C100_tasks (hv : pipe < vs.length) (h : Delivery.run farm w fsub x pipe (initial farm w fsub s.z.p vs pipe start) acts = some s) (E : Endless farm w fsub x pipe s f a)
    (F : Fair farm w fsub x pipe f a) {t : Nat} (ht : t < (f n).z.s.sync.nextTask) : ∃ k, n ≤ k ∧ (f k).z.s.sync.task t = .done :=
  E.task_done F (good_run hv h) ht

/-- C100 (observations). Every observation is made, or rejected as too late. -/
theorem C100_observations (E : Endless farm w fsub x pipe s f a) (F : Fair farm w fsub x pipe f a) {i : Nat} (hi : i < (f n).z.s.async.nextOp) :
    ∃ k, n ≤ k ∧ (((f k).z.s.async.op i).pc = .done ∨ ((f k).z.s.async.op i).pc = .rejected) :=
  E.obs_done F hi

/-- C100 (requests). If every request for an instrument was answered with one, every `ForceFlush` and every `Shutdown` returns. -/
theorem C100_requests_partial (hv : pipe < vs.length) (ha : Answered x vs (makes acts))
    (h : Delivery.run farm w fsub x pipe (initial farm w fsub s.z.p vs pipe start) acts = some s) (E : Endless farm w fsub x pipe s f a) (F : Fair farm w fsub x pipe f a)
    {t : Nat} {th : Periodic.Thread} (h0 : t ≠ 0) (ht : (f n).r.threads[t]? = some th) : ∃ k, n ≤ k ∧ Returned t (f k) :=
  E.request_done F (good_run hv h) (c98_nil ha h) h0 ht

/-- C100 (the loop). Once a `Shutdown` has stopped it, the loop of the reader returns. -/
theorem C100_loop_partial (hv : pipe < vs.length) (ha : Answered x vs (makes acts))
    (h : Delivery.run farm w fsub x pipe (initial farm w fsub s.z.p vs pipe start) acts = some s) (E : Endless farm w fsub x pipe s f a) (F : Fair farm w fsub x pipe f a)
    (hc : (f n).r.cancelled = true) : ∃ k, n ≤ k ∧ Returned 0 (f k) := by
  obtain ⟨k, hk, h1⟩ := E.loop_done F (good_run hv h) (c98_nil ha h) hc
  exact ⟨k, hk, (Periodic.loopDone_iff _).1 h1⟩

/-- C100 (collections). Every collection of the reader ends. -/
theorem C100_collections_partial (hv : pipe < vs.length) (ha : Answered x vs (makes acts))
    (h : Delivery.run farm w fsub x pipe (initial farm w fsub s.z.p vs pipe start) acts = some s) (E : Endless farm w fsub x pipe s f a) (F : Fair farm w fsub x pipe f a) :
    ∃ k, n ≤ k ∧ (f k).pos = .out :=
  E.collection_done F (good_run hv h) (c98_nil ha h) n

/-- C100 (ticks). When the ticker has fired, the loop calls the exporter once more, unless it returns. -/
theorem C100_tick_partial (hv : pipe < vs.length) (ha : Answered x vs (makes acts))
    (h : Delivery.run farm w fsub x pipe (initial farm w fsub s.z.p vs pipe start) acts = some s) (E : Endless farm w fsub x pipe s f a) (F : Fair farm w fsub x pipe f a)
    (hc : (f n).r.chan = true) : ∃ k, n ≤ k ∧ (exports (f n) < exports (f k) ∨ Returned 0 (f k)) := by
  obtain ⟨k, hk, h1⟩ := E.tick_served F (good_run hv h) (c98_nil ha h) hc
  exact ⟨k, hk, h1.imp id (fun h2 => (Periodic.loopDone_iff _).1 h2)⟩

/-- C100 (exports). While the ticker goes on firing and the loop has not returned, the exporter is called without end, whatever else the program does. -/
theorem C100_exports_partial (hv : pipe < vs.length) (ha : Answered x vs (makes acts))
    (h : Delivery.run farm w fsub x pipe (initial farm w fsub s.z.p vs pipe start) acts = some s) (E : Endless farm w fsub x pipe s f a) (F : Fair farm w fsub x pipe f a)
    (ht : Often (fun k => ∃ order, a k = .reader .tick order)) (hr : ∀ k, ¬ Returned 0 (f k)) (m : Nat) : ∃ k, m ≤ exports (f k) := by
  refine E.exports_often F (good_run hv h) (c98_nil ha h) ht (fun k => ?_) m
  cases hd : Periodic.loopDone (f k).r with
  | false => rfl
  | true => exact absurd ((Periodic.loopDone_iff _).1 hd) (hr k)

/-- C100, programs which use the provider installed by the launcher: it is enough that no description of a synchronous instrument has a hint which asks to drop it. -/
theorem C100_launched_partial {lx : Launcher.Ext} {lw : Launcher.World} {opts : List Launcher.Opt} {pref : Launcher.Preference} {pc : Launcher.PipelineConfig} {sel : IKind → Tempo}
    {e : Outside C G} (_hl : Launch lx lw opts pref pc sel) (hd : ∀ k d, .instrument k d ∈ makes acts → d.kind.synchronous = true → ¬ DropHint e.x d)
    (h : Delivery.run e.farm (world e pc) e.fsub e.x 0 (initial e.farm (world e pc) e.fsub s.z.p (views e sel) 0 start) acts = some s)
    (E : Endless e.farm (world e pc) e.fsub e.x 0 s f a) (F : Fair e.farm (world e pc) e.fsub e.x 0 f a) {t : Nat} {th : Periodic.Thread} (h0 : t ≠ 0)
    (ht : (f n).r.threads[t]? = some th) : ∃ k, n ≤ k ∧ Returned t (f k) :=
  C100_requests_partial (by exact Nat.zero_lt_one) (Provider.answered_of_kept (fun k d _ hm hk => launched_keeps (hd k d hm hk))) h E F h0 ht

/-- C100 (there are such executions). Whatever calls on instruments, ticks, `ForceFlush` and `Shutdown` are to come (`g`), there is a fair execution in which all of them come, and nothing else begins. -/
theorem C100_exists_partial (hv : pipe < vs.length) (ha : Answered x vs (makes acts))
    (h : Delivery.run farm w fsub x pipe (initial farm w fsub s.z.p vs pipe start) acts = some s) {g : Nat → Delivery.Act ν} (hg : ∀ n, arrives w s.z.p (g n) = true) :
    ∃ f a, Endless farm w fsub x pipe s f a ∧ Fair farm w fsub x pipe f a ∧ (∀ n, ∃ k, n ≤ k ∧ a k = g n) ∧ ∀ k, ongoing (a k) = true ∨ ∃ n, a k = g n :=
  (good_run hv h).exists_fair (c98_nil ha h) hg

/-- C100 fails: if a request for an instrument was answered without one, and no collection is in progress, no `ForceFlush` or `Shutdown` called later ever returns, however fair the schedule. -/
theorem C100_refused_fails {i : Nat} (hr : Refused x vs (makes acts) i) (h : Delivery.run farm w fsub x pipe (initial farm w fsub s.z.p vs pipe start) acts = some s) (hp : s.pos = .out)
    (E : Endless farm w fsub x pipe s f a) {t : Nat} (ht : s.r.threads.length ≤ t) (k : Nat) : ¬ Returned t (f k) := by
  rintro ⟨th, h1, h2⟩
  exact (C98_refused_fails hr h hp (E.run k)).2 t th ht h1 h2

/-! ### Examples -/

section Examples
open Verif.Examples
open Verif.Examples.Asm (scA ka kb)

/-- Calls, ticks and flushes in turn, for ever. -/
def c100Come (n : Nat) : Dl.Act := if n % 3 = 0 then .call c99Call kb 7 else if n % 3 = 1 then .reader .tick [] else .reader .callFlush []

/-- A program with two calls, one of which has not returned. -/
def c100State : Option (Delivery.Sys Nat (List Bits) Nat) := Dl.runIn .lowmemory c99Start (c99Makes ++ ([.call c99Call kb 7] ++ c99More))

theorem c100_makes : makes (c99Makes ++ ([.call c99Call kb 7] ++ c99More)) = [.meter scA, .instrument 0 c99Inst.desc] := rfl

/-- There is a fair execution of it in which calls, ticks and flushes come without end; in it the call returns, every flush returns, and the exporter is called without end. -/
example : ∃ s f a, c100State = some s ∧ (s.z.s.sync.op 1).pc ≠ .done ∧ Endless (fun _ => 0) (Ln.w .lowmemory) Wh.fsub ViewEx.x 0 s f a ∧
    Fair (fun _ => 0) (Ln.w .lowmemory) Wh.fsub ViewEx.x 0 f a ∧ Often (fun k => a k = .call c99Call kb 7) ∧ Often (fun k => a k = .reader .tick []) ∧
    Often (fun k => a k = .reader .callFlush []) ∧ (∃ k, ((f k).z.s.sync.op 1).pc = .done) ∧
    (∀ n t th, t ≠ 0 → (f n).r.threads[t]? = some th → ∃ k, n ≤ k ∧ Returned t (f k)) ∧ ∀ m, ∃ k, m ≤ exports (f k) := by
  have h : ∃ s, c100State = some s ∧ (1 < s.z.s.sync.nextOp ∧ (s.z.s.sync.op 1).pc ≠ .done ∧ Live.holds (Ln.w .lowmemory) s.z.p c99Call = true ∧ s.r = Periodic.new) :=
    exists_of_eval (by decide +kernel)
  obtain ⟨s, h1, h2, h3, h4, h5⟩ := h
  have hp : s.z.p = c99Fill := by
    have := Dl.prov h1
    rw [this, c100_makes]
    rfl
  have hrun : Delivery.run (fun _ => 0) (Ln.w .lowmemory) Wh.fsub ViewEx.x 0 (initial (fun _ => 0) (Ln.w .lowmemory) Wh.fsub s.z.p (Ln.vs .lowmemory) 0 1)
      (c99Makes ++ ([.call c99Call kb 7] ++ c99More)) = some s := by rw [hp]; exact h1
  have hans : Answered ViewEx.x (Ln.vs .lowmemory) (makes (c99Makes ++ ([.call c99Call kb 7] ++ c99More))) := by
    rw [c100_makes]
    refine Provider.answered_of_kept (fun k d _ hm _ => launched_keeps (e := Ln.out) (t := documented .lowmemory) ?_)
    simp at hm
    obtain ⟨-, rfl⟩ := hm
    rintro ⟨h, hh, -⟩
    cases hh
  obtain ⟨f, a, E, F, hc, ho⟩ := C100_exists_partial (by exact Nat.zero_lt_one) hans hrun (g := c100Come) (fun n => by
    unfold c100Come
    split
    · exact h4
    · split <;> rfl)
  have often : ∀ r, r < 3 → Often (fun k => a k = c100Come r) := by
    intro r hr n
    obtain ⟨k, hk, h6⟩ := hc (3 * n + r)
    refine ⟨k, by omega, ?_⟩
    have : (3 * n + r) % 3 = r % 3 := by omega
    simp only [h6, c100Come, this]
  have hun : ∀ k, ¬ Returned 0 (f k) := by
    intro k hr
    have h6 := (E.good (good_run (by exact Nat.zero_lt_one) hrun) k).1.locked.per.quit ((Periodic.loopDone_iff _).2 hr)
    have h7 := (E.unstopped (by rw [h5]; exact ⟨rfl, fun th hm => by cases hm with | head => simp | tail _ hm => cases hm⟩) (fun k order e => by
      rcases ho k with h8 | ⟨n, h8⟩
      · rw [e] at h8; cases h8
      · rw [e] at h8
        unfold c100Come at h8
        split at h8
        · cases h8
        · split at h8 <;> cases h8) k).1
    rw [h6] at h7
    cases h7
  refine ⟨s, f, a, h1, h3, E, F, often 0 (by omega), often 1 (by omega), often 2 (by omega), ?_,
    fun n t th h0 ht => C100_requests_partial (by exact Nat.zero_lt_one) hans hrun E F h0 ht,
    C100_exports_partial (by exact Nat.zero_lt_one) hans hrun E F (fun n => ?_) hun⟩
  · obtain ⟨k, -, h6⟩ := C100_calls (n := 0) (by exact Nat.zero_lt_one) hrun E F (i := 1) (by rw [E.start]; exact h2)
    exact ⟨k, h6⟩
  · obtain ⟨k, hk, h6⟩ := often 1 (by omega) n
    exact ⟨k, hk, [], h6⟩

end Examples

end Verif.Props
