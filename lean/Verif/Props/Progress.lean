import Verif.Props.Delivery
import Verif.Proof.DeliveryNil

/-!
C98: what has begun comes to an end.

A program as for C97 is at any point of any execution: calls on instruments, collections of any reader, callbacks, `ForceFlush` and `Shutdown` have begun and may be anywhere. From there on nothing
new begins (`ongoing`), while goroutines go on in any order (`Schedule`). No hypothesis says that the scheduler is fair.
-/

namespace Verif.Props
open Verif Verif.Attr Verif.Number Verif.Assembly Verif.Delivery
open Verif.Launched (Launch world views Outside)
open Verif.Front (IKind)
open Verif.Views (Tempo lit)
open Verif.Launcher (documented)

variable {C G ν : Type} [DecidableEq C] {farm : Str → UInt64} {w : World C G} {fsub : Bits → Bits → Bits} {x : Views.Ext C} {pipe : Nat} {vs : List (Views.Views C)} {start : Int}
  {acts more : List (Delivery.Act ν)} {s s' : Delivery.Sys C G ν} {f : Nat → Delivery.Sys C G ν}

theorem c98_nil (ha : Answered x vs (makes acts)) (h : Delivery.run farm w fsub x pipe (initial farm w fsub s.z.p vs pipe start) acts = some s) : Provider.NoNil s.z.p := by
  rw [prov_run h]
  exact Provider.noNil_answered ha

/-- C98. If every request for an instrument was answered with one: in every schedule all calls, collections, callbacks and requests of the reader have returned after finitely many steps. -/
theorem C98_returns_partial (hv : pipe < vs.length) (ha : Answered x vs (makes acts))
    (h : Delivery.run farm w fsub x pipe (initial farm w fsub s.z.p vs pipe start) acts = some s) (hf : Schedule farm w fsub x pipe s f) : ∃ n, AllReturned (f n) :=
  (good_run hv h).ends (c98_nil ha h) hf

/-- C98 (no deadlock). As long as something has not returned, some goroutine can go on. -/
theorem C98_goes_on_partial (hv : pipe < vs.length) (ha : Answered x vs (makes acts))
    (h : Delivery.run farm w fsub x pipe (initial farm w fsub s.z.p vs pipe start) acts = some s) (hn : ¬ AllReturned s) : ∃ s', Goes farm w fsub x pipe s s' :=
  Classical.byContradiction fun hh => hn ((good_run hv h).stuck (c98_nil ha h) (fun y hy => hh ⟨y, hy⟩))

/-- C98 (no busy waiting). Whatever was answered: there is no schedule in which goroutines go on for ever. -/
theorem C98_ends (hv : pipe < vs.length) (h : Delivery.run farm w fsub x pipe (initial farm w fsub s.z.p vs pipe start) acts = some s) :
    ¬ ∃ f : Nat → Delivery.Sys C G ν, f 0 = s ∧ ∀ n, Goes farm w fsub x pipe (f n) (f (n + 1)) := by
  rintro ⟨f, h0, hf⟩
  have hg : ∀ n, Good farm w fsub x pipe (f n) := by
    intro n
    induction n with
    | zero => rw [h0]; exact good_run hv h
    | succ n ih => exact (goes_good ih (hf n)).1
  have hno : ∀ y, ∀ n, f n = y → False := by
    intro y
    induction y using (lexBy_wf (measures farm w fsub pipe)).induction with
    | _ y ih =>
      rintro n rfl
      exact ih (f (n + 1)) (goes_good (hg n) (hf n)).2.2 (n + 1) rfl
  exact hno _ 0 rfl

/-- C98 (a way to the end). There is a continuation, without anything new, at the end of which everything has returned. -/
theorem C98_way_partial (hv : pipe < vs.length) (ha : Answered x vs (makes acts))
    (h : Delivery.run farm w fsub x pipe (initial farm w fsub s.z.p vs pipe start) acts = some s) :
    ∃ more s', (∀ a ∈ more, ongoing a = true) ∧ Delivery.run farm w fsub x pipe s more = some s' ∧ AllReturned s' :=
  (good_run hv h).way (c98_nil ha h)

/-- C98, programs which use the provider installed by the launcher: it is enough that no description of a synchronous instrument has a hint which asks to drop it. -/
theorem C98_launched_partial {lx : Launcher.Ext} {lw : Launcher.World} {opts : List Launcher.Opt} {pref : Launcher.Preference} {pc : Launcher.PipelineConfig} {sel : IKind → Tempo}
    {e : Outside C G} (_hl : Launch lx lw opts pref pc sel) (hd : ∀ k d, .instrument k d ∈ makes acts → d.kind.synchronous = true → ¬ DropHint e.x d)
    (h : Delivery.run e.farm (world e pc) e.fsub e.x 0 (initial e.farm (world e pc) e.fsub s.z.p (views e sel) 0 start) acts = some s)
    (hf : Schedule e.farm (world e pc) e.fsub e.x 0 s f) : ∃ n, AllReturned (f n) :=
  C98_returns_partial (by exact Nat.zero_lt_one) (Provider.answered_of_kept (fun k d _ hm hk => launched_keeps (hd k d hm hk))) h hf

/-- C98 (what returns). What has begun is among what has returned: nothing is forgotten on the way. -/
theorem C98_keeps (hf : Schedule farm w fsub x pipe s f) (n : Nat) : s.z.s.sync.nextOp ≤ (f n).z.s.sync.nextOp ∧ s.z.s.sync.nextTask ≤ (f n).z.s.sync.nextTask ∧
    s.z.s.async.nextOp ≤ (f n).z.s.async.nextOp ∧ s.z.s.async.nextCb ≤ (f n).z.s.async.nextCb ∧ s.r.threads.length ≤ (f n).r.threads.length :=
  schedule_counts hf n

/-- C98 fails: if a request for an instrument was answered without one (all readers drop it), and no collection is in progress, nothing is ever sent again, and no `ForceFlush` or `Shutdown`
called later ever returns (in the code the collection panics, see C32), whatever the program does. -/
theorem C98_refused_fails {i : Nat} (hr : Refused x vs (makes acts) i) (h : Delivery.run farm w fsub x pipe (initial farm w fsub s.z.p vs pipe start) acts = some s) (hp : s.pos = .out)
    (hm : Delivery.run farm w fsub x pipe s more = some s') :
    s'.z.s.sent = s.z.s.sent ∧ ∀ (t : Nat) (th : Periodic.Thread), s.r.threads.length ≤ t → s'.r.threads[t]? = some th → th.pos ≠ .done := by
  obtain ⟨k, m, h1, h2⟩ := Provider.nil_stays hr
  have hnil : HasNil s.z.p k := by
    rw [prov_run h]
    exact ⟨m, h1, h2⟩
  obtain ⟨g1, g2⟩ := nil_run (n := s.r.threads.length) hnil (by rw [hp]; trivial) (fun t th ht hth => by rw [List.getElem?_eq_none ht] at hth; cases hth) hm
  exact ⟨g2, fun t th ht hth => (g1 t th ht hth).1.2.2⟩

/-! ### Examples -/

section Examples
open Verif.Examples
open Verif.Examples.Asm (scA)

/-- The program of C97, when `Shutdown` has been called and waits while the loop of the reader collects. -/
def c98Acts : List Dl.Act := Dl.acts (.int64Counter, .none) .shutdown ++ [.reader .callShutdown [], Dl.go 1, Dl.go 1] ++ Dl.produces 2 2 ++ Dl.tasks 1 3

def c98State : Option (Delivery.Sys Nat (List Bits) Nat) := Dl.runIn .lowmemory (Dl.initial .lowmemory (.int64Counter, .none) .shutdown) c98Acts

theorem c98_makes : makes c98Acts = Dl.cs (.int64Counter, .none) .shutdown := by
  have h1 : makes c98Acts = makes (Dl.acts (.int64Counter, .none) .shutdown) ++ makes (ν := Nat) ([.reader .callShutdown [], Dl.go 1, Dl.go 1] ++ Dl.produces 2 2 ++ Dl.tasks 1 3) := by
    unfold c98Acts makes
    rw [List.append_assoc, List.append_assoc, List.filterMap_append]
    rfl
  rw [h1, Dl.makes_acts]
  rfl

attribute [irreducible] c98Acts

/-- There is such a state, with the hypotheses of `C98_launched_partial`; the loop of the reader is within `Produce`, and `Shutdown` waits for it. So whatever the order in which goroutines go on,
`Shutdown` returns. -/
example : ∃ s, c98State = some s ∧ Launch Launcher.exExt Ln.lw (Ln.opts .lowmemory) .lowmemory (Ln.pc .lowmemory) (documented .lowmemory) ∧
    (∀ k d, .instrument k d ∈ makes c98Acts → d.kind.synchronous = true → ¬ DropHint Ln.out.x d) ∧
    Delivery.run Ln.out.farm (world Ln.out (Ln.pc .lowmemory)) Ln.out.fsub Ln.out.x 0
      (initial Ln.out.farm (world Ln.out (Ln.pc .lowmemory)) Ln.out.fsub s.z.p (views Ln.out (documented .lowmemory)) 0 1) c98Acts = some s ∧
    s.r.threads = [⟨.tick, .crit .locked⟩, ⟨.shutdown, .stopped⟩] ∧ s.pos ≠ .out ∧
    ∀ f, Schedule Ln.out.farm (world Ln.out (Ln.pc .lowmemory)) Ln.out.fsub Ln.out.x 0 s f → ∃ n, AllReturned (f n) := by
  obtain ⟨s, h1, h2⟩ : ∃ s, c98State = some s ∧ s.r.threads = [⟨.tick, .crit .locked⟩, ⟨.shutdown, .stopped⟩] ∧ s.pos ≠ .out := exists_of_eval (by decide +kernel)
  have hp : s.z.p = Dl.p .lowmemory (.int64Counter, .none) .shutdown := by
    have := Dl.prov h1
    rw [c98_makes] at this
    rw [this]
    unfold Dl.p
    rfl
  have hrun : Delivery.run Ln.out.farm (world Ln.out (Ln.pc .lowmemory)) Ln.out.fsub Ln.out.x 0
      (initial Ln.out.farm (world Ln.out (Ln.pc .lowmemory)) Ln.out.fsub s.z.p (views Ln.out (documented .lowmemory)) 0 1) c98Acts = some s := by
    rw [hp]
    exact h1
  have hd : ∀ k d, .instrument k d ∈ makes c98Acts → d.kind.synchronous = true → ¬ DropHint Ln.out.x d := by
    intro k d hm hs
    rw [c98_makes] at hm
    rintro ⟨h, hh, -⟩
    have : d = Instruments.Ctor.int64Counter.desc (lit "n") [] (lit "s") ∨ d = Instruments.Ctor.int64ObservableCounter.desc (lit "y") [] (lit "s") := by
      simp [Dl.cs, Dl.Last.mark, Ln.Hinting.text] at hm
      rcases hm with ⟨-, hm⟩ | ⟨-, hm⟩
      · exact Or.inl hm
      · exact Or.inr hm
    have hdesc : d.desc = [] := by rcases this with rfl | rfl <;> rfl
    unfold Views.hintIn at hh
    rw [hdesc] at hh
    cases hh
  exact ⟨s, h1, Ln.launch .lowmemory, hd, hrun, h2.1, h2.2, fun f hf => C98_launched_partial (Ln.launch .lowmemory) hd hrun hf⟩

/-- A counter whose description asks to drop it. -/
def c98Drop : List (Provider.Call Nat) := [.meter scA, .instrument 0 (Instruments.Ctor.int64Counter.desc (lit "n") (lit "{drop") (lit "s"))]

def c98Fill : Provider.Provider Nat Nat := Provider.run ViewEx.x (Provider.new (Ln.vs .cumulative)) c98Drop

/-- The request is answered without an instrument. -/
theorem c98_refused : Refused ViewEx.x (Ln.vs .cumulative) c98Drop 1 :=
  ⟨0, _, rfl, ⟨scA, by decide +kernel⟩, by decide +kernel⟩

/-- Then the provider is flushed. -/
def c98Flush : Option (Delivery.Sys Nat (List Bits) Nat × Delivery.Sys Nat (List Bits) Nat) :=
  (Dl.runIn .cumulative (Delivery.initial (fun _ => 0) (Ln.w .cumulative) Wh.fsub c98Fill (Ln.vs .cumulative) 0 1) (c98Drop.map .make)).bind fun s =>
    (Dl.runIn .cumulative s ([.reader .callFlush [], Dl.go 1] ++ Dl.produces 3 2)).bind fun s' => some (s, s')

/-- The hypotheses of `C98_refused_fails` hold; `ForceFlush` has the lock and will never return. -/
example : ∃ s s', c98Flush = some (s, s') ∧ s.pos = .out ∧ s'.r.threads[1]? = some ⟨.flush, .crit .locked⟩ ∧
    ∀ more s'', Dl.runIn .cumulative s' more = some s'' → ∀ th, s''.r.threads[1]? = some th → th.pos ≠ .done := by
  obtain ⟨q, h1, h2, h3, h4⟩ : ∃ q, c98Flush = some q ∧ q.1.pos = .out ∧ q.1.r.threads.length = 1 ∧ q.2.r.threads[1]? = some ⟨.flush, .crit .locked⟩ := exists_of_eval (by decide +kernel)
  obtain ⟨s, s'⟩ := q
  refine ⟨s, s', h1, h2, h4, ?_⟩
  unfold c98Flush at h1
  simp only [Option.bind_eq_some_iff, Option.some.injEq, Prod.mk.injEq] at h1
  obtain ⟨u, e1, u', e2, rfl, rfl⟩ := h1
  intro more s'' hm th hth
  have hp : u.z.p = c98Fill := by
    have := Dl.prov e1
    rw [this]
    rfl
  have hmk : makes (c98Drop.map (Delivery.Act.make (ν := Nat))) = c98Drop := rfl
  refine (C98_refused_fails (farm := fun _ => 0) (w := Ln.w .cumulative) (fsub := Wh.fsub) (x := ViewEx.x) (pipe := 0) (vs := Ln.vs .cumulative) (start := 1)
    (acts := c98Drop.map .make) (s := u) (i := 1) (by rw [hmk]; exact c98_refused) (by rw [hp]; exact e1) h2 (Dl.run_two e2 hm)).2 1 th ?_ hth
  dsimp only at h3
  omega

end Examples

end Verif.Props
