import Verif.Props.Progress
import Verif.Proof.DeliveryBound

/-!
C99: how long a call on a synchronous instrument takes.

A program as for C97 and C98, at any point of any execution. A step of a call is the part of it up to the next point at which other goroutines may come in between: looking for the record, making the
record, making the accumulator of one output metric, reading the clock for and updating one output metric, counting the update, letting go of the record.
-/

namespace Verif.Props
open Verif Verif.Attr Verif.Number Verif.Assembly Verif.Delivery
open Verif.Launched (Launch world views Outside)
open Verif.Front (IKind)
open Verif.Views (Tempo lit)
open Verif.Launcher (documented)

variable {C G ν : Type} [DecidableEq C] {farm : Str → UInt64} {w : World C G} {fsub : Bits → Bits → Bits} {x : Views.Ext C} {pipe : Nat} {vs : List (Views.Views C)} {start : Int}
  {acts more : List (Delivery.Act ν)} {s s1 s' : Delivery.Sys C G ν} {k j : Nat} {m : Provider.Meter C ν} {o : Provider.Inst} {proc : Option (List KV → List KV)} {as : List KV} {n : Bits}

/-- C99 (bounded). A call on the `j`th instrument of the `k`th meter, which is not rejected because of its value, takes at most three steps for each output metric of the instrument and six more,
whatever other goroutines do meanwhile (`more`): calls on this or other instruments, collections of any reader, requests for instruments. It never tries again. -/
theorem C99_bounded (h : Delivery.run farm w fsub x pipe (initial farm w fsub s'.z.p vs pipe start) acts = some s) (hm : s.z.p.ordered[k]? = some m) (ho : m.insts[j]? = some o)
    (hc : Delivery.step farm w fsub x pipe s (.call (instrument w k j o proc) as n) = some s1) (hb : s.z.s.sync.nextOp < s1.z.s.sync.nextOp)
    (hr : Delivery.run farm w fsub x pipe s1 more = some s') : stepsOf s.z.s.sync.nextOp more ≤ 3 * outputs o + 6 :=
  call_steps h hm ho hc hb hr

/-- C99, programs which use the provider installed by the launcher: at most nine steps. -/
theorem C99_launched {lx : Launcher.Ext} {lw : Launcher.World} {opts : List Launcher.Opt} {pref : Launcher.Preference} {pc : Launcher.PipelineConfig} {sel : IKind → Tempo}
    {e : Outside C G} (_hl : Launch lx lw opts pref pc sel)
    (h : Delivery.run e.farm (world e pc) e.fsub e.x 0 (initial e.farm (world e pc) e.fsub s'.z.p (views e sel) 0 start) acts = some s)
    (hm : s.z.p.ordered[k]? = some m) (ho : m.insts[j]? = some o)
    (hc : Delivery.step e.farm (world e pc) e.fsub e.x 0 s (.call (instrument (world e pc) k j o proc) as n) = some s1) (hb : s.z.s.sync.nextOp < s1.z.s.sync.nextOp)
    (hr : Delivery.run e.farm (world e pc) e.fsub e.x 0 s1 more = some s') : stepsOf s.z.s.sync.nextOp more ≤ 9 := by
  have h1 := call_steps h hm ho hc hb hr
  have h2 : outputs o ≤ 1 := launched_outputs (e := e) (t := sel) (cs := makes acts) (by rw [prov_run h] at hm; exact hm) ho
  omega

/-- C99 (waiting). When a call cannot go on, some reader is running `SnapshotAndProcess` on its instrument, or `Collect` on one of its output metrics. So no call waits for another call. -/
theorem C99_waits (hv : pipe < vs.length) (h : Delivery.run farm w fsub x pipe (initial farm w fsub s.z.p vs pipe start) acts = some s) {i : Nat} (hi : i < s.z.s.sync.nextOp)
    (hn : (s.z.s.sync.op i).pc ≠ .done) (hb : Delivery.step farm w fsub x pipe s (.op i) = none) :
    ∃ t, t < s.z.s.sync.nextTask ∧ s.z.s.sync.task t ≠ .done ∧
      (s.z.s.sync.lock (s.z.s.sync.op i).obs = some t ∨ ∃ l ∈ leavesOf s.z.p (s.z.s.sync.op i).obs, s.z.s.sync.llock l = some t) :=
  (good_run hv h).waits hi hn hb

/-- C99 (alone). While no reader is collecting, a call returns without any other goroutine going on, wherever other calls have come to. -/
theorem C99_alone (hv : pipe < vs.length) (h : Delivery.run farm w fsub x pipe (initial farm w fsub s.z.p vs pipe start) acts = some s) (hq : Quiet s) {i : Nat}
    (hi : i < s.z.s.sync.nextOp) : ∃ n s', Delivery.run farm w fsub x pipe s (List.replicate n (.op i)) = some s' ∧ (s'.z.s.sync.op i).pc = .done :=
  (good_run hv h).alone hq hi

/-- C98 (no idle steps). A step of a call, of a collection or of an observation always has an effect: none of them waits by trying again and again. -/
theorem C98_no_spin (hv : pipe < vs.length) (h : Delivery.run farm w fsub x pipe (initial farm w fsub s.z.p vs pipe start) acts = some s) {a : Delivery.Act ν}
    (ha : (∃ i, a = .op i) ∨ (∃ t ch, a = .task t ch) ∨ (∃ i, a = .cb (.op i)) ∨ ∃ now, a = .produce now) (hs : Delivery.step farm w fsub x pipe s a = some s') :
    Goes farm w fsub x pipe s s' := by
  refine ⟨?_, a, ?_, hs⟩
  · rintro rfl
    exact lexBy_irrefl _ _ (moves_lower (good_run hv h).halt ha hs)
  · rcases ha with ⟨i, rfl⟩ | ⟨t, ch, rfl⟩ | ⟨i, rfl⟩ | ⟨now, rfl⟩ <;> rfl

/-! ### Examples -/

section Examples
open Verif.Examples
open Verif.Examples.Asm (scA ka kb)

abbrev c99Made : Ln.Made := (.int64Counter, .none)
def c99Inst : Provider.Inst := { desc := Instruments.Ctor.int64Counter.desc (lit "n") [] (lit "s"), leaves := [[0]] }

deriving instance DecidableEq for Provider.Inst

def c99Makes : List Dl.Act := [.make (.meter scA), .make (.instrument 0 c99Inst.desc)]

def c99Fill : Provider.Provider Nat Nat := Provider.run ViewEx.x (Provider.new (Ln.vs .lowmemory)) [.meter scA, .instrument 0 c99Inst.desc]

def c99Start : Delivery.Sys Nat (List Bits) Nat := Delivery.initial (fun _ => 0) (Ln.w .lowmemory) Wh.fsub c99Fill (Ln.vs .lowmemory) 0 1

def c99Call : Front.Inst := instrument (Ln.w .lowmemory) 0 0 c99Inst none

/-- Two calls; the first takes nine steps, with those of the other in between. -/
def c99More : List Dl.Act := Dl.ops 0 3 ++ [.call c99Call ka 2] ++ Dl.ops 1 5 ++ Dl.ops 0 6

def c99Run : Option (Delivery.Sys Nat (List Bits) Nat × Delivery.Sys Nat (List Bits) Nat × Delivery.Sys Nat (List Bits) Nat) :=
  (Dl.runIn .lowmemory c99Start c99Makes).bind fun s => (Dl.runIn .lowmemory s [.call c99Call kb 7]).bind fun s1 => (Dl.runIn .lowmemory s1 c99More).bind fun s' => some (s, s1, s')

def c99Good (q : Delivery.Sys Nat (List Bits) Nat × Delivery.Sys Nat (List Bits) Nat × Delivery.Sys Nat (List Bits) Nat) : Prop :=
  (q.1.z.p.ordered[0]?).map (fun m => m.insts[0]?) = some (some c99Inst) ∧ q.1.z.s.sync.nextOp = 0 ∧ q.2.1.z.s.sync.nextOp = 1 ∧ (q.2.2.z.s.sync.op 0).pc = .done ∧
    (q.2.2.z.s.sync.op 1).pc ≠ .done ∧ q.2.2.z.s.sync.nextTask = 0 ∧ q.2.2.z.s.sync.nextOp = 2

instance (q : Delivery.Sys Nat (List Bits) Nat × Delivery.Sys Nat (List Bits) Nat × Delivery.Sys Nat (List Bits) Nat) : Decidable (c99Good q) := by unfold c99Good; infer_instance

/-- The hypotheses of `C99_launched` hold of this program, and the first call takes all of the nine steps; the second has not returned, and does so by itself (`C99_alone`). -/
example : ∃ s s1 s' m, c99Run = some (s, s1, s') ∧ Launch Launcher.exExt Ln.lw (Ln.opts .lowmemory) .lowmemory (Ln.pc .lowmemory) (documented .lowmemory) ∧
    Delivery.run Ln.out.farm (world Ln.out (Ln.pc .lowmemory)) Ln.out.fsub Ln.out.x 0
      (initial Ln.out.farm (world Ln.out (Ln.pc .lowmemory)) Ln.out.fsub s'.z.p (views Ln.out (documented .lowmemory)) 0 1) c99Makes = some s ∧
    s.z.p.ordered[0]? = some m ∧ m.insts[0]? = some c99Inst ∧
    Delivery.step Ln.out.farm (world Ln.out (Ln.pc .lowmemory)) Ln.out.fsub Ln.out.x 0 s (.call (instrument (world Ln.out (Ln.pc .lowmemory)) 0 0 c99Inst none) kb 7) = some s1 ∧
    s.z.s.sync.nextOp < s1.z.s.sync.nextOp ∧
    Delivery.run Ln.out.farm (world Ln.out (Ln.pc .lowmemory)) Ln.out.fsub Ln.out.x 0 s1 c99More = some s' ∧ stepsOf s.z.s.sync.nextOp c99More = 9 ∧
    Quiet s' ∧ (s'.z.s.sync.op 1).pc ≠ .done ∧ ∃ n s'', Dl.runIn .lowmemory s' (List.replicate n (.op 1)) = some s'' ∧ (s''.z.s.sync.op 1).pc = .done := by
  obtain ⟨⟨s, s1, s'⟩, h1, h2⟩ : ∃ q, c99Run = some q ∧ c99Good q := exists_of_eval (by decide +kernel)
  obtain ⟨g1, g2, g3, g4, g5, g6, g7⟩ := h2
  dsimp only at g1 g2 g3 g4 g5 g6 g7
  have hrun := h1
  unfold c99Run at hrun
  simp only [Option.bind_eq_some_iff, Option.some.injEq, Prod.mk.injEq] at hrun
  obtain ⟨u, e1, u1, e2, u', e3, rfl, rfl, rfl⟩ := hrun
  obtain ⟨m, hm, ho⟩ := Option.map_eq_some_iff.1 g1
  have hall : Dl.runIn .lowmemory c99Start (c99Makes ++ ([.call c99Call kb 7] ++ c99More)) = some u' := Dl.run_two e1 (Dl.run_two e2 e3)
  have hp : u'.z.p = c99Fill := by
    have := Dl.prov hall
    rw [this]
    rfl
  have hstep : Delivery.step (fun _ => 0) (Ln.w .lowmemory) Wh.fsub ViewEx.x 0 u (.call c99Call kb 7) = some u1 := by
    have e2' : (Delivery.step (fun _ => 0) (Ln.w .lowmemory) Wh.fsub ViewEx.x 0 u (.call c99Call kb 7)).bind (fun y => some y) = some u1 := e2
    obtain ⟨y, hy, e⟩ := Option.bind_eq_some_iff.1 e2'
    injection e with e
    rw [← e]
    exact hy
  have hq : Quiet u' := fun t ht => by rw [g6] at ht; exact absurd ht (Nat.not_lt_zero _)
  refine ⟨u, u1, u', m, h1, Ln.launch .lowmemory, by rw [hp]; exact e1, hm, ho, hstep, by omega, e3, by rw [g2]; rfl, hq, g5, ?_⟩
  exact C99_alone (farm := fun _ => 0) (w := Ln.w .lowmemory) (fsub := Wh.fsub) (x := ViewEx.x) (pipe := 0) (vs := Ln.vs .lowmemory) (start := 1) (by exact Nat.zero_lt_one)
    (by rw [hp]; exact hall) hq (by omega)

/-- The reader is within `SnapshotAndProcess` when the counter is called. -/
def c99Wait : Option (Delivery.Sys Nat (List Bits) Nat) :=
  Dl.runIn .lowmemory c99Start (c99Makes ++ ([.call c99Call kb 7] ++ Dl.ops 0 9 ++ [.reader .tick [], Dl.go 0, Dl.go 0] ++ Dl.produces 4 2 ++ Dl.tasks 0 1 ++ [.call c99Call ka 2]))

/-- The hypotheses of `C99_waits` hold of the second call. -/
example : ∃ s, c99Wait = some s ∧ 1 < s.z.s.sync.nextOp ∧ (s.z.s.sync.op 1).pc ≠ .done ∧ Dl.runIn .lowmemory s [.op 1] = none ∧ s.z.s.sync.lock (s.z.s.sync.op 1).obs = some 0 ∧
    s.z.s.sync.task 0 ≠ .done := by
  have h : ∃ s, c99Wait = some s ∧ (1 < s.z.s.sync.nextOp ∧ (s.z.s.sync.op 1).pc ≠ .done ∧ (Dl.runIn .lowmemory s [.op 1]).isNone = true ∧
      s.z.s.sync.lock (s.z.s.sync.op 1).obs = some 0 ∧ s.z.s.sync.task 0 ≠ .done) := exists_of_eval (by decide +kernel)
  obtain ⟨s, h1, h2, h3, h4, h5⟩ := h
  exact ⟨s, h1, h2, h3, Option.isNone_iff_eq_none.1 h4, h5⟩

end Examples

end Verif.Props
