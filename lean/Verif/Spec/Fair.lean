import Verif.Spec.Progress

/-!
Endless executions under a fair schedule, while calls, observations, ticks and requests keep coming.
-/

namespace Verif.Delivery
open Verif.Attr Verif.Number Verif.Assembly
variable {C G ν : Type} [DecidableEq C]

/-- An endless execution: `f n` is the state after `n` steps and `a n` is the step made then. Anything may begin on the way, except that no more instruments are asked for. -/
structure Endless (farm : Str → UInt64) (w : World C G) (fsub : Bits → Bits → Bits) (x : Views.Ext C) (pipe : Nat) (s : Sys C G ν) (f : Nat → Sys C G ν) (a : Nat → Act ν) : Prop where
  start : f 0 = s
  next : ∀ n, step farm w fsub x pipe (f n) (a n) = some (f (n + 1))
  asked : ∀ n c, a n ≠ .make c

/-- One of the steps `P` can be made and has an effect. -/
def Can (farm : Str → UInt64) (w : World C G) (fsub : Bits → Bits → Bits) (x : Views.Ext C) (pipe : Nat) (P : Act ν → Prop) (s : Sys C G ν) : Prop :=
  ∃ b y, P b ∧ step farm w fsub x pipe s b = some y ∧ y ≠ s

omit [DecidableEq C] in
/-- It is so again and again. -/
def Often (P : Nat → Prop) : Prop := ∀ n, ∃ k, n ≤ k ∧ P k

/-- Who can go on again and again, goes on again and again. `P`: the steps of one goroutine. -/
def FairTo (farm : Str → UInt64) (w : World C G) (fsub : Bits → Bits → Bits) (x : Views.Ext C) (pipe : Nat) (f : Nat → Sys C G ν) (a : Nat → Act ν) (P : Act ν → Prop) : Prop :=
  Often (fun k => Can farm w fsub x pipe P (f k)) → Often (fun k => P (a k) ∧ f (k + 1) ≠ f k)

/-- The loop of the reader is at its select, and its context is cancelled. -/
def Quitting (s : Sys C G ν) : Prop := s.r.threads[0]? = some ⟨.tick, .idle⟩ ∧ s.r.cancelled = true

/-- The schedule is fair to calls on instruments, to each `SnapshotAndProcess` and `Collect`, to observations, to `Produce`, and to the loop and each `ForceFlush` and
`Shutdown`. Who waits for a lock which is free again and again gets it some time (as Go's mutexes have it). A select which finds its context cancelled again and again takes
that branch again and again. Callbacks return, so that again and again none is running. -/
structure Fair (farm : Str → UInt64) (w : World C G) (fsub : Bits → Bits → Bits) (x : Views.Ext C) (pipe : Nat) (f : Nat → Sys C G ν) (a : Nat → Act ν) : Prop where
  calls : ∀ i, FairTo farm w fsub x pipe f a (fun b => b = .op i)
  tasks : ∀ t, FairTo farm w fsub x pipe f a (fun b => ∃ ch, b = .task t ch)
  observations : ∀ i, FairTo farm w fsub x pipe f a (fun b => b = .cb (.op i))
  produce : FairTo farm w fsub x pipe f a (fun b => ∃ now, b = .produce now)
  requests : ∀ t, FairTo farm w fsub x pipe f a (fun b => ∃ quit order, b = .reader (.go t quit) order)
  select : Often (fun k => Quitting (f k)) → Often (fun k => Quitting (f k) ∧ ∃ order, a k = .reader (.go 0 true) order)
  callbacks : Often (fun k => Async.noneLive (f k).z.s.async = true)

/-- The `t`th goroutine of the reader (0 is the loop, the others are calls of `ForceFlush` and `Shutdown`) has returned. -/
def Returned (t : Nat) (s : Sys C G ν) : Prop := ∃ th, s.r.threads[t]? = some th ∧ th.pos = .done

/-- How often the loop of the reader has called the exporter because of a tick. -/
def exports (s : Sys C G ν) : Nat := s.r.log.countP (fun e => decide (e = (0, .export .tick)))

/-- What may come at any time: a call on an instrument which the user has, the ticker, `ForceFlush` and `Shutdown`. -/
def arrives (w : World C G) (p : Provider.Provider C ν) : Act ν → Bool
  | .call i _ _ => Live.holds w p i
  | .reader .tick _ => true
  | .reader .callFlush _ => true
  | .reader .callShutdown _ => true
  | _ => false

end Verif.Delivery
