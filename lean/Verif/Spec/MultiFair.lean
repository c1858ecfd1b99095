import Verif.Spec.Multi
import Verif.Spec.Fair

/-!
Endless executions of programs with several readers, under a fair schedule.
-/

namespace Verif.Multi
open Verif.Attr Verif.Number Verif.Assembly
open Verif.Delivery (Often)
variable {C G ν : Type} [DecidableEq C]

/-- An endless execution from `NewMeterProvider` on: `f n` is the state after `n` steps and `a n` is the step made then. Anything may happen again and again, except that meters
and instruments are made finitely often; `p` is the provider in the end. -/
structure Endless (farm : Str → UInt64) (w : World C G) (fsub : Bits → Bits → Bits) (x : Views.Ext C) (views : List (Views.Views C)) (start : Int) (p : Provider.Provider C ν)
    (f : Nat → Sys C G ν) (a : Nat → Act ν) : Prop where
  start : f 0 = initial farm w fsub p views start
  next : ∀ n, step farm w fsub x (f n) (a n) = some (f (n + 1))
  settles : ∃ N, ∀ n, N ≤ n → (f n).p = p

omit [DecidableEq C] in
/-- The first `n` steps. -/
def first (a : Nat → Act ν) (n : Nat) : List (Act ν) := (List.range n).map a

/-- Every request for an instrument is answered with one (see C32). -/
def Answered (x : Views.Ext C) (views : List (Views.Views C)) (a : Nat → Act ν) : Prop := ∀ n, Delivery.Answered x views (makes (first a n))

/-- One of the steps `P` can be made and has an effect. -/
def Can (farm : Str → UInt64) (w : World C G) (fsub : Bits → Bits → Bits) (x : Views.Ext C) (P : Act ν → Prop) (y : Sys C G ν) : Prop :=
  ∃ b z, P b ∧ step farm w fsub x y b = some z ∧ z ≠ y

/-- Who can go on again and again, goes on again and again. `P`: the steps of one goroutine. -/
def FairTo (farm : Str → UInt64) (w : World C G) (fsub : Bits → Bits → Bits) (x : Views.Ext C) (f : Nat → Sys C G ν) (a : Nat → Act ν) (P : Act ν → Prop) : Prop :=
  Often (fun k => Can farm w fsub x P (f k)) → Often (fun k => P (a k) ∧ f (k + 1) ≠ f k)

/-- The loop of this reader is at its select, and its context is cancelled. -/
def Quitting (r : Nat) (y : Sys C G ν) : Prop := (y.readers r).r.threads[0]? = some ⟨.tick, .idle⟩ ∧ (y.readers r).r.cancelled = true

/-- As `Delivery.Fair`, for each of the readers, and the schedule is fair to each `ForceFlush` and `Shutdown` of the provider. -/
structure Fair (farm : Str → UInt64) (w : World C G) (fsub : Bits → Bits → Bits) (x : Views.Ext C) (views : List (Views.Views C)) (f : Nat → Sys C G ν) (a : Nat → Act ν) : Prop where
  calls : ∀ i, FairTo farm w fsub x f a (fun b => b = .op i)
  tasks : ∀ t, FairTo farm w fsub x f a (fun b => ∃ ch, b = .task t ch)
  observations : ∀ r i, r < views.length → FairTo farm w fsub x f a (fun b => b = .cb r (.op i))
  produce : ∀ r, r < views.length → FairTo farm w fsub x f a (fun b => ∃ now, b = .produce r now)
  requests : ∀ r t, r < views.length → FairTo farm w fsub x f a (fun b => ∃ quit order, b = .reader r (.go t quit) order)
  select : ∀ r, r < views.length → Often (fun k => Quitting r (f k)) → Often (fun k => Quitting r (f k) ∧ ∃ order, a k = .reader r (.go 0 true) order)
  callbacks : ∀ r, r < views.length → Often (fun k => Async.noneLive ((f k).readers r).async = true)
  provider : ∀ t, FairTo farm w fsub x f a (fun b => b = .go t)

/-- The `t`th goroutine of the reader (0 is the loop, the others are calls of `ForceFlush` and `Shutdown`) has returned. -/
def Returned (r t : Nat) (y : Sys C G ν) : Prop := ∃ th, (y.readers r).r.threads[t]? = some th ∧ th.pos = .done

/-- How often the loop of the reader has called the exporter because of a tick. -/
def exports (r : Nat) (y : Sys C G ν) : Nat := (y.readers r).r.log.countP (fun e => decide (e = (0, .export .tick)))

/-- The `t`th call of `ForceFlush` or `Shutdown` of the provider has returned. -/
def Answers (t : Nat) (y : Sys C G ν) : Prop := ∃ already, y.calls[t]? = some (Pc.done already)

/-- Something which has begun goes on; nothing begins. -/
def ongoing : Act ν → Bool
  | .op _ => true
  | .task _ _ => true
  | .cb _ (.op _) => true
  | .cb _ (.endCb _) => true
  | .produce _ _ => true
  | .reader _ (.go _ _) _ => true
  | .go _ => true
  | _ => false

/-- What may come at any time: a call on an instrument which the user has, a ticker, `ForceFlush` and `Shutdown` of a reader, and `ForceFlush` of the provider, and `Shutdown` when the provider
is shut down already. -/
def arrives (w : World C G) (p : Provider.Provider C ν) : Act ν → Bool
  | .call i _ _ => Live.holds w p i
  | .reader r .tick _ => decide (r < p.views.length)
  | .reader r .callFlush _ => decide (r < p.views.length)
  | .reader r .callShutdown _ => decide (r < p.views.length)
  | .flush => true
  | .shutdown => p.map.isNone
  | _ => false

/-- The resource can be exported, attributes are typed, and callbacks wait for the observations they start, as for C97. -/
structure Behaved (w : World C G) (f : Nat → Sys C G ν) (a : Nat → Act ν) : Prop where
  resource : Export.Exportable w.resource
  typed : ∀ k i as n, a k = .call i as n → ∀ kv ∈ i.attrs as, kv.val ≠ .invalid
  observed : ∀ k i cb o as v, a k = .cb i (.observe cb o as v) → ∀ kv ∈ as, kv.val ≠ .invalid
  orderly : ∀ k i b order, a k = .reader i b order → Delivery.returns ((f k).readers i).r b = true → ¬ Async.InFlight ((f k).readers i).async

/-- No meter or instrument is asked for, the provider is not shut down, and no synchronous instrument is called. -/
def Silent (b : Act ν) : Prop := (∀ c, b ≠ .make c) ∧ b ≠ .shutdown ∧ ∀ i as n, b ≠ .call i as n

/-- Everything has returned, at each reader and at the provider. -/
structure AllReturned (y : Sys C G ν) : Prop where
  readers : ∀ i, i < y.p.views.length → Delivery.AllReturned (view y i)
  provider : ∀ t, t < y.calls.length → Answers t y

end Verif.Multi
