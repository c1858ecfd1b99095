import Verif.Spec.Delivery

/-!
What a user knows about a program which goes on recording while its reader is flushed or shut down.
-/

namespace Verif.Busy
open Verif.Attr Verif.Number Verif.Assembly Verif.Launched
open Verif.Front (IKind)
open Verif.Views (Tempo)

/-- The values `sent` are all those recorded before and some of those recorded meanwhile: with `before` removed from `sent`, and `sent` from `all`, both without remainder. -/
def Between {α : Type} (before sent all : List α) : Prop :=
  ∃ meanwhile missing, sent.Perm (before ++ meanwhile) ∧ all.Perm (sent ++ missing)

variable {C G ν : Type} [DecidableEq C]

/-- The values recorded on the instruments with this name of the `k`th meter by calls which have returned, with attributes satisfying `Q`. -/
noncomputable def returnedBy {S : Type} (p : Provider.Provider C ν) (k : Nat) (n : Str) (Q : List KV → Prop) (s : Sync.State (List KV) (List KV) Bits S) : List Bits :=
  open Classical in
  ((List.range s.nextOp).filter (fun j => (s.op j).pc = .done ∧ Q (s.op j).attrs ∧ Called p k n (s.op j).obs)).map (fun j => (s.op j).num)

/-- A goroutine which called `ForceFlush` or `Shutdown` has called the exporter's method with its payload, or has returned. -/
def Handed (th : Periodic.Thread) : Prop := th.pos = .crit .exporting ∨ th.pos = .done

/-- A program up to a point where some calls on synchronous instruments have returned and others may still be running (`acts`). Then `ForceFlush` or `Shutdown` of the
reader is called and gets as far as handing its payload to the exporter, or returns; meanwhile calls go on and new calls are made, but no meter or instrument is asked for (`after`). Fewer than 2^32 calls on synchronous
instruments are made. -/
structure Flushing (farm : Str → UInt64) (w : World C G) (fsub : Bits → Bits → Bits) (x : Views.Ext C) (views : List (Views.Views C)) (pipe : Nat) (start : Int)
    (acts after : List (Delivery.Act ν)) (s s' : Delivery.Sys C G ν) : Prop where
  running : Delivery.Running farm w fsub x views pipe start (acts ++ after) s'
  few : (Delivery.measured (acts ++ after)).length < 2 ^ 32
  before : Delivery.run farm w fsub x pipe (Delivery.initial farm w fsub s'.z.p views pipe start) acts = some s
  fixed : Delivery.makes after = []
  /-- A call which had not been made in `s` has handed its payload over in `s'`. -/
  call : ∃ t th, s.r.threads.length ≤ t ∧ s'.r.threads[t]? = some th ∧ Handed th

/-- Such a program using the provider installed by the launcher. -/
abbrev Flushes (e : Outside C G) (pc : Launcher.PipelineConfig) (t : IKind → Tempo) (start : Int) (acts after : List (Delivery.Act ν)) (s s' : Delivery.Sys C G ν) : Prop :=
  Flushing e.farm (world e pc) e.fsub e.x (views e t) 0 start acts after s s'

end Verif.Busy
