import Verif.Spec.Hinted
import Verif.Props.Numbers

/-!
Which calls and observations count.
-/

namespace Verif.Whole
open Verif.Attr Verif.Number

/-- The callbacks started, in order: the number of collections ended before, and the instruments declared for the callback. -/
def starts (t : Nat) : List Act → List (Nat × List Nat)
  | [] => []
  | .cb (.startCb insts) :: as => (t, insts) :: starts t as
  | .collect _ _ :: as => starts (t + 1) as
  | _ :: as => starts t as

/-- The callback with this number returns. -/
def ends (cb : Nat) : Act → Bool
  | .cb (.endCb i) => i == cb
  | _ => false

/-- The callback with this number has returned. -/
def ended (cb : Nat) (acts : List Act) : Bool := acts.any (ends cb)

/-- What an observation made after the actions `before` is: the number of the collection, the instrument, attributes and value, provided that it is made on the observer of a
callback which was started and has not returned, for an instrument declared for it. -/
def counted (before : List Act) : Act → Option (Nat × Nat × List KV × Bits)
  | .cb (.observe cb o as v) =>
    match (starts 0 before)[cb]? with
    | some (t, insts) => if o ∈ insts ∧ ended cb before = false then some (t, o, as, v) else none
    | none => none
  | _ => none

/-- The observations made, in order, after the actions `before`. -/
def observationsFrom (before : List Act) : List Act → List (Nat × Nat × List KV × Bits)
  | [] => []
  | a :: as => (counted before a).toList ++ observationsFrom (before ++ [a]) as

/-- The observations made in a program, in order. -/
def observations (acts : List Act) : List (Nat × Nat × List KV × Bits) := observationsFrom [] acts

end Verif.Whole

namespace Verif.Live
open Verif.Attr Verif.Number Verif.Aggr Verif.Assembly
variable {C G ν : Type} [DecidableEq C]

/-- The call of `Observe` has returned. -/
def Returned (o : Async.Op (List KV) Bits) : Prop := o.pc = .done ∨ o.pc = .rejected

/-- Callbacks return after the observations they started. -/
def Waits (farm : Str → UInt64) (w : World C G) (fsub : Bits → Bits → Bits) (x : Views.Ext C) (pipe : Nat) (z0 : Sys C G ν) (acts : List (Act ν)) : Prop :=
  ∀ before cb after y, acts = before ++ .run (.cb (.endCb cb)) :: after → run farm w fsub x pipe z0 before = some y →
    ∀ i, i < y.s.async.nextOp → (y.s.async.op i).cb = cb → Returned (y.s.async.op i)

/-- Observations of these instruments are made one after the other. -/
def InTurn (farm : Str → UInt64) (w : World C G) (fsub : Bits → Bits → Bits) (x : Views.Ext C) (pipe : Nat) (z0 : Sys C G ν) (F : Nat → Prop) (acts : List (Act ν)) : Prop :=
  ∀ before cb o as v after y, acts = before ++ .run (.cb (.observe cb o as v)) :: after → run farm w fsub x pipe z0 before = some y → F o →
    ∀ i, i < y.s.async.nextOp → F (y.s.async.op i).obs → Returned (y.s.async.op i)

end Verif.Live

namespace Verif.Launched
open Verif.Attr Verif.Number Verif.Instruments Verif.Assembly
open Verif.Front (IKind)
open Verif.Views (Tempo)
open Verif.Provider (Provider Call)
variable {C G ν : Type} [DecidableEq C]

/-- The instruments made by the constructor accept the value: floats have to be finite, counters and histograms do not take negative numbers. -/
def Accepts (c : Ctor) (v : Bits) : Prop :=
  ((Props.promise c).num = .float64 → Finite v) ∧
  ((Props.promise c).negative = false → match (Props.promise c).num with | .int64 => 0 ≤ v.toInt | .float64 => 0 ≤ scaled v)

/-- The attribute set used for an observation: the attributes given, each key once with its last value, texts cut off after 8192 bytes (see `C96_set` and C18). -/
def usedSet (as : List KV) : List KV := newSet (truncate 8192 (newSet as))

/-- Every instrument of the `k`th meter asked for with the name `n` was made by the constructor `c`. -/
def MadeBy (cs : List (Call ν)) (k : Nat) (c : Ctor) (n : Str) : Prop := ∀ d ∈ requests k cs, d.name = n → ∃ text unit, d = c.desc n text unit

/-- The observations of the instruments with this name of the `k`th meter which are accepted, in the order in which they were made: collection, instrument, attribute set, value. -/
noncomputable def observedOn (p : Provider C ν) (k : Nat) (c : Ctor) (n : Str) (acts : List Whole.Act) : List Seen :=
  ((Whole.observations acts).filter (fun e => open Classical in decide (Called p k n e.2.1 ∧ Accepts c e.2.2.2))).map (fun e => (e.1, e.2.1, usedSet e.2.2.1, e.2.2.2))

/-- The attributes used for a call: those given, texts cut off after 8192 bytes (see C18), then changed by the measurement processor, if there is one. -/
def usedAttrs (proc : Option (List KV → List KV)) (as : List KV) : List KV :=
  match proc with
  | none => truncate 8192 as
  | some f => f (truncate 8192 as)

/-- The accepted values of the calls on the instruments with this name of the `k`th meter whose attributes satisfy `Q`, in the order of the calls. -/
noncomputable def recordedOn (p : Provider C ν) (k : Nat) (c : Ctor) (n : Str) (Q : List KV → Prop) (acts : List Whole.Act) : List Bits :=
  ((Whole.calls acts).filter (fun e => open Classical in decide (Called p k n e.1.id ∧ Accepts c e.2.2 ∧ Q (usedAttrs e.1.proc e.2.1)))).map (·.2.2)

/-- No observation of the instruments with this name of the `k`th meter is going on. -/
def Finished (p : Provider C ν) (k : Nat) (n : Str) (z : Live.Sys C G ν) : Prop :=
  ∀ i, i < z.s.async.nextOp → Called p k n (z.s.async.op i).obs → Live.Returned (z.s.async.op i)

/-- Callbacks return after the observations they started. -/
abbrev Waits (e : Outside C G) (pc : Launcher.PipelineConfig) (t : IKind → Tempo) (p : Provider C ν) (acts : List (Live.Act ν)) : Prop :=
  Live.Waits e.farm (world e pc) e.fsub e.x 0 (Live.initial e.farm (world e pc) e.fsub p (views e t) 0) acts

/-- Observations of the instruments with this name of the `k`th meter are made one after the other. -/
abbrev InTurn (e : Outside C G) (pc : Launcher.PipelineConfig) (t : IKind → Tempo) (p : Provider C ν) (k : Nat) (n : Str) (acts : List (Live.Act ν)) : Prop :=
  Live.InTurn e.farm (world e pc) e.fsub e.x 0 (Live.initial e.farm (world e pc) e.fsub p (views e t) 0) (Called p k n) acts

end Verif.Launched
