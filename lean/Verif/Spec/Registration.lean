import Verif.Model.Registration

/-!
What it means for a registration to be valid and what callbacks observe. Used by C79.
-/

namespace Verif.Registration

/-- The asynchronous instrument of this SDK an observable stands for: itself, or what it wraps. -/
def instrOf : Obs → Option Nat
  | .ours i => some i
  | .wrapped (.ours i) => some i
  | _ => none

/-- A registration is valid for a meter: there is a function and at least one instrument, and all are instruments made with that meter. -/
structure Valid (owner : Nat → Nat) (m : Nat) {F : Type} (fn : Option F) (insts : List Obs) : Prop where
  function : fn ≠ none
  some : insts ≠ []
  mine : ∀ o ∈ insts, ∃ i, instrOf o = Option.some i ∧ owner i = m

/-- The instrument is one of those named in the registration. -/
def Named (insts : List Obs) (i : Nat) : Prop := ∃ o ∈ insts, instrOf o = some i

/-- What one collection has to observe because of one call: a callback registered (validly) observes, of all that its function
observes, what goes to the instruments named; a callback given to a constructor observes all its values on the instrument. -/
noncomputable def taken (owner : Nat → Nat) (m : Nat) {V : Type} (u : User V) : Call → List (Nat × V)
  | .register none _ => []
  | .register (some f) insts =>
    open Classical in
    if Valid owner m (some f) insts then
      (u.direct f).filterMap (fun e => (instrOf e.1).bind (fun i => if Named insts i then some (i, e.2) else none))
    else []
  | .construct inst fns => fns.flatMap (fun f => match f with | none => [] | some f => (u.bound f).map (fun v => (inst, v)))

/-- How many observations that means are attempted: all those of validly registered functions and of functions given to constructors. -/
noncomputable def attempted (owner : Nat → Nat) (m : Nat) {V : Type} (u : User V) : Call → Nat
  | .register none _ => 0
  | .register (some f) insts => open Classical in if Valid owner m (some f) insts then (u.direct f).length else 0
  | .construct _ fns => (fns.map (fun f => match f with | none => 0 | some f => (u.bound f).length)).sum

end Verif.Registration
