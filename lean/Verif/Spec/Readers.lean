import Verif.Model.Readers

/-!
Which readers were given to which provider. Used by C80.
-/

namespace Verif.Readers
variable {R V P : Type}

/-- The readers among the options, in order. -/
def readersOf (opts : List (Opt R V P)) : List Nat := opts.filterMap (fun o => match o with | .reader r _ => some r | _ => none)

/-- The options of the providers created, in order. -/
def created (acts : List (Act R V P)) : List (List (Opt R V P)) := acts.filterMap (fun a => match a with | .create o => some o | _ => none)

/-- Every use of a reader, oldest first: reader, provider, position among the provider's readers. -/
def uses (acts : List (Act R V P)) : List (Nat × Nat × Nat) :=
  (created acts).zipIdx.flatMap (fun e => (readersOf e.1).zipIdx.map (fun f => (f.1, e.2, f.2)))

/-- The provider a reader was given to first, and the position. -/
def firstUse (acts : List (Act R V P)) (r : Nat) : Option (Nat × Nat) := ((uses acts).find? (fun u => u.1 == r)).map (·.2)

/-- `Shutdown` was called on the provider after it was created. -/
def ShutDown (acts : List (Act R V P)) (p : Nat) : Prop :=
  ∃ before after, acts = before ++ .shutdown p :: after ∧ p < (created before).length

end Verif.Readers
