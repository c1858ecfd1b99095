import Verif.Model.Provider
import Verif.Spec.Views

/-!
Independent statements used by the provider properties.
-/

namespace Verif.Provider
open Verif.Views Verif.Attr Verif.Front
variable {H ν : Type} [DecidableEq H]

/-- What the calls of a history return. -/
def responses (x : Ext H) (p : Provider H ν) : List (Call ν) → List Res
  | [] => []
  | c :: cs => (step x p c).2 :: responses x (step x p c).1 cs

/-- The scopes asked for before the first shutdown. -/
def asked : List (Call ν) → List Scope
  | [] => []
  | .meter sc :: cs => sc :: asked cs
  | .shutdown :: _ => []
  | _ :: cs => asked cs

/-- Each once, in order of first appearance. -/
def firsts {α : Type} [DecidableEq α] : List α → List α
  | [] => []
  | a :: l => a :: (firsts l).filter (· ≠ a)

omit [DecidableEq H] in
/-- The views of a reader drop an instrument: clauses apply and all of these drop it, or none applies and the reader's default for the kind is
to drop. -/
def DroppedBy (v : Views H) (sc : Scope) (d : Desc) : Prop :=
  ((∃ c ∈ v.clauses, Applies c sc d) ∧ ∀ c ∈ v.clauses, Applies c sc d → c.agg = .drop) ∨
    ((∀ c ∈ v.clauses, ¬ Applies c sc d) ∧ v.defaults.agg d.kind = .drop)

/-- The name an instrument has in the output of a reader: that of a clause which applies and does not drop it, its own if no clause applies. -/
def OutputName (v : Views H) (sc : Scope) (d : Desc) (n : Str) : Prop :=
  (∃ c ∈ v.clauses, Applies c sc d ∧ c.agg ≠ .drop ∧ n = c.newName d.name) ∨ ((∀ c ∈ v.clauses, ¬ Applies c sc d) ∧ n = d.name)

/-- The measurements made on one instrument. -/
def measured (k n : Nat) (cs : List (Call ν)) : List ν :=
  cs.filterMap (fun c => match c with
    | .record k' (some n') v => if k' = k ∧ n' = n then some v else none
    | _ => none)

end Verif.Provider
