import Verif.Model.Races

/-!
# Data races, and what applications may do (C87)

Application code calls the API in any order and any number of times, from any number of threads; so do the callbacks,
exporters, measurement processors and error handlers it plugs in, nested to any depth. Data of its own it uses with a lock of
its own held.

What is left out, because it races (see the theorems ending in `_fails`): `Unregister`, formatting an error after the
call that returned it, lists of attributes which are shared and have to be truncated, and several collections at once of one
`ManualReader` (each has to hold a lock, as a `PeriodicReader` does).
-/

namespace Verif.Races
open Verif.Locks (Lock Mode)

/-- Two threads are about to use the same memory, one to write, not both atomically. -/
def Race (s : State) : Prop :=
  ∃ (i j : Nat) (t u : Thread) (c : Cell) (a b : Kind) (rest rest' : List Op), i ≠ j ∧ s.threads[i]? = some t ∧ s.threads[j]? = some u ∧
    t.todo = .acc c a :: rest ∧ u.todo = .acc c b :: rest' ∧ a.conflict b = true

/-- Every call of the API. A collection is made by a periodic reader, or by the application holding a lock. -/
def calls (w : World) : Lang := fun t =>
  getMeter t ∨ createInstrument w t ∨ registerCallback t ∨ syncObserve w t ∨ asyncObserve w t ∨ some' (collect w) t ∨ shutdown t ∨
    convertResource t ∨ w.handler t

/-- Application code: calls, locks of its own, and data used with the lock of the same number held; `g` are the locks held. -/
inductive App (api : Lang) : List (Nat × Mode) → Lang where
  | nil {g : List (Nat × Mode)} : App api g []
  | call {g : List (Nat × Mode)} {t u : List Op} : api t → App api g u → App api g (t ++ u)
  | lock {g : List (Nat × Mode)} {k : Nat} {m : Mode} {t u : List Op} : App api ((k, m) :: g) t → App api g u →
      App api g (.acq (.app k) m :: (t ++ .rel (.app k) :: u))
  | read {g : List (Nat × Mode)} {k : Nat} {m : Mode} {u : List Op} : (k, m) ∈ g → App api g u → App api g (.acc (.app k) .read :: u)
  | write {g : List (Nat × Mode)} {k : Nat} {u : List Op} : (k, .write) ∈ g → App api g u → App api g (.acc (.app k) .write :: u)

/-- The same code as callback, exporter, processor and error handler. -/
def plugged (w : World) (U : Lang) : World := { w with callback := U, exporter := U, processor := U, handler := U }

/-- Application code calling the API; whatever the API calls back is again such code, to depth `n`. -/
def user (w : World) : Nat → Lang
  | 0 => App skip []
  | n + 1 => App (calls (plugged w (user w n))) []

end Verif.Races
