import Verif.Model.Locks

/-!
# What applications may do with the metrics SDK (C86)

Application code calls the API in any order and any number of times, from any number of threads; so do the callbacks,
exporters and measurement processors it plugs in, nested to any depth. It may hold locks of its own around such calls, also
locks that its callbacks take. As everywhere, locks of its own have to be taken in a fixed order (here: of their numbers).

What is left out, because it blocks (see the theorems ending in `_fails`): callbacks, exporters and processors that collect
through a periodic reader, and error handlers that use the SDK.
-/

namespace Verif.Locks

/-- Application code: calls, and locks of its own around calls. `g`: locks below number `g` may be held already, the code takes
others only. -/
inductive App (api : Nat → Lang) : Nat → Lang where
  | nil {g : Nat} : App api g []
  | call {g : Nat} {t u : List Op} : api g t → App api g u → App api g (t ++ u)
  | lock {g k : Nat} {m : Mode} {t u : List Op} : g ≤ k → App api (k + 1) t → App api g u →
      App api g (.acq (.app k) m :: (t ++ .rel (.app k) :: u))

/-- The error handler: locks of its own only (for instance that of a log file). -/
inductive Quiet : Nat → Lang where
  | nil {g : Nat} : Quiet g []
  | lock {g k : Nat} {m : Mode} {t u : List Op} : g ≤ k → Quiet (k + 1) t → Quiet g u →
      Quiet g (.acq (.handler k) m :: (t ++ .rel (.handler k) :: u))

/-- The same code as callback, exporter and processor. -/
def plugged (H U : Lang) : Env := ⟨U, U, U, H⟩

/-- Application code calling the API; whatever the API calls back is again such code, to depth `n`. -/
def user (H : Lang) : Nat → Nat → Lang
  | 0 => App (fun _ => skip)
  | n + 1 => App (fun g => calls (plugged H (user H n g)))

/-- A thread of a program: the export loop of a reader, or application code which may also flush and shut down. -/
inductive Program (H : Lang) (n : Nat) : Option Nat → List Op → Prop where
  | loop {r : Nat} {t : List Op} : Locks.loop (plugged H (user H n 0)) r t → Program H n (some r) t
  | main {t : List Op} : Many (fun t => user H n 0 t ∨ forceFlush (plugged H (user H n 0)) t ∨
      shutdown (plugged H (user H n 0)) t) t → Program H n none t

end Verif.Locks
