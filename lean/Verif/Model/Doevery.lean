/-!
Rate limiting by call site.

Models `lightstep/sdk/metric/internal/doevery/doevery.go`.
-/

namespace Verif.Doevery

/-- `invocationKey` (doevery.go:38-47): a file and line, here any number. -/
abbrev Site := Nat

/-- The package variables (doevery.go:25-34) with a clock (in nanoseconds; the monotonic clock never goes back) and the calls which have been
decided and have not yet run their function. `log` records the decisions to invoke with the time stored, and `ran` the times at which
functions were run; both are newest last and exist only to state properties. -/
structure State where
  clock : Nat
  recent : Site → Option Nat
  pending : List (Option Site)
  log : List (Site × Nat)
  ran : List (Option Site × Nat)

/-- The state at program start. -/
def init (clock : Nat) : State := { clock := clock, recent := fun _ => none, pending := [], log := [], ran := [] }

/-- What can happen: time passes; a call of `TimePeriod` goes through the locked region, with `d1` and `d2` passing before each of its two readings
of the clock; a call without known caller is decided; a decided call runs its function. -/
inductive Ev where
  | tick (n : Nat)
  | call (site : Site) (dur d1 d2 : Nat)
  | callUnknown
  | run (k : Nat)
deriving Repr

/-- `invoking` (doevery.go:102): `now` is the reading made by `time.Since`. -/
def invoking (prev : Option Nat) (now dur : Nat) : Bool :=
  match prev with
  | none => true
  | some p => decide (now - p > dur)

/-- The locked region of `TimePeriod` (doevery.go:96-107) for one call site. Negative durations panic and are not represented (doevery.go:71-73). -/
def enter (s : State) (site : Site) (dur d1 d2 : Nat) : State :=
  if invoking (s.recent site) (s.clock + d1) dur then
    { s with
      clock := s.clock + d1 + d2
      recent := fun k => if k = site then some (s.clock + d1 + d2) else s.recent k
      pending := s.pending ++ [some site]
      log := s.log ++ [(site, s.clock + d1 + d2)] }
  else { s with clock := s.clock + d1 }

/-- One step. Functions run after the lock is released (doevery.go:107-114) and at once when the caller is unknown (doevery.go:77-83). -/
def step (s : State) : Ev → State
  | .tick n => { s with clock := s.clock + n }
  | .call site dur d1 d2 => enter s site dur d1 d2
  | .callUnknown => { s with pending := s.pending ++ [none] }
  | .run k =>
    match s.pending[k]? with
    | none => s
    | some site => { s with pending := s.pending.eraseIdx k, ran := s.ran ++ [(site, s.clock)] }

/-- All steps of an execution. -/
def exec (s : State) (evs : List Ev) : State := evs.foldl step s

end Verif.Doevery
