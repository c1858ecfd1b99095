import Verif.Basic

/-!
Registering callbacks, and what the registered ones observe.

Models `NewCallback` and `Run` (internal/asyncstate/callback.go:37-82), the checks of `Observe` (internal/asyncstate/async.go:153-176),
`RegisterCallback` (meter.go:74-90), the constructors of observable instruments (asyncinst.go:66-154) and the loop over
the callbacks in `collectFor` (producer.go:103-111), for one meter.

Simplifications: registrations and collections take place one after the other (C25 has their races) and nothing is
unregistered; values, attributes and the range test are not looked at (C09, C20); instruments are numbers, which stand for their pointers, and
`owner` gives the meter they were made with (`Observer.opaque`).
-/

namespace Verif.Registration

/-- A `metric.Observable`: something else, an asynchronous instrument of this SDK, or a wrapper, such
as the instruments of the global API, with a method `Unwrap`. -/
inductive Obs where
  | foreign
  | ours (inst : Nat)
  | wrapped (o : Obs)
deriving DecidableEq, Repr

/-- The type assertion on `Unwrap` (callback.go:53-57, async.go:159-163). -/
def Obs.unwrap : Obs → Obs
  | .wrapped o => o
  | o => o

/-- A `metric.Callback` that is not nil: a function of the user, or the closure of `registerIntCallbacks`,
`registerFloatCallbacks` (asyncinst.go:76-81, 87-92) around a function of the user, which may be nil. -/
inductive Fn where
  | direct (f : Nat)
  | bound (f : Option Nat) (inst : Nat)
deriving DecidableEq, Repr

/-- `asyncstate.Callback` (callback.go:28-35). -/
structure Callback where
  fn : Fn
  insts : List Nat
deriving DecidableEq, Repr

inductive Err where
  | noInstruments | nilFunction | notOurs | otherMeter
deriving DecidableEq, Repr

/-- The loop of `NewCallback` (callback.go:52-68). -/
def addInsts (owner : Nat → Nat) (m : Nat) (acc : List Nat) : List Obs → Except Err (List Nat)
  | [] => .ok acc
  | o :: os =>
    match o.unwrap with
    | .ours i => if owner i ≠ m then .error .otherMeter else addInsts owner m (if i ∈ acc then acc else acc ++ [i]) os
    | _ => .error .notOurs

/-- `NewCallback` (callback.go:39-71). -/
def newCallback (owner : Nat → Nat) (m : Nat) (insts : List Obs) (fn : Option Fn) : Except Err Callback :=
  if insts.length = 0 then .error .noInstruments
  else
    match fn with
    | none => .error .nilFunction
    | some f =>
      match addInsts owner m [] insts with
      | .error e => .error e
      | .ok l => .ok { fn := f, insts := l }

/-- `RegisterCallback` (meter.go:76-90): the list `m.callbacks`, and the error. -/
def register (owner : Nat → Nat) (m : Nat) (cbs : List Callback) (fn : Option Fn) (insts : List Obs) : List Callback × Option Err :=
  match newCallback owner m insts fn with
  | .ok cb => (cbs ++ [cb], none)
  | .error e => (cbs, some e)

/-- `registerIntCallbacks`, `registerFloatCallbacks` (asyncinst.go:74-94): errors are ignored. The closures capture the loop variable, which is
one variable for each turn in the version of Go required (1.23, go.mod:3). -/
def registerAll (owner : Nat → Nat) (m : Nat) (inst : Nat) (cbs : List Callback) : List (Option Nat) → List Callback
  | [] => cbs
  | f :: fs => registerAll owner m inst (register owner m cbs (some (.bound f inst)) [.ours inst]).1 fs

/-- What is done to the meter: `RegisterCallback`, or a constructor of an observable instrument with the callbacks among its options
(`inst` is the new instrument, or the existing one). -/
inductive Call where
  | register (fn : Option Nat) (insts : List Obs)
  | construct (inst : Nat) (fns : List (Option Nat))
deriving DecidableEq, Repr

def step (owner : Nat → Nat) (m : Nat) (cbs : List Callback) : Call → List Callback
  | .register fn insts => (register owner m cbs (fn.map .direct) insts).1
  | .construct inst fns => registerAll owner m inst cbs fns

def run (owner : Nat → Nat) (m : Nat) (cs : List Call) : List Callback := cs.foldl (step owner m) []

/-- What the functions of the user do when called: those passed to `RegisterCallback` observe instruments through the observer they get,
those passed to a constructor observe values (`intObserver`, `floatObserver`, asyncinst.go:51-72). -/
structure User (V : Type) where
  direct : Nat → List (Obs × V)
  bound : Nat → List V

variable {V : Type}

/-- The calls of `ObserveInt64` and `ObserveFloat64` made by a callback; `none` is the panic on calling a nil function. -/
def Callback.observes (u : User V) (cb : Callback) : Option (List (Obs × V)) :=
  match cb.fn with
  | .direct f => some (u.direct f)
  | .bound none _ => none
  | .bound (some f) inst => some ((u.bound f).map (fun v => (.ours inst, v)))

/-- `Observe` while the callback runs (async.go:153-173): the instrument that takes the value; `none`: an error is reported. -/
def accept (cb : Callback) (o : Obs) : Option Nat :=
  match o.unwrap with
  | .ours i => if i ∈ cb.insts then some i else none
  | _ => none

/-- `Run` (callback.go:75-82): observations taken, oldest first, and the number of errors reported. -/
def Callback.run (u : User V) (cb : Callback) : Option (List (Nat × V) × Nat) :=
  match cb.observes u with
  | none => none
  | some l =>
    some (l.filterMap (fun e => (accept cb e.1).map (fun i => (i, e.2))), (l.filter (fun e => (accept cb e.1).isNone)).length)

/-- The loop of `collectFor` (producer.go:109-111). -/
def collect (u : User V) : List Callback → Option (List (Nat × V) × Nat)
  | [] => some ([], 0)
  | cb :: cbs =>
    match cb.run u with
    | none => none
    | some r =>
      match collect u cbs with
      | none => none
      | some r' => some (r.1 ++ r'.1, r.2 + r'.2)

end Verif.Registration
