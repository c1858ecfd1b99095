/-!
Shutting a provider down. Models `MeterProvider.{Meter,ForceFlush,Shutdown}` (lightstep/sdk/metric/provider.go:103-187) with any number of concurrent calls.

The readers are represented by the begin and the end of each call made on them; a reader's result is any error or none. The lock of the provider is held
only in `Meter` and around the exchange of the map in `Shutdown`, each of which is one step.
-/

namespace Verif.Shutdown

/-- What can be seen: calls on readers beginning and ending, `Meter` answering with the no-op meter or not. -/
inductive Ev (ε : Type) where
  | shutBegin (r : Nat)
  | shutEnd (r : Nat) (e : Option ε)
  | flushBegin (r : Nat)
  | flushEnd (r : Nat) (e : Option ε)
  | meter (noop : Bool)
deriving DecidableEq

/-- A call: `Shutdown` at its lock; `Shutdown` about to call reader `r` (or within it), with the errors so far; `Shutdown` returned, with `ErrAlreadyShutdown` or the
readers' errors; the same for `ForceFlush`. -/
inductive Pc (ε : Type) where
  | shut
  | shutLoop (r : Nat) (inside : Bool) (errs : List ε)
  | shutDone (already : Bool) (errs : List ε)
  | flushLoop (r : Nat) (inside : Bool) (errs : List ε)
  | flushDone (errs : List ε)
deriving DecidableEq

/-- The provider: whether `meters` is non-nil (provider.go:45), the calls, and what happened. -/
structure State (ε : Type) where
  «open» : Bool
  calls : List (Pc ε)
  log : List (Ev ε)
deriving DecidableEq

variable {ε : Type}

def new : State ε := { «open» := true, calls := [], log := [] }

inductive Act (ε : Type) where
  | shutdown
  | flush
  | meter
  /-- A call goes on; if it is within a reader's method, that returns `e`. -/
  | go (t : Nat) (e : Option ε)
deriving DecidableEq

/-- A step of a call; `n` is the number of readers (provider.go:145-151, 168-187; `multierr.Append` leaves nil out). -/
def advance (n : Nat) (s : State ε) (t : Nat) (e : Option ε) : Pc ε → State ε
  | .shut =>
    if s.open then { s with «open» := false, calls := s.calls.set t (.shutLoop 0 false []) }
    else { s with calls := s.calls.set t (.shutDone true []) }
  | .shutLoop r inside errs =>
    if inside then { s with calls := s.calls.set t (.shutLoop (r + 1) false (errs ++ e.toList)), log := s.log ++ [.shutEnd r e] }
    else if r < n then { s with calls := s.calls.set t (.shutLoop r true errs), log := s.log ++ [.shutBegin r] }
    else { s with calls := s.calls.set t (.shutDone false errs) }
  | .shutDone _ _ => s
  | .flushLoop r inside errs =>
    if inside then { s with calls := s.calls.set t (.flushLoop (r + 1) false (errs ++ e.toList)), log := s.log ++ [.flushEnd r e] }
    else if r < n then { s with calls := s.calls.set t (.flushLoop r true errs), log := s.log ++ [.flushBegin r] }
    else { s with calls := s.calls.set t (.flushDone errs) }
  | .flushDone _ => s

/-- `Meter` answers with the no-op meter when the map is nil (provider.go:110-113). -/
def step (n : Nat) (s : State ε) : Act ε → State ε
  | .shutdown => { s with calls := s.calls ++ [.shut] }
  | .flush => { s with calls := s.calls ++ [.flushLoop 0 false []] }
  | .meter => { s with log := s.log ++ [.meter (!s.open)] }
  | .go t e =>
    match s.calls[t]? with
    | none => s
    | some pc => advance n s t e pc

def run (n : Nat) (s : State ε) (as : List (Act ε)) : State ε := as.foldl (step n) s

end Verif.Shutdown
