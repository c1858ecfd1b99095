/-!
The periodic reader after registration. Models `lightstep/sdk/metric/periodic.go`.

One machine for all interleavings of the ticker, the loop goroutine (thread 0), and any number of `ForceFlush` and `Shutdown` calls. Contexts are represented
only as far as cancelling stops the loop: deadlines are handed to the exporter and do not otherwise take part. Errors are the results of the exporter's
method, returned or given to the error handler, and not represented.
-/

namespace Verif.Periodic

/-- Why a thread collects: the loop's `ExportMetrics`, `ForceFlushMetrics` or `ShutdownMetrics`. -/
inductive Kind where
  | tick | flush | shutdown
deriving DecidableEq

/-- Within `collect` (periodic.go:155-167), holding the lock: before `Produce`, before the exporter's method, within it. -/
inductive Crit where
  | locked | produced | exporting
deriving DecidableEq

/-- Where a thread is. `idle`: the loop at its select; `start`: `Shutdown` called; `stopped`: it has called `pr.stop()` and is at `pr.wait.Wait()`; `wait`: at
`pr.lock.Lock()`; `done`: returned. -/
inductive Pos where
  | idle | start | stopped | wait | crit (c : Crit) | done
deriving DecidableEq

structure Thread where
  kind : Kind
  pos : Pos
deriving DecidableEq

/-- What can be seen from outside: a collection from the producer, the exporter's method called, and its return. -/
inductive What where
  | collect | «export» (k : Kind) | returned
deriving DecidableEq

/-- The reader: whether the ticker's channel (capacity one) is full, whether the loop's context is cancelled, who has the lock, the threads, the
events so far with their threads, and how many ticks there were, and were dropped for a full channel. -/
structure State where
  chan : Bool
  cancelled : Bool
  lock : Option Nat
  threads : List Thread
  log : List (Nat × What)
  ticks : Nat
  dropped : Nat
deriving DecidableEq

/-- `Register` (periodic.go:95-109). -/
def new : State := { chan := false, cancelled := false, lock := none, threads := [⟨.tick, .idle⟩], log := [], ticks := 0, dropped := 0 }

/-- Something happens: the ticker fires, a user calls `Shutdown` or `ForceFlush`, or a thread goes on. When the loop has the choice (both channels of its select
are ready) `quit` tells which it takes. -/
inductive Act where
  | tick
  | callShutdown
  | callFlush
  | go (t : Nat) (quit : Bool)
deriving DecidableEq

/-- A thread moves. -/
def State.move (s : State) (t : Nat) (th : Thread) (p : Pos) : State := { s with threads := s.threads.set t { th with pos := p } }

/-- The select of the loop (periodic.go:117-124). -/
def select (s : State) (t : Nat) (th : Thread) (quit : Bool) : State :=
  if quit then (if s.cancelled then s.move t th .done else s)
  else if s.chan then ({ s with chan := false } : State).move t th .wait else s

/-- A thread within `collect` goes on (periodic.go:155-167); the deferred unlock comes with the return, after which the loop is at its select again. -/
def inside (s : State) (t : Nat) (th : Thread) (c : Crit) : State :=
  match c with
  | .locked => ({ s with log := s.log ++ [(t, .collect)] } : State).move t th (.crit .produced)
  | .produced => ({ s with log := s.log ++ [(t, .export th.kind)] } : State).move t th (.crit .exporting)
  | .exporting => ({ s with log := s.log ++ [(t, .returned)], lock := none } : State).move t th (if th.kind = .tick then .idle else .done)

/-- The loop has returned (`wait.Done`, periodic.go:113). -/
def loopDone (s : State) : Bool := match s.threads[0]? with
  | some th => decide (th.pos = .done)
  | none => false

/-- A thread goes on, if it can: `start` (112-132), `Shutdown` (138-142), `ForceFlush` (148-150), `collect` (155-167). -/
def advance (s : State) (t : Nat) (th : Thread) (quit : Bool) : State :=
  match th.pos with
  | .idle => select s t th quit
  | .start => ({ s with cancelled := true } : State).move t th .stopped
  | .stopped => if loopDone s then s.move t th .wait else s
  | .wait => if s.lock = none then ({ s with lock := some t } : State).move t th (.crit .locked) else s
  | .crit c => inside s t th c
  | .done => s

def step (s : State) : Act → State
  | .tick => { s with chan := true, ticks := s.ticks + 1, dropped := s.dropped + (if s.chan then 1 else 0) }
  | .callShutdown => { s with threads := s.threads ++ [⟨.shutdown, .start⟩] }
  | .callFlush => { s with threads := s.threads ++ [⟨.flush, .wait⟩] }
  | .go t quit =>
    match s.threads[t]? with
    | none => s
    | some th => advance s t th quit

/-- The state after an execution. -/
def run (s : State) (as : List Act) : State := as.foldl step s

end Verif.Periodic
