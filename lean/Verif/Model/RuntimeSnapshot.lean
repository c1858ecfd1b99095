/-
The callback of the Go runtime metrics instrumentation, run by several readers at once.

lightstep/instrumentation/runtime/builtin.go:107-208 (`register`): one slice `samples` is made when the instrumentation
is started, and the callback closes over it.  Every run of the callback calls `metrics.Read(samples)`, which overwrites
every element, and then walks the slice and observes each element.  Nothing prevents two readers from collecting at the
same time (lightstep/sdk/metric/producer.go:46-88 says so), nor the callback from running twice at once
(lightstep/sdk/metric/internal/asyncstate/callback.go:75-82 takes no lock).
-/
namespace Verif.RuntimeSnapshot

variable {V : Type}

/-- Where one run of the callback is: not started, about to look at element `i` of the slice, or returned. -/
inductive PC where
  | idle
  | loop (i : Nat)
  | done
  deriving DecidableEq

/-- `now`: the present instant; `slots`: the shared `samples` slice (builtin.go:111, captured at 187); `pc c`: progress of
run `c` of the callback; `out c`: what run `c` has observed, oldest first, as (index of the instrument, value). -/
structure State (V : Type) where
  now : Nat
  slots : List V
  pc : Nat → PC
  out : Nat → List (Nat × V)

/-- The program's parameters: the number of metrics registered, and the value of metric `i` at instant `t`. -/
structure Cfg (V : Type) where
  n : Nat
  world : Nat → Nat → V

/-- Registration leaves `samples` filled with empty values (builtin.go:177-180). -/
def init (c : Cfg V) (empty : V) : State V := { now := 0, slots := List.replicate c.n empty, pc := fun _ => .idle, out := fun _ => [] }

def upd {A : Type} (f : Nat → A) (i : Nat) (a : A) : Nat → A := fun j => if j = i then a else f j

/-- Instants pass; a run of the callback starts by reading; it then observes one element at a time. -/
inductive Action where
  | tick
  | read (r : Nat)
  | observe (r : Nat)
  deriving DecidableEq

/-- One step.  `read`: `r.readFunc(samples)` (builtin.go:188); `metrics.Read` holds a lock in the Go runtime and writes
every element, so it is a single step.  `observe`: one iteration of the loop (builtin.go:190-202), or its end.
Simplification: the element is read in one piece (the Go race detector would call it a race); the kind of every element is
one the callback supports (the error of builtin.go:197-200 is not modelled here). -/
def step (c : Cfg V) (s : State V) : Action → Option (State V)
  | .tick => some { s with now := s.now + 1 }
  | .read r =>
      match s.pc r with
      | .idle => some { s with slots := (List.range c.n).map (c.world s.now), pc := upd s.pc r (.loop 0) }
      | _ => none
  | .observe r =>
      match s.pc r with
      | .loop i =>
          match s.slots[i]? with
          | some v => some { s with pc := upd s.pc r (.loop (i + 1)), out := upd s.out r (s.out r ++ [(i, v)]) }
          | none => some { s with pc := upd s.pc r .done }
      | _ => none

def run (c : Cfg V) (s : State V) : List Action → Option (State V)
  | [] => some s
  | a :: as => match step c s a with
    | some s' => run c s' as
    | none => none

end Verif.RuntimeSnapshot
