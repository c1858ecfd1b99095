import Verif.Model.Number

/-!
Concurrent use of one atomic number: `Float64Traits.AddAtomic` (traits.go:119-129), `SwapAtomic` (115-117) and
`GetAtomic` (107-109), as a state machine whose steps are the individual atomic instructions.
-/

namespace Verif.AtomicAdd
open Verif.Number

/-- What a goroutine is doing with the cell. -/
inductive Pc where
  /-- not started -/
  | idle
  /-- in `AddAtomic`, about to load (traits.go:121) -/
  | load (value : Bits)
  /-- in `AddAtomic`, has loaded `old`, about to compare-and-swap (traits.go:125) -/
  | cas (value old : Bits)
  /-- `AddAtomic` has returned -/
  | added (value : Bits)
  /-- `SwapAtomic(value)` has returned `got` -/
  | swapped (value got : Bits)
deriving DecidableEq

/-- Ghost record of the effects on the cell, oldest first. -/
inductive Event where
  | add (thread : Nat) (value : Bits)
  | swap (thread : Nat) (value got : Bits)
deriving DecidableEq

structure State where
  cell : Bits
  pc : Nat → Pc
  /-- ghost -/
  log : List Event

inductive Action where
  | startAdd (thread : Nat) (value : Bits)
  | swap (thread : Nat) (value : Bits)
  /-- the next instruction of a goroutine in `AddAtomic` -/
  | run (thread : Nat)

/-- `fadd` is floating-point addition on bit patterns; nothing about it is assumed. -/
def step (fadd : Bits → Bits → Bits) (s : State) : Action → Option State
  | .startAdd t v => if s.pc t = .idle then some { s with pc := upd s.pc t (.load v) } else none
  | .swap t v =>
    if s.pc t = .idle then
      some { cell := v, pc := upd s.pc t (.swapped v s.cell), log := s.log ++ [.swap t v s.cell] }
    else none
  | .run t =>
    match s.pc t with
    | .load v => some { s with pc := upd s.pc t (.cas v s.cell) }
    | .cas v old =>
      if s.cell = old then
        some { cell := fadd old v, pc := upd s.pc t (.added v), log := s.log ++ [.add t v] }
      else some { s with pc := upd s.pc t (.load v) }
    | _ => none

def init (x : Bits) : State := { cell := x, pc := fun _ => .idle, log := [] }

def run (fadd : Bits → Bits → Bits) : State → List Action → Option State
  | s, [] => some s
  | s, a :: as => (step fadd s a).bind (fun s' => run fadd s' as)

end Verif.AtomicAdd
