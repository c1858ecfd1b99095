/-!
Readers and the providers they are given to: options of a provider, registration, and what readers do for which provider.

Models `lightstep/sdk/metric/config.go`, `NewMeterProvider`, `ForceFlush`, `Shutdown` (provider.go:62-187), `manual.go` and the registration of
`periodic.go`. Any number of providers and readers; a reader may be given to several providers, and several times to one.

Simplifications: a call is one step, and so is a turn of a periodic reader's loop (how they interleave is the subject of `Verif.Model.Periodic` and
`Verif.Model.Shutdown`). An option is not nil. What a collection contains is in other models: here it is the provider and the position in its list of
readers the data come from, which determine the resource and the views. Exporters return no errors. `NewPeriodicReader` is not part of this.
-/

namespace Verif.Readers

/-- `Option` (config.go:40-80). -/
inductive Opt (R V P : Type) where
  | resource (r : R)
  | reader (r : Nat) (views : V)
  | performance (p : P)
deriving DecidableEq

/-- `config` (config.go:23-38). -/
structure Config (R V P : Type) where
  res : R
  readers : List Nat
  vopts : List V
  perf : P
deriving DecidableEq

variable {R V P : Type}

/-- `WithResource`, `WithReader`, `WithPerformance` applied (config.go:53-77). -/
def apply (c : Config R V P) : Opt R V P → Config R V P
  | .resource r => { c with res := r }
  | .reader r v => { c with readers := c.readers ++ [r], vopts := c.vopts ++ [v] }
  | .performance p => { c with perf := p }

/-- The configuration (provider.go:63-68), before `Validate` of the performance settings; `p0` is the zero value. -/
def newConfig (dflt : R) (p0 : P) (opts : List (Opt R V P)) : Config R V P :=
  opts.foldl apply { res := dflt, readers := [], vopts := [], perf := p0 }

inductive Kind where
  | manual | periodic
deriving DecidableEq

/-- `ManualReader` (manual.go:29-32), `PeriodicReader` (periodic.go:50-60): the producer (provider, position), nil at first, and whether the loop runs. -/
structure Reader where
  producer : Option (Nat × Nat)
  running : Bool
deriving DecidableEq

/-- Why data are collected: `Produce` called on a manual reader, a tick, `ForceFlush`, `Shutdown`. -/
inductive Why where
  | produce | tick | flush | shutdown
deriving DecidableEq

/-- What can be seen: `ErrMultipleReaderRegistration` given to the error handler; data handed to the caller or the exporter of a reader; a panic;
`ErrAlreadyShutdown` returned. -/
inductive Ev where
  | refused (r : Nat)
  | data (r : Nat) (why : Why) (prov pipe : Nat)
  | panic
  | already (prov : Nat)
deriving DecidableEq

structure State (R V P : Type) where
  /-- the providers in order of creation, and whether `Shutdown` was called -/
  provs : List (Config R V P × Bool)
  reader : Nat → Reader
  log : List Ev

inductive Act (R V P : Type) where
  /-- `NewMeterProvider` -/
  | create (opts : List (Opt R V P))
  | flush (prov : Nat)
  | shutdown (prov : Nat)
  /-- the ticker of a periodic reader fires -/
  | tick (r : Nat)
  /-- `Produce` of a manual reader is called -/
  | produce (r : Nat)
deriving DecidableEq

/-- `Register` (manual.go:51-57, periodic.go:96-109). -/
def register (kind : Nat → Kind) (s : State R V P) (r prov pipe : Nat) : State R V P :=
  match (s.reader r).producer with
  | some _ => { s with log := s.log ++ [.refused r] }
  | none =>
    { s with reader := fun x => if x = r then { producer := some (prov, pipe), running := kind r == .periodic } else s.reader x }

/-- The loop of `NewMeterProvider` (provider.go:75-86), from a position on. -/
def registerAll (kind : Nat → Kind) (prov : Nat) : Nat → List Nat → State R V P → State R V P
  | _, [], s => s
  | pipe, r :: rs, s => registerAll kind prov (pipe + 1) rs (register kind s r prov pipe)

/-- `collect` (periodic.go:155-167), `Produce` of the embedded producer: calling it while nil panics. -/
def collect (s : State R V P) (r : Nat) (why : Why) : State R V P :=
  match (s.reader r).producer with
  | some (prov, pipe) => { s with log := s.log ++ [.data r why prov pipe] }
  | none => { s with log := s.log ++ [.panic] }

/-- `ForceFlush` of a reader (manual.go:60-62, periodic.go:148-150). -/
def flushReader (kind : Nat → Kind) (s : State R V P) (r : Nat) : State R V P :=
  match kind r with
  | .manual => s
  | .periodic => collect s r .flush

/-- `Shutdown` of a reader (manual.go:65-67, periodic.go:138-142): the loop is stopped, then there is a last collection. -/
def shutReader (kind : Nat → Kind) (s : State R V P) (r : Nat) : State R V P :=
  match kind r with
  | .manual => s
  | .periodic => collect { s with reader := fun x => if x = r then { s.reader r with running := false } else s.reader x } r .shutdown

def step (kind : Nat → Kind) (dflt : R) (p0 : P) (s : State R V P) : Act R V P → State R V P
  | .create opts =>
    let c := newConfig dflt p0 opts
    registerAll kind s.provs.length 0 c.readers { s with provs := s.provs ++ [(c, false)] }
  | .flush p =>
    match s.provs[p]? with
    | none => s
    | some (c, _) => c.readers.foldl (flushReader kind) s
  | .shutdown p =>
    match s.provs[p]? with
    | none => s
    | some (_, true) => { s with log := s.log ++ [.already p] }
    | some (c, false) => c.readers.foldl (shutReader kind) { s with provs := s.provs.set p (c, true) }
  | .tick r => if (s.reader r).running then collect s r .tick else s
  | .produce r =>
    match kind r with
    | .manual => collect s r .produce
    | .periodic => s

def new : State R V P := { provs := [], reader := fun _ => { producer := none, running := false }, log := [] }

def run (kind : Nat → Kind) (dflt : R) (p0 : P) (acts : List (Act R V P)) : State R V P := acts.foldl (step kind dflt p0) new

end Verif.Readers
