import Verif.Model.Views

/-!
The meter provider: meters, instruments, and collection for one reader.

Models `lightstep/sdk/metric/{provider,meter,producer}.go` and the constructors of `internal/syncstate` and `internal/asyncstate`. `Meter`,
`configureInstrument` and the list copies of `collectFor` run under a lock, so every execution of these is equivalent to a sequence of whole calls,
which is what is represented. Records are kept as the list of the measurements made; the aggregation of concurrent measurements, temporality,
callbacks and clocks are in the other models.
-/

namespace Verif.Provider
open Verif.Views Verif.Attr Verif.Front

/-- An instrument: `syncstate.Observer` (sync.go:39-58) or `asyncstate.Observer` (async.go:47-71). `leaves` has, for each reader, the output metrics of the
compiled instrument (none: nil). -/
structure Inst where
  desc : Desc
  leaves : List (List Nat)

/-- `meter` (meter.go:38-50). A pointer to an instrument is its position in `insts`; in `sync` the nil pointer is `none`. `recs pipe i` are the
measurements received by the `i`th output metric of a reader. -/
structure Meter (H ν : Type) where
  scope : Scope
  comps : List (State H)
  byDesc : List (Desc × Nat)
  insts : List Inst
  sync : List (Option Nat)
  async : List Nat
  recs : Nat → Nat → List ν

/-- `MeterProvider` (provider.go:40-49): the views of each reader, the meters in order, and the map of meters (nil after shutdown). A pointer to a meter
is its position in `ordered`. -/
structure Provider (H ν : Type) where
  views : List (Views H)
  ordered : List (Meter H ν)
  map : Option (List (Scope × Nat))

variable {H ν : Type} [DecidableEq H]

/-- `NewMeterProvider` (provider.go:62-88) for the readers with these (validated) views. -/
def new (views : List (Views H)) : Provider H ν := { views := views, ordered := [], map := some [] }

/-- A new meter (provider.go:122-130). -/
def newMeter (views : List (Views H)) (sc : Scope) : Meter H ν :=
  { scope := sc, comps := views.map (fun _ => State.new), byDesc := [], insts := [], sync := [], async := [], recs := fun _ _ => [] }

/-- Lookup in a map kept as a list. -/
def get {K : Type} [DecidableEq K] (l : List (K × Nat)) (k : K) : Option Nat := (l.find? (fun e => e.1 = k)).map (·.2)

/-- `MeterProvider.Meter` (provider.go:103-135); `none` is the no-op meter. -/
def meter (p : Provider H ν) (sc : Scope) : Provider H ν × Option Nat :=
  match p.map with
  | none => (p, none)
  | some m =>
    match get m sc with
    | some i => (p, some i)
    | none => ({ p with ordered := p.ordered ++ [newMeter p.views sc], map := some ((sc, p.ordered.length) :: m) }, some p.ordered.length)

/-- Compile a descriptor for each reader (meter.go:152-156, 164-168). -/
def compileAll (x : Ext H) (views : List (Views H)) (m : Meter H ν) (d : Desc) : List (State H × List Nat × List Conflict) :=
  List.zipWith (fun v s => compile x v m.scope s d) views m.comps

/-- `configureInstrument` (meter.go:132-184) with the constructors `syncstate.New` (sync.go:64-92: nil when no reader has the instrument) and `asyncstate.New`
(async.go:88-104). The result is the pointer, `none` for nil. Errors are not represented (see C40). -/
def configure (x : Ext H) (views : List (Views H)) (m : Meter H ν) (d : Desc) : Meter H ν × Option Nat :=
  let rs := compileAll x views m d
  let comps := rs.map (·.1)
  let leaves := rs.map (·.2.1)
  match get m.byDesc d with
  | some i => ({ m with comps := comps }, some i)
  | none =>
    if d.kind.synchronous then
      if leaves.all (·.isEmpty) then ({ m with comps := comps, sync := m.sync ++ [none] }, none)
      else
        ({ m with comps := comps, byDesc := (d, m.insts.length) :: m.byDesc, insts := m.insts ++ [⟨d, leaves⟩], sync := m.sync ++ [some m.insts.length] },
          some m.insts.length)
    else
      ({ m with comps := comps, byDesc := (d, m.insts.length) :: m.byDesc, insts := m.insts ++ [⟨d, leaves⟩], async := m.async ++ [m.insts.length] },
        some m.insts.length)

/-- How often an instrument writes to output metric `i` of a reader (views may have it twice, see C30). -/
def Inst.times (o : Inst) (pipe i : Nat) : Nat := ((o.leaves[pipe]?).getD []).count i

/-- A measurement on a synchronous instrument, on the nil one nothing (sync.go:330-364; `Combine`d instruments, viewstate.go:559-621). -/
def record (m : Meter H ν) (inst : Option Nat) (v : ν) : Meter H ν :=
  match inst with
  | none => m
  | some i =>
    match m.insts[i]? with
    | none => m
    | some o => { m with recs := fun pipe l => m.recs pipe l ++ List.replicate (o.times pipe l) v }

/-- The observations made by callbacks which reach output metric `l` of the collecting reader; an instrument dropped by the reader takes no part
(async.go:127-147). -/
def observed (m : Meter H ν) (pipe l : Nat) (obs : List (Nat × ν)) : List ν :=
  obs.flatMap (fun e => match m.insts[e.1]? with
    | none => []
    | some o => List.replicate (o.times pipe l) e.2)

/-- `collectFor` (producer.go:91-127) for one meter: `none` is the panic when `SnapshotAndProcess` is called on a nil synchronous instrument
(producer.go:113-115, sync.go:97-99). Output metrics appear in order of creation, even when they have no points (base_instrument.go:196-207). -/
def collectFor (m : Meter H ν) (pipe : Nat) (obs : List (Nat × ν)) : Option (Scope × List (Desc × List ν)) :=
  if m.sync.any (·.isNone) then none
  else some (m.scope, (((m.comps[pipe]?).map (·.collectors)).getD []).zipIdx.map (fun e => (e.1.desc, m.recs pipe e.2 ++ observed m pipe e.2 obs)))

/-- The loop of `Produce` (producer.go:78-85) over the meters in order; `obs` has the observations for each meter. -/
def collect (p : Provider H ν) (pipe : Nat) (obs : Nat → List (Nat × ν)) : Option (List (Scope × List (Desc × List ν))) :=
  p.ordered.zipIdx.mapM (fun e => collectFor e.1 pipe (obs e.2))

/-- The part of `Shutdown` under the lock (provider.go:173-180): whether the provider was not yet shut down. -/
def shutdown (p : Provider H ν) : Provider H ν × Bool := ({ p with map := none }, p.map.isSome)

/-- The calls users make. -/
inductive Call (ν : Type) where
  | meter (sc : Scope)
  | instrument (m : Nat) (d : Desc)
  | record (m : Nat) (inst : Option Nat) (v : ν)
  | shutdown

/-- What a call returns: a pointer, or whether `Shutdown` was the first. -/
inductive Res where
  | pointer (i : Option Nat)
  | done (first : Bool)
deriving DecidableEq

/-- One call. Calls on pointers which were never handed out do nothing. -/
def step (x : Ext H) (p : Provider H ν) : Call ν → Provider H ν × Res
  | .meter sc => ((meter p sc).1, .pointer (meter p sc).2)
  | .instrument k d =>
    match p.ordered[k]? with
    | none => (p, .pointer none)
    | some m => ({ p with ordered := p.ordered.set k (configure x p.views m d).1 }, .pointer (configure x p.views m d).2)
  | .record k inst v =>
    match p.ordered[k]? with
    | none => (p, .done false)
    | some m => ({ p with ordered := p.ordered.set k (record m inst v) }, .done false)
  | .shutdown => ((shutdown p).1, .done (shutdown p).2)

/-- The state after a sequence of calls. -/
def run (x : Ext H) (p : Provider H ν) (cs : List (Call ν)) : Provider H ν := cs.foldl (fun p c => (step x p c).1) p

end Verif.Provider
