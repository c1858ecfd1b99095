import Verif.Model.Attr
import Verif.Model.SyncMachine

/-!
The front of a measurement call: range test, truncation, measurement processor; and the instantiation of the
synchronous machine with the real attribute functions.
-/

namespace Verif.Front
open Verif.Number Verif.Attr Verif.Sync

/-- `sdkinstrument.Kind` (kind.go:20-43). -/
inductive IKind where
  | syncCounter
  | syncUpDownCounter
  | syncGauge
  | syncHistogram
  | asyncCounter
  | asyncUpDownCounter
  | asyncGauge
deriving DecidableEq, Repr

/-- `Kind.Synchronous` (kind.go:46-52). -/
def IKind.synchronous : IKind → Bool
  | .syncCounter | .syncUpDownCounter | .syncGauge | .syncHistogram => true
  | _ => false

/-- `num < 0` (aggregator.go:62) for either number kind. -/
def ltZero (k : Kind) (n : Bits) : Bool :=
  match k with
  | .int64 => intLt n 0
  | .float64 => fltLt n 0

/-- `aggregator.RangeTest` (aggregator.go:40-69). The error reports are not modelled here (see `Doevery`). -/
def rangeTest (nk : Kind) (num : Bits) (kind : IKind) : Bool :=
  -- `traits.IsInf`, `traits.IsNaN` are constantly false for integers (traits.go:84-90)
  if nk == .float64 && isInf num then false
  else if nk == .float64 && isNaN num then false
  else
    match kind with
    | .syncCounter | .syncHistogram => !ltZero nk num
    | _ => true

/-- A synchronous instrument as seen by the API. -/
structure Inst where
  /-- its number in the machine -/
  id : Nat
  kind : IKind
  num : Kind
  /-- `Performance.AttributeSizeLimit` -/
  sizeLimit : Nat
  /-- `Performance.MeasurementProcessor` for the context of the call; `none` when not configured -/
  proc : Option (List KV → List KV)

/-- The attributes used for a measurement (sync.go:343-356). -/
def Inst.attrs (i : Inst) (kvs : List KV) : List KV :=
  match i.proc with
  | none => truncate i.sizeLimit kvs
  | some f => f (truncate i.sizeLimit kvs)

/-- `Observe` (sync.go:330-364) up to the record lookup: a disabled (nil) instrument or an out-of-range value returns at
once; otherwise the call starts looking for its record. -/
def observe {S : Type} (c : Cfg (List KV) (List KV) Bits S) (s : State (List KV) (List KV) Bits S) (inst : Option Inst)
    (kvs : List KV) (num : Bits) : State (List KV) (List KV) Bits S :=
  match inst with
  | none => s
  | some i =>
    if rangeTest i.num num i.kind then
      match step c s (.observe i.id (i.attrs kvs) num) with
      | some s' => s'
      | none => s
    else s

/-- The parts of the configuration that do not concern attributes. -/
structure Setup (S : Type) where
  ignoreColl : Bool
  limit : Nat
  periods : Nat
  leavesOf : Nat → List Nat
  /-- the key filter of each view; `none` is no filter -/
  keys : Nat → Option (List Str)
  lim : Nat → Nat
  delta : Nat → Bool
  agg : Nat → Agg Bits S

/-- The machine configuration with the code's attribute functions. `farm` is the external string hash. -/
def realCfg {S : Type} (farm : Str → UInt64) (u : Setup S) : Cfg (List KV) (List KV) Bits S where
  fp := fingerprint farm
  eqv := attributesEqual
  ignoreColl := u.ignoreColl
  overflowAL := overflowAttrs
  overflowKS := overflowSet
  newSet := newSet
  limit := u.limit
  periods := u.periods
  W := 2 ^ 32
  leavesOf := u.leavesOf
  filt := fun l => applyKeysFilter (u.keys l)
  lim := u.lim
  delta := u.delta
  agg := u.agg

end Verif.Front
