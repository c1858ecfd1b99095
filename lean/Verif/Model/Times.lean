import Verif.Model.Views

/-!
Timestamps of collections. Models `lightstep/sdk/metric/{provider,producer}.go` and the times in `internal/viewstate/collectors.go`.

The lock of a producer (producer.go:57-61) makes reading the clock and exchanging the time of the last collection one step, so the collections of all
readers, concurrent ones too, are represented by the sequence of these steps. A time is an integer; the clock's reading is given with each step.
-/

namespace Verif.Times
open Verif.Views

/-- `data.Sequence` (data/sequence.go:20-36). -/
structure Seq where
  start : Int
  last : Int
  now : Int
deriving DecidableEq

/-- The provider's start time and the `lastCollect` of the producer of each reader (provider.go:73, producer.go:29-34). -/
structure State where
  start : Int
  last : Nat → Int

/-- `NewMeterProvider` and `producerFor` (provider.go:71-87, producer.go:37-43). -/
def new (start : Int) : State := { start := start, last := fun _ => start }

/-- The locked part of `Produce` and the `Sequence` made from it (producer.go:57-75). -/
def produce (s : State) (reader : Nat) (now : Int) : State × Seq :=
  ({ s with last := fun r => if r = reader then now else s.last r }, { start := s.start, last := s.last reader, now := now })

/-- The sequences of a history of collections, each with its reader. -/
def history (s : State) : List (Nat × Int) → List (Nat × Seq)
  | [] => []
  | e :: es => (e.1, (produce s e.1 e.2).2) :: history (produce s e.1 e.2).1 es

/-- The four kinds of output metrics (collectors.go:29, 48, 95, 118). -/
inductive Collector where
  | statefulSync | lowmemorySync | lowmemoryAsync | statefulAsync
deriving DecidableEq

/-- Which one is made for a temporality: `newSyncView` (viewstate.go:434-445), `newAsyncView` (viewstate.go:507-521; gauges have the
low memory form whatever the temporality). -/
def collectorFor (synchronous delta gauge : Bool) : Collector :=
  if synchronous then (if delta then .lowmemorySync else .statefulSync)
  else (if delta && !gauge then .statefulAsync else .lowmemoryAsync)

/-- A point's temporality, start and end: the arguments of `appendPoint` in each `Collect` (collectors.go:41, 67, 109, 159). -/
def pointTimes (c : Collector) (q : Seq) : Tempo × Int × Int :=
  match c with
  | .statefulSync => (.cumulative, q.start, q.now)
  | .lowmemorySync => (.delta, q.last, q.now)
  | .lowmemoryAsync => (.cumulative, q.start, q.now)
  | .statefulAsync => (.delta, q.last, q.now)

end Verif.Times
