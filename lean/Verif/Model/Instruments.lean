import Verif.Model.Front
import Verif.Model.ViewOptions

/-!
The instruments of the API: constructors and measurement calls.

Models `lightstep/sdk/metric/{syncinst,asyncinst}.go`, `bypass/bypass.go` and the choice of the attributes in `internal/syncstate/sync.go`.
-/

namespace Verif.Instruments
open Verif.Attr Verif.Front Verif.Views

/-- The fourteen constructors of a meter. -/
inductive Ctor where
  | int64Counter | int64UpDownCounter | int64Gauge | int64Histogram
  | float64Counter | float64UpDownCounter | float64Gauge | float64Histogram
  | int64ObservableCounter | int64ObservableUpDownCounter | int64ObservableGauge
  | float64ObservableCounter | float64ObservableUpDownCounter | float64ObservableGauge
deriving DecidableEq, Repr

/-- The kinds each constructor passes on (syncinst.go:160-198, asyncinst.go:96-154). -/
def Ctor.kinds : Ctor → Number.Kind × IKind
  | .int64Counter => (.int64, .syncCounter)
  | .int64UpDownCounter => (.int64, .syncUpDownCounter)
  | .int64Gauge => (.int64, .syncGauge)
  | .int64Histogram => (.int64, .syncHistogram)
  | .float64Counter => (.float64, .syncCounter)
  | .float64UpDownCounter => (.float64, .syncUpDownCounter)
  | .float64Gauge => (.float64, .syncGauge)
  | .float64Histogram => (.float64, .syncHistogram)
  | .int64ObservableCounter => (.int64, .asyncCounter)
  | .int64ObservableUpDownCounter => (.int64, .asyncUpDownCounter)
  | .int64ObservableGauge => (.int64, .asyncGauge)
  | .float64ObservableCounter => (.float64, .asyncCounter)
  | .float64ObservableUpDownCounter => (.float64, .asyncUpDownCounter)
  | .float64ObservableGauge => (.float64, .asyncGauge)

/-- The descriptor of a new instrument: `sdkinstrument.NewDescriptor` in `configureInstrument` (meter.go:142, sdkinstrument/descriptor.go:44-52). -/
def Ctor.desc (c : Ctor) (name description unit : Str) : Desc :=
  { name := name, kind := c.kinds.2, num := c.kinds.1, desc := description, unit := unit }

/-- `syncstate.OpConfig` (sync.go:316-319); nil `KeyValues` is `none`. -/
structure OpConfig where
  attributes : List KV
  keyValues : Option (List KV)

/-- `AddWithKeyValues`, `RecordWithKeyValues` (syncinst.go:92-158): all six pass their list on; a call without attributes passes nil. -/
def fastConfig (attrs : List KV) : OpConfig :=
  { attributes := [], keyValues := if attrs.isEmpty then none else some attrs }

/-- `addToOpConfig`, `recordToOpConfig` (syncinst.go:74-90). `metric.NewAddConfig` (external): the attributes of `WithAttributes` and
`WithAttributeSet` options are merged in order, later values of a key replacing earlier ones. -/
def optionConfig (opts : List (List KV)) : OpConfig :=
  { attributes := newSet opts.flatten, keyValues := none }

/-- The choice between the two (sync.go:342-349). -/
def OpConfig.list (c : OpConfig) : List KV :=
  match c.keyValues with
  | some l => l
  | none => c.attributes

/-- `Observe` (sync.go:330-364) with its argument. -/
def call {S : Type} (m : Sync.Cfg (List KV) (List KV) Number.Bits S) (s : Sync.State (List KV) (List KV) Number.Bits S)
    (inst : Option Inst) (c : OpConfig) (num : Number.Bits) : Sync.State (List KV) (List KV) Number.Bits S :=
  observe m s inst c.list num

/-- `Observer.Observe` of a callback (async.go:141-142): the options are merged as above, truncated and made a set again. -/
def asyncSet (limit : Nat) (opts : List (List KV)) : List KV := newSet (truncate limit (newSet opts.flatten))

end Verif.Instruments
