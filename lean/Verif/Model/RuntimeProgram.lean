import Verif.Model.RuntimeNames
import Verif.Model.Instruments

/-!
The instruments which the runtime instrumentation asks for.

Models `lightstep/instrumentation/runtime/builtin.go`.
-/

namespace Verif.Runtime
open Verif.Attr Verif.Views Verif.Instruments

/-- The method of the meter called for an instrument (builtin.go:140-169). `wanted` gives no other kinds. -/
def Want.ctor (w : Want) : Ctor :=
  match w.kind, w.isFloat with
  | .upDown, false => .int64ObservableUpDownCounter
  | .upDown, true => .float64ObservableUpDownCounter
  | .gauge, false => .int64ObservableGauge
  | .gauge, true => .float64ObservableGauge
  | _, false => .int64ObservableCounter
  | _, true => .float64ObservableCounter

/-- The description (builtin.go:135). -/
def Want.text (w : Want) : Str := w.pattern ++ lit " from runtime/metrics"

/-- The instrument asked for (builtin.go:135-169). -/
def Want.desc (w : Want) : Views.Desc := w.ctor.desc w.name w.text w.unit

end Verif.Runtime
