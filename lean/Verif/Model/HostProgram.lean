import Verif.Model.HostMetrics

/-!
The instruments which the host and process instrumentations ask for, with their descriptions.

Models `lightstep/instrumentation/host/host.go` and `lightstep/instrumentation/cputime/cputime.go`.
-/

namespace Verif.HostMetrics
open Verif.Attr Verif.Views Verif.Instruments

/-- The instrument asked for, with its description (host.go:142-180, cputime.go:100-116). -/
def Want.desc (w : Want) (text : Str) : Views.Desc := w.ctor.desc w.name text w.unit

/-- host.go:142-180. -/
def hostAsked : List (Want × Str) :=
  [(hostCPUTime, lit "Accumulated CPU time spent by this process host attributed by state (User, System, Other, Idle)"),
   (hostMemoryUsage, lit "Memory usage of this process host attributed by memory state (Used, Available)"),
   (hostMemoryUtilization, lit "Memory utilization of this process host attributed by memory state (Used, Available)"),
   (networkIOUsage, lit "Bytes transferred attributed by direction (Transmit, Receive)")]

/-- cputime.go:100-116. -/
def processAsked : List (Want × Str) :=
  [(processCPUTime, lit "Accumulated CPU time spent by this process attributed by state (User, System, ...)"),
   (processUptime, lit "Seconds since application was initialized")]

end Verif.HostMetrics
