import Verif.Model.Defaults
import Verif.Model.Launcher
import Verif.Model.Live
import Verif.Model.ViewOptions

/-!
The meter provider which the launcher installs: `pipelines/metrics.go`.
-/

namespace Verif.Launched
open Verif.Attr Verif.Number Verif.Aggr Verif.Front Verif.Views
variable {C G : Type}

/-- What is outside: the functions and types of external packages, the zero configuration of histograms, and the name of the reader (periodic.go:91-93), which is used in
warnings. -/
structure Outside (C G : Type) where
  x : Views.Ext C
  zero : C
  readerName : Str
  farm : Str → UInt64
  fadd : Bits → Bits → Bits
  fsub : Bits → Bits → Bits
  hist : Kind → C → HistOps Bits G
  noHist : HistOps Bits G
  toHist : G → Export.ExpHist
  mapping : Export.Mapping

/-- The performance settings: `NewMetricsPipeline` gives none (metrics.go:103-109). -/
def perf : Defaults.Perf Unit := Defaults.settings []

/-- The readers of the provider (metrics.go:103-109): one, with the option made by `tempoOptions` (metrics.go:161-191). -/
def views (e : Outside C G) (t : IKind → Tempo) : List (Views C) := [readerViews e.x e.zero e.readerName perf.aggregatorLimit [.tempoSelector t]]

/-- The provider's settings (metrics.go:103-109) and the configured resource. -/
def world (e : Outside C G) (c : Launcher.PipelineConfig) : Assembly.World C G where
  ignoreColl := perf.ignoreCollisions
  instLimit := perf.instrumentLimit
  periods := perf.inactivePeriods
  sizeLimit := perf.sizeLimit
  resource := c.resource
  fadd := e.fadd
  hist := e.hist
  noHist := e.noHist
  toHist := e.toHist
  mapping := e.mapping

end Verif.Launched
