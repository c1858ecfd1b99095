import Verif.Basic
import Verif.Model.Storage
import Verif.Model.SyncMachine
import Verif.Proof.SyncStep
import Verif.Proof.SyncWf
import Verif.Proof.SyncRef
import Verif.Proof.SyncRel
import Verif.Proof.SyncEmpty
import Verif.Proof.SyncAux
import Verif.Spec.Sync
import Verif.Proof.SyncCons
import Verif.Proof.SyncProg
import Verif.Proof.SyncVals
import Verif.Proof.SyncRank
import Verif.Proof.SyncVis
import Verif.Proof.SyncMore
import Verif.Proof.SyncSeq
import Verif.Model.Number
import Verif.Model.Aggregators
import Verif.Spec.Aggr
import Verif.Proof.Aggr
import Verif.Proof.SyncTotals
import Verif.Proof.SyncSolo
import Verif.Examples.SyncCfg
import Verif.Props.SyncAccounting
import Verif.Proof.SyncValues
import Verif.Props.SyncValues
import Verif.Proof.SyncIdle
import Verif.Props.SyncLimits
import Verif.Model.Attr
import Verif.Spec.Attr
import Verif.Proof.Attr
import Verif.Spec.Number
import Verif.Proof.Number
import Verif.Model.Front
import Verif.Model.AtomicAdd
import Verif.Proof.SyncUnique
import Verif.Props.Numbers
import Verif.Props.Attributes
import Verif.Model.Async
import Verif.Spec.Async
import Verif.Proof.Async
import Verif.Props.Async
import Verif.Model.Views
import Verif.Spec.Views
import Verif.Proof.Views
import Verif.Props.Views
import Verif.Props.Callbacks
import Verif.Model.Callbacks
import Verif.Proof.Callbacks
import Verif.Model.Export
import Verif.Spec.Export
import Verif.Proof.Export
import Verif.Model.TraceExport
import Verif.Spec.TraceExport
import Verif.Proof.TraceExport
import Verif.Props.Export
import Verif.Model.Launcher
import Verif.Spec.Launcher
import Verif.Proof.Launcher
import Verif.Props.Launcher
import Verif.Model.RuntimeNames
import Verif.Props.RuntimeNames
import Verif.Model.Doevery
import Verif.Props.Doevery
import Verif.Model.Provider
import Verif.Spec.Provider
import Verif.Proof.Provider
import Verif.Props.Provider
import Verif.Model.Times
import Verif.Props.Times
import Verif.Model.Periodic
import Verif.Props.Periodic
import Verif.Model.Shutdown
import Verif.Props.Shutdown
import Verif.Model.Registration
import Verif.Model.Readers
import Verif.Model.Reuse
import Verif.Spec.Registration
import Verif.Spec.Readers
import Verif.Spec.Reuse
import Verif.Proof.Reuse
import Verif.Props.Registration
import Verif.Props.Readers
import Verif.Props.Reuse
import Verif.Model.Slices
import Verif.Proof.Slices
import Verif.Props.Slices
import Verif.Model.Chains
import Verif.Spec.Chains
import Verif.Proof.Chains
import Verif.Props.Chains
import Verif.Props.Histograms
import Verif.Model.Client
import Verif.Spec.Client
import Verif.Props.Client
import Verif.Spec.Last
import Verif.Proof.Last
import Verif.Model.ViewOptions
import Verif.Props.ViewOptions
import Verif.Model.Instruments
import Verif.Props.Instruments
import Verif.Props.Temporality
import Verif.Props.Text
import Verif.Model.HostMetrics
import Verif.Props.HostMetrics
import Verif.Model.Pipeline
import Verif.Spec.Pipeline
import Verif.Proof.SyncCalls
import Verif.Proof.Pipeline
import Verif.Proof.SyncRoom
import Verif.Proof.PipelineEnd
import Verif.Proof.PipelineValues
import Verif.Proof.PipelineSums
import Verif.Examples.PipelineCfg
import Verif.Props.Pipeline
import Verif.Proof.PipelineMore
import Verif.Examples.PipelineGauge
import Verif.Props.PipelineMore
import Verif.Props.Room
import Verif.Spec.Payload
import Verif.Proof.Payload
import Verif.Props.Payload
import Verif.Model.AsyncPipeline
import Verif.Spec.AsyncPipeline
import Verif.Proof.AsyncPipeline
import Verif.Proof.AsyncValues
import Verif.Proof.AsyncSent
import Verif.Proof.AsyncProgram
import Verif.Props.AsyncPipeline
import Verif.Props.Overflow
import Verif.Model.AsyncOverlap
import Verif.Spec.AsyncOverlap
import Verif.Proof.AsyncOverlap
import Verif.Proof.AsyncAlone
import Verif.Proof.AsyncDelta
import Verif.Props.AsyncOverlap
import Verif.Model.Messages
import Verif.Spec.Messages
import Verif.Props.Messages
import Verif.Props.Defaults
import Verif.Props.RuntimeSnapshot
import Verif.Props.SyncInterval
import Verif.Model.Defaults
import Verif.Model.RuntimeSnapshot
import Verif.Model.Locks
import Verif.Spec.Locks
import Verif.Proof.Locks
import Verif.Props.Locks
import Verif.Model.Races
import Verif.Spec.Races
import Verif.Proof.Races
import Verif.Props.Races
import Verif.Model.Assembly
import Verif.Spec.Assembly
import Verif.Proof.Assembly
import Verif.Proof.AssemblyWired
import Verif.Proof.PipelineShape
import Verif.Examples.AssemblyProgram
import Verif.Props.Assembly
import Verif.Model.AsyncAssembly
import Verif.Spec.AsyncAssembly
import Verif.Proof.AsyncAssembly
import Verif.Props.AsyncAssembly
import Verif.Spec.AssemblyViews
import Verif.Proof.AssemblyViews
import Verif.Examples.AssemblyViewsProgram
import Verif.Props.AssemblyViews
import Verif.Spec.AsyncAssemblyViews
import Verif.Proof.AsyncAssemblyViews
import Verif.Props.AsyncAssemblyViews
import Verif.Model.Whole
import Verif.Spec.Whole
import Verif.Proof.Whole
import Verif.Examples.WholeProgram
import Verif.Props.Whole
import Verif.Model.Live
import Verif.Spec.Live
import Verif.Proof.LiveSync
import Verif.Proof.LiveAsync
import Verif.Proof.LiveProvider
import Verif.Proof.Live
import Verif.Examples.LiveProgram
import Verif.Props.Live
import Verif.Model.Launched
import Verif.Spec.Launched
import Verif.Proof.Launched
import Verif.Examples.LaunchedProgram
import Verif.Examples.CountedProgram
import Verif.Props.Launched
import Verif.Spec.Hinted
import Verif.Spec.Counted
import Verif.Proof.Hinted
import Verif.Proof.Counted
import Verif.Props.Hinted
import Verif.Props.Counted
import Verif.Model.Delivery
import Verif.Spec.Delivery
import Verif.Proof.Delivery
import Verif.Proof.DeliveryEnd
import Verif.Proof.DeliveryDone
import Verif.Proof.DeliveryEnds
import Verif.Examples.DeliveryProgram
import Verif.Props.Delivery
import Verif.Props.DeliveryHinted
import Verif.Proof.SyncHalt
import Verif.Spec.Progress
import Verif.Proof.DeliveryHalt
import Verif.Proof.DeliveryStuck
import Verif.Proof.DeliveryNil
import Verif.Props.Progress
import Verif.Proof.SyncBound
import Verif.Proof.DeliveryBound
import Verif.Props.Bounded
import Verif.Spec.Fair
import Verif.Proof.SyncFair
import Verif.Proof.DeliveryNext
import Verif.Proof.DeliveryFair
import Verif.Proof.DeliveryExists
import Verif.Props.Fair
import Verif.Model.Prom
import Verif.Spec.Prom
import Verif.Proof.Prom
import Verif.Examples.PromProgram
import Verif.Props.Prom
import Verif.Model.Multi
import Verif.Spec.Multi
import Verif.Proof.Multi
import Verif.Examples.MultiProgram
import Verif.Props.Multi
import Verif.Spec.MultiFair
import Verif.Proof.MultiFair
import Verif.Proof.MultiExists
import Verif.Props.MultiFair
import Verif.Model.RuntimeProgram
import Verif.Spec.Instrumented
import Verif.Proof.Instrumented
import Verif.Spec.RuntimeProgram
import Verif.Proof.RuntimeProgram
import Verif.Examples.RuntimeProgram
import Verif.Props.RuntimeProgram
import Verif.Model.HostProgram
import Verif.Spec.HostProgram
import Verif.Proof.HostProgram
import Verif.Examples.HostProgram
import Verif.Props.HostProgram
import Verif.Spec.Busy
import Verif.Proof.BusyIds
import Verif.Proof.BusyValues
import Verif.Proof.Busy
import Verif.Examples.BusyProgram
import Verif.Examples.BusyGauge
import Verif.Proof.BusyHinted
import Verif.Props.Busy
import Verif.Spec.Failures
import Verif.Proof.Failures
import Verif.Props.Failures
import Verif.Props.FailuresHinted
import Verif.Model.Traced
import Verif.Spec.Traced
import Verif.Proof.Traced
import Verif.Props.Traced
import Verif.Spec.Freed
import Verif.Proof.Freed
import Verif.Props.Freed
import Verif.Model.SelfTelemetry
import Verif.Spec.SelfTelemetry
import Verif.Proof.SelfTelemetry
import Verif.Examples.SelfTelemetryProgram
import Verif.Props.SelfTelemetry
import Verif.Model.SpanTelemetry
import Verif.Spec.SpanTelemetry
import Verif.Proof.SpanTelemetry
import Verif.Examples.SpanTelemetryProgram
import Verif.Props.SpanTelemetry
import Verif.Props.BusyHinted
import Verif.Props.BusyGauges
