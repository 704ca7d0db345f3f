import Verif.Py.Basic
import Verif.Geom.Roi
import Verif.Geom.Vec
import Verif.Spec.Again
import Verif.Spec.Attempts
import Verif.Spec.ById
import Verif.Spec.CallbackSpec
import Verif.Spec.ClusterData
import Verif.Spec.ClusterDataExec
import Verif.Spec.ClusterExec
import Verif.Spec.ClusterFair
import Verif.Spec.ClusterPath
import Verif.Spec.ClusterSpec
import Verif.Spec.Count
import Verif.Spec.Data
import Verif.Spec.DataExec
import Verif.Spec.Depth
import Verif.Spec.ErrorQueueSpec
import Verif.Spec.Exec
import Verif.Spec.Fair
import Verif.Spec.Graph
import Verif.Spec.History
import Verif.Spec.Marks
import Verif.Spec.MarksExec
import Verif.Spec.MonitorSpec
import Verif.Spec.NumWorkersSpec
import Verif.Spec.Order
import Verif.Spec.PipelineSpec
import Verif.Spec.Plain
import Verif.Spec.PoolSpec
import Verif.Spec.Queries
import Verif.Spec.Raised
import Verif.Spec.Redirect
import Verif.Spec.Restart
import Verif.Spec.RestartExec
import Verif.Spec.Resume
import Verif.Spec.SerialData
import Verif.Spec.SerialExec
import Verif.Spec.SerialSpec
import Verif.Spec.Served
import Verif.Spec.ServerExec
import Verif.Spec.ServerReuse
import Verif.Spec.ServerSpec
import Verif.Spec.ServerThreads
import Verif.Spec.StarvedSpec
import Verif.Spec.Strangers
import Verif.Spec.SystemExec
import Verif.Spec.SystemSpec
import Verif.Spec.Tally
import Verif.Spec.TaskArgs
import Verif.Spec.TaskSpec
import Verif.Spec.TaskTree
import Verif.Spec.TcpThreads
import Verif.Spec.Thin
import Verif.Spec.Voxel
import Verif.Spec.Wf
import Verif.Model.Block
import Verif.Model.BlockGraph
import Verif.Model.Bookkeeper
import Verif.Model.ById
import Verif.Model.Callback
import Verif.Model.Client
import Verif.Model.Cluster
import Verif.Model.Context
import Verif.Model.Convenience
import Verif.Model.ErrorQueue
import Verif.Model.Expand
import Verif.Model.Freezable
import Verif.Model.Interrupts
import Verif.Model.LogHandlers
import Verif.Model.Logging
import Verif.Model.Monitor
import Verif.Model.Net
import Verif.Model.NumWorkers
import Verif.Model.Observer
import Verif.Model.OrphanFlag
import Verif.Model.Pipeline
import Verif.Model.Processes
import Verif.Model.Queries
import Verif.Model.Raised
import Verif.Model.ReadySurface
import Verif.Model.Redirect
import Verif.Model.Resume
import Verif.Model.Scheduler
import Verif.Model.SerialServer
import Verif.Model.Server
import Verif.Model.ServerReuse
import Verif.Model.ServerThreads
import Verif.Model.Shutdown
import Verif.Model.Strangers
import Verif.Model.System
import Verif.Model.Task
import Verif.Model.TaskGraph
import Verif.Model.TaskObjectGraph
import Verif.Model.TaskObjects
import Verif.Model.Tcp
import Verif.Model.TcpThreads
import Verif.Model.WorkerPool
import Verif.Proofs.AnyGraph
import Verif.Proofs.Attempts
import Verif.Proofs.Axis
import Verif.Proofs.BlockGraph
import Verif.Proofs.Bookkeeper
import Verif.Proofs.ById
import Verif.Proofs.ByIdRun
import Verif.Proofs.CallbackRaises
import Verif.Proofs.CallbackSame
import Verif.Proofs.Cantor
import Verif.Proofs.Cluster
import Verif.Proofs.ClusterAsk
import Verif.Proofs.ClusterBye
import Verif.Proofs.ClusterCalm
import Verif.Proofs.ClusterEnd
import Verif.Proofs.ClusterHist
import Verif.Proofs.ClusterInv
import Verif.Proofs.ClusterLast
import Verif.Proofs.ClusterMsg
import Verif.Proofs.ClusterNet
import Verif.Proofs.ClusterOne
import Verif.Proofs.ClusterProj
import Verif.Proofs.ClusterReturn
import Verif.Proofs.ClusterShared
import Verif.Proofs.ClusterStep
import Verif.Proofs.ClusterStuck
import Verif.Proofs.ClusterTime
import Verif.Proofs.Context
import Verif.Proofs.Count
import Verif.Proofs.Counts
import Verif.Proofs.Data
import Verif.Proofs.Degrees
import Verif.Proofs.Deps
import Verif.Proofs.Depth
import Verif.Proofs.ErrorQueue
import Verif.Proofs.Fifo
import Verif.Proofs.Iteration
import Verif.Proofs.Legal
import Verif.Proofs.Levels
import Verif.Proofs.Marks
import Verif.Proofs.MarksCluster
import Verif.Proofs.MarksSerial
import Verif.Proofs.NumWorkers
import Verif.Proofs.NumWorkersEnd
import Verif.Proofs.Order
import Verif.Proofs.OrderPipeline
import Verif.Proofs.OrderRun
import Verif.Proofs.OrderSerial
import Verif.Proofs.OrderServer
import Verif.Proofs.OrderSurface
import Verif.Proofs.OrphanFlag
import Verif.Proofs.Pipeline
import Verif.Proofs.PipelineOK
import Verif.Proofs.PipelineRoots
import Verif.Proofs.PipelineWf
import Verif.Proofs.Plain
import Verif.Proofs.ProcessPools
import Verif.Proofs.Processes
import Verif.Proofs.Queries
import Verif.Proofs.QueriesRun
import Verif.Proofs.Raised
import Verif.Proofs.ReadySurface
import Verif.Proofs.Restart
import Verif.Proofs.Resume
import Verif.Proofs.ResumeSerial
import Verif.Proofs.Rounds
import Verif.Proofs.Run
import Verif.Proofs.Safety
import Verif.Proofs.Scheduler
import Verif.Proofs.Serial
import Verif.Proofs.SerialData
import Verif.Proofs.SerialRun
import Verif.Proofs.Server
import Verif.Proofs.ServerAgain
import Verif.Proofs.ServerAsked
import Verif.Proofs.ServerChecks
import Verif.Proofs.ServerCount
import Verif.Proofs.ServerEnd
import Verif.Proofs.ServerFair
import Verif.Proofs.ServerLog
import Verif.Proofs.ServerProgress
import Verif.Proofs.ServerSteps
import Verif.Proofs.ServerThreads
import Verif.Proofs.StarvedGraph
import Verif.Proofs.StarvedLift
import Verif.Proofs.StarvedRun
import Verif.Proofs.Strangers
import Verif.Proofs.Subgraph
import Verif.Proofs.Summary
import Verif.Proofs.System
import Verif.Proofs.SystemFail
import Verif.Proofs.SystemKeep
import Verif.Proofs.SystemMonitor
import Verif.Proofs.SystemStaff
import Verif.Proofs.TaskGraph
import Verif.Proofs.TaskObjectGraph
import Verif.Proofs.TaskObjects
import Verif.Proofs.Tcp
import Verif.Proofs.TcpThreads
import Verif.Proofs.Thin
import Verif.Proofs.Tight
import Verif.Proofs.WorkerPool
import Verif.Props.AllFail
import Verif.Props.AllFailServer
import Verif.Props.AnyGraph
import Verif.Props.Asymmetric
import Verif.Props.BlockIds
import Verif.Props.BlockNumbers
import Verif.Props.ById
import Verif.Props.Callback
import Verif.Props.CallbackRaises
import Verif.Props.CallbackSame
import Verif.Props.Client
import Verif.Props.Cluster
import Verif.Props.ClusterClient
import Verif.Props.ClusterData
import Verif.Props.ClusterDataNeeds
import Verif.Props.ClusterEnd
import Verif.Props.ClusterFair
import Verif.Props.ClusterHang
import Verif.Props.ClusterOne
import Verif.Props.ClusterPlain
import Verif.Props.Context
import Verif.Props.ContextComplete
import Verif.Props.Convenience
import Verif.Props.Data
import Verif.Props.DataNeeds
import Verif.Props.Depth
import Verif.Props.Enumerate
import Verif.Props.ErrorQueue
import Verif.Props.Examples1
import Verif.Props.Examples2
import Verif.Props.Expand
import Verif.Props.Fifo
import Verif.Props.Freezable
import Verif.Props.Geometry
import Verif.Props.Init
import Verif.Props.Interrupt
import Verif.Props.Interrupts
import Verif.Props.LogHandlers
import Verif.Props.Logging
import Verif.Props.LooseChecks
import Verif.Props.LooseCounts
import Verif.Props.LooseData
import Verif.Props.LooseMore
import Verif.Props.LooseOrder
import Verif.Props.LooseQueries
import Verif.Props.LooseReport
import Verif.Props.Monitor
import Verif.Props.Net
import Verif.Props.NetInit
import Verif.Props.NumWorkers
import Verif.Props.Observer
import Verif.Props.Order
import Verif.Props.OrphanFlag
import Verif.Props.Outcome
import Verif.Props.Pipeline
import Verif.Props.PipelineRun
import Verif.Props.Plain
import Verif.Props.PlainFailures
import Verif.Props.PlainHang
import Verif.Props.ProcessPools
import Verif.Props.Processes
import Verif.Props.Queries
import Verif.Props.Raised
import Verif.Props.Redirect
import Verif.Props.Reject
import Verif.Props.Released
import Verif.Props.Restart
import Verif.Props.RestartNeeds
import Verif.Props.RestartServers
import Verif.Props.RestartServersCases
import Verif.Props.Resume
import Verif.Props.ResumeSerial
import Verif.Props.RetryLoose
import Verif.Props.Scheduler
import Verif.Props.Serial
import Verif.Props.SerialData
import Verif.Props.SerialDataCases
import Verif.Props.ServerAgain
import Verif.Props.ServerEnd
import Verif.Props.ServerFair
import Verif.Props.ServerHold
import Verif.Props.ServerProgress
import Verif.Props.ServerReuse
import Verif.Props.ServerStop
import Verif.Props.ServerThreads
import Verif.Props.Sharp
import Verif.Props.Shutdown
import Verif.Props.Starved
import Verif.Props.StarvedSched
import Verif.Props.StarvedServers
import Verif.Props.Strangers
import Verif.Props.Summary
import Verif.Props.System
import Verif.Props.SystemMonitor
import Verif.Props.SystemWork
import Verif.Props.TaskArgs
import Verif.Props.TaskCost
import Verif.Props.TaskObjects
import Verif.Props.Tasks
import Verif.Props.Tcp
import Verif.Props.TcpThreads
import Verif.Props.Thin
import Verif.Props.WorkerIds
import Verif.Props.WorkerPool
import Verif.Tests.DependencyGraph
import Verif.Tests.Scheduler
import Verif.Tests.Servers
