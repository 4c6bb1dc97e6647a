import Verif.Model.Base
import Verif.Model.RunLevel
import Verif.Model.Scope
import Verif.Props.Scope
import Verif.Props.ScopedGen
import Verif.Props.MultiClient
import Verif.Model.Parse
import Verif.Model.Integer
import Verif.Model.Float
import Verif.Model.Generators
import Verif.Props.Integer
import Verif.Props.IntGaps
import Verif.Props.Generators
import Verif.Model.Limit
import Verif.Props.Limit
import Verif.Props.SizeLimit
import Verif.Model.Rate
import Verif.Props.Rate
import Verif.Model.RateTime
import Verif.Props.RateTime
import Verif.Model.Stats
import Verif.Props.Stats
import Verif.Props.Percentile
import Verif.Props.TrxSwap
import Verif.Props.Buckets
import Verif.Model.Collector
import Verif.Props.Collector
import Verif.Props.CollectTrx
import Verif.Props.Combined
import Verif.Model.Text
import Verif.Model.Trx
import Verif.Props.Text
import Verif.Props.TrxFormat
import Verif.Props.TrxCsv
import Verif.Props.TrxFrame
import Verif.Props.TrxLines
import Verif.Props.TrxCopies
import Verif.Props.TrxC33
import Verif.Props.TrxKinds
import Verif.Props.TrxSet
import Verif.Model.Workload
import Verif.Props.Groups
import Verif.Props.GroupNames
import Verif.Props.Alloc
import Verif.Props.AllocScope
import Verif.Model.Client
import Verif.Props.Values
import Verif.Props.IterLimits
import Verif.Props.ClientSteps
import Verif.Props.ClientErr
import Verif.Props.TrxLoaded
import Verif.Props.ClientPs
import Verif.Props.ClientStats
import Verif.Props.ClientStop
import Verif.Model.Latency
import Verif.Props.Latency
import Verif.Props.ClientCounts
import Verif.Model.Stage
import Verif.Props.Stage
import Verif.Model.Config
import Verif.Model.Vars
import Verif.Model.Validate
import Verif.Props.Port
import Verif.Props.ConfigBase
import Verif.Props.Vars
import Verif.Props.Validate
import Verif.Model.Dbconn
import Verif.Model.Proto
import Verif.Props.Dbconn
import Verif.Props.DbconnMake
import Verif.Props.Proto
import Verif.Model.Compute
import Verif.Props.ComputeBase
import Verif.Props.ComputeSerial
import Verif.Props.ComputeInv
import Verif.Props.Compute
import Verif.Props.ComputeStates
import Verif.Props.ComputeBoot
import Verif.Model.StageVars
import Verif.Props.StageVars
import Verif.Model.Report
import Verif.Props.Report
import Verif.Model.ReportTime
import Verif.Props.ReportTime
import Verif.Props.ClientWaits
import Verif.Props.ClientAfter
import Verif.Props.ComputeEnd
import Verif.Props.Redact
import Verif.Model.Remote
import Verif.Props.Remote
import Verif.Model.RemoteStats
import Verif.Props.RemoteStats
import Verif.Model.Prepare
import Verif.Props.Prepare
import Verif.Model.Load
import Verif.Model.Boot
import Verif.Props.Load
import Verif.Props.Boot
import Verif.Model.System
import Verif.Props.SystemBase
import Verif.Props.SystemHandler
import Verif.Props.SystemInst
import Verif.Props.SystemInv
import Verif.Props.SystemPhase
import Verif.Props.SystemLoss
import Verif.Props.SystemGiveUp
import Verif.Props.SystemProgress
import Verif.Props.SystemDrive
import Verif.Props.System
import Verif.Model.Reporters
import Verif.Model.Scan
import Verif.Props.Reporters
import Verif.Props.Scan
import Verif.Model.FloatBuckets
import Verif.Props.FloatBuckets
import Verif.Model.Gen
import Verif.Model.Sql
import Verif.Props.Gen
import Verif.Props.Sql
import Verif.Conformance.Trx
import Verif.Conformance.Stats
import Verif.Conformance.Data
import Verif.Model.Session
import Verif.Model.Stages
import Verif.Props.SessionBase
import Verif.Props.SessionAlloc
import Verif.Props.SessionTrx
import Verif.Props.Session
import Verif.Props.TrxKnown
import Verif.Props.SessionPrep
import Verif.Conformance.Session
import Verif.Props.SessionSaves
import Verif.Props.SessionCols
import Verif.Props.SessionSent
import Verif.Props.SessionStages
import Verif.Model.Configured
import Verif.Props.Configured
import Verif.Props.RemoteSame
import Verif.Props.StageEnd
import Verif.Props.ClientOrder
import Verif.Props.TrxColumns
import Verif.Props.TrxMods
import Verif.Props.TrxCsvCount
import Verif.Model.Joint
import Verif.Props.Joint
import Verif.Props.ScopeNames
import Verif.Props.JointConf
import Verif.Model.Url
import Verif.Props.Url
import Verif.Model.ProtoBody
import Verif.Props.ProtoBody
import Verif.Model.RemoteTime
import Verif.Props.RemoteTime
import Verif.Model.FinalReport
import Verif.Props.FinalReport
import Verif.Props.Interrupt
import Verif.Model.Json
import Verif.Props.Json
import Verif.Model.ShutTime
import Verif.Props.ShutTime
import Verif.Model.JsonConf
import Verif.Props.JsonConf
import Verif.Model.PingTime
import Verif.Props.PingTime
import Verif.Props.ConfiguredWaits
import Verif.Props.JointGroups
import Verif.Model.StageRun
import Verif.Props.StageRun
import Verif.Model.LoadRun
import Verif.Props.LoadRun
import Verif.Props.TrxConf
import Verif.Props.TrxConfStages
import Verif.Model.Table
import Verif.Props.Table
import Verif.Model.Progress
import Verif.Props.Progress
import Verif.Model.ScanBroken
import Verif.Props.ScanBroken
import Verif.Props.StageStuck
import Verif.Props.PctAccuracy
import Verif.Model.Duration
import Verif.Props.Duration
import Verif.Model.SizeText
import Verif.Props.SizeText
import Verif.Props.ModText
import Verif.Props.PctWhole
import Verif.Props.PctText
import Verif.Props.DurLong
