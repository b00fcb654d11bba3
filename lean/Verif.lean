import Verif.Props.Clock
import Verif.Props.CopperList
import Verif.Props.Planner
import Verif.Props.EndOfProcessing
import Verif.Props.Runtime
import Verif.Props.MessageFlow
import Verif.Props.RuntimePool
import Verif.Props.UnifiedLog
import Verif.Props.StructuredLog
import Verif.Props.EndToEnd
import Verif.Props.Payload
import Verif.Props.Soa
import Verif.Props.PointCloud
import Verif.Props.Pool
import Verif.Props.Image
import Verif.Props.Config
import Verif.Props.Ident
import Verif.Props.Monitoring
import Verif.Props.Msp
import Verif.Props.MspTasks
import Verif.Props.Lewansoul
import Verif.Props.DynThreshold
import Verif.Props.Pid
import Verif.Props.Ads7883
import Verif.Props.Sn754410
import Verif.Props.Aligner
import Verif.Props.Lidar
import Verif.Props.ValueSerde
import Verif.Props.Replay
import Verif.Props.CrashExport
import Verif.Props.UnifiedLogConc
import Verif.Props.LogRuntime
import Verif.Props.AllocCounter
import Verif.Props.Params
import Verif.Props.Spatial
import Verif.Props.Payloads
import Verif.Props.MspResponses
import Verif.Props.Tags
import Verif.Props.VideoSource
import Verif.Props.Devices
import Verif.Props.ConsoleMon
import Verif.Props.FreshList
import Verif.Props.Camera
import Verif.Props.Bridge
import Verif.Props.PyView
import Verif.Props.Velodyne
import Verif.Props.SlabFiles
import Verif.Props.AlignedBuffer
import Verif.Props.Render
import Verif.Props.ShowParam
import Verif.Props.Launch
import Verif.Props.SharedLog
import Verif.Props.Quantile
import Verif.Props.PowerCut
import Verif.Props.PidFp
import Verif.Props.MotorFp
import Verif.Props.ReadingsFp
import Verif.Props.ShowTime
import Verif.Props.BalanceBot
import Verif.Props.Dataflow
import Verif.Props.ExampleApps
import Verif.Props.BalanceSim
import Verif.Props.BalanceResim
import Verif.Props.ShowValue
import Verif.Props.Killed
import Verif.Props.AnyFile
import Verif.Proofs.Prompt
import Verif.Props.KilledText
import Verif.Props.KilledThreads
import Verif.Props.Freeze
import Verif.Props.ArrowBool
import Verif.Props.ArrowAggregate
import Verif.Props.ArrowArity
import Verif.Props.Session
import Verif.Props.OneShot
import Verif.Props.ArrowDecimal
import Verif.Props.ArrowParts
import Verif.Props.ArrowTime
import Verif.Props.LogFile
import Verif.Props.CudaPool
import Verif.Props.DebugPane
import Verif.Props.KilledReplay
import Verif.Props.KilledSession
import Verif.Props.Damage
import Verif.Props.TextDumpMem
import Verif.Props.PowerThreads
import Verif.Props.ListDumpMem
import Verif.Props.LogReader
import Verif.Props.BalanceKilled
import Verif.Props.Contracts
import Verif.Props.MspRc
import Verif.Props.StandIn
import Verif.Props.PowerReplay
import Verif.Props.BalancePower
import Verif.Props.Simulated
import Verif.Props.WhatIf
import Verif.Props.WhatIfKilled
import Verif.Props.ImageViews
import Verif.Props.ComponentNew
import Verif.Props.ServoBus
import Verif.Props.ConsoleTables
import Verif.Props.PoolTable
import Verif.Props.ConsoleRun
import Verif.Props.ConsoleKeys
import Verif.Props.ConsoleQuit
