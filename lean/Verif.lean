import Verif.Prog
import Verif.Dict
import Verif.Models
import Verif.World
import Verif.Ketchup
import Verif.Pipelines
import Verif.JobMgr
import Verif.Inv
import Verif.KetchupLemmas
import Verif.Props.Ketchup
import Verif.Props.KetchupExact
import Verif.Cmd
import Verif.PipLemmas
import Verif.Props.Pipelines
import Verif.Props.Cmd
import Verif.DriverMgr
import Verif.System
import Verif.SystemLemmas
import Verif.SystemInv
import Verif.JmSafe
import Verif.CancelSafe
import Verif.Props.System
import Verif.SparingEngine
import Verif.Props.Races
import Verif.Props.Supervision
import Verif.DeviceFile
import Verif.Props.DeviceFile
import Verif.Db
import Verif.Cli
import Verif.Props.Cli
import Verif.Validate
import Verif.Props.Validate
import Verif.Iface21
import Verif.Props.Iface21
import Verif.Iface20
import Verif.Props.Iface20
import Verif.DriverProc
import Verif.Props.DriverProc
import Verif.Props.DriverMgr
import Verif.Lpp
import Verif.Props.Lpp
import Verif.Passata
import Verif.Props.Passata
import Verif.JobThread
import Verif.JobThreadLemmas
import Verif.Props.JobThread
import Verif.Props.JobConditions
import Verif.Props.Occupied
import Verif.Props.Assign
import Verif.Props.FirstCome
import Verif.Props.KeepGoing
import Verif.Props.PipReset
import Verif.Props.PipCmds
import Verif.Props.PipReport
import Verif.Props.Exclusive
import Verif.Abides
import Verif.Io
import Verif.Props.Paths
import Verif.Props.Io
import Verif.EndToEnd
import Verif.Whole
import Verif.InitText
import Verif.Props.EndToEnd
import Verif.Props.EndToEndOwn
import Verif.Props.Whole
import Verif.Props.DeviceFailure
import Verif.Props.InitText
import Verif.Daemons
import Verif.Props.Daemons
import Verif.Lifecycle
import Verif.Props.Lifecycle
import Verif.Props.DriverRespawn
import Verif.JobSnap
import Verif.Props.JobSnap
import Verif.Props.JobSnapRecord
import Verif.JobStart
import Verif.Props.JobStart
import Verif.Status
import Verif.Props.Status
import Verif.Clients
import Verif.Props.Clients
import Verif.Props.CrashLaunch
import Verif.JobProc
import Verif.Props.JobProc
import Verif.Props.JobFiles
import Verif.Props.JobResults
import Verif.Props.JobEnd
import Verif.Faults
import Verif.Props.Faults
import Verif.Props.ManagerFails
import Verif.Props.JobLiveness
import Verif.Stores
import Verif.Props.Stores
import Verif.DriverSettings
import Verif.Props.DriverSettings
import Verif.Props.Processes
import Verif.RepoTests
import Verif.Props.Promise
import Verif.ByHand
import Verif.Props.ByHand
import Verif.Props.Identity
import Verif.Plant
import Verif.Props.Plant
import Verif.DriverStart
import Verif.Props.DriverStart
import Verif.Rereg
import Verif.Props.Rereg
import Verif.Clock
import Verif.Props.Clock
import Verif.Props.Iface20Calm
import Verif.Props.NeverConnected
import Verif.Sql
import Verif.SqlLemmas
import Verif.SqlOps
import Verif.SqlSystem
import Verif.Props.Sql
import Verif.Docs
import Verif.Props.Docs
import Verif.Props.KeptConf
import Verif.Xr
import Verif.Props.Xr
import Verif.Props.Blocked
import Verif.Quit
import Verif.Props.Quit
import Verif.Props.Serving
import Verif.Quit20
import Verif.Props.Quit20
import Verif.DriverLoop
import Verif.Props.DriverLoop
import Verif.JobWait
import Verif.Props.JobWait
import Verif.EndToEnd20
import Verif.Props.EndToEnd20
import Verif.Iface20Fine
import Verif.Props.Iface20Fine
import Verif.Argparse
import Verif.CmdLine
import Verif.Props.CmdLine
import Verif.Spawn
import Verif.Props.Spawn
import Verif.LastData
import Verif.Props.LastData
import Verif.Props.Times
import Verif.JobData
import Verif.Props.JobData
import Verif.Props.Rejected
import Verif.Props.Reload
import Verif.Report
import Verif.Props.Report
import Verif.DataFile
import Verif.Props.DataFile
