import Verif.Dict

/-!
# Data models

`/repo/src/tomato/models.py`.  Time stamps written as `str(datetime.now(utc))` are
natural numbers (microseconds); two time stamps are equal as strings iff they are
equal as instants.  `time.perf_counter()` values are natural numbers (milliseconds).
-/

namespace Tomato

/-- `Job.status`, models.py:59. -/
inductive JobStatus where
  | q | qw | r | rd | c | cd | ce
  deriving DecidableEq, Repr

namespace JobStatus

/-- The job is over: completed, cancelled, or ended with an error. -/
def final : JobStatus → Bool
  | c | cd | ce => true
  | _ => false

/-- The job waits in the queue. -/
def queued : JobStatus → Bool
  | q | qw => true
  | _ => false

end JobStatus

/-- A task of the payload's method (`dgbowl_schemas` `Task`): the fields the daemon looks
at.  `body` stands for everything else (task_params, max_duration, sampling_interval). -/
structure Task where
  role : String                       -- component_role
  technique : String                  -- technique_name
  taskName : Option String := none    -- task_name
  startWith : Option String := none   -- start_with_task_name
  stopWith : Option String := none    -- stop_with_task_name
  body : Nat := 0
  deriving DecidableEq, Repr

/-- A payload (`dgbowl_schemas` `Payload`), the fields used by tomato. -/
structure Payload where
  sample : String                              -- sample.identifier
  method : List Task
  unlockWhenDone : Bool := false               -- settings.unlock_when_done
  repositories : List String := ["default"]    -- settings.output.repositories
  outPath : Option String := none              -- settings.output.path
  outPrefix : Option String := none            -- settings.output.prefix
  snapshot : Option (Option String) := none    -- settings.snapshot (present?) and its path
  deriving DecidableEq, Repr

/-- `Job`, models.py:54-66. -/
structure Job where
  id : Nat
  payload : Payload
  jobname : Option String := none
  pid : Option Nat := none
  status : JobStatus := .q
  submittedAt : Nat
  launchedAt : Option Nat := none
  connectedAt : Option Nat := none
  completedAt : Option Nat := none
  jobpath : Option String := none
  respath : Option String := none
  snappath : Option String := none
  deriving DecidableEq, Repr

/-- `PipState`, models.py:37-41. -/
structure PipState where
  name : String
  ready : Bool := false
  jobid : Option Nat := none
  sampleid : Option String := none
  deriving DecidableEq, Repr

/-- `DrvState`, models.py:44-51. -/
structure DrvState where
  name : String
  port : Option Nat := none
  pid : Option Nat := none
  version : Option String := none
  spawnTime : Nat := 0
  spawnCount : Nat := 0
  heartbeatTime : Nat := 0
  deriving DecidableEq, Repr

/-- `Pipeline`, models.py:120-123; `components` maps roles to component names. -/
structure Pipeline where
  name : String
  components : Dict String String
  deriving DecidableEq, Repr

/-- `Component`, models.py:126-131. -/
structure Component where
  name : String
  device : String
  driver : String
  address : String
  channel : String
  deriving DecidableEq, Repr

/-- `Device`, models.py:134-139. -/
structure Device where
  name : String
  driver : String
  address : String
  channels : List String
  pollrate : Int := 1
  deriving DecidableEq, Repr

/-- `Driver`, models.py:142-144; the settings are a dictionary of opaque values. -/
structure Driver where
  name : String
  settings : Dict String String := []
  deriving DecidableEq, Repr

/-- `DeviceFile`, models.py:147-152 (without the file name). -/
structure DeviceFile where
  components : Dict String Component := []
  devices : Dict String Device := []
  drivers : Dict String Driver := []
  pipelines : Dict String Pipeline := []
  deriving DecidableEq, Repr

/-- `Daemon.settings`: the entries used.  There is one database, so `dbpath` is left out
(see `Verif/Stores.lean` for several). -/
structure Settings where
  storage : String := "Jobs"                        -- settings["jobs"]["storage"]
  -- settings["repositories"]; `none` if the file has no such section
  repositories : Option (Dict String String) := some []
  drivers : Dict String (Dict String String) := []  -- settings["drivers"]
  deriving DecidableEq, Repr

/-- `Daemon.status`, models.py:79. -/
inductive DaemonStatus where
  | bootstrap | running | stop
  deriving DecidableEq, Repr

/-- `Daemon`, models.py:78-84. -/
structure Daemon where
  status : DaemonStatus := .running
  settings : Settings := {}
  devicefile : DeviceFile := {}
  deriving DecidableEq, Repr

/-- `Reply`, models.py:114-117.  The message is an element of a type of messages `M`
(one constructor per message in the code), the data an optional `D`. -/
structure Reply (M D : Type) where
  success : Bool
  msg : M
  data : Option D := none
  deriving DecidableEq, Repr

end Tomato
