import Verif.World
import Verif.Ketchup
import Verif.Pipelines

/-!
# The job manager, the pipeline manager and the job process

`/repo/src/tomato/daemon/job.py` 46-352 (job manager), 355-497 (`tomato-job`),
`/repo/src/tomato/daemon/pip.py` (pipeline manager).  One pass of each manager's main loop
is one program; the daemon object is the copy obtained at the beginning of the pass.
-/

namespace Tomato

/-! ## Matching jobs to pipelines -/

/-- The inner loop of `method_validate`, job.py:63-78: does some component with the task's
role accept the task? -/
def validateTask (d : Daemon) (task : Task) : Dict String String → P Bool
  | [] => pure false
  | (crole, cname) :: rest =>
    if task.role = crole then
      match Dict.get? d.devicefile.components cname with
      | none => Prog.raise .keyError
      | some cmp => do
        match ← (Do.getDrv cmp.driver) with
        | none => Prog.raise .assertionError
        | some drv => do
          let ret ← (Do.askDriverLpp drv.port (.validate task cmp.address cmp.channel))
          if ret.success then pure true else validateTask d task rest
    else validateTask d task rest

/-- `method_validate`, job.py:46-81. -/
def methodValidate (d : Daemon) (pip : Pipeline) : List Task → P Bool
  | [] => pure true
  | t :: ts => do
    if ← validateTask d t pip.components then methodValidate d pip ts
    else pure false

/-- job.py:101-112: collect the capabilities of all components of a pipeline. -/
def collectCapabs (d : Daemon) : List String → List String → P (List String)
  | [], capabs => pure capabs
  | cname :: rest, capabs =>
    match Dict.get? d.devicefile.components cname with
    | none => Prog.raise .keyError
    | some cmp => do
      match ← (Do.getDrv cmp.driver) with
      | none => Prog.raise .assertionError
      | some drv => do
        let dret ← (Do.askDriver drv.port (.capabilities cmp.address cmp.channel))
        match dret.success, dret.data with
        | true, some caps => collectCapabs d rest (capabs ++ caps)
        | _, _ => collectCapabs d rest capabs

/-- The loop of `find_matching_pipelines`, job.py:97-115. -/
def matchLoop (d : Daemon) (method : List Task) : List Pipeline → List String → P (List String)
  | [], cands => pure cands
  | pip :: rest, cands =>
    if (method.map (·.role)).all (fun r => (Dict.keys pip.components).contains r) then do
      let capabs ← collectCapabs d (Dict.values pip.components) []
      if (method.map (·.technique)).all (fun t => capabs.contains t) then
        if ← methodValidate d pip method then
          matchLoop d method rest (cands ++ [pip.name])
        else matchLoop d method rest cands
      else matchLoop d method rest cands
    else matchLoop d method rest cands

/-- `find_matching_pipelines`, job.py:84-116. -/
def findMatching (d : Daemon) (method : List Task) : P (List String) :=
  matchLoop d method (Dict.values d.devicefile.pipelines) []

/-! ## manage_running -/

/-- The body of the loop of `manage_running`, job.py:160-208.  The branches for `job.pid is
None` (162-182) are included although the query at 159 excludes them. -/
def manageJob (job : Job) : P Unit := do
  match job.pid with
  | none =>
    if job.connectedAt.isSome then
      decideJob job false none
    else match job.launchedAt with
      | some t => do
        let now ← Do.now
        -- MAX_JOB_NOPID = timedelta(seconds=10), job.py:41
        if now - t > 10000000 then decideJob { job with status := .rd } false none
        else pure ()
      | none => pure ()
  | some pid => do
    let ex ← (Do.pidExists pid)
    if ex then
      let nz ← (Do.notZombie pid)
      decideJob job nz (some pid)
    else decideJob job false (some pid)
where
  /-- job.py:187-208 -/
  decideJob (job : Job) (pidexists : Bool) (pid : Option Nat) : P Unit :=
    if job.status = .rd then do
      match pidexists, pid with
      | true, some pid => do
        (Do.killChildren pid)
        (Do.merge job.id job.jobpath job.respath)
      | _, _ => pure ()
      finish job .cd
    else if !pidexists ∧ job.status = .r then
      finish job .ce
    else pure ()
  /-- job.py:204-208 -/
  finish (job : Job) (st : JobStatus) : P Unit := do
    let now ← Do.now
    let _ ← updateJobId job.id [.status st, .pid none, .completedAt (some now)]

/-- `manage_running`, job.py:146-208. -/
def manageRunning : P Unit := do
  let running ← (Do.jobsWhere (fun j => j.pid.isSome))
  Prog.forEach running manageJob

/-! ## check_queued, action_queued -/

/-- The loop of `check_queued`, job.py:220-230. -/
def checkLoop (d : Daemon) : List Job → Dict Nat (List String) → P (Dict Nat (List String))
  | [], matched => pure matched
  | job :: rest, matched => do
    let ms ← findMatching d job.payload.method
    if ms.length > 0 ∧ job.status = .q then
      let _ ← updateJobId job.id [.status .qw]
      checkLoop d rest (Dict.set matched job.id ms)
    else
      checkLoop d rest (Dict.set matched job.id ms)

/-- `check_queued`, job.py:211-231. -/
def checkQueued (d : Daemon) : P (Dict Nat (List String)) := do
  let queue ← (Do.jobsWhere (fun j => j.status.queued))
  checkLoop d queue []

/-- job.py:275-284: collect what is written to `jobdata.json`; `none` if one of the look-ups
`daemon.settings["repositories"]` and `daemon.devicefile.pipelines[pname]` raises `KeyError`. -/
def jobArgs (d : Daemon) (pname : String) : Option Pipeline :=
  match d.settings.repositories with
  | none => none
  | some _ => Dict.get? d.devicefile.pipelines pname

/-- The inner loop of `action_queued`, job.py:256-318: try the matched pipelines in turn.
Returns the remaining available pipelines.  The file `jobdata.json` is written between the
folder creation and the reservation (269-284); writing it has no effect visible to others, but
collecting its content may raise (`jobArgs`). -/
def assignJob (d : Daemon) (jobid : Nat) (job : Job) :
    List String → Dict String PipState → P (Dict String PipState)
  | [], avail => pure avail
  | pname :: rest, avail =>
    match Dict.get? avail pname with
    | none => assignJob d jobid job rest avail
    | some ps =>
      if !ps.ready ∨ ps.sampleid ≠ some job.payload.sample then
        assignJob d jobid job rest avail
      else do
        (Do.makeJobDir d.settings.storage jobid)
        match jobArgs d pname with
        | none => Prog.raise .keyError
        | some _ => do
          let _ ← updatePip pname [.jobid (some job.id), .ready false]
          let avail := Dict.erase avail pname
          (Do.popenJob job.id pname)
          let now ← Do.now
          let _ ← updateJobId jobid [.launchedAt (some now)]
          pure avail

/-- The outer loop of `action_queued`, job.py:254-318. -/
def actionLoop (d : Daemon) (matched : Dict Nat (List String)) :
    List Nat → Dict String PipState → P Unit
  | [], _ => pure ()
  | jobid :: rest, avail => do
    let job ← getJobId jobid
    match Dict.get? matched jobid with
    | none => Prog.raise .keyError
    | some pnames => do
      let avail ← assignJob d jobid job pnames avail
      actionLoop d matched rest avail

/-- Insertion into a sorted list. -/
def insertId (a : Nat) : List Nat → List Nat
  | [] => [a]
  | b :: bs => if a ≤ b then a :: b :: bs else b :: insertId a bs

/-- `sorted(...)` of job ids. -/
def sortIds : List Nat → List Nat
  | [] => []
  | a :: as => insertId a (sortIds as)

/-- `action_queued`, job.py:234-318. -/
def actionQueued (d : Daemon) (matched : Dict Nat (List String)) : P Unit := do
  let free ← (Do.pipsWhere (fun p => p.jobid.isNone))
  actionLoop d matched (sortIds (Dict.keys matched)) (Dict.ofList (free.map (fun p => (p.name, p))))

/-- One pass of the job manager, job.py:347-349. -/
def jobManagerPass (d : Daemon) : P Unit := do
  manageRunning
  let matched ← checkQueued d
  actionQueued d matched

/-! ## The pipeline manager -/

/-- pip.py:69-82: reset the components of a pipeline. -/
def resetComponents (d : Daemon) : List String → P Unit
  | [] => pure ()
  | cn :: rest =>
    match Dict.get? d.devicefile.components cn with
    | none => Prog.raise .keyError
    | some cmp => do
      match ← (Do.getDrv cmp.driver) with
      | none => Prog.raise .assertionError
      | some drv => do
        let _ ← (Do.askDriver drv.port (.reset cmp.address cmp.channel))
        resetComponents d rest

/-- pip.py:68-85: reset a pipeline. -/
def resetPipeline (d : Daemon) (pip : PipState) : P Unit :=
  match Dict.get? d.devicefile.pipelines pip.name with
  | none => Prog.raise .keyError
  | some pl => do
    resetComponents d (Dict.values pl.components)
    let _ ← updatePip pip.name [.jobid none, .ready false]

/-- `timedelta(MAX_JOB_NOPID)` in pip.py:58: the first positional argument of `timedelta` is
**days**, so this is 10 days (in microseconds). -/
def pipMaxNoPid : Nat := 10 * 24 * 3600 * 1000000

/-- pip.py:49-85: one pipeline with a job. -/
def managePip (d : Daemon) (pip : PipState) (jobid : Nat) : P Unit := do
  let job ← getJobId jobid
  match job.pid with
  | none =>
    if job.connectedAt.isSome then resetPipeline d pip
    else match job.launchedAt with
      | some t => do
        let now ← Do.now
        if now - t > pipMaxNoPid then resetPipeline d pip else pure ()
      | none => pure ()
  | some pid => do
    let ex ← (Do.pidExists pid)
    if ex then
      let nz ← (Do.notZombie pid)
      if nz then pure () else resetPipeline d pip
    else resetPipeline d pip

/-- One pass of the pipeline manager, pip.py:48-85. -/
def pipManagerPass (d : Daemon) : P Unit := do
  let running ← (Do.pipsWhere (fun p => p.jobid.isSome))
  Prog.forEach running (fun pip =>
    match pip.jobid with
    | none => pure ()
    | some id => managePip d pip id)

/-! ## tomato-job -/

/-- The first part of `tomato_job`, job.py:439-444: announce the process. -/
def jobConnect (jobid pid : Nat) : P Unit := do
  let now ← Do.now
  let _ ← updateJobId jobid [.pid (some pid), .status .r, .connectedAt (some now)]

/-- job.py:455-457: the result file. -/
def resPath (p : Payload) (jobid : Nat) : String :=
  let pre := match p.outPrefix with
    | none => s!"results.{jobid}"
    | some x => x
  s!"{p.outPath.getD ""}/{pre}.nc"

/-- job.py:446-463: store the paths.  The output folder (448-454) is in
`Verif/JobProc.lean`. -/
def jobPaths (jobid : Nat) (p : Payload) (jobpath : String) : P Job :=
  updateJobId jobid [.respath (some (resPath p jobid)),
    .snappath (some s!"{p.outPath.getD ""}/snapshot.{jobid}.nc"), .jobpath (some jobpath)]

/-- The last part of `tomato_job`, job.py:470-496: `ret` is the result of `job_main_loop`.
The RO-crate (478-488) is in `Verif/JobProc.lean`. -/
def jobFinish (job : Job) (pip : String) (ret : Option Nat) : P Unit := do
  let now ← Do.now
  let st : JobStatus := if ret.isNone then .c else .ce
  (Do.merge job.id job.jobpath job.respath)
  let job ← updateJobId job.id [.status st, .completedAt (some now)]
  let _ ← updatePip pip [.jobid none, .ready job.payload.unlockWhenDone]

/-- `tomato_job`, job.py:355-497, with the payload and pipeline found in `jobdata.json`.  The
main loop (job.py:467) is the argument `mainLoop`, see `Verif/JobThread.lean`. -/
def tomatoJob (jobid pid : Nat) (payload : Payload) (pip jobpath : String)
    (mainLoop : P (Option Nat)) : P Unit := do
  jobConnect jobid pid
  let job ← jobPaths jobid payload jobpath
  let ret ← mainLoop
  jobFinish job pip ret

end Tomato
