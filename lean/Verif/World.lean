import Verif.Prog
import Verif.Models

/-!
# The shared world of tomato and its atomic operations

The sqlite tables, the job folders, the process table and the driver processes as
seen by the daemon's managers, by job processes and by the command line tools.
`Op` lists the effects used by the code, `exec` gives their meaning.  One operation
is one sqlite transaction (or one operating system / zmq interaction).
-/

namespace Tomato

/-- One process of the operating system. -/
structure Proc where
  pid : Nat
  parent : Nat := 0
  zombie : Bool := false
  deriving DecidableEq, Repr

/-- A request to a driver process, as sent by the daemon's managers. -/
inductive DrvCmd where
  | capabilities (address channel : String)             -- cmp_capabilities
  | validate (task : Task) (address channel : String)   -- task_validate
  | reset (address channel : String)                    -- cmp_reset
  | status                                              -- status
  | register                                            -- register
  | stop                                                -- stop
  deriving DecidableEq, Repr

/-- The part of a driver's reply that the managers look at: `success`, and `data` as a
collection of strings (capabilities, registered components). -/
structure DrvReply where
  success : Bool
  data : Option (List String) := none
  deriving DecidableEq, Repr

/-- One launched `tomato-job` process: the job and pipeline in its `jobdata.json`. -/
structure Launch where
  jobid : Nat
  pip : String
  deriving DecidableEq, Repr

/-- The world. -/
structure World where
  /-- table `queue`, db.py:75-90 -/
  jobs : List Job := []
  /-- sqlite's AUTOINCREMENT counter of `queue`: the largest id ever used -/
  jobSeq : Nat := 0
  /-- table `pipelines`, db.py:92-99 -/
  pips : List PipState := []
  /-- table `drivers`, db.py:101-111 -/
  drvs : List DrvState := []
  /-- the job folders `storage/<jobid>` that exist -/
  jobDirs : List (String × Nat) := []
  /-- all `tomato-job` processes launched so far, oldest first (history) -/
  launches : List Launch := []
  /-- all driver processes launched so far, oldest first: driver name and time (history) -/
  spawns : List (String × Nat) := []
  /-- result files written so far, oldest first: job and path (history) -/
  merged : List (Nat × String) := []
  /-- all requests sent to drivers so far, oldest first: port and command (history) -/
  sent : List (Nat × DrvCmd) := []
  /-- process table -/
  procs : List Proc := []
  /-- wall clock, `datetime.now(utc)` [us] -/
  clock : Nat := 0
  /-- `time.perf_counter()` [ms] -/
  perf : Nat := 0
  /-- the behaviour of the drivers: the reply to a request sent to a port, `none` if there
  is none in time -/
  drv : Nat → DrvCmd → Option DrvReply := fun _ _ => none
  /-- whether some pickle of the job can not be read at the moment -/
  badPickle : Nat → Bool := fun _ => false

/-- A column of `queue` with a new value. -/
inductive JobParam where
  | payload (v : Payload)
  | jobname (v : Option String)
  | submittedAt (v : Nat)
  | pid (v : Option Nat)
  | status (v : JobStatus)
  | launchedAt (v : Option Nat)
  | connectedAt (v : Option Nat)
  | completedAt (v : Option Nat)
  | jobpath (v : Option String)
  | respath (v : Option String)
  | snappath (v : Option String)
  deriving DecidableEq, Repr

/-- `UPDATE queue SET k = v` on one row. -/
def JobParam.apply (j : Job) : JobParam → Job
  | payload v => { j with payload := v }
  | jobname v => { j with jobname := v }
  | submittedAt v => { j with submittedAt := v }
  | pid v => { j with pid := v }
  | status v => { j with status := v }
  | launchedAt v => { j with launchedAt := v }
  | connectedAt v => { j with connectedAt := v }
  | completedAt v => { j with completedAt := v }
  | jobpath v => { j with jobpath := v }
  | respath v => { j with respath := v }
  | snappath v => { j with snappath := v }

/-- A column of `pipelines` with a new value. -/
inductive PipParam where
  | ready (v : Bool)
  | jobid (v : Option Nat)
  | sampleid (v : Option String)
  deriving DecidableEq, Repr

/-- `UPDATE pipelines SET k = v` on one row. -/
def PipParam.apply (p : PipState) : PipParam → PipState
  | ready v => { p with ready := v }
  | jobid v => { p with jobid := v }
  | sampleid v => { p with sampleid := v }

/-- A column of `drivers` with a new value. -/
inductive DrvParam where
  | port (v : Option Nat)
  | pid (v : Option Nat)
  | version (v : Option String)
  | spawnTime (v : Nat)
  | spawnCount (v : Nat)
  | heartbeatTime (v : Nat)
  deriving DecidableEq, Repr

/-- `UPDATE drivers SET k = v` on one row. -/
def DrvParam.apply (d : DrvState) : DrvParam → DrvState
  | port v => { d with port := v }
  | pid v => { d with pid := v }
  | version v => { d with version := v }
  | spawnTime v => { d with spawnTime := v }
  | spawnCount v => { d with spawnCount := v }
  | heartbeatTime v => { d with heartbeatTime := v }

/-- All parameters of one `update_*` call, applied in order. -/
def applyJob (j : Job) (ps : List JobParam) : Job := ps.foldl JobParam.apply j
/-- See `applyJob`. -/
def applyPip (p : PipState) (ps : List PipParam) : PipState := ps.foldl PipParam.apply p
/-- See `applyJob`. -/
def applyDrv (d : DrvState) (ps : List DrvParam) : DrvState := ps.foldl DrvParam.apply d

/-- The atomic operations. -/
inductive Op where
  /-- jobdb.py:64-73 `get_jobs_where`; the SQL condition is a predicate on rows -/
  | jobsWhere (p : Job → Bool)
  /-- jobdb.py:56-59: the row fetched by `get_job_id` -/
  | fetchJob (id : Nat)
  /-- jobdb.py:20-38: the INSERT of `insert_job` -/
  | insertJob (j : Job)
  /-- jobdb.py:39-40: `SELECT id ... WHERE submitted_at = ...` and `fetchone()` -/
  | idBySubmitted (t : Nat)
  /-- jobdb.py:46-50: the UPDATE statements and the commit of `update_job_id` -/
  | updateJob (id : Nat) (ps : List JobParam)
  /-- pipdb.py:48-57 -/
  | pipsWhere (p : PipState → Bool)
  /-- pipdb.py:36-45 -/
  | getPip (name : String)
  /-- pipdb.py:18-23 -/
  | insertPip (p : PipState)
  /-- pipdb.py:28-32 -/
  | updatePip (name : String) (ps : List PipParam)
  /-- drvdb.py:58-67 -/
  | drvsWhere (p : DrvState → Bool)
  /-- drvdb.py:46-55 -/
  | getDrv (name : String)
  /-- drvdb.py:18-33 -/
  | insertDrv (d : DrvState)
  /-- drvdb.py:38-42 -/
  | updateDrv (name : String) (ps : List DrvParam)
  /-- drvdb.py:70-75 `del_drv`: the DELETE statement has no placeholder but is given one
  binding, so sqlite3 raises `ProgrammingError` -/
  | delDrv (name : String)
  /-- job.py:265-266 `os.makedirs(root)` with `root = storage/<jobid>` -/
  | makeJobDir (storage : String) (id : Nat)
  /-- job.py:301-306 `subprocess.Popen(["tomato-job", ..., jpath])` -/
  | popenJob (jobid : Nat) (pip : String)
  /-- driver.py:411-416 `subprocess.Popen(["tomato-driver", ..., name])` -/
  | popenDriver (name : String)
  /-- `psutil.pid_exists(pid)` -/
  | pidExists (pid : Nat)
  /-- `psutil.Process(pid).status() is not STATUS_ZOMBIE` -/
  | notZombie (pid : Nat)
  /-- job.py:119-143 `kill_tomato_job(psutil.Process(pid))` on POSIX: terminate the children -/
  | killChildren (pid : Nat)
  /-- io.py:21-48 `merge_netcdfs(job)`; `path` is `job.respath` or the snapshot path -/
  | merge (jobid : Nat) (jobpath path : Option String)
  /-- a zmq REQ/REP exchange with a driver without timeout; see `exec` -/
  | askDriver (port : Option Nat) (cmd : DrvCmd)
  /-- a zmq exchange with a driver through `lpp.comm` (see `Verif/Lpp.lean`): answers a
  failure reply when there is no answer in time -/
  | askDriverLpp (port : Option Nat) (cmd : DrvCmd)
  /-- a zmq exchange with `RCVTIMEO` set: raises `zmq.error.Again` when there is no answer -/
  | askDriverTimeout (port : Option Nat) (cmd : DrvCmd)
  /-- `datetime.now(timezone.utc)` -/
  | now
  /-- `time.perf_counter()` -/
  | perfCounter

/-- The answers. -/
@[reducible] def Resp : Op → Type
  | .jobsWhere _ => List Job
  | .fetchJob _ => Option Job
  | .insertJob _ => Unit
  | .idBySubmitted _ => Nat
  | .updateJob _ _ => Unit
  | .pipsWhere _ => List PipState
  | .getPip _ => Option PipState
  | .insertPip _ => Unit
  | .updatePip _ _ => Unit
  | .drvsWhere _ => List DrvState
  | .getDrv _ => Option DrvState
  | .insertDrv _ => Unit
  | .updateDrv _ _ => Unit
  | .delDrv _ => Unit
  | .makeJobDir _ _ => Unit
  | .popenJob _ _ => Unit
  | .popenDriver _ => Unit
  | .pidExists _ => Bool
  | .notZombie _ => Bool
  | .killChildren _ => Unit
  | .merge _ _ _ => Unit
  | .askDriver _ _ => DrvReply
  | .askDriverLpp _ _ => DrvReply
  | .askDriverTimeout _ _ => DrvReply
  | .now => Nat
  | .perfCounter => Nat

/-- The signature of the daemon-side programs. -/
@[reducible] def DB : Sig := ⟨Op, Resp⟩

/-- Programs over the shared world. -/
abbrev P (α : Type) := Prog DB α

/-- Perform an operation. -/
abbrev ask (o : Op) : P (Resp o) := Prog.call (S := DB) o

namespace World

/-- The row of a job. -/
def job? (w : World) (id : Nat) : Option Job := w.jobs.find? (fun j => j.id == id)
/-- The row of a pipeline. -/
def pip? (w : World) (name : String) : Option PipState := w.pips.find? (fun p => p.name == name)
/-- The row of a driver. -/
def drv? (w : World) (name : String) : Option DrvState := w.drvs.find? (fun d => d.name == name)

/-- Is there a process with this pid (zombies included)? -/
def hasPid (w : World) (pid : Nat) : Bool := w.procs.any (fun p => p.pid == pid)
/-- Is there a live, non-zombie process with this pid? -/
def alive (w : World) (pid : Nat) : Bool := w.procs.any (fun p => p.pid == pid && !p.zombie)

end World

/-- Record a request to a driver. -/
def World.logSent (w : World) (port : Nat) (c : DrvCmd) : World :=
  { w with sent := w.sent ++ [(port, c)] }

/-- The meaning of the operations.

Simplifications: SQL conditions are predicates; table and row order is insertion order;
a request on a blocking socket that is never answered blocks the program for ever, which in
the interleaved semantics is a program that is never scheduled again -- here `exec` answers
`systemExit` for it so that `run` stays total (in `run`-theorems this outcome means "does
not return").  Connecting to `tcp://127.0.0.1:None` raises `ZMQError` (libzmq rejects a
port that is not a number). -/
def exec : (o : Op) → World → Except PyErr (Resp o) × World
  | .jobsWhere p, w => (.ok (w.jobs.filter p), w)
  | .fetchJob id, w => (.ok (w.job? id), w)
  | .insertJob j, w =>
      (.ok (), { w with jobs := w.jobs ++ [{ j with id := w.jobSeq + 1 }],
                        jobSeq := w.jobSeq + 1 })
  | .idBySubmitted t, w =>
      match w.jobs.find? (fun j => j.submittedAt == t) with
      | some j => (.ok j.id, w)
      | none => (.error .typeError, w)
  | .updateJob id ps, w =>
      (.ok (), { w with jobs := w.jobs.map (fun j => if j.id = id then applyJob j ps else j) })
  | .pipsWhere p, w => (.ok (w.pips.filter p), w)
  | .getPip n, w => (.ok (w.pip? n), w)
  | .insertPip p, w =>
      if (w.pip? p.name).isSome then (.error .integrityError, w)
      else (.ok (), { w with pips := w.pips ++ [p] })
  | .updatePip n ps, w =>
      (.ok (), { w with pips := w.pips.map (fun p => if p.name = n then applyPip p ps else p) })
  | .drvsWhere p, w => (.ok (w.drvs.filter p), w)
  | .getDrv n, w => (.ok (w.drv? n), w)
  | .insertDrv d, w =>
      if (w.drv? d.name).isSome then (.error .integrityError, w)
      else (.ok (), { w with drvs := w.drvs ++ [d] })
  | .updateDrv n ps, w =>
      (.ok (), { w with drvs := w.drvs.map (fun d => if d.name = n then applyDrv d ps else d) })
  | .delDrv _, w => (.error .programmingError, w)
  | .makeJobDir st id, w =>
      if (st, id) ∈ w.jobDirs then (.error .fileExistsError, w)
      else (.ok (), { w with jobDirs := (st, id) :: w.jobDirs })
  | .popenJob id pip, w => (.ok (), { w with launches := w.launches ++ [⟨id, pip⟩] })
  | .popenDriver n, w => (.ok (), { w with spawns := w.spawns ++ [(n, w.perf)] })
  | .pidExists pid, w => (.ok (w.hasPid pid), w)
  | .notZombie pid, w =>
      if w.hasPid pid then (.ok (w.alive pid), w) else (.error .noSuchProcess, w)
  | .killChildren pid, w =>
      if w.hasPid pid then
        (.ok (), { w with procs := w.procs.filter (fun p => !(p.parent == pid)) })
      else (.error .noSuchProcess, w)
  | .merge id jobpath path, w =>
      if jobpath.isNone then (.error .assertionError, w)
      else if w.badPickle id then (.error .eofError, w)
      else match path with
        | none => (.error .assertionError, w)
        | some p => (.ok (), { w with merged := w.merged ++ [(id, p)] })
  | .askDriver none _, w => (.error .zmqError, w)
  | .askDriver (some port) c, w =>
      match w.drv port c with
      | some r => (.ok r, w.logSent port c)
      | none => (.error .systemExit, w.logSent port c)
  | .askDriverLpp none _, w => (.error .zmqError, w)
  | .askDriverLpp (some port) c, w =>
      (.ok ((w.drv port c).getD { success := false }), w.logSent port c)
  | .askDriverTimeout none _, w => (.error .zmqError, w)
  | .askDriverTimeout (some port) c, w =>
      match w.drv port c with
      | some r => (.ok r, w.logSent port c)
      | none => (.error .zmqAgain, w.logSent port c)
  | .now, w => (.ok w.clock, w)
  | .perfCounter, w => (.ok w.perf, w)

/-- Execute a program alone. -/
abbrev runW {α : Type} (p : P α) (w : World) : Except PyErr α × World :=
  Prog.run (S := DB) exec p w

/-! ## The operations as programs, and what they do when run alone -/

/-- See `Op.jobsWhere`. -/
def Do.jobsWhere (p : Job → Bool) : P (List Job) := ask (.jobsWhere p)
/-- See `Op.fetchJob`. -/
def Do.fetchJob (id : Nat) : P (Option Job) := ask (.fetchJob id)
/-- See `Op.insertJob`. -/
def Do.insertJob (j : Job) : P Unit := ask (.insertJob j)
/-- See `Op.idBySubmitted`. -/
def Do.idBySubmitted (t : Nat) : P Nat := ask (.idBySubmitted t)
/-- See `Op.updateJob`. -/
def Do.updateJob (id : Nat) (ps : List JobParam) : P Unit := ask (.updateJob id ps)
/-- See `Op.pipsWhere`. -/
def Do.pipsWhere (p : PipState → Bool) : P (List PipState) := ask (.pipsWhere p)
/-- See `Op.getPip`. -/
def Do.getPip (name : String) : P (Option PipState) := ask (.getPip name)
/-- See `Op.insertPip`. -/
def Do.insertPip (p : PipState) : P Unit := ask (.insertPip p)
/-- See `Op.updatePip`. -/
def Do.updatePip (name : String) (ps : List PipParam) : P Unit := ask (.updatePip name ps)
/-- See `Op.drvsWhere`. -/
def Do.drvsWhere (p : DrvState → Bool) : P (List DrvState) := ask (.drvsWhere p)
/-- See `Op.getDrv`. -/
def Do.getDrv (name : String) : P (Option DrvState) := ask (.getDrv name)
/-- See `Op.insertDrv`. -/
def Do.insertDrv (d : DrvState) : P Unit := ask (.insertDrv d)
/-- See `Op.updateDrv`. -/
def Do.updateDrv (name : String) (ps : List DrvParam) : P Unit := ask (.updateDrv name ps)
/-- See `Op.delDrv`. -/
def Do.delDrv (name : String) : P Unit := ask (.delDrv name)
/-- See `Op.makeJobDir`. -/
def Do.makeJobDir (storage : String) (id : Nat) : P Unit := ask (.makeJobDir storage id)
/-- See `Op.popenJob`. -/
def Do.popenJob (jobid : Nat) (pip : String) : P Unit := ask (.popenJob jobid pip)
/-- See `Op.popenDriver`. -/
def Do.popenDriver (name : String) : P Unit := ask (.popenDriver name)
/-- See `Op.pidExists`. -/
def Do.pidExists (pid : Nat) : P Bool := ask (.pidExists pid)
/-- See `Op.notZombie`. -/
def Do.notZombie (pid : Nat) : P Bool := ask (.notZombie pid)
/-- See `Op.killChildren`. -/
def Do.killChildren (pid : Nat) : P Unit := ask (.killChildren pid)
/-- See `Op.merge`. -/
def Do.merge (jobid : Nat) (jobpath path : Option String) : P Unit := ask (.merge jobid jobpath path)
/-- See `Op.askDriver`. -/
def Do.askDriver (port : Option Nat) (cmd : DrvCmd) : P DrvReply := ask (.askDriver port cmd)
/-- See `Op.askDriverLpp`. -/
def Do.askDriverLpp (port : Option Nat) (cmd : DrvCmd) : P DrvReply := ask (.askDriverLpp port cmd)
/-- See `Op.askDriverTimeout`. -/
def Do.askDriverTimeout (port : Option Nat) (cmd : DrvCmd) : P DrvReply := ask (.askDriverTimeout port cmd)
/-- See `Op.now`. -/
def Do.now : P Nat := ask .now
/-- See `Op.perfCounter`. -/
def Do.perfCounter : P Nat := ask .perfCounter

@[simp] theorem Do.run_jobsWhere (p : Job → Bool) (w : World) :
    Prog.run exec (Do.jobsWhere p) w = exec (Op.jobsWhere p) w := Prog.run_call (S := DB) _ w
@[simp] theorem Do.only_jobsWhere {Q : Op → Prop} (p : Job → Bool):
    Prog.Only (S := DB) Q (Do.jobsWhere p) ↔ Q (Op.jobsWhere p) := Prog.only_call (S := DB) _
@[simp] theorem Do.run_fetchJob (id : Nat) (w : World) :
    Prog.run exec (Do.fetchJob id) w = exec (Op.fetchJob id) w := Prog.run_call (S := DB) _ w
@[simp] theorem Do.only_fetchJob {Q : Op → Prop} (id : Nat):
    Prog.Only (S := DB) Q (Do.fetchJob id) ↔ Q (Op.fetchJob id) := Prog.only_call (S := DB) _
@[simp] theorem Do.run_insertJob (j : Job) (w : World) :
    Prog.run exec (Do.insertJob j) w = exec (Op.insertJob j) w := Prog.run_call (S := DB) _ w
@[simp] theorem Do.only_insertJob {Q : Op → Prop} (j : Job):
    Prog.Only (S := DB) Q (Do.insertJob j) ↔ Q (Op.insertJob j) := Prog.only_call (S := DB) _
@[simp] theorem Do.run_idBySubmitted (t : Nat) (w : World) :
    Prog.run exec (Do.idBySubmitted t) w = exec (Op.idBySubmitted t) w := Prog.run_call (S := DB) _ w
@[simp] theorem Do.only_idBySubmitted {Q : Op → Prop} (t : Nat):
    Prog.Only (S := DB) Q (Do.idBySubmitted t) ↔ Q (Op.idBySubmitted t) := Prog.only_call (S := DB) _
@[simp] theorem Do.run_updateJob (id : Nat) (ps : List JobParam) (w : World) :
    Prog.run exec (Do.updateJob id ps) w = exec (Op.updateJob id ps) w := Prog.run_call (S := DB) _ w
@[simp] theorem Do.only_updateJob {Q : Op → Prop} (id : Nat) (ps : List JobParam):
    Prog.Only (S := DB) Q (Do.updateJob id ps) ↔ Q (Op.updateJob id ps) := Prog.only_call (S := DB) _
@[simp] theorem Do.run_pipsWhere (p : PipState → Bool) (w : World) :
    Prog.run exec (Do.pipsWhere p) w = exec (Op.pipsWhere p) w := Prog.run_call (S := DB) _ w
@[simp] theorem Do.only_pipsWhere {Q : Op → Prop} (p : PipState → Bool):
    Prog.Only (S := DB) Q (Do.pipsWhere p) ↔ Q (Op.pipsWhere p) := Prog.only_call (S := DB) _
@[simp] theorem Do.run_getPip (name : String) (w : World) :
    Prog.run exec (Do.getPip name) w = exec (Op.getPip name) w := Prog.run_call (S := DB) _ w
@[simp] theorem Do.only_getPip {Q : Op → Prop} (name : String):
    Prog.Only (S := DB) Q (Do.getPip name) ↔ Q (Op.getPip name) := Prog.only_call (S := DB) _
@[simp] theorem Do.run_insertPip (p : PipState) (w : World) :
    Prog.run exec (Do.insertPip p) w = exec (Op.insertPip p) w := Prog.run_call (S := DB) _ w
@[simp] theorem Do.only_insertPip {Q : Op → Prop} (p : PipState):
    Prog.Only (S := DB) Q (Do.insertPip p) ↔ Q (Op.insertPip p) := Prog.only_call (S := DB) _
@[simp] theorem Do.run_updatePip (name : String) (ps : List PipParam) (w : World) :
    Prog.run exec (Do.updatePip name ps) w = exec (Op.updatePip name ps) w := Prog.run_call (S := DB) _ w
@[simp] theorem Do.only_updatePip {Q : Op → Prop} (name : String) (ps : List PipParam):
    Prog.Only (S := DB) Q (Do.updatePip name ps) ↔ Q (Op.updatePip name ps) := Prog.only_call (S := DB) _
@[simp] theorem Do.run_drvsWhere (p : DrvState → Bool) (w : World) :
    Prog.run exec (Do.drvsWhere p) w = exec (Op.drvsWhere p) w := Prog.run_call (S := DB) _ w
@[simp] theorem Do.only_drvsWhere {Q : Op → Prop} (p : DrvState → Bool):
    Prog.Only (S := DB) Q (Do.drvsWhere p) ↔ Q (Op.drvsWhere p) := Prog.only_call (S := DB) _
@[simp] theorem Do.run_getDrv (name : String) (w : World) :
    Prog.run exec (Do.getDrv name) w = exec (Op.getDrv name) w := Prog.run_call (S := DB) _ w
@[simp] theorem Do.only_getDrv {Q : Op → Prop} (name : String):
    Prog.Only (S := DB) Q (Do.getDrv name) ↔ Q (Op.getDrv name) := Prog.only_call (S := DB) _
@[simp] theorem Do.run_insertDrv (d : DrvState) (w : World) :
    Prog.run exec (Do.insertDrv d) w = exec (Op.insertDrv d) w := Prog.run_call (S := DB) _ w
@[simp] theorem Do.only_insertDrv {Q : Op → Prop} (d : DrvState):
    Prog.Only (S := DB) Q (Do.insertDrv d) ↔ Q (Op.insertDrv d) := Prog.only_call (S := DB) _
@[simp] theorem Do.run_updateDrv (name : String) (ps : List DrvParam) (w : World) :
    Prog.run exec (Do.updateDrv name ps) w = exec (Op.updateDrv name ps) w := Prog.run_call (S := DB) _ w
@[simp] theorem Do.only_updateDrv {Q : Op → Prop} (name : String) (ps : List DrvParam):
    Prog.Only (S := DB) Q (Do.updateDrv name ps) ↔ Q (Op.updateDrv name ps) := Prog.only_call (S := DB) _
@[simp] theorem Do.run_delDrv (name : String) (w : World) :
    Prog.run exec (Do.delDrv name) w = exec (Op.delDrv name) w := Prog.run_call (S := DB) _ w
@[simp] theorem Do.only_delDrv {Q : Op → Prop} (name : String):
    Prog.Only (S := DB) Q (Do.delDrv name) ↔ Q (Op.delDrv name) := Prog.only_call (S := DB) _
@[simp] theorem Do.run_makeJobDir (storage : String) (id : Nat) (w : World) :
    Prog.run exec (Do.makeJobDir storage id) w = exec (Op.makeJobDir storage id) w := Prog.run_call (S := DB) _ w
@[simp] theorem Do.only_makeJobDir {Q : Op → Prop} (storage : String) (id : Nat):
    Prog.Only (S := DB) Q (Do.makeJobDir storage id) ↔ Q (Op.makeJobDir storage id) := Prog.only_call (S := DB) _
@[simp] theorem Do.run_popenJob (jobid : Nat) (pip : String) (w : World) :
    Prog.run exec (Do.popenJob jobid pip) w = exec (Op.popenJob jobid pip) w := Prog.run_call (S := DB) _ w
@[simp] theorem Do.only_popenJob {Q : Op → Prop} (jobid : Nat) (pip : String):
    Prog.Only (S := DB) Q (Do.popenJob jobid pip) ↔ Q (Op.popenJob jobid pip) := Prog.only_call (S := DB) _
@[simp] theorem Do.run_popenDriver (name : String) (w : World) :
    Prog.run exec (Do.popenDriver name) w = exec (Op.popenDriver name) w := Prog.run_call (S := DB) _ w
@[simp] theorem Do.only_popenDriver {Q : Op → Prop} (name : String):
    Prog.Only (S := DB) Q (Do.popenDriver name) ↔ Q (Op.popenDriver name) := Prog.only_call (S := DB) _
@[simp] theorem Do.run_pidExists (pid : Nat) (w : World) :
    Prog.run exec (Do.pidExists pid) w = exec (Op.pidExists pid) w := Prog.run_call (S := DB) _ w
@[simp] theorem Do.only_pidExists {Q : Op → Prop} (pid : Nat):
    Prog.Only (S := DB) Q (Do.pidExists pid) ↔ Q (Op.pidExists pid) := Prog.only_call (S := DB) _
@[simp] theorem Do.run_notZombie (pid : Nat) (w : World) :
    Prog.run exec (Do.notZombie pid) w = exec (Op.notZombie pid) w := Prog.run_call (S := DB) _ w
@[simp] theorem Do.only_notZombie {Q : Op → Prop} (pid : Nat):
    Prog.Only (S := DB) Q (Do.notZombie pid) ↔ Q (Op.notZombie pid) := Prog.only_call (S := DB) _
@[simp] theorem Do.run_killChildren (pid : Nat) (w : World) :
    Prog.run exec (Do.killChildren pid) w = exec (Op.killChildren pid) w := Prog.run_call (S := DB) _ w
@[simp] theorem Do.only_killChildren {Q : Op → Prop} (pid : Nat):
    Prog.Only (S := DB) Q (Do.killChildren pid) ↔ Q (Op.killChildren pid) := Prog.only_call (S := DB) _
@[simp] theorem Do.run_merge (jobid : Nat) (jobpath path : Option String) (w : World) :
    Prog.run exec (Do.merge jobid jobpath path) w = exec (Op.merge jobid jobpath path) w := Prog.run_call (S := DB) _ w
@[simp] theorem Do.only_merge {Q : Op → Prop} (jobid : Nat) (jobpath path : Option String):
    Prog.Only (S := DB) Q (Do.merge jobid jobpath path) ↔ Q (Op.merge jobid jobpath path) := Prog.only_call (S := DB) _
@[simp] theorem Do.run_askDriver (port : Option Nat) (cmd : DrvCmd) (w : World) :
    Prog.run exec (Do.askDriver port cmd) w = exec (Op.askDriver port cmd) w := Prog.run_call (S := DB) _ w
@[simp] theorem Do.only_askDriver {Q : Op → Prop} (port : Option Nat) (cmd : DrvCmd):
    Prog.Only (S := DB) Q (Do.askDriver port cmd) ↔ Q (Op.askDriver port cmd) := Prog.only_call (S := DB) _
@[simp] theorem Do.run_askDriverLpp (port : Option Nat) (cmd : DrvCmd) (w : World) :
    Prog.run exec (Do.askDriverLpp port cmd) w = exec (Op.askDriverLpp port cmd) w := Prog.run_call (S := DB) _ w
@[simp] theorem Do.only_askDriverLpp {Q : Op → Prop} (port : Option Nat) (cmd : DrvCmd):
    Prog.Only (S := DB) Q (Do.askDriverLpp port cmd) ↔ Q (Op.askDriverLpp port cmd) := Prog.only_call (S := DB) _
@[simp] theorem Do.run_askDriverTimeout (port : Option Nat) (cmd : DrvCmd) (w : World) :
    Prog.run exec (Do.askDriverTimeout port cmd) w = exec (Op.askDriverTimeout port cmd) w := Prog.run_call (S := DB) _ w
@[simp] theorem Do.only_askDriverTimeout {Q : Op → Prop} (port : Option Nat) (cmd : DrvCmd):
    Prog.Only (S := DB) Q (Do.askDriverTimeout port cmd) ↔ Q (Op.askDriverTimeout port cmd) := Prog.only_call (S := DB) _
@[simp] theorem Do.run_now (w : World) :
    Prog.run exec (Do.now) w = exec (Op.now) w := Prog.run_call (S := DB) _ w
@[simp] theorem Do.only_now {Q : Op → Prop} :
    Prog.Only (S := DB) Q (Do.now) ↔ Q (Op.now) := Prog.only_call (S := DB) _
@[simp] theorem Do.run_perfCounter (w : World) :
    Prog.run exec (Do.perfCounter) w = exec (Op.perfCounter) w := Prog.run_call (S := DB) _ w
@[simp] theorem Do.only_perfCounter {Q : Op → Prop} :
    Prog.Only (S := DB) Q (Do.perfCounter) ↔ Q (Op.perfCounter) := Prog.only_call (S := DB) _

end Tomato
