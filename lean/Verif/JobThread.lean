import Verif.Prog
import Verif.Models

/-!
# The inner life of `tomato-job`

`job_main_loop` and `job_thread`, `/repo/src/tomato/daemon/job.py:500-829`, and `data_to_pickle`,
`/repo/src/tomato/daemon/io.py:51-66`.

A job has one thread per role (`Thr`), which talks to one component and stores its data in one
file; the main thread (`MPc`) looks at the threads about once a second.  Everything the threads
cannot know in advance is chosen by the environment at every step (`Choice`): the reply of the
driver, whether the time is up.  One step of the system is one step of one thread; every step adds
one event to the history.  That the process may be killed at any moment is expressed by the fact
that a history may end anywhere.

Simplifications: a request (`lpp.comm`) is one message and one answer, see `Verif/Lpp.lean`; replies
have the type that the caller expects; data are lists of points and `xr.concat` appends them; an
incompletely written file is `File.broken`; log messages are left out; sleeping is not a step.  For
snapshots see `Verif/JobSnap.lean`, for the waiting at the beginning `Verif/JobStart.lean`.
-/

namespace Tomato.JobT

/-- The data of a reply to `task_status`.  `task = none`: there is no such key. -/
structure SD where
  running : Bool
  canSubmit : Bool
  task : Option (Option Task)
  deriving DecidableEq, Repr

/-- The result of `lpp.comm`: the connection was closed after too many attempts, or a `Reply` with
its data, which are a status for `task_status` and data points for `task_data` and `task_stop`. -/
inductive Ans where
  | closed
  | reply (ok : Bool) (st : Option SD) (ps : Option (List Nat))
  deriving DecidableEq, Repr

/-- The requests of a thread. -/
inductive Q where
  /-- `task_status` before submitting, job.py:556-572 -/
  | ready
  /-- `task_start`, job.py:574-581 -/
  | start
  /-- `task_status` after submitting, job.py:583-623 -/
  | running
  /-- `task_data` in the main loop, job.py:632-645 -/
  | data
  /-- `task_status` in the main loop, job.py:647-669 -/
  | status
  /-- `task_stop`, job.py:671-688 -/
  | stop
  /-- `task_data` after the main loop, job.py:692-704 -/
  | final
  /-- `cmp_reset`, job.py:709-713 -/
  | reset
  deriving DecidableEq, Repr

/-- Where to go after data have been stored. -/
inductive Nxt where
  | status | final | append
  deriving DecidableEq, Repr

/-- Where a thread is. -/
inductive Pc where
  /-- top of the loop over tasks, job.py:536-541 -/
  | cur
  /-- waiting for `start_with_task_name`, job.py:543-554 -/
  | hold
  /-- about to send a request -/
  | ask (q : Q)
  /-- waiting for the answer -/
  | wait (q : Q)
  /-- top of the main task loop, job.py:627-631 -/
  | due
  /-- looking at `stop_with_task_name`, job.py:672-675 -/
  | trigger
  /-- `data_to_pickle`, reading old data, io.py:57-63 -/
  | load (ps : List Nat) (n : Nxt)
  /-- `data_to_pickle`, about to open the file for writing, io.py:65 -/
  | trunc (ps : List Nat) (n : Nxt)
  /-- `data_to_pickle`, about to write, io.py:66 -/
  | dump (ps : List Nat) (n : Nxt)
  /-- job.py:705-706 -/
  | append
  /-- job.py:707 -/
  | unset
  /-- `setattr(thread, "crashed", True)`, followed by `sys.exit()` -/
  | crash
  /-- the thread has ended: after its last statement, by `sys.exit`, by an exception -/
  | fin
  | exited
  | dead
  deriving DecidableEq, Repr

/-- The file of intermediate data. -/
inductive File where
  | absent
  /-- truncated or incompletely written -/
  | broken
  | data (ps : List Nat)
  deriving DecidableEq, Repr

/-- What can be read from the file. -/
def File.content : File → List Nat
  | .data ps => ps
  | _ => []

/-- A thread of the job; `i` is the index of its current task. -/
structure Thr where
  tasks : List Task
  i : Nat := 0
  pc : Pc := .cur
  /-- `current_task` -/
  current : Option Task := none
  /-- `started_task_names` -/
  names : List String := []
  /-- `completed_tasks` is `None` -/
  noList : Bool := false
  crashed : Bool := false
  file : File := .absent
  deriving DecidableEq, Repr

/-- `is_alive()`. -/
def Thr.alive (t : Thr) : Bool :=
  match t.pc with
  | .fin => false
  | .exited => false
  | .dead => false
  | _ => true

/-- Events of a thread. -/
inductive Ev where
  | tau
  /-- the task has become the current task of the thread -/
  | current (i : Nat)
  /-- a request was sent -/
  | sent (i : Nat) (q : Q)
  /-- the answer; `late`: more than `MAX_TASK_WAIT` seconds after submitting -/
  | got (i : Nat) (q : Q) (a : Ans) (late : Bool)
  /-- the thread has finished the task -/
  | completed (i : Nat)
  | crashed
  /-- an uncaught exception -/
  | died
  deriving DecidableEq, Repr

/-- What the environment decides. -/
structure Choice where
  ans : Ans := .closed
  late : Bool := false
  due : Bool := false
  deriving DecidableEq, Repr

/-- `"task" in ret.data and ret.data["task"] != task`. -/
def SD.wrong (sd : SD) (t : Option Task) : Bool :=
  match sd.task with
  | none => false
  | some x => decide (x ≠ t)

/-- Does the reply in the waiting loop say that the right task is running?  job.py:591-617. -/
def isRunning (t : Option Task) (ok : Bool) (st : Option SD) : Bool :=
  match st with
  | none => false
  | some sd => ok && sd.running && !sd.wrong t

/-- Does the reply in the main loop end it?  job.py:654-669. -/
def isOver (t : Option Task) (ok : Bool) (st : Option SD) : Bool :=
  match st with
  | none => !ok
  | some sd => !ok || !sd.running || sd.wrong t

/-- Store data, or go on. -/
def store (ok : Bool) (ps : Option (List Nat)) (n : Nxt) (other : Pc) : Pc :=
  match ps with
  | none => other
  | some ps => if ok then .load ps n else other

/-- What the thread does with an answer. -/
def next (t : Option Task) (q : Q) (a : Ans) (late : Bool) : Pc :=
  match a with
  | .closed => .crash
  | .reply ok st ps =>
    match q with
    | .ready =>
      match st with
      | none => .ask .ready
      | some sd => if ok && sd.canSubmit then .ask .start else .ask .ready
    | .start => .ask .running
    | .running => if isRunning t ok st then .due else if late then .crash else .ask .running
    | .data => store ok ps .status (.ask .status)
    | .status => if isOver t ok st then .ask .final else .trigger
    | .stop => store ok ps .final (.ask .final)
    | .final => store ok ps .append .append
    | .reset => .fin

/-- Where to go after storing. -/
def Nxt.pc : Nxt → Pc
  | .status => .ask .status
  | .final => .ask .final
  | .append => .append

/-- `name is None or name in started_task_names`, job.py:545-548. -/
def met (name : Option String) (names : List String) : Bool :=
  match name with
  | none => true
  | some n => names.contains n

/-- `name is not None and name in started_task_names`, job.py:672-675. -/
def hit (name : Option String) (names : List String) : Bool :=
  match name with
  | none => false
  | some n => names.contains n

/-- One step of a thread, job.py:536-713. -/
def tstep (t : Thr) (c : Choice) : Option (Thr × Ev) :=
  match t.pc with
  | .cur =>
    match t.tasks[t.i]? with
    | none => some ({ t with pc := .ask .reset }, .tau)
    | some k => some ({ t with current := some k, pc := .hold }, .current t.i)
  | .hold =>
    if met (t.tasks[t.i]?.bind (·.startWith)) t.names then some ({ t with pc := .ask .ready }, .tau)
    else some (t, .tau)
  | .ask q => some ({ t with pc := .wait q }, .sent t.i q)
  | .wait q => some ({ t with pc := next t.tasks[t.i]? q c.ans c.late }, .got t.i q c.ans c.late)
  | .due => some ({ t with pc := if c.due then .ask .data else .ask .status }, .tau)
  | .trigger =>
    if hit (t.tasks[t.i]?.bind (·.stopWith)) t.names then some ({ t with pc := .ask .stop }, .tau)
    else some ({ t with pc := .due }, .tau)
  | .load ps n =>
    match t.file with
    | .broken => some ({ t with pc := .dead }, .died)
    | f => some ({ t with pc := .trunc (f.content ++ ps) n }, .tau)
  | .trunc ps n => some ({ t with file := .broken, pc := .dump ps n }, .tau)
  | .dump ps n => some ({ t with file := .data ps, pc := n.pc }, .tau)
  | .append =>
    if t.noList then some ({ t with pc := .dead }, .died)
    else some ({ t with noList := true, pc := .unset }, .completed t.i)
  | .unset => some ({ t with current := none, i := t.i + 1, pc := .cur }, .tau)
  | .crash => some ({ t with crashed := true, pc := .exited }, .crashed)
  | .fin => none
  | .exited => none
  | .dead => none

/-! ## The main loop -/

/-- Where the main thread is, job.py:786-829. -/
inductive MPc where
  /-- collecting the name of the current task of thread `k`, 794-797 -/
  | collect (k : Nat)
  /-- pushing the names to thread `k`, 798-801 -/
  | push (k : Nat)
  /-- reading `crashed` of thread `k`, 802 -/
  | crash (k : Nat) (any : Bool)
  /-- reading whether thread `k` has joined, 803-806 -/
  | join (k : Nat) (any all : Bool)
  /-- the loop has ended; the result is 1 iff `crashed` -/
  | done (crashed : Bool)
  deriving DecidableEq, Repr

/-- The job process. -/
structure Jb where
  thrs : List Thr
  /-- `started_task_names` of the main thread -/
  started : List String := []
  main : MPc := .collect 0
  deriving DecidableEq, Repr

/-- Events of the job. -/
inductive JEv where
  | tau
  | thr (k : Nat) (e : Ev)
  /-- the main thread has seen the name of a current task -/
  | saw (n : String)
  /-- the main thread has told thread `k` -/
  | pushed (k : Nat)
  /-- the main loop has ended -/
  | ended (crashed : Bool)
  deriving DecidableEq, Repr

/-- `joined`, job.py:803-806. -/
def Thr.joined (t : Thr) : Bool := !t.alive || t.crashed

/-- One step of the main thread, job.py:786-829. -/
def mstep (s : Jb) : Option (Jb × JEv) :=
  match s.main with
  | .collect k =>
    match s.thrs[k]? with
    | none => some ({ s with main := .push 0 }, .tau)
    | some t =>
      match t.current.bind (·.taskName) with
      | none => some ({ s with main := .collect (k + 1) }, .tau)
      | some n => some ({ s with started := n :: s.started, main := .collect (k + 1) }, .saw n)
  | .push k =>
    match s.thrs[k]? with
    | none => some ({ s with main := .crash 0 false }, .tau)
    | some t => some ({ s with thrs := s.thrs.set k { t with names := s.started ++ t.names },
                               main := .push (k + 1) }, .pushed k)
  | .crash k any =>
    match s.thrs[k]? with
    | none => some ({ s with main := .join 0 any true }, .tau)
    | some t => some ({ s with main := .crash (k + 1) (any || t.crashed) }, .tau)
  | .join k any all =>
    match s.thrs[k]? with
    | none =>
      if all then some ({ s with main := .done any }, .ended any)
      else some ({ s with main := .collect 0 }, .tau)
    | some t => some ({ s with main := .join (k + 1) any (all && t.joined) }, .tau)
  | .done _ => none

inductive Act where
  | thr (k : Nat) (c : Choice)
  | main
  deriving DecidableEq, Repr

/-- One step of the job. -/
def act (s : Jb) : Act → Option (Jb × JEv)
  | .thr k c =>
    match s.thrs[k]? with
    | none => none
    | some t =>
      match tstep t c with
      | none => none
      | some (t', e) => some ({ s with thrs := s.thrs.set k t' }, .thr k e)
  | .main => mstep s

/-- The history `h` leads from `s₀` to `s`. -/
inductive Hist (s₀ : Jb) : List JEv → Jb → Prop where
  | init : Hist s₀ [] s₀
  | step {h : List JEv} {s s' : Jb} {e : JEv} (a : Act) :
      Hist s₀ h s → act s a = some (s', e) → Hist s₀ (h ++ [e]) s'

/-- A run, with its history. -/
def run (s : Jb) : List Act → Option (Jb × List JEv)
  | [] => some (s, [])
  | a :: as =>
    match act s a with
    | none => none
    | some (s', e) =>
      match run s' as with
      | none => none
      | some (s'', es) => some (s'', e :: es)

/-! ## Handing out the tasks -/

/-- The plan, job.py:744-750: tasks by role. -/
def plan (method : List Task) : Dict String (List Task) :=
  method.foldl (fun d t => d.set t.role ((d.get? t.role).getD [] ++ [t])) []

/-- What is needed to start a thread, job.py:752-783: the component, its device, its driver. -/
structure Start where
  role : String
  cmp : Component
  tasks : List Task
  device : Device
  port : Option Nat
  deriving DecidableEq, Repr

/-- The threads, job.py:752-783.  `getDrv`: rows of the driver table.  On an exception, the threads
that were started before keep running: they are returned, too. -/
def threads (df : DeviceFile) (getDrv : String → Option DrvState) (plan : Dict String (List Task)) :
    List (String × String) → List Start × Option PyErr
  | [] => ([], none)
  | (crole, cname) :: rest =>
    match df.components.get? cname with
    | none => ([], some .keyError)
    | some cmp =>
      match plan.get? crole with
      | none => threads df getDrv plan rest
      | some tasks =>
        match df.devices.get? cmp.device with
        | none => ([], some .keyError)
        | some device =>
          match getDrv cmp.driver with
          | none => ([], some .assertionError)
          | some drv =>
            match df.drivers.get? cmp.driver with
            | none => ([], some .keyError)
            | some _ =>
              let r := threads df getDrv plan rest
              (⟨crole, cmp, tasks, device, drv.port⟩ :: r.1, r.2)

/-- The job at the beginning of the main loop. -/
def Jb.init (tss : List (List Task)) : Jb := { thrs := tss.map (fun ts => { tasks := ts }) }

end Tomato.JobT
