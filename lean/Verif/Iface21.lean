import Verif.Prog

/-!
# A component of a driver, interface 2.1

`ModelDevice`, `/repo/src/tomato/driverinterface_2_1/__init__.py:457-684`, together with the
commands of `ModelInterface` which act on it (`2_1:146-159, 268-361`).

Two threads act on a component: the *command thread* (the main loop of the driver process, which
handles one command after the other) and the *worker* (`task_runner`).  Every read or write of a
shared attribute, every queue operation and every lock operation is one step; steps of the two
threads interleave arbitrarily.  Each step may emit events; a history is a list of events.

Simplifications: `do_measure` is the device's own code: it raises, or stores a list of data points
(or `None`) in `last_data`.  The clock is left out: whether it is time to take a sample, and
whether the maximum duration has passed, is chosen arbitrarily at every turn of the inner loop.
The validation in `task_start` is in `Verif/Validate.lean`; here only accepted tasks appear.
-/

namespace Tomato.I21

/-- What is put onto `task_list`: a task (any identification of it), or the string `"measure"`. -/
inductive Item where
  | task (t : Nat)
  | measure
  deriving DecidableEq, Repr

/-- Holder of `datalock`. -/
inductive Who where
  | cmd
  | worker
  deriving DecidableEq, Repr

/-- Where the worker is, 2_1:519-570. -/
inductive WPc where
  /-- `while thread.do_run` (520) -/
  | top
  /-- `task_list.get(timeout=1)` (522) -/
  | get
  /-- `self.running = task` (530) -/
  | got (x : Item)
  /-- `do_run_task = False` (532) -/
  | noTask (x : Item)
  /-- `prepare_task` (534) -/
  | prep (t : Nat)
  /-- `do_run_task = True` (535) -/
  | prepped (t : Nat)
  /-- `self.data = None` (538) -/
  | clear (t : Nat)
  /-- `while thread.do_run_task and ...` (539) -/
  | loop1 (t : Nat)
  /-- `... thread.do_run` (539) -/
  | loop2 (t : Nat)
  /-- `if t_n - t_p > sampling_interval` (541) -/
  | turn (t : Nat)
  /-- `with self.datalock` (542) -/
  | lock (t : Nat)
  /-- `do_measure` within `do_task` (588) -/
  | meas (t : Nat)
  /-- the update of `data` within `do_task` (589-596) -/
  | store (t : Nat)
  /-- end of `with self.datalock` -/
  | unlock (t : Nat)
  /-- `if t_n - t_0 > max_duration` (545) -/
  | dur (t : Nat)
  /-- `do_run_task = False; break` (546-547) -/
  | over (t : Nat)
  /-- `task_done` after a task (562) -/
  | done (t : Nat)
  /-- `do_measure` for `"measure"` (556) -/
  | oneShot
  /-- `task_done` after a measurement (562) -/
  | oneDone
  /-- `self.running = False` (567) -/
  | fin
  /-- `except Exception: do_run = False; break` (563-566), lock already released -/
  | failed
  /-- `self.running = False` after the loop (569) -/
  | exit
  /-- the thread has ended -/
  | dead
  deriving DecidableEq, Repr

/-- Where the command thread is. -/
inductive CPc where
  /-- waiting for a command -/
  | idle
  /-- `get_data`: `with self.datalock` (636) -/
  | gLock
  /-- `ret = self.data` (637) -/
  | gRead
  /-- `self.data = None` (638) -/
  | gClear (ret : Option (List Nat))
  /-- end of `with`, `return ret` (639) -/
  | gRet (ret : Option (List Nat))
  /-- `cmp_measure`: `task_list.empty()` (281) -/
  | mEmpty
  /-- `task_list.put("measure")` (284) -/
  | mPut
  /-- `reset`: `thread.join()` (673), and the rest of it (675-683) -/
  | rJoin (doRun : Bool)
  deriving DecidableEq, Repr

/-- The shared state of a component. -/
structure Dev where
  queue : List Item := []
  running : Option Item := none
  doRun : Bool := true
  doRunTask : Bool := false
  data : Option (List Nat) := none
  last : Option (List Nat) := none
  lock : Option Who := none
  wpc : WPc := .top
  cpc : CPc := .idle
  deriving DecidableEq, Repr

/-- A freshly registered component, `__init__`, 2_1:492-505. -/
def Dev.init : Dev := {}

/-- Events. -/
inductive Ev where
  /-- a task was accepted by `task_start` -/
  | accepted (t : Nat)
  /-- the worker took a task off the queue -/
  | took (t : Nat)
  /-- the worker has set all parameters of the task -/
  | prepared (t : Nat)
  /-- the cache was emptied at the beginning of a task -/
  | begun (t : Nat)
  /-- a measurement for a task has started -/
  | measuring (t : Nat)
  /-- a measurement for a task has produced these data points -/
  | measured (t : Nat) (ps : List Nat)
  /-- the worker is finished with the task -/
  | ended (t : Nat)
  /-- a one-shot measurement was accepted / refused -/
  | mAccepted
  | mRefused
  /-- a one-shot measurement has started / has ended -/
  | mStarted
  | mEnded
  /-- `task_stop` has told the worker to stop -/
  | stopped
  /-- `get_data` has read these data points off the cache -/
  | fetched (ps : Option (List Nat))
  /-- `get_data` returns -/
  | replied (ps : Option (List Nat))
  /-- the component was reset -/
  | wasReset
  /-- an exception in the worker -/
  | crashed
  deriving DecidableEq, Repr

/-- Commands of the driver main loop. -/
inductive Cmd where
  /-- an accepted `task_start`, 2_1:287-306 -/
  | start (t : Nat)
  /-- `task_stop`, 2_1:327-341 -/
  | stop
  /-- `task_data`, 2_1:343-361 -/
  | data
  /-- `cmp_measure`, 2_1:268-285 -/
  | measure
  /-- `cmp_reset`, 2_1:146-159 -/
  | reset (doRun : Bool)
  deriving DecidableEq, Repr

/-- What the worker meets: is it time for a sample, is the maximum duration over, what do the
device's functions do (`none`: raise an exception). -/
structure Choice where
  sample : Bool := true
  over : Bool := false
  result : Option (Option (List Nat)) := some none
  deriving DecidableEq, Repr

/-- `self.data` after `do_task`, 2_1:589-597. -/
def storeData (data last : Option (List Nat)) : Option (List Nat) :=
  match data, last with
  | none, l => l
  | some d, none => some d
  | some d, some l => some (d ++ l)

/-- One step of the worker, 2_1:519-570. -/
def wstep (s : Dev) (c : Choice) : Option (Dev × List Ev) :=
  match s.wpc with
  | .top => if s.doRun then some ({ s with wpc := .get }, []) else some ({ s with wpc := .exit }, [])
  | .get =>
    match s.queue with
    | [] => some ({ s with wpc := .top }, [])
    | .task t :: q => some ({ s with queue := q, wpc := .got (.task t) }, [.took t])
    | .measure :: q => some ({ s with queue := q, wpc := .got .measure }, [])
  | .got x => some ({ s with running := some x, wpc := .noTask x }, [])
  | .noTask (.task t) => some ({ s with doRunTask := false, wpc := .prep t }, [])
  | .noTask .measure => some ({ s with doRunTask := false, wpc := .oneShot }, [.mStarted])
  | .prep t =>
    match c.result with
    | none => some ({ s with wpc := .failed }, [.crashed, .ended t])
    | some _ => some ({ s with wpc := .prepped t }, [.prepared t])
  | .prepped t => some ({ s with doRunTask := true, wpc := .clear t }, [])
  | .clear t => some ({ s with data := none, wpc := .loop1 t }, [.begun t])
  | .loop1 t =>
    if s.doRunTask then some ({ s with wpc := .loop2 t }, []) else some ({ s with wpc := .done t }, [])
  | .loop2 t =>
    if s.doRun then some ({ s with wpc := .turn t }, []) else some ({ s with wpc := .done t }, [])
  | .turn t =>
    if c.sample then some ({ s with wpc := .lock t }, []) else some ({ s with wpc := .dur t }, [])
  | .lock t =>
    if s.lock = none then some ({ s with lock := some .worker, wpc := .meas t }, [.measuring t])
    else none
  | .meas t =>
    match c.result with
    | none => some ({ s with lock := none, wpc := .failed }, [.crashed, .ended t])
    | some r => some ({ s with last := r, wpc := .store t }, [.measured t (r.getD [])])
  | .store t => some ({ s with data := storeData s.data s.last, wpc := .unlock t }, [])
  | .unlock t => some ({ s with lock := none, wpc := .dur t }, [])
  | .dur t =>
    if c.over then some ({ s with wpc := .over t }, []) else some ({ s with wpc := .loop1 t }, [])
  | .over t => some ({ s with doRunTask := false, wpc := .done t }, [])
  | .done t => some ({ s with wpc := .fin }, [.ended t])
  | .oneShot =>
    match c.result with
    | none => some ({ s with wpc := .failed }, [.crashed, .mEnded])
    | some r => some ({ s with last := r, wpc := .oneDone }, [.mEnded])
  | .oneDone => some ({ s with wpc := .fin }, [])
  | .fin => some ({ s with running := none, wpc := .top }, [])
  | .failed => some ({ s with doRun := false, wpc := .exit }, [])
  | .exit => some ({ s with running := none, wpc := .dead }, [])
  | .dead => none

/-- The command thread begins a command: its first step. -/
def cbegin (s : Dev) : Cmd → Dev × List Ev
  | .start t => ({ s with queue := s.queue ++ [.task t] }, [.accepted t])
  | .stop => ({ s with doRunTask := false, cpc := .gLock }, [.stopped])
  | .data => ({ s with cpc := .gLock }, [])
  | .measure =>
    match s.running with
    | some _ => (s, [.mRefused])
    | none => ({ s with cpc := .mEmpty }, [])
  | .reset doRun => ({ s with doRun := false, cpc := .rJoin doRun }, [])

/-- The component after `reset`, 2_1:675-683: a new lock, an empty queue, a new worker. -/
def afterReset (s : Dev) (doRun : Bool) : Dev where
  queue := []
  running := none
  doRun := doRun
  doRunTask := false
  data := none
  last := s.last
  lock := none
  wpc := .top
  cpc := .idle

/-- The command thread goes on with its command. -/
def cstep (s : Dev) : Option (Dev × List Ev) :=
  match s.cpc with
  | .idle => none
  | .gLock => if s.lock = none then some ({ s with lock := some .cmd, cpc := .gRead }, []) else none
  | .gRead => some ({ s with cpc := .gClear s.data }, [.fetched s.data])
  | .gClear r => some ({ s with data := none, cpc := .gRet r }, [])
  | .gRet r => some ({ s with lock := none, cpc := .idle }, [.replied r])
  | .mEmpty =>
    match s.queue with
    | [] => some ({ s with cpc := .mPut }, [])
    | _ :: _ => some ({ s with cpc := .idle }, [.mRefused])
  | .mPut => some ({ s with queue := s.queue ++ [.measure], cpc := .idle }, [.mAccepted])
  | .rJoin doRun =>
    if s.wpc = .dead then
      some (afterReset s doRun, [.wasReset])
    else none

/-- Actions of the two threads. -/
inductive Act where
  | worker (c : Choice)
  | cmd (c : Cmd)
  | cont
  deriving DecidableEq, Repr

/-- One step of the component. -/
def act (s : Dev) : Act → Option (Dev × List Ev)
  | .worker c => wstep s c
  | .cmd c => if s.cpc = .idle then some (cbegin s c) else none
  | .cont => cstep s

/-- A run, with its history. -/
def run (s : Dev) : List Act → Option (Dev × List Ev)
  | [] => some (s, [])
  | a :: as =>
    match act s a with
    | none => none
    | some (s', es) =>
      match run s' as with
      | none => none
      | some (s'', es') => some (s'', es ++ es')

/-- The history `h` leads to the state `s`. -/
inductive Hist : List Ev → Dev → Prop where
  | init : Hist [] Dev.init
  | step {h : List Ev} {s s' : Dev} {es : List Ev} (a : Act) :
      Hist h s → act s a = some (s', es) → Hist (h ++ es) s'

/-- A history which continues from a given state. -/
inductive Cont (s : Dev) : List Ev → Dev → Prop where
  | refl : Cont s [] s
  | step {h : List Ev} {s' s'' : Dev} {es : List Ev} (a : Act) :
      Cont s h s' → act s' a = some (s'', es) → Cont s (h ++ es) s''

end Tomato.I21
