import Verif.Prog

/-!
# A component of a driver, interface 2.0

`ModelDevice`, `/repo/src/tomato/driverinterface_2_0/__init__.py:508-728`, with the commands
`task_start`, `task_stop`, `task_data`, `cmp_measure` and `cmp_reset` of `ModelInterface`
(`2_0:317-416`, `200-215`).

Here every task and every measurement has a thread of its own; `self.thread` is the thread prepared
for the next task, or the one running.  A thread is a position in its function; the attribute
`self.thread` is an index into the list of all threads created so far.

Simplifications: commands are executed without interruption by the worker threads (so only some
of the possible interleavings appear; the model is used for counterexamples, which need only one
of them, for the effect of single commands, and in C112 for components which are asked for one thing
at a time, where `task_start`, `cmp_measure` and `cmp_reset` come while no thread is being executed,
and `task_stop` and `task_data` consist of one assignment and of one section under the lock).
`do_task` is one step, as it holds the lock.
-/

namespace Tomato.I20

/-- Where a thread is. -/
inductive TPc where
  /-- created, not started -/
  | fresh
  /-- `task_runner`: `self.running = True` (2_0:580) -/
  | setRun
  /-- `self.task_list.get()` (2_0:583) -/
  | get
  /-- `prepare_task` (2_0:584) -/
  | prep (t : Nat)
  /-- `self.data = None` (2_0:591) -/
  | clear (t : Nat)
  /-- `while thread.do_run` (2_0:592) -/
  | loop (t : Nat)
  /-- the body of the loop (2_0:593-609) -/
  | turn (t : Nat)
  /-- `task_done` (2_0:611) -/
  | done (t : Nat)
  /-- `self.running = False` (2_0:612) -/
  | unsetRun (t : Nat)
  /-- `self.thread = Thread(...)` (2_0:613, 630) -/
  | renew
  /-- `meas_runner`: `self.running = True` (2_0:627) -/
  | mSetRun
  /-- `self.do_measure()`, its beginning and its end (2_0:628) -/
  | mBegin
  | mMeas
  /-- `self.running = False` (2_0:629) -/
  | mUnset
  /-- ended -/
  | ended
  deriving DecidableEq, Repr

/-- A thread: its function (`true`: `meas_runner`), its position, its attribute `do_run`. -/
structure Thr where
  isMeas : Bool := false
  pc : TPc := .fresh
  doRun : Bool := false
  deriving DecidableEq, Repr

/-- The component (and the driver process). -/
structure Dev where
  queue : List Nat := []
  /-- the tasks put onto the queue for which `task_done` has not been called -/
  unfinished : Nat := 0
  running : Bool := false
  data : Option (List Nat) := none
  last : Option (List Nat) := none
  threads : List Thr := [{}]
  cur : Nat := 0
  /-- the driver process has ended (`sys.exit` in `log_errors`) -/
  exited : Bool := false
  deriving DecidableEq, Repr

/-- `__init__`, 2_0:543-553. -/
def Dev.init : Dev := {}

/-- Events. -/
inductive Ev where
  | accepted (t : Nat)
  | took (t : Nat)
  /-- the cache was emptied at the beginning of a task -/
  | begun (t : Nat)
  /-- a measurement for a task has produced these data points -/
  | measuredFor (t : Nat) (ps : List Nat)
  | ended (t : Nat)
  | mAccepted
  | mRefused
  | mStarted
  | mEnded
  | stopped
  | delivered (ps : Option (List Nat))
  /-- the component was reset -/
  | wasReset
  | exited
  deriving DecidableEq, Repr

/-- Commands. -/
inductive Cmd where
  | start (t : Nat)
  | stop
  | data
  | measure
  | reset
  deriving DecidableEq, Repr

/-- What a thread meets; `none`: the device raises an exception. -/
structure Choice where
  sample : Bool := true
  over : Bool := false
  result : Option (Option (List Nat)) := some none
  deriving DecidableEq, Repr

/-- Change one thread. -/
def setThr (s : Dev) (i : Nat) (f : Thr → Thr) : Dev :=
  { s with threads := s.threads.modify i f }

/-- Move one thread. -/
def goto (s : Dev) (i : Nat) (pc : TPc) : Dev := setThr s i (fun t => { t with pc := pc })

/-- `self.thread = Thread(target=...)`. -/
def newThr (s : Dev) (isMeas : Bool) : Dev :=
  { s with threads := s.threads ++ [{ isMeas := isMeas }], cur := s.threads.length }

/-- `self.data` after `do_task`, 2_0:652-660. -/
def storeData (data last : Option (List Nat)) : Option (List Nat) :=
  match data, last with
  | none, l => l
  | some d, none => some d
  | some d, some l => some (d ++ l)

/-- `self.thread.start()`: a thread can be started only once; the `RuntimeError` ends the driver
process (`log_errors`, 2_0:69-87). -/
def startThr (s : Dev) : Dev × List Ev :=
  match s.threads[s.cur]? with
  | some t =>
    if t.pc = .fresh then
      (setThr s s.cur (fun t => { t with pc := if t.isMeas then .mSetRun else .setRun }), [])
    else ({ s with exited := true }, [.exited])
  | none => ({ s with exited := true }, [.exited])

/-- A command. -/
def command (s : Dev) : Cmd → Dev × List Ev
  -- task_start, 2_0:334-355, and run, 2_0:555-558
  | .start t =>
    let s := { s with queue := s.queue ++ [t], unfinished := s.unfinished + 1 }
    let s := setThr s s.cur (fun t => { t with doRun := true })
    let r := startThr s
    (r.1, .accepted t :: r.2)
  -- task_stop, 2_0:375-395, and stop_task, 2_0:671-674
  | .stop =>
    let s := setThr s s.cur (fun t => { t with doRun := true })
    ({ s with data := none }, [.stopped, .delivered s.data])
  -- task_data, 2_0:397-415, and get_data, 2_0:691-699
  | .data => ({ s with data := none }, [.delivered s.data])
  -- cmp_measure, 2_0:317-332, and measure, 2_0:560-564
  | .measure =>
    if s.running then (s, [.mRefused])
    else
      let s := newThr s true
      let s := setThr s s.cur (fun t => { t with doRun := true })
      let r := startThr s
      (r.1, .mAccepted :: r.2)
  -- reset, 2_0:721-728
  | .reset =>
    let s := newThr s false
    ({ s with queue := [], unfinished := 0, data := none, running := false }, [.wasReset])

/-- A step of the thread `i`, 2_0:566-633. -/
def tstep (s : Dev) (i : Nat) (c : Choice) : Option (Dev × List Ev) :=
  match s.threads[i]? with
  | none => none
  | some t =>
    match t.pc with
    | .fresh => none
    | .setRun => some ({ goto s i .get with running := true }, [])
    | .get =>
      match s.queue with
      | [] => none
      | x :: q => some ({ goto s i (.prep x) with queue := q }, [.took x])
    | .prep x =>
      match c.result with
      | none => some (goto (setThr s s.cur (fun t => { t with doRun := false })) i (.clear x), [])
      | some _ => some (goto s i (.clear x), [])
    | .clear x => some ({ goto s i (.loop x) with data := none }, [.begun x])
    | .loop x => if t.doRun then some (goto s i (.turn x), []) else some (goto s i (.done x), [])
    | .turn x =>
      let next : TPc := if c.over then .done x else .loop x
      if c.sample then
        match c.result with
        | none => some (goto (setThr s i (fun t => { t with doRun := false })) i next, [])
        | some r =>
          some ({ goto s i next with last := r, data := storeData s.data r }, [.measuredFor x (r.getD [])])
      else some (goto s i next, [])
    | .done x =>
      -- `task_done` of a queue without unfinished tasks raises a `ValueError`
      if s.unfinished = 0 then some (goto s i .ended, [])
      else some ({ goto s i (.unsetRun x) with unfinished := s.unfinished - 1 }, [])
    | .unsetRun x => some ({ goto s i .renew with running := false }, [.ended x])
    | .renew => some (newThr (goto s i .ended) false, [])
    | .mSetRun => some ({ goto s i .mBegin with running := true }, [])
    | .mBegin => some (goto s i .mMeas, [.mStarted])
    | .mMeas =>
      match c.result with
      | none => some (goto s i .ended, [.mEnded])
      | some r => some ({ goto s i .mUnset with last := r }, [.mEnded])
    | .mUnset => some ({ goto s i .renew with running := false }, [])
    | .ended => none

/-- Actions. -/
inductive Act where
  | thread (i : Nat) (c : Choice)
  | cmd (c : Cmd)
  deriving DecidableEq, Repr

/-- One step; nothing happens after the process has ended. -/
def act (s : Dev) (a : Act) : Option (Dev × List Ev) :=
  if s.exited then none
  else
    match a with
    | .thread i c => tstep s i c
    | .cmd c => some (command s c)

/-- A run with its events. -/
def run (s : Dev) : List Act → Option (Dev × List Ev)
  | [] => some (s, [])
  | a :: as =>
    match act s a with
    | none => none
    | some (s', es) =>
      match run s' as with
      | none => none
      | some (s'', es') => some (s'', es ++ es')

/-- Histories. -/
inductive Hist : List Ev → Dev → Prop where
  | init : Hist [] Dev.init
  | step {h : List Ev} {s s' : Dev} {es : List Ev} (a : Act) :
      Hist h s → act s a = some (s', es) → Hist (h ++ es) s'

end Tomato.I20
