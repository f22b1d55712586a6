import Verif.Iface20

/-!
# A component of interface 2.0 whose threads act in the middle of the commands

`Verif.Iface20` executes each command without interruption.  Here the commands of `ModelInterface`
(`/repo/src/tomato/driverinterface_2_0/__init__.py:317-416`, `200-215`) and the functions of
`ModelDevice` they call (`555-564`, `671-674`, `691-699`, `721-728`) are cut into their single
assignments and calls, executed by the main thread of the driver process; the threads of the
component (`566-633`) may act between any two of them.  The threads are those of `Verif.Iface20`, and in
addition the attribute `do_run` is missing until somebody sets it.

Simplifications: `self.thread` is read and its attribute set (or its method called) in one step;
a thread which has read `self.task_list` and waits in `get` while the component is reset is not
distinguished from one which has not yet read it.
-/

namespace Tomato.F20
open Tomato

/-- What the main thread does next. -/
inductive MPc where
  /-- it receives the next request -/
  | idle
  /-- `measure`: `self.thread = Thread(target=self.meas_runner, ...)` (2_0:562) -/
  | newMeas
  /-- `run` or `measure` (`true`): `setattr(self.thread, "do_run", True)` (2_0:557, 563) -/
  | setDo (m : Bool)
  /-- `self.thread.start()` (2_0:558, 564) -/
  | start (m : Bool)
  /-- `task_stop`: `self.task_data(...)` (2_0:391) -/
  | stopData
  /-- `reset`: `self.thread = Thread(target=self.task_runner, ...)` (2_0:725) -/
  | rThread
  /-- `self.data = None` (2_0:726) -/
  | rData
  /-- `self.running = False` (2_0:727) -/
  | rRunning
  deriving DecidableEq, Repr

/-- The component, the threads which have an attribute `do_run`, and the main thread. -/
structure St where
  dev : I20.Dev := I20.Dev.init
  has : List Nat := []
  main : MPc := .idle
  deriving DecidableEq, Repr

/-- `setattr(self.thread, "do_run", True)`. -/
def setDo (s : St) : St :=
  { s with dev := I20.setThr s.dev s.dev.cur (fun t => { t with doRun := true }),
           has := s.dev.cur :: s.has }

/-- The first thing which is done for a request. -/
def call (s : St) : I20.Cmd → St × List I20.Ev
  -- `self.devmap[key].task_list.put(task)`, 2_0:352
  | .start t =>
    ({ s with dev := { s.dev with queue := s.dev.queue ++ [t], unfinished := s.dev.unfinished + 1 },
              main := .setDo false }, [.accepted t])
  -- `if self.devmap[key].running`, 2_0:328
  | .measure => if s.dev.running then (s, [.mRefused]) else ({ s with main := .newMeas }, [])
  -- `stop_task`, 2_0:671-674
  | .stop => ({ setDo s with main := .stopData }, [.stopped])
  -- `get_data`, 2_0:691-699, under the lock
  | .data => ({ s with dev := { s.dev with data := none } }, [.delivered s.dev.data])
  -- `self.task_list = Queue()`, 2_0:724
  | .reset => ({ s with dev := { s.dev with queue := [], unfinished := 0 }, main := .rThread }, [])

/-- The next thing which is done for the request. -/
def go (s : St) : Option (St × List I20.Ev) :=
  match s.main with
  | .idle => none
  | .newMeas => some ({ s with dev := I20.newThr s.dev true, main := .setDo true }, [])
  | .setDo m => some ({ setDo s with main := .start m }, [])
  | .start m =>
    let r := I20.startThr s.dev
    some ({ s with dev := r.1, main := .idle }, (if m then [.mAccepted] else []) ++ r.2)
  | .stopData =>
    some ({ s with dev := { s.dev with data := none }, main := .idle }, [.delivered s.dev.data])
  | .rThread => some ({ s with dev := I20.newThr s.dev false, main := .rData }, [])
  | .rData => some ({ s with dev := { s.dev with data := none }, main := .rRunning }, [])
  | .rRunning => some ({ s with dev := { s.dev with running := false }, main := .idle }, [.wasReset])

/-- A step of a thread of the component, 2_0:566-633; `getattr(thread, "do_run")` (2_0:592) of a
thread without the attribute raises an `AttributeError`, which ends the thread. -/
def thread (s : St) (i : Nat) (c : I20.Choice) : Option (St × List I20.Ev) :=
  match s.dev.threads[i]? with
  | none => none
  | some t =>
    match t.pc with
    | .loop _ =>
      if i ∈ s.has then (I20.tstep s.dev i c).map (fun r => ({ s with dev := r.1 }, r.2))
      else some ({ s with dev := I20.goto s.dev i .ended }, [])
    | .prep _ =>
      -- the attribute is set on `self.thread` if an exception is raised, 2_0:587
      (I20.tstep s.dev i c).map (fun r =>
        ({ s with dev := r.1, has := if c.result = none then s.dev.cur :: s.has else s.has }, r.2))
    | _ => (I20.tstep s.dev i c).map (fun r => ({ s with dev := r.1 }, r.2))

/-- Actions. -/
inductive Act where
  | thread (i : Nat) (c : I20.Choice)
  /-- a request is received -/
  | call (c : I20.Cmd)
  /-- the main thread goes on with the request -/
  | go
  deriving DecidableEq, Repr

/-- One step; nothing happens after the process has ended, and requests are received one after the
other. -/
def act (s : St) (a : Act) : Option (St × List I20.Ev) :=
  if s.dev.exited then none
  else
    match a with
    | .thread i c => thread s i c
    | .call c => if s.main = .idle then some (call s c) else none
    | .go => go s

/-- A run with its events. -/
def run (s : St) : List Act → Option (St × List I20.Ev)
  | [] => some (s, [])
  | a :: as =>
    match act s a with
    | none => none
    | some (s', es) =>
      match run s' as with
      | none => none
      | some (s'', es') => some (s'', es ++ es')

/-- Histories. -/
inductive Hist : List I20.Ev → St → Prop where
  | init : Hist [] {}
  | step {h : List I20.Ev} {s s' : St} {es : List I20.Ev} (a : Act) :
      Hist h s → act s a = some (s', es) → Hist (h ++ es) s'

end Tomato.F20
