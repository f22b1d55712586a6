import Verif.JobMgr
import Verif.Cmd
import Verif.DriverMgr

/-!
# The daemon process from the start of its main loop to its exit

`/repo/src/tomato/daemon/__init__.py` 55-101: the main loop and the three manager threads
(job.py:322-352, pip.py:25-85, driver.py:327-441), which ask the main loop for a copy of the
daemon object over zmq.
-/

namespace Tomato.Life

open Tomato

/-- The manager threads. -/
inductive Mgr where
  | job
  | pip
  | drv
  deriving DecidableEq, Repr

/-- driver.py:429-441: the end of the driver manager, for one row.  In the case of a row with a
process id and no port, `kill_tomato_driver` (driver.py:129-150) passes a list of a list to
`psutil.wait_procs`, which raises `TypeError`; that it terminates the process before is not
modelled (there are no such rows: `C60_pid_iff_port`). -/
def stopDriver (d : DrvState) : P Unit :=
  match d.pid, d.port with
  | none, _ => pure ()
  | some pid, none => do
    let ex ← Do.pidExists pid
    if ex then Prog.raise .typeError else Prog.raise .noSuchProcess
  | some _, some port => do
    let _ ← Do.askDriver (some port) .stop

/-- driver.py:425-441: the end of the driver manager, after it got the daemon object. -/
def drvQuit : P Unit := do
  let drivers ← Do.drvsWhere (fun _ => true)
  Prog.forEach drivers stopDriver

/-- Where a manager thread is. -/
inductive MPC where
  /-- before `while getattr(thread, "do_run")` -/
  | check
  /-- in `req.recv_pyobj()`, waiting for the daemon object -/
  | waiting
  /-- in a pass -/
  | running (p : P Unit)
  /-- driver manager: in `req.recv_pyobj()` of driver.py:427 -/
  | quitWait
  /-- driver manager: driver.py:428-441 -/
  | quitting (p : P Unit)
  /-- ended -/
  | dead

/-- Where the main loop is. -/
inductive MainPC where
  /-- in `poller.poll(1000)`, daemon/__init__.py:74 -/
  | idle
  /-- 75-86, handling a message of a client (`none`) or a manager -/
  | serving (src : Option Mgr) (p : P (CReply × DLoop))
  /-- 87 -/
  | sweep
  /-- 101 -/
  | exited
  /-- an uncaught exception ended the process -/
  | crashed

/-- The daemon process and the world around it. -/
structure LSys where
  w : World
  loop : DLoop
  main : MainPC := .idle
  pc : Mgr → MPC := fun _ => .check
  /-- the attribute `do_run` of the threads -/
  doRun : Mgr → Bool := fun _ => true
  /-- what the manager threads did, the latest first -/
  log : List (Mgr × Op) := []

/-- The pass of a manager. -/
def passOf (d : Daemon) : Mgr → P Unit
  | .job => jobManagerPass d
  | .pip => pipManagerPass d
  | .drv => drvManagerPass d

/-- Change a component of a function. -/
def upd {β : Type} (f : Mgr → β) (m : Mgr) (b : β) : Mgr → β := fun x => if x = m then b else f x

/-- The operation does not return at the moment: a request to a driver (`recv_pyobj` without
timeout) that is not answered. -/
def blocked (w : World) : Op → Bool
  | .askDriver (some port) c => (w.drv port c).isNone
  | _ => false

/-- The next step of a manager thread. -/
def mgrStep (s : LSys) (m : Mgr) : LSys :=
  match s.pc m with
  | .check =>
    -- job.py:337, pip.py:36, driver.py:340; driver.py:425-426
    if s.doRun m then { s with pc := upd s.pc m .waiting }
    else if m = .drv then { s with pc := upd s.pc m .quitWait }
    else { s with pc := upd s.pc m .dead }
  | .waiting => s
  | .quitWait => s
  | .running (.op o k) =>
    if blocked s.w o then s
    else { s with
      w := (exec o s.w).2, pc := upd s.pc m (.running (k (exec o s.w).1)), log := (m, o) :: s.log }
  | .running (.pure _) => { s with pc := upd s.pc m .check }
  | .running (.raise _) => { s with pc := upd s.pc m .dead }
  | .quitting (.op o k) =>
    if blocked s.w o then s
    else { s with
      w := (exec o s.w).2, pc := upd s.pc m (.quitting (k (exec o s.w).1)), log := (m, o) :: s.log }
  | .quitting (.pure _) => { s with pc := upd s.pc m .dead }
  | .quitting (.raise _) => { s with pc := upd s.pc m .dead }
  | .dead => s

/-- The reply to a manager's request arrives: the daemon object is unpickled and the pass (or the
end of the driver manager) begins.  The replies to `status` always succeed and carry the daemon
object (`cmdStatus`), the other branches (job.py:343-345, driver.py:347-350) are left out. -/
def deliver (r : CReply) (m : Mgr) : MPC → MPC
  | .waiting =>
    match r.data with
    | some (.daemon d) => .running (passOf d m)
    | _ => .dead
  | .quitWait => .quitting drvQuit
  | pc => pc

/-- `not mgr.is_alive()`. -/
def isDead : MPC → Bool
  | .dead => true
  | _ => false

/-- daemon/__init__.py:87-100.  The threads are checked one after the other; since they do not
come back to life this makes no difference. -/
def sweepStep (s : LSys) : LSys :=
  match s.loop.daemon.status with
  | .stop =>
    { s with doRun := fun _ => false,
             main := if isDead (s.pc .job) ∧ isDead (s.pc .drv) ∧ isDead (s.pc .pip)
               then .exited else .idle }
  | _ => { s with main := .idle }

/-- The next step of the main loop. -/
def mainStep (s : LSys) : LSys :=
  match s.main with
  | .idle => { s with main := .sweep }
  | .serving src (.op o k) =>
    { s with w := (exec o s.w).2, main := .serving src (k (exec o s.w).1) }
  | .serving src (.pure (r, l)) =>
    match src with
    | none => { s with loop := l, main := .sweep }
    | some m => { s with loop := l, main := .sweep, pc := upd s.pc m (deliver r m (s.pc m)) }
  | .serving _ (.raise _) => { s with main := .crashed }
  | .sweep => sweepStep s
  | .exited => s
  | .crashed => s

/-- What can happen next. -/
inductive LAct where
  /-- a manager thread performs its next step -/
  | mgr (m : Mgr)
  /-- the main loop performs its next step; in `poll`: nothing arrives for a second -/
  | main
  /-- `poll` returns since a manager's request has arrived -/
  | request (m : Mgr)
  /-- `poll` returns since a client's message has arrived -/
  | client (msg : DMsg)
  /-- anything else changes the world -/
  | world (w : World)

/-- Is the thread waiting for the main loop? -/
def isWaiting : MPC → Bool
  | .waiting => true
  | .quitWait => true
  | _ => false

/-- The process is gone. -/
def ended : MainPC → Bool
  | .exited => true
  | .crashed => true
  | _ => false

/-- Execute an action; actions that are not possible do nothing. -/
def lstep (s : LSys) (a : LAct) : LSys :=
  match a with
  | .world w => { s with w := w }
  | .mgr m => if ended s.main then s else mgrStep s m
  | .main => mainStep s
  | .request m =>
    match s.main with
    | .idle => if isWaiting (s.pc m) then
        { s with main := .serving (some m) (handleMsg s.loop .status) } else s
    | _ => s
  | .client msg =>
    match s.main with
    | .idle => { s with main := .serving none (handleMsg s.loop msg) }
    | _ => s

/-- The state after the first `n` actions of a schedule. -/
def runL (s : LSys) (σ : Nat → LAct) : Nat → LSys
  | 0 => s
  | n + 1 => lstep (runL s σ n) (σ n)

/-- The beginning of the main loop: the configuration was read (`cmd.reload`, 55), the threads
were started (64-72). -/
def LSys.start (d : Daemon) (w : World) : LSys := { w := w, loop := { daemon := d } }

end Tomato.Life
