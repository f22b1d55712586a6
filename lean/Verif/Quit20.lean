import Verif.Iface20
import Verif.Dict

/-!
# The end of a driver process, interface 2.0

`tomato_driver`, `/repo/src/tomato/daemon/driver.py:263-269` and `309-323`, with a driver of interface 2.0: after the
message `stop` has been answered, `interface.quit()` is called, which is `ModelInterface.reset`,
`/repo/src/tomato/driverinterface_2_0/__init__.py:475-505`: for each component, one after the other, if its thread is
alive, the thread is told to end (`do_run`) and waited for, for one second at most; then the component is reset.  An
exception in it, as in any other command, ends the process (`log_errors`, 2_0:69-84).  In all cases the functions given
to `atexit.register` (`2_0:553`) are called, the last one first: `reset` of each device that was ever created, which
does not wait for anything.

The threads (`Verif/Iface20.lean`) go on all the time; being daemon threads they are cut off when the process is gone.

Simplifications: as in `Verif/Iface20.lean`; time is not modelled: the wait for a thread may be over at any time.
`dev.thread` is read anew for each of `is_alive`, `setattr` and `join` (2_0:493-496), so these are separate steps.
Components are numbered; so are devices, in the order of their creation.  A process that is killed is not modelled.
-/

namespace Tomato.Quit20
open Tomato.I20 (Dev Thr Ev Cmd Choice)

/-- Where the main thread is. -/
inductive Pc where
  /-- in the main loop, driver.py:248-316, between two messages -/
  | serving
  /-- in `ModelInterface.reset`, 2_0:492-493, before the first of these devices -/
  | quit (rest : List Nat)
  /-- the thread was alive: `setattr(dev.thread, "do_run", False)`, 2_0:495 -/
  | tell (i : Nat) (rest : List Nat)
  /-- `dev.thread.join(timeout=1)`, 2_0:496: `dev.thread` is read -/
  | join (i : Nat) (rest : List Nat)
  /-- ... and waited for: thread `t` of device `i` -/
  | wait (i t : Nat) (rest : List Nat)
  /-- `cmp_reset`, 2_0:501 -/
  | reset (i : Nat) (rest : List Nat)
  /-- at exit, before the function for the first of these devices -/
  | exit (rest : List Nat)
  /-- the process has ended -/
  | gone
  deriving DecidableEq, Repr

/-- The driver process: all devices ever created, `devmap`, the main thread. -/
structure St where
  devs : List Dev := []
  devmap : Dict Nat Nat := []
  pc : Pc := .serving
  deriving DecidableEq, Repr

/-- Events. -/
inductive QEv where
  | dev (i : Nat) (e : Ev)
  /-- a device was created -/
  | made
  /-- `stop` was answered -/
  | told
  /-- `join` has returned although the thread of device `i` has not ended -/
  | late (i : Nat)
  /-- an exception ends the process -/
  | died
  /-- the process has ended -/
  | gone
  deriving DecidableEq, Repr

/-- What may happen. -/
inductive Act where
  /-- a step of thread `t` of device `i` -/
  | thread (i t : Nat) (c : Choice)
  /-- a command for component `k` -/
  | cmd (k : Nat) (c : Cmd)
  /-- `cmp_teardown` of component `k`, 2_0:177-195; the `task_stop` in it is a command of its own -/
  | teardown (k : Nat)
  /-- `cmp_register` of component `k`, 2_0:157-175 -/
  | register (k : Nat)
  /-- the message `stop`, driver.py:263-269 and 309-310 -/
  | stop
  /-- an exception in the main loop, driver.py:317-319 -/
  | die
  /-- the main thread goes on -/
  | go
  /-- `join` returns after one second -/
  | timeout
  deriving DecidableEq, Repr

/-- `Thread.is_alive`: started and not ended. -/
def alive (t : Thr) : Bool := decide (t.pc ≠ .fresh ∧ t.pc ≠ .ended)

/-- The functions to be called at exit, 2_0:553: the last one registered first. -/
def atExit (s : St) : List Nat := (List.range s.devs.length).reverse

/-- `dev.thread`. -/
def curThr (d : Dev) : Option Thr := d.threads[d.cur]?

/-- The main thread goes on. -/
def go (s : St) : Option (St × List QEv) :=
  match s.pc with
  | .serving => none
  | .quit [] => some ({ s with pc := .exit (atExit s) }, [])
  | .quit (i :: rest) =>
    match (s.devs[i]?).bind curThr with
    | none => none
    | some t => some ({ s with pc := if alive t then .tell i rest else .reset i rest }, [])
  | .tell i rest =>
    match s.devs[i]? with
    | none => none
    | some d =>
      some ({ s with devs := s.devs.set i (I20.setThr d d.cur (fun t => { t with doRun := false })),
                     pc := .join i rest }, [])
  | .join i rest =>
    match s.devs[i]? with
    | none => none
    | some d =>
      match curThr d with
      | none => none
      | some t =>
        -- a thread which has not been started can not be joined: `RuntimeError`, which ends the process
        if t.pc = .fresh then some ({ s with pc := .exit (atExit s) }, [.died])
        else some ({ s with pc := .wait i d.cur rest }, [])
  | .wait i t rest =>
    match (s.devs[i]?).bind (fun d => d.threads[t]?) with
    | none => none
    | some th => if th.pc = .ended then some ({ s with pc := .reset i rest }, []) else none
  | .reset i rest =>
    match s.devs[i]? with
    | none => none
    | some d =>
      some ({ s with devs := s.devs.set i (I20.command d .reset).1, pc := .quit rest },
        (I20.command d .reset).2.map (.dev i))
  | .exit [] => some ({ s with pc := .gone }, [.gone])
  | .exit (i :: rest) =>
    match s.devs[i]? with
    | none => none
    | some d =>
      some ({ s with devs := s.devs.set i (I20.command d .reset).1, pc := .exit rest },
        (I20.command d .reset).2.map (.dev i))
  | .gone => none

/-- One step. -/
def act (s : St) : Act → Option (St × List QEv)
  | .thread i t c =>
    if s.pc = .gone then none
    else
      match s.devs[i]? with
      | none => none
      | some d =>
        match I20.tstep d t c with
        | none => none
        | some (d', es) => some ({ s with devs := s.devs.set i d' }, es.map (.dev i))
  | .cmd k c =>
    if s.pc = .serving then
      match Dict.get? s.devmap k with
      | none => some (s, [])
      | some i =>
        match s.devs[i]? with
        | none => none
        | some d =>
          let r := I20.command d c
          if r.1.exited then
            some ({ s with devs := s.devs.set i r.1, pc := .exit (atExit s) }, r.2.map (.dev i) ++ [.died])
          else some ({ s with devs := s.devs.set i r.1 }, r.2.map (.dev i))
    else none
  | .teardown k =>
    if s.pc = .serving then
      match Dict.get? s.devmap k with
      | none => some (s, [])
      | some i =>
        match s.devs[i]? with
        | none => none
        | some d =>
          some ({ s with devs := s.devs.set i (I20.command d .reset).1, devmap := Dict.erase s.devmap k },
            (I20.command d .reset).2.map (.dev i))
    else none
  | .register k =>
    if s.pc = .serving then
      some ({ s with devs := s.devs ++ [Dev.init], devmap := Dict.set s.devmap k s.devs.length }, [.made])
    else none
  | .stop => if s.pc = .serving then some ({ s with pc := .quit (Dict.values s.devmap) }, [.told]) else none
  | .die => if s.pc = .serving then some ({ s with pc := .exit (atExit s) }, [.died]) else none
  | .go => go s
  | .timeout =>
    match s.pc with
    | .wait i t rest =>
      match (s.devs[i]?).bind (fun d => d.threads[t]?) with
      | none => none
      | some th => if th.pc = .ended then none else some ({ s with pc := .reset i rest }, [.late i])
    | _ => none

/-- A run, with its history. -/
def run (s : St) : List Act → Option (St × List QEv)
  | [] => some (s, [])
  | a :: as =>
    match act s a with
    | none => none
    | some (s', es) =>
      match run s' as with
      | none => none
      | some (s'', es') => some (s'', es ++ es')

end Tomato.Quit20
