import Verif.Iface21
import Verif.Dict

/-!
# The end of a driver process

`tomato_driver`, `/repo/src/tomato/daemon/driver.py:263-269` and `309-323`: after the message `stop` has been
answered, the main loop is left and `interface.quit()` is called, which is `ModelInterface.reset`,
`/repo/src/tomato/driverinterface_2_1/__init__.py:428-454`: for each component, one after the other,
`task_stop` and `cmp_reset(do_run=False)`.  An exception in the main loop (`driver.py:317-319`) ends the process
without it.  In both cases the functions given to `atexit.register` (`2_1:505`) are called, the last one first:
`reset` of each device that was ever created, whether it is in `devmap` or not.

The workers (`Verif/Iface21.lean`) go on all the time; being daemon threads they are cut off when the process is
gone.  `fork`: whether a thread can be started in a function called at exit; since Python 3.12 it can not
(`RuntimeError`), and the exception is ignored by the interpreter.

Simplifications: as in `Verif/Iface21.lean` and `Verif/Rereg.lean`: the functions of `ModelDevice` are not
overridden, and exceptions end the main loop only between two commands for a component.  Components are numbered;
so are devices, in the order of their creation.  A process that is killed is not modelled.
-/

namespace Tomato.Quit
open Tomato.I21 (Dev Ev Cmd Choice)

/-- Where the main thread is. -/
inductive Pc where
  /-- in the main loop, driver.py:248-316, between two messages -/
  | serving
  /-- in a command for a device; `drop`: it is `cmp_teardown` (2_1:127-143) of this component -/
  | cmd (i : Nat) (drop : Option Nat)
  /-- in `ModelInterface.reset`, 2_1:445, before the first of these devices -/
  | quit (rest : List Nat)
  /-- in its `task_stop`, 2_1:447 -/
  | quitStop (i : Nat) (rest : List Nat)
  /-- in its `cmp_reset`, 2_1:449 -/
  | quitReset (i : Nat) (rest : List Nat)
  /-- at exit, before the function for the first of these devices -/
  | exit (rest : List Nat)
  /-- in this function -/
  | exitReset (i : Nat) (rest : List Nat)
  /-- the process has ended -/
  | gone
  deriving DecidableEq, Repr

/-- The driver process: all devices ever created, `devmap`, the main thread. -/
structure St where
  devs : List Dev := []
  devmap : Dict Nat Nat := []
  pc : Pc := .serving
  deriving DecidableEq, Repr

/-- Events. -/
inductive QEv where
  | dev (i : Nat) (e : Ev)
  /-- a device was created -/
  | made
  /-- `stop` was answered -/
  | told
  /-- an exception has ended the main loop -/
  | died
  /-- the process has ended -/
  | gone
  deriving DecidableEq, Repr

/-- What may happen. -/
inductive Act where
  /-- a step of the worker of a device -/
  | worker (i : Nat) (c : Choice)
  /-- a command for component `k` -/
  | cmd (k : Nat) (c : Cmd)
  /-- `cmp_teardown` of component `k`; the `task_stop` in it (2_1:137-140) is a command of its own -/
  | teardown (k : Nat)
  /-- `cmp_register` of component `k`, 2_1:104-125 -/
  | register (k : Nat)
  /-- the message `stop`, driver.py:263-269 and 309-310 -/
  | stop
  /-- an exception in the main loop, driver.py:317-319 -/
  | die
  /-- the main thread goes on -/
  | go
  deriving DecidableEq, Repr

/-- A step of one device. -/
def onDev (s : St) (i : Nat) (pc : Pc) (f : Dev → Option (Dev × List Ev)) : Option (St × List QEv) :=
  match s.devs[i]? with
  | none => none
  | some d =>
    match f d with
    | none => none
    | some (d', es) => some ({ s with devs := s.devs.set i d', pc := pc }, es.map (.dev i))

/-- Is no command being carried out on device `i`? -/
def free (s : St) (i : Nat) : Bool :=
  match s.devs[i]? with
  | none => true
  | some d => decide (d.cpc = .idle)

/-- `ModelDevice.reset` at exit, 2_1:669-683: the last step starts a worker, if that is possible. -/
def exitStep (fork : Bool) (d : Dev) : Option (Dev × List Ev) :=
  match I21.cstep d with
  | none => none
  | some (d', es) => if fork then some (d', es) else some ({ d' with wpc := .dead }, es)

/-- The functions to be called at exit, 2_1:505: the last one registered first. -/
def atExit (s : St) : List Nat := (List.range s.devs.length).reverse

/-- The main thread goes on. -/
def go (fork : Bool) (s : St) : Option (St × List QEv) :=
  match s.pc with
  | .serving => none
  | .cmd i drop =>
    if free s i then
      match drop with
      | none => some ({ s with pc := .serving }, [])
      | some k => some ({ s with pc := .serving, devmap := Dict.erase s.devmap k }, [])
    else onDev s i s.pc I21.cstep
  | .quit [] => some ({ s with pc := .exit (atExit s) }, [])
  | .quit (i :: rest) => onDev s i (.quitStop i rest) (fun d => some (I21.cbegin d .stop))
  | .quitStop i rest =>
    if free s i then onDev s i (.quitReset i rest) (fun d => some (I21.cbegin d (.reset false)))
    else onDev s i s.pc I21.cstep
  | .quitReset i rest =>
    if free s i then some ({ s with pc := .quit rest }, []) else onDev s i s.pc I21.cstep
  | .exit [] => some ({ s with pc := .gone }, [.gone])
  | .exit (i :: rest) => onDev s i (.exitReset i rest) (fun d => some (I21.cbegin d (.reset true)))
  | .exitReset i rest =>
    if free s i then some ({ s with pc := .exit rest }, []) else onDev s i s.pc (exitStep fork)
  | .gone => none

/-- One step. -/
def act (fork : Bool) (s : St) : Act → Option (St × List QEv)
  | .worker i c => if s.pc = .gone then none else onDev s i s.pc (fun d => I21.wstep d c)
  | .cmd k c =>
    if s.pc = .serving then
      match Dict.get? s.devmap k with
      | none => some (s, [])
      | some i => onDev s i (.cmd i none) (fun d => some (I21.cbegin d c))
    else none
  | .teardown k =>
    if s.pc = .serving then
      match Dict.get? s.devmap k with
      | none => some (s, [])
      | some i => onDev s i (.cmd i (some k)) (fun d => some (I21.cbegin d (.reset false)))
    else none
  | .register k =>
    if s.pc = .serving then
      some ({ s with devs := s.devs ++ [Dev.init], devmap := Dict.set s.devmap k s.devs.length }, [.made])
    else none
  | .stop => if s.pc = .serving then some ({ s with pc := .quit (Dict.values s.devmap) }, [.told]) else none
  | .die => if s.pc = .serving then some ({ s with pc := .exit (atExit s) }, [.died]) else none
  | .go => go fork s

/-- A run, with its history. -/
def run (fork : Bool) (s : St) : List Act → Option (St × List QEv)
  | [] => some (s, [])
  | a :: as =>
    match act fork s a with
    | none => none
    | some (s', es) =>
      match run fork s' as with
      | none => none
      | some (s'', es') => some (s'', es ++ es')

end Tomato.Quit
