import Verif.Iface21

/-!
# Registering a component again

`ModelInterface.cmp_register`, `/repo/src/tomato/driverinterface_2_1/__init__.py:104-125`, stores a
new `ModelDevice` under the key of the component, whether there is one already or not.  The
automatic registration (`/repo/src/tomato/daemon/driver.py:54-79`) leaves out the components which
are registered; the command `cmp_register` (`/repo/src/tomato/daemon/driver.py:284-285`), which
`passata register` (`/repo/src/tomato/passata/__init__.py:105-128`) sends, does not.  A device that
is replaced is kept alive by its worker and by `atexit.register` (`2_1:505`); nothing tells its
worker to stop.

All devices that were ever created for one component are modelled, the *generations*.  Commands
reach the last one only (they look it up in `devmap`), the workers of all of them go on.

Simplifications: as in `Verif/Iface21.lean`.  A factory that raises an exception leaves everything
as it was (`self.devmap[key]` is not assigned), so only successful registrations appear.  The last
step of `cmp_reset` and the deletion from `devmap` in `cmp_teardown` (`2_1:141-142`) are one step:
no command comes between them and the deletion does not affect the worker.  The end of the process
(`atexit`) is in `Verif/Quit.lean`.
-/

namespace Tomato.Rereg
open Tomato.I21 (Dev Ev Cmd Choice)

/-- All devices of one component: the one in `devmap`, and those which it has replaced, the oldest
one first. -/
structure Slot where
  cur : Option Dev := none
  old : List Dev := []
  deriving DecidableEq, Repr

/-- Events: a device was created; an event of the generation `g`. -/
inductive REv where
  | made
  | dev (g : Nat) (e : Ev)
  deriving DecidableEq, Repr

/-- Actions. -/
inductive RAct where
  /-- a step of the current device, by its worker or by a command -/
  | dev (a : I21.Act)
  /-- a step of the worker of a replaced device -/
  | oldWorker (j : Nat) (c : Choice)
  /-- `cmp_register`, 2_1:104-125 -/
  | register
  /-- the end of `cmp_teardown`, 2_1:141-142 -/
  | drop
  deriving DecidableEq, Repr

/-- One step. -/
def act (s : Slot) : RAct → Option (Slot × List REv)
  | .dev a =>
    match s.cur with
    | none => none
    | some d =>
      match I21.act d a with
      | none => none
      | some (d', es) => some ({ s with cur := some d' }, es.map (.dev s.old.length))
  | .oldWorker j c =>
    match s.old[j]? with
    | none => none
    | some d =>
      match I21.wstep d c with
      | none => none
      | some (d', es) => some ({ s with old := s.old.set j d' }, es.map (.dev j))
  | .register =>
    match s.cur with
    | none => some ({ s with cur := some Dev.init }, [.made])
    | some d =>
      if d.cpc = .idle then some ({ cur := some Dev.init, old := s.old ++ [d] }, [.made])
      else none
  | .drop =>
    match s.cur with
    | none => none
    | some d =>
      if d.cpc = .rJoin false then
        match I21.cstep d with
        | none => none
        | some (d', es) =>
          some ({ cur := none, old := s.old ++ [d'] }, es.map (.dev s.old.length))
      else none

/-- A run, with its history. -/
def run (s : Slot) : List RAct → Option (Slot × List REv)
  | [] => some (s, [])
  | a :: as =>
    match act s a with
    | none => none
    | some (s', es) =>
      match run s' as with
      | none => none
      | some (s'', es') => some (s'', es ++ es')

/-- The history `h` leads to the state `s`. -/
inductive Hist : List REv → Slot → Prop where
  | init : Hist [] {}
  | step {h : List REv} {s s' : Slot} {es : List REv} (a : RAct) :
      Hist h s → act s a = some (s', es) → Hist (h ++ es) s'

end Tomato.Rereg
