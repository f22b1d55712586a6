import Verif.EndToEnd

/-!
# A whole job

All threads of a job (`Verif/JobThread.lean`), each with the component it talks to
(`Verif/EndToEnd.lean`), and the main thread of the job, which collects the names of the current tasks,
hands them to the threads and decides when the job is over: `job_main_loop`,
`/repo/src/tomato/daemon/job.py:723-829`.

The components of a job may belong to the same driver process or to different ones (`drv`).  A driver
process carries out one command at a time (`/repo/src/tomato/daemon/driver.py:247-316`): while a
component carries out a command, no command is begun on another component of the same driver.

Simplifications: those of the parts.  Commands to components which the job does not use only delay the
others, they are left out.
-/

namespace Tomato.Whole

/-- The parts: thread and component of each role; what the main thread knows; where it is. -/
structure St where
  parts : List E2E.St
  /-- `started_task_names` of the main thread -/
  started : List String := []
  main : JobT.MPc := .collect 0
  deriving DecidableEq, Repr

/-- The job at the beginning of the main loop, job.py:785, the components being in these states. -/
def St.init (cs : List (List Task × I21.Dev)) : St :=
  { parts := cs.map (fun c => E2E.St.init c.1 c.2) }

/-- The job process alone. -/
def St.jb (s : St) : JobT.Jb := { thrs := s.parts.map (·.t), started := s.started, main := s.main }

/-- Events. -/
inductive Ev where
  | part (k : Nat) (e : E2E.Ev)
  | main (e : JobT.JEv)
  deriving DecidableEq, Repr

/-- Actions: a step of one part, a step of the main thread. -/
inductive Act where
  | part (k : Nat) (a : E2E.Act)
  | main
  deriving DecidableEq, Repr

/-- The driver of component `k` is not occupied with a command to another component,
driver.py:247-316. -/
def free (drv : Nat → Nat) (s : St) (k : Nat) : Bool :=
  (List.range s.parts.length).all (fun j =>
    j == k || drv j != drv k || s.parts[j]?.all (fun p => p.d.cpc = .idle))

/-- What part `k` may do at this moment: the driver takes up requests, and measures, only when it is
free; names come from the main thread only. -/
def may (drv : Nat → Nat) (s : St) (k : Nat) : E2E.Act → Bool
  | .take _ => free drv s k
  | .measure => free drv s k
  | .tell _ => false
  | _ => true

/-- One step. -/
def act (drv : Nat → Nat) (s : St) : Act → Option (St × List Ev)
  | .part k a =>
    if may drv s k a then
      match s.parts[k]? with
      | none => none
      | some p =>
        match E2E.act p a with
        | none => none
        | some (p', es) => some ({ s with parts := s.parts.set k p' }, es.map (.part k))
    else none
  | .main =>
    match JobT.mstep s.jb with
    | none => none
    | some (j, e) =>
      some ({ parts := List.zipWith (fun p t => { p with t := t }) s.parts j.thrs,
              started := j.started, main := j.main }, [.main e])

/-- The history `h` leads to `s`. -/
inductive Hist (drv : Nat → Nat) (cs : List (List Task × I21.Dev)) : List Ev → St → Prop where
  | init : Hist drv cs [] (St.init cs)
  | step {h : List Ev} {s s' : St} {es : List Ev} (a : Act) :
      Hist drv cs h s → act drv s a = some (s', es) → Hist drv cs (h ++ es) s'

/-- A run, with its history. -/
def run (drv : Nat → Nat) (s : St) : List Act → Option (St × List Ev)
  | [] => some (s, [])
  | a :: as =>
    match act drv s a with
    | none => none
    | some (s', es) =>
      match run drv s' as with
      | none => none
      | some (s'', es') => some (s'', es ++ es')

end Tomato.Whole
