import Verif.EndToEnd

/-!
# Several threads and the components they share

Any number of threads, of one job or of several (`job_thread`, `/repo/src/tomato/daemon/job.py:500-719`,
`Verif/JobThread.lean`), and the components they talk to (`Verif/Iface21.lean`).  Which component a
thread talks to follows from the configuration: `job_main_loop` starts one thread per role, with the
component of this role (`job.py:752-777`); nothing in the code prevents two roles, or two
pipelines, from having the same component.

It differs from `Verif/EndToEnd.lean` only in that a component may get requests from several threads.
Simplification: drivers do not occur; a component takes up a request when it is not carrying out
another one.
-/

namespace Tomato.Plant

open Tomato.E2E (Net)

/-- Which component thread `k` talks to, and how its task `i` is called on this component. -/
structure Lay where
  comp : Nat → Nat
  tag : Nat → Nat → Nat

/-- A thread and its request. -/
structure Cl where
  t : JobT.Thr
  net : Net := .idle
  deriving DecidableEq, Repr

structure St where
  cls : List Cl
  devs : List I21.Dev
  deriving DecidableEq, Repr

/-- Threads which are about to begin, and their components. -/
def St.init (ts : List (List Task)) (devs : List I21.Dev) : St where
  cls := ts.map (fun tasks => { t := { tasks := tasks } })
  devs := devs

/-- Events of thread `k`, or of component `m`. -/
inductive Ev where
  | thr (k : Nat) (e : JobT.Ev)
  | dev (m : Nat) (e : I21.Ev)
  deriving DecidableEq, Repr

/-- Task `n` of component `m`: it was sent by one of the threads. -/
def taskOf (L : Lay) (cls : List Cl) (m n : Nat) : Option Task :=
  (List.range cls.length).findSome? (fun k =>
    if L.comp k = m then
      (cls[k]?).bind (fun c =>
        ((List.range c.t.tasks.length).find? (fun i => L.tag k i == n)).bind (fun i => c.t.tasks[i]?))
    else none)

/-- `task_status`, `/repo/src/tomato/driverinterface_2_1/__init__.py:308-325`. -/
def status (L : Lay) (cls : List Cl) (m : Nat) (d : I21.Dev) : JobT.Ans :=
  .reply true
    (some { running := d.running.isSome, canSubmit := true,
            task := some (match d.running with
              | some (.task n) => taskOf L cls m n
              | _ => none) })
    none

/-- Component `m` takes up the request `q` of a thread, whose task is called `n`: the component,
the request and the events afterwards. -/
def take (L : Lay) (cls : List Cl) (m n : Nat) (d : I21.Dev) (q : JobT.Q) (acceptable : Bool) :
    I21.Dev × Net × List I21.Ev :=
  let via (c : I21.Cmd) (x : Net) : I21.Dev × Net × List I21.Ev :=
    ((I21.cbegin d c).1, x, (I21.cbegin d c).2)
  match q with
  | .ready => (d, .ans (status L cls m d), [])
  | .running => (d, .ans (status L cls m d), [])
  | .status => (d, .ans (status L cls m d), [])
  | .start =>
    if acceptable then via (.start n) (.ans (.reply true none none))
    else (d, .ans (.reply false none none), [])
  | .data => via .data (.exec .data)
  | .final => via .data (.exec .final)
  | .stop => via .stop (.exec .stop)
  | .reset => via (.reset true) (.exec .reset)

inductive Act where
  /-- thread `k` does a step -/
  | thr (k : Nat) (c : JobT.Choice)
  /-- the main thread of the job adds names -/
  | tell (k : Nat) (ns : List String)
  /-- the request of thread `k` is taken up -/
  | take (k : Nat) (acceptable : Bool)
  /-- the worker of component `m` does a step -/
  | work (m : Nat) (c : I21.Choice)
  /-- the command thread goes on with the command for component `m` -/
  | cont (m : Nat)
  /-- a one-shot measurement is asked for -/
  | measure (m : Nat)
  /-- the request of thread `k`, or its answer, is lost -/
  | lose (k : Nat)
  deriving DecidableEq, Repr

/-- A step of a thread, with the request afterwards. -/
def thrStep (c : Cl) (x : JobT.Choice) (n : Net) : Option (Cl × JobT.Ev) :=
  match JobT.tstep c.t x with
  | none => none
  | some (t', e) => some (⟨t', n⟩, e)

/-- The thread sends its request, or takes the answer, or does something else. -/
def clStep (c : Cl) (x : JobT.Choice) : Option (Cl × JobT.Ev) :=
  match c.t.pc with
  | .wait _ =>
    match c.net with
    | .ans a => thrStep c { x with ans := a } .idle
    | _ => none
  | .ask q => thrStep c x (.req q)
  | _ => thrStep c x c.net

/-- The answers of component `m`: only a thread whose request is being carried out gets one. -/
def answers (L : Lay) (m : Nat) (es : List I21.Ev) (cls : List Cl) : List Cl :=
  cls.mapIdx (fun k c => if L.comp k = m then { c with net := E2E.answered c.net es } else c)

/-- One step. -/
def act (L : Lay) (s : St) : Act → Option (St × List Ev)
  | .thr k x =>
    match s.cls[k]? with
    | none => none
    | some c =>
      match clStep c x with
      | none => none
      | some (c', e) => some ({ s with cls := s.cls.set k c' }, [.thr k e])
  | .tell k ns =>
    match s.cls[k]? with
    | none => none
    | some c => some ({ s with cls := s.cls.set k { c with t := { c.t with names := ns ++ c.t.names } } }, [])
  | .take k acceptable =>
    match s.cls[k]?, s.devs[L.comp k]? with
    | some c, some d =>
      match c.net with
      | .req q =>
        if d.cpc = .idle then
          let r := take L s.cls (L.comp k) (L.tag k c.t.i) d q acceptable
          some ({ cls := s.cls.set k { c with net := r.2.1 }, devs := s.devs.set (L.comp k) r.1 },
            r.2.2.map (.dev (L.comp k)))
        else none
      | _ => none
    | _, _ => none
  | .work m x =>
    match s.devs[m]? with
    | none => none
    | some d =>
      match I21.wstep d x with
      | none => none
      | some (d', es) => some ({ s with devs := s.devs.set m d' }, es.map (.dev m))
  | .cont m =>
    match s.devs[m]? with
    | none => none
    | some d =>
      match I21.cstep d with
      | none => none
      | some (d', es) =>
        some ({ cls := answers L m es s.cls, devs := s.devs.set m d' }, es.map (.dev m))
  | .measure m =>
    match s.devs[m]? with
    | none => none
    | some d =>
      if d.cpc = .idle then
        some ({ s with devs := s.devs.set m (I21.cbegin d .measure).1 },
          (I21.cbegin d .measure).2.map (.dev m))
      else none
  | .lose k =>
    match s.cls[k]? with
    | none => none
    | some c =>
      match c.net with
      | .idle => none
      | _ => some ({ s with cls := s.cls.set k { c with net := .ans .closed } }, [])

/-- The history `h` leads to `s`. -/
inductive Hist (L : Lay) (ts : List (List Task)) (devs : List I21.Dev) : List Ev → St → Prop where
  | init : Hist L ts devs [] (St.init ts devs)
  | step {h : List Ev} {s s' : St} {es : List Ev} (a : Act) :
      Hist L ts devs h s → act L s a = some (s', es) → Hist L ts devs (h ++ es) s'

/-- A run, with its history. -/
def run (L : Lay) (s : St) : List Act → Option (St × List Ev)
  | [] => some (s, [])
  | a :: as =>
    match act L s a with
    | none => none
    | some (s', es) =>
      match run L s' as with
      | none => none
      | some (s'', es') => some (s'', es ++ es')

end Tomato.Plant
