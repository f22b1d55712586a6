import Verif.JobThread
import Verif.Iface20

/-!
# A thread of a job together with a component of interface 2.0

Like `Verif/EndToEnd.lean`, but with a component of interface 2.0 (`Verif/Iface20.lean`): `job_thread`
(`Verif/JobThread.lean`) sends requests, `tomato_driver`'s main loop,
`/repo/src/tomato/daemon/driver.py:247-316`, carries out one at a time, the threads of the component
run in between.  A request is carried out once, and its answer reaches the thread, or the thread gets no
answer at all.  The driver itself (driver.py:312-316) or other processes may cause one-shot measurements
at any time.  Other users of the component are left out.  When the driver process has ended, no thread of
the component runs any more and no request is answered.
-/

namespace Tomato.E2E20

/-- The request of the thread. -/
inductive Net where
  /-- there is none -/
  | idle
  /-- it has been sent -/
  | req (q : JobT.Q)
  /-- it has been answered -/
  | ans (a : JobT.Ans)
  deriving DecidableEq, Repr

/-- The thread, the component, the request.  Task `n` of the thread is task `n` for the component. -/
structure St where
  t : JobT.Thr
  d : I20.Dev
  net : Net
  deriving DecidableEq, Repr

/-- A thread which is about to begin, and a component. -/
def St.init (tasks : List Task) (d : I20.Dev) : St := { t := { tasks := tasks }, d := d, net := .idle }

/-- Events of the thread and of the component. -/
inductive Ev where
  | thr (e : JobT.Ev)
  | dev (e : I20.Ev)
  deriving DecidableEq, Repr

/-- `task_status`, `/repo/src/tomato/driverinterface_2_0/__init__.py:357-373`: there is no key `task`. -/
def status (d : I20.Dev) : JobT.Ans :=
  .reply true (some { running := d.running, canSubmit := !d.running, task := none }) none

/-- The driver carries out a command which has this answer.  `sys.exit` in `log_errors`, 2_0:68-88,
leaves the request without an answer. -/
def via (s : St) (c : I20.Cmd) (a : JobT.Ans) : St × List I20.Ev :=
  let r := I20.command s.d c
  ({ s with d := r.1, net := if r.1.exited then s.net else .ans a }, r.2)

/-- The driver carries out the request `q`: `task_status` (2_0:357-373), `task_start` (2_0:334-355), if
`task_validate` accepts the task, `task_data` (2_0:397-415: no success without data), `task_stop`
(2_0:375-395), `cmp_reset` (2_0:197-208). -/
def take (s : St) (q : JobT.Q) (acceptable : Bool) : St × List I20.Ev :=
  match q with
  | .ready => ({ s with net := .ans (status s.d) }, [])
  | .running => ({ s with net := .ans (status s.d) }, [])
  | .status => ({ s with net := .ans (status s.d) }, [])
  | .start =>
    if acceptable then via s (.start s.t.i) (.reply true none none)
    else ({ s with net := .ans (.reply false none none) }, [])
  | .data => via s .data (.reply s.d.data.isSome none s.d.data)
  | .final => via s .data (.reply s.d.data.isSome none s.d.data)
  | .stop => via s .stop (.reply true none s.d.data)
  | .reset => via s .reset (.reply true none none)

/-- Actions. -/
inductive Act where
  /-- the thread of the job does a step -/
  | thr (c : JobT.Choice)
  /-- the main thread of the job adds names -/
  | tell (ns : List String)
  /-- the driver carries out the request -/
  | take (acceptable : Bool)
  /-- the thread `i` of the component does a step -/
  | work (i : Nat) (c : I20.Choice)
  /-- a one-shot measurement is asked for by the driver or by somebody else -/
  | measure
  /-- the request or its answer is lost -/
  | lose
  deriving DecidableEq, Repr

/-- A step of the thread, with this answer, leaving the network in this state. -/
def thrStep (s : St) (c : JobT.Choice) (n : Net) : Option (St × List Ev) :=
  match JobT.tstep s.t c with
  | none => none
  | some (t', e) => some ({ s with t := t', net := n }, [.thr e])

/-- One step of the system. -/
def act (s : St) : Act → Option (St × List Ev)
  | .thr c =>
    match s.t.pc with
    | .wait _ =>
      match s.net with
      | .ans a => thrStep s { c with ans := a } .idle
      | _ => none
    | .ask q => thrStep s c (.req q)
    | _ => thrStep s c s.net
  | .tell ns => some ({ s with t := { s.t with names := ns ++ s.t.names } }, [])
  | .take acceptable =>
    match s.net with
    | .req q =>
      if s.d.exited then none
      else
        let r := take s q acceptable
        some (r.1, r.2.map .dev)
    | _ => none
  | .work i c =>
    if s.d.exited then none
    else
      match I20.tstep s.d i c with
      | none => none
      | some (d', es) => some ({ s with d := d' }, es.map .dev)
  | .measure =>
    if s.d.exited then none
    else some ({ s with d := (I20.command s.d .measure).1 }, (I20.command s.d .measure).2.map .dev)
  | .lose =>
    match s.net with
    | .idle => none
    | _ => some ({ s with net := .ans .closed }, [])

/-- The history `h` leads to `s`, with the component being `d₀` at first, and every action being
permitted by `P`. -/
inductive Hist (P : St → Act → Prop) (tasks : List Task) (d₀ : I20.Dev) : List Ev → St → Prop where
  | init : Hist P tasks d₀ [] (St.init tasks d₀)
  | step {h : List Ev} {s s' : St} {es : List Ev} (a : Act) :
      Hist P tasks d₀ h s → P s a → act s a = some (s', es) → Hist P tasks d₀ (h ++ es) s'

/-- A run, with its history. -/
def run (s : St) : List Act → Option (St × List Ev)
  | [] => some (s, [])
  | a :: as =>
    match act s a with
    | none => none
    | some (s', es) =>
      match run s' as with
      | none => none
      | some (s'', es') => some (s'', es ++ es')

end Tomato.E2E20
