import Verif.JobThread
import Verif.Iface21

/-!
# A thread of a job together with the component it talks to

`job_thread` (`Verif/JobThread.lean`) sends requests to a driver process; the driver process hands
them to a component (`Verif/Iface21.lean`) and sends back the reply.  Here both run side by side, for
interface 2.1: `tomato_driver`'s main loop, `/repo/src/tomato/daemon/driver.py:247-316`, carries out
one request at a time.

A request is carried out once, and its answer reaches the thread, or the thread gets no answer at all
(`St.act .lose`), in which case it gives up; the repetition of requests in `lpp.comm` is the subject of
`Verif/Lpp.lean`.  Besides, other processes and the idle measurement of the driver itself
(driver.py:312-316) may cause one-shot measurements, and the main thread of the job may add names, at
any time.  Other users of the component, and resets that the job does not ask for, are left out.
-/

namespace Tomato.E2E

/-- The request of the thread. -/
inductive Net where
  /-- there is none -/
  | idle
  /-- it has been sent -/
  | req (q : JobT.Q)
  /-- the driver carries it out -/
  | exec (q : JobT.Q)
  /-- it has been answered -/
  | ans (a : JobT.Ans)
  deriving DecidableEq, Repr

/-- The thread, the component, the request.  Task `n` of the thread is task `n` for the component. -/
structure St where
  t : JobT.Thr
  d : I21.Dev
  net : Net
  deriving DecidableEq, Repr

/-- A thread which is about to begin, and a component. -/
def St.init (tasks : List Task) (d : I21.Dev) : St := { t := { tasks := tasks }, d := d, net := .idle }

/-- Events of the thread and of the component. -/
inductive Ev where
  | thr (e : JobT.Ev)
  | dev (e : I21.Ev)
  deriving DecidableEq, Repr

/-- `task_status`, `/repo/src/tomato/driverinterface_2_1/__init__.py:308-325`.  The queue has no
maximal size, thus it is never full. -/
def status (tasks : List Task) (d : I21.Dev) : JobT.Ans :=
  .reply true
    (some { running := d.running.isSome, canSubmit := true,
            task := some (match d.running with
              | some (.task n) => tasks[n]?
              | _ => none) })
    none

/-- The reply of `task_data` (2_1:343-361: no success without data) or of `task_stop` (2_1:327-341),
and that of `cmp_reset` (2_1:146-159). -/
def reply (q : JobT.Q) (r : Option (List Nat)) : JobT.Ans :=
  match q with
  | .stop => .reply true none r
  | _ => .reply r.isSome none r

/-- The driver takes up the request `q`: `task_status` is carried out at once, `task_start`, too, if the
task is acceptable; the other ones need more steps. -/
def take (s : St) (q : JobT.Q) (acceptable : Bool) : St × List I21.Ev :=
  let via (c : I21.Cmd) (n : Net) : St × List I21.Ev :=
    ({ s with d := (I21.cbegin s.d c).1, net := n }, (I21.cbegin s.d c).2)
  match q with
  | .ready => ({ s with net := .ans (status s.t.tasks s.d) }, [])
  | .running => ({ s with net := .ans (status s.t.tasks s.d) }, [])
  | .status => ({ s with net := .ans (status s.t.tasks s.d) }, [])
  | .start =>
    if acceptable then via (.start s.t.i) (.ans (.reply true none none))
    else ({ s with net := .ans (.reply false none none) }, [])
  | .data => via .data (.exec .data)
  | .final => via .data (.exec .final)
  | .stop => via .stop (.exec .stop)
  | .reset => via (.reset true) (.exec .reset)

/-- The answer to the request being carried out, if the command thread has just finished with it. -/
def answered (n : Net) (es : List I21.Ev) : Net :=
  match n with
  | .exec q =>
    match es with
    | [.replied r] => .ans (reply q r)
    | [.wasReset] => .ans (.reply true none none)
    | _ => n
  | _ => n

/-- Actions. -/
inductive Act where
  /-- the thread does a step -/
  | thr (c : JobT.Choice)
  /-- the main thread of the job adds names -/
  | tell (ns : List String)
  /-- the driver takes up the request -/
  | take (acceptable : Bool)
  /-- the worker of the component does a step -/
  | work (c : I21.Choice)
  /-- the command thread goes on with a command -/
  | cont
  /-- a one-shot measurement is asked for by somebody else -/
  | measure
  /-- the request or its answer is lost -/
  | lose
  deriving DecidableEq, Repr

/-- A step of the thread, with this answer, leaving the network in this state. -/
def thrStep (s : St) (c : JobT.Choice) (n : Net) : Option (St × List Ev) :=
  match JobT.tstep s.t c with
  | none => none
  | some (t', e) => some ({ s with t := t', net := n }, [.thr e])

/-- One step of the system. -/
def act (s : St) : Act → Option (St × List Ev)
  | .thr c =>
    match s.t.pc with
    | .wait _ =>
      match s.net with
      | .ans a => thrStep s { c with ans := a } .idle
      | _ => none
    | .ask q => thrStep s c (.req q)
    | _ => thrStep s c s.net
  | .tell ns => some ({ s with t := { s.t with names := ns ++ s.t.names } }, [])
  | .take acceptable =>
    match s.net with
    | .req q =>
      if s.d.cpc = .idle then
        let r := take s q acceptable
        some (r.1, r.2.map .dev)
      else none
    | _ => none
  | .work c =>
    match I21.wstep s.d c with
    | none => none
    | some (d', es) => some ({ s with d := d' }, es.map .dev)
  | .cont =>
    match I21.cstep s.d with
    | none => none
    | some (d', es) => some ({ s with d := d', net := answered s.net es }, es.map .dev)
  | .measure =>
    if s.d.cpc = .idle then
      some ({ s with d := (I21.cbegin s.d .measure).1 }, (I21.cbegin s.d .measure).2.map .dev)
    else none
  | .lose =>
    match s.net with
    | .idle => none
    | _ => some ({ s with net := .ans .closed }, [])

/-- The history `h` leads to `s`, with the component being `d₀` at first. -/
inductive Hist (tasks : List Task) (d₀ : I21.Dev) : List Ev → St → Prop where
  | init : Hist tasks d₀ [] (St.init tasks d₀)
  | step {h : List Ev} {s s' : St} {es : List Ev} (a : Act) :
      Hist tasks d₀ h s → act s a = some (s', es) → Hist tasks d₀ (h ++ es) s'

/-- A run, with its history. -/
def run (s : St) : List Act → Option (St × List Ev)
  | [] => some (s, [])
  | a :: as =>
    match act s a with
    | none => none
    | some (s', es) =>
      match run s' as with
      | none => none
      | some (s'', es') => some (s'', es ++ es')

end Tomato.E2E
