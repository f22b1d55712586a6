import Verif.Dict

/-!
# `tomato start`, `tomato stop`, `tomato reload` and daemon processes on one port

`start` 259-330, `stop` 333-372, `reload` 462-508 of `/repo/src/tomato/tomato/__init__.py`, and the
beginning of a daemon process, `/repo/src/tomato/daemon/__init__.py` 49-59.

Any number of these commands and of daemon processes run concurrently.  A configuration is an opaque
number; `files a` is the configuration that can be read in the folder `a` (`none`: there is no settings
file, or it cannot be parsed).  What the daemon does with the messages is abstracted from `Verif/Cmd.lean`:
`status` is always answered with the daemon object, `stop` and `reload` may be refused because of running
jobs (`refuse`, chosen by the environment).

Simplifications: a port is bound and released at once; a request is received and answered in one step; a
request for which there is nobody to receive it waits (zmq connects again and again).  A request received by
the socket of a `tomato start` that is testing the port is lost: this is the same as no answer in time, for
requests with a timeout, and leaves the others waiting for ever; it is only modelled for the former.
-/

namespace Tomato.Cli

/-- The daemon object as seen by a client. -/
structure DInfo where
  appdir : String
  cfg : Nat
  deriving DecidableEq, Repr

/-- Results of the commands. -/
inductive Res where
  /-- `start`: "required port is already in use", 300-304 -/
  | inUse
  /-- `start`: "tomato-daemon already running", 295-299 -/
  | alreadyRunning
  /-- "settings file not found", 306-310, 483-489 -/
  | noSettings
  /-- "tomato not running", 250-256 -/
  | notRunning
  /-- `start`: the reply to `status`, 330 -/
  | started (d : DInfo)
  /-- `stop`: "closed successfully", 368 -/
  | closed
  /-- the daemon refused, 370, 501-502 -/
  | refused
  /-- `reload`: "reloaded with settings from `appdir`", 504-508 -/
  | reloaded (appdir : String) (d : DInfo)
  deriving DecidableEq, Repr

/-- Where a command is. -/
inductive CPc where
  /-- `start`: before `rep.bind`, 288-290 -/
  | bind
  /-- `start`: in `status`, 291 -/
  | probe
  /-- `start`: before `rep.unbind`, 292; the result of `status` -/
  | unbind (stat : Option DInfo)
  /-- `start`: 306-313 -/
  | check
  /-- `start`: 316-327 -/
  | spawn
  /-- `start`: in the second `status`, 330 -/
  | confirm
  /-- `reload`: 482-489 -/
  | files
  /-- `stop`, `reload`: in `status`, 361, 492 -/
  | ask
  /-- `stop`, `reload`: before `req.send_pyobj`, 363-365, 496-499 -/
  | send
  /-- `stop`, `reload`: in `req.recv_pyobj`, 366, 500 -/
  | wait
  | done (r : Res)
  deriving DecidableEq, Repr

/-- The commands. -/
inductive Kind where
  | start | stop | reload
  deriving DecidableEq, Repr

/-- A command. -/
structure Client where
  kind : Kind
  appdir : String
  pc : CPc
  deriving DecidableEq, Repr

/-- Where a daemon process is. -/
inductive DPc where
  /-- before `Daemon(...)`, daemon/__init__.py:51 -/
  | load
  /-- before `cmd.reload`, 55 -/
  | setup
  /-- before `rep.bind`, 58 -/
  | bind
  /-- main loop -/
  | serving
  /-- main loop, with `daemon.status == "stop"` -/
  | stopping
  | gone
  deriving DecidableEq, Repr

/-- A daemon process. -/
structure Dm where
  /-- the `tomato start` that launched it -/
  by_ : Nat
  appdir : String
  cfg : Nat := 0
  pc : DPc := .load
  deriving DecidableEq, Repr

/-- Who has bound the port. -/
inductive Holder where
  | client (k : Nat)
  | daemon (j : Nat)
  | other
  deriving DecidableEq, Repr

/-- The system. -/
structure CSys where
  clients : List Client
  daemons : List Dm := []
  holder : Option Holder := none
  files : String → Option Nat
  /-- `cmd.reload` of daemon `j` in status `bootstrap` has written the configuration into the tables, the
  latest first -/
  setups : List (Nat × Nat) := []

/-- What happens next. -/
inductive CAct where
  /-- a command performs its next step; `late`: no answer in time; `refuse`: the daemon refuses because of
  running jobs -/
  | client (k : Nat) (late refuse : Bool)
  /-- a daemon performs its next step; `exit`: in the main loop, it ends (after a stop, because the managers
  have ended; otherwise because of an exception) -/
  | daemon (j : Nat) (exit : Bool)
  /-- the files are edited -/
  | edit (a : String) (c : Option Nat)
  /-- another program binds or releases the port -/
  | other
  deriving DecidableEq, Repr

/-- The daemon process is in its main loop. -/
def DPc.up : DPc → Bool
  | .serving => true
  | .stopping => true
  | _ => false

/-- Who answers a message: the daemon in its main loop that has bound the port. -/
def answers (s : CSys) : Option (Nat × Dm) :=
  match s.holder with
  | some (.daemon j) =>
    match s.daemons[j]? with
    | some d => if d.pc.up then some (j, d) else none
    | none => none
  | _ => none

/-- `status(...)`, 106-256: the daemon's answer, or none in time. -/
inductive Ask where
  | pending
  | got (d : DInfo)
  | timeout

/-- A request for the status. -/
def askStatus (s : CSys) (late : Bool) : Ask :=
  if late then .timeout
  else match answers s with
    | some (_, d) => .got ⟨d.appdir, d.cfg⟩
    | none => .pending

/-- Set the place of a command. -/
def setC (s : CSys) (k : Nat) (c : Client) (pc : CPc) : CSys :=
  { s with clients := s.clients.set k { c with pc := pc } }

/-- Change a daemon. -/
def setD (s : CSys) (j : Nat) (d : Dm) : CSys := { s with daemons := s.daemons.set j d }

/-- The next step of a command. -/
def clientStep (s : CSys) (k : Nat) (c : Client) (late refuse : Bool) : CSys :=
  match c.pc with
  | .bind =>
    match s.holder with
    | some _ => setC s k c (.done .inUse)
    | none => setC { s with holder := some (.client k) } k c .probe
  | .probe =>
    match askStatus s late with
    | .pending => s
    | .timeout => setC s k c (.unbind none)
    | .got d => setC s k c (.unbind (some d))
  | .unbind stat =>
    setC { s with holder := if s.holder = some (.client k) then none else s.holder } k c
      (match stat with
        | none => .check
        | some _ => .done .alreadyRunning)
  | .check =>
    match s.files c.appdir with
    | none => setC s k c (.done .noSettings)
    | some _ => setC s k c .spawn
  | .spawn =>
    setC { s with daemons := s.daemons ++ [{ by_ := k, appdir := c.appdir }] } k c .confirm
  | .confirm =>
    match askStatus s late with
    | .pending => s
    | .timeout => setC s k c (.done .notRunning)
    | .got d => setC s k c (.done (.started d))
  | .files =>
    match s.files c.appdir with
    | none => setC s k c (.done .noSettings)
    | some _ => setC s k c .ask
  | .ask =>
    match askStatus s late with
    | .pending => s
    | .timeout => setC s k c (.done .notRunning)
    | .got _ => setC s k c .send
  | .send => setC s k c .wait
  | .wait =>
    match answers s with
    | none => s
    | some (j, d) =>
      match c.kind with
      | .start => s
      | .stop =>
        if refuse then setC s k c (.done .refused)
        else setC (setD s j { d with pc := .stopping }) k c (.done .closed)
      | .reload =>
        if refuse then setC s k c (.done .refused)
        else
          -- cmd.py:76-90: the daemon reads the files in its own folder
          match s.files d.appdir with
          | none => setC s k c (.done .refused)
          | some cfg => setC (setD s j { d with cfg := cfg }) k c (.done (.reloaded c.appdir ⟨d.appdir, cfg⟩))
  | .done _ => s

/-- The next step of a daemon process. -/
def daemonStep (s : CSys) (j : Nat) (d : Dm) (exit : Bool) : CSys :=
  match d.pc with
  | .load =>
    match s.files d.appdir with
    | none => setD s j { d with pc := .gone }
    | some cfg => setD s j { d with cfg := cfg, pc := .setup }
  | .setup => setD { s with setups := (j, d.cfg) :: s.setups } j { d with pc := .bind }
  | .bind =>
    match s.holder with
    | some _ => setD s j { d with pc := .gone }
    | none => setD { s with holder := some (.daemon j) } j { d with pc := .serving }
  | .serving =>
    if exit then setD { s with holder := if s.holder = some (.daemon j) then none else s.holder } j { d with pc := .gone }
    else s
  | .stopping =>
    if exit then setD { s with holder := if s.holder = some (.daemon j) then none else s.holder } j { d with pc := .gone }
    else s
  | .gone => s

/-- Execute an action; actions that are not possible do nothing. -/
def cstep (s : CSys) (a : CAct) : CSys :=
  match a with
  | .client k late refuse =>
    match s.clients[k]? with
    | none => s
    | some c => clientStep s k c late refuse
  | .daemon j exit =>
    match s.daemons[j]? with
    | none => s
    | some d => daemonStep s j d exit
  | .edit a c => { s with files := fun x => if x = a then c else s.files x }
  | .other =>
    match s.holder with
    | none => { s with holder := some .other }
    | some .other => { s with holder := none }
    | _ => s

/-- Several actions. -/
def crun (s : CSys) (as : List CAct) : CSys := as.foldl cstep s

/-- Where a command begins. -/
def Kind.first : Kind → CPc
  | .start => .bind
  | .stop => .ask
  | .reload => .files

/-- The beginning: commands given by users (kind and folder), no daemon. -/
def CSys.init (cs : List (Kind × String)) (files : String → Option Nat) : CSys :=
  { clients := cs.map (fun x => ⟨x.1, x.2, x.1.first⟩), files := files }

end Tomato.Cli
