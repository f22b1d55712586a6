import Verif.Prog
import Verif.Models

/-!
# passata

The command line tool that talks to drivers, `/repo/src/tomato/passata/__init__.py`.

The environment answers three kinds of questions: what the daemon reports (`tomato.status`), what
the driver table contains (`drvdb.get_drv`), and what a driver replies.  The answers may be
different every time (`Env`); requests to drivers are logged together with their answers.

Simplifications: drivers always reply with a `Reply` (never `None`); texts of messages are
enumerated; the option `yaml` only changes the text.
-/

namespace Tomato.Passata

/-- The commands sent to drivers. -/
inductive PCmd where
  | status | register | attrs | capabilities | constants
  | getAttr (attr : String)
  | setAttr (attr : String) (val : Int)
  | reset | lastData | measure
  deriving DecidableEq, Repr

/-- A request: command, port of the driver, address and channel of the component. -/
structure Req where
  cmd : PCmd
  port : Nat
  address : String
  channel : String
  deriving DecidableEq, Repr

/-- Data in the reply of a driver: a dictionary with or without key "running" (and whether its value
counts as true), or anything else. -/
inductive Raw where
  | status (running : Option Bool)
  | val (v : Int)
  deriving DecidableEq, Repr

/-- Data in the reply of a function of this module. -/
inductive PData where
  | raw (r : Raw)
  | daemon (d : Daemon)
  | attrs (d : Dict String (Option Raw))
  deriving DecidableEq, Repr

inductive PMsg where
  | daemonDown | notFound | noPort | zmqTimeout | invalidStatus | isRunning | canSet | retrieved
  | fromDriver
  deriving DecidableEq, Repr

abbrev PReply := Reply PMsg PData

/-- What a driver replies. -/
structure Ans where
  success : Bool
  data : Option Raw := none
  deriving DecidableEq, Repr

inductive POp where
  /-- `tomato.status(stgrp="tomato")`; `none`: it failed or has no data -/
  | daemon
  /-- `drvdb.get_drv` -/
  | getDrv (name : String)
  /-- connect, send, receive; `none`: ZMQError while receiving -/
  | ask (r : Req)
  deriving DecidableEq, Repr

def PSig : Sig where
  Op := POp
  Resp
    | .daemon => Option Daemon
    | .getDrv _ => Option DrvState
    | .ask _ => Option Ans

/-- The environment, asked for the `k`-th time, and the requests sent so far. -/
structure Env where
  k : Nat := 0
  daemon : Nat → Option Daemon
  drv : Nat → String → Option DrvState
  ans : Nat → Req → Option Ans
  log : List (Req × Option Ans) := []

def exec : Prog.Handler PSig Env
  | .daemon, w => (.ok (w.daemon w.k), { w with k := w.k + 1 })
  | .getDrv n, w => (.ok (w.drv w.k n), { w with k := w.k + 1 })
  | .ask r, w => (.ok (w.ans w.k r), { w with k := w.k + 1, log := w.log ++ [(r, w.ans w.k r)] })

def doDaemon : Prog PSig (Option Daemon) := Prog.call (S := PSig) POp.daemon
def doGetDrv (n : String) : Prog PSig (Option DrvState) := Prog.call (S := PSig) (POp.getDrv n)
def doAsk (r : Req) : Prog PSig (Option Ans) := Prog.call (S := PSig) (POp.ask r)

def fail (m : PMsg) : PReply := { success := false, msg := m }

/-- The reply of a driver, as returned to the caller. -/
def ofAns (a : Ans) : PReply := { success := a.success, msg := .fromDriver, data := a.data.map .raw }

/-- `_name_to_cmp`, passata/__init__.py:32-52. -/
def nameToCmp (name : String) : Prog PSig (PReply ⊕ (Component × DrvState)) :=
  .bind doDaemon fun d =>
  match d with
  | none => .pure (.inl (fail .daemonDown))
  | some d =>
    match d.devicefile.components.get? name with
    | none => .pure (.inl { success := false, msg := .notFound, data := some (.daemon d) })
    | some cmp =>
      .bind (doGetDrv cmp.driver) fun drv =>
      match drv with
      | none => .raise .assertionError
      | some drv => .pure (.inr (cmp, drv))

/-- Connect, send one command, receive one reply. -/
def ask1 (cmd : PCmd) (port : Nat) (cmp : Component) : Prog PSig PReply :=
  .bind (doAsk ⟨cmd, port, cmp.address, cmp.channel⟩) fun a =>
  match a with
  | none => .pure (fail .zmqTimeout)
  | some a => .pure (ofAns a)

/-- The common shape of `status`, `attrs`, `capabilities`, `constants`, `get_last_data` and
`measure`, passata/__init__.py:78-102, 131-212, 326-379. -/
def simple (cmd : PCmd) (name : String) : Prog PSig PReply :=
  .bind (nameToCmp name) fun r =>
  match r with
  | .inl rep => .pure rep
  | .inr (cmp, drv) =>
    match drv.port with
    | none => .pure (fail .noPort)
    | some port => ask1 cmd port cmp

/-- `register`, passata/__init__.py:105-128: no check of the port; `connect` raises if the port is
missing. -/
def register (name : String) : Prog PSig PReply :=
  .bind (nameToCmp name) fun r =>
  match r with
  | .inl rep => .pure rep
  | .inr (cmp, drv) =>
    match drv.port with
    | none => .raise .zmqError
    | some port => ask1 .register port cmp

/-- `status`, passata/__init__.py:78-102. -/
def status (name : String) : Prog PSig PReply := simple .status name

/-- What `_running_or_force` makes of the reply of `status`, passata/__init__.py:62-74. -/
def judge (ret : PReply) : Prog PSig PReply :=
  if !ret.success then .pure (fail .invalidStatus) else
  match ret.data with
  | none => .pure (fail .invalidStatus)
  | some (.raw (.status (some true))) => .pure (fail .isRunning)
  | some (.raw (.status (some false))) => .pure { success := true, msg := .canSet }
  | some (.raw (.status none)) => .raise .keyError
  | some _ => .raise .typeError

/-- `_running_or_force`, passata/__init__.py:55-75. -/
def runningOrForce (name : String) (force : Bool) : Prog PSig PReply :=
  if force then .pure { success := true, msg := .canSet } else
  .bind (status name) judge

/-- `set_attr` and `reset`, passata/__init__.py:257-323 (they differ in the command only). -/
def modify (cmd : PCmd) (name : String) (force : Bool) : Prog PSig PReply :=
  .bind (nameToCmp name) fun r =>
  match r with
  | .inl rep => .pure rep
  | .inr (cmp, drv) =>
    match drv.port with
    | none => .pure (fail .noPort)
    | some port =>
      .bind (runningOrForce name force) fun ret =>
      if !ret.success then .pure ret else ask1 cmd port cmp

/-- `set_attr`, passata/__init__.py:257-290. -/
def setAttr (name attr : String) (val : Int) (force : Bool) : Prog PSig PReply :=
  modify (.setAttr attr val) name force

/-- `reset`, passata/__init__.py:293-323. -/
def reset (name : String) (force : Bool) : Prog PSig PReply := modify .reset name force

/-- The loop of `get_attrs`, passata/__init__.py:236-244. -/
def getLoop (port : Nat) (cmp : Component) : List String → Dict String (Option Raw) → Prog PSig PReply
  | [], data => .pure { success := true, msg := .retrieved, data := some (.attrs data) }
  | attr :: rest, data =>
    .bind (doAsk ⟨.getAttr attr, port, cmp.address, cmp.channel⟩) fun a =>
    match a with
    | none => .pure (fail .zmqTimeout)
    | some a =>
      if !a.success then .pure (ofAns a)
      else getLoop port cmp rest (data.set attr a.data)

/-- `get_attrs`, passata/__init__.py:215-254. -/
def getAttrs (name : String) (attrs : List String) : Prog PSig PReply :=
  .bind (nameToCmp name) fun r =>
  match r with
  | .inl rep => .pure rep
  | .inr (cmp, drv) =>
    match drv.port with
    | none => .pure (fail .noPort)
    | some port => getLoop port cmp attrs []

end Tomato.Passata
