import Verif.Prog
import Verif.Dict

/-!
# The driver process

`tomato_driver_bootstrap`, `perform_idle_measurements` and the main loop of `tomato_driver`,
`/repo/src/tomato/daemon/driver.py:36-81, 84-114, 248-319`; the decorators `in_devmap`, `to_reply`,
`log_errors` and the command `cmp_register` of both versions of the driver interface
(`driverinterface_2_1/decorators.py:13-70`, `driverinterface_2_1/__init__.py:100-124`,
`driverinterface_2_0/__init__.py:30-84, 156-175`).

The device's own code is not modelled: its results appear as part of the messages.  Replies are
reduced to their success flag.
-/

namespace Tomato.Drv

/-- `(address, channel)`. -/
abbrev Key := String × String

/-- Version of the driver interface. -/
inductive Ver where
  | v20
  | v21
  deriving DecidableEq, Repr

/-- The part of the interface object used here: registered components, failed registrations
(2.1 only) and the interval for idle measurements (`settings["idle_measurement_interval"]` or the
attribute of the interface), in milliseconds. -/
structure Iface where
  ver : Ver := .v21
  devmap : List Key := []
  retries : Dict Key Nat := []
  imi : Option Nat := none
  deriving DecidableEq, Repr

/-- What the device does when it is registered. -/
inductive RegOut where
  /-- all is well -/
  | ok
  /-- `DeviceFactory` raises `RuntimeError` -/
  | factory
  /-- `capabilities` of the new device raises `RuntimeError` -/
  | caps
  /-- another exception -/
  | other (e : PyErr)
  deriving DecidableEq, Repr

/-- Events. -/
inductive Ev where
  /-- a registration was tried, by the command `register` (automatic) or `cmp_register` -/
  | tried (k : Key) (auto : Bool)
  /-- code of the device was run -/
  | device (k : Key)
  deriving DecidableEq, Repr

/-- `devmap[key] = ...`. -/
def addKey (dm : List Key) (k : Key) : List Key := if k ∈ dm then dm else dm ++ [k]

/-- `retries.get(key, 0)`. -/
def getRetries (r : Dict Key Nat) (k : Key) : Nat := (Dict.get? r k).getD 0

/-- `log_errors`: what becomes of an exception.  2_1/decorators.py:57-68, 2_0:78-82. -/
def logErrors (v : Ver) (e : PyErr) : PyErr :=
  match v with
  | .v20 => .systemExit
  | .v21 => if e = .valueError ∨ e = .attributeError then e else .systemExit

/-- `cmp_register`, 2_1:100-124 and 2_0:156-175. -/
def cmpRegister (i : Iface) (k : Key) (o : RegOut) : Except PyErr (Iface × Bool) :=
  match i.ver, o with
  | .v21, .ok => .ok ({ i with devmap := addKey i.devmap k, retries := Dict.set i.retries k 0 }, true)
  | .v21, .factory =>
    .ok ({ i with retries := Dict.set i.retries k (getRetries i.retries k + 1) }, false)
  | .v21, .caps =>
    .ok ({ i with devmap := addKey i.devmap k,
                  retries := Dict.set i.retries k (getRetries i.retries k + 1) }, false)
  | .v21, .other e => .error (logErrors .v21 e)
  | .v20, .ok => .ok ({ i with devmap := addKey i.devmap k }, true)
  | .v20, .factory => .error (logErrors .v20 .runtimeError)
  | .v20, .caps => .error (logErrors .v20 .runtimeError)
  | .v20, .other e => .error (logErrors .v20 e)

/-- `MAX_REGISTER_RETRIES`, driver.py:29. -/
def maxRetries : Nat := 3

/-- `tomato_driver_bootstrap`, driver.py:56-81; `comps` are the components of this driver in the
configuration of the daemon, each with what its device would do. -/
def bootstrap (i : Iface) : List (Key × RegOut) → List Ev × Except PyErr Iface
  | [] => ([], .ok i)
  | (k, o) :: rest =>
    if k ∈ i.devmap then bootstrap i rest
    else if i.ver = .v21 ∧ getRetries i.retries k = maxRetries then bootstrap i rest
    else
      match cmpRegister i k o with
      | .error e => ([.tried k true], .error e)
      | .ok (i', _) =>
        let r := bootstrap i' rest
        (.tried k true :: r.1, r.2)

/-- How a component command names its component: by `key`, or by `address` and `channel`;
`none`: something that cannot be a key of a dictionary. -/
structure Addr where
  byKey : Bool := false
  key : Option Key
  deriving DecidableEq, Repr

/-- What a function called returns: a reply, or an exception. -/
inductive CallRes where
  | reply (success : Bool)
  | raises (e : PyErr)
  deriving DecidableEq, Repr

/-- Messages to the driver process. -/
inductive Msg where
  /-- a dictionary without `cmd` -/
  | noCmd
  | register (comps : List (Key × RegOut))
  | stop
  /-- `settings` with or without `params` -/
  | settings (params : Option (Option Nat))
  /-- `cmp_register` with or without (sufficient) `params`; `told` is the success flag of the
  daemon's reply when it is told of the component (see `Verif/ByHand.lean`) -/
  | cmpRegister (params : Option (Key × RegOut)) (told : Bool := true)
  /-- a command for one component; `res` is what the body of the function does -/
  | component (a : Addr) (res : CallRes)
  /-- `cmp_teardown` -/
  | teardown (a : Addr) (res : CallRes)
  /-- another function of the interface (`status`, `reset`, `quit`) -/
  | iface (res : CallRes)
  /-- another attribute of the interface, which is not a function (`devmap`, `settings`, ...) -/
  | attr
  /-- a name which is no attribute of the interface -/
  | unknown
  deriving DecidableEq, Repr

/-- What the driver process does with a message. -/
inductive Result where
  /-- a reply is sent, the process goes on -/
  | answered (success : Bool)
  /-- a reply is sent, the process stops -/
  | stopping
  /-- no reply is sent, the process ends with an exception -/
  | died (e : PyErr)
  deriving DecidableEq, Repr

/-- A function of the interface, called by the main loop: driver.py:291-300.  `ValueError` and
`AttributeError` become failure replies; other exceptions end the process. -/
def callIface (v : Ver) : CallRes → Result
  | .reply b => .answered b
  | .raises e =>
    let e' := logErrors v e
    if e' = .valueError ∨ e' = .attributeError then .answered false else .died e'

/-- `in_devmap` around a component command: 2_1/decorators.py:13-27 and 2_0:30-49. -/
def component (i : Iface) (a : Addr) (res : CallRes) : Result × List Ev :=
  match a.key with
  | none => (callIface i.ver (.raises .typeError), [])
  | some k =>
    if k ∈ i.devmap then (callIface i.ver res, [.device k])
    else
      match i.ver with
      | .v21 => (.answered false, [])
      | .v20 =>
        -- with `key`, `address` is unbound in the message; otherwise the reply contains
        -- `devmap.keys()`, which cannot be pickled by `rep.send_pyobj`
        if a.byKey then (callIface .v20 (.raises .unboundLocalError), [])
        else (.died .typeError, [])

/-- The effect of `cmp_teardown` on the registered components, 2_1:129-145 and 2_0:180-195: unless the
device raises, the component is removed. -/
def teardown (i : Iface) (a : Addr) : CallRes → Iface
  | .reply _ => { i with devmap := i.devmap.filter (fun k => decide (a.key ≠ some k)) }
  | .raises _ => i

/-- One message in the main loop, driver.py:250-309. -/
def handle (i : Iface) : Msg → Iface × Result × List Ev
  | .noCmd => (i, .answered false, [])
  | .register comps =>
    let r := bootstrap i comps
    match r.2 with
    | .error e => (i, .died e, r.1)
    | .ok i' =>
      match i.ver with
      -- `interface.retries` does not exist
      | .v20 => (i', .died .attributeError, r.1)
      | .v21 => (i', .answered (!(i'.retries.any (fun p => p.2 != 0))), r.1)
  | .stop => (i, .stopping, [])
  | .settings none => (i, .died .keyError, [])
  | .settings (some imi) => ({ i with imi := imi }, .answered true, [])
  | .cmpRegister none _ => (i, .died .keyError, [])
  | .cmpRegister (some (k, o)) told =>
    match cmpRegister i k o with
    | .error e => (i, .died e, [.tried k false])
    -- on success, the daemon is told, and its reply is passed on: driver.py:284-290
    | .ok (i', b) => (i', .answered (if b then told else false), [.tried k false])
  | .component a res => let r := component i a res; (i, r.1, r.2)
  | .teardown a res => let r := component i a res; (teardown i a res, r.1, r.2)
  | .iface res => (i, callIface i.ver res, [])
  | .attr => (i, .died .typeError, [])
  | .unknown => (i, .answered false, [])

/-- The process after a list of messages, with all events; `none` once it has ended. -/
def handleAll (i : Iface) : List Msg → Option Iface × List Ev
  | [] => (some i, [])
  | m :: ms =>
    match handle i m with
    | (i', .answered _, es) => let r := handleAll i' ms; (r.1, es ++ r.2)
    | (_, _, es) => (none, es)

/-- `perform_idle_measurements`, driver.py:84-114, in the main loop (313-317): `raises` tells
whether one of the calls of `cmp_measure` raises `RuntimeError`, `ValueError` or `AttributeError`
(which are caught; `t_last` keeps its value).  Returns the new `t_last` and whether measurements
were started. -/
def idle (imi : Option Nat) (tLast : Option Nat) (tNow : Nat) (raises : Bool) : Option Nat × Bool :=
  match imi with
  | none => (none, false)
  | some d =>
    if tLast.any (fun t => decide (tNow - t < d)) then (tLast, false)
    else (if raises then tLast else some tNow, true)

/-- One turn of the main loop, as far as idle measurements are concerned: the interval valid at
this turn, the time, and whether a measurement raises. -/
structure Turn where
  imi : Option Nat
  now : Nat
  raises : Bool := false
  deriving DecidableEq, Repr

/-- The times of the rounds of idle measurements in a sequence of turns. -/
def rounds (tLast : Option Nat) : List Turn → List Nat
  | [] => []
  | t :: ts =>
    let r := idle t.imi tLast t.now t.raises
    if r.2 then t.now :: rounds r.1 ts else rounds r.1 ts

end Tomato.Drv
