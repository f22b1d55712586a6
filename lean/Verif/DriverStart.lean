import Verif.DriverMgr

/-!
# The start of a driver process

`tomato_driver` up to its main loop, `/repo/src/tomato/daemon/driver.py:204-241`, and
`driver_to_interface`, `/repo/src/tomato/drivers.py:20-34`.  Of `get_pid`,
`/repo/src/tomato/utils.py:33-44`, only the branch for POSIX systems.

What is installed, and what a driver does with its settings, are parameters: `Pkgs`.
Simplifications: the parsing of arguments, log file, and sockets are left out; the daemon answers the
request for its status (if there is no daemon, the process waits for ever).
-/

namespace Tomato.Start

/-- A class `DriverInterface`: its version, and whether the constructor returns, given the settings. -/
structure Cls where
  version : String
  init : Dict String String → Bool

/-- A python module, as seen by `importlib.import_module`. -/
inductive Mod where
  /-- `ModuleNotFoundError`, of the module or of a module imported by it -/
  | missing
  /-- any other exception while importing it -/
  | broken (e : PyErr)
  /-- no class `DriverInterface` -/
  | bare
  | cls (c : Cls)

/-- The installed modules. -/
abbrev Pkgs := String → Mod

/-- `f"tomato_{drivername.replace('-', '_')}"`, drivers.py:21. -/
def modName (driver : String) : String :=
  "tomato_" ++ String.ofList (driver.toList.map (fun c => if c = '-' then '_' else c))

/-- `driver_to_interface`, drivers.py:20-34. -/
def driverToInterface (pk : Pkgs) (driver : String) : Except PyErr (Option Cls) :=
  match pk (modName driver) with
  | .missing => .ok none
  | .broken e => .error e
  | .bare => .ok none
  | .cls c => .ok (some c)

/-- How the start of a driver process ends. -/
inductive Out where
  /-- the process enters its main loop, driver.py:243 -/
  | serving
  /-- it returns -/
  | returned
  deriving DecidableEq, Repr

/-- `tomato_driver`, driver.py:210-241; `d` is what the daemon replies. -/
def driverMain (pk : Pkgs) (d : Daemon) (name : String) (port pid : Nat) : P Out :=
  match driverToInterface pk name with
  | .error e => Prog.raise e
  | .ok none => pure .returned
  | .ok (some c) =>
    match Dict.get? d.devicefile.drivers name with
    | none => Prog.raise .keyError
    | some drv =>
      if c.init drv.settings then do
        let found ← driverStart name port pid c.version
        pure (if found then .serving else .returned)
      else Prog.raise .runtimeError

end Tomato.Start
