import Verif.World

/-!
# The driver manager and the start of driver processes

`/repo/src/tomato/daemon/driver.py` 327-441 (driver manager) and 199-240 (start of
`tomato-driver`), `/repo/src/tomato/daemon/drvdb.py`.
-/

namespace Tomato

/-- drvdb.py:36-43 `update_drv`. -/
def updateDrv (name : String) (ps : List DrvParam) : P (Option DrvState) := do
  Do.updateDrv name ps
  Do.getDrv name

/-- `HEARTBEAT` (driver.py:33) in milliseconds. -/
def heartbeatMs : Nat := 5000
/-- `SPAWN_DELAY` (driver.py:32) in milliseconds. -/
def spawnDelayMs : Nat := 5000
/-- `SPAWN_RETRIES` (driver.py:31). -/
def spawnRetries : Nat := 3

/-- driver.py:389-390: all columns of `DrvState(name=...)` except the name. -/
def drvDefaults : List DrvParam :=
  [.port none, .pid none, .version none, .spawnTime 0, .spawnCount 0, .heartbeatTime 0]

/-- driver.py:366-387: ask the driver for its status; if no component is registered, ask it
to register them.  Returns the columns to update.  A status reply without data makes `len`
raise `TypeError`, which is re-raised as `RuntimeError` (391-393). -/
def checkDriver (port : Nat) (tN : Nat) : P (List DrvParam) :=
  Prog.tryExcept
    (do
      let ret ← Do.askDriverTimeout (some port) .status
      if ret.success then
        match ret.data with
        | none => Prog.raise .runtimeError
        | some regs =>
          if regs.length = 0 then do
            let _ ← Do.askDriverTimeout (some port) .register
            pure [.heartbeatTime tN]
          else pure [.heartbeatTime tN]
      else pure [.heartbeatTime tN])
    (fun e => if e = .zmqAgain then some (pure drvDefaults) else none)

/-- driver.py:353-419: the body of the loop of the driver manager for one row. -/
def manageDriver (known : List String) (d : DrvState) : P Unit := do
  let tN ← Do.perfCounter
  if !known.contains d.name then do
    match d.port with
    | some port => do
      -- 357-361: stop_tomato_driver, blocking; the reply is only logged
      let _ ← Do.askDriver (some port) .stop
      Do.delDrv d.name
    | none => Do.delDrv d.name
  else match d.port with
    | some port =>
      if tN - d.heartbeatTime > heartbeatMs ∨
          (d.heartbeatTime = 0 ∧ tN - d.spawnTime > spawnDelayMs) then do
        let ps ← checkDriver port tN
        let _ ← updateDrv d.name ps
      else pure ()
    | none =>
      if tN - d.spawnTime > spawnDelayMs ∧ d.spawnCount < spawnRetries then do
        Do.popenDriver d.name
        let _ ← updateDrv d.name [.spawnTime tN, .spawnCount (d.spawnCount + 1)]
      else pure ()

/-- One pass of the driver manager, driver.py:351-419.  `known` are the names in
`daemon.devicefile.drivers`. -/
def drvManagerPass (d : Daemon) : P Unit := do
  let drivers ← Do.drvsWhere (fun _ => true)
  Prog.forEach drivers (manageDriver (Dict.keys d.devicefile.drivers))

/-- The start of a driver process, driver.py:225-238: store port, version and process id. -/
def driverStart (name : String) (port pid : Nat) (version : String) : P Bool := do
  let drv ← updateDrv name [.port (some port), .version (some version), .pid (some pid),
    .heartbeatTime 0]
  pure drv.isSome

end Tomato
