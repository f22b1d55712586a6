import Verif.World
import Verif.Cli

/-!
# `tomato status`

`status` of `/repo/src/tomato/tomato/__init__.py` 106-256.  The answer of the daemon is the argument
`stat`: `none` when there is none within the timeout, otherwise the daemon object.
-/

namespace Tomato.Stat

/-- A component together with its capabilities, 217-229. -/
structure CmpInfo where
  cmp : Component
  capabilities : Option (List String)
  deriving DecidableEq, Repr

/-- The data of a reply. -/
inductive SData where
  | daemon (d : Daemon)
  | devices (t : Dict String Device)
  | drivers (t : Dict String DrvState)
  | components (t : Dict String CmpInfo)
  | pipelines (t : Dict String PipState)

/-- Messages. -/
inductive SMsg where
  /-- `tomato running on port ...`, 186 -/
  | running
  /-- the table made by `format_msg` -/
  | table (text : List Char)
  | unknownGroup
  | notRunning
  deriving DecidableEq

abbrev SReply := Reply SMsg SData

/-- How the columns of the tables are shown (`str(obj[key])`). -/
structure Show where
  device : Device → String → String
  driver : DrvState → String → String
  component : CmpInfo → String → String
  pipeline : PipState → String → String

/-- `Reply(success=True, msg=format_msg(...), data=rets)`. -/
def tableReply {O : Type} (val : O → String → String) (objs : String) (yaml : Bool) (keys : List String)
    (rows : List O) (data : SData) : P SReply :=
  match formatMsg val "tomato running" objs yaml keys rows with
  | .error e => Prog.raise e
  | .ok text => pure { success := true, msg := .table text, data := some data }

/-- The loop over the components, 215-231. -/
def capabilities : Dict String Component → P (Dict String CmpInfo)
  | [] => pure []
  | (ckey, cmp) :: rest => do
    let drv ← Do.getDrv cmp.driver
    match drv with
    | none => Prog.raise .assertionError
    | some drv => do
      let dret ← Do.askDriver drv.port (.capabilities cmp.address cmp.channel)
      let l ← capabilities rest
      let caps := match dret.data with
        | none => none
        | some c => if dret.success && c.length > 0 then some c else none
      pure ((ckey, ⟨cmp, caps⟩) :: l)

/-- The loop over the pipelines, 238-241; `vars(None)` raises `TypeError`. -/
def pipStates : List String → P (Dict String PipState)
  | [] => pure []
  | pname :: rest => do
    let pip ← Do.getPip pname
    match pip with
    | none => Prog.raise .typeError
    | some p => do
      let l ← pipStates rest
      pure ((pname, p) :: l)

/-- `status`, 106-256.  Simplifications: the port is left out of the messages; the keys of `drivers` are
the names of the rows, which are distinct. -/
def status (sh : Show) (stat : Option Daemon) (stgrp : String) (yaml : Bool) : P SReply :=
  match stat with
  | none => pure { success := false, msg := .notRunning }
  | some d =>
    if stgrp = "tomato" then pure { success := true, msg := .running, data := some (.daemon d) }
    else if stgrp = "devices" then
      tableReply sh.device stgrp yaml ["name", "driver", "address", "channels"]
        (Dict.values d.devicefile.devices) (.devices d.devicefile.devices)
    else if stgrp = "drivers" then do
      let drvs ← Do.drvsWhere (fun _ => true)
      tableReply sh.driver stgrp yaml ["name", "port", "pid", "version", "heartbeat"] drvs
        (.drivers (drvs.map (fun r => (r.name, r))))
    else if stgrp = "components" then do
      let rets ← capabilities d.devicefile.components
      tableReply sh.component stgrp yaml ["name", "driver", "device", "capabilities"]
        (Dict.values rets) (.components rets)
    else if stgrp = "pipelines" then do
      let rets ← pipStates (Dict.keys d.devicefile.pipelines)
      tableReply sh.pipeline stgrp yaml ["name", "ready", "sampleid", "jobid"]
        (Dict.values rets) (.pipelines rets)
    else pure { success := false, msg := .unknownGroup }

end Tomato.Stat
