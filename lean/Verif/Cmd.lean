import Verif.World
import Verif.Pipelines

/-!
# The daemon's commands and its main loop

`/repo/src/tomato/daemon/cmd.py`, `/repo/src/tomato/daemon/__init__.py` 73-101, and
`/repo/src/tomato/models.py` 106-111.
-/

namespace Tomato

/-- `drvdb.insert_drv`, drvdb.py:17-34. -/
def insertDrv (d : DrvState) : P (Option DrvState) := do
  Do.insertDrv d
  Do.getDrv d.name

/-- Messages of the daemon's replies. -/
inductive CMsg where
  | status (s : DaemonStatus)
  | jobsRunning (n : Nat)
  | setToStop
  | couldNotParse
  | deletesPipeline
  | modifiesPipeline
  | deletesComponent
  | modifiesComponent
  | deletesDriver
  | modifiesDriver
  | reloaded
  | withoutCmd
  deriving DecidableEq, Repr

/-- Data of the daemon's replies (objects attached to failures are left out). -/
inductive CData where
  | daemon (d : Daemon)
  | pips (ps : List PipState)
  deriving DecidableEq, Repr

abbrev CReply := Reply CMsg CData

/-- `Daemon.device_settings`, models.py:106-111: merge the driver settings into the device
file. -/
def mergeDriverSettings (s : Settings) (df : DeviceFile) : DeviceFile :=
  { df with drivers := df.drivers.map (fun kv =>
      match Dict.get? s.drivers kv.1 with
      | some upd => (kv.1, { kv.2 with settings := Dict.update kv.2.settings upd })
      | none => kv) }

/-- A daemon object made from parsed settings and a parsed device file (models.py:78-111). -/
def Daemon.build (st : DaemonStatus) (s : Settings) (df : DeviceFile) : Daemon :=
  { status := st, settings := s, devicefile := mergeDriverSettings s df }

/-- `cmd.status`, cmd.py:26-28. -/
def cmdStatus (d : Daemon) : P (CReply × Daemon) :=
  pure ({ success := true, msg := .status d.status, data := some (.daemon d) }, d)

/-- `cmd.stop`, cmd.py:31-43. -/
def cmdStop (d : Daemon) : P (CReply × Daemon) := do
  let rpips ← Do.pipsWhere (fun p => p.jobid.isSome)
  if rpips.length > 0 then
    pure ({ success := false, msg := .jobsRunning rpips.length, data := some (.pips rpips) }, d)
  else
    pure ({ success := true, msg := .setToStop }, { d with status := .stop })

/-- cmd.py:58-65. -/
def bootstrapDrivers : List String → P Unit
  | [] => pure ()
  | n :: rest => do
    let drv ← Do.getDrv n
    match drv with
    | none => do
      let drv ← insertDrv { name := n }
      Prog.assert drv.isSome
      bootstrapDrivers rest
    | some _ => bootstrapDrivers rest

/-- cmd.py:67-74. -/
def bootstrapPipelines : List String → P Unit
  | [] => pure ()
  | n :: rest => do
    let pip ← Do.getPip n
    match pip with
    | none => do
      let pip ← insertPip { name := n }
      Prog.assert pip.isSome
      bootstrapPipelines rest
    | some _ => bootstrapPipelines rest

/-- cmd.py:97-112: the pipelines with a job.  Answers a complaint, or the components to be
checked. -/
def checkPipelines (old new : DeviceFile) :
    List PipState → List String → P (CMsg ⊕ List String)
  | [], cs => pure (.inr cs)
  | ps :: rest, cs =>
    match Dict.get? old.pipelines ps.name with
    | none => Prog.raise .keyError
    | some dpip =>
      match Dict.get? new.pipelines dpip.name with
      | none => pure (.inl .deletesPipeline)
      | some pip =>
        if Dict.eqv pip.components dpip.components then
          checkPipelines old new rest (cs ++ Dict.values dpip.components)
        else pure (.inl .modifiesPipeline)

/-- cmd.py:114-134: the components (a python set, here a list in order of first use). -/
def checkComponents (old new : DeviceFile) :
    List String → List String → P (CMsg ⊕ List String)
  | [], ds => pure (.inr ds)
  | cname :: rest, ds =>
    match Dict.get? old.components cname with
    | none => Prog.raise .keyError
    | some dcomp =>
      match Dict.get? new.components cname with
      | none => pure (.inl .deletesComponent)
      | some comp =>
        if dcomp.name ≠ comp.name ∨ dcomp.driver ≠ comp.driver ∨ dcomp.address ≠ comp.address ∨
            dcomp.channel ≠ comp.channel then
          pure (.inl .modifiesComponent)
        else checkComponents old new rest (ds ++ [dcomp.driver])

/-- cmd.py:136-149: the drivers. -/
def checkDrivers (old new : DeviceFile) : List String → P (Option CMsg)
  | [] => pure none
  | dname :: rest =>
    match Dict.get? new.drivers dname with
    | none =>
      match Dict.get? old.drivers dname with
      | none => Prog.raise .keyError
      | some _ => pure (some .deletesDriver)
    | some nd =>
      match Dict.get? old.drivers dname with
      | none => Prog.raise .keyError
      | some od =>
        if Dict.eqv od.settings nd.settings then checkDrivers old new rest
        else pure (some .modifiesDriver)

/-- A refusal. -/
def refuse (m : CMsg) (d : Daemon) : CReply × Daemon := ({ success := false, msg := m }, d)

/-- `cmd.reload`, cmd.py:46-156.  `parsed` is the result of reading the configuration files
again (`none`: an exception while parsing).  Simplification: there is only one database
(see `Verif/Stores.lean` for several). -/
def cmdReload (d : Daemon) (parsed : Option (Settings × DeviceFile)) : P (CReply × Daemon) :=
  if d.status = .bootstrap then do
    bootstrapDrivers (Dict.keys d.devicefile.drivers)
    bootstrapPipelines (Dict.keys d.devicefile.pipelines)
    let d' := { d with status := .running }
    pure ({ success := true, msg := .reloaded, data := some (.daemon d') }, d')
  else
    match parsed with
    | none => pure (refuse .couldNotParse d)
    | some (s, df) => do
      let nd := Daemon.build d.status s df
      let rpips ← Do.pipsWhere (fun p => p.jobid.isSome)
      match ← checkPipelines d.devicefile nd.devicefile rpips [] with
      | .inl m => pure (refuse m d)
      | .inr cs =>
        match ← checkComponents d.devicefile nd.devicefile cs [] with
        | .inl m => pure (refuse m d)
        | .inr ds =>
          match ← checkDrivers d.devicefile nd.devicefile ds with
          | some m => pure (refuse m d)
          | none => pure ({ success := true, msg := .reloaded, data := some (.daemon nd) }, nd)

/-! ## The main loop -/

/-- A message received by the daemon (a dictionary). -/
inductive DMsg where
  /-- no key `cmd` -/
  | noCmd
  | status
  | stop
  /-- together with what is found in the configuration files at that time -/
  | reload (parsed : Option (Settings × DeviceFile))
  /-- the value of `cmd` is the name of something else found in the module `cmd`, e.g.
  `logging`, `Reply` or `__name__`: calling it with two arguments raises `TypeError` -/
  | otherAttribute (name : String)
  /-- the value of `cmd` is not a string: `hasattr` raises `TypeError` -/
  | notAString
  /-- any other string -/
  | unknown (name : String)

/-- The local variables of `tomato_daemon`: the daemon object, and `ret` (unbound before the
first reply). -/
structure DLoop where
  daemon : Daemon
  ret : Option CReply := none

/-- daemon/__init__.py:75-86: handle one message; answers the reply that is sent. -/
def handleMsg (l : DLoop) (m : DMsg) : P (CReply × DLoop) :=
  match m with
  | .noCmd =>
    let r : CReply := { success := false, msg := .withoutCmd }
    pure (r, { l with ret := some r })
  | .status => do
    let (r, d) ← cmdStatus l.daemon
    pure (r, ⟨d, some r⟩)
  | .stop => do
    let (r, d) ← cmdStop l.daemon
    pure (r, ⟨d, some r⟩)
  | .reload parsed => do
    let (r, d) ← cmdReload l.daemon parsed
    pure (r, ⟨d, some r⟩)
  | .otherAttribute _ => Prog.raise .typeError
  | .notAString => Prog.raise .typeError
  | .unknown _ =>
    match l.ret with
    | none => Prog.raise .unboundLocalError
    | some r => pure (r, l)

/-- The main loop on a sequence of messages: all replies sent and the final state.  An
exception ends the daemon process (nothing catches it). -/
def serve (l : DLoop) : List DMsg → P (List CReply × DLoop)
  | [] => pure ([], l)
  | m :: ms => do
    let (r, l') ← handleMsg l m
    let (rs, l'') ← serve l' ms
    pure (r :: rs, l'')

end Tomato
