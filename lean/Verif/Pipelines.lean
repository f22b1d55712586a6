import Verif.World

/-!
# `tomato pipeline`: load, eject, ready

`/repo/src/tomato/tomato/__init__.py` 511-637 and `/repo/src/tomato/daemon/pipdb.py`.
The status query at the beginning of each command is the argument `stat`: `none` when the
daemon does not answer, otherwise the daemon object it returned.
-/

namespace Tomato

/-- `pipdb.update_pip`, pipdb.py:27-33. -/
def updatePip (name : String) (ps : List PipParam) : P (Option PipState) := do
  (Do.updatePip name ps)
  (Do.getPip name)

/-- `pipdb.insert_pip`, pipdb.py:17-24. -/
def insertPip (p : PipState) : P (Option PipState) := do
  (Do.insertPip p)
  (Do.getPip p.name)

/-- Messages of the pipeline commands. -/
inductive PMsg where
  | notRunning
  | notFound
  | notEmpty
  | loaded
  | alreadyEmpty
  | cannotEject
  | ejected
  | alreadyReady
  | cannotReady
  | setReady
  deriving DecidableEq, Repr

abbrev PReply := Reply PMsg PipState

/-- `tomato.pipeline_load`, tomato 511-547. -/
def pipelineLoad (stat : Option Daemon) (pipeline sampleid : String) : P PReply :=
  match stat with
  | none => pure { success := false, msg := .notRunning }
  | some d =>
    if !Dict.mem d.devicefile.pipelines pipeline then
      pure { success := false, msg := .notFound }
    else do
      let pip ← (Do.getPip pipeline)
      match pip with
      | some p =>
        if p.sampleid.isSome then
          pure { success := false, msg := .notEmpty, data := some p }
        else store
      | none => store
where
  /-- tomato 545-547 -/
  store : P PReply := do
    let pip ← updatePip pipeline [.sampleid (some sampleid), .ready false]
    pure { success := true, msg := .loaded, data := pip }

/-- `tomato.pipeline_eject`, tomato 550-592. -/
def pipelineEject (stat : Option Daemon) (pipeline : String) : P PReply :=
  match stat with
  | none => pure { success := false, msg := .notRunning }
  | some d =>
    if !Dict.mem d.devicefile.pipelines pipeline then
      pure { success := false, msg := .notFound }
    else do
      let pip ← (Do.getPip pipeline)
      match pip with
      | none => Prog.raise .assertionError
      | some p =>
        if p.sampleid.isNone then
          pure { success := true, msg := .alreadyEmpty, data := some p }
        else if p.jobid.isSome then
          pure { success := false, msg := .cannotEject, data := some p }
        else do
          let pip ← updatePip pipeline [.sampleid none, .ready false]
          pure { success := true, msg := .ejected, data := pip }

/-- `tomato.pipeline_ready`, tomato 595-637. -/
def pipelineReady (stat : Option Daemon) (pipeline : String) : P PReply :=
  match stat with
  | none => pure { success := false, msg := .notRunning }
  | some d =>
    if !Dict.mem d.devicefile.pipelines pipeline then
      pure { success := false, msg := .notFound }
    else do
      let pip ← (Do.getPip pipeline)
      match pip with
      | none => Prog.raise .assertionError
      | some p =>
        if p.ready then
          pure { success := true, msg := .alreadyReady, data := some p }
        else if p.jobid.isSome then
          pure { success := false, msg := .cannotReady, data := some p }
        else do
          let pip ← updatePip pipeline [.ready true]
          pure { success := true, msg := .setReady, data := pip }

end Tomato
