import Verif.World
import Verif.JobThread

/-!
# The start of a job: waiting for drivers, starting the threads

`/repo/src/tomato/daemon/job.py:731-783`.
-/

namespace Tomato.JStart

open Tomato.JobT

/-- The outcome of one round of the waiting loop, job.py:733-746. -/
inductive Poll where
  /-- `sys.exit()`, 739 -/
  | exit
  /-- wait and try again, 744-745 -/
  | again
  /-- `break`, 742 -/
  | go (d : Daemon)
  deriving DecidableEq

/-- One round of the waiting loop, job.py:733-746.  `stat`: the daemon object in the reply to `status`
(`none`: no answer, or no success). -/
def pollPorts (stat : Option Daemon) : P Poll :=
  match stat with
  | none => pure .exit
  | some d => do
    let drivers ← Do.drvsWhere (fun _ => true)
    if drivers.all (fun r => r.port.isSome) then pure (.go d) else pure .again

/-- The threads, job.py:760-783: like `JobT.threads`, but the table of drivers is read for every
thread.  On an exception, the threads started before keep running. -/
def startThreads (df : DeviceFile) (plan : Dict String (List Task)) :
    List (String × String) → P (List Start)
  | [] => pure []
  | (crole, cname) :: rest =>
    match df.components.get? cname with
    | none => Prog.raise .keyError
    | some cmp =>
      match plan.get? crole with
      | none => startThreads df plan rest
      | some tasks =>
        match df.devices.get? cmp.device with
        | none => Prog.raise .keyError
        | some device => do
          let drv ← Do.getDrv cmp.driver
          match drv with
          | none => Prog.raise .assertionError
          | some drv =>
            match df.drivers.get? cmp.driver with
            | none => Prog.raise .keyError
            | some _ => do
              let l ← startThreads df plan rest
              pure (⟨crole, cmp, tasks, device, drv.port⟩ :: l)

/-- After the waiting loop, job.py:749-783. -/
def startJob (d : Daemon) (pip : String) (method : List Task) : P (List Start) :=
  match d.devicefile.pipelines.get? pip with
  | none => Prog.raise .keyError
  | some pl => startThreads d.devicefile (plan method) pl.components

end Tomato.JStart
