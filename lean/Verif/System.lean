import Verif.Ketchup
import Verif.Pipelines
import Verif.JobMgr
import Verif.Cmd
import Verif.DriverMgr

/-!
# The concurrent system

Any number of client commands, the pipeline and driver managers, driver and job processes, and
*one* job manager act on the shared world, one atomic operation at a time, in any order.  Every
program can be killed at any point.  Processes, clocks, and the behaviour of drivers change
arbitrarily.  A killed or finished job manager pass may be followed by a new one, with any
configuration that uses the same storage folder (the next pass of the same daemon, or the first
one of a restarted daemon).
-/

namespace Tomato

/-- Operations that change neither tables nor folders nor start processes: what the main loop
of a job process (`job_main_loop`, job.py:716-829) is allowed to do.  (Its requests to drivers
and its pickle files are modelled in `Verif/JobThread.lean`.) -/
def QuietOp : Op → Prop
  | .jobsWhere _ | .fetchJob _ | .pipsWhere _ | .getPip _ | .drvsWhere _ | .getDrv _
  | .pidExists _ | .notZombie _ | .askDriver _ _ | .askDriverLpp _ _ | .askDriverTimeout _ _
  | .now | .perfCounter => True
  | _ => False

/-- The programs of the system, except the job manager. -/
inductive Cmd where
  /-- `ketchup submit` -/
  | submit (file : PayloadFile) (jobname : Option String) (d : Daemon) (cwd : String)
  /-- `ketchup status` -/
  | status (ids : List Nat)
  /-- `ketchup cancel` -/
  | cancel (ids : List Nat)
  /-- `ketchup snapshot` -/
  | snapshot (ids : List Nat)
  /-- `ketchup search` -/
  | search (name : String)
  /-- `tomato pipeline load` -/
  | load (stat : Option Daemon) (pip sample : String)
  /-- `tomato pipeline eject` -/
  | eject (stat : Option Daemon) (pip : String)
  /-- `tomato pipeline ready` -/
  | ready (stat : Option Daemon) (pip : String)
  /-- `tomato reload` (and the daemon's own reload at startup) -/
  | reload (d : Daemon) (parsed : Option (Settings × DeviceFile))
  /-- `tomato stop` -/
  | stop (d : Daemon)
  /-- a pass of the pipeline manager -/
  | pipPass (d : Daemon)
  /-- a pass of the driver manager -/
  | drvPass (d : Daemon)
  /-- the start of a driver process -/
  | driverStart (name : String) (port pid : Nat) (version : String)
  /-- a job process -/
  | tomatoJob (jobid pid : Nat) (payload : Payload) (pip jobpath : String)
      (mainLoop : P (Option Nat)) (quiet : Prog.Only (S := DB) QuietOp mainLoop)

/-- The program executed by a command. -/
def Cmd.prog : Cmd → P Unit
  | submit f n d c => do let _ ← Tomato.submit f n d c
  | status ids => do let _ ← Tomato.status ids
  | cancel ids => do let _ ← Tomato.cancel ids
  | snapshot ids => do let _ ← Tomato.snapshot ids
  | search n => do let _ ← Tomato.search n
  | load s p x => do let _ ← pipelineLoad s p x
  | eject s p => do let _ ← pipelineEject s p
  | ready s p => do let _ ← pipelineReady s p
  | reload d x => do let _ ← cmdReload d x
  | stop d => do let _ ← cmdStop d
  | pipPass d => pipManagerPass d
  | drvPass d => drvManagerPass d
  | driverStart n p i v => do let _ ← Tomato.driverStart n p i v
  | tomatoJob j i pl pip path m _ => Tomato.tomatoJob j i pl pip path m

/-- The launch that a command answers to, if it is a job process. -/
def Cmd.launch : Cmd → Option Launch
  | tomatoJob j _ _ pip _ _ _ => some ⟨j, pip⟩
  | _ => none

/-- State of the system. -/
structure Sys where
  w : World
  /-- the rest of the current pass of the job manager -/
  jm : P Unit := .pure ()
  /-- the rests of the other programs -/
  others : List (P Unit) := []
  /-- the launches whose process has started executing -/
  started : List Launch := []

/-- Changes of the environment: processes, clocks, drivers, files being written. -/
inductive EnvAct where
  | procs (ps : List Proc)
  | clock (t : Nat)
  | perf (t : Nat)
  | drv (f : Nat → DrvCmd → Option DrvReply)
  | badPickle (f : Nat → Bool)

/-- See `EnvAct`. -/
def EnvAct.apply (w : World) : EnvAct → World
  | procs ps => { w with procs := ps }
  | clock t => { w with clock := t }
  | perf t => { w with perf := t }
  | drv f => { w with drv := f }
  | badPickle f => { w with badPickle := f }

/-- What can happen next. -/
inductive Act where
  /-- the job manager starts a pass -/
  | jmStart (d : Daemon)
  /-- the job manager performs its next operation -/
  | jmStep
  /-- the job manager is killed -/
  | jmKill
  /-- a command is started -/
  | spawn (c : Cmd)
  /-- another program performs its next operation -/
  | step (i : Nat)
  /-- another program is killed -/
  | kill (i : Nat)
  /-- the environment changes -/
  | env (e : EnvAct)

/-- The program has ended. -/
def Prog.ended {S : Sig} {α : Type} : Prog S α → Bool
  | .op _ _ => false
  | _ => true

/-- The next operation of a program. -/
def stepProg (p : P Unit) (w : World) : Option (P Unit × World) :=
  match p with
  | .op o k => some (k (exec o w).1, (exec o w).2)
  | _ => none

/-- Execute an action; `none` if it is not possible. -/
def act (storage : String) (s : Sys) : Act → Option Sys
  | .jmStart d =>
      if s.jm.ended ∧ d.settings.storage = storage then
        some { s with jm := jobManagerPass d }
      else none
  | .jmStep =>
      match stepProg s.jm s.w with
      | some (p, w) => some { s with jm := p, w := w }
      | none => none
  | .jmKill => some { s with jm := .pure () }
  | .spawn c =>
      match c.launch with
      | none => some { s with others := s.others ++ [c.prog] }
      | some l =>
          if s.started.count l < s.w.launches.count l then
            some { s with others := s.others ++ [c.prog], started := s.started ++ [l] }
          else none
  | .step i =>
      match s.others[i]? with
      | none => none
      | some p =>
          match stepProg p s.w with
          | some (p', w) => some { s with others := s.others.set i p', w := w }
          | none => none
  | .kill i => some { s with others := s.others.set i (.pure ()) }
  | .env e => some { s with w := e.apply s.w }

/-- One step of the system. -/
def Step (storage : String) (s s' : Sys) : Prop := ∃ a, act storage s a = some s'

/-- Any number of steps. -/
inductive Steps (storage : String) : Sys → Sys → Prop
  | refl (s : Sys) : Steps storage s s
  | tail {s s' s'' : Sys} : Steps storage s s' → Step storage s' s'' → Steps storage s s''

/-- A fresh installation: empty tables, no folders, nothing running. -/
def Sys.init : Sys := { w := {} }

/-- Reachable from a fresh installation. -/
def Reachable (storage : String) (s : Sys) : Prop := Steps storage Sys.init s

/-- Execute a list of actions. -/
def acts (storage : String) : Sys → List Act → Option Sys
  | s, [] => some s
  | s, a :: as =>
      match act storage s a with
      | some s' => acts storage s' as
      | none => none

/-- Execute a list of actions, remembering all states passed. -/
def actsTrace (storage : String) : Sys → List Act → Option (List Sys)
  | s, [] => some [s]
  | s, a :: as =>
      match act storage s a with
      | some s' => (actsTrace storage s' as).map (s :: ·)
      | none => none

theorem Steps.trans {st : String} {a b c : Sys} (h1 : Steps st a b) (h2 : Steps st b c) :
    Steps st a c := by
  induction h2 with
  | refl => exact h1
  | tail _ h ih => exact .tail ih h

theorem steps_of_acts {st : String} {s s' : Sys} {as : List Act}
    (h : acts st s as = some s') : Steps st s s' := by
  induction as generalizing s with
  | nil => cases h; exact .refl _
  | cons a as ih =>
    simp only [acts] at h
    split at h
    · next s1 h1 => exact Steps.trans (.tail (.refl _) ⟨a, h1⟩) (ih h)
    · cases h

/-- An invariant of the initial state and all steps holds in all reachable states. -/
theorem reachable_inv {st : String} {I : Sys → Prop} (h0 : I Sys.init)
    (hs : ∀ s s', I s → Step st s s' → I s') {s : Sys} (h : Reachable st s) : I s := by
  unfold Reachable at h
  induction h with
  | refl => exact h0
  | tail _ hst ih => exact hs _ _ ih hst

end Tomato
