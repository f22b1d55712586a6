import Verif.System

/-!
# What a job process is told: `jobdata.json`

`Verif/System.lean` starts a job process for a launch with the id and the pipeline of this launch, and with any
payload.  In the code, these come from the file `jobdata.json`: it is written by the job manager into the new folder of
the job (`/repo/src/tomato/daemon/job.py:269-287`), its path is the argument of `tomato-job` (293-302), and the process
begins with reading it (403-411).  Here are the job manager with this file, and processes which read it.

Simplifications: writing is two operations, `open` (after which the file is empty) and `json.dump`; what is dumped is
what is loaded (`model_dump`, `json` and `to_payload` are not modelled); `Path(storage) / str(id)` is the text with `/`;
nobody else writes into the folders of jobs; the path given to the process is that of the folder of its job
(C128 is about the command line).
-/

namespace Tomato.Given

/-- `jobargs`, job.py:279-284. -/
structure JobData where
  pipeline : Pipeline
  payload : Payload
  /-- the repositories with their parameters -/
  repositories : Dict String String
  /-- `job.id` -/
  id : Nat
  /-- `job.path` -/
  path : String
  deriving DecidableEq, Repr

/-- The file `jobdata.json` in the folder of a storage and a job: there is none, it is empty, or it has a content. -/
abbrev Files := String → Nat → Option (Option JobData)

/-- Write a file. -/
def Files.put (f : Files) (st : String) (id : Nat) (x : Option JobData) : Files :=
  fun st' id' => if st' = st ∧ id' = id then some x else f st' id'

/-- `root`, job.py:268, 283. -/
def rootPath (storage : String) (id : Nat) : String := s!"{storage}/{id}"

/-- job.py:275-278: those repositories of the settings which are asked for. -/
def reposOf (repos : Dict String String) (p : Payload) : Dict String String :=
  repos.filter (fun kv => p.repositories.contains kv.1)

/-- job.py:275-284; `none` is a `KeyError`. -/
def jobargs (d : Daemon) (jobid : Nat) (job : Job) (pname : String) : Option JobData :=
  match d.settings.repositories with
  | none => none
  | some repos =>
    match Dict.get? d.devicefile.pipelines pname with
    | none => none
    | some pl => some { pipeline := pl, payload := job.payload, repositories := reposOf repos job.payload,
                        id := job.id, path := rootPath d.settings.storage jobid }

/-- Operations on the file. -/
inductive FileOp where
  /-- `jpath.open("w")` -/
  | open (storage : String) (id : Nat)
  /-- `json.dump` and closing the file -/
  | dump (storage : String) (id : Nat) (data : JobData)

/-- Operations of the job manager. -/
inductive DOp where
  | db (o : Op)
  | file (o : FileOp)

/-- The answers. -/
@[reducible] def DResp : DOp → Type
  | .db o => Resp o
  | .file _ => Unit

/-- The signature of the job manager. -/
@[reducible] def JD : Sig := ⟨DOp, DResp⟩

/-- The job manager's programs. -/
abbrev PD (α : Type) := Prog JD α

/-- The world and the files. -/
abbrev Both := World × Files

/-- The meaning of the operations. -/
def dExec : (o : DOp) → Both → Except PyErr (DResp o) × Both
  | .db o, s => ((exec o s.1).1, (exec o s.1).2, s.2)
  | .file (.open st id), s =>
      if (st, id) ∈ s.1.jobDirs then (.ok (), s.1, s.2.put st id none) else (.error .fileNotFoundError, s)
  | .file (.dump st id data), s => (.ok (), s.1, s.2.put st id (some data))

/-- A program of the world as a program of the job manager. -/
def lift {α : Type} : P α → PD α
  | .pure a => .pure a
  | .raise e => .raise e
  | .op o k => .op (.db o) (fun r => lift (k r))

/-- An operation on the file. -/
def onFile (o : FileOp) : PD Unit := Prog.call (S := JD) (.file o)

/-- The inner loop of `action_queued`, job.py:256-318, with the file (269-287). -/
def assignJobD (d : Daemon) (jobid : Nat) (job : Job) :
    List String → Dict String PipState → PD (Dict String PipState)
  | [], avail => pure avail
  | pname :: rest, avail =>
    match Dict.get? avail pname with
    | none => assignJobD d jobid job rest avail
    | some ps =>
      if !ps.ready ∨ ps.sampleid ≠ some job.payload.sample then
        assignJobD d jobid job rest avail
      else do
        lift (Do.makeJobDir d.settings.storage jobid)
        match jobargs d jobid job pname with
        | none => Prog.raise .keyError
        | some data => do
          onFile (.open d.settings.storage jobid)
          onFile (.dump d.settings.storage jobid data)
          let _ ← lift (updatePip pname [.jobid (some job.id), .ready false])
          let avail := Dict.erase avail pname
          lift (Do.popenJob job.id pname)
          let now ← lift Do.now
          let _ ← lift (updateJobId jobid [.launchedAt (some now)])
          pure avail

/-- The outer loop of `action_queued`, job.py:254-318. -/
def actionLoopD (d : Daemon) (matched : Dict Nat (List String)) :
    List Nat → Dict String PipState → PD Unit
  | [], _ => pure ()
  | jobid :: rest, avail => do
    let job ← lift (getJobId jobid)
    match Dict.get? matched jobid with
    | none => Prog.raise .keyError
    | some pnames => do
      let avail ← assignJobD d jobid job pnames avail
      actionLoopD d matched rest avail

/-- `action_queued`, job.py:234-318. -/
def actionQueuedD (d : Daemon) (matched : Dict Nat (List String)) : PD Unit := do
  let free ← lift (Do.pipsWhere (fun p => p.jobid.isNone))
  actionLoopD d matched (sortIds (Dict.keys matched)) (Dict.ofList (free.map (fun p => (p.name, p))))

/-- One pass of the job manager, job.py:347-349. -/
def passD (d : Daemon) : PD Unit := do
  lift manageRunning
  let matched ← lift (checkQueued d)
  actionQueuedD d matched

/-! ## The system -/

/-- The programs besides the job manager. -/
inductive Other where
  /-- a program, or a job process which has read its file -/
  | prog (p : P Unit)
  /-- a job process which has been started; `resolve` is `Path(...).resolve()` in its working directory -/
  | job (l : Launch) (pid : Nat) (resolve : String → String) (mainLoop : P (Option Nat))

/-- The state. -/
structure DSys where
  w : World
  files : Files
  jm : PD Unit := .pure ()
  others : List Other := []
  started : List Launch := []
  /-- the configurations with which the job manager has made its passes, the latest first -/
  passes : List Daemon := []

/-- What can happen next. -/
inductive DAct where
  | jmStart (d : Daemon)
  | jmStep
  | jmKill
  /-- a command, not a job process -/
  | spawn (c : Cmd)
  /-- the process of a launch starts -/
  | start (l : Launch) (pid : Nat) (resolve : String → String) (mainLoop : P (Option Nat))
      (quiet : Prog.Only (S := DB) QuietOp mainLoop)
  | step (i : Nat)
  | kill (i : Nat)
  | env (e : EnvAct)

/-- The beginning of `tomato_job`, job.py:403-411: the file is read.  If it is missing or empty, the process ends. -/
def readData (f : Files) (st : String) (l : Launch) (pid : Nat) (resolve : String → String)
    (m : P (Option Nat)) : P Unit :=
  match f st l.jobid with
  | none => Prog.raise .fileNotFoundError
  | some none => Prog.raise .valueError
  | some (some x) => tomatoJob x.id pid x.payload x.pipeline.name (resolve x.path) m

/-- Execute an action; `none` if it is not possible. -/
def dact (storage : String) (s : DSys) : DAct → Option DSys
  | .jmStart d =>
      if s.jm.ended ∧ d.settings.storage = storage then
        some { s with jm := passD d, passes := d :: s.passes }
      else none
  | .jmStep =>
      match s.jm with
      | .op o k =>
          some { s with jm := k (dExec o (s.w, s.files)).1, w := (dExec o (s.w, s.files)).2.1,
                        files := (dExec o (s.w, s.files)).2.2 }
      | _ => none
  | .jmKill => some { s with jm := .pure () }
  | .spawn c =>
      match c.launch with
      | none => some { s with others := s.others ++ [.prog c.prog] }
      | some _ => none
  | .start l pid resolve m _ =>
      if s.started.count l < s.w.launches.count l then
        some { s with others := s.others ++ [.job l pid resolve m], started := s.started ++ [l] }
      else none
  | .step i =>
      match s.others[i]? with
      | none => none
      | some (.job l pid resolve m) =>
          some { s with others := s.others.set i (.prog (readData s.files storage l pid resolve m)) }
      | some (.prog p) =>
          match stepProg p s.w with
          | some (p', w) => some { s with others := s.others.set i (.prog p'), w := w }
          | none => none
  | .kill i => some { s with others := s.others.set i (.prog (.pure ())) }
  | .env e => some { s with w := e.apply s.w }

/-- One step of the system. -/
def DStep (storage : String) (s s' : DSys) : Prop := ∃ a, dact storage s a = some s'

/-- Any number of steps. -/
inductive DSteps (storage : String) : DSys → DSys → Prop
  | refl (s : DSys) : DSteps storage s s
  | tail {s s' s'' : DSys} : DSteps storage s s' → DStep storage s' s'' → DSteps storage s s''

/-- Reachable from a fresh installation. -/
def DReachable (storage : String) (s : DSys) : Prop := DSteps storage { w := {}, files := fun _ _ => none } s

/-- Execute a list of actions. -/
def dacts (storage : String) : DSys → List DAct → Option DSys
  | s, [] => some s
  | s, a :: as =>
      match dact storage s a with
      | some s' => dacts storage s' as
      | none => none

theorem DSteps.trans {st : String} {a b c : DSys} (h1 : DSteps st a b) (h2 : DSteps st b c) : DSteps st a c := by
  induction h2 with
  | refl => exact h1
  | tail _ h ih => exact .tail ih h

theorem dsteps_of_dacts {st : String} {s s' : DSys} {as : List DAct}
    (h : dacts st s as = some s') : DSteps st s s' := by
  induction as generalizing s with
  | nil => cases h; exact .refl _
  | cons a as ih =>
    simp only [dacts] at h
    split at h
    · next s1 h1 => exact DSteps.trans (.tail (.refl _) ⟨a, h1⟩) (ih h)
    · cases h

/-! ## The job manager does the same as in `Verif/JobMgr.lean` -/

/-- The program does the same to the world as a program of the world, or stops earlier. -/
inductive Sim {α : Type} : PD α → P α → Prop
  | pure (a : α) : Sim (.pure a) (.pure a)
  | raise (e : PyErr) (p : P α) : Sim (.raise e) p
  | db (o : Op) (k : Except PyErr (Resp o) → PD α) (k' : Except PyErr (Resp o) → P α)
      (h : ∀ r, Sim (k r) (k' r)) : Sim (.op (.db o) k) (.op o k')
  | file (o : FileOp) (k : Except PyErr Unit → PD α) (p : P α)
      (h : ∀ r, Sim (k r) p) : Sim (.op (.file o) k) p

theorem sim_lift {α : Type} (p : P α) : Sim (lift p) p := by
  induction p with
  | pure a => exact .pure a
  | raise e => exact .raise e _
  | op o k ih => exact .db o _ _ ih

theorem sim_bind {α β : Type} {p : PD α} {q : P α} {f : α → PD β} {g : α → P β}
    (h : Sim p q) (hf : ∀ a, Sim (f a) (g a)) : Sim (Prog.bind p f) (Prog.bind q g) := by
  induction h with
  | pure a => exact hf a
  | raise e p => exact .raise e _
  | db o k k' _ ih => exact .db o _ _ ih
  | file o k p _ ih => exact .file o _ _ ih

theorem sim_onFile {β : Type} (o : FileOp) {f : Unit → PD β} {q : P β} (hf : ∀ a, Sim (f a) q) :
    Sim (Prog.bind (onFile o) f) q := by
  refine .file o _ _ (fun r => ?_)
  cases r with
  | error e => exact .raise e _
  | ok u => exact hf u

theorem jobargs_none {d : Daemon} {jobid : Nat} {job : Job} {n : String} :
    jobargs d jobid job n = none ↔ jobArgs d n = none := by
  unfold jobargs jobArgs
  cases d.settings.repositories with
  | none => simp
  | some r => cases Dict.get? d.devicefile.pipelines n <;> simp

theorem sim_assignJob (d : Daemon) (jobid : Nat) (job : Job) (ns : List String) (avail : Dict String PipState) :
    Sim (assignJobD d jobid job ns avail) (assignJob d jobid job ns avail) := by
  induction ns generalizing avail with
  | nil => exact .pure _
  | cons n ns ih =>
    rw [assignJobD, assignJob]
    cases hav : Dict.get? avail n with
    | none => exact ih _
    | some ps =>
      by_cases hc : (!ps.ready) = true ∨ ps.sampleid ≠ some job.payload.sample
      · simp only [hc, if_true]; exact ih _
      · simp only [hc, if_false, Prog.bind_eq]
        refine sim_bind (sim_lift _) (fun _ => ?_)
        cases hx : jobargs d jobid job n with
        | none => exact .raise _ _
        | some x =>
          cases ha : jobArgs d n with
          | none => rw [jobargs_none.mpr ha] at hx; cases hx
          | some pl =>
            refine sim_onFile _ (fun _ => sim_onFile _ (fun _ => ?_))
            refine sim_bind (sim_lift _) (fun _ => sim_bind (sim_lift _) (fun _ => ?_))
            exact sim_bind (sim_lift _) (fun _ => sim_bind (sim_lift _) (fun _ => .pure _))

theorem sim_actionLoop (d : Daemon) (matched : Dict Nat (List String)) (ids : List Nat)
    (avail : Dict String PipState) : Sim (actionLoopD d matched ids avail) (actionLoop d matched ids avail) := by
  induction ids generalizing avail with
  | nil => exact .pure _
  | cons id ids ih =>
    unfold actionLoopD actionLoop
    simp only [Prog.bind_eq]
    refine sim_bind (sim_lift _) (fun job => ?_)
    cases Dict.get? matched id with
    | none => exact .raise _ _
    | some pnames => exact sim_bind (sim_assignJob ..) (fun _ => ih _)

theorem sim_pass (d : Daemon) : Sim (passD d) (jobManagerPass d) := by
  unfold passD jobManagerPass
  simp only [Prog.bind_eq]
  refine sim_bind (sim_lift _) (fun _ => sim_bind (sim_lift _) (fun m => ?_))
  unfold actionQueuedD actionQueued
  simp only [Prog.bind_eq]
  exact sim_bind (sim_lift _) (fun _ => sim_actionLoop ..)

end Tomato.Given
