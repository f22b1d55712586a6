import Verif.System
import Verif.Cli

/-!
# The job process with its files

`Verif/JobMgr.lean` models `tomato_job` (job.py:355-497) without the output folder and without the
RO-crate.  Here is the whole function, over the world of `Verif/World.lean` and a tree of files and
folders:

* job.py:448-454: the output folder is checked and, if it is missing, made with `os.makedirs`;
* job.py:477 and io.py:21-48: the NetCDF file is written into the output folder;
* job.py:478-488 and crates.py: the RO-crate is written beside it.

Paths are absolute lists of components, see `resolve`.  Not modelled: symbolic links, `..`,
permissions, full disks, the log file, and the parts of the RO-crate that do not depend on the job.
-/

namespace Tomato.Full

/-- What `to_rocrate` (crates.py:46-79) is told about the job besides the data. -/
structure CrateInfo where
  /-- `payload.user.identifier` -/
  user : String
  /-- `payload.sample.sample_is_parent` -/
  child : Bool
  deriving DecidableEq, Repr

/-- What a path can be. -/
inductive Node where
  | dir
  /-- the merged data of a job -/
  | nc (job : Nat)
  /-- an RO-crate: author, sample, whether the data belongs to a child of the sample, the data -/
  | zip (info : CrateInfo) (sample : String) (data : Node)
  /-- any other file -/
  | file (content : String)
  deriving DecidableEq, Repr

/-- The files and folders. -/
abbrev Tree := FsPath → Option Node

/-- Store a node. -/
def Tree.put (t : Tree) (p : FsPath) (n : Node) : Tree := fun q => if q = p then some n else t q

/-- The text between the slashes. -/
def splitSlash : List Char → List (List Char)
  | [] => [[]]
  | c :: s =>
    if c = '/' then [] :: splitSlash s
    else match splitSlash s with
      | [] => [[c]]
      | x :: xs => (c :: x) :: xs

/-- The components of a path (`pathlib` drops empty ones and `.`). -/
def parts (s : List Char) : FsPath :=
  ((splitSlash s).filter (fun x => decide (x ≠ [] ∧ x ≠ ['.']))).map String.ofList

/-- The place meant by a path in a process with working directory `cwd`. -/
def resolve (cwd : FsPath) (s : String) : FsPath :=
  if s.toList.head? = some '/' then parts s.toList else cwd ++ parts s.toList

/-- Operations on files. -/
inductive FsOp where
  /-- `path.exists()` -/
  | exists (p : FsPath)
  /-- `path.is_dir()` -/
  | isDir (p : FsPath)
  /-- `os.mkdir(path)` -/
  | mkdir (p : FsPath)
  /-- crates.py:53-79: collect the data and write the zip file -/
  | crate (info : CrateInfo) (sample : String) (data zip : FsPath)

/-- The answers. -/
@[reducible] def FsResp : FsOp → Type
  | .exists _ => Bool
  | .isDir _ => Bool
  | .mkdir _ => Unit
  | .crate .. => Unit

/-- The signature of programs that only use files. -/
@[reducible] def FS : Sig := ⟨FsOp, FsResp⟩

/-- Can a file be written there? -/
def writable (t : Tree) (p : FsPath) : Except PyErr Unit :=
  if t p = some .dir then .error .isADirectory
  else match t p.dropLast with
    | some .dir => .ok ()
    | some _ => .error .notADirectory
    | none => .error .fileNotFoundError

/-- The meaning of the operations. -/
def fsExec : (o : FsOp) → Tree → Except PyErr (FsResp o) × Tree
  | .exists p, t => (.ok (t p).isSome, t)
  | .isDir p, t => (.ok (decide (t p = some .dir)), t)
  | .mkdir p, t =>
      if (t p).isSome then (.error .fileExistsError, t)
      else match t p.dropLast with
        | some .dir => (.ok (), t.put p .dir)
        | some _ => (.error .notADirectory, t)
        | none => (.error .fileNotFoundError, t)
  | .crate i s data zip, t =>
      match t data with
      | none => (.error .fileNotFoundError, t)
      | some n =>
        match writable t zip with
        | .error e => (.error e, t)
        | .ok _ => (.ok (), t.put zip (.zip i s n))

namespace Ask

/-- `path.exists()` -/
def exists' (p : FsPath) : Prog FS Bool := Prog.call (S := FS) (.exists p)
/-- `path.is_dir()` -/
def isDir (p : FsPath) : Prog FS Bool := Prog.call (S := FS) (.isDir p)
/-- `os.mkdir(path)` -/
def mkdir (p : FsPath) : Prog FS Unit := Prog.call (S := FS) (.mkdir p)

theorem run_exists (p : FsPath) (t : Tree) :
    Prog.run fsExec (exists' p) t = (.ok (t p).isSome, t) := rfl
theorem run_isDir (p : FsPath) (t : Tree) :
    Prog.run fsExec (isDir p) t = (.ok (decide (t p = some .dir)), t) := rfl
theorem run_mkdir (p : FsPath) (t : Tree) :
    Prog.run fsExec (mkdir p) t = fsExec (.mkdir p) t := Prog.run_call (S := FS) (.mkdir p) t

end Ask

/-- `os.makedirs(p)` of the standard library, on the reversed path: make the missing parents first,
not minding if somebody else makes the parent meanwhile; then make the folder itself.
Simplification: for a relative path the existence of the working directory is checked as well. -/
def makedirsRev : List String → Prog FS Unit
  | [] => (Ask.mkdir [])
  | c :: head => do
    let ex ← (Ask.exists' head.reverse)
    if !ex then
      Prog.tryExcept (makedirsRev head)
        (fun e => if e = .fileExistsError then some (pure ()) else none)
    (Ask.mkdir (c :: head).reverse)

/-- job.py:448-454: the output folder. -/
def prepareOut (p : FsPath) : Prog FS Unit := do
  let ex ← (Ask.exists' p)
  if ex then
    let d ← (Ask.isDir p)
    Prog.assert d
  else makedirsRev p.reverse

/-! ## The whole process -/

/-- Operations of a job process. -/
inductive FOp where
  | db (o : Op)
  | fs (o : FsOp)
  /-- `merge_netcdfs(job)` with the file written; `cwd`: the working directory of the process -/
  | merge (jobid : Nat) (jobpath path : Option String) (cwd : FsPath)

/-- The answers. -/
@[reducible] def FResp : FOp → Type
  | .db o => Resp o
  | .fs o => FsResp o
  | .merge .. => Unit

/-- The signature of a job process. -/
@[reducible] def JF : Sig := ⟨FOp, FResp⟩

/-- Job processes. -/
abbrev PF (α : Type) := Prog JF α

/-- The meaning of the operations.  A merge succeeds if the data can be loaded (`exec`) and the
file can be written. -/
def fExec : (o : FOp) → World × Tree → Except PyErr (FResp o) × (World × Tree)
  | .db o, s => ((exec o s.1).1, (exec o s.1).2, s.2)
  | .fs o, s => ((fsExec o s.2).1, s.1, (fsExec o s.2).2)
  | .merge id jp path cwd, s =>
      match exec (.merge id jp path) s.1 with
      | (.error e, _) => (.error e, s)
      | (.ok _, w) =>
        match path with
        | none => (.error .assertionError, s)
        | some f =>
          match writable s.2 (resolve cwd f) with
          | .error e => (.error e, s)
          | .ok _ => (.ok (), w, s.2.put (resolve cwd f) (.nc id))

/-- A program of the world as a program of the job process. -/
def liftDb {α : Type} : P α → PF α
  | .pure a => .pure a
  | .raise e => .raise e
  | .op o k => .op (.db o) (fun r => liftDb (k r))

/-- A program on files as a program of the job process. -/
def liftFs {α : Type} : Prog FS α → PF α
  | .pure a => .pure a
  | .raise e => .raise e
  | .op o k => .op (.fs o) (fun r => liftFs (k r))

/-- crates.py:76: `datapath[:-3] + ".zip"`. -/
def cratePath (p : FsPath) : FsPath :=
  p.dropLast ++ [String.ofList ((p.getLastD "").toList.take ((p.getLastD "").length - 3)) ++ ".zip"]

/-- job.py:275-278: the repositories handed to the job process: those configured and asked for. -/
def reposFor (s : Settings) (p : Payload) : List String :=
  ((s.repositories.getD []).map (·.1)).filter (fun r => decide (r ∈ p.repositories))

/-- The rest of the job process, job.py:470-497.  `rocrate`: is the package installed?  (crates.py:
49-50.) -/
def finishF (job : Job) (pip : String) (cwd : FsPath) (repos : List String) (info : CrateInfo)
    (rocrate : Bool) (ret : Option Nat) : PF Unit := do
  let now ← liftDb Do.now
  let st : JobStatus := if ret.isNone then .c else .ce
  Prog.call (S := JF) (.merge job.id job.jobpath job.respath cwd)
  if repos.length > 0 ∧ rocrate = true then
    let res := resolve cwd (job.respath.getD "")
    Prog.call (S := JF) (.fs (.crate info job.payload.sample res (cratePath res)))
  let job ← liftDb (updateJobId job.id [.status st, .completedAt (some now)])
  let _ ← liftDb (updatePip pip [.jobid none, .ready job.payload.unlockWhenDone])

/-- `tomato_job`, job.py:355-497.  `cwd`: the working directory of the process, inherited from the
daemon; `repos`: the repositories found in `jobdata.json`. -/
def tomatoJobF (jobid pid : Nat) (payload : Payload) (pip jobpath : String) (cwd : FsPath)
    (repos : List String) (info : CrateInfo) (rocrate : Bool) (mainLoop : P (Option Nat)) :
    PF Unit := do
  liftDb (jobConnect jobid pid)
  match payload.outPath with
  | none => Prog.raise .typeError
  | some o => do
    liftFs (prepareOut (resolve cwd o))
    let job ← liftDb (jobPaths jobid payload jobpath)
    let ret ← liftDb mainLoop
    finishF job pip cwd repos info rocrate ret

/-! ## The system -/

/-- The programs of the system, except the job manager. -/
inductive FCmd where
  /-- all other commands -/
  | cmd (c : Cmd) (h : c.launch = none)
  /-- a job process -/
  | job (jobid pid : Nat) (payload : Payload) (pip jobpath : String) (cwd : FsPath)
      (repos : List String) (info : CrateInfo) (rocrate : Bool)
      (mainLoop : P (Option Nat)) (quiet : Prog.Only (S := DB) QuietOp mainLoop)

/-- The program executed by a command. -/
def FCmd.prog : FCmd → PF Unit
  | cmd c _ => liftDb c.prog
  | job j i pl pip path cwd rs info rc m _ => tomatoJobF j i pl pip path cwd rs info rc m

/-- The launch that a command answers to, if it is a job process. -/
def FCmd.launch : FCmd → Option Launch
  | cmd _ _ => none
  | job j _ _ pip .. => some ⟨j, pip⟩

/-- The same command in the system of `Verif/System.lean`. -/
def FCmd.base : FCmd → Cmd
  | cmd c _ => c
  | job j i pl pip path _ _ _ _ m h => .tomatoJob j i pl pip path m h

/-- State of the system: that of `Verif/System.lean` and the files. -/
structure FSys where
  w : World
  t : Tree
  jm : P Unit := .pure ()
  others : List (PF Unit) := []
  started : List Launch := []

/-- What can happen next. -/
inductive FAct where
  | jmStart (d : Daemon)
  | jmStep
  | jmKill
  | spawn (c : FCmd)
  | step (i : Nat)
  | kill (i : Nat)
  | env (e : EnvAct)
  /-- somebody else changes files: users, other programs, snapshots, the job manager -/
  | files (t : Tree)

/-- Execute an action; `none` if it is not possible. -/
def fact (storage : String) (s : FSys) : FAct → Option FSys
  | .jmStart d =>
      if s.jm.ended ∧ d.settings.storage = storage then
        some { s with jm := jobManagerPass d }
      else none
  | .jmStep =>
      match stepProg s.jm s.w with
      | some (p, w) => some { s with jm := p, w := w }
      | none => none
  | .jmKill => some { s with jm := .pure () }
  | .spawn c =>
      match c.launch with
      | none => some { s with others := s.others ++ [c.prog] }
      | some l =>
          if s.started.count l < s.w.launches.count l then
            some { s with others := s.others ++ [c.prog], started := s.started ++ [l] }
          else none
  | .step i =>
      match s.others[i]? with
      | some (.op o k) =>
          some { s with others := s.others.set i (k (fExec o (s.w, s.t)).1),
                        w := (fExec o (s.w, s.t)).2.1, t := (fExec o (s.w, s.t)).2.2 }
      | _ => none
  | .kill i => some { s with others := s.others.set i (.pure ()) }
  | .env e => some { s with w := e.apply s.w }
  | .files t => some { s with t := t }

/-- One step of the system. -/
def FStep (storage : String) (s s' : FSys) : Prop := ∃ a, fact storage s a = some s'

/-- Any number of steps. -/
inductive FSteps (storage : String) : FSys → FSys → Prop
  | refl (s : FSys) : FSteps storage s s
  | tail {s s' s'' : FSys} : FSteps storage s s' → FStep storage s' s'' → FSteps storage s s''

/-- Reachable from a fresh installation, whatever files there are. -/
def FReachable (storage : String) (s : FSys) : Prop := ∃ t, FSteps storage { w := {}, t := t } s

/-- Execute a list of actions. -/
def facts (storage : String) : FSys → List FAct → Option FSys
  | s, [] => some s
  | s, a :: as =>
      match fact storage s a with
      | some s' => facts storage s' as
      | none => none

/-! ## Every execution is an execution of the system of `Verif/System.lean` -/

/-- A program of the job process does the same to the world as a program of the world, or stops
earlier. -/
inductive Sim {α : Type} : PF α → P α → Prop
  | pure (a : α) : Sim (.pure a) (.pure a)
  | raise (e : PyErr) (p : P α) : Sim (.raise e) p
  | db (o : Op) (k : Except PyErr (Resp o) → PF α) (k' : Except PyErr (Resp o) → P α)
      (h : ∀ r, Sim (k r) (k' r)) : Sim (.op (.db o) k) (.op o k')
  | fs (o : FsOp) (k : Except PyErr (FsResp o) → PF α) (p : P α)
      (h : ∀ r, Sim (k r) p) : Sim (.op (.fs o) k) p
  | merge (id : Nat) (jp path : Option String) (cwd : FsPath) (k : Except PyErr Unit → PF α)
      (k' : Except PyErr Unit → P α) (h : ∀ u, Sim (k (.ok u)) (k' (.ok u)))
      (he : ∀ e, Sim (k (.error e)) (.op (.merge id jp path) k')) :
      Sim (.op (.merge id jp path cwd) k) (.op (.merge id jp path) k')

theorem sim_liftDb {α : Type} (p : P α) : Sim (liftDb p) p := by
  induction p with
  | pure a => exact .pure a
  | raise e => exact .raise e _
  | op o k ih => exact .db o _ _ ih

theorem sim_bind {α β : Type} {p : PF α} {q : P α} {f : α → PF β} {g : α → P β}
    (h : Sim p q) (hf : ∀ a, Sim (f a) (g a)) : Sim (Prog.bind p f) (Prog.bind q g) := by
  induction h with
  | pure a => exact hf a
  | raise e p => exact .raise e _
  | db o k k' _ ih => exact .db o _ _ ih
  | fs o k p _ ih => exact .fs o _ _ ih
  | merge id jp path cwd k k' _ _ ih ihe => exact .merge id jp path cwd _ _ ih ihe

/-- Operations on files before a program do not matter. -/
theorem sim_files {α β : Type} (p : Prog FS α) {f : α → PF β} {q : P β}
    (hf : ∀ a, Sim (f a) q) : Sim (Prog.bind (liftFs p) f) q := by
  induction p with
  | pure a => exact hf a
  | raise e => exact .raise e _
  | op o k ih => exact .fs o _ _ ih

theorem sim_finish (job : Job) (pip : String) (cwd : FsPath) (repos : List String)
    (info : CrateInfo) (rocrate : Bool) (ret : Option Nat) :
    Sim (finishF job pip cwd repos info rocrate ret) (jobFinish job pip ret) := by
  unfold finishF jobFinish
  simp only [Prog.bind_eq]
  refine sim_bind (sim_liftDb _) (fun now => ?_)
  refine .merge _ _ _ _ _ _ (fun u => ?_) (fun e => .raise e _)
  have key : Sim
      (Prog.bind (liftDb (updateJobId job.id
        [.status (if ret.isNone then .c else .ce), .completedAt (some now)])) (fun job =>
          Prog.bind (liftDb (updatePip pip [.jobid none, .ready job.payload.unlockWhenDone]))
            (fun _ => Prog.pure ())))
      (Prog.bind (updateJobId job.id
        [.status (if ret.isNone then .c else .ce), .completedAt (some now)]) (fun job =>
          Prog.bind (updatePip pip [.jobid none, .ready job.payload.unlockWhenDone])
            (fun _ => Prog.pure ()))) :=
    sim_bind (sim_liftDb _) (fun job => sim_bind (sim_liftDb _) (fun _ => .pure ()))
  show Sim (Prog.bind (Prog.pure u) _) (Prog.bind (Prog.pure u) _)
  simp only [Prog.pure_bind]
  split
  · refine .fs _ _ _ (fun r => ?_)
    cases r with
    | error e => exact .raise e _
    | ok u => exact key
  · exact key

theorem sim_tomatoJob (jobid pid : Nat) (payload : Payload) (pip jobpath : String) (cwd : FsPath)
    (repos : List String) (info : CrateInfo) (rocrate : Bool) (m : P (Option Nat)) :
    Sim (tomatoJobF jobid pid payload pip jobpath cwd repos info rocrate m)
      (tomatoJob jobid pid payload pip jobpath m) := by
  unfold tomatoJobF tomatoJob
  simp only [Prog.bind_eq]
  refine sim_bind (sim_liftDb _) (fun _ => ?_)
  split
  · exact .raise _ _
  · refine sim_files _ (fun _ => ?_)
    exact sim_bind (sim_liftDb _) (fun job => sim_bind (sim_liftDb _) (fun ret => sim_finish ..))

theorem sim_cmd (c : FCmd) : Sim c.prog c.base.prog := by
  cases c with
  | cmd c h => exact sim_liftDb _
  | job j i pl pip path cwd rs info rc m hm => exact sim_tomatoJob ..

/-- The corresponding state of the system of `Verif/System.lean`. -/
structure Rel (s : FSys) (b : Sys) : Prop where
  w : b.w = s.w
  jm : b.jm = s.jm
  started : b.started = s.started
  length : s.others.length = b.others.length
  others : ∀ (i : Nat) (p : PF Unit) (q : P Unit), s.others[i]? = some p → b.others[i]? = some q →
    Sim p q

theorem base_launch (c : FCmd) : c.base.launch = c.launch := by
  cases c with
  | cmd c h => exact h
  | job => rfl

theorem rel_append {s : FSys} {b : Sys} (h : Rel s b) {p : PF Unit} {q : P Unit} (hp : Sim p q)
    (i : Nat) (p' : PF Unit) (q' : P Unit) (h1 : (s.others ++ [p])[i]? = some p')
    (h2 : (b.others ++ [q])[i]? = some q') : Sim p' q' := by
  rw [List.getElem?_append] at h1 h2
  rw [← h.length] at h2
  split at h1
  · next hi => rw [if_pos hi] at h2; exact h.others i p' q' h1 h2
  · next hi =>
    rw [if_neg hi] at h2
    cases hn : i - s.others.length with
    | zero => rw [hn] at h1 h2; cases h1; cases h2; exact hp
    | succ n => rw [hn] at h1; cases h1

theorem rel_set {s : FSys} {b : Sys} (h : Rel s b) (j : Nat) {p : PF Unit} {q : P Unit}
    (hp : Sim p q) (i : Nat) (p' : PF Unit) (q' : P Unit)
    (h1 : (s.others.set j p)[i]? = some p') (h2 : (b.others.set j q)[i]? = some q') :
    Sim p' q' := by
  rw [List.getElem?_set] at h1 h2
  rw [← h.length] at h2
  split at h1
  · next e =>
    rw [if_pos e] at h2
    split at h1
    · next hl => rw [if_pos hl] at h2; cases h1; cases h2; exact hp
    · cases h1
  · next e => rw [if_neg e] at h2; exact h.others i p' q' h1 h2

theorem rel_set_left {s : FSys} {b : Sys} (h : Rel s b) {j : Nat} {p : PF Unit} {q : P Unit}
    (hq : b.others[j]? = some q) (hp : Sim p q) (i : Nat) (p' : PF Unit) (q' : P Unit)
    (h1 : (s.others.set j p)[i]? = some p') (h2 : b.others[i]? = some q') : Sim p' q' := by
  rw [List.getElem?_set] at h1
  split at h1
  · next e =>
    subst e
    split at h1
    · cases h1; rw [hq] at h2; cases h2; exact hp
    · cases h1
  · exact h.others i p' q' h1 h2

/-- Every action corresponds to at most one action; starting a command corresponds to starting the
same command. -/
theorem refines_act {st : String} {s s' : FSys} {b : Sys} (h : Rel s b) {a : FAct}
    (ha : fact st s a = some s') :
    ∃ b', (b' = b ∨ ∃ a', act st b a' = some b' ∧
      ∀ c, a' = .spawn c → ∃ fc, a = .spawn fc ∧ c = fc.base) ∧ Rel s' b' := by
  cases a with
  | jmStart d =>
    simp only [fact] at ha
    split at ha
    · next hd =>
      cases ha
      refine ⟨{ b with jm := jobManagerPass d }, .inr ⟨.jmStart d, ?_, by rintro c ⟨⟩⟩,
        ⟨h.w, rfl, h.started, h.length, h.others⟩⟩
      simp only [act, h.jm]
      rw [if_pos hd]
    · cases ha
  | jmStep =>
    simp only [fact] at ha
    split at ha
    · next p w hp =>
      cases ha
      refine ⟨{ b with jm := p, w := w }, .inr ⟨.jmStep, ?_, by rintro c ⟨⟩⟩,
        ⟨rfl, rfl, h.started, h.length, h.others⟩⟩
      simp only [act, h.jm, h.w, hp]
    · cases ha
  | jmKill =>
    cases ha
    exact ⟨{ b with jm := .pure () }, .inr ⟨.jmKill, rfl, by rintro c ⟨⟩⟩, ⟨h.w, rfl, h.started, h.length, h.others⟩⟩
  | spawn c =>
    simp only [fact] at ha
    split at ha
    · next hl =>
      cases ha
      refine ⟨{ b with others := b.others ++ [c.base.prog] }, .inr ⟨.spawn c.base, ?_, by rintro c' ⟨⟩; exact ⟨c, rfl, rfl⟩⟩,
        ⟨h.w, h.jm, h.started, by simp [h.length], rel_append h (sim_cmd c)⟩⟩
      simp only [act, base_launch, hl]
    · next l hl =>
      split at ha
      · next hc =>
        cases ha
        refine ⟨{ b with others := b.others ++ [c.base.prog], started := b.started ++ [l] },
          .inr ⟨.spawn c.base, ?_, by rintro c' ⟨⟩; exact ⟨c, rfl, rfl⟩⟩,
          ⟨h.w, h.jm, by simp [h.started], by simp [h.length], rel_append h (sim_cmd c)⟩⟩
        simp only [act, base_launch, hl, h.started, h.w]
        rw [if_pos hc]
      · cases ha
  | step i =>
    simp only [fact] at ha
    split at ha
    · next o k hp =>
      have hlt : i < b.others.length := by
        rw [← h.length]; exact (List.getElem?_eq_some_iff.mp hp).1
      obtain ⟨q, hq⟩ : ∃ q, b.others[i]? = some q := ⟨_, List.getElem?_eq_getElem hlt⟩
      have hsim := h.others i _ _ hp hq
      cases ha
      cases hsim with
      | db o k k' hk =>
        refine ⟨{ b with others := b.others.set i (k' (exec o b.w).1), w := (exec o b.w).2 },
          .inr ⟨.step i, ?_, by rintro c ⟨⟩⟩, ⟨?_, h.jm, h.started, by simp [h.length], ?_⟩⟩
        · simp only [act, hq, stepProg]
        · rw [h.w]; rfl
        · rw [h.w]
          exact rel_set h i (hk _)
      | fs o k p hk =>
        exact ⟨b, .inl rfl, ⟨h.w, h.jm, h.started, by simp [h.length], rel_set_left h hq (hk _)⟩⟩
      | merge id jp path cwd k k' hk he =>
        have hcases : (∃ e, (fExec (.merge id jp path cwd) (s.w, s.t)).1 = .error e ∧
              (fExec (.merge id jp path cwd) (s.w, s.t)).2.1 = s.w) ∨
            ((fExec (.merge id jp path cwd) (s.w, s.t)).1 = .ok () ∧
              (exec (.merge id jp path) s.w).1 = .ok () ∧
              (fExec (.merge id jp path cwd) (s.w, s.t)).2.1 = (exec (.merge id jp path) s.w).2) := by
          simp only [fExec]
          cases hx : exec (.merge id jp path) s.w with
          | mk r w =>
            cases r with
            | error e => exact .inl ⟨e, rfl, rfl⟩
            | ok u =>
              cases path with
              | none => exact .inl ⟨_, rfl, rfl⟩
              | some f =>
                dsimp only
                cases writable s.t (resolve cwd f) with
                | error e => exact .inl ⟨_, rfl, rfl⟩
                | ok v => exact .inr ⟨rfl, rfl, rfl⟩
        rcases hcases with ⟨e, h1, h2⟩ | ⟨h1, h2, h3⟩
        · refine ⟨b, .inl rfl, ⟨by rw [h.w]; exact h2.symm, h.jm, h.started, by simp [h.length], ?_⟩⟩
          rw [h1]
          exact rel_set_left h hq (he e)
        · refine ⟨{ b with others := b.others.set i (k' (exec (.merge id jp path) b.w).1),
                           w := (exec (.merge id jp path) b.w).2 },
            .inr ⟨.step i, ?_, by rintro c ⟨⟩⟩, ⟨by rw [h.w]; exact h3.symm, h.jm, h.started, by simp [h.length], ?_⟩⟩
          · simp only [act, hq, stepProg]
          · rw [h1, h.w, h2]
            exact rel_set h i (hk _)
    · cases ha
  | kill i =>
    cases ha
    exact ⟨{ b with others := b.others.set i (.pure ()) }, .inr ⟨.kill i, rfl, by rintro c ⟨⟩⟩,
      ⟨h.w, h.jm, h.started, by simp [h.length], rel_set h i (.pure ())⟩⟩
  | env e =>
    cases ha
    exact ⟨{ b with w := e.apply b.w }, .inr ⟨.env e, rfl, by rintro c ⟨⟩⟩,
      ⟨by rw [h.w], h.jm, h.started, h.length, h.others⟩⟩
  | files t =>
    cases ha
    exact ⟨b, .inl rfl, ⟨h.w, h.jm, h.started, h.length, h.others⟩⟩

/-- Every step corresponds to at most one step. -/
theorem refines_step {st : String} {s s' : FSys} {b : Sys} (h : Rel s b) (hs : FStep st s s') :
    ∃ b', (b' = b ∨ Step st b b') ∧ Rel s' b' := by
  obtain ⟨a, ha⟩ := hs
  obtain ⟨b', h1, h2⟩ := refines_act h ha
  refine ⟨b', ?_, h2⟩
  rcases h1 with h1 | ⟨a', h1, -⟩
  · exact .inl h1
  · exact .inr ⟨a', h1⟩

theorem refines_steps {st : String} {s s' : FSys} {b : Sys} (h : Rel s b) (hs : FSteps st s s') :
    ∃ b', Steps st b b' ∧ Rel s' b' := by
  induction hs with
  | refl => exact ⟨b, .refl _, h⟩
  | tail _ hst ih =>
    obtain ⟨b1, hb1, h1⟩ := ih
    obtain ⟨b2, hb2, h2⟩ := refines_step h1 hst
    rcases hb2 with rfl | hb2
    · exact ⟨_, hb1, h2⟩
    · exact ⟨b2, .tail hb1 hb2, h2⟩

/-- Every reachable state corresponds to a reachable state of the system of `Verif/System.lean`. -/
theorem refines {st : String} {s : FSys} (h : FReachable st s) :
    ∃ b, Reachable st b ∧ Rel s b := by
  obtain ⟨t, ht⟩ := h
  exact refines_steps (b := Sys.init)
    ⟨rfl, rfl, rfl, rfl, by intro i p q h; simp at h⟩ ht

end Tomato.Full
