import Verif.World

/-!
# `ketchup`: the job queue commands

`/repo/src/tomato/ketchup/__init__.py` and `/repo/src/tomato/daemon/jobdb.py`.
-/

namespace Tomato

/-! ## jobdb -/

/-- `jobdb.get_job_id`, jobdb.py:54-61: `zip(columns, None)` raises `TypeError` when there is
no such row. -/
def getJobId (id : Nat) : P Job := do
  match ← (Do.fetchJob id) with
  | some j => pure j
  | none => Prog.raise .typeError

/-- `jobdb.insert_job`, jobdb.py:18-42: insert, then look the id up by submission time. -/
def insertJob (j : Job) : P Job := do
  (Do.insertJob j)
  let id ← (Do.idBySubmitted j.submittedAt)
  getJobId id

/-- `jobdb.update_job_id`, jobdb.py:45-51. -/
def updateJobId (id : Nat) (ps : List JobParam) : P Job := do
  (Do.updateJob id ps)
  getJobId id

/-! ## Replies -/

/-- The messages of ketchup's replies. -/
inductive KMsg where
  | payloadNotFound
  | payloadSuffix
  | unknownRepository (repo : String)
  | submitted (id : Nat) (jobname : Option String)
  | queueEmpty
  | noJob (ids : List Nat)
  | foundOne (statuses : List JobStatus)
  | foundMany (groups : List (JobStatus × List Nat))
  | doesNotExist (id : Nat)
  | alreadyCancelled
  | cancelled (ids : List Nat)
  | stillQueued (id : Nat)
  | snapshotCreated (ids : List Nat)
  | searchFound (ids : List Nat)
  | searchNone
  deriving DecidableEq, Repr

/-- The data of ketchup's replies. -/
inductive KData where
  | settings (s : Settings)
  | job (j : Job)
  | jobs (js : List Job)
  deriving DecidableEq, Repr

abbrev KReply := Reply KMsg KData

/-! ## submit -/

/-- What is found at the payload path (ketchup 76-96): nothing, a file that is neither json
nor yaml, a file that can not be parsed into a payload, or a payload (already upgraded, see
`Verif/Cli.lean`). -/
inductive PayloadFile where
  | missing
  | badSuffix
  | invalid (e : PyErr)
  | parsed (p : Payload)
  deriving DecidableEq, Repr

/-- ketchup 98-105: fill in missing output and snapshot paths. -/
def fillPaths (p : Payload) (cwd : String) : Payload :=
  let p := if p.outPath.isNone then { p with outPath := some cwd } else p
  match p.snapshot with
  | some none => { p with snapshot := some (some cwd) }
  | _ => p

/-- ketchup 107-110: the first repository that is not known.  Without a section `repositories` in
the settings, looking up the first one other than `default` raises `KeyError`. -/
def unknownRepo (repos : List String) : Option (Dict String String) → Except PyErr (Option String)
  | none => if repos.all (fun r => decide (r = "default")) then .ok none else .error .keyError
  | some known => .ok (repos.find? (fun r => decide (r ≠ "default") && !Dict.mem known r))

/-- `ketchup.submit`, ketchup 37-121. -/
def submit (file : PayloadFile) (jobname : Option String) (d : Daemon) (cwd : String) :
    P KReply :=
  match file with
  | .missing => pure { success := false, msg := .payloadNotFound }
  | .badSuffix => pure { success := false, msg := .payloadSuffix }
  | .invalid e => Prog.raise e
  | .parsed p0 => do
    let p := fillPaths p0 cwd
    let bad :=
      if p.repositories ≠ ["default"] then unknownRepo p.repositories d.settings.repositories
      else .ok none
    match bad with
    | .error e => Prog.raise e
    | .ok (some r) =>
      pure { success := false, msg := .unknownRepository r, data := some (.settings d.settings) }
    | .ok none => do
      let dt ← Do.now
      let job ← insertJob { id := 0, payload := p, jobname := jobname, submittedAt := dt }
      pure { success := true, msg := .submitted job.id job.jobname, data := some (.job job) }

/-! ## status -/

/-- The literal list in ketchup 188. -/
def allStatuses : List JobStatus := [.q, .qw, .r, .rd, .c, .cd, .ce]

/-- ketchup 188-197: the non-empty status groups. -/
def statusGroups (jobs : List Job) : List (JobStatus × List Nat) :=
  (allStatuses.map (fun st => (st, (jobs.filter (fun j => decide (j.status = st))).map (·.id)))).filter
    (fun g => decide (g.2.length ≥ 1))

/-- `ketchup.status`, ketchup 124-199. -/
def status (jobids : List Nat) : P KReply := do
  if jobids.length = 0 then
    let jobs ← (Do.jobsWhere (fun _ => true))
    if jobs.length = 0 then
      pure { success := false, msg := .queueEmpty }
    else pure (found jobs)
  else
    let jobs ← (Do.jobsWhere (fun j => jobids.contains j.id))
    if jobs.length = 0 then
      pure { success := false, msg := .noJob jobids }
    else pure (found jobs)
where
  /-- ketchup 184-199 -/
  found (jobs : List Job) : KReply :=
    if jobs.length = 1 then
      { success := true, msg := .foundOne (jobs.map (·.status)), data := some (.jobs jobs) }
    else
      { success := true, msg := .foundMany (statusGroups jobs), data := some (.jobs jobs) }

/-! ## cancel -/

/-- The branches at ketchup 248-253: `none` is `continue`, otherwise the value of the local
variable `params` afterwards (`none`: unbound).  Note that a job with status `rd` passes
through all branches and reuses whatever `params` holds. -/
def cancelParams (st : JobStatus) (params : Option (List JobParam)) :
    Option (Option (List JobParam)) :=
  if st = .q ∨ st = .qw then some (some [.status .cd])
  else if st = .r then some (some [.status .rd])
  else if st = .cd ∨ st = .ce ∨ st = .c then none
  else some params

/-- The loop at ketchup 247-255.  `jobid` is the variable left over from the loop at 242
(`none`: unbound), `params` the local variable (`none`: unbound). -/
def cancelLoop (jobid : Option Nat) :
    List Job → Option (List JobParam) → List Job → P (List Job)
  | [], _, data => pure data
  | job :: rest, params, data =>
    match cancelParams job.status params with
    | none => cancelLoop jobid rest params data
    | some params =>
      match jobid, params with
      | some id, some ps => do
        let job ← updateJobId id ps
        cancelLoop jobid rest (some ps) (data ++ [job])
      | _, _ => Prog.raise .unboundLocalError

/-- `ketchup.cancel`, ketchup 202-263. -/
def cancel (jobids : List Nat) : P KReply := do
  let jobs ← (Do.jobsWhere (fun j => jobids.contains j.id))
  let rjobids := jobs.map (·.id)
  match jobids.find? (fun i => !rjobids.contains i) with
  | some i => pure { success := false, msg := .doesNotExist i }
  | none => do
    let data ← cancelLoop jobids.getLast? jobs none []
    pure { success := true,
           msg := if data.length = 0 then .alreadyCancelled
                  else .cancelled (data.map (·.id)),
           data := some (.jobs data) }

/-! ## snapshot -/

/-- ketchup 297-301: the first complaint, if any. -/
def snapshotCheck (rjobs : List Job) : List Nat → Option KMsg
  | [] => none
  | i :: rest =>
    match rjobs.find? (fun j => j.id == i) with
    | none => some (.doesNotExist i)
    | some j => if j.status.queued then some (.stillQueued i) else snapshotCheck rjobs rest

/-- ketchup 304: the file written for a job, relative to the working directory. -/
def snapshotPath (id : Nat) : String := s!"snapshot.{id}.nc"

/-- `ketchup.snapshot`, ketchup 266-310. -/
def snapshot (jobids : List Nat) : P KReply := do
  let jobs ← (Do.jobsWhere (fun j => jobids.contains j.id))
  match snapshotCheck jobs jobids with
  | some m => pure { success := false, msg := m }
  | none => do
    Prog.forEach jobs (fun j => (Do.merge j.id j.jobpath (some (snapshotPath j.id))))
    pure { success := true, msg := .snapshotCreated jobids }

/-! ## search -/

/-- Does `f` accept some suffix of the text? -/
def anySuffix (f : List Char → Bool) : List Char → Bool
  | [] => f []
  | c :: s => f (c :: s) || anySuffix f s

/-- sqlite's `LIKE`: `%` matches any sequence, `_` any character, letters compare ASCII
case-insensitively (no ESCAPE clause; `Char.toLower` only changes ASCII letters). -/
def like : List Char → List Char → Bool
  | [], s => s.isEmpty
  | c :: p, s =>
    if c = '%' then anySuffix (like p) s
    else match s with
      | [] => false
      | d :: s' => (decide (c = '_') || decide (c.toLower = d.toLower)) && like p s'

/-- The rest of a SQL text after the opening quote of a string literal that must extend to the
end of the text: `''` stands for a quote.  `none`: not a single well-formed literal.
Simplification: sqlite may accept other texts that continue after the literal (SQL
injection); they are all treated as syntax errors here.  `Verif/Sql.lean` reads whole texts. -/
def sqlLiteral : List Char → Option (List Char)
  | [] => none
  | c :: r =>
    if c = '\'' then
      match r with
      | [] => some []
      | c' :: r' => if c' = '\'' then (sqlLiteral r').map ('\'' :: ·) else none
    else (sqlLiteral r).map (c :: ·)

/-- `ketchup.search`, ketchup 313-348: `jobname LIKE '%{jobname}%'`. -/
def search (name : String) : P KReply :=
  match sqlLiteral ('%' :: (name.toList ++ ['%', '\''])) with
  | none => Prog.raise .operationalError
  | some pat => do
    let jobs ← (Do.jobsWhere (fun j => match j.jobname with
      | none => false
      | some n => like pat n.toList))
    if jobs.length > 0 then
      pure { success := true, msg := .searchFound (jobs.map (·.id)), data := some (.jobs jobs) }
    else
      pure { success := false, msg := .searchNone }

end Tomato
