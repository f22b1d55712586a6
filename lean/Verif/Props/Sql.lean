import Verif.SqlSystem

/-!
# C114: names are data

The texts sent to sqlite by jobdb.py, pipdb.py and drvdb.py contain names, numbers and conditions
that are pasted into them.  `Sql.execText` executes those texts, character by character; `exec` is
the meaning used by all other theorems.  `b : Beyond` is what sqlite does with texts outside of the
modelled part of SQL: the theorems hold whatever that is.
-/

namespace Tomato.Props

open Tomato.Sql

/-- Times written as decimal numbers, for the examples. -/
def decimalStamp : Stamp where
  show_ n := toString n
  read s := some (Nat.ofDigitChars 10 s.toList 0)
  read_show t := by
    have e : (toString t).toList = Nat.toDigits 10 t := Nat.toList_repr
    rw [e, Nat.ofDigitChars_ten_toDigits]
  plain t := by
    have e : (toString t).toList = Nat.toDigits 10 t := Nat.toList_repr
    rw [e]
    intro h
    have := Nat.isDigit_of_mem_toDigits (b := 10) (by decide) (by decide) h
    exact absurd this (by decide)

/-- An arbitrary behaviour outside of the modelled part, for the examples. -/
def noBeyond : Beyond := fun _ w => (.error .operationalError, w)

/-! ## Names without quotes -/

/-- **C114** (partial; names without quotes): every operation on the database, carried out by
executing the text that the code builds, does what is meant: rows are found, changed and inserted by
their name or id, and no others.  Missing: names with quotes, see `C114_refuted` and the theorems
after it. -/
theorem C114_partial (f : Stamp) (b : Beyond) (o : Op) (w : World) (h : Plain o) :
    execText f b o w = exec o w := execText_plain f b o w h

example : Plain (.updatePip "pip-0" [.ready true]) ∧
    execText decimalStamp noBeyond (.updatePip "pip-0" [.ready true])
      { pips := [{ name := "pip-0" }, { name := "pip-1" }] } =
    (.ok (), { pips := [{ name := "pip-0", ready := true }, { name := "pip-1" }] }) :=
  ⟨by decide, C114_partial decimalStamp noBeyond _ _ (by decide)⟩

/-- What is refused: a table or a column that is not there, a missing parameter, a name that is taken, a
text without its closing quote. -/
example (f : Stamp) :
    execute "SELECT * FROM nothing WHERE name = 'a';" [] (ofWorld f {}) = .fails .operationalError ∧
    execute "UPDATE pipelines SET colour = ? WHERE name = 'a';" [.null] (ofWorld f {}) = .fails .operationalError ∧
    execute "UPDATE pipelines SET ready = ? WHERE name = 'a';" [] (ofWorld f {}) = .fails .programmingError ∧
    execute "INSERT INTO pipelines (name) VALUES (?);" [.text "p"] (ofWorld f { pips := [{ name := "p" }] }) =
      .fails .integrityError ∧
    execute "DELETE FROM drivers WHERE name = 'a;" [] (ofWorld f {}) = .fails .operationalError :=
  ⟨by rfl, by rfl, by rfl, by rfl, by rfl⟩

/-- **C114** (partial; rows): the statements that change a pipeline whose name is without quotes
succeed, leave every row with another name as it was, and set in the rows with that name all the
given columns, and no others. -/
theorem C114_rows_partial (f : Stamp) (b : Beyond) (n : String) (ps : List PipParam) (w : World)
    (h : NoQuote n) :
    let r := execText f b (.updatePip n ps) w
    r.1 = .ok () ∧ r.2.pips.length = w.pips.length ∧
      ∀ (i : Nat) (p : PipState), w.pips[i]? = some p →
        (p.name ≠ n → r.2.pips[i]? = some p) ∧
        (p.name = n → r.2.pips[i]? = some (applyPip p ps)) := by
  have e := C114_partial f b (.updatePip n ps) w h
  intro r
  have hr : r = exec (.updatePip n ps) w := e
  rw [hr]
  refine ⟨rfl, by simp [exec], fun i p hp => ⟨fun hn => ?_, fun hn => ?_⟩⟩ <;>
    simp [exec, List.getElem?_map, hp, hn]

example : NoQuote "pip-0" ∧ ({ name := "pip-1" } : PipState).name ≠ "pip-0" := by decide

/-- **C114** (partial; conditions): the texts of the conditions used in the code select the rows
that are meant: job.py:159, job.py:220, ketchup 171, ketchup 175, 238 and 293, ketchup 338
(for a text without quotes), pip.py:48 with cmd.py:36 and 96, job.py:256, driver.py:353 and 431. -/
theorem C114_select_partial (f : Stamp) (w : World) :
    select (jobOf f) "queue" "pid IS NOT NULL" (ofWorld f w) =
      some (.ok (w.jobs.filter (fun j => j.pid.isSome))) ∧
    select (jobOf f) "queue" "status IN ('q', 'qw')" (ofWorld f w) =
      some (.ok (w.jobs.filter (fun j => j.status.queued))) ∧
    select (jobOf f) "queue" "id IS NOT NULL" (ofWorld f w) = some (.ok w.jobs) ∧
    (∀ ids, select (jobOf f) "queue" (idInCond ids) (ofWorld f w) =
      some (.ok (w.jobs.filter (fun j => ids.contains j.id)))) ∧
    (∀ s, NoQuote s → select (jobOf f) "queue" (likeCond s) (ofWorld f w) =
      some (.ok (w.jobs.filter (fun j => match j.jobname with
        | none => false
        | some n => like ('%' :: (s.toList ++ ['%'])) n.toList)))) ∧
    select pipOf "pipelines" "jobid IS NOT NULL" (ofWorld f w) =
      some (.ok (w.pips.filter (fun p => p.jobid.isSome))) ∧
    select pipOf "pipelines" "jobid IS NULL" (ofWorld f w) =
      some (.ok (w.pips.filter (fun p => p.jobid.isNone))) ∧
    select drvOf "drivers" "name IS NOT NULL" (ofWorld f w) = some (.ok w.drvs) := by
  refine ⟨select_running f w, select_queued f w, ?_, select_ids f w, fun s hs => ?_, select_taken f w,
    select_free f w, ?_⟩
  · rw [select_alljobs]; simp
  · exact select_like f w s s.toList (doubled_plain hs).symm
  · rw [select_drivers]; simp

example : NoQuote "my job" ∧ select (jobOf decimalStamp) "queue" (idInCond [1, 3])
    (ofWorld decimalStamp { jobs := [1, 2, 3].map (fun i =>
      { id := i, payload := { sample := "", method := [] }, submittedAt := i }) }) =
    some (.ok ([1, 3].map (fun i =>
      { id := i, payload := { sample := "", method := [] }, submittedAt := i }))) :=
  ⟨by decide, (C114_select_partial _ _).2.2.2.1 _⟩

/-- **C114** (partial; the whole system): if the names of pipelines and drivers in the configuration
files used are without quotes, then the executions of the system in which every statement is executed
as a text are exactly the executions of the model: all the other theorems hold of them. -/
theorem C114_system_partial (f : Stamp) (b : Beyond) (st : String) (s : Sys) :
    StepsText PlainCmd f b st Sys.init s ↔ StepsK PlainCmd st Sys.init s :=
  ⟨fun h => (stepsText_plain sysPlain_init h).1, fun h => (stepsK_plain f b sysPlain_init h).1⟩

/-- **C114** (partial; names in the tables): and then no table ever contains a name with a quote,
and no program is ever about to use one. -/
theorem C114_names_partial {f : Stamp} {b : Beyond} {st : String} {s : Sys}
    (h : StepsText PlainCmd f b st Sys.init s) :
    (∀ p ∈ s.w.pips, NoQuote p.name) ∧ (∀ d ∈ s.w.drvs, NoQuote d.name) ∧
      ∀ p : P Unit, (p = s.jm ∨ p ∈ s.others) → ∀ o k, p = .op o k → Plain o := by
  have ha := (stepsText_plain sysPlain_init h).2
  refine ⟨ha.inv.pips, ha.inv.drvs, ?_⟩
  rintro p hp o k rfl
  rcases hp with hp | hp
  · have := ha.jm
    rw [← hp] at this
    exact this.1.plain
  · exact (ha.others _ hp).1.plain

/-- A running daemon with the given pipelines and drivers. -/
def namedDaemon (pips drivers : List String) : Daemon :=
  { status := .running, settings := { storage := "st" },
    devicefile := { drivers := drivers.map (fun n => (n, { name := n })),
                    devices := [], components := [],
                    pipelines := pips.map (fun n => (n, { name := n, components := [] })) } }

theorem stepsK_acts {K : Cmd → Prop} {st : String} {s0 s s' : Sys} (h : StepsK K st s0 s)
    (as : List Act) (hk : ∀ c, Act.spawn c ∈ as → K c) (ha : acts st s as = some s') :
    StepsK K st s0 s' := by
  induction as generalizing s with
  | nil => cases ha; exact h
  | cons a as ih =>
    simp only [acts] at ha
    split at ha
    · next s1 h1 =>
      exact ih (.tail h h1 (by rintro c rfl; exact hk c (by simp)))
        (fun c hc => hk c (by simp [hc])) ha
    · cases ha

/-- A fresh installation whose pipeline is entered into the table, and loaded by a client. -/
def plainActs : List Act :=
  [.spawn (.reload { namedDaemon ["pip-0"] [] with status := .bootstrap } none)] ++
  List.replicate 3 (.step 0) ++
  [.spawn (.load (some (namedDaemon ["pip-0"] [])) "pip-0" "cell")] ++
  List.replicate 3 (.step 1)

/-- The hypotheses of the system theorems can be met: the pipeline is loaded, by texts. -/
example : ∃ s, StepsText PlainCmd decimalStamp noBeyond "st" Sys.init s ∧
    s.w.pips = [{ name := "pip-0", sampleid := some "cell" }] := by
  have hr : ∃ s, acts "st" Sys.init plainActs = some s ∧
      s.w.pips = [{ name := "pip-0", sampleid := some "cell" }] := ⟨_, rfl, (by decide +kernel)⟩
  obtain ⟨s, hs, hp⟩ := hr
  refine ⟨s, (C114_system_partial _ _ _ _).mpr (stepsK_acts (.refl _) _ ?_ hs), hp⟩
  have hf : PlainFile (namedDaemon ["pip-0"] []).devicefile := by
    constructor <;> decide
  intro c hc
  simp only [plainActs, List.replicate, List.cons_append, List.nil_append, List.mem_cons,
    List.not_mem_nil, Act.spawn.injEq, reduceCtorEq, or_false, false_or] at hc
  rcases hc with rfl | rfl
  · exact hf
  · rintro d ⟨⟩
    exact hf

/-! ## Names with quotes -/

/-- A text in which a name is pasted between quotes. -/
theorem execute_odd {pre n : String} {T : List Tok} {k : Nat}
    (hp : Lex.read {} pre.toList = ⟨T, k, .str []⟩) (ht : Tame n.toList)
    (hn : n.toList.count '\'' % 2 = 1) (ps : List Val) (db : Db) :
    execute (pre ++ n ++ "';") ps db = .fails .operationalError := by
  unfold execute
  rw [scan_odd hp ht hn "';" (by decide) (by decide) (by decide)]

theorem execText_updatePip_odd (f : Stamp) (b : Beyond) {n : String} (ht : Tame n.toList)
    (hn : n.toList.count '\'' % 2 = 1) {ps : List PipParam} (hps : ps ≠ []) (w : World) :
    execText f b (.updatePip n ps) w = (.error .operationalError, w) := by
  have key : ∀ db, Sql.updatePip n ps db = .fails .operationalError := by
    intro db
    cases ps with
    | nil => exact absurd rfl hps
    | cons p ps =>
      have : ∀ k ∈ ["ready", "jobid", "sampleid"], ∀ v,
          execute (updatePipText n k) v db = .fails .operationalError := by
        intro k hk v
        have hp : ∃ T, Lex.read {} ("UPDATE pipelines SET " ++ k ++ " = ? WHERE name = '").toList =
            ⟨T, 1, .str []⟩ := by
          simp only [List.mem_cons, List.not_mem_nil, or_false] at hk
          refine ⟨(Lex.read {} ("UPDATE pipelines SET " ++ k ++ " = ? WHERE name = '").toList).toks, ?_⟩
          rcases hk with rfl | rfl | rfl <;> decide +kernel
        obtain ⟨T, hT⟩ := hp
        exact execute_odd hT ht hn v db
      have h := this (pipParam p).1 (by cases p <;> simp [pipParam]) [(pipParam p).2]
      simp only [Sql.updatePip, List.map_cons, executeAll, h]
  simp only [execText, key, written]

theorem execText_updateDrv_odd (f : Stamp) (b : Beyond) {n : String} (ht : Tame n.toList)
    (hn : n.toList.count '\'' % 2 = 1) {ps : List DrvParam} (hps : ps ≠ []) (w : World) :
    execText f b (.updateDrv n ps) w = (.error .operationalError, w) := by
  have key : ∀ db, Sql.updateDrv n ps db = .fails .operationalError := by
    intro db
    cases ps with
    | nil => exact absurd rfl hps
    | cons p ps =>
      have : ∀ k ∈ ["port", "pid", "version", "spawn_time", "spawn_count", "heartbeat_time"], ∀ v,
          execute (updateDrvText n k) v db = .fails .operationalError := by
        intro k hk v
        have hp : ∃ T, Lex.read {} ("UPDATE drivers SET " ++ k ++ " = ? WHERE name = '").toList =
            ⟨T, 1, .str []⟩ := by
          simp only [List.mem_cons, List.not_mem_nil, or_false] at hk
          refine ⟨(Lex.read {} ("UPDATE drivers SET " ++ k ++ " = ? WHERE name = '").toList).toks, ?_⟩
          rcases hk with rfl | rfl | rfl | rfl | rfl | rfl <;> decide +kernel
        obtain ⟨T, hT⟩ := hp
        exact execute_odd hT ht hn v db
      have h := this (drvParam p).1 (by cases p <;> simp [drvParam]) [(drvParam p).2]
      simp only [Sql.updateDrv, List.map_cons, executeAll, h]
  simp only [execText, key, written]

/-- **C114** (refuted, in general): if a name contains an odd number of quotes (and no comment
signs or other kinds of quotes), then every statement that changes the pipeline or the driver of
that name, and the search for that text, raises `sqlite3.OperationalError`, whatever the tables
contain, and changes nothing. -/
theorem C114_odd_refuted (f : Stamp) (b : Beyond) (n : String) (ht : Tame n.toList)
    (hn : n.toList.count '\'' % 2 = 1) (w : World) :
    (∀ ps, ps ≠ [] → execText f b (.updatePip n ps) w = (.error .operationalError, w)) ∧
    (∀ ps, ps ≠ [] → execText f b (.updateDrv n ps) w = (.error .operationalError, w)) ∧
    execText f b (.delDrv n) w = (.error .operationalError, w) ∧
    ∀ db, select (jobOf f) "queue" (likeCond n) db = some (.error .operationalError) := by
  refine ⟨fun ps h => execText_updatePip_odd f b ht hn h w,
    fun ps h => execText_updateDrv_odd f b ht hn h w, ?_, fun db => ?_⟩
  · have hp : ∃ T, Lex.read {} ("DELETE FROM drivers WHERE name = '").toList = ⟨T, 0, .str []⟩ :=
      ⟨(Lex.read {} ("DELETE FROM drivers WHERE name = '").toList).toks, by decide +kernel⟩
    obtain ⟨T, hT⟩ := hp
    have key : Sql.delDrv n (ofWorld f w) = .fails .operationalError := by
      unfold Sql.delDrv delDrvText
      exact execute_odd hT ht hn [.text n] (ofWorld f w)
    simp only [execText, key, written]
  · have hp : ∃ T, Lex.read {} ("SELECT * FROM queue WHERE jobname LIKE '").toList =
        ⟨T, 0, .str []⟩ :=
      ⟨(Lex.read {} ("SELECT * FROM queue WHERE jobname LIKE '").toList).toks, by decide +kernel⟩
    obtain ⟨T, hT⟩ := hp
    have e : whereText "queue" (likeCond n) =
        "SELECT * FROM queue WHERE jobname LIKE '" ++ ("%" ++ n) ++ "%';" := by
      have e1 : "SELECT * FROM " ++ "queue" ++ " WHERE " ++ "jobname LIKE '%" =
          "SELECT * FROM queue WHERE jobname LIKE '" ++ "%" := by decide
      have e2 : "%';" = "%'" ++ ";" := by decide
      unfold whereText likeCond
      rw [e2, ← String.append_assoc, ← String.append_assoc, ← String.append_assoc,
        ← String.append_assoc, e1]
    unfold select execute
    have ht' : Tame ("%" ++ n).toList := by
      obtain ⟨h1, h2⟩ := ht
      have e : ("%" ++ n).toList = '%' :: n.toList := by simp
      rw [e]
      refine ⟨fun c hc => ?_, fun hi => ?_⟩
      · rcases List.mem_cons.mp hc with rfl | hc
        · decide
        · exact h1 c hc
      · obtain ⟨x, y, hxy⟩ := hi
        cases x with
        | nil => simp at hxy
        | cons c x =>
          refine h2 ⟨x, y, ?_⟩
          simpa using congrArg List.tail hxy
    have hn' : ("%" ++ n).toList.count '\'' % 2 = 1 := by
      have e : ("%" ++ n).toList = '%' :: n.toList := by simp
      rw [e, List.count_cons]
      simpa using hn
    rw [e, scan_odd hT ht' hn' "%';" (by decide) (by decide) (by decide)]

example : Tame "Peter's".toList ∧ "Peter's".toList.count '\'' % 2 = 1 := by decide

/-- **C114** (refuted, loading): a pipeline whose name has an odd number of quotes can be configured
and entered into the table, but a sample can never be loaded into it: the client's command ends with
`OperationalError`. -/
theorem C114_load_refuted (f : Stamp) (b : Beyond) (d : Daemon) (n x : String) (w : World)
    (ht : Tame n.toList) (hn : n.toList.count '\'' % 2 = 1)
    (hd : Dict.mem d.devicefile.pipelines n = true) (hs : ∀ p, w.pip? n = some p → p.sampleid = none) :
    (w.pip? n = none → (runT f b (Tomato.insertPip { name := n }) w).2.pips =
      w.pips ++ [{ name := n }]) ∧
    runT f b (pipelineLoad (some d) n x) w = (.error .operationalError, w) := by
  constructor
  · intro h0
    have h1 : execText f b (.insertPip { name := n }) w =
        (.ok (), { w with pips := w.pips ++ [{ name := n }] }) := by
      rw [execText_insertPip]
      simp [exec, h0]
    have h0 : runT f b (Tomato.insertPip { name := n }) w =
        runT f b (Prog.bind (Prog.call (S := DB) (Op.insertPip { name := n }))
          (fun _ => Prog.call (S := DB) (Op.getPip n))) w := rfl
    rw [h0, runT_ok h1]
    have h2 := execText_getPip f b n { w with pips := w.pips ++ [{ name := n }] }
    have h3 : runT f b (Prog.call (S := DB) (Op.getPip n)) { w with pips := w.pips ++ [{ name := n }] } =
        exec (.getPip n) { w with pips := w.pips ++ [{ name := n }] } := by
      rw [← h2]
      exact Prog.run_call (S := DB) _ _
    rw [h3]
    rfl
  · have h1 : execText f b (.getPip n) w = (.ok (w.pip? n), w) := execText_getPip f b n w
    have h2 := execText_updatePip_odd f b ht hn
      (ps := [.sampleid (some x), .ready false]) (by simp) w
    have hstore : runT f b (pipelineLoad.store n x) w = (.error .operationalError, w) := by
      unfold pipelineLoad.store Tomato.updatePip
      simp only [Prog.bind_eq, Prog.bind_assoc]
      exact runT_err h2 _
    unfold pipelineLoad
    simp only [hd, Bool.not_true, Bool.false_eq_true, if_false]
    refine (runT_ok h1 _).trans ?_
    cases hp : w.pip? n with
    | none => exact hstore
    | some p =>
      simp only [hs p hp, Option.isSome_none, Bool.false_eq_true, if_false]
      exact hstore

example : Dict.mem (namedDaemon ["Peter's"] []).devicefile.pipelines "Peter's" = true ∧
    World.pip? { pips := [{ name := "Peter's" }] } "Peter's" = some { name := "Peter's" } := by
  decide

/-- **C114** (refuted, the driver manager): when the driver manager comes to a driver whose name has
an odd number of quotes, that is not running, it starts its process and then raises
`OperationalError`: the rest of the pass is not executed, and the start is not counted. -/
theorem C114_driver_refuted (f : Stamp) (b : Beyond) (known : List String) (d : DrvState) (w : World)
    (ht : Tame d.name.toList) (hn : d.name.toList.count '\'' % 2 = 1)
    (hk : known.contains d.name = true) (hport : d.port = none)
    (hdue : w.perf - d.spawnTime > spawnDelayMs ∧ d.spawnCount < spawnRetries) :
    runT f b (manageDriver known d) w =
      (.error .operationalError, { w with spawns := w.spawns ++ [(d.name, w.perf)] }) := by
  have h0 : execText f b .perfCounter w = (.ok w.perf, w) := rfl
  have h1 : execText f b (.popenDriver d.name) w =
      (.ok (), { w with spawns := w.spawns ++ [(d.name, w.perf)] }) := rfl
  have h2 := execText_updateDrv_odd f b ht hn
    (ps := [.spawnTime w.perf, .spawnCount (d.spawnCount + 1)]) (by simp)
    { w with spawns := w.spawns ++ [(d.name, w.perf)] }
  unfold manageDriver
  refine (runT_ok h0 _).trans ?_
  simp only [hk, Bool.not_true, Bool.false_eq_true, if_false, hport, hdue, and_self, if_true]
  refine (runT_ok h1 _).trans ?_
  unfold Tomato.updateDrv
  simp only [Prog.bind_eq, Prog.bind_assoc]
  exact runT_err h2 _

example : Tame "dummy'".toList ∧ "dummy'".toList.count '\'' % 2 = 1 ∧
    ["dummy'"].contains "dummy'" = true ∧ 6000 - 0 > spawnDelayMs ∧ 0 < spawnRetries := by decide

/-- **C114** (refuted, launching): when the job manager comes to a job that fits a pipeline whose
name has an odd number of quotes, it makes the folder of the job and then raises `OperationalError`:
the job is not launched, and as the folder exists the next attempt fails as well. -/
theorem C114_launch_refuted (f : Stamp) (b : Beyond) (d : Daemon) (job : Job) (n : String)
    (rest : List String) (avail : Dict String PipState) (w : World)
    (ht : Tame n.toList) (hn : n.toList.count '\'' % 2 = 1) (ps : PipState)
    (hav : Dict.get? avail n = some ps) (hready : ps.ready = true)
    (hs : ps.sampleid = some job.payload.sample) (ha : (jobArgs d n).isSome = true)
    (hdir : (d.settings.storage, job.id) ∉ w.jobDirs) :
    let w' := { w with jobDirs := (d.settings.storage, job.id) :: w.jobDirs }
    runT f b (assignJob d job.id job (n :: rest) avail) w = (.error .operationalError, w') ∧
    runT f b (assignJob d job.id job (n :: rest) avail) w' = (.error .fileExistsError, w') := by
  intro w'
  obtain ⟨pl, hpl⟩ := Option.isSome_iff_exists.mp ha
  have hc : ¬ ((!ps.ready) = true ∨ ps.sampleid ≠ some job.payload.sample) := by simp [hready, hs]
  rw [assignJob]
  simp only [hav, hc, if_false, hpl]
  constructor
  · have h1 : execText f b (.makeJobDir d.settings.storage job.id) w = (.ok (), w') := by
      show exec (.makeJobDir d.settings.storage job.id) w = _
      simp [exec, hdir, w']
    have h2 := execText_updatePip_odd f b ht hn
      (ps := [.jobid (some job.id), .ready false]) (by simp) w'
    refine (runT_ok h1 _).trans ?_
    unfold Tomato.updatePip
    simp only [Prog.bind_eq, Prog.bind_assoc]
    exact runT_err h2 _
  · have h1 : execText f b (.makeJobDir d.settings.storage job.id) w' =
        (.error .fileExistsError, w') := by
      show exec (.makeJobDir d.settings.storage job.id) w' = _
      simp [exec, w']
    exact runT_err h1 _

example : Tame "Peter's".toList ∧ "Peter's".toList.count '\'' % 2 = 1 ∧
    Dict.get? [("Peter's", ({ name := "Peter's", ready := true, sampleid := some "cell" } : PipState))]
      "Peter's" = some { name := "Peter's", ready := true, sampleid := some "cell" } ∧
    (jobArgs (namedDaemon ["Peter's"] []) "Peter's").isSome = true := by decide

theorem doubled_length (t : List Char) : (doubled t).length = t.length + t.count '\'' := by
  induction t with
  | nil => rfl
  | cons c t ih =>
    have : doubled (c :: t) = (if c = '\'' then ['\'', '\''] else [c]) ++ doubled t := rfl
    rw [this, List.length_append, ih, List.count_cons]
    by_cases h : c = '\''
    · simp [h]; omega
    · simp [h]; omega

/-- **C114** (refuted, another row): if all quotes in the name of a pipeline come in pairs, a
statement about it leaves it as it is and changes the pipeline with the single quotes, if there is
one. -/
theorem C114_doubled_refuted (f : Stamp) (b : Beyond) (n m : String) (ps : List PipParam) (w : World)
    (h : n.toList = doubled m.toList) (hq : '\'' ∈ m.toList) :
    let r := execText f b (.updatePip n ps) w
    n ≠ m ∧ r.1 = .ok () ∧ ∀ (i : Nat) (p : PipState), w.pips[i]? = some p →
      (p.name = n → r.2.pips[i]? = some p) ∧ (p.name = m → r.2.pips[i]? = some (applyPip p ps)) := by
  have hne : n ≠ m := by
    rintro rfl
    have h1 := congrArg List.length h
    rw [doubled_length] at h1
    have := List.count_pos_iff.mpr hq
    omega
  intro r
  have e : r = exec (.updatePip m ps) w := by
    have := execText_updatePip f b n m.toList h ps w
    rw [String.ofList_toList] at this
    exact this
  rw [e]
  refine ⟨hne, rfl, fun i p hp => ⟨fun hn => ?_, fun hn => ?_⟩⟩
  · simp [exec, List.getElem?_map, hp, hn, hne]
  · simp [exec, List.getElem?_map, hp, hn]

example : "a''b".toList = doubled "a'b".toList ∧ '\'' ∈ "a'b".toList := by decide

/-- A job, for the refutation. -/
def otherJob : Job :=
  { id := 1, jobname := some "other", payload := { sample := "", method := [] }, submittedAt := 0 }

/-- **C114** (refuted): with the pipeline named `Peter's` loading fails; with `x' OR 'a'='a` every
pipeline is loaded; with `pip-0' --` the pipeline `pip-0` is loaded instead; a search for
`x' OR id IS NOT NULL --` finds jobs with another name; and a driver named `dummy' OR name = ? --` that is
no longer configured takes the driver `dummy` with it. -/
theorem C114_refuted (b : Beyond) :
    let f := decimalStamp
    let two (n : String) : World := { pips := [{ name := "pip-0" }, { name := n }] }
    let load (n : String) :=
      runT f b (pipelineLoad (some (namedDaemon ["pip-0", n] [])) n "cell") (two n)
    load "Peter's" = (.error .operationalError, two "Peter's") ∧
    (load "x' OR 'a'='a").2.pips.map (fun p => p.sampleid) = [some "cell", some "cell"] ∧
    (load "pip-0' --").2.pips.map (fun p => p.sampleid) = [some "cell", none] ∧
    (∃ j : Job, j.jobname = some "other" ∧
      select (jobOf f) "queue" (likeCond "x' OR id IS NOT NULL --") (ofWorld f { jobs := [j] }) =
        some (.ok [j])) ∧
    (execText f b (.delDrv "dummy' OR name = ? --")
      { drvs := [{ name := "dummy" }, { name := "psutil" }, { name := "dummy' OR name = ? --" }] }).2.drvs =
        [{ name := "psutil" }] := by
  refine ⟨?_, ?_, ?_, ⟨otherJob, rfl, ?_⟩, ?_⟩
  · exact (C114_load_refuted _ _ _ _ _ _ (by decide) (by decide) (by decide)
      (by
        have e : World.pip? { pips := [{ name := "pip-0" }, { name := "Peter's" }] } "Peter's" =
            some { name := "Peter's" } := by decide
        intro p hp
        rw [e] at hp
        cases hp
        rfl)).2
  · rfl
  · rfl
  · decide +kernel
  · rfl

/-- Sanity check: the logic of SQL with `NULL`. -/
example : Sql.and3 (some false) none = some false ∧ Sql.and3 none (some false) = some false ∧
    Sql.and3 none (some true) = none ∧ Sql.and3 (some true) (some true) = some true := by decide

end Tomato.Props
