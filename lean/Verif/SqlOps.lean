import Verif.SqlLemmas

/-!
# The operations by way of the SQL texts, and the conditions
-/

namespace Tomato.Sql

open Tomato.Props (doubled)

/-! ## Texts without anything pasted into them -/

theorem execute_of {text : String} {ts : List Tok} {n : Nat} {st : Stmt} (hs : scan text = .tokens ts n)
    (hp : parse ts = some st) (hk : st.known = true) (ps : List Val) (hn : n = ps.length) (db : Db) :
    execute text ps db = st.run ps db := by
  unfold execute
  simp only [hs, hp, hk, hn]
  simp

/-- The tokens of a fixed text. -/
def toksOf (text : String) : List Tok :=
  match scan text with
  | .tokens ts _ => ts
  | _ => []

theorem execute_getPip (n : String) (db : Db) :
    execute getPipText [.text n] db =
      (Stmt.select none "pipelines" (.eq (.col "name") (.par 0))).run [.text n] db :=
  execute_of (ts := toksOf getPipText) (n := 1) (by decide +kernel) (by decide +kernel) (by decide) _ rfl db

theorem execute_getDrv (n : String) (db : Db) :
    execute getDrvText [.text n] db =
      (Stmt.select none "drivers" (.eq (.col "name") (.par 0))).run [.text n] db :=
  execute_of (ts := toksOf getDrvText) (n := 1) (by decide +kernel) (by decide +kernel) (by decide) _ rfl db

theorem execute_getJob (id : Nat) (db : Db) :
    execute getJobText [.int id] db =
      (Stmt.select none "queue" (.eq (.col "id") (.par 0))).run [.int id] db :=
  execute_of (ts := toksOf getJobText) (n := 1) (by decide +kernel) (by decide +kernel) (by decide) _ rfl db

theorem insertPip_run (p : PipState) (db : Db) :
    insertPip p db = (Stmt.insert "pipelines" ["name", "ready", "jobid", "sampleid"]
      [.par 0, .par 1, .par 2, .par 3]).run
        [.text p.name, ofBool p.ready, ofNat? p.jobid, ofText? p.sampleid] db :=
  execute_of (ts := toksOf insertPipText) (n := 4) (by decide +kernel) (by decide +kernel) (by decide) _
    rfl db

theorem insertDrv_run (d : DrvState) (db : Db) :
    insertDrv d db = (Stmt.insert "drivers" ["name", "port", "pid", "version", "spawn_time",
      "spawn_count", "heartbeat_time"] [.par 0, .par 1, .par 2, .par 3, .par 4, .par 5, .par 6]).run
        [.text d.name, ofNat? d.port, ofNat? d.pid, ofText? d.version,
          .int d.spawnTime, .int d.spawnCount, .int d.heartbeatTime] db :=
  execute_of (ts := toksOf insertDrvText) (n := 7) (by decide +kernel) (by decide +kernel) (by decide) _
    rfl db

theorem insertJob_run (f : Stamp) (j : Job) (db : Db) :
    insertJob f j db = (Stmt.insert "queue" ["payload", "jobname", "pid", "status", "submitted_at",
      "launched_at", "connected_at", "completed_at", "jobpath", "respath", "snappath"]
      [.par 0, .par 1, .par 2, .par 3, .par 4, .par 5, .par 6, .par 7, .par 8, .par 9, .par 10]).run
        (jobVals f j) db :=
  execute_of (ts := toksOf insertJobText) (n := 11) (by decide +kernel) (by decide +kernel) (by decide) _
    rfl db

theorem rows_eq {α : Type} (row : α → Row) (c : Cond) (ps : List Val) (q : α → Bool)
    (h : ∀ a, c.holds ps (row a) = q a) (l : List α) :
    (l.map row).filter (c.holds ps) = (l.filter q).map row := by
  induction l with
  | nil => rfl
  | cons a l ih => by_cases hq : q a = true <;> simp [h, hq, ih]

theorem holds_named (c : String) (v : Val) (hv : v ≠ .null) (r : Row) :
    (Cond.eq (.col c) (.par 0)).holds [v] r = decide (Dict.get? r c = some v) := by
  unfold Cond.holds
  rw [decide_eq_decide]
  have : Opd.eval [v] r (.par 0) = v := rfl
  simp only [Cond.eval, this]
  simp only [Opd.eval]
  cases h : Dict.get? r c with
  | none => simp [valEq]
  | some u =>
    by_cases hu : u = .null
    · subst hu
      simp [valEq, Ne.symm hv]
    · simp [valEq, hu, hv]

/-! ## The operations -/

/-- The names that are pasted into texts contain no quotes. -/
def Plain : Op → Prop
  | .updatePip n _ | .updateDrv n _ | .delDrv n => '\'' ∉ n.toList
  | _ => True

instance (o : Op) : Decidable (Plain o) := by unfold Plain; split <;> infer_instance

theorem execText_getPip (f : Stamp) (b : Beyond) (n : String) (w : World) :
    execText f b (.getPip n) w = exec (.getPip n) w := by
  have h := rows_eq pipRow (.eq (.col "name") (.par 0)) [.text n] (fun p => p.name == n) (fun p => by
    rw [holds_named _ _ (by simp)]
    have : Dict.get? (pipRow p) "name" = some (.text p.name) := rfl
    rw [this]; simp [Bool.beq_eq_decide_eq]) w.pips
  simp only [execText, execute_getPip, Stmt.run, Db.rows, ofWorld, if_true, String.reduceEq, if_false]
  rw [h]
  simp only [answered, exec, World.pip?, List.head?_map, List.head?_filter]
  cases w.pips.find? (fun p => p.name == n) <;> simp [pipOf_pipRow]

theorem execText_getDrv (f : Stamp) (b : Beyond) (n : String) (w : World) :
    execText f b (.getDrv n) w = exec (.getDrv n) w := by
  have h := rows_eq drvRow (.eq (.col "name") (.par 0)) [.text n] (fun p => p.name == n) (fun p => by
    rw [holds_named _ _ (by simp)]
    have : Dict.get? (drvRow p) "name" = some (.text p.name) := rfl
    rw [this]; simp [Bool.beq_eq_decide_eq]) w.drvs
  simp only [execText, execute_getDrv, Stmt.run, Db.rows, ofWorld, if_true, String.reduceEq, if_false]
  rw [h]
  simp only [answered, exec, World.drv?, List.head?_map, List.head?_filter]
  cases w.drvs.find? (fun p => p.name == n) <;> simp [drvOf_drvRow]

theorem execText_fetchJob (f : Stamp) (b : Beyond) (id : Nat) (w : World) :
    execText f b (.fetchJob id) w = exec (.fetchJob id) w := by
  have h := rows_eq (jobRow f) (.eq (.col "id") (.par 0)) [.int id] (fun j => j.id == id) (fun j => by
    rw [holds_named _ _ (by simp)]
    have : Dict.get? (jobRow f j) "id" = some (.int j.id) := rfl
    rw [this]; simp [Bool.beq_eq_decide_eq]) w.jobs
  simp only [execText, execute_getJob, Stmt.run, Db.rows, ofWorld, if_true]
  rw [h]
  simp only [answered, exec, World.job?, List.head?_map, List.head?_filter]
  cases w.jobs.find? (fun p => p.id == id) <;> simp [jobOf_jobRow]

theorem show_inj (f : Stamp) {a b : Nat} (h : f.show_ a = f.show_ b) : a = b := by
  have := f.read_show a
  rw [h, f.read_show] at this
  exact (Option.some.inj this).symm

theorem execText_idBySubmitted (f : Stamp) (b : Beyond) (t : Nat) (w : World) :
    execText f b (.idBySubmitted t) w = exec (.idBySubmitted t) w := by
  have hs := scan_literal (pre := "SELECT id FROM queue WHERE submitted_at = '") (n := f.show_ t)
    (t := (f.show_ t).toList) (T := [.sym '=', .name "submitted_at", .kw .whereK, .name "queue",
      .kw .fromK, .name "id", .kw .selectK]) (k := 0) (by decide +kernel)
    (doubled_plain (f.plain t)).symm
  rw [String.ofList_toList] at hs
  have hx := execute_of (text := idBySubmittedText (f.show_ t)) (st := .select (some "id") "queue"
    (.eq (.col "submitted_at") (.lit (.text (f.show_ t))))) hs rfl rfl [] rfl (ofWorld f w)
  have h := rows_eq (jobRow f) (.eq (.col "submitted_at") (.lit (.text (f.show_ t)))) []
    (fun j => j.submittedAt == t) (fun j => by
      unfold Cond.holds
      rw [Bool.beq_eq_decide_eq, decide_eq_decide]
      have : Dict.get? (jobRow f j) "submitted_at" = some (.text (f.show_ j.submittedAt)) := rfl
      simp only [Cond.eval, Opd.eval, this]
      simp only [valEq, Option.getD_some, reduceCtorEq, or_self, if_false, Val.text.injEq,
        Option.some.injEq, decide_eq_true_eq]
      exact ⟨show_inj f, fun e => by rw [e]⟩) w.jobs
  simp only [execText]
  rw [hx]
  simp only [Stmt.run, Db.rows, ofWorld, if_true]
  rw [h]
  simp only [answered, exec, List.head?_map, List.head?_filter]
  cases w.jobs.find? (fun j => j.submittedAt == t) with
  | none => rfl
  | some j => rfl

theorem any_name_pips (n : String) (l : List PipState) :
    (l.map pipRow).any (fun r' => decide (Dict.get? r' "name" = some (.text n))) =
      (l.find? (fun p => p.name == n)).isSome := by
  induction l with
  | nil => rfl
  | cons p l ih =>
    have : Dict.get? (pipRow p) "name" = some (.text p.name) := rfl
    by_cases h : p.name = n
    · simp [this, h]
    · simp only [List.map_cons, List.any_cons, ih, this]
      simp [h]

theorem any_name_drvs (n : String) (l : List DrvState) :
    (l.map drvRow).any (fun r' => decide (Dict.get? r' "name" = some (.text n))) =
      (l.find? (fun p => p.name == n)).isSome := by
  induction l with
  | nil => rfl
  | cons p l ih =>
    have : Dict.get? (drvRow p) "name" = some (.text p.name) := rfl
    by_cases h : p.name = n
    · simp [this, h]
    · simp only [List.map_cons, List.any_cons, ih, this]
      simp [h]

theorem execText_insertPip (f : Stamp) (b : Beyond) (p : PipState) (w : World) :
    execText f b (.insertPip p) w = exec (.insertPip p) w := by
  have hrow : (["name", "ready", "jobid", "sampleid"] : List String).zip
      (([.par 0, .par 1, .par 2, .par 3] : List Opd).map (fun v => v.eval
        [.text p.name, ofBool p.ready, ofNat? p.jobid, ofText? p.sampleid] [])) = pipRow p := rfl
  have hn : Dict.get? (pipRow p) "name" = some (.text p.name) := rfl
  simp only [execText, insertPip_run, Stmt.run, hrow, hn]
  simp only [Db.rows, Db.setRows, String.reduceEq, if_false, if_true, ofWorld]
  rw [any_name_pips]
  have hf : (w.pips.find? (fun x => x.name == p.name)).isSome = (w.pip? p.name).isSome := rfl
  rw [hf]
  simp only [exec]
  by_cases h : (w.pip? p.name).isSome = true
  · rw [if_pos h, if_pos h]
    rfl
  · rw [if_neg h, if_neg h]
    have e := toWorld_ofWorld f w { w with pips := w.pips ++ [p] } rfl
    simp only [ofWorld, List.map_append, List.map_cons, List.map_nil] at e
    simp only [written, e]

theorem execText_insertDrv (f : Stamp) (b : Beyond) (d : DrvState) (w : World) :
    execText f b (.insertDrv d) w = exec (.insertDrv d) w := by
  have hrow : (["name", "port", "pid", "version", "spawn_time", "spawn_count", "heartbeat_time"]
      : List String).zip
      (([.par 0, .par 1, .par 2, .par 3, .par 4, .par 5, .par 6] : List Opd).map (fun v => v.eval
        [.text d.name, ofNat? d.port, ofNat? d.pid, ofText? d.version,
          .int d.spawnTime, .int d.spawnCount, .int d.heartbeatTime] [])) = drvRow d := rfl
  have hn : Dict.get? (drvRow d) "name" = some (.text d.name) := rfl
  simp only [execText, insertDrv_run, Stmt.run, hrow, hn]
  simp only [Db.rows, Db.setRows, String.reduceEq, if_false, if_true, ofWorld]
  rw [any_name_drvs]
  have hf : (w.drvs.find? (fun x => x.name == d.name)).isSome = (w.drv? d.name).isSome := rfl
  rw [hf]
  simp only [exec]
  by_cases h : (w.drv? d.name).isSome = true
  · rw [if_pos h, if_pos h]
    rfl
  · rw [if_neg h, if_neg h]
    have e := toWorld_ofWorld f w { w with drvs := w.drvs ++ [d] } rfl
    simp only [ofWorld, List.map_append, List.map_cons, List.map_nil] at e
    simp only [written, e]

theorem execText_insertJob (f : Stamp) (b : Beyond) (j : Job) (w : World) :
    execText f b (.insertJob j) w = exec (.insertJob j) w := by
  have hrow : ("id", Val.int (w.jobSeq + 1)) :: (["payload", "jobname", "pid", "status", "submitted_at",
      "launched_at", "connected_at", "completed_at", "jobpath", "respath", "snappath"]
      : List String).zip
      (([.par 0, .par 1, .par 2, .par 3, .par 4, .par 5, .par 6, .par 7, .par 8, .par 9, .par 10]
        : List Opd).map (fun v => v.eval (jobVals f j) [])) =
        jobRow f { j with id := w.jobSeq + 1 } := rfl
  have hseq : (ofWorld f w).seq = w.jobSeq := rfl
  simp only [execText, insertJob_run, Stmt.run, if_true, hseq, hrow]
  simp only [exec, written, ofWorld]
  have e := toWorld_ofWorld f w
    { w with jobs := w.jobs ++ [{ j with id := w.jobSeq + 1 }], jobSeq := w.jobSeq + 1 } rfl
  simp only [ofWorld, List.map_append, List.map_cons, List.map_nil] at e
  rw [e]

theorem execText_updateJob (f : Stamp) (b : Beyond) (id : Nat) (ps : List JobParam) (w : World) :
    execText f b (.updateJob id ps) w = exec (.updateJob id ps) w := by
  simp only [execText]
  rw [updateJob_rows f id ps (ofWorld f w) w.jobs rfl]
  have e := toWorld_ofWorld f w
    { w with jobs := w.jobs.map (fun j => if j.id = id then applyJob j ps else j) } rfl
  exact congrArg (Prod.mk _) e

/-- What updating a pipeline does when the quotes in its name are doubled: it concerns the pipeline
with the name in which they are not. -/
theorem execText_updatePip (f : Stamp) (b : Beyond) (n : String) (t : List Char)
    (hn : n.toList = doubled t) (ps : List PipParam) (w : World) :
    execText f b (.updatePip n ps) w = exec (.updatePip (String.ofList t) ps) w := by
  simp only [execText]
  rw [updatePip_rows n t hn ps (ofWorld f w) w.pips rfl]
  have e := toWorld_ofWorld f w
    { w with pips := w.pips.map (fun p => if p.name = String.ofList t then applyPip p ps else p) } rfl
  exact congrArg (Prod.mk _) e

theorem execText_updateDrv (f : Stamp) (b : Beyond) (n : String) (t : List Char)
    (hn : n.toList = doubled t) (ps : List DrvParam) (w : World) :
    execText f b (.updateDrv n ps) w = exec (.updateDrv (String.ofList t) ps) w := by
  simp only [execText]
  rw [updateDrv_rows n t hn ps (ofWorld f w) w.drvs rfl]
  have e := toWorld_ofWorld f w
    { w with drvs := w.drvs.map (fun d => if d.name = String.ofList t then applyDrv d ps else d) } rfl
  exact congrArg (Prod.mk _) e

theorem execText_delDrv (f : Stamp) (b : Beyond) (n : String) (t : List Char)
    (hn : n.toList = doubled t) (w : World) :
    execText f b (.delDrv n) w = exec (.delDrv n) w := by
  have hs := scan_literal (pre := "DELETE FROM drivers WHERE name = '") (n := n)
    (t := t) (T := [.sym '=', .name "name", .kw .whereK, .name "drivers",
      .kw .fromK, .kw .deleteK]) (k := 0) (by decide +kernel) hn
  have hp : parse ([Tok.sym '=', .name "name", .kw .whereK, .name "drivers", .kw .fromK,
      .kw .deleteK].reverse ++ [.str (String.ofList t), .sym ';']) =
      some (.delete "drivers" (.eq (.col "name") (.lit (.text (String.ofList t))))) := rfl
  have hk : (Stmt.delete "drivers" (.eq (.col "name") (.lit (.text (String.ofList t))))).known = true :=
    rfl
  have : delDrv n (ofWorld f w) = .fails .programmingError := by
    unfold delDrv execute delDrvText
    simp only [hs, hp, hk]
    simp
  simp only [execText, this, written, exec]

/-- Every operation with plain names is that of `Verif/World.lean`. -/
theorem execText_plain (f : Stamp) (b : Beyond) (o : Op) (w : World) (h : Plain o) :
    execText f b o w = exec o w := by
  cases o with
  | fetchJob id => exact execText_fetchJob f b id w
  | insertJob j => exact execText_insertJob f b j w
  | idBySubmitted t => exact execText_idBySubmitted f b t w
  | updateJob id ps => exact execText_updateJob f b id ps w
  | getPip n => exact execText_getPip f b n w
  | insertPip p => exact execText_insertPip f b p w
  | updatePip n ps =>
    rw [execText_updatePip f b n n.toList (doubled_plain h).symm, String.ofList_toList]
  | getDrv n => exact execText_getDrv f b n w
  | insertDrv d => exact execText_insertDrv f b d w
  | updateDrv n ps =>
    rw [execText_updateDrv f b n n.toList (doubled_plain h).symm, String.ofList_toList]
  | delDrv n => exact execText_delDrv f b n n.toList (doubled_plain h).symm w
  | _ => rfl

/-! ## Conditions -/

theorem select_of {α : Type} {row : α → Row} {of : Row → Option α} (hof : ∀ a, of (row a) = some a)
    {table cond : String} {ts : List Tok} {c : Cond} {l : List α} {db : Db} (q : α → Bool)
    (hs : scan (whereText table cond) = .tokens ts 0)
    (hp : parse ts = some (.select none table c))
    (hk : (Stmt.select none table c).known = true) (hr : db.rows table = l.map row)
    (h : ∀ a, c.holds [] (row a) = q a) :
    select of table cond db = some (.ok (l.filter q)) := by
  unfold select
  rw [execute_of hs hp hk [] rfl]
  simp only [Stmt.run, hr]
  rw [rows_eq row c [] q h, filterMap_rows hof]

theorem holds_of_eval {c : Cond} {ps : List Val} {r : Row} {b : Bool} (h : c.eval ps r = some b) :
    c.holds ps r = b := by
  unfold Cond.holds
  rw [h]
  cases b <;> rfl

theorem holds_notNull (k : String) (v : Val) (r : Row) (h : Dict.get? r k = some v) :
    (Cond.notNull (.col k)).holds [] r = decide (v ≠ .null) := by
  unfold Cond.holds
  rw [decide_eq_decide]
  simp [Cond.eval, Opd.eval, h]

theorem holds_isNull (k : String) (v : Val) (r : Row) (h : Dict.get? r k = some v) :
    (Cond.isNull (.col k)).holds [] r = decide (v = .null) := by
  unfold Cond.holds
  rw [decide_eq_decide]
  simp [Cond.eval, Opd.eval, h]

theorem select_running (f : Stamp) (w : World) :
    select (jobOf f) "queue" "pid IS NOT NULL" (ofWorld f w) =
      some (.ok (w.jobs.filter (fun j => j.pid.isSome))) := by
  refine select_of (row := jobRow f) (jobOf_jobRow f)
    (ts := toksOf (whereText "queue" "pid IS NOT NULL")) (c := .notNull (.col "pid")) _
    (by decide +kernel) (by decide +kernel) (by decide) rfl (fun j => ?_)
  rw [holds_notNull "pid" (ofNat? j.pid) _ rfl]
  cases j.pid <;> simp [ofNat?]

theorem select_alljobs (f : Stamp) (w : World) :
    select (jobOf f) "queue" "id IS NOT NULL" (ofWorld f w) =
      some (.ok (w.jobs.filter (fun _ => true))) := by
  refine select_of (row := jobRow f) (jobOf_jobRow f)
    (ts := toksOf (whereText "queue" "id IS NOT NULL")) (c := .notNull (.col "id")) _
    (by decide +kernel) (by decide +kernel) (by decide) rfl (fun j => ?_)
  rw [holds_notNull "id" (.int j.id) _ rfl]
  simp

theorem select_queued (f : Stamp) (w : World) :
    select (jobOf f) "queue" "status IN ('q', 'qw')" (ofWorld f w) =
      some (.ok (w.jobs.filter (fun j => j.status.queued))) := by
  refine select_of (row := jobRow f) (jobOf_jobRow f)
    (ts := toksOf (whereText "queue" "status IN ('q', 'qw')"))
    (c := .isIn (.col "status") [.lit (.text "q"), .lit (.text "qw")]) _
    (by decide +kernel) (by decide +kernel) (by decide) rfl (fun j => ?_)
  have e : Dict.get? (jobRow f j) "status" = some (.text (statusText j.status)) := rfl
  apply holds_of_eval
  simp only [Cond.eval, Opd.eval, e]
  cases j.status <;> rfl

theorem select_taken (f : Stamp) (w : World) :
    select pipOf "pipelines" "jobid IS NOT NULL" (ofWorld f w) =
      some (.ok (w.pips.filter (fun p => p.jobid.isSome))) := by
  refine select_of (row := pipRow) pipOf_pipRow
    (ts := toksOf (whereText "pipelines" "jobid IS NOT NULL")) (c := .notNull (.col "jobid")) _
    (by decide +kernel) (by decide +kernel) (by decide) rfl (fun p => ?_)
  rw [holds_notNull "jobid" (ofNat? p.jobid) _ rfl]
  cases p.jobid <;> simp [ofNat?]

theorem select_free (f : Stamp) (w : World) :
    select pipOf "pipelines" "jobid IS NULL" (ofWorld f w) =
      some (.ok (w.pips.filter (fun p => p.jobid.isNone))) := by
  refine select_of (row := pipRow) pipOf_pipRow
    (ts := toksOf (whereText "pipelines" "jobid IS NULL")) (c := .isNull (.col "jobid")) _
    (by decide +kernel) (by decide +kernel) (by decide) rfl (fun p => ?_)
  rw [holds_isNull "jobid" (ofNat? p.jobid) _ rfl]
  cases p.jobid <;> simp [ofNat?]

theorem select_drivers (f : Stamp) (w : World) :
    select drvOf "drivers" "name IS NOT NULL" (ofWorld f w) =
      some (.ok (w.drvs.filter (fun _ => true))) := by
  refine select_of (row := drvRow) drvOf_drvRow
    (ts := toksOf (whereText "drivers" "name IS NOT NULL")) (c := .notNull (.col "name")) _
    (by decide +kernel) (by decide +kernel) (by decide) rfl (fun d => ?_)
  rw [holds_notNull "name" (.text d.name) _ rfl]
  simp

theorem condEnd_atom {ts : List Tok} {c : Cond} (h : atom ts = some (c, [.sym ';'])) :
    condEnd ts = some c := by
  cases ts with
  | nil => simp [atom] at h
  | cons t ts =>
    have hc : ∀ n, conj (n + 1) (t :: ts) = some (c, [.sym ';']) := by
      intro n
      rw [conj, h]
    have hd : disj (t :: ts).length (t :: ts) = some (c, [.sym ';']) := by
      rw [List.length_cons, disj, hc]
    unfold condEnd
    rw [hd]
    rfl

theorem select_ids (f : Stamp) (w : World) (ids : List Nat) :
    select (jobOf f) "queue" (idInCond ids) (ofWorld f w) =
      some (.ok (w.jobs.filter (fun j => ids.contains j.id))) := by
  have hs : scan (whereText "queue" (idInCond ids)) =
      .tokens ([.kw .selectK, .sym '*', .kw .fromK, .name "queue", .kw .whereK, .name "id", .kw .inK,
        .sym '('] ++ (idToks ids ++ [.sym ';'])) 0 := by
    have h1 : Lex.read {} ("SELECT * FROM " ++ "queue" ++ " WHERE " ++ "id IN (").toList =
        ⟨[.kw .selectK, .sym '*', .kw .fromK, .name "queue", .kw .whereK, .name "id", .kw .inK,
          .sym '('].reverse, 0, .start⟩ := by decide +kernel
    have e : (whereText "queue" (idInCond ids)).toList =
        ("SELECT * FROM " ++ "queue" ++ " WHERE " ++ "id IN (").toList ++
          ((", ".intercalate (ids.map toString) ++ ")").toList ++ ";".toList) := by
      simp only [whereText, idInCond, String.toList_append, List.append_assoc]
    have h3 : ";".toList = [';'] := by decide
    unfold scan
    have hsemi : ∀ T, Lex.read ⟨T, 0, .start⟩ [';'] = ⟨.sym ';' :: T, 0, .start⟩ := fun _ => rfl
    rw [e, read_append, read_append, h1, read_ids, h3, hsemi]
    unfold Lex.finish
    simp only [List.reverse_cons, List.reverse_append, List.reverse_reverse, List.append_assoc]
    rfl
  have hp : parse ([.kw .selectK, .sym '*', .kw .fromK, .name "queue", .kw .whereK, .name "id", .kw .inK,
        .sym '('] ++ (idToks ids ++ [.sym ';'])) =
      some (.select none "queue" (.isIn (.col "id") (ids.map (fun n => .lit (.int n))))) := by
    have hc : condEnd ([.name "id", .kw .inK, .sym '('] ++ (idToks ids ++ [.sym ';'])) =
        some (.isIn (.col "id") (ids.map (fun n => .lit (.int n)))) := by
      have ha : atom ([Tok.name "id", .kw .inK, .sym '('] ++ (idToks ids ++ [.sym ';'])) =
          some (.isIn (.col "id") (ids.map (fun n => .lit (.int n))), [Tok.sym ';']) := by
        have h : inList (idToks ids ++ [Tok.sym ';']) =
            some (ids.map (fun n => .lit (.int n)), [Tok.sym ';']) := inList_ids ids _
        show (inList (idToks ids ++ [Tok.sym ';'])).map (fun x => (Cond.isIn (.col "id") x.1, x.2)) = _
        rw [h]
        rfl
      exact condEnd_atom ha
    have : parse ([.kw .selectK, .sym '*', .kw .fromK, .name "queue", .kw .whereK, .name "id", .kw .inK,
        .sym '('] ++ (idToks ids ++ [.sym ';'])) =
        ((condEnd ([.name "id", .kw .inK, .sym '('] ++ (idToks ids ++ [.sym ';']))).map
          (fun c => ("queue", c))).map (fun x => .select none x.1 x.2) := rfl
    rw [this, hc]
    rfl
  refine select_of (row := jobRow f) (jobOf_jobRow f) _ hs hp ?_ rfl (fun j => ?_)
  · have : ∀ l : List Nat, (l.map (fun n => Opd.lit (.int n))).flatMap Opd.cols = [] := by
      intro l
      induction l with
      | nil => rfl
      | cons a l ih => simp [Opd.cols]
    simp only [Stmt.known, Stmt.refs, Cond.cols, this]
    rfl
  · have e : Dict.get? (jobRow f j) "id" = some (.int j.id) := rfl
    apply holds_of_eval
    simp only [Cond.eval, Opd.eval, e]
    have key : ∀ l : List Nat, List.foldr (fun b x => or3 (valEq ((some (Val.int j.id)).getD .null)
        (Opd.eval [] (jobRow f j) b)) x) (some false) (l.map (fun n => Opd.lit (.int n))) =
        some (l.contains j.id) := by
      intro l
      induction l with
      | nil => rfl
      | cons a l ih =>
        have hc : (a :: l).contains j.id = (decide (j.id = a) || l.contains j.id) := by
          rw [List.contains_cons, Bool.beq_eq_decide_eq]
        have hv : valEq ((some (Val.int j.id)).getD .null)
            (Opd.eval [] (jobRow f j) (.lit (.int a))) = some (decide (j.id = a)) := by
          simp [valEq, Opd.eval]
        rw [List.map_cons, List.foldr_cons, ih, hc, hv]
        cases decide (j.id = a) <;> cases l.contains j.id <;> rfl
    simp only [Opd.eval] at key
    rw [key ids]

theorem select_like (f : Stamp) (w : World) (s : String) (t : List Char) (hs : s.toList = doubled t) :
    select (jobOf f) "queue" (likeCond s) (ofWorld f w) =
      some (.ok (w.jobs.filter (fun j => match j.jobname with
        | none => false
        | some n => like ('%' :: (t ++ ['%'])) n.toList))) := by
  have h1 : Lex.read {} ("SELECT * FROM " ++ "queue" ++ " WHERE " ++ "jobname LIKE '%").toList =
      ⟨[.kw .selectK, .sym '*', .kw .fromK, .name "queue", .kw .whereK, .name "jobname",
        .kw .likeK].reverse, 0, .str ['%']⟩ := by decide +kernel
  have hscan : scan (whereText "queue" (likeCond s)) =
      .tokens [.kw .selectK, .sym '*', .kw .fromK, .name "queue", .kw .whereK, .name "jobname",
        .kw .likeK, .str (String.ofList ('%' :: (t ++ ['%']))), .sym ';'] 0 := by
    have e : (whereText "queue" (likeCond s)).toList =
        ("SELECT * FROM " ++ "queue" ++ " WHERE " ++ "jobname LIKE '%").toList ++
          (s.toList ++ ("%'".toList ++ ";".toList)) := by
      simp only [whereText, likeCond, String.toList_append, List.append_assoc]
    have h3 : "%'".toList ++ ";".toList = ['%', '\'', ';'] := by decide
    unfold scan
    have hend : ∀ T cs, Lex.read ⟨T, 0, .str cs⟩ ['%', '\'', ';'] =
        ⟨.sym ';' :: .str (String.ofList (cs ++ ['%'])) :: T, 0, .start⟩ := fun _ _ => rfl
    rw [e, read_append, read_append, h1, hs, read_doubled, h3, hend]
    rfl
  refine select_of (row := jobRow f) (jobOf_jobRow f)
    (c := .like (.col "jobname") (.lit (.text (String.ofList ('%' :: (t ++ ['%'])))))) _ hscan rfl rfl rfl
    (fun j => ?_)
  have e : Dict.get? (jobRow f j) "jobname" = some (ofText? j.jobname) := rfl
  cases hj : j.jobname with
  | none =>
    rw [hj] at e
    unfold Cond.holds
    simp [Cond.eval, Opd.eval, e, ofText?, valLike]
  | some n =>
    rw [hj] at e
    apply holds_of_eval
    simp [Cond.eval, Opd.eval, e, ofText?, valLike]

end Tomato.Sql
