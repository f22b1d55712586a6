import Verif.Props.JobResults
import Verif.Props.Ketchup

/-!
# The end of a job process, without interference: C94, C95; witnesses for C94 - C96
-/

namespace Tomato.Props

open Tomato.Full

/-! ## Running a job process alone -/

theorem run_liftDb {α : Type} (p : P α) (w : World) (t : Tree) :
    Prog.run fExec (liftDb p) (w, t) = ((runW p w).1, (runW p w).2, t) := by
  unfold runW
  induction p generalizing w with
  | pure a => rfl
  | raise e => rfl
  | op o k ih => exact ih _ _

theorem run_liftFs {α : Type} (p : Prog FS α) (w : World) (t : Tree) :
    Prog.run fExec (liftFs p) (w, t) = ((Prog.run fsExec p t).1, w, (Prog.run fsExec p t).2) := by
  induction p generalizing t with
  | pure a => rfl
  | raise e => rfl
  | op o k ih => exact ih _ _

/-- The part of the world that reading does not change. -/
def SameTables (w w' : World) : Prop :=
  w'.jobs = w.jobs ∧ w'.pips = w.pips ∧ w'.badPickle = w.badPickle ∧ w'.merged = w.merged ∧
    w'.clock = w.clock

theorem quiet_exec {o : Op} (h : QuietOp o) (w : World) : SameTables w (exec o w).2 := by
  cases o with
  | askDriver port c =>
    cases port with
    | none => exact ⟨rfl, rfl, rfl, rfl, rfl⟩
    | some p => simp only [exec]; split <;> exact ⟨rfl, rfl, rfl, rfl, rfl⟩
  | askDriverLpp port c => cases port <;> exact ⟨rfl, rfl, rfl, rfl, rfl⟩
  | askDriverTimeout port c =>
    cases port with
    | none => exact ⟨rfl, rfl, rfl, rfl, rfl⟩
    | some p => simp only [exec]; split <;> exact ⟨rfl, rfl, rfl, rfl, rfl⟩
  | notZombie pid => simp only [exec]; split <;> exact ⟨rfl, rfl, rfl, rfl, rfl⟩
  | _ => first | exact h.elim | exact ⟨rfl, rfl, rfl, rfl, rfl⟩

theorem quiet_tables {α : Type} {p : P α} (h : Prog.Only (S := DB) QuietOp p) (w : World) :
    SameTables w (runW p w).2 := by
  unfold runW
  induction p generalizing w with
  | pure a => exact ⟨rfl, rfl, rfl, rfl, rfl⟩
  | raise e => exact ⟨rfl, rfl, rfl, rfl, rfl⟩
  | op o k ih =>
    obtain ⟨h1, h2, h3, h4, h5⟩ := quiet_exec h.1 w
    obtain ⟨g1, g2, g3, g4, g5⟩ := ih _ (h.2 (exec o w).1) (exec o w).2
    exact ⟨g1.trans h1, g2.trans h2, g3.trans h3, g4.trans h4, g5.trans h5⟩

theorem run_callF (o : FOp) (s : World × Tree) :
    Prog.run fExec (Prog.call (S := JF) o) s = fExec o s := Prog.run_call (S := JF) o s

/-- The final status. -/
def finalStatus (ret : Option Nat) : JobStatus := if ret.isNone then .c else .ce

/-- What `finishF` does when nothing is in the way. -/
theorem run_finish (job row : Job) (pip jp : String) (cwd : FsPath) (repos : List String)
    (info : CrateInfo) (rc : Bool) (ret : Option Nat) (w : World) (t : Tree)
    (hres : job.respath = some (resPath job.payload job.id)) (hjp : job.jobpath = some jp)
    (hbp : w.badPickle job.id = false) (hrow : w.job? job.id = some row)
    (hdir : t (resPlace cwd job.payload job.id).dropLast = some .dir)
    (hfile : t (resPlace cwd job.payload job.id) ≠ some .dir)
    (hzip : repos ≠ [] → rc = true → t (cratePath (resPlace cwd job.payload job.id)) ≠ some .dir) :
    ∃ w' t', Prog.run fExec (finishF job pip cwd repos info rc ret) (w, t) = (.ok (), (w', t')) ∧
      w'.jobs = updJobs job.id [.status (finalStatus ret), .completedAt (some w.clock)] w.jobs ∧
      w'.pips = updPips pip [.jobid none, .ready row.payload.unlockWhenDone] w.pips ∧
      w'.merged = w.merged ++ [(job.id, resPath job.payload job.id)] ∧
      ∀ q, t' q =
        if q = resPlace cwd job.payload job.id then some (.nc job.id)
        else if q = cratePath (resPlace cwd job.payload job.id) ∧ repos ≠ [] ∧ rc = true then
          some (.zip info job.payload.sample (.nc job.id))
        else t q := by
  obtain ⟨d, n, hp⟩ := resPlace_nc cwd job.payload job.id
  have hne := cratePath_ne cwd cwd job.payload job.payload job.id job.id
  have hmerge : fExec (.merge job.id job.jobpath job.respath cwd) (w, t) =
      (.ok (), { w with merged := w.merged ++ [(job.id, resPath job.payload job.id)] },
        t.put (resPlace cwd job.payload job.id) (.nc job.id)) := by
    have hw : writable t (resolve cwd (resPath job.payload job.id)) = .ok () := by
      change writable t (resPlace cwd job.payload job.id) = _
      unfold writable
      rw [if_neg hfile, hdir]
    rw [hres, hjp]
    simp only [fExec, exec, hbp, Option.isNone_some, Bool.false_eq_true, if_false, hw]
    rfl
  have hparent : (cratePath (resPlace cwd job.payload job.id)).dropLast =
      (resPlace cwd job.payload job.id).dropLast := by
    unfold cratePath; rw [List.dropLast_concat]
  have hpne : (resPlace cwd job.payload job.id).dropLast ≠ resPlace cwd job.payload job.id := by
    rw [hp, List.dropLast_concat]
    intro e; have := congrArg List.length e; simp at this
  let w1 : World := { w with merged := w.merged ++ [(job.id, resPath job.payload job.id)] }
  let ps : List JobParam := [.status (finalStatus ret), .completedAt (some w.clock)]
  let w2 : World := { w1 with jobs := updJobs job.id ps w1.jobs }
  have hrow1 : w1.job? job.id = some row := hrow
  have hpay : (applyJob row ps).payload = row.payload := rfl
  have hend : ∀ t', Prog.run fExec (Prog.bind (liftDb (updateJobId job.id ps)) (fun job =>
      Prog.bind (liftDb (updatePip pip [.jobid none, .ready job.payload.unlockWhenDone]))
        (fun _ => Prog.pure ()))) (w1, t') =
      (.ok (), { w2 with pips := updPips pip [.jobid none, .ready row.payload.unlockWhenDone] w2.pips },
        t') := by
    intro t'
    rw [Prog.run_bind, run_liftDb, run_updateJobId, hrow1]
    simp only [Prog.andThen_ok]
    rw [Prog.run_bind, run_liftDb, run_updatePip, hpay]
    rfl
  by_cases hc : repos.length > 0 ∧ rc = true
  · have hr : repos ≠ [] := by
      rintro rfl; exact absurd hc.1 (by simp)
    refine ⟨{ w2 with pips := updPips pip [.jobid none, .ready row.payload.unlockWhenDone] w2.pips },
      (t.put (resPlace cwd job.payload job.id) (.nc job.id)).put
      (cratePath (resPlace cwd job.payload job.id)) (.zip info job.payload.sample (.nc job.id)),
      ?_, rfl, rfl, rfl, ?_⟩
    · unfold finishF
      simp only [Prog.bind_eq]
      rw [Prog.run_bind, run_liftDb]
      simp only [runW, Do.run_now, exec_now, Prog.andThen_ok]
      rw [Prog.run_bind, run_callF, hmerge]
      simp only [Prog.andThen_ok]
      rw [if_pos hc, Prog.run_bind, run_callF]
      have hcr : fExec (.fs (.crate info job.payload.sample (resolve cwd (job.respath.getD ""))
          (cratePath (resolve cwd (job.respath.getD "")))))
          (w1, t.put (resPlace cwd job.payload job.id) (.nc job.id)) =
          (.ok (), w1, (t.put (resPlace cwd job.payload job.id) (.nc job.id)).put
            (cratePath (resPlace cwd job.payload job.id)) (.zip info job.payload.sample (.nc job.id))) := by
        have hg : resolve cwd (job.respath.getD "") = resPlace cwd job.payload job.id := by
          rw [hres]; rfl
        have h1 : (t.put (resPlace cwd job.payload job.id) (.nc job.id)) (resPlace cwd job.payload job.id) =
            some (.nc job.id) := if_pos rfl
        have hw : writable (t.put (resPlace cwd job.payload job.id) (.nc job.id))
            (cratePath (resPlace cwd job.payload job.id)) = .ok () := by
          unfold writable
          rw [hparent]
          have e1 : (t.put (resPlace cwd job.payload job.id) (.nc job.id))
              (cratePath (resPlace cwd job.payload job.id)) =
              t (cratePath (resPlace cwd job.payload job.id)) := if_neg hne
          have e2 : (t.put (resPlace cwd job.payload job.id) (.nc job.id))
              (resPlace cwd job.payload job.id).dropLast = some .dir := (if_neg hpne).trans hdir
          rw [e1, e2, if_neg (hzip hr hc.2)]
        rw [hg]
        simp only [fExec, fsExec, h1, hw]
      rw [hcr]
      simp only [Prog.andThen_ok]
      exact hend _
    · intro q
      unfold Tree.put
      by_cases e1 : q = cratePath (resPlace cwd job.payload job.id)
      · have e2 : q ≠ resPlace cwd job.payload job.id := by rw [e1]; exact hne
        rw [if_pos e1, if_neg e2, if_pos ⟨e1, hr, hc.2⟩]
      · rw [if_neg e1]
        by_cases e2 : q = resPlace cwd job.payload job.id
        · rw [if_pos e2, if_pos e2]
        · rw [if_neg e2, if_neg e2, if_neg (fun h => e1 h.1)]
  · refine ⟨{ w2 with pips := updPips pip [.jobid none, .ready row.payload.unlockWhenDone] w2.pips },
      t.put (resPlace cwd job.payload job.id) (.nc job.id), ?_, rfl, rfl, rfl, ?_⟩
    · unfold finishF
      simp only [Prog.bind_eq]
      rw [Prog.run_bind, run_liftDb]
      simp only [runW, Do.run_now, exec_now, Prog.andThen_ok]
      rw [Prog.run_bind, run_callF, hmerge]
      simp only [Prog.andThen_ok]
      rw [if_neg hc]
      exact hend _
    · intro q
      unfold Tree.put
      by_cases e2 : q = resPlace cwd job.payload job.id
      · rw [if_pos e2, if_pos e2]
      · rw [if_neg e2, if_neg e2]
        rw [if_neg]
        rintro ⟨-, h1, h2⟩
        exact hc ⟨List.length_pos_iff.mpr h1, h2⟩

/-- The job process did all it had to do: results, status, pipeline. -/
structure Finished (job : Job) (pip : String) (status : JobStatus) (place : FsPath) (w' : World)
    (t' : Tree) : Prop where
  row : ∃ r, w'.job? job.id = some r ∧ r.payload = job.payload ∧ r.status = status ∧
    r.completedAt.isSome = true
  pip : ∀ p, w'.pip? pip = some p → p.jobid = none ∧ p.ready = job.payload.unlockWhenDone
  data : t' place = some (.nc job.id)

/-- **C95**: a job process that runs alone, can make its output folder, has no folder in the place of
its files, and whose tasks all succeed (`ret = none`), ends normally: the job is `c`, the pipeline
is free, the data is in the result file, all other paths except the archive and the output folder are
as before.  If a task has failed, the job is `ce`, and everything else is the same. -/
theorem C95_partial (job : Job) (pip : String) (pid : Nat) (cwd : FsPath) (repos : List String)
    (info : CrateInfo) (rc : Bool) (m : P (Option Nat)) (hm : Prog.Only (S := DB) QuietOp m)
    (st o : String) (w : World) (t : Tree) (ret : Option Nat) (hret : ∀ w, (runW m w).1 = .ok ret)
    (hrow : w.job? job.id = some job) (hout : job.payload.outPath = some o) (ho : o ≠ "")
    (hpre : ∀ x, job.payload.outPrefix = some x → '/' ∉ x.toList)
    (hbp : w.badPickle job.id = false) (ht : TreeOk t)
    (hclear : ∀ q, q <+: resolve cwd o → t q = none ∨ t q = some .dir)
    (hfile : t (resPlace cwd job.payload job.id) ≠ some .dir)
    (hzip : repos ≠ [] → rc = true → t (cratePath (resPlace cwd job.payload job.id)) ≠ some .dir) :
    ∃ w' t', Prog.run fExec (tomatoJobF job.id pid job.payload pip (jobFolder st job.id) cwd repos
        info rc m) (w, t) = (.ok (), (w', t')) ∧
      Finished job pip (if ret = none then .c else .ce) (resolve cwd o ++ [resName job.payload job.id])
        w' t' ∧
      (repos ≠ [] → rc = true → t' (cratePath (resPlace cwd job.payload job.id)) =
        some (.zip info job.payload.sample (.nc job.id))) ∧
      ∀ q, ¬ q <+: resolve cwd o → q ≠ resPlace cwd job.payload job.id →
        q ≠ cratePath (resPlace cwd job.payload job.id) → t' q = t q := by
  have hplace : resPlace cwd job.payload job.id = resolve cwd o ++ [resName job.payload job.id] := by
    unfold resPlace
    rw [resPath_eq, hout, Option.getD_some]
    refine resolve_join cwd ho ?_ (resName_ne _ _).1 (resName_ne _ _).2
    have h1 : '/' ∉ "results.".toList := by decide
    have h2 : '/' ∉ ".nc".toList := by decide
    unfold resName
    split
    · simp only [String.toList_append, List.mem_append, not_or]
      exact ⟨⟨h1, digits_plain _⟩, h2⟩
    · next x hx =>
      simp only [String.toList_append, List.mem_append, not_or]
      exact ⟨hpre x hx, h2⟩
  -- the steps before the end
  let ps1 : List JobParam := [.pid (some pid), .status .r, .connectedAt (some w.clock)]
  let w1 : World := { w with jobs := updJobs job.id ps1 w.jobs }
  have hrow1 : w1.job? job.id = some (applyJob job ps1) := by
    rw [job?_update, hrow]; simp
  let ps2 : List JobParam := [.respath (some (resPath job.payload job.id)),
    .snappath (some s!"{job.payload.outPath.getD ""}/snapshot.{job.id}.nc"),
    .jobpath (some (jobFolder st job.id))]
  let w2 : World := { w1 with jobs := updJobs job.id ps2 w1.jobs }
  let job2 : Job := applyJob (applyJob job ps1) ps2
  have hrow2 : w2.job? job.id = some job2 := by
    rw [job?_update, hrow1]; simp; rfl
  obtain ⟨q1, q2, q3, q4, q5⟩ := quiet_tables hm w2
  have hrow3 : (runW m w2).2.job? job2.id = some job2 := by
    unfold World.job? at hrow2 ⊢; rw [q1]; exact hrow2
  have hprep := (C92_alone (resolve cwd o) t ht).1 hclear
  have hfin := run_finish job2 job2 pip (jobFolder st job.id) cwd repos info rc ret (runW m w2).2
    (fun q => if q <+: resolve cwd o then some .dir else t q) rfl rfl
    (by rw [q3]; exact hbp) hrow3
    (by
      change (if (resPlace cwd job.payload job.id).dropLast <+: _ then _ else _) = _
      rw [hplace, List.dropLast_concat, if_pos List.prefix_rfl])
    (by
      change (if resPlace cwd job.payload job.id <+: _ then _ else t (resPlace cwd job.payload job.id)) ≠ _
      rw [if_neg]
      · exact hfile
      · rw [hplace]; intro h; have := h.length_le; simp at this; omega)
    (by
      intro h1 h2
      change (if cratePath (resPlace cwd job.payload job.id) <+: _ then _ else
        t (cratePath (resPlace cwd job.payload job.id))) ≠ _
      rw [if_neg]
      · exact hzip h1 h2
      · unfold cratePath
        rw [hplace, List.dropLast_concat]; intro h; have := h.length_le; simp at this; omega)
  obtain ⟨w', t', hrun, hjobs, hpips, -, htree⟩ := hfin
  refine ⟨w', t', ?_, ⟨?_, ?_, ?_⟩, ?_, ?_⟩
  · unfold tomatoJobF
    simp only [Prog.bind_eq]
    rw [Prog.run_bind, run_liftDb]
    have hconn : runW (jobConnect job.id pid) w = (.ok (), w1) := by
      unfold jobConnect
      have := run_updateJobId job.id ps1 w
      rw [hrow] at this
      simp only [runW] at this ⊢
      simp only [Prog.bind_eq, Prog.run_bind, Do.run_now, exec_now, Prog.andThen_ok]
      rw [this]; rfl
    rw [hconn]
    simp only [Prog.andThen_ok, hout]
    rw [Prog.run_bind, run_liftFs, hprep]
    simp only [Prog.andThen_ok]
    rw [Prog.run_bind, run_liftDb]
    have hpaths : runW (jobPaths job.id job.payload (jobFolder st job.id)) w1 = (.ok job2, w2) := by
      unfold jobPaths
      rw [run_updateJobId, hrow1]
    rw [hpaths]
    simp only [Prog.andThen_ok]
    rw [Prog.run_bind, run_liftDb]
    have hmm : runW m w2 = (.ok ret, (runW m w2).2) := by rw [← hret w2]
    rw [hmm]
    simp only [Prog.andThen_ok]
    exact hrun
  · have hj : w'.job? job.id = some (applyJob job2 [.status (finalStatus ret), .completedAt (some (runW m w2).2.clock)]) := by
      have := job?_update (runW m w2).2 job2.id job2.id
        [.status (finalStatus ret), .completedAt (some (runW m w2).2.clock)]
      rw [hrow3] at this
      unfold World.job? at this ⊢
      rw [hjobs]
      exact this.trans (by simp)
    refine ⟨_, hj, rfl, ?_, rfl⟩
    show finalStatus ret = _
    cases ret <;> rfl
  · intro p hp
    have := pip?_update (runW m w2).2 pip pip [.jobid none, .ready job2.payload.unlockWhenDone]
    unfold World.pip? at this hp
    rw [hpips] at hp
    have h2 := hp.symm.trans this
    cases hq : (runW m w2).2.pips.find? (fun p => p.name == pip) with
    | none => rw [hq] at h2; cases h2
    | some r =>
      rw [hq] at h2
      simp only [Option.map_some, if_true] at h2
      cases h2
      exact ⟨rfl, rfl⟩
  · rw [← hplace, htree]
    exact if_pos rfl
  · intro h1 h2
    rw [htree]
    have hne := cratePath_ne cwd cwd job.payload job.payload job.id job.id
    exact (if_neg hne).trans (if_pos ⟨rfl, h1, h2⟩)
  · intro q h1 h2 h3
    rw [htree]
    refine (if_neg h2).trans ((if_neg (fun h => h3 h.1)).trans ?_)
    exact if_neg h1

/-! ## C94 -/

/-- If a payload with a repository other than `default` is accepted, and the settings do not change
until the job is launched, then the job process finds a repository. -/
theorem C94_repos (p : Payload) (n : Option String) (d : Daemon) (dir : String) (w : World)
    (rep : KReply) (w' : World) (hs : runW (submit (.parsed p) n d dir) w = (.ok rep, w'))
    (hok : rep.success = true) (hr : ∃ r ∈ p.repositories, r ≠ "default") :
    reposFor d.settings (fillPaths p dir) ≠ [] := by
  obtain ⟨r, hr, hd⟩ := hr
  have hrep : (fillPaths p dir).repositories = p.repositories := by
    unfold fillPaths
    cases h : p.outPath <;> cases h2 : p.snapshot <;> (try rename_i x; cases x) <;> simp [h2]
  have hne : (fillPaths p dir).repositories ≠ ["default"] := by
    rw [hrep]; intro h; rw [h] at hr; exact hd (List.mem_singleton.mp hr)
  unfold submit at hs
  simp only [if_pos hne] at hs
  cases hk : d.settings.repositories with
  | none =>
    have hall : (fillPaths p dir).repositories.all (fun r => decide (r = "default")) = false := by
      rw [hrep, List.all_eq_false]
      exact ⟨r, hr, by simpa using hd⟩
    rw [hk] at hs
    simp only [unknownRepo, hall, Bool.false_eq_true, if_false] at hs
    cases hs
  | some known =>
    rw [hk] at hs
    simp only [unknownRepo] at hs
    cases hf : (fillPaths p dir).repositories.find?
        (fun r => decide (r ≠ "default") && !Dict.mem known r) with
    | some x =>
      rw [hf] at hs
      cases hs
      cases hok
    | none =>
      have := List.find?_eq_none.mp hf r (by rw [hrep]; exact hr)
      simp only [hd, ne_eq, not_false_eq_true, decide_true, Bool.true_and, Bool.not_eq_true,
        Bool.not_eq_false'] at this
      unfold reposFor
      rw [hk, Option.getD_some]
      intro hnil
      have hmem : r ∈ known.map (·.1) := by
        unfold Dict.mem at this
        clear hs hk hf hnil
        induction known with
        | nil => cases this
        | cons kv rest ih =>
          obtain ⟨k, v⟩ := kv
          unfold Dict.get? at this
          split at this
          · next e => exact List.mem_map.mpr ⟨(k, v), List.mem_cons_self, e⟩
          · exact List.mem_cons_of_mem _ (ih this)
      have := List.filter_eq_nil_iff.mp hnil r hmem
      rw [hrep] at this
      simp [hr] at this

/-- **C94**: a payload with a repository other than `default` is accepted, the settings are the same
when the job is launched, the package `rocrate` is installed, and the job process runs alone with
nothing in the way of its files.  Then the archive is beside the result file, names the sample, and
contains the data.  What is missing: the settings may change in between (`C94_refuted`).  What the
archives contain in all executions is `C94_content`. -/
theorem C94_partial (p : Payload) (n : Option String) (d : Daemon) (dir : String) (w0 : World)
    (rep : KReply) (w1 : World) (hs : runW (submit (.parsed p) n d dir) w0 = (.ok rep, w1))
    (hok : rep.success = true) (hr : ∃ r ∈ p.repositories, r ≠ "default")
    (job : Job) (hjob : job.payload = fillPaths p dir) (pip : String) (pid : Nat) (cwd : FsPath)
    (info : CrateInfo) (m : P (Option Nat)) (hm : Prog.Only (S := DB) QuietOp m)
    (st : String) (w : World) (t : Tree) (ret : Option Nat) (hret : ∀ w, (runW m w).1 = .ok ret)
    (hrow : w.job? job.id = some job) (ha : AnchoredOut p) (hdir : dir.toList.head? = some '/')
    (hpre : ∀ x, p.outPrefix = some x → '/' ∉ x.toList)
    (hbp : w.badPickle job.id = false) (ht : TreeOk t)
    (hclear : ∀ q, q <+: wantedFolder dir p → t q = none ∨ t q = some .dir)
    (hfile : ∀ x, t (wantedFolder dir p ++ [x]) ≠ some .dir) :
    ∃ w' t' name, Prog.run fExec (tomatoJobF job.id pid job.payload pip (jobFolder st job.id) cwd
        (reposFor d.settings job.payload) info true m) (w, t) = (.ok (), (w', t')) ∧
      t' (wantedFolder dir p ++ [name ++ ".nc"]) = some (.nc job.id) ∧
      t' (wantedFolder dir p ++ [name ++ ".zip"]) = some (.zip info p.sample (.nc job.id)) := by
  have hout := (outPath_fillPaths p dir).1
  have hhead : (p.outPath.getD dir).toList.head? = some '/' := by
    cases h : p.outPath with
    | none => exact hdir
    | some o => exact ha o h
  have hwant : resolve cwd (p.outPath.getD dir) = wantedFolder dir p := by
    unfold wantedFolder
    cases h : p.outPath with
    | none => rw [h] at hhead; simp only [Option.getD_none] at *; rw [resolve, if_pos hhead]
    | some o =>
      rw [h] at hhead; simp only [Option.getD_some] at *
      rw [resolve, if_pos hhead, resolve, if_pos hhead]
  have hplace : resPlace cwd job.payload job.id =
      wantedFolder dir p ++ [(p.outPrefix.getD ("results." ++ job.id.repr)) ++ ".nc"] := by
    rw [hjob]; exact C93_place p dir job.id cwd ha hdir hpre
  have hsample : (fillPaths p dir).sample = p.sample := by
    unfold fillPaths
    cases h : p.outPath <;> cases h2 : p.snapshot <;> (try rename_i x; cases x) <;> simp [h2]
  have hrepos := C94_repos p n d dir w0 rep w1 hs hok hr
  rw [← hjob] at hrepos
  obtain ⟨w', t', h1, h2, h3, -⟩ := C95_partial job pip pid cwd (reposFor d.settings job.payload) info
    true m hm st (p.outPath.getD dir) w t ret hret hrow (by rw [hjob]; exact hout)
    (by intro e; rw [e] at hhead; cases hhead)
    (by rw [hjob, (outPath_fillPaths p dir).2]; exact hpre) hbp ht
    (by rw [hwant]; exact hclear)
    (by rw [hplace]; exact hfile _)
    (by intro _ _; rw [hplace, cratePath_nc]; exact hfile _)
  refine ⟨w', t', p.outPrefix.getD ("results." ++ job.id.repr), h1, ?_, ?_⟩
  · have := h2.data
    rw [hwant] at this
    have hname : resName job.payload job.id = (p.outPrefix.getD ("results." ++ job.id.repr)) ++ ".nc" := by
      unfold resName
      rw [hjob, (outPath_fillPaths p dir).2]
      cases p.outPrefix <;> rfl
    rw [hname] at this
    exact this
  · have := h3 hrepos rfl
    rw [hplace, cratePath_nc, hjob, hsample] at this
    exact this

/-! ## Witnesses -/

/-- A job with a repository. -/
def plRepo : Payload := { plS "s" with repositories := ["zenodo"] }

/-- The daemon knows the repository. -/
def dRepo : Daemon := { dRun with settings := { repositories := some [("zenodo", "url")] } }

/-- **C94** is false: the payload is accepted by a daemon that knows the repository; then the settings
are reloaded without it, which is accepted as well; the job process, which runs alone with nothing in
the way, ends normally without an archive. -/
theorem C94_refuted : ∃ (w w1 w2 : World) (rep : KReply) (rep' : CReply) (d' : Daemon) (w3 : World)
      (t3 : Tree) (job : Job),
    runW (submit (.parsed plRepo) none dRepo "/home/u") w = (.ok rep, w1) ∧ rep.success = true ∧
    runW (cmdReload dRepo (some ({}, dRepo.devicefile))) w1 = (.ok (rep', d'), w2) ∧
    rep'.success = true ∧ w2.job? 1 = some job ∧
    Prog.run fExec (tomatoJobF 1 100 job.payload "p" "Jobs/1" ["srv"]
      (reposFor d'.settings job.payload) noInfo true (.pure none)) (w2, tHome) = (.ok (), (w3, t3)) ∧
    (w3.job? 1).map (·.status) = some .c ∧
    t3 ["home", "u", "results.1.nc"] = some (.nc 1) ∧
    t3 ["home", "u", "results.1.zip"] = none := by
  refine ⟨{}, _, _, _, _, _, _, _, _, rfl, rfl, rfl, rfl, rfl, rfl, rfl, rfl, rfl⟩

/-- A folder has the name of the archive. -/
def tBlocked : Tree := tHome.put ["home", "u", "results.1.zip"] .dir

/-- All tasks of the job succeed; the archive can not be written. -/
def blockedZip : List FAct :=
  oneJob (plS "s") ["zenodo"] true ++ [.files tBlocked] ++ fRun 8 10 ++
  [.env (.procs []), .jmStart dRun] ++ (jm 5).map up

/-- **C95** is false: all tasks of the job have succeeded (its main loop is `pure none`) and the data
is in the result file, but there is a folder in the place of the archive: the job is recorded as
failed. -/
theorem C95_refuted : ∃ s, FStepsFile "Jobs" ["srv"] { w := {}, t := tHome } s ∧
    s = srvAfter blockedZip ∧
    s.others[8]?.bind endedBy = some .isADirectory ∧
    s.t ["home", "u", "results.1.nc"] = some (.nc 1) ∧
    (s.w.job? 1).map (·.status) = some .ce := by
  exact ⟨_, srvAfter_steps rfl, rfl, rfl, rfl, rfl⟩

/-- The job process is killed after the last task, before it merges the data. -/
def killedLate : List FAct :=
  oneJob (plS "s") [] false ++ fRun 8 8 ++ [.kill 8, .env (.procs []), .jmStart dRun] ++ (jm 5).map up

/-- **C96** is false for jobs that do not end by themselves: the process is killed when all tasks are
done; the job is recorded as failed, and no result file is ever written, although the data of the
tasks can be merged. -/
theorem C96_refuted : ∃ s, FStepsFile "Jobs" ["srv"] { w := {}, t := tHome } s ∧
    s = srvAfter killedLate ∧ s.w.merged = [] ∧
    s.t ["home", "u", "results.1.nc"] = none ∧ s.w.badPickle 1 = false ∧
    (s.w.job? 1).map (fun j => (j.status, j.respath, j.jobpath)) =
      some (.ce, some "/home/u/results.1.nc", some "Jobs/1") := by
  exact ⟨_, srvAfter_steps rfl, rfl, rfl, rfl, rfl, rfl⟩

/-! ## The theorems are not vacuous -/

theorem stepsR_of_facts {st : String} {cwd : FsPath} {R : Tree → Tree → Prop} {s0 s s' : FSys}
    {as : List FAct} (h0 : FStepsR R st cwd s0 s) (hu : as.all (fun a => !byUser a) = true)
    (h : fileFacts st cwd s as = some s') : FStepsR R st cwd s0 s' := by
  induction as generalizing s with
  | nil => cases h; exact h0
  | cons a as ih =>
    rw [List.all_cons, Bool.and_eq_true] at hu
    simp only [fileFacts] at h
    split at h
    · next hb =>
      split at h
      · next s1 h1 =>
        refine ih (.tail h0 h1 ?_ ?_) hu.2 h
        · rintro c rfl j i pl pip path cwd' rs info rc m hm rfl
          simpa [fromFileB] using hb
        · rintro t rfl
          exact absurd hu.1 (by simp [byUser])
      · cases h
    · cases h

theorem srvAfter_stepsR {as : List FAct} (R : Tree → Tree → Prop)
    (hu : as.all (fun a => !byUser a) = true)
    (h : (fileFacts "Jobs" ["srv"] { w := {}, t := tHome } as).isSome = true) :
    FStepsR R "Jobs" ["srv"] { w := {}, t := tHome } (srvAfter as) := by
  obtain ⟨s, hs⟩ := Option.isSome_iff_exists.mp h
  unfold srvAfter
  rw [hs]
  exact stepsR_of_facts (.refl _) hu hs

/-- A job with an archive, before the archive is written. -/
def almostDone : List FAct := oneJob (plS "s") ["zenodo"] true ++ fRun 8 9

instance (cwd : FsPath) (l : List Job) : Decidable (OwnResults cwd l) := by
  unfold OwnResults; infer_instance

/-- `C94_content` and `C96_partial`: two jobs, one of them writes its archive and is completed. -/
example : ∃ s s', FStepsR KeepsData "Jobs" ["srv"] { w := {}, t := tHome } s ∧
    OwnResults ["srv"] s.w.jobs ∧ s.w.jobs.length = 2 ∧ fact "Jobs" s (.step 8) = some s' ∧
    s.t ["home", "u", "results.1.zip"] = none ∧
    s'.t ["home", "u", "results.1.zip"] = some (.zip noInfo "s" (.nc 1)) :=
  ⟨srvAfter almostDone, _, srvAfter_stepsR _ rfl rfl, by decide +kernel, rfl, rfl, rfl, rfl⟩

example : ∃ s, FStepsR KeepsData "Jobs" ["srv"] { w := {}, t := tHome } s ∧
    OwnResults ["srv"] s.w.jobs ∧ (s.w.job? 1).map (·.status) = some .c ∧ s.w.jobs.length = 2 :=
  ⟨srvAfter (almostDone ++ fRun 8 5), srvAfter_stepsR _ (by decide +kernel) (by decide +kernel), by decide +kernel,
    by decide +kernel, by decide +kernel⟩

/-- The first job in the queue. -/
def jobNew : Job where
  id := 1
  payload := fillPaths { plRepo with outPath := some "/data/new" } "/home/u"
  submittedAt := 0

/-- `C94_partial` and `C95_partial`: a new output folder, and a main loop that asks a driver. -/
example : ∃ (w1 : World) (rep : KReply) (job : Job) (m : P (Option Nat)) (t : Tree),
    runW (submit (.parsed { plRepo with outPath := some "/data/new" }) none dRepo "/home/u") {} =
      (.ok rep, w1) ∧ rep.success = true ∧ w1.job? job.id = some job ∧ TreeOk t ∧
    t ["data"] = none ∧ (∀ q, q <+: ["data", "new"] → t q = none ∨ t q = some .dir) ∧
    (∀ x, t (["data", "new"] ++ [x]) ≠ some .dir) ∧
    Prog.Only (S := DB) QuietOp m ∧ (∀ w, (runW m w).1 = .ok none) ∧ (∀ w, m ≠ .pure w) := by
  refine ⟨_, _, jobNew, .op (.getPip "p") (fun _ => .pure none), tRoot, rfl, rfl, rfl, tRoot_ok, rfl, ?_, ?_,
    ⟨trivial, fun _ => trivial⟩, fun _ => rfl, fun _ h => by cases h⟩
  · intro q _
    by_cases h : q = []
    · exact .inr (by simp [tRoot, h])
    · exact .inl (by simp [tRoot, h])
  · intro x; simp [tRoot]

end Tomato.Props
