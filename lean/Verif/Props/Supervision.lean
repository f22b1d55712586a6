import Verif.JobMgr
import Verif.KetchupLemmas
import Verif.PipLemmas
import Verif.SystemLemmas

/-!
# Supervision of running jobs: C23, and the positive parts of C24 and C25
-/

namespace Tomato

/-- The verdict of the job manager on a job with a process. -/
def verdict (w : World) (st : JobStatus) (pid : Nat) : Option JobStatus :=
  if st = .rd then some .cd else if st = .r ∧ w.alive pid = false then some .ce else none

/-- The columns written for a verdict. -/
def verdictRows (w : World) (id : Nat) : Option JobStatus → List Job
  | none => w.jobs
  | some st => updJobs id [.status st, .pid none, .completedAt (some w.clock)] w.jobs

theorem alive_hasPid {w : World} {pid : Nat} (h : w.alive pid = true) : w.hasPid pid = true := by
  unfold World.alive at h
  unfold World.hasPid
  rw [List.any_eq_true] at h ⊢
  obtain ⟨p, hp, hx⟩ := h
  rw [Bool.and_eq_true] at hx
  exact ⟨p, hp, hx.1⟩

theorem run_finishJob (job : Job) (st : JobStatus) (w : World) (hrow : (w.job? job.id).isSome) :
    runW (manageJob.finish job st) w = (.ok (), { w with jobs := verdictRows w job.id (some st) }) := by
  obtain ⟨j, hj⟩ := Option.isSome_iff_exists.mp hrow
  have hr := run_updateJobId job.id [.status st, .pid none, .completedAt (some w.clock)] w
  simp only [runW] at hr
  simp only [runW, manageJob.finish, Prog.bind_eq, Prog.run_bind, Do.run_now, exec_now,
    Prog.andThen_ok, hr, hj, Prog.pure_eq, Prog.run_pure, verdictRows]

theorem run_decideJob (job : Job) (pid : Nat) (b : Bool) (w : World)
    (hrow : (w.job? job.id).isSome) (hb : b = w.alive pid)
    (hm : job.status = .rd → w.alive pid = true →
      job.jobpath.isSome ∧ job.respath.isSome ∧ w.badPickle job.id = false) :
    ∃ m, runW (manageJob.decideJob job b (some pid)) w =
      (.ok (), { w with
        jobs := verdictRows w job.id (verdict w job.status pid),
        procs := if job.status = .rd ∧ w.alive pid = true then
          w.procs.filter (fun p => !(p.parent == pid)) else w.procs,
        merged := m }) := by
  unfold manageJob.decideJob verdict
  by_cases hrd : job.status = .rd
  · rw [if_pos hrd, if_pos hrd]
    by_cases ha : w.alive pid = true
    · rw [ha] at hb
      subst hb
      obtain ⟨h1, h2, h3⟩ := hm hrd ha
      obtain ⟨jp, hjp⟩ := Option.isSome_iff_exists.mp h1
      obtain ⟨rp, hrp⟩ := Option.isSome_iff_exists.mp h2
      refine ⟨w.merged ++ [(job.id, rp)], ?_⟩
      rw [if_pos ⟨hrd, ha⟩]
      have hk : exec (.killChildren pid) w =
          (.ok (), { w with procs := w.procs.filter (fun p => !(p.parent == pid)) }) := by
        simp only [exec, alive_hasPid ha, if_true]
      have hmg : exec (.merge job.id (some jp) (some rp))
          { w with procs := w.procs.filter (fun p => !(p.parent == pid)) } =
          (.ok (), { w with procs := w.procs.filter (fun p => !(p.parent == pid)),
                            merged := w.merged ++ [(job.id, rp)] }) := by
        simp only [exec, h3]
        rfl
      have hf := run_finishJob job .cd { w with
        procs := w.procs.filter (fun p => !(p.parent == pid)),
        merged := w.merged ++ [(job.id, rp)] } hrow
      simp only [runW] at hf
      simp only [runW, Prog.bind_eq, Prog.run_bind, Do.run_killChildren, hk, Prog.andThen_ok,
        Do.run_merge, hjp, hrp, hmg, hf]
      rfl
    · have ha' : w.alive pid = false := by simpa using ha
      rw [ha'] at hb
      subst hb
      refine ⟨w.merged, ?_⟩
      rw [if_neg (by rintro ⟨-, h⟩; exact ha h)]
      have hf := run_finishJob job .cd w hrow
      simp only [runW] at hf
      exact hf
  · rw [if_neg hrd, if_neg hrd]
    refine ⟨w.merged, ?_⟩
    have hp : (if job.status = .rd ∧ w.alive pid = true then
        w.procs.filter (fun p => !(p.parent == pid)) else w.procs) = w.procs :=
      if_neg (by rintro ⟨h, -⟩; exact hrd h)
    rw [hp]
    by_cases hr : job.status = .r ∧ w.alive pid = false
    · rw [if_pos hr, if_pos (by rw [hb, hr.2]; exact ⟨rfl, hr.1⟩), run_finishJob job .ce w hrow]
    · rw [if_neg hr, if_neg]
      · rfl
      · rintro ⟨h1, h2⟩
        apply hr
        refine ⟨h2, ?_⟩
        rw [← hb]; simpa using h1

theorem run_manageJob (job : Job) (pid : Nat) (hp : job.pid = some pid) (w : World)
    (hrow : (w.job? job.id).isSome)
    (hm : job.status = .rd → w.alive pid = true →
      job.jobpath.isSome ∧ job.respath.isSome ∧ w.badPickle job.id = false) :
    ∃ m, runW (manageJob job) w =
      (.ok (), { w with
        jobs := verdictRows w job.id (verdict w job.status pid),
        procs := if job.status = .rd ∧ w.alive pid = true then
          w.procs.filter (fun p => !(p.parent == pid)) else w.procs,
        merged := m }) := by
  obtain ⟨m, hd⟩ := run_decideJob job pid (w.alive pid) w hrow rfl hm
  refine ⟨m, ?_⟩
  rw [← hd]
  unfold manageJob
  rw [hp]
  simp only [runW, Prog.bind_eq, Prog.run_bind, Do.run_pidExists, exec_pidExists,
    Prog.andThen_ok]
  by_cases hh : w.hasPid pid = true
  · rw [if_pos hh]
    have hz : exec (.notZombie pid) w = (.ok (w.alive pid), w) := by
      simp only [exec, hh, if_true]
    simp only [Prog.run_bind, Do.run_notZombie, hz, Prog.andThen_ok]
  · rw [if_neg hh]
    have : w.alive pid = false := by
      cases h : w.alive pid with
      | false => rfl
      | true => exact absurd (alive_hasPid h) hh
    rw [this]

theorem job?_update2 (w : World) (id : Nat) (p1 p2 : List JobParam) :
    World.job? { w with jobs := updJobs id p2 (updJobs id p1 w.jobs) } id =
      (w.job? id).map (fun j => applyJob (applyJob j p1) p2) := by
  have h1 := job?_update { w with jobs := updJobs id p1 w.jobs } id id p2
  have h2 := job?_update w id id p1
  simp only [if_true] at h1 h2
  rw [h1, h2, Option.map_map]
  rfl

theorem exec_merge_tables (id : Nat) (a b : Option String) (w : World) :
    (exec (.merge id a b) w).2.pips = w.pips ∧ (exec (.merge id a b) w).2.jobs = w.jobs := by
  simp only [exec]
  split
  · exact ⟨rfl, rfl⟩
  · split
    · exact ⟨rfl, rfl⟩
    · split <;> exact ⟨rfl, rfl⟩

namespace Props

/-- What a supervision pass is expected to do with a job (C23). -/
def supervised (w : World) (j : Job) : Job :=
  match j.pid with
  | none => j
  | some pid =>
    if j.status = .rd then { j with status := .cd, pid := none, completedAt := some w.clock }
    else if j.status = .r ∧ ¬ w.alive pid = true then
      { j with status := .ce, pid := none, completedAt := some w.clock }
    else j

/-- Nothing goes wrong when the job manager ends the job: a live job that is being cancelled has
its folder and result file on record, and its data can be read. -/
def CanEnd (w : World) (j : Job) : Prop :=
  ∀ pid, j.pid = some pid → j.status = .rd → w.alive pid = true →
    j.jobpath.isSome ∧ j.respath.isSome ∧ w.badPickle j.id = false

/-- No job process is a child of the process of a job that is being cancelled. -/
def Separate (w : World) : Prop :=
  ∀ j ∈ w.jobs, ∀ j' ∈ w.jobs, ∀ pid', j'.pid = some pid' → j'.status = .rd →
    ∀ p ∈ w.procs, j.pid = some p.pid → p.parent ≠ pid'

theorem supervised_eq (w : World) (j : Job) (pid : Nat) (hp : j.pid = some pid) :
    supervised w j = match verdict w j.status pid with
      | none => j
      | some st => { j with status := st, pid := none, completedAt := some w.clock } := by
  unfold supervised verdict
  rw [hp]
  by_cases h1 : j.status = .rd
  · simp [h1]
  · by_cases h2 : j.status = .r ∧ w.alive pid = false
    · simp [h2]
    · simp only [h1, if_false]
      rw [if_neg (by simpa using h2), if_neg h2]

theorem supervised_id (w : World) (j : Job) : (supervised w j).id = j.id := by
  unfold supervised
  split
  · rfl
  · split
    · rfl
    · split <;> rfl

/-- The loop, started in a world whose process table has the same live job processes as `w0`. -/
theorem run_supervise (w0 : World) (l : List Job) :
    ∀ w : World, (w.jobs.map (·.id)).Nodup → l.Nodup → (∀ j ∈ l, j ∈ w.jobs) →
      (∀ j ∈ l, j.pid.isSome) → w.clock = w0.clock → w.badPickle = w0.badPickle →
      (∀ j ∈ l, ∀ pid, j.pid = some pid → w.alive pid = w0.alive pid) →
      (∀ j ∈ l, CanEnd w0 j) →
      (∀ j ∈ l, ∀ j' ∈ l, ∀ pid', j'.pid = some pid' → j'.status = .rd →
        ∀ p ∈ w.procs, j.pid = some p.pid → p.parent ≠ pid') →
      ∃ ps m, runW (Prog.forEach l manageJob) w = (.ok (), { w with
        jobs := w.jobs.map (fun x => if x ∈ l then supervised w0 x else x),
        procs := ps, merged := m }) := by
  induction l with
  | nil =>
    intro w _ _ _ _ _ _ _ _ _
    exact ⟨w.procs, w.merged, by simp [runW]⟩
  | cons a l ih =>
    intro w hn hnl hin hpid hc hbp hal hce hsep
    obtain ⟨pid, hp⟩ := Option.isSome_iff_exists.mp (hpid a (by simp))
    have hala := hal a (by simp) pid hp
    have hrow : w.job? a.id = some a := find?_of_nodup (key := fun j : Job => j.id) hn (hin a (by simp))
    obtain ⟨m, hrun⟩ := run_manageJob a pid hp w (by rw [hrow]; rfl) (by
      intro h1 h2
      rw [hbp]
      exact hce a (by simp) pid hp h1 (by rw [← hala]; exact h2))
    have hver : verdict w a.status pid = verdict w0 a.status pid := by
      unfold verdict; rw [hala]
    rw [List.nodup_cons] at hnl
    -- the rows after the first job
    have hjobs : verdictRows w a.id (verdict w a.status pid) =
        w.jobs.map (fun x => if x = a then supervised w0 x else x) := by
      rw [hver]
      have hsup := supervised_eq w0 a pid hp
      cases hv : verdict w0 a.status pid with
      | none =>
        rw [hv] at hsup
        simp only at hsup
        unfold verdictRows
        simp only
        conv => lhs; rw [← List.map_id w.jobs]
        apply List.map_congr_left
        intro x _
        by_cases hx : x = a
        · rw [if_pos hx, hx, hsup]; rfl
        · rw [if_neg hx]; rfl
      | some st =>
        rw [hv] at hsup
        simp only at hsup
        unfold verdictRows updJobs
        simp only
        apply List.map_congr_left
        intro x hx
        by_cases hid : x.id = a.id
        · have : x = a := by
            have h1 := find?_of_nodup (key := fun j : Job => j.id) hn hx
            rw [hid] at h1
            have h2 := hrow
            unfold World.job? at h2
            rw [h2] at h1
            cases h1; rfl
          rw [if_pos hid, if_pos this, this, hsup, hc]
          rfl
        · rw [if_neg hid, if_neg (fun h => hid (by rw [h]))]
    have hne : ∀ x ∈ l, x ≠ a := fun x hx h => hnl.1 (h ▸ hx)
    -- the rest
    let w1 : World := { w with
      jobs := verdictRows w a.id (verdict w a.status pid),
      procs := if a.status = .rd ∧ w.alive pid = true then
          w.procs.filter (fun p => !(p.parent == pid)) else w.procs,
      merged := m }
    have hprocs : ∀ p ∈ w1.procs, p ∈ w.procs := by
      intro p hpm
      simp only [w1] at hpm
      split at hpm
      · exact (List.mem_filter.mp hpm).1
      · exact hpm
    have a1 : (w1.jobs.map (·.id)).Nodup := by
      simp only [w1, hjobs, List.map_map]
      have : (List.map ((fun x : Job => x.id) ∘ fun x => if x = a then supervised w0 x else x) w.jobs)
          = w.jobs.map (·.id) := by
        apply List.map_congr_left
        intro x _
        simp only [Function.comp]
        split
        · exact supervised_id w0 x
        · rfl
      rw [this]; exact hn
    have a2 : ∀ j ∈ l, j ∈ w1.jobs := by
      intro x hx
      simp only [w1, hjobs]
      exact List.mem_map.mpr ⟨x, hin x (by simp [hx]), if_neg (hne x hx)⟩
    have a3 : ∀ j ∈ l, ∀ pid, j.pid = some pid → w1.alive pid = w0.alive pid := by
      intro x hx pid' hp'
      rw [← hal x (by simp [hx]) pid' hp']
      unfold World.alive
      by_cases hcond : a.status = .rd ∧ w.alive pid = true
      · have hw1 : w1.procs = w.procs.filter (fun p => !(p.parent == pid)) := if_pos hcond
        rw [hw1, List.any_filter]
        apply Bool.eq_iff_iff.mpr
        rw [List.any_eq_true, List.any_eq_true]
        constructor
        · rintro ⟨p, hpm, hx1⟩
          rw [Bool.and_eq_true] at hx1
          exact ⟨p, hpm, hx1.2⟩
        · rintro ⟨p, hpm, hx1⟩
          refine ⟨p, hpm, ?_⟩
          rw [hx1]
          have hpp : p.pid = pid' := by
            rw [Bool.and_eq_true] at hx1
            simpa using hx1.1
          have := hsep x (by simp [hx]) a (by simp) pid hp hcond.1 p hpm (by rw [hp', hpp])
          simpa using this
      · have hw1 : w1.procs = w.procs := if_neg hcond
        rw [hw1]
    have a4 : ∀ j ∈ l, ∀ j' ∈ l, ∀ pid', j'.pid = some pid' → j'.status = .rd →
        ∀ p ∈ w1.procs, j.pid = some p.pid → p.parent ≠ pid' := by
      intro x hx x' hx' pid' hp' hst p hpm
      exact hsep x (by simp [hx]) x' (by simp [hx']) pid' hp' hst p (hprocs p hpm)
    obtain ⟨ps, m', hrest⟩ := ih w1 a1 hnl.2 a2 (fun j hj => hpid j (by simp [hj])) hc hbp a3
      (fun j hj => hce j (by simp [hj])) a4
    refine ⟨ps, m', ?_⟩
    simp only [runW] at hrun hrest
    simp only [runW, Prog.run_forEach_cons, hrun, Prog.andThen_ok]
    rw [show (Prog.run exec (Prog.forEach l manageJob) w1) = _ from hrest]
    congr 1
    simp only [w1, hjobs, List.map_map]
    congr 1
    apply List.map_congr_left
    intro x hx
    simp only [Function.comp]
    by_cases hxa : x = a
    · subst hxa
      have hmem : x ∈ x :: l := by simp
      rw [if_pos rfl, if_pos hmem]
      by_cases hs : supervised w0 x ∈ l
      · exfalso
        have h1 : supervised w0 x ∈ w.jobs := hin _ (by simp [hs])
        have h2 := find?_of_nodup (key := fun j : Job => j.id) hn h1
        simp only [supervised_id] at h2
        have h3 := hrow
        unfold World.job? at h3
        rw [h3] at h2
        injection h2 with h2
        rw [← h2] at hs
        exact hnl.1 hs
      · rw [if_neg hs]
    · rw [if_neg hxa]
      by_cases hxl : x ∈ l
      · rw [if_pos hxl, if_pos (by simp [hxl])]
      · rw [if_neg hxl, if_neg (by simp [hxa, hxl])]

/-- **C23** (partial): one supervision pass, run alone, changes exactly the jobs with a process
id on record as expected, and no other table.  Missing: jobs that can not be ended (`CanEnd`),
where the pass raises (`C23_refuted`); jobs in status `rd` without a process id, which are never
looked at (`C23_refuted_stuck`); and jobs started by other jobs (`Separate`). -/
theorem C23_supervision_partial (w : World) (hw : w.WF) (hce : ∀ j ∈ w.jobs, CanEnd w j)
    (hsep : Separate w) :
    ∃ w', runW manageRunning w = (.ok (), w') ∧ w'.jobs = w.jobs.map (supervised w) ∧
      w'.pips = w.pips ∧ w'.drvs = w.drvs ∧ w'.launches = w.launches ∧ w'.jobDirs = w.jobDirs ∧
      w'.drv = w.drv := by
  have hl : ∀ j ∈ w.jobs.filter (fun j => j.pid.isSome), j ∈ w.jobs ∧ j.pid.isSome := by
    intro j hj
    rw [List.mem_filter] at hj
    exact hj
  have hnd : (w.jobs.filter (fun j => j.pid.isSome)).Nodup := by
    have : w.jobs.Nodup := List.Pairwise.of_map _ (fun a b h e => h (by rw [e])) hw.idsNodup
    exact this.filter _
  obtain ⟨ps, m, hrun⟩ := run_supervise w (w.jobs.filter (fun j => j.pid.isSome)) w hw.idsNodup
    hnd (fun j hj => (hl j hj).1) (fun j hj => (hl j hj).2) rfl rfl (fun _ _ _ _ => rfl)
    (fun j hj => hce j (hl j hj).1)
    (fun j hj j' hj' pid' => hsep j (hl j hj).1 j' (hl j' hj').1 pid')
  refine ⟨{ w with jobs := w.jobs.map (supervised w), procs := ps, merged := m }, ?_, rfl, rfl,
    rfl, rfl, rfl, rfl⟩
  simp only [runW] at hrun
  simp only [runW, manageRunning, Prog.bind_eq, Prog.run_bind, Do.run_jobsWhere,
    exec_jobsWhere, Prog.andThen_ok, hrun]
  congr 2
  apply List.map_congr_left
  intro x hx
  by_cases hp : x.pid.isSome
  · rw [if_pos (List.mem_filter.mpr ⟨hx, hp⟩)]
  · have hnm : x ∉ w.jobs.filter (fun j => j.pid.isSome) := fun h => hp (List.mem_filter.mp h).2
    rw [if_neg hnm]
    unfold supervised
    cases h : x.pid with
    | none => rfl
    | some p => rw [h] at hp; exact absurd rfl hp

/-- Jobs: running with a live process; running with a dead one; being cancelled; waiting. -/
def wSup : World :=
  { jobs := [{ id := 1, payload := { sample := "a", method := [] }, pid := some 11, status := .r, submittedAt := 0 },
             { id := 2, payload := { sample := "a", method := [] }, pid := some 12, status := .r, submittedAt := 1 },
             { id := 3, payload := { sample := "a", method := [] }, pid := some 13, status := .rd, submittedAt := 2,
               jobpath := some "j", respath := some "r" },
             { id := 4, payload := { sample := "a", method := [] }, submittedAt := 3 }],
    jobSeq := 4, procs := [⟨11, 1, false⟩, ⟨12, 1, true⟩, ⟨13, 1, false⟩, ⟨14, 13, false⟩],
    clock := 9 }

example : wSup.WF ∧ (∀ j ∈ wSup.jobs, CanEnd wSup j) ∧ Separate wSup ∧
    (wSup.jobs.map (supervised wSup)).map (·.status) = [.r, .ce, .cd, .q] := by
  refine ⟨by constructor <;> decide, ?_, ?_, by decide⟩
  · intro j hj pid _ hst _
    simp only [wSup, List.mem_cons, List.not_mem_nil, or_false] at hj
    rcases hj with rfl | rfl | rfl | rfl <;> first | (cases hst; done) | exact ⟨rfl, rfl, rfl⟩
  · intro j hj j' hj' pid' hp' hst p hp hjp
    simp only [wSup, List.mem_cons, List.not_mem_nil, or_false] at hj hj' hp
    rcases hj' with rfl | rfl | rfl | rfl <;> (first | (cases hst; done) | cases hp')
    rcases hp with rfl | rfl | rfl | rfl <;> first | decide |
      (rcases hj with rfl | rfl | rfl | rfl <;> exact absurd hjp (by decide))

/-- A job with a process but without a folder. -/
def jSup (id pid : Nat) (st : JobStatus) : Job :=
  { id := id, payload := { sample := "a", method := [] }, pid := some pid, status := st,
    submittedAt := id }

/-- **C23 is false of the code** when a live job is cancelled before it has stored its folder:
the pass raises, and the jobs after it are not supervised. -/
theorem C23_refuted : ∃ w : World, w.WF ∧ (runW manageRunning w).1 = .error .assertionError ∧
    (∃ j ∈ w.jobs, ∃ pid, j.pid = some pid ∧ j.status = .r ∧ w.alive pid = false ∧
      (runW manageRunning w).2.job? j.id = some j) := by
  exact ⟨{ wSup with jobs := [jSup 1 11 .rd, jSup 2 12 .r] }, by constructor <;> decide, rfl,
    jSup 2 12 .r, by decide, 12, rfl, rfl, by decide, rfl⟩

/-- **C23 is false of the code** for jobs in status `rd` that never had a process (see
`C07_refuted` for how a queued job gets there): they stay `rd` for ever. -/
theorem C23_refuted_stuck : ∃ (w : World) (j : Job), w.WF ∧ j ∈ w.jobs ∧ j.status = .rd ∧
    (runW manageRunning w) = (.ok (), w) := by
  exact ⟨{ jobs := [{ jSup 1 0 .rd with pid := none }], jobSeq := 1 }, { jSup 1 0 .rd with pid := none },
    by constructor <;> decide, by decide, rfl, rfl⟩

/-! ## C24, positive part -/

/-- **C24** (partial): when the job manager processes a live job that is being cancelled, the job
becomes `cd` with its process id cleared, the results are merged, and afterwards no child of its
process exists any more, while all other processes are untouched.  Missing: the process itself
(and its threads, which execute the tasks) is not ended, so the property is false
(`C24_refuted`). -/
theorem C24_children_ended_partial (w : World) (hw : w.WF) (j : Job) (hj : j ∈ w.jobs)
    (pid : Nat) (hp : j.pid = some pid) (hst : j.status = .rd) (ha : w.alive pid = true)
    (hce : CanEnd w j) :
    ∃ w', runW (manageJob j) w = (.ok (), w') ∧
      w'.job? j.id = some { j with status := .cd, pid := none, completedAt := some w.clock } ∧
      (∀ p, p ∈ w'.procs ↔ p ∈ w.procs ∧ p.parent ≠ pid) := by
  obtain ⟨m, h⟩ := run_manageJob j pid hp w (by rw [hw.job?_mem hj]; rfl)
    (fun h1 h2 => hce pid hp h1 h2)
  refine ⟨_, h, ?_, ?_⟩
  · have hv : verdict w j.status pid = some .cd := by unfold verdict; rw [if_pos hst]
    have := job?_update w j.id j.id [.status .cd, .pid none, .completedAt (some w.clock)]
    rw [hw.job?_mem hj] at this
    simp only [hv, verdictRows]
    simp only [Option.map_some, if_true] at this
    exact this
  · intro p
    simp only [if_pos (show j.status = .rd ∧ w.alive pid = true from ⟨hst, ha⟩)]
    rw [List.mem_filter]
    simp

example : ∃ j ∈ wSup.jobs, ∃ pid, j.pid = some pid ∧ j.status = .rd ∧ wSup.alive pid = true ∧
    CanEnd wSup j :=
  ⟨_, List.mem_cons_of_mem _ (List.mem_cons_of_mem _ (List.mem_cons_self ..)), 13, rfl, rfl, rfl,
    fun _ _ _ _ => ⟨rfl, rfl, rfl⟩⟩

/-! ## C25, positive part -/

/-- **C25** (partial): a job process that runs without interference (its main loop being any
program that does not write to the tables) releases exactly the pipeline it was started on: this
row loses its job, keeps its sample, and becomes ready iff the payload says so; all other rows
are untouched.  Missing: interference; if the pipeline was reset and given to another job in the
meantime, the process clears it all the same (`C25_refuted`). -/
theorem C25_releases_own_pipeline_partial (w w' : World) (id pid : Nat)
    (payload : Payload) (pip path : String) (main : P (Option Nat))
    (hm : Prog.Only (S := DB) QuietOp main)
    (hrun : runW (tomatoJob id pid payload pip path main) w = (.ok (), w')) :
    ∃ j, w.job? id = some j ∧
      w'.pips = w.pips.map (fun p => if p.name = pip then
        { p with jobid := none, ready := j.payload.unlockWhenDone } else p) := by
  have hquiet : ∀ w : World, ∃ w2, (runW main w).2 = w2 ∧ w2.pips = w.pips ∧ w2.jobs = w.jobs := by
    intro w
    refine ⟨_, rfl, ?_⟩
    have := Prog.run_only (h := exec) (S := DB) (P := QuietOp)
      (R := fun a b : World => b.pips = a.pips ∧ b.jobs = a.jobs) (fun _ => ⟨rfl, rfl⟩)
      (fun a b c h1 h2 => ⟨h2.1.trans h1.1, h2.2.trans h1.2⟩) ?_ hm w
    · exact this
    · intro o w ho
      cases o <;> try exact False.elim ho
      all_goals (try exact ⟨rfl, rfl⟩)
      · simp only [exec]; split <;> exact ⟨rfl, rfl⟩
      all_goals
        rename_i port c
        cases port with
        | none => exact ⟨rfl, rfl⟩
        | some port =>
          simp only [exec]
          first | exact ⟨rfl, rfl⟩ | (split <;> exact ⟨rfl, rfl⟩)
  have hu := fun id ps w => run_updateJobId id ps w
  have hp := fun n ps w => run_updatePip n ps w
  simp only [runW] at hu hp hrun hquiet
  simp only [tomatoJob, jobConnect, jobPaths, Prog.bind_eq, Prog.run_bind, Do.run_now,
    exec_now, Prog.andThen_ok, hu] at hrun
  cases hj : w.job? id with
  | none => rw [hj] at hrun; simp only [Prog.andThen_error] at hrun; cases hrun
  | some j =>
    refine ⟨j, rfl, ?_⟩
    rw [hj] at hrun
    simp only [Prog.andThen_ok, Prog.pure_eq, Prog.run_pure, job?_update, hj, Option.map_some,
      if_true] at hrun
    generalize hw2 : ({ w with jobs := updJobs id _ (updJobs id _ w.jobs) } : World) = w2 at hrun
    have hj2 : ∃ j2, w2.job? id = some j2 ∧ j2.payload = j.payload := by
      subst hw2
      have h := job?_update2 w id
        [.pid (some pid), .status .r, .connectedAt (some w.clock)]
        [.respath (some (resPath payload id)),
          .snappath (some s!"{payload.outPath.getD ""}/snapshot.{id}.nc"), .jobpath (some path)]
      rw [hj] at h
      exact ⟨_, h, rfl⟩
    have hp2 : w2.pips = w.pips := by subst hw2; rfl
    obtain ⟨w3, hw3, hq1, hq2⟩ := hquiet w2
    rcases hmr : Prog.run exec main w2 with ⟨ret, w3'⟩
    rw [hmr] at hw3 hrun
    simp only at hw3
    subst hw3
    cases ret with
    | error e => simp only [Prog.andThen_error] at hrun; cases hrun
    | ok ret =>
      obtain ⟨j2, hj2, hpl⟩ := hj2
      have hj3 : w3'.job? id = some j2 := by
        unfold World.job?; rw [hq2]; exact hj2
      have hid : (applyJob (applyJob j [JobParam.pid (some pid), .status .r,
          .connectedAt (some w.clock)]) [.respath (some (resPath payload id)),
          .snappath (some s!"{payload.outPath.getD ""}/snapshot.{id}.nc"),
          .jobpath (some path)]).id = id := by
        rw [applyJob_id, applyJob_id]; exact (job?_some hj).1
      simp only [Prog.andThen_ok, jobFinish, Prog.bind_eq, Prog.run_bind, Do.run_now, exec_now,
        Do.run_merge, hid] at hrun
      rcases hmg : exec (.merge id _ _) w3' with ⟨r, w4⟩
      rw [hmg] at hrun
      cases r with
      | error e => simp only [Prog.andThen_error] at hrun; cases hrun
      | ok _ =>
        have h4 : w4.pips = w3'.pips ∧ w4.jobs = w3'.jobs := by
          have h := fun a b => exec_merge_tables id a b w3'
          have h' : ∀ a b r, exec (.merge id a b) w3' = (r, w4) →
              w4.pips = w3'.pips ∧ w4.jobs = w3'.jobs := by
            intro a b r e
            have := h a b
            rw [e] at this
            exact this
          exact h' _ _ _ hmg
        have hj4 : w4.job? id = some j2 := by
          unfold World.job?; rw [h4.2]; exact hj3
        simp only [Prog.andThen_ok, hu, hj4, hp, Prog.pure_eq, Prog.run_pure] at hrun
        cases hrun
        simp only [h4.1, hq1, hp2, updPips]
        apply List.map_congr_left
        intro x _
        split
        · have : (applyJob j2 [.status (if ret.isNone = true then .c else .ce),
              .completedAt (some w3'.clock)]).payload = j2.payload := rfl
          rw [this, hpl]
          rfl
        · rfl

/-- A job waiting to connect, on the first of two occupied pipelines. -/
def wRel : World :=
  { jobs := [{ id := 1, payload := { sample := "a", method := [], unlockWhenDone := true },
               status := .qw, submittedAt := 0 }],
    jobSeq := 1, clock := 7,
    pips := [⟨"p", false, some 1, some "a"⟩, ⟨"q", false, some 2, some "b"⟩] }

example : runW (tomatoJob 1 50 { sample := "a", method := [] } "p" "jobs/1" (pure none)) wRel =
      (.ok (), (runW (tomatoJob 1 50 { sample := "a", method := [] } "p" "jobs/1" (pure none)) wRel).2) ∧
    (runW (tomatoJob 1 50 { sample := "a", method := [] } "p" "jobs/1" (pure none)) wRel).2.pips =
      [⟨"p", true, none, some "a"⟩, ⟨"q", false, some 2, some "b"⟩] := by
  constructor <;> rfl

end Props

end Tomato
