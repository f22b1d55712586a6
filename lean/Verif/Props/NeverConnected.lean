import Verif.Props.CrashLaunch
import Verif.Props.PipReset
import Verif.Props.Supervision

/-!
# Jobs whose process ends before it has connected (C113)

`manage_running` (job.py:146-208) has branches for jobs which were launched and have not connected
within ten seconds, but it asks the database for jobs with a process id only (job.py:159), so that
these branches are never executed.
-/

namespace Tomato

namespace Props

variable {st : String}

/-! ## The specification -/

/-- The job has neither ended by itself nor been recorded as failed or running. -/
def NoOutcome (j : Job) : Prop := j.status ≠ .r ∧ j.status ≠ .c ∧ j.status ≠ .ce

/-- The process of the job has not connected. -/
def Unconnected (j : Job) : Prop := j.pid = none ∧ j.connectedAt = none

/-! ## Proof -/

/-- The folder of the job is there, and its rows say that its process has not connected. -/
structure Silent (st : String) (id : Nat) (w : World) : Prop where
  folder : (st, id) ∈ w.jobDirs
  job : ∀ j ∈ w.jobs, j.id = id → Unconnected j ∧ NoOutcome j

/-- Operations that keep it so. -/
def SilentOp (id : Nat) : Op → Prop
  | .popenJob i _ => i ≠ id
  | .updateJob i ps => i = id → ∀ j : Job, Unconnected j ∧ NoOutcome j →
      Unconnected (applyJob j ps) ∧ NoOutcome (applyJob j ps)
  | .insertJob j => Unconnected j ∧ NoOutcome j
  | _ => True

theorem silentOp_quiet (id : Nat) : ∀ o, QuietOp o → SilentOp id o := by
  intro o ho
  cases o <;> first | exact ho.elim | trivial

theorem silent_exec {id : Nat} (o : Op) (w : World) (h : Silent st id w) (ho : SilentOp id o) :
    Silent st id (exec o w).2 := by
  refine ⟨?_, ?_⟩
  · rcases exec_jobDirs o w with e | ⟨s, j, -, -, e⟩ <;> rw [e]
    · exact h.folder
    · exact List.mem_cons_of_mem _ h.folder
  · intro j hj hid
    rcases exec_jobs o w with e | ⟨j0, rfl, e⟩ | ⟨i, ps, rfl, e⟩
    · rw [e] at hj; exact h.job j hj hid
    · rw [e] at hj
      rcases List.mem_append.mp hj with hj | hj
      · exact h.job j hj hid
      · rw [List.mem_singleton.mp hj]; exact ho
    · rw [e] at hj
      obtain ⟨j0, hj0, rfl⟩ := List.mem_map.mp hj
      split at hid
      · next hi =>
        rw [if_pos hi]
        have hid0 : j0.id = id := by rw [applyJob_id] at hid; exact hid
        exact ho (hi.symm.trans hid0) j0 (h.job j0 hj0 hid0)
      · next hi => rw [if_neg hi]; exact h.job j0 hj0 hid

theorem silent_status {id : Nat} (i : Nat) (x : JobStatus) (h : x ≠ .r ∧ x ≠ .c ∧ x ≠ .ce) :
    SilentOp id (.updateJob i [.status x]) := by
  rintro - j ⟨h1, -⟩
  exact ⟨h1, h⟩

theorem abides_silent_pass {id : Nat} (d : Daemon) (hd : d.settings.storage = st) :
    Abides (Silent st id) (SilentOp id) (fun _ => True) (jobManagerPass d) := by
  have hq := silentOp_quiet id
  unfold jobManagerPass
  refine abides_bind (Q := fun _ => True) ?_ (fun _ _ => ?_)
  · unfold manageRunning
    refine abides_bind (Q := fun l => ∀ j ∈ l, j.id ≠ id) ?_ (fun l hl => ?_)
    · refine ⟨trivial, fun w hw => ?_⟩
      simp only [exec]
      intro j hj hid
      obtain ⟨h1, h2⟩ := List.mem_filter.mp hj
      rw [(hw.job j h1 hid).1.1] at h2
      cases h2
    · refine abides_forEach fun j hj => abides_of_only ?_
      exact only_manageJob hq (fun _ => trivial) (fun _ _ _ => trivial) j
        (fun _ _ _ e => absurd e (hl j hj))
  refine abides_bind (abides_of_only (only_checkQueued hq
    (fun i => silent_status i .qw (by decide)) _)) (fun m _ => ?_)
  unfold actionQueued
  refine abides_bind (abides_of_only ((Do.only_pipsWhere _).mpr trivial)) (fun free _ => ?_)
  generalize sortIds (Dict.keys m) = ids
  generalize Dict.ofList (free.map (fun p => (p.name, p))) = avail
  induction ids generalizing avail with
  | nil => trivial
  | cons i ids ih =>
    unfold actionLoop
    refine abides_bind (abides_of_allow (allow_getJobId hq i)) (fun job hjob => ?_)
    cases h : Dict.get? m i with
    | none => trivial
    | some ns =>
      refine abides_bind (Q := fun _ => True) ?_ (fun _ _ => ih _)
      by_cases hi : i = id
      · subst hi
        clear h
        induction ns with
        | nil => trivial
        | cons n ns ih2 =>
          unfold assignJob
          split
          · exact ih2
          · split
            · exact ih2
            · refine ⟨trivial, fun w hw => ?_⟩
              have : (d.settings.storage, i) ∈ w.jobDirs := hd ▸ hw.1
              simp only [exec, this, if_true]
              trivial
      · refine abides_of_only (only_assignJob hq d i job trivial (fun _ => trivial)
          (fun n => ?_) (fun _ e => absurd e hi) ns avail)
        show job.id ≠ id
        rw [hjob]; exact hi

theorem abides_silent_cmd {id : Nat} (c : Cmd) (hc : ∀ l, c.launch = some l → l.jobid ≠ id) :
    Abides (Silent st id) (SilentOp id) (fun _ => True) c.prog := by
  have hgen : (∀ o, c.writes o → SilentOp id o) →
      Abides (Silent st id) (SilentOp id) (fun _ => True) c.prog := by
    intro h
    refine abides_of_allow (c.allow_ops.mono ?_ (fun _ h => h))
    rintro o (ho | ho)
    · exact silentOp_quiet _ o ho
    · exact h o ho
  cases c with
  | tomatoJob j i pl pip path m hm =>
    have h1 := hc _ rfl
    refine hgen (fun o ho => ?_)
    cases o <;> first | exact ho.elim | trivial | skip
    rintro rfl; exact absurd ho.1.symm h1
  | submit f m d c =>
    refine hgen (fun o ho => ?_)
    cases o <;> first | exact ho.elim | trivial | skip
    simp only [Cmd.writes] at ho
    rw [ho]; exact ⟨⟨rfl, rfl⟩, by simp [NoOutcome]⟩
  | cancel ids =>
    refine hgen (fun o ho => ?_)
    cases o <;> first | exact ho.elim | skip
    obtain ⟨_, rfl | rfl⟩ := ho <;> exact silent_status _ _ (by decide)
  | _ =>
    refine hgen (fun o ho => ?_)
    cases o <;> first | exact ho.elim | trivial

/-- Nobody who was launched for the job is still going to start. -/
def NoLateJob (id : Nat) (s : Sys) : Prop :=
  ∀ l : Launch, l.jobid = id → s.w.launches.count l ≤ s.started.count l

theorem noLateJob_exec {id : Nat} {w : World} {started : List Launch} {o : Op}
    (h : ∀ l : Launch, l.jobid = id → w.launches.count l ≤ started.count l) (ho : SilentOp id o) :
    ∀ l : Launch, l.jobid = id → (exec o w).2.launches.count l ≤ started.count l := by
  intro l hl
  rcases exec_launches o w with e | ⟨i, m, rfl, e⟩ <;> rw [e]
  · exact h l hl
  · rw [List.count_append, List.count_singleton]
    have : (⟨i, m⟩ : Launch) ≠ l := by
      rintro rfl
      exact ho hl
    simp only [beq_iff_eq, this, if_false]
    exact h l hl

theorem silent_step {id : Nat} {s s' : Sys}
    (h0 : SysAbides (Silent st id) (SilentOp id) s) (hn : NoLateJob id s) (h : Step st s s') :
    SysAbides (Silent st id) (SilentOp id) s' ∧ NoLateJob id s' := by
  obtain ⟨a, ha⟩ := h
  have hK : ∀ c, a = .spawn c → ∀ l, c.launch = some l → l.jobid ≠ id := by
    rintro c rfl l hl e
    simp only [act, hl] at ha
    split at ha
    · next hlt => have := hn l e; omega
    · cases ha
  refine ⟨sysAbides_step (K := fun c => ∀ l, c.launch = some l → l.jobid ≠ id)
    silent_exec (fun e w hw => ?_) abides_silent_pass (fun c hc => abides_silent_cmd c hc) h0 ha hK, ?_⟩
  · obtain ⟨e1, -, -, -, e5, -⟩ := e.apply_eq w
    exact ⟨by simpa only [e5] using hw.folder, by simpa only [e1] using hw.job⟩
  · cases a with
    | jmStart d =>
      simp only [act] at ha
      split at ha <;> cases ha; exact hn
    | jmStep =>
      simp only [act] at ha
      split at ha
      · next p w hp =>
        unfold stepProg at hp
        split at hp
        · next o k hk =>
          cases hp; cases ha
          have := h0.jm
          rw [hk] at this
          exact noLateJob_exec hn this.1
        · cases hp
      · cases ha
    | jmKill => cases ha; exact hn
    | spawn c =>
      simp only [act] at ha
      split at ha
      · cases ha; exact hn
      · split at ha
        · cases ha
          intro l hl
          have := hn l hl
          simp only [List.count_append]
          omega
        · cases ha
    | step i =>
      simp only [act] at ha
      split at ha
      · cases ha
      · next p hp =>
        split at ha
        · next p' w hs =>
          unfold stepProg at hs
          split at hs
          · next o k =>
            cases hs; cases ha
            exact noLateJob_exec hn (h0.others _ (List.mem_of_getElem? hp)).1
          · cases hs
        · cases ha
    | kill i => cases ha; exact hn
    | env e =>
      cases ha
      intro l hl
      rw [(e.apply_eq s.w).2.2.2.2.2]
      exact hn l hl

/-- **C113** fails for ever: suppose the process launched for a job has ended before it has connected,
and nothing else is under way.  Then in every continuation, whatever anybody does and however much
time passes, the job is never recorded as failed (nor as running or complete), and no process
is started for it again. -/
theorem C113_forever {s s' : Sys} (hj : s.jm.ended = true) (ho : ∀ p ∈ s.others, p.ended = true)
    {id : Nat} (hf : (st, id) ∈ s.w.jobDirs)
    (hstart : ∀ l ∈ s.w.launches, l.jobid = id → s.w.launches.count l ≤ s.started.count l)
    (hjob : ∀ j ∈ s.w.jobs, j.id = id → Unconnected j ∧ NoOutcome j) (h : Steps st s s') :
    (∀ j ∈ s'.w.jobs, j.id = id → Unconnected j ∧ NoOutcome j) ∧
      ∀ l : Launch, l.jobid = id → s'.w.launches.count l ≤ s'.started.count l := by
  have key : SysAbides (Silent st id) (SilentOp id) s' ∧ NoLateJob id s' := by
    induction h with
    | refl =>
      refine ⟨⟨⟨hf, hjob⟩, ?_, fun p hp => ?_⟩, fun l hl => ?_⟩
      · cases hp : s.jm with
        | pure a => trivial
        | raise e => trivial
        | op o k => rw [hp] at hj; exact absurd hj (by simp [Prog.ended])
      · have := ho p hp
        cases p with
        | pure a => trivial
        | raise e => trivial
        | op o k => exact absurd this (by simp [Prog.ended])
      · by_cases hmem : l ∈ s.w.launches
        · exact hstart l hmem hl
        · rw [List.count_eq_zero.mpr hmem]; exact Nat.zero_le _
    | tail _ hst ih => exact silent_step ih.1 ih.2 hst
  exact ⟨key.1.inv.job, key.2⟩

/-- The process launched for job 1 has ended before it has performed any operation. -/
def sNever : Sys := after ([.spawn (okJob 1 100 "p"), .kill 5]) sLaunched

theorem sNever_reachable : Reachable "Jobs" sNever :=
  Steps.trans sLaunched_reachable (steps_after rfl)

/-- **C113** is false of the code: the process launched for job 1 ends before it has connected;
job 1 never gets an outcome, in no continuation. -/
theorem C113_refuted : ∃ s : Sys, Reachable "Jobs" s ∧ s.w.launches = [⟨1, "p"⟩] ∧
    s.started = [⟨1, "p"⟩] ∧ (∀ p ∈ s.others, p.ended = true) ∧ statusOf s 1 = some .qw ∧
    ∀ s', Steps "Jobs" s s' → ∀ j ∈ s'.w.jobs, j.id = 1 → Unconnected j ∧ NoOutcome j := by
  have ho : ∀ p ∈ sNever.others, p.ended = true := by
    have : (sNever.others.all (·.ended)) = true := rfl
    exact fun p hp => List.all_eq_true.mp this p hp
  have hl : sNever.w.launches = [⟨1, "p"⟩] := rfl
  have hs : sNever.started = [⟨1, "p"⟩] := rfl
  refine ⟨sNever, sNever_reachable, hl, hs, ho, rfl, fun s' h => ?_⟩
  refine (C113_forever rfl ho (by decide +kernel) ?_ ?_ h).1
  · intro l hm _
    rw [hl, hs]
    exact Nat.le_refl _
  · have : sNever.w.jobs.all (fun j => j.pid = none ∧ j.connectedAt = none ∧ j.status = .qw) = true := rfl
    intro j hj _
    have := List.all_eq_true.mp this j hj
    simp only [decide_eq_true_eq] at this
    exact ⟨⟨this.1, this.2.1⟩, by simp [NoOutcome, this.2.2]⟩

/-- Ten days later the pipeline manager gives the pipeline `p` back, the user marks it as ready, and
submits job 2 for the pipeline `q`, which is ready and has its sample.  The job manager starts a pass. -/
def sTenDays : Sys :=
  after ([.env (.clock (tenDays + 1)), .spawn (.pipPass dRun)] ++ run 6 7 ++
    [.spawn (.ready (some dRun) "p")] ++ run 7 3 ++
    [.spawn (.load (some dRun) "q" "t")] ++ run 8 3 ++
    [.spawn (.ready (some dRun) "q")] ++ run 9 3 ++
    [.spawn (.submit (.parsed (plS "t")) none dRun "/home")] ++ run 10 4 ++
    [.jmStart dRun] ++ jm 23) sNever

/-- **C113** is false of the code in another way: when the pipeline of such a job is free again, the
job manager tries to launch the job once more, `os.makedirs` raises `FileExistsError`, and the thread
of the job manager ends, now and after each restart of the daemon.  Job 2, whose pipeline `q` is free,
ready and has its sample, is not launched. -/
theorem C113_refuted_blocks : ∃ s s' : Sys, Reachable "Jobs" s ∧ s.jm = .raise .fileExistsError ∧
    statusOf s 1 = some .qw ∧ statusOf s 2 = some .qw ∧
    (s.w.job? 2).map (·.payload.sample) = some "t" ∧
    s.w.pip? "q" = some { name := "q", ready := true, jobid := none, sampleid := some "t" } ∧
    (∀ s'', StepsNoPass "Jobs" s s'' → s''.w.launches = [⟨1, "p"⟩]) ∧
    acts "Jobs" s ([.jmKill, .jmStart dRun] ++ jm 21) = some s' ∧
    s'.jm = .raise .fileExistsError ∧ s'.w.launches = [⟨1, "p"⟩] := by
  have hr : Reachable "Jobs" sTenDays := Steps.trans sNever_reachable (steps_after rfl)
  refine ⟨sTenDays, after ([.jmKill, .jmStart dRun] ++ jm 21) sTenDays, hr, rfl, rfl, rfl, rfl, rfl, ?_,
    ?_, rfl, rfl⟩
  · intro s'' h
    rw [(no_launch_without_manager hr rfl h).1]
    rfl
  · have h : (acts "Jobs" sTenDays ([.jmKill, .jmStart dRun] ++ jm 21)).isSome = true := rfl
    obtain ⟨s', hs⟩ := Option.isSome_iff_exists.mp h
    unfold after
    rw [hs]; rfl

/-- **C113** (`_partial`: jobs whose process has connected before it ended; see `C113_forever`,
`C113_refuted`): the next supervision pass, run alone, records the job as failed, with its time of
completion. -/
theorem C113_partial (w : World) (hw : w.WF) (hce : ∀ j ∈ w.jobs, CanEnd w j) (hsep : Separate w) :
    ∃ w', runW manageRunning w = (.ok (), w') ∧
      ∀ j ∈ w.jobs, ∀ pid, j.pid = some pid → w.alive pid = false → j.status = .r →
        ∃ j' ∈ w'.jobs, j'.id = j.id ∧ j'.status = .ce ∧ j'.pid = none ∧
          j'.completedAt = some w.clock := by
  obtain ⟨w', h1, h2, -⟩ := C23_supervision_partial w hw hce hsep
  refine ⟨w', h1, fun j hj pid hp hd hr => ⟨supervised w j, ?_, ?_⟩⟩
  · rw [h2]; exact List.mem_map_of_mem hj
  · simp [supervised, hp, hr, hd]

/-- Job 1 has connected and its process has ended; `C113_partial` applies. -/
def sDied : Sys := after ([.spawn (okJob 1 100 "p"), .env (.procs [⟨100, 1, false⟩])] ++ run 5 3 ++
  [.kill 5, .env (.procs [])]) sLaunched

example : Reachable "Jobs" sDied ∧ sDied.w.WF ∧ (∀ j ∈ sDied.w.jobs, CanEnd sDied.w j) ∧
    Separate sDied.w ∧ ∃ j ∈ sDied.w.jobs, j.pid = some 100 ∧ sDied.w.alive 100 = false ∧
      j.status = .r := by
  have hr : Reachable "Jobs" sDied := Steps.trans sLaunched_reachable (steps_after rfl)
  have hj : ∃ j, sDied.w.jobs = [j] ∧ j.pid = some 100 ∧ j.status = .r := ⟨_, rfl, rfl, rfl⟩
  obtain ⟨j, hj, h1, h2⟩ := hj
  have hp : sDied.w.procs = [] := rfl
  refine ⟨hr, reachable_wf hr, ?_, ?_, j, by rw [hj]; simp, h1, rfl, h2⟩
  · intro j' hj' pid _ hs
    rw [hj, List.mem_singleton] at hj'
    subst hj'
    rw [h2] at hs; cases hs
  · intro j' _ j'' _ pid' _ _ p hpm
    rw [hp] at hpm; cases hpm

end Props
end Tomato
