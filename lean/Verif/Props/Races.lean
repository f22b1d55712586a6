import Verif.Props.System
import Verif.Props.Ketchup
import Verif.SparingEngine

/-!
# Races between commands, managers and job processes: C10, C13, C24, C25, C70 (negative parts)
and the positive part of C10
-/

namespace Tomato.Props

/-- The state after a list of actions. -/
def after (as : List Act) (s : Sys) : Sys := (acts "Jobs" s as).getD s

theorem steps_after {as : List Act} {s : Sys} (h : (acts "Jobs" s as).isSome = true) :
    Steps "Jobs" s (after as s) := by
  obtain ⟨s', hs⟩ := Option.isSome_iff_exists.mp h
  unfold after
  rw [hs]
  exact steps_of_acts hs

/-- A job process whose tasks all succeed. -/
def okJob (id pid : Nat) (pip : String) : Cmd :=
  .tomatoJob id pid (plS "s") pip "jobs/folder" (.pure none) trivial

/-- The status of a job. -/
def statusOf (s : Sys) (id : Nat) : Option JobStatus := (s.w.job? id).map (·.status)
/-- The job assigned to a pipeline. -/
def jobOf (s : Sys) (n : String) : Option (Option Nat) := (s.w.pip? n).map (·.jobid)
/-- The sample on a pipeline. -/
def sampleOf (s : Sys) (n : String) : Option (Option String) := (s.w.pip? n).map (·.sampleid)

/-- Job 1 has been launched on `p`, the pass of the job manager is over. -/
def sLaunched : Sys := after ([.jmStart dRun] ++ jm 21) sSetup

theorem sLaunched_reachable : Reachable "Jobs" sLaunched :=
  Steps.trans sSetup_reachable (steps_after rfl)

/-- Job 1 is running as process 100 (program number 5 of the others); all tasks are done, the
results are not yet merged. -/
def sRunning : Sys :=
  after ([.spawn (okJob 1 100 "p"), .env (.procs [⟨100, 1, false⟩])] ++ run 5 5) sLaunched

theorem sRunning_reachable : Reachable "Jobs" sRunning :=
  Steps.trans sLaunched_reachable (steps_after rfl)

/-! ## C10 -/

/-- Only launched jobs have a process id. -/
theorem pid_launched {st : String} {s : Sys} (hr : Reachable st s) :
    ∀ j ∈ s.w.jobs, j.pid.isSome → j.id ∈ s.w.launches.map (·.jobid) := by
  unfold Reachable at hr
  induction hr with
  | refl => intro j hj; cases hj
  | @tail s1 s2 h1 h2 ih =>
    have hmono : ∀ o, ∀ i ∈ s1.w.launches.map (·.jobid),
        i ∈ (exec o s1.w).2.launches.map (·.jobid) := by
      intro o i hi
      rw [List.mem_map] at hi ⊢
      obtain ⟨l, hl, rfl⟩ := hi
      exact ⟨l, launches_mono o s1.w l hl, rfl⟩
    have frame : ∀ o, (∀ i ps, o = .updateJob i ps → i ∈ s1.w.launches.map (·.jobid) ∨
          ∀ j : Job, (applyJob j ps).pid.isSome → j.pid.isSome) →
        (∀ j0, o = .insertJob j0 → j0.pid = none) →
        ∀ j ∈ (exec o s1.w).2.jobs, j.pid.isSome →
          j.id ∈ (exec o s1.w).2.launches.map (·.jobid) := by
      intro o hu hi j hj hp
      apply hmono
      rcases exec_jobs o s1.w with h | ⟨j0, rfl, h⟩ | ⟨i, ps, rfl, h⟩ <;> rw [h] at hj
      · exact ih j hj hp
      · rcases List.mem_append.mp hj with hj | hj
        · exact ih j hj hp
        · rw [List.mem_singleton.mp hj] at hp
          simp only [hi j0 rfl] at hp
          cases hp
      · simp only [updJobs, List.mem_map] at hj
        obtain ⟨j1, hj1, rfl⟩ := hj
        split at hp
        · next hid =>
          rw [if_pos hid, applyJob_id]
          rcases hu i ps rfl with h | h
          · rw [hid]; exact h
          · exact ih j1 hj1 (h j1 hp)
        · next hid =>
          rw [if_neg hid]
          exact ih j1 hj1 hp
    rcases step_split h1 h2 with h | ⟨o, ho, h⟩
    · cases h with
      | same h => rw [h]; exact ih
      | env e h => rw [h, (e.apply_eq s1.w).1, (e.apply_eq s1.w).2.2.2.2.2]; exact ih
      | cmd c hc o ho h =>
        rw [h]
        refine frame o ?_ ?_
        · rintro i ps rfl
          rcases ho with ho | ho
          · cases ho
          · cases c <;> try exact False.elim ho
            · rcases ho with ⟨-, rfl | rfl⟩ <;> exact .inr (fun j h => h)
            · left
              rw [ho.1]
              exact List.mem_map.mpr ⟨_, hc _ rfl, rfl⟩
        · rintro j0 rfl
          rcases ho with ho | ho
          · cases ho
          · cases c <;> try exact False.elim ho
            simp only [Cmd.writes] at ho
            rw [ho]
    · rw [h]
      refine frame o ?_ ?_
      · rintro i ps rfl
        rcases ho with ho | ho
        · cases ho
        · rcases ho with rfl | ⟨t, rfl⟩ | ⟨a, t, -, rfl⟩
          · exact .inr (fun j h => h)
          · exact .inr (fun j h => h)
          · exact .inr (fun j h => by cases h)
      · rintro j0 rfl
        rcases ho with ho | ho <;> cases ho

/-- **C10** (partial): a waiting job (`q` or `qw`, not launched yet) that is cancelled while the
job manager is between two passes is never launched, never gets a process, and never returns to
another status than `cd` (or `rd`, which a later cancellation of a list of jobs may wrongly write,
see `C07_refuted`), whatever happens afterwards.  Missing: cancellation during a pass of the job
manager, where the property is false (`C10_refuted`). -/
theorem C10_cancelled_never_started_partial {st : String} {s s' : Sys} (hr : Reachable st s)
    (hjm : s.jm.ended = true) (j : Job) (hj : j ∈ s.w.jobs)
    (hq : j.status = .q ∨ j.status = .qw) (hnl : ∀ l ∈ s.w.launches, l.jobid ≠ j.id)
    (h : Steps st { s with w := (runW (cancel [j.id]) s.w).2 } s') :
    (∀ l ∈ s'.w.launches, l.jobid ≠ j.id) ∧
    ∃ j', s'.w.job? j.id = some j' ∧ (j'.status = .cd ∨ j'.status = .rd) ∧ j'.pid = none := by
  have hwf := reachable_wf hr
  have hpid : j.pid = none := by
    cases hp : j.pid with
    | none => rfl
    | some x =>
      have := pid_launched hr j hj (by rw [hp]; rfl)
      obtain ⟨l, hl, he⟩ := List.mem_map.mp this
      exact absurd he (hnl l hl)
  obtain ⟨rep, w1, js, hrun, -, -, hcd, -⟩ := C07_cancel_one_partial s.w hwf j hj
    (by rcases hq with h | h <;> rw [h] <;> decide)
  obtain ⟨⟨f, hf, -⟩, -⟩ := C08_cancel_touches_only_listed s.w [j.id]
  have hw1 : w1.WF := by have := runW_wf (cancel [j.id]) s.w hwf; rw [hrun] at this; exact this
  rw [hrun] at hf h
  simp only at hf h
  have hl1 : w1.launches = s.w.launches := by rw [hf]
  have hrow := (hcd hq).1
  have hsh : Shelved j.id w1 := by
    refine ⟨hw1, ⟨_, (job?_some hrow).2, rfl⟩, ?_, ?_⟩
    · intro x hx hid
      have := hw1.job?_mem hx
      rw [hid, hrow] at this
      cases this
      exact ⟨.inl rfl, hpid⟩
    · rw [hl1]
      intro hm
      obtain ⟨l, hl, he⟩ := List.mem_map.mp hm
      exact hnl l hl he
  have hsafe : Prog.Safe (S := DB) exec (ShelfRel j.id) (ShelfRel j.id) (fun _ _ => True) s.jm w1 := by
    cases hk : s.jm with
    | pure a => trivial
    | raise e => trivial
    | op o k => rw [hk] at hjm; cases hjm
  obtain ⟨-, hfin, -⟩ := engine (I := Shelved j.id) (R := ShelfRel j.id) (G := ShelfRel j.id)
    (fun _ _ _ _ h => h) (fun _ h => h) (fun _ _ _ h => h)
    (fun w w' hI ho => ⟨shelved_other hI ho, shelved_other hI ho⟩)
    (fun d _ w _ => safe_pass_shelved j.id d w)
    (s := { s with w := w1 })
    (fun p hp => (reachable_others hr p hp).mono (by simp only; rw [hl1]; exact fun l h => h))
    hsh hsafe h
  refine ⟨?_, ?_⟩
  · intro l hl he
    exact hfin.2.2.2 (List.mem_map.mpr ⟨l, hl, he⟩)
  · obtain ⟨j', hj', hid⟩ := hfin.2.1
    refine ⟨j', ?_, hfin.2.2.1 j' hj' hid⟩
    rw [← hid]; exact hfin.1.job?_mem hj'

/-- The hypotheses of `C10_cancelled_never_started_partial` hold right after submission, with a
ready pipeline waiting for the job. -/
example : Reachable "Jobs" sSetup ∧ sSetup.jm.ended = true ∧ sSetup.w.launches = [] ∧
    statusOf sSetup 1 = some .q ∧
    Steps "Jobs" { sSetup with w := (runW (cancel [1]) sSetup.w).2 }
      (after ([.jmStart dRun] ++ jm 3) { sSetup with w := (runW (cancel [1]) sSetup.w).2 }) :=
  ⟨sSetup_reachable, rfl, rfl, rfl, steps_after rfl⟩

/-- **C10**, once settled: however it came to that, if between two passes of the job manager a job which has not been
launched is cancelled (`cd`, or `rd` written by a cancellation of a list), it is never launched afterwards.  So only the
pass during which the job is cancelled can undo it. -/
theorem C10_settled {st : String} {s s' : Sys} (hr : Reachable st s) (hjm : s.jm.ended = true) (j : Job)
    (hj : j ∈ s.w.jobs) (hc : j.status = .cd ∨ j.status = .rd) (hnl : ∀ l ∈ s.w.launches, l.jobid ≠ j.id)
    (h : Steps st s s') :
    (∀ l ∈ s'.w.launches, l.jobid ≠ j.id) ∧
    ∃ j', s'.w.job? j.id = some j' ∧ (j'.status = .cd ∨ j'.status = .rd) ∧ j'.pid = none := by
  have hwf := reachable_wf hr
  have hpid : j.pid = none := by
    cases hp : j.pid with
    | none => rfl
    | some x =>
      have := pid_launched hr j hj (by rw [hp]; rfl)
      obtain ⟨l, hl, he⟩ := List.mem_map.mp this
      exact absurd he (hnl l hl)
  have hsh : Shelved j.id s.w := by
    refine ⟨hwf, ⟨j, hj, rfl⟩, ?_, ?_⟩
    · intro x hx hid
      have := hwf.job?_mem hx
      rw [hid, hwf.job?_mem hj] at this
      cases this
      exact ⟨hc, hpid⟩
    · intro hm
      obtain ⟨l, hl, he⟩ := List.mem_map.mp hm
      exact hnl l hl he
  have hsafe : Prog.Safe (S := DB) exec (ShelfRel j.id) (ShelfRel j.id) (fun _ _ => True) s.jm s.w := by
    cases hk : s.jm with
    | pure a => trivial
    | raise e => trivial
    | op o k => rw [hk] at hjm; cases hjm
  obtain ⟨-, hfin, -⟩ := engine (I := Shelved j.id) (R := ShelfRel j.id) (G := ShelfRel j.id)
    (fun _ _ _ _ h => h) (fun _ h => h) (fun _ _ _ h => h)
    (fun w w' hI ho => ⟨shelved_other hI ho, shelved_other hI ho⟩)
    (fun d _ w _ => safe_pass_shelved j.id d w) (reachable_others hr) hsh hsafe h
  refine ⟨?_, ?_⟩
  · intro l hl he
    exact hfin.2.2.2 (List.mem_map.mpr ⟨l, hl, he⟩)
  · obtain ⟨j', hj', hid⟩ := hfin.2.1
    refine ⟨j', ?_, hfin.2.2.1 j' hj' hid⟩
    rw [← hid]; exact hfin.1.job?_mem hj'

/-- The hypotheses of `C10_settled` hold for a job cancelled at the beginning of a pass, when this is over. -/
example : ∃ s, Reachable "Jobs" s ∧ s.jm.ended = true ∧ statusOf s 1 = some .cd ∧ s.w.launches = [] :=
  ⟨after ([.jmStart dRun, .spawn (.cancel [1])] ++ run 5 3 ++ jm 3) sSetup,
    Steps.trans sSetup_reachable (steps_after rfl), rfl, rfl, rfl⟩

/-- **C10 is false of the code**: `action_queued` does not look at the status again.  A waiting
job (`qw`) is cancelled during a pass of the job manager (status `cd`, success reported); the job
manager then launches it, and it runs. -/
theorem C10_refuted : ∃ s1 s2 s3 : Sys, Reachable "Jobs" s1 ∧ Steps "Jobs" s1 s2 ∧
    Steps "Jobs" s2 s3 ∧ statusOf s1 1 = some .qw ∧ s1.w.launches = [] ∧
    statusOf s2 1 = some .cd ∧ s2.w.launches = [] ∧
    s3.w.launches = [⟨1, "p"⟩] ∧ statusOf s3 1 = some .r := by
  refine ⟨after ([.jmStart dRun] ++ jm 13) sSetup,
    after ([.spawn (.cancel [1])] ++ run 5 3) (after ([.jmStart dRun] ++ jm 13) sSetup),
    after (jm 8 ++ [.spawn (okJob 1 100 "p")] ++ run 6 3)
      (after ([.spawn (.cancel [1])] ++ run 5 3) (after ([.jmStart dRun] ++ jm 13) sSetup)),
    Steps.trans sSetup_reachable (steps_after rfl), steps_after rfl, steps_after rfl,
    ?_, ?_, ?_, ?_, ?_, ?_⟩ <;> rfl

/-- The pipeline `p` is empty, job 1 is queued. -/
def sEjected : Sys := after ([.spawn (.eject (some dRun) "p")] ++ run 5 3) sSetup

/-- The job manager has listed the queued jobs. -/
def sMidPass : Sys := after ([.jmStart dRun] ++ jm 2) sEjected

/-- Job 1 has been cancelled in the meantime; the pass goes on to its end. -/
def sUndone : Sys := after (jm 12) (after ([.spawn (.cancel [1])] ++ run 6 3) sMidPass)

/-- **C10 is false of the code**, too: `check_queued` does not look at the status again either.  A queued job (`q`) is
cancelled during a pass of the job manager (status `cd`, success reported); the job manager then writes `qw` over it.
The pass ends, the cancellation has been undone; when a pipeline gets ready, a later pass launches the job. -/
theorem C10_refuted_undone : ∃ s1 s2 s3 s4 : Sys, Reachable "Jobs" s1 ∧ Steps "Jobs" s1 s2 ∧
    Steps "Jobs" s2 s3 ∧ Steps "Jobs" s3 s4 ∧ statusOf s1 1 = some .q ∧
    statusOf s2 1 = some .cd ∧ s2.w.launches = [] ∧
    s3.jm.ended = true ∧ statusOf s3 1 = some .qw ∧ s3.w.launches = [] ∧ s4.w.launches = [⟨1, "p"⟩] := by
  refine ⟨sMidPass, after ([.spawn (.cancel [1])] ++ run 6 3) sMidPass, sUndone,
    after ([.spawn (.load (some dRun) "p" "s")] ++ run 7 3 ++ [.spawn (.ready (some dRun) "p")] ++ run 8 3 ++
      [.jmStart dRun] ++ jm 16) sUndone, ?_, steps_after ?_, steps_after ?_, steps_after ?_, ?_, ?_, ?_, ?_, ?_, ?_, ?_⟩
  · exact Steps.trans sSetup_reachable (Steps.trans (steps_after rfl) (steps_after rfl))
  all_goals decide +kernel

/-! ## C13 -/

/-- **C13 is false of the code under interleaving**: `pipeline_eject` reads the row and updates it
later.  It reads a free pipeline, the job manager assigns job 1, and then the sample is removed
although the job is assigned (`eject` reports success). -/
theorem C13_refuted_interleaved : ∃ s1 s2 : Sys, Reachable "Jobs" s1 ∧ Steps "Jobs" s1 s2 ∧
    jobOf s1 "p" = some (some 1) ∧ sampleOf s1 "p" = some (some "s") ∧
    jobOf s2 "p" = some (some 1) ∧ sampleOf s2 "p" = some none := by
  refine ⟨after ([.spawn (.eject (some dRun) "p")] ++ run 5 1 ++ [.jmStart dRun] ++ jm 21) sSetup,
    after (run 5 2) (after ([.spawn (.eject (some dRun) "p")] ++ run 5 1 ++ [.jmStart dRun] ++
      jm 21) sSetup),
    Steps.trans sSetup_reachable (steps_after rfl), steps_after rfl, ?_, ?_, ?_, ?_⟩ <;> rfl

/-! ## C22 -/

/-- **C22 is false of the code**: the job manager reads the running job, the job finishes (`c`)
and its process ends, and the job manager then finds the process gone and writes `ce`. -/
theorem C22_refuted : ∃ s1 s2 : Sys, Reachable "Jobs" s1 ∧ Steps "Jobs" s1 s2 ∧
    statusOf s1 1 = some .c ∧ statusOf s2 1 = some .ce := by
  refine ⟨after ([.jmStart dRun] ++ jm 1 ++ run 5 6 ++ [.env (.procs [])]) sRunning,
    after (jm 4) (after ([.jmStart dRun] ++ jm 1 ++ run 5 6 ++ [.env (.procs [])]) sRunning),
    Steps.trans sRunning_reachable (steps_after rfl), steps_after rfl, ?_, ?_⟩ <;> rfl

/-- Steps in which nobody cancels the job. -/
inductive StepsSparing (id : Nat) (st : String) : Sys → Sys → Prop
  | refl (s : Sys) : StepsSparing id st s s
  | tail {s s' s'' : Sys} (a : Act) (ha : ∀ ids, a = .spawn (.cancel ids) → id ∉ ids) :
      StepsSparing id st s s' → act st s' a = some s'' → StepsSparing id st s s''

theorem StepsSparing.steps {id : Nat} {st : String} {s s' : Sys} (h : StepsSparing id st s s') :
    Steps st s s' := by
  induction h with
  | refl => exact .refl _
  | tail a _ _ h ih => exact .tail ih ⟨a, h⟩

/-- **C22** (partial): a job that is finished (`c`, `cd` or `ce`), in a quiet moment (its process
has started and ended, no command and no pass of the job manager is half way), keeps its status
in every execution from then on in which nobody cancels it.  Missing: moments in which the job
manager or the job's process is half way (there it is false: `C22_refuted`, `C24_refuted`), and
cancellations of lists (false: `C09_refuted`). -/
theorem C22_finished_stays_partial {st : String} {s s' : Sys} (hr : Reachable st s)
    (hjm : s.jm.ended = true) (hothers : ∀ p ∈ s.others, Prog.ended p = true) (j : Job)
    (hj : j ∈ s.w.jobs) (hf : j.status.final = true)
    (hst : ∀ l ∈ s.w.launches, l.jobid = j.id → l ∈ s.started)
    (h : StepsSparing j.id st s s') :
    ∃ j', s'.w.job? j.id = some j' ∧ j'.status = j.status := by
  have hwf := reachable_wf hr
  have hK : ∃ c : Cmd, Spares j.id c ∧ c.launch = none :=
    ⟨.search "", ⟨by rintro ids ⟨⟩, by rintro l ⟨⟩⟩, rfl⟩
  have key : (∀ p ∈ s'.others, FromCmdK (Spares j.id) s'.w p) ∧ HasStatus j.id j.status s'.w ∧
      (∀ l ∈ s'.w.launches, l.jobid = j.id → l ∈ s'.started) ∧
      Prog.Safe (S := DB) exec (StatusRely j.id j.status) (StatusRel j.id j.status)
        (fun _ _ => True) s'.jm s'.w := by
    induction h with
    | refl =>
      refine ⟨?_, ⟨hwf, ⟨j, hj, rfl⟩, ?_⟩, hst, ?_⟩
      · intro p hp
        have := hothers p hp
        obtain ⟨c, h1, h2⟩ := hK
        refine ⟨c, h1, by rw [h2]; rintro l ⟨⟩, ?_⟩
        cases p with
        | pure a => trivial
        | raise e => trivial
        | op o k => cases this
      · intro x hx hid
        have h1 := hwf.job?_mem hx
        have h2 := hwf.job?_mem hj
        rw [hid, h2] at h1
        cases h1; rfl
      · cases hk : s.jm with
        | pure a => trivial
        | raise e => trivial
        | op o k => rw [hk] at hjm; cases hjm
    | @tail s1 s2 a ha h1 h2 ih =>
      obtain ⟨ho, hI, hsta, hsafe⟩ := ih
      have hr1 := reachable_steps hr h1.steps
      have hnd := C18_launched_once hr1
      have haK : ∀ c, a = .spawn c → Spares j.id c := by
        rintro c rfl
        refine ⟨fun ids hc => ha ids (by rw [hc]), ?_⟩
        intro l hl hid
        simp only [act, hl] at h2
        split at h2
        · next hlt =>
          have hm : l ∈ s1.w.launches := List.count_pos_iff.mp (by omega)
          have hs := hsta l hm hid
          have h3 := List.count_pos_iff.mpr hs
          have h4 : s1.w.launches.Nodup := List.Pairwise.of_map _ (fun a b h e => h (by rw [e])) hnd
          have h5 := List.nodup_iff_count.mp h4 l
          omega
        · cases h2
      obtain ⟨ho', h3⟩ := step_casesK hK ho haK h2
      have hstarted : ∀ l ∈ s1.started, l ∈ s2.started := by
        cases a <;> simp only [act] at h2
        case spawn c =>
          split at h2
          · cases h2; exact fun l h => h
          · split at h2
            · cases h2; exact fun l h => List.mem_append_left _ h
            · cases h2
        all_goals (try split at h2)
        all_goals (try split at h2)
        all_goals first | (cases h2; exact fun l h => h) | cases h2
      refine ⟨ho', ?_⟩
      have hrel : ∀ w', StatusRel j.id j.status s1.w w' →
          ∀ l ∈ w'.launches, l.jobid = j.id → l ∈ s2.started :=
        fun w' hw l hl hid => hstarted l (hsta l (hw.2 l hl hid) hid)
      rcases h3 with ⟨o, k, hk, hk', hw⟩ | ⟨hos, hk⟩ | ⟨hw, d, hd, hk⟩
      · rw [hk] at hsafe
        have := hsafe s1.w hI
        rw [hw, hk']
        exact ⟨this.1.1, hrel _ this.1, this.2⟩
      · have hR := statusRel_other hI hos
        refine ⟨hR.1, hrel _ hR, ?_⟩
        rcases hk with hk | hk <;> rw [hk]
        · exact Prog.safe_rely (fun _ _ _ _ h => h) (fun _ _ => trivial) hsafe hR.1
        · trivial
      · rw [hw, hk]
        exact ⟨hI, fun l hl hid => hstarted l (hsta l hl hid), safe_pass_final j.id j.status hf d _⟩
  obtain ⟨-, ⟨hwf', ⟨j', hj', hid⟩, hall⟩, -⟩ := key
  exact ⟨j', by rw [← hid]; exact hwf'.job?_mem hj', hall j' hj' hid⟩

/-- Job 1 has completed and its process has ended. -/
def sDone : Sys := after (run 5 6 ++ [.env (.procs [])]) sRunning

example : Reachable "Jobs" sDone ∧ sDone.jm.ended = true ∧
    (∀ p ∈ sDone.others, Prog.ended p = true) ∧ statusOf sDone 1 = some .c ∧
    (∀ l ∈ sDone.w.launches, l.jobid = 1 → l ∈ sDone.started) ∧ sDone.w.launches ≠ [] := by
  refine ⟨Steps.trans sRunning_reachable (steps_after rfl), rfl, ?_, rfl, ?_, ?_⟩
  · decide +kernel
  · decide +kernel
  · decide +kernel

/-! ## C24 -/

/-- The running job 1 has been cancelled and the job manager has processed it. -/
def sCancelled : Sys :=
  after ([.spawn (.cancel [1])] ++ run 6 3 ++ [.jmStart dRun] ++ jm 8) sRunning

theorem sCancelled_reachable : Reachable "Jobs" sCancelled :=
  Steps.trans sRunning_reachable (steps_after rfl)

/-- **C24 is false of the code**: `kill_tomato_job` only terminates the children of the job
process (on POSIX).  After the job manager has written `cd`, the process continues, and
overwrites the status with `c`. -/
theorem C24_refuted : ∃ s1 s2 : Sys, Reachable "Jobs" s1 ∧ Steps "Jobs" s1 s2 ∧
    statusOf s1 1 = some .cd ∧ statusOf s2 1 = some .c := by
  refine ⟨sCancelled, after (run 5 6) sCancelled, sCancelled_reachable, steps_after rfl, ?_, ?_⟩
    <;> rfl

/-! ## C25 -/

/-- After `sCancelled`: the pipeline manager resets `p`, the user marks it ready and submits
another job with the same sample, and the job manager assigns it to `p`. -/
def sSecond : Sys :=
  after (jm 2 ++ [.spawn (.pipPass dRun)] ++ run 7 6 ++ [.spawn (.ready (some dRun) "p")] ++
    run 8 3 ++ [.spawn (.submit (.parsed (plS "s")) none dRun "/home")] ++ run 9 4 ++
    [.jmStart dRun] ++ jm 21) sCancelled

/-- **C25 is false of the code**: the process of the cancelled job 1, which is still running,
ends and clears the pipeline although it is assigned to job 2 by now. -/
theorem C25_refuted : ∃ s1 s2 : Sys, Reachable "Jobs" s1 ∧ Steps "Jobs" s1 s2 ∧
    s1.w.launches = [⟨1, "p"⟩, ⟨2, "p"⟩] ∧ jobOf s1 "p" = some (some 2) ∧
    jobOf s2 "p" = some none ∧ s2.jm.ended = true ∧ s1.started = [⟨1, "p"⟩] ∧
    s2.started = s1.started := by
  refine ⟨sSecond, after (run 5 6) sSecond,
    Steps.trans sCancelled_reachable (steps_after (by decide +kernel)),
    steps_after (by decide +kernel), ?_, ?_, ?_, ?_, ?_, ?_⟩ <;> decide +kernel

/-! ## C70 -/

/-- Steps in which no new pass of the job manager is started. -/
inductive StepsNoPass (st : String) : Sys → Sys → Prop
  | refl (s : Sys) : StepsNoPass st s s
  | tail {s s' s'' : Sys} (a : Act) (ha : ∀ d, a ≠ .jmStart d) :
      StepsNoPass st s s' → act st s' a = some s'' → StepsNoPass st s s''

theorem StepsNoPass.steps {st : String} {s s' : Sys} (h : StepsNoPass st s s') :
    Steps st s s' := by
  induction h with
  | refl => exact .refl _
  | tail a _ _ h ih => exact .tail ih ⟨a, h⟩

/-- Without the job manager nothing is launched. -/
theorem no_launch_without_manager {st : String} {s s' : Sys} (hr : Reachable st s)
    (hjm : s.jm.ended = true) (h : StepsNoPass st s s') :
    s'.w.launches = s.w.launches ∧ s'.jm.ended = true := by
  induction h with
  | refl => exact ⟨rfl, hjm⟩
  | @tail s1 s2 a ha h1 h2 ih =>
    obtain ⟨hl, he⟩ := ih
    have hr1 := reachable_steps hr h1.steps
    have hsame : ∀ o w, (∀ i n, o ≠ .popenJob i n) → (exec o w).2.launches = w.launches := by
      intro o w h
      rcases exec_launches o w with h' | ⟨i, n, rfl, -⟩
      · exact h'
      · exact absurd rfl (h i n)
    rcases (step_cases (reachable_others hr1) ⟨a, h2⟩).2 with ⟨o, k, hk, -, -⟩ | ⟨hos, hj⟩ |
      ⟨hw, d, hd, hk⟩
    · rw [hk] at he; cases he
    · refine ⟨?_, ?_⟩
      · rw [← hl]
        cases hos with
        | same h => rw [h]
        | env e h => rw [h]; exact (e.apply_eq s1.w).2.2.2.2.2
        | cmd c hc o ho h =>
          rw [h]
          apply hsame
          rintro i n rfl
          rcases ho with ho | ho
          · cases ho
          · cases c <;> cases ho
      · rcases hj with hj | hj <;> rw [hj]
        · exact he
        · rfl
    · cases a with
      | jmStart d => exact absurd rfl (ha d)
      | jmStep =>
        simp only [act] at h2
        split at h2
        · next p w hp =>
          unfold stepProg at hp
          split at hp
          · next o k hk' => rw [hk'] at he; cases he
          · cases hp
        · cases h2
      | jmKill => cases h2; exact ⟨hl, rfl⟩
      | spawn c =>
        simp only [act] at h2
        split at h2
        · cases h2; exact ⟨hl, he⟩
        · split at h2
          · cases h2; exact ⟨hl, he⟩
          · cases h2
      | step i =>
        simp only [act] at h2
        split at h2
        · cases h2
        · split at h2
          · cases h2; exact ⟨by rw [← hl]; exact congrArg _ hw, he⟩
          · cases h2
      | kill i => cases h2; exact ⟨hl, he⟩
      | env e => cases h2; exact ⟨by rw [← hl]; exact congrArg _ hw, he⟩

/-- The user cancels job 1 right after it has connected (before it has stored its folder), and
the job manager starts a pass.  Job 2 waits for the ready pipeline `q`. -/
def sCrash : Sys :=
  after ([.spawn (.load (some dRun) "q" "t")] ++ run 5 3 ++
    [.spawn (.ready (some dRun) "q")] ++ run 6 3 ++
    [.spawn (okJob 1 100 "p"), .env (.procs [⟨100, 1, false⟩])] ++ run 7 3 ++
    [.spawn (.cancel [1])] ++ run 8 3 ++
    [.spawn (.submit (.parsed (plS "t")) none dRun "/home")] ++ run 9 4 ++
    [.jmStart dRun] ++ jm 5) sLaunched

/-- **C70 is false of the code**: a cancellation at the wrong moment makes `manage_running` raise
(`merge_netcdfs` asserts that the job's folder is on record), which ends the job manager's
thread (job.py:345-349 has no handler).  From then on, as long as the daemon is not restarted,
nothing is launched, although job 2 waits and its pipeline `q` is free, ready and has its sample. -/
theorem C70_refuted : ∃ s : Sys, Reachable "Jobs" s ∧ s.jm = .raise .assertionError ∧
    statusOf s 2 = some .q ∧
    s.w.pip? "q" = some { name := "q", ready := true, jobid := none, sampleid := some "t" } ∧
    (s.w.job? 2).map (·.payload.sample) = some "t" ∧
    ∀ s', StepsNoPass "Jobs" s s' → s'.w.launches = [⟨1, "p"⟩] := by
  have hr : Reachable "Jobs" sCrash := Steps.trans sLaunched_reachable (steps_after rfl)
  refine ⟨sCrash, hr, rfl, rfl, rfl, rfl, ?_⟩
  intro s' h
  rw [(no_launch_without_manager hr rfl h).1]
  rfl

end Tomato.Props
