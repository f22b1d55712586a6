import Verif.Props.Assign
import Mathlib.Tactic.ByContra

/-!
# The status `qw`

C102: `qw` is given to a job only if a suitable pipeline was found.  The notions of the specification
(`Suitable`: which driver answered what during the pass; `During`: a pass under way in the system) are those of
C16, in `Verif/Props/Assign.lean`.
-/

namespace Tomato

/-- Unless the job manager is at rest, one of its passes is under way. -/
theorem during_or_rest {st : String} {s : Sys} (hr : Reachable st s) :
    s.jm = .pure () ∨ ∃ d h, During st d s h := by
  unfold Reachable at hr
  induction hr with
  | refl => exact .inl rfl
  | @tail s s' h1 h2 ih =>
    obtain ⟨a, ha⟩ := h2
    by_cases hs : ∃ d, a = .jmStart d
    · obtain ⟨d, rfl⟩ := hs
      exact .inr ⟨d, [], .start h1 ha⟩
    by_cases hk : a = .jmKill
    · subst hk
      simp only [act] at ha
      cases ha
      exact .inl rfl
    by_cases hst : a = .jmStep
    · subst hst
      cases hjm : s.jm with
      | pure x => simp [act, hjm, stepProg] at ha
      | raise e => simp [act, hjm, stepProg] at ha
      | op o k =>
        rcases ih with h | ⟨d, h, hd⟩
        · rw [hjm] at h; cases h
        · exact .inr ⟨d, _, .own hd hjm ha⟩
    have hs' : ∀ d', a ≠ .jmStart d' := fun d' h => hs ⟨d', h⟩
    rcases ih with h | ⟨d, h, hd⟩
    · rw [jm_other hs' hst hk ha]; exact .inl h
    · exact .inr ⟨d, h, .other hd hs' hst hk ha⟩

theorem applyJob_qw {j : Job} {ps : List JobParam} (h : (applyJob j ps).status = .qw) :
    j.status = .qw ∨ .status .qw ∈ ps := by
  induction ps generalizing j with
  | nil => exact .inl h
  | cons p ps ih =>
    rw [applyJob_cons] at h
    rcases ih h with h1 | h1
    · cases p with
      | status v => simp only [JobParam.apply] at h1; subst h1; exact .inr (by simp)
      | _ => exact .inl h1
    · exact .inr (List.mem_cons_of_mem _ h1)

/-- A row that has become `qw` was marked by an operation. -/
theorem exec_qw {o : Op} {w : World} {job' : Job} (h : job' ∈ (exec o w).2.jobs) (hq : job'.status = .qw)
    (hnew : ∀ job ∈ w.jobs, job.id = job'.id → job.status ≠ .qw) :
    (∃ j, o = .insertJob j ∧ j.status = .qw) ∨ ∃ ps, o = .updateJob job'.id ps ∧ .status .qw ∈ ps := by
  rcases exec_jobs o w with h1 | ⟨j, rfl, h1⟩ | ⟨id, ps, rfl, h1⟩ <;> rw [h1] at h
  · exact absurd hq (hnew _ h rfl)
  · rcases List.mem_append.mp h with h | h
    · exact absurd hq (hnew _ h rfl)
    · rw [List.mem_singleton.mp h] at hq
      exact .inl ⟨j, rfl, hq⟩
  · simp only [updJobs, List.mem_map] at h
    obtain ⟨q, hqm, heq⟩ := h
    split at heq
    · next hid =>
      subst heq
      rcases applyJob_qw hq with h2 | h2
      · exact absurd h2 (hnew q hqm (by simp))
      · exact .inr ⟨ps, by simp [hid], h2⟩
    · subst heq; exact absurd hq (hnew _ hqm rfl)

/-- No command marks a job. -/
theorem writes_no_qw {c : Cmd} {o : Op} (h : QuietOp o ∨ c.writes o) :
    ¬ ((∃ j, o = .insertJob j ∧ j.status = .qw) ∨ ∃ id ps, o = .updateJob id ps ∧ .status .qw ∈ ps) := by
  rintro (⟨j, rfl, hj⟩ | ⟨id, ps, rfl, hp⟩)
  · rcases h with h | h
    · cases h
    · cases c <;> simp only [Cmd.writes] at h
      rw [h] at hj; cases hj
  · rcases h with h | h
    · cases h
    · cases c <;> simp only [Cmd.writes] at h
      · rcases h.2 with rfl | rfl <;> simp at hp
      · rcases h.2 with ⟨t, rfl⟩ | ⟨a, b, c, rfl⟩ | ⟨x, t, rfl | rfl, rfl⟩ <;> simp at hp

namespace Props

/-- **C102** (`_partial`: what holds when the status is given; it is not taken back, see `C102_refuted`):
whenever, in any execution, a job gets the status `qw`, then this is done by a pass of the job manager; and
during this pass the job was seen in status `q`, and a configured pipeline was found which has the roles of all
tasks of this very job, whose components' drivers named all techniques, and accepted all tasks. -/
theorem C102_promise_partial {st : String} {s s' : Sys} {a : Act} (hr : Reachable st s)
    (ha : act st s a = some s') (job' : Job) (hm : job' ∈ s'.w.jobs) (hq : job'.status = .qw)
    (hnew : ∀ job ∈ s.w.jobs, job.id = job'.id → job.status ≠ .qw) :
    a = .jmStep ∧ ∃ d h, During st d s h ∧
      (∃ n, Suitable d h job'.payload.method n) ∧
      h.once (fun w => ∃ job ∈ w.jobs, job.id = job'.id ∧ job.status = .q) := by
  have hoth := reachable_others hr
  have hex : a = .jmStep := by
    by_contra hne
    have : (∃ o k, s.jm = .op o k ∧ a = .jmStep) ∨ OtherStep s.w s'.w ∨ s'.w = s.w := by
      cases a with
      | jmStep => exact absurd rfl hne
      | jmStart d =>
        simp only [act] at ha
        split at ha
        · cases ha; exact .inr (.inr rfl)
        · cases ha
      | jmKill => cases ha; exact .inr (.inr rfl)
      | spawn c =>
        simp only [act] at ha
        split at ha
        · cases ha; exact .inr (.inr rfl)
        · split at ha
          · cases ha; exact .inr (.inr rfl)
          · cases ha
      | step i =>
        simp only [act] at ha
        split at ha
        · cases ha
        · next p hp =>
          split at ha
          · next p' w hs =>
            unfold stepProg at hs
            split at hs
            · next o k =>
              cases hs; cases ha
              obtain ⟨c, hc1, hc2⟩ := hoth _ (List.mem_of_getElem? hp)
              exact .inr (.inl (.cmd c hc1 o hc2.1 rfl))
            · cases hs
          · cases ha
      | kill i => cases ha; exact .inr (.inr rfl)
      | env e => cases ha; exact .inr (.inl (.env e rfl))
    rcases this with ⟨_, _, _, h⟩ | h | h
    · exact hne h
    · cases h with
      | same h => rw [h] at hm; exact hnew _ hm rfl hq
      | env e h => rw [h, (e.apply_eq s.w).1] at hm; exact hnew _ hm rfl hq
      | cmd c hc o ho h =>
        rw [h] at hm
        rcases exec_qw hm hq hnew with h1 | ⟨ps, h1⟩
        · exact writes_no_qw ho (.inl h1)
        · exact writes_no_qw ho (.inr ⟨_, ps, h1⟩)
    · rw [h] at hm; exact hnew _ hm rfl hq
  refine ⟨hex, ?_⟩
  subst hex
  cases hjm : s.jm with
  | pure x => simp [act, hjm, stepProg] at ha
  | raise e => simp [act, hjm, stepProg] at ha
  | op o k =>
    rcases during_or_rest hr with h | ⟨d, h, hd⟩
    · rw [hjm] at h; cases h
    refine ⟨d, h, hd, ?_⟩
    have hs := hd.safe
    have hallow := reachable_jm hr
    have hstep : Step st s s' := ⟨_, ha⟩
    rw [hjm] at hs hallow
    simp only [act, hjm, stepProg] at ha
    cases ha
    simp only at hm
    rcases exec_qw hm hq hnew with ⟨j, rfl, _⟩ | ⟨ps, rfl, hps⟩
    · rcases hallow.1 with h | h <;> cases h
    · obtain ⟨job, hid, ⟨x, hx, hxj⟩, hjq, n, hn⟩ := hs.1.2 _ ps rfl hps
      obtain ⟨s₁, hr₁, hw₁, hst₁⟩ := hd.past x hx
      have hxj' := hxj
      rw [← hw₁] at hxj
      obtain ⟨jb, hm', hid', hp', _⟩ := C03_records_immutable hr₁ (.tail hst₁ hstep) job hxj
      have hwf := reachable_wf (.tail hr hstep)
      have : jb = job' := by
        have e1 := hwf.job?_mem hm'
        have e2 := hwf.job?_mem hm
        rw [hid', hid] at e1
        rw [e1] at e2
        exact Option.some.inj e2
      subst this
      exact ⟨⟨n, by rw [hp']; exact hn⟩, x, hx, job, hxj', hid, hjq⟩

/-- The daemon is started, then the driver; a job is submitted. -/
def waiting : List Act :=
  [.spawn (.reload dBoot none)] ++ run 0 9 ++
  [.spawn (.driverStart "d" 5000 70 "1.0")] ++ run 1 2 ++ [.env (.drv okDrv)] ++
  [.spawn (.submit (.parsed (plS "s")) none dRun "/home")] ++ run 2 4

/-- Own steps of a pass. -/
theorem during_own {st : String} {d : Daemon} (n : Nat) (s : Sys) (h : Past) (hd : During st d s h) (s' : Sys)
    (hs : acts st s (jm n) = some s') : ∃ h', During st d s' h' := by
  induction n generalizing s h with
  | zero => cases hs; exact ⟨h, hd⟩
  | succ n ih =>
    simp only [jm, List.replicate_succ, acts] at hs
    split at hs
    · next s1 h1 =>
      cases hjm : s.jm with
      | pure a => simp [act, hjm, stepProg] at h1
      | raise e => simp [act, hjm, stepProg] at h1
      | op o k => exact ih s1 _ (.own hd hjm h1) hs
    · cases hs

/-- Such a step happens. -/
example : ∃ s s', Reachable "Jobs" s ∧ act "Jobs" s .jmStep = some s' ∧
    s.w.jobs.map (·.status) = [.q] ∧ s'.w.jobs.map (·.status) = [.qw] := by
  have h : (acts "Jobs" Sys.init (waiting ++ [.jmStart dRun] ++ jm 10)).isSome = true := rfl
  obtain ⟨s, hs⟩ := Option.isSome_iff_exists.mp h
  refine ⟨s, ((act "Jobs" s .jmStep).getD s), steps_of_acts hs, ?_, ?_, ?_⟩ <;> (cases hs; rfl)

/-- The daemon after a reload of a device file without pipelines. -/
def dNone : Daemon := { devicefile := { dfS with pipelines := [] } }

/-- **C102** is violated: `qw` is not taken back.  A job waits in status `qw`; a reload, which is accepted, removes
all pipelines; a further pass of the job manager with the new configuration leaves the job in status `qw`,
although no pipeline for it exists. -/
theorem C102_refuted : ∃ s₁ s₂ h,
    (Reachable "Jobs" s₁ ∧ s₁.jm = .pure () ∧ s₁.w.jobs.map (·.status) = [.qw] ∧
      ((runW (cmdReload dRun (some ({}, dNone.devicefile))) s₁.w).1 =
        .ok ({ success := true, msg := .reloaded, data := some (.daemon dNone) }, dNone))) ∧
    (Steps "Jobs" s₁ s₂ ∧ During "Jobs" dNone s₂ h ∧ s₂.jm = .pure () ∧ s₂.w.jobs.map (·.status) = [.qw]) ∧
    ∀ h' m n, ¬ Suitable dNone h' m n := by
  have h : (acts "Jobs" Sys.init (waiting ++ [.jmStart dRun] ++ jm 14)).isSome = true := rfl
  obtain ⟨s₁, hs₁⟩ := Option.isSome_iff_exists.mp h
  have h2 : (acts "Jobs" s₁ [.spawn (.reload dRun (some ({}, dNone.devicefile))), .step 3]).isSome = true := by
    cases hs₁; rfl
  obtain ⟨s₁', hs₁'⟩ := Option.isSome_iff_exists.mp h2
  have h3 : (act "Jobs" s₁' (.jmStart dNone)).isSome = true := by cases hs₁; cases hs₁'; rfl
  obtain ⟨s, hs⟩ := Option.isSome_iff_exists.mp h3
  have h4 : (acts "Jobs" s (jm 4)).isSome = true := by cases hs₁; cases hs₁'; cases hs; rfl
  obtain ⟨s₂, hs₂⟩ := Option.isSome_iff_exists.mp h4
  have hr : Reachable "Jobs" s₁ := steps_of_acts hs₁
  have hr' : Steps "Jobs" s₁ s₁' := steps_of_acts hs₁'
  obtain ⟨h', hd⟩ := during_own 4 s [] (.start (hr.trans hr') hs) s₂ hs₂
  refine ⟨s₁, s₂, h', ⟨hr, ?_, ?_, ?_⟩, ⟨(hr'.tail ⟨_, hs⟩).trans (steps_of_acts hs₂), hd, ?_, ?_⟩, ?_⟩
  · cases hs₁; rfl
  · cases hs₁; rfl
  · cases hs₁; rfl
  · cases hs₁; cases hs₁'; cases hs; cases hs₂; rfl
  · cases hs₁; cases hs₁'; cases hs; cases hs₂; rfl
  · rintro h' m n ⟨pl, hpl, _⟩
    simp [dNone, Dict.values] at hpl

end Props

end Tomato
