import Verif.Faults
import Verif.Props.JobProc

/-!
# Operations that fail: C97

The statements are about the system of `Verif/Faults.lean`: any operation of any program on the
database, the processes, the messages and the files may fail at any time with any exception that the
programs do not handle, before or after it had its effect.
-/

namespace Tomato.Props

open Tomato.Full

/-- What holds in all reachable states of the system without faults holds with faults. -/
theorem C97_states {st : String} (Φ : World → Prop) (h : ∀ b, Reachable st b → Φ b.w) {s : FSys}
    (hs : EReachable st s) : Φ s.w := by
  obtain ⟨b, hb, hr⟩ := erefines_reachable hs
  rw [← hr.w]
  exact C91_states Φ h hb

/-- What holds for all steps of the system without faults, and for steps that do nothing, holds with
faults. -/
theorem C97_steps {st : String} (Φ : World → World → Prop) (h0 : ∀ w, Φ w w)
    (h : ∀ b b', Reachable st b → Step st b b' → Φ b.w b'.w) {s s' : FSys}
    (hs : EReachable st s) (hst : EStep st s s') : Φ s.w s'.w := by
  obtain ⟨b, hb, hr⟩ := erefines_reachable hs
  obtain ⟨b1, b', h1, -, hw, -, -⟩ := erefines hr hst
  rw [← hr.w, ← hw]
  rcases h1 with rfl | h1
  · exact h0 _
  · exact C91_steps Φ h0 h hb h1

/-- **C97**: whatever operations fail, before or after having had their effect, the queue stays
consistent: no job is launched twice, no pipeline in use is given to another job, the records of the
jobs are kept, and a new job has a number above all others. -/
theorem C97_consistent {st : String} {s s' : FSys} (hs : EReachable st s) (hst : EStep st s s') :
    (s'.w.launches.map (·.jobid)).Nodup ∧
    (∀ p' ∈ s'.w.pips, ∀ j, p'.jobid = some j →
      ∃ p ∈ s.w.pips, p.name = p'.name ∧ (p.jobid = none ∨ p.jobid = some j)) ∧
    (∀ j ∈ s.w.jobs, ∃ j' ∈ s'.w.jobs, j'.id = j.id ∧ j'.payload = j.payload ∧
      j'.jobname = j.jobname ∧ j'.submittedAt = j.submittedAt) ∧
    (s'.w.jobs.map (·.id) = s.w.jobs.map (·.id) ∨
      ∃ j, s'.w.jobs = s.w.jobs ++ [j] ∧ j.status = .q ∧ j.pid = none ∧
        ∀ i ∈ s.w.jobs, i.id < j.id) := by
  have hs' : EReachable st s' := by
    obtain ⟨t, ht⟩ := hs
    exact ⟨t, .tail ht hst⟩
  refine ⟨C97_states (fun w => (w.launches.map (·.jobid)).Nodup) (fun b hb => C18_launched_once hb) hs',
    ?_, ?_, ?_⟩
  · refine C97_steps (fun w w' => ∀ p' ∈ w'.pips, ∀ j, p'.jobid = some j →
      ∃ p ∈ w.pips, p.name = p'.name ∧ (p.jobid = none ∨ p.jobid = some j)) ?_ ?_ hs hst
    · intro w p hp j hj
      exact ⟨p, hp, rfl, .inr hj⟩
    · intro b b' hb hst p' hp' j hj
      exact C17_no_double_assignment hb hst p' hp' j hj
  · refine C97_steps (fun w w' => ∀ j ∈ w.jobs, ∃ j' ∈ w'.jobs, j'.id = j.id ∧
      j'.payload = j.payload ∧ j'.jobname = j.jobname ∧ j'.submittedAt = j.submittedAt) ?_ ?_ hs hst
    · intro w j hj
      exact ⟨j, hj, rfl, rfl, rfl, rfl⟩
    · intro b b' hb hst j hj
      exact C03_records_immutable hb (.tail (.refl _) hst) j hj
  · refine C97_steps (fun w w' => w'.jobs.map (·.id) = w.jobs.map (·.id) ∨
      ∃ j, w'.jobs = w.jobs ++ [j] ∧ j.status = .q ∧ j.pid = none ∧ ∀ i ∈ w.jobs, i.id < j.id) ?_ ?_
      hs hst
    · intro w
      exact .inl rfl
    · intro b b' hb hst
      exact C01_ids_fresh_concurrent hb hst

/-! ### Witnesses -/

/-- Execute actions one after the other. -/
def eacts (storage : String) : FSys → List EAct → Option FSys
  | s, [] => some s
  | s, a :: as =>
      match eact storage s a with
      | some s' => eacts storage s' as
      | none => none

/-- An action that starts no job process. -/
def noJob : EAct → Bool
  | .base (.spawn (.job ..)) => false
  | _ => true

theorem esteps_of_eacts {st : String} {s0 s s' : FSys} {as : List EAct} (h0 : ESteps st s0 s)
    (hn : as.all noJob = true) (h : eacts st s as = some s') : ESteps st s0 s' := by
  induction as generalizing s with
  | nil => cases h; exact h0
  | cons a as ih =>
    simp only [List.all_cons, Bool.and_eq_true] at hn
    simp only [eacts] at h
    split at h
    · next s1 h1 =>
      refine ih (.tail h0 ⟨a, h1, fun c hc => ?_⟩) hn.2 h
      subst hc
      cases c with
      | cmd => trivial
      | job => exact absurd hn.1 (by simp [noJob])
    · cases h

/-- Two jobs are submitted; the first submission fails after the job was stored, and the user tries
again.  The job manager fails while it launches the first job (the disk is full), after the process was
started, and is started again. -/
def faulty : List EAct :=
  List.map (fun a => EAct.base (up a)) ([.spawn (.reload dBoot none)] ++ run 0 9 ++
   [.spawn (.driverStart "d" 5000 70 "1.0")] ++ run 1 2 ++ [.env (.drv okDrv)] ++
   [.spawn (.load (some dRun) "p" "s")] ++ run 2 3 ++
   [.spawn (.ready (some dRun) "p")] ++ run 3 3 ++
   [.spawn (.submit (.parsed (plS "s")) none dRun "/home")] ++ run 4 1) ++
  [.fail 4 .operationalError true] ++
  List.map (fun a => EAct.base (up a)) ([.spawn (.submit (.parsed (plS "s")) none dRun "/home")] ++ run 5 4 ++
   [.jmStart dRun] ++ jm 27) ++
  [.jmFail .operationalError true] ++
  List.map (fun a => EAct.base (up a)) ([.jmStart dRun] ++ jm 16)

/-- Both failures have happened: the first submission was stored although the user was told otherwise,
so that there are two jobs, and the job manager has launched job 1 without recording it; a later pass of
the manager does not launch it again. -/
example : ∃ s, EReachable "Jobs" s ∧ eacts "Jobs" { w := {}, t := tRoot } faulty = some s ∧
    s.w.jobs.map (fun j => (j.id, j.status, j.pid)) = [(1, .qw, none), (2, .qw, none)] ∧
    s.w.launches.map (·.jobid) = [1] ∧ s.w.pips.map (fun p => (p.name, p.jobid)) =
      [("p", some 1), ("q", none)] ∧
    s.others[4]?.bind endedBy = some .operationalError := by
  refine ⟨_, ⟨tRoot, esteps_of_eacts (as := faulty) (.refl _) rfl rfl⟩, rfl, rfl, rfl, rfl, rfl⟩

end Tomato.Props
