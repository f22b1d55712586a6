import Verif.Props.Daemons
import Mathlib.Data.List.Perm.Subperm
import Mathlib.Data.List.Nodup

/-!
# C18, C73: every job has at most one process

`C18_launched_once` and `C73_launched_once_partial` speak of calls of `Popen`; here of the processes that have begun.
-/

namespace Tomato.Props

/-- If every launch has at most as many processes as there are launches, this is so for every job, too. -/
theorem jobid_count_le {a b : List Launch} (h : ∀ l, a.count l ≤ b.count l) (id : Nat) :
    (a.map (·.jobid)).count id ≤ (b.map (·.jobid)).count id := by
  have hs : a.Subperm b := List.subperm_ext_iff.mpr (fun l _ => h l)
  simp only [List.count, List.countP_map]
  exact hs.countP_le _

theorem exec_launches_le (o : Op) (w : World) (l : Launch) : w.launches.count l ≤ (exec o w).2.launches.count l := by
  rcases exec_launches o w with h | ⟨j, n, -, h⟩
  · rw [h]; exact Nat.le_refl _
  · rw [h, List.count_append]; omega

theorem stepProg_launches_le {p p' : P Unit} {w w' : World} (h : stepProg p w = some (p', w')) (l : Launch) :
    w.launches.count l ≤ w'.launches.count l := by
  cases p with
  | op o k => cases h; exact exec_launches_le o w l
  | pure _ => cases h
  | raise _ => cases h

theorem env_launches (e : EnvAct) (w : World) : (e.apply w).launches = w.launches := by cases e <;> rfl

/-- **C18** (processes): in any execution, at most one process is ever started for a job, and only for a job that has
been launched. -/
theorem C18_process_once {st : String} {s : Sys} (hr : Reachable st s) :
    (s.started.map (·.jobid)).Nodup ∧ ∀ l ∈ s.started, l ∈ s.w.launches := by
  have hinv : ∀ l, s.started.count l ≤ s.w.launches.count l := by
    refine reachable_inv (I := fun s => ∀ l, s.started.count l ≤ s.w.launches.count l)
      (fun l => Nat.le_refl _) ?_ hr
    rintro s s' h ⟨a, ha⟩ l
    cases a with
    | jmStart d =>
      simp only [act] at ha
      split at ha
      · cases ha; exact h l
      · cases ha
    | jmStep =>
      simp only [act] at ha
      split at ha
      · next p w hp => cases ha; exact Nat.le_trans (h l) (stepProg_launches_le hp l)
      · cases ha
    | jmKill => cases ha; exact h l
    | spawn c =>
      simp only [act] at ha
      split at ha
      · cases ha; exact h l
      · next l' _ =>
        split at ha
        · next hlt =>
          cases ha
          simp only [List.count_append]
          by_cases e : l' = l
          · subst e; simp; omega
          · have := h l
            have e' : ([l'] : List Launch).count l = 0 := List.count_eq_zero.mpr (by simpa using fun h => e h.symm)
            omega
        · cases ha
    | step i =>
      simp only [act] at ha
      split at ha
      · cases ha
      · split at ha
        · next hp => cases ha; exact Nat.le_trans (h l) (stepProg_launches_le hp l)
        · cases ha
    | kill i => cases ha; exact h l
    | env e => cases ha; rw [env_launches]; exact h l
  constructor
  · rw [List.nodup_iff_count_le_one]
    intro id
    refine Nat.le_trans (jobid_count_le hinv id) ?_
    exact List.nodup_iff_count_le_one.mp (C18_launched_once hr) id
  · intro l hl
    have h1 := List.count_pos_iff.mpr hl
    have h2 := hinv l
    exact List.count_pos_iff.mp (by omega)

/-- Two processes of a job cannot be started, after one has been. -/
example : ∃ s, Reachable "Jobs" s ∧ s.started = [⟨1, "p"⟩] ∧
    act "Jobs" s (.spawn (.tomatoJob 1 78 (plS "s") "p" "Jobs/1" (.pure none) trivial)) = none := by
  have h : (acts "Jobs" sSetup ([.jmStart dRun] ++ jm 18 ++
    [.spawn (.tomatoJob 1 77 (plS "s") "p" "Jobs/1" (.pure none) trivial)])).isSome = true := rfl
  obtain ⟨s, hs⟩ := Option.isSome_iff_exists.mp h
  exact ⟨s, Steps.trans sSetup_reachable (steps_of_acts hs), by cases hs; rfl, by cases hs; rfl⟩

/-- **C73** (part, processes): however many daemons serve the same queue, at most one process is ever started for a
job. -/
theorem C73_process_once_partial {st : String} {s : MSys} (h : MReachable st s) (id : Nat) :
    (s.started.map (·.jobid)).count id ≤ 1 := by
  refine Nat.le_trans (jobid_count_le ?_ id) (C73_launched_once_partial h id)
  obtain ⟨as, h⟩ := h
  refine macts_inv (I := fun s => ∀ l, s.started.count l ≤ s.w.launches.count l) ?_
    (fun l => Nat.le_refl _) h
  intro s a s' h ha l
  cases a with
  | pass d =>
    simp only [mact] at ha
    split at ha
    · cases ha; exact h l
    · cases ha
  | spawn c =>
    simp only [mact] at ha
    split at ha
    · cases ha; exact h l
    · next l' _ =>
      split at ha
      · next hlt =>
        cases ha
        simp only [List.count_append]
        by_cases e : l' = l
        · subst e; simp; omega
        · have := h l
          have e' : ([l'] : List Launch).count l = 0 := List.count_eq_zero.mpr (by simpa using fun h => e h.symm)
          omega
      · cases ha
  | step i =>
    simp only [mact] at ha
    split at ha
    · cases ha
    · split at ha
      · next hp => cases ha; exact Nat.le_trans (h l) (stepProg_launches_le hp l)
      · cases ha
  | kill i => cases ha; exact h l
  | env e => cases ha; rw [env_launches]; exact h l

end Tomato.Props
