import Verif.Props.FirstCome
import Verif.Props.NeverConnected

/-!
# A leftover folder blocks the job manager (C113)

In general what `C113_refuted_blocks` shows in a case: as long as a job is waiting whose folder is there already,
and a pipeline is available for it, no pass of the job manager comes to its end.
-/

namespace Tomato

/-- A job is assigned to a pipeline only after its folder has been made, in the same pass, where there was none. -/
def FolderA (d : Daemon) (h : Past) (o : Op) : Prop :=
  ∀ j n, assignOf o = some (j, n) →
    ∃ x ∈ h, x.2 = .makeJobDir d.settings.storage j ∧ (d.settings.storage, j) ∉ x.1.jobDirs

variable {d : Daemon}

theorem folderA_of_ne {o : Op} (ho : ∀ n ps, o ≠ .updatePip n ps) (h : Past) : FolderA d h o := by
  intro j n h1
  rw [assignOf_none ho] at h1
  cases h1

theorem hsafe_folder_calm {α : Type} {p : Prog DB α}
    (hp : Prog.Only (S := DB) (fun o => ∀ n ps, o ≠ .updatePip n ps) p) (h : Past) :
    HSafe (FolderA d) (fun _ h' => ∃ t, h' = h ++ t) p h :=
  hsafe_of_only (fun _ h ho => folderA_of_ne ho h) hp h

theorem hsafe_folder_assignJob (job : Job) (ns : List String) (avail : Dict String PipState) (h : Past) :
    HSafe (FolderA d) (fun _ _ => True) (assignJob d job.id job ns avail) h := by
  induction ns generalizing h with
  | nil => trivial
  | cons n ns ih =>
    unfold assignJob
    split
    · exact ih h
    · split
      · exact ih h
      · refine hsafe_bind (Q := fun _ h' => ∃ x ∈ h', x.2 = .makeJobDir d.settings.storage job.id ∧
          (d.settings.storage, job.id) ∉ x.1.jobDirs) ?_ ?_
        · refine hsafe_call (folderA_of_ne (by simp) _) ?_
          intro w a ha
          refine ⟨_, List.mem_append_right _ (List.mem_singleton.mpr rfl), rfl, ?_⟩
          intro hm
          simp only [exec] at ha
          rw [if_pos hm] at ha
          cases ha
        · rintro _ h' hx
          split
          · trivial
          · refine hsafe_bind (Q := fun _ _ => True) ?_ ?_
            · unfold updatePip
              refine hsafe_bind (Q := fun _ _ => True) ?_ (fun _ h' _ => ?_)
              · refine hsafe_call ?_ (fun _ _ _ => trivial)
                intro j m hj
                simp only [assignOf, List.findSome?_cons, Option.map_some, Option.some.injEq, Prod.mk.injEq] at hj
                rw [← hj.1]
                exact hx
              · exact hsafe_mono (hsafe_folder_calm (p := Do.getPip n) ((Do.only_getPip _).mpr (by simp)) _)
                  (fun _ _ _ => trivial)
            · rintro _ h' -
              have hlast : Prog.Only (S := DB) (fun o => ∀ n ps, o ≠ .updatePip n ps)
                  (Prog.bind (Do.popenJob job.id n) (fun _ => Prog.bind Do.now (fun now =>
                    Prog.bind (updateJobId job.id [.launchedAt (some now)])
                      (fun _ => Prog.pure (S := DB) (Dict.erase avail n))))) := by
                refine Prog.only_bind ((Do.only_popenJob _ _).mpr (by simp)) (fun _ => ?_)
                refine Prog.only_bind (Do.only_now.mpr (by simp)) (fun t => ?_)
                refine Prog.only_bind (only_updateJobId quiet_noUpdate _ _ (by simp)) (fun _ => trivial)
              exact hsafe_mono (hsafe_folder_calm hlast _) (fun _ _ _ => trivial)

theorem hsafe_folder_getJobId (id : Nat) (h : Past) :
    HSafe (FolderA d) (fun job _ => job.id = id) (getJobId id) h := by
  unfold getJobId
  refine hsafe_bind (Q := fun r _ => ∀ job, r = some job → job.id = id) ?_ ?_
  · refine hsafe_call (folderA_of_ne (by simp) _) ?_
    intro w a ha
    simp only [exec, Except.ok.injEq] at ha
    subst ha
    intro job hj
    exact (job?_some hj).1
  · rintro r h' h2
    split
    · exact h2 _ rfl
    · trivial

theorem hsafe_folder_pass (d : Daemon) : HSafe (FolderA d) (fun _ _ => True) (jobManagerPass d) [] := by
  unfold jobManagerPass
  refine hsafe_bind (hsafe_folder_calm (only_manageRunning quiet_noUpdate (by simp) (by simp) (by simp)) _) ?_
  rintro _ h0 -
  refine hsafe_bind (hsafe_folder_calm (only_checkQueued quiet_noUpdate (by simp) d) _) ?_
  rintro m h1 -
  unfold actionQueued
  refine hsafe_bind (hsafe_folder_calm (p := Do.pipsWhere _) ((Do.only_pipsWhere _).mpr (by simp)) _) ?_
  rintro free h2 -
  generalize sortIds (Dict.keys m) = ids
  generalize Dict.ofList (free.map (fun p => (p.name, p))) = avail
  induction ids generalizing avail h2 with
  | nil => trivial
  | cons i ids ih =>
    unfold actionLoop
    refine hsafe_bind (hsafe_folder_getJobId i _) ?_
    rintro job h3 rfl
    split
    · trivial
    · exact hsafe_bind (hsafe_folder_assignJob job _ _ _) (fun a h4 _ => ih _ _)

/-- In the system: each assignment made in the pass. -/
theorem During.folder {st : String} {d : Daemon} {s : Sys} {h : Past} (hd : During st d s h) :
    HSafe (FolderA d) (fun _ _ => True) s.jm h ∧
      ∀ q ∈ assigned h, ∃ x ∈ h, x.2 = .makeJobDir d.settings.storage q.1 ∧ (d.settings.storage, q.1) ∉ x.1.jobDirs := by
  induction hd with
  | start _ ha =>
    refine ⟨?_, by simp [assigned]⟩
    simp only [act] at ha
    split at ha
    · cases ha; exact hsafe_folder_pass d
    · cases ha
  | @own s s' h o k _ hk ha ih =>
    obtain ⟨ih, ih2⟩ := ih
    rw [hk] at ih
    simp only [act, hk, stepProg] at ha
    cases ha
    refine ⟨ih.2 s.w, ?_⟩
    intro q hq
    rw [assigned_append] at hq
    rcases List.mem_append.mp hq with hq | hq
    · obtain ⟨x, hx, h1⟩ := ih2 q hq
      exact ⟨x, List.mem_append_left _ hx, h1⟩
    · simp only [assigned, List.filterMap_cons, List.filterMap_nil] at hq
      split at hq
      · cases hq
      · next b hb =>
        rw [List.mem_singleton.mp hq]
        obtain ⟨x, hx, h1⟩ := ih.1 b.1 b.2 hb
        exact ⟨x, List.mem_append_left _ hx, h1⟩
  | other _ h1 h2 h3 ha ih => rw [jm_other h1 h2 h3 ha]; exact ih

namespace Props

/-- **C113** fails in general: in any execution, while a job is waiting whose folder is there already (its process was
launched before, and has ended before it connected), and a pipeline is suitable and was available when this pass began to
assign, then the pass of the job manager gives this pipeline to a job with a lower id, or does not come to its end: if
it ends, then with an exception.  This holds for each pass again. -/
theorem C113_blocks {st : String} {d : Daemon} {s : Sys} {h : Past} (hd : During st d s h)
    {id : Nat} {n : String} {method : List Task} {sample : String}
    (hw : Waiting h id method sample) (hf : Fits d h method n) (ha : ¬ Unavailable h n sample)
    (hfolder : ∀ x ∈ h, (d.settings.storage, id) ∈ x.1.jobDirs) :
    (∃ j, j < id ∧ (j, n) ∈ assigned h) ∨ s.jm ≠ .pure () := by
  by_cases hend : s.jm = .pure ()
  · refine .inl ?_
    rcases C19_first_come_partial hd hend id n method sample hw hf with ⟨n', h1⟩ | h1 | h1
    · obtain ⟨x, hx, -, h2⟩ := hd.folder.2 _ h1
      exact absurd (hfolder x hx) h2
    · exact h1
    · exact absurd h1 ha
  · exact .inr hend

/-- The job itself is never given a pipeline then. -/
theorem C113_not_again {st : String} {d : Daemon} {s : Sys} {h : Past} (hd : During st d s h)
    {id : Nat} (hfolder : ∀ x ∈ h, (d.settings.storage, id) ∈ x.1.jobDirs) (n : String) :
    (id, n) ∉ assigned h := by
  intro hm
  obtain ⟨x, hx, -, h2⟩ := hd.folder.2 _ hm
  exact h2 (hfolder x hx)

/-- The folder of job 1 is there, `p` is free, ready and has its sample: the pass ends with `FileExistsError`. -/
example : ∃ s h, During "Jobs" dRun s h ∧ s.jm = .raise .fileExistsError ∧
    Waiting h 1 [{ role := "x", technique := "t" }] "s" ∧
    Fits dRun h [{ role := "x", technique := "t" }] "p" ∧ ¬ Unavailable h "p" "s" ∧
    (∀ x ∈ h, (dRun.settings.storage, 1) ∈ x.1.jobDirs) ∧ assigned h = [] := by
  have hr0 : Reachable "Jobs" sFolder := Steps.trans sSetup_reachable (steps_after (by decide +kernel))
  have h0 : (act "Jobs" sFolder (.jmStart dRun)).isSome = true := by decide +kernel
  obtain ⟨s0, hs0⟩ := Option.isSome_iff_exists.mp h0
  have h : (acts "Jobs" s0 (jm 23)).isSome = true := by cases hs0; decide +kernel
  obtain ⟨s, hs⟩ := Option.isSome_iff_exists.mp h
  have hd := during_jm 23 _ [] (.start hr0 hs0) s hs
  refine ⟨s, _, hd, ?_, ?_, ?_, ?_, ?_, ?_⟩
  · cases hs0; cases hs; rfl
  · cases hs0
    unfold Waiting
    decide +kernel
  · cases hs0
    refine ⟨⟨"p", [("x", "d:(a,1)")]⟩, by decide, rfl, ?_⟩
    intro t ht
    simp only [List.mem_singleton] at ht
    subst ht
    have hall : ∀ x ∈ [] ++ jmHist 23 (after [.jmStart dRun] sFolder),
        (∀ row ∈ x.1.drvs, row.name = "d" → row.port = some 5000) ∧
        x.1.drv 5000 (.capabilities "a" "1") = some { success := true, data := some ["t"] } ∧
        x.1.drv 5000 (.validate { role := "x", technique := "t" } "a" "1") =
          some { success := true, data := some [] } := by decide +kernel
    refine ⟨⟨"x", "d:(a,1)", ⟨"d:(a,1)", "dev", "d", "a", "1"⟩, by decide, rfl, 5000, fun x hx => ?_⟩,
      ⟨"d:(a,1)", ⟨"d:(a,1)", "dev", "d", "a", "1"⟩, by decide, rfl, 5000, fun x hx => ?_⟩⟩
    · exact ⟨(hall x hx).1, _, (hall x hx).2.1, rfl, _, rfl, by decide⟩
    · exact ⟨(hall x hx).1, _, (hall x hx).2.2, rfl⟩
  · cases hs0
    have hall : ∀ x ∈ [] ++ jmHist 23 (after [.jmStart dRun] sFolder), Available x.1 "p" "s" := by
      unfold Available
      decide +kernel
    rintro ⟨h₁, x, h₂, he, -, hx⟩
    exact hx (hall x (by rw [show [] ++ jmHist 23 (after [.jmStart dRun] sFolder) = h₁ ++ x :: h₂ from he]; simp))
  · cases hs0
    decide +kernel
  · cases hs0
    decide +kernel

end Props

end Tomato
