import Verif.Props.System

/-!
# C15: occupied pipelines hold a sample and are not ready
-/

namespace Tomato

/-- States reached from a fresh installation by complete executions, one after another, of
commands, manager passes, and the three parts of a job process (connecting, storing its paths,
finishing), with arbitrary changes of the environment in between. -/
inductive Alone : World → Prop
  | init : Alone {}
  | env {w : World} (e : EnvAct) : Alone w → Alone (e.apply w)
  | cmd {w : World} (c : Cmd) : Alone w → Alone (runW c.prog w).2
  | jm {w : World} (d : Daemon) : Alone w → Alone (runW (jobManagerPass d) w).2
  | connect {w : World} (jobid pid : Nat) : Alone w → Alone (runW (jobConnect jobid pid) w).2
  | paths {w : World} (jobid : Nat) (p : Payload) (path : String) : Alone w →
      Alone (runW (jobPaths jobid p path) w).2
  | finish {w : World} (job : Job) (pip : String) (ret : Option Nat) : Alone w →
      Alone (runW (jobFinish job pip ret) w).2

/-- Occupied pipelines hold a sample and are not ready. -/
def Occ (w : World) : Prop := ∀ p ∈ w.pips, p.jobid.isSome → p.sampleid.isSome ∧ p.ready = false

/-- Parameters that keep `Occ` whatever the row is. -/
def OccParams (ps : List PipParam) : Prop :=
  ∀ p : PipState, (p.jobid.isSome → p.sampleid.isSome ∧ p.ready = false) →
    ((applyPip p ps).jobid.isSome → (applyPip p ps).sampleid.isSome ∧ (applyPip p ps).ready = false)

theorem occ_exec {o : Op} {w : World} (hw : Occ w)
    (hi : ∀ p, o = .insertPip p → p.jobid = none)
    (hu : ∀ n ps, o = .updatePip n ps → OccParams ps) : Occ (exec o w).2 := by
  intro p hp hj
  rcases exec_pips o w with h | ⟨q, h1, h⟩ | ⟨n, ps, h1, h⟩ <;> rw [h] at hp
  · exact hw p hp hj
  · rcases List.mem_append.mp hp with hp | hp
    · exact hw p hp hj
    · simp only [List.mem_singleton] at hp
      subst hp
      rw [hi _ h1] at hj
      cases hj
  · simp only [updPips, List.mem_map] at hp
    obtain ⟨q, hq, rfl⟩ := hp
    split at hj
    · next hn =>
      rw [if_pos hn]
      exact hu n ps h1 q (hw q hq) hj
    · next hn =>
      rw [if_neg hn]
      exact hw q hq hj

theorem occ_run {α : Type} {P : Op → Prop} {Q : α → Prop}
    (hi : ∀ p, P (.insertPip p) → p.jobid = none)
    (hu : ∀ n ps, P (.updatePip n ps) → OccParams ps)
    {p : Prog DB α} (hp : Allow P Q p) {w : World} (hw : Occ w) : Occ (runW p w).2 := by
  induction p generalizing w with
  | pure a => exact hw
  | raise e => exact hw
  | op o k ih =>
    simp only [runW, Prog.run]
    refine ih _ (hp.2 w) (occ_exec hw ?_ ?_)
    · rintro p rfl; exact hi p hp.1
    · rintro n ps rfl; exact hu n ps hp.1

theorem occParams_clear (b : Bool) : OccParams [.jobid none, .ready b] := by
  intro p _ h; simp [applyPip, PipParam.apply] at h

theorem occParams_load (x : String) : OccParams [.sampleid (some x), .ready false] := by
  intro p _ _; simp [applyPip, PipParam.apply]

/-- An update of a row that is known to have no job. -/
theorem occ_updateFree {w : World} (hw : w.WF) (ho : Occ w) {n : String} {p : PipState}
    (hp : w.pip? n = some p) (hj : p.jobid = none) (ps : List PipParam)
    (hps : ∀ j, PipParam.jobid (some j) ∉ ps) : Occ (runW (updatePip n ps) w).2 := by
  rw [run_updatePip]
  intro p' hp' hj'
  simp only [updPips, List.mem_map] at hp'
  obtain ⟨q, hq, rfl⟩ := hp'
  split at hj'
  · next hn =>
    exfalso
    have := hw.pip?_mem hq
    rw [hn, hp] at this
    cases this
    have hna := noAssign_updPips w { w with pips := updPips n ps w.pips } n ps hps rfl
    obtain ⟨j, hj'⟩ := Option.isSome_iff_exists.mp hj'
    obtain ⟨q, hq', hqn, hqj⟩ := hna (applyPip p ps)
      (by simp only [updPips, List.mem_map]; exact ⟨p, hq, by rw [if_pos hn]⟩) j hj'
    have := hw.pip?_mem hq'
    rw [hqn, applyPip_name, hn, hp] at this
    cases this
    rw [hj] at hqj
    cases hqj
  · next hn =>
    rw [if_neg hn]
    exact ho q hq hj'

theorem occ_eject {w : World} (hw : w.WF) (ho : Occ w) (s : Option Daemon) (n : String) :
    Occ (runW (pipelineEject s n) w).2 := by
  unfold pipelineEject
  split
  · exact ho
  · split
    · exact ho
    · simp only [runW, Prog.bind_eq, Prog.run_bind, Do.run_getPip, exec_getPip, Prog.andThen_ok]
      split
      · exact ho
      · next p hp =>
        split
        · exact ho
        · split
          · exact ho
          · next hj =>
            simp only [Prog.bind_eq, Prog.run_bind, Prog.pure_eq, Prog.run_pure]
            have := Prog.andThen_snd (runW (updatePip n [.sampleid none, .ready false]) w)
              (fun a => .ok ({ success := true, msg := .ejected, data := a } : PReply))
            unfold runW at this
            rw [this]
            exact occ_updateFree hw ho hp (by simpa using hj) _ (by simp)

theorem occ_ready {w : World} (hw : w.WF) (ho : Occ w) (s : Option Daemon) (n : String) :
    Occ (runW (pipelineReady s n) w).2 := by
  unfold pipelineReady
  split
  · exact ho
  · split
    · exact ho
    · simp only [runW, Prog.bind_eq, Prog.run_bind, Do.run_getPip, exec_getPip, Prog.andThen_ok]
      split
      · exact ho
      · next p hp =>
        split
        · exact ho
        · split
          · exact ho
          · next hj =>
            simp only [Prog.bind_eq, Prog.run_bind, Prog.pure_eq, Prog.run_pure]
            have := Prog.andThen_snd (runW (updatePip n [.ready true]) w)
              (fun a => .ok ({ success := true, msg := .setReady, data := a } : PReply))
            unfold runW at this
            rw [this]
            exact occ_updateFree hw ho hp (by simpa using hj) _ (by simp)

theorem occ_cmd {w : World} (hw : w.WF) (ho : Occ w) (c : Cmd) : Occ (runW c.prog w).2 := by
  by_cases hc : (∃ s n, c = .eject s n) ∨ (∃ s n, c = .ready s n)
  · rcases hc with ⟨s, n, rfl⟩ | ⟨s, n, rfl⟩
    · have := occ_eject hw ho s n
      simp only [Cmd.prog, runW, Prog.bind_eq, Prog.run_bind, Prog.pure_eq, Prog.run_pure]
      rw [Prog.andThen_snd]
      exact this
    · have := occ_ready hw ho s n
      simp only [Cmd.prog, runW, Prog.bind_eq, Prog.run_bind, Prog.pure_eq, Prog.run_pure]
      rw [Prog.andThen_snd]
      exact this
  · refine occ_run ?_ ?_ c.allow_ops ho
    · rintro p (h | h)
      · cases h
      · cases c <;> simp only [Cmd.writes] at h
        rw [h]
    · rintro n ps (h | h)
      · cases h
      · cases c <;> simp only [Cmd.writes] at h
        · obtain ⟨_, rfl⟩ := h; exact occParams_load _
        · exact absurd (.inl ⟨_, _, rfl⟩) hc
        · exact absurd (.inr ⟨_, _, rfl⟩) hc
        · subst h; exact occParams_clear _
        · obtain ⟨_, b, rfl⟩ := h; exact occParams_clear _

/-! ### The job manager -/

/-- The rows the job manager has read are the rows of the table. -/
def RowsOf (avail : Dict String PipState) (w : World) : Prop :=
  ∀ n ps, Dict.get? avail n = some ps → w.pip? n = some ps

/-- `Occ` is kept. -/
def KeepOcc (w w' : World) : Prop := w.WF → Occ w → w'.WF ∧ Occ w'

theorem keepOcc_harmless {o : Op} (h : HarmlessOp o) (w : World) : KeepOcc w (exec o w).2 := by
  intro hw ho
  refine ⟨exec_wf o w hw, ?_⟩
  intro p hp
  rw [(harmless_frame h w).1] at hp
  exact ho p hp

theorem rowsOf_frame {avail : Dict String PipState} {w w' : World} (h : RowsOf avail w)
    (hp : w'.pips = w.pips) : RowsOf avail w' := by
  intro n ps hn
  unfold World.pip?
  rw [hp]
  exact h n ps hn

theorem occ_harmless {α : Type} {Q : α → Prop} {p : Prog DB α} (hp : Allow HarmlessOp Q p)
    {avail : Dict String PipState} {w : World} (hJ : RowsOf avail w) :
    Prog.Safe (S := DB) exec Eq KeepOcc (fun a w' => Q a ∧ RowsOf avail w') p w :=
  safe_keep (fun _ _ hR hJ => hR ▸ hJ)
    (fun _ _ w' ho _ hJ => ⟨keepOcc_harmless ho w', rowsOf_frame hJ (harmless_frame ho w').1⟩) hp hJ

theorem occ_assignJob (d : Daemon) (jobid : Nat) (job : Job) (ns : List String)
    (avail : Dict String PipState) (w : World) (hJ : RowsOf avail w) :
    Prog.Safe (S := DB) exec Eq KeepOcc (fun a w' => RowsOf a w') (assignJob d jobid job ns avail) w := by
  induction ns generalizing w with
  | nil => exact hJ
  | cons n ns ih =>
    unfold assignJob
    split
    · exact ih w hJ
    · next ps hps =>
      split
      · exact ih w hJ
      · next hsuit =>
        have hsample : ps.sampleid = some job.payload.sample := by
          rcases Decidable.em (ps.sampleid = some job.payload.sample) with h | h
          · exact h
          · exact absurd (.inr h) hsuit
        refine Prog.safe_bind (Q := fun _ w' => RowsOf avail w') ?_ ?_
        · refine Prog.safe_call (S := DB) ?_ ?_
          · rintro w' rfl hw ho
            refine ⟨exec_wf _ _ hw, ?_⟩
            simp only [exec]
            split <;> exact ho
          · rintro w' rfl a _
            refine rowsOf_frame hJ ?_
            simp only [exec]
            split <;> rfl
        · intro _ w1 hJ1
          split
          · trivial
          · refine Prog.safe_bind (Q := fun _ w' => RowsOf (Dict.erase avail n) w') ?_ ?_
            · unfold updatePip
              refine Prog.safe_bind (Q := fun _ w' => RowsOf (Dict.erase avail n) w') ?_ ?_
              · refine Prog.safe_call (S := DB) ?_ ?_
                · rintro w' rfl hw ho
                  refine ⟨exec_wf _ _ hw, ?_⟩
                  intro p' hp' hj'
                  simp only [exec_updatePip, updPips, List.mem_map] at hp'
                  obtain ⟨q, hq, rfl⟩ := hp'
                  split at hj'
                  · next hn =>
                    rw [if_pos hn]
                    have h1 := hw.pip?_mem hq
                    rw [hn, hJ1 n ps hps] at h1
                    cases h1
                    simp [applyPip, PipParam.apply, hsample]
                  · next hn =>
                    rw [if_neg hn]
                    exact ho q hq hj'
                · rintro w' rfl a _ m q hm
                  rw [Dict.get?_erase] at hm
                  split at hm
                  · cases hm
                  · next hne =>
                    have hne' : m ≠ n := by first | exact hne | exact fun h => hne h.symm
                    rw [exec_updatePip, pip?_update, hJ1 m q hm]
                    simp [hne']
              · intro _ w2 hJ2
                refine Prog.safe_call (S := DB) ?_ ?_
                · rintro w' rfl; exact keepOcc_harmless (o := .getPip n) trivial _
                · rintro w' rfl a _; exact hJ2
            · intro _ w2 hJ2
              have hq : ∀ o, QuietOp o → HarmlessOp o := fun _ h => quiet_harmless h
              refine Prog.safe_bind (Q := fun _ w' => RowsOf (Dict.erase avail n) w') ?_ ?_
              · refine Prog.safe_call (S := DB) ?_ ?_
                · rintro w' rfl hw ho; exact ⟨exec_wf _ _ hw, ho⟩
                · rintro w' rfl a _; exact rowsOf_frame hJ2 rfl
              · intro _ w3 hJ3
                refine Prog.safe_mono (occ_harmless (Q := fun a => a = Dict.erase avail n)
                  (avail := Dict.erase avail n) ?_ hJ3) ?_
                · refine allow_bind (allow_of_only (Do.only_now.mpr trivial)) (fun t _ => ?_)
                  exact allow_bind (allow_of_only (only_updateJobId hq _ _ trivial)) (fun _ _ => rfl)
                · rintro a w4 ⟨rfl, h⟩; exact h

theorem occ_actionLoop (d : Daemon) (matched : Dict Nat (List String)) (ids : List Nat)
    (avail : Dict String PipState) (w : World) (hJ : RowsOf avail w) :
    Prog.Safe (S := DB) exec Eq KeepOcc (fun _ _ => True) (actionLoop d matched ids avail) w := by
  induction ids generalizing avail w with
  | nil => trivial
  | cons id ids ih =>
    unfold actionLoop
    refine Prog.safe_bind (occ_harmless (allow_getJobId (fun _ h => quiet_harmless h) id) hJ) ?_
    rintro job w1 ⟨_, hJ1⟩
    split
    · trivial
    · exact Prog.safe_bind (occ_assignJob d id job _ avail w1 hJ1) (fun a w2 h => ih a w2 h)

theorem occ_jobManagerPass (d : Daemon) (w : World) (hwf : w.WF) :
    Prog.Safe (S := DB) exec Eq KeepOcc (fun _ _ => True) (jobManagerPass d) w := by
  have hq : ∀ o, QuietOp o → HarmlessOp o := fun _ h => quiet_harmless h
  have keepWF : ∀ {α : Type} {p : Prog DB α} {Q : α → Prop} {w : World}, Allow HarmlessOp Q p → w.WF →
      Prog.Safe (S := DB) exec Eq KeepOcc (fun _ w' => w'.WF) p w := by
    intro α p Q w hp hw
    refine Prog.safe_mono (safe_keep (J := World.WF) (R := Eq) (G := KeepOcc) (fun _ _ hR hJ => hR ▸ hJ)
      (fun o _ w' ho _ hJ => ⟨keepOcc_harmless ho w', exec_wf o w' hJ⟩) hp hw) ?_
    rintro a w' ⟨_, h⟩; exact h
  unfold jobManagerPass
  refine Prog.safe_bind (keepWF (allow_of_only (only_manageRunning hq (fun _ => trivial)
    (fun _ _ _ => trivial) (fun _ _ _ _ => trivial))) hwf) ?_
  intro _ w1 hw1
  refine Prog.safe_bind (keepWF (allow_of_only (only_checkQueued hq (fun _ => trivial) d)) hw1) ?_
  intro matched w2 hw2
  unfold actionQueued
  refine Prog.safe_bind (Q := fun free w' => w'.WF ∧ ∀ p ∈ free, p ∈ w'.pips) ?_ ?_
  · refine Prog.safe_call (S := DB) ?_ ?_
    · rintro w' rfl; exact keepOcc_harmless (o := .pipsWhere _) trivial _
    · rintro w' rfl free hfree
      simp only [exec_pipsWhere] at hfree ⊢
      cases hfree
      exact ⟨hw2, fun p hp => (List.mem_filter.mp hp).1⟩
  · rintro free w3 ⟨hw3, hfree⟩
    refine occ_actionLoop d _ _ _ w3 ?_
    intro n ps hn
    have := dict_ofList_mem _ _ _ hn
    rw [List.mem_map] at this
    obtain ⟨p, hp, heq⟩ := this
    cases heq
    exact hw3.pip?_mem (hfree _ hp)

theorem alone_wf {w : World} (h : Alone w) : w.WF := by
  induction h with
  | init => exact World.wf_empty
  | env e _ ih => exact e.wf ih
  | cmd c _ ih => exact runW_wf _ _ ih
  | jm d _ ih => exact runW_wf _ _ ih
  | connect _ _ _ ih => exact runW_wf _ _ ih
  | paths _ _ _ _ ih => exact runW_wf _ _ ih
  | finish _ _ _ _ ih => exact runW_wf _ _ ih

theorem occ_pieces {α : Type} {p : Prog DB α} {w : World} (hw : Occ w)
    (hp : Prog.Only (S := DB) (fun o => (∀ p, o ≠ .insertPip p) ∧
      ∀ n ps, o = .updatePip n ps → ∃ b, ps = [.jobid none, .ready b]) p) : Occ (runW p w).2 := by
  refine occ_run (P := fun o => (∀ p, o ≠ .insertPip p) ∧
    ∀ n ps, o = .updatePip n ps → ∃ b, ps = [.jobid none, .ready b]) ?_ ?_ (allow_of_only hp) hw
  · intro p h; exact absurd rfl (h.1 p)
  · intro n ps h
    obtain ⟨b, rfl⟩ := h.2 n ps rfl
    exact occParams_clear b

namespace Props

/-- **C15**: in every state reached by complete executions, a pipeline with an assigned job has a
sample loaded and is not marked ready. -/
theorem C15_occupied {w : World} (h : Alone w) (p : PipState) (hp : p ∈ w.pips) (j : Nat)
    (hj : p.jobid = some j) : (∃ x, p.sampleid = some x) ∧ p.ready = false := by
  have key : Occ w := by
    clear hp hj
    induction h with
    | init => intro p hp; simp at hp
    | env e _ ih =>
      intro p hp
      rw [(e.apply_eq _).2.2.1] at hp
      exact ih p hp
    | cmd c hc ih => exact occ_cmd (alone_wf hc) ih c
    | @jm w d hc ih =>
      have := safe_run (fun _ => rfl) (fun _ h1 h2 => ⟨h1, h2⟩)
        (fun a b c h1 h2 hw ho => h2 (h1 hw ho).1 (h1 hw ho).2) (occ_jobManagerPass d w (alone_wf hc))
      exact (this.1 (alone_wf hc) ih).2
    | connect jobid pid _ ih =>
      refine occ_pieces ih ?_
      unfold jobConnect
      refine Prog.only_bind (Do.only_now.mpr (by simp)) (fun t => ?_)
      refine Prog.only_bind (p := updateJobId _ _) ?_ (fun _ => trivial)
      exact only_updateJobId (fun o ho => by cases o <;> first | cases ho; done | simp) _ _ (by simp)
    | paths jobid p path _ ih =>
      refine occ_pieces ih ?_
      unfold jobPaths
      exact only_updateJobId (fun o ho => by cases o <;> first | cases ho; done | simp) _ _ (by simp)
    | finish job pip ret _ ih =>
      have hq : ∀ o, QuietOp o → (∀ p, o ≠ .insertPip p) ∧
          ∀ n ps, o = .updatePip n ps → ∃ b, ps = [.jobid none, .ready b] :=
        fun o ho => by cases o <;> first | cases ho; done | simp
      refine occ_pieces ih ?_
      unfold jobFinish
      refine Prog.only_bind (Do.only_now.mpr (by simp)) (fun t => ?_)
      refine Prog.only_bind ((Do.only_merge _ _ _).mpr (by simp)) (fun _ => ?_)
      refine Prog.only_bind (only_updateJobId hq _ _ (by simp)) (fun job => ?_)
      refine Prog.only_bind (only_updatePip hq _ _ ?_) (fun _ => trivial)
      refine ⟨by simp, ?_⟩
      intro n ps h
      cases h
      exact ⟨_, rfl⟩
  have := key p hp (by simp [hj])
  exact ⟨Option.isSome_iff_exists.mp this.1, this.2⟩

/-- An occupied pipeline is reached in this way. -/
example : ∃ w, Alone w ∧ w.pips = [{ name := "p", jobid := some 1, sampleid := some "s" }, { name := "q" }] := by
  have h1 := Alone.cmd (.reload dBoot none) .init
  have h2 := Alone.env (.drv okDrv) (.cmd (.driverStart "d" 5000 70 "1.0") h1)
  have h3 := Alone.cmd (.submit (.parsed (plS "s")) none dRun "/home")
    (.cmd (.ready (some dRun) "p") (.cmd (.load (some dRun) "p" "s") h2))
  exact ⟨_, .jm dRun h3, rfl⟩

end Props

end Tomato
