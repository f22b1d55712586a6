import Verif.SystemInv

/-!
# The job manager's pass under interference

The invariant behind "no pipeline gets two jobs" and "a job is launched at most once".
-/

namespace Tomato

/-- Like `safe_of_allow`, with an invariant of the program's own knowledge about the world. -/
theorem safe_keep {α : Type} {P : Op → Prop} {Q : α → Prop} {R G : World → World → Prop}
    {J : World → Prop} (hR : ∀ w w', R w w' → J w → J w')
    (hop : ∀ o w w', P o → R w w' → J w' → G w' (exec o w').2 ∧ J (exec o w').2)
    {p : Prog DB α} (hp : Allow P Q p) {w : World} (hJ : J w) :
    Prog.Safe (S := DB) exec R G (fun a w' => Q a ∧ J w') p w := by
  induction p generalizing w with
  | pure a => exact ⟨hp, hJ⟩
  | raise e => trivial
  | op o k ih =>
    intro w' hRw
    have := hop o w w' hp.1 hRw (hR _ _ hRw hJ)
    exact ⟨this.1, ih _ (hp.2 _) this.2⟩

/-- No row of the pipeline has a job. -/
def FreeAt (n : String) (w : World) : Prop := ∀ p ∈ w.pips, p.name = n → p.jobid = none

/-- Every launch has its folder, and no job was launched twice. -/
def LaunchInv (st : String) (w : World) : Prop :=
  (∀ l ∈ w.launches, (st, l.jobid) ∈ w.jobDirs) ∧ (w.launches.map (·.jobid)).Nodup

/-- Jobs are only assigned to pipelines without job. -/
def Assigns (w w' : World) : Prop :=
  ∀ p' ∈ w'.pips, ∀ j, p'.jobid = some j →
    ∃ p ∈ w.pips, p.name = p'.name ∧ (p.jobid = none ∨ p.jobid = some j)

/-- The invariant of the world. -/
def SInv (st : String) (w : World) : Prop := w.WF ∧ LaunchInv st w

/-- Nobody is assigned a job. -/
def NoAssign (w w' : World) : Prop :=
  ∀ p' ∈ w'.pips, ∀ j, p'.jobid = some j → ∃ p ∈ w.pips, p.name = p'.name ∧ p.jobid = some j

/-- What the others do. -/
def SRely (st : String) (w w' : World) : Prop :=
  SInv st w' ∧ NoAssign w w' ∧ w'.launches = w.launches ∧ w'.jobDirs = w.jobDirs

/-- What the job manager does. -/
def SGuar (st : String) (w w' : World) : Prop := SInv st w' ∧ Assigns w w'

theorem noAssign_of_pips {w w' : World} (h : w'.pips = w.pips) : NoAssign w w' := by
  intro p' hp' j hj
  rw [h] at hp'
  exact ⟨p', hp', rfl, hj⟩

theorem NoAssign.assigns {w w' : World} (h : NoAssign w w') : Assigns w w' := by
  intro p' hp' j hj
  obtain ⟨p, hp, hn, hpj⟩ := h p' hp' j hj
  exact ⟨p, hp, hn, .inr hpj⟩

theorem NoAssign.freeAt {w w' : World} (h : NoAssign w w') {n : String} (hf : FreeAt n w) :
    FreeAt n w' := by
  intro p' hp' hn
  cases hj : p'.jobid with
  | none => rfl
  | some j =>
    obtain ⟨p, hp, hpn, hpj⟩ := h p' hp' j hj
    rw [hf p hp (hpn.trans hn)] at hpj
    cases hpj

theorem assigns_pips {w w' : World} (h : w'.pips = w.pips) : Assigns w w' :=
  (noAssign_of_pips h).assigns

theorem noAssign_trans {a b c : World} (h1 : NoAssign a b) (h2 : NoAssign b c) : NoAssign a c := by
  intro p hp j hj
  obtain ⟨q, hq, hqn, hqj⟩ := h2 p hp j hj
  obtain ⟨r, hr, hrn, hrj⟩ := h1 q hq j hqj
  exact ⟨r, hr, hrn.trans hqn, hrj⟩

theorem sRely_trans {st : String} (a b c : World) (h1 : SRely st a b) (h2 : SRely st b c) :
    SRely st a c :=
  ⟨h2.1, noAssign_trans h1.2.1 h2.2.1, h2.2.2.1.trans h1.2.2.1, h2.2.2.2.trans h1.2.2.2⟩

/-- Applying parameters that do not assign a job. -/
theorem noAssign_updPips (w w' : World) (n : String) (ps : List PipParam)
    (hps : ∀ j, PipParam.jobid (some j) ∉ ps) (h : w'.pips = updPips n ps w.pips) :
    NoAssign w w' := by
  intro p' hp' j hj
  rw [h] at hp'
  simp only [updPips, List.mem_map] at hp'
  obtain ⟨p, hp, hpp⟩ := hp'
  split at hpp
  · refine ⟨p, hp, by rw [← hpp]; simp, ?_⟩
    have key : ∀ (ps : List PipParam) (p : PipState), (∀ j, PipParam.jobid (some j) ∉ ps) →
        (applyPip p ps).jobid = some j → p.jobid = some j := by
      intro ps
      induction ps with
      | nil => intro p _ h; exact h
      | cons a as ih =>
        intro p ha h
        rw [applyPip_cons] at h
        have := ih _ (fun j hj => ha j (by simp [hj])) h
        cases a with
        | ready v => exact this
        | sampleid v => exact this
        | jobid v =>
          simp only [PipParam.apply] at this
          exact absurd (by simp [this]) (ha j)
    exact key ps p hps (by rw [hpp]; exact hj)
  · exact ⟨p, hp, by rw [hpp], by rw [hpp]; exact hj⟩

/-- Operations of the job manager that touch neither pipelines nor folders nor launches. -/
def HarmlessOp : Op → Prop
  | .updateJob _ _ | .killChildren _ | .merge _ _ _ => True
  | o => QuietOp o

theorem harmless_frame {o : Op} (h : HarmlessOp o) (w : World) :
    (exec o w).2.pips = w.pips ∧ (exec o w).2.launches = w.launches ∧
    (exec o w).2.jobDirs = w.jobDirs := by
  refine ⟨?_, ?_, ?_⟩
  · rcases exec_pips o w with h' | ⟨p, rfl, _⟩ | ⟨n, ps, rfl, _⟩
    · exact h'
    · cases h
    · cases h
  · rcases exec_launches o w with h' | ⟨j, n, rfl, _⟩
    · exact h'
    · cases h
  · rcases exec_jobDirs o w with h' | ⟨s, j, rfl, _⟩
    · exact h'
    · cases h

theorem quiet_harmless {o : Op} (h : QuietOp o) : HarmlessOp o := by
  cases o <;> first | exact h | trivial

theorem sInv_frame {st : String} {w w' : World} (h : LaunchInv st w) (hl : w'.launches = w.launches)
    (hd : w'.jobDirs = w.jobDirs) : LaunchInv st w' := by
  unfold LaunchInv at *
  rw [hl, hd]; exact h

theorem harmless_guar {st : String} {o : Op} (h : HarmlessOp o) {w : World} (hw : SInv st w) :
    SGuar st w (exec o w).2 := by
  obtain ⟨h1, h2, h3⟩ := harmless_frame h w
  exact ⟨⟨exec_wf o w hw.1, sInv_frame hw.2 h2 h3⟩, (noAssign_of_pips h1).assigns⟩

/-- The pipelines the job manager thinks are available have no job. -/
def AvailFree (avail : Dict String PipState) (w : World) : Prop :=
  ∀ n, (Dict.get? avail n).isSome → FreeAt n w

theorem availFree_frame {avail : Dict String PipState} {w w' : World} (h : AvailFree avail w)
    (hp : w'.pips = w.pips) : AvailFree avail w' := by
  intro n hn p hp'
  rw [hp] at hp'
  exact h n hn p hp'

theorem availFree_rely {st : String} {avail : Dict String PipState} {w w' : World}
    (hR : SRely st w w') (h : AvailFree avail w) : AvailFree avail w' :=
  fun n hn => hR.2.1.freeAt (h n hn)

variable {st : String}

theorem safe_harmless {α : Type} {Q : α → Prop} {p : Prog DB α} (hp : Allow HarmlessOp Q p)
    {avail : Dict String PipState} {w : World} (hJ : AvailFree avail w) :
    Prog.Safe (S := DB) exec (SRely st) (SGuar st) (fun a w' => Q a ∧ AvailFree avail w') p w :=
  safe_keep (fun _ _ hR hJ => availFree_rely hR hJ)
    (fun _ _ w' ho hR hJ => ⟨harmless_guar ho hR.1, availFree_frame hJ (harmless_frame ho w').1⟩)
    hp hJ

theorem safe_assignJob (d : Daemon) (hd : d.settings.storage = st) (jobid : Nat) (job : Job)
    (hid : job.id = jobid) (ns : List String) (avail : Dict String PipState) (w : World)
    (hJ : AvailFree avail w) :
    Prog.Safe (S := DB) exec (SRely st) (SGuar st) (fun a w' => AvailFree a w')
      (assignJob d jobid job ns avail) w := by
  induction ns generalizing w with
  | nil => exact hJ
  | cons n ns ih =>
    unfold assignJob
    split
    · exact ih w hJ
    · next ps hps =>
      split
      · exact ih w hJ
      · -- make the folder
        refine Prog.safe_bind (Q := fun _ w' => AvailFree avail w' ∧ SInv st w' ∧
            (st, jobid) ∈ w'.jobDirs ∧ jobid ∉ w'.launches.map (·.jobid)) ?_ ?_
        · refine Prog.safe_call (S := DB) ?_ ?_
          · intro w' hR
            refine ⟨⟨exec_wf _ _ hR.1.1, ?_⟩, ?_⟩
            · obtain ⟨h1, h2⟩ := hR.1.2
              simp only [exec]
              split
              · exact ⟨h1, h2⟩
              · exact ⟨fun l hl => List.mem_cons_of_mem _ (h1 l hl), h2⟩
            · apply assigns_pips
              simp only [exec]
              split <;> rfl
          · intro w' hR a ha
            have hJ' := availFree_rely hR hJ
            by_cases hex : (d.settings.storage, jobid) ∈ w'.jobDirs
            · simp only [exec, hex, if_true] at ha
              cases ha
            · simp only [exec, hex, if_false]
              obtain ⟨h1, h2⟩ := hR.1.2
              refine ⟨hJ', ⟨?_, ?_⟩, ?_, ?_⟩
              · exact ⟨hR.1.1.1, hR.1.1.2, hR.1.1.3, hR.1.1.4⟩
              · exact ⟨fun l hl => List.mem_cons_of_mem _ (h1 l hl), h2⟩
              · rw [hd]; simp
              · intro hmem
                rw [List.mem_map] at hmem
                obtain ⟨l, hl, hlid⟩ := hmem
                have := h1 l hl
                rw [hlid] at this
                rw [hd] at hex
                exact hex this
        · rintro _ w1 ⟨hJ1, hI1, hdir1, hnl1⟩
          split
          · trivial
          · -- reserve the pipeline
            refine Prog.safe_bind (Q := fun _ w' => AvailFree (Dict.erase avail n) w' ∧
                (st, jobid) ∈ w'.jobDirs ∧ jobid ∉ w'.launches.map (·.jobid)) ?_ ?_
            · unfold updatePip
              refine Prog.safe_bind (Q := fun _ w' => AvailFree (Dict.erase avail n) w' ∧
                  (st, jobid) ∈ w'.jobDirs ∧ jobid ∉ w'.launches.map (·.jobid)) ?_ ?_
              · refine Prog.safe_call (S := DB) ?_ ?_
                · intro w' hR
                  refine ⟨⟨exec_wf _ _ hR.1.1, sInv_frame hR.1.2 rfl rfl⟩, ?_⟩
                  have hfree : FreeAt n w' := availFree_rely hR hJ1 n (by simp [hps])
                  intro p' hp' j hj
                  simp only [exec_updatePip, updPips, List.mem_map] at hp'
                  obtain ⟨p, hp, hpp⟩ := hp'
                  split at hpp
                  · next hpn =>
                    exact ⟨p, hp, by rw [← hpp, applyPip_name], .inl (hfree p hp hpn)⟩
                  · exact ⟨p, hp, by rw [hpp], .inr (by rw [hpp]; exact hj)⟩
                · intro w' hR a _
                  have hJ' := availFree_rely hR hJ1
                  refine ⟨?_, ?_, ?_⟩
                  · intro m hm p' hp' hpn'
                    rw [Dict.get?_erase] at hm
                    split at hm
                    · cases hm
                    · next hne =>
                      simp only [exec_updatePip, updPips, List.mem_map] at hp'
                      obtain ⟨p, hp, hpp⟩ := hp'
                      split at hpp
                      · next hpn =>
                        rw [← hpp] at hpn'
                        simp only [applyPip_name] at hpn'
                        exact absurd (hpn.symm.trans hpn') (by
                          first | exact hne | exact fun h => hne h.symm)
                      · rw [← hpp]; exact hJ' m hm p hp (by rw [hpp]; exact hpn')
                  · simp only [exec_updatePip]; rw [hR.2.2.2]; exact hdir1
                  · simp only [exec_updatePip]; rw [hR.2.2.1]; exact hnl1
              · rintro _ w2 ⟨hJ2, hdir2, hnl2⟩
                refine Prog.safe_call (S := DB) ?_ ?_
                · intro w' hR; exact harmless_guar (o := .getPip n) trivial hR.1
                · intro w' hR a _
                  exact ⟨availFree_rely hR hJ2, by rw [exec_getPip, hR.2.2.2]; exact hdir2,
                    by rw [exec_getPip, hR.2.2.1]; exact hnl2⟩
            · -- launch
              rintro _ w2 ⟨hJ2, hdir2, hnl2⟩
              refine Prog.safe_bind (Q := fun _ w' => AvailFree (Dict.erase avail n) w') ?_ ?_
              · refine Prog.safe_call (S := DB) ?_ ?_
                · intro w' hR
                  refine ⟨⟨exec_wf _ _ hR.1.1, ?_⟩, assigns_pips rfl⟩
                  obtain ⟨h1, h2⟩ := hR.1.2
                  simp only [exec]
                  rw [hid]
                  refine ⟨?_, ?_⟩
                  · intro l hl
                    rcases List.mem_append.mp hl with hl | hl
                    · exact h1 l hl
                    · rw [List.mem_singleton.mp hl, hR.2.2.2]; exact hdir2
                  · simp only [List.map_append, List.map_cons, List.map_nil]
                    rw [List.nodup_append]
                    refine ⟨h2, by simp, ?_⟩
                    intro a ha b hb
                    rw [List.mem_singleton.mp hb]
                    rintro rfl
                    rw [hR.2.2.1] at ha
                    exact hnl2 ha
                · intro w' hR a _
                  exact availFree_frame (availFree_rely hR hJ2) rfl
              · rintro _ w3 hJ3
                have hq : ∀ o, QuietOp o → HarmlessOp o := fun _ h => quiet_harmless h
                refine Prog.safe_mono (safe_harmless (Q := fun a => a = Dict.erase avail n)
                  (avail := Dict.erase avail n) ?_ hJ3) ?_
                · refine allow_bind (allow_of_only (Do.only_now.mpr trivial)) (fun t _ => ?_)
                  exact allow_bind (allow_of_only (only_updateJobId hq _ _ trivial))
                    (fun _ _ => rfl)
                · rintro a w4 ⟨rfl, h⟩; exact h

theorem safe_actionLoop (d : Daemon) (hd : d.settings.storage = st)
    (matched : Dict Nat (List String)) (ids : List Nat) (avail : Dict String PipState) (w : World)
    (hJ : AvailFree avail w) :
    Prog.Safe (S := DB) exec (SRely st) (SGuar st) (fun _ _ => True)
      (actionLoop d matched ids avail) w := by
  induction ids generalizing avail w with
  | nil => trivial
  | cons id ids ih =>
    unfold actionLoop
    refine Prog.safe_bind (safe_harmless (allow_getJobId (fun _ h => quiet_harmless h) id) hJ) ?_
    rintro job w1 ⟨hid, hJ1⟩
    split
    · trivial
    · refine Prog.safe_bind (safe_assignJob d hd id job hid _ avail w1 hJ1) ?_
      intro avail' w2 hJ2
      exact ih avail' w2 hJ2

theorem dict_ofList_mem {K V : Type} [DecidableEq K] (l : List (K × V)) (k : K) (v : V)
    (h : Dict.get? (Dict.ofList l) k = some v) : (k, v) ∈ l := by
  have key : ∀ (l : List (K × V)) (d : Dict K V),
      Dict.get? (l.foldl (fun d kv => Dict.set d kv.1 kv.2) d) k = some v →
      (k, v) ∈ l ∨ Dict.get? d k = some v := by
    intro l
    induction l with
    | nil => intro d h; exact .inr h
    | cons x xs ih =>
      intro d h
      rcases ih _ h with h | h
      · exact .inl (by simp [h])
      · rw [Dict.get?_set] at h
        split at h
        · next hk => cases h; left; simp [← hk]
        · exact .inr h
  rcases key l [] h with h | h
  · exact h
  · cases h

theorem safe_jobManagerPass (d : Daemon) (hd : d.settings.storage = st) (w : World) :
    Prog.Safe (S := DB) exec (SRely st) (SGuar st) (fun _ _ => True) (jobManagerPass d) w := by
  have hq : ∀ o, QuietOp o → HarmlessOp o := fun _ h => quiet_harmless h
  have hempty : ∀ w, AvailFree [] w := by intro w n hn; cases hn
  unfold jobManagerPass
  refine Prog.safe_bind (safe_harmless (Q := fun _ => True) (allow_of_only (only_manageRunning hq
    (fun _ => trivial) (fun _ _ _ => trivial) (fun _ _ _ _ => trivial))) (hempty w)) ?_
  rintro _ w1 -
  refine Prog.safe_bind (safe_harmless (Q := fun _ => True) (allow_of_only (only_checkQueued hq
    (fun _ => trivial) d)) (hempty w1)) ?_
  rintro matched w2 -
  unfold actionQueued
  refine Prog.safe_bind (Q := fun free w' => ∀ p ∈ free, FreeAt p.name w') ?_ ?_
  · refine Prog.safe_call (S := DB) ?_ ?_
    · intro w' hR; exact harmless_guar (o := .pipsWhere _) trivial hR.1
    · intro w' hR free hfree p hp
      simp only [exec_pipsWhere] at hfree ⊢
      cases hfree
      rw [List.mem_filter] at hp
      intro p' hp' hn
      have h1 := hR.1.1.pip?_mem hp.1
      have h2 := hR.1.1.pip?_mem hp'
      rw [hn, h1] at h2
      cases h2
      have := hp.2
      simpa using this
  · intro free w3 hfree
    refine safe_actionLoop d hd _ _ _ w3 ?_
    intro n hn
    obtain ⟨ps, hps⟩ := Option.isSome_iff_exists.mp hn
    have := dict_ofList_mem _ _ _ hps
    rw [List.mem_map] at this
    obtain ⟨p, hp, heq⟩ := this
    cases heq
    exact hfree _ hp

end Tomato
