import Verif.CancelSafe

/-!
# Executions with a restricted set of commands, and finished jobs

The machinery behind the positive part of C22.
-/

namespace Tomato

/-- The program is (the rest of) a command of the kind `K` that may run. -/
def FromCmdK (K : Cmd → Prop) (w : World) (p : P Unit) : Prop :=
  ∃ c : Cmd, K c ∧ (∀ l, c.launch = some l → l ∈ w.launches) ∧
    Allow (fun o => QuietOp o ∨ c.writes o) (fun _ => True) p

theorem FromCmdK.mono {K : Cmd → Prop} {w w' : World} {p : P Unit} (h : FromCmdK K w p)
    (hl : ∀ l ∈ w.launches, l ∈ w'.launches) : FromCmdK K w' p := by
  obtain ⟨c, h0, h1, h2⟩ := h
  exact ⟨c, h0, fun l hc => hl l (h1 l hc), h2⟩

/-- What commands of the kind `K`, and the environment, do to the world. -/
inductive OtherStepK (K : Cmd → Prop) (w w' : World) : Prop
  | same (h : w' = w)
  | env (e : EnvAct) (h : w' = e.apply w)
  | cmd (c : Cmd) (hk : K c) (hc : ∀ l, c.launch = some l → l ∈ w.launches) (o : Op)
      (ho : QuietOp o ∨ c.writes o) (h : w' = (exec o w).2)

/-- `step_cases` for restricted commands. -/
theorem step_casesK {K : Cmd → Prop} (hK : ∃ c : Cmd, K c ∧ c.launch = none) {st : String}
    {s s' : Sys} {a : Act}
    (ho : ∀ p ∈ s.others, FromCmdK K s.w p) (ha : ∀ c, a = .spawn c → K c)
    (h : act st s a = some s') :
    (∀ p ∈ s'.others, FromCmdK K s'.w p) ∧
    ((∃ o k, s.jm = .op o k ∧ s'.jm = k (exec o s.w).1 ∧ s'.w = (exec o s.w).2) ∨
     (OtherStepK K s.w s'.w ∧ (s'.jm = s.jm ∨ s'.jm = .pure ())) ∨
     (s'.w = s.w ∧ ∃ d : Daemon, d.settings.storage = st ∧ s'.jm = jobManagerPass d)) := by
  cases a with
  | jmStart d =>
    simp only [act] at h
    split at h
    · next hd => cases h; exact ⟨ho, .inr (.inr ⟨rfl, d, hd.2, rfl⟩)⟩
    · cases h
  | jmStep =>
    simp only [act] at h
    split at h
    · next p w hp =>
      unfold stepProg at hp
      split at hp
      · next o k hk =>
        cases hp; cases h
        exact ⟨fun p hp => (ho p hp).mono (launches_mono o s.w), .inl ⟨o, k, hk, rfl, rfl⟩⟩
      · cases hp
    · cases h
  | jmKill => cases h; exact ⟨ho, .inr (.inl ⟨.same rfl, .inr rfl⟩)⟩
  | spawn c =>
    have key : (∀ l, c.launch = some l → l ∈ s.w.launches) →
        ∀ p ∈ s.others ++ [c.prog], FromCmdK K s.w p := by
      intro hl p hp
      rcases List.mem_append.mp hp with hp | hp
      · exact ho p hp
      · rw [List.mem_singleton.mp hp]; exact ⟨c, ha c rfl, hl, c.allow_ops⟩
    simp only [act] at h
    split at h
    · next hc =>
      cases h
      exact ⟨key (by rw [hc]; rintro l ⟨⟩), .inr (.inl ⟨.same rfl, .inl rfl⟩)⟩
    · next l hc =>
      split at h
      · next hlt =>
        cases h
        refine ⟨key ?_, .inr (.inl ⟨.same rfl, .inl rfl⟩)⟩
        rw [hc]; rintro l' ⟨⟩
        exact List.count_pos_iff.mp (by omega)
      · cases h
  | step i =>
    simp only [act] at h
    split at h
    · cases h
    · next p hp =>
      split at h
      · next p' w hs =>
        unfold stepProg at hs
        split at hs
        · next o k =>
          cases hs; cases h
          have hmem := List.mem_of_getElem? hp
          obtain ⟨c, hc0, hc1, hc2⟩ := ho _ hmem
          refine ⟨fun q hq => ?_, .inr (.inl ⟨.cmd c hc0 hc1 o hc2.1 rfl, .inl rfl⟩)⟩
          rcases mem_set_of hq with hq | rfl
          · exact (ho q hq).mono (launches_mono o s.w)
          · exact ⟨c, hc0, fun l hl => launches_mono o s.w l (hc1 l hl), hc2.2 s.w⟩
        · cases hs
      · cases h
  | kill i =>
    cases h
    refine ⟨fun q hq => ?_, .inr (.inl ⟨.same rfl, .inl rfl⟩)⟩
    rcases mem_set_of hq with hq | rfl
    · exact ho q hq
    · obtain ⟨c, h1, h2⟩ := hK
      exact ⟨c, h1, by rw [h2]; rintro l ⟨⟩, trivial⟩
  | env e =>
    cases h
    refine ⟨fun p hp => (ho p hp).mono ?_, .inr (.inl ⟨.env e rfl, .inl rfl⟩)⟩
    intro l hl
    rw [(e.apply_eq s.w).2.2.2.2.2]; exact hl

/-! ## A finished job -/

/-- The job exists and has the status `f`. -/
def HasStatus (id : Nat) (f : JobStatus) (w : World) : Prop :=
  w.WF ∧ (∃ j ∈ w.jobs, j.id = id) ∧ ∀ j ∈ w.jobs, j.id = id → j.status = f

theorem hasStatus_exec {id : Nat} {f : JobStatus} {o : Op} {w : World} (h : HasStatus id f w)
    (hu : ∀ i ps, o = .updateJob i ps → i ≠ id) : HasStatus id f (exec o w).2 := by
  obtain ⟨hwf, ⟨j0, hj0, hid0⟩, hall⟩ := h
  have hb := hwf.bound j0 hj0
  refine ⟨exec_wf o w hwf, ?_, ?_⟩
  · rcases exec_jobs o w with h | ⟨j, rfl, h⟩ | ⟨i, ps, rfl, h⟩ <;> rw [h]
    · exact ⟨j0, hj0, hid0⟩
    · exact ⟨j0, List.mem_append_left _ hj0, hid0⟩
    · refine ⟨if j0.id = i then applyJob j0 ps else j0, List.mem_map.mpr ⟨j0, hj0, rfl⟩, ?_⟩
      split
      · rw [applyJob_id]; exact hid0
      · exact hid0
  · intro j hj hid
    rcases exec_jobs o w with h | ⟨j', rfl, h⟩ | ⟨i, ps, rfl, h⟩ <;> rw [h] at hj
    · exact hall j hj hid
    · rcases List.mem_append.mp hj with hj | hj
      · exact hall j hj hid
      · rw [List.mem_singleton.mp hj] at hid
        simp only at hid
        omega
    · simp only [updJobs, List.mem_map] at hj
      obtain ⟨j1, hj1, hjj⟩ := hj
      split at hjj
      · next hi =>
        have hid1 : j1.id = id := by rw [← hid, ← hjj, applyJob_id]
        exact absurd (hi.symm.trans hid1) (hu i ps rfl)
      · rw [← hjj]; exact hall j1 hj1 (by rw [hjj]; exact hid)

/-- Commands that do not concern the job: they are not its process and do not cancel it. -/
def Spares (id : Nat) (c : Cmd) : Prop :=
  (∀ ids, c = .cancel ids → id ∉ ids) ∧ (∀ l, c.launch = some l → l.jobid ≠ id)

/-- The relation kept by everybody: the job keeps its status, and is not launched. -/
def StatusRel (id : Nat) (f : JobStatus) (w w' : World) : Prop :=
  HasStatus id f w' ∧ ∀ l ∈ w'.launches, l.jobid = id → l ∈ w.launches

theorem statusRel_leavesAlone {id : Nat} {f : JobStatus} {o : Op} {w : World}
    (h : HasStatus id f w) (ho : LeavesAlone id o) : StatusRel id f w (exec o w).2 := by
  refine ⟨hasStatus_exec h (by rintro i ps rfl; exact ho), ?_⟩
  intro l hl he
  rcases exec_launches o w with h' | ⟨i, n, rfl, h'⟩ <;> rw [h'] at hl
  · exact hl
  · rcases List.mem_append.mp hl with hl | hl
    · exact hl
    · rw [List.mem_singleton.mp hl] at he
      exact absurd he ho

theorem statusRel_other {id : Nat} {f : JobStatus} {w w' : World} (h : HasStatus id f w)
    (hs : OtherStepK (Spares id) w w') : StatusRel id f w w' := by
  cases hs with
  | same h' => subst h'; exact ⟨h, fun l hl _ => hl⟩
  | env e h' =>
    subst h'
    obtain ⟨h1, -, -, -, -, h6⟩ := e.apply_eq w
    obtain ⟨hwf, he, hall⟩ := h
    exact ⟨⟨e.wf hwf, by rw [h1]; exact he, by rw [h1]; exact hall⟩,
      fun l hl _ => by rw [h6] at hl; exact hl⟩
  | cmd c hk hc o ho h' =>
    subst h'
    refine ⟨hasStatus_exec h ?_, ?_⟩
    · rintro i ps rfl
      rcases ho with ho | ho
      · cases ho
      · cases c <;> try exact False.elim ho
        · next ids =>
          rintro rfl
          exact hk.1 ids rfl ho.1
        · rintro rfl
          exact hk.2 _ rfl ho.1.symm
    · intro l hl _
      rcases exec_launches o w with h' | ⟨i, n, rfl, h'⟩
      · rw [h'] at hl; exact hl
      · rcases ho with ho | ho
        · cases ho
        · cases c <;> cases ho

/-- What the others keep. -/
def StatusRely (id : Nat) (f : JobStatus) (_ w' : World) : Prop := HasStatus id f w'

theorem safe_leavesAlone' {id : Nat} {f : JobStatus} {α : Type} {Q : α → Prop} {p : Prog DB α}
    (hp : Allow (LeavesAlone id) Q p) (w : World) :
    Prog.Safe (S := DB) exec (StatusRely id f) (StatusRel id f) (fun a _ => Q a) p w :=
  safe_of_allow' (fun _ _ _ ho hR => statusRel_leavesAlone hR ho) hp w

/-- The supervision of a finished job only looks. -/
theorem only_manageJob_final {Q : Op → Prop} (hq : ∀ o, QuietOp o → Q o) (job : Job)
    (hp : job.pid.isSome) (hf : job.status.final = true) :
    Prog.Only (S := DB) Q (manageJob job) := by
  unfold manageJob
  have hd : ∀ a b, Prog.Only (S := DB) Q (manageJob.decideJob job a b) := by
    intro a b
    have h1 : job.status ≠ .rd := by intro h; rw [h] at hf; cases hf
    have h2 : job.status ≠ .r := by intro h; rw [h] at hf; cases hf
    unfold manageJob.decideJob
    rw [if_neg h1, if_neg (by rintro ⟨-, h⟩; exact h2 h)]
    trivial
  split
  · next hn => rw [hn] at hp; cases hp
  · refine Prog.only_bind ((Do.only_pidExists _).mpr (hq _ trivial)) (fun ex => ?_)
    split
    · exact Prog.only_bind ((Do.only_notZombie _).mpr (hq _ trivial)) (fun _ => hd _ _)
    · exact hd _ _

theorem safe_pass_final (id : Nat) (f : JobStatus) (hf : f.final = true) (d : Daemon)
    (w : World) :
    Prog.Safe (S := DB) exec (StatusRely id f) (StatusRel id f) (fun _ _ => True)
      (jobManagerPass d) w := by
  have hq : ∀ o, QuietOp o → LeavesAlone id o := fun _ h => quiet_leavesAlone id h
  unfold jobManagerPass
  refine Prog.safe_bind (Q := fun _ _ => True) ?_ ?_
  · unfold manageRunning
    refine Prog.safe_bind (Q := fun l _ => ∀ j ∈ l, j.pid.isSome ∧ (j.id = id → j.status = f))
      ?_ ?_
    · refine Prog.safe_call (S := DB) ?_ ?_
      · intro w' hR; exact statusRel_leavesAlone hR (o := .jobsWhere _) trivial
      · intro w' hR l hl j hj
        simp only [exec_jobsWhere] at hl
        cases hl
        rw [List.mem_filter] at hj
        exact ⟨hj.2, hR.2.2 j hj.1⟩
    · intro l w1 hl
      refine Prog.safe_mono (safe_leavesAlone' (Q := fun _ => True) (allow_of_only ?_) w1)
        (fun _ _ h => h)
      refine Prog.only_forEach fun j hj => ?_
      by_cases hid : j.id = id
      · exact only_manageJob_final hq j (hl j hj).1 (by rw [(hl j hj).2 hid]; exact hf)
      · exact only_manageJob hq (fun _ => trivial) (fun _ _ _ => trivial) j (fun _ _ _ => hid)
  · rintro _ w1 -
    refine Prog.safe_bind (Q := fun (m : Dict Nat (List String)) _ => id ∉ Dict.keys m) ?_ ?_
    · unfold checkQueued
      refine Prog.safe_bind (Q := fun l _ => ∀ j ∈ l, j.id ≠ id) ?_ ?_
      · refine Prog.safe_call (S := DB) ?_ ?_
        · intro w' hR; exact statusRel_leavesAlone hR (o := .jobsWhere _) trivial
        · intro w' hR l hl j hj hid
          simp only [exec_jobsWhere] at hl
          cases hl
          rw [List.mem_filter] at hj
          rw [hR.2.2 j hj.1 hid] at hj
          cases f <;> first | exact absurd hf (by decide) | exact absurd hj.2 (by decide)
      · intro l w2 hl
        refine Prog.safe_mono (safe_leavesAlone' (allow_checkLoop hq d l
          (fun j hj => hl j hj) []) w2) ?_
        intro m w3 hm hk
        rcases hm id hk with h | h
        · cases h
        · rw [List.mem_map] at h
          obtain ⟨j, hj, hjid⟩ := h
          exact hl j hj hjid
    · intro m w2 hm
      unfold actionQueued
      refine Prog.safe_bind (Q := fun _ _ => True) ?_ ?_
      · refine Prog.safe_call (S := DB) ?_ ?_
        · intro w' hR; exact statusRel_leavesAlone hR (o := .pipsWhere _) trivial
        · intros; trivial
      · rintro free w3 -
        have hne : ∀ i ∈ sortIds (Dict.keys m), i ≠ id := by
          rintro i hi rfl
          rw [mem_sortIds] at hi
          exact hm hi
        exact safe_leavesAlone' (allow_actionLoop hq _ _ _ (fun _ _ => trivial)
          (fun _ _ _ => trivial) (fun i hi _ => hne i hi) (fun i hi _ => hne i hi) _) w3

end Tomato
