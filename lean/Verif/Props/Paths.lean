import Verif.Abides
import Verif.Props.Races
import Std.Data.String.ToNat

/-!
# The files of different jobs: C67

A job process reads its payload and its folder from the `jobdata.json` that the job manager has
written when launching it (job.py:269-285, 404-412).  In `Verif/System.lean` both are arbitrary;
here executions are restricted to those in which they are what the job manager wrote.
-/

namespace Tomato.Props

/-- job.py:269-270: the folder of a job. -/
def jobFolder (st : String) (id : Nat) : String := s!"{st}/{id}"

/-- job.py:458-460: the snapshot file of a job. -/
def snapPath (p : Payload) (id : Nat) : String := s!"{p.outPath.getD ""}/snapshot.{id}.nc"

/-- A job process is started with the payload of the job and the folder of the job. -/
def FromFile (st : String) (s : Sys) (c : Cmd) : Prop :=
  ∀ j i pl pip path m h, c = .tomatoJob j i pl pip path m h →
    (s.w.job? j).map (·.payload) = some pl ∧ path = jobFolder st j

/-- Executions in which all job processes read the `jobdata.json` written for them. -/
inductive StepsFile (st : String) : Sys → Sys → Prop
  | refl (s : Sys) : StepsFile st s s
  | tail {s s' s'' : Sys} {a : Act} : StepsFile st s s' → act st s' a = some s'' →
      (∀ c, a = .spawn c → FromFile st s' c) → StepsFile st s s''

theorem StepsFile.steps {st : String} {s s' : Sys} (h : StepsFile st s s') : Steps st s s' := by
  induction h with
  | refl => exact .refl _
  | tail _ ha _ ih => exact .tail ih ⟨_, ha⟩

/-! ## Names -/

theorem split_last_slash {a b o o' : List Char} (ha : '/' ∉ a) (hb : '/' ∉ b)
    (h : o ++ '/' :: a = o' ++ '/' :: b) : o = o' ∧ a = b := by
  rcases List.append_eq_append_iff.mp h with ⟨t, h1, h2⟩ | ⟨t, h1, h2⟩
  · cases t with
    | nil => simp at h1 h2; exact ⟨h1.symm, h2⟩
    | cons c t =>
      simp only [List.cons_append, List.cons.injEq] at h2
      exact absurd (by rw [h2.2]; simp) ha
  · cases t with
    | nil => simp at h1 h2; exact ⟨h1, h2.symm⟩
    | cons c t =>
      simp only [List.cons_append, List.cons.injEq] at h2
      exact absurd (by rw [h2.2]; simp) hb

theorem digits_plain (n : Nat) : '/' ∉ n.repr.toList := by
  rw [Nat.toList_repr]
  intro h
  have := Nat.isDigit_of_mem_toDigits (by decide) (by decide) h
  revert this; decide

/-- Joining a folder and a file name. -/
theorem join_inj {o o' a b : String} (ha : '/' ∉ a.toList) (hb : '/' ∉ b.toList)
    (h : o ++ "/" ++ a = o' ++ "/" ++ b) : o = o' ∧ a = b := by
  have h1 := congrArg String.toList h
  simp only [String.toList_append] at h1
  have h2 : o.toList ++ '/' :: a.toList = o'.toList ++ '/' :: b.toList := by
    simpa using h1
  obtain ⟨h3, h4⟩ := split_last_slash ha hb h2
  exact ⟨String.toList_inj.mp h3, String.toList_inj.mp h4⟩

theorem jobFolder_eq (st : String) (id : Nat) : jobFolder st id = st ++ "/" ++ id.repr := by
  simp [jobFolder, toString]

theorem jobFolder_inj {st : String} {i j : Nat} (h : jobFolder st i = jobFolder st j) : i = j := by
  rw [jobFolder_eq, jobFolder_eq] at h
  exact Nat.repr_injective (join_inj (digits_plain _) (digits_plain _) h).2

/-- The name of the result file, without the folder. -/
def resName (p : Payload) (id : Nat) : String :=
  match p.outPrefix with
  | none => "results." ++ id.repr ++ ".nc"
  | some x => x ++ ".nc"

/-- The name of the snapshot file, without the folder. -/
def snapName (id : Nat) : String := "snapshot." ++ id.repr ++ ".nc"

theorem resPath_eq (p : Payload) (id : Nat) :
    resPath p id = p.outPath.getD "" ++ "/" ++ resName p id := by
  unfold resPath resName
  cases p.outPrefix <;> simp [toString, String.append_assoc]

theorem snapPath_eq (p : Payload) (id : Nat) :
    snapPath p id = p.outPath.getD "" ++ "/" ++ snapName id := by
  have h : "/snapshot." = "/" ++ "snapshot." := by decide
  unfold snapPath snapName
  simp only [toString]
  rw [h]
  simp only [String.append_assoc]

theorem snapshotPath_eq (id : Nat) : snapshotPath id = snapName id := by
  simp [snapshotPath, snapName, toString]

/-- The prefix chosen by the user, if any, is a plain file name that does not imitate the names
that tomato gives to the files of other jobs. -/
def PlainPrefix (p : Payload) : Prop :=
  ∀ x, p.outPrefix = some x →
    '/' ∉ x.toList ∧ ∀ n : Nat, x ≠ "results." ++ n.repr ∧ x ≠ "snapshot." ++ n.repr

/-- Both users chose the same folder and the same prefix. -/
def SameChoice (p q : Payload) : Prop :=
  p.outPath.getD "" = q.outPath.getD "" ∧ ∃ x, p.outPrefix = some x ∧ q.outPrefix = some x

theorem resName_plain {p : Payload} (h : PlainPrefix p) (id : Nat) :
    '/' ∉ (resName p id).toList := by
  unfold resName
  have h1 : '/' ∉ "results.".toList := by decide
  have h2 : '/' ∉ ".nc".toList := by decide
  split
  · simp only [String.toList_append, List.mem_append, not_or]
    exact ⟨⟨h1, digits_plain id⟩, h2⟩
  · next x hx =>
    simp only [String.toList_append, List.mem_append, not_or]
    exact ⟨(h x hx).1, h2⟩

theorem snapName_plain (id : Nat) : '/' ∉ (snapName id).toList := by
  unfold snapName
  have h1 : '/' ∉ "snapshot.".toList := by decide
  have h2 : '/' ∉ ".nc".toList := by decide
  simp only [String.toList_append, List.mem_append, not_or]
  exact ⟨⟨h1, digits_plain id⟩, h2⟩

theorem append_right_inj' {a b c : String} (h : a ++ c = b ++ c) : a = b := by
  have := congrArg String.toList h
  simp only [String.toList_append] at this
  exact String.toList_inj.mp (List.append_cancel_right this)

theorem append_left_inj' {a b c : String} (h : c ++ a = c ++ b) : a = b := by
  have := congrArg String.toList h
  simp only [String.toList_append] at this
  exact String.toList_inj.mp (List.append_cancel_left this)

theorem resName_inj {p q : Payload} {i j : Nat} (hp : PlainPrefix p) (hq : PlainPrefix q)
    (hij : i ≠ j) (h : resName p i = resName q j) :
    ∃ x, p.outPrefix = some x ∧ q.outPrefix = some x := by
  unfold resName at h
  cases hp' : p.outPrefix <;> cases hq' : q.outPrefix <;> rw [hp', hq'] at h <;>
    have h := append_right_inj' h
  · exact absurd (Nat.repr_injective (append_left_inj' h)) hij
  · exact absurd h.symm ((hq _ hq').2 i).1
  · exact absurd h ((hp _ hp').2 j).1
  · exact ⟨_, rfl, by rw [h]⟩

theorem resName_ne_snapName {p : Payload} (hp : PlainPrefix p) (i j : Nat) :
    resName p i ≠ snapName j := by
  intro h
  unfold resName snapName at h
  cases hp' : p.outPrefix <;> rw [hp'] at h <;> have h := append_right_inj' h
  · have := congrArg String.toList h
    simp only [String.toList_append] at this
    have h1 : "results.".toList = 'r' :: "esults.".toList := by decide
    have h2 : "snapshot.".toList = 's' :: "napshot.".toList := by decide
    rw [h1, h2] at this
    simp at this
  · exact ((hp _ hp').2 j).2 h

theorem snapName_inj {i j : Nat} (h : snapName i = snapName j) : i = j :=
  Nat.repr_injective (append_left_inj' (append_right_inj' h))

theorem resPath_clash {p q : Payload} {i j : Nat} (hp : PlainPrefix p) (hq : PlainPrefix q)
    (hij : i ≠ j) (h : resPath p i = resPath q j) : SameChoice p q := by
  rw [resPath_eq, resPath_eq] at h
  obtain ⟨h1, h2⟩ := join_inj (resName_plain hp i) (resName_plain hq j) h
  exact ⟨h1, resName_inj hp hq hij h2⟩

/-! ## The invariant -/

/-- The paths in the row of a job are its own, if `Pay` gives the payloads of the jobs. -/
structure OwnPaths (Pay : Nat → Payload) (st : String) (j : Job) : Prop where
  res : ∀ f, j.respath = some f → f = resPath (Pay j.id) j.id
  snap : ∀ f, j.snappath = some f → f = snapPath (Pay j.id) j.id
  folder : ∀ f, j.jobpath = some f → f = jobFolder st j.id

/-- The paths in the table and the result files written. -/
structure PathInv (Pay : Nat → Payload) (st : String) (w : World) : Prop where
  rows : ∀ j ∈ w.jobs, OwnPaths Pay st j
  files : ∀ x ∈ w.merged, x.2 = resPath (Pay x.1) x.1 ∨ x.2 = snapshotPath x.1

/-- The operations that keep `PathInv`: in particular data is only merged from the folder of the
job into the result file or a snapshot of the job. -/
def PathOp (Pay : Nat → Payload) (st : String) : Op → Prop
  | .insertJob j => j.respath = none ∧ j.snappath = none ∧ j.jobpath = none
  | .updateJob id ps => ∀ j : Job, j.id = id → OwnPaths Pay st j → OwnPaths Pay st (applyJob j ps)
  | .merge id jp f =>
      (∀ x, jp = some x → x = jobFolder st id) ∧
      (∀ x, f = some x → x = resPath (Pay id) id ∨ x = snapshotPath id)
  | _ => True

theorem exec_merged (o : Op) (w : World) :
    (exec o w).2.merged = w.merged ∨
    ∃ id jp f, o = .merge id jp (some f) ∧ (exec o w).2.merged = w.merged ++ [(id, f)] := by
  cases o with
  | askDriver port c =>
    left; cases port with
    | none => rfl
    | some p => simp only [exec]; split <;> rfl
  | askDriverLpp port c => left; cases port <;> rfl
  | askDriverTimeout port c =>
    left; cases port with
    | none => rfl
    | some p => simp only [exec]; split <;> rfl
  | merge id jp f =>
    simp only [exec]; split
    · exact .inl rfl
    · split
      · exact .inl rfl
      · cases f with
        | none => exact .inl rfl
        | some f => exact .inr ⟨id, jp, f, rfl, rfl⟩
  | idBySubmitted t => left; simp only [exec]; split <;> rfl
  | insertPip p => left; simp only [exec]; split <;> rfl
  | insertDrv p => left; simp only [exec]; split <;> rfl
  | makeJobDir s i => left; simp only [exec]; split <;> rfl
  | notZombie p => left; simp only [exec]; split <;> rfl
  | killChildren p => left; simp only [exec]; split <;> rfl
  | _ => left; rfl

variable {Pay : Nat → Payload} {st : String}

theorem pathInv_exec (o : Op) (w : World) (h : PathInv Pay st w) (ho : PathOp Pay st o) :
    PathInv Pay st (exec o w).2 := by
  constructor
  · intro j hj
    rcases exec_jobs o w with e | ⟨j0, rfl, e⟩ | ⟨i, ps, rfl, e⟩ <;> rw [e] at hj
    · exact h.rows j hj
    · rcases List.mem_append.mp hj with hj | hj
      · exact h.rows j hj
      · obtain ⟨h1, h2, h3⟩ := ho
        rw [List.mem_singleton.mp hj]
        exact ⟨by simp [h1], by simp [h2], by simp [h3]⟩
    · simp only [updJobs, List.mem_map] at hj
      obtain ⟨j1, hj1, rfl⟩ := hj
      split
      · next hid => exact ho j1 hid (h.rows j1 hj1)
      · exact h.rows j1 hj1
  · intro x hx
    rcases exec_merged o w with e | ⟨id, jp, f, rfl, e⟩ <;> rw [e] at hx
    · exact h.files x hx
    · rcases List.mem_append.mp hx with hx | hx
      · exact h.files x hx
      · rw [List.mem_singleton.mp hx]; exact ho.2 f rfl

theorem pathOp_quiet (o : Op) (h : QuietOp o) : PathOp Pay st o := by
  cases o <;> first | exact h.elim | trivial

theorem pathOp_status (id : Nat) {ps : List JobParam}
    (h : ∀ j : Job, (applyJob j ps).respath = j.respath ∧ (applyJob j ps).snappath = j.snappath ∧
      (applyJob j ps).jobpath = j.jobpath) : PathOp Pay st (.updateJob id ps) := by
  intro j _ hj
  obtain ⟨h1, h2, h3⟩ := h j
  exact ⟨by rw [h1, applyJob_id]; exact hj.res, by rw [h2, applyJob_id]; exact hj.snap,
    by rw [h3, applyJob_id]; exact hj.folder⟩

theorem abides_getJobId (id : Nat) :
    Abides (PathInv Pay st) (PathOp Pay st) (fun j => j.id = id ∧ OwnPaths Pay st j)
      (getJobId id) := by
  refine ⟨trivial, fun w hw => ?_⟩
  simp only [exec]
  show Abides _ _ _ (Prog.bind (Prog.pure (w.job? id)) _)
  simp only [Prog.pure_bind]
  cases h : w.job? id with
  | none => trivial
  | some j => exact ⟨(job?_some h).1, hw.rows j (job?_some h).2⟩

theorem abides_updateJobId (id : Nat) (ps : List JobParam) (h : PathOp Pay st (.updateJob id ps)) :
    Abides (PathInv Pay st) (PathOp Pay st) (fun j => j.id = id ∧ OwnPaths Pay st j)
      (updateJobId id ps) := by
  unfold updateJobId
  exact abides_bind (abides_of_only ((Do.only_updateJob id ps).mpr h)) (fun _ _ => abides_getJobId id)

theorem abides_jobsWhere (f : Job → Bool) :
    Abides (PathInv Pay st) (PathOp Pay st) (fun l => ∀ j ∈ l, OwnPaths Pay st j)
      (Do.jobsWhere f) := by
  refine ⟨trivial, fun w hw => ?_⟩
  simp only [exec]
  intro j hj
  exact hw.rows j (List.mem_filter.mp hj).1

theorem abides_merge {j : Job} (h : OwnPaths Pay st j) :
    Abides (PathInv Pay st) (PathOp Pay st) (fun _ => True) (Do.merge j.id j.jobpath j.respath) :=
  abides_of_only ((Do.only_merge _ _ _).mpr ⟨h.folder, fun x hx => .inl (h.res x hx)⟩)

theorem abides_manageJob (j : Job) (hj : OwnPaths Pay st j) :
    Abides (PathInv Pay st) (PathOp Pay st) (fun _ => True) (manageJob j) := by
  have hf : ∀ (job' : Job) s, Abides (PathInv Pay st) (PathOp Pay st) (fun _ => True)
      (manageJob.finish job' s) := by
    intro job' s
    unfold manageJob.finish
    refine abides_bind (abides_of_only (Do.only_now.mpr trivial)) (fun t _ => ?_)
    exact abides_bind (abides_updateJobId _ _ (pathOp_status _ (fun _ => ⟨rfl, rfl, rfl⟩)))
      (fun _ _ => trivial)
  have hd : ∀ job' : Job, OwnPaths Pay st job' → ∀ b pid,
      Abides (PathInv Pay st) (PathOp Pay st) (fun _ => True)
        (manageJob.decideJob job' b pid) := by
    intro job' hj' b pid
    unfold manageJob.decideJob
    split
    · simp only
      split
      · exact abides_bind (abides_of_only ((Do.only_killChildren _).mpr trivial)) (fun _ _ =>
          abides_bind (abides_merge hj') (fun _ _ => hf _ _))
      · exact hf _ _
    · split
      · exact hf _ _
      · trivial
  unfold manageJob
  split
  · split
    · exact hd _ hj _ _
    · split
      · refine abides_bind (abides_of_only (Do.only_now.mpr trivial)) (fun t _ => ?_)
        split
        · exact hd { j with status := .rd } ⟨hj.res, hj.snap, hj.folder⟩ _ _
        · trivial
      · trivial
  · refine abides_bind (abides_of_only ((Do.only_pidExists _).mpr trivial)) (fun b _ => ?_)
    split
    · exact abides_bind (abides_of_only ((Do.only_notZombie _).mpr trivial)) (fun b _ => hd _ hj _ _)
    · exact hd _ hj _ _

theorem abides_jobManagerPass (d : Daemon) :
    Abides (PathInv Pay st) (PathOp Pay st) (fun _ => True) (jobManagerPass d) := by
  unfold jobManagerPass
  refine abides_bind (Q := fun _ => True) ?_ (fun _ _ => ?_)
  · unfold manageRunning
    refine abides_bind (abides_jobsWhere _) (fun l hl => ?_)
    exact abides_forEach (fun j hj => abides_manageJob j (hl j hj))
  · refine abides_bind (abides_of_only (only_checkQueued pathOp_quiet
      (fun id => pathOp_status id (fun _ => ⟨rfl, rfl, rfl⟩)) _)) (fun m _ => ?_)
    unfold actionQueued
    refine abides_bind (abides_of_only ((Do.only_pipsWhere _).mpr trivial)) (fun free _ => ?_)
    exact abides_of_allow (allow_actionLoop pathOp_quiet _ _ _ (fun _ _ => trivial)
      (fun _ _ _ => trivial) (fun _ _ _ => trivial)
      (fun id _ t => pathOp_status id (fun _ => ⟨rfl, rfl, rfl⟩)) _)

/-- Job processes are started with the payload given by `Pay` and the job's folder. -/
def OwnFile (Pay : Nat → Payload) (st : String) (c : Cmd) : Prop :=
  ∀ j i pl pip path m h, c = .tomatoJob j i pl pip path m h → pl = Pay j ∧ path = jobFolder st j

theorem abides_cmd (c : Cmd) (hc : OwnFile Pay st c) :
    Abides (PathInv Pay st) (PathOp Pay st) (fun _ => True) c.prog := by
  have hgen : (∀ o, c.writes o → PathOp Pay st o) →
      Abides (PathInv Pay st) (PathOp Pay st) (fun _ => True) c.prog := by
    intro h
    refine abides_of_allow (c.allow_ops.mono ?_ (fun _ h => h))
    rintro o (ho | ho)
    · exact pathOp_quiet o ho
    · exact h o ho
  cases c with
  | snapshot ids =>
    show Abides _ _ _ (Prog.bind (Tomato.snapshot ids) _)
    refine abides_bind (Q := fun _ => True) ?_ (fun _ _ => trivial)
    unfold Tomato.snapshot
    refine abides_bind (abides_jobsWhere _) (fun l hl => ?_)
    split
    · trivial
    · refine abides_bind (abides_forEach fun j hj => ?_) (fun _ _ => trivial)
      exact abides_of_only ((Do.only_merge _ _ _).mpr
        ⟨(hl j hj).folder, fun x hx => .inr (Option.some.inj hx).symm⟩)
  | tomatoJob j i pl pip path m hm =>
    obtain ⟨rfl, rfl⟩ := hc j i pl pip path m hm rfl
    show Abides _ _ _ (Tomato.tomatoJob j i (Pay j) pip (jobFolder st j) m)
    unfold Tomato.tomatoJob
    refine abides_bind (Q := fun _ => True) ?_ (fun _ _ => ?_)
    · unfold jobConnect
      refine abides_bind (abides_of_only (Do.only_now.mpr trivial)) (fun t _ => ?_)
      exact abides_bind (abides_updateJobId _ _ (pathOp_status _ (fun _ => ⟨rfl, rfl, rfl⟩)))
        (fun _ _ => trivial)
    · refine abides_bind (Q := fun job => job.id = j ∧ OwnPaths Pay st job) ?_ (fun job hjob => ?_)
      · unfold jobPaths
        refine abides_updateJobId _ _ ?_
        rintro j' rfl _
        refine ⟨?_, ?_, ?_⟩ <;> rw [applyJob_id]
        · rintro f hf; exact (Option.some.inj hf).symm
        · rintro f hf; exact (Option.some.inj hf).symm
        · rintro f hf; exact (Option.some.inj hf).symm
      · refine abides_bind (abides_of_only (hm.mono pathOp_quiet)) (fun ret _ => ?_)
        unfold jobFinish
        refine abides_bind (abides_of_only (Do.only_now.mpr trivial)) (fun t _ => ?_)
        simp only
        refine abides_bind (abides_merge hjob.2) (fun _ _ => ?_)
        refine abides_bind (abides_updateJobId _ _ (pathOp_status _ (fun _ => ⟨rfl, rfl, rfl⟩)))
          (fun _ _ => ?_)
        exact abides_bind (abides_of_only (only_updatePip pathOp_quiet _ _ trivial)) (fun _ _ => trivial)
  | submit f n d c =>
    refine hgen (fun o ho => ?_)
    cases o <;> first | exact ho.elim | trivial | skip
    simp only [Cmd.writes] at ho
    rw [ho]; exact ⟨rfl, rfl, rfl⟩
  | cancel ids =>
    refine hgen (fun o ho => ?_)
    cases o <;> first | exact ho.elim | skip
    obtain ⟨_, rfl | rfl⟩ := ho <;> exact pathOp_status _ (fun _ => ⟨rfl, rfl, rfl⟩)
  | _ =>
    refine hgen (fun o ho => ?_)
    cases o <;> first | exact ho.elim | trivial

/-- The payload of a job. -/
def payOf (s : Sys) (id : Nat) : Payload := ((s.w.job? id).map (·.payload)).getD { sample := "", method := [] }

theorem payOf_row {s : Sys} (hwf : s.w.WF) {j : Job} (hj : j ∈ s.w.jobs) :
    payOf s j.id = j.payload := by
  have : s.w.job? j.id = some j := hwf.job?_mem hj
  simp [payOf, this]

theorem stepsK_of_file {s : Sys} (h : StepsFile st Sys.init s) (Pay : Nat → Payload)
    (hp : ∀ j ∈ s.w.jobs, Pay j.id = j.payload) : StepsK (OwnFile Pay st) st Sys.init s := by
  generalize h0 : Sys.init = s0 at h
  induction h with
  | refl => exact .refl _
  | @tail s1 s2 a h1 ha hf ih =>
    have hr : Reachable st s1 := by unfold Reachable; rw [h0]; exact h1.steps
    have hp1 : ∀ j ∈ s1.w.jobs, Pay j.id = j.payload := by
      intro j hj
      obtain ⟨j', hj', e1, e2, -⟩ :=
        C03_records_immutable hr (.tail (.refl _) ⟨a, ha⟩) j hj
      rw [← e1, hp j' hj', e2]
    refine .tail (ih hp1) ha ?_
    intro c hc j i pl pip path m hm hcc
    obtain ⟨hpl, hpath⟩ := hf c hc j i pl pip path m hm hcc
    refine ⟨?_, hpath⟩
    cases hrow : s1.w.job? j with
    | none => rw [hrow] at hpl; cases hpl
    | some row =>
      rw [hrow] at hpl
      rw [← (job?_some hrow).1, hp1 row (job?_some hrow).2]
      exact (Option.some.inj hpl).symm

theorem pathInv_reachable {s : Sys} (h : StepsFile st Sys.init s) :
    SysAbides (PathInv (payOf s) st) (PathOp (payOf s) st) s := by
  refine sysAbides_steps (K := OwnFile (payOf s) st) pathInv_exec ?_ (fun d _ => abides_jobManagerPass d)
    abides_cmd ?_ (stepsK_of_file h _ (fun j hj => payOf_row (reachable_wf h.steps) hj))
  · intro e w hw
    cases e <;> exact ⟨hw.rows, hw.files⟩
  · refine ⟨⟨fun j hj => ?_, fun x hx => ?_⟩, trivial, fun p hp => ?_⟩
    · cases hj
    · cases hx
    · cases hp

/-! ## C67 -/

/-- **C67** (folders): in every execution the folders of two different jobs in the queue are
different. -/
theorem C67_folders {s : Sys} (h : StepsFile st Sys.init s) {a b : Job} (ha : a ∈ s.w.jobs)
    (hb : b ∈ s.w.jobs) (hab : a.id ≠ b.id) (f : String) (hfa : a.jobpath = some f) :
    b.jobpath ≠ some f := by
  intro hfb
  have hI := (pathInv_reachable h).inv
  have h1 := (hI.rows a ha).folder f hfa
  have h2 := (hI.rows b hb).folder f hfb
  exact hab (jobFolder_inj (h1.symm.trans h2))

/-- **C67** (sources): whenever some program is about to merge the data of a job, the data is taken
from the job's own folder. -/
theorem C67_merges_own_folder {s : Sys} (h : StepsFile st Sys.init s) {p : P Unit}
    (hp : p = s.jm ∨ p ∈ s.others) {id : Nat} {jp f : String}
    {k : Except PyErr Unit → P Unit} (ho : p = .op (.merge id (some jp) (some f)) k) :
    jp = jobFolder st id := by
  have hI := pathInv_reachable h
  have : Abides (PathInv (payOf s) st) (PathOp (payOf s) st) (fun _ => True) p := by
    rcases hp with rfl | hp
    · exact hI.jm
    · exact hI.others p hp
  rw [ho] at this
  exact this.1.1 jp rfl

/-- The file written under a name: a name without a folder is relative to some working
directory. -/
def WrittenAs (f g : String) : Prop := g = f ∨ ('/' ∉ f.toList ∧ ∃ cwd : String, g = cwd ++ "/" ++ f)

/-- **C67** (results): in every execution, if the data of two different jobs was written to the
same file, as result or as snapshot, then both users chose the same folder and the same prefix --
provided the prefixes are plain names that do not imitate the default names.  (Without this
proviso it is false, `C67_refuted`.) -/
theorem C67_results_partial {s : Sys} (h : StepsFile st Sys.init s)
    (hplain : ∀ j ∈ s.w.jobs, PlainPrefix j.payload) {i j : Nat} {f f' g : String}
    (hi : (i, f) ∈ s.w.merged) (hj : (j, f') ∈ s.w.merged) (hf : WrittenAs f g)
    (hf' : WrittenAs f' g) (hij : i ≠ j) :
    ∃ a ∈ s.w.jobs, ∃ b ∈ s.w.jobs, a.id = i ∧ b.id = j ∧ SameChoice a.payload b.payload := by
  have hI := (pathInv_reachable h).inv
  have hpl : ∀ i, PlainPrefix (payOf s i) := by
    intro i
    unfold payOf
    cases hrow : s.w.job? i with
    | none => intro x hx; cases hx
    | some row => exact hplain row (job?_some hrow).2
  have hslash : ∀ i, '/' ∈ (resPath (payOf s i) i).toList := by
    intro i; rw [resPath_eq]; simp [String.toList_append]
  -- every file is in some folder under its name
  have key : ∀ {i f g}, (i, f) ∈ s.w.merged → WrittenAs f g →
      (g = resPath (payOf s i) i ∨ g = snapName i ∨ ∃ o : String, g = o ++ "/" ++ snapName i) := by
    intro i f g hi hg
    rcases hI.files _ hi with e | e <;> simp only at e
    · rcases hg with hg | ⟨hg, -⟩
      · exact .inl (hg.trans e)
      · rw [e] at hg; exact absurd (hslash i) hg
    · rw [snapshotPath_eq] at e
      rcases hg with hg | ⟨-, o, hg⟩
      · exact .inr (.inl (hg.trans e))
      · exact .inr (.inr ⟨o, by rw [hg, e]⟩)
  have hsame : SameChoice (payOf s i) (payOf s j) := by
    have no1 : ∀ i j : Nat, resPath (payOf s i) i ≠ snapName j :=
      fun i j e => snapName_plain j (e ▸ hslash i)
    have no2 : ∀ (i j : Nat) (o : String), resPath (payOf s i) i ≠ o ++ "/" ++ snapName j := by
      intro i j o e
      rw [resPath_eq] at e
      exact resName_ne_snapName (hpl i) i j
        (join_inj (resName_plain (hpl i) i) (snapName_plain j) e).2
    have no3 : ∀ (i j : Nat) (o : String), snapName i ≠ o ++ "/" ++ snapName j := by
      intro i j o e
      refine snapName_plain i ?_
      rw [e]; simp [String.toList_append]
    rcases key hi hf with e | e | ⟨o, e⟩ <;> rcases key hj hf' with e' | e' | ⟨o', e'⟩ <;>
      have e'' := e.symm.trans e'
    · exact resPath_clash (hpl i) (hpl j) hij e''
    · exact absurd e'' (no1 _ _)
    · exact absurd e'' (no2 _ _ _)
    · exact absurd e''.symm (no1 _ _)
    · exact absurd (snapName_inj e'') hij
    · exact absurd e'' (no3 _ _ _)
    · exact absurd e''.symm (no2 _ _ _)
    · exact absurd e''.symm (no3 _ _ _)
    · exact absurd (snapName_inj (join_inj (snapName_plain i) (snapName_plain j) e'').2) hij
  obtain ⟨h1, x, h2, h3⟩ := hsame
  have row : ∀ {i}, (payOf s i).outPrefix = some x →
      ∃ a ∈ s.w.jobs, a.id = i ∧ payOf s i = a.payload := by
    intro i hx
    unfold payOf at hx ⊢
    cases hrow : s.w.job? i with
    | none => rw [hrow] at hx; cases hx
    | some row => exact ⟨row, (job?_some hrow).2, (job?_some hrow).1, rfl⟩
  obtain ⟨a, ha, hai, hap⟩ := row h2
  obtain ⟨b, hb, hbi, hbp⟩ := row h3
  exact ⟨a, ha, b, hb, hai, hbi, by rw [← hap, ← hbp]; exact ⟨h1, x, h2, h3⟩⟩

/-! ### Witnesses -/

/-- Job processes are started with their own payload and folder. -/
def okFile (st : String) (s : Sys) : Act → Bool
  | .spawn (.tomatoJob j _ pl _ path _ _) =>
      decide ((s.w.job? j).map (·.payload) = some pl) && decide (path = jobFolder st j)
  | _ => true

/-- Execute a list of actions, checking `okFile`. -/
def actsFile (st : String) : Sys → List Act → Option Sys
  | s, [] => some s
  | s, a :: as =>
      match okFile st s a, act st s a with
      | true, some s' => actsFile st s' as
      | _, _ => none

theorem stepsFile_of_acts {s s' : Sys} {as : List Act} {s0 : Sys} (h0 : StepsFile st s0 s)
    (h : actsFile st s as = some s') : StepsFile st s0 s' := by
  induction as generalizing s with
  | nil => cases h; exact h0
  | cons a as ih =>
    simp only [actsFile] at h
    split at h
    · next s1 hok h1 =>
      refine ih (.tail h0 h1 ?_) h
      rintro c rfl j i pl pip path m hm rfl
      simp only [okFile, Bool.and_eq_true, decide_eq_true_eq] at hok
      exact hok
    · cases h

/-- A second job, on the sample of the other pipeline, whose user chose a prefix. -/
def plT (pre : String) : Payload := { plS "t" with outPrefix := some pre }

/-- The payload as stored: the output folder is filled in when submitting. -/
def stored (p : Payload) : Payload := { p with outPath := some "/home" }

/-- Two jobs on two pipelines, both run to the end; the second has a chosen prefix. -/
def prefixJobs (pre : String) : List Act :=
  setup ++
  [.spawn (.load (some dRun) "q" "t")] ++ run 5 3 ++
  [.spawn (.ready (some dRun) "q")] ++ run 6 3 ++
  [.env (.clock 7), .spawn (.submit (.parsed (plT pre)) none dRun "/home")] ++ run 7 4 ++
  [.jmStart dRun] ++ jm 39 ++
  [.spawn (.tomatoJob 1 100 (stored (plS "s")) "p" "Jobs/1" (.pure none) trivial),
   .spawn (.tomatoJob 2 200 (stored (plT pre)) "q" "Jobs/2" (.pure none) trivial)] ++
  run 8 11 ++ run 9 11

def sPrefix (pre : String) : Sys := (actsFile "Jobs" Sys.init (prefixJobs pre)).getD Sys.init

theorem sPrefix_steps {pre : String}
    (h : (actsFile "Jobs" Sys.init (prefixJobs pre)).isSome = true) :
    StepsFile "Jobs" Sys.init (sPrefix pre) := by
  obtain ⟨s, hs⟩ := Option.isSome_iff_exists.mp h
  refine stepsFile_of_acts (.refl _) ?_ (as := prefixJobs pre)
  unfold sPrefix
  rw [hs]; rfl

/-- The state is really reached, both jobs have their folders and result files. -/
example : StepsFile "Jobs" Sys.init (sPrefix "mine") ∧
    (sPrefix "mine").w.jobs.map (·.jobpath) = [some "Jobs/1", some "Jobs/2"] ∧
    (sPrefix "mine").w.merged = [(1, "/home/results.1.nc"), (2, "/home/mine.nc")] ∧
    (∀ j ∈ (sPrefix "mine").w.jobs, PlainPrefix j.payload) := by
  refine ⟨sPrefix_steps rfl, rfl, rfl, ?_⟩
  intro j hj x hx
  have hx' : x = "mine" := by
    have h2 : (sPrefix "mine").w.jobs.map (·.payload.outPrefix) = [none, some "mine"] := rfl
    have : some x ∈ (sPrefix "mine").w.jobs.map (·.payload.outPrefix) :=
      List.mem_map.mpr ⟨j, hj, hx⟩
    rw [h2] at this
    simpa using this
  subst hx'
  refine ⟨by decide, fun n => ⟨fun h => ?_, fun h => ?_⟩⟩ <;>
  · have := congrArg String.length h
    simp only [String.length_append] at this
    revert this
    have h1 : "mine".length = 4 := by decide
    have h2 : "results.".length = 8 := by decide
    have h3 : "snapshot.".length = 9 := by decide
    omega

/-- **C67** fails: the user of job 2 chooses the prefix `results.1`; the user of job 1 chooses
nothing.  The results of both jobs are written to the same file, those of job 1 are lost. -/
theorem C67_refuted : ∃ s, StepsFile "Jobs" Sys.init s ∧
    ∃ a ∈ s.w.jobs, ∃ b ∈ s.w.jobs, a.id ≠ b.id ∧ ¬ SameChoice a.payload b.payload ∧
      ∃ f, (a.id, f) ∈ s.w.merged ∧ (b.id, f) ∈ s.w.merged := by
  refine ⟨sPrefix "results.1", sPrefix_steps rfl, ?_⟩
  have hj : (sPrefix "results.1").w.jobs[0]?.map (fun j => (j.id, j.payload.outPrefix)) = some (1, none) :=
    rfl
  have hj' : (sPrefix "results.1").w.jobs[1]?.map (·.id) = some 2 := rfl
  cases h0 : (sPrefix "results.1").w.jobs[0]? with
  | none => rw [h0] at hj; cases hj
  | some a =>
    cases h1 : (sPrefix "results.1").w.jobs[1]? with
    | none => rw [h1] at hj'; cases hj'
    | some b =>
      rw [h0] at hj; rw [h1] at hj'
      simp only [Option.map_some, Option.some.injEq, Prod.mk.injEq] at hj hj'
      refine ⟨a, List.mem_of_getElem? h0, b, List.mem_of_getElem? h1, ?_, ?_, "/home/results.1.nc", ?_⟩
      · omega
      · rintro ⟨-, x, hx, -⟩; rw [hj.2] at hx; cases hx
      · have : (sPrefix "results.1").w.merged =
            [(1, "/home/results.1.nc"), (2, "/home/results.1.nc")] := rfl
        rw [this, hj.1, hj']; simp

end Tomato.Props
