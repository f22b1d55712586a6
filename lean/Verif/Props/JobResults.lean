import Verif.Props.JobFiles

/-!
# The results of a job: C94 - C96
-/

namespace Tomato.Props

open Tomato.Full

/-! ## Names of result files and archives -/

theorem splitSlash_concat (a : List Char) {b : List Char} (h : '/' ∉ b) :
    ∃ i l, splitSlash (a ++ b) = i ++ [l ++ b] := by
  induction a with
  | nil => exact ⟨[], [], by simp [splitSlash_plain h]⟩
  | cons c a ih =>
    obtain ⟨i, l, e⟩ := ih
    simp only [List.cons_append, splitSlash, e]
    split
    · exact ⟨[] :: i, l, rfl⟩
    · cases i with
      | nil => exact ⟨[], c :: l, rfl⟩
      | cons x xs => exact ⟨(c :: x) :: xs, l, rfl⟩

/-- The result file of a job, as seen by a process in `cwd`. -/
def resPlace (cwd : FsPath) (p : Payload) (id : Nat) : FsPath := resolve cwd (resPath p id)

/-- Result files have names ending in `.nc`. -/
theorem resPlace_nc (cwd : FsPath) (p : Payload) (id : Nat) :
    ∃ d n, resPlace cwd p id = d ++ [n ++ ".nc"] := by
  have key : ∀ a : List Char, ∃ d n, parts (a ++ ['.', 'n', 'c']) = d ++ [n ++ ".nc"] := by
    intro a
    obtain ⟨i, l, e⟩ := splitSlash_concat a (b := ['.', 'n', 'c']) (by decide)
    refine ⟨(i.filter (fun x => decide (x ≠ [] ∧ x ≠ ['.']))).map String.ofList, String.ofList l, ?_⟩
    unfold parts
    rw [e, List.filter_append, List.map_append]
    congr 1
    have h1 : l ++ ['.', 'n', 'c'] ≠ [] := by simp
    have h2 : l ++ ['.', 'n', 'c'] ≠ ['.'] := by
      intro h; have := congrArg List.length h; simp at this
    simp only [List.filter_cons, h1, h2, ne_eq, not_false_eq_true, and_self, decide_true, if_true,
      List.filter_nil, List.map_cons, List.map_nil]
    rw [String.ofList_append]
  have hs : ∃ a : String, resPath p id = a ++ ".nc" := by
    rw [resPath_eq]
    unfold resName
    split
    · exact ⟨p.outPath.getD "" ++ "/" ++ ("results." ++ id.repr), by simp [String.append_assoc]⟩
    · next x _ => exact ⟨p.outPath.getD "" ++ "/" ++ x, by simp [String.append_assoc]⟩
  obtain ⟨a, ha⟩ := hs
  obtain ⟨d, n, e⟩ := key a.toList
  have hl : (a ++ ".nc").toList = a.toList ++ ['.', 'n', 'c'] := by simp [String.toList_append]
  unfold resPlace resolve
  rw [ha, hl, e]
  split
  · exact ⟨d, n, rfl⟩
  · exact ⟨cwd ++ d, n, by simp⟩

theorem cratePath_nc (d : FsPath) (n : String) : cratePath (d ++ [n ++ ".nc"]) = d ++ [n ++ ".zip"] := by
  have h : (".nc" : String).length = 3 := rfl
  unfold cratePath
  rw [List.dropLast_concat, List.getLastD_concat]
  congr 2
  rw [String.length_append, h, Nat.add_sub_cancel, String.toList_append, ← String.length_toList,
    List.take_left, String.ofList_toList]

/-- An archive is never in the place of a result file. -/
theorem cratePath_ne (cwd cwd' : FsPath) (p q : Payload) (i j : Nat) :
    cratePath (resPlace cwd p i) ≠ resPlace cwd' q j := by
  obtain ⟨d, n, h⟩ := resPlace_nc cwd p i
  obtain ⟨d', n', h'⟩ := resPlace_nc cwd' q j
  rw [h, h', cratePath_nc]
  intro e
  have := congrArg (fun l : FsPath => (l.getLastD "").toList.getLast?) e
  simp [String.toList_append] at this

/-- Archives of different result files are different. -/
theorem cratePath_inj {cwd cwd' : FsPath} {p q : Payload} {i j : Nat}
    (e : cratePath (resPlace cwd p i) = cratePath (resPlace cwd' q j)) :
    resPlace cwd p i = resPlace cwd' q j := by
  obtain ⟨d, n, h⟩ := resPlace_nc cwd p i
  obtain ⟨d', n', h'⟩ := resPlace_nc cwd' q j
  rw [h, h', cratePath_nc, cratePath_nc] at e
  obtain ⟨rfl, e2⟩ := List.append_inj' e rfl
  have e3 : n = n' := by
    have := congrArg String.toList (List.cons.inj e2).1
    rw [String.toList_append, String.toList_append] at this
    rw [← String.ofList_toList (s := n), ← String.ofList_toList (s := n'), List.append_cancel_right this]
  rw [h, h', e3]

/-! ## Programs that store a result before they say so -/

/-- The operations of other programs: no job becomes `c`. -/
def NotDone : Op → Prop
  | .insertJob j => j.status ≠ .c
  | .updateJob _ ps => JobParam.status .c ∉ ps
  | _ => True

/-- The operations of the process of job `j`; `m`: it has written the result file.  -/
def SafeOp (Pay : Nat → Payload) (cwd : FsPath) (j : Nat) (m : Bool) : FOp → Prop
  | .db (.updateJob id ps) => JobParam.status .c ∈ ps → id = j ∧ m = true
  | .db o => NotDone o
  | .fs (.crate _ s d _) => d = resPlace cwd (Pay j) j ∧ s = (Pay j).sample ∧ m = true
  | _ => True

/-- The operation is the merge of the data of job `j`, and succeeds. -/
def mergeOk (j : Nat) : FOp → World → Tree → Bool
  | .merge id jp p c, w, t => decide (id = j) && (fExec (.merge id jp p c) (w, t)).1.isOk
  | _, _, _ => false

/-- The program only says that the result is there (by an archive or by the status `c`) after it has
written it. -/
def Cautious {α : Type} (I : World → Prop) (Pay : Nat → Payload) (cwd : FsPath) (j : Nat)
    (Q : Bool → α → Prop) : Bool → PF α → Prop
  | m, .pure a => Q m a
  | _, .raise _ => True
  | m, .op o k => SafeOp Pay cwd j m o ∧
      ∀ w t, I w → Cautious I Pay cwd j Q (m || mergeOk j o w t) (k (fExec o (w, t)).1)

variable {I : World → Prop} {K : Nat → Prop} {Pay : Nat → Payload} {st : String} {cwd : FsPath}

theorem cautious_bind {α β : Type} {j : Nat} {Q : Bool → α → Prop} {Q' : Bool → β → Prop} {m : Bool}
    {p : PF α} {f : α → PF β} (hp : Cautious I Pay cwd j Q m p)
    (hf : ∀ m' a, Q m' a → Cautious I Pay cwd j Q' m' (f a)) :
    Cautious I Pay cwd j Q' m (Prog.bind p f) := by
  induction p generalizing m with
  | pure a => exact hf m a hp
  | raise e => trivial
  | op o k ih => exact ⟨hp.1, fun w t hw => ih _ (hp.2 w t hw)⟩

theorem cautious_lift {α : Type} {j : Nat} {m : Bool} {Q : α → Prop} {A : Op → Prop} {p : P α}
    (h : Abides I A Q p) (hA : ∀ o, A o → SafeOp Pay cwd j m (.db o)) :
    Cautious I Pay cwd j (fun m' a => m' = m ∧ Q a) m (liftDb p) := by
  induction p with
  | pure a => exact ⟨rfl, h⟩
  | raise e => trivial
  | op o k ih =>
    refine ⟨hA o h.1, fun w t hw => ?_⟩
    simp only [mergeOk, Bool.or_false]
    exact ih _ (h.2 w hw)

theorem cautious_fs {α : Type} {j : Nat} {m : Bool} {p : Prog FS α}
    (h : Prog.Only (S := FS) (fun o => SafeOp Pay cwd j m (.fs o)) p) :
    Cautious I Pay cwd j (fun m' _ => m' = m) m (liftFs p) := by
  induction p with
  | pure a => exact rfl
  | raise e => trivial
  | op o k ih =>
    refine ⟨h.1, fun w t hw => ?_⟩
    simp only [mergeOk, Bool.or_false]
    exact ih _ (h.2 _)

theorem notDone_safe {j : Nat} {m : Bool} (o : Op) (h : NotDone o) : SafeOp Pay cwd j m (.db o) := by
  cases o with
  | updateJob id ps => exact fun hc => absurd hc h
  | _ => exact h

theorem quiet_notDone (o : Op) (h : QuietOp o) : NotDone o := by
  cases o <;> first | exact h.elim | trivial

theorem cautious_mono {α : Type} {j : Nat} {Q Q' : Bool → α → Prop} {m : Bool} {p : PF α}
    (h : Cautious I Pay cwd j Q m p) (hQ : ∀ m a, Q m a → Q' m a) : Cautious I Pay cwd j Q' m p := by
  induction p generalizing m with
  | pure a => exact hQ m a h
  | raise e => trivial
  | op o k ih => exact ⟨h.1, fun w t hw => ih _ (h.2 w t hw)⟩

/-- The worlds of an execution in which the payloads of the jobs are `Pay`. -/
structure PayInv (Pay : Nat → Payload) (st : String) (w : World) : Prop where
  paths : PathInv Pay st w
  pay : ∀ j ∈ w.jobs, Pay j.id = j.payload

theorem cautious_job (j i : Nat) (pip : String) (repos : List String) (info : CrateInfo) (rc : Bool)
    (m : P (Option Nat)) (hm : Prog.Only (S := DB) QuietOp m) :
    Cautious (PayInv Pay st) Pay cwd j (fun _ _ => True) false
      (tomatoJobF j i (Pay j) pip (jobFolder st j) cwd repos info rc m) := by
  unfold tomatoJobF
  refine cautious_bind (Q := fun m' _ => m' = false ∧ True)
    (cautious_lift (A := NotDone) (Q := fun _ => True) (abides_of_only ?_) notDone_safe) ?_
  · unfold jobConnect
    refine Prog.only_bind (Do.only_now.mpr trivial) (fun t => ?_)
    exact Prog.only_bind (only_updateJobId quiet_notDone _ _ (by simp [NotDone])) (fun _ => trivial)
  rintro m1 _ ⟨rfl, -⟩
  cases ho : (Pay j).outPath with
  | none => trivial
  | some o =>
    simp only
    refine cautious_bind (Q := fun m' _ => m' = false)
      (cautious_fs (only_prepareOut _ _ (fun _ => trivial) (fun _ => trivial) (fun _ _ => trivial))) ?_
    rintro m1 _ rfl
    refine cautious_bind (Q := fun m' job => m' = false ∧
        (job.id = j ∧ job.payload = Pay j ∧ OwnPaths Pay st job))
      (cautious_lift (A := NotDone) ?_ notDone_safe) ?_
    · unfold jobPaths updateJobId
      refine abides_bind (abides_of_only ((Do.only_updateJob _ _).mpr (by simp [NotDone]))) (fun _ _ => ?_)
      refine ⟨trivial, fun w hw => ?_⟩
      simp only [exec]
      show Abides _ _ _ (Prog.bind (Prog.pure (w.job? j)) _)
      simp only [Prog.pure_bind]
      cases h : w.job? j with
      | none => trivial
      | some row =>
        refine ⟨(job?_some h).1, ?_, hw.paths.rows row (job?_some h).2⟩
        rw [← hw.pay row (job?_some h).2, (job?_some h).1]
    rintro m1 job ⟨rfl, hid, hpay, hown⟩
    refine cautious_bind (Q := fun m' _ => m' = false ∧ True)
      (cautious_lift (A := NotDone) (abides_of_only (hm.mono quiet_notDone)) notDone_safe) ?_
    rintro m1 ret ⟨rfl, -⟩
    unfold finishF
    refine cautious_bind (Q := fun m' _ => m' = false ∧ True)
      (cautious_lift (A := NotDone) (abides_of_only (Do.only_now.mpr trivial)) notDone_safe) ?_
    rintro m1 t ⟨rfl, -⟩
    simp only
    have hend : Cautious (PayInv Pay st) Pay cwd j (fun _ _ => True) true
        (Prog.bind (liftDb (updateJobId job.id
          [.status (if ret.isNone then .c else .ce), .completedAt (some t)])) (fun job =>
            Prog.bind (liftDb (updatePip pip [.jobid none, .ready job.payload.unlockWhenDone]))
              (fun _ => Prog.pure ()))) := by
      refine cautious_bind (Q := fun m' _ => m' = true ∧ True)
        (cautious_lift (A := fun o => SafeOp Pay cwd j true (.db o)) (abides_of_only
          (only_updateJobId (fun o h => notDone_safe o (quiet_notDone o h)) _ _ (fun _ => ⟨hid, rfl⟩)))
          (fun _ h => h)) ?_
      rintro m1 _ ⟨rfl, -⟩
      refine cautious_bind (Q := fun m' _ => m' = true ∧ True)
        (cautious_lift (A := fun o => SafeOp Pay cwd j true (.db o)) (abides_of_only
          (only_updatePip (fun o h => notDone_safe o (quiet_notDone o h)) _ _ trivial))
          (fun _ h => h)) ?_
      intro _ _ _; trivial
    refine cautious_bind (Q := fun m' _ => m' = true ∧ ∃ f, job.respath = some f) ?_ ?_
    · refine ⟨trivial, fun w t _ => ?_⟩
      simp only [mergeOk, Bool.false_or, hid, decide_true, Bool.true_and]
      cases hr : job.respath with
      | none =>
        simp only [fExec]
        cases hx : exec (.merge job.id job.jobpath none) w with
        | mk r w' => cases r <;> trivial
      | some f =>
        cases (fExec (.merge job.id job.jobpath (some f) cwd) (w, t)).1 with
        | error e => trivial
        | ok u => exact ⟨rfl, f, rfl⟩
    · rintro m1 _ ⟨rfl, f, hf⟩
      split
      · refine cautious_bind (Q := fun m' _ => m' = true) ?_ (fun m' _ hm' => hm' ▸ hend)
        refine ⟨⟨?_, by rw [hpay], rfl⟩, fun w t _ => ?_⟩
        · rw [hf, ← hid]
          exact congrArg (resolve cwd) (hown.res f hf)
        · simp only [mergeOk, Bool.or_false]
          cases (fExec (FOp.fs _) (w, t)).1 <;> first | trivial | rfl
      · exact hend

theorem cautious_cmd (c : FCmd) (hc : OwnF K Pay st cwd c) :
    ∃ j, Cautious (PayInv Pay st) Pay cwd j (fun _ _ => True) false c.prog := by
  cases c with
  | cmd c h =>
    refine ⟨0, ?_⟩
    have : Allow NotDone (fun _ => True) c.prog := by
      refine c.allow_ops.mono ?_ (fun _ h => h)
      rintro o (ho | ho)
      · exact quiet_notDone o ho
      · cases c with
        | tomatoJob => cases h
        | submit f n d cw =>
          cases o with
          | insertJob j => intro hs; rw [show j = _ from ho] at hs; cases hs
          | _ => trivial
        | cancel ids =>
          cases o with
          | updateJob id ps => obtain ⟨-, rfl | rfl⟩ := ho <;> simp [NotDone]
          | _ => first | trivial | exact ho.elim
        | _ => cases o <;> first | trivial | exact ho.elim
    exact cautious_mono (cautious_lift (abides_of_allow this) notDone_safe) (fun _ _ _ => trivial)
  | job j i pl pip path cwd' rs info rc m hm =>
    obtain ⟨hK, rfl, rfl, rfl⟩ := hc _ _ _ _ _ _ _ _ _ _ _ rfl
    exact ⟨j, cautious_job _ _ _ _ _ _ _ hm⟩

/-! ## All executions -/

/-- Executions as in `FStepsFile` in which everybody else changes files only as `R` says. -/
inductive FStepsR (R : Tree → Tree → Prop) (st : String) (cwd : FsPath) : FSys → FSys → Prop
  | refl (s : FSys) : FStepsR R st cwd s s
  | tail {s s' s'' : FSys} {a : FAct} : FStepsR R st cwd s s' → fact st s' a = some s'' →
      (∀ c, a = .spawn c → FromFileF st cwd s' c) → (∀ t, a = .files t → R s'.t t) →
      FStepsR R st cwd s s''

theorem FStepsR.file {R : Tree → Tree → Prop} {s s' : FSys} (h : FStepsR R st cwd s s') :
    FStepsFile st cwd s s' := by
  induction h with
  | refl => exact .refl _
  | tail _ ha hf _ ih => exact .tail ih ha hf

theorem FStepsFile.any {s s' : FSys} (h : FStepsFile st cwd s s') :
    FStepsR (fun _ _ => True) st cwd s s' := by
  induction h with
  | refl => exact .refl _
  | tail _ ha hf ih => exact .tail ih ha hf (fun _ _ => trivial)

/-- A fact about a job that is established by writing its result, and not destroyed by anybody. -/
structure Lasting (K : Nat → Prop) (Pay : Nat → Payload) (st : String) (cwd : FsPath)
    (R : Tree → Tree → Prop) (Fact : Nat → World → Tree → Prop) : Prop where
  op : ∀ o w t j, K j → FileOp K Pay st cwd o → Fact j w t →
    Fact j (fExec o (w, t)).2.1 (fExec o (w, t)).2.2
  env : ∀ (e : EnvAct) w t j, Fact j w t → Fact j (e.apply w) t
  files : ∀ w t t' j, R t t' → Fact j w t → Fact j w t'
  new : ∀ o w t j, FileOp K Pay st cwd o → mergeOk j o w t = true →
    Fact j (fExec o (w, t)).2.1 (fExec o (w, t)).2.2

/-- The fact is known of all completed jobs and of all job processes that have merged the data. -/
structure Kept (K : Nat → Prop) (Pay : Nat → Payload) (st : String) (cwd : FsPath)
    (Fact : Nat → World → Tree → Prop) (s : FSys) : Prop where
  jm : Abides (PayInv Pay st) NotDone (fun _ => True) s.jm
  others : ∀ p ∈ s.others, ∃ j m, Cautious (PayInv Pay st) Pay cwd j (fun _ _ => True) m p ∧
    (m = true → K j ∧ Fact j s.w s.t)
  rows : ∀ j ∈ s.w.jobs, j.status = .c → Fact j.id s.w s.t

theorem applyJob_done {j : Job} {ps : List JobParam} (h : (applyJob j ps).status = .c) :
    JobParam.status .c ∈ ps ∨ j.status = .c := by
  unfold applyJob at h
  induction ps generalizing j with
  | nil => exact .inr h
  | cons p ps ih =>
    rcases ih h with h1 | h1
    · exact .inl (List.mem_cons_of_mem _ h1)
    · cases p with
      | status v =>
        simp only [JobParam.apply] at h1
        subst h1
        exact .inl List.mem_cons_self
      | _ => exact .inr h1

/-- Which rows can be completed after an operation. -/
theorem exec_done (o : Op) (w : World) {j : Job} (hj : j ∈ (exec o w).2.jobs) (hc : j.status = .c) :
    (∃ j' ∈ w.jobs, j'.id = j.id ∧ j'.status = .c) ∨
    (∃ ps, o = .updateJob j.id ps ∧ JobParam.status .c ∈ ps) ∨ (∃ r, o = .insertJob r ∧ r.status = .c) := by
  rcases exec_jobs o w with h | ⟨r, rfl, h⟩ | ⟨id, ps, rfl, h⟩
  · rw [h] at hj
    exact .inl ⟨j, hj, rfl, hc⟩
  · rw [h] at hj
    rcases List.mem_append.mp hj with hj | hj
    · exact .inl ⟨j, hj, rfl, hc⟩
    · rw [List.mem_singleton.mp hj] at hc
      exact .inr (.inr ⟨r, rfl, hc⟩)
  · rw [h] at hj
    obtain ⟨j0, hj0, e⟩ := List.mem_map.mp hj
    split at e
    · next hid =>
      subst e
      rcases applyJob_done hc with h1 | h1
      · exact .inr (.inl ⟨ps, by rw [applyJob_id, hid], h1⟩)
      · exact .inl ⟨j0, hj0, (applyJob_id _ _).symm, h1⟩
    · subst e
      exact .inl ⟨j0, hj0, rfl, hc⟩

variable {R : Tree → Tree → Prop} {Fact : Nat → World → Tree → Prop}

theorem allow_notDone_jm (d : Daemon) : Allow NotDone (fun _ => True) (jobManagerPass d) := by
  refine (allow_jobManagerPass d).mono ?_ (fun _ h => h)
  rintro o (ho | ho)
  · exact quiet_notDone o ho
  · cases o with
    | updateJob id ps =>
      rcases ho with rfl | ⟨t, rfl⟩ | ⟨st, t, rfl | rfl, rfl⟩ <;> simp [NotDone]
    | _ => first | trivial | exact ho.elim

theorem kept_act (hF : Lasting K Pay st cwd R Fact) {s s' : FSys} {a : FAct}
    (hab : FAbides K Pay st cwd s) (hpay : ∀ j ∈ s.w.jobs, Pay j.id = j.payload ∧ K j.id)
    (h0 : Kept K Pay st cwd Fact s) (h : fact st s a = some s')
    (ha : ∀ c, a = .spawn c → OwnF K Pay st cwd c) (hR : ∀ t, a = .files t → R s.t t) :
    Kept K Pay st cwd Fact s' := by
  have hI : PayInv Pay st s.w := ⟨hab.inv, fun j hj => (hpay j hj).1⟩
  obtain ⟨hj, ho, hr⟩ := h0
  cases a with
  | jmStart d =>
    simp only [fact] at h
    split at h
    · next hd => cases h; exact ⟨abides_of_allow (allow_notDone_jm d), ho, hr⟩
    · cases h
  | jmStep =>
    simp only [fact] at h
    split at h
    · next p w hp =>
      unfold stepProg at hp
      split at hp
      · next o k hk =>
        cases hp; cases h
        have hf := hab.jm
        rw [hk] at hj hf
        refine ⟨hj.2 _ hI, fun p hp => ?_, fun j hjm hc => ?_⟩
        · obtain ⟨j, m, h1, h2⟩ := ho p hp
          exact ⟨j, m, h1, fun hm => ⟨(h2 hm).1, hF.op (.db o) s.w s.t j (h2 hm).1 hf.1 (h2 hm).2⟩⟩
        · rcases exec_done o s.w hjm hc with ⟨j', hj', e, hc'⟩ | ⟨ps, rfl, hps⟩ | ⟨r, rfl, hrc⟩
          · rw [← e]
            exact hF.op (.db o) s.w s.t j'.id (hpay j' hj').2 hf.1 (hr j' hj' hc')
          · exact absurd hps hj.1
          · exact absurd hrc hj.1
      · cases hp
    · cases h
  | jmKill => cases h; exact ⟨trivial, ho, hr⟩
  | spawn c =>
    have key : ∀ p ∈ s.others ++ [c.prog], ∃ j m,
        Cautious (PayInv Pay st) Pay cwd j (fun _ _ => True) m p ∧
          (m = true → K j ∧ Fact j s.w s.t) := by
      intro p hp
      rcases List.mem_append.mp hp with hp | hp
      · exact ho p hp
      · rw [List.mem_singleton.mp hp]
        obtain ⟨j, hj⟩ := cautious_cmd c (ha c rfl)
        exact ⟨j, false, hj, by rintro ⟨⟩⟩
    simp only [fact] at h
    split at h
    · cases h; exact ⟨hj, key, hr⟩
    · split at h
      · cases h; exact ⟨hj, key, hr⟩
      · cases h
  | step i =>
    simp only [fact] at h
    split at h
    · next o k hp =>
      cases h
      have hmem := List.mem_of_getElem? hp
      have hf := (hab.others _ hmem).1
      obtain ⟨j, m, hcau, hfact⟩ := ho _ hmem
      have hnew : (m || mergeOk j o s.w s.t) = true →
          K j ∧ Fact j (fExec o (s.w, s.t)).2.1 (fExec o (s.w, s.t)).2.2 := by
        intro hm
        rcases Bool.or_eq_true_iff.mp hm with hm | hm
        · exact ⟨(hfact hm).1, hF.op o s.w s.t j (hfact hm).1 hf (hfact hm).2⟩
        · refine ⟨?_, hF.new o s.w s.t j hf hm⟩
          cases o with
          | merge id jp p c =>
            simp only [mergeOk, Bool.and_eq_true, decide_eq_true_eq] at hm
            rw [← hm.1]; exact hf.2.1
          | _ => cases hm
      refine ⟨hj, fun q hq => ?_, fun r hrm hc => ?_⟩
      · rcases mem_set_of hq with hq | rfl
        · obtain ⟨j', m', h1, h2⟩ := ho q hq
          exact ⟨j', m', h1, fun hm => ⟨(h2 hm).1, hF.op o s.w s.t j' (h2 hm).1 hf (h2 hm).2⟩⟩
        · exact ⟨j, _, hcau.2 _ _ hI, hnew⟩
      · have hold : ∀ r' ∈ s.w.jobs, r'.id = r.id → r'.status = .c →
            Fact r.id (fExec o (s.w, s.t)).2.1 (fExec o (s.w, s.t)).2.2 := by
          intro r' hr' e hc'
          rw [← e]
          exact hF.op o s.w s.t r'.id (hpay r' hr').2 hf (hr r' hr' hc')
        cases o with
        | db o =>
          rcases exec_done o s.w hrm hc with ⟨j', hj', e, hc'⟩ | ⟨ps, rfl, hps⟩ | ⟨r, rfl, hrc⟩
          · exact hold j' hj' e hc'
          · obtain ⟨hid, hm⟩ := hcau.1 hps
            subst hid
            exact (hnew (by rw [hm]; rfl)).2
          · exact absurd hrc hcau.1
        | fs o => exact hold r hrm rfl hc
        | merge id jp p c =>
          have hjobs : (fExec (.merge id jp p c) (s.w, s.t)).2.1.jobs = s.w.jobs := by
            simp only [fExec]
            cases hx : exec (.merge id jp p) s.w with
            | mk ans w' =>
              have hw : w'.jobs = s.w.jobs := by
                have : w' = (exec (.merge id jp p) s.w).2 := by rw [hx]
                rw [this]
                rcases exec_jobs (.merge id jp p) s.w with h | ⟨_, h, _⟩ | ⟨_, _, h, _⟩
                · exact h
                · cases h
                · cases h
              cases ans with
              | error e => rfl
              | ok u =>
                cases p with
                | none => rfl
                | some f =>
                  dsimp only
                  cases writable s.t (resolve c f) with
                  | error e => rfl
                  | ok _ => exact hw
          dsimp only at hrm
          rw [hjobs] at hrm
          exact hold r hrm rfl hc
    · cases h
  | kill i =>
    cases h
    refine ⟨hj, fun q hq => ?_, hr⟩
    rcases mem_set_of hq with hq | rfl
    · exact ho q hq
    · exact ⟨0, false, trivial, by rintro ⟨⟩⟩
  | env e =>
    cases h
    refine ⟨hj, fun q hq => ?_, fun r hrm hc => ?_⟩
    · obtain ⟨j, m, h1, h2⟩ := ho q hq
      exact ⟨j, m, h1, fun hm => ⟨(h2 hm).1, hF.env e _ _ _ (h2 hm).2⟩⟩
    · dsimp only at hrm
      rw [(e.apply_eq s.w).1] at hrm
      exact hF.env e _ _ _ (hr r hrm hc)
  | files t =>
    cases h
    refine ⟨hj, fun q hq => ?_, fun r hrm hc => ?_⟩
    · obtain ⟨j, m, h1, h2⟩ := ho q hq
      exact ⟨j, m, h1, fun hm => ⟨(h2 hm).1, hF.files _ _ _ _ (hR t rfl) (h2 hm).2⟩⟩
    · exact hF.files _ _ _ _ (hR t rfl) (hr r hrm hc)

theorem kept_file (hF : Lasting K Pay st cwd R Fact) {t : Tree} {s : FSys}
    (h : FStepsR R st cwd { w := {}, t := t } s)
    (hp : ∀ j ∈ s.w.jobs, Pay j.id = j.payload ∧ K j.id) : Kept K Pay st cwd Fact s := by
  generalize h0 : ({ w := {}, t := t } : FSys) = s0 at h
  induction h with
  | refl =>
    subst h0
    refine ⟨trivial, fun p hp => ?_, fun j hj => ?_⟩
    · cases hp
    · cases hj
  | @tail s1 s2 a h1 ha hf hR ih =>
    subst h0
    have hr : FReachable st s1 := ⟨t, h1.file.steps⟩
    have hp1 : ∀ j ∈ s1.w.jobs, Pay j.id = j.payload ∧ K j.id := by
      intro j hj
      obtain ⟨j', hj', e1, e2, -⟩ := (C91_consistent hr ⟨a, ha⟩).2.2 j hj
      rw [← e1, (hp j' hj').1, e2]
      exact ⟨rfl, (hp j' hj').2⟩
    refine kept_act hF (fAbides_file h1.file hp1) hp1 (ih hp1) ha ?_ hR
    intro c hc j i pl pip path cwd' rs info rc m hm hcc
    obtain ⟨hpl, hpath, hcwd⟩ := hf c hc j i pl pip path cwd' rs info rc m hm hcc
    suffices hh : K j ∧ pl = Pay j from ⟨hh.1, hh.2, hpath, hcwd⟩
    cases hrow : s1.w.job? j with
    | none => rw [hrow] at hpl; cases hpl
    | some row =>
      rw [hrow] at hpl
      have := hp1 row (job?_some hrow).2
      rw [(job?_some hrow).1] at this
      exact ⟨this.2, (Option.some.inj hpl).symm.trans this.1.symm⟩

/-! ## The facts -/

/-- The data of the job has been merged into its result file. -/
theorem lasting_merged : Lasting K Pay st cwd (fun _ _ => True)
    (fun j w _ => (j, resPath (Pay j) j) ∈ w.merged) := by
  have hdb : ∀ (o : Op) (w : World) x, x ∈ w.merged → x ∈ (exec o w).2.merged := by
    intro o w x hx
    rcases exec_merged o w with h | ⟨_, _, _, _, h⟩ <;> rw [h]
    · exact hx
    · exact List.mem_append_left _ hx
  refine ⟨fun o w t j _ _ h => ?_, fun e w t j h => ?_, fun _ _ _ _ _ h => h, fun o w t j ho h => ?_⟩
  · cases o with
    | db o => exact hdb o w _ h
    | fs o => exact h
    | merge id jp p c =>
      have := hdb (.merge id jp p) w _ h
      simp only [fExec]
      cases hx : exec (.merge id jp p) w with
      | mk ans w' =>
        rw [hx] at this
        cases ans with
        | error e => exact h
        | ok u =>
          cases p with
          | none => exact h
          | some f =>
            dsimp only
            cases writable t (resolve c f) with
            | error e => exact h
            | ok _ => exact this
  · cases e <;> exact h
  · cases o with
    | merge id jp p c =>
      simp only [mergeOk, Bool.and_eq_true, decide_eq_true_eq] at h
      obtain ⟨rfl, hok⟩ := h
      simp only [fExec] at hok ⊢
      cases hx : exec (.merge id jp p) w with
      | mk ans w' =>
        cases ans with
        | error e => rw [hx] at hok; cases hok
        | ok u =>
          cases p with
          | none => rw [hx] at hok; cases hok
          | some f =>
            simp only [hx] at hok ⊢
            cases hw : writable t (resolve c f) with
            | error e => rw [hw] at hok; cases hok
            | ok _ =>
              have hw' : w'.merged = w.merged ++ [(id, f)] := by
                have e : w' = (exec (.merge id jp (some f)) w).2 := by rw [hx]
                rw [e]
                simp only [exec] at hx ⊢
                split at hx
                · cases hx
                · next h1 =>
                  split at hx
                  · cases hx
                  · next h2 => rw [if_neg h1, if_neg h2]
              dsimp only
              rw [hw', ho.2.2.2 f rfl]
              exact List.mem_append_right _ (List.mem_singleton.mpr rfl)
    | _ => cases h

/-- Nobody else removes or overwrites data files. -/
def KeepsData (t t' : Tree) : Prop := ∀ q n, t q = some (.nc n) → t' q = some (.nc n)

/-- The data of the job is in its result file, if no two jobs have the same one. -/
theorem lasting_tree
    (hd : ∀ i j, K i → K j → resPlace cwd (Pay i) i = resPlace cwd (Pay j) j → i = j) :
    Lasting K Pay st cwd KeepsData (fun j _ t => t (resPlace cwd (Pay j) j) = some (.nc j)) := by
  refine ⟨fun o w t j hj ho h => ?_, fun _ _ _ _ h => h, fun _ _ _ _ hR h => hR _ _ h,
    fun o w t j ho h => ?_⟩
  · cases o with
    | db o => exact h
    | fs o =>
      cases o with
      | «exists» p => exact h
      | isDir p => exact h
      | mkdir p =>
        simp only [fExec, fsExec]
        split
        · exact h
        · next hn =>
          split
          · have : resPlace cwd (Pay j) j ≠ p := by
              rintro rfl; rw [h] at hn; exact hn rfl
            simp only [Tree.put, if_neg this]
            exact h
          · exact h
          · exact h
      | crate inf sm d z =>
        obtain ⟨i, -, rfl, rfl⟩ := ho
        simp only [fExec, fsExec]
        split
        · exact h
        · split
          · exact h
          · have : resPlace cwd (Pay j) j ≠ cratePath (resolve cwd (resPath (Pay i) i)) :=
              fun e => cratePath_ne cwd cwd (Pay i) (Pay j) i j e.symm
            simp only [Tree.put, if_neg this]
            exact h
    | merge id jp p c =>
      obtain ⟨rfl, hK, -, hres⟩ := ho
      simp only [fExec]
      cases hx : exec (.merge id jp p) w with
      | mk ans w' =>
        cases ans with
        | error e => exact h
        | ok u =>
          cases p with
          | none => exact h
          | some f =>
            dsimp only
            cases writable t (resolve c f) with
            | error e => exact h
            | ok _ =>
              dsimp only
              rw [hres f rfl]
              by_cases e : resPlace c (Pay j) j = resPlace c (Pay id) id
              · have := hd j id hj hK e
                subst this
                exact if_pos rfl
              · exact (if_neg e).trans h
  · cases o with
    | merge id jp p c =>
      obtain ⟨rfl, hK, -, hres⟩ := ho
      simp only [mergeOk, Bool.and_eq_true, decide_eq_true_eq] at h
      obtain ⟨rfl, hok⟩ := h
      simp only [fExec] at hok ⊢
      cases hx : exec (.merge id jp p) w with
      | mk ans w' =>
        cases ans with
        | error e => rw [hx] at hok; cases hok
        | ok u =>
          cases p with
          | none => rw [hx] at hok; cases hok
          | some f =>
            simp only [hx] at hok ⊢
            cases hw : writable t (resolve c f) with
            | error e => rw [hw] at hok; cases hok
            | ok _ =>
              dsimp only
              rw [hres f rfl]
              exact if_pos rfl
    | _ => cases h

/-! ## C96 -/

/-- In all executions, whatever happens to the files: the data of a job recorded as completed has been
merged into the result file of the job. -/
theorem C96_merged {t : Tree} {s : FSys} (h : FStepsFile st cwd { w := {}, t := t } s) {j : Job}
    (hj : j ∈ s.w.jobs) (hc : j.status = .c) : (j.id, resPath j.payload j.id) ∈ s.w.merged := by
  obtain ⟨Pay, hP⟩ := known_rows ⟨t, h.steps⟩
  have hk := kept_file (lasting_merged (K := fun i => i ∈ s.w.jobs.map (·.id))) h.any hP
  have := hk.rows j hj hc
  rwa [(hP j hj).1] at this

/-- No two jobs write to the same result file. -/
def OwnResults (cwd : FsPath) (jobs : List Job) : Prop :=
  ∀ i ∈ jobs, ∀ j ∈ jobs, resPlace cwd i.payload i.id = resPlace cwd j.payload j.id → i.id = j.id

theorem own_known {s : FSys} (hP : ∀ j ∈ s.w.jobs, Pay j.id = j.payload ∧ j.id ∈ s.w.jobs.map (·.id))
    (ho : OwnResults cwd s.w.jobs) (i j : Nat) (hi : i ∈ s.w.jobs.map (·.id))
    (hj : j ∈ s.w.jobs.map (·.id)) (e : resPlace cwd (Pay i) i = resPlace cwd (Pay j) j) : i = j := by
  obtain ⟨a, ha, rfl⟩ := List.mem_map.mp hi
  obtain ⟨b, hb, rfl⟩ := List.mem_map.mp hj
  rw [(hP a ha).1, (hP b hb).1] at e
  exact ho a ha b hb e

/-- **C96**: a job recorded as completed has its data in its result file, in all executions in which
no two jobs have the same result file and nobody else removes data files.  What is missing: jobs that
ended otherwise. -/
theorem C96_partial {t : Tree} {s : FSys} (h : FStepsR KeepsData st cwd { w := {}, t := t } s)
    (ho : OwnResults cwd s.w.jobs) {j : Job} (hj : j ∈ s.w.jobs) (hc : j.status = .c) :
    s.t (resPlace cwd j.payload j.id) = some (.nc j.id) := by
  obtain ⟨Pay, hP⟩ := known_rows ⟨t, h.file.steps⟩
  have hk := kept_file (lasting_tree (own_known hP ho)) h hP
  have := hk.rows j hj hc
  rwa [(hP j hj).1] at this

/-! ## C94 -/

/-- **C94**, what the archives contain, in all executions in which no two jobs have the same result
file and nobody else removes data files: an archive written by a job process is beside the result file
of a job, names the sample of this job, and contains the data of this job. -/
theorem C94_content {t : Tree} {s s' : FSys} (h : FStepsR KeepsData st cwd { w := {}, t := t } s)
    (ho : OwnResults cwd s.w.jobs) {i : Nat} (hst : fact st s (.step i) = some s') {q : FsPath}
    (hq : s'.t q ≠ s.t q) {info : CrateInfo} {sample : String} {n : Node}
    (hz : s'.t q = some (.zip info sample n)) :
    ∃ j ∈ s.w.jobs, q = cratePath (resPlace cwd j.payload j.id) ∧ sample = j.payload.sample ∧
      n = .nc j.id := by
  obtain ⟨Pay, hP⟩ := known_rows ⟨t, h.file.steps⟩
  have hk := kept_file (lasting_tree (own_known hP ho)) h hP
  have hab := fAbides_file h.file hP
  simp only [fact] at hst
  split at hst
  · next o k hp =>
    cases hst
    have hmem := List.mem_of_getElem? hp
    have hA := (hab.others _ hmem).1
    obtain ⟨j, m, hcau, hfact⟩ := hk.others _ hmem
    dsimp only at hq hz
    cases o with
    | db o => exact absurd rfl hq
    | fs o =>
      cases o with
      | «exists» p => exact absurd rfl hq
      | isDir p => exact absurd rfl hq
      | mkdir p =>
        simp only [fExec, fsExec] at hq hz
        split at hq
        · exact absurd rfl hq
        · next hn =>
          rw [if_neg hn] at hz
          split at hq
          · next hd =>
            simp only [hd] at hz
            rw [(put_ne hq).2] at hz; cases hz
          · exact absurd rfl hq
          · exact absurd rfl hq
      | crate inf sm d z =>
        obtain ⟨hd, hs, hm⟩ := hcau.1
        obtain ⟨hK, hn⟩ := hfact hm
        obtain ⟨-, -, -, hzz⟩ := hA
        obtain ⟨r, hr, hid⟩ := List.mem_map.mp hK
        subst hid
        rw [(hP r hr).1] at hd hs hn
        simp only [fExec, fsExec, hd, hn] at hq hz
        rw [hd] at hzz
        cases hw : writable s.t z with
        | error e => rw [hw] at hq; exact absurd rfl hq
        | ok _ =>
          simp only [hw] at hq hz
          obtain ⟨rfl, hv⟩ := put_ne hq
          rw [hv] at hz
          injection hz with hz
          injection hz with h1 h2 h3
          exact ⟨r, hr, hzz, h2.symm.trans hs, h3.symm⟩
    | merge id jp p c =>
      simp only [fExec] at hq hz
      cases hx : exec (.merge id jp p) s.w with
      | mk ans w' =>
        cases ans with
        | error e => simp only [hx] at hq; exact absurd rfl hq
        | ok u =>
          cases p with
          | none => simp only [hx] at hq; exact absurd rfl hq
          | some f =>
            simp only [hx] at hq hz
            cases hw : writable s.t (resolve c f) with
            | error e => rw [hw] at hq; exact absurd rfl hq
            | ok _ =>
              simp only [hw] at hq hz
              rw [(put_ne hq).2] at hz; cases hz
  · cases hst

end Tomato.Props
