import Verif.System
import Verif.Inv

/-!
# Which operations each program of the system can perform
-/

namespace Tomato

/-- What the driver manager stores in the table of drivers. -/
def DrvMgrParams (ps : List DrvParam) : Prop :=
  ps = drvDefaults ∨ (∃ t, ps = [.heartbeatTime t]) ∨ (∃ t c, ps = [.spawnTime t, .spawnCount c])

/-- The operations of a command besides reading. -/
def Cmd.writes : Cmd → Op → Prop
  | .submit _ _ _ _, .insertJob j =>
      j = { id := 0, payload := j.payload, jobname := j.jobname, submittedAt := j.submittedAt }
  | .submit _ _ _ _, .idBySubmitted _ => True
  | .cancel ids, .updateJob id ps => id ∈ ids ∧ (ps = [.status .cd] ∨ ps = [.status .rd])
  | .snapshot _, .merge _ _ _ => True
  | .load _ p x, .updatePip n ps => n = p ∧ ps = [.sampleid (some x), .ready false]
  | .eject _ p, .updatePip n ps => n = p ∧ ps = [.sampleid none, .ready false]
  | .ready _ p, .updatePip n ps => n = p ∧ ps = [.ready true]
  | .reload _ _, .insertPip p => p = { name := p.name }
  | .reload _ _, .insertDrv p => p = { name := p.name }
  | .pipPass _, .updatePip _ ps => ps = [.jobid none, .ready false]
  | .drvPass _, .updateDrv _ ps => DrvMgrParams ps
  | .drvPass _, .popenDriver _ => True
  | .drvPass _, .delDrv _ => True
  | .driverStart n p i v, .updateDrv n' ps =>
      n' = n ∧ ps = [.port (some p), .version (some v), .pid (some i), .heartbeatTime 0]
  | .tomatoJob j pid _ _ _ _ _, .updateJob id ps => id = j ∧
      ((∃ t, ps = [.pid (some pid), .status .r, .connectedAt (some t)]) ∨
       (∃ a b c, ps = [.respath (some a), .snappath (some b), .jobpath (some c)]) ∨
       (∃ st t, (st = .c ∨ st = .ce) ∧ ps = [.status st, .completedAt (some t)]))
  | .tomatoJob _ _ _ pip _ _ _, .updatePip n ps => n = pip ∧ ∃ b, ps = [.jobid none, .ready b]
  | .tomatoJob j _ _ _ _ _ _, .merge id _ _ => id = j
  | _, _ => False

/-- The operations of the job manager besides reading. -/
def jmWrites (storage : String) : Op → Prop
  | .updateJob _ ps => ps = [.status .qw] ∨ (∃ t, ps = [.launchedAt (some t)]) ∨
      (∃ st t, (st = .cd ∨ st = .ce) ∧ ps = [.status st, .pid none, .completedAt (some t)])
  | .updatePip _ ps => ∃ j, ps = [.jobid (some j), .ready false]
  | .makeJobDir st _ => st = storage
  | .popenJob _ _ => True
  | .killChildren _ => True
  | .merge _ _ _ => True
  | _ => False

variable {Q : Op → Prop}

theorem only_getJobId (hq : ∀ o, QuietOp o → Q o) (id : Nat) : Prog.Only (S := DB) Q (getJobId id) := by
  unfold getJobId
  refine Prog.only_bind ((Do.only_fetchJob id).mpr (hq _ trivial)) (fun j => ?_)
  split <;> trivial

theorem only_updateJobId (hq : ∀ o, QuietOp o → Q o) (id : Nat) (ps : List JobParam)
    (h : Q (.updateJob id ps)) : Prog.Only (S := DB) Q (updateJobId id ps) := by
  unfold updateJobId
  exact Prog.only_bind ((Do.only_updateJob id ps).mpr h) (fun _ => only_getJobId hq id)

theorem only_updatePip (hq : ∀ o, QuietOp o → Q o) (n : String) (ps : List PipParam)
    (h : Q (.updatePip n ps)) : Prog.Only (S := DB) Q (updatePip n ps) := by
  unfold updatePip
  exact Prog.only_bind ((Do.only_updatePip n ps).mpr h)
    (fun _ => (Do.only_getPip n).mpr (hq _ trivial))

theorem only_updateDrv (hq : ∀ o, QuietOp o → Q o) (n : String) (ps : List DrvParam)
    (h : Q (.updateDrv n ps)) : Prog.Only (S := DB) Q (updateDrv n ps) := by
  unfold updateDrv
  exact Prog.only_bind ((Do.only_updateDrv n ps).mpr h)
    (fun _ => (Do.only_getDrv n).mpr (hq _ trivial))

theorem only_submit (hq : ∀ o, QuietOp o → Q o) (hid : ∀ t, Q (.idBySubmitted t))
    (f : PayloadFile) (n : Option String) (d : Daemon) (c : String)
    (h : ∀ p t, Q (.insertJob { id := 0, payload := p, jobname := n, submittedAt := t })) :
    Prog.Only (S := DB) Q (submit f n d c) := by
  unfold submit
  split
  · trivial
  · trivial
  · trivial
  · simp only
    split
    · trivial
    · trivial
    · refine Prog.only_bind (Do.only_now.mpr (hq _ trivial)) (fun t => ?_)
      refine Prog.only_bind ?_ (fun _ => trivial)
      unfold insertJob
      refine Prog.only_bind ((Do.only_insertJob _).mpr (h _ _)) (fun _ => ?_)
      refine Prog.only_bind ((Do.only_idBySubmitted _).mpr (hid _)) (fun _ => ?_)
      exact only_getJobId hq _

theorem only_status (hq : ∀ o, QuietOp o → Q o) (ids : List Nat) :
    Prog.Only (S := DB) Q (status ids) := by
  unfold status
  split
  · refine Prog.only_bind ((Do.only_jobsWhere _).mpr (hq _ trivial)) (fun t => ?_)
    split <;> trivial
  · refine Prog.only_bind ((Do.only_jobsWhere _).mpr (hq _ trivial)) (fun t => ?_)
    split <;> trivial

theorem only_cancelLoop (hq : ∀ o, QuietOp o → Q o) (jobid : Option Nat)
    (h : ∀ id ps, jobid = some id → (ps = [.status .cd] ∨ ps = [.status .rd]) →
      Q (.updateJob id ps)) (jobs : List Job) (params : Option (List JobParam)) (data : List Job)
    (hps : ∀ ps, params = some ps → ps = [.status .cd] ∨ ps = [.status .rd]) :
    Prog.Only (S := DB) Q (cancelLoop jobid jobs params data) := by
  induction jobs generalizing params data with
  | nil => trivial
  | cons j js ih =>
    unfold cancelLoop
    split
    · exact ih _ _ hps
    · next pr hpr =>
      have hpr' : ∀ ps, pr = some ps → ps = [.status .cd] ∨ ps = [.status .rd] := by
        unfold cancelParams at hpr
        split at hpr
        · cases hpr; rintro ps ⟨⟩; exact .inl rfl
        · split at hpr
          · cases hpr; rintro ps ⟨⟩; exact .inr rfl
          · split at hpr
            · cases hpr
            · cases hpr; exact hps
      split
      · next id ps _ =>
        refine Prog.only_bind (only_updateJobId hq _ _ (h _ _ rfl (hpr' _ rfl))) (fun _ => ?_)
        exact ih _ _ (by rintro ps' ⟨⟩; exact hpr' _ rfl)
      · trivial

theorem only_cancel (hq : ∀ o, QuietOp o → Q o) (ids : List Nat)
    (h : ∀ id ps, ids.getLast? = some id → (ps = [.status .cd] ∨ ps = [.status .rd]) →
      Q (.updateJob id ps)) : Prog.Only (S := DB) Q (cancel ids) := by
  unfold cancel
  refine Prog.only_bind ((Do.only_jobsWhere _).mpr (hq _ trivial)) (fun t => ?_)
  simp only
  split
  · trivial
  · exact Prog.only_bind (only_cancelLoop hq _ h _ _ _ (by simp)) (fun _ => trivial)

theorem only_snapshot (hq : ∀ o, QuietOp o → Q o) (hm : ∀ a b c, Q (.merge a b c))
    (ids : List Nat) : Prog.Only (S := DB) Q (snapshot ids) := by
  unfold snapshot
  refine Prog.only_bind ((Do.only_jobsWhere _).mpr (hq _ trivial)) (fun t => ?_)
  split
  · trivial
  · refine Prog.only_bind (Prog.only_forEach fun j _ => ?_) (fun _ => trivial)
    exact (Do.only_merge _ _ _).mpr (hm _ _ _)

theorem only_search (hq : ∀ o, QuietOp o → Q o) (n : String) :
    Prog.Only (S := DB) Q (search n) := by
  unfold search
  split
  · trivial
  · refine Prog.only_bind ((Do.only_jobsWhere _).mpr (hq _ trivial)) (fun t => ?_)
    split <;> trivial

theorem only_load (hq : ∀ o, QuietOp o → Q o) (s : Option Daemon) (p x : String)
    (h : Q (.updatePip p [.sampleid (some x), .ready false])) :
    Prog.Only (S := DB) Q (pipelineLoad s p x) := by
  have hst : Prog.Only (S := DB) Q (pipelineLoad.store p x) :=
    Prog.only_bind (only_updatePip hq _ _ h) (fun _ => trivial)
  unfold pipelineLoad
  split
  · trivial
  · split
    · trivial
    · refine Prog.only_bind ((Do.only_getPip _).mpr (hq _ trivial)) (fun t => ?_)
      split
      · split
        · trivial
        · exact hst
      · exact hst

theorem only_eject (hq : ∀ o, QuietOp o → Q o) (s : Option Daemon) (p : String)
    (h : Q (.updatePip p [.sampleid none, .ready false])) :
    Prog.Only (S := DB) Q (pipelineEject s p) := by
  unfold pipelineEject
  split
  · trivial
  · split
    · trivial
    · refine Prog.only_bind ((Do.only_getPip _).mpr (hq _ trivial)) (fun t => ?_)
      split
      · trivial
      · split
        · trivial
        · split
          · trivial
          · exact Prog.only_bind (only_updatePip hq _ _ h) (fun _ => trivial)

theorem only_ready (hq : ∀ o, QuietOp o → Q o) (s : Option Daemon) (p : String)
    (h : Q (.updatePip p [.ready true])) :
    Prog.Only (S := DB) Q (pipelineReady s p) := by
  unfold pipelineReady
  split
  · trivial
  · split
    · trivial
    · refine Prog.only_bind ((Do.only_getPip _).mpr (hq _ trivial)) (fun t => ?_)
      split
      · trivial
      · split
        · trivial
        · split
          · trivial
          · exact Prog.only_bind (only_updatePip hq _ _ h) (fun _ => trivial)

theorem only_bootstrapDrivers (hq : ∀ o, QuietOp o → Q o) (hi : ∀ n, Q (.insertDrv { name := n }))
    (ns : List String) : Prog.Only (S := DB) Q (bootstrapDrivers ns) := by
  induction ns with
  | nil => trivial
  | cons n ns ih =>
    unfold bootstrapDrivers
    refine Prog.only_bind ((Do.only_getDrv _).mpr (hq _ trivial)) (fun t => ?_)
    split
    · refine Prog.only_bind ?_ (fun _ => Prog.only_bind (Prog.only_assert _) (fun _ => ih))
      unfold insertDrv
      exact Prog.only_bind ((Do.only_insertDrv _).mpr (hi _))
        (fun _ => (Do.only_getDrv _).mpr (hq _ trivial))
    · exact ih

theorem only_bootstrapPipelines (hq : ∀ o, QuietOp o → Q o)
    (hi : ∀ n, Q (.insertPip { name := n })) (ns : List String) :
    Prog.Only (S := DB) Q (bootstrapPipelines ns) := by
  induction ns with
  | nil => trivial
  | cons n ns ih =>
    unfold bootstrapPipelines
    refine Prog.only_bind ((Do.only_getPip _).mpr (hq _ trivial)) (fun t => ?_)
    split
    · refine Prog.only_bind ?_ (fun _ => Prog.only_bind (Prog.only_assert _) (fun _ => ih))
      unfold insertPip
      exact Prog.only_bind ((Do.only_insertPip _).mpr (hi _))
        (fun _ => (Do.only_getPip _).mpr (hq _ trivial))
    · exact ih

theorem only_checkPipelines (old new : DeviceFile) (l : List PipState) (cs : List String) :
    Prog.Only (S := DB) Q (checkPipelines old new l cs) := by
  induction l generalizing cs with
  | nil => trivial
  | cons p l ih =>
    unfold checkPipelines
    split
    · trivial
    · split
      · trivial
      · split
        · exact ih _
        · trivial

theorem only_checkComponents (old new : DeviceFile) (l : List String) (cs : List String) :
    Prog.Only (S := DB) Q (checkComponents old new l cs) := by
  induction l generalizing cs with
  | nil => trivial
  | cons p l ih =>
    unfold checkComponents
    split
    · trivial
    · split
      · trivial
      · split
        · trivial
        · exact ih _

theorem only_checkDrivers (old new : DeviceFile) (l : List String) :
    Prog.Only (S := DB) Q (checkDrivers old new l) := by
  induction l with
  | nil => trivial
  | cons p l ih =>
    unfold checkDrivers
    split
    · split <;> trivial
    · split
      · trivial
      · split
        · exact ih
        · trivial

theorem only_reload (hq : ∀ o, QuietOp o → Q o) (hi : ∀ n, Q (.insertPip { name := n }))
    (hd : ∀ n, Q (.insertDrv { name := n })) (d : Daemon)
    (x : Option (Settings × DeviceFile)) : Prog.Only (S := DB) Q (cmdReload d x) := by
  unfold cmdReload
  split
  · exact Prog.only_bind (only_bootstrapDrivers hq hd _) (fun _ =>
      Prog.only_bind (only_bootstrapPipelines hq hi _) (fun _ => trivial))
  · split
    · trivial
    · refine Prog.only_bind ((Do.only_pipsWhere _).mpr (hq _ trivial)) (fun t => ?_)
      refine Prog.only_bind (only_checkPipelines _ _ _ _) (fun r => ?_)
      split
      · trivial
      · refine Prog.only_bind (only_checkComponents _ _ _ _) (fun r => ?_)
        split
        · trivial
        · refine Prog.only_bind (only_checkDrivers _ _ _) (fun r => ?_)
          split <;> trivial

theorem only_stop (hq : ∀ o, QuietOp o → Q o) (d : Daemon) :
    Prog.Only (S := DB) Q (cmdStop d) := by
  unfold cmdStop
  refine Prog.only_bind ((Do.only_pipsWhere _).mpr (hq _ trivial)) (fun t => ?_)
  split <;> trivial

theorem only_resetComponents (hq : ∀ o, QuietOp o → Q o) (d : Daemon) (cs : List String) :
    Prog.Only (S := DB) Q (resetComponents d cs) := by
  induction cs with
  | nil => trivial
  | cons c cs ih =>
    unfold resetComponents
    split
    · trivial
    · refine Prog.only_bind ((Do.only_getDrv _).mpr (hq _ trivial)) (fun t => ?_)
      split
      · trivial
      · exact Prog.only_bind ((Do.only_askDriver _ _).mpr (hq _ trivial)) (fun _ => ih)

theorem only_managePip (hq : ∀ o, QuietOp o → Q o)
    (h : ∀ n, Q (.updatePip n [.jobid none, .ready false])) (d : Daemon) (p : PipState) (j : Nat) :
    Prog.Only (S := DB) Q (managePip d p j) := by
  have hr : Prog.Only (S := DB) Q (resetPipeline d p) := by
    unfold resetPipeline
    split
    · trivial
    · exact Prog.only_bind (only_resetComponents hq _ _) (fun _ =>
        Prog.only_bind (only_updatePip hq _ _ (h _)) (fun _ => trivial))
  unfold managePip
  refine Prog.only_bind (only_getJobId hq _) (fun job => ?_)
  split
  · split
    · exact hr
    · split
      · refine Prog.only_bind (Do.only_now.mpr (hq _ trivial)) (fun t => ?_)
        split
        · exact hr
        · trivial
      · trivial
  · refine Prog.only_bind ((Do.only_pidExists _).mpr (hq _ trivial)) (fun t => ?_)
    split
    · refine Prog.only_bind ((Do.only_notZombie _).mpr (hq _ trivial)) (fun t => ?_)
      split
      · trivial
      · exact hr
    · exact hr

theorem only_pipPass (hq : ∀ o, QuietOp o → Q o)
    (h : ∀ n, Q (.updatePip n [.jobid none, .ready false])) (d : Daemon) :
    Prog.Only (S := DB) Q (pipManagerPass d) := by
  unfold pipManagerPass
  refine Prog.only_bind ((Do.only_pipsWhere _).mpr (hq _ trivial)) (fun t => ?_)
  refine Prog.only_forEach fun p _ => ?_
  split
  · trivial
  · exact only_managePip hq h _ _ _

/-! ## Operations that are performed with the answers the world can give -/

/-- Every operation the program performs satisfies `P` and its result satisfies `Q`, as long as
the answers are those of some world (a different one for each operation). -/
def Allow {α : Type} (P : Op → Prop) (Q : α → Prop) : Prog DB α → Prop
  | .pure a => Q a
  | .raise _ => True
  | .op o k => P o ∧ ∀ w, Allow P Q (k (exec o w).1)

theorem allow_of_only {α : Type} {P : Op → Prop} {p : Prog DB α} (h : Prog.Only (S := DB) P p) :
    Allow P (fun _ => True) p := by
  induction p with
  | pure a => trivial
  | raise e => trivial
  | op o k ih => exact ⟨h.1, fun w => ih _ (h.2 _)⟩

theorem allow_bind {α β : Type} {P : Op → Prop} {Q : α → Prop} {Q' : β → Prop} {p : Prog DB α}
    {f : α → Prog DB β} (hp : Allow P Q p) (hf : ∀ a, Q a → Allow P Q' (f a)) :
    Allow P Q' (Prog.bind p f) := by
  induction p with
  | pure a => exact hf a hp
  | raise e => trivial
  | op o k ih => exact ⟨hp.1, fun w => ih _ (hp.2 w)⟩

theorem Allow.mono {α : Type} {P P' : Op → Prop} {Q Q' : α → Prop} {p : Prog DB α}
    (h : Allow P Q p) (hP : ∀ o, P o → P' o) (hQ : ∀ a, Q a → Q' a) : Allow P' Q' p := by
  induction p with
  | pure a => exact hQ a h
  | raise e => trivial
  | op o k ih => exact ⟨hP o h.1, fun w => ih _ (h.2 w)⟩

theorem allow_tryExcept {α : Type} {P : Op → Prop} {Q : α → Prop} {p : Prog DB α}
    {hd : PyErr → Option (Prog DB α)} (hp : Allow P Q p)
    (hh : ∀ e q, hd e = some q → Allow P Q q) : Allow P Q (Prog.tryExcept p hd) := by
  induction p with
  | pure a => exact hp
  | raise e =>
    simp only [Prog.tryExcept]
    cases hq : hd e with
    | none => trivial
    | some q => exact hh e q hq
  | op o k ih => exact ⟨hp.1, fun w => ih _ (hp.2 w)⟩

theorem allow_forEach {β : Type} {P : Op → Prop} {xs : List β} {f : β → Prog DB Unit}
    (hf : ∀ x ∈ xs, Allow P (fun _ => True) (f x)) :
    Allow P (fun _ => True) (Prog.forEach xs f) := by
  induction xs with
  | nil => trivial
  | cons x xs ih =>
    exact allow_bind (hf x (by simp)) (fun _ _ => ih (fun y hy => hf y (by simp [hy])))

theorem allow_drvPass (hq : ∀ o, QuietOp o → Q o) (h : ∀ n ps, DrvMgrParams ps → Q (.updateDrv n ps))
    (hp : ∀ n, Q (.popenDriver n)) (hd : ∀ n, Q (.delDrv n)) (d : Daemon) :
    Allow Q (fun _ => True) (drvManagerPass d) := by
  unfold drvManagerPass
  refine allow_bind (allow_of_only ((Do.only_drvsWhere _).mpr (hq _ trivial))) (fun t _ => ?_)
  refine allow_forEach fun p _ => ?_
  unfold manageDriver
  refine allow_bind (allow_of_only (Do.only_perfCounter.mpr (hq _ trivial))) (fun tN _ => ?_)
  split
  · split
    · exact allow_of_only (Prog.only_bind ((Do.only_askDriver _ _).mpr (hq _ trivial)) (fun _ =>
        (Do.only_delDrv _).mpr (hd _)))
    · exact allow_of_only ((Do.only_delDrv _).mpr (hd _))
  · split
    · split
      · refine allow_bind (Q := DrvMgrParams) ?_ (fun ps hps =>
          allow_of_only (Prog.only_bind (only_updateDrv hq _ _ (h _ _ hps)) (fun _ => trivial)))
        unfold checkDriver
        refine allow_tryExcept ?_ ?_
        · refine allow_bind (allow_of_only ((Do.only_askDriverTimeout _ _).mpr (hq _ trivial)))
            (fun r _ => ?_)
          split
          · split
            · trivial
            · split
              · exact allow_bind (allow_of_only ((Do.only_askDriverTimeout _ _).mpr (hq _ trivial)))
                  (fun _ _ => .inr (.inl ⟨_, rfl⟩))
              · exact .inr (.inl ⟨_, rfl⟩)
          · exact .inr (.inl ⟨_, rfl⟩)
        · intro e q hq'
          split at hq'
          · cases hq'; exact .inl rfl
          · cases hq'
      · trivial
    · split
      · exact allow_of_only (Prog.only_bind ((Do.only_popenDriver _).mpr (hp _)) (fun _ =>
          Prog.only_bind (only_updateDrv hq _ _ (h _ _ (.inr (.inr ⟨_, _, rfl⟩)))) (fun _ => trivial)))
      · trivial

theorem allow_getJobId (hq : ∀ o, QuietOp o → Q o) (id : Nat) :
    Allow Q (fun j => j.id = id) (getJobId id) := by
  refine ⟨hq _ trivial, fun w => ?_⟩
  simp only [exec]
  show Allow _ _ (Prog.bind (Prog.pure (w.job? id)) _)
  simp only [Prog.pure_bind]
  cases h : w.job? id with
  | none => trivial
  | some j => exact (job?_some h).1

theorem allow_updateJobId (hq : ∀ o, QuietOp o → Q o) (id : Nat) (ps : List JobParam)
    (h : Q (.updateJob id ps)) : Allow Q (fun j => j.id = id) (updateJobId id ps) := by
  unfold updateJobId
  exact allow_bind (allow_of_only ((Do.only_updateJob id ps).mpr h))
    (fun _ _ => allow_getJobId hq id)

theorem allow_tomatoJob (hq : ∀ o, QuietOp o → Q o) (j pid : Nat) (pl : Payload)
    (pip path : String) (m : P (Option Nat)) (hm : Prog.Only (S := DB) QuietOp m)
    (h1 : ∀ t, Q (.updateJob j [.pid (some pid), .status .r, .connectedAt (some t)]))
    (h2 : ∀ a b c, Q (.updateJob j [.respath (some a), .snappath (some b), .jobpath (some c)]))
    (h3 : ∀ st t, st = .c ∨ st = .ce → Q (.updateJob j [.status st, .completedAt (some t)]))
    (h4 : ∀ b, Q (.updatePip pip [.jobid none, .ready b]))
    (h5 : ∀ b c, Q (.merge j b c)) :
    Allow Q (fun _ => True) (tomatoJob j pid pl pip path m) := by
  unfold tomatoJob
  refine allow_bind (Q := fun _ => True) ?_ (fun _ _ => ?_)
  · unfold jobConnect
    refine allow_bind (allow_of_only (Do.only_now.mpr (hq _ trivial))) (fun t _ => ?_)
    exact allow_bind (allow_updateJobId hq _ _ (h1 _)) (fun _ _ => trivial)
  · refine allow_bind (Q := fun job => job.id = j) ?_ (fun job hjob => ?_)
    · unfold jobPaths
      exact allow_updateJobId hq _ _ (h2 _ _ _)
    · refine allow_bind (allow_of_only (hm.mono hq)) (fun ret _ => ?_)
      unfold jobFinish
      refine allow_bind (allow_of_only (Do.only_now.mpr (hq _ trivial))) (fun t _ => ?_)
      simp only
      refine allow_bind (allow_of_only ((Do.only_merge _ _ _).mpr (hjob ▸ h5 _ _))) (fun _ _ => ?_)
      refine allow_bind (allow_updateJobId hq _ _ ?_) (fun _ _ => ?_)
      · rw [hjob]
        apply h3
        split
        · exact .inl rfl
        · exact .inr rfl
      · exact allow_bind (allow_of_only (only_updatePip hq _ _ (h4 _))) (fun _ _ => trivial)

/-- The commands perform no other operations than the listed ones. -/
theorem Cmd.allow_ops (c : Cmd) : Allow (fun o => QuietOp o ∨ c.writes o) (fun _ => True) c.prog := by
  have hq : ∀ o, QuietOp o → (QuietOp o ∨ c.writes o) := fun _ h => .inl h
  have hb : ∀ {α : Type} (p : P α), Prog.Only (S := DB) (fun o => QuietOp o ∨ c.writes o) p →
      Allow (fun o => QuietOp o ∨ c.writes o) (fun _ => True) (p >>= fun _ => pure ()) :=
    fun p h => allow_bind (allow_of_only h) (fun _ _ => trivial)
  cases c with
  | submit f n d c =>
    exact hb _ (only_submit hq (fun _ => .inr trivial) _ _ _ _ (fun p t => .inr rfl))
  | status ids => exact hb _ (only_status hq _)
  | cancel ids =>
    refine hb _ (only_cancel hq _ (fun id ps hid hps => .inr ⟨?_, hps⟩))
    exact List.mem_of_getLast? hid
  | snapshot ids => exact hb _ (only_snapshot hq (fun _ _ _ => .inr trivial) _)
  | search n => exact hb _ (only_search hq _)
  | load s p x => exact hb _ (only_load hq _ _ _ (.inr ⟨rfl, rfl⟩))
  | eject s p => exact hb _ (only_eject hq _ _ (.inr ⟨rfl, rfl⟩))
  | ready s p => exact hb _ (only_ready hq _ _ (.inr ⟨rfl, rfl⟩))
  | reload d x => exact hb _ (only_reload hq (fun _ => .inr rfl) (fun _ => .inr rfl) _ _)
  | stop d => exact hb _ (only_stop hq _)
  | pipPass d => exact allow_of_only (only_pipPass hq (fun _ => .inr rfl) _)
  | drvPass d =>
    exact allow_drvPass hq (fun _ _ h => .inr h) (fun _ => .inr trivial) (fun _ => .inr trivial) _
  | driverStart n p i v =>
    refine hb _ ?_
    unfold Tomato.driverStart
    exact Prog.only_bind (only_updateDrv hq _ _ (.inr ⟨rfl, rfl⟩)) (fun _ => trivial)
  | tomatoJob j i pl pip path m hm =>
    exact allow_tomatoJob hq _ _ _ _ _ _ hm
      (fun t => .inr ⟨rfl, .inl ⟨t, rfl⟩⟩) (fun a b c => .inr ⟨rfl, .inr (.inl ⟨a, b, c, rfl⟩)⟩)
      (fun st t h => .inr ⟨rfl, .inr (.inr ⟨st, t, h, rfl⟩)⟩) (fun b => .inr ⟨rfl, b, rfl⟩)
      (fun _ _ => .inr rfl)

/-! ## The job manager -/

theorem only_validateTask (hq : ∀ o, QuietOp o → Q o) (d : Daemon) (t : Task)
    (cs : Dict String String) : Prog.Only (S := DB) Q (validateTask d t cs) := by
  induction cs with
  | nil => trivial
  | cons c cs ih =>
    obtain ⟨crole, cname⟩ := c
    unfold validateTask
    split
    · split
      · trivial
      · refine Prog.only_bind ((Do.only_getDrv _).mpr (hq _ trivial)) (fun t => ?_)
        split
        · trivial
        · refine Prog.only_bind ((Do.only_askDriverLpp _ _).mpr (hq _ trivial)) (fun r => ?_)
          split
          · trivial
          · exact ih
    · exact ih

theorem only_methodValidate (hq : ∀ o, QuietOp o → Q o) (d : Daemon) (pip : Pipeline)
    (ts : List Task) : Prog.Only (S := DB) Q (methodValidate d pip ts) := by
  induction ts with
  | nil => trivial
  | cons t ts ih =>
    unfold methodValidate
    refine Prog.only_bind (only_validateTask hq _ _ _) (fun r => ?_)
    split
    · exact ih
    · trivial

theorem only_collectCapabs (hq : ∀ o, QuietOp o → Q o) (d : Daemon) (cs capabs : List String) :
    Prog.Only (S := DB) Q (collectCapabs d cs capabs) := by
  induction cs generalizing capabs with
  | nil => trivial
  | cons c cs ih =>
    unfold collectCapabs
    split
    · trivial
    · refine Prog.only_bind ((Do.only_getDrv _).mpr (hq _ trivial)) (fun t => ?_)
      split
      · trivial
      · refine Prog.only_bind ((Do.only_askDriver _ _).mpr (hq _ trivial)) (fun r => ?_)
        split
        · exact ih _
        · exact ih _

theorem only_findMatching (hq : ∀ o, QuietOp o → Q o) (d : Daemon) (m : List Task) :
    Prog.Only (S := DB) Q (findMatching d m) := by
  unfold findMatching
  generalize Dict.values d.devicefile.pipelines = ps
  generalize ([] : List String) = cands
  induction ps generalizing cands with
  | nil => trivial
  | cons p ps ih =>
    unfold matchLoop
    split
    · refine Prog.only_bind (only_collectCapabs hq _ _ _) (fun capabs => ?_)
      split
      · refine Prog.only_bind (only_methodValidate hq _ _ _) (fun r => ?_)
        split <;> exact ih _
      · exact ih _
    · exact ih _

theorem only_manageJob (hq : ∀ o, QuietOp o → Q o) (hk : ∀ p, Q (.killChildren p))
    (hm : ∀ a b c, Q (.merge a b c)) (job : Job)
    (hu : ∀ st t, st = .cd ∨ st = .ce →
      Q (.updateJob job.id [.status st, .pid none, .completedAt (some t)])) :
    Prog.Only (S := DB) Q (manageJob job) := by
  have hf : ∀ job', job'.id = job.id → ∀ st, (st = .cd ∨ st = .ce) →
      Prog.Only (S := DB) Q (manageJob.finish job' st) := by
    intro job' hid st hst
    unfold manageJob.finish
    refine Prog.only_bind (Do.only_now.mpr (hq _ trivial)) (fun t => ?_)
    exact Prog.only_bind (only_updateJobId hq _ _ (by rw [hid]; exact hu _ _ hst)) (fun _ => trivial)
  have hd : ∀ job', job'.id = job.id → ∀ b pid,
      Prog.Only (S := DB) Q (manageJob.decideJob job' b pid) := by
    intro job' hid b pid
    unfold manageJob.decideJob
    split
    · simp only
      split
      · exact Prog.only_bind ((Do.only_killChildren _).mpr (hk _)) (fun _ =>
          Prog.only_bind ((Do.only_merge _ _ _).mpr (hm _ _ _)) (fun _ => hf _ hid _ (.inl rfl)))
      · exact hf _ hid _ (.inl rfl)
    · split
      · exact hf _ hid _ (.inr rfl)
      · trivial
  unfold manageJob
  split
  · split
    · exact hd _ rfl _ _
    · split
      · refine Prog.only_bind (Do.only_now.mpr (hq _ trivial)) (fun t => ?_)
        split
        · exact hd { job with status := .rd } rfl _ _
        · trivial
      · trivial
  · refine Prog.only_bind ((Do.only_pidExists _).mpr (hq _ trivial)) (fun b => ?_)
    split
    · exact Prog.only_bind ((Do.only_notZombie _).mpr (hq _ trivial)) (fun b => hd _ rfl _ _)
    · exact hd _ rfl _ _

theorem only_manageRunning (hq : ∀ o, QuietOp o → Q o) (hk : ∀ p, Q (.killChildren p))
    (hm : ∀ a b c, Q (.merge a b c))
    (hu : ∀ id st t, st = .cd ∨ st = .ce →
      Q (.updateJob id [.status st, .pid none, .completedAt (some t)])) :
    Prog.Only (S := DB) Q manageRunning := by
  unfold manageRunning
  refine Prog.only_bind ((Do.only_jobsWhere _).mpr (hq _ trivial)) (fun l => ?_)
  exact Prog.only_forEach fun job _ => only_manageJob hq hk hm job (hu job.id)

/-- The loop of `check_queued` only updates and matches the jobs in its queue. -/
theorem allow_checkLoop (hq : ∀ o, QuietOp o → Q o) (d : Daemon) (jobs : List Job)
    (hu : ∀ j ∈ jobs, Q (.updateJob j.id [.status .qw])) (m : Dict Nat (List String)) :
    Allow Q (fun m' => ∀ k ∈ Dict.keys m', k ∈ Dict.keys m ∨ k ∈ jobs.map (·.id))
      (checkLoop d jobs m) := by
  induction jobs generalizing m with
  | nil => exact fun k hk => .inl hk
  | cons j js ih =>
    have key : ∀ ms : List String, Allow Q
        (fun m' => ∀ k ∈ Dict.keys m', k ∈ Dict.keys m ∨ k ∈ (j :: js).map (·.id))
        (checkLoop d js (Dict.set m j.id ms)) := by
      intro ms
      refine (ih (fun j hj => hu j (by simp [hj])) _).mono (fun _ h => h) ?_
      intro m' hm' k hk
      rcases hm' k hk with h | h
      · rw [Dict.mem_keys_iff, Dict.get?_set] at h
        split at h
        · next hkk => right; simp [hkk]
        · left; rw [Dict.mem_keys_iff]; exact h
      · right; simp only [List.map_cons, List.mem_cons]; exact .inr h
    unfold checkLoop
    refine allow_bind (allow_of_only (only_findMatching hq _ _)) (fun ms _ => ?_)
    split
    · exact allow_bind (allow_of_only (only_updateJobId hq _ _ (hu j (by simp)))) (fun _ _ => key _)
    · exact key _

theorem only_checkQueued (hq : ∀ o, QuietOp o → Q o) (hu : ∀ id, Q (.updateJob id [.status .qw]))
    (d : Daemon) : Prog.Only (S := DB) Q (checkQueued d) := by
  unfold checkQueued
  refine Prog.only_bind ((Do.only_jobsWhere _).mpr (hq _ trivial)) (fun l => ?_)
  generalize ([] : Dict Nat (List String)) = m
  induction l generalizing m with
  | nil => trivial
  | cons j js ih =>
    unfold checkLoop
    refine Prog.only_bind (only_findMatching hq _ _) (fun ms => ?_)
    split
    · exact Prog.only_bind (only_updateJobId hq _ _ (hu _)) (fun _ => ih _)
    · exact ih _

theorem jobArgs_isSome {d : Daemon} {n : String} (h1 : d.settings.repositories.isSome)
    (h2 : (Dict.get? d.devicefile.pipelines n).isSome) : (jobArgs d n).isSome := by
  unfold jobArgs
  cases hr : d.settings.repositories with
  | none => rw [hr] at h1; cases h1
  | some _ => exact h2

theorem only_assignJob (hq : ∀ o, QuietOp o → Q o) (d : Daemon) (jobid : Nat) (job : Job)
    (hm : Q (.makeJobDir d.settings.storage jobid))
    (hp : ∀ n, Q (.updatePip n [.jobid (some job.id), .ready false]))
    (ho : ∀ n, Q (.popenJob job.id n)) (hl : ∀ t, Q (.updateJob jobid [.launchedAt (some t)]))
    (ns : List String) (avail : Dict String PipState) :
    Prog.Only (S := DB) Q (assignJob d jobid job ns avail) := by
  induction ns with
  | nil => trivial
  | cons n ns ih =>
    unfold assignJob
    split
    · exact ih
    · split
      · exact ih
      · refine Prog.only_bind ((Do.only_makeJobDir _ _).mpr hm) (fun _ => ?_)
        split
        · trivial
        · refine Prog.only_bind (only_updatePip hq _ _ (hp _)) (fun _ => ?_)
          refine Prog.only_bind ((Do.only_popenJob _ _).mpr (ho _)) (fun _ => ?_)
          refine Prog.only_bind (Do.only_now.mpr (hq _ trivial)) (fun t => ?_)
          exact Prog.only_bind (only_updateJobId hq _ _ (hl _)) (fun _ => trivial)

theorem allow_actionLoop (hq : ∀ o, QuietOp o → Q o) (d : Daemon)
    (matched : Dict Nat (List String)) (ids : List Nat)
    (hm : ∀ id ∈ ids, Q (.makeJobDir d.settings.storage id))
    (hp : ∀ id ∈ ids, ∀ n, Q (.updatePip n [.jobid (some id), .ready false]))
    (ho : ∀ id ∈ ids, ∀ n, Q (.popenJob id n))
    (hl : ∀ id ∈ ids, ∀ t, Q (.updateJob id [.launchedAt (some t)]))
    (avail : Dict String PipState) :
    Allow Q (fun _ => True) (actionLoop d matched ids avail) := by
  induction ids generalizing avail with
  | nil => trivial
  | cons id ids ih =>
    unfold actionLoop
    refine allow_bind (allow_getJobId hq id) (fun job hjob => ?_)
    split
    · trivial
    · refine allow_bind (Q := fun _ => True) (allow_of_only ?_) (fun _ _ => ?_)
      · refine only_assignJob hq d id job (hm id (by simp)) ?_ ?_ (hl id (by simp)) _ _
        · intro n; rw [hjob]; exact hp id (by simp) n
        · intro n; rw [hjob]; exact ho id (by simp) n
      · exact ih (fun i hi => hm i (by simp [hi])) (fun i hi => hp i (by simp [hi]))
          (fun i hi => ho i (by simp [hi])) (fun i hi => hl i (by simp [hi])) _

/-- The job manager performs no other operations than the listed ones. -/
theorem allow_jobManagerPass (d : Daemon) :
    Allow (fun o => QuietOp o ∨ jmWrites d.settings.storage o) (fun _ => True)
      (jobManagerPass d) := by
  have hq : ∀ o, QuietOp o → (QuietOp o ∨ jmWrites d.settings.storage o) := fun _ h => .inl h
  unfold jobManagerPass
  refine allow_bind (allow_of_only (only_manageRunning hq (fun _ => .inr trivial)
    (fun _ _ _ => .inr trivial) (fun id st t h => .inr (.inr (.inr ⟨st, t, h, rfl⟩)))))
    (fun _ _ => ?_)
  refine allow_bind (allow_of_only (only_checkQueued hq (fun _ => .inr (.inl rfl)) _))
    (fun m _ => ?_)
  unfold actionQueued
  refine allow_bind (allow_of_only ((Do.only_pipsWhere _).mpr (hq _ trivial))) (fun free _ => ?_)
  exact allow_actionLoop hq _ _ _ (fun _ _ => .inr rfl) (fun _ _ _ => .inr ⟨_, rfl⟩)
    (fun _ _ _ => .inr trivial) (fun _ _ t => .inr (.inr (.inl ⟨t, rfl⟩))) _

/-! ## Steps of the system -/

theorem act_world {st : String} {s s' : Sys} {a : Act} (h : act st s a = some s') :
    s'.w = s.w ∨ (∃ e : EnvAct, s'.w = e.apply s.w) ∨
    (∃ o k, s.jm = .op o k ∧ s'.w = (exec o s.w).2) ∨
    (∃ p ∈ s.others, ∃ o k, p = .op o k ∧ s'.w = (exec o s.w).2) := by
  cases a with
  | jmStart d => simp only [act] at h; split at h <;> cases h; exact .inl rfl
  | jmStep =>
    simp only [act, stepProg] at h
    split at h
    · next p w hs =>
      split at hs
      · next o k hk => cases hs; cases h; exact .inr (.inr (.inl ⟨o, k, hk, rfl⟩))
      · cases hs
    · cases h
  | jmKill => cases h; exact .inl rfl
  | spawn c =>
    simp only [act] at h
    split at h
    · cases h; exact .inl rfl
    · split at h <;> cases h; exact .inl rfl
  | step i =>
    simp only [act] at h
    split at h
    · cases h
    · next p hp =>
      split at h
      · next p' w hs =>
        unfold stepProg at hs
        split at hs
        · next o k =>
          cases hs; cases h
          exact .inr (.inr (.inr ⟨_, List.mem_of_getElem? hp, o, k, rfl, rfl⟩))
        · cases hs
      · cases h
  | kill i => cases h; exact .inl rfl
  | env e => cases h; exact .inr (.inl ⟨e, rfl⟩)

/-- Every program in the system is restricted to operations satisfying `P`. -/
def Sys.AllAllow (P : Op → Prop) (s : Sys) : Prop :=
  Allow P (fun _ => True) s.jm ∧ ∀ p ∈ s.others, Allow P (fun _ => True) p

theorem allow_step {P : Op → Prop} {p p' : Prog DB Unit} {w w' : World}
    (h : Allow P (fun _ => True) p) (hs : stepProg p w = some (p', w')) :
    Allow P (fun _ => True) p' := by
  unfold stepProg at hs
  split at hs
  · cases hs; exact h.2 w
  · cases hs

theorem mem_set_of {α : Type} {l : List α} {i : Nat} {a x : α} (h : x ∈ l.set i a) :
    x ∈ l ∨ x = a := List.mem_or_eq_of_mem_set h

theorem allAllow_step {P : Op → Prop} {st : String}
    (hjm : ∀ d : Daemon, d.settings.storage = st → Allow P (fun _ => True) (jobManagerPass d))
    (hc : ∀ c : Cmd, Allow P (fun _ => True) c.prog) {s s' : Sys} (hs : s.AllAllow P)
    (h : Step st s s') : s'.AllAllow P := by
  obtain ⟨a, h⟩ := h
  cases a with
  | jmStart d =>
    simp only [act] at h
    split at h
    · next hd => cases h; exact ⟨hjm d hd.2, hs.2⟩
    · cases h
  | jmStep =>
    simp only [act] at h
    split at h
    · next p w hp => cases h; exact ⟨allow_step hs.1 hp, hs.2⟩
    · cases h
  | jmKill => cases h; exact ⟨trivial, hs.2⟩
  | spawn c =>
    have : ∀ p ∈ s.others ++ [c.prog], Allow P (fun _ => True) p := by
      intro p hp
      rcases List.mem_append.mp hp with hp | hp
      · exact hs.2 p hp
      · rw [List.mem_singleton.mp hp]; exact hc c
    simp only [act] at h
    split at h
    · cases h; exact ⟨hs.1, this⟩
    · split at h
      · cases h; exact ⟨hs.1, this⟩
      · cases h
  | step i =>
    simp only [act] at h
    split at h
    · cases h
    · next p hp =>
      split at h
      · next p' w hs' =>
        cases h
        refine ⟨hs.1, fun q hq => ?_⟩
        rcases mem_set_of hq with hq | rfl
        · exact hs.2 q hq
        · exact allow_step (hs.2 _ (List.mem_of_getElem? hp)) hs'
      · cases h
  | kill i =>
    cases h
    refine ⟨hs.1, fun q hq => ?_⟩
    rcases mem_set_of hq with hq | rfl
    · exact hs.2 q hq
    · trivial
  | env e => cases h; exact hs

/-- What any program of the system does. -/
def SysOp (st : String) (o : Op) : Prop := QuietOp o ∨ jmWrites st o ∨ ∃ c : Cmd, c.writes o

theorem reachable_allow {st : String} {s : Sys} (h : Reachable st s) : s.AllAllow (SysOp st) := by
  refine reachable_inv (I := Sys.AllAllow (SysOp st)) ⟨trivial, by simp [Sys.init]⟩ ?_ h
  intro s s' hs hst
  refine allAllow_step ?_ ?_ hs hst
  · rintro d rfl
    refine (allow_jobManagerPass d).mono ?_ (fun _ h => h)
    rintro o (h | h)
    · exact .inl h
    · exact .inr (.inl h)
  · intro c
    refine c.allow_ops.mono ?_ (fun _ h => h)
    rintro o (h | h)
    · exact .inl h
    · exact .inr (.inr ⟨c, h⟩)

/-- Every change of the world is an environment change or one of the listed operations. -/
theorem step_world {st : String} {s s' : Sys} (hr : Reachable st s) (h : Step st s s') :
    s'.w = s.w ∨ (∃ e : EnvAct, s'.w = e.apply s.w) ∨
    (∃ o, SysOp st o ∧ s'.w = (exec o s.w).2) := by
  obtain ⟨a, h⟩ := h
  have hall := reachable_allow hr
  rcases act_world h with h | h | ⟨o, k, hp, h⟩ | ⟨p, hp, o, k, rfl, h⟩
  · exact .inl h
  · exact .inr (.inl h)
  · have := hall.1; rw [hp] at this
    exact .inr (.inr ⟨o, this.1, h⟩)
  · exact .inr (.inr ⟨o, (hall.2 _ hp).1, h⟩)

theorem EnvAct.wf {w : World} (h : w.WF) (e : EnvAct) : (e.apply w).WF := by
  cases e <;> exact ⟨h.1, h.2, h.3, h.4⟩

theorem step_wf {st : String} {s s' : Sys} (hw : s.w.WF) (h : Step st s s') : s'.w.WF := by
  obtain ⟨a, h⟩ := h
  rcases act_world h with h | ⟨e, h⟩ | ⟨o, k, hp, h⟩ | ⟨p, hp, o, k, rfl, h⟩ <;> rw [h]
  · exact hw
  · exact e.wf hw
  · exact exec_wf o s.w hw
  · exact exec_wf o s.w hw

theorem reachable_wf {st : String} {s : Sys} (h : Reachable st s) : s.w.WF :=
  reachable_inv (I := fun s => s.w.WF) World.wf_empty (fun _ _ hw hs => step_wf hw hs) h

end Tomato
