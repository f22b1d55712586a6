import Verif.JobProc

/-!
# Operations that fail

In the systems of `Verif/System.lean` and `Verif/JobProc.lean`, an operation fails only for the reasons
that the model knows.  Here, any operation of any program may fail at any time, for reasons outside the
model: `sqlite3.OperationalError` (database is locked, disk full), `OSError` (too many processes, no
permission, disk full), and so on.  The operation may or may not have had its effect before.

The daemon, the managers, the commands and the job process have no handlers for such exceptions: the
only handlers on their way are `except zmq.error.Again` (driver.py:391), `except Exception` which raises
again (driver.py:395-397), and the one for `FileExistsError` in `os.makedirs`.  (`except ZMQError` in
tomato/__init__.py:300 and `except Exception` in cmd.py:85 do not enclose operations of the model.)
-/

namespace Tomato.Full

/-- The exceptions that are injected: those without a handler. -/
def Fault (e : PyErr) : Bool := decide (e ≠ .zmqAgain) && decide (e ≠ .fileExistsError)

/-- The program has no handler for faults. -/
def Frag {S : Sig} {α : Type} : Prog S α → Prop
  | .pure _ => True
  | .raise _ => True
  | .op _ k => (∀ e, Fault e = true → k (.error e) = .raise e) ∧ ∀ r, Frag (k r)

/-- What can happen next. -/
inductive EAct where
  | base (a : FAct)
  /-- the next operation of a program fails; `did`: after it had its effect -/
  | fail (i : Nat) (e : PyErr) (did : Bool)
  /-- the next operation of the job manager fails -/
  | jmFail (e : PyErr) (did : Bool)

/-- The main loop of a job process (job.py:716-829) has no handlers either. -/
def Bare : FCmd → Prop
  | .cmd _ _ => True
  | .job _ _ _ _ _ _ _ _ _ m _ => Frag m

/-- Execute an action; `none` if it is not possible. -/
def eact (storage : String) (s : FSys) : EAct → Option FSys
  | .base a => fact storage s a
  | .fail i e did =>
      match s.others[i]? with
      | some (.op o k) =>
          if Fault e then
            some { s with others := s.others.set i (k (.error e)),
                          w := if did then (fExec o (s.w, s.t)).2.1 else s.w,
                          t := if did then (fExec o (s.w, s.t)).2.2 else s.t }
          else none
      | _ => none
  | .jmFail e did =>
      match s.jm with
      | .op o k =>
          if Fault e then
            some { s with jm := k (.error e), w := if did then (exec o s.w).2 else s.w }
          else none
      | _ => none

/-- One step of the system. -/
def EStep (storage : String) (s s' : FSys) : Prop :=
  ∃ a, eact storage s a = some s' ∧ ∀ c, a = .base (.spawn c) → Bare c

/-- Any number of steps. -/
inductive ESteps (storage : String) : FSys → FSys → Prop
  | refl (s : FSys) : ESteps storage s s
  | tail {s s' s'' : FSys} : ESteps storage s s' → EStep storage s' s'' → ESteps storage s s''

/-- Reachable from a fresh installation, whatever files there are. -/
def EReachable (storage : String) (s : FSys) : Prop := ∃ t, ESteps storage { w := {}, t := t } s

/-! ## None of the programs has a handler for faults -/

section Frag

variable {S : Sig} {α β : Type}

theorem frag_pure (a : α) : Frag (.pure a : Prog S α) := trivial
theorem frag_raise (e : PyErr) : Frag (.raise e : Prog S α) := trivial

theorem frag_call (o : S.Op) : Frag (Prog.call o) :=
  ⟨fun _ _ => rfl, fun r => by cases r <;> trivial⟩

theorem frag_bind {p : Prog S α} {f : α → Prog S β} (hp : Frag p) (hf : ∀ a, Frag (f a)) :
    Frag (Prog.bind p f) := by
  induction p with
  | pure a => exact hf a
  | raise e => trivial
  | op o k ih =>
    refine ⟨fun e he => ?_, fun r => ih r (hp.2 r)⟩
    show Prog.bind (k (.error e)) f = _
    rw [hp.1 e he]
    rfl

theorem frag_tryExcept {p : Prog S α} {h : PyErr → Option (Prog S α)} (hp : Frag p)
    (hh : ∀ e q, h e = some q → Frag q) (hf : ∀ e, Fault e = true → h e = none) :
    Frag (Prog.tryExcept p h) := by
  induction p with
  | pure a => trivial
  | raise e =>
    simp only [Prog.tryExcept]
    cases hq : h e with
    | none => trivial
    | some q => exact hh e q hq
  | op o k ih =>
    refine ⟨fun e he => ?_, fun r => ih r (hp.2 r)⟩
    show Prog.tryExcept (k (.error e)) h = _
    rw [hp.1 e he]
    simp only [Prog.tryExcept, hf e he, Option.getD_none]

theorem frag_forEach {xs : List β} {f : β → Prog S Unit} (hf : ∀ x, Frag (f x)) :
    Frag (Prog.forEach xs f) := by
  induction xs with
  | nil => trivial
  | cons x xs ih => exact frag_bind (hf x) (fun _ => ih)

theorem frag_assert (b : Bool) : Frag (Prog.assert b : Prog S Unit) := by cases b <;> trivial

end Frag

/-- One step of the proof that a program has no handler. -/
macro "frag1" : tactic => `(tactic| first
  | assumption
  | exact frag_pure _
  | exact frag_raise _
  | exact frag_call (S := DB) _
  | exact frag_assert _
  | intro _
  | refine frag_forEach (fun _ => ?_)
  | refine frag_bind ?_ ?_
  | split)

macro "frag" : tactic => `(tactic| repeat frag1)

theorem frag_getJobId (id : Nat) : Frag (getJobId id) := by unfold getJobId; frag
theorem frag_updateJobId (id : Nat) (ps : List JobParam) : Frag (updateJobId id ps) := by
  have := frag_getJobId id
  unfold updateJobId; frag
theorem frag_updatePip (n : String) (ps : List PipParam) : Frag (updatePip n ps) := by
  unfold updatePip; frag
theorem frag_updateDrv (n : String) (ps : List DrvParam) : Frag (updateDrv n ps) := by
  unfold updateDrv; frag

theorem frag_submit (f : PayloadFile) (n : Option String) (d : Daemon) (c : String) :
    Frag (submit f n d c) := by
  unfold submit
  split
  · trivial
  · trivial
  · trivial
  · simp only
    split
    · trivial
    · trivial
    · refine frag_bind (frag_call (S := DB) _) (fun t => frag_bind ?_ (fun _ => trivial))
      unfold insertJob
      exact frag_bind (frag_call (S := DB) _) (fun _ => frag_bind (frag_call (S := DB) _)
        (fun _ => frag_getJobId _))

theorem frag_status (ids : List Nat) : Frag (status ids) := by unfold status; frag

theorem frag_cancelLoop (jobid : Option Nat) (jobs : List Job) (params : Option (List JobParam))
    (data : List Job) : Frag (cancelLoop jobid jobs params data) := by
  induction jobs generalizing params data with
  | nil => trivial
  | cons j js ih =>
    unfold cancelLoop
    split
    · exact ih _ _
    · split
      · exact frag_bind (frag_updateJobId _ _) (fun _ => ih _ _)
      · trivial

theorem frag_cancel (ids : List Nat) : Frag (cancel ids) := by
  unfold cancel
  refine frag_bind (frag_call (S := DB) _) (fun t => ?_)
  simp only
  split
  · trivial
  · exact frag_bind (frag_cancelLoop _ _ _ _) (fun _ => trivial)

theorem frag_snapshot (ids : List Nat) : Frag (snapshot ids) := by
  unfold snapshot
  refine frag_bind (frag_call (S := DB) _) (fun t => ?_)
  split
  · trivial
  · exact frag_bind (frag_forEach fun j => frag_call (S := DB) _) (fun _ => trivial)

theorem frag_search (n : String) : Frag (search n) := by unfold search; frag

theorem frag_load (s : Option Daemon) (p x : String) : Frag (pipelineLoad s p x) := by
  have hst : Frag (pipelineLoad.store p x) := frag_bind (frag_updatePip _ _) (fun _ => trivial)
  unfold pipelineLoad; frag

theorem frag_eject (s : Option Daemon) (p : String) : Frag (pipelineEject s p) := by
  have := frag_updatePip p [.sampleid none, .ready false]
  unfold pipelineEject; frag

theorem frag_ready (s : Option Daemon) (p : String) : Frag (pipelineReady s p) := by
  have := frag_updatePip p [.ready true]
  unfold pipelineReady; frag

theorem frag_bootstrapDrivers (ns : List String) : Frag (bootstrapDrivers ns) := by
  induction ns with
  | nil => trivial
  | cons n ns ih =>
    have : Frag (insertDrv { name := n }) := by unfold insertDrv; frag
    unfold bootstrapDrivers; frag

theorem frag_bootstrapPipelines (ns : List String) : Frag (bootstrapPipelines ns) := by
  induction ns with
  | nil => trivial
  | cons n ns ih =>
    have : Frag (insertPip { name := n }) := by unfold insertPip; frag
    unfold bootstrapPipelines; frag

theorem frag_checkPipelines (old new : DeviceFile) (l : List PipState) (cs : List String) :
    Frag (checkPipelines old new l cs) := by
  induction l generalizing cs with
  | nil => trivial
  | cons p l ih =>
    unfold checkPipelines
    split
    · trivial
    · split
      · trivial
      · split
        · exact ih _
        · trivial

theorem frag_checkComponents (old new : DeviceFile) (l cs : List String) :
    Frag (checkComponents old new l cs) := by
  induction l generalizing cs with
  | nil => trivial
  | cons p l ih =>
    unfold checkComponents
    split
    · trivial
    · split
      · trivial
      · split
        · trivial
        · exact ih _

theorem frag_checkDrivers (old new : DeviceFile) (l : List String) :
    Frag (checkDrivers old new l) := by
  induction l with
  | nil => trivial
  | cons p l ih => unfold checkDrivers; frag

theorem frag_reload (d : Daemon) (x : Option (Settings × DeviceFile)) : Frag (cmdReload d x) := by
  unfold cmdReload
  split
  · exact frag_bind (frag_bootstrapDrivers _) (fun _ =>
      frag_bind (frag_bootstrapPipelines _) (fun _ => trivial))
  · split
    · trivial
    · refine frag_bind (frag_call (S := DB) _) (fun t => ?_)
      refine frag_bind (frag_checkPipelines _ _ _ _) (fun r => ?_)
      split
      · trivial
      · refine frag_bind (frag_checkComponents _ _ _ _) (fun r => ?_)
        split
        · trivial
        · refine frag_bind (frag_checkDrivers _ _ _) (fun r => ?_)
          split <;> trivial

theorem frag_stop (d : Daemon) : Frag (cmdStop d) := by unfold cmdStop; frag

theorem frag_resetComponents (d : Daemon) (cs : List String) : Frag (resetComponents d cs) := by
  induction cs with
  | nil => trivial
  | cons c cs ih => unfold resetComponents; frag

theorem frag_managePip (d : Daemon) (p : PipState) (j : Nat) : Frag (managePip d p j) := by
  have hr : Frag (resetPipeline d p) := by
    unfold resetPipeline
    split
    · trivial
    · exact frag_bind (frag_resetComponents _ _) (fun _ =>
        frag_bind (frag_updatePip _ _) (fun _ => trivial))
  have := frag_getJobId j
  unfold managePip; frag

theorem frag_pipPass (d : Daemon) : Frag (pipManagerPass d) := by
  unfold pipManagerPass
  refine frag_bind (frag_call (S := DB) _) (fun t => frag_forEach fun p => ?_)
  split
  · trivial
  · exact frag_managePip _ _ _

theorem frag_drvPass (d : Daemon) : Frag (drvManagerPass d) := by
  unfold drvManagerPass
  refine frag_bind (frag_call (S := DB) _) (fun t => frag_forEach fun p => ?_)
  unfold manageDriver
  refine frag_bind (frag_call (S := DB) _) (fun tN => ?_)
  split
  · frag
  · split
    · split
      · refine frag_bind ?_ (fun ps => frag_bind (frag_updateDrv _ _) (fun _ => trivial))
        unfold checkDriver
        refine frag_tryExcept ?_ ?_ ?_
        · frag
        · intro e q hq
          split at hq
          · cases hq; trivial
          · cases hq
        · intro e he
          rw [if_neg]
          rintro rfl
          cases he
      · trivial
    · split
      · exact frag_bind (frag_call (S := DB) _) (fun _ =>
          frag_bind (frag_updateDrv _ _) (fun _ => trivial))
      · trivial

theorem frag_driverStart (n : String) (p i : Nat) (v : String) : Frag (driverStart n p i v) :=
  frag_bind (frag_updateDrv _ _) (fun _ => trivial)

theorem frag_tomatoJob (j pid : Nat) (pl : Payload) (pip path : String) {m : P (Option Nat)}
    (hm : Frag m) : Frag (tomatoJob j pid pl pip path m) := by
  unfold tomatoJob
  refine frag_bind ?_ (fun _ => frag_bind (frag_updateJobId _ _) (fun job => frag_bind hm (fun ret => ?_)))
  · exact frag_bind (frag_call (S := DB) _) (fun _ => frag_bind (frag_updateJobId _ _) (fun _ => trivial))
  · unfold jobFinish
    refine frag_bind (frag_call (S := DB) _) (fun t => ?_)
    simp only
    exact frag_bind (frag_call (S := DB) _) (fun _ => frag_bind (frag_updateJobId _ _)
      (fun _ => frag_bind (frag_updatePip _ _) (fun _ => trivial)))

/-- The commands, except a job process. -/
theorem frag_cmd (c : Cmd) (h : c.launch = none) : Frag c.prog := by
  have hb : ∀ {α : Type} {p : P α}, Frag p → Frag (p >>= fun _ => (pure () : P Unit)) :=
    fun hp => frag_bind hp (fun _ => trivial)
  cases c with
  | submit f n d c => exact hb (frag_submit _ _ _ _)
  | status ids => exact hb (frag_status _)
  | cancel ids => exact hb (frag_cancel _)
  | snapshot ids => exact hb (frag_snapshot _)
  | search n => exact hb (frag_search _)
  | load s p x => exact hb (frag_load _ _ _)
  | eject s p => exact hb (frag_eject _ _)
  | ready s p => exact hb (frag_ready _ _)
  | reload d x => exact hb (frag_reload _ _)
  | stop d => exact hb (frag_stop _)
  | pipPass d => exact frag_pipPass _
  | drvPass d => exact frag_drvPass _
  | driverStart n p i v => exact hb (frag_driverStart _ _ _ _)
  | tomatoJob j i pl pip path m hm => cases h

theorem frag_validateTask (d : Daemon) (t : Task) (cs : Dict String String) :
    Frag (validateTask d t cs) := by
  induction cs with
  | nil => trivial
  | cons c cs ih =>
    obtain ⟨crole, cname⟩ := c
    unfold validateTask; frag

theorem frag_methodValidate (d : Daemon) (pip : Pipeline) (ts : List Task) :
    Frag (methodValidate d pip ts) := by
  induction ts with
  | nil => trivial
  | cons t ts ih =>
    have := frag_validateTask d t pip.components
    unfold methodValidate; frag

theorem frag_collectCapabs (d : Daemon) (cs capabs : List String) :
    Frag (collectCapabs d cs capabs) := by
  induction cs generalizing capabs with
  | nil => trivial
  | cons c cs ih =>
    unfold collectCapabs
    split
    · trivial
    · refine frag_bind (frag_call (S := DB) _) (fun t => ?_)
      split
      · trivial
      · refine frag_bind (frag_call (S := DB) _) (fun r => ?_)
        split
        · exact ih _
        · exact ih _

theorem frag_findMatching (d : Daemon) (m : List Task) : Frag (findMatching d m) := by
  unfold findMatching
  generalize Dict.values d.devicefile.pipelines = ps
  generalize ([] : List String) = cands
  induction ps generalizing cands with
  | nil => trivial
  | cons p ps ih =>
    unfold matchLoop
    split
    · refine frag_bind (frag_collectCapabs _ _ _) (fun capabs => ?_)
      split
      · refine frag_bind (frag_methodValidate _ _ _) (fun r => ?_)
        split <;> exact ih _
      · exact ih _
    · exact ih _

theorem frag_manageJob (job : Job) : Frag (manageJob job) := by
  have hf : ∀ job' st, Frag (manageJob.finish job' st) := by
    intro job' st
    unfold manageJob.finish
    exact frag_bind (frag_call (S := DB) _) (fun _ => frag_bind (frag_updateJobId _ _) (fun _ => trivial))
  have hd : ∀ job' b pid, Frag (manageJob.decideJob job' b pid) := by
    intro job' b pid
    unfold manageJob.decideJob
    split
    · simp only
      split
      · exact frag_bind (frag_call (S := DB) _) (fun _ => frag_bind (frag_call (S := DB) _) (fun _ => hf _ _))
      · exact hf _ _
    · split
      · exact hf _ _
      · trivial
  unfold manageJob
  split
  · split
    · exact hd _ _ _
    · split
      · refine frag_bind (frag_call (S := DB) _) (fun t => ?_)
        split
        · exact hd _ _ _
        · trivial
      · trivial
  · refine frag_bind (frag_call (S := DB) _) (fun t => ?_)
    split
    · exact frag_bind (frag_call (S := DB) _) (fun _ => hd _ _ _)
    · exact hd _ _ _

theorem frag_checkLoop (d : Daemon) (jobs : List Job) (matched : Dict Nat (List String)) :
    Frag (checkLoop d jobs matched) := by
  induction jobs generalizing matched with
  | nil => trivial
  | cons j js ih =>
    unfold checkLoop
    refine frag_bind (frag_findMatching _ _) (fun ms => ?_)
    split
    · exact frag_bind (frag_updateJobId _ _) (fun _ => ih _)
    · exact ih _

theorem frag_assignJob (d : Daemon) (jobid : Nat) (job : Job) (ps : List String)
    (avail : Dict String PipState) : Frag (assignJob d jobid job ps avail) := by
  induction ps with
  | nil => trivial
  | cons p ps ih =>
    unfold assignJob
    split
    · exact ih
    · split
      · exact ih
      · refine frag_bind (frag_call (S := DB) _) (fun _ => ?_)
        split
        · trivial
        · exact frag_bind (frag_updatePip _ _) (fun _ => frag_bind (frag_call (S := DB) _) (fun _ =>
            frag_bind (frag_call (S := DB) _) (fun _ => frag_bind (frag_updateJobId _ _) (fun _ => trivial))))

theorem frag_actionLoop (d : Daemon) (matched : Dict Nat (List String)) (ids : List Nat)
    (avail : Dict String PipState) : Frag (actionLoop d matched ids avail) := by
  induction ids generalizing avail with
  | nil => trivial
  | cons i ids ih =>
    unfold actionLoop
    refine frag_bind (frag_getJobId _) (fun job => ?_)
    split
    · trivial
    · exact frag_bind (frag_assignJob _ _ _ _ _) (fun _ => ih _)

/-- The job manager. -/
theorem frag_jobManagerPass (d : Daemon) : Frag (jobManagerPass d) := by
  unfold jobManagerPass
  refine frag_bind ?_ (fun _ => frag_bind ?_ (fun matched => ?_))
  · exact frag_bind (frag_call (S := DB) _) (fun _ => frag_forEach frag_manageJob)
  · exact frag_bind (frag_call (S := DB) _) (fun _ => frag_checkLoop _ _ _)
  · exact frag_bind (frag_call (S := DB) _) (fun _ => frag_actionLoop _ _ _ _)

theorem frag_liftDb {α : Type} {p : P α} (h : Frag p) : Frag (liftDb p) := by
  induction p with
  | pure a => trivial
  | raise e => trivial
  | op o k ih =>
    refine ⟨fun e he => ?_, fun r => ih r (h.2 r)⟩
    show liftDb (k (.error e)) = _
    rw [h.1 e he]; rfl

theorem frag_liftFs {α : Type} {p : Prog FS α} (h : Frag p) : Frag (liftFs p) := by
  induction p with
  | pure a => trivial
  | raise e => trivial
  | op o k ih =>
    refine ⟨fun e he => ?_, fun r => ih r (h.2 r)⟩
    show liftFs (k (.error e)) = _
    rw [h.1 e he]; rfl

theorem frag_prepareOut (p : FsPath) : Frag (prepareOut p) := by
  have hm : ∀ q, Frag (makedirsRev q) := by
    intro q
    induction q with
    | nil => exact frag_call (S := FS) _
    | cons c head ih =>
      unfold makedirsRev
      refine frag_bind (frag_call (S := FS) _) (fun ex => ?_)
      have ht : Frag (Prog.tryExcept (makedirsRev head)
          (fun e => if e = .fileExistsError then some (pure ()) else none)) := by
        refine frag_tryExcept ih ?_ ?_
        · intro e q hq
          split at hq
          · cases hq; trivial
          · cases hq
        · intro e he
          rw [if_neg]
          rintro rfl
          cases he
      simp only
      split
      · exact frag_bind ht (fun _ => frag_call (S := FS) _)
      · exact frag_call (S := FS) _
  unfold prepareOut
  refine frag_bind (frag_call (S := FS) _) (fun ex => ?_)
  split
  · exact frag_bind (frag_call (S := FS) _) (fun _ => frag_assert _)
  · exact hm _

theorem frag_fcmd (c : FCmd) (h : Bare c) : Frag c.prog := by
  cases c with
  | cmd c hc => exact frag_liftDb (frag_cmd c hc)
  | job j i pl pip path cwd rs info rc m hm =>
    show Frag (tomatoJobF j i pl pip path cwd rs info rc m)
    unfold tomatoJobF
    refine frag_bind (frag_liftDb ?_) (fun _ => ?_)
    · exact frag_bind (frag_call (S := DB) _) (fun _ => frag_bind (frag_updateJobId _ _) (fun _ => trivial))
    · split
      · trivial
      · refine frag_bind (frag_liftFs (frag_prepareOut _)) (fun _ => ?_)
        refine frag_bind (frag_liftDb (frag_updateJobId _ _)) (fun job => ?_)
        refine frag_bind (frag_liftDb h) (fun ret => ?_)
        unfold finishF
        refine frag_bind (frag_liftDb (frag_call (S := DB) _)) (fun now => ?_)
        simp only
        refine frag_bind (frag_call (S := JF) _) (fun _ => ?_)
        have key : ∀ ps : List JobParam, Frag (Prog.bind (liftDb (updateJobId job.id ps)) (fun job =>
            Prog.bind (liftDb (updatePip pip [.jobid none, .ready job.payload.unlockWhenDone]))
              (fun _ => (Prog.pure () : PF Unit)))) := fun ps =>
          frag_bind (frag_liftDb (frag_updateJobId _ _)) (fun _ =>
            frag_bind (frag_liftDb (frag_updatePip _ _)) (fun _ => trivial))
        split
        · exact frag_bind (frag_call (S := JF) _) (fun _ => key _)
        · exact key _

/-! ## A failure looks like a kill to all others -/

/-- Equal, or both ended. -/
def Alike {S : Sig} (p q : Prog S Unit) : Prop := p = q ∨ (p.ended = true ∧ q.ended = true)

/-- The corresponding state of the system without faults. -/
structure ERel (s b : FSys) : Prop where
  w : b.w = s.w
  t : b.t = s.t
  started : b.started = s.started
  jm : Alike s.jm b.jm
  jmFrag : Frag s.jm
  length : s.others.length = b.others.length
  others : ∀ (i : Nat) (p q : PF Unit), s.others[i]? = some p → b.others[i]? = some q → Alike p q
  frag : ∀ p ∈ s.others, Frag p

theorem alike_refl {S : Sig} (p : Prog S Unit) : Alike p p := .inl rfl

theorem alike_op {S : Sig} {o : S.Op} {k : Except PyErr (S.Resp o) → Prog S Unit} {q : Prog S Unit}
    (h : Alike (.op o k) q) : q = .op o k := by
  rcases h with h | ⟨h, -⟩
  · exact h.symm
  · cases h

theorem alike_ended {S : Sig} {p q : Prog S Unit} (h : Alike p q) (hp : p.ended = true) :
    q.ended = true := by
  rcases h with rfl | ⟨-, h⟩
  · exact hp
  · exact h

theorem erel_append {s b : FSys} (h : ERel s b) (p : PF Unit) (i : Nat) (p' q' : PF Unit)
    (h1 : (s.others ++ [p])[i]? = some p') (h2 : (b.others ++ [p])[i]? = some q') : Alike p' q' := by
  rw [List.getElem?_append] at h1 h2
  rw [← h.length] at h2
  split at h1
  · next hi => rw [if_pos hi] at h2; exact h.others i p' q' h1 h2
  · next hi => rw [if_neg hi, h1] at h2; cases h2; exact .inl rfl

theorem erel_set {s b : FSys} (h : ERel s b) (j : Nat) {p q : PF Unit} (hp : Alike p q) (i : Nat)
    (p' q' : PF Unit) (h1 : (s.others.set j p)[i]? = some p')
    (h2 : (b.others.set j q)[i]? = some q') : Alike p' q' := by
  rw [List.getElem?_set] at h1 h2
  rw [← h.length] at h2
  split at h1
  · next e =>
    rw [if_pos e] at h2
    split at h1
    · next hl => rw [if_pos hl] at h2; cases h1; cases h2; exact hp
    · cases h1
  · next e => rw [if_neg e] at h2; exact h.others i p' q' h1 h2

theorem frag_append {s : FSys} (h : ∀ p ∈ s.others, Frag p) {p : PF Unit} (hp : Frag p) :
    ∀ q ∈ s.others ++ [p], Frag q := by
  intro q hq
  rcases List.mem_append.mp hq with hq | hq
  · exact h q hq
  · rw [List.mem_singleton.mp hq]; exact hp

theorem frag_set {s : FSys} (h : ∀ p ∈ s.others, Frag p) (i : Nat) {p : PF Unit} (hp : Frag p) :
    ∀ q ∈ s.others.set i p, Frag q := by
  intro q hq
  rcases List.mem_or_eq_of_mem_set hq with hq | rfl
  · exact h q hq
  · exact hp

/-- Every action corresponds to at most one action that changes tables or files, possibly followed or
replaced by a kill. -/
theorem erefines {st : String} {s s' b : FSys} (h : ERel s b) (hst : EStep st s s') :
    ∃ b1 b', (b1 = b ∨ FStep st b b1) ∧ (b' = b1 ∨ FStep st b1 b') ∧ b1.w = s'.w ∧ b1.t = s'.t ∧
      ERel s' b' := by
  obtain ⟨a, ha, hbare⟩ := hst
  cases a with
  | base a =>
    simp only [eact] at ha
    -- the same action
    suffices hs : ∃ b', fact st b a = some b' ∧ ERel s' b' by
      obtain ⟨b', hb', hr⟩ := hs
      exact ⟨b', b', .inr ⟨a, hb'⟩, .inl rfl, hr.w, hr.t, hr⟩
    cases a with
    | jmStart d =>
      simp only [fact] at ha ⊢
      split at ha
      · next hd =>
        cases ha
        rw [if_pos ⟨alike_ended h.jm hd.1, hd.2⟩]
        exact ⟨_, rfl, ⟨h.w, h.t, h.started, .inl rfl, frag_jobManagerPass d, h.length, h.others, h.frag⟩⟩
      · cases ha
    | jmStep =>
      simp only [fact] at ha ⊢
      cases hj : s.jm with
      | pure a => rw [hj] at ha; cases ha
      | raise e => rw [hj] at ha; cases ha
      | op o k =>
        rw [hj] at ha
        have hbj := h.jm
        have hjf := h.jmFrag
        rw [hj] at hbj hjf
        rw [alike_op hbj]
        cases ha
        simp only [stepProg, h.w]
        exact ⟨_, rfl, ⟨rfl, h.t, h.started, .inl rfl, hjf.2 _, h.length, h.others, h.frag⟩⟩
    | jmKill =>
      cases ha
      exact ⟨_, rfl, ⟨h.w, h.t, h.started, .inl rfl, trivial, h.length, h.others, h.frag⟩⟩
    | spawn c =>
      have hc := frag_fcmd c (hbare c rfl)
      simp only [fact] at ha ⊢
      cases hl : c.launch with
      | none =>
        simp only [hl] at ha ⊢
        cases ha
        exact ⟨_, rfl, ⟨h.w, h.t, h.started, h.jm, h.jmFrag, by simp [h.length], erel_append h _,
          frag_append h.frag hc⟩⟩
      | some l =>
        simp only [hl] at ha ⊢
        rw [h.started, h.w]
        split at ha
        · next hlt =>
          cases ha
          rw [if_pos hlt]
          exact ⟨_, rfl, ⟨rfl, h.t, rfl, h.jm, h.jmFrag, by simp [h.length], erel_append h _,
            frag_append h.frag hc⟩⟩
        · cases ha
    | step i =>
      simp only [fact] at ha ⊢
      split at ha
      · next o k hp =>
        have hlt : i < b.others.length := by
          rw [← h.length]; exact (List.getElem?_eq_some_iff.mp hp).1
        obtain ⟨q, hq⟩ : ∃ q, b.others[i]? = some q := ⟨_, List.getElem?_eq_getElem hlt⟩
        have := alike_op (h.others i _ _ hp hq)
        subst this
        have hf := h.frag _ (List.mem_of_getElem? hp)
        cases ha
        simp only [hq, h.w, h.t]
        exact ⟨_, rfl, ⟨rfl, rfl, h.started, h.jm, h.jmFrag, by simp [h.length],
          erel_set h i (.inl rfl), frag_set h.frag i (hf.2 _)⟩⟩
      · cases ha
    | kill i =>
      cases ha
      exact ⟨_, rfl, ⟨h.w, h.t, h.started, h.jm, h.jmFrag, by simp [h.length],
        erel_set h i (.inl rfl), frag_set h.frag i trivial⟩⟩
    | env e =>
      cases ha
      exact ⟨_, rfl, ⟨by rw [h.w], h.t, h.started, h.jm, h.jmFrag, h.length, h.others, h.frag⟩⟩
    | files t =>
      cases ha
      exact ⟨_, rfl, ⟨h.w, rfl, h.started, h.jm, h.jmFrag, h.length, h.others, h.frag⟩⟩
  | fail i e did =>
    simp only [eact] at ha
    split at ha
    · next o k hp =>
      split at ha
      · next he =>
        have hlt : i < b.others.length := by
          rw [← h.length]; exact (List.getElem?_eq_some_iff.mp hp).1
        obtain ⟨q, hq⟩ : ∃ q, b.others[i]? = some q := ⟨_, List.getElem?_eq_getElem hlt⟩
        have := alike_op (h.others i _ _ hp hq)
        subst this
        have hf := h.frag _ (List.mem_of_getElem? hp)
        cases ha
        rw [hf.1 e he]
        cases did with
        | false =>
          refine ⟨b, { b with others := b.others.set i (.pure ()) }, .inl rfl, .inr ⟨.kill i, rfl⟩, h.w, h.t,
            ⟨h.w, h.t, h.started, h.jm, h.jmFrag, by simp [h.length], ?_, frag_set h.frag i trivial⟩⟩
          exact erel_set h i (.inr ⟨rfl, rfl⟩)
        | true =>
          refine ⟨{ b with others := b.others.set i (k (fExec o (b.w, b.t)).1),
                           w := (fExec o (b.w, b.t)).2.1, t := (fExec o (b.w, b.t)).2.2 },
            { b with others := (b.others.set i (k (fExec o (b.w, b.t)).1)).set i (.pure ()),
                     w := (fExec o (b.w, b.t)).2.1, t := (fExec o (b.w, b.t)).2.2 },
            .inr ⟨.step i, by simp only [fact, hq]⟩, .inr ⟨.kill i, rfl⟩, by simp [h.w, h.t], by simp [h.w, h.t],
            ⟨by simp [h.w, h.t], by simp [h.w, h.t], h.started, h.jm, h.jmFrag, by simp [h.length], ?_,
              frag_set h.frag i trivial⟩⟩
          simp only [List.set_set]
          exact erel_set h i (.inr ⟨rfl, rfl⟩)
      · cases ha
    · cases ha
  | jmFail e did =>
    simp only [eact] at ha
    cases hj : s.jm with
    | pure a => rw [hj] at ha; cases ha
    | raise e => rw [hj] at ha; cases ha
    | op o k =>
      simp only [hj] at ha
      split at ha
      · next he =>
        have hbj := h.jm
        have hjf := h.jmFrag
        rw [hj] at hbj hjf
        have hb := alike_op hbj
        cases ha
        rw [hjf.1 e he]
        cases did with
        | false =>
          exact ⟨b, { b with jm := .pure () }, .inl rfl, .inr ⟨.jmKill, rfl⟩, h.w, h.t,
            ⟨h.w, h.t, h.started, .inr ⟨rfl, rfl⟩, trivial, h.length, h.others, h.frag⟩⟩
        | true =>
          refine ⟨{ b with jm := k (exec o b.w).1, w := (exec o b.w).2 },
            { b with jm := .pure (), w := (exec o b.w).2 },
            .inr ⟨.jmStep, by simp only [fact, hb, stepProg]⟩, .inr ⟨.jmKill, rfl⟩, by simp [h.w], h.t,
            ⟨by simp [h.w], h.t, h.started, .inr ⟨rfl, rfl⟩, trivial, h.length, h.others, h.frag⟩⟩
      · cases ha

/-- Every reachable state corresponds to a reachable state of the system without faults. -/
theorem erefines_reachable {st : String} {s : FSys} (h : EReachable st s) :
    ∃ b, FReachable st b ∧ ERel s b := by
  obtain ⟨t, ht⟩ := h
  suffices ∀ s0 s, ESteps st s0 s → s0 = { w := {}, t := t } →
      ∃ b, FSteps st { w := {}, t := t } b ∧ ERel s b by
    obtain ⟨b, hb, hr⟩ := this _ _ ht rfl
    exact ⟨b, ⟨t, hb⟩, hr⟩
  intro s0 s hs h0
  induction hs with
  | refl =>
    subst h0
    exact ⟨_, .refl _, ⟨rfl, rfl, rfl, .inl rfl, trivial, rfl, by simp, by simp⟩⟩
  | tail _ hst ih =>
    obtain ⟨b, hb, hr⟩ := ih
    obtain ⟨b1, b', h1, h2, -, -, hr'⟩ := erefines hr hst
    refine ⟨b', ?_, hr'⟩
    have hb1 : FSteps st { w := {}, t := t } b1 := by
      rcases h1 with rfl | h1
      · exact hb
      · exact .tail hb h1
    rcases h2 with rfl | h2
    · exact hb1
    · exact .tail hb1 h2

end Tomato.Full
