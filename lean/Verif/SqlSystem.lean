import Verif.SqlOps
import Verif.Abides
import Verif.JmSafe

/-!
# The system of `Verif/System.lean` with its database operations carried out by SQL texts
-/

namespace Tomato.Sql

/-- A name without quotes. -/
abbrev NoQuote (n : String) : Prop := '\'' ∉ n.toList

/-- Execute a program alone, with the texts. -/
abbrev runT {α : Type} (f : Stamp) (b : Beyond) (p : P α) (w : World) : Except PyErr α × World :=
  Prog.run (S := DB) (execText f b) p w

theorem runT_ok {α : Type} {f : Stamp} {b : Beyond} {o : Op} {w w' : World} {a : Resp o}
    (h : execText f b o w = (.ok a, w')) (k : Resp o → P α) :
    runT f b (Prog.bind (Prog.call (S := DB) o) k) w = runT f b (k a) w' := by
  simp [runT, Prog.call, Prog.run, h]

theorem runT_err {α : Type} {f : Stamp} {b : Beyond} {o : Op} {w w' : World} {e : PyErr}
    (h : execText f b o w = (.error e, w')) (k : Resp o → P α) :
    runT f b (Prog.bind (Prog.call (S := DB) o) k) w = (.error e, w') := by
  simp [runT, Prog.call, Prog.run, h]

/-- `stepProg` with the texts. -/
def stepText (f : Stamp) (b : Beyond) (p : P Unit) (w : World) : Option (P Unit × World) :=
  match p with
  | .op o k => some (k (execText f b o w).1, (execText f b o w).2)
  | _ => none

/-- `act` with the texts. -/
def actText (f : Stamp) (b : Beyond) (storage : String) (s : Sys) : Act → Option Sys
  | .jmStep =>
      match stepText f b s.jm s.w with
      | some (p, w) => some { s with jm := p, w := w }
      | none => none
  | .step i =>
      match s.others[i]? with
      | none => none
      | some p =>
          match stepText f b p s.w with
          | some (p', w) => some { s with others := s.others.set i p', w := w }
          | none => none
  | a => act storage s a

/-- Executions by texts in which all commands started are of the kind `K`. -/
inductive StepsText (K : Cmd → Prop) (f : Stamp) (b : Beyond) (st : String) : Sys → Sys → Prop
  | refl (s : Sys) : StepsText K f b st s s
  | tail {s s' s'' : Sys} {a : Act} : StepsText K f b st s s' → actText f b st s' a = some s'' →
      (∀ c, a = .spawn c → K c) → StepsText K f b st s s''

/-- The names of the pipelines and drivers of a device file are without quotes. -/
def PlainFile (df : DeviceFile) : Prop :=
  (∀ n ∈ Dict.keys df.pipelines, NoQuote n) ∧ (∀ n ∈ Dict.keys df.drivers, NoQuote n)

/-- The configuration used by the command, and the name of a driver process, are without quotes. -/
def PlainCmd : Cmd → Prop
  | .load s _ _ | .eject s _ | .ready s _ => ∀ d, s = some d → PlainFile d.devicefile
  | .reload d _ => PlainFile d.devicefile
  | .driverStart n _ _ _ => NoQuote n
  | _ => True

/-- The same, and jobs run on pipelines without quotes. -/
def PlainCmd' (c : Cmd) : Prop := PlainCmd c ∧ ∀ l, c.launch = some l → NoQuote l.pip

/-- All names in the tables, and of the pipelines of the jobs started, are without quotes. -/
structure PlainWorld (w : World) : Prop where
  pips : ∀ p ∈ w.pips, NoQuote p.name
  drvs : ∀ d ∈ w.drvs, NoQuote d.name
  launches : ∀ l ∈ w.launches, NoQuote l.pip

/-- All names in an operation are without quotes. -/
def PlainOp : Op → Prop
  | .updatePip n _ | .updateDrv n _ | .delDrv n | .popenJob _ n => NoQuote n
  | .insertPip p => NoQuote p.name
  | .insertDrv d => NoQuote d.name
  | _ => True

theorem PlainOp.plain {o : Op} (h : PlainOp o) : Plain o := by
  cases o <;> first | exact h | trivial

theorem plainOp_quiet (o : Op) (h : QuietOp o) : PlainOp o := by
  cases o <;> first | exact h.elim | trivial

theorem plainWorld_exec (o : Op) (w : World) (h : PlainWorld w) (ho : PlainOp o) :
    PlainWorld (exec o w).2 := by
  obtain ⟨h1, h2, h3⟩ := h
  cases o with
  | updatePip n ps =>
    refine ⟨fun p hp => ?_, h2, h3⟩
    simp only [exec, List.mem_map] at hp
    obtain ⟨q, hq, rfl⟩ := hp
    split
    · rw [applyPip_name]; exact h1 q hq
    · exact h1 q hq
  | updateDrv n ps =>
    refine ⟨h1, fun p hp => ?_, h3⟩
    simp only [exec, List.mem_map] at hp
    obtain ⟨q, hq, rfl⟩ := hp
    split
    · rw [applyDrv_name]; exact h2 q hq
    · exact h2 q hq
  | insertPip p =>
    simp only [exec]
    split
    · exact ⟨h1, h2, h3⟩
    · refine ⟨fun q hq => ?_, h2, h3⟩
      rcases List.mem_append.mp hq with hq | hq
      · exact h1 q hq
      · rw [List.mem_singleton.mp hq]; exact ho
  | insertDrv p =>
    simp only [exec]
    split
    · exact ⟨h1, h2, h3⟩
    · refine ⟨h1, fun q hq => ?_, h3⟩
      rcases List.mem_append.mp hq with hq | hq
      · exact h2 q hq
      · rw [List.mem_singleton.mp hq]; exact ho
  | popenJob id n =>
    refine ⟨h1, h2, fun l hl => ?_⟩
    simp only [exec] at hl
    rcases List.mem_append.mp hl with hl | hl
    · exact h3 l hl
    · rw [List.mem_singleton.mp hl]; exact ho
  | askDriver port c =>
    cases port with
    | none => exact ⟨h1, h2, h3⟩
    | some p => simp only [exec]; split <;> exact ⟨h1, h2, h3⟩
  | askDriverLpp port c => cases port <;> exact ⟨h1, h2, h3⟩
  | askDriverTimeout port c =>
    cases port with
    | none => exact ⟨h1, h2, h3⟩
    | some p => simp only [exec]; split <;> exact ⟨h1, h2, h3⟩
  | merge id jp f =>
    simp only [exec]; split
    · exact ⟨h1, h2, h3⟩
    · split
      · exact ⟨h1, h2, h3⟩
      · cases f <;> exact ⟨h1, h2, h3⟩
  | idBySubmitted t => simp only [exec]; split <;> exact ⟨h1, h2, h3⟩
  | makeJobDir s i => simp only [exec]; split <;> exact ⟨h1, h2, h3⟩
  | notZombie p => simp only [exec]; split <;> exact ⟨h1, h2, h3⟩
  | killChildren p => simp only [exec]; split <;> exact ⟨h1, h2, h3⟩
  | _ => exact ⟨h1, h2, h3⟩

/-! ## The programs -/

/-- Abbreviation. -/
abbrev PlainProg {α : Type} (Q : α → Prop) (p : P α) : Prop := Abides PlainWorld PlainOp Q p

theorem plainProg_pipsWhere (q : PipState → Bool) :
    PlainProg (fun l => ∀ p ∈ l, NoQuote p.name) (Do.pipsWhere q) := by
  refine ⟨trivial, fun w hw => ?_⟩
  intro p hp
  exact hw.pips p (List.mem_filter.mp hp).1

theorem plainProg_drvsWhere (q : DrvState → Bool) :
    PlainProg (fun l => ∀ p ∈ l, NoQuote p.name) (Do.drvsWhere q) := by
  refine ⟨trivial, fun w hw => ?_⟩
  intro p hp
  exact hw.drvs p (List.mem_filter.mp hp).1

theorem plainProg_manageDriver (known : List String) (d : DrvState) (hd : NoQuote d.name) :
    PlainProg (fun _ => True) (manageDriver known d) := by
  have hq := plainOp_quiet
  refine abides_of_allow ?_
  unfold manageDriver
  refine allow_bind (allow_of_only (Do.only_perfCounter.mpr (hq _ trivial))) (fun tN _ => ?_)
  split
  · split
    · exact allow_of_only (Prog.only_bind ((Do.only_askDriver _ _).mpr (hq _ trivial)) (fun _ =>
        (Do.only_delDrv _).mpr hd))
    · exact allow_of_only ((Do.only_delDrv _).mpr hd)
  · split
    · split
      · refine allow_bind (Q := fun _ => True) ?_ (fun ps _ =>
          allow_of_only (Prog.only_bind (only_updateDrv hq _ _ hd) (fun _ => trivial)))
        unfold checkDriver
        refine allow_tryExcept ?_ ?_
        · refine allow_bind (allow_of_only ((Do.only_askDriverTimeout _ _).mpr (hq _ trivial)))
            (fun r _ => ?_)
          split
          · split
            · trivial
            · split
              · exact allow_bind (allow_of_only ((Do.only_askDriverTimeout _ _).mpr (hq _ trivial)))
                  (fun _ _ => trivial)
              · trivial
          · trivial
        · intro e q hq'
          split at hq'
          · cases hq'; trivial
          · cases hq'
      · trivial
    · split
      · exact allow_of_only (Prog.only_bind ((Do.only_popenDriver _).mpr trivial) (fun _ =>
          Prog.only_bind (only_updateDrv hq _ _ hd) (fun _ => trivial)))
      · trivial

theorem plainProg_managePip (d : Daemon) (p : PipState) (j : Nat) (hp : NoQuote p.name) :
    PlainProg (fun _ => True) (managePip d p j) := by
  have hq := plainOp_quiet
  have hr : Prog.Only (S := DB) PlainOp (resetPipeline d p) := by
    unfold resetPipeline
    split
    · trivial
    · exact Prog.only_bind (only_resetComponents hq _ _) (fun _ =>
        Prog.only_bind (only_updatePip hq _ _ hp) (fun _ => trivial))
  refine abides_of_only ?_
  unfold managePip
  refine Prog.only_bind (only_getJobId hq _) (fun job => ?_)
  split
  · split
    · exact hr
    · split
      · refine Prog.only_bind (Do.only_now.mpr (hq _ trivial)) (fun t => ?_)
        split
        · exact hr
        · trivial
      · trivial
  · refine Prog.only_bind ((Do.only_pidExists _).mpr (hq _ trivial)) (fun t => ?_)
    split
    · refine Prog.only_bind ((Do.only_notZombie _).mpr (hq _ trivial)) (fun t => ?_)
      split
      · trivial
      · exact hr
    · exact hr

/-- The names of the available pipelines are without quotes. -/
def PlainAvail (avail : Dict String PipState) : Prop :=
  ∀ n p, Dict.get? avail n = some p → NoQuote n

theorem plainProg_assignJob (d : Daemon) (jobid : Nat) (job : Job) (ns : List String)
    (avail : Dict String PipState) (ha : PlainAvail avail) :
    PlainProg PlainAvail (assignJob d jobid job ns avail) := by
  have hq := plainOp_quiet
  induction ns with
  | nil => exact ha
  | cons n ns ih =>
    unfold assignJob
    split
    · exact ih
    · next ps hps =>
      have hn : NoQuote n := ha n ps hps
      split
      · exact ih
      · refine abides_bind (abides_of_only ((Do.only_makeJobDir _ _).mpr trivial)) (fun _ _ => ?_)
        split
        · trivial
        · refine abides_bind (abides_of_only (only_updatePip hq _ _ hn)) (fun _ _ => ?_)
          refine abides_bind (abides_of_only ((Do.only_popenJob _ _).mpr hn)) (fun _ _ => ?_)
          refine abides_bind (abides_of_only (Do.only_now.mpr (hq _ trivial))) (fun t _ => ?_)
          refine abides_bind (abides_of_only (only_updateJobId hq _ _ trivial)) (fun _ _ => ?_)
          intro m p hm
          rw [Dict.get?_erase] at hm
          split at hm
          · cases hm
          · exact ha m p hm

theorem plainProg_actionLoop (d : Daemon) (matched : Dict Nat (List String)) (ids : List Nat)
    (avail : Dict String PipState) (ha : PlainAvail avail) :
    PlainProg (fun _ => True) (actionLoop d matched ids avail) := by
  induction ids generalizing avail with
  | nil => trivial
  | cons id ids ih =>
    unfold actionLoop
    refine abides_bind (abides_of_only (only_getJobId plainOp_quiet id)) (fun job _ => ?_)
    split
    · trivial
    · exact abides_bind (plainProg_assignJob _ _ _ _ _ ha) (fun avail' ha' => ih avail' ha')

theorem plainProg_jobManagerPass (d : Daemon) : PlainProg (fun _ => True) (jobManagerPass d) := by
  have hq := plainOp_quiet
  unfold jobManagerPass
  refine abides_bind (abides_of_only (only_manageRunning hq (fun _ => trivial)
    (fun _ _ _ => trivial) (fun _ _ _ _ => trivial))) (fun _ _ => ?_)
  refine abides_bind (abides_of_only (only_checkQueued hq (fun _ => trivial) _)) (fun m _ => ?_)
  unfold actionQueued
  refine abides_bind (plainProg_pipsWhere _) (fun free hfree => ?_)
  refine plainProg_actionLoop _ _ _ _ (fun n p hn => ?_)
  obtain ⟨x, hx, e⟩ := List.mem_map.mp (dict_ofList_mem _ _ _ hn)
  cases e
  exact hfree _ hx

theorem plainProg_pipPass (d : Daemon) : PlainProg (fun _ => True) (pipManagerPass d) := by
  unfold pipManagerPass
  refine abides_bind (plainProg_pipsWhere _) (fun l hl => ?_)
  refine abides_forEach (fun p hp => ?_)
  split
  · trivial
  · exact plainProg_managePip _ _ _ (hl p hp)

theorem plainProg_drvPass (d : Daemon) : PlainProg (fun _ => True) (drvManagerPass d) := by
  unfold drvManagerPass
  refine abides_bind (plainProg_drvsWhere _) (fun l hl => ?_)
  exact abides_forEach (fun p hp => plainProg_manageDriver _ _ (hl p hp))

theorem plainProg_bootstrapDrivers (ns : List String) (h : ∀ n ∈ ns, NoQuote n) :
    PlainProg (fun _ => True) (bootstrapDrivers ns) := by
  induction ns with
  | nil => trivial
  | cons n ns ih =>
    have ih := ih (fun m hm => h m (by simp [hm]))
    unfold bootstrapDrivers
    refine abides_bind (abides_of_only ((Do.only_getDrv _).mpr trivial)) (fun t _ => ?_)
    split
    · unfold Tomato.insertDrv
      refine abides_bind (abides_of_only (Prog.only_bind
        ((Do.only_insertDrv _).mpr (h n (by simp))) (fun _ => (Do.only_getDrv _).mpr trivial)))
        (fun _ _ => ?_)
      refine abides_bind (Q := fun _ => True) ?_ (fun _ _ => ih)
      unfold Prog.assert
      split <;> trivial
    · exact ih

theorem plainProg_bootstrapPipelines (ns : List String) (h : ∀ n ∈ ns, NoQuote n) :
    PlainProg (fun _ => True) (bootstrapPipelines ns) := by
  induction ns with
  | nil => trivial
  | cons n ns ih =>
    have ih := ih (fun m hm => h m (by simp [hm]))
    unfold bootstrapPipelines
    refine abides_bind (abides_of_only ((Do.only_getPip _).mpr trivial)) (fun t _ => ?_)
    split
    · unfold Tomato.insertPip
      refine abides_bind (abides_of_only (Prog.only_bind
        ((Do.only_insertPip _).mpr (h n (by simp))) (fun _ => (Do.only_getPip _).mpr trivial)))
        (fun _ _ => ?_)
      refine abides_bind (Q := fun _ => True) ?_ (fun _ _ => ih)
      unfold Prog.assert
      split <;> trivial
    · exact ih

theorem plainProg_reload (d : Daemon) (x : Option (Settings × DeviceFile))
    (hd : PlainFile d.devicefile) : PlainProg (fun _ => True) (cmdReload d x) := by
  unfold cmdReload
  split
  · exact abides_bind (plainProg_bootstrapDrivers _ hd.2) (fun _ _ =>
      abides_bind (plainProg_bootstrapPipelines _ hd.1) (fun _ _ => trivial))
  · refine abides_of_only ?_
    split
    · trivial
    · refine Prog.only_bind ((Do.only_pipsWhere _).mpr trivial) (fun t => ?_)
      refine Prog.only_bind (only_checkPipelines _ _ _ _) (fun r => ?_)
      split
      · trivial
      · refine Prog.only_bind (only_checkComponents _ _ _ _) (fun r => ?_)
        split
        · trivial
        · refine Prog.only_bind (only_checkDrivers _ _ _) (fun r => ?_)
          split <;> trivial

theorem noQuote_of_mem {d : Daemon} (hd : PlainFile d.devicefile) {p : String}
    (h : ¬ (!Dict.mem d.devicefile.pipelines p) = true) : NoQuote p := by
  refine hd.1 p (Dict.mem_iff.mp ?_)
  cases hm : Dict.mem d.devicefile.pipelines p
  · rw [hm] at h; exact absurd rfl h
  · rfl

theorem plainProg_cmd (c : Cmd) (hc : PlainCmd' c) : PlainProg (fun _ => True) c.prog := by
  have hq := plainOp_quiet
  have hgen : (∀ o, c.writes o → PlainOp o) → PlainProg (fun _ => True) c.prog := by
    intro h
    refine abides_of_allow (c.allow_ops.mono ?_ (fun _ h => h))
    rintro o (ho | ho)
    · exact hq o ho
    · exact h o ho
  have hend : ∀ {α : Type} (p : P α), PlainProg (fun _ => True) p →
      PlainProg (fun _ => True) (p >>= fun _ => pure ()) :=
    fun p h => abides_bind h (fun _ _ => trivial)
  cases c with
  | load s p x =>
    cases s with
    | none => exact trivial
    | some d =>
      refine hend (pipelineLoad (some d) p x) ?_
      by_cases hm : (!Dict.mem d.devicefile.pipelines p) = true
      · unfold pipelineLoad; simp only [hm, if_true]; trivial
      · exact abides_of_only (only_load hq _ _ _ (noQuote_of_mem (hc.1 d rfl) hm))
  | eject s p =>
    cases s with
    | none => exact trivial
    | some d =>
      refine hend (pipelineEject (some d) p) ?_
      by_cases hm : (!Dict.mem d.devicefile.pipelines p) = true
      · unfold pipelineEject; simp only [hm, if_true]; trivial
      · exact abides_of_only (only_eject hq _ _ (noQuote_of_mem (hc.1 d rfl) hm))
  | ready s p =>
    cases s with
    | none => exact trivial
    | some d =>
      refine hend (pipelineReady (some d) p) ?_
      by_cases hm : (!Dict.mem d.devicefile.pipelines p) = true
      · unfold pipelineReady; simp only [hm, if_true]; trivial
      · exact abides_of_only (only_ready hq _ _ (noQuote_of_mem (hc.1 d rfl) hm))
  | reload d x => exact hend (cmdReload d x) (plainProg_reload d x hc.1)
  | pipPass d => exact plainProg_pipPass d
  | drvPass d => exact plainProg_drvPass d
  | driverStart n p i v =>
    refine hgen (fun o ho => ?_)
    cases o <;> first | exact ho.elim | trivial | skip
    rw [ho.1]; exact hc.1
  | tomatoJob j i pl pip path m hm =>
    refine hgen (fun o ho => ?_)
    cases o <;> first | exact ho.elim | trivial | skip
    rw [ho.1]; exact hc.2 _ rfl
  | _ =>
    refine hgen (fun o ho => ?_)
    cases o <;> first | exact ho.elim | trivial

/-! ## Executions -/

theorem stepText_eq {f : Stamp} {b : Beyond} {Q : Unit → Prop} {p : P Unit} (hp : PlainProg Q p)
    (w : World) : stepText f b p w = stepProg p w := by
  cases p with
  | pure a => rfl
  | raise e => rfl
  | op o k => simp only [stepText, stepProg, execText_plain f b o w hp.1.plain]

/-- In a system with plain names the texts do what is meant. -/
theorem actText_eq (f : Stamp) (b : Beyond) (st : String) {s : Sys}
    (h : SysAbides PlainWorld PlainOp s) (a : Act) : actText f b st s a = act st s a := by
  cases a with
  | jmStep =>
    simp only [actText, act, stepText_eq h.jm]
    cases stepProg s.jm s.w <;> rfl
  | step i =>
    simp only [actText, act]
    cases hi : s.others[i]? with
    | none => rfl
    | some p =>
      simp only [stepText_eq (h.others p (List.mem_of_getElem? hi))]
      cases stepProg p s.w <;> rfl
  | _ => rfl

/-- Commands that can be started run on pipelines with plain names. -/
theorem plainCmd_of_act {st : String} {s s' : Sys} (h : SysAbides PlainWorld PlainOp s) {c : Cmd}
    (ha : act st s (.spawn c) = some s') (hc : PlainCmd c) : PlainCmd' c := by
  refine ⟨hc, fun l hl => ?_⟩
  simp only [act, hl] at ha
  split at ha
  · next hlt =>
    refine h.inv.launches l ?_
    exact List.count_pos_iff.mp (by omega)
  · cases ha

theorem sysPlain_step {st : String} {s s' : Sys} {a : Act} (h : SysAbides PlainWorld PlainOp s)
    (ha : act st s a = some s') (hc : ∀ c, a = .spawn c → PlainCmd c) :
    SysAbides PlainWorld PlainOp s' := by
  refine sysAbides_step (K := PlainCmd') plainWorld_exec ?_ (fun d _ => plainProg_jobManagerPass d)
    plainProg_cmd h ha ?_
  · intro e w hw
    cases e <;> exact ⟨hw.pips, hw.drvs, hw.launches⟩
  · rintro c rfl
    exact plainCmd_of_act h ha (hc c rfl)

theorem sysPlain_init : SysAbides PlainWorld PlainOp Sys.init := by
  refine ⟨⟨fun _ h => ?_, fun _ h => ?_, fun _ h => ?_⟩, trivial, fun _ h => ?_⟩ <;> cases h

theorem stepsText_plain {f : Stamp} {b : Beyond} {st : String} {s0 s : Sys}
    (h0 : SysAbides PlainWorld PlainOp s0) (h : StepsText PlainCmd f b st s0 s) :
    StepsK PlainCmd st s0 s ∧ SysAbides PlainWorld PlainOp s := by
  induction h with
  | refl => exact ⟨.refl _, h0⟩
  | tail _ ha hc ih =>
    rw [actText_eq f b st ih.2] at ha
    exact ⟨.tail ih.1 ha hc, sysPlain_step ih.2 ha hc⟩

theorem stepsK_plain (f : Stamp) (b : Beyond) {st : String} {s0 s : Sys}
    (h0 : SysAbides PlainWorld PlainOp s0) (h : StepsK PlainCmd st s0 s) :
    StepsText PlainCmd f b st s0 s ∧ SysAbides PlainWorld PlainOp s := by
  induction h with
  | refl => exact ⟨.refl _, h0⟩
  | tail _ ha hc ih =>
    exact ⟨.tail ih.1 (by rw [actText_eq f b st ih.2]; exact ha) hc, sysPlain_step ih.2 ha hc⟩

end Tomato.Sql
