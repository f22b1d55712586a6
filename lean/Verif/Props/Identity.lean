import Verif.Props.CrashLaunch
import Verif.Props.Races
import Mathlib.Data.List.Nodup

/-!
# C107: a job is not confused with another program

The managers know the process of a job by its process id only (job.py:180-190, pip.py:59-66).  The
operating system gives the id of a process that has ended to another one, at the latest after the
machine has been started again.
-/

namespace Tomato.Props

variable {st : String}

/-! ## Specification -/

/-- The job and the process id of a job process that starts executing. -/
def startedBy : Act → Option (Nat × Nat)
  | .spawn (.tomatoJob j i _ _ _ _ _) => some (j, i)
  | _ => none

/-- Whose process has a process id. -/
inductive Holder where
  | nobody
  | job (id : Nat)
  | other
  deriving DecidableEq

/-- Whose process has the id `p` after the action `a`, which leads to the world `w`. -/
def holderNext (h : Nat → Holder) (a : Act) (w : World) (p : Nat) : Holder :=
  match startedBy a with
  | some (j, i) => if p = i then .job j else h p
  | none => if w.hasPid p then (if h p = .nobody then .other else h p) else .nobody

/-- An execution from a fresh installation, with the holders of all process ids and the job
processes started so far (with their process ids). -/
inductive Observed (st : String) : Sys → (Nat → Holder) → List (Nat × Nat) → Prop
  | init : Observed st Sys.init (fun _ => .nobody) []
  | step {s s' : Sys} {h : Nat → Holder} {u : List (Nat × Nat)} {a : Act} : Observed st s h u →
      act st s a = some s' → Observed st s' (holderNext h a s'.w) (u ++ (startedBy a).toList)

/-- The same, if the process id of a job process is given to no other process, neither of a job nor
of another program. -/
inductive NoReuse (st : String) : Sys → (Nat → Holder) → List (Nat × Nat) → Prop
  | init : NoReuse st Sys.init (fun _ => .nobody) []
  | step {s s' : Sys} {h : Nat → Holder} {u : List (Nat × Nat)} {a : Act} : NoReuse st s h u →
      act st s a = some s' → (∀ j p, startedBy a = some (j, p) → ∀ x ∈ u, x.2 ≠ p) →
      (∀ x ∈ u, holderNext h a s'.w x.2 ≠ .other) →
      NoReuse st s' (holderNext h a s'.w) (u ++ (startedBy a).toList)

theorem NoReuse.observed {s : Sys} {h : Nat → Holder} {u : List (Nat × Nat)} (hn : NoReuse st s h u) :
    Observed st s h u := by
  induction hn with
  | init => exact .init
  | step _ ha _ _ ih => exact .step ih ha

theorem Observed.reachable {s : Sys} {h : Nat → Holder} {u : List (Nat × Nat)} (ho : Observed st s h u) :
    Reachable st s := by
  induction ho with
  | init => exact .refl _
  | step _ ha ih => exact .tail ih ⟨_, ha⟩

/-! ## The process id on record was stored by the job's process -/

/-- Process ids on record are those of job processes of `u`. -/
def PidInv (u : List (Nat × Nat)) (w : World) : Prop :=
  ∀ j ∈ w.jobs, ∀ p, j.pid = some p → (j.id, p) ∈ u

/-- Operations that keep `PidInv`, and terminate only processes of `u`. -/
def PidOp (u : List (Nat × Nat)) : Op → Prop
  | .updateJob i ps => ∀ j : Job, ∀ p, (applyJob j ps).pid = some p → j.pid = some p ∨ (i, p) ∈ u
  | .insertJob j => j.pid = none
  | .killChildren p => ∃ j, (j, p) ∈ u
  | _ => True

variable {u : List (Nat × Nat)}

theorem pidOp_quiet : ∀ o, QuietOp o → PidOp u o := by
  intro o ho
  cases o <;> first | exact ho.elim | trivial

theorem pidInv_exec (o : Op) (w : World) (h : PidInv u w) (ho : PidOp u o) : PidInv u (exec o w).2 := by
  intro j hj p hp
  rcases exec_jobs o w with e | ⟨j0, rfl, e⟩ | ⟨i, ps, rfl, e⟩ <;> rw [e] at hj
  · exact h j hj p hp
  · rcases List.mem_append.mp hj with hj | hj
    · exact h j hj p hp
    · rw [List.mem_singleton.mp hj] at hp
      have h0 : j0.pid = none := ho
      simp only [h0] at hp
      cases hp
  · obtain ⟨j0, hj0, rfl⟩ := List.mem_map.mp hj
    split at hp
    · next hi =>
      rw [if_pos hi, applyJob_id]
      rcases ho j0 p hp with h1 | h1
      · exact h j0 hj0 p h1
      · rw [hi]; exact h1
    · next hi => rw [if_neg hi]; exact h j0 hj0 p hp

theorem abides_pid_manageJob (j : Job) (hj : ∀ p, j.pid = some p → (j.id, p) ∈ u) :
    Abides (PidInv u) (PidOp u) (fun _ => True) (manageJob j) := by
  have hfin : ∀ (j : Job) (st : JobStatus), Abides (PidInv u) (PidOp u) (fun _ => True) (manageJob.finish j st) := by
    intro j st
    unfold manageJob.finish
    refine abides_bind (abides_of_only (Do.only_now.mpr trivial)) (fun t _ => ?_)
    exact abides_bind (abides_of_only (only_updateJobId pidOp_quiet _ _ (fun j p h => by cases h)))
      (fun _ _ => trivial)
  have hdec : ∀ (j' : Job) (b : Bool) (q : Option Nat), (∀ p, q = some p → (j.id, p) ∈ u) →
      Abides (PidInv u) (PidOp u) (fun _ => True) (manageJob.decideJob j' b q) := by
    intro j' b q hq
    unfold manageJob.decideJob
    split
    · split
      · next p =>
        refine abides_bind (abides_of_only ((Do.only_killChildren p).mpr ⟨_, hq _ rfl⟩)) (fun _ _ => ?_)
        exact abides_bind (abides_of_only ((Do.only_merge _ _ _).mpr trivial)) (fun _ _ => hfin _ _)
      · exact hfin _ _
    · split
      · exact hfin _ _
      · trivial
  unfold manageJob
  split
  · split
    · exact hdec _ _ _ (fun p h => by cases h)
    · split
      · refine abides_bind (abides_of_only (Do.only_now.mpr trivial)) (fun t _ => ?_)
        split
        · exact hdec _ _ _ (fun p h => by cases h)
        · trivial
      · trivial
  · next p hp =>
    have hp' : ∀ q, some p = some q → (j.id, q) ∈ u := fun q e => hj q (hp.trans e)
    refine abides_bind (abides_of_only ((Do.only_pidExists _).mpr trivial)) (fun b _ => ?_)
    split
    · exact abides_bind (abides_of_only ((Do.only_notZombie _).mpr trivial)) (fun b _ => hdec _ _ _ hp')
    · exact hdec _ _ _ hp'

theorem abides_pid_pass (d : Daemon) :
    Abides (PidInv u) (PidOp u) (fun _ => True) (jobManagerPass d) := by
  unfold jobManagerPass
  refine abides_bind (Q := fun _ => True) ?_ (fun _ _ => ?_)
  · unfold manageRunning
    refine abides_bind (Q := fun l => ∀ j ∈ l, ∀ p, j.pid = some p → (j.id, p) ∈ u) ?_ (fun l hl => ?_)
    · refine ⟨trivial, fun w hw => ?_⟩
      simp only [exec]
      intro j hj p hp
      exact hw j (List.mem_filter.mp hj).1 p hp
    · exact abides_forEach (fun j hj => abides_pid_manageJob j (hl j hj))
  · refine abides_bind (abides_of_only (only_checkQueued pidOp_quiet (fun _ => fun j p h => .inl h) _))
      (fun m _ => ?_)
    unfold actionQueued
    refine abides_bind (abides_of_only ((Do.only_pipsWhere _).mpr trivial)) (fun free _ => ?_)
    generalize sortIds (Dict.keys m) = ids
    generalize Dict.ofList (free.map (fun p => (p.name, p))) = avail
    induction ids generalizing avail with
    | nil => trivial
    | cons i ids ih =>
      unfold actionLoop
      refine abides_bind (abides_of_allow (allow_getJobId pidOp_quiet i)) (fun job hjob => ?_)
      cases h : Dict.get? m i with
      | none => trivial
      | some ns =>
        refine abides_bind (Q := fun _ => True) ?_ (fun _ _ => ih _)
        exact abides_of_only (only_assignJob pidOp_quiet d i job trivial (fun _ => trivial)
          (fun n => trivial) (fun _ => fun j p h => .inl h) ns avail)

theorem abides_pid_cmd (c : Cmd) (hc : ∀ x, startedBy (.spawn c) = some x → x ∈ u) :
    Abides (PidInv u) (PidOp u) (fun _ => True) c.prog := by
  refine abides_of_allow (c.allow_ops.mono ?_ (fun _ h => h))
  rintro o (ho | ho)
  · exact pidOp_quiet o ho
  · cases c <;> cases o <;> first | exact ho.elim | trivial | skip
    all_goals simp only [Cmd.writes] at ho
    · simp only [PidOp]; rw [ho]
    · obtain ⟨-, rfl | rfl⟩ := ho <;> exact fun j p h => .inl h
    · obtain ⟨rfl, ⟨t, rfl⟩ | ⟨a, b, c, rfl⟩ | ⟨a, b, -, rfl⟩⟩ := ho
      · intro j p h
        cases h
        exact .inr (hc _ rfl)
      · exact fun j p h => .inl h
      · exact fun j p h => .inl h

theorem observed_stepsK {s : Sys} {h : Nat → Holder} {v : List (Nat × Nat)} (ho : Observed st s h v)
    (hv : ∀ x ∈ v, x ∈ u) :
    StepsK (fun c => ∀ x, startedBy (.spawn c) = some x → x ∈ u) st Sys.init s := by
  induction ho with
  | init => exact .refl _
  | step _ ha ih =>
    refine .tail (ih (fun x hx => hv x (by simp [hx]))) ha ?_
    rintro c rfl x hx
    exact hv x (by simp [hx])

theorem observed_abides {s : Sys} {h : Nat → Holder} (ho : Observed st s h u) :
    SysAbides (PidInv u) (PidOp u) s := by
  refine sysAbides_steps pidInv_exec ?_ (fun d _ => abides_pid_pass d) (fun c hc => abides_pid_cmd c hc)
    ?_ (observed_stepsK ho (fun _ h => h))
  · intro e w hw
    unfold PidInv
    rw [(e.apply_eq w).1]
    exact hw
  · exact ⟨(fun j hj => by cases hj), trivial, (fun p hp => by cases hp)⟩

/-- **C107** (in all executions): a process id on record was stored by a process of this very job. -/
theorem C107_stored {s : Sys} {h : Nat → Holder} (ho : Observed st s h u) {j : Job} (hj : j ∈ s.w.jobs)
    {p : Nat} (hp : j.pid = some p) : (j.id, p) ∈ u :=
  (observed_abides ho).inv j hj p hp

/-- What is known about the holders if no process id is used twice. -/
structure HolderInv (s : Sys) (h : Nat → Holder) (u : List (Nat × Nat)) : Prop where
  known : ∀ p, s.w.hasPid p = true → h p ≠ .nobody
  job : ∀ p j, h p = .job j → (j, p) ∈ u
  other : ∀ x ∈ u, h x.2 ≠ .other
  once : ∀ x ∈ u, ∀ y ∈ u, x.2 = y.2 → x = y

theorem noReuse_inv {s : Sys} {h : Nat → Holder} (hn : NoReuse st s h u) : HolderInv s h u := by
  induction hn with
  | init =>
    exact ⟨(fun p hp => by cases hp), (fun p j h => by cases h), (fun x hx => by cases hx), (fun x hx => by cases hx)⟩
  | @step s s' h u a hn ha hnew hoth ih =>
    cases hs : startedBy a with
    | none =>
      have hnext : ∀ p, holderNext h a s'.w p =
          if s'.w.hasPid p then (if h p = .nobody then .other else h p) else .nobody := by
        intro p; simp only [holderNext, hs]
      simp only [Option.toList_none, List.append_nil]
      refine ⟨fun p hp => ?_, fun p j hj => ?_, hoth, ih.once⟩
      · rw [hnext, if_pos hp]
        split
        · simp
        · assumption
      · rw [hnext] at hj
        split at hj
        · split at hj
          · cases hj
          · exact ih.job p j hj
        · cases hj
    | some x =>
      obtain ⟨j0, i⟩ := x
      have hnext : ∀ p, holderNext h a s'.w p = if p = i then .job j0 else h p := by
        intro p; simp only [holderNext, hs]
      have hw : s'.w = s.w := by
        cases a with
        | spawn c =>
          simp only [act] at ha
          split at ha
          · cases ha; rfl
          · split at ha
            · cases ha; rfl
            · cases ha
        | _ => cases hs
      have hnew' := hnew j0 i hs
      simp only [Option.toList_some]
      refine ⟨fun p hp => ?_, fun p j hj => ?_, fun x hx => ?_, fun x hx y hy e => ?_⟩
      · rw [hnext]
        split
        · simp
        · exact ih.known p (hw ▸ hp)
      · rw [hnext] at hj
        split at hj
        · next e => cases hj; subst e; simp
        · exact List.mem_append_left _ (ih.job p j hj)
      · rcases List.mem_append.mp hx with hx | hx
        · exact hoth x hx
        · rw [List.mem_singleton.mp hx, hnext, if_pos rfl]; simp
      · rcases List.mem_append.mp hx with hx | hx <;> rcases List.mem_append.mp hy with hy | hy
        · exact ih.once x hx y hy e
        · rw [List.mem_singleton.mp hy] at e; exact absurd e (hnew' x hx)
        · rw [List.mem_singleton.mp hx] at e; exact absurd e.symm (hnew' y hy)
        · rw [List.mem_singleton.mp hx, List.mem_singleton.mp hy]

/-- **C107** (`_partial`: if no process id is given to a second process; otherwise `C107_refuted`): a
process with the id on record for a job is the process of this job. -/
theorem C107_partial {s : Sys} {h : Nat → Holder} (hn : NoReuse st s h u) {j : Job} (hj : j ∈ s.w.jobs)
    {p : Nat} (hp : j.pid = some p) (ha : s.w.hasPid p = true) : h p = .job j.id := by
  have hi := noReuse_inv hn
  have hmem := C107_stored hn.observed hj hp
  cases hh : h p with
  | nobody => exact absurd hh (hi.known p ha)
  | other => exact absurd hh (hi.other _ hmem)
  | job k =>
    have := hi.once _ (hi.job p k hh) _ hmem rfl
    cases this; rfl

/-- **C107** (`_partial`, as before): only children of job processes are terminated. -/
theorem C107_kill_partial {s : Sys} {h : Nat → Holder} (hn : NoReuse st s h u) {p : Nat}
    {k : Except PyErr (Resp (.killChildren p)) → P Unit} (hk : s.jm = .op (.killChildren p) k)
    (ha : s.w.hasPid p = true) : ∃ j, (j, p) ∈ u ∧ h p = .job j := by
  have hi := noReuse_inv hn
  have hj := (observed_abides hn.observed).jm
  rw [hk] at hj
  obtain ⟨j, hmem⟩ := hj.1
  refine ⟨j, hmem, ?_⟩
  cases hh : h p with
  | nobody => exact absurd hh (hi.known p ha)
  | other => exact absurd hh (hi.other _ hmem)
  | job k =>
    have := hi.once _ (hi.job p k hh) _ hmem rfl
    cases this; rfl

/-! ## Whose children are terminated -/

/-- Children of a process are terminated only if it is on record for a job that is being cancelled. -/
def AskedA (h : Past) : Op → Prop
  | .killChildren p => h.once (fun w => ∃ j ∈ w.jobs, j.status = .rd ∧ j.pid = some p)
  | _ => True

/-- Not terminating anything. -/
def NoKill : Op → Prop
  | .killChildren _ => False
  | _ => True

theorem noKill_asked : ∀ o h, NoKill o → AskedA h o := by
  intro o h ho
  cases o <;> first | exact ho.elim | trivial

theorem noKill_quiet : ∀ o, QuietOp o → NoKill o := by
  intro o ho
  cases o <;> first | exact ho.elim | trivial

theorem hsafe_asked_manageJob (j : Job) (h : Past) (hj : WasJob h j) :
    HSafe AskedA (fun _ h' => ∃ t, h' = h ++ t) (manageJob j) h := by
  have hfin : ∀ (j : Job) (st : JobStatus), Prog.Only (S := DB) NoKill (manageJob.finish j st) := by
    intro j st
    unfold manageJob.finish
    refine Prog.only_bind (Do.only_now.mpr trivial) (fun t => ?_)
    exact Prog.only_bind (only_updateJobId noKill_quiet _ _ trivial) (fun _ => trivial)
  have hnone : ∀ (j' : Job) (b : Bool) (q : Option Nat), b = false ∨ q = none →
      Prog.Only (S := DB) NoKill (manageJob.decideJob j' b q) := by
    intro j' b q hbq
    unfold manageJob.decideJob
    split
    · split
      · rcases hbq with h | h <;> cases h
      · exact hfin _ _
    · split
      · exact hfin _ _
      · trivial
  have hdec : ∀ (h : Past), WasJob h j → ∀ (b : Bool) (p : Nat), j.pid = some p →
      HSafe AskedA (fun _ h' => ∃ t, h' = h ++ t) (manageJob.decideJob j b (some p)) h := by
    intro h hj b p hp
    unfold manageJob.decideJob
    split
    · next hst =>
      split
      · next q e1 e2 =>
        cases e2
        refine hsafe_bind (Q := fun _ h' => ∃ t, h' = h ++ t) ?_ ?_
        · refine hsafe_call ?_ (fun w a _ => ⟨_, rfl⟩)
          exact Past.once.mono (P' := fun w => ∃ j ∈ w.jobs, j.status = .rd ∧ j.pid = some p) hj
            (fun w hw => ⟨j, hw, hst, hp⟩)
        · rintro _ _ ⟨t, rfl⟩
          refine hsafe_mono (hsafe_of_only noKill_asked (Prog.only_bind ((Do.only_merge _ _ _).mpr trivial)
            (fun _ => hfin _ _)) _) ?_
          rintro _ _ ⟨t', rfl⟩
          exact ⟨t ++ t', by simp⟩
      · exact hsafe_of_only noKill_asked (hfin _ _) _
    · split
      · exact hsafe_of_only noKill_asked (hfin _ _) _
      · exact ⟨[], by simp⟩
  unfold manageJob
  split
  · refine hsafe_of_only noKill_asked ?_ h
    split
    · exact hnone _ _ _ (.inr rfl)
    · split
      · refine Prog.only_bind (Do.only_now.mpr trivial) (fun t => ?_)
        split
        · exact hnone _ _ _ (.inr rfl)
        · trivial
      · trivial
  · next p hp =>
    refine hsafe_bind (Q := fun _ h' => ∃ t, h' = h ++ t) (hsafe_call trivial (fun w a _ => ⟨_, rfl⟩)) ?_
    rintro b _ ⟨t, rfl⟩
    have tail : ∀ (t' : Past) (b : Bool),
        HSafe AskedA (fun _ h' => ∃ t, h' = h ++ t) (manageJob.decideJob j b (some p)) (h ++ t') := by
      intro t' b
      refine hsafe_mono (hdec _ (hj.append t') b p hp) ?_
      rintro _ _ ⟨t2, rfl⟩
      exact ⟨t' ++ t2, by simp⟩
    split
    · refine hsafe_bind (Q := fun _ h' => ∃ t, h' = h ++ t) (hsafe_call trivial (fun w a _ => ⟨_, List.append_assoc _ _ _⟩)) ?_
      rintro b _ ⟨t2, rfl⟩
      exact tail t2 b
    · exact tail t false

theorem hsafe_asked_pass (d : Daemon) : HSafe AskedA (fun _ _ => True) (jobManagerPass d) [] := by
  unfold jobManagerPass
  refine hsafe_bind (Q := fun _ _ => True) ?_ (fun _ h _ => ?_)
  · unfold manageRunning
    refine hsafe_bind (Q := fun l h => ∀ j ∈ l, WasJob h j) ?_ (fun l h hl => ?_)
    · refine hsafe_call trivial (fun w a ha => ?_)
      simp only [exec, Except.ok.injEq] at ha
      subst ha
      intro j hj
      exact ⟨_, List.mem_append_right _ (List.mem_singleton.mpr rfl), (List.mem_filter.mp hj).1⟩
    · induction l generalizing h with
      | nil => trivial
      | cons j l ih =>
        refine hsafe_bind (hsafe_asked_manageJob j h (hl j (by simp))) ?_
        rintro _ _ ⟨t, rfl⟩
        exact ih _ (fun x hx => (hl x (by simp [hx])).append t)
  · have hr : Prog.Only (S := DB) NoKill (do let m ← checkQueued d; actionQueued d m) := by
      refine Prog.only_bind (only_checkQueued noKill_quiet (fun _ => trivial) _) (fun m => ?_)
      unfold actionQueued
      refine Prog.only_bind ((Do.only_pipsWhere _).mpr trivial) (fun free => ?_)
      generalize sortIds (Dict.keys m) = ids
      generalize Dict.ofList (free.map (fun p => (p.name, p))) = avail
      induction ids generalizing avail with
      | nil => trivial
      | cons i ids ih =>
        unfold actionLoop
        refine Prog.only_bind (only_getJobId noKill_quiet i) (fun job => ?_)
        cases Dict.get? m i with
        | none => trivial
        | some ns =>
          exact Prog.only_bind (only_assignJob noKill_quiet d i job trivial (fun _ => trivial)
            (fun _ => trivial) (fun _ => trivial) ns avail) (fun _ => ih _)
    exact hsafe_mono (hsafe_of_only noKill_asked hr _) (fun _ _ _ => trivial)

/-- **C107** (in all executions): the children of a process are terminated only if, earlier in the
same pass, its id was on record for a job that was being cancelled. -/
theorem C107_asked {d : Daemon} {s : Sys} {h : Past} (hd : During st d s h) {p : Nat}
    {k : Except PyErr (Resp (.killChildren p)) → P Unit} (hk : s.jm = .op (.killChildren p) k) :
    h.once (fun w => ∃ j ∈ w.jobs, j.status = .rd ∧ j.pid = some p) := by
  have key : HSafe AskedA (fun _ _ => True) s.jm h := by
    clear hk k
    induction hd with
    | start _ ha =>
      simp only [act] at ha
      split at ha
      · cases ha; exact hsafe_asked_pass d
      · cases ha
    | @own s s' h o k _ hk ha ih =>
      rw [hk] at ih
      simp only [act, hk, stepProg] at ha
      cases ha
      exact ih.2 s.w
    | other _ h1 h2 h3 ha ih => rw [jm_other h1 h2 h3 ha]; exact ih
  rw [hk] at key
  exact key.1

/-! ## Another process has the id of a dead job -/

/-- Executions in which a process with the id `p` exists all the time, and nobody cancels the job `id`. -/
inductive StepsHeld (st : String) (p id : Nat) : Sys → Sys → Prop
  | refl (s : Sys) : StepsHeld st p id s s
  | tail {s s' s'' : Sys} {a : Act} : StepsHeld st p id s s' → act st s' a = some s'' →
      s''.w.alive p = true → (∀ ids, a = .spawn (.cancel ids) → id ∉ ids) → StepsHeld st p id s s''

/-- The job is on record as running as process `p`, which exists, on the pipeline `n`. -/
structure Mistaken (p id : Nat) (n : String) (w : World) : Prop where
  wf : w.WF
  alive : w.alive p = true
  here : ∃ j ∈ w.jobs, j.id = id
  job : ∀ j ∈ w.jobs, j.id = id → j.status = .r ∧ j.pid = some p
  row : ∃ r ∈ w.pips, r.name = n
  pip : ∀ r ∈ w.pips, r.name = n → r.jobid = some id

/-- Operations that leave the job and the pipeline as they are. -/
def HeldOp (id : Nat) (n : String) : Op → Prop
  | .popenJob i m => i ≠ id ∧ m ≠ n
  | .updatePip m ps => m = n → ∀ r : PipState, (applyPip r ps).jobid = r.jobid
  | .updateJob i ps => i = id → ∀ j : Job, (applyJob j ps).status = j.status ∧ (applyJob j ps).pid = j.pid
  | _ => True

theorem heldOp_quiet (id : Nat) (n : String) : ∀ o, QuietOp o → HeldOp id n o := by
  intro o ho
  cases o <;> first | exact ho.elim | trivial

theorem mistaken_exec {p id : Nat} {n : String} (o : Op) (w : World) (h : Mistaken p id n w)
    (ho : HeldOp id n o) (hal : (exec o w).2.alive p = true) : Mistaken p id n (exec o w).2 := by
  have hwf := exec_wf o w h.wf
  refine ⟨hwf, hal, ?_, ?_, ?_, ?_⟩
  · obtain ⟨j, hj, e0⟩ := h.here
    rcases exec_jobs o w with e | ⟨j0, rfl, e⟩ | ⟨i, ps, rfl, e⟩ <;> rw [e]
    · exact ⟨j, hj, e0⟩
    · exact ⟨j, List.mem_append_left _ hj, e0⟩
    · refine ⟨_, List.mem_map.mpr ⟨j, hj, rfl⟩, ?_⟩
      split
      · rw [applyJob_id]; exact e0
      · exact e0
  · intro j hj hid
    rcases exec_jobs o w with e | ⟨j0, rfl, e⟩ | ⟨i, ps, rfl, e⟩
    · rw [e] at hj; exact h.job j hj hid
    · obtain ⟨j1, hj1, e1⟩ := h.here
      have hnd := hwf.idsNodup
      rw [e] at hj hnd
      rcases List.mem_append.mp hj with hj | hj
      · exact h.job j hj hid
      · rw [List.map_append, List.nodup_append] at hnd
        refine absurd (e1.trans hid.symm) (hnd.2.2 _ (List.mem_map_of_mem hj1) _ (List.mem_map_of_mem hj))
    · rw [e] at hj
      obtain ⟨j0, hj0, rfl⟩ := List.mem_map.mp hj
      split at hid
      · next hi =>
        rw [if_pos hi]
        have hid0 : j0.id = id := by rw [applyJob_id] at hid; exact hid
        obtain ⟨e1, e2⟩ := ho (hi.symm.trans hid0) j0
        rw [e1, e2]
        exact h.job j0 hj0 hid0
      · next hi => rw [if_neg hi]; exact h.job j0 hj0 hid
  · obtain ⟨r, hr, hn⟩ := h.row
    rcases exec_pips o w with e | ⟨p, rfl, e⟩ | ⟨m, ps, rfl, e⟩ <;> rw [e]
    · exact ⟨r, hr, hn⟩
    · exact ⟨r, List.mem_append_left _ hr, hn⟩
    · have : n ∈ (updPips m ps w.pips).map (·.name) := by
        rw [updPips_names]; exact hn ▸ List.mem_map_of_mem hr
      obtain ⟨r', hr', hn'⟩ := List.mem_map.mp this
      exact ⟨r', hr', hn'⟩
  · intro r hr hn
    rcases exec_pips o w with e | ⟨p, rfl, e⟩ | ⟨m, ps, rfl, e⟩
    · rw [e] at hr; exact h.pip r hr hn
    · by_cases hex : (w.pip? p.name).isSome = true
      · simp only [exec, hex, if_true] at hr; exact h.pip r hr hn
      · rw [e] at hr
        rcases List.mem_append.mp hr with hr | hr
        · exact h.pip r hr hn
        · rw [List.mem_singleton.mp hr] at hn
          obtain ⟨r0, hr0, hn0⟩ := h.row
          exfalso; apply hex
          unfold World.pip?
          rw [List.find?_isSome]
          exact ⟨r0, hr0, by simp [hn0, hn]⟩
    · rw [e] at hr
      obtain ⟨r0, hr0, rfl⟩ := List.mem_map.mp hr
      split at hn
      · next hm =>
        rw [if_pos hm]
        have hn0 : r0.name = n := by rw [applyPip_name] at hn; exact hn
        rw [ho (hm.symm.trans hn0) r0]
        exact h.pip r0 hr0 hn0
      · next hm => rw [if_neg hm]; exact h.pip r0 hr0 hn

theorem hasPid_alive {w : World} {p : Nat} (h : w.alive p = true) : w.hasPid p = true := by
  unfold World.alive at h
  unfold World.hasPid
  rw [List.any_eq_true] at h ⊢
  obtain ⟨x, hx, e⟩ := h
  exact ⟨x, hx, by simp at e; simp [e.1]⟩

theorem abides_held_manageJob {p id : Nat} {n : String} (j : Job)
    (hj : j.id = id → j.status = .r ∧ j.pid = some p) :
    Abides (Mistaken p id n) (HeldOp id n) (fun _ => True) (manageJob j) := by
  by_cases hid : j.id = id
  · obtain ⟨hs, hp⟩ := hj hid
    unfold manageJob
    rw [hp]
    refine ⟨trivial, fun w hw => ?_⟩
    have h1 := hasPid_alive hw.alive
    simp only [exec, h1]
    refine ⟨trivial, fun w2 hw2 => ?_⟩
    have h2 := hasPid_alive hw2.alive
    simp only [exec, h2, hw2.alive, if_true]
    show Abides _ _ _ (manageJob.decideJob j true (some p))
    simp [manageJob.decideJob, hs]
    trivial
  · have hq := heldOp_quiet id n
    have hfin : ∀ (j' : Job) (st : JobStatus), j'.id = j.id →
        Prog.Only (S := DB) (HeldOp id n) (manageJob.finish j' st) := by
      intro j' st e
      unfold manageJob.finish
      refine Prog.only_bind (Do.only_now.mpr trivial) (fun t => ?_)
      exact Prog.only_bind (only_updateJobId hq _ _ (fun e' => absurd (e.symm.trans e') hid)) (fun _ => trivial)
    have hdec : ∀ (j' : Job) (b : Bool) (q : Option Nat), j'.id = j.id →
        Prog.Only (S := DB) (HeldOp id n) (manageJob.decideJob j' b q) := by
      intro j' b q e
      unfold manageJob.decideJob
      split
      · split
        · next q => 
          refine Prog.only_bind ((Do.only_killChildren q).mpr trivial) (fun _ => ?_)
          exact Prog.only_bind ((Do.only_merge _ _ _).mpr trivial) (fun _ => hfin _ _ e)
        · exact hfin _ _ e
      · split
        · exact hfin _ _ e
        · trivial
    refine abides_of_only ?_
    unfold manageJob
    split
    · split
      · exact hdec _ _ _ rfl
      · split
        · refine Prog.only_bind (Do.only_now.mpr trivial) (fun t => ?_)
          split
          · exact hdec _ _ _ rfl
          · trivial
        · trivial
    · refine Prog.only_bind ((Do.only_pidExists _).mpr trivial) (fun b => ?_)
      split
      · exact Prog.only_bind ((Do.only_notZombie _).mpr trivial) (fun b => hdec _ _ _ rfl)
      · exact hdec _ _ _ rfl

theorem abides_held_pass {p id : Nat} {n : String} (d : Daemon) :
    Abides (Mistaken p id n) (HeldOp id n) (fun _ => True) (jobManagerPass d) := by
  have hq := heldOp_quiet id n
  unfold jobManagerPass
  refine abides_bind (Q := fun _ => True) ?_ (fun _ _ => ?_)
  · unfold manageRunning
    refine abides_bind (Q := fun l => ∀ j ∈ l, j.id = id → j.status = .r ∧ j.pid = some p) ?_ (fun l hl => ?_)
    · refine ⟨trivial, fun w hw => ?_⟩
      simp only [exec]
      intro j hj hid
      exact hw.job j (List.mem_filter.mp hj).1 hid
    · exact abides_forEach (fun j hj => abides_held_manageJob j (hl j hj))
  refine abides_bind (Q := fun m => ∀ k ∈ Dict.keys m, k ≠ id) ?_ (fun m hm => ?_)
  · unfold checkQueued
    refine abides_bind (Q := fun l => ∀ j ∈ l, j.id ≠ id) ?_ (fun l hl => ?_)
    · refine ⟨trivial, fun w hw => ?_⟩
      simp only [exec]
      intro j hj hid
      obtain ⟨h1, h2⟩ := List.mem_filter.mp hj
      rw [(hw.job j h1 hid).1] at h2
      cases h2
    · refine abides_of_allow ((allow_checkLoop hq d l (fun j hj e => absurd e (hl j hj)) []).mono
        (fun _ h => h) (fun m hm k hk => ?_))
      rcases hm k hk with h | h
      · cases h
      · obtain ⟨j, hj, rfl⟩ := List.mem_map.mp h
        exact hl j hj
  unfold actionQueued
  refine abides_bind (Q := fun free => ∀ r ∈ free, r.name ≠ n) ?_ (fun free hfree => ?_)
  · refine ⟨trivial, fun w hw => ?_⟩
    simp only [exec]
    intro r hr hn
    obtain ⟨h1, h2⟩ := List.mem_filter.mp hr
    rw [hw.pip r h1 hn] at h2
    cases h2
  have hav : Dict.get? (Dict.ofList (free.map (fun p => (p.name, p)))) n = none := by
    rw [Dict.get?_ofList, Option.map_eq_none_iff, List.find?_eq_none]
    intro kv hkv
    obtain ⟨r, hr, rfl⟩ := List.mem_map.mp (List.mem_reverse.mp hkv)
    simpa using hfree r hr
  have hids : ∀ i ∈ sortIds (Dict.keys m), i ≠ id := fun i hi => hm i ((mem_sortIds _ _).mp hi)
  generalize sortIds (Dict.keys m) = ids at hids
  generalize Dict.ofList (free.map (fun p => (p.name, p))) = avail at hav
  induction ids generalizing avail with
  | nil => trivial
  | cons i ids ih =>
    have hi : i ≠ id := hids i (by simp)
    unfold actionLoop
    refine abides_bind (abides_of_allow (allow_getJobId hq i)) (fun job hjob => ?_)
    cases h : Dict.get? m i with
    | none => trivial
    | some ns =>
      refine abides_bind (Q := fun av => Dict.get? av n = none) ?_
        (fun av hv => ih (fun k hk => hids k (by simp [hk])) av hv)
      clear h
      induction ns with
      | nil => exact hav
      | cons pn ns ih2 =>
        unfold assignJob
        split
        · exact ih2
        · next ps hps =>
          have hpn : pn ≠ n := by
            rintro rfl
            rw [hav] at hps; cases hps
          split
          · exact ih2
          · refine abides_bind (abides_of_only ((Do.only_makeJobDir _ _).mpr trivial)) (fun _ _ => ?_)
            split
            · trivial
            · refine abides_bind (abides_of_only (only_updatePip hq _ _
                (fun e => absurd e hpn))) (fun _ _ => ?_)
              refine abides_bind (abides_of_only ((Do.only_popenJob _ _).mpr
                ⟨by rw [hjob]; exact hi, hpn⟩)) (fun _ _ => ?_)
              refine abides_bind (abides_of_only (Do.only_now.mpr trivial)) (fun t _ => ?_)
              refine abides_bind (abides_of_only (only_updateJobId hq _ _
                (fun e => absurd e hi))) (fun _ _ => ?_)
              show Dict.get? (Dict.erase avail pn) n = none
              rw [Dict.get?_erase, if_neg (Ne.symm hpn)]
              exact hav

theorem abides_held_getJobId {p id : Nat} {n : String} (i : Nat) :
    Abides (Mistaken p id n) (HeldOp id n) (fun j => i = id → j.pid = some p) (getJobId i) := by
  refine ⟨trivial, fun w hw => ?_⟩
  simp only [exec]
  show Abides _ _ _ (Prog.bind (Prog.pure (w.job? i)) _)
  simp only [Prog.pure_bind]
  cases h : w.job? i with
  | none => trivial
  | some j =>
    exact fun hi => (hw.job j (job?_some h).2 ((job?_some h).1.trans hi)).2

theorem abides_held_cmd {p id : Nat} {n : String} (c : Cmd)
    (hc : ∀ l, c.launch = some l → l.jobid ≠ id ∧ l.pip ≠ n) (hcan : ∀ ids, c = .cancel ids → id ∉ ids) :
    Abides (Mistaken p id n) (HeldOp id n) (fun _ => True) c.prog := by
  have hgen : (∀ o, c.writes o → HeldOp id n o) →
      Abides (Mistaken p id n) (HeldOp id n) (fun _ => True) c.prog := by
    intro h
    refine abides_of_allow (c.allow_ops.mono ?_ (fun _ h => h))
    rintro o (ho | ho)
    · exact heldOp_quiet _ _ o ho
    · exact h o ho
  cases c with
  | pipPass d =>
    show Abides _ _ _ (pipManagerPass d)
    unfold pipManagerPass
    refine abides_bind (Q := fun l => ∀ r ∈ l, r.name = n → r.jobid = some id) ?_ (fun l hl => ?_)
    · refine ⟨trivial, fun w hw => ?_⟩
      simp only [exec]
      intro r hr hn
      exact hw.pip r (List.mem_filter.mp hr).1 hn
    · refine abides_forEach fun r hr => ?_
      cases hi : r.jobid with
      | none => trivial
      | some i =>
        simp only
        by_cases hn : r.name = n
        · have : i = id := by
            have := hl r hr hn
            rw [hi] at this; exact Option.some.inj this
          subst this
          unfold managePip
          refine abides_bind (abides_held_getJobId i) (fun j hj => ?_)
          rw [hj rfl]
          refine ⟨trivial, fun w hw => ?_⟩
          have h1 := hasPid_alive hw.alive
          simp only [exec, h1]
          refine ⟨trivial, fun w2 hw2 => ?_⟩
          have h2 := hasPid_alive hw2.alive
          simp only [exec, h2, hw2.alive, if_true]
          trivial
        · have hreset : Abides (Mistaken p id n) (HeldOp id n) (fun _ => True)
              (resetPipeline d r) := by
            unfold resetPipeline
            split
            · trivial
            · refine abides_bind (abides_of_only (only_resetComponents (heldOp_quiet id n) _ _))
                (fun _ _ => ?_)
              exact abides_bind (abides_of_only (only_updatePip (heldOp_quiet id n) _ _
                (fun e => absurd e hn))) (fun _ _ => trivial)
          unfold managePip
          refine abides_bind (abides_held_getJobId i) (fun j _ => ?_)
          split
          · split
            · exact hreset
            · split
              · refine abides_bind (abides_of_only (Do.only_now.mpr trivial)) (fun t _ => ?_)
                split
                · exact hreset
                · trivial
              · trivial
          · refine abides_bind (abides_of_only ((Do.only_pidExists _).mpr trivial)) (fun b _ => ?_)
            split
            · refine abides_bind (abides_of_only ((Do.only_notZombie _).mpr trivial)) (fun b _ => ?_)
              split
              · trivial
              · exact hreset
            · exact hreset
  | tomatoJob j i pl pip path m hm =>
    obtain ⟨h1, h2⟩ := hc _ rfl
    refine hgen (fun o ho => ?_)
    cases o <;> first | exact ho.elim | trivial | skip
    · rintro rfl; exact absurd ho.1.symm h1
    · rintro rfl; exact absurd ho.1.symm h2
  | cancel ids =>
    refine hgen (fun o ho => ?_)
    cases o <;> first | exact ho.elim | skip
    rintro rfl
    exact absurd ho.1 (hcan ids rfl)
  | load _ _ _ | eject _ _ | ready _ _ =>
    refine hgen (fun o ho => ?_)
    cases o <;> first | exact ho.elim | skip
    obtain ⟨-, rfl⟩ := ho
    exact fun _ _ => rfl
  | _ =>
    refine hgen (fun o ho => ?_)
    cases o <;> first | exact ho.elim | trivial

/-- The launches for the job or the pipeline are the same in both worlds. -/
def SameLaunches (id : Nat) (n : String) (w w' : World) : Prop :=
  ∀ l : Launch, l.jobid = id ∨ l.pip = n → w'.launches.count l = w.launches.count l

theorem same_held {id : Nat} {n : String} (w : World) {o : Op} (ho : HeldOp id n o) :
    SameLaunches id n w (exec o w).2 := by
  intro l hl
  rcases exec_launches o w with e | ⟨i, m, rfl, e⟩ <;> rw [e]
  · rw [List.count_append, List.count_singleton]
    have : (⟨i, m⟩ : Launch) ≠ l := by
      rintro rfl
      rcases hl with hl | hl
      · exact ho.1 hl
      · exact ho.2 hl
    simp only [beq_iff_eq, this, if_false, Nat.add_zero]

theorem held_step {p id : Nat} {n : String} {s s' : Sys} {a : Act}
    (h0 : SysAbides (Mistaken p id n) (HeldOp id n) s) (hn : NoLate id n s) (ha : act st s a = some s')
    (hal : s'.w.alive p = true) (hcan : ∀ ids, a = .spawn (.cancel ids) → id ∉ ids) :
    SysAbides (Mistaken p id n) (HeldOp id n) s' ∧ NoLate id n s' ∧ SameLaunches id n s.w s'.w := by
  obtain ⟨hi, hj, ho⟩ := h0
  cases a with
  | jmStart d =>
    simp only [act] at ha
    split at ha
    · cases ha; exact ⟨⟨hi, abides_held_pass d, ho⟩, hn, fun _ _ => rfl⟩
    · cases ha
  | jmStep =>
    simp only [act] at ha
    split at ha
    · next q w hp =>
      unfold stepProg at hp
      split at hp
      · next o k hk =>
        cases hp; cases ha
        rw [hk] at hj
        exact ⟨⟨mistaken_exec o _ hi hj.1 hal, hj.2 _ hi, ho⟩,
          fun l hl => by rw [same_held _ hj.1 l hl]; exact hn l hl, same_held _ hj.1⟩
      · cases hp
    · cases ha
  | jmKill => cases ha; exact ⟨⟨hi, trivial, ho⟩, hn, fun _ _ => rfl⟩
  | spawn c =>
    have hK : ∀ l, c.launch = some l → l.jobid ≠ id ∧ l.pip ≠ n := by
      intro l hl
      simp only [act, hl] at ha
      split at ha
      · next hlt =>
        refine ⟨fun e => ?_, fun e => ?_⟩
        · have := hn l (.inl e); omega
        · have := hn l (.inr e); omega
      · cases ha
    have key : ∀ q ∈ s.others ++ [c.prog], Abides (Mistaken p id n) (HeldOp id n) (fun _ => True) q := by
      intro q hq
      rcases List.mem_append.mp hq with hq | hq
      · exact ho q hq
      · rw [List.mem_singleton.mp hq]
        exact abides_held_cmd c hK (fun ids e => hcan ids (by rw [e]))
    simp only [act] at ha
    split at ha
    · cases ha; exact ⟨⟨hi, hj, key⟩, hn, fun _ _ => rfl⟩
    · split at ha
      · cases ha
        refine ⟨⟨hi, hj, key⟩, fun l hl => ?_, fun _ _ => rfl⟩
        have := hn l hl
        simp only [List.count_append]
        omega
      · cases ha
  | step i =>
    simp only [act] at ha
    split at ha
    · cases ha
    · next q hq =>
      split at ha
      · next q' w hs =>
        unfold stepProg at hs
        split at hs
        · next o k =>
          cases hs; cases ha
          have hmem := ho _ (List.mem_of_getElem? hq)
          refine ⟨⟨mistaken_exec o _ hi hmem.1 hal, hj, fun r hr => ?_⟩,
            fun l hl => by rw [same_held _ hmem.1 l hl]; exact hn l hl, same_held _ hmem.1⟩
          rcases mem_set_of hr with hr | rfl
          · exact ho r hr
          · exact hmem.2 _ hi
        · cases hs
      · cases ha
  | kill i =>
    cases ha
    refine ⟨⟨hi, hj, fun r hr => ?_⟩, hn, fun _ _ => rfl⟩
    rcases mem_set_of hr with hr | rfl
    · exact ho r hr
    · trivial
  | env e =>
    cases ha
    obtain ⟨e1, -, e3, -, e5, e6⟩ := e.apply_eq s.w
    refine ⟨⟨⟨EnvAct.wf hi.wf e, hal, ?_, ?_, ?_, ?_⟩, hj, ho⟩, fun l hl => ?_, fun l _ => by rw [e6]⟩
    · simpa only [e1] using hi.here
    · simpa only [e1] using hi.job
    · simpa only [e3] using hi.row
    · simpa only [e3] using hi.pip
    · rw [e6]; exact hn l hl

/-- All programs have ended, and every process launched for the job or the pipeline has begun to
execute. -/
def AllOver (id : Nat) (n : String) (s : Sys) : Prop :=
  s.jm.ended = true ∧ (∀ q ∈ s.others, q.ended = true) ∧
    ∀ l : Launch, l.jobid = id ∨ l.pip = n → s.w.launches.count l ≤ s.started.count l

/-- **C107** (what happens otherwise): suppose all programs have ended (say, the machine has been
started again), a job is on record as running, and some process has its process id.  Then, as long
as a process has this id and nobody cancels the job, the job stays on record as running and keeps
its pipeline, no process is started for either, whatever else happens. -/
theorem C107_mistaken {s s' : Sys} (hr : Reachable st s) {p id : Nat} {n : String}
    (hover : AllOver id n s) (hjob : ∃ j ∈ s.w.jobs, j.id = id ∧ j.status = .r ∧ j.pid = some p)
    (hpip : ∃ r ∈ s.w.pips, r.name = n ∧ r.jobid = some id) (hal : s.w.alive p = true)
    (h : StepsHeld st p id s s') :
    (∃ j ∈ s'.w.jobs, j.id = id ∧ j.status = .r ∧ j.pid = some p) ∧
    (∃ r ∈ s'.w.pips, r.name = n ∧ r.jobid = some id) ∧
    (∀ l : Launch, l.jobid = id ∨ l.pip = n → s'.w.launches.count l = s.w.launches.count l) := by
  have hwf := reachable_wf hr
  have key : SysAbides (Mistaken p id n) (HeldOp id n) s' ∧ NoLate id n s' ∧ SameLaunches id n s.w s'.w := by
    induction h with
    | refl =>
      refine ⟨⟨⟨hwf, hal, ?_, ?_, ?_, ?_⟩, ?_, fun q hq => ?_⟩, hover.2.2, fun _ _ => rfl⟩
      · obtain ⟨j, hj, e, -⟩ := hjob; exact ⟨j, hj, e⟩
      · intro j hj hid
        obtain ⟨j0, hj0, e0, h0⟩ := hjob
        rw [List.inj_on_of_nodup_map hwf.idsNodup hj hj0 (hid.trans e0.symm)]
        exact h0
      · obtain ⟨r, hr, e, -⟩ := hpip; exact ⟨r, hr, e⟩
      · intro r hr hn
        obtain ⟨r0, hr0, e0, h0⟩ := hpip
        rw [List.inj_on_of_nodup_map hwf.pipNames hr hr0 (hn.trans e0.symm)]
        exact h0
      · have := hover.1
        cases hp : s.jm with
        | pure a => trivial
        | raise e => trivial
        | op o k => rw [hp] at this; exact absurd this (by simp [Prog.ended])
      · have := hover.2.1 q hq
        cases q with
        | pure a => trivial
        | raise e => trivial
        | op o k => exact absurd this (by simp [Prog.ended])
    | tail _ ha hal hcan ih =>
      obtain ⟨h1, h2, h3⟩ := held_step ih.1 ih.2.1 ha hal hcan
      exact ⟨h1, h2, fun l hl => (h3 l hl).trans (ih.2.2 l hl)⟩
  obtain ⟨⟨hi, -, -⟩, -, hs⟩ := key
  refine ⟨?_, ?_, hs⟩
  · obtain ⟨j, hj, e⟩ := hi.here
    exact ⟨j, hj, e, hi.job j hj e⟩
  · obtain ⟨r, hr, e⟩ := hi.row
    exact ⟨r, hr, e, hi.pip r hr e⟩

/-! ## The claim is false -/

/-- Executes actions, recording the holders of process ids and the job processes started. -/
def observe : Sys → (Nat → Holder) → List (Nat × Nat) → List Act →
    Option (Sys × (Nat → Holder) × List (Nat × Nat))
  | s, h, u, [] => some (s, h, u)
  | s, h, u, a :: as => match act "Jobs" s a with
    | some s' => observe s' (holderNext h a s'.w) (u ++ (startedBy a).toList) as
    | none => none

theorem observed_observe {s s' : Sys} {h h' : Nat → Holder} {u u' : List (Nat × Nat)} {as : List Act}
    (h0 : Observed "Jobs" s h u) (ho : observe s h u as = some (s', h', u')) : Observed "Jobs" s' h' u' := by
  induction as generalizing s h u with
  | nil => cases ho; exact h0
  | cons a as ih =>
    simp only [observe] at ho
    split at ho
    · next s1 h1 => exact ih (.step h0 h1) ho
    · cases ho

/-- Job 1 runs as process 100. -/
def startIt : List Act :=
  setup ++ [.jmStart dRun] ++ jm 21 ++ [.spawn (okJob 1 100 "p"), .env (.procs [⟨100, 1, false⟩])] ++ run 5 3

/-- Power is lost and the machine started again; another program gets the process id 100 and starts
the process 101. -/
def reboot : List Act :=
  [.jmKill, .kill 5, .env (.procs []), .env (.procs [⟨100, 1, false⟩, ⟨101, 100, false⟩])]

/-- **C107 is false of the code**: after a power cut another program has the process id on record
for job 1.  The job stays on record as running, and keeps the pipeline, as long as the other program
runs. -/
theorem C107_refuted : ∃ s h u, Observed "Jobs" s h u ∧ h 100 = .other ∧
    ∀ s', StepsHeld "Jobs" 100 1 s s' →
      (∃ j ∈ s'.w.jobs, j.id = 1 ∧ j.status = .r ∧ j.pid = some 100) ∧
      (∃ r ∈ s'.w.pips, r.name = "p" ∧ r.jobid = some 1) := by
  have hr : ∃ q, observe Sys.init (fun _ => .nobody) [] (startIt ++ reboot) = some q ∧ q.2.1 100 = .other ∧
      q.1.jm.ended = true ∧ q.1.others.all (·.ended) = true ∧ q.1.w.launches = q.1.started ∧
      (q.1.w.jobs.any (fun j => j.id == 1 && j.status == .r && j.pid == some 100)) = true ∧
      (q.1.w.pips.any (fun r => r.name == "p" && r.jobid == some 1)) = true ∧ q.1.w.alive 100 = true :=
    ⟨_, rfl, by decide +kernel, rfl, rfl, by decide +kernel, by decide +kernel, by decide +kernel, by decide +kernel⟩
  obtain ⟨⟨s, h, u⟩, hq, h1, h2, h3, h4, h5, h6, h7⟩ := hr
  have ho := observed_observe .init hq
  refine ⟨s, h, u, ho, h1, fun s' hs => ?_⟩
  obtain ⟨a, b, -⟩ := C107_mistaken (n := "p") ho.reachable ⟨h2, fun q hq => List.all_eq_true.mp h3 q hq,
    fun l _ => Nat.le_of_eq (congrArg (List.count l) h4)⟩ (by simpa [and_assoc] using h5) (by simpa using h6) h7 hs
  exact ⟨a, b⟩

/-- **C107 is false of the code** (termination): the user cancels the job, and the manager
terminates the process 101 of the other program. -/
theorem C107_refuted_kill : ∃ s h u s', Observed "Jobs" s h u ∧ h 100 = .other ∧ h 101 = .other ∧
    act "Jobs" s .jmStep = some s' ∧ s.w.hasPid 101 = true ∧ s'.w.hasPid 101 = false := by
  have hr : ∃ q, observe Sys.init (fun _ => .nobody) []
      (startIt ++ reboot ++ [.spawn (.cancel [1])] ++ run 6 3 ++ [.jmStart dRun] ++ jm 3) = some q ∧
      q.2.1 100 = .other ∧ q.2.1 101 = .other ∧ q.1.w.hasPid 101 = true ∧
      ((act "Jobs" q.1 .jmStep).map (fun s => s.w.hasPid 101)) = some false :=
    ⟨_, rfl, by decide +kernel, by decide +kernel, by decide +kernel, by decide +kernel⟩
  obtain ⟨⟨s, h, u⟩, hq, h1, h2, h3, h4⟩ := hr
  obtain ⟨s', hs', e⟩ := Option.map_eq_some_iff.mp h4
  exact ⟨s, h, u, s', observed_observe .init hq, h1, h2, hs', h3, e⟩

/-! ## Instances -/

/-- Executes actions like `observe`, as long as no process id is reused. -/
def observeNR : Sys → (Nat → Holder) → List (Nat × Nat) → List Act →
    Option (Sys × (Nat → Holder) × List (Nat × Nat))
  | s, h, u, [] => some (s, h, u)
  | s, h, u, a :: as => match act "Jobs" s a with
    | some s' =>
      if (startedBy a).all (fun y => u.all (fun x => x.2 != y.2)) &&
          u.all (fun x => decide (holderNext h a s'.w x.2 ≠ .other)) then
        observeNR s' (holderNext h a s'.w) (u ++ (startedBy a).toList) as
      else none
    | none => none

theorem noReuse_observe {s s' : Sys} {h h' : Nat → Holder} {u u' : List (Nat × Nat)} {as : List Act}
    (h0 : NoReuse "Jobs" s h u) (ho : observeNR s h u as = some (s', h', u')) : NoReuse "Jobs" s' h' u' := by
  induction as generalizing s h u with
  | nil => cases ho; exact h0
  | cons a as ih =>
    simp only [observeNR] at ho
    split at ho
    · next s1 h1 =>
      split at ho
      · next hc =>
        rw [Bool.and_eq_true] at hc
        refine ih (.step h0 h1 ?_ ?_) ho
        · intro j p e x hx
          have := hc.1
          rw [e] at this
          simp only [Option.all_some, List.all_eq_true] at this
          simpa using this x hx
        · intro x hx
          have := List.all_eq_true.mp hc.2 x hx
          simpa using this
      · cases ho
    · cases ho

/-- Without a power cut the hypotheses of `C107_partial` hold, and process 100 belongs to job 1. -/
example : ∃ s h u, NoReuse "Jobs" s h u ∧ s.w.hasPid 100 = true ∧
    (∃ j ∈ s.w.jobs, j.id = 1 ∧ j.pid = some 100) ∧ h 100 = .job 1 := by
  have hr : ∃ q, observeNR Sys.init (fun _ => .nobody) [] startIt = some q ∧ q.1.w.hasPid 100 = true ∧
      (q.1.w.jobs.any (fun j => j.id == 1 && j.pid == some 100)) = true ∧ q.2.1 100 = .job 1 :=
    ⟨_, rfl, by decide +kernel, by decide +kernel, by decide +kernel⟩
  obtain ⟨⟨s, h, u⟩, hq, h1, h2, h3⟩ := hr
  exact ⟨s, h, u, noReuse_observe .init hq, h1, by simpa using h2, h3⟩

/-- The hypotheses of `C107_kill_partial` and `C107_asked` hold when job 1 is cancelled. -/
example : ∃ s h u k, NoReuse "Jobs" s h u ∧ s.jm = .op (.killChildren 100) k ∧
    s.w.hasPid 100 = true ∧ h 100 = .job 1 := by
  have hr : ∃ q, observeNR Sys.init (fun _ => .nobody) []
      (startIt ++ [.spawn (.cancel [1])] ++ run 6 3 ++ [.jmStart dRun] ++ jm 3) = some q ∧
      (∃ k, q.1.jm = .op (.killChildren 100) k) ∧ q.1.w.hasPid 100 = true ∧ q.2.1 100 = .job 1 :=
    ⟨_, rfl, ⟨_, rfl⟩, by decide +kernel, by decide +kernel⟩
  obtain ⟨⟨s, h, u⟩, hq, ⟨k, hk⟩, h1, h2⟩ := hr
  exact ⟨s, h, u, k, noReuse_observe .init hq, hk, h1, h2⟩

/-- After the power cut of `C107_refuted` a pass of the pipeline manager, in which process 100
exists all the time, leaves job and pipeline as they are. -/
example : ∃ s s', Reachable "Jobs" s ∧ StepsHeld "Jobs" 100 1 s s' ∧ jobOf s' "p" = some (some 1) ∧
    s'.others.length = s.others.length + 1 := by
  have h0 : ∃ q, acts "Jobs" Sys.init (startIt ++ reboot) = some q ∧
      ∃ q', act "Jobs" q (.spawn (.pipPass dRun)) = some q' ∧ q'.w.alive 100 = true ∧
      jobOf q' "p" = some (some 1) ∧ q'.others.length = q.others.length + 1 :=
    ⟨_, rfl, _, rfl, by decide +kernel, by decide +kernel, by decide +kernel⟩
  obtain ⟨s, hs, s', hs', h1, h2, h3⟩ := h0
  exact ⟨s, s', steps_of_acts hs, .tail (.refl _) hs' h1 (fun ids e => by cases e), h2, h3⟩

end Tomato.Props
