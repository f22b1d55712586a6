import Verif.Daemons
import Verif.SystemInv
import Verif.Props.System
import Mathlib.Data.List.Forall2

/-!
# C73: several daemons on one database

Each job is launched at most once, however many daemons serve the queue; but a pipeline may be
given to two jobs.
-/

namespace Tomato.Props

open Tomato

/-! ## Permission to launch -/

/-- Operations that neither create the folder of a job nor launch one. -/
def NoLaunch : Op → Prop
  | .makeJobDir _ _ | .popenJob _ _ => False
  | _ => True

/-- The permission a program holds after an operation: creating the folder of a job gives the
permission to launch this job, launching uses it up. -/
def permNext (L : Option Nat) (o : Op) (ok : Bool) : Option Nat :=
  match o with
  | .makeJobDir _ id => if ok then some id else none
  | .popenJob _ _ => none
  | _ => L

/-- Folders are created in the storage folder; only the job one has the permission for is
launched. -/
def PermOk (st : String) (L : Option Nat) : Op → Prop
  | .makeJobDir s _ => s = st
  | .popenJob id _ => L = some id
  | _ => True

/-- A program launches a job only with the permission to do so. -/
def Permit {α : Type} (st : String) (Q : α → Prop) : Option Nat → Prog DB α → Prop
  | _, .pure a => Q a
  | _, .raise _ => True
  | L, .op o k => PermOk st L o ∧ ∀ w, Permit st Q (permNext L o (exec o w).1.isOk) (k (exec o w).1)

theorem permOk_mono {st : String} {o : Op} (L : Option Nat) (h : PermOk st none o) :
    PermOk st L o := by
  cases o <;> first | exact h | cases h

theorem permit_mono {α : Type} {st : String} {Q : α → Prop} {p : Prog DB α} (L : Option Nat)
    (h : Permit st Q none p) : Permit st Q L p := by
  induction p generalizing L with
  | pure a => exact h
  | raise e => trivial
  | op o k ih =>
    refine ⟨permOk_mono L h.1, fun w => ?_⟩
    have h2 := h.2 w
    cases o <;> first | exact h2 | exact ih _ L h2

theorem permit_bind {α β : Type} {st : String} {Q : α → Prop} {Q' : β → Prop} {p : Prog DB α}
    {f : α → Prog DB β} {L : Option Nat} (hp : Permit st Q L p)
    (hf : ∀ a, Q a → Permit st Q' none (f a)) : Permit st Q' L (Prog.bind p f) := by
  induction p generalizing L with
  | pure a => exact permit_mono L (hf a hp)
  | raise e => trivial
  | op o k ih => exact ⟨hp.1, fun w => ih _ (hp.2 w)⟩

theorem permit_bind_keep {α β : Type} {st : String} {Q : α → Prop} {Q' : β → Prop} {p : Prog DB α}
    {f : α → Prog DB β} {L : Option Nat} (hp : Allow NoLaunch Q p)
    (hf : ∀ a, Q a → Permit st Q' L (f a)) : Permit st Q' L (Prog.bind p f) := by
  induction p with
  | pure a => exact hf a hp
  | raise e => trivial
  | op o k ih =>
    have h1 := hp.1
    refine ⟨?_, fun w => ?_⟩
    · cases o <;> trivial
    · have h2 := ih _ (hp.2 w)
      cases o <;> first | exact h1.elim | exact h2

theorem permit_of_allow {α : Type} {st : String} {Q : α → Prop} {p : Prog DB α} (L : Option Nat)
    (hp : Allow NoLaunch Q p) : Permit st Q L p := by
  have := permit_bind_keep (st := st) (L := L) (f := Prog.pure) hp (fun a h => h)
  rwa [Prog.bind_pure] at this

theorem noLaunch_quiet (o : Op) (h : QuietOp o) : NoLaunch o := by
  cases o <;> first | exact h.elim | trivial

/-- No command launches jobs. -/
theorem permit_cmd (st : String) (c : Cmd) : Permit st (fun _ => True) none c.prog := by
  refine permit_of_allow none (c.allow_ops.mono (fun o h => ?_) (fun _ h => h))
  rcases h with h | h
  · exact noLaunch_quiet o h
  · cases o <;> first | trivial | (cases c <;> exact h.elim)

theorem permit_assignJob (d : Daemon) (jobid : Nat) (job : Job) (hj : job.id = jobid)
    (ns : List String) (avail : Dict String PipState) :
    Permit d.settings.storage (fun _ => True) none (assignJob d jobid job ns avail) := by
  induction ns with
  | nil => trivial
  | cons n ns ih =>
    unfold assignJob
    split
    · exact ih
    · split
      · exact ih
      · refine ⟨rfl, fun w => ?_⟩
        cases hx : (exec (.makeJobDir d.settings.storage jobid) w).1 with
        | error e => trivial
        | ok u =>
          change Permit _ _ (some jobid) _
          show Permit d.settings.storage (fun _ => True) (some jobid) (match jobArgs d n with
            | none => Prog.raise .keyError
            | some _ => _)
          cases jobArgs d n with
          | none => trivial
          | some _ =>
            refine permit_bind_keep (Q := fun _ => True) (allow_of_only (only_updatePip noLaunch_quiet _ _ trivial))
              (fun _ _ => ?_)
            refine ⟨by rw [hj]; rfl, fun w => ?_⟩
            refine permit_of_allow none ?_
            exact allow_of_only (Prog.only_bind trivial (fun _ =>
              Prog.only_bind (Do.only_now.mpr trivial) (fun _ =>
                Prog.only_bind (only_updateJobId noLaunch_quiet _ _ trivial) (fun _ => trivial))))

theorem permit_actionLoop (d : Daemon) (matched : Dict Nat (List String)) (ids : List Nat)
    (avail : Dict String PipState) :
    Permit d.settings.storage (fun _ => True) none (actionLoop d matched ids avail) := by
  induction ids generalizing avail with
  | nil => trivial
  | cons id ids ih =>
    unfold actionLoop
    refine permit_bind_keep (allow_getJobId noLaunch_quiet id) (fun job hj => ?_)
    split
    · trivial
    · exact permit_bind (permit_assignJob d id job hj _ _) (fun _ _ => ih _)

/-- The job manager launches a job only if it created the folder of the job just before. -/
theorem permit_jobManagerPass (d : Daemon) :
    Permit d.settings.storage (fun _ => True) none (jobManagerPass d) := by
  unfold jobManagerPass
  refine permit_bind_keep (Q := fun _ => True) (allow_of_only (only_manageRunning noLaunch_quiet
    (fun _ => trivial) (fun _ _ _ => trivial) (fun _ _ _ _ => trivial))) (fun _ _ => ?_)
  refine permit_bind_keep (Q := fun _ => True) (allow_of_only (only_checkQueued noLaunch_quiet
    (fun _ => trivial) d)) (fun _ _ => ?_)
  unfold actionQueued
  refine permit_bind_keep (Q := fun _ => True) (allow_of_only ((Do.only_pipsWhere _).mpr trivial))
    (fun _ _ => ?_)
  exact permit_actionLoop d _ _ _

/-! ## The invariant -/

/-- The programs hold permissions such that for every job the number of launches plus the number
of permissions is at most one, and zero if the job has no folder. -/
def PermInv (st : String) (s : MSys) : Prop :=
  ∃ Ls : List (Option Nat), List.Forall₂ (Permit st (fun _ => True)) Ls s.progs ∧
    ∀ id, (s.w.launches.map (·.jobid)).count id + Ls.count (some id) ≤
      if (st, id) ∈ s.w.jobDirs then 1 else 0

theorem forall2_set {α β : Type} {R : α → β → Prop} {l : List α} {m : List β} {i : Nat} {a : α}
    {b : β} (h : List.Forall₂ R l m) (hab : R a b) : List.Forall₂ R (l.set i a) (m.set i b) := by
  induction h generalizing i with
  | nil => exact .nil
  | cons h t ih =>
    cases i with
    | zero => exact .cons hab t
    | succ i => exact .cons h ih

theorem forall2_get {α β : Type} {R : α → β → Prop} {l : List α} {m : List β} {i : Nat} {b : β}
    (h : List.Forall₂ R l m) (hi : m[i]? = some b) : ∃ a, l[i]? = some a ∧ R a b := by
  induction h generalizing i with
  | nil => cases hi
  | @cons x y l m h t ih =>
    cases i with
    | zero => cases hi; exact ⟨x, rfl, h⟩
    | succ i => exact ih hi

theorem count_set_le {l : List (Option Nat)} {i : Nat} {L L' : Option Nat} (h : l[i]? = some L)
    (id : Nat) :
    (l.set i L').count (some id) + (if L = some id then 1 else 0) =
      l.count (some id) + (if L' = some id then 1 else 0) := by
  induction l generalizing i with
  | nil => cases h
  | cons x l ih =>
    cases i with
    | zero =>
      cases h
      simp only [List.set_cons_zero, List.count_cons, beq_iff_eq]
      omega
    | succ i =>
      have := ih (i := i) h
      simp only [List.set_cons_succ, List.count_cons]
      omega

theorem permInv_step {st : String} {s s' : MSys} {a : MAct} (h : PermInv st s)
    (ha : mact st s a = some s') : PermInv st s' := by
  obtain ⟨Ls, hf, hc⟩ := h
  cases a with
  | pass d =>
    simp only [mact] at ha
    split at ha
    · next hd =>
      cases ha
      refine ⟨Ls ++ [none], List.rel_append hf (.cons (hd ▸ permit_jobManagerPass d) .nil), fun id => ?_⟩
      have := hc id
      simpa using this
    · cases ha
  | spawn c =>
    have key : ∀ st' : List Launch, PermInv st { s with progs := s.progs ++ [c.prog], started := st' } := by
      intro st'
      refine ⟨Ls ++ [none], List.rel_append hf (.cons (permit_cmd st c) .nil), fun id => ?_⟩
      have := hc id
      simpa using this
    simp only [mact] at ha
    split at ha
    · cases ha; exact key _
    · split at ha
      · cases ha; exact key _
      · cases ha
  | step i =>
    simp only [mact] at ha
    cases hp : s.progs[i]? with
    | none => rw [hp] at ha; cases ha
    | some p =>
      rw [hp] at ha
      obtain ⟨L, hL, hpm⟩ := forall2_get hf hp
      cases p with
      | pure _ => cases ha
      | raise _ => cases ha
      | op o k =>
        simp only [stepProg] at ha
        cases ha
        refine ⟨Ls.set i (permNext L o (exec o s.w).1.isOk), forall2_set hf (hpm.2 s.w), fun id => ?_⟩
        have h1 := count_set_le (L' := permNext L o (exec o s.w).1.isOk) hL id
        have h2 := hc id
        have hok := hpm.1
        rcases exec_launches o s.w with hl | ⟨j, n, rfl, hl⟩
        · rcases exec_jobDirs o s.w with hd | ⟨st', j, rfl, hn, hd⟩
          · simp only [hl, hd]
            have h3 : permNext L o (exec o s.w).1.isOk = some id →
                L = some id := by
              intro hx
              cases o <;> first | exact hx | skip
              · -- makeJobDir
                rename_i s' j'
                simp only [permNext, exec] at hx hd
                split at hx
                · next hmem => cases hx
                · next hmem =>
                  simp only [hmem, if_false] at hd
                  exact absurd (congrArg List.length hd) (by simp)
              · cases hx
            by_cases hy : permNext L o (exec o s.w).1.isOk = some id
            · rw [if_pos hy, if_pos (h3 hy)] at h1; omega
            · rw [if_neg hy] at h1; omega
          · have hst : st' = st := hok
            subst hst
            have h3 : permNext L (.makeJobDir st' j) (exec (.makeJobDir st' j) s.w).1.isOk = some j := by
              simp only [permNext, exec, hn, if_false]; rfl
            rw [h3] at h1
            simp only [hl, hd, h3]
            by_cases hij : j = id
            · subst hij
              simp only [hn, if_false] at h2
              simp only [if_true] at h1
              simp only [List.mem_cons, true_or, if_true]
              omega
            · simp only [Option.some.injEq, hij, if_false] at h1
              have h4 : ((st', id) ∈ (st', j) :: s.w.jobDirs) ↔ (st', id) ∈ s.w.jobDirs := by
                simp only [List.mem_cons, Prod.mk.injEq, true_and]
                constructor
                · rintro (rfl | h)
                  · exact absurd rfl hij
                  · exact h
                · exact .inr
              simp only [h4]
              split at h1 <;> omega
        · have hLj : L = some j := hok
          have hd : (exec (.popenJob j n) s.w).2.jobDirs = s.w.jobDirs := rfl
          have h3 : permNext L (.popenJob j n) (exec (.popenJob j n) s.w).1.isOk = none := rfl
          rw [h3, hLj] at h1
          simp only [hl, hd, h3, List.map_append, List.map_cons, List.map_nil, List.count_append,
            List.count_cons, List.count_nil, beq_iff_eq, Option.some.injEq, reduceCtorEq,
            if_false] at h1 ⊢
          omega
  | kill i =>
    cases ha
    refine ⟨Ls.set i none, forall2_set hf trivial, fun id => ?_⟩
    refine Nat.le_trans (Nat.add_le_add_left ?_ _) (hc id)
    cases hL : Ls[i]? with
    | none =>
      exact Nat.le_of_eq (by rw [List.set_eq_of_length_le (List.getElem?_eq_none_iff.mp hL)])
    | some L =>
      have := count_set_le (L' := none) hL id
      simp only [reduceCtorEq, if_false] at this
      omega
  | env e =>
    cases ha
    refine ⟨Ls, hf, fun id => ?_⟩
    have := hc id
    cases e <;> exact this

/-! ## C73 -/

/-- **C73** (part): however many daemons serve the same queue, in whatever order their job
managers, the commands and the processes act, no job is ever launched twice. -/
theorem C73_launched_once_partial {st : String} {s : MSys} (h : MReachable st s) (id : Nat) :
    (s.w.launches.map (·.jobid)).count id ≤ 1 := by
  obtain ⟨as, h⟩ := h
  have hinv : PermInv st s := macts_inv (fun _ _ _ => permInv_step)
    ⟨[], .nil, fun id => by simp⟩ h
  obtain ⟨Ls, -, hc⟩ := hinv
  have := hc id
  split at this <;> omega

/-! ## Witnesses -/

/-- Let the `i`-th program perform `n` operations. -/
def mrun (i n : Nat) : List MAct := List.replicate n (.step i)

/-- As `setup` (`Verif/Props/System.lean`): start a daemon and a driver, load a sample on pipeline
`p`, mark it ready, submit one job: programs 0-4, all run to their end. -/
def msetup : List MAct :=
  [.spawn (.reload dBoot none)] ++ mrun 0 9 ++
  [.spawn (.driverStart "d" 5000 70 "1.0")] ++ mrun 1 2 ++ [.env (.drv okDrv)] ++
  [.spawn (.load (some dRun) "p" "s")] ++ mrun 2 3 ++
  [.spawn (.ready (some dRun) "p")] ++ mrun 3 3 ++
  [.spawn (.submit (.parsed (plS "s")) none dRun "/home")] ++ mrun 4 4

/-- A driver that is too busy to answer requests for validation in time. -/
def busyDrv : Nat → DrvCmd → Option DrvReply := fun n c =>
  match c with
  | .validate _ _ _ => none
  | _ => okDrv n c

/-- The job manager of the first daemon (program 5) has matched job 1 and read which pipelines
are free.  Job 2 is submitted.  The job manager of the second daemon (program 7) gets no answer to
its request to validate job 1 in time, hence it launches job 2 on `p`; then the first one launches
job 1 on `p`. -/
def twoDaemons : List MAct :=
  msetup ++ [.pass dRun] ++ mrun 5 14 ++
  [.spawn (.submit (.parsed (plS "s")) none dRun "/home")] ++ mrun 6 4 ++
  [.env (.drv busyDrv), .pass dRun] ++ mrun 7 10 ++ [.env (.drv okDrv)] ++ mrun 7 20 ++ mrun 5 7

/-- **C73** (negation): with two daemons, two different jobs are launched on the same pipeline,
while neither of their processes has even started; the pipeline is then assigned to one of
them. -/
theorem C73_pipeline_refuted : ∃ s, MReachable "Jobs" s ∧
    s.w.launches = [⟨2, "p"⟩, ⟨1, "p"⟩] ∧ s.started = [] ∧
    (s.w.pip? "p").map (·.jobid) = some (some 1) := by
  have h : (macts "Jobs" { w := {} } twoDaemons).isSome = true := rfl
  obtain ⟨s, hs⟩ := Option.isSome_iff_exists.mp h
  refine ⟨s, ⟨_, hs⟩, ?_⟩
  refine ⟨?_, ?_, ?_⟩ <;> (cases hs; rfl)

/-- Both daemons match job 1 and find `p` free. -/
def racing : List MAct :=
  msetup ++ [.pass dRun, .pass dRun] ++ mrun 5 13 ++ mrun 6 11 ++ mrun 5 8 ++ mrun 6 2

/-- **C73** (negation): the job manager of the second daemon dies with a `FileExistsError`
because the first one launched the job. -/
theorem C73_manager_refuted : ∃ s, MReachable "Jobs" s ∧ s.w.launches = [⟨1, "p"⟩] ∧
    s.progs[5]? = some (.pure ()) ∧ s.progs[6]? = some (.raise .fileExistsError) := by
  have h : (macts "Jobs" { w := {} } racing).isSome = true := rfl
  obtain ⟨s, hs⟩ := Option.isSome_iff_exists.mp h
  refine ⟨s, ⟨_, hs⟩, ?_⟩
  refine ⟨?_, ?_, ?_⟩ <;> (cases hs; rfl)

example : ∃ s, MReachable "Jobs" s ∧ s.w.launches.length = 2 :=
  let ⟨s, hs, h, _⟩ := C73_pipeline_refuted
  ⟨s, hs, by rw [h]; rfl⟩

end Tomato.Props
