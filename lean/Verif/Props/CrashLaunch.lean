import Verif.Abides
import Verif.DeviceFile
import Verif.Props.FirstCome

/-!
# Killing the job manager while it launches a job (C89)

`action_queued` (job.py:234-318) makes the folder of the job, reserves the pipeline, starts the job
process and stores the launch time, in this order and without any way to resume.  Claim: whatever
moment the daemon is killed at, no submitted job and no pipeline is lost for ever.

The claim holds for every kill outside the three operations between the folder and the process
(`C89_partial`), and fails inside, for ever: `C89_refuted_folder`, `C89_refuted_pipeline`.
-/

namespace Tomato

namespace Props

variable {st : String}

/-! ## The specification -/

/-- Whatever its answers are, the program starts the process of the job before doing anything else
than writing and reading a row of the table of pipelines. -/
def Commits (id : Nat) : P Unit → Prop
  | .op (.popenJob i _) _ => i = id
  | .op (.updatePip n ps) k => ∀ w, Commits id (k (exec (.updatePip n ps) w).1)
  | .op (.getPip n) k => ∀ w, Commits id (k (exec (.getPip n) w).1)
  | _ => False

/-- Every pipeline of the device file is found under its own name (as in all device files read by
tomato, see C32), and the settings have a section for repositories. -/
def Complete (d : Daemon) : Prop :=
  d.settings.repositories.isSome ∧ ∀ pl ∈ Dict.values d.devicefile.pipelines, (Dict.get? d.devicefile.pipelines pl.name).isSome

/-- Executions in which the job manager is not killed between having made the folder of a job and
having started its process. -/
inductive StepsWhole (st : String) : Sys → Sys → Prop
  | refl (s : Sys) : StepsWhole st s s
  | tail {s s' s'' : Sys} {a : Act} : StepsWhole st s s' → act st s' a = some s'' →
      (a = .jmKill → ∀ id, ¬ Commits id s'.jm) → (∀ d, a = .jmStart d → Complete d) →
      StepsWhole st s s''

/-- The job's process has been started (at some time). -/
def Launched (w : World) (id : Nat) : Prop := ∃ l ∈ w.launches, l.jobid = id

/-! ## Kills outside the window -/

/-- The operations of a program keep the order folder, pipeline, process; `c` is the job whose
folder has been made and whose process has not been started yet. -/
def Ord {α : Type} (Q : α → Prop) : Option Nat → Prog DB α → Prop
  | c, .pure a => c = none ∧ Q a
  | c, .raise _ => c = none
  | none, .op (.makeJobDir s i) k =>
      ∀ w, Ord Q (if (s, i) ∈ w.jobDirs then none else some i) (k (exec (.makeJobDir s i) w).1)
  | none, .op (.popenJob _ _) _ => False
  | none, .op (.updatePip _ _) _ => False
  | none, .op (.insertPip _) _ => False
  | none, .op o k => ∀ w, Ord Q none (k (exec o w).1)
  | some id, .op (.updatePip n ps) k =>
      (∀ r : PipState, (applyPip r ps).jobid = some id) ∧
        ∀ w, Ord Q (some id) (k (exec (.updatePip n ps) w).1)
  | some id, .op (.getPip n) k => ∀ w, Ord Q (some id) (k (exec (.getPip n) w).1)
  | some id, .op (.popenJob i n) k => i = id ∧ ∀ w, Ord Q none (k (exec (.popenJob i n) w).1)
  | some _, .op _ _ => False

/-- Operations of the job manager outside of launching. -/
def Calm : Op → Prop
  | .makeJobDir _ _ | .popenJob _ _ | .updatePip _ _ | .insertPip _ => False
  | _ => True

theorem calm_quiet : ∀ o, QuietOp o → Calm o := by
  intro o ho
  cases o <;> first | exact ho.elim | trivial

theorem ord_of_allow {α : Type} {Q : α → Prop} {p : Prog DB α} (h : Allow Calm Q p) :
    Ord Q none p := by
  induction p with
  | pure a => exact ⟨rfl, h⟩
  | raise e => rfl
  | op o k ih =>
    have h1 := h.1
    cases o <;> first | exact h1.elim | (intro w; exact ih _ (h.2 w))

theorem ord_bind {α β : Type} {Q : α → Prop} {Q' : β → Prop} {p : Prog DB α}
    {f : α → Prog DB β} {c : Option Nat} (hp : Ord Q c p) (hf : ∀ a, Q a → Ord Q' none (f a)) :
    Ord Q' c (Prog.bind p f) := by
  induction p generalizing c with
  | pure a => obtain ⟨rfl, ha⟩ := hp; exact hf a ha
  | raise e => exact hp
  | op o k ih =>
    cases c with
    | none => cases o <;> first | exact hp.elim | (intro w; exact ih _ (hp w))
    | some id =>
      cases o <;> first
        | exact hp.elim
        | exact ⟨hp.1, fun w => ih _ (hp.2 w)⟩
        | (intro w; exact ih _ (hp w))

theorem commits_of_ord {Q : Unit → Prop} {id : Nat} {p : P Unit} (h : Ord Q (some id) p) :
    Commits id p := by
  induction p with
  | pure a => exact absurd h.1 (by simp)
  | raise e => exact absurd h (by simp [Ord])
  | op o k ih =>
    cases o <;> first
      | exact h.elim
      | exact h.1
      | (intro w; exact ih _ (h.2 w))
      | (intro w; exact ih _ (h w))

theorem allow_matchLoop (d : Daemon) (m : List Task) (N : List String) (ps : List Pipeline)
    (cands : List String) (hp : ∀ p ∈ ps, p.name ∈ N) (hc : ∀ n ∈ cands, n ∈ N) :
    Allow Calm (fun r => ∀ n ∈ r, n ∈ N) (matchLoop d m ps cands) := by
  induction ps generalizing cands with
  | nil => exact hc
  | cons p ps ih =>
    have ih' := fun cands hc => ih cands (fun q hq => hp q (by simp [hq])) hc
    unfold matchLoop
    split
    · refine allow_bind (allow_of_only (only_collectCapabs calm_quiet _ _ _)) (fun capabs _ => ?_)
      split
      · refine allow_bind (allow_of_only (only_methodValidate calm_quiet _ _ _)) (fun r _ => ?_)
        split
        · refine ih' _ (fun n hn => ?_)
          rcases List.mem_append.mp hn with hn | hn
          · exact hc n hn
          · rw [List.mem_singleton.mp hn]; exact hp p (by simp)
        · exact ih' _ hc
      · exact ih' _ hc
    · exact ih' _ hc

theorem allow_findMatching {d : Daemon} (hd : Complete d) (m : List Task) :
    Allow Calm (fun r => ∀ n ∈ r, (jobArgs d n).isSome)
      (findMatching d m) := by
  refine (allow_matchLoop d m ((Dict.values d.devicefile.pipelines).map (·.name)) _ []
    (fun p hp => List.mem_map_of_mem hp) (by simp)).mono (fun _ h => h) (fun r hr n hn => ?_)
  obtain ⟨pl, hpl, rfl⟩ := List.mem_map.mp (hr n hn)
  exact jobArgs_isSome hd.1 (hd.2 pl hpl)

theorem allow_checkLoop_named {d : Daemon} (hd : Complete d) (jobs : List Job)
    (m : Dict Nat (List String))
    (hm : ∀ id ns, Dict.get? m id = some ns →
      ∀ n ∈ ns, (jobArgs d n).isSome) :
    Allow Calm (fun m' => ∀ id ns, Dict.get? m' id = some ns →
      ∀ n ∈ ns, (jobArgs d n).isSome) (checkLoop d jobs m) := by
  induction jobs generalizing m with
  | nil => exact hm
  | cons j js ih =>
    unfold checkLoop
    refine allow_bind (allow_findMatching hd _) (fun ms hms => ?_)
    have hset : ∀ id ns, Dict.get? (Dict.set m j.id ms) id = some ns →
        ∀ n ∈ ns, (jobArgs d n).isSome := by
      intro id ns h
      rw [Dict.get?_set] at h
      split at h
      · cases h; exact hms
      · exact hm id ns h
    split
    · exact allow_bind (allow_of_only (only_updateJobId calm_quiet _ _ trivial))
        (fun _ _ => ih _ hset)
    · exact ih _ hset

theorem ord_assignJob {d : Daemon} (jobid : Nat) (job : Job) (hj : job.id = jobid)
    (ns : List String) (hn : ∀ n ∈ ns, (jobArgs d n).isSome)
    (avail : Dict String PipState) :
    Ord (fun _ => True) none (assignJob d jobid job ns avail) := by
  induction ns with
  | nil => exact ⟨rfl, trivial⟩
  | cons n ns ih =>
    unfold assignJob
    split
    · exact ih (fun m hm => hn m (by simp [hm]))
    · split
      · exact ih (fun m hm => hn m (by simp [hm]))
      · intro w
        obtain ⟨pl, hpl⟩ := Option.isSome_iff_exists.mp (hn n (by simp))
        by_cases hdir : (d.settings.storage, jobid) ∈ w.jobDirs
        · simp only [exec, hdir, if_true]
          exact rfl
        · simp only [exec, hdir, if_false]
          show Ord _ (some jobid) (Prog.bind (Prog.pure ()) _)
          simp only [Prog.pure_bind, hpl]
          subst hj
          refine ⟨fun r => rfl, fun w1 => ?_⟩
          intro w2
          refine ⟨rfl, fun w3 => ?_⟩
          simp only [exec]
          show Ord _ none (Prog.bind Do.now _)
          refine ord_bind (Q := fun _ => True)
            (ord_of_allow (allow_of_only (Do.only_now.mpr trivial))) (fun t _ => ?_)
          exact ord_bind (Q := fun _ => True)
            (ord_of_allow (allow_of_only (only_updateJobId calm_quiet _ _ trivial)))
            (fun _ _ => ⟨rfl, trivial⟩)

theorem ord_actionLoop {d : Daemon} (m : Dict Nat (List String))
    (hm : ∀ id ns, Dict.get? m id = some ns →
      ∀ n ∈ ns, (jobArgs d n).isSome) (ids : List Nat)
    (avail : Dict String PipState) : Ord (fun _ => True) none (actionLoop d m ids avail) := by
  induction ids generalizing avail with
  | nil => exact ⟨rfl, trivial⟩
  | cons id ids ih =>
    unfold actionLoop
    refine ord_bind (ord_of_allow (allow_getJobId calm_quiet id)) (fun job hjob => ?_)
    cases h : Dict.get? m id with
    | none => exact rfl
    | some ns => exact ord_bind (ord_assignJob id job hjob ns (hm id ns h) _) (fun _ _ => ih _)

theorem ord_jobManagerPass {d : Daemon} (hd : Complete d) :
    Ord (fun _ => True) none (jobManagerPass d) := by
  unfold jobManagerPass
  refine ord_bind (Q := fun _ => True) (ord_of_allow (allow_of_only (only_manageRunning calm_quiet
    (fun _ => trivial) (fun _ _ _ => trivial) (fun _ _ _ _ => trivial)))) (fun _ _ => ?_)
  refine ord_bind (Q := fun m => ∀ id ns, Dict.get? m id = some ns →
      ∀ n ∈ ns, (jobArgs d n).isSome) ?_ (fun m hm => ?_)
  · refine ord_of_allow ?_
    unfold checkQueued
    refine allow_bind (allow_of_only ((Do.only_jobsWhere _).mpr trivial)) (fun l _ => ?_)
    exact allow_checkLoop_named hd l [] (fun id ns h => by cases h)
  · unfold actionQueued
    refine ord_bind (Q := fun _ => True)
      (ord_of_allow (allow_of_only ((Do.only_pipsWhere _).mpr trivial))) (fun free _ => ?_)
    exact ord_actionLoop m hm _ _

/-- What the other programs do not do. -/
def OtherOp : Op → Prop
  | .makeJobDir _ _ | .popenJob _ _ => False
  | .updatePip _ ps => ∀ r id, (applyPip r ps).jobid = some id → r.jobid = some id
  | .insertPip p => p.jobid = none
  | _ => True

theorem otherOp_writes (c : Cmd) : ∀ o, QuietOp o ∨ c.writes o → OtherOp o := by
  rintro o (ho | ho)
  · cases o <;> first | exact ho.elim | trivial
  · cases c <;> cases o <;> first | exact ho.elim | trivial | skip
    all_goals simp only [Cmd.writes] at ho
    all_goals simp only [OtherOp]
    · intro r id h; rw [ho.2] at h; exact h
    · intro r id h; rw [ho.2] at h; exact h
    · intro r id h; rw [ho.2] at h; exact h
    · rw [ho]
    · intro r id h; rw [ho] at h; exact absurd h (by simp [applyPip, PipParam.apply])
    · intro r id h
      obtain ⟨-, b, rfl⟩ := ho
      exact absurd h (by simp [applyPip, PipParam.apply])

theorem otherOp_cmd (c : Cmd) : Allow OtherOp (fun _ => True) c.prog :=
  c.allow_ops.mono (otherOp_writes c) (fun _ h => h)

/-- Folders and pipelines belong to jobs that have been launched, except to the one that the job
manager is launching. -/
structure WholeInv (st : String) (s : Sys) (c : Option Nat) : Prop where
  jm : Ord (fun _ => True) c s.jm
  others : ∀ p ∈ s.others, Allow OtherOp (fun _ => True) p
  dirs : ∀ i, (st, i) ∈ s.w.jobDirs → Launched s.w i ∨ c = some i
  pips : ∀ r ∈ s.w.pips, ∀ i, r.jobid = some i → Launched s.w i ∨ c = some i

theorem Launched.mono {w : World} {i : Nat} (h : Launched w i) (o : Op) :
    Launched (exec o w).2 i := by
  obtain ⟨l, hl, e⟩ := h
  exact ⟨l, launches_mono o w l hl, e⟩

/-- An operation that touches neither folders nor jobs of pipelines keeps the table. -/
theorem frame_dirs_pips {w : World} {o : Op} {c : Option Nat} (ho : OtherOp o)
    (hd : ∀ i, (st, i) ∈ w.jobDirs → Launched w i ∨ c = some i)
    (hp : ∀ r ∈ w.pips, ∀ i, r.jobid = some i → Launched w i ∨ c = some i) :
    (∀ i, (st, i) ∈ (exec o w).2.jobDirs → Launched (exec o w).2 i ∨ c = some i) ∧
    (∀ r ∈ (exec o w).2.pips, ∀ i, r.jobid = some i → Launched (exec o w).2 i ∨ c = some i) := by
  constructor
  · intro i hi
    rcases exec_jobDirs o w with h | ⟨s, j, rfl, -, -⟩
    · rw [h] at hi; exact (hd i hi).imp (fun h => h.mono o) id
    · exact ho.elim
  · intro r hr i hi
    rcases exec_pips o w with h | ⟨p, rfl, h⟩ | ⟨n, ps, rfl, h⟩
    · rw [h] at hr; exact (hp r hr i hi).imp (fun h => h.mono o) id
    · rw [h] at hr
      rcases List.mem_append.mp hr with hr | hr
      · exact (hp r hr i hi).imp (fun h => h.mono _) id
      · rw [List.mem_singleton.mp hr] at hi
        have h0 : p.jobid = none := ho
        rw [h0] at hi; cases hi
    · rw [h] at hr
      obtain ⟨r0, hr0, rfl⟩ := List.mem_map.mp hr
      refine (hp r0 hr0 i ?_).imp (fun h => h.mono _) id
      split at hi
      · exact ho r0 i hi
      · exact hi

theorem wholeInv_jm {s : Sys} {c : Option Nat} (h : WholeInv st s c) {o : Op}
    {k : Except PyErr (Resp o) → P Unit} (hk : s.jm = .op o k) :
    ∃ c', WholeInv st { s with jm := k (exec o s.w).1, w := (exec o s.w).2 } c' := by
  obtain ⟨hj, ho, hd, hp⟩ := h
  rw [hk] at hj
  have calm : OtherOp o → ∀ c', c' = c → Ord (fun _ => True) c' (k (exec o s.w).1) →
      ∃ c', WholeInv st { s with jm := k (exec o s.w).1, w := (exec o s.w).2 } c' := by
    rintro hoo c' rfl hord
    obtain ⟨h1, h2⟩ := frame_dirs_pips (st := st) hoo hd hp
    exact ⟨_, hord, ho, h1, h2⟩
  cases c with
  | none =>
    cases o with
    | makeJobDir s' i =>
      refine ⟨_, hj s.w, ho, fun j hj' => ?_, fun r hr j hj' => ?_⟩
      · by_cases hex : (s', i) ∈ s.w.jobDirs
        · simp only [exec, hex, if_true] at hj' ⊢
          exact hd j hj'
        · simp only [exec, hex, if_false] at hj' ⊢
          rcases List.mem_cons.mp hj' with e | hj'
          · cases e; exact .inr rfl
          · rcases hd j hj' with h | h
            · exact .inl h
            · cases h
      · have hr' : r ∈ s.w.pips := by
          by_cases hex : (s', i) ∈ s.w.jobDirs
          · simp only [exec, hex, if_true] at hr; exact hr
          · simp only [exec, hex, if_false] at hr; exact hr
        rcases hp r hr' j hj' with h | h
        · exact .inl (h.mono _)
        · cases h
    | popenJob i n => exact hj.elim
    | updatePip n ps => exact hj.elim
    | insertPip p => exact hj.elim
    | _ => exact calm trivial _ rfl (hj s.w)
  | some id =>
    cases o with
    | updatePip n ps =>
      refine ⟨some id, hj.2 s.w, ho, fun i hi => ?_, fun r hr i hi => ?_⟩
      · exact (hd i hi).imp (fun h => h.mono _) (fun h => h)
      · obtain ⟨r0, hr0, rfl⟩ := List.mem_map.mp hr
        split at hi
        · right; rw [← hi, hj.1 r0]
        · exact (hp r0 hr0 i hi).imp (fun h => h.mono _) (fun h => h)
    | getPip n => exact calm trivial _ rfl (hj s.w)
    | popenJob i n =>
      obtain ⟨rfl, hj⟩ := hj
      have key : ∀ j, Launched s.w j ∨ some i = some j →
          Launched (exec (.popenJob i n) s.w).2 j := by
        rintro j (h | h)
        · exact h.mono _
        · cases h
          exact ⟨⟨i, n⟩, by simp [exec], rfl⟩
      exact ⟨none, hj s.w, ho, fun j hj' => .inl (key j (hd j hj')),
        fun r hr j hj' => .inl (key j (hp r hr j hj'))⟩
    | _ => exact hj.elim

theorem wholeInv_step {s s' : Sys} {c : Option Nat} {a : Act} (h : WholeInv st s c)
    (ha : act st s a = some s') (hk : a = .jmKill → ∀ id, ¬ Commits id s.jm)
    (hd : ∀ d, a = .jmStart d → Complete d) : ∃ c', WholeInv st s' c' := by
  cases a with
  | jmStart d =>
    simp only [act] at ha
    split at ha
    · next hc =>
      cases ha
      refine ⟨c, ?_, h.others, h.dirs, h.pips⟩
      have : c = none := by
        have hj := h.jm
        cases hp : s.jm with
        | pure a => rw [hp] at hj; exact hj.1
        | raise e => rw [hp] at hj; exact hj
        | op o k => rw [hp] at hc; exact absurd hc.1 (by simp [Prog.ended])
      subst this
      exact ord_jobManagerPass (hd d rfl)
    · cases ha
  | jmStep =>
    simp only [act] at ha
    split at ha
    · next p w hp =>
      unfold stepProg at hp
      split at hp
      · next o k hj => cases hp; cases ha; exact wholeInv_jm h hj
      · cases hp
    · cases ha
  | jmKill =>
    cases ha
    refine ⟨c, ?_, h.others, h.dirs, h.pips⟩
    cases c with
    | none => exact ⟨rfl, trivial⟩
    | some id => exact absurd (commits_of_ord h.jm) (hk rfl id)
  | spawn c' =>
    have key : ∀ p ∈ s.others ++ [c'.prog], Allow OtherOp (fun _ => True) p := by
      intro p hp
      rcases List.mem_append.mp hp with hp | hp
      · exact h.others p hp
      · rw [List.mem_singleton.mp hp]; exact otherOp_cmd c'
    simp only [act] at ha
    split at ha
    · cases ha; exact ⟨c, h.jm, key, h.dirs, h.pips⟩
    · split at ha
      · cases ha; exact ⟨c, h.jm, key, h.dirs, h.pips⟩
      · cases ha
  | step i =>
    simp only [act] at ha
    split at ha
    · cases ha
    · next p hp =>
      split at ha
      · next p' w hs =>
        unfold stepProg at hs
        split at hs
        · next o k =>
          cases hs; cases ha
          have hmem := h.others _ (List.mem_of_getElem? hp)
          obtain ⟨h1, h2⟩ := frame_dirs_pips (st := st) hmem.1 h.dirs h.pips
          refine ⟨c, h.jm, fun q hq => ?_, h1, h2⟩
          rcases mem_set_of hq with hq | rfl
          · exact h.others q hq
          · exact hmem.2 _
        · cases hs
      · cases ha
  | kill i =>
    cases ha
    refine ⟨c, h.jm, fun q hq => ?_, h.dirs, h.pips⟩
    rcases mem_set_of hq with hq | rfl
    · exact h.others q hq
    · trivial
  | env e =>
    cases ha
    obtain ⟨-, -, e3, -, e5, e6⟩ := e.apply_eq s.w
    refine ⟨c, h.jm, h.others, ?_, ?_⟩
    · intro i hi
      simp only [Launched, e5, e6] at hi ⊢
      exact h.dirs i hi
    · intro r hr i hi
      simp only [Launched, e3, e6] at hr ⊢
      exact h.pips r hr i hi

theorem wholeInv_reachable {s : Sys} (h : StepsWhole st Sys.init s) : ∃ c, WholeInv st s c := by
  generalize h0 : Sys.init = s0 at h
  induction h with
  | refl =>
    subst h0
    exact ⟨none, ⟨rfl, trivial⟩, (fun p hp => by cases hp), (fun i hi => by cases hi),
      (fun r hr => by cases hr)⟩
  | tail _ ha hk hd ih =>
    obtain ⟨c, hc⟩ := ih
    exact wholeInv_step hc ha hk hd

/-- **C89** (part): if the job manager is never killed between the folder and the process of a job,
then after every kill -- and at every other moment when no pass is under way -- the jobs that have
not been launched have no folder and no pipeline: nothing stands in the way of launching them. -/
theorem C89_partial {s : Sys} (h : StepsWhole st Sys.init s) (hj : s.jm.ended = true) {id : Nat}
    (hid : ¬ Launched s.w id) :
    (st, id) ∉ s.w.jobDirs ∧ ∀ r ∈ s.w.pips, r.jobid ≠ some id := by
  obtain ⟨c, hc⟩ := wholeInv_reachable h
  have : c = none := by
    have hj' := hc.jm
    cases hp : s.jm with
    | pure a => rw [hp] at hj'; exact hj'.1
    | raise e => rw [hp] at hj'; exact hj'
    | op o k => rw [hp] at hj; exact absurd hj (by simp [Prog.ended])
  subst this
  refine ⟨fun hd => ?_, fun r hr hi => ?_⟩
  · rcases hc.dirs id hd with h | h
    · exact hid h
    · cases h
  · rcases hc.pips r hr id hi with h | h
    · exact hid h
    · cases h

/-- **C89** (part, during a pass): at any moment a folder or a pipeline belongs to a job that has
been launched or that the job manager is about to launch, whatever happens, unless it is killed. -/
theorem C89_window_partial {s : Sys} (h : StepsWhole st Sys.init s) {id : Nat}
    (hid : (st, id) ∈ s.w.jobDirs ∨ ∃ r ∈ s.w.pips, r.jobid = some id) :
    Launched s.w id ∨ Commits id s.jm := by
  obtain ⟨c, hc⟩ := wholeInv_reachable h
  have key : Launched s.w id ∨ c = some id := by
    rcases hid with h | ⟨r, hr, hi⟩
    · exact hc.dirs id h
    · exact hc.pips r hr id hi
  refine key.imp (fun h => h) (fun h => ?_)
  subst h
  exact commits_of_ord hc.jm

/-! ## A left-over folder -/

/-- No process of the job is started. -/
def FolderOp (id : Nat) : Op → Prop
  | .popenJob i _ => i ≠ id
  | _ => True

theorem folderOp_quiet (id : Nat) : ∀ o, QuietOp o → FolderOp id o := by
  intro o ho
  cases o <;> first | exact ho.elim | trivial

/-- The folder is there and the job has not been launched. -/
def LostFolder (st : String) (id : Nat) (w : World) : Prop :=
  (st, id) ∈ w.jobDirs ∧ ¬ Launched w id

theorem lostFolder_exec {id : Nat} (o : Op) (w : World) (h : LostFolder st id w)
    (ho : FolderOp id o) : LostFolder st id (exec o w).2 := by
  refine ⟨?_, ?_⟩
  · rcases exec_jobDirs o w with e | ⟨s, j, -, -, e⟩ <;> rw [e]
    · exact h.1
    · exact List.mem_cons_of_mem _ h.1
  · rintro ⟨l, hl, hid⟩
    rcases exec_launches o w with e | ⟨j, n, rfl, e⟩ <;> rw [e] at hl
    · exact h.2 ⟨l, hl, hid⟩
    · rcases List.mem_append.mp hl with hl | hl
      · exact h.2 ⟨l, hl, hid⟩
      · rw [List.mem_singleton.mp hl] at hid; exact ho hid

theorem abides_folder_pass {id : Nat} (d : Daemon) (hd : d.settings.storage = st) :
    Abides (LostFolder st id) (FolderOp id) (fun _ => True) (jobManagerPass d) := by
  have hq := folderOp_quiet id
  unfold jobManagerPass
  refine abides_bind (abides_of_only (only_manageRunning hq (fun _ => trivial)
    (fun _ _ _ => trivial) (fun _ _ _ _ => trivial))) (fun _ _ => ?_)
  refine abides_bind (abides_of_only (only_checkQueued hq (fun _ => trivial) _)) (fun m _ => ?_)
  unfold actionQueued
  refine abides_bind (abides_of_only ((Do.only_pipsWhere _).mpr trivial)) (fun free _ => ?_)
  generalize sortIds (Dict.keys m) = ids
  generalize Dict.ofList (free.map (fun p => (p.name, p))) = avail
  induction ids generalizing avail with
  | nil => trivial
  | cons i ids ih =>
    unfold actionLoop
    refine abides_bind (abides_of_allow (allow_getJobId hq i)) (fun job hjob => ?_)
    cases h : Dict.get? m i with
    | none => trivial
    | some ns =>
      refine abides_bind (Q := fun _ => True) ?_ (fun _ _ => ih _)
      by_cases hi : i = id
      · subst hi
        clear h
        induction ns with
        | nil => trivial
        | cons n ns ih2 =>
          unfold assignJob
          split
          · exact ih2
          · split
            · exact ih2
            · refine ⟨trivial, fun w hw => ?_⟩
              have : (d.settings.storage, i) ∈ w.jobDirs := hd ▸ hw.1
              simp only [exec, this, if_true]
              trivial
      · refine abides_of_only (only_assignJob hq d i job trivial (fun _ => trivial)
          (fun n => ?_) (fun _ => trivial) ns avail)
        show job.id ≠ id
        rw [hjob]; exact hi

theorem abides_folder_cmd {id : Nat} (c : Cmd) :
    Abides (LostFolder st id) (FolderOp id) (fun _ => True) c.prog := by
  refine abides_of_allow ((otherOp_cmd c).mono (fun o ho => ?_) (fun _ h => h))
  cases o <;> first | exact ho.elim | trivial

theorem stepsK_of_steps {s s' : Sys} (h : Steps st s s') : StepsK (fun _ => True) st s s' := by
  induction h with
  | refl => exact .refl _
  | tail _ ha ih =>
    obtain ⟨a, ha⟩ := ha
    exact .tail ih ha (fun _ _ => trivial)

/-- **C89** (folders): if the folder of a job exists while its process has not been started and no
pass of the job manager is under way, then the job is never launched again: not after a restart,
not with another configuration, whatever anybody does. -/
theorem C89_folder {s s' : Sys} (hr : Reachable st s) (hj : s.jm.ended = true) {id : Nat}
    (hf : (st, id) ∈ s.w.jobDirs) (hl : ¬ Launched s.w id) (h : Steps st s s') :
    ¬ Launched s'.w id := by
  have ho : ∀ p ∈ s.others, Allow OtherOp (fun _ => True) p := by
    intro p hp
    obtain ⟨c, -, hc⟩ := reachable_others hr p hp
    exact hc.mono (otherOp_writes c) (fun _ h => h)
  have h0 : SysAbides (LostFolder st id) (FolderOp id) s := by
    refine ⟨⟨hf, hl⟩, ?_, fun p hp => abides_of_allow ((ho p hp).mono (fun o ho => ?_) (fun _ h => h))⟩
    · cases hp : s.jm with
      | pure a => trivial
      | raise e => trivial
      | op o k => rw [hp] at hj; exact absurd hj (by simp [Prog.ended])
    · cases o <;> first | exact ho.elim | trivial
  exact (sysAbides_steps (K := fun _ => True) lostFolder_exec
    (fun e w hw => by
      obtain ⟨-, -, -, -, e5, e6⟩ := e.apply_eq w
      simpa only [LostFolder, Launched, e5, e6] using hw)
    abides_folder_pass (fun c _ => abides_folder_cmd c) h0 (stepsK_of_steps h)).inv.2

/-! ## A left-over reservation -/

/-- The pipeline is reserved for a job that has a folder and no process, and whose row has never
been touched by a process. -/
structure LostPip (st : String) (id : Nat) (n : String) (w : World) : Prop where
  folder : LostFolder st id w
  row : ∃ r ∈ w.pips, r.name = n
  pip : ∀ r ∈ w.pips, r.name = n → r.jobid = some id
  job : ∀ j ∈ w.jobs, j.id = id → j.pid = none ∧ j.launchedAt = none ∧ j.connectedAt = none

/-- Operations that leave the pipeline and the job as they are. -/
def PipOp (id : Nat) (n : String) : Op → Prop
  | .popenJob i m => i ≠ id ∧ m ≠ n
  | .updatePip m ps => m = n → ∀ r : PipState, (applyPip r ps).jobid = r.jobid
  | .updateJob i ps => i = id → ∀ j : Job, j.pid = none ∧ j.launchedAt = none ∧ j.connectedAt = none →
      (applyJob j ps).pid = none ∧ (applyJob j ps).launchedAt = none ∧
        (applyJob j ps).connectedAt = none
  | .insertJob j => j.pid = none ∧ j.launchedAt = none ∧ j.connectedAt = none
  | _ => True

theorem pipOp_quiet (id : Nat) (n : String) : ∀ o, QuietOp o → PipOp id n o := by
  intro o ho
  cases o <;> first | exact ho.elim | trivial

theorem pipOp_status {id : Nat} {n : String} (i : Nat) (ps : List JobParam)
    (h : ∀ j : Job, ((applyJob j ps).pid = j.pid ∨ (applyJob j ps).pid = none) ∧
      (applyJob j ps).launchedAt = j.launchedAt ∧ (applyJob j ps).connectedAt = j.connectedAt) :
    PipOp id n (.updateJob i ps) := by
  rintro - j ⟨h1, h2, h3⟩
  obtain ⟨e1, e2, e3⟩ := h j
  refine ⟨?_, e2.trans h2, e3.trans h3⟩
  rcases e1 with e | e
  · exact e.trans h1
  · exact e

theorem lostPip_exec {id : Nat} {n : String} (o : Op) (w : World) (h : LostPip st id n w)
    (ho : PipOp id n o) : LostPip st id n (exec o w).2 := by
  have hf : LostFolder st id (exec o w).2 := by
    refine lostFolder_exec o w h.folder ?_
    cases o <;> first | trivial | exact ho.1
  refine ⟨hf, ?_, ?_, ?_⟩
  · obtain ⟨r, hr, hn⟩ := h.row
    rcases exec_pips o w with e | ⟨p, rfl, e⟩ | ⟨m, ps, rfl, e⟩ <;> rw [e]
    · exact ⟨r, hr, hn⟩
    · exact ⟨r, List.mem_append_left _ hr, hn⟩
    · have : n ∈ (updPips m ps w.pips).map (·.name) := by
        rw [updPips_names]; exact hn ▸ List.mem_map_of_mem hr
      obtain ⟨r', hr', hn'⟩ := List.mem_map.mp this
      exact ⟨r', hr', hn'⟩
  · intro r hr hn
    rcases exec_pips o w with e | ⟨p, rfl, e⟩ | ⟨m, ps, rfl, e⟩
    · rw [e] at hr; exact h.pip r hr hn
    · by_cases hex : (w.pip? p.name).isSome = true
      · simp only [exec, hex, if_true] at hr; exact h.pip r hr hn
      · rw [e] at hr
        rcases List.mem_append.mp hr with hr | hr
        · exact h.pip r hr hn
        · rw [List.mem_singleton.mp hr] at hn
          obtain ⟨r0, hr0, hn0⟩ := h.row
          exfalso; apply hex
          unfold World.pip?
          rw [List.find?_isSome]
          exact ⟨r0, hr0, by simp [hn0, hn]⟩
    · rw [e] at hr
      obtain ⟨r0, hr0, rfl⟩ := List.mem_map.mp hr
      split at hn
      · next hm =>
        rw [if_pos hm]
        have hn0 : r0.name = n := by rw [applyPip_name] at hn; exact hn
        rw [ho (hm.symm.trans hn0) r0]
        exact h.pip r0 hr0 hn0
      · next hm => rw [if_neg hm]; exact h.pip r0 hr0 hn
  · intro j hj hid
    rcases exec_jobs o w with e | ⟨j0, rfl, e⟩ | ⟨i, ps, rfl, e⟩
    · rw [e] at hj; exact h.job j hj hid
    · rw [e] at hj
      rcases List.mem_append.mp hj with hj | hj
      · exact h.job j hj hid
      · rw [List.mem_singleton.mp hj]; exact ho
    · rw [e] at hj
      obtain ⟨j0, hj0, rfl⟩ := List.mem_map.mp hj
      split at hid
      · next hi =>
        rw [if_pos hi]
        have hid0 : j0.id = id := by rw [applyJob_id] at hid; exact hid
        exact ho (hi.symm.trans hid0) j0 (h.job j0 hj0 hid0)
      · next hi => rw [if_neg hi]; exact h.job j0 hj0 hid

theorem abides_lost_getJobId {id : Nat} {n : String} (i : Nat) :
    Abides (LostPip st id n) (PipOp id n) (fun j => j.id = i ∧ (i = id →
      j.pid = none ∧ j.launchedAt = none ∧ j.connectedAt = none)) (getJobId i) := by
  refine ⟨trivial, fun w hw => ?_⟩
  simp only [exec]
  show Abides _ _ _ (Prog.bind (Prog.pure (w.job? i)) _)
  simp only [Prog.pure_bind]
  cases h : w.job? i with
  | none => trivial
  | some j =>
    refine ⟨(job?_some h).1, fun hi => hw.job j (job?_some h).2 ?_⟩
    rw [(job?_some h).1, hi]

theorem abides_lost_pass {id : Nat} {n : String} (d : Daemon) (hd : d.settings.storage = st) :
    Abides (LostPip st id n) (PipOp id n) (fun _ => True) (jobManagerPass d) := by
  have hq := pipOp_quiet id n
  unfold jobManagerPass
  refine abides_bind (abides_of_only (only_manageRunning hq (fun _ => trivial)
    (fun _ _ _ => trivial) (fun i _ _ _ =>
      pipOp_status i _ (fun j => ⟨.inr rfl, rfl, rfl⟩)))) (fun _ _ => ?_)
  refine abides_bind (abides_of_only (only_checkQueued hq (fun i =>
      pipOp_status i _ (fun j => ⟨.inl rfl, rfl, rfl⟩)) _)) (fun m _ => ?_)
  unfold actionQueued
  refine abides_bind (Q := fun free => ∀ r ∈ free, r.name ≠ n) ?_ (fun free hfree => ?_)
  · refine ⟨trivial, fun w hw => ?_⟩
    simp only [exec]
    intro r hr hn
    obtain ⟨h1, h2⟩ := List.mem_filter.mp hr
    rw [hw.pip r h1 hn] at h2
    cases h2
  have hav : Dict.get? (Dict.ofList (free.map (fun p => (p.name, p)))) n = none := by
    rw [Dict.get?_ofList, Option.map_eq_none_iff, List.find?_eq_none]
    intro kv hkv
    obtain ⟨r, hr, rfl⟩ := List.mem_map.mp (List.mem_reverse.mp hkv)
    simpa using hfree r hr
  generalize sortIds (Dict.keys m) = ids
  generalize Dict.ofList (free.map (fun p => (p.name, p))) = avail at hav
  induction ids generalizing avail with
  | nil => trivial
  | cons i ids ih =>
    unfold actionLoop
    refine abides_bind (abides_of_allow (allow_getJobId hq i)) (fun job hjob => ?_)
    cases h : Dict.get? m i with
    | none => trivial
    | some ns =>
      refine abides_bind (Q := fun av => Dict.get? av n = none) ?_ (fun av hv => ih av hv)
      clear h
      induction ns with
      | nil => exact hav
      | cons pn ns ih2 =>
        unfold assignJob
        split
        · exact ih2
        · next ps hps =>
          have hpn : pn ≠ n := by
            rintro rfl
            rw [hav] at hps; cases hps
          split
          · exact ih2
          · refine ⟨trivial, fun w hw => ?_⟩
            by_cases hex : (d.settings.storage, i) ∈ w.jobDirs
            · simp only [exec, hex, if_true]
              trivial
            · have hi : i ≠ id := by
                rintro rfl
                exact hex (hd ▸ hw.folder.1)
              simp only [exec, hex, if_false]
              show Abides _ _ _ (Prog.bind (Prog.pure ()) _)
              simp only [Prog.pure_bind]
              split
              · trivial
              · refine abides_bind (abides_of_only (only_updatePip hq _ _
                  (fun e => absurd e hpn))) (fun _ _ => ?_)
                refine abides_bind (abides_of_only ((Do.only_popenJob _ _).mpr
                  ⟨by rw [hjob]; exact hi, hpn⟩)) (fun _ _ => ?_)
                refine abides_bind (abides_of_only (Do.only_now.mpr trivial)) (fun t _ => ?_)
                refine abides_bind (abides_of_only (only_updateJobId hq _ _
                  (fun e => absurd e hi))) (fun _ _ => ?_)
                show Dict.get? (Dict.erase avail pn) n = none
                rw [Dict.get?_erase, if_neg (Ne.symm hpn)]
                exact hav

theorem abides_lost_cmd {id : Nat} {n : String} (c : Cmd)
    (hc : ∀ l, c.launch = some l → l.jobid ≠ id ∧ l.pip ≠ n) :
    Abides (LostPip st id n) (PipOp id n) (fun _ => True) c.prog := by
  have hgen : (∀ o, c.writes o → PipOp id n o) →
      Abides (LostPip st id n) (PipOp id n) (fun _ => True) c.prog := by
    intro h
    refine abides_of_allow (c.allow_ops.mono ?_ (fun _ h => h))
    rintro o (ho | ho)
    · exact pipOp_quiet _ _ o ho
    · exact h o ho
  cases c with
  | pipPass d =>
    show Abides _ _ _ (pipManagerPass d)
    unfold pipManagerPass
    refine abides_bind (Q := fun l => ∀ r ∈ l, r.name = n → r.jobid = some id) ?_ (fun l hl => ?_)
    · refine ⟨trivial, fun w hw => ?_⟩
      simp only [exec]
      intro r hr hn
      exact hw.pip r (List.mem_filter.mp hr).1 hn
    · refine abides_forEach fun r hr => ?_
      cases hi : r.jobid with
      | none => trivial
      | some i =>
        simp only
        by_cases hn : r.name = n
        · have : i = id := by
            have := hl r hr hn
            rw [hi] at this; exact Option.some.inj this
          subst this
          unfold managePip
          refine abides_bind (abides_lost_getJobId i) (fun j hj => ?_)
          obtain ⟨h1, h2, h3⟩ := hj.2 rfl
          rw [h1, h2, h3]
          trivial
        · have hreset : Abides (LostPip st id n) (PipOp id n) (fun _ => True)
              (resetPipeline d r) := by
            unfold resetPipeline
            split
            · trivial
            · refine abides_bind (abides_of_only (only_resetComponents (pipOp_quiet id n) _ _))
                (fun _ _ => ?_)
              exact abides_bind (abides_of_only (only_updatePip (pipOp_quiet id n) _ _
                (fun e => absurd e hn))) (fun _ _ => trivial)
          unfold managePip
          refine abides_bind (abides_lost_getJobId i) (fun j _ => ?_)
          split
          · split
            · exact hreset
            · split
              · refine abides_bind (abides_of_only (Do.only_now.mpr trivial)) (fun t _ => ?_)
                split
                · exact hreset
                · trivial
              · trivial
          · refine abides_bind (abides_of_only ((Do.only_pidExists _).mpr trivial)) (fun b _ => ?_)
            split
            · refine abides_bind (abides_of_only ((Do.only_notZombie _).mpr trivial)) (fun b _ => ?_)
              split
              · trivial
              · exact hreset
            · exact hreset
  | tomatoJob j i pl pip path m hm =>
    obtain ⟨h1, h2⟩ := hc _ rfl
    refine hgen (fun o ho => ?_)
    cases o <;> first | exact ho.elim | trivial | skip
    · rintro rfl; exact absurd ho.1.symm h1
    · rintro rfl; exact absurd ho.1.symm h2
  | submit f m d c =>
    refine hgen (fun o ho => ?_)
    cases o <;> first | exact ho.elim | trivial | skip
    simp only [Cmd.writes] at ho
    rw [ho]; exact ⟨rfl, rfl, rfl⟩
  | cancel ids =>
    refine hgen (fun o ho => ?_)
    cases o <;> first | exact ho.elim | skip
    obtain ⟨_, rfl | rfl⟩ := ho <;> exact pipOp_status _ _ (fun _ => ⟨.inl rfl, rfl, rfl⟩)
  | load _ _ _ | eject _ _ | ready _ _ =>
    refine hgen (fun o ho => ?_)
    cases o <;> first | exact ho.elim | skip
    obtain ⟨-, rfl⟩ := ho
    exact fun _ _ => rfl
  | _ =>
    refine hgen (fun o ho => ?_)
    cases o <;> first | exact ho.elim | trivial

/-- Nobody who was launched for the job or the pipeline is still going to start. -/
def NoLate (id : Nat) (n : String) (s : Sys) : Prop :=
  ∀ l : Launch, l.jobid = id ∨ l.pip = n → s.w.launches.count l ≤ s.started.count l

theorem noLate_exec {id : Nat} {n : String} {w : World} {started : List Launch} {o : Op}
    (h : ∀ l : Launch, l.jobid = id ∨ l.pip = n → w.launches.count l ≤ started.count l)
    (ho : PipOp id n o) :
    ∀ l : Launch, l.jobid = id ∨ l.pip = n → (exec o w).2.launches.count l ≤ started.count l := by
  intro l hl
  rcases exec_launches o w with e | ⟨i, m, rfl, e⟩ <;> rw [e]
  · exact h l hl
  · rw [List.count_append, List.count_singleton]
    have : (⟨i, m⟩ : Launch) ≠ l := by
      rintro rfl
      rcases hl with hl | hl
      · exact ho.1 hl
      · exact ho.2 hl
    simp only [beq_iff_eq, this, if_false]
    exact h l hl

theorem lost_step {id : Nat} {n : String} {s s' : Sys}
    (h0 : SysAbides (LostPip st id n) (PipOp id n) s) (hn : NoLate id n s) (h : Step st s s') :
    SysAbides (LostPip st id n) (PipOp id n) s' ∧ NoLate id n s' := by
  obtain ⟨a, ha⟩ := h
  have hK : ∀ c, a = .spawn c → ∀ l, c.launch = some l → l.jobid ≠ id ∧ l.pip ≠ n := by
    rintro c rfl l hl
    simp only [act, hl] at ha
    split at ha
    · next hlt =>
      refine ⟨fun e => ?_, fun e => ?_⟩
      · have := hn l (.inl e); omega
      · have := hn l (.inr e); omega
    · cases ha
  refine ⟨sysAbides_step (K := fun c => ∀ l, c.launch = some l → l.jobid ≠ id ∧ l.pip ≠ n)
    lostPip_exec (fun e w hw => ?_) abides_lost_pass (fun c hc => abides_lost_cmd c hc) h0 ha hK, ?_⟩
  · obtain ⟨e1, -, e3, -, e5, e6⟩ := e.apply_eq w
    refine ⟨?_, ?_, ?_, ?_⟩
    · simpa only [LostFolder, Launched, e5, e6] using hw.folder
    · simpa only [e3] using hw.row
    · simpa only [e3] using hw.pip
    · simpa only [e1] using hw.job
  · cases a with
    | jmStart d =>
      simp only [act] at ha
      split at ha <;> cases ha; exact hn
    | jmStep =>
      simp only [act] at ha
      split at ha
      · next p w hp =>
        unfold stepProg at hp
        split at hp
        · next o k hk =>
          cases hp; cases ha
          have := h0.jm
          rw [hk] at this
          exact noLate_exec hn this.1
        · cases hp
      · cases ha
    | jmKill => cases ha; exact hn
    | spawn c =>
      simp only [act] at ha
      split at ha
      · cases ha; exact hn
      · split at ha
        · cases ha
          intro l hl
          have := hn l hl
          simp only [List.count_append]
          omega
        · cases ha
    | step i =>
      simp only [act] at ha
      split at ha
      · cases ha
      · next p hp =>
        split at ha
        · next p' w hs =>
          unfold stepProg at hs
          split at hs
          · next o k =>
            cases hs; cases ha
            exact noLate_exec hn (h0.others _ (List.mem_of_getElem? hp)).1
          · cases hs
        · cases ha
    | kill i => cases ha; exact hn
    | env e =>
      cases ha
      intro l hl
      rw [(e.apply_eq s.w).2.2.2.2.2]
      exact hn l hl

/-- **C89** (pipelines): suppose everything is down (for example after a power failure), a pipeline
is reserved for a job that has its folder but no process, and all job processes started for the
pipeline have executed.  Then in every continuation -- with any restarts, commands, cancellations --
the pipeline stays reserved for this job and the job is never launched. -/
theorem C89_pipeline {s s' : Sys} (hj : s.jm.ended = true)
    (hothers : ∀ p ∈ s.others, p.ended = true) {id : Nat} {n : String}
    (hstart : ∀ l ∈ s.w.launches, l.pip = n → s.w.launches.count l ≤ s.started.count l)
    (hf : (st, id) ∈ s.w.jobDirs) (hl : ¬ Launched s.w id)
    (hrow : ∃ r ∈ s.w.pips, r.name = n) (hpip : ∀ r ∈ s.w.pips, r.name = n → r.jobid = some id)
    (hjob : ∀ j ∈ s.w.jobs, j.id = id → j.pid = none ∧ j.launchedAt = none ∧ j.connectedAt = none)
    (h : Steps st s s') :
    (∃ r ∈ s'.w.pips, r.name = n) ∧ (∀ r ∈ s'.w.pips, r.name = n → r.jobid = some id) ∧
      ¬ Launched s'.w id := by
  have key : SysAbides (LostPip st id n) (PipOp id n) s' ∧ NoLate id n s' := by
    induction h with
    | refl =>
      refine ⟨⟨⟨⟨hf, hl⟩, hrow, hpip, hjob⟩, ?_, fun p hp => ?_⟩, fun l hl' => ?_⟩
      · cases hp : s.jm with
        | pure a => trivial
        | raise e => trivial
        | op o k => rw [hp] at hj; exact absurd hj (by simp [Prog.ended])
      · have := hothers p hp
        cases p with
        | pure a => trivial
        | raise e => trivial
        | op o k => exact absurd this (by simp [Prog.ended])
      · by_cases hmem : l ∈ s.w.launches
        · rcases hl' with h | h
          · exact absurd ⟨l, hmem, h⟩ hl
          · exact hstart l hmem h
        · rw [List.count_eq_zero.mpr hmem]; exact Nat.zero_le _
    | tail _ hst ih => exact lost_step ih.1 ih.2 hst
  exact ⟨key.1.inv.row, key.1.inv.pip, key.1.inv.folder.2⟩

/-! ## The claim is false -/

/-- The job manager is killed right after it has made the folder of job 1. -/
def sKillDir : Sys := after ([.jmStart dRun] ++ jm 15 ++ [.jmKill]) sSetup

/-- The job manager is killed right after it has reserved the pipeline for job 1. -/
def sKillPip : Sys := after ([.jmStart dRun] ++ jm 16 ++ [.jmKill]) sSetup

theorem sKillDir_reachable : Reachable "Jobs" sKillDir :=
  Steps.trans sSetup_reachable (steps_after (by decide +kernel))

theorem sKillPip_reachable : Reachable "Jobs" sKillPip :=
  Steps.trans sSetup_reachable (steps_after (by decide +kernel))

/-- **C89 is false of the code** (folders): the manager is killed right after `os.makedirs`, while
the pipeline is still free, ready and holds the sample of the job.  The job is queued and matched,
but in no continuation is it ever launched. -/
theorem C89_refuted_folder : ∃ s : Sys, Reachable "Jobs" s ∧ s.jm.ended = true ∧
    statusOf s 1 = some .qw ∧ (s.w.job? 1).map (·.payload.sample) = some "s" ∧
    s.w.pip? "p" = some { name := "p", ready := true, jobid := none, sampleid := some "s" } ∧
    ∀ s', Steps "Jobs" s s' → ¬ Launched s'.w 1 := by
  refine ⟨sKillDir, sKillDir_reachable, rfl, rfl, rfl, rfl, fun s' h => ?_⟩
  refine C89_folder sKillDir_reachable rfl ?_ ?_ h
  · decide +kernel
  · rintro ⟨l, hl, -⟩
    have : sKillDir.w.launches = [] := rfl
    rw [this] at hl; cases hl

/-- **C89 is false of the code** (pipelines): the manager is killed right after it has reserved the
pipeline.  In no continuation is the pipeline ever given back, and the job it is reserved for is
never launched, even if it is cancelled and the daemon restarted. -/
theorem C89_refuted_pipeline : ∃ s : Sys, Reachable "Jobs" s ∧
    (∃ r ∈ s.w.pips, r.name = "p" ∧ r.jobid = some 1) ∧ s.w.launches = [] ∧
    ∀ s', Steps "Jobs" s s' →
      (∃ r ∈ s'.w.pips, r.name = "p") ∧ (∀ r ∈ s'.w.pips, r.name = "p" → r.jobid = some 1) ∧
        ¬ Launched s'.w 1 := by
  have hl : sKillPip.w.launches = [] := rfl
  refine ⟨sKillPip, sKillPip_reachable, by decide +kernel, hl, fun s' h => ?_⟩
  refine C89_pipeline (s := sKillPip) rfl ?_ ?_ ?_ ?_ ?_ ?_ ?_ h
  · have : (sKillPip.others.all (·.ended)) = true := rfl
    exact fun p hp => List.all_eq_true.mp this p hp
  · rw [hl]; intro l hm; cases hm
  · decide +kernel
  · rintro ⟨l, hm, -⟩
    rw [hl] at hm; cases hm
  · decide +kernel
  · decide +kernel
  · decide +kernel

/-! ## A kill outside the window -/

/-- No pass of the manager is started and it is not killed. -/
def Act.plain : Act → Bool
  | .jmStart _ | .jmKill => false
  | _ => true

theorem stepsWhole_acts {s0 s s' : Sys} {as : List Act} (h0 : StepsWhole st s0 s)
    (hp : as.all Act.plain = true) (h : acts st s as = some s') : StepsWhole st s0 s' := by
  induction as generalizing s with
  | nil => cases h; exact h0
  | cons a as ih =>
    simp only [List.all_cons, Bool.and_eq_true] at hp
    simp only [acts] at h
    split at h
    · next s1 h1 =>
      refine ih (.tail h0 h1 ?_ ?_) hp.2 h
      · rintro rfl; exact absurd hp.1 (by simp [Act.plain])
      · rintro d rfl; exact absurd hp.1 (by simp [Act.plain])
    · cases h

/-- The manager is killed in the middle of a pass; `C89_partial` then applies to job 1. -/
example : ∃ s, StepsWhole "Jobs" Sys.init s ∧ s.jm.ended = true ∧ s.w.launches = [] ∧
    s.w.jobs.map (·.id) = [1] := by
  have h1 : StepsWhole "Jobs" Sys.init sSetup := stepsWhole_acts (.refl _) (by decide +kernel) setup_ok
  have h2 : act "Jobs" sSetup (.jmStart dRun) = some { sSetup with jm := jobManagerPass dRun } := rfl
  have h3 := StepsWhole.tail h1 h2 (fun h => by cases h) (fun d h => by
    cases h; exact ⟨rfl, by decide⟩)
  have h4 : (acts "Jobs" { sSetup with jm := jobManagerPass dRun } (jm 10)).isSome = true := by
    decide +kernel
  obtain ⟨s, hs⟩ := Option.isSome_iff_exists.mp h4
  have h5 := stepsWhole_acts h3 (by decide) hs
  have hc : ∀ id, ¬ Commits id s.jm := by
    cases hs
    intro id h
    exact h
  refine ⟨_, StepsWhole.tail (a := .jmKill) h5 rfl (fun _ => hc) (fun d h => by cases h), rfl, ?_, ?_⟩
  · cases hs; rfl
  · cases hs; rfl

/-- In the window the manager commits itself to launch the job. -/
example : Commits 1 (after ([.jmStart dRun] ++ jm 15) sSetup).jm ∧
    Commits 1 (after ([.jmStart dRun] ++ jm 16) sSetup).jm ∧
    ¬ Commits 1 (after ([.jmStart dRun] ++ jm 14) sSetup).jm := by
  refine ⟨fun w w' => rfl, fun w => rfl, fun h => h⟩

/-! ## Settings without a section for repositories (C90) -/

/-- Executions in which the job manager is never killed and all configurations are complete. -/
inductive StepsComplete (st : String) : Sys → Sys → Prop
  | refl (s : Sys) : StepsComplete st s s
  | tail {s s' s'' : Sys} {a : Act} : StepsComplete st s s' → act st s' a = some s'' →
      a ≠ .jmKill → (∀ d, a = .jmStart d → Complete d) → StepsComplete st s s''

theorem StepsComplete.whole {s s' : Sys} (h : StepsComplete st s s') : StepsWhole st s s' := by
  induction h with
  | refl => exact .refl _
  | tail _ ha hk hd ih => exact .tail ih ha (fun e => absurd e hk) hd

/-- **C90** (part): with complete configurations, no pass of the job manager gives up in the middle
of a launch: when a pass has ended, normally or with an exception, every folder belongs to a job
whose process has been started, and so does every reservation. -/
theorem C90_partial {s : Sys} (h : StepsComplete st Sys.init s) (hj : s.jm.ended = true) {id : Nat}
    (hid : (st, id) ∈ s.w.jobDirs ∨ ∃ r ∈ s.w.pips, r.jobid = some id) : Launched s.w id := by
  by_cases hl : Launched s.w id
  · exact hl
  · obtain ⟨h1, h2⟩ := C89_partial h.whole hj hl
    rcases hid with h | ⟨r, hr, hi⟩
    · exact absurd h h1
    · exact absurd hi (h2 r hr)

/-- The settings of an older version: there is no section `[repositories]`. -/
def dOld : Daemon := { dRun with settings := { repositories := none } }

/-- One pass with the old settings. -/
def sOld : Sys := after ([.jmStart dOld] ++ jm 15) sSetup

/-- **C90 is false of the code**: settings without a section `[repositories]` (as written by earlier
versions) are accepted, the payload of the job does not mention any repository, and the pipeline is
free and ready.  The pass dies with `KeyError` after making the folder; the job is never launched,
not even after the settings have been corrected. -/
theorem C90_refuted : ∃ s : Sys, Reachable "Jobs" s ∧ s.jm = .raise .keyError ∧
    (s.w.job? 1).map (fun j => (j.payload.repositories, j.status)) = some (["default"], .qw) ∧
    s.w.pip? "p" = some { name := "p", ready := true, jobid := none, sampleid := some "s" } ∧
    ∀ s', Steps "Jobs" s s' → ¬ Launched s'.w 1 := by
  have hr : Reachable "Jobs" sOld := Steps.trans sSetup_reachable (steps_after (by decide +kernel))
  refine ⟨sOld, hr, rfl, rfl, rfl, fun s' h => ?_⟩
  refine C89_folder hr rfl ?_ ?_ h
  · decide +kernel
  · rintro ⟨l, hl, -⟩
    have : sOld.w.launches = [] := rfl
    rw [this] at hl; cases hl

/-- A whole pass with complete settings: job 1 has its folder, its pipeline and its process. -/
example : ∃ s, StepsComplete "Jobs" Sys.init s ∧ s.jm.ended = true ∧ ("Jobs", 1) ∈ s.w.jobDirs ∧
    s.w.launches = [⟨1, "p"⟩] := by
  have lift : ∀ (as : List Act) (s0 s s' : Sys), StepsComplete "Jobs" s0 s → as.all Act.plain = true →
      acts "Jobs" s as = some s' → StepsComplete "Jobs" s0 s' := by
    intro as
    induction as with
    | nil => intro s0 s s' h _ ha; cases ha; exact h
    | cons a as ih =>
      intro s0 s s' h hp ha
      simp only [List.all_cons, Bool.and_eq_true] at hp
      simp only [acts] at ha
      split at ha
      · next s1 h1 =>
        refine ih s0 s1 s' (.tail h h1 ?_ ?_) hp.2 ha
        · rintro rfl; exact absurd hp.1 (by simp [Act.plain])
        · rintro d rfl; exact absurd hp.1 (by simp [Act.plain])
      · cases ha
  have h1 := lift _ _ _ _ (.refl Sys.init) (by decide +kernel) setup_ok
  have h2 : act "Jobs" sSetup (.jmStart dRun) = some { sSetup with jm := jobManagerPass dRun } := rfl
  have h3 := StepsComplete.tail h1 h2 (by intro h; cases h) (fun d h => by cases h; exact ⟨rfl, by decide⟩)
  have h4 : (acts "Jobs" { sSetup with jm := jobManagerPass dRun } (jm 21)).isSome = true := by
    decide +kernel
  obtain ⟨s, hs⟩ := Option.isSome_iff_exists.mp h4
  have h5 := lift _ _ _ _ h3 (by decide) hs
  refine ⟨s, h5, ?_, ?_, ?_⟩
  · cases hs; rfl
  · cases hs; decide +kernel
  · cases hs; rfl

end Props

end Tomato
