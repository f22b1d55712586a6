import Verif.Props.Races
import Mathlib.Data.List.Nodup

/-!
# C131, C132, C133: the times recorded for a job

The columns `submitted_at`, `launched_at`, `connected_at` and `completed_at` of the queue
(db.py:82-85), written by `ketchup.submit` (ketchup 114-116), `action_queued` (job.py:312-314),
`tomato_job` (job.py:440-445, 491-492) and `manage_running` (job.py:204-208).
-/

namespace Tomato.Props.Times

/-! ## Specification -/

/-- A step after which the clock does not show an earlier time than before. -/
def StepUp (st : String) (s s' : Sys) : Prop := Step st s s' ∧ s.w.clock ≤ s'.w.clock

/-- Executions in which the clock never goes back. -/
inductive StepsUp (st : String) : Sys → Sys → Prop
  | refl (s : Sys) : StepsUp st s s
  | tail {s s' s'' : Sys} : StepsUp st s s' → StepUp st s' s'' → StepsUp st s s''

/-- `a` is not later than `b`, if both are known. -/
def NotLater (a b : Option Nat) : Prop := ∀ x y, a = some x → b = some y → x ≤ y

/-! ## The invariant -/

section
variable (up : Prop) (st : String)

/-- What is known about a row.  The facts about the clock are claimed if `up`. -/
structure Row (w : World) (j : Job) : Prop where
  sub : up → j.submittedAt ≤ w.clock
  lau : ∀ t, j.launchedAt = some t → (up → j.submittedAt ≤ t ∧ t ≤ w.clock) ∧
    (∃ l ∈ w.launches, l.jobid = j.id) ∧ (st, j.id) ∈ w.jobDirs
  con : ∀ t, j.connectedAt = some t → (up → j.submittedAt ≤ t ∧ t ≤ w.clock) ∧
    ∃ l ∈ w.launches, l.jobid = j.id
  com : ∀ t, j.completedAt = some t → ∃ c, j.connectedAt = some c ∧ (up → c ≤ t ∧ t ≤ w.clock)
  pid : j.pid.isSome → j.connectedAt.isSome
  run : j.status = .r ∨ j.status = .c ∨ j.status = .ce → j.connectedAt.isSome
  fin : j.status = .c ∨ j.status = .ce → j.completedAt.isSome
  busy : j.status = .r → j.completedAt = none

/-- What is known about the world. -/
structure Good (w : World) : Prop where
  wf : w.WF
  rows : ∀ j ∈ w.jobs, Row up st w j
  known : ∀ l ∈ w.launches, ∃ j ∈ w.jobs, j.id = l.jobid

/-- How a row may change. -/
structure Evo (j j' : Job) : Prop where
  id : j'.id = j.id
  sub : j'.submittedAt = j.submittedAt
  con : ∀ t, j.connectedAt = some t → j'.connectedAt = some t
  lau : ∀ t, j.launchedAt = some t → j'.launchedAt = some t
  com : j.completedAt.isSome → j'.completedAt.isSome

/-- What every step does. -/
structure Base (w w' : World) : Prop where
  good : Good up st w'
  clock : up → w.clock ≤ w'.clock
  lau : ∀ l ∈ w.launches, l ∈ w'.launches
  dirs : ∀ x ∈ w.jobDirs, x ∈ w'.jobDirs
  old : ∀ j ∈ w.jobs, ∃ j' ∈ w'.jobs, Evo j j'

/-- A column does not change in the rows of some jobs. -/
def Keep (f : Job → Option Nat) (P : Nat → Prop) (w w' : World) : Prop :=
  ∀ j ∈ w.jobs, P j.id → ∃ j' ∈ w'.jobs, j'.id = j.id ∧ f j' = f j

/-- Who writes what. -/
inductive Who where
  | jm
  | job (i : Nat)
  | other

/-- Only the process of a job writes its `connected_at`. -/
def Who.mayCon : Who → Nat → Prop
  | .job i, k => k = i
  | _, _ => False

/-- Only the job manager writes `launched_at`. -/
def Who.mayLau : Who → Nat → Prop
  | .jm, _ => True
  | _, _ => False

/-- New rows have no `connected_at`. -/
def Fresh (w w' : World) : Prop :=
  ∀ j' ∈ w'.jobs, (∃ j ∈ w.jobs, j.id = j'.id) ∨ j'.connectedAt = none

/-- What a program promises. -/
structure Guar (x : Who) (w w' : World) : Prop where
  base : Base up st w w'
  new : Fresh w w'
  con : Keep (·.connectedAt) (fun i => ¬ x.mayCon i) w w'
  lau : Keep (·.launchedAt) (fun i => ¬ x.mayLau i) w w'

/-- What a program relies on. -/
structure Rely (x : Who) (w w' : World) : Prop where
  base : Base up st w w'
  con : Keep (·.connectedAt) x.mayCon w w'
  lau : Keep (·.launchedAt) x.mayLau w w'

/-- A step that changes neither column. -/
structure Still (w w' : World) : Prop where
  base : Base up st w w'
  new : Fresh w w'
  con : Keep (·.connectedAt) (fun _ => True) w w'
  lau : Keep (·.launchedAt) (fun _ => True) w w'

end

variable {up : Prop} {st : String}

theorem Row.mono {w w' : World} {j : Job} (h : Row up st w j) (hc : up → w.clock ≤ w'.clock)
    (hl : ∀ l ∈ w.launches, l ∈ w'.launches) (hd : ∀ x ∈ w.jobDirs, x ∈ w'.jobDirs) :
    Row up st w' j where
  sub u := Nat.le_trans (h.sub u) (hc u)
  lau t ht := by
    obtain ⟨h1, ⟨l, h2, h3⟩, h4⟩ := h.lau t ht
    exact ⟨fun u => ⟨(h1 u).1, Nat.le_trans (h1 u).2 (hc u)⟩, ⟨l, hl l h2, h3⟩, hd _ h4⟩
  con t ht := by
    obtain ⟨h1, ⟨l, h2, h3⟩⟩ := h.con t ht
    exact ⟨fun u => ⟨(h1 u).1, Nat.le_trans (h1 u).2 (hc u)⟩, ⟨l, hl l h2, h3⟩⟩
  com t ht := by
    obtain ⟨c, h1, h2⟩ := h.com t ht
    exact ⟨c, h1, fun u => ⟨(h2 u).1, Nat.le_trans (h2 u).2 (hc u)⟩⟩
  pid := h.pid
  run := h.run
  fin := h.fin
  busy := h.busy

theorem Evo.refl (j : Job) : Evo j j := ⟨rfl, rfl, fun _ h => h, fun _ h => h, fun h => h⟩

theorem Evo.trans {a b c : Job} (h : Evo a b) (h' : Evo b c) : Evo a c :=
  ⟨h'.id.trans h.id, h'.sub.trans h.sub, fun t ht => h'.con t (h.con t ht),
    fun t ht => h'.lau t (h.lau t ht), fun hc => h'.com (h.com hc)⟩

theorem uniq {w : World} (h : w.WF) {j j' : Job} (hj : j ∈ w.jobs) (hj' : j' ∈ w.jobs)
    (hid : j.id = j'.id) : j = j' := by
  have h1 := h.job?_mem hj
  have h2 := h.job?_mem hj'
  rw [hid, h2] at h1
  exact (Option.some.inj h1).symm

theorem Base.trans {a b c : World} (h : Base up st a b) (h' : Base up st b c) : Base up st a c where
  good := h'.good
  clock u := Nat.le_trans (h.clock u) (h'.clock u)
  lau l hl := h'.lau l (h.lau l hl)
  dirs x hx := h'.dirs x (h.dirs x hx)
  old j hj := by
    obtain ⟨j1, h1, e1⟩ := h.old j hj
    obtain ⟨j2, h2, e2⟩ := h'.old j1 h1
    exact ⟨j2, h2, e1.trans e2⟩

theorem Keep.trans {f : Job → Option Nat} {P : Nat → Prop} {a b c : World} (h : Keep f P a b)
    (h' : Keep f P b c) : Keep f P a c := by
  intro j hj hP
  obtain ⟨j1, h1, e1, f1⟩ := h j hj hP
  obtain ⟨j2, h2, e2, f2⟩ := h' j1 h1 (e1 ▸ hP)
  exact ⟨j2, h2, e2.trans e1, f2.trans f1⟩

theorem Rely.trans {x : Who} {a b c : World} (h : Rely up st x a b) (h' : Rely up st x b c) :
    Rely up st x a c := ⟨h.base.trans h'.base, h.con.trans h'.con, h.lau.trans h'.lau⟩

theorem rely_trans (x : Who) (a b c : World) (h : Rely up st x a b) (h' : Rely up st x b c) :
    Rely up st x a c := h.trans h'

theorem Keep.sub {f : Job → Option Nat} {P P' : Nat → Prop} {a b : World} (h : Keep f P a b)
    (hP : ∀ i, P' i → P i) : Keep f P' a b := fun j hj h' => h j hj (hP _ h')

theorem Still.guar {w w' : World} (h : Still up st w w') (x : Who) : Guar up st x w w' :=
  ⟨h.base, h.new, h.con.sub fun _ _ => trivial, h.lau.sub fun _ _ => trivial⟩

theorem Still.rely {w w' : World} (h : Still up st w w') (x : Who) : Rely up st x w w' :=
  ⟨h.base, h.con.sub fun _ _ => trivial, h.lau.sub fun _ _ => trivial⟩

/-- What one program promises is what another one relies on. -/
theorem Guar.rely {x y : Who} {w w' : World} (h : Guar up st x w w')
    (hc : ∀ i, y.mayCon i → ¬ x.mayCon i) (hl : ∀ i, y.mayLau i → ¬ x.mayLau i) :
    Rely up st y w w' := ⟨h.base, h.con.sub hc, h.lau.sub hl⟩

/-- Nothing relevant changes. -/
theorem still_frame {w w' : World} (h : Good up st w) (hwf : w'.WF) (hj : w'.jobs = w.jobs)
    (hc : up → w.clock ≤ w'.clock) (hl : w'.launches = w.launches)
    (hd : ∀ x ∈ w.jobDirs, x ∈ w'.jobDirs) : Still up st w w' where
  base := {
    good := ⟨hwf, fun j hj' => (h.rows j (hj ▸ hj')).mono hc (fun l hl' => hl ▸ hl') hd, by
      rw [hl, hj]; exact h.known⟩
    clock := hc
    lau := fun l hl' => hl ▸ hl'
    dirs := hd
    old := fun j hj' => ⟨j, hj ▸ hj', Evo.refl j⟩ }
  new := fun j' hj' => .inl ⟨j', hj ▸ hj', rfl⟩
  con := fun j hj' _ => ⟨j, hj ▸ hj', rfl, rfl⟩
  lau := fun j hj' _ => ⟨j, hj ▸ hj', rfl, rfl⟩

theorem Still.refl {w : World} (h : Good up st w) : Still up st w w :=
  still_frame h h.wf rfl (fun _ => Nat.le_refl _) rfl (fun _ h => h)

/-- An operation that changes no time and no launch. -/
def Mild (up : Prop) (st : String) (o : Op) : Prop := ∀ w, Good up st w → Still up st w (exec o w).2

theorem exec_clock (o : Op) (w : World) : (exec o w).2.clock = w.clock := by
  cases o with
  | askDriver port c =>
    cases port with
    | none => rfl
    | some p => simp only [exec]; split <;> rfl
  | askDriverLpp port c => cases port <;> rfl
  | askDriverTimeout port c =>
    cases port with
    | none => rfl
    | some p => simp only [exec]; split <;> rfl
  | merge a b c =>
    simp only [exec]; split
    · rfl
    · split
      · rfl
      · split <;> rfl
  | idBySubmitted t => simp only [exec]; split <;> rfl
  | insertPip p => simp only [exec]; split <;> rfl
  | insertDrv p => simp only [exec]; split <;> rfl
  | makeJobDir s i => simp only [exec]; split <;> rfl
  | notZombie p => simp only [exec]; split <;> rfl
  | killChildren p => simp only [exec]; split <;> rfl
  | _ => rfl

/-- One row is changed. -/
theorem upd_base {w : World} (hg : Good up st w) (id : Nat) (ps : List JobParam)
    (h : ∀ j ∈ w.jobs, j.id = id → Row up st w (applyJob j ps) ∧ Evo j (applyJob j ps)) :
    Base up st w (exec (.updateJob id ps) w).2 where
  good := by
    refine ⟨exec_wf _ _ hg.wf, ?_, ?_⟩
    · intro j' hj'
      simp only [exec, List.mem_map] at hj'
      obtain ⟨j, hj, rfl⟩ := hj'
      refine Row.mono (w := w) ?_ (fun _ => Nat.le_refl _) (fun _ h => h) (fun _ h => h)
      split
      · next hid => exact (h j hj hid).1
      · exact hg.rows j hj
    · intro l hl
      obtain ⟨j, hj, hid⟩ := hg.known l hl
      refine ⟨_, List.mem_map_of_mem (f := fun j => if j.id = id then applyJob j ps else j) hj, ?_⟩
      split
      · rw [applyJob_id]; exact hid
      · exact hid
  clock _ := Nat.le_refl _
  lau _ h := h
  dirs _ h := h
  old j hj := by
    refine ⟨_, List.mem_map_of_mem (f := fun j => if j.id = id then applyJob j ps else j) hj, ?_⟩
    split
    · next hid => exact (h j hj hid).2
    · exact Evo.refl j

theorem upd_new (w : World) (id : Nat) (ps : List JobParam) :
    Fresh w (exec (.updateJob id ps) w).2 := by
  intro j' hj'
  simp only [exec, List.mem_map] at hj'
  obtain ⟨j, hj, rfl⟩ := hj'
  refine .inl ⟨j, hj, ?_⟩
  split
  · rw [applyJob_id]
  · rfl

theorem upd_keep {f : Job → Option Nat} {P : Nat → Prop} (w : World) (id : Nat)
    (ps : List JobParam) (h : P id → ∀ j, f (applyJob j ps) = f j) :
    Keep f P w (exec (.updateJob id ps) w).2 := by
  intro j hj hP
  refine ⟨_, List.mem_map_of_mem (f := fun j => if j.id = id then applyJob j ps else j) hj, ?_⟩
  split
  · next hid => exact ⟨applyJob_id _ _, h (hid ▸ hP) j⟩
  · exact ⟨rfl, rfl⟩

/-- Operations that touch neither the queue nor launches. -/
def Plain : Op → Prop
  | .insertJob _ | .updateJob _ _ | .popenJob _ _ => False
  | _ => True

theorem mild_plain {o : Op} (ho : Plain o) : Mild up st o := by
  intro w h
  refine still_frame h (exec_wf _ _ h.wf) ?_ (fun _ => by rw [exec_clock]; exact Nat.le_refl _) ?_ ?_
  · rcases exec_jobs o w with h | ⟨_, rfl, _⟩ | ⟨_, _, rfl, _⟩
    · exact h
    · cases ho
    · cases ho
  · rcases exec_launches o w with h | ⟨_, _, rfl, _⟩
    · exact h
    · cases ho
  · intro x hx
    rcases exec_jobDirs o w with h | ⟨_, _, rfl, _, h⟩ <;> rw [h]
    · exact hx
    · exact List.mem_cons_of_mem _ hx

theorem mild_quiet {o : Op} (h : QuietOp o) : Mild up st o :=
  mild_plain (by cases o <;> trivial)

theorem mild_status {id : Nat} {s : JobStatus} (h1 : s ≠ .r) (h2 : s ≠ .c) (h3 : s ≠ .ce) :
    Mild up st (.updateJob id [.status s]) := by
  intro w hg
  refine ⟨upd_base hg _ _ ?_, upd_new _ _ _, upd_keep _ _ _ (fun _ _ => rfl),
    upd_keep _ _ _ (fun _ _ => rfl)⟩
  intro j hj _
  have h := hg.rows j hj
  refine ⟨⟨h.sub, h.lau, h.con, h.com, h.pid, ?_, ?_, ?_⟩, ⟨rfl, rfl, fun _ h => h, fun _ h => h, fun h => h⟩⟩
  · simp [JobParam.apply, h1, h2, h3]
  · simp [JobParam.apply, h2, h3]
  · simp [JobParam.apply, h1]

theorem mild_paths {id : Nat} {a b c : Option String} :
    Mild up st (.updateJob id [.respath a, .snappath b, .jobpath c]) := by
  intro w hg
  refine ⟨upd_base hg _ _ ?_, upd_new _ _ _, upd_keep _ _ _ (fun _ _ => rfl),
    upd_keep _ _ _ (fun _ _ => rfl)⟩
  intro j hj _
  have h := hg.rows j hj
  exact ⟨⟨h.sub, h.lau, h.con, h.com, h.pid, h.run, h.fin, h.busy⟩,
    ⟨rfl, rfl, fun _ h => h, fun _ h => h, fun h => h⟩⟩

/-- Mild programs, with what the program knows about the world. -/
theorem safe_mild {α : Type} {x : Who} {Q : α → Prop} {p : Prog DB α} {J : World → Prop}
    (hJ : ∀ w w', Rely up st x w w' → J w → J w') (hp : Allow (Mild up st) Q p) {w : World}
    (h0 : J w) :
    Prog.Safe (S := DB) exec (Rely up st x) (Guar up st x) (fun a w' => Q a ∧ J w') p w :=
  safe_keep hJ (fun _ _ w' ho hR hJ' => ⟨(ho w' hR.base.good).guar x,
    hJ _ _ ((ho w' hR.base.good).rely x) hJ'⟩) hp h0

/-- What a program knows for good. -/
theorem safe_frame {α : Type} {x : Who} {Q : α → World → Prop} {p : Prog DB α} {J : World → Prop}
    (hJ : ∀ w w', Base up st w w' → J w → J w') {w : World}
    (hp : Prog.Safe (S := DB) exec (Rely up st x) (Guar up st x) Q p w) (h0 : J w) :
    Prog.Safe (S := DB) exec (Rely up st x) (Guar up st x) (fun a w' => Q a w' ∧ J w') p w := by
  induction p generalizing w with
  | pure a => exact ⟨hp, h0⟩
  | raise e => trivial
  | op o k ih =>
    intro w' hR
    exact ⟨(hp w' hR).1, ih _ (hp w' hR).2 (hJ _ _ (hp w' hR).1.base (hJ _ _ hR.base h0))⟩

/-- `let t ← now()`: the clock at some moment from now on. -/
theorem safe_now {β : Type} {x : Who} {Q : β → World → Prop} {f : Nat → Prog DB β} {w : World}
    (h : ∀ w', Rely up st x w w' → Prog.Safe (S := DB) exec (Rely up st x) (Guar up st x) Q (f w'.clock) w') :
    Prog.Safe (S := DB) exec (Rely up st x) (Guar up st x) Q (Prog.bind Do.now f) w := by
  intro w' hR
  exact ⟨(Still.refl hR.base.good).guar x, h w' hR⟩

/-! ## What a program knows -/

/-- The job has connected. -/
def Conn (id : Nat) (w : World) : Prop := ∃ j ∈ w.jobs, j.id = id ∧ ∃ c, j.connectedAt = some c

/-- The job is in the queue. -/
def Here (id : Nat) (w : World) : Prop := ∃ j ∈ w.jobs, j.id = id

/-- The job connected not later than `t`. -/
def Due (id t : Nat) (w : World) : Prop :=
  (up → t ≤ w.clock) ∧ ∃ j ∈ w.jobs, j.id = id ∧ ∃ c, j.connectedAt = some c ∧ (up → c ≤ t)

/-- The job was submitted not later than `t`. -/
def Since (up : Prop) (id t : Nat) (w : World) : Prop :=
  (up → t ≤ w.clock) ∧ ∃ j ∈ w.jobs, j.id = id ∧ (up → j.submittedAt ≤ t)

theorem Conn.keep {id : Nat} {w w' : World} (h : Base up st w w') (hc : Conn id w) : Conn id w' := by
  obtain ⟨j, hj, hid, c, hc⟩ := hc
  obtain ⟨j', hj', e⟩ := h.old j hj
  exact ⟨j', hj', e.id.trans hid, c, e.con c hc⟩

theorem Here.keep {id : Nat} {w w' : World} (h : Base up st w w') (hc : Here id w) : Here id w' := by
  obtain ⟨j, hj, hid⟩ := hc
  obtain ⟨j', hj', e⟩ := h.old j hj
  exact ⟨j', hj', e.id.trans hid⟩

theorem Due.keep {id t : Nat} {w w' : World} (h : Base up st w w') (hc : Due (up := up) id t w) :
    Due (up := up) id t w' := by
  obtain ⟨h0, j, hj, hid, c, hc, hct⟩ := hc
  obtain ⟨j', hj', e⟩ := h.old j hj
  exact ⟨fun u => Nat.le_trans (h0 u) (h.clock u), j', hj', e.id.trans hid, c, e.con c hc, hct⟩

theorem Since.keep {id t : Nat} {w w' : World} (h : Base up st w w') (hc : Since up id t w) :
    Since up id t w' := by
  obtain ⟨h0, j, hj, hid, hct⟩ := hc
  obtain ⟨j', hj', e⟩ := h.old j hj
  exact ⟨fun u => Nat.le_trans (h0 u) (h.clock u), j', hj', e.id.trans hid,
    fun u => e.sub ▸ hct u⟩

theorem Conn.due {id : Nat} {w : World} (hg : Good up st w) (h : Conn id w) :
    Due (up := up) id w.clock w := by
  obtain ⟨j, hj, hid, c, hc⟩ := h
  exact ⟨fun _ => Nat.le_refl _, j, hj, hid, c, hc, fun u => (((hg.rows j hj).con c hc).1 u).2⟩

theorem Here.since {id : Nat} {w : World} (hg : Good up st w) (h : Here id w) :
    Since up id w.clock w := by
  obtain ⟨j, hj, hid⟩ := h
  exact ⟨fun _ => Nat.le_refl _, j, hj, hid, (hg.rows j hj).sub⟩

/-- Writing `completed_at`. -/
theorem still_finish {id t : Nat} {ps : List JobParam} {w : World} (hg : Good up st w)
    (hd : Due (up := up) id t w)
    (hps : ∀ j, (applyJob j ps).submittedAt = j.submittedAt ∧ (applyJob j ps).launchedAt = j.launchedAt ∧
      (applyJob j ps).connectedAt = j.connectedAt ∧ (applyJob j ps).completedAt = some t ∧
      ((applyJob j ps).pid.isSome → j.pid.isSome) ∧ (applyJob j ps).status ≠ .r) :
    Still up st w (exec (.updateJob id ps) w).2 := by
  refine ⟨upd_base hg _ _ ?_, upd_new _ _ _, upd_keep _ _ _ (fun _ j => (hps j).2.2.1),
    upd_keep _ _ _ (fun _ j => (hps j).2.1)⟩
  intro j hj hid
  obtain ⟨h0, j0, hj0, hid0, c, hc, hct⟩ := hd
  obtain rfl : j0 = j := uniq hg.wf hj0 hj (hid0.trans hid.symm)
  have h := hg.rows j0 hj
  obtain ⟨e1, e2, e3, e4, e5, e6⟩ := hps j0
  refine ⟨⟨?_, ?_, ?_, ?_, ?_, ?_, ?_, ?_⟩, ⟨applyJob_id _ _, e1, ?_, ?_, ?_⟩⟩
  · rw [e1]; exact h.sub
  · rw [e1, e2, applyJob_id]; exact h.lau
  · rw [e1, e3, applyJob_id]; exact h.con
  · rw [e4, e3]; rintro _ ⟨⟩; exact ⟨c, hc, fun u => ⟨hct u, h0 u⟩⟩
  · rw [e3]; exact fun hp => h.pid (e5 hp)
  · rw [e3, hc]; exact fun _ => rfl
  · rw [e4]; exact fun _ => rfl
  · exact fun h => absurd h e6
  · rw [e3]; exact fun _ h => h
  · rw [e2]; exact fun _ h => h
  · rw [e4]; exact fun _ => rfl

variable {x : Who}

/-- `getJobId` fails or finds the row. -/
theorem safe_getJobId {J : World → Prop} (hJ : ∀ w w', Rely up st x w w' → J w → J w') (id : Nat)
    {w : World} (h0 : J w) :
    Prog.Safe (S := DB) exec (Rely up st x) (Guar up st x)
      (fun j w' => (j.id = id ∧ Here id w') ∧ J w') (getJobId id) w := by
  unfold getJobId
  refine Prog.safe_bind (Q := fun o w' => (∀ j, o = some j → j.id = id ∧ Here id w') ∧ J w') ?_ ?_
  · refine Prog.safe_call (S := DB) (fun w' hR => (Still.refl hR.base.good).guar x) ?_
    intro w' hR a ha
    refine ⟨?_, hJ _ _ hR h0⟩
    intro j hj
    simp only [exec, Except.ok.injEq] at ha
    subst ha
    have := job?_some hj
    exact ⟨this.1, j, this.2, this.1⟩
  · rintro o w' ⟨h1, h2⟩
    cases o with
    | none => trivial
    | some j => exact ⟨h1 j rfl, h2⟩

/-- `update_job_id` with an operation that is fine in the worlds where `K` holds. -/
theorem safe_updateJobId {id : Nat} {ps : List JobParam} {K J : World → Prop}
    (hK : ∀ w w', Rely up st x w w' → K w → K w')
    (hJ : ∀ w w', Rely up st x w w' → J w → J w')
    (hop : ∀ w, Good up st w → K w → Guar up st x w (exec (.updateJob id ps) w).2 ∧
      J (exec (.updateJob id ps) w).2) {w : World} (h0 : K w) :
    Prog.Safe (S := DB) exec (Rely up st x) (Guar up st x)
      (fun j w' => (j.id = id ∧ Here id w') ∧ J w') (updateJobId id ps) w := by
  unfold updateJobId
  refine Prog.safe_bind (Q := fun _ w' => J w') ?_ (fun _ w' h => safe_getJobId hJ id h)
  refine Prog.safe_call (S := DB) (fun w' hR => (hop w' hR.base.good (hK _ _ hR h0)).1) ?_
  intro w' hR _ _
  exact (hop w' hR.base.good (hK _ _ hR h0)).2

/-! ## The job manager -/

theorem safe_finish (job : Job) (s : JobStatus) (hs : s ≠ .r) {w : World} (hw : Conn job.id w) :
    Prog.Safe (S := DB) exec (Rely up st x) (Guar up st x) (fun _ _ => True)
      (manageJob.finish job s) w := by
  unfold manageJob.finish
  refine safe_now (fun w1 hR => ?_)
  have hd : Due (up := up) job.id w1.clock w1 := (hw.keep hR.base).due hR.base.good
  refine Prog.safe_bind (safe_updateJobId (J := fun _ => True) (K := Due (up := up) job.id w1.clock)
    (fun _ _ h h' => h'.keep h.base) (fun _ _ _ h => h) ?_ hd) (fun _ _ _ => trivial)
  intro w2 hg hK
  refine ⟨(still_finish hg hK ?_).guar x, trivial⟩
  intro j
  exact ⟨rfl, rfl, rfl, rfl, (by intro h; cases h), hs⟩

theorem safe_decideJob (job : Job) (b : Bool) (pid : Option Nat) {w : World} (hw : Conn job.id w) :
    Prog.Safe (S := DB) exec (Rely up st x) (Guar up st x) (fun _ _ => True)
      (manageJob.decideJob job b pid) w := by
  have hJ : ∀ w w', Rely up st x w w' → Conn job.id w → Conn job.id w' := fun _ _ h h' => h'.keep h.base
  unfold manageJob.decideJob
  split
  · simp only
    split
    · refine Prog.safe_bind (safe_mild (Q := fun _ => True) hJ (allow_of_only
        ((Do.only_killChildren _).mpr (mild_plain trivial))) hw) ?_
      rintro _ w1 ⟨_, h1⟩
      refine Prog.safe_bind (safe_mild (Q := fun _ => True) hJ (allow_of_only
        ((Do.only_merge _ _ _).mpr (mild_plain trivial))) h1) ?_
      rintro _ w2 ⟨_, h2⟩
      exact safe_finish _ _ (by decide) h2
    · exact safe_finish _ _ (by decide) hw
  · split
    · exact safe_finish _ _ (by decide) hw
    · trivial

theorem safe_manageJob (job : Job) (hp : job.pid.isSome) {w : World} (hw : Conn job.id w) :
    Prog.Safe (S := DB) exec (Rely up st x) (Guar up st x) (fun _ _ => True) (manageJob job) w := by
  have hJ : ∀ w w', Rely up st x w w' → Conn job.id w → Conn job.id w' := fun _ _ h h' => h'.keep h.base
  unfold manageJob
  split
  · next h => rw [h] at hp; cases hp
  · refine Prog.safe_bind (safe_mild (Q := fun _ => True) hJ (allow_of_only
      ((Do.only_pidExists _).mpr (mild_plain trivial))) hw) ?_
    rintro b w1 ⟨_, h1⟩
    split
    · refine Prog.safe_bind (safe_mild (Q := fun _ => True) hJ (allow_of_only
        ((Do.only_notZombie _).mpr (mild_plain trivial))) h1) ?_
      rintro _ w2 ⟨_, h2⟩
      exact safe_decideJob _ _ _ h2
    · exact safe_decideJob _ _ _ h1

theorem safe_manageRunning (w : World) :
    Prog.Safe (S := DB) exec (Rely up st x) (Guar up st x) (fun _ _ => True) manageRunning w := by
  unfold manageRunning
  refine Prog.safe_bind (Q := fun l w' => ∀ job ∈ l, job.pid.isSome ∧ Conn job.id w') ?_ ?_
  · refine Prog.safe_call (S := DB) (fun w' hR => (Still.refl hR.base.good).guar x) ?_
    intro w' hR a ha job hjob
    simp only [exec, Except.ok.injEq] at ha
    subst ha
    obtain ⟨hm, hp⟩ := List.mem_filter.mp hjob
    obtain ⟨c, hc⟩ := Option.isSome_iff_exists.mp ((hR.base.good.rows job hm).pid hp)
    exact ⟨hp, job, hm, rfl, c, hc⟩
  · intro l
    induction l with
    | nil => intro w _; trivial
    | cons job l ih =>
      intro w hl
      have h1 := hl job (by simp)
      exact Prog.safe_bind (safe_frame (J := fun w' => ∀ job ∈ l, job.pid.isSome ∧ Conn job.id w')
        (fun w w' hb h job hjob => ⟨(h job hjob).1, (h job hjob).2.keep hb⟩)
        (safe_manageJob job h1.1 h1.2) (fun job hjob => hl job (by simp [hjob])))
        (fun _ w' h => ih w' h.2)

/-- `launched_at` is written once: the folder was made by this pass. -/
def Clean (id : Nat) (w : World) : Prop := ∃ j ∈ w.jobs, j.id = id ∧ j.launchedAt = none

theorem Clean.keep {id : Nat} {w w' : World} (h : Rely up st .jm w w') (hc : Clean id w) :
    Clean id w' := by
  obtain ⟨j, hj, hid, hn⟩ := hc
  obtain ⟨j', hj', hid', he⟩ := h.lau j hj trivial
  exact ⟨j', hj', hid'.trans hid, he.trans hn⟩

theorem Clean.here {id : Nat} {w : World} (h : Clean id w) : Here id w := by
  obtain ⟨j, hj, hid, -⟩ := h
  exact ⟨j, hj, hid⟩

/-- The job was launched. -/
def Sent (st : String) (id : Nat) (w : World) : Prop :=
  (∃ l ∈ w.launches, l.jobid = id) ∧ (st, id) ∈ w.jobDirs

theorem Sent.keep {id : Nat} {w w' : World} (h : Base up st w w') (hs : Sent st id w) :
    Sent st id w' := by
  obtain ⟨⟨l, hl, hli⟩, hd⟩ := hs
  exact ⟨⟨l, h.lau l hl, hli⟩, h.dirs _ hd⟩

/-- A launch of a job that exists. -/
theorem still_popen {id : Nat} {n : String} {w : World} (hg : Good up st w) (hh : Here id w) :
    Still up st w (exec (.popenJob id n) w).2 where
  base := {
    good := by
      refine ⟨exec_wf _ _ hg.wf, fun j hj => (hg.rows j hj).mono (fun _ => Nat.le_refl _)
        (fun l hl => List.mem_append_left _ hl) (fun _ h => h), ?_⟩
      intro l hl
      rcases List.mem_append.mp hl with hl | hl
      · exact hg.known l hl
      · rw [List.mem_singleton.mp hl]; exact hh
    clock := fun _ => Nat.le_refl _
    lau := fun l hl => List.mem_append_left _ hl
    dirs := fun _ h => h
    old := fun j hj => ⟨j, hj, Evo.refl j⟩ }
  new := fun j' hj' => .inl ⟨j', hj', rfl⟩
  con := fun j hj' _ => ⟨j, hj', rfl, rfl⟩
  lau := fun j hj' _ => ⟨j, hj', rfl, rfl⟩

/-- Writing `launched_at`. -/
theorem guar_launched {id t : Nat} {w : World} (hg : Good up st w) (hc : Clean id w)
    (hs : Since up id t w) (hse : Sent st id w) :
    Guar up st .jm w (exec (.updateJob id [.launchedAt (some t)]) w).2 := by
  refine ⟨upd_base hg _ _ ?_, upd_new _ _ _, upd_keep _ _ _ (fun _ j => rfl),
    upd_keep _ _ _ (fun h j => absurd trivial h)⟩
  intro j hj hid
  obtain ⟨j1, hj1, hid1, hn⟩ := hc
  obtain rfl : j1 = j := uniq hg.wf hj1 hj (hid1.trans hid.symm)
  obtain ⟨h0, j2, hj2, hid2, hsub⟩ := hs
  obtain rfl : j2 = j1 := uniq hg.wf hj2 hj (hid2.trans hid.symm)
  have h := hg.rows j2 hj
  refine ⟨⟨h.sub, ?_, h.con, h.com, h.pid, h.run, h.fin, h.busy⟩, ⟨rfl, rfl, fun _ h => h, ?_, fun h => h⟩⟩
  · rintro t' ⟨⟩
    refine ⟨fun u => ⟨hsub u, h0 u⟩, ?_⟩
    simp only [applyJob_id, hid]
    exact hse
  · intro t' ht'; rw [hn] at ht'; cases ht'

theorem safe_assignJob (d : Daemon) (hd : d.settings.storage = st) (jobid : Nat) (job : Job)
    (hid : job.id = jobid) (ns : List String) (avail : Dict String PipState) {w : World}
    (hw : Here jobid w) :
    Prog.Safe (S := DB) exec (Rely up st .jm) (Guar up st .jm) (fun _ _ => True)
      (assignJob d jobid job ns avail) w := by
  induction ns generalizing w with
  | nil => trivial
  | cons n ns ih =>
    unfold assignJob
    split
    · exact ih hw
    · split
      · exact ih hw
      · refine Prog.safe_bind (Q := fun _ w' => Clean jobid w' ∧ (st, jobid) ∈ w'.jobDirs) ?_ ?_
        · refine Prog.safe_call (S := DB)
            (fun w' hR => (mild_plain (o := .makeJobDir _ _) trivial w' hR.base.good).guar _) ?_
          intro w' hR a ha
          by_cases hex : (d.settings.storage, jobid) ∈ w'.jobDirs
          · simp only [exec, hex, if_true] at ha
            cases ha
          · obtain ⟨j, hj, hji⟩ := hw.keep hR.base
            have hn : j.launchedAt = none := by
              cases hl : j.launchedAt with
              | none => rfl
              | some t =>
                have := ((hR.base.good.rows j hj).lau t hl).2.2
                rw [hji, ← hd] at this
                exact absurd this hex
            simp only [exec, hex, if_false]
            exact ⟨⟨j, hj, hji, hn⟩, by rw [hd]; simp⟩
        · rintro _ w1 ⟨h1, hd1⟩
          split
          · trivial
          · have hJ : ∀ w w', Rely up st .jm w w' → (Clean jobid w ∧ (st, jobid) ∈ w.jobDirs) →
                (Clean jobid w' ∧ (st, jobid) ∈ w'.jobDirs) :=
              fun _ _ hR h => ⟨h.1.keep hR, hR.base.dirs _ h.2⟩
            refine Prog.safe_bind (safe_mild (Q := fun _ => True) hJ (allow_of_only
              (only_updatePip (fun _ h => mild_quiet h) _ _ (mild_plain trivial))) ⟨h1, hd1⟩) ?_
            rintro _ w2 ⟨_, h2⟩
            refine Prog.safe_bind (Q := fun _ w' => Clean jobid w' ∧ Sent st jobid w') ?_ ?_
            · refine Prog.safe_call (S := DB) (fun w' hR => ?_) (fun w' hR _ _ => ?_)
              · exact (still_popen hR.base.good (hid ▸ (hJ _ _ hR h2).1.here)).guar _
              · refine ⟨(hJ _ _ hR h2).1, ⟨_, List.mem_append_right _ (List.mem_singleton.mpr rfl), hid⟩,
                  (hJ _ _ hR h2).2⟩
            · rintro _ w3 ⟨h3, h3'⟩
              refine safe_now (fun w4 hR => ?_)
              refine Prog.safe_bind (safe_updateJobId (J := fun _ => True)
                (K := fun w => Clean jobid w ∧ Since up jobid w4.clock w ∧ Sent st jobid w)
                (fun _ _ h h' => ⟨h'.1.keep h, h'.2.1.keep h.base, h'.2.2.keep h.base⟩)
                (fun _ _ _ h => h) (fun w hg hK => ⟨guar_launched hg hK.1 hK.2.1 hK.2.2, trivial⟩)
                ⟨h3.keep hR, (h3.keep hR).here.since hR.base.good, h3'.keep hR.base⟩)
                (fun _ _ _ => trivial)

theorem safe_actionLoop (d : Daemon) (hd : d.settings.storage = st)
    (matched : Dict Nat (List String)) (ids : List Nat) (avail : Dict String PipState) (w : World) :
    Prog.Safe (S := DB) exec (Rely up st .jm) (Guar up st .jm) (fun _ _ => True)
      (actionLoop d matched ids avail) w := by
  induction ids generalizing avail w with
  | nil => trivial
  | cons id ids ih =>
    unfold actionLoop
    refine Prog.safe_bind (safe_getJobId (J := fun _ => True) (fun _ _ _ h => h) id trivial) ?_
    rintro job w1 ⟨⟨hid, hh⟩, -⟩
    split
    · trivial
    · exact Prog.safe_bind (safe_assignJob d hd id job hid _ avail hh) (fun avail' w2 _ => ih avail' w2)

theorem safe_pass (d : Daemon) (hd : d.settings.storage = st) (w : World) :
    Prog.Safe (S := DB) exec (Rely up st .jm) (Guar up st .jm) (fun _ _ => True) (jobManagerPass d) w := by
  unfold jobManagerPass
  refine Prog.safe_bind (safe_manageRunning w) (fun _ w1 _ => ?_)
  refine Prog.safe_bind (safe_mild (Q := fun _ => True) (J := fun _ => True) (fun _ _ _ h => h)
    (allow_of_only (only_checkQueued (fun _ h => mild_quiet h)
      (fun _ => mild_status (by decide) (by decide) (by decide)) d)) trivial) (fun m w2 _ => ?_)
  unfold actionQueued
  refine Prog.safe_bind (safe_mild (Q := fun _ => True) (J := fun _ => True) (fun _ _ _ h => h)
    (allow_of_only ((Do.only_pipsWhere _).mpr (mild_plain trivial))) trivial) (fun free w3 _ => ?_)
  exact safe_actionLoop d hd _ _ _ _

/-! ## The process of a job -/

/-- The job has not connected. -/
def Unconn (id : Nat) (w : World) : Prop := ∃ j ∈ w.jobs, j.id = id ∧ j.connectedAt = none

theorem Unconn.keep {id : Nat} {w w' : World} (h : Rely up st (.job id) w w') (hc : Unconn id w) :
    Unconn id w' := by
  obtain ⟨j, hj, hid, hn⟩ := hc
  obtain ⟨j', hj', hid', he⟩ := h.con j hj hid
  exact ⟨j', hj', hid'.trans hid, he.trans hn⟩

/-- Writing `connected_at`. -/
theorem guar_connected {id t pid : Nat} {w : World} (hg : Good up st w) (hc : Unconn id w)
    (hs : Since up id t w) (hl : ∃ l ∈ w.launches, l.jobid = id) :
    Guar up st (.job id) w
      (exec (.updateJob id [.pid (some pid), .status .r, .connectedAt (some t)]) w).2 := by
  refine ⟨upd_base hg _ _ ?_, upd_new _ _ _, upd_keep _ _ _ (fun h j => absurd rfl h),
    upd_keep _ _ _ (fun h j => rfl)⟩
  intro j hj hid
  obtain ⟨j1, hj1, hid1, hn⟩ := hc
  obtain rfl : j1 = j := uniq hg.wf hj1 hj (hid1.trans hid.symm)
  obtain ⟨h0, j2, hj2, hid2, hsub⟩ := hs
  obtain rfl : j2 = j1 := uniq hg.wf hj2 hj (hid2.trans hid.symm)
  have h := hg.rows j2 hj
  have hcom : j2.completedAt = none := by
    cases hx : j2.completedAt with
    | none => rfl
    | some y => obtain ⟨c, hc, -⟩ := h.com y hx; rw [hn] at hc; cases hc
  refine ⟨⟨h.sub, h.lau, ?_, ?_, fun _ => rfl, fun _ => rfl, ?_, fun _ => hcom⟩, ⟨rfl, rfl, ?_, fun _ h => h, fun h => h⟩⟩
  · rintro t' ⟨⟩
    refine ⟨fun u => ⟨hsub u, h0 u⟩, ?_⟩
    simp only [applyJob_id, hid]
    exact hl
  · intro y hy
    have : j2.completedAt = some y := hy
    rw [hcom] at this; cases this
  · rintro (h | h) <;> cases h
  · intro t' ht'; rw [hn] at ht'; cases ht'

theorem upd_conn {id t pid : Nat} {w : World} (h : Here id w) :
    Conn id (exec (.updateJob id [.pid (some pid), .status .r, .connectedAt (some t)]) w).2 := by
  obtain ⟨j, hj, hid⟩ := h
  refine ⟨_, List.mem_map_of_mem hj, ?_⟩
  rw [if_pos hid]
  exact ⟨hid, t, rfl⟩

theorem safe_tomatoJob (id pid : Nat) (pl : Payload) (pip path : String) (m : P (Option Nat))
    (hm : Prog.Only (S := DB) QuietOp m) {w : World} (hu : Unconn id w)
    (hl : ∃ l ∈ w.launches, l.jobid = id) :
    Prog.Safe (S := DB) exec (Rely up st (.job id)) (Guar up st (.job id)) (fun _ _ => True)
      (tomatoJob id pid pl pip path m) w := by
  have hJ : ∀ w w', Rely up st (.job id) w w' → Conn id w → Conn id w' := fun _ _ h h' => h'.keep h.base
  unfold tomatoJob
  refine Prog.safe_bind (Q := fun _ w' => Conn id w') ?_ ?_
  · unfold jobConnect
    refine safe_now (fun w1 hR => ?_)
    have hu1 := hu.keep hR
    have hh : Here id w1 := by obtain ⟨j, hj, hid, -⟩ := hu1; exact ⟨j, hj, hid⟩
    refine Prog.safe_bind (safe_updateJobId (J := Conn id)
      (K := fun w => Unconn id w ∧ Since up id w1.clock w ∧ ∃ l ∈ w.launches, l.jobid = id)
      (fun _ _ h h' => ⟨h'.1.keep h, h'.2.1.keep h.base, ?_⟩) hJ
      (fun w hg hK => ⟨guar_connected hg hK.1 hK.2.1 hK.2.2, upd_conn ?_⟩)
      ⟨hu1, hh.since hR.base.good, ?_⟩) (fun _ _ h => h.2)
    · obtain ⟨l, h1, h2⟩ := h'.2.2; exact ⟨l, h.base.lau l h1, h2⟩
    · obtain ⟨j, hj, hid, -⟩ := hK.1; exact ⟨j, hj, hid⟩
    · obtain ⟨l, h1, h2⟩ := hl; exact ⟨l, hR.base.lau l h1, h2⟩
  · intro _ w1 h1
    refine Prog.safe_bind (Q := fun job w' => job.id = id ∧ Conn id w') ?_ ?_
    · unfold jobPaths
      exact Prog.safe_mono (safe_mild hJ (allow_updateJobId (fun _ h => mild_quiet h) _ _ mild_paths) h1)
        (fun _ _ h => h)
    · rintro job w2 ⟨hid, h2⟩
      refine Prog.safe_bind (safe_mild (Q := fun _ => True) hJ
        (allow_of_only (hm.mono (fun _ h => mild_quiet h))) h2) ?_
      rintro ret w3 ⟨_, h3⟩
      unfold jobFinish
      refine safe_now (fun w4 hR => ?_)
      have hd : Due (up := up) id w4.clock w4 := (h3.keep hR.base).due hR.base.good
      simp only
      refine Prog.safe_bind (safe_mild (Q := fun _ => True) (J := Due (up := up) id w4.clock)
        (fun _ _ h h' => h'.keep h.base) (allow_of_only
        ((Do.only_merge _ _ _).mpr (mild_plain trivial))) hd) ?_
      rintro _ w5 ⟨_, h5⟩
      rw [hid]
      refine Prog.safe_bind (safe_updateJobId (J := fun _ => True) (K := Due (up := up) id w4.clock)
        (fun _ _ h h' => h'.keep h.base) (fun _ _ _ h => h) ?_ h5) (fun _ w6 _ => ?_)
      · intro w hg hK
        refine ⟨(still_finish hg hK ?_).guar _, trivial⟩
        intro j
        refine ⟨rfl, rfl, rfl, rfl, fun h => h, ?_⟩
        show (if ret.isNone then JobStatus.c else .ce) ≠ .r
        split <;> decide
      · refine Prog.safe_mono (safe_mild (Q := fun _ => True) (J := fun _ => True) (fun _ _ _ h => h) ?_
          trivial) (fun _ _ _ => trivial)
        exact allow_bind (allow_of_only (only_updatePip (fun _ h => mild_quiet h) _ _
          (mild_plain trivial))) (fun _ _ => trivial)

/-! ## The commands -/

theorem guar_insert {x : Who} {t : Nat} {n : Option String} {w : World} (hg : Good up st w) (pl : Payload)
    (ht : up → t ≤ w.clock) : Guar up st x w
      (exec (.insertJob { id := 0, payload := pl, jobname := n, submittedAt := t }) w).2 := by
  have hnew : ∀ j : Job, j ∈ (exec (.insertJob { id := 0, payload := pl, jobname := n, submittedAt := t }) w).2.jobs →
      j ∈ w.jobs ∨ j = { id := w.jobSeq + 1, payload := pl, jobname := n, submittedAt := t } := by
    intro j hj
    rcases List.mem_append.mp hj with h | h
    · exact .inl h
    · exact .inr (List.mem_singleton.mp h)
  refine ⟨⟨⟨exec_wf _ _ hg.wf, ?_, ?_⟩, fun _ => Nat.le_refl _, fun _ h => h, fun _ h => h, ?_⟩, ?_, ?_, ?_⟩
  · intro j hj
    refine Row.mono (w := w) ?_ (fun _ => Nat.le_refl _) (fun _ h => h) (fun _ h => h)
    rcases hnew j hj with h | rfl
    · exact hg.rows j h
    · refine ⟨ht, ?_, ?_, ?_, ?_, ?_, ?_, ?_⟩ <;> simp
  · intro l hl
    obtain ⟨j, hj, hid⟩ := hg.known l hl
    exact ⟨j, List.mem_append_left _ hj, hid⟩
  · exact fun j hj => ⟨j, List.mem_append_left _ hj, Evo.refl j⟩
  · intro j hj
    rcases hnew j hj with h | rfl
    · exact .inl ⟨j, h, rfl⟩
    · exact .inr rfl
  · exact fun j hj _ => ⟨j, List.mem_append_left _ hj, rfl, rfl⟩
  · exact fun j hj _ => ⟨j, List.mem_append_left _ hj, rfl, rfl⟩

theorem safe_submit (f : PayloadFile) (n : Option String) (d : Daemon) (c : String) (w : World) :
    Prog.Safe (S := DB) exec (Rely up st .other) (Guar up st .other) (fun _ _ => True)
      (submit f n d c) w := by
  unfold submit
  split
  · trivial
  · trivial
  · trivial
  · simp only
    split
    · trivial
    · trivial
    · refine safe_now (fun w1 hR => ?_)
      refine Prog.safe_bind (Q := fun _ _ => True) ?_ (fun _ _ _ => trivial)
      unfold insertJob
      refine Prog.safe_bind (Q := fun _ _ => True) ?_ (fun _ _ _ => ?_)
      · refine Prog.safe_call (S := DB) (fun w' hR' => ?_) (fun _ _ _ _ => trivial)
        exact guar_insert hR'.base.good _ hR'.base.clock
      · refine Prog.safe_mono (safe_mild (Q := fun _ => True) (J := fun _ => True) (fun _ _ _ h => h) ?_
          trivial) (fun _ _ _ => trivial)
        exact allow_bind (allow_of_only ((Do.only_idBySubmitted _).mpr (mild_plain trivial)))
          (fun _ _ => (allow_getJobId (fun _ h => mild_quiet h) _).mono (fun _ h => h) (fun _ _ => trivial))

theorem safe_bind_unit {α : Type} {p : P α} {x : Who} {w : World}
    (h : Prog.Safe (S := DB) exec (Rely up st x) (Guar up st x) (fun _ _ => True) p w) :
    Prog.Safe (S := DB) exec (Rely up st x) (Guar up st x) (fun _ _ => True)
      (p >>= fun _ => pure ()) w := Prog.safe_bind h (fun _ _ _ => trivial)

/-- The commands that are not processes of jobs. -/
theorem safe_cmd (c : Cmd) (hc : c.launch = none) (w : World) :
    Prog.Safe (S := DB) exec (Rely up st .other) (Guar up st .other) (fun _ _ => True) c.prog w := by
  have key : (∀ o, c.writes o → Mild up st o) →
      Prog.Safe (S := DB) exec (Rely up st .other) (Guar up st .other) (fun _ _ => True) c.prog w := by
    intro h
    refine Prog.safe_mono (safe_mild (Q := fun _ => True) (J := fun _ => True) (fun _ _ _ h => h)
      (c.allow_ops.mono ?_ (fun _ h => h)) trivial) (fun _ _ _ => trivial)
    rintro o (ho | ho)
    · exact mild_quiet ho
    · exact h o ho
  cases c with
  | submit f n d c => exact safe_bind_unit (safe_submit f n d c w)
  | cancel ids =>
    refine key (fun o ho => ?_)
    cases o <;> try cases ho
    rename_i h
    rcases h with rfl | rfl <;> exact mild_status (by decide) (by decide) (by decide)
  | tomatoJob => cases hc
  | _ =>
    refine key (fun o ho => ?_)
    cases o <;> first | exact mild_plain trivial | cases ho

/-! ## The system -/

/-- The programs that run, each with what it may write. -/
structure Runs (up : Prop) (st : String) (s : Sys) (own : Nat → Who) : Prop where
  safe : ∀ i p, s.others[i]? = some p → own i ≠ .jm ∧
    Prog.Safe (S := DB) exec (Rely up st (own i)) (Guar up st (own i)) (fun _ _ => True) p s.w
  once : ∀ i k a, i < s.others.length → k < s.others.length → own i = .job a → own k = .job a → i = k
  told : ∀ i a, i < s.others.length → own i = .job a → ∃ l ∈ s.started, l.jobid = a

structure Inv (up : Prop) (st : String) (s : Sys) : Prop where
  good : Good up st s.w
  jm : Prog.Safe (S := DB) exec (Rely up st .jm) (Guar up st .jm) (fun _ _ => True) s.jm s.w
  others : ∃ own, Runs up st s own
  begun : ∀ l ∈ s.started, l ∈ s.w.launches
  idle : ∀ j ∈ s.w.jobs, (∀ l ∈ s.started, l.jobid ≠ j.id) → j.connectedAt = none

theorem inv_init : Inv up st Sys.init where
  good := ⟨World.wf_empty, by simp [Sys.init], by simp [Sys.init]⟩
  jm := trivial
  others := ⟨fun _ => .other, by simp [Sys.init], by simp [Sys.init], by simp [Sys.init]⟩
  begun := by simp [Sys.init]
  idle := by simp [Sys.init]

/-- A program goes on after a step of another one. -/
theorem safe_other {x y : Who} {p : P Unit} {w w' : World}
    (hp : Prog.Safe (S := DB) exec (Rely up st y) (Guar up st y) (fun _ _ => True) p w)
    (h : Guar up st x w w') (hc : ∀ i, y.mayCon i → ¬ x.mayCon i)
    (hl : ∀ i, y.mayLau i → ¬ x.mayLau i) :
    Prog.Safe (S := DB) exec (Rely up st y) (Guar up st y) (fun _ _ => True) p w' :=
  Prog.safe_rely (rely_trans _) (fun _ _ => trivial) hp (h.rely hc hl)

/-- `connected_at` stays empty in rows that nobody may write. -/
theorem idle_step {x : Who} {S : List Launch} {w w' : World} (h : Guar up st x w w')
    (hx : ∀ a, x = .job a → ∃ l ∈ S, l.jobid = a)
    (hi : ∀ j ∈ w.jobs, (∀ l ∈ S, l.jobid ≠ j.id) → j.connectedAt = none) :
    ∀ j ∈ w'.jobs, (∀ l ∈ S, l.jobid ≠ j.id) → j.connectedAt = none := by
  intro j' hj' hno
  rcases h.new j' hj' with ⟨j, hj, hid⟩ | hn
  · have hnc : ¬ x.mayCon j.id := by
      cases x with
      | job a =>
        intro hm
        obtain ⟨l, hl, hla⟩ := hx a rfl
        exact hno l hl (by rw [hla, ← hid]; exact hm.symm)
      | jm => exact fun h => h
      | other => exact fun h => h
    obtain ⟨j2, hj2, hid2, hf⟩ := h.con j hj hnc
    have : j2 = j' := uniq h.base.good.wf hj2 hj' (hid2.trans hid)
    rw [← this]
    exact hf.trans (hi j hj (by rw [hid]; exact hno))
  · exact hn

/-- Every step keeps the invariant, and changes the rows only as allowed. -/
theorem inv_step {s s' : Sys} (hr : Reachable st s) (hi : Inv up st s) (h : Step st s s')
    (hup : up → s.w.clock ≤ s'.w.clock) : Inv up st s' ∧ Base up st s.w s'.w := by
  have hbase := (Still.refl hi.good).base
  obtain ⟨a, h⟩ := h
  obtain ⟨own, ho⟩ := hi.others
  cases a with
  | jmStart d =>
    simp only [act] at h
    split at h
    · next hd =>
      cases h
      exact ⟨⟨hi.good, safe_pass d hd.2 _, ⟨own, ho.1, ho.2, ho.3⟩, hi.begun, hi.idle⟩, hbase⟩
    · cases h
  | jmStep =>
    simp only [act] at h
    split at h
    · next p w hp =>
      unfold stepProg at hp
      split at hp
      · next o k hk =>
        cases hp; cases h
        have hj := hi.jm
        rw [hk] at hj
        obtain ⟨hg, hj'⟩ := hj _ ((Still.refl hi.good).rely _)
        refine ⟨⟨hg.base.good, hj', ⟨own, ?_, ho.2, ho.3⟩, fun l hl => hg.base.lau l (hi.begun l hl), ?_⟩,
          hg.base⟩
        · intro i p hp
          obtain ⟨h1, h2⟩ := ho.1 i p hp
          refine ⟨h1, safe_other h2 hg (fun _ _ h => h) ?_⟩
          intro i' hl
          revert hl h1
          generalize own i = x
          cases x <;> simp [Who.mayLau]
        · exact idle_step hg (by rintro a ⟨⟩) hi.idle
      · cases hp
    · cases h
  | jmKill =>
    cases h
    exact ⟨⟨hi.good, trivial, ⟨own, ho.1, ho.2, ho.3⟩, hi.begun, hi.idle⟩, hbase⟩
  | spawn c =>
    simp only [act] at h
    split at h
    · next hc =>
      cases h
      refine ⟨⟨hi.good, hi.jm, ⟨fun i => if i = s.others.length then .other else own i, ?_, ?_, ?_⟩,
        hi.begun, hi.idle⟩, hbase⟩
      · intro i p hp
        rw [List.getElem?_append] at hp
        split at hp
        · next hlt =>
          simp only [show i ≠ s.others.length by omega, if_false]
          exact ho.1 i p hp
        · next hge =>
          have hi0 : i - s.others.length = 0 := by
            rcases Nat.eq_zero_or_pos (i - s.others.length) with h | h
            · exact h
            · rw [List.getElem?_eq_none (by simp; omega)] at hp; cases hp
          have : i = s.others.length := by omega
          simp only [this, if_true]
          rw [hi0] at hp
          cases hp
          exact ⟨by rintro ⟨⟩, safe_cmd c hc _⟩
      · intro i k a hi' hk' h1 h2
        simp only [List.length_append, List.length_singleton] at hi' hk'
        split at h1
        · cases h1
        · split at h2
          · cases h2
          · exact ho.2 i k a (by omega) (by omega) h1 h2
      · intro i a hi' h1
        simp only [List.length_append, List.length_singleton] at hi'
        split at h1
        · cases h1
        · exact ho.3 i a (by omega) h1
    · next l hc =>
      split at h
      · next hlt =>
        cases h
        have hl : l ∈ s.w.launches := List.count_pos_iff.mp (by omega)
        have hno : ∀ l' ∈ s.started, l'.jobid ≠ l.jobid := by
          intro l' hl' he
          have heq : l' = l := by
            have hn := C18_launched_once hr
            exact (List.inj_on_of_nodup_map hn) (hi.begun l' hl') hl he
          subst heq
          have h1 : 0 < s.started.count l' := List.count_pos_iff.mpr hl'
          have h2 : s.w.launches.count l' ≤ 1 :=
            List.nodup_iff_count_le_one.mp (List.Nodup.of_map _ (C18_launched_once hr)) l'
          omega
        obtain ⟨j, hj, hjl⟩ := hi.good.known l hl
        have hun : Unconn l.jobid s.w :=
          ⟨j, hj, hjl, hi.idle j hj (fun l' hl' => by rw [hjl]; exact hno l' hl')⟩
        refine ⟨⟨hi.good, hi.jm, ⟨fun i => if i = s.others.length then .job l.jobid else own i, ?_, ?_, ?_⟩,
          ?_, ?_⟩, hbase⟩
        · intro i p hp
          rw [List.getElem?_append] at hp
          split at hp
          · next hlt =>
            simp only [show i ≠ s.others.length by omega, if_false]
            exact ho.1 i p hp
          · next hge =>
            have hi0 : i - s.others.length = 0 := by
              rcases Nat.eq_zero_or_pos (i - s.others.length) with h | h
              · exact h
              · rw [List.getElem?_eq_none (by simp; omega)] at hp; cases hp
            have : i = s.others.length := by omega
            simp only [this, if_true]
            rw [hi0] at hp
            cases hp
            refine ⟨by rintro ⟨⟩, ?_⟩
            cases c with
            | tomatoJob jid pid pl pip path m hm =>
              cases hc
              exact safe_tomatoJob jid pid pl pip path m hm hun ⟨_, hl, rfl⟩
            | _ => cases hc
        · intro i k a hi' hk' h1 h2
          simp only [List.length_append, List.length_singleton] at hi' hk'
          split at h1
          · cases h1
            split at h2
            · omega
            · obtain ⟨l', hl', he⟩ := ho.3 k _ (by omega) h2
              exact absurd he (hno l' hl')
          · split at h2
            · cases h2
              obtain ⟨l', hl', he⟩ := ho.3 i _ (by omega) h1
              exact absurd he (hno l' hl')
            · exact ho.2 i k a (by omega) (by omega) h1 h2
        · intro i a hi' h1
          simp only [List.length_append, List.length_singleton] at hi'
          split at h1
          · cases h1; exact ⟨l, by simp, rfl⟩
          · obtain ⟨l', hl', he⟩ := ho.3 i a (by omega) h1
            exact ⟨l', by simp [hl'], he⟩
        · intro l' hl'
          rcases List.mem_append.mp hl' with h | h
          · exact hi.begun l' h
          · rw [List.mem_singleton.mp h]; exact hl
        · intro j hj hn
          exact hi.idle j hj (fun l' hl' => hn l' (by simp [hl']))
      · cases h
  | step i =>
    simp only [act] at h
    split at h
    · cases h
    · next p hp =>
      split at h
      · next p' w hs =>
        unfold stepProg at hs
        split at hs
        · next o k =>
          cases hs; cases h
          obtain ⟨hnj, hsafe⟩ := ho.1 i _ hp
          obtain ⟨hg, hj'⟩ := hsafe _ ((Still.refl hi.good).rely _)
          have hlen : i < s.others.length := (List.getElem?_eq_some_iff.mp hp).1
          have hnl : ∀ i', ¬ (own i).mayLau i' := by
            intro i'
            revert hnj
            generalize own i = x
            cases x <;> simp [Who.mayLau]
          refine ⟨⟨hg.base.good, safe_other hi.jm hg (fun _ h => h.elim) (fun i' _ => hnl i'), ⟨own, ?_, ?_, ?_⟩,
            fun l hl => hg.base.lau l (hi.begun l hl), ?_⟩, hg.base⟩
          · intro k q hq
            by_cases hik : k = i
            · subst hik
              rw [List.getElem?_set_self hlen] at hq
              cases hq
              exact ⟨hnj, hj'⟩
            · rw [List.getElem?_set_ne (by omega)] at hq
              obtain ⟨h1, h2⟩ := ho.1 k q hq
              have hk : k < s.others.length := (List.getElem?_eq_some_iff.mp hq).1
              refine ⟨h1, safe_other h2 hg ?_ (fun i' _ => hnl i')⟩
              intro a ha hb
              apply hik
              cases hx : own k with
              | job b =>
                cases hy : own i with
                | job c =>
                  rw [hx] at ha; rw [hy] at hb
                  simp only [Who.mayCon] at ha hb
                  exact ho.2 k i b hk hlen hx (by rw [hy, ← ha, hb])
                | jm => rw [hy] at hb; exact hb.elim
                | other => rw [hy] at hb; exact hb.elim
              | jm => rw [hx] at ha; exact ha.elim
              | other => rw [hx] at ha; exact ha.elim
          · intro i k a h1 h2; simp only [List.length_set] at h1 h2; exact ho.2 i k a h1 h2
          · intro i a h1; simp only [List.length_set] at h1; exact ho.3 i a h1
          · exact idle_step hg (fun a ha => ho.3 i a hlen ha) hi.idle
        · cases hs
      · cases h
  | kill i =>
    cases h
    refine ⟨⟨hi.good, hi.jm, ⟨own, ?_, ?_, ?_⟩, hi.begun, hi.idle⟩, hbase⟩
    · intro k q hq
      by_cases hik : k = i
      · subst hik
        have hlen : k < s.others.length := by
          have := (List.getElem?_eq_some_iff.mp hq).1
          simpa using this
        rw [List.getElem?_set_self hlen] at hq
        cases hq
        exact ⟨(ho.1 k _ (List.getElem?_eq_getElem hlen)).1, trivial⟩
      · rw [List.getElem?_set_ne (by omega)] at hq
        exact ho.1 k q hq
    · intro i k a h1 h2; simp only [List.length_set] at h1 h2; exact ho.2 i k a h1 h2
    · intro i a h1; simp only [List.length_set] at h1; exact ho.3 i a h1
  | env e =>
    cases h
    obtain ⟨e1, e2, e3, e4, e5, e6⟩ := e.apply_eq s.w
    have hs : Still up st s.w (e.apply s.w) := by
      refine still_frame hi.good ?_ e1 hup e6 (fun x hx => by rw [e5]; exact hx)
      have := hi.good.wf
      exact ⟨by rw [e1]; exact this.1, by rw [e1, e2]; exact this.2, by rw [e3]; exact this.3,
        by rw [e4]; exact this.4⟩
    refine ⟨⟨hs.base.good, ?_, ⟨own, ?_, ho.2, ho.3⟩, fun l hl => hs.base.lau l (hi.begun l hl), ?_⟩, hs.base⟩
    · exact Prog.safe_rely (rely_trans _) (fun _ _ => trivial) hi.jm (hs.rely _)
    · intro i p hp
      obtain ⟨h1, h2⟩ := ho.1 i p hp
      exact ⟨h1, Prog.safe_rely (rely_trans _) (fun _ _ => trivial) h2 (hs.rely _)⟩
    · show ∀ j ∈ (e.apply s.w).jobs, _
      rw [e1]; exact hi.idle

theorem reach_up {s : Sys} (h : StepsUp st Sys.init s) : Reachable st s ∧ Inv True st s := by
  have : ∀ s0, StepsUp st s0 s → Reachable st s0 → Inv True st s0 → Reachable st s ∧ Inv True st s := by
    clear h
    intro s0 h0
    induction h0 with
    | refl => exact fun h1 h2 => ⟨h1, h2⟩
    | tail _ hs ih =>
      intro h1 h2
      obtain ⟨h3, h4⟩ := ih h1 h2
      exact ⟨.tail h3 hs.1, (inv_step h3 h4 hs.1 (fun _ => hs.2)).1⟩
  exact this _ h (.refl _) inv_init

theorem reach_any {s : Sys} (h : Reachable st s) : Inv False st s := by
  have : ∀ s0, Steps st s0 s → Reachable st s0 → Inv False st s0 → Reachable st s ∧ Inv False st s := by
    clear h
    intro s0 h0
    induction h0 with
    | refl => exact fun h1 h2 => ⟨h1, h2⟩
    | tail _ hs ih =>
      intro h1 h2
      obtain ⟨h3, h4⟩ := ih h1 h2
      exact ⟨.tail h3 hs, (inv_step h3 h4 hs (fun h => h.elim)).1⟩
  exact (this _ h (.refl _) inv_init).2

/-! ## The theorems -/

/-- **C131**: as long as the clock never goes back, a job was submitted not later than it was
launched, connected and completed, it connected not later than it was completed, and none of
its times is in the future. -/
theorem C131_order {st : String} {s : Sys} (h : StepsUp st Sys.init s) (j : Job) (hj : j ∈ s.w.jobs) :
    NotLater (some j.submittedAt) j.launchedAt ∧ NotLater (some j.submittedAt) j.connectedAt ∧
    NotLater j.connectedAt j.completedAt ∧ NotLater (some j.submittedAt) j.completedAt ∧
    j.submittedAt ≤ s.w.clock ∧ NotLater j.launchedAt (some s.w.clock) ∧
    NotLater j.connectedAt (some s.w.clock) ∧ NotLater j.completedAt (some s.w.clock) := by
  have hr := (reach_up h).2.good.rows j hj
  refine ⟨?_, ?_, ?_, ?_, hr.sub trivial, ?_, ?_, ?_⟩
  · rintro x y ⟨⟩ hy; exact ((hr.lau y hy).1 trivial).1
  · rintro x y ⟨⟩ hy; exact ((hr.con y hy).1 trivial).1
  · intro x y hx hy
    obtain ⟨c, hc, h2⟩ := hr.com y hy
    rw [hx] at hc; cases hc; exact (h2 trivial).1
  · rintro x y ⟨⟩ hy
    obtain ⟨c, hc, h2⟩ := hr.com y hy
    exact Nat.le_trans ((hr.con c hc).1 trivial).1 (h2 trivial).1
  · rintro x y hx ⟨⟩; exact ((hr.lau x hx).1 trivial).2
  · rintro x y hx ⟨⟩; exact ((hr.con x hx).1 trivial).2
  · rintro x y hx ⟨⟩
    obtain ⟨c, hc, h2⟩ := hr.com x hx
    exact (h2 trivial).2

/-- **C132** (partial): the times of launch and of connection, once recorded, never change, and
the time of completion never disappears.  Missing: the time of completion may change
(`C132_refuted`). -/
theorem C132_written_once_partial {st : String} {s s' : Sys} (h : Reachable st s) (h' : Steps st s s')
    (j : Job) (hj : j ∈ s.w.jobs) :
    ∃ j' ∈ s'.w.jobs, j'.id = j.id ∧ (∀ t, j.launchedAt = some t → j'.launchedAt = some t) ∧
      (∀ t, j.connectedAt = some t → j'.connectedAt = some t) ∧
      (j.completedAt.isSome → j'.completedAt.isSome) := by
  have key : ∃ j' ∈ s'.w.jobs, Evo j j' := by
    induction h' with
    | refl => exact ⟨j, hj, Evo.refl j⟩
    | tail h1 h2 ih =>
      obtain ⟨j1, hj1, e1⟩ := ih
      have hr := Steps.trans h h1
      obtain ⟨j2, hj2, e2⟩ := (inv_step hr (reach_any hr) h2 (fun h => h.elim)).2.old j1 hj1
      exact ⟨j2, hj2, e1.trans e2⟩
  obtain ⟨j', hj', e⟩ := key
  exact ⟨j', hj', e.id, e.lau, e.con, e.com⟩

/-- **C133** (partial): a time of launch or connection is only recorded for a job that was launched,
a time of completion only for a job that connected; a job with a process id connected; a job that
runs (`r`) has a time of connection and none of completion; one that has ended by itself (`c`, `ce`)
has both.  Missing: a cancelled job may have no time of completion (`C133_refuted`), a job may be
`rd` although it has one (`C133_refuted_rd`), and the time of launch may be later than the others
(`C133_refuted_launch`). -/
theorem C133_status_partial {st : String} {s : Sys} (h : Reachable st s) (j : Job) (hj : j ∈ s.w.jobs) :
    (j.launchedAt.isSome → ∃ l ∈ s.w.launches, l.jobid = j.id) ∧
    (j.connectedAt.isSome → ∃ l ∈ s.w.launches, l.jobid = j.id) ∧
    (j.completedAt.isSome → j.connectedAt.isSome) ∧ (j.pid.isSome → j.connectedAt.isSome) ∧
    (j.status = .r → j.connectedAt.isSome ∧ j.completedAt = none) ∧
    (j.status = .c ∨ j.status = .ce → j.connectedAt.isSome ∧ j.completedAt.isSome) := by
  have hr := (reach_any h).good.rows j hj
  refine ⟨?_, ?_, ?_, hr.pid, fun h => ⟨hr.run (.inl h), hr.busy h⟩, fun h => ⟨hr.run (.inr h), hr.fin h⟩⟩
  · intro hx
    obtain ⟨t, ht⟩ := Option.isSome_iff_exists.mp hx
    exact (hr.lau t ht).2.1
  · intro hx
    obtain ⟨t, ht⟩ := Option.isSome_iff_exists.mp hx
    exact (hr.con t ht).2
  · intro hx
    obtain ⟨t, ht⟩ := Option.isSome_iff_exists.mp hx
    obtain ⟨c, hc, -⟩ := hr.com t ht
    rw [hc]; rfl

/-! ## Witnesses -/

/-- Execute actions while the clock does not go back. -/
def upActs (st : String) : Sys → List Act → Option Sys
  | s, [] => some s
  | s, a :: as =>
      match act st s a with
      | some s' => if s.w.clock ≤ s'.w.clock then upActs st s' as else none
      | none => none

theorem StepsUp.trans {st : String} {a b c : Sys} (h1 : StepsUp st a b) (h2 : StepsUp st b c) :
    StepsUp st a c := by
  induction h2 with
  | refl => exact h1
  | tail _ h ih => exact .tail ih h

theorem up_of_acts {st : String} {s s' : Sys} {as : List Act} (h : upActs st s as = some s') :
    StepsUp st s s' := by
  induction as generalizing s with
  | nil => cases h; exact .refl _
  | cons a as ih =>
    simp only [upActs] at h
    split at h
    · next s1 h1 =>
      split at h
      · next hc => exact StepsUp.trans (.tail (.refl _) ⟨⟨a, h1⟩, hc⟩) (ih h)
      · cases h
    · cases h

/-- The columns of the times of a job. -/
def timesOf (id : Nat) (s : Sys) : Option (JobStatus × Nat × Option Nat × Option Nat × Option Nat) :=
  (s.w.jobs.find? (fun j => j.id == id)).map fun j => (j.status, j.submittedAt, j.launchedAt, j.connectedAt, j.completedAt)

/-- A state reached with a clock that does not go back. -/
theorem witness {st : String} {as : List Act} {id : Nat} {v}
    (h : (upActs st Sys.init as).any (fun s => decide (timesOf id s = v)) = true) :
    ∃ s, StepsUp st Sys.init s ∧ timesOf id s = v := by
  cases hs : upActs st Sys.init as with
  | none => rw [hs] at h; cases h
  | some s => rw [hs] at h; exact ⟨s, up_of_acts hs, of_decide_eq_true h⟩

/-- Set the clock. -/
def at_ (t : Nat) : Act := .env (.clock t)

/-- Job 1 is submitted at 5, launched at 10, connects at 20 as process 100. -/
def begun : List Act :=
  [at_ 5] ++ setup ++ [at_ 10, .jmStart dRun] ++ jm 21 ++
    [at_ 20, .spawn (okJob 1 100 "p"), .env (.procs [⟨100, 1, false⟩])] ++ run 5 5
/-- It is completed at 30. -/
def ended : List Act := begun ++ [at_ 30] ++ run 5 6
/-- The job manager writes the time of launch last. -/
def late : List Act :=
  [at_ 5] ++ setup ++ [at_ 10, .jmStart dRun] ++ jm 18 ++
    [at_ 20, .spawn (okJob 1 100 "p")] ++ run 5 5 ++ [at_ 30] ++ run 5 6 ++ [at_ 40] ++ jm 3
/-- A queued job is cancelled. -/
def dropped : List Act := [at_ 5] ++ setup ++ [at_ 10, .spawn (.cancel [1])] ++ run 5 3
/-- The job ends between the look and the write of `ketchup cancel`. -/
def crossed : List Act := begun ++ [at_ 30, .spawn (.cancel [1])] ++ run 6 1 ++ run 5 6 ++ run 6 2
/-- The job ends between the look and the write of the job manager. -/
def twice : List Act := begun ++ [at_ 30, .jmStart dRun] ++ jm 1 ++ run 5 6 ++ [.env (.procs [])]

/-- The hypotheses of `C131_order`: a job with all four times. -/
example : ∃ s, StepsUp "Jobs" Sys.init s ∧ timesOf 1 s = some (.c, 5, some 10, some 20, some 30) :=
  witness (as := ended) (by decide +kernel)

/-- The hypotheses of `C132_written_once_partial`: a running job with a time of launch and one of
connection; and of `C133_status_partial`: a job in status `r`. -/
example : ∃ s, StepsUp "Jobs" Sys.init s ∧ timesOf 1 s = some (.r, 5, some 10, some 20, none) :=
  witness (as := begun) (by decide +kernel)

theorem up_two {st : String} {as bs : List Act} {id : Nat} {v v'}
    (h : (upActs st Sys.init as).any (fun s => decide (timesOf id s = v) &&
      (upActs st s bs).any (fun s' => decide (timesOf id s' = v'))) = true) :
    ∃ s s', StepsUp st Sys.init s ∧ StepsUp st s s' ∧ timesOf id s = v ∧ timesOf id s' = v' := by
  cases hs : upActs st Sys.init as with
  | none => rw [hs] at h; cases h
  | some s =>
    rw [hs] at h
    simp only [Option.any_some, Bool.and_eq_true] at h
    obtain ⟨h1, h2⟩ := h
    cases hs' : upActs st s bs with
    | none => rw [hs'] at h2; cases h2
    | some s' =>
      rw [hs'] at h2
      exact ⟨s, s', up_of_acts hs, up_of_acts hs', of_decide_eq_true h1, of_decide_eq_true h2⟩

/-- **C132 is false of the code** for the time of completion: the job manager reads the running
job, the job is completed (`c`, at 30) and its process ends, and the job manager then finds the
process gone and writes `ce` and another time of completion (40). -/
theorem C132_refuted : ∃ s s', StepsUp "Jobs" Sys.init s ∧ StepsUp "Jobs" s s' ∧
    timesOf 1 s = some (.c, 5, some 10, some 20, some 30) ∧
    timesOf 1 s' = some (.ce, 5, some 10, some 20, some 40) :=
  up_two (as := twice) (bs := [at_ 40] ++ jm 4) (by decide +kernel)

/-- **C133 is false of the code**: a job that is cancelled while it is queued has ended (`cd`) without a
time of completion (`ketchup.cancel` writes only the status, ketchup 248-255). -/
theorem C133_refuted : ∃ s, StepsUp "Jobs" Sys.init s ∧ timesOf 1 s = some (.cd, 5, none, none, none) :=
  witness (as := dropped) (by decide +kernel)

/-- **C133 is false of the code**: a job whose cancellation was under way when it ended has a time of
completion and waits for being stopped (`rd`). -/
theorem C133_refuted_rd : ∃ s, StepsUp "Jobs" Sys.init s ∧
    timesOf 1 s = some (.rd, 5, some 10, some 20, some 30) :=
  witness (as := crossed) (by decide +kernel)

/-- **C133 is false of the code**: `launched_at` is written after the process was started
(job.py:305-314), so that a job may be recorded as launched (40) after it connected (20) and was
completed (30). -/
theorem C133_refuted_launch : ∃ s, StepsUp "Jobs" Sys.init s ∧
    timesOf 1 s = some (.c, 5, some 40, some 20, some 30) :=
  witness (as := late) (by decide +kernel)

end Tomato.Props.Times
