import Verif.World

/-!
# Well-formed worlds

Facts about the tables that every operation keeps: job ids are strictly increasing and not
larger than the AUTOINCREMENT counter, names of pipelines and drivers are unique (primary
keys).
-/

namespace Tomato

/-- The table constraints. -/
structure World.WF (w : World) : Prop where
  sorted : w.jobs.Pairwise (fun a b => a.id < b.id)
  bound : ∀ j ∈ w.jobs, j.id ≤ w.jobSeq
  pipNames : (w.pips.map (·.name)).Nodup
  drvNames : (w.drvs.map (·.name)).Nodup

/-- The empty database. -/
theorem World.wf_empty : World.WF {} := by
  constructor <;> simp

@[simp] theorem applyJob_nil (j : Job) : applyJob j [] = j := rfl
@[simp] theorem applyJob_cons (j : Job) (p : JobParam) (ps : List JobParam) :
    applyJob j (p :: ps) = applyJob (p.apply j) ps := rfl
@[simp] theorem applyPip_nil (j : PipState) : applyPip j [] = j := rfl
@[simp] theorem applyPip_cons (j : PipState) (p : PipParam) (ps : List PipParam) :
    applyPip j (p :: ps) = applyPip (p.apply j) ps := rfl
@[simp] theorem applyDrv_nil (j : DrvState) : applyDrv j [] = j := rfl
@[simp] theorem applyDrv_cons (j : DrvState) (p : DrvParam) (ps : List DrvParam) :
    applyDrv j (p :: ps) = applyDrv (p.apply j) ps := rfl

@[simp] theorem applyJob_id (j : Job) (ps : List JobParam) : (applyJob j ps).id = j.id := by
  induction ps generalizing j with
  | nil => rfl
  | cons p ps ih => rw [applyJob_cons, ih]; cases p <;> rfl

@[simp] theorem applyPip_name (j : PipState) (ps : List PipParam) :
    (applyPip j ps).name = j.name := by
  induction ps generalizing j with
  | nil => rfl
  | cons p ps ih => rw [applyPip_cons, ih]; cases p <;> rfl

@[simp] theorem applyDrv_name (j : DrvState) (ps : List DrvParam) :
    (applyDrv j ps).name = j.name := by
  induction ps generalizing j with
  | nil => rfl
  | cons p ps ih => rw [applyDrv_cons, ih]; cases p <;> rfl

/-- One row of `queue` is updated. -/
def updJobs (id : Nat) (ps : List JobParam) (js : List Job) : List Job :=
  js.map (fun j => if j.id = id then applyJob j ps else j)

/-- One row of `pipelines` is updated. -/
def updPips (n : String) (ps : List PipParam) (l : List PipState) : List PipState :=
  l.map (fun p => if p.name = n then applyPip p ps else p)

/-- One row of `drivers` is updated. -/
def updDrvs (n : String) (ps : List DrvParam) (l : List DrvState) : List DrvState :=
  l.map (fun p => if p.name = n then applyDrv p ps else p)

theorem updJobs_ids (id : Nat) (ps : List JobParam) (js : List Job) :
    (updJobs id ps js).map (·.id) = js.map (·.id) := by
  unfold updJobs
  rw [List.map_map]
  apply List.map_congr_left
  intro j _
  simp only [Function.comp]
  split <;> simp

theorem updPips_names (n : String) (ps : List PipParam) (l : List PipState) :
    (updPips n ps l).map (·.name) = l.map (·.name) := by
  unfold updPips
  rw [List.map_map]
  apply List.map_congr_left
  intro j _
  simp only [Function.comp]
  split <;> simp

theorem updDrvs_names (n : String) (ps : List DrvParam) (l : List DrvState) :
    (updDrvs n ps l).map (·.name) = l.map (·.name) := by
  unfold updDrvs
  rw [List.map_map]
  apply List.map_congr_left
  intro j _
  simp only [Function.comp]
  split <;> simp

theorem pairwise_ids {js : List Job} :
    js.Pairwise (fun a b => a.id < b.id) ↔ (js.map (·.id)).Pairwise (· < ·) := by
  rw [List.pairwise_map]

theorem find?_map_key {α κ : Type} [DecidableEq κ] (key : α → κ) (l : List α) (k k' : κ)
    (f : α → α) (hf : ∀ a, key (f a) = key a) :
    (l.map (fun a => if key a = k then f a else a)).find? (fun a => key a == k') =
      (l.find? (fun a => key a == k')).map (fun a => if k' = k then f a else a) := by
  induction l with
  | nil => rfl
  | cons a l ih =>
    simp only [List.map_cons, List.find?_cons]
    by_cases h : key a = k'
    · by_cases h2 : key a = k
      · simp [h2, ← h, hf]
      · have : ¬ k' = k := by rw [← h]; exact h2
        simp [h, this]
    · by_cases h2 : key a = k
      · have h' : (key a == k') = false := by simp [h]
        simp only [if_pos h2, hf, h', ih]
      · have h' : (key a == k') = false := by simp [h]
        simp only [if_neg h2, h', ih]

theorem find?_append_key {α κ : Type} [DecidableEq κ] (key : α → κ) (l : List α) (x : α)
    (k : κ) : (l ++ [x]).find? (fun a => key a == k) =
      ((l.find? (fun a => key a == k)).or (if key x = k then some x else none)) := by
  simp only [List.find?_append, List.find?_cons, List.find?_nil]
  by_cases h : key x = k
  · simp [h]
  · have h' : (key x == k) = false := by simp [h]
    simp [h, h']

theorem find?_isSome_mem {α κ : Type} [DecidableEq κ] (key : α → κ) (l : List α) (k : κ) :
    (l.find? (fun a => key a == k)).isSome = true ↔ k ∈ l.map key := by
  simp [List.find?_isSome, List.mem_map]

theorem find?_key_eq {α κ : Type} [DecidableEq κ] {key : α → κ} {l : List α} {k : κ} {a : α}
    (h : l.find? (fun a => key a == k) = some a) : key a = k ∧ a ∈ l := by
  have h1 := List.find?_some h
  have h2 := List.mem_of_find?_eq_some h
  exact ⟨by simpa using h1, h2⟩

theorem find?_of_nodup {α κ : Type} [DecidableEq κ] {key : α → κ} {l : List α}
    (hn : (l.map key).Nodup) {a : α} (ha : a ∈ l) :
    l.find? (fun b => key b == key a) = some a := by
  induction l with
  | nil => simp at ha
  | cons b l ih =>
    simp only [List.map_cons, List.nodup_cons] at hn
    rw [List.find?_cons]
    rcases List.mem_cons.mp ha with rfl | hm
    · simp
    · have : key b ≠ key a := fun hh => hn.1 (hh ▸ List.mem_map_of_mem hm)
      have h' : (key b == key a) = false := by simp [this]
      rw [h']
      exact ih hn.2 hm

/-! ## Reading a row after an operation -/

theorem job?_update (w : World) (id id' : Nat) (ps : List JobParam) :
    World.job? { w with jobs := updJobs id ps w.jobs } id' =
      (w.job? id').map (fun j => if id' = id then applyJob j ps else j) := by
  unfold World.job? updJobs
  exact find?_map_key (fun j : Job => j.id) w.jobs id id' (fun j => applyJob j ps) (by simp)

theorem pip?_update (w : World) (n n' : String) (ps : List PipParam) :
    World.pip? { w with pips := updPips n ps w.pips } n' =
      (w.pip? n').map (fun j => if n' = n then applyPip j ps else j) := by
  unfold World.pip? updPips
  exact find?_map_key (fun j : PipState => j.name) w.pips n n' (fun j => applyPip j ps) (by simp)

theorem drv?_update (w : World) (n n' : String) (ps : List DrvParam) :
    World.drv? { w with drvs := updDrvs n ps w.drvs } n' =
      (w.drv? n').map (fun j => if n' = n then applyDrv j ps else j) := by
  unfold World.drv? updDrvs
  exact find?_map_key (fun j : DrvState => j.name) w.drvs n n' (fun j => applyDrv j ps) (by simp)

theorem World.WF.idsNodup {w : World} (h : w.WF) : (w.jobs.map (·.id)).Nodup := by
  have := pairwise_ids.mp h.sorted
  exact this.imp (fun hab => Nat.ne_of_lt hab)

theorem World.WF.job?_mem {w : World} (h : w.WF) {j : Job} (hj : j ∈ w.jobs) :
    w.job? j.id = some j := find?_of_nodup (key := fun j : Job => j.id) h.idsNodup hj

theorem World.WF.pip?_mem {w : World} (h : w.WF) {j : PipState} (hj : j ∈ w.pips) :
    w.pip? j.name = some j := find?_of_nodup (key := fun j : PipState => j.name) h.pipNames hj

theorem World.WF.drv?_mem {w : World} (h : w.WF) {j : DrvState} (hj : j ∈ w.drvs) :
    w.drv? j.name = some j := find?_of_nodup (key := fun j : DrvState => j.name) h.drvNames hj

theorem job?_some {w : World} {id : Nat} {j : Job} (h : w.job? id = some j) :
    j.id = id ∧ j ∈ w.jobs := find?_key_eq (key := fun j : Job => j.id) h

theorem pip?_some {w : World} {n : String} {j : PipState} (h : w.pip? n = some j) :
    j.name = n ∧ j ∈ w.pips := find?_key_eq (key := fun j : PipState => j.name) h

theorem drv?_some {w : World} {n : String} {j : DrvState} (h : w.drv? n = some j) :
    j.name = n ∧ j ∈ w.drvs := find?_key_eq (key := fun j : DrvState => j.name) h

/-! ## Every operation keeps the table constraints -/

theorem exec_wf (o : Op) (w : World) (h : w.WF) : (exec o w).2.WF := by
  cases o with
  | insertJob j =>
    constructor
    · simp only [exec]
      rw [List.pairwise_append]
      refine ⟨h.sorted, by simp, ?_⟩
      intro a ha b hb
      simp only [List.mem_singleton] at hb
      subst hb
      have := h.bound a ha
      simp; omega
    · simp only [exec, List.mem_append, List.mem_singleton]
      rintro j (hj | rfl)
      · have := h.bound j hj; omega
      · simp
    · exact h.pipNames
    · exact h.drvNames
  | updateJob id ps =>
    have hids := updJobs_ids id ps w.jobs
    constructor
    · show (updJobs id ps w.jobs).Pairwise _
      rw [pairwise_ids, hids, ← pairwise_ids]; exact h.sorted
    · intro j hj
      change j ∈ updJobs id ps w.jobs at hj
      have : j.id ∈ (updJobs id ps w.jobs).map (·.id) := List.mem_map_of_mem hj
      rw [hids, List.mem_map] at this
      obtain ⟨j', hj', he⟩ := this
      rw [← he]; exact h.bound j' hj'
    · exact h.pipNames
    · exact h.drvNames
  | insertPip p =>
    simp only [exec]
    split
    · exact h
    · next hp =>
      refine ⟨h.sorted, h.bound, ?_, h.drvNames⟩
      simp only [List.map_append, List.map_cons, List.map_nil]
      rw [List.nodup_append]
      refine ⟨h.pipNames, by simp, ?_⟩
      intro a ha b hb hab
      simp only [List.mem_singleton] at hb
      subst hb; subst hab
      exact hp ((find?_isSome_mem (fun p : PipState => p.name) w.pips p.name).mpr ha)
  | updatePip n ps =>
    refine ⟨h.sorted, h.bound, ?_, h.drvNames⟩
    have := updPips_names n ps w.pips
    unfold updPips at this
    simp only [exec, this]; exact h.pipNames
  | insertDrv d =>
    simp only [exec]
    split
    · exact h
    · next hp =>
      refine ⟨h.sorted, h.bound, h.pipNames, ?_⟩
      simp only [List.map_append, List.map_cons, List.map_nil]
      rw [List.nodup_append]
      refine ⟨h.drvNames, by simp, ?_⟩
      intro a ha b hb hab
      simp only [List.mem_singleton] at hb
      subst hb; subst hab
      exact hp ((find?_isSome_mem (fun p : DrvState => p.name) w.drvs d.name).mpr ha)
  | updateDrv n ps =>
    refine ⟨h.sorted, h.bound, h.pipNames, ?_⟩
    have := updDrvs_names n ps w.drvs
    unfold updDrvs at this
    simp only [exec, this]; exact h.drvNames
  | jobsWhere p => exact h
  | fetchJob id => exact h
  | idBySubmitted t => simp only [exec]; split <;> exact h
  | pipsWhere p => exact h
  | getPip n => exact h
  | drvsWhere p => exact h
  | getDrv n => exact h
  | delDrv n => exact h
  | makeJobDir s id => simp only [exec]; split <;> exact ⟨h.1, h.2, h.3, h.4⟩
  | popenJob id p => exact ⟨h.1, h.2, h.3, h.4⟩
  | popenDriver n => exact ⟨h.1, h.2, h.3, h.4⟩
  | pidExists p => exact h
  | notZombie p => simp only [exec]; split <;> exact h
  | killChildren p => simp only [exec]; split <;> exact ⟨h.1, h.2, h.3, h.4⟩
  | merge id jp p =>
    simp only [exec]
    split
    · exact h
    · split
      · exact h
      · split <;> exact ⟨h.1, h.2, h.3, h.4⟩
  | askDriver p c =>
    cases p with
    | none => exact h
    | some p => simp only [exec]; split <;> exact ⟨h.1, h.2, h.3, h.4⟩
  | askDriverLpp p c =>
    cases p with
    | none => exact h
    | some p => exact ⟨h.1, h.2, h.3, h.4⟩
  | askDriverTimeout p c =>
    cases p with
    | none => exact h
    | some p => simp only [exec]; split <;> exact ⟨h.1, h.2, h.3, h.4⟩
  | now => exact h
  | perfCounter => exact h

/-- Every program keeps the table constraints. -/
theorem runW_wf {α : Type} (p : P α) (w : World) (h : w.WF) : (runW p w).2.WF := by
  induction p generalizing w with
  | pure a => exact h
  | raise e => exact h
  | op o k ih =>
    simp only [runW, Prog.run]
    exact ih _ _ (exec_wf o w h)

/-! ## Running the small helpers -/

@[simp] theorem exec_updateJob (w : World) (id : Nat) (ps : List JobParam) :
    exec (.updateJob id ps) w = (.ok (), { w with jobs := updJobs id ps w.jobs }) := rfl

@[simp] theorem exec_getPip (w : World) (n : String) :
    exec (.getPip n) w = (.ok (w.pip? n), w) := rfl

@[simp] theorem exec_getDrv (w : World) (n : String) :
    exec (.getDrv n) w = (.ok (w.drv? n), w) := rfl

@[simp] theorem exec_fetchJob (w : World) (id : Nat) :
    exec (.fetchJob id) w = (.ok (w.job? id), w) := rfl

@[simp] theorem exec_jobsWhere (w : World) (p : Job → Bool) :
    exec (.jobsWhere p) w = (.ok (w.jobs.filter p), w) := rfl

@[simp] theorem exec_pipsWhere (w : World) (p : PipState → Bool) :
    exec (.pipsWhere p) w = (.ok (w.pips.filter p), w) := rfl

@[simp] theorem exec_drvsWhere (w : World) (p : DrvState → Bool) :
    exec (.drvsWhere p) w = (.ok (w.drvs.filter p), w) := rfl

@[simp] theorem exec_now (w : World) : exec .now w = (.ok w.clock, w) := rfl

@[simp] theorem exec_perfCounter (w : World) : exec .perfCounter w = (.ok w.perf, w) := rfl

@[simp] theorem exec_pidExists (w : World) (pid : Nat) :
    exec (.pidExists pid) w = (.ok (w.hasPid pid), w) := rfl

@[simp] theorem exec_updatePip (w : World) (n : String) (ps : List PipParam) :
    exec (.updatePip n ps) w = (.ok (), { w with pips := updPips n ps w.pips }) := rfl

@[simp] theorem exec_updateDrv (w : World) (n : String) (ps : List DrvParam) :
    exec (.updateDrv n ps) w = (.ok (), { w with drvs := updDrvs n ps w.drvs }) := rfl

end Tomato
