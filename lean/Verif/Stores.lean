import Verif.SystemLemmas
import Verif.Inv

/-!
# Reloading with another database

The settings name the database (`settings["jobs"]["dbpath"]`) and the folder of the jobs
(`settings["jobs"]["storage"]`).  `Verif/System.lean` has one database.  Here there is one system for each
database, and a daemon with its current settings: commands and managers ask the daemon which database
to use when they start; job processes use the database given to them at their launch.
-/

namespace Tomato.Stores

open Tomato

/-- The daemon and the databases. -/
structure SSys where
  daemon : Daemon
  /-- `daemon.settings["jobs"]["dbpath"]` -/
  db : String
  /-- the database used by the current pass of the job manager -/
  jmAt : String
  stores : String → Sys

/-- The command has asked this daemon for its configuration (ketchup/__init__.py:113, 169, 237, 292, 337;
tomato/__init__.py:535, 573, 618; pip.py:46; driver.py:352). -/
def fits (d : Daemon) : Cmd → Bool
  | .submit _ _ d' _ => d' = d
  | .load s _ _ => s = some d
  | .eject s _ => s = some d
  | .ready s _ => s = some d
  | .pipPass d' => d' = d
  | .drvPass d' => d' = d
  | .stop d' => d' = d
  | .status _ | .cancel _ | .snapshot _ | .search _ => true
  | .driverStart _ _ _ _ => true
  | .reload _ _ => false
  | .tomatoJob _ _ _ _ _ _ _ => false

inductive SAct where
  /-- something happens in the database `p` -/
  | local (p : String) (a : Act)
  /-- a daemon that uses the database `p` makes the rows it needs when it starts, cmd.py:56-76; this may
  have been another daemon before -/
  | setup (p : String) (d : Daemon)
  /-- `tomato reload`, with the path of the database, the other settings and the devices found in the
  files -/
  | reload (parsed : Option (String × Settings × DeviceFile))

/-- Replace one of the systems. -/
def put (f : String → Sys) (p : String) (t : Sys) : String → Sys := fun q => if q = p then t else f q

/-- Execute an action; `none` if it is not possible.  `stOf p` is the folder of jobs that goes with the
database `p`.

* The job manager starts a pass: it asks the daemon, job.py:346-349.
* A command or another manager starts: it asks the daemon.
* A job process starts: its database is the one of the job manager that launched it, job.py:301-302.
* `tomato reload`, cmd.py:78-157: the only operation is to read the pipelines in use, in the database of
  the old settings (cmd.py:95-96); hence it is one step here.  An exception ends the daemon. -/
def sact (stOf : String → String) (s : SSys) : SAct → Option SSys
  | .local p a =>
    let go := (Tomato.act (stOf p) (s.stores p) a).map (fun t => { s with stores := put s.stores p t })
    match a with
    | .jmStart d =>
      if p = s.db ∧ d = s.daemon ∧ (s.stores s.jmAt).jm.ended then go.map (fun s' => { s' with jmAt := p })
      else none
    | .spawn c =>
      match c.launch with
      | some _ => go
      | none => if p = s.db ∧ fits s.daemon c then go else none
    | _ => go
  | .setup p d =>
    if d.status = .bootstrap then
      (Tomato.act (stOf p) (s.stores p) (.spawn (.reload d none))).map
        (fun t => { s with stores := put s.stores p t })
    else none
  | .reload parsed =>
    if s.daemon.status = .running then
      match (runW (cmdReload s.daemon (parsed.map (·.2))) (s.stores s.db).w).1 with
      | .error _ => none
      | .ok (r, d') =>
        some { s with daemon := d', db := if r.success then (parsed.map (·.1)).getD s.db else s.db }
    else none

/-- A running daemon with any configuration; nothing has been stored in any database. -/
def SSys.start (d : Daemon) (p : String) : SSys :=
  { daemon := d, db := p, jmAt := p, stores := fun _ => Sys.init }

/-- Executions. -/
inductive SSteps (stOf : String → String) : SSys → SSys → Prop
  | refl (s : SSys) : SSteps stOf s s
  | tail {s s' s'' : SSys} (a : SAct) : SSteps stOf s s' → sact stOf s' a = some s'' → SSteps stOf s s''

/-- Executions in which the path of the database does not change. -/
inductive SStepsK (stOf : String → String) : SSys → SSys → Prop
  | refl (s : SSys) : SStepsK stOf s s
  | tail {s s' s'' : SSys} (a : SAct) : SStepsK stOf s s' → sact stOf s' a = some s'' → s''.db = s'.db →
      SStepsK stOf s s''

/-- Execute a list of actions. -/
def sacts (stOf : String → String) : SSys → List SAct → Option SSys
  | s, [] => some s
  | s, a :: as =>
    match sact stOf s a with
    | some s' => sacts stOf s' as
    | none => none

theorem SSteps.trans {stOf : String → String} {a b c : SSys} (h1 : SSteps stOf a b)
    (h2 : SSteps stOf b c) : SSteps stOf a c := by
  induction h2 with
  | refl => exact h1
  | tail x _ h ih => exact .tail x ih h

theorem SStepsK.trans {stOf : String → String} {a b c : SSys} (h1 : SStepsK stOf a b)
    (h2 : SStepsK stOf b c) : SStepsK stOf a c := by
  induction h2 with
  | refl => exact h1
  | tail x _ h hk ih => exact .tail x ih h hk

theorem SStepsK.weaken {stOf : String → String} {a b : SSys} (h : SStepsK stOf a b) :
    SSteps stOf a b := by
  induction h with
  | refl => exact .refl _
  | tail x _ h _ ih => exact .tail x ih h

theorem SStepsK.db {stOf : String → String} {a b : SSys} (h : SStepsK stOf a b) : b.db = a.db := by
  induction h with
  | refl => rfl
  | tail x _ h hk ih => exact hk.trans ih

theorem ssteps_of_sacts {stOf : String → String} {s s' : SSys} {as : List SAct}
    (h : sacts stOf s as = some s') : SSteps stOf s s' := by
  induction as generalizing s with
  | nil => cases h; exact .refl _
  | cons a as ih =>
    simp only [sacts] at h
    split at h
    · next s1 h1 => exact SSteps.trans (.tail a (.refl _) h1) (ih h)
    · cases h

/-- What a step does to the databases: nothing, or a step of one of the systems. -/
theorem sact_store {stOf : String → String} {s s' : SSys} {a : SAct} (h : sact stOf s a = some s') :
    s'.stores = s.stores ∨
    ∃ p b t, (a = .local p b ∨ ∃ d, a = .setup p d ∧ d.status = .bootstrap ∧ b = .spawn (.reload d none)) ∧
      Tomato.act (stOf p) (s.stores p) b = some t ∧ s'.stores = put s.stores p t := by
  cases a with
  | «local» p a =>
    right
    have key : ∀ x : SSys, (Tomato.act (stOf p) (s.stores p) a).map
        (fun t => { s with stores := put s.stores p t }) = some x →
        ∃ t, Tomato.act (stOf p) (s.stores p) a = some t ∧ x.stores = put s.stores p t := by
      intro x hx
      rw [Option.map_eq_some_iff] at hx
      obtain ⟨t, ht, rfl⟩ := hx
      exact ⟨t, ht, rfl⟩
    have fin : ∀ x : SSys, x.stores = s'.stores → (Tomato.act (stOf p) (s.stores p) a).map
        (fun t => { s with stores := put s.stores p t }) = some x → ∃ p' b t,
          (SAct.local p a = .local p' b ∨ ∃ d, SAct.local p a = .setup p' d ∧ d.status = .bootstrap ∧
            b = .spawn (.reload d none)) ∧
          Tomato.act (stOf p') (s.stores p') b = some t ∧ s'.stores = put s.stores p' t := by
      intro x hx hx'
      obtain ⟨t, ht, hs⟩ := key x hx'
      exact ⟨p, a, t, .inl rfl, ht, by rw [← hx, hs]⟩
    cases a with
    | jmStart d =>
      simp only [sact] at h
      split at h
      · rw [Option.map_eq_some_iff] at h
        obtain ⟨x, hx, rfl⟩ := h
        exact fin x rfl hx
      · cases h
    | spawn c =>
      simp only [sact] at h
      split at h
      · exact fin s' rfl h
      · split at h
        · exact fin s' rfl h
        · cases h
    | jmStep => exact fin s' rfl h
    | jmKill => exact fin s' rfl h
    | step i => exact fin s' rfl h
    | kill i => exact fin s' rfl h
    | env e => exact fin s' rfl h
  | setup p d =>
    right
    simp only [sact] at h
    split at h
    · next hd =>
      rw [Option.map_eq_some_iff] at h
      obtain ⟨t, ht, rfl⟩ := h
      exact ⟨p, _, t, .inr ⟨d, rfl, hd, rfl⟩, ht, rfl⟩
    · cases h
  | reload parsed =>
    left
    simp only [sact] at h
    split at h
    · split at h
      · cases h
      · cases h; rfl
    · cases h

/-- Every database evolves as the one of `Verif/System.lean`. -/
theorem store_steps {stOf : String → String} {s s' : SSys} (h : SSteps stOf s s') (p : String) :
    Steps (stOf p) (s.stores p) (s'.stores p) := by
  induction h with
  | refl => exact .refl _
  | @tail s1 s2 a _ ha ih =>
    rcases sact_store ha with h1 | ⟨q, b, t, -, ht, h1⟩
    · rw [h1]; exact ih
    · rw [h1]
      unfold put
      by_cases hq : p = q
      · subst hq
        rw [if_pos rfl]
        exact .tail ih ⟨b, ht⟩
      · rw [if_neg hq]; exact ih

/-! ## Databases that are not in use -/

/-- The operations of `setup`. -/
def SetupOp : Op → Prop
  | .getDrv _ | .getPip _ | .insertDrv _ => True
  | .insertPip p => p.jobid = none
  | _ => False

theorem setup_only (d : Daemon) (hd : d.status = .bootstrap) :
    Prog.Only (S := DB) SetupOp (Cmd.prog (.reload d none)) := by
  have h1 : ∀ l, Prog.Only (S := DB) SetupOp (bootstrapDrivers l) := by
    intro l
    induction l with
    | nil => trivial
    | cons n rest ih =>
      refine Prog.only_bind ((Prog.only_call _).mpr trivial) (fun r => ?_)
      cases r with
      | none =>
        refine Prog.only_bind (Prog.only_bind ((Prog.only_call _).mpr trivial)
          (fun _ => (Prog.only_call _).mpr trivial)) (fun _ => ?_)
        exact Prog.only_bind (Prog.only_assert _) (fun _ => ih)
      | some _ => exact ih
  have h2 : ∀ l, Prog.Only (S := DB) SetupOp (bootstrapPipelines l) := by
    intro l
    induction l with
    | nil => trivial
    | cons n rest ih =>
      refine Prog.only_bind ((Prog.only_call _).mpr trivial) (fun r => ?_)
      cases r with
      | none =>
        refine Prog.only_bind (Prog.only_bind ((Prog.only_call _).mpr rfl)
          (fun _ => (Prog.only_call _).mpr trivial)) (fun _ => ?_)
        exact Prog.only_bind (Prog.only_assert _) (fun _ => ih)
      | some _ => exact ih
  simp only [Cmd.prog, cmdReload, hd, if_pos]
  refine Prog.only_bind ?_ (fun _ => trivial)
  exact Prog.only_bind (h1 _) (fun _ => Prog.only_bind (h2 _) (fun _ => trivial))

/-- No daemon has worked on this database yet, except for making the rows it needs. -/
structure Unused (t : Sys) : Prop where
  jm : t.jm.ended = true
  others : ∀ p ∈ t.others, Prog.Only (S := DB) SetupOp p
  launches : t.w.launches = []
  pips : ∀ p ∈ t.w.pips, p.jobid = none
  jobs : t.w.jobs = []

theorem exec_setup {o : Op} (ho : SetupOp o) (w : World) (hp : ∀ p ∈ w.pips, p.jobid = none) :
    (exec o w).2.launches = w.launches ∧ (exec o w).2.jobs = w.jobs ∧
    ∀ p ∈ (exec o w).2.pips, p.jobid = none := by
  cases o with
  | getDrv n => exact ⟨rfl, rfl, hp⟩
  | getPip n => exact ⟨rfl, rfl, hp⟩
  | insertDrv d =>
    simp only [exec]
    split
    · exact ⟨rfl, rfl, hp⟩
    · exact ⟨rfl, rfl, hp⟩
  | insertPip q =>
    simp only [exec]
    split
    · exact ⟨rfl, rfl, hp⟩
    · refine ⟨rfl, rfl, fun p h => ?_⟩
      rcases List.mem_append.mp h with h | h
      · exact hp p h
      · rw [List.mem_singleton] at h
        rw [h]; exact ho
  | _ => cases ho

theorem unused_step {st : String} {t t' : Sys} (h : Unused t) {b : Act} (ha : Tomato.act st t b = some t')
    (hb : (∀ d, b ≠ .jmStart d) ∧
      ∀ c, b = .spawn c → c.launch.isSome = true ∨ ∃ d, c = .reload d none ∧ d.status = .bootstrap) :
    Unused t' := by
  obtain ⟨h1, h2, h3, h4, h5⟩ := h
  cases b with
  | jmStart d => exact absurd rfl (hb.1 d)
  | jmStep =>
    simp only [Tomato.act] at ha
    cases hj : t.jm with
    | pure x => rw [hj] at ha; cases ha
    | raise e => rw [hj] at ha; cases ha
    | op o k => rw [hj] at h1; cases h1
  | jmKill => cases ha; exact ⟨rfl, h2, h3, h4, h5⟩
  | spawn c =>
    simp only [Tomato.act] at ha
    rcases hb.2 c rfl with hc | ⟨d, rfl, hd⟩
    · obtain ⟨l, hl⟩ := Option.isSome_iff_exists.mp hc
      simp only [hl, h3, List.count_nil, Nat.not_lt_zero, if_false] at ha
      cases ha
    · cases ha
      refine ⟨h1, fun p hp => ?_, h3, h4, h5⟩
      rcases List.mem_append.mp hp with hp | hp
      · exact h2 p hp
      · rw [List.mem_singleton] at hp
        rw [hp]; exact setup_only d hd
  | step i =>
    simp only [Tomato.act] at ha
    cases hi : t.others[i]? with
    | none => rw [hi] at ha; cases ha
    | some p =>
      have hp := h2 p (List.mem_of_getElem? hi)
      rw [hi] at ha
      cases p with
      | pure x => cases ha
      | raise e => cases ha
      | op o k =>
        simp only [stepProg] at ha
        cases ha
        obtain ⟨g1, g2, g3⟩ := exec_setup hp.1 t.w h4
        refine ⟨h1, fun q hq => ?_, g1.trans h3, g3, g2.trans h5⟩
        rcases List.mem_or_eq_of_mem_set hq with hq | hq
        · exact h2 q hq
        · rw [hq]; exact hp.2 _
  | kill i =>
    cases ha
    refine ⟨h1, fun q hq => ?_, h3, h4, h5⟩
    rcases List.mem_or_eq_of_mem_set hq with hq | hq
    · exact h2 q hq
    · rw [hq]; trivial
  | env e =>
    cases ha
    cases e <;> exact ⟨h1, h2, h3, h4, h5⟩

/-- As long as the path does not change, all other databases stay unused. -/
theorem unused {stOf : String → String} {d : Daemon} {p : String} {s : SSys}
    (h : SStepsK stOf (SSys.start d p) s) (q : String) (hq : q ≠ p) : Unused (s.stores q) := by
  have hdb := h.db
  have : ∀ a b : SSys, SStepsK stOf a b → a.db = p → Unused (a.stores q) → Unused (b.stores q) := by
    intro a b hab ha hu
    induction hab with
    | refl => exact hu
    | @tail s1 s2 x h1 hx _ ih =>
      have hp : s1.db = p := (SStepsK.db h1).trans ha
      rcases sact_store hx with hs | ⟨r, b, t, hb, ht, hs⟩
      · rw [hs]; exact ih
      · rw [hs]
        unfold put
        by_cases hr : q = r
        · subst hr
          rw [if_pos rfl]
          refine unused_step ih ht ?_
          rcases hb with rfl | ⟨d', rfl, hd', rfl⟩
          · refine ⟨?_, ?_⟩
            · rintro d' rfl
              simp only [sact, hp] at hx
              rw [if_neg (fun h => hq h.1)] at hx
              cases hx
            · rintro c rfl
              left
              simp only [sact, hp] at hx
              cases hc : c.launch with
              | some l => rfl
              | none =>
                rw [hc] at hx
                simp only at hx
                rw [if_neg (fun h => hq h.1)] at hx
                cases hx
          · exact ⟨fun d h => (by cases h), fun c hc => (by cases hc; exact .inr ⟨d', rfl, hd'⟩)⟩
        · rw [if_neg hr]; exact ih
  exact this _ _ h rfl ⟨rfl, by simp [SSys.start, Sys.init], rfl, by simp [SSys.start, Sys.init], rfl⟩

end Tomato.Stores
