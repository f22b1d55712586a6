import Verif.Stores
import Verif.Props.System
import Mathlib.Tactic.ByContra

/-!
# C100: reloading does not lose track of the jobs
-/

namespace Tomato.Props

open Tomato.Stores

/-- Each database on its own has the guarantees of `Verif/System.lean`, whatever is reloaded. -/
theorem C100_each {stOf : String → String} {d : Daemon} {p : String} {s : SSys}
    (h : SSteps stOf (SSys.start d p) s) (q : String) : Reachable (stOf q) (s.stores q) :=
  store_steps h q

/-- **C100** (`_partial`: as long as the path of the database does not change, see `C100_refuted`): all jobs
known to the daemon stay known to it with what was submitted, and no pipeline is given to two jobs, in
whatever databases they are recorded. -/
theorem C100_partial {stOf : String → String} {d : Daemon} {p : String} {s s' : SSys}
    (h : SStepsK stOf (SSys.start d p) s) (h' : SStepsK stOf s s') :
    (∀ j ∈ (s.stores s.db).w.jobs, ∃ j' ∈ (s'.stores s'.db).w.jobs, j'.id = j.id ∧
      j'.payload = j.payload ∧ j'.jobname = j.jobname ∧ j'.submittedAt = j.submittedAt) ∧
    (∀ q q' a b i j, a ∈ (s'.stores q).w.pips → b ∈ (s'.stores q').w.pips → a.name = b.name →
      a.jobid = some i → b.jobid = some j → q = q' ∧ i = j) ∧
    (∀ q l, l ∈ (s'.stores q).w.launches → q = s'.db) := by
  have hall := h.trans h'
  have hdb : s'.db = p := hall.db
  have hun : ∀ q, q ≠ s'.db → Unused (s'.stores q) := fun q hq => unused hall q (by rw [← hdb]; exact hq)
  refine ⟨?_, ?_, ?_⟩
  · intro j hj
    rw [h'.db]
    exact C03_records_immutable (C100_each h.weaken s.db) (store_steps h'.weaken s.db) j hj
  · intro q q' a b i j ha hb hab hai hbj
    have hq : q = s'.db := by
      by_contra hq
      have := (hun q hq).pips a ha
      rw [hai] at this; cases this
    have hq' : q' = s'.db := by
      by_contra hq
      have := (hun q' hq).pips b hb
      rw [hbj] at this; cases this
    refine ⟨hq.trans hq'.symm, ?_⟩
    rw [hq] at ha
    rw [hq'] at hb
    have hwf := reachable_wf (C100_each hall.weaken s'.db)
    have h1 := hwf.pip?_mem ha
    have h2 := hwf.pip?_mem hb
    rw [hab, h2] at h1
    cases h1
    rw [hai] at hbj
    exact Option.some.inj hbj
  · intro q l hl
    by_contra hq
    rw [(hun q hq).launches] at hl
    cases hl

/-- A reload that is refused leaves the daemon as it was. -/
theorem cmdReload_refused {d d' : Daemon} {parsed : Option (Settings × DeviceFile)} {w : World} {r : CReply}
    (hd : d.status = .running) (h : (runW (cmdReload d parsed) w).1 = .ok (r, d')) (hr : r.success = false) :
    d' = d := by
  unfold cmdReload at h
  rw [if_neg (by rw [hd]; decide)] at h
  cases parsed with
  | none => cases h; rfl
  | some sd =>
    obtain ⟨s, df⟩ := sd
    simp only [runW, Prog.bind_eq, Prog.run_bind, Do.run_pipsWhere, exec_pipsWhere, Prog.andThen_ok] at h
    generalize Prog.run exec (checkPipelines d.devicefile _ _ []) w = x1 at h
    obtain ⟨e | (m | cs), w1⟩ := x1
    · cases h
    · cases h; rfl
    · simp only [Prog.andThen_ok, Prog.run_bind] at h
      generalize Prog.run exec (checkComponents d.devicefile _ cs []) w1 = x2 at h
      obtain ⟨e | (m | ds), w2⟩ := x2
      · cases h
      · cases h; rfl
      · simp only [Prog.andThen_ok, Prog.run_bind] at h
        generalize Prog.run exec (checkDrivers d.devicefile _ ds) w2 = x3 at h
        obtain ⟨e | (_ | m), w3⟩ := x3
        · cases h
        · cases h; cases hr
        · cases h; rfl

/-- **C100**, refused reloads: the daemon keeps its configuration and its database, and no database changes. -/
theorem C100_refused {stOf : String → String} {s s' : SSys}
    {parsed : Option (String × Settings × DeviceFile)} (h : sact stOf s (.reload parsed) = some s')
    (hr : ∀ r d', (runW (cmdReload s.daemon (parsed.map (·.2))) (s.stores s.db).w).1 = .ok (r, d') →
      r.success = false) :
    s'.daemon = s.daemon ∧ s'.db = s.db ∧ s'.stores = s.stores := by
  simp only [sact] at h
  split at h
  · next hd =>
    split at h
    · cases h
    · next r d' he =>
      have hf := hr r d' he
      cases h
      exact ⟨cmdReload_refused hd he hf, by simp [hf], rfl⟩
  · cases h

/-- For example if the files cannot be read. -/
example : ∃ s', sact (fun _ => "Jobs") (SSys.start dRun "A.sqlite") (.reload none) = some s' ∧
    s'.db = "A.sqlite" := ⟨_, rfl, rfl⟩

/-! ### The witness -/

/-- The folders of jobs of two databases. -/
def folders (p : String) : String := if p = "B.sqlite" then "JobsB" else "Jobs"

/-- The daemon after the reload. -/
def dMoved : Daemon := Daemon.build .running { storage := "JobsB" } dfS

/-- A job has been launched on the pipeline `p`, its process is running; an earlier daemon has used the
other database. -/
def beforeMove : List SAct :=
  [.setup "B.sqlite" dBoot] ++ (run 0 9).map (.local "B.sqlite") ++
  [.setup "A.sqlite" dBoot] ++ ((setup.tail ++ [.jmStart dRun] ++ jm 21 ++
    [.spawn (.tomatoJob 1 77 (plS "s") "p" "Jobs/1" (.pure none) trivial)] ++ run 5 2 : List Act)).map (.local "A.sqlite")

/-- Execute a list of actions that keep the path. -/
def sactsK (stOf : String → String) : SSys → List SAct → Option SSys
  | s, [] => some s
  | s, a :: as =>
    match sact stOf s a with
    | some s' => if s'.db = s.db then sactsK stOf s' as else none
    | none => none

theorem sstepsK_of_sactsK {stOf : String → String} {s s' : SSys} {as : List SAct}
    (h : sactsK stOf s as = some s') : SStepsK stOf s s' := by
  induction as generalizing s with
  | nil => cases h; exact .refl _
  | cons a as ih =>
    simp only [sactsK] at h
    split at h
    · next s1 h1 =>
      split at h
      · next hk => exact SStepsK.trans (.tail a (.refl _) h1 hk) (ih h)
      · cases h
    · cases h

/-- While the job is running, a reload with other settings of a driver is accepted; the
daemon goes on with the same database, in which the job is recorded. -/
example : ∃ s s', SStepsK folders (SSys.start dRun "A.sqlite") s ∧ SStepsK folders s s' ∧
    s'.daemon.settings.drivers = [("x", [("a", "b")])] ∧ s.daemon.settings.drivers = [] ∧
    (s.stores s.db).w.jobs.map (fun j => (j.id, j.status)) = [(1, .r)] ∧
    ∃ j' ∈ (s'.stores s'.db).w.jobs, j'.id = 1 := by
  have h : (sactsK folders (SSys.start dRun "A.sqlite") beforeMove).isSome = true := rfl
  obtain ⟨s, hs⟩ := Option.isSome_iff_exists.mp h
  have h' : (sactsK folders s
      [.reload (some ("A.sqlite", { drivers := [("x", [("a", "b")])] }, dfS))]).isSome = true := by
    cases hs; rfl
  obtain ⟨s', hs'⟩ := Option.isSome_iff_exists.mp h'
  have h1 : (s.stores s.db).w.jobs.map (fun j => (j.id, j.status)) = [(1, .r)] := by cases hs; rfl
  refine ⟨s, s', sstepsK_of_sactsK hs, sstepsK_of_sactsK hs', ?_, ?_, h1, ?_⟩
  · cases hs; cases hs'; rfl
  · cases hs; rfl
  · cases hj : (s.stores s.db).w.jobs with
    | nil => rw [hj] at h1; cases h1
    | cons j l =>
      obtain ⟨j', h2, h3, -⟩ := (C100_partial (sstepsK_of_sactsK hs) (sstepsK_of_sactsK hs')).1 j
        (by rw [hj]; exact List.mem_cons_self)
      refine ⟨j', h2, h3.trans ?_⟩
      rw [hj] at h1
      injection h1 with h1 _
      exact (Prod.mk.inj h1).1

/-- The sample is loaded again, another job is submitted and launched. -/
def afterMove : List SAct :=
  (([.spawn (.driverStart "d" 5001 71 "1.0")] ++ run 1 2 ++ [.env (.drv okDrv)] ++
   [.spawn (.load (some dMoved) "p" "s")] ++ run 2 3 ++
   [.spawn (.ready (some dMoved) "p")] ++ run 3 3 ++
   [.spawn (.submit (.parsed (plS "s")) none dMoved "/home")] ++ run 4 4 ++
   [.jmStart dMoved] ++ jm 21 : List Act)).map (.local "B.sqlite")

/-- **C100** is violated: the settings are changed to another database while job 1 is running on the
pipeline `p`.  The reload is accepted, the daemon then knows nothing of job 1, and gives the pipeline `p` to
another job while the first one is still running on it. -/
theorem C100_refuted : ∃ s s' s'',
    SSteps folders (SSys.start dRun "A.sqlite") s ∧
    (s.stores s.db).w.jobs.map (fun j => (j.id, j.status)) = [(1, .r)] ∧
    ((s.stores s.db).w.pip? "p").map (·.jobid) = some (some 1) ∧
    sact folders s (.reload (some ("B.sqlite", { storage := "JobsB" }, dfS))) = some s' ∧
    s'.db = "B.sqlite" ∧
    (runW (status [1]) (s'.stores s'.db).w).1 = .ok { success := false, msg := .noJob [1] } ∧
    SSteps folders s' s'' ∧
    (s''.stores "A.sqlite").w.jobs.map (fun j => (j.id, j.status)) = [(1, .r)] ∧
    ((s''.stores "A.sqlite").w.pip? "p").map (·.jobid) = some (some 1) ∧
    ((s''.stores "B.sqlite").w.pip? "p").map (·.jobid) = some (some 1) ∧
    (s''.stores "A.sqlite").w.launches = [⟨1, "p"⟩] ∧ (s''.stores "B.sqlite").w.launches = [⟨1, "p"⟩] := by
  have h : (sacts folders (SSys.start dRun "A.sqlite") beforeMove).isSome = true := rfl
  obtain ⟨s, hs⟩ := Option.isSome_iff_exists.mp h
  have h' : (sact folders s (.reload (some ("B.sqlite", { storage := "JobsB" }, dfS)))).isSome = true := by
    cases hs; rfl
  obtain ⟨s', hs'⟩ := Option.isSome_iff_exists.mp h'
  have h'' : (sacts folders s' afterMove).isSome = true := by cases hs; cases hs'; rfl
  obtain ⟨s'', hs''⟩ := Option.isSome_iff_exists.mp h''
  refine ⟨s, s', s'', ssteps_of_sacts hs, ?_, ?_, hs', ?_, ?_, ssteps_of_sacts hs'', ?_, ?_, ?_, ?_, ?_⟩
  all_goals (cases hs; cases hs'; cases hs''; rfl)

end Tomato.Props
