import Verif.Props.Supervision

/-!
# Snapshots: the record of the job (C82, C83)
-/

namespace Tomato.Props

/-- **C82** is violated, continued: what such a job leaves behind.  The record says that it is running,
no end is recorded, and its pipeline stays occupied (at least until its process has ended, which is the
case when all its threads have ended). -/
theorem C82_refuted_record (w : World) (id pid : Nat) (payload : Payload) (pip path : String) (e : PyErr)
    (j : Job) (hj : w.job? id = some j) :
    ∃ w', runW (tomatoJob id pid payload pip path (.raise e)) w = (.error e, w') ∧ w'.pips = w.pips ∧
      ∃ j', w'.job? id = some j' ∧ j'.status = .r ∧ j'.pid = some pid ∧ j'.completedAt = j.completedAt := by
  have hu := fun id ps w => run_updateJobId id ps w
  simp only [runW] at hu ⊢
  simp only [tomatoJob, jobConnect, jobPaths, Prog.bind_eq, Prog.run_bind, Do.run_now,
    exec_now, Prog.andThen_ok, hu, hj, Prog.pure_eq, Prog.run_pure, job?_update, Option.map_some, if_true]
  refine ⟨_, rfl, rfl, ?_⟩
  have h := job?_update2 w id
    [.pid (some pid), .status .r, .connectedAt (some w.clock)]
    [.respath (some (resPath payload id)),
      .snappath (some s!"{payload.outPath.getD ""}/snapshot.{id}.nc"), .jobpath (some path)]
  rw [hj] at h
  exact ⟨_, h, rfl, rfl, rfl⟩

example : (wRel.job? 1).isSome := rfl

/-! ## C83 -/

/-- The file of the periodic snapshots, if the payload asks for them: in the folder that it names. -/
def SnapFile (p : Payload) (id : Nat) (f : String) : Prop :=
  ∃ folder, p.snapshot = some (some folder) ∧ f = s!"{folder}/snapshot.{id}.nc"

/-- **C83** (`_partial`: only if the payload names neither an output folder nor a snapshot folder): the
snapshots are stored in the folder from which the job was submitted. -/
theorem C83_default_partial (p : Payload) (cwd : String) (id : Nat) (path : String) (w : World) (j : Job)
    (hj : w.job? id = some j) (h1 : p.outPath = none) (h2 : p.snapshot = some none) :
    ∃ f j' w', runW (jobPaths id (fillPaths p cwd) path) w = (.ok j', w') ∧ w'.job? id = some j' ∧
      j'.snappath = some f ∧ SnapFile (fillPaths p cwd) id f := by
  have hu := fun id ps w => run_updateJobId id ps w
  have hf : (fillPaths p cwd).outPath = some cwd ∧ (fillPaths p cwd).snapshot = some (some cwd) := by
    simp [fillPaths, h1, h2]
  rw [jobPaths, hu, hj]
  simp only
  refine ⟨_, _, _, rfl, ?_, rfl, cwd, hf.2, ?_⟩
  · simp only [job?_update, hj, Option.map_some, if_true]
  · rw [hf.1]; rfl

/-- **C83**, exactly: the snapshots of a job which asks for them are stored in the folder named for
them (or by default in that of the submission) if and only if this is also the output folder (or its
default). -/
theorem C83_exact (p : Payload) (cwd : String) (id : Nat) (path : String) (w : World) (j : Job)
    (hj : w.job? id = some j) (x : Option String) (hx : p.snapshot = some x) :
    ∃ f j' w', runW (jobPaths id (fillPaths p cwd) path) w = (.ok j', w') ∧ w'.job? id = some j' ∧
      j'.snappath = some f ∧
      (SnapFile (fillPaths p cwd) id f ↔ x.getD cwd = p.outPath.getD cwd) := by
  have hu := fun id ps w => run_updateJobId id ps w
  have hf : (fillPaths p cwd).outPath = some (p.outPath.getD cwd) ∧
      (fillPaths p cwd).snapshot = some (some (x.getD cwd)) := by
    cases h1 : p.outPath <;> cases x <;> simp [fillPaths, h1, hx]
  have inj : ∀ a b : String, s!"{a}/snapshot.{id}.nc" = s!"{b}/snapshot.{id}.nc" → a = b := by
    intro a b h
    have h2 := congrArg String.toList h
    simp only [String.toList_append, toString, List.append_assoc] at h2
    exact String.toList_injective (List.append_cancel_right h2)
  rw [jobPaths, hu, hj]
  simp only
  refine ⟨_, _, _, rfl, ?_, rfl, ?_⟩
  · simp only [job?_update, hj, Option.map_some, if_true]
  · rw [hf.1]
    constructor
    · rintro ⟨folder, h1, h2⟩
      rw [hf.2] at h1
      cases h1
      exact (inj _ _ h2).symm
    · intro h
      exact ⟨_, hf.2, by rw [h]; rfl⟩

/-- Both cases of `C83_exact`: the folder of the submission named for the snapshots, and another one. -/
example : ((some "/home" : Option String).getD "/home" = (none : Option String).getD "/home") ∧
    (some "/snapshots" : Option String).getD "/home" ≠ (some "/data" : Option String).getD "/home" := by decide

/-- **C83** is violated: the folder named in the payload for the snapshots (`ketchup submit` fills it in
if it is missing) is never used. -/
theorem C83_refuted : (∀ (id : Nat) (p : Payload) (x : Option (Option String)) (path : String),
      jobPaths id { p with snapshot := x } path = jobPaths id p path) ∧
    ∃ (p : Payload) (w' : World) (j' : Job), p.snapshot = some (some "/snapshots") ∧
      runW (jobPaths 1 p "jobs/1") wRel = (.ok j', w') ∧ ∀ f, j'.snappath = some f → ¬ SnapFile p 1 f := by
  refine ⟨fun _ _ _ _ => rfl, { sample := "a", method := [], outPath := some "/data", snapshot := some (some "/snapshots") },
    _, _, rfl, rfl, ?_⟩
  rintro f hf ⟨folder, h1, h2⟩
  cases h1
  have : f = "/data/snapshot.1.nc" := (Option.some.inj hf).symm
  rw [this] at h2
  exact absurd h2 (by decide)

end Tomato.Props
