import Verif.Props.PipReset
import Verif.Props.Pipelines

/-!
# C12 - C14: `tomato pipeline` interleaved with other programs

`load`, `eject` and `ready` read the row of the pipeline and update it later; in between anything may
happen (`C13_refuted_interleaved`).  What remains true: they write at most once, only to the named
pipeline, only the fields concerned, and only if they have seen the pipeline in a state in which this
is allowed.
-/

namespace Tomato.Props

/-- If the operation writes anything, then it sets the fields `ps` of the pipeline `n`; this was not
done before; and the pipeline was seen, by an earlier operation, in a state with `ok`. -/
def WriteJustified (n : String) (ps : List PipParam) (ok : Option PipState → Prop) (h : Past) (o : Op) : Prop :=
  (∃ m, o = .getPip m) ∨
  (o = .updatePip n ps ∧ (∀ x ∈ h, ∃ m, x.2 = .getPip m) ∧ ∃ x ∈ h, ok (x.1.pip? n))

theorem hsafe_updatePip_once {n : String} {ps : List PipParam} {ok : Option PipState → Prop} {h : Past}
    (h0 : ∀ x ∈ h, ∃ m, x.2 = .getPip m) (hs : ∃ x ∈ h, ok (x.1.pip? n)) :
    HSafe (WriteJustified n ps ok) (fun _ _ => True) (Tomato.updatePip n ps) h := by
  unfold Tomato.updatePip
  refine hsafe_bind (Q := fun _ _ => True) (hsafe_call (.inr ⟨rfl, h0, hs⟩) (fun _ _ _ => trivial)) ?_
  intro _ _ _
  exact hsafe_call (.inl ⟨_, rfl⟩) (fun _ _ _ => trivial)

theorem hsafe_getPip_first {β : Type} {n : String} {ps : List PipParam} {ok : Option PipState → Prop}
    {f : Option PipState → P β}
    (hf : ∀ w : World, HSafe (WriteJustified n ps ok) (fun _ _ => True) (f (w.pip? n)) [(w, .getPip n)]) :
    HSafe (WriteJustified n ps ok) (fun _ _ => True) (Prog.bind (Do.getPip n) f) [] := by
  refine hsafe_bind (Q := fun a h => ∃ w : World, a = w.pip? n ∧ h = [(w, .getPip n)])
    (hsafe_call (.inl ⟨_, rfl⟩) ?_) ?_
  · intro w a ha
    simp only [exec, Except.ok.injEq] at ha
    exact ⟨w, ha.symm, rfl⟩
  · rintro _ _ ⟨w, rfl, rfl⟩
    exact hf w

/-- **C13** (whatever other programs do in between): `eject` removes the sample only of the named
pipeline, at most once, and only if it has seen the pipeline without a job during this command. -/
theorem C13_eject_justified (stat : Option Daemon) (n : String) :
    HSafe (WriteJustified n [.sampleid none, .ready false] (fun r => ∃ p, r = some p ∧ p.jobid = none))
      (fun _ _ => True) (pipelineEject stat n) [] := by
  unfold pipelineEject
  split
  · trivial
  · split
    · trivial
    · refine hsafe_getPip_first fun w => ?_
      cases hp : w.pip? n with
      | none => trivial
      | some p =>
        simp only
        split
        · trivial
        · split
          · trivial
          · next hj =>
            refine hsafe_bind (hsafe_updatePip_once (by simp) ⟨_, List.mem_singleton.mpr rfl, p, hp, by simpa using hj⟩)
              (fun _ _ _ => trivial)

/-- **C12** (whatever other programs do in between): `load` stores the given sample, only in the named
pipeline, at most once, and only if it has seen the pipeline empty (or without a row) during this
command. -/
theorem C12_load_justified (stat : Option Daemon) (n sample : String) :
    HSafe (WriteJustified n [.sampleid (some sample), .ready false] (fun r => ∀ p, r = some p → p.sampleid = none))
      (fun _ _ => True) (pipelineLoad stat n sample) [] := by
  unfold pipelineLoad
  split
  · trivial
  · split
    · trivial
    · refine hsafe_getPip_first fun w => ?_
      have hstore : (∀ p, w.pip? n = some p → p.sampleid = none) →
          HSafe (WriteJustified n [.sampleid (some sample), .ready false] (fun r => ∀ p, r = some p → p.sampleid = none))
          (fun _ _ => True) (pipelineLoad.store n sample) [(w, .getPip n)] := by
        intro hok
        unfold pipelineLoad.store
        exact hsafe_bind (hsafe_updatePip_once (by simp) ⟨_, List.mem_singleton.mpr rfl, hok⟩) (fun _ _ _ => trivial)
      cases hp : w.pip? n with
      | none => exact hstore (fun p h => by rw [hp] at h; cases h)
      | some p =>
        simp only
        split
        · trivial
        · next hs => exact hstore (fun q h => by rw [hp] at h; cases h; simpa using hs)

/-- **C14** (whatever other programs do in between): `ready` marks only the named pipeline, at most
once, changes no other field, and only if it has seen the pipeline without a job during this command. -/
theorem C14_ready_justified (stat : Option Daemon) (n : String) :
    HSafe (WriteJustified n [.ready true] (fun r => ∃ p, r = some p ∧ p.jobid = none))
      (fun _ _ => True) (pipelineReady stat n) [] := by
  unfold pipelineReady
  split
  · trivial
  · split
    · trivial
    · refine hsafe_getPip_first fun w => ?_
      cases hp : w.pip? n with
      | none => trivial
      | some p =>
        simp only
        split
        · trivial
        · split
          · trivial
          · next hj =>
            refine hsafe_bind (hsafe_updatePip_once (by simp) ⟨_, List.mem_singleton.mpr rfl, p, hp, by simpa using hj⟩)
              (fun _ _ _ => trivial)

/-- The hypotheses are met by the example table: `p2` is seen free and then written. -/
example : ∃ p, wp.pip? "p2" = some p ∧ p.jobid = none ∧ p.sampleid = some "s" := ⟨_, rfl, rfl, rfl⟩

end Tomato.Props
