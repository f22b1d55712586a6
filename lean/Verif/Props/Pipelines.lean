import Verif.PipLemmas

/-!
# Properties of `tomato pipeline load / eject / ready` (C12 - C14), complete executions
-/

namespace Tomato.Props

/-- A small table: an empty pipeline, one with a sample, a busy one. -/
def wp : World :=
  { pips := [{ name := "p1" }, { name := "p2", sampleid := some "s", ready := true },
             { name := "p3", sampleid := some "t", jobid := some 7 }] }

theorem wp_wf : wp.WF := by constructor <;> decide

/-- A configuration with these pipelines (and one that has no row). -/
def dp : Daemon :=
  { devicefile := { pipelines := [("p1", ⟨"p1", []⟩), ("p2", ⟨"p2", []⟩), ("p3", ⟨"p3", []⟩),
                                  ("p9", ⟨"p9", []⟩)] } }

/-! ## C12: load -/

/-- What a user may rely on for `load`: it is refused without effect, or the pipeline was
empty and now holds the sample, not ready, all else unchanged. -/
def LoadSpec (n sample : String) (w : World) (rep : PReply) (w' : World) : Prop :=
  (rep.success = false ∧ w' = w) ∨
  (rep.success = true ∧ ∃ p, w.pip? n = some p ∧ p.sampleid = none ∧
    w' = putPip w { p with sampleid := some sample, ready := false } ∧
    rep.data = some { p with sampleid := some sample, ready := false })

/-- **C12** (partial): `load` on a pipeline that has a row in the state table (all pipelines
configured at daemon start have one, see C30) succeeds exactly if the daemon runs, knows the
pipeline and the pipeline is empty.
Missing: a pipeline without row (added by a reload), see `C12_refuted`. -/
theorem C12_load_partial (w : World) (hw : w.WF) (stat : Option Daemon) (n sample : String)
    (hrow : (w.pip? n).isSome) :
    ∃ rep w', runW (pipelineLoad stat n sample) w = (.ok rep, w') ∧
      LoadSpec n sample w rep w' ∧
      (rep.success = true ↔ (∃ d, stat = some d ∧ (Dict.get? d.devicefile.pipelines n).isSome) ∧
        ∃ p, w.pip? n = some p ∧ p.sampleid = none) := by
  obtain ⟨p, hp⟩ := Option.isSome_iff_exists.mp hrow
  cases stat with
  | none => exact ⟨_, _, rfl, .inl ⟨rfl, rfl⟩, by simp⟩
  | some d =>
    unfold pipelineLoad
    by_cases hm : (Dict.get? d.devicefile.pipelines n).isSome
    · have hm' : (!Dict.mem d.devicefile.pipelines n) = false := by simp [Dict.mem, hm]
      simp only [hm', Bool.false_eq_true, if_false, runW, Prog.bind_eq, Prog.run_bind,
        Do.run_getPip, exec_getPip, Prog.andThen_ok, hp]
      by_cases hs : p.sampleid.isSome
      · rw [if_pos hs]
        refine ⟨_, _, rfl, .inl ⟨rfl, rfl⟩, ⟨(by rintro ⟨⟩), ?_⟩⟩
        rintro ⟨-, p', hp', hn⟩
        cases hp'
        rw [hn] at hs; cases hs
      · rw [if_neg hs]
        have hnone : p.sampleid = none := by simpa using hs
        have hr := run_updatePip n [.sampleid (some sample), .ready false] w
        simp only [runW, hp, Option.map_some] at hr
        simp only [pipelineLoad.store, Prog.bind_eq, Prog.run_bind, hr, Prog.andThen_ok,
          Prog.pure_eq, Prog.run_pure]
        refine ⟨_, _, rfl, .inr ⟨rfl, p, hp, hnone, ?_, rfl⟩, ?_⟩
        · rw [updPips_eq_putPip hw hp]; rfl
        · simp [hm, hnone]
    · have hm' : (!Dict.mem d.devicefile.pipelines n) = true := by simp [Dict.mem, hm]
      simp only [hm', if_true]
      exact ⟨_, _, rfl, .inl ⟨rfl, rfl⟩, by simp [hm]⟩

example : (wp.pip? "p1").isSome ∧ wp.WF := ⟨by decide, wp_wf⟩
example : ∃ rep w', runW (pipelineLoad (some dp) "p1" "x") wp = (.ok rep, w') ∧ rep.success = true ∧
    (w'.pip? "p1") = some { name := "p1", sampleid := some "x" } := ⟨_, _, rfl, rfl, by decide⟩
example : ∃ rep w', runW (pipelineLoad (some dp) "p2" "x") wp = (.ok rep, w') ∧
    rep.success = false := ⟨_, _, rfl, rfl⟩

/-- **C12 is false** for a configured pipeline without a row: `load` reports success and does
nothing. -/
theorem C12_refuted : ∃ (w : World) (d : Daemon) (rep : PReply) (w' : World), w.WF ∧
    (Dict.get? d.devicefile.pipelines "p9").isSome ∧
    runW (pipelineLoad (some d) "p9" "x") w = (.ok rep, w') ∧ rep.success = true ∧
    w'.pip? "p9" = none ∧ w'.pips = w.pips :=
  ⟨wp, dp, _, _, wp_wf, by decide, rfl, rfl, by decide, by decide⟩

/-! ## C13: eject -/

/-- **C13** (complete executions): `eject` on a pipeline with a row either is refused without
effect, or leaves the pipeline empty and not touched otherwise; with a job assigned and a
sample loaded it is refused. The claim about interleavings is false: see
`C13_refuted_interleaved` in `Verif/Props/System.lean`. -/
theorem C13_eject_partial (w : World) (hw : w.WF) (stat : Option Daemon) (n : String)
    (hrow : (w.pip? n).isSome) :
    ∃ rep w', runW (pipelineEject stat n) w = (.ok rep, w') ∧
      (rep.success = false → w' = w) ∧
      (rep.success = true → ∃ p, w.pip? n = some p ∧
        ((p.sampleid = none ∧ w' = w) ∨
         (p.jobid = none ∧ w' = putPip w { p with sampleid := none, ready := false }))) ∧
      (∀ p, w.pip? n = some p → p.jobid.isSome → p.sampleid.isSome → rep.success = false) := by
  obtain ⟨p, hp⟩ := Option.isSome_iff_exists.mp hrow
  cases stat with
  | none => exact ⟨_, _, rfl, fun _ => rfl, (by rintro ⟨⟩), fun _ _ _ _ => rfl⟩
  | some d =>
    unfold pipelineEject
    by_cases hm : (Dict.get? d.devicefile.pipelines n).isSome
    · have hm' : (!Dict.mem d.devicefile.pipelines n) = false := by simp [Dict.mem, hm]
      simp only [hm', Bool.false_eq_true, if_false, runW, Prog.bind_eq, Prog.run_bind,
        Do.run_getPip, exec_getPip, Prog.andThen_ok, hp]
      by_cases hs : p.sampleid.isNone
      · rw [if_pos hs]
        have hnone : p.sampleid = none := by simpa using hs
        refine ⟨_, _, rfl, fun _ => rfl, fun _ => ⟨p, rfl, .inl ⟨hnone, rfl⟩⟩, ?_⟩
        intro p' hp' _ h2
        cases hp'
        rw [hnone] at h2; cases h2
      · rw [if_neg hs]
        by_cases hj : p.jobid.isSome
        · rw [if_pos hj]
          exact ⟨_, _, rfl, fun _ => rfl, (by rintro ⟨⟩), fun _ _ _ _ => rfl⟩
        · rw [if_neg hj]
          have hr := run_updatePip n [.sampleid none, .ready false] w
          simp only [runW, hp, Option.map_some] at hr
          simp only [Prog.run_bind, hr, Prog.andThen_ok, Prog.pure_eq, Prog.run_pure]
          refine ⟨_, _, rfl, (by rintro ⟨⟩), fun _ => ⟨p, rfl, .inr ⟨by simpa using hj, ?_⟩⟩, ?_⟩
          · rw [updPips_eq_putPip hw hp]; rfl
          · intro p' hp' h1
            cases hp'
            exact absurd h1 hj
    · have hm' : (!Dict.mem d.devicefile.pipelines n) = true := by simp [Dict.mem, hm]
      simp only [hm', if_true]
      exact ⟨_, _, rfl, fun _ => rfl, (by rintro ⟨⟩), fun _ _ _ _ => rfl⟩

example : ∃ rep w', runW (pipelineEject (some dp) "p3") wp = (.ok rep, w') ∧ rep.success = false :=
  ⟨_, _, rfl, rfl⟩
example : ∃ rep w', runW (pipelineEject (some dp) "p2") wp = (.ok rep, w') ∧ rep.success = true ∧
    (w'.pip? "p2") = some { name := "p2" } := ⟨_, _, rfl, rfl, by decide⟩

/-! ## C14: ready -/

/-- **C14**: `ready` on a pipeline with a row never changes the sample or the job, touches
only the named pipeline, is refused (without effect) when a job is assigned and it is not
ready, and leaves the pipeline ready when it succeeds. -/
theorem C14_ready (w : World) (hw : w.WF) (stat : Option Daemon) (n : String)
    (hrow : (w.pip? n).isSome) :
    ∃ rep w', runW (pipelineReady stat n) w = (.ok rep, w') ∧
      (rep.success = false → w' = w) ∧
      (rep.success = true → ∃ p, w.pip? n = some p ∧ w' = putPip w { p with ready := true } ∧
        (p.ready = true ∨ p.jobid = none) ∧ rep.data = some { p with ready := true }) ∧
      (∀ p, w.pip? n = some p → p.ready = false → p.jobid.isSome → rep.success = false) := by
  obtain ⟨p, hp⟩ := Option.isSome_iff_exists.mp hrow
  cases stat with
  | none => exact ⟨_, _, rfl, fun _ => rfl, (by rintro ⟨⟩), fun _ _ _ _ => rfl⟩
  | some d =>
    unfold pipelineReady
    by_cases hm : (Dict.get? d.devicefile.pipelines n).isSome
    · have hm' : (!Dict.mem d.devicefile.pipelines n) = false := by simp [Dict.mem, hm]
      simp only [hm', Bool.false_eq_true, if_false, runW, Prog.bind_eq, Prog.run_bind,
        Do.run_getPip, exec_getPip, Prog.andThen_ok, hp]
      by_cases hs : p.ready = true
      · rw [if_pos hs]
        have hp1 : { p with ready := true } = p := by rw [← hs]
        refine ⟨_, _, rfl, fun _ => rfl, fun _ => ⟨p, rfl, ?_, .inl hs, by rw [hp1]⟩, ?_⟩
        · have := updPips_eq_putPip hw hp []
          rw [hp1]
          rw [applyPip_nil] at this
          rw [← this]
          simp [updPips]
        · intro p' hp' h2
          cases hp'
          rw [hs] at h2; cases h2
      · rw [if_neg hs]
        by_cases hj : p.jobid.isSome
        · rw [if_pos hj]
          exact ⟨_, _, rfl, fun _ => rfl, (by rintro ⟨⟩), fun _ _ _ _ => rfl⟩
        · rw [if_neg hj]
          have hr := run_updatePip n [.ready true] w
          simp only [runW, hp, Option.map_some] at hr
          simp only [Prog.run_bind, hr, Prog.andThen_ok, Prog.pure_eq, Prog.run_pure]
          refine ⟨_, _, rfl, (by rintro ⟨⟩),
            fun _ => ⟨p, rfl, ?_, .inr (by simpa using hj), rfl⟩, ?_⟩
          · rw [updPips_eq_putPip hw hp]; rfl
          · intro p' hp' h1 h2
            cases hp'
            exact absurd h2 hj
    · have hm' : (!Dict.mem d.devicefile.pipelines n) = true := by simp [Dict.mem, hm]
      simp only [hm', if_true]
      exact ⟨_, _, rfl, fun _ => rfl, (by rintro ⟨⟩), fun _ _ _ _ => rfl⟩

example : ∃ rep w', runW (pipelineReady (some dp) "p3") wp = (.ok rep, w') ∧ rep.success = false :=
  ⟨_, _, rfl, rfl⟩
example : ∃ rep w', runW (pipelineReady (some dp) "p1") wp = (.ok rep, w') ∧ rep.success = true :=
  ⟨_, _, rfl, rfl⟩

/-- **C14**: marking a pipeline ready a second time succeeds again and changes nothing. -/
theorem C14_ready_idempotent (w : World) (hw : w.WF) (stat : Option Daemon) (n : String)
    (rep : PReply) (w' : World) (hrow : (w.pip? n).isSome)
    (h : runW (pipelineReady stat n) w = (.ok rep, w')) (hs : rep.success = true) :
    ∃ rep', runW (pipelineReady stat n) w' = (.ok rep', w') ∧ rep'.success = true ∧
      rep'.data = rep.data := by
  obtain ⟨rep1, w1, h1, -, hsucc, -⟩ := C14_ready w hw stat n hrow
  rw [h] at h1
  cases h1
  obtain ⟨p, hp, rfl, -, hdata⟩ := hsucc hs
  have hp' : World.pip? (putPip w { p with ready := true }) n = some { p with ready := true } := by
    have := pip?_update w n n [.ready true]
    rw [updPips_eq_putPip hw hp, hp] at this
    simpa [PipParam.apply] using this
  cases stat with
  | none =>
    have := congrArg (fun x => x.1) h
    simp only [pipelineReady, Prog.pure_eq, Prog.run_pure, Except.ok.injEq] at this
    rw [← this] at hs; cases hs
  | some d =>
    unfold pipelineReady at h ⊢
    by_cases hm : (Dict.get? d.devicefile.pipelines n).isSome
    · have hm' : (!Dict.mem d.devicefile.pipelines n) = false := by simp [Dict.mem, hm]
      simp only [hm', Bool.false_eq_true, if_false, runW, Prog.bind_eq, Prog.run_bind,
        Do.run_getPip, exec_getPip, Prog.andThen_ok, hp', if_true]
      exact ⟨_, rfl, rfl, hdata.symm⟩
    · have hm' : (!Dict.mem d.devicefile.pipelines n) = true := by simp [Dict.mem, hm]
      simp only [hm', if_true] at h
      have := congrArg (fun x => x.1) h
      simp only [Prog.pure_eq, Prog.run_pure, Except.ok.injEq] at this
      rw [← this] at hs; cases hs

example : ∃ rep w', runW (pipelineReady (some dp) "p1") wp = (.ok rep, w') ∧ rep.success = true ∧
    (wp.pip? "p1").isSome := ⟨_, _, rfl, rfl, rfl⟩

/-! ## Names without a row -/

/-- **C14** for all other names: a pipeline without a row can not be made ready; the command is
refused or fails with an exception, and nothing changes. -/
theorem C14_ready_no_row (w : World) (stat : Option Daemon) (n : String) (hrow : w.pip? n = none) :
    (runW (pipelineReady stat n) w).2 = w ∧
    ∀ rep, (runW (pipelineReady stat n) w).1 = .ok rep → rep.success = false := by
  cases stat with
  | none => exact ⟨rfl, fun rep h => by cases h; rfl⟩
  | some d =>
    unfold pipelineReady
    by_cases hm : (Dict.get? d.devicefile.pipelines n).isSome
    · have hm' : (!Dict.mem d.devicefile.pipelines n) = false := by simp [Dict.mem, hm]
      simp only [hm', Bool.false_eq_true, if_false, runW, Prog.bind_eq, Prog.run_bind,
        Do.run_getPip, exec_getPip, Prog.andThen_ok, hrow]
      exact ⟨rfl, fun rep h => by cases h⟩
    · have hm' : (!Dict.mem d.devicefile.pipelines n) = true := by simp [Dict.mem, hm]
      simp only [hm', if_true]
      exact ⟨rfl, fun rep h => by cases h; rfl⟩

/-- **C13** for all other names: nothing can be ejected from a pipeline without a row; the command is
refused or fails with an exception, and nothing changes. -/
theorem C13_eject_no_row (w : World) (stat : Option Daemon) (n : String) (hrow : w.pip? n = none) :
    (runW (pipelineEject stat n) w).2 = w ∧
    ∀ rep, (runW (pipelineEject stat n) w).1 = .ok rep → rep.success = false := by
  cases stat with
  | none => exact ⟨rfl, fun rep h => by cases h; rfl⟩
  | some d =>
    unfold pipelineEject
    by_cases hm : (Dict.get? d.devicefile.pipelines n).isSome
    · have hm' : (!Dict.mem d.devicefile.pipelines n) = false := by simp [Dict.mem, hm]
      simp only [hm', Bool.false_eq_true, if_false, runW, Prog.bind_eq, Prog.run_bind,
        Do.run_getPip, exec_getPip, Prog.andThen_ok, hrow]
      exact ⟨rfl, fun rep h => by cases h⟩
    · have hm' : (!Dict.mem d.devicefile.pipelines n) = true := by simp [Dict.mem, hm]
      simp only [hm', if_true]
      exact ⟨rfl, fun rep h => by cases h; rfl⟩

/-- **C12** for all other names (`_partial`: the success reported for a configured pipeline without a
row is wrong, `C12_refuted`): nothing changes, and the command reports success exactly if the daemon
runs and the name is configured; the reply then shows no pipeline. -/
theorem C12_load_no_row_partial (w : World) (stat : Option Daemon) (n sample : String)
    (hrow : w.pip? n = none) :
    ∃ rep, runW (pipelineLoad stat n sample) w = (.ok rep, w) ∧
      (rep.success = true ↔ ∃ d, stat = some d ∧ (Dict.get? d.devicefile.pipelines n).isSome) ∧
      rep.data = none := by
  cases stat with
  | none => exact ⟨_, rfl, ⟨fun h => (by cases h), fun ⟨_, h, _⟩ => (by cases h)⟩, rfl⟩
  | some d =>
    unfold pipelineLoad
    by_cases hm : (Dict.get? d.devicefile.pipelines n).isSome
    · have hm' : (!Dict.mem d.devicefile.pipelines n) = false := by simp [Dict.mem, hm]
      have hr := run_updatePip n [.sampleid (some sample), .ready false] w
      simp only [runW, hrow, Option.map_none] at hr
      have hw' : ({ w with pips := updPips n [.sampleid (some sample), .ready false] w.pips } : World) = w := by
        have : updPips n [.sampleid (some sample), .ready false] w.pips = w.pips := by
          unfold updPips
          refine (List.map_congr_left ?_).trans (List.map_id w.pips)
          intro x hx
          rw [if_neg]
          · rfl
          · intro hxn
            have := List.find?_eq_none.mp hrow x hx
            simp [hxn] at this
        rw [this]
      rw [hw'] at hr
      simp only [hm', Bool.false_eq_true, if_false, runW, Prog.bind_eq, Prog.run_bind,
        Do.run_getPip, exec_getPip, Prog.andThen_ok, hrow, pipelineLoad.store, hr, Prog.pure_eq, Prog.run_pure]
      exact ⟨_, rfl, ⟨fun _ => ⟨d, rfl, hm⟩, fun _ => rfl⟩, rfl⟩
    · have hm' : (!Dict.mem d.devicefile.pipelines n) = true := by simp [Dict.mem, hm]
      simp only [hm', if_true]
      exact ⟨_, rfl, ⟨fun h => (by cases h), fun ⟨d', h, h'⟩ => by cases h; exact absurd h' hm⟩, rfl⟩

example : wp.pip? "p9" = none ∧ (Dict.get? dp.devicefile.pipelines "p9").isSome := by decide
example : wp.pip? "p8" = none ∧ Dict.get? dp.devicefile.pipelines "p8" = none := by decide

end Tomato.Props
