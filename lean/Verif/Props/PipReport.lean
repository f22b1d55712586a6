import Verif.Props.PipCmds

/-!
# What `tomato pipeline load / eject / ready` report (C121)

The reply contains the row of the pipeline.  Whatever other programs do in between: it is the row as the command has
seen it with its last look at the table; if the command is refused, the row shows why.  If no other program interferes,
it is the row as it is afterwards, and shows what was asked for; with interference this may fail (`C121_refuted`).
-/

namespace Tomato.Props

/-- `data` is what the command has seen with its last operation, a look at the pipeline `n`; or the table was not
touched at all, then there is no `data` and no success.  If a row is reported and the command was refused, the row has
`why`. -/
def RowSeen (n : String) (why : PipState → Prop) (rep : PReply) (h : Past) : Prop :=
  ((h = [] ∧ rep.data = none ∧ rep.success = false) ∨ ∃ h0 w, h = h0 ++ [(w, .getPip n)] ∧ rep.data = w.pip? n) ∧
  (rep.success = false → ∀ p, rep.data = some p → why p)

theorem hsafe_updatePip_seen {n : String} {ps : List PipParam} {h : Past} :
    HSafe (fun _ _ => True) (fun a h' => ∃ h0 w, h' = h0 ++ [(w, .getPip n)] ∧ a = World.pip? w n)
      (Tomato.updatePip n ps) h := by
  unfold Tomato.updatePip
  refine hsafe_bind (Q := fun _ _ => True) (by exact hsafe_call (o := .updatePip n ps) trivial (fun _ _ _ => trivial)) ?_
  intro _ h' _
  refine hsafe_call (o := .getPip n) trivial ?_
  intro w a ha
  simp only [exec, Except.ok.injEq] at ha
  exact ⟨h', w, rfl, ha.symm⟩

theorem hsafe_getPip_seen {β : Type} {n : String} {Q : β → Past → Prop} {f : Option PipState → P β}
    (hf : ∀ w : World, HSafe (fun _ _ => True) Q (f (w.pip? n)) [(w, .getPip n)]) :
    HSafe (fun _ _ => True) Q (Prog.bind (Do.getPip n) f) [] := by
  refine hsafe_bind (Q := fun a h => ∃ w : World, a = w.pip? n ∧ h = [(w, .getPip n)]) ?_ ?_
  · refine hsafe_call (A := fun _ _ => True) (o := .getPip n) trivial ?_
    intro w a ha
    simp only [exec, Except.ok.injEq] at ha
    exact ⟨w, ha.symm, rfl⟩
  · rintro _ _ ⟨w, rfl, rfl⟩
    exact hf w

/-- **C121**, whatever other programs do in between: `load` reports the row as it has seen it last; a row reported with
a refusal has a sample. -/
theorem C121_load (stat : Option Daemon) (n sample : String) :
    HSafe (fun _ _ => True) (RowSeen n (fun p => p.sampleid.isSome)) (pipelineLoad stat n sample) [] := by
  unfold pipelineLoad
  split
  · exact ⟨.inl ⟨rfl, rfl, rfl⟩, by rintro _ _ ⟨⟩⟩
  · split
    · exact ⟨.inl ⟨rfl, rfl, rfl⟩, by rintro _ _ ⟨⟩⟩
    · refine hsafe_getPip_seen fun w => ?_
      have hstore : HSafe (fun _ _ => True) (RowSeen n (fun p => p.sampleid.isSome = true))
          (pipelineLoad.store n sample) [(w, .getPip n)] := by
        unfold pipelineLoad.store
        refine hsafe_bind hsafe_updatePip_seen ?_
        rintro a h' ⟨h0, w', rfl, rfl⟩
        exact ⟨.inr ⟨h0, w', rfl, rfl⟩, by rintro ⟨⟩⟩
      cases hp : w.pip? n with
      | none => exact hstore
      | some p =>
        simp only
        split
        · next hs =>
          refine ⟨.inr ⟨[], w, rfl, hp.symm⟩, ?_⟩
          rintro _ q ⟨⟩
          exact hs
        · exact hstore

/-- **C121** for `eject`: a row reported with a refusal has a sample and a job. -/
theorem C121_eject (stat : Option Daemon) (n : String) :
    HSafe (fun _ _ => True) (RowSeen n (fun p => p.sampleid.isSome ∧ p.jobid.isSome)) (pipelineEject stat n) [] := by
  unfold pipelineEject
  split
  · exact ⟨.inl ⟨rfl, rfl, rfl⟩, by rintro _ _ ⟨⟩⟩
  · split
    · exact ⟨.inl ⟨rfl, rfl, rfl⟩, by rintro _ _ ⟨⟩⟩
    · refine hsafe_getPip_seen fun w => ?_
      cases hp : w.pip? n with
      | none => trivial
      | some p =>
        simp only
        split
        · exact ⟨.inr ⟨[], w, rfl, hp.symm⟩, by rintro ⟨⟩⟩
        · next hs =>
          split
          · next hj =>
            refine ⟨.inr ⟨[], w, rfl, hp.symm⟩, ?_⟩
            rintro _ q ⟨⟩
            exact ⟨by cases h : p.sampleid <;> simp_all, hj⟩
          · refine hsafe_bind hsafe_updatePip_seen ?_
            rintro a h' ⟨h0, w', rfl, rfl⟩
            exact ⟨.inr ⟨h0, w', rfl, rfl⟩, by rintro ⟨⟩⟩

/-- **C121** for `ready`: a row reported with a refusal is not ready and has a job. -/
theorem C121_ready (stat : Option Daemon) (n : String) :
    HSafe (fun _ _ => True) (RowSeen n (fun p => p.ready = false ∧ p.jobid.isSome)) (pipelineReady stat n) [] := by
  unfold pipelineReady
  split
  · exact ⟨.inl ⟨rfl, rfl, rfl⟩, by rintro _ _ ⟨⟩⟩
  · split
    · exact ⟨.inl ⟨rfl, rfl, rfl⟩, by rintro _ _ ⟨⟩⟩
    · refine hsafe_getPip_seen fun w => ?_
      cases hp : w.pip? n with
      | none => trivial
      | some p =>
        simp only
        split
        · exact ⟨.inr ⟨[], w, rfl, hp.symm⟩, by rintro ⟨⟩⟩
        · next hs =>
          split
          · next hj =>
            refine ⟨.inr ⟨[], w, rfl, hp.symm⟩, ?_⟩
            rintro _ q ⟨⟩
            exact ⟨by simpa using hs, hj⟩
          · refine hsafe_bind hsafe_updatePip_seen ?_
            rintro a h' ⟨h0, w', rfl, rfl⟩
            exact ⟨.inr ⟨h0, w', rfl, rfl⟩, by rintro ⟨⟩⟩

/-- The row afterwards, if the pipeline is configured; a row reported with success has `done`. -/
def RowAfter (stat : Option Daemon) (n : String) (done : PipState → Prop) (rep : PReply) (w' : World) : Prop :=
  (∀ d, stat = some d → (Dict.get? d.devicefile.pipelines n).isSome → rep.data = w'.pip? n) ∧
  (rep.success = true → ∀ p, rep.data = some p → done p)

/-- **C121**, `_partial`: without interference of other programs the row reported is the one which the pipeline has
afterwards, and with success it shows what was asked for.  Missing: interference between the update and the last look
(`C121_refuted`). -/
theorem C121_told_partial (w : World) (stat : Option Daemon) (n sample : String) :
    (∀ rep w', runW (pipelineLoad stat n sample) w = (.ok rep, w') →
      RowAfter stat n (fun p => p.sampleid = some sample ∧ p.ready = false) rep w') ∧
    (∀ rep w', runW (pipelineEject stat n) w = (.ok rep, w') → RowAfter stat n (fun p => p.sampleid = none) rep w') ∧
    (∀ rep w', runW (pipelineReady stat n) w = (.ok rep, w') → RowAfter stat n (fun p => p.ready = true) rep w') := by
  cases stat with
  | none =>
    refine ⟨?_, ?_, ?_⟩ <;>
    · intro rep w' h
      cases h
      exact ⟨by rintro _ ⟨⟩, by rintro ⟨⟩⟩
  | some d =>
    by_cases hm : (Dict.get? d.devicefile.pipelines n).isSome
    swap
    · have hm' : (!Dict.mem d.devicefile.pipelines n) = true := by simp [Dict.mem, hm]
      refine ⟨?_, ?_, ?_⟩ <;> intro rep w' h
      · simp only [pipelineLoad, hm', if_true] at h
        cases h
        exact ⟨by rintro _ ⟨⟩ h; exact absurd h hm, by rintro ⟨⟩⟩
      · simp only [pipelineEject, hm', if_true] at h
        cases h
        exact ⟨by rintro _ ⟨⟩ h; exact absurd h hm, by rintro ⟨⟩⟩
      · simp only [pipelineReady, hm', if_true] at h
        cases h
        exact ⟨by rintro _ ⟨⟩ h; exact absurd h hm, by rintro ⟨⟩⟩
    · have hm' : (!Dict.mem d.devicefile.pipelines n) = false := by simp [Dict.mem, hm]
      have hupd : ∀ (ps : List PipParam), World.pip? { w with pips := updPips n ps w.pips } n =
          (w.pip? n).map (fun p => applyPip p ps) := by
        intro ps
        rw [pip?_update]
        simp
      refine ⟨?_, ?_, ?_⟩ <;> intro rep w' h
      · have hr := run_updatePip n [.sampleid (some sample), .ready false] w
        simp only [pipelineLoad, hm', Bool.false_eq_true, if_false, runW, Prog.bind_eq, Prog.run_bind,
          Do.run_getPip, exec_getPip, Prog.andThen_ok] at h
        simp only [runW] at hr
        have hst : ∀ (h : Prog.run exec (pipelineLoad.store n sample) w = (.ok rep, w')),
            RowAfter (some d) n (fun p => p.sampleid = some sample ∧ p.ready = false) rep w' := by
          intro h
          simp only [pipelineLoad.store, Prog.bind_eq, Prog.run_bind, hr, Prog.andThen_ok, Prog.pure_eq,
            Prog.run_pure, Prod.mk.injEq, Except.ok.injEq] at h
          obtain ⟨rfl, rfl⟩ := h
          refine ⟨fun _ _ _ => (hupd _).symm, fun _ p hp => ?_⟩
          simp only [Option.map_eq_some_iff] at hp
          obtain ⟨q, -, rfl⟩ := hp
          exact ⟨rfl, rfl⟩
        cases hp : w.pip? n with
        | none => rw [hp] at h; exact hst h
        | some p =>
          rw [hp] at h
          simp only at h
          by_cases hs : p.sampleid.isSome
          · rw [if_pos hs] at h
            cases h
            exact ⟨fun _ _ _ => hp.symm, by rintro ⟨⟩⟩
          · rw [if_neg hs] at h
            exact hst h
      · have hr := run_updatePip n [.sampleid none, .ready false] w
        simp only [pipelineEject, hm', Bool.false_eq_true, if_false, runW, Prog.bind_eq, Prog.run_bind,
          Do.run_getPip, exec_getPip, Prog.andThen_ok] at h
        simp only [runW] at hr
        cases hp : w.pip? n with
        | none => rw [hp] at h; cases h
        | some p =>
          rw [hp] at h
          simp only at h
          by_cases hs : p.sampleid.isNone
          · rw [if_pos hs] at h
            cases h
            refine ⟨fun _ _ _ => hp.symm, ?_⟩
            rintro _ q ⟨⟩
            simpa using hs
          · rw [if_neg hs] at h
            by_cases hj : p.jobid.isSome
            · rw [if_pos hj] at h
              cases h
              exact ⟨fun _ _ _ => hp.symm, by rintro ⟨⟩⟩
            · rw [if_neg hj] at h
              simp only [Prog.run_bind, hr, Prog.andThen_ok, Prog.pure_eq,
                Prog.run_pure, Prod.mk.injEq, Except.ok.injEq] at h
              obtain ⟨rfl, rfl⟩ := h
              refine ⟨fun _ _ _ => (hupd _).symm, fun _ p hp => ?_⟩
              simp only [Option.map_eq_some_iff] at hp
              obtain ⟨q, -, rfl⟩ := hp
              rfl
      · have hr := run_updatePip n [.ready true] w
        simp only [pipelineReady, hm', Bool.false_eq_true, if_false, runW, Prog.bind_eq, Prog.run_bind,
          Do.run_getPip, exec_getPip, Prog.andThen_ok] at h
        simp only [runW] at hr
        cases hp : w.pip? n with
        | none => rw [hp] at h; cases h
        | some p =>
          rw [hp] at h
          simp only at h
          by_cases hs : p.ready = true
          · rw [if_pos hs] at h
            cases h
            refine ⟨fun _ _ _ => hp.symm, ?_⟩
            rintro _ q ⟨⟩
            exact hs
          · rw [if_neg hs] at h
            by_cases hj : p.jobid.isSome
            · rw [if_pos hj] at h
              cases h
              exact ⟨fun _ _ _ => hp.symm, by rintro ⟨⟩⟩
            · rw [if_neg hj] at h
              simp only [Prog.run_bind, hr, Prog.andThen_ok, Prog.pure_eq,
                Prog.run_pure, Prod.mk.injEq, Except.ok.injEq] at h
              obtain ⟨rfl, rfl⟩ := h
              refine ⟨fun _ _ _ => (hupd _).symm, fun _ p hp => ?_⟩
              simp only [Option.map_eq_some_iff] at hp
              obtain ⟨q, -, rfl⟩ := hp
              rfl

/-- Replies with rows, for success and for refusal. -/
example : (∃ rep w', runW (pipelineEject (some dp) "p2") wp = (.ok rep, w') ∧ rep.success = true ∧
      rep.data = some { name := "p2" }) ∧
    (∃ rep w', runW (pipelineEject (some dp) "p3") wp = (.ok rep, w') ∧ rep.success = false ∧
      rep.data = some { name := "p3", sampleid := some "t", jobid := some 7 }) :=
  ⟨⟨_, _, rfl, rfl, by decide⟩, ⟨_, _, rfl, rfl, by decide⟩⟩

/-- The result of a program, if its operations find the worlds `ws`. -/
def replyIn {α : Type} : P α → List World → Option α
  | .pure a, _ => some a
  | .raise _, _ => none
  | .op o k, w :: ws => replyIn (k (exec o w).1) ws
  | .op _ _, [] => none

/-- **C121 is false of the code under interleaving**: `load` has stored the sample, somebody else ejects it before
`load` looks at the row again; `load` reports success, with an empty pipeline. -/
theorem C121_refuted : ∃ (w1 w2 w3 : World) (rep : PReply),
    w2 = (exec (.updatePip "p1" [.sampleid (some "x"), .ready false]) w1).2 ∧
    w3 = (runW (pipelineEject (some dp) "p1") w2).2 ∧
    replyIn (pipelineLoad (some dp) "p1" "x") [w1, w1, w3] = some rep ∧
    rep.success = true ∧ rep.data = some { name := "p1" } :=
  ⟨wp, _, _, _, rfl, rfl, rfl, rfl, by decide⟩

end Tomato.Props
