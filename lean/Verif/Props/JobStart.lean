import Verif.JobStart
import Verif.Props.JobThread
import Verif.Props.DriverRespawn

/-!
# The start of a job (C84)
-/

namespace Tomato.JStart

open Tomato.JobT

/-- In a world that does not change meanwhile, the threads are those of `JobT.threads`. -/
theorem run_startThreads (df : DeviceFile) (pl : Dict String (List Task)) (w : World) :
    ∀ comps, runW (startThreads df pl comps) w =
      (match threads df w.drv? pl comps with
        | (ss, none) => .ok ss
        | (_, some e) => .error e, w) := by
  intro comps
  induction comps with
  | nil => rfl
  | cons c comps ih =>
    obtain ⟨crole, cname⟩ := c
    simp only [startThreads, threads]
    cases df.components.get? cname with
    | none => rfl
    | some cmp =>
      simp only
      cases pl.get? crole with
      | none => exact ih
      | some tasks =>
        simp only
        cases df.devices.get? cmp.device with
        | none => rfl
        | some device =>
          simp only [runW, Prog.bind_eq, Prog.run_bind, Do.run_getDrv, exec_getDrv, Prog.andThen_ok]
          cases w.drv? cmp.driver with
          | none => rfl
          | some drv =>
            simp only
            cases df.drivers.get? cmp.driver with
            | none => rfl
            | some _ =>
              simp only [Prog.run_bind]
              simp only [runW] at ih
              rw [ih]
              rcases threads df w.drv? pl comps with ⟨ss, e⟩
              cases e <;> rfl

theorem threads_port (df : DeviceFile) (getDrv : String → Option DrvState) (pl : Dict String (List Task)) :
    ∀ comps, ∀ st ∈ (threads df getDrv pl comps).1, ∃ r, getDrv st.cmp.driver = some r ∧ st.port = r.port := by
  intro comps
  induction comps with
  | nil => intro st h; cases h
  | cons c comps ih =>
    obtain ⟨crole, cname⟩ := c
    simp only [threads]
    cases df.components.get? cname with
    | none => intro st h; cases h
    | some cmp =>
      simp only
      cases pl.get? crole with
      | none => exact ih
      | some tasks =>
        simp only
        cases df.devices.get? cmp.device with
        | none => intro st h; cases h
        | some device =>
          simp only
          cases hd : getDrv cmp.driver with
          | none => intro st h; cases h
          | some drv =>
            simp only
            cases df.drivers.get? cmp.driver with
            | none => intro st h; cases h
            | some _ =>
              intro st h
              rcases List.mem_cons.mp h with rfl | h
              · exact ⟨drv, hd, rfl⟩
              · exact ih st h

end Tomato.JStart

namespace Tomato.Props

open Tomato.JStart Tomato.JobT

/-! ## C84 -/

/-- **C84** (`_partial`: "not before" holds if the table does not change between the check and the start
of the threads, see `C84_refuted_race`; "as soon as" is false, see `C84_refuted`): the waiting loop is
left if and only if every driver in the table has a port; then every thread is started with the port
of the driver of its component. -/
theorem C84_ports_partial (w : World) (d : Daemon) (pip : String) (method : List Task) :
    (runW (pollPorts (some d)) w = (.ok (.go d), w) ↔ ∀ r ∈ w.drvs, r.port.isSome) ∧
    (runW (pollPorts (some d)) w = (.ok .again, w) ↔ ∃ r ∈ w.drvs, r.port = none) ∧
    ∀ ss w', runW (pollPorts (some d)) w = (.ok (.go d), w) → runW (startJob d pip method) w = (.ok ss, w') →
      ∀ st ∈ ss, ∃ p r, st.port = some p ∧ w.drv? st.cmp.driver = some r ∧ r.port = some p := by
  have hrun : runW (pollPorts (some d)) w =
      (.ok (if w.drvs.all (fun r => r.port.isSome) then .go d else .again), w) := by
    have hfil : w.drvs.filter (fun _ => true) = w.drvs := by simp
    simp only [pollPorts, runW, Prog.bind_eq, Prog.run_bind, Do.run_drvsWhere, exec_drvsWhere,
      Prog.andThen_ok, hfil]
    split <;> rfl
  have hgo : runW (pollPorts (some d)) w = (.ok (.go d), w) ↔ ∀ r ∈ w.drvs, r.port.isSome := by
    rw [hrun, ← List.all_eq_true]
    by_cases h : w.drvs.all (fun r => r.port.isSome) = true
    · simp [h]
    · simp [h]
  refine ⟨hgo, ?_, ?_⟩
  · rw [hrun]
    by_cases h : w.drvs.all (fun r => r.port.isSome) = true
    · simp only [h, if_true]
      rw [List.all_eq_true] at h
      constructor
      · intro h'; simp at h'
      · rintro ⟨r, hr, hp⟩
        have := h r hr
        rw [hp] at this
        cases this
    · simp only [h]
      constructor
      · intro _
        simpa using h
      · intro _; rfl
  · intro ss w' hg hs st hst
    have hall := hgo.mp hg
    unfold startJob at hs
    cases hpl : d.devicefile.pipelines.get? pip with
    | none => rw [hpl] at hs; simp [runW] at hs
    | some pl =>
      rw [hpl] at hs
      simp only [run_startThreads] at hs
      have hp := threads_port d.devicefile w.drv? (plan method) pl.components
      rcases ht : threads d.devicefile w.drv? (plan method) pl.components with ⟨l, e⟩
      rw [ht] at hs hp
      cases e with
      | some e => simp at hs
      | none =>
        simp only [Prod.mk.injEq, Except.ok.injEq] at hs
        obtain ⟨rfl, -⟩ := hs
        obtain ⟨r, h1, h2⟩ := hp st hst
        have hsome := hall r (drv?_some h1).2
        obtain ⟨p, hp⟩ := Option.isSome_iff_exists.mp hsome
        exact ⟨p, r, by rw [h2, hp], h1, hp⟩

/-- A daemon with the configuration `dfJ`. -/
def dJ : Daemon := { devicefile := dfJ }

/-- The driver of `dfJ` is running. -/
def wUp : World := { drvs := [{ name := "d", port := some 9, pid := some 70 }] }

example : ∃ ss, runW (pollPorts (some dJ)) wUp = (.ok (.go dJ), wUp) ∧
    runW (startJob dJ "p" [task "y" 1, task "x" 2]) wUp = (.ok ss, wUp) ∧
    ss.map (fun s => (s.role, s.port)) = [("x", some 9), ("y", some 9)] := ⟨_, rfl, rfl, rfl⟩

/-- What can happen while a job waits: passes of the driver manager (of whatever daemon), and anything
else that does not touch the row of driver `n`. -/
inductive Later (n : String) (w₀ : World) : World → Prop
  | refl : Later n w₀ w₀
  | pass (w : World) (d : Daemon) : Later n w₀ w → Later n w₀ (runW (drvManagerPass d) w).2
  | other (w w' : World) : Later n w₀ w → w'.WF → w'.drv? n = w.drv? n → Later n w₀ w'

/-- **C84** is violated: a job waits for *all* drivers in the table.  If some driver could not be started
three times, no job ever starts its tasks, whatever the state of the drivers it needs. -/
theorem C84_refuted (w₀ : World) (hw : w₀.WF) (n : String) (r : DrvState) (hr : w₀.drv? n = some r)
    (hp : r.port = none) (hc : 3 ≤ r.spawnCount) {w : World} (hl : Later n w₀ w) (d : Daemon) :
    runW (pollPorts (some d)) w = (.ok .again, w) := by
  have key : w.WF ∧ w.drv? n = some r := by
    induction hl with
    | refl => exact ⟨hw, hr⟩
    | pass w d _ ih =>
      refine ⟨runW_wf _ _ ih.1, ?_⟩
      cases drvPass_eff d w ih.1 n with
      | same h _ => exact h.trans ih.2
      | spawn r' h _ _ h' => rw [ih.2] at h; cases h; omega
      | beat r' _ h h' => rw [ih.2] at h; cases h; rw [hp] at h'; cases h'
      | reset r' h h' => rw [ih.2] at h; cases h; rw [hp] at h'; cases h'
    | other w w' _ hw' h ih => exact ⟨hw', h.trans ih.2⟩
  exact (C84_ports_partial w d "" []).2.1.mpr ⟨r, (drv?_some key.2).2, hp⟩

/-- The driver that the pipeline needs is running, another one could not be started. -/
def wOther : World :=
  { drvs := [{ name := "d", port := some 9, pid := some 70 }, { name := "e", spawnTime := 18000, spawnCount := 3 }] }

example : wOther.WF ∧ wOther.drv? "e" = some { name := "e", spawnTime := 18000, spawnCount := 3 } ∧
    Later "e" wOther (runW (drvManagerPass dJ) (setPerf wOther 30000)).2 :=
  ⟨by constructor <;> decide, rfl,
    .pass _ _ (.other _ _ .refl (by constructor <;> decide) rfl)⟩

/-- All that the pipeline `p` needs is there: the threads could be started. -/
example : ∃ ss, runW (startJob dJ "p" [task "y" 1, task "x" 2]) wOther = (.ok ss, wOther) ∧
    ss.map (fun s => (s.role, s.port)) = [("x", some 9), ("y", some 9)] := ⟨_, rfl, rfl⟩

/-- The driver has just stopped answering. -/
def wRace : World :=
  { drvs := [{ name := "d", port := some 9, pid := some 70, heartbeatTime := 9000, spawnTime := 6000, spawnCount := 1 }],
    perf := 20000, drv := fun _ _ => none }

/-- **C84** is violated in the other direction: between the last check of the ports and the start of the
threads, the driver manager finds the driver dead.  The threads are started with the port `None`; they
fail at once, outside of any handler (a thread that ends in this way counts as joined, not as crashed). -/
theorem C84_refuted_race :
    runW (pollPorts (some dJ)) wRace = (.ok (.go dJ), wRace) ∧
    ∃ ss, (runW (startJob dJ "p" [task "y" 1, task "x" 2]) (runW (drvManagerPass dJ) wRace).2).1 = .ok ss ∧
      ss.map (fun s => (s.role, s.port)) = [("x", none), ("y", none)] :=
  ⟨rfl, _, rfl, rfl⟩

end Tomato.Props
