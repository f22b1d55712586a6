import Verif.Props.DriverMgr
import Verif.Props.Cmd
import Verif.Props.Assign
import Verif.Lifecycle

/-!
# Driver processes that die, that are started again, and that are started twice (C77, C78, C79)
-/

namespace Tomato

/-! ## The exact effect of a pass on a row -/

/-- The check of a driver with a port is due, driver.py:364-366. -/
def CheckDue (r : DrvState) (t : Nat) : Prop :=
  r.heartbeatTime + 5000 < t ∨ (r.heartbeatTime = 0 ∧ r.spawnTime + 5000 < t)

instance (r : DrvState) (t : Nat) : Decidable (CheckDue r t) := by unfold CheckDue; infer_instance

/-- Every driver in the table is configured, and no driver sends a success without data as its
status.  (Otherwise the pass fails, `C60_refuted`.) -/
def Manageable (d : Daemon) (w : World) : Prop :=
  (∀ r ∈ w.drvs, r.name ∈ Dict.keys d.devicefile.drivers) ∧
  (∀ q s, w.drv q .status = some s → s.success = true → s.data.isSome)

/-- One row of a configured driver: its pass succeeds, other rows stay as they are. -/
theorem run_manageKnown (known : List String) (r : DrvState) (w : World) (hc : r.name ∈ known)
    (hform : ∀ q s, w.drv q .status = some s → s.success = true → s.data.isSome) :
    ∃ w', Prog.run exec (manageDriver known r) w = (.ok (), w') ∧ w'.drv = w.drv ∧ w'.perf = w.perf ∧
      (∀ n, n ≠ r.name → w'.drv? n = w.drv? n ∧ spawnsOf n w' = spawnsOf n w) ∧
      (∀ p, r.port = some p → CheckDue r w.perf → w.drv p .status = none →
        w'.drv? r.name = (w.drv? r.name).map (fun x => applyDrv x drvDefaults) ∧
        spawnsOf r.name w' = spawnsOf r.name w) ∧
      (r.port = none → r.spawnTime + 5000 < w.perf → r.spawnCount < 3 →
        spawnsOf r.name w' = spawnsOf r.name w ++ [w.perf]) ∧
      ((∀ p, r.port = some p → ¬ CheckDue r w.perf) →
        (r.port = none → ¬ (r.spawnTime + 5000 < w.perf ∧ r.spawnCount < 3)) → w' = w) := by
  have hcb : known.contains r.name = true := by simpa using hc
  have hupd : ∀ (w : World) (n' : String) (ps : List DrvParam) (n : String),
      World.drv? { w with drvs := updDrvs n' ps w.drvs } n =
        (w.drv? n).map (fun d => if n = n' then applyDrv d ps else d) :=
    fun w n' ps n => drv?_update w n' n ps
  have hother : ∀ (w : World) (n' : String) (ps : List DrvParam) (n : String), n ≠ n' →
      World.drv? { w with drvs := updDrvs n' ps w.drvs } n = w.drv? n := by
    intro w n' ps n hn
    rw [hupd]
    cases w.drv? n <;> simp [hn]
  have hself : ∀ (w : World) (ps : List DrvParam) (n : String),
      World.drv? { w with drvs := updDrvs n ps w.drvs } n = (w.drv? n).map (fun x => applyDrv x ps) := by
    intro w ps n
    rw [hupd]
    cases w.drv? n <;> simp
  simp only [manageDriver, Prog.bind_eq, Prog.run_bind, Do.run_perfCounter, exec_perfCounter,
    Prog.andThen_ok, hcb, Bool.not_true, Bool.false_eq_true, if_false]
  cases hport : r.port with
  | none =>
    simp only
    split
    · next hs =>
      simp only [spawnDelayMs, spawnRetries] at hs
      simp only [updateDrv, Prog.bind_eq, Prog.run_bind, Do.run_popenDriver, exec,
        Do.run_updateDrv, Prog.andThen_ok, Do.run_getDrv, Prog.pure_eq, Prog.run_pure]
      refine ⟨_, rfl, rfl, rfl, fun n hn => ⟨hother _ _ _ _ hn, ?_⟩, (by simp), fun _ _ _ => ?_, fun _ h => ?_⟩
      · simp [spawnsOf, Ne.symm hn]
      · simp [spawnsOf]
      · exact absurd ⟨by omega, hs.2⟩ (h trivial)
    · next hs =>
      simp only [spawnDelayMs, spawnRetries] at hs
      refine ⟨w, rfl, rfl, rfl, fun n _ => ⟨rfl, rfl⟩, (by simp), fun _ h1 h2 => ?_, fun _ _ => rfl⟩
      exact absurd ⟨by omega, h2⟩ hs
  | some q =>
    simp only
    have hdue : (w.perf - r.heartbeatTime > heartbeatMs ∨
        (r.heartbeatTime = 0 ∧ w.perf - r.spawnTime > spawnDelayMs)) ↔ CheckDue r w.perf := by
      simp only [heartbeatMs, spawnDelayMs, CheckDue]
      omega
    split
    · next hd =>
      have hcd := hdue.mp hd
      have fin : ∀ (w₁ : World) ps, w₁.drv = w.drv → w₁.perf = w.perf → w₁.drvs = w.drvs →
          w₁.spawns = w.spawns → (w.drv q .status = none → ps = drvDefaults) → ∃ w',
          Prog.run exec (Prog.bind (updateDrv r.name ps) (fun _ => pure ())) w₁ = (.ok (), w') ∧
          w'.drv = w.drv ∧ w'.perf = w.perf ∧
          (∀ n, n ≠ r.name → w'.drv? n = w.drv? n ∧ spawnsOf n w' = spawnsOf n w) ∧
          (∀ p, some q = some p → CheckDue r w.perf → w.drv p .status = none →
            w'.drv? r.name = (w.drv? r.name).map (fun x => applyDrv x drvDefaults) ∧
            spawnsOf r.name w' = spawnsOf r.name w) ∧
          (some q = none → r.spawnTime + 5000 < w.perf → r.spawnCount < 3 →
            spawnsOf r.name w' = spawnsOf r.name w ++ [w.perf]) ∧
          ((∀ p, some q = some p → ¬ CheckDue r w.perf) →
            (some q = none → ¬ (r.spawnTime + 5000 < w.perf ∧ r.spawnCount < 3)) → w' = w) := by
        intro w₁ ps h1 h2 h3 h4 h5
        have h3' : ∀ n, w₁.drv? n = w.drv? n := fun n => by simp only [World.drv?, h3]
        have h4' : ∀ n, spawnsOf n w₁ = spawnsOf n w := fun n => by simp only [spawnsOf, h4]
        simp only [updateDrv, Prog.bind_eq, Prog.run_bind, Do.run_updateDrv, exec_updateDrv,
          Prog.andThen_ok, Do.run_getDrv, exec_getDrv, Prog.pure_eq, Prog.run_pure]
        refine ⟨_, rfl, h1, h2, fun n hn => ⟨(hother _ _ _ _ hn).trans (h3' n), h4' n⟩, ?_, (by simp), ?_⟩
        · intro p hp _ hno
          cases hp
          rw [h5 hno]
          exact ⟨by rw [hself, h3'], h4' _⟩
        · intro h
          exact absurd hcd (h q rfl)
      simp only [Prog.run_bind, run_checkDriver]
      cases hst : w.drv q .status with
      | none =>
        simp only [Prog.andThen_ok]
        exact fin _ _ rfl rfl rfl rfl (fun _ => rfl)
      | some s' =>
        have hne : ∀ {p : Prop}, w.drv q .status = none → p := fun h => by rw [hst] at h; cases h
        simp only
        split
        · next hss =>
          have := hform q s' hst hss
          cases hsd : s'.data with
          | none => simp [hsd] at this
          | some regs =>
            simp only
            split
            · cases w.drv q .register with
              | none =>
                simp only [Prog.andThen_ok]
                exact fin _ _ rfl rfl rfl rfl hne
              | some r' =>
                simp only [Prog.andThen_ok]
                exact fin _ _ rfl rfl rfl rfl hne
            · simp only [Prog.andThen_ok]
              exact fin _ _ rfl rfl rfl rfl hne
        · simp only [Prog.andThen_ok]
          exact fin _ _ rfl rfl rfl rfl hne
    · next hd =>
      exact ⟨w, rfl, rfl, rfl, fun n _ => ⟨rfl, rfl⟩, fun p _ h => absurd (hdue.mpr h) hd, (by simp), fun _ _ => rfl⟩

/-- A whole pass: it succeeds; a driver whose check is due and that does not answer gets an empty row;
a driver without port whose time has come is spawned. -/
theorem run_passKnown (d : Daemon) (w : World) (hw : w.WF) (hm : Manageable d w) :
    ∃ w', runW (drvManagerPass d) w = (.ok (), w') ∧ w'.perf = w.perf ∧ w'.drv = w.drv ∧
      ∀ n r, w.drv? n = some r →
        (∀ p, r.port = some p → CheckDue r w.perf → w.drv p .status = none →
          w'.drv? n = some { name := n } ∧ spawnsOf n w' = spawnsOf n w) ∧
        (r.port = none → r.spawnTime + 5000 < w.perf → r.spawnCount < 3 →
          spawnsOf n w' = spawnsOf n w ++ [w.perf]) := by
  have key : ∀ (l : List DrvState) (w₁ : World), w₁.drv = w.drv → w₁.perf = w.perf →
      (l.map (·.name)).Nodup → (∀ r ∈ l, r.name ∈ Dict.keys d.devicefile.drivers) →
      (∀ r ∈ l, w₁.drv? r.name = some r) →
      ∃ w', Prog.run exec (Prog.forEach l (manageDriver (Dict.keys d.devicefile.drivers))) w₁ = (.ok (), w') ∧
        w'.perf = w.perf ∧ w'.drv = w.drv ∧
        (∀ n, n ∉ l.map (·.name) → w'.drv? n = w₁.drv? n ∧ spawnsOf n w' = spawnsOf n w₁) ∧
        ∀ r ∈ l,
          (∀ p, r.port = some p → CheckDue r w.perf → w.drv p .status = none →
            w'.drv? r.name = some { name := r.name } ∧ spawnsOf r.name w' = spawnsOf r.name w₁) ∧
          (r.port = none → r.spawnTime + 5000 < w.perf → r.spawnCount < 3 →
            spawnsOf r.name w' = spawnsOf r.name w₁ ++ [w.perf]) := by
    intro l
    induction l with
    | nil => intro w₁ h1 h2 _ _ _; exact ⟨w₁, rfl, h2, h1, fun _ _ => ⟨rfl, rfl⟩, by simp⟩
    | cons a l ih =>
      intro w₁ h1 h2 hnd hk hl
      simp only [List.map_cons, List.nodup_cons] at hnd
      obtain ⟨w₂, hrun, g1, g2, g3, g4, g5, -⟩ := run_manageKnown (Dict.keys d.devicefile.drivers) a w₁
        (hk a (by simp)) (by rw [h1]; exact hm.2)
      rw [Prog.run_forEach_cons, hrun]
      simp only [Prog.andThen_ok]
      rw [h1] at g1 g4
      rw [h2] at g2 g4 g5
      have hl2 : ∀ r ∈ l, w₂.drv? r.name = some r := by
        intro r hr
        rw [(g3 r.name ?_).1]
        · exact hl r (by simp [hr])
        · intro e
          exact hnd.1 (e ▸ List.mem_map.mpr ⟨r, hr, rfl⟩)
      obtain ⟨w', k1, k2, k3, k4, k5⟩ := ih w₂ g1 g2 hnd.2 (fun r hr => hk r (by simp [hr])) hl2
      refine ⟨w', k1, k2, k3, ?_, ?_⟩
      · intro n hn
        simp only [List.map_cons, List.mem_cons, not_or] at hn
        obtain ⟨e1, e2⟩ := k4 n hn.2
        obtain ⟨f1, f2⟩ := g3 n hn.1
        exact ⟨e1.trans f1, e2.trans f2⟩
      · intro r hr
        rcases List.mem_cons.mp hr with rfl | hr
        · obtain ⟨e1, e2⟩ := k4 r.name hnd.1
          refine ⟨fun p hp hd hs => ?_, fun hp ht hc => ?_⟩
          · obtain ⟨f1, f2⟩ := g4 p hp hd hs
            refine ⟨?_, e2.trans f2⟩
            rw [e1, f1, hl r (by simp)]
            simp [drvDefaults, DrvParam.apply]
          · rw [e2, g5 hp ht hc]
        · have hne : r.name ≠ a.name := fun e => hnd.1 (e ▸ List.mem_map.mpr ⟨r, hr, rfl⟩)
          obtain ⟨k6, k7⟩ := k5 r hr
          rw [(g3 r.name hne).2] at k6 k7
          exact ⟨k6, k7⟩
  obtain ⟨w', k1, k2, k3, -, k5⟩ := key w.drvs w rfl rfl hw.drvNames hm.1 (fun r hr => hw.drv?_mem hr)
  refine ⟨w', ?_, k2, k3, fun n r hr => ?_⟩
  · simp only [runW, drvManagerPass, Prog.bind_eq, Prog.run_bind, Do.run_drvsWhere, exec_drvsWhere,
      Prog.andThen_ok]
    have hfil : w.drvs.filter (fun _ => true) = w.drvs := by simp
    rw [hfil]
    exact k1
  · obtain ⟨hn, hmem⟩ := drv?_some hr
    obtain ⟨a, b⟩ := k5 r hmem
    rw [hn] at a b
    exact ⟨a, b⟩

namespace Props

/-! ## C77 -/

/-- **C77** (`_partial`: the machine was not restarted since the driver was last seen, see
`C77_refuted_reboot`; the passes are undisturbed and every driver in the table is configured): let
`n` be a driver on record whose process does not answer, and whose check is due.  The next pass
notices it; and after this, as soon as there is another pass, a new process is started, whatever
happened in between to other drivers and the rest of the system. -/
theorem C77_respawn_partial (d d' : Daemon) (w w₂ : World) (hw : w.WF) (hm : Manageable d w)
    (n : String) (r : DrvState) (p : Nat) (hr : w.drv? n = some r) (hp : r.port = some p)
    (hdue : CheckDue r w.perf) (hdead : w.drv p .status = none)
    (hw2 : w₂.WF) (hm2 : Manageable d' w₂) (hmono : w.perf ≤ w₂.perf)
    (hrow : w₂.drv? n = (runW (drvManagerPass d) w).2.drv? n) :
    (runW (drvManagerPass d) w).2.drv? n = some { name := n } ∧
    spawnsOf n (runW (drvManagerPass d') w₂).2 = spawnsOf n w₂ ++ [w₂.perf] := by
  obtain ⟨w', h1, -, -, h4⟩ := run_passKnown d w hw hm
  have hrow' := ((h4 n r hr).1 p hp hdue hdead).1
  rw [h1] at hrow ⊢
  refine ⟨hrow', ?_⟩
  obtain ⟨w₃, g1, -, -, g4⟩ := run_passKnown d' w₂ hw2 hm2
  rw [g1]
  refine (g4 n { name := n } (hrow.trans hrow')).2 rfl ?_ (by simp)
  have : 5000 < w.perf := by rcases hdue with h | ⟨h1, h2⟩ <;> omega
  show 0 + 5000 < w₂.perf
  omega

/-- A driver on record that does not answer any more. -/
def wSilent : World :=
  { drvs := [{ name := "d", port := some 5000, pid := some 70, heartbeatTime := 9000, spawnTime := 6000, spawnCount := 1 }],
    perf := 20000, drv := fun _ _ => none }

example : CheckDue { name := "d", port := some 5000, pid := some 70, heartbeatTime := 9000 } 20000 ∧
    Manageable dRun wSilent ∧ wSilent.WF := by
  refine ⟨by decide, ⟨by decide, fun q s h => by cases h⟩, by constructor <;> decide⟩

example : spawnsOf "d" (passes [20000, 20100] wSilent) = [20100] := by decide +kernel

/-- Rows that no pass touches as long as the clock shows at most `t₀`: the last heartbeat, or the last
spawn, seems to lie in the future. -/
def AheadOf (t₀ : Nat) (r : DrvState) : Prop :=
  (∀ p, r.port = some p → t₀ ≤ r.heartbeatTime + 5000 ∧ r.heartbeatTime ≠ 0) ∧
  (r.port = none → t₀ ≤ r.spawnTime + 5000)

/-- **C77** is violated by a restart of the machine: `time.perf_counter` starts again, but the times in
the table are old.  Until the machine has been up as long as before, the driver manager does not check
the drivers, and does not start any, although there is no driver process at all. -/
theorem C77_refuted_reboot (d : Daemon) (w : World) (t₀ : Nat)
    (hk : ∀ r ∈ w.drvs, r.name ∈ Dict.keys d.devicefile.drivers) (hr : ∀ r ∈ w.drvs, AheadOf t₀ r)
    (hno : ∀ p c, w.drv p c = none) :
    ∀ (ts : List Nat), (∀ t ∈ ts, t ≤ t₀) → ∀ t,
      ts.foldl (fun w t => (runW (drvManagerPass d) (setPerf w t)).2) (setPerf w t) =
        setPerf w ((t :: ts).getLast (by simp)) := by
  intro ts
  induction ts with
  | nil => intro _ t; rfl
  | cons a ts ih =>
    intro hts t
    rw [List.foldl_cons]
    have hpass : (runW (drvManagerPass d) (setPerf (setPerf w t) a)).2 = setPerf w a := by
      have hfil : w.drvs.filter (fun _ => true) = w.drvs := by simp
      simp only [runW, drvManagerPass, Prog.bind_eq, Prog.run_bind, Do.run_drvsWhere, exec_drvsWhere,
        Prog.andThen_ok, setPerf, hfil]
      have key : ∀ l : List DrvState, (∀ r ∈ l, r ∈ w.drvs) →
          Prog.run exec (Prog.forEach l (manageDriver (Dict.keys d.devicefile.drivers))) (setPerf w a) =
            (.ok (), setPerf w a) := by
        intro l
        induction l with
        | nil => intro _; rfl
        | cons r l ihl =>
          intro hl
          obtain ⟨w', h1, -, -, -, -, -, h7⟩ := run_manageKnown (Dict.keys d.devicefile.drivers) r (setPerf w a)
            (hk r (hl r (by simp))) (fun q s h => by simp [setPerf, hno] at h)
          have hmem := hr r (hl r (by simp))
          have ha := hts a (by simp)
          have hw' : w' = setPerf w a := by
            refine h7 (fun p hp hd => ?_) (fun hp hs => ?_)
            · obtain ⟨h1, h2⟩ := hmem.1 p hp
              simp only [CheckDue, setPerf] at hd
              rcases hd with h | ⟨h, -⟩
              · omega
              · exact h2 h
            · have := hmem.2 hp
              have := hs.1
              simp only [setPerf] at this
              omega
          rw [Prog.run_forEach_cons, h1, hw']
          simp only [Prog.andThen_ok]
          exact ihl (fun r' h => hl r' (by simp [h]))
      exact congrArg Prod.snd (key w.drvs (fun _ h => h))
    rw [hpass, ih (fun x hx => hts x (by simp [hx])) a]
    cases ts <;> rfl

/-- The driver was last checked when the machine had been up for ten days. -/
def wTenDays : World :=
  { drvs := [{ name := "d", port := some 5000, pid := some 70, heartbeatTime := 864000000, spawnTime := 6000, spawnCount := 1 }],
    drv := fun _ _ => none }

/-- The machine had been up for ten days; the driver was stopped together with the daemon (which does
not change its row, `Life.drvQuit`).  For the first ten days after a reboot, nothing happens. -/
example : ∀ (ts : List Nat), (∀ t ∈ ts, t ≤ 864000000) → spawnsOf "d" (passes ts (setPerf wTenDays 0)) = [] := by
  intro ts hts
  have h := C77_refuted_reboot dRun wTenDays 864000000 (by decide) ?_ (fun _ _ => rfl) ts hts 0
  · exact (congrArg (spawnsOf "d") h).trans rfl
  · intro r hr
    have := List.mem_singleton.mp hr
    subst this
    exact ⟨fun p _ => by decide, fun h => by cases h⟩

example : (runW Life.drvQuit wTenDays).2.drvs = wTenDays.drvs := rfl

/-! ## C78 -/

/-- The start of a daemon: the configuration is loaded (`cmd.reload` in status `bootstrap`). -/
def bootD (df : DeviceFile) : Daemon := { status := .bootstrap, devicefile := df }

/-- **C78** (`_partial`: not if the times in the table are ahead of the clock, and not after three
attempts, see `C78_refuted`): when a daemon starts, a configured driver has a row.  If it has no port
on record, and fewer than three attempts to start it are on record, the last one more than five seconds
ago, then the first pass starts its process; in particular if the driver is new. -/
theorem C78_restart_partial (df : DeviceFile) (w w₂ : World) (n : String)
    (hn : n ∈ Dict.keys df.drivers)
    (hold : ∀ r, w.drv? n = some r → r.port = none ∧ r.spawnCount < 3 ∧ r.spawnTime + 5000 < w₂.perf)
    (hw2 : w₂.WF) (d' : Daemon) (hm2 : Manageable d' w₂) (hperf : 5000 < w₂.perf)
    (hrow : w₂.drv? n = (runW (cmdReload (bootD df) none) w).2.drv? n) :
    spawnsOf n (runW (drvManagerPass d') w₂).2 = spawnsOf n w₂ ++ [w₂.perf] := by
  obtain ⟨rep, newP, newD, h1, -, -, -, h2, -, h3⟩ := C30_bootstrap w (bootD df) none rfl
  obtain ⟨w₃, g1, -, -, g4⟩ := run_passKnown d' w₂ hw2 hm2
  rw [g1]
  rw [h1] at hrow
  have hrow' : w₂.drv? n = (w.drv? n).or (newD.find? (fun r => r.name == n)) := by
    rw [hrow]
    simp [World.drv?, List.find?_append]
  cases ho : w.drv? n with
  | some r =>
    rw [ho] at hrow'
    obtain ⟨a, b, c⟩ := hold r ho
    exact (g4 n r hrow').2 a c b
  | none =>
    rw [ho, Option.none_or] at hrow'
    have hmem : ({ name := n } : DrvState) ∈ newD := (h3 _).mpr ⟨rfl, Dict.mem_keys_iff.mp hn, ho⟩
    have hf : newD.find? (fun r => r.name == n) = some { name := n } :=
      find?_of_nodup (key := fun j : DrvState => j.name) h2 hmem
    rw [hf] at hrow'
    exact (g4 n _ hrow').2 rfl (by simpa using hperf) (by simp)

example : spawnsOf "d" (runW (drvManagerPass dRun)
    (setPerf (runW (cmdReload (bootD dRun.devicefile) none) {}).2 6000)).2 = [6000] := by decide

/-- Restart the daemon, followed by passes of the driver manager at the times `ts`. -/
def restart (w : World) (ts : List Nat) : World :=
  passes ts (runW (cmdReload (bootD dRun.devicefile) none) w).2

/-- **C78** is violated: a driver that failed to start three times is never started again, however often
the daemon is restarted, and whenever the driver manager looks at it: the number of attempts is in the
database and is not reset. -/
theorem C78_refuted (r : DrvState) (hn : r.name = "d") (hp : r.port = none) (hc : 3 ≤ r.spawnCount) : ∀ rounds : List (List Nat),
    let w := rounds.foldl restart { drvs := [r], drv := fun _ _ => none }
    w.spawns = [] ∧ w.drvs = [r] := by
  suffices h : ∀ (rounds : List (List Nat)) (w : World),
      (w.spawns = [] ∧ w.drvs = [r] ∧ ∀ p c, w.drv p c = none) →
      (rounds.foldl restart w).spawns = [] ∧
      (rounds.foldl restart w).drvs = [r] from
    fun rounds => h rounds _ ⟨rfl, rfl, fun _ _ => rfl⟩
  have hpass : ∀ (ts : List Nat) (w : World),
      (w.spawns = [] ∧ w.drvs = [r] ∧ ∀ p c, w.drv p c = none) →
      ((passes ts w).spawns = [] ∧ (passes ts w).drvs = [r] ∧
        ∀ p c, (passes ts w).drv p c = none) := by
    intro ts
    induction ts with
    | nil => intro w h; exact h
    | cons t ts ih =>
      rintro w ⟨h1, h2, h3⟩
      refine ih (runW (drvManagerPass dRun) (setPerf w t)).2 ?_
      have : (runW (drvManagerPass dRun) (setPerf w t)).2 = setPerf w t := by
        obtain ⟨w', g1, -, -, -, -, -, g7⟩ := run_manageKnown (Dict.keys dRun.devicefile.drivers)
          r (setPerf w t) (by rw [hn]; decide)
          (fun q s h => by simp [setPerf, h3] at h)
        have hw' : w' = setPerf w t := g7 (fun p h => by rw [hp] at h; cases h) (fun _ h => by have := h.2; omega)
        simp only [runW, drvManagerPass, Prog.bind_eq, Prog.run_bind, Do.run_drvsWhere, exec_drvsWhere,
          Prog.andThen_ok, setPerf, h2, List.filter_cons, if_true, List.filter_nil]
        simp only [setPerf, h2] at g1 hw'
        rw [Prog.run_forEach_cons, g1, hw']
        rfl
      rw [this]
      exact ⟨h1, h2, h3⟩
  intro rounds
  induction rounds with
  | nil => rintro w ⟨h1, h2, -⟩; exact ⟨h1, h2⟩
  | cons ts rounds ih =>
    rintro w ⟨h1, h2, h3⟩
    refine ih (restart w ts) (hpass ts _ ?_)
    obtain ⟨rep, newP, newD, g1, -, -, -, -, -, g3⟩ := C30_bootstrap w (bootD dRun.devicefile) none rfl
    have hnil : newD = [] := by
      refine List.eq_nil_iff_forall_not_mem.mpr fun r' hr => ?_
      obtain ⟨-, hk, hno⟩ := (g3 r').mp hr
      rw [← Dict.mem_keys_iff] at hk
      have hd : r'.name = "d" := by
        have : Dict.keys (bootD dRun.devicefile).devicefile.drivers = ["d"] := by decide
        rw [this] at hk
        exact List.mem_singleton.mp hk
      rw [hd] at hno
      simp [World.drv?, h2, hn] at hno
    rw [g1, hnil, List.append_nil]
    exact ⟨h1, h2, h3⟩

/-- Such a row is what three failed attempts leave behind. -/
example : (passes [6000, 12000, 18000] { drvs := [{ name := "d" }] }).drvs =
    [{ name := "d", spawnTime := 18000, spawnCount := 3 }] := by decide +kernel

/-! ## C79 -/

/-- Every launch of a driver process: in this pass, the table was read, and contained a row of this
driver without port and with fewer than three attempts; and after that, the clock showed more than five
seconds after the last attempt on record. -/
def SpawnJustified (h : Past) (o : Op) : Prop :=
  ∀ n, o = .popenDriver n → ∃ r, h.once (fun w => r ∈ w.drvs) ∧ r.name = n ∧ r.port = none ∧
    r.spawnCount < 3 ∧ h.once (fun w => r.spawnTime + 5000 < w.perf)

theorem spawnJ_of_ne {o : Op} (ho : ∀ n, o ≠ .popenDriver n) (h : Past) : SpawnJustified h o :=
  fun n hn => absurd hn (ho n)

theorem hsafe_any {α : Type} {p : Prog DB α} (hp : Prog.Only (S := DB) (fun o => ∀ n, o ≠ .popenDriver n) p)
    (h : Past) : HSafe SpawnJustified (fun _ h' => ∃ t, h' = h ++ t) p h :=
  hsafe_of_only (fun _ h ho => spawnJ_of_ne ho h) hp h

theorem only_checkDriver_noSpawn (q t : Nat) :
    Prog.Only (S := DB) (fun o => ∀ n, o ≠ .popenDriver n) (checkDriver q t) := by
  unfold checkDriver
  refine Prog.only_tryExcept ?_ ?_
  · refine Prog.only_bind ((Do.only_askDriverTimeout _ _).mpr (by simp)) (fun r => ?_)
    split
    · split
      · trivial
      · split
        · exact Prog.only_bind ((Do.only_askDriverTimeout _ _).mpr (by simp)) (fun _ => trivial)
        · trivial
    · trivial
  · intro e q hq
    split at hq
    · cases hq; trivial
    · cases hq

theorem only_updateDrv_noSpawn (n : String) (ps : List DrvParam) :
    Prog.Only (S := DB) (fun o => ∀ n, o ≠ .popenDriver n) (updateDrv n ps) := by
  unfold updateDrv
  exact Prog.only_bind ((Do.only_updateDrv _ _).mpr (by simp)) (fun _ => (Do.only_getDrv _).mpr (by simp))

theorem hsafe_manageDriver (known : List String) (r : DrvState) (h : Past)
    (hr : h.once (fun w => r ∈ w.drvs)) :
    HSafe SpawnJustified (fun _ h' => ∃ t, h' = h ++ t) (manageDriver known r) h := by
  unfold manageDriver
  refine hsafe_bind (Q := fun t h' => ∃ w : World, t = w.perf ∧ h' = h ++ [(w, .perfCounter)])
    (hsafe_call (spawnJ_of_ne (by simp) _) ?_) ?_
  · intro w a ha
    simp only [exec, Except.ok.injEq] at ha
    exact ⟨w, ha.symm, rfl⟩
  · rintro _ _ ⟨w, rfl, rfl⟩
    have grow : ∀ {p : P Unit}, Prog.Only (S := DB) (fun o => ∀ n, o ≠ .popenDriver n) p →
        HSafe SpawnJustified (fun _ h' => ∃ t, h' = h ++ t) p (h ++ [(w, .perfCounter)]) := by
      intro p hp
      refine hsafe_mono (hsafe_any hp _) ?_
      rintro _ _ ⟨t, rfl⟩
      exact ⟨(w, .perfCounter) :: t, by simp⟩
    split
    · split
      · exact grow (Prog.only_bind ((Do.only_askDriver _ _).mpr (by simp)) (fun _ =>
          (Do.only_delDrv _).mpr (by simp)))
      · exact grow ((Do.only_delDrv _).mpr (by simp))
    · split
      · split
        · exact grow (Prog.only_bind (only_checkDriver_noSpawn _ _) (fun _ =>
            Prog.only_bind (only_updateDrv_noSpawn _ _) (fun _ => trivial)))
        · exact ⟨_, rfl⟩
      · next hport =>
        split
        · next hs =>
          simp only [spawnDelayMs, spawnRetries] at hs
          have hj : SpawnJustified (h ++ [(w, .perfCounter)]) (.popenDriver r.name) := by
            intro n hn
            cases hn
            refine ⟨r, hr.append _, rfl, hport, hs.2, ⟨_, List.mem_append_right _ (List.mem_singleton.mpr rfl), ?_⟩⟩
            show r.spawnTime + 5000 < w.perf
            omega
          refine hsafe_bind (Q := fun _ h' => ∃ t, h' = h ++ t) (hsafe_call hj ?_) ?_
          · intro w' a _
            exact ⟨_, List.append_assoc _ _ _⟩
          · rintro _ _ ⟨t, rfl⟩
            refine hsafe_bind (hsafe_any (only_updateDrv_noSpawn _ _) _) ?_
            rintro _ _ ⟨t', rfl⟩
            exact ⟨t ++ t', by simp⟩
        · exact ⟨_, rfl⟩

/-- **C79** (`_partial`: whether a driver process exists is not checked by the code, only whether one is
on record, see `C79_refuted`): whatever other programs do in between, the driver manager launches a
driver process only if, in the same pass, it has seen that no process is on record, that fewer than
three attempts were made, and that the last one is more than five seconds old. -/
theorem C79_spawn_justified_partial (d : Daemon) :
    HSafe SpawnJustified (fun _ _ => True) (drvManagerPass d) [] := by
  unfold drvManagerPass
  refine hsafe_bind (Q := fun l h => ∀ r ∈ l, h.once (fun w => r ∈ w.drvs))
    (hsafe_call (spawnJ_of_ne (by simp) _) ?_) ?_
  · intro w a ha r hr
    simp only [exec, Except.ok.injEq] at ha
    subst ha
    exact ⟨_, List.mem_append_right _ (List.mem_singleton.mpr rfl), (List.mem_filter.mp hr).1⟩
  · intro l
    induction l with
    | nil => intro h _; trivial
    | cons r l ih =>
      intro h hl
      refine hsafe_bind (hsafe_manageDriver _ r h (hl r (by simp))) ?_
      rintro _ _ ⟨t, rfl⟩
      exact ih _ (fun r' hr' => (hl r' (by simp [hr'])).append t)

/-- The driver on port 5001 answers `status` (nothing is registered yet), but the devices take more than
a second to register; the driver on port 5002 does not answer in time either. -/
def slowDrv : Nat → DrvCmd → Option DrvReply
  | 5001, .status => some { success := true, data := some [] }
  | 5001, .stop => some { success := true }
  | 5002, .status => some { success := true, data := some [] }
  | 5002, .stop => some { success := true }
  | _, _ => none

/-- A driver that registers its devices slowly: started at 6 s and up on port 5001 as process 71;
checked; started again, and up on port 5002 as process 72; then the daemon quits. -/
def slowRun : World :=
  let w := passes [6000] { drvs := [{ name := "d" }], drv := slowDrv }
  let w := (runW (driverStart "d" 5001 71 "1.0") w).2
  let w := passes [11100, 12200] w
  let w := (runW (driverStart "d" 5002 72 "1.0") w).2
  (runW Life.drvQuit w).2

/-- **C79** is violated: a driver that takes more than a second to register its devices is declared dead
while it is running, and a second process is started for the same devices.  The first one is no longer
on record: it is not stopped when the daemon quits. -/
theorem C79_refuted : spawnsOf "d" slowRun = [6000, 12200] ∧
    slowRun.sent = [(5001, .status), (5001, .register), (5002, .stop)] ∧
    slowRun.drvs.map (fun r => (r.name, r.port, r.pid)) = [("d", some 5002, some 72)] := by
  decide +kernel

end Props
end Tomato
