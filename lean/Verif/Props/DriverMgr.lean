import Verif.SystemInv
import Verif.Props.System

/-!
# Properties of the driver manager (C58, C59, C60)
-/

namespace Tomato

/-! ## What the driver manager does when run alone -/

/-- The outcome of asking a driver, as a function of the driver's answers. -/
theorem run_checkDriver (port tN : Nat) (w : World) :
    Prog.run exec (checkDriver port tN) w =
      match w.drv port .status with
      | none => (.ok drvDefaults, w.logSent port .status)
      | some r =>
        if r.success then
          match r.data with
          | none => (.error .runtimeError, w.logSent port .status)
          | some regs =>
            if regs.length = 0 then
              ((match w.drv port .register with
                | none => .ok drvDefaults
                | some _ => .ok [.heartbeatTime tN]),
                (w.logSent port .status).logSent port .register)
            else (.ok [.heartbeatTime tN], w.logSent port .status)
        else (.ok [.heartbeatTime tN], w.logSent port .status) := by
  simp only [checkDriver, Do.askDriverTimeout, ask, Prog.call, Prog.bind_eq, Prog.bind,
    Prog.tryExcept, Prog.run, exec]
  cases h : w.drv port .status with
  | none => simp [Prog.bind, Prog.tryExcept, Prog.run]
  | some r =>
    simp only [Prog.bind]
    split
    · cases hd : r.data with
      | none => simp [Prog.tryExcept, Prog.run]
      | some regs =>
        simp only
        split
        · simp only [Prog.bind, Prog.tryExcept, Prog.run, exec, World.logSent]
          cases hr : w.drv port .register with
          | none => simp [Prog.bind, Prog.tryExcept, Prog.run]
          | some r' => simp [Prog.bind, Prog.tryExcept, Prog.run]
        · simp [Prog.tryExcept, Prog.run]
    · simp [Prog.tryExcept, Prog.run]

/-- The times at which a driver was spawned. -/
def spawnsOf (n : String) (w : World) : List Nat :=
  (w.spawns.filter (fun p => p.1 = n)).map (·.2)

/-- What a pass of the driver manager can do to one driver. -/
inductive DrvEff (n : String) (w w' : World) : Prop where
  /-- nothing -/
  | same (hr : w'.drv? n = w.drv? n) (hs : spawnsOf n w' = spawnsOf n w)
  /-- a new process -/
  | spawn (r : DrvState) (hr : w.drv? n = some r) (hp : r.port = none)
      (ht : r.spawnTime + 5000 < w.perf) (hc : r.spawnCount < 3)
      (hr' : w'.drv? n = some { r with spawnTime := w.perf, spawnCount := r.spawnCount + 1 })
      (hs : spawnsOf n w' = spawnsOf n w ++ [w.perf])
  /-- a heartbeat -/
  | beat (r : DrvState) (t : Nat) (hr : w.drv? n = some r) (hp : r.port.isSome)
      (hr' : w'.drv? n = some { r with heartbeatTime := t }) (hs : spawnsOf n w' = spawnsOf n w)
  /-- the driver does not answer, its row is reset -/
  | reset (r : DrvState) (hr : w.drv? n = some r) (hp : r.port.isSome)
      (hr' : w'.drv? n = some { name := n }) (hs : spawnsOf n w' = spawnsOf n w)

theorem logSent_drv? (w : World) (p : Nat) (c : DrvCmd) (n : String) :
    (w.logSent p c).drv? n = w.drv? n := rfl

theorem logSent_spawns (w : World) (p : Nat) (c : DrvCmd) (n : String) :
    spawnsOf n (w.logSent p c) = spawnsOf n w := rfl

/-- One row: the effect on the driver of this name, and none on the others. -/
theorem run_manageDriver (known : List String) (d : DrvState) (w : World)
    (hd : w.drv? d.name = some d) :
    (Prog.run exec (manageDriver known d) w).2.perf = w.perf ∧
    ∀ n, (d.name ≠ n → (Prog.run exec (manageDriver known d) w).2.drv? n = w.drv? n ∧
            spawnsOf n (Prog.run exec (manageDriver known d) w).2 = spawnsOf n w) ∧
      (d.name = n → DrvEff n w (Prog.run exec (manageDriver known d) w).2) := by
  have hupd : ∀ (w : World) (n' : String) (ps : List DrvParam) (n : String),
      World.drv? { w with drvs := updDrvs n' ps w.drvs } n =
        (w.drv? n).map (fun d => if n = n' then applyDrv d ps else d) :=
    fun w n' ps n => drv?_update w n' n ps
  simp only [manageDriver, Prog.bind_eq, Prog.run_bind, Do.run_perfCounter, exec_perfCounter,
    Prog.andThen_ok]
  split
  · split
    · next p hp =>
      simp only [Prog.bind_eq, Prog.run_bind, Do.run_askDriver, exec]
      cases w.drv p .stop with
      | none =>
        simp only [Prog.andThen_error]
        exact ⟨rfl, fun n => ⟨fun _ => ⟨rfl, rfl⟩, fun _ => .same rfl rfl⟩⟩
      | some r =>
        simp only [Prog.andThen_ok, Do.run_delDrv, exec]
        exact ⟨rfl, fun n => ⟨fun _ => ⟨rfl, rfl⟩, fun _ => .same rfl rfl⟩⟩
    · simp only [Do.run_delDrv, exec]
      exact ⟨trivial, fun n => ⟨fun _ => ⟨trivial, trivial⟩, fun _ => .same rfl rfl⟩⟩
  · split
    · next p hp =>
      split
      · have key : ∀ (w' : World) (ps : List DrvParam), w'.perf = w.perf →
            (∀ n, w'.drv? n = w.drv? n ∧ spawnsOf n w' = spawnsOf n w) →
            (ps = drvDefaults ∨ ps = [.heartbeatTime w.perf]) →
            (Prog.run exec (Prog.bind (updateDrv d.name ps) (fun _ => pure ())) w').2.perf = w.perf ∧
            ∀ n, (d.name ≠ n →
              (Prog.run exec (Prog.bind (updateDrv d.name ps) (fun _ => pure ())) w').2.drv? n =
                w.drv? n ∧
              spawnsOf n (Prog.run exec (Prog.bind (updateDrv d.name ps) (fun _ => pure ())) w').2 =
                spawnsOf n w) ∧
              (d.name = n → DrvEff n w
                (Prog.run exec (Prog.bind (updateDrv d.name ps) (fun _ => pure ())) w').2) := by
          intro w' ps hpf hw hps
          simp only [updateDrv, Prog.bind_eq, Prog.run_bind, Do.run_updateDrv, exec_updateDrv,
            Prog.andThen_ok, Do.run_getDrv, exec_getDrv, Prog.pure_eq, Prog.run_pure]
          refine ⟨hpf, fun n => ⟨fun hne => ⟨?_, (hw n).2⟩, fun e => ?_⟩⟩
          · rw [hupd, (hw n).1]
            have : ¬ n = d.name := fun h => hne h.symm
            cases w.drv? n <;> simp [this]
          · subst e
            rcases hps with rfl | rfl
            · refine .reset d hd (by simp [hp]) ?_ (hw _).2
              rw [hupd, (hw _).1, hd]
              simp [drvDefaults, DrvParam.apply]
            · refine .beat d w.perf hd (by simp [hp]) ?_ (hw _).2
              rw [hupd, (hw _).1, hd]
              simp [DrvParam.apply]
        have raised : ∀ (w' : World), w'.perf = w.perf →
            (∀ n, w'.drv? n = w.drv? n ∧ spawnsOf n w' = spawnsOf n w) →
            w'.perf = w.perf ∧ ∀ n, (d.name ≠ n → w'.drv? n = w.drv? n ∧ spawnsOf n w' = spawnsOf n w) ∧
              (d.name = n → DrvEff n w w') := fun w' h1 h2 =>
          ⟨h1, fun n => ⟨fun _ => h2 n, fun _ => .same (h2 n).1 (h2 n).2⟩⟩
        simp only [Prog.run_bind, run_checkDriver]
        cases w.drv p .status with
        | none =>
          simp only [Prog.andThen_ok]
          exact key _ _ rfl (fun _ => ⟨rfl, rfl⟩) (.inl rfl)
        | some r =>
          simp only
          split
          · cases r.data with
            | none =>
              simp only [Prog.andThen_error]
              exact raised _ rfl (fun _ => ⟨rfl, rfl⟩)
            | some regs =>
              simp only
              split
              · cases w.drv p .register with
                | none =>
                  simp only [Prog.andThen_ok]
                  exact key _ _ rfl (fun _ => ⟨rfl, rfl⟩) (.inl rfl)
                | some r' =>
                  simp only [Prog.andThen_ok]
                  exact key _ _ rfl (fun _ => ⟨rfl, rfl⟩) (.inr rfl)
              · simp only [Prog.andThen_ok]
                exact key _ _ rfl (fun _ => ⟨rfl, rfl⟩) (.inr rfl)
          · simp only [Prog.andThen_ok]
            exact key _ _ rfl (fun _ => ⟨rfl, rfl⟩) (.inr rfl)
      · exact ⟨rfl, fun n => ⟨fun _ => ⟨rfl, rfl⟩, fun _ => .same rfl rfl⟩⟩
    · next hp =>
      split
      · next hc =>
        simp only [updateDrv, Prog.bind_eq, Prog.run_bind, Do.run_popenDriver, exec,
          Do.run_updateDrv, Prog.andThen_ok, Do.run_getDrv, Prog.pure_eq, Prog.run_pure]
        have hu := fun n ps => hupd w d.name ps n
        refine ⟨trivial, fun n => ⟨fun hne => ⟨?_, ?_⟩, fun e => ?_⟩⟩
        · refine (hu n _).trans ?_
          have : ¬ n = d.name := fun h => hne h.symm
          cases w.drv? n <;> simp [this]
        · simp [spawnsOf, hne]
        · subst e
          refine .spawn d hd hp ?_ hc.2 ?_ ?_
          · have := hc.1
            simp only [spawnDelayMs] at this
            omega
          · refine (hu _ _).trans ?_
            rw [hd]
            simp [DrvParam.apply]
          · simp [spawnsOf]
      · exact ⟨rfl, fun n => ⟨fun _ => ⟨rfl, rfl⟩, fun _ => .same rfl rfl⟩⟩

theorem DrvEff.congr {n : String} {w₀ w w' : World} (h : DrvEff n w w') (hp : w.perf = w₀.perf)
    (hr : w.drv? n = w₀.drv? n) (hs : spawnsOf n w = spawnsOf n w₀) : DrvEff n w₀ w' := by
  cases h with
  | same a b => exact .same (a.trans hr) (b.trans hs)
  | spawn r a b c d e f => exact .spawn r (hr ▸ a) b (hp ▸ c) d (hp ▸ e) (by rw [f, hs, hp])
  | beat r t a b c d => exact .beat r t (hr ▸ a) b c (d.trans hs)
  | reset r a b c d => exact .reset r (hr ▸ a) b c (d.trans hs)

theorem DrvEff.congr' {n : String} {w w' w'' : World} (h : DrvEff n w w')
    (hr : w''.drv? n = w'.drv? n) (hs : spawnsOf n w'' = spawnsOf n w') : DrvEff n w w'' := by
  cases h with
  | same a b => exact .same (hr.trans a) (hs.trans b)
  | spawn r a b c d e f => exact .spawn r a b c d (hr.trans e) (hs.trans f)
  | beat r t a b c d => exact .beat r t a b (hr.trans c) (hs.trans d)
  | reset r a b c d => exact .reset r a b (hr.trans c) (hs.trans d)

/-- A pass over a list of rows. -/
theorem run_manageDrivers (known : List String) : ∀ (l : List DrvState) (w : World),
    (l.map (·.name)).Nodup → (∀ d ∈ l, w.drv? d.name = some d) →
    (Prog.run exec (Prog.forEach l (manageDriver known)) w).2.perf = w.perf ∧
    ∀ n, DrvEff n w (Prog.run exec (Prog.forEach l (manageDriver known)) w).2 ∧
      (n ∉ l.map (·.name) →
        (Prog.run exec (Prog.forEach l (manageDriver known)) w).2.drv? n = w.drv? n ∧
        spawnsOf n (Prog.run exec (Prog.forEach l (manageDriver known)) w).2 = spawnsOf n w) := by
  intro l
  induction l with
  | nil => intro w _ _; exact ⟨rfl, fun n => ⟨.same rfl rfl, fun _ => ⟨rfl, rfl⟩⟩⟩
  | cons d l ih =>
    intro w hnd hl
    simp only [List.map_cons, List.nodup_cons] at hnd
    obtain ⟨hp, hn⟩ := run_manageDriver known d w (hl d (by simp))
    rw [Prog.run_forEach_cons]
    rcases hr : Prog.run exec (manageDriver known d) w with ⟨res, w'⟩
    rw [hr] at hp hn ⊢
    simp only at hp hn
    cases res with
    | error e =>
      simp only [Prog.andThen_error]
      refine ⟨hp, fun n => ⟨?_, fun hne => (hn n).1 ?_⟩⟩
      · by_cases e : d.name = n
        · exact (hn n).2 e
        · exact .same ((hn n).1 e).1 ((hn n).1 e).2
      · simp only [List.map_cons, List.mem_cons, not_or] at hne
        exact fun e => hne.1 e.symm
    | ok u =>
      simp only [Prog.andThen_ok]
      have hl' : ∀ d' ∈ l, w'.drv? d'.name = some d' := by
        intro d' hd'
        rw [((hn d'.name).1 ?_).1]
        · exact hl d' (by simp [hd'])
        · intro e
          exact hnd.1 (e ▸ List.mem_map.mpr ⟨d', hd', rfl⟩)
      obtain ⟨hp', hn'⟩ := ih w' hnd.2 hl'
      refine ⟨hp'.trans hp, fun n => ⟨?_, fun hne => ?_⟩⟩
      · by_cases e : d.name = n
        · have hni : n ∉ l.map (·.name) := e ▸ hnd.1
          have := (hn' n).2 hni
          exact ((hn n).2 e).congr' this.1 this.2
        · have := (hn n).1 e
          exact (hn' n).1.congr hp this.1 this.2
      · simp only [List.map_cons, List.mem_cons, not_or] at hne
        have h1 := (hn n).1 (fun e => hne.1 e.symm)
        have h2 := (hn' n).2 hne.2
        exact ⟨h2.1.trans h1.1, h2.2.trans h1.2⟩

/-- What a complete pass of the driver manager does to one driver. -/
theorem drvPass_eff (d : Daemon) (w : World) (hw : w.WF) (n : String) :
    DrvEff n w (runW (drvManagerPass d) w).2 := by
  simp only [runW, drvManagerPass, Prog.bind_eq, Prog.run_bind, Do.run_drvsWhere, exec_drvsWhere,
    Prog.andThen_ok]
  have : w.drvs.filter (fun _ => true) = w.drvs := by simp
  rw [this]
  exact ((run_manageDrivers _ w.drvs w hw.drvNames (fun d hd => hw.drv?_mem hd)).2 n).1

namespace Props

/-! ## C58 -/

/-- **C58** (`_partial`: only if *no* component of the driver is registered; see `C58_refuted`):
whenever the check of a running driver is due and the driver reports no registered components, the
driver manager asks it to register them - whatever other drivers do, as long as no driver was
removed from the configuration and no driver sends a malformed status. -/
theorem C58_asks_partial (d : Daemon) (w : World) (r : DrvState) (p : Nat)
    (hr : r ∈ w.drvs) (hp : r.port = some p)
    (hdue : r.heartbeatTime + 5000 < w.perf ∨
      (r.heartbeatTime = 0 ∧ r.spawnTime + 5000 < w.perf))
    (hknown : ∀ r' ∈ w.drvs, r'.name ∈ Dict.keys d.devicefile.drivers)
    (hform : ∀ q s, w.drv q .status = some s → s.success = true → s.data.isSome)
    (s : DrvReply) (hs : w.drv p .status = some s) (hsucc : s.success = true)
    (hdata : s.data = some []) :
    (p, .register) ∈ (runW (drvManagerPass d) w).2.sent ∧
      (runW (drvManagerPass d) w).1.isOk := by
  have hsent : ∀ (pr : P Unit) (w : World) x, x ∈ w.sent → x ∈ (Prog.run exec pr w).2.sent := by
    intro pr w x hx
    induction pr generalizing w with
    | pure a => exact hx
    | raise e => exact hx
    | op o k ih =>
      simp only [Prog.run]
      apply ih
      cases o with
      | askDriver q c =>
        cases q with
        | none => exact hx
        | some q => simp only [exec]; split <;> simp [World.logSent, hx]
      | askDriverLpp q c =>
        cases q with
        | none => exact hx
        | some q => simp [exec, World.logSent, hx]
      | askDriverTimeout q c =>
        cases q with
        | none => exact hx
        | some q => simp only [exec]; split <;> simp [World.logSent, hx]
      | merge a b c =>
        simp only [exec]
        repeat' split
        all_goals exact hx
      | idBySubmitted t => simp only [exec]; split <;> exact hx
      | insertPip q => simp only [exec]; split <;> exact hx
      | insertDrv q => simp only [exec]; split <;> exact hx
      | makeJobDir a b => simp only [exec]; split <;> exact hx
      | notZombie q => simp only [exec]; split <;> exact hx
      | killChildren q => simp only [exec]; split <;> exact hx
      | _ => exact hx
  have key : ∀ (l : List DrvState) (w' : World), w'.drv = w.drv → w'.perf = w.perf →
      (∀ r' ∈ l, r'.name ∈ Dict.keys d.devicefile.drivers) →
      (Prog.run exec (Prog.forEach l (manageDriver (Dict.keys d.devicefile.drivers))) w').1.isOk ∧
      (r ∈ l → (p, .register) ∈
        (Prog.run exec (Prog.forEach l (manageDriver (Dict.keys d.devicefile.drivers))) w').2.sent) := by
    intro l
    induction l with
    | nil => intro w' _ _ _; exact ⟨rfl, fun h => by cases h⟩
    | cons a l ih =>
      intro w' hd' hpf hk
      rw [Prog.run_forEach_cons]
      have one : ∃ u w'', Prog.run exec (manageDriver (Dict.keys d.devicefile.drivers) a) w' =
          (.ok u, w'') ∧ w''.drv = w.drv ∧ w''.perf = w.perf ∧ (a = r → (p, .register) ∈ w''.sent) := by
        have hc : (Dict.keys d.devicefile.drivers).contains a.name = true := by
          simpa using hk a (by simp)
        simp only [manageDriver, Prog.bind_eq, Prog.run_bind, Do.run_perfCounter, exec_perfCounter,
          Prog.andThen_ok, hc, Bool.not_true, Bool.false_eq_true, if_false]
        cases hport : a.port with
        | none =>
          have har : a ≠ r := fun e => by rw [e, hp] at hport; cases hport
          simp only
          split
          · simp only [updateDrv, Prog.bind_eq, Prog.run_bind, Do.run_popenDriver, exec,
              Do.run_updateDrv, Prog.andThen_ok, Do.run_getDrv, Prog.pure_eq, Prog.run_pure]
            exact ⟨_, _, rfl, hd', hpf, fun e => absurd e har⟩
          · exact ⟨_, _, rfl, hd', hpf, fun e => absurd e har⟩
        | some q =>
          simp only
          split
          · have fin : ∀ (w₁ : World) ps, w₁.drv = w.drv → w₁.perf = w.perf →
                (a = r → (p, .register) ∈ w₁.sent) → ∃ u w'',
                Prog.run exec (Prog.bind (updateDrv a.name ps) (fun _ => pure ())) w₁ = (.ok u, w'') ∧
                w''.drv = w.drv ∧ w''.perf = w.perf ∧ (a = r → (p, .register) ∈ w''.sent) := by
              intro w₁ ps h1 h2 h3
              simp only [updateDrv, Prog.bind_eq, Prog.run_bind, Do.run_updateDrv, exec_updateDrv,
                Prog.andThen_ok, Do.run_getDrv, exec_getDrv, Prog.pure_eq, Prog.run_pure]
              exact ⟨_, _, rfl, h1, h2, h3⟩
            have hqp : a = r → q = p := fun e => by rw [e, hp] at hport; exact (Option.some.inj hport).symm
            simp only [Prog.bind_eq, Prog.run_bind, run_checkDriver, hd']
            cases hst : w.drv q .status with
            | none =>
              simp only [Prog.andThen_ok]
              refine fin _ _ hd' hpf (fun e => ?_)
              rw [hqp e, hs] at hst; cases hst
            | some s' =>
              simp only
              split
              · next hss =>
                have := hform q s' hst hss
                cases hsd : s'.data with
                | none => simp [hsd] at this
                | some regs =>
                  simp only
                  split
                  · have reg : ∀ w₁ : World, (a = r → (p, .register) ∈
                        ((w₁.logSent q .status).logSent q .register).sent) := by
                      intro w₁ e
                      rw [hqp e]
                      simp [World.logSent]
                    cases w.drv q .register with
                    | none =>
                      simp only [Prog.andThen_ok]
                      exact fin _ _ hd' hpf (reg w')
                    | some r' =>
                      simp only [Prog.andThen_ok]
                      exact fin _ _ hd' hpf (reg w')
                  · next hne =>
                    simp only [Prog.andThen_ok]
                    refine fin _ _ hd' hpf (fun e => ?_)
                    rw [hqp e, hs] at hst
                    cases hst
                    rw [hdata] at hsd
                    cases hsd
                    exact absurd rfl hne
              · next hns =>
                simp only [Prog.andThen_ok]
                refine fin _ _ hd' hpf (fun e => ?_)
                rw [hqp e, hs] at hst
                cases hst
                exact absurd hsucc hns
          · next hnd =>
            refine ⟨_, _, rfl, hd', hpf, fun e => ?_⟩
            subst e
            exfalso
            apply hnd
            simp only [heartbeatMs, spawnDelayMs, hpf]
            rcases hdue with h | ⟨h1, h2⟩
            · left; omega
            · right; exact ⟨h1, by omega⟩
      obtain ⟨u, w'', hrun, h1, h2, h3⟩ := one
      rw [hrun]
      simp only [Prog.andThen_ok]
      obtain ⟨h4, h5⟩ := ih w'' h1 h2 (fun r' h => hk r' (by simp [h]))
      refine ⟨h4, fun hm => ?_⟩
      rcases List.mem_cons.mp hm with e | hm
      · exact hsent _ _ _ (h3 e.symm)
      · exact h5 hm
  have hfull := key w.drvs w rfl rfl hknown
  simp only [runW, drvManagerPass, Prog.bind_eq, Prog.run_bind, Do.run_drvsWhere, exec_drvsWhere,
    Prog.andThen_ok]
  have hfil : w.drvs.filter (fun _ => true) = w.drvs := by simp
  rw [hfil]
  exact ⟨hfull.2 hr, hfull.1⟩

/-- A running driver without registered components. -/
def wDrv : World :=
  { drvs := [{ name := "d", port := some 5000, pid := some 70 }], perf := 9000,
    drv := fun _ _ => some { success := true, data := some [] } }

example : (runW (drvManagerPass dRun) wDrv).2.sent = [(5000, .status), (5000, .register)] := by
  decide

/-- The driver at this port is to be asked to register its components: it is in the table and in the
configuration, its check is due, and it reports that no component is registered. -/
def ToRegister (d : Daemon) (w : World) (p : Nat) : Prop :=
  ∃ r ∈ w.drvs, r.port = some p ∧ r.name ∈ Dict.keys d.devicefile.drivers ∧
    (r.heartbeatTime + 5000 < w.perf ∨ (r.heartbeatTime = 0 ∧ r.spawnTime + 5000 < w.perf)) ∧
    ∃ s, w.drv p .status = some s ∧ s.success = true ∧ s.data = some []

/-- **C58**, the converse of `C58_asks_partial`, without conditions: in a pass of the driver manager,
*only* such drivers are asked to register; never one which reports a component. -/
theorem C58_only (d : Daemon) (w : World) (p : Nat)
    (h : (p, .register) ∈ (runW (drvManagerPass d) w).2.sent) :
    (p, .register) ∈ w.sent ∨ ToRegister d w p := by
  have one : ∀ (a : DrvState) (w' : World), w'.drv = w.drv → w'.perf = w.perf → a ∈ w.drvs →
      ((Prog.run exec (manageDriver (Dict.keys d.devicefile.drivers) a) w').2.drv = w.drv ∧
      (Prog.run exec (manageDriver (Dict.keys d.devicefile.drivers) a) w').2.perf = w.perf) ∧
      ((p, .register) ∈ (Prog.run exec (manageDriver (Dict.keys d.devicefile.drivers) a) w').2.sent →
        (p, .register) ∈ w'.sent ∨ ToRegister d w p) := by
    intro a w' hd' hpf ha
    simp only [manageDriver, Prog.bind_eq, Prog.run_bind, Do.run_perfCounter, exec_perfCounter,
      Prog.andThen_ok]
    split
    · cases hport : a.port with
      | none =>
        simp only [Do.run_delDrv, exec]
        exact ⟨⟨hd', hpf⟩, fun h => .inl h⟩
      | some q =>
        simp only [Prog.run_bind, Do.run_askDriver, exec]
        cases w'.drv q .stop with
        | none =>
          simp only [Prog.andThen_error]
          exact ⟨⟨hd', hpf⟩, fun h => .inl (by simpa [World.logSent] using h)⟩
        | some s =>
          simp only [Prog.andThen_ok, Do.run_delDrv, exec]
          exact ⟨⟨hd', hpf⟩, fun h => .inl (by simpa [World.logSent] using h)⟩
    · next hc =>
      have hkn : a.name ∈ Dict.keys d.devicefile.drivers := by simpa using hc
      cases hport : a.port with
      | none =>
        simp only
        split
        · simp only [updateDrv, Prog.bind_eq, Prog.run_bind, Do.run_popenDriver, exec,
            Do.run_updateDrv, Prog.andThen_ok, Do.run_getDrv, Prog.pure_eq, Prog.run_pure]
          exact ⟨⟨hd', hpf⟩, fun h => .inl h⟩
        · exact ⟨⟨hd', hpf⟩, fun h => .inl h⟩
      | some q =>
        simp only
        split
        · next hdue =>
          have fin : ∀ (w₁ : World) ps, w₁.drv = w.drv → w₁.perf = w.perf →
              ((p, .register) ∈ w₁.sent → (p, .register) ∈ w'.sent ∨ ToRegister d w p) →
              ((Prog.run exec (Prog.bind (updateDrv a.name ps) (fun _ => pure ())) w₁).2.drv = w.drv ∧
                (Prog.run exec (Prog.bind (updateDrv a.name ps) (fun _ => pure ())) w₁).2.perf = w.perf) ∧
              ((p, .register) ∈ (Prog.run exec (Prog.bind (updateDrv a.name ps) (fun _ => pure ())) w₁).2.sent →
                (p, .register) ∈ w'.sent ∨ ToRegister d w p) := by
            intro w₁ ps h1 h2 h3
            simp only [updateDrv, Prog.bind_eq, Prog.run_bind, Do.run_updateDrv, exec_updateDrv,
              Prog.andThen_ok, Do.run_getDrv, exec_getDrv, Prog.pure_eq, Prog.run_pure]
            exact ⟨⟨h1, h2⟩, h3⟩
          simp only [Prog.run_bind, run_checkDriver, hd']
          cases hst : w.drv q .status with
          | none =>
            simp only [Prog.andThen_ok]
            exact fin _ _ hd' hpf (fun h => .inl (by simpa [World.logSent] using h))
          | some s' =>
            simp only
            split
            · next hss =>
              cases hsd : s'.data with
              | none =>
                simp only [Prog.andThen_error]
                exact ⟨⟨hd', hpf⟩, fun h => .inl (by simpa [World.logSent] using h)⟩
              | some regs =>
                simp only
                split
                · next hl =>
                  have hnil : s'.data = some [] := by rw [hsd, List.length_eq_zero_iff.mp hl]
                  have reg : (p, DrvCmd.register) ∈ ((w'.logSent q .status).logSent q .register).sent →
                      (p, .register) ∈ w'.sent ∨ ToRegister d w p := by
                    intro h
                    simp only [World.logSent, List.mem_append, List.mem_singleton, Prod.mk.injEq] at h
                    rcases h with (h | ⟨_, h⟩) | ⟨rfl, _⟩
                    · exact .inl h
                    · cases h
                    · refine .inr ⟨a, ha, hport, hkn, ?_, s', hst, hss, hnil⟩
                      simp only [heartbeatMs, spawnDelayMs, hpf] at hdue
                      rcases hdue with h | ⟨h1, h2⟩
                      · left; omega
                      · right; exact ⟨h1, by omega⟩
                  cases w.drv q .register with
                  | none => simp only [Prog.andThen_ok]; exact fin _ _ hd' hpf reg
                  | some r' => simp only [Prog.andThen_ok]; exact fin _ _ hd' hpf reg
                · simp only [Prog.andThen_ok]
                  exact fin _ _ hd' hpf (fun h => .inl (by simpa [World.logSent] using h))
            · simp only [Prog.andThen_ok]
              exact fin _ _ hd' hpf (fun h => .inl (by simpa [World.logSent] using h))
        · exact ⟨⟨hd', hpf⟩, fun h => .inl h⟩
  have all : ∀ (l : List DrvState) (w' : World), w'.drv = w.drv → w'.perf = w.perf →
      (∀ a ∈ l, a ∈ w.drvs) →
      (p, .register) ∈
        (Prog.run exec (Prog.forEach l (manageDriver (Dict.keys d.devicefile.drivers))) w').2.sent →
      (p, .register) ∈ w'.sent ∨ ToRegister d w p := by
    intro l
    induction l with
    | nil => intro w' _ _ _ h; exact .inl h
    | cons a l ih =>
      intro w' hd' hpf hm h
      rw [Prog.run_forEach_cons] at h
      obtain ⟨⟨h1, h2⟩, h3⟩ := one a w' hd' hpf (hm a (by simp))
      rcases hr : Prog.run exec (manageDriver (Dict.keys d.devicefile.drivers) a) w' with ⟨res, w''⟩
      rw [hr] at h h1 h2 h3
      cases res with
      | error e => exact h3 h
      | ok u =>
        rcases ih w'' h1 h2 (fun x hx => hm x (by simp [hx])) h with h | h
        · exact h3 h
        · exact .inr h
  simp only [runW, drvManagerPass, Prog.bind_eq, Prog.run_bind, Do.run_drvsWhere, exec_drvsWhere,
    Prog.andThen_ok] at h
  exact all _ w rfl rfl (fun a ha => (List.mem_filter.mp ha).1) h

/-- The driver of this world is asked, and may be. -/
example : (5000, DrvCmd.register) ∈ (runW (drvManagerPass dRun) wDrv).2.sent := by decide

/-- A driver one of whose two components is registered. -/
def wDrv1 : World :=
  { drvs := [{ name := "d", port := some 5000, pid := some 70 }], perf := 9000,
    drv := fun _ _ => some { success := true, data := some ["d:(a,1)"] } }

/-- The row of the driver after a check at time `h`. -/
def rowAt (h : Nat) : DrvState where
  name := "d"
  port := some 5000
  pid := some 70
  heartbeatTime := h

/-- The clock is set. -/
def setPerf (w : World) (t : Nat) : World := { w with perf := t }

/-- **C58** is violated: as soon as one component of a driver is registered, the driver manager
never asks for the others again.  (`dRun` configures `d:(a,1)` and `d:(a,2)`.)  Whatever happens
to the clock, no pass sends `register`. -/
theorem C58_refuted : ∀ (ts : List Nat),
    ∀ x ∈ (ts.foldl (fun w t => (runW (drvManagerPass dRun) (setPerf w t)).2) wDrv1).sent,
      x.2 ≠ .register := by
  intro ts
  have inv : ∀ (w : World), w.drv = wDrv1.drv → (∃ h, w.drvs = [rowAt h]) → (∀ x ∈ w.sent, x.2 ≠ .register) →
      ∀ x ∈ (ts.foldl (fun w t => (runW (drvManagerPass dRun) (setPerf w t)).2) w).sent,
        x.2 ≠ .register := by
    induction ts with
    | nil => intro w _ _ h; exact h
    | cons t ts ih =>
      intro w h1 h2 h3
      obtain ⟨hb, h2⟩ := h2
      rw [List.foldl_cons]
      have hk : (Dict.keys dRun.devicefile.drivers).contains "d" = true := by decide
      have : (runW (drvManagerPass dRun) (setPerf w t)).2.drv = wDrv1.drv ∧
          (∃ h, (runW (drvManagerPass dRun) (setPerf w t)).2.drvs = [rowAt h]) ∧
          (∀ x ∈ (runW (drvManagerPass dRun) (setPerf w t)).2.sent, x.2 ≠ .register) := by
        simp only [runW, drvManagerPass, Prog.bind_eq, Prog.run_bind, Do.run_drvsWhere, setPerf,
          exec_drvsWhere, Prog.andThen_ok, h2, rowAt, List.filter_cons, if_true, List.filter_nil,
          Prog.run_forEach_cons, manageDriver, Do.run_perfCounter, exec_perfCounter, hk,
          Bool.not_true, Bool.false_eq_true, if_false]
        split
        · simp only [Prog.bind_eq, Prog.run_bind, run_checkDriver, h1]
          simp only [wDrv1, if_true]
          simp only [List.length_cons, List.length_nil, Nat.zero_add, Nat.reduceEqDiff, if_false,
            Prog.andThen_ok, updateDrv, Prog.bind_eq, Prog.run_bind, Do.run_updateDrv,
            exec_updateDrv, Do.run_getDrv, exec_getDrv, Prog.pure_eq, Prog.run_pure,
            Prog.run_forEach_nil]
          refine ⟨rfl, ⟨t, ?_⟩, ?_⟩
          · simp [World.logSent, updDrvs, DrvParam.apply]
          · intro x hx
            simp only [World.logSent, List.mem_append, List.mem_singleton] at hx
            rcases hx with hx | rfl
            · exact h3 x hx
            · simp
        · exact ⟨h1, ⟨hb, rfl⟩, h3⟩
      exact ih _ this.1 this.2.1 this.2.2
  exact inv wDrv1 rfl ⟨0, rfl⟩ (by simp [wDrv1])

/-! ## C59 -/

/-- Histories of one driver, `n`: complete passes of the driver manager with any configuration at
any time, the driver process coming up, and anything else that neither touches the row of the
driver nor starts driver processes.  The list contains the times at which the driver was spawned
since it last came up. -/
inductive SpawnHist (n : String) : World → List Nat → Prop where
  /-- the driver was just entered in the table -/
  | start (w : World) : w.WF → w.drv? n = some { name := n } → SpawnHist n w []
  | pass (w : World) (l : List Nat) (d : Daemon) (new : List Nat) : SpawnHist n w l →
      spawnsOf n (runW (drvManagerPass d) w).2 = spawnsOf n w ++ new →
      SpawnHist n (runW (drvManagerPass d) w).2 (l ++ new)
  | up (w : World) (l : List Nat) (port pid : Nat) (v : String) : SpawnHist n w l →
      SpawnHist n (runW (driverStart n port pid v) w).2 []
  | other (w w' : World) (l : List Nat) : SpawnHist n w l → w'.WF → w'.drv? n = w.drv? n →
      SpawnHist n w' l

/-- Successive times are more than `gap` apart. -/
def Spaced (gap : Nat) : List Nat → Prop
  | [] => True
  | [_] => True
  | a :: b :: rest => a + gap < b ∧ Spaced gap (b :: rest)

theorem spaced_append {gap : Nat} : ∀ {l : List Nat} {t : Nat}, Spaced gap l →
    (∀ a, l.getLast? = some a → a + gap < t) → Spaced gap (l ++ [t]) := by
  intro l
  induction l with
  | nil => intro t _ _; trivial
  | cons a l ih =>
    intro t h ht
    cases l with
    | nil => exact ⟨ht a rfl, trivial⟩
    | cons b l =>
      exact ⟨h.1, ih h.2 (fun x hx => ht x (by simpa using hx))⟩

/-- What the row knows about the spawns since the driver last came up. -/
theorem spawnHist_inv {n : String} {w : World} {l : List Nat} (h : SpawnHist n w l) :
    w.WF ∧ Spaced 5000 l ∧ ∃ r, w.drv? n = some r ∧ r.spawnCount ≤ 3 ∧
      (r.port.isSome → l = []) ∧ (r.port = none → l.length ≤ r.spawnCount) ∧
      (∀ t, l.getLast? = some t → r.spawnTime = t) := by
  induction h with
  | start w hw hr => exact ⟨hw, trivial, _, hr, by simp, by simp, by simp, by simp⟩
  | pass w l d new h hnew ih =>
    obtain ⟨hw, hsp, r, hr, hc, hp, hl, ht⟩ := ih
    refine ⟨runW_wf _ _ hw, ?_⟩
    have heff := drvPass_eff d w hw n
    cases heff with
    | same hr' hs =>
      rw [hs] at hnew
      have : new = [] := by simpa using hnew
      subst this
      rw [List.append_nil]
      exact ⟨hsp, r, hr'.trans hr, hc, hp, hl, ht⟩
    | spawn r₁ hr₁ hp₁ ht₁ hc₁ hr' hs =>
      rw [hr] at hr₁
      cases hr₁
      rw [hs] at hnew
      have : new = [w.perf] := (List.append_cancel_left hnew).symm
      subst this
      have hl' := hl hp₁
      refine ⟨spaced_append hsp (fun a ha => by rw [← ht a ha]; exact ht₁), _, hr', ?_, ?_, ?_, ?_⟩
      · show r.spawnCount + 1 ≤ 3
        omega
      · intro h; rw [hp₁] at h; cases h
      · intro _
        simp only [List.length_append, List.length_singleton]
        omega
      · intro t h
        simpa using h
    | beat r₁ t₁ hr₁ hp₁ hr' hs =>
      rw [hr] at hr₁
      cases hr₁
      rw [hs] at hnew
      have : new = [] := by simpa using hnew
      subst this
      rw [List.append_nil]
      exact ⟨hsp, _, hr', hc, hp, hl, ht⟩
    | reset r₁ hr₁ hp₁ hr' hs =>
      rw [hr] at hr₁
      cases hr₁
      rw [hs] at hnew
      have : new = [] := by simpa using hnew
      subst this
      rw [List.append_nil, hp hp₁]
      exact ⟨trivial, _, hr', by simp, by simp, by simp, by simp⟩
  | up w l port pid v h ih =>
    obtain ⟨hw, -, r, hr, hc, -, -, -⟩ := ih
    refine ⟨runW_wf _ _ hw, trivial, ?_⟩
    simp only [runW, driverStart, updateDrv, Prog.bind_eq, Prog.run_bind, Do.run_updateDrv,
      exec_updateDrv, Prog.andThen_ok, Do.run_getDrv, exec_getDrv, Prog.pure_eq, Prog.run_pure]
    refine ⟨_, by rw [drv?_update, hr]; rfl, ?_, by simp, by simp, by simp⟩
    simpa [DrvParam.apply] using hc
  | other w w' l h hw hr ih =>
    obtain ⟨-, hsp, r, hr₀, rest⟩ := ih
    exact ⟨hw, hsp, r, hr.trans hr₀, rest⟩

/-- **C59**: since it was last up (or was configured), a driver has been spawned at most three
times, and successive attempts are more than five seconds apart. -/
theorem C59_spawned_at_most_three_times {n : String} {w : World} {l : List Nat}
    (h : SpawnHist n w l) : l.length ≤ 3 ∧ Spaced 5000 l := by
  obtain ⟨-, hsp, r, hr, hc, hp, hl, -⟩ := spawnHist_inv h
  refine ⟨?_, hsp⟩
  cases hport : r.port with
  | none => have := hl hport; omega
  | some p => rw [hp (by simp [hport])]; simp

/-- Passes every second, and a driver that never comes up. -/
def passes (ts : List Nat) (w : World) : World :=
  ts.foldl (fun w t => (runW (drvManagerPass dRun) (setPerf w t)).2) w

example : spawnsOf "d" (passes ((List.range 30).map (1000 * ·)) { drvs := [{ name := "d" }] }) =
    [6000, 12000, 18000] := by decide +kernel

/-- The example is a history in the sense of the theorem. -/
example : ∃ w, SpawnHist "d" w [6000, 12000] := by
  have hw : World.WF { drvs := [{ name := "d" }], perf := 6000 } := by constructor <;> simp
  have h0 : SpawnHist "d" { drvs := [{ name := "d" }], perf := 6000 } [] := .start _ hw rfl
  have h1 := SpawnHist.pass _ _ dRun [6000] h0 (by decide)
  have hw1 := runW_wf (drvManagerPass dRun) _ hw
  have h2 := SpawnHist.other _ (setPerf (runW (drvManagerPass dRun)
    { drvs := [{ name := "d" }], perf := 6000 }).2 12000) _ h1 ⟨hw1.1, hw1.2, hw1.3, hw1.4⟩ rfl
  exact ⟨_, .pass _ _ dRun [12000] h2 (by decide)⟩

/-! ## C60 -/

theorem exec_drvs (o : Op) (w : World) :
    (exec o w).2.drvs = w.drvs ∨
    (∃ p, o = .insertDrv p ∧ (exec o w).2.drvs = w.drvs ++ [p]) ∨
    (∃ n ps, o = .updateDrv n ps ∧ (exec o w).2.drvs = updDrvs n ps w.drvs) := by
  cases o with
  | updateDrv id ps => exact .inr (.inr ⟨id, ps, rfl, rfl⟩)
  | askDriver port c =>
    left; cases port with
    | none => rfl
    | some p => simp only [exec]; split <;> rfl
  | askDriverLpp port c => left; cases port <;> rfl
  | askDriverTimeout port c =>
    left; cases port with
    | none => rfl
    | some p => simp only [exec]; split <;> rfl
  | merge a b c =>
    left; simp only [exec]; split
    · rfl
    · split
      · rfl
      · split <;> rfl
  | idBySubmitted t => left; simp only [exec]; split <;> rfl
  | insertDrv p =>
    by_cases h : (w.drv? p.name).isSome = true
    · left; simp only [exec, h, if_true]
    · right; left; refine ⟨p, rfl, ?_⟩; simp only [exec, h]; rfl
  | insertPip p => left; simp only [exec]; split <;> rfl
  | makeJobDir s i => left; simp only [exec]; split <;> rfl
  | notZombie p => left; simp only [exec]; split <;> rfl
  | killChildren p => left; simp only [exec]; split <;> rfl
  | _ => left; rfl

/-- **C60** (first part): in every reachable state, whatever is interleaved and killed, a driver
has a process id on record exactly when it has a port on record. -/
theorem C60_pid_iff_port {st : String} {s : Sys} (hr : Reachable st s) :
    ∀ d ∈ s.w.drvs, d.pid.isSome = d.port.isSome := by
  unfold Reachable at hr
  induction hr with
  | refl => intro d hd; cases hd
  | @tail s1 s2 h1 h2 ih =>
    rcases step_world h1 h2 with h | ⟨e, h⟩ | ⟨o, ho, h⟩
    · rw [h]; exact ih
    · rw [h, (e.apply_eq _).2.2.2.1]; exact ih
    · rw [h]
      rcases exec_drvs o s1.w with h | ⟨p, rfl, h⟩ | ⟨n, ps, rfl, h⟩
      · rw [h]; exact ih
      · rw [h]
        intro d hd
        rcases List.mem_append.mp hd with hd | hd
        · exact ih d hd
        · rw [List.mem_singleton.mp hd]
          rcases ho with ho | ho | ⟨c, ho⟩
          · cases ho
          · cases ho
          · cases c <;> try exact False.elim ho
            simp only [Cmd.writes] at ho
            rw [ho]
      · rw [h]
        intro d hd
        simp only [updDrvs, List.mem_map] at hd
        obtain ⟨d₀, hd₀, rfl⟩ := hd
        split
        · rcases ho with ho | ho | ⟨c, ho⟩
          · cases ho
          · cases ho
          · cases c <;> try exact False.elim ho
            · rcases ho with rfl | ⟨t, rfl⟩ | ⟨t, c, rfl⟩
              · rfl
              · exact ih d₀ hd₀
              · exact ih d₀ hd₀
            · obtain ⟨-, rfl⟩ := ho
              rfl
        · exact ih d₀ hd₀

example : Reachable "Jobs" sSetup ∧ sSetup.w.drvs.map (fun d => (d.pid, d.port)) =
    [(some 70, some 5000)] := ⟨sSetup_reachable, rfl⟩

/-- **C60** (second part) is violated: `del_drv` raises an exception, which ends the thread of the
driver manager.  Whenever a driver in the table is not in the configuration, the pass fails, and no
record is deleted. -/
theorem C60_refuted (d : Daemon) (w : World) (r : DrvState) (hr : r ∈ w.drvs)
    (hn : r.name ∉ Dict.keys d.devicefile.drivers) :
    (∃ e, (runW (drvManagerPass d) w).1 = .error e) ∧
    (runW (drvManagerPass d) w).2.drvs.map (·.name) = w.drvs.map (·.name) := by
  constructor
  · simp only [runW, drvManagerPass, Prog.bind_eq, Prog.run_bind, Do.run_drvsWhere, exec_drvsWhere,
      Prog.andThen_ok]
    have hfil : w.drvs.filter (fun _ => true) = w.drvs := by simp
    rw [hfil]
    have key : ∀ (l : List DrvState) (w : World), r ∈ l → ∃ e, (Prog.run exec
        (Prog.forEach l (manageDriver (Dict.keys d.devicefile.drivers))) w).1 = .error e := by
      intro l
      induction l with
      | nil => intro w h; cases h
      | cons a l ih =>
        intro w h
        rw [Prog.run_forEach_cons]
        rcases hrun : Prog.run exec (manageDriver (Dict.keys d.devicefile.drivers) a) w with ⟨res, w'⟩
        rw [hrun]
        cases res with
        | error e => exact ⟨e, rfl⟩
        | ok u =>
          rcases List.mem_cons.mp h with rfl | h
          · exfalso
            have hc : (Dict.keys d.devicefile.drivers).contains r.name = false := by simpa using hn
            simp only [manageDriver, Prog.bind_eq, Prog.run_bind, Do.run_perfCounter,
              exec_perfCounter, Prog.andThen_ok, hc, Bool.not_false, if_true] at hrun
            cases hp : r.port with
            | none => simp [hp, exec] at hrun
            | some p =>
              simp only [hp, Prog.bind_eq, Prog.run_bind, Do.run_askDriver, exec] at hrun
              cases hd : w.drv p .stop with
              | none => simp [hd] at hrun
              | some x => simp [hd, exec] at hrun
          · simp only [Prog.andThen_ok]
            exact ih w' h
    exact key w.drvs w hr
  · have : ∀ {α : Type} (p : P α) (w : World), Prog.Only (S := DB) (fun o => ∀ x, o ≠ .insertDrv x) p →
        (Prog.run exec p w).2.drvs.map (·.name) = w.drvs.map (·.name) := by
      intro α p w hp
      refine Prog.run_only (R := fun a b => b.drvs.map (·.name) = a.drvs.map (·.name))
        (fun _ => rfl) (fun a b c h1 h2 => by rw [h2, h1]) (fun o w ho => ?_) hp w
      rcases exec_drvs o w with h | ⟨p, rfl, h⟩ | ⟨n, ps, rfl, h⟩
      · rw [h]
      · exact absurd rfl (ho p)
      · rw [h, updDrvs_names]
    apply this
    have hq : ∀ o, QuietOp o → ∀ x, o ≠ .insertDrv x := by rintro o ho x rfl; cases ho
    have hu : ∀ n ps, Prog.Only (S := DB) (fun o => ∀ x, o ≠ Op.insertDrv x) (updateDrv n ps) :=
      fun n ps => only_updateDrv hq n ps (by simp)
    unfold drvManagerPass
    refine Prog.only_bind ((Do.only_drvsWhere _).mpr (by simp)) (fun t => Prog.only_forEach fun p _ => ?_)
    unfold manageDriver
    refine Prog.only_bind (Do.only_perfCounter.mpr (by simp)) (fun tN => ?_)
    split
    · split
      · exact Prog.only_bind ((Do.only_askDriver _ _).mpr (by simp)) (fun _ =>
          (Do.only_delDrv _).mpr (by simp))
      · exact (Do.only_delDrv _).mpr (by simp)
    · split
      · split
        · refine Prog.only_bind ?_ (fun _ => Prog.only_bind (hu _ _) (fun _ => trivial))
          unfold checkDriver
          refine Prog.only_tryExcept ?_ ?_
          · refine Prog.only_bind ((Do.only_askDriverTimeout _ _).mpr (by simp)) (fun r => ?_)
            split
            · split
              · trivial
              · split
                · exact Prog.only_bind ((Do.only_askDriverTimeout _ _).mpr (by simp))
                    (fun _ => trivial)
                · trivial
            · trivial
          · intro e q hq'
            split at hq'
            · cases hq'; trivial
            · cases hq'
        · trivial
      · split
        · exact Prog.only_bind ((Do.only_popenDriver _).mpr (by simp)) (fun _ =>
            Prog.only_bind (hu _ _) (fun _ => trivial))
        · trivial

example : (runW (drvManagerPass {}) wDrv).1.isOk = false ∧
    (runW (drvManagerPass {}) wDrv).2.sent = [(5000, .stop)] := by decide

/-- **C60** (second part, `_partial`: the record is not deleted, see `C60_refuted`): a driver that
was removed from the configuration is told to stop, and no other driver is. -/
theorem C60_stop_partial (known : List String) (r : DrvState) (p : Nat) (w : World)
    (hn : r.name ∉ known) (hp : r.port = some p) :
    (runW (manageDriver known r) w).2 = w.logSent p .stop := by
  have hc : known.contains r.name = false := by simpa using hn
  simp only [runW, manageDriver, Prog.bind_eq, Prog.run_bind, Do.run_perfCounter, exec_perfCounter,
    Prog.andThen_ok, hc, Bool.not_false, if_true, hp, Do.run_askDriver, exec]
  cases w.drv p .stop with
  | none => rfl
  | some x => rfl

example : (runW (manageDriver [] { name := "d", port := some 5000 }) {}).2.sent =
    [(5000, .stop)] := by decide

end Props

end Tomato
