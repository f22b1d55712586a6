import Verif.Props.KeepGoing

/-!
# C20: the pipeline manager
-/

namespace Tomato

/-! ## Specification -/

/-- The job is over: its process is gone or a zombie; or it has been terminated (the process id is
cleared after it has connected); or it was launched more than `limit` microseconds ago and has not
connected. -/
def Over (limit : Nat) (w : World) (j : Job) : Prop :=
  match j.pid with
  | some pid => w.alive pid = false
  | none => j.connectedAt.isSome ∨ ∃ t, j.launchedAt = some t ∧ t + limit < w.clock

instance (limit : Nat) (w : World) (j : Job) : Decidable (Over limit w j) := by
  unfold Over
  split
  · infer_instance
  · cases j.launchedAt with
    | none => exact decidable_of_iff (j.connectedAt.isSome = true) (by simp)
    | some t => exact decidable_of_iff (j.connectedAt.isSome = true ∨ t + limit < w.clock) (by simp)

/-- Ten seconds. -/
def tenSeconds : Nat := 10 * 1000000

/-- Ten days. -/
def tenDays : Nat := 864000 * 1000000

/-- The row of a pipeline that has been reset: no job, not ready, the same sample. -/
def freed (p : PipState) : PipState := { p with jobid := none, ready := false }

/-- The pipeline is to be reset. -/
def ToReset (limit : Nat) (w : World) (p : PipState) : Prop :=
  ∃ id, p.jobid = some id ∧ ∃ j ∈ w.jobs, j.id = id ∧ Over limit w j

instance (limit : Nat) (w : World) (p : PipState) : Decidable (ToReset limit w p) :=
  match h : p.jobid with
  | none => .isFalse (by rintro ⟨id, h1, -⟩; rw [h] at h1; cases h1)
  | some id => decidable_of_iff (∃ j ∈ w.jobs, j.id = id ∧ Over limit w j) (by
      constructor
      · exact fun h1 => ⟨id, h, h1⟩
      · rintro ⟨id', h1, h2⟩
        rw [h] at h1
        cases h1
        exact h2)

/-- The driver of this component can be asked to reset it. -/
def CanReset (d : Daemon) (w : World) (c : String) : Prop :=
  ∃ cmp row port, Dict.get? d.devicefile.components c = some cmp ∧ w.drv? cmp.driver = some row ∧
    row.port = some port ∧ (w.drv port (.reset cmp.address cmp.channel)).isSome

/-- The command that resets a component. -/
def resetCmd (d : Daemon) (w : World) (c : String) : List (Nat × DrvCmd) :=
  match Dict.get? d.devicefile.components c with
  | none => []
  | some cmp =>
    match (w.drv? cmp.driver).bind (·.port) with
    | none => []
    | some port => [(port, .reset cmp.address cmp.channel)]

/-- The commands that reset a pipeline. -/
def resetCmds (d : Daemon) (w : World) (n : String) : List (Nat × DrvCmd) :=
  match Dict.get? d.devicefile.pipelines n with
  | none => []
  | some pl => (Dict.values pl.components).flatMap (resetCmd d w)

/-! ## The pass, run alone -/

variable {d : Daemon}

theorem run_resetComponents (cs : List String) (w : World) (hc : ∀ c ∈ cs, CanReset d w c) :
    runW (resetComponents d cs) w = (.ok (), { w with sent := w.sent ++ cs.flatMap (resetCmd d w) }) := by
  induction cs generalizing w with
  | nil => simp [resetComponents, runW]
  | cons c cs ih =>
    obtain ⟨cmp, row, port, h1, h2, h3, h4⟩ := hc c (by simp)
    obtain ⟨r, hr⟩ := Option.isSome_iff_exists.mp h4
    unfold resetComponents
    rw [h1]
    have hrest := ih { w with sent := w.sent ++ [(port, .reset cmp.address cmp.channel)] }
      (fun c' hc' => by
        obtain ⟨cmp', row', port', h1', h2', h3', h4'⟩ := hc c' (List.mem_cons_of_mem _ hc')
        exact ⟨cmp', row', port', h1', h2', h3', h4'⟩)
    have hask : exec (.askDriver (some port) (.reset cmp.address cmp.channel)) w =
        (.ok r, { w with sent := w.sent ++ [(port, .reset cmp.address cmp.channel)] }) := by
      simp only [exec, hr, World.logSent]
    simp only [runW] at hrest
    simp only [runW, Prog.bind_eq, Prog.run_bind, Do.run_getDrv, exec_getDrv, h2, Prog.andThen_ok, h3,
      Do.run_askDriver, hask, hrest]
    have hcmd : resetCmd d w c = [(port, .reset cmp.address cmp.channel)] := by
      simp only [resetCmd, h1, h2, Option.bind_some, h3]
    have hsame : resetCmd d { w with sent := w.sent ++ [(port, .reset cmp.address cmp.channel)] } = resetCmd d w := rfl
    rw [hsame, List.flatMap_cons, hcmd, List.append_assoc]

theorem run_resetPipeline (pip : PipState) (w : World)
    (hcf : ∃ pl, Dict.get? d.devicefile.pipelines pip.name = some pl ∧ ∀ c ∈ Dict.values pl.components, CanReset d w c) :
    runW (resetPipeline d pip) w = (.ok (), { w with
      sent := w.sent ++ resetCmds d w pip.name, pips := updPips pip.name [.jobid none, .ready false] w.pips }) := by
  obtain ⟨pl, hpl, hc⟩ := hcf
  have h1 := run_resetComponents (Dict.values pl.components) w hc
  have h2 := run_updatePip pip.name [.jobid none, .ready false]
    { w with sent := w.sent ++ (Dict.values pl.components).flatMap (resetCmd d w) }
  unfold resetPipeline
  rw [hpl]
  simp only [runW] at h1 h2
  simp only [runW, Prog.bind_eq, Prog.run_bind, h1, Prog.andThen_ok, h2, resetCmds, hpl]
  rfl

theorem run_managePip (pip : PipState) (id : Nat) (j : Job) (w : World) (hj : w.job? id = some j) :
    runW (managePip d pip id) w =
      if Over pipMaxNoPid w j then runW (resetPipeline d pip) w else (.ok (), w) := by
  have hg := run_getJobId id w
  rw [hj] at hg
  simp only [runW] at hg
  unfold managePip
  simp only [runW, Prog.bind_eq, Prog.run_bind, hg, Prog.andThen_ok]
  cases hp : j.pid with
  | none =>
    simp only
    by_cases hc : j.connectedAt.isSome = true
    · rw [if_pos hc, if_pos]
      simp only [Over, hp]
      exact .inl hc
    · rw [if_neg hc]
      cases hl : j.launchedAt with
      | none =>
        simp only
        rw [if_neg]
        · rfl
        · simp [Over, hp, hc, hl]
      | some t =>
        simp only [Prog.run_bind, Do.run_now, exec_now, Prog.andThen_ok]
        by_cases ht : t + pipMaxNoPid < w.clock
        · rw [if_pos (show w.clock - t > pipMaxNoPid by omega), if_pos]
          simp [Over, hp, hl, ht]
        · rw [if_neg (show ¬ w.clock - t > pipMaxNoPid by omega), if_neg]
          · rfl
          · simp [Over, hp, hl, ht, hc]
  | some pid =>
    simp only [Prog.run_bind, Do.run_pidExists, exec_pidExists, Prog.andThen_ok]
    by_cases hh : w.hasPid pid = true
    · rw [if_pos hh]
      have hz : exec (.notZombie pid) w = (.ok (w.alive pid), w) := by
        simp only [exec, hh, if_true]
      simp only [Prog.run_bind, Do.run_notZombie, hz, Prog.andThen_ok]
      by_cases ha : w.alive pid = true
      · rw [if_pos ha, if_neg]
        · rfl
        · simp [Over, hp, ha]
      · rw [if_neg ha, if_pos]
        simp [Over, hp, ha]
    · rw [if_neg hh, if_pos]
      simp only [Over, hp]
      cases h : w.alive pid with
      | false => rfl
      | true => exact absurd (alive_hasPid h) hh

theorem applyPip_freed (p : PipState) : applyPip p [.jobid none, .ready false] = freed p := rfl

/-- The effect of resetting some of the pipelines. -/
def resetSome (w0 : World) (l : List PipState) (p : PipState) : PipState :=
  if ∃ q ∈ l, q.name = p.name ∧ ToReset pipMaxNoPid w0 q then freed p else p

/-- The loop over the pipelines with a job. -/
theorem run_pipLoop (w0 : World) (ids : (w0.jobs.map (·.id)).Nodup)
    (l : List PipState) :
    ∀ w : World, l.Nodup → (∀ p ∈ l, p ∈ w0.pips) →
      w.jobs = w0.jobs → w.procs = w0.procs → w.clock = w0.clock → w.drvs = w0.drvs → w.drv = w0.drv →
      (∀ p ∈ l, ∃ id, p.jobid = some id ∧ ∃ j ∈ w0.jobs, j.id = id) →
      (∀ p ∈ l, ToReset pipMaxNoPid w0 p → ∃ pl, Dict.get? d.devicefile.pipelines p.name = some pl ∧
        ∀ c ∈ Dict.values pl.components, CanReset d w0 c) →
      runW (Prog.forEach l (fun pip => match pip.jobid with
        | none => pure ()
        | some id => managePip d pip id)) w = (.ok (), { w with
          pips := w.pips.map (resetSome w0 l),
          sent := w.sent ++ (l.filter (fun p => decide (ToReset pipMaxNoPid w0 p))).flatMap
            (fun p => resetCmds d w0 p.name) }) := by
  induction l with
  | nil =>
    intro w _ _ _ _ _ _ _ _ _
    have : resetSome w0 [] = id := by funext p; simp [resetSome]
    simp [runW, this]
  | cons p l ih =>
    intro w hnd hin hjobs hprocs hclock hdrvs hdrv hrow hcf
    rw [List.nodup_cons] at hnd
    obtain ⟨id, hid, j, hj, hji⟩ := hrow p (by simp)
    have hjob : w.job? id = some j := by
      unfold World.job?
      rw [hjobs, ← hji]
      exact find?_of_nodup (key := fun j : Job => j.id) ids hj
    have hover : Over pipMaxNoPid w j ↔ ToReset pipMaxNoPid w0 p := by
      have h1 : Over pipMaxNoPid w j ↔ Over pipMaxNoPid w0 j := by
        unfold Over World.alive; rw [hprocs, hclock]
      rw [h1]
      constructor
      · exact fun h => ⟨id, hid, j, hj, hji, h⟩
      · rintro ⟨id', h2, j', h3, h4, h5⟩
        rw [hid] at h2
        cases h2
        have e1 := find?_of_nodup (key := fun j : Job => j.id) ids hj
        have e2 := find?_of_nodup (key := fun j : Job => j.id) ids h3
        rw [h4, ← hji, e1] at e2
        cases e2
        exact h5
    have hfirst := run_managePip (d := d) p id j w hjob
    by_cases ht : ToReset pipMaxNoPid w0 p
    · rw [if_pos (hover.mpr ht)] at hfirst
      obtain ⟨pl, hpl, hcs⟩ := hcf p (by simp) ht
      have hcan : ∀ c ∈ Dict.values pl.components, CanReset d w c := by
        intro c hc
        have := hcs c hc
        unfold CanReset World.drv? at this ⊢
        rw [hdrvs, hdrv]
        exact this
      rw [run_resetPipeline p w ⟨pl, hpl, hcan⟩] at hfirst
      have hrest := ih { w with
        sent := w.sent ++ resetCmds d w p.name, pips := updPips p.name [.jobid none, .ready false] w.pips }
        hnd.2 (fun q hq => hin q (by simp [hq])) hjobs hprocs hclock hdrvs hdrv
        (fun q hq => hrow q (by simp [hq])) (fun q hq => hcf q (by simp [hq]))
      simp only [runW] at hfirst hrest
      simp only [runW, Prog.run_forEach_cons, hid, hfirst, Prog.andThen_ok, hrest]
      have hsent : resetCmds d w p.name = resetCmds d w0 p.name := by
        have : resetCmd d w = resetCmd d w0 := by
          funext c; unfold resetCmd World.drv?; rw [hdrvs]
        unfold resetCmds; rw [this]
      congr 1
      congr 1
      · simp only [updPips, List.map_map]
        apply List.map_congr_left
        intro q _
        simp only [Function.comp, applyPip_freed]
        by_cases hq : q.name = p.name
        · rw [if_pos hq]
          unfold resetSome
          rw [if_pos (c := ∃ r ∈ p :: l, r.name = q.name ∧ ToReset pipMaxNoPid w0 r) ⟨p, by simp, hq.symm, ht⟩]
          split <;> rfl
        · rw [if_neg hq]
          unfold resetSome
          by_cases hx : ∃ r ∈ l, r.name = q.name ∧ ToReset pipMaxNoPid w0 r
          · rw [if_pos hx, if_pos]
            obtain ⟨r, h1, h2⟩ := hx
            exact ⟨r, by simp [h1], h2⟩
          · rw [if_neg hx, if_neg]
            rintro ⟨r, h1, h2, h3⟩
            rcases List.mem_cons.mp h1 with rfl | h1
            · exact hq h2.symm
            · exact hx ⟨r, h1, h2, h3⟩
      · rw [List.filter_cons, if_pos (by simpa using ht), List.flatMap_cons, hsent, List.append_assoc]
    · rw [if_neg (fun h => ht (hover.mp h))] at hfirst
      have hrest := ih w hnd.2 (fun q hq => hin q (by simp [hq])) hjobs hprocs hclock hdrvs hdrv
        (fun q hq => hrow q (by simp [hq])) (fun q hq => hcf q (by simp [hq]))
      simp only [runW] at hfirst hrest
      simp only [runW, Prog.run_forEach_cons, hid, hfirst, Prog.andThen_ok, hrest]
      congr 1
      congr 1
      · apply List.map_congr_left
        intro q _
        unfold resetSome
        by_cases hx : ∃ r ∈ l, r.name = q.name ∧ ToReset pipMaxNoPid w0 r
        · rw [if_pos hx, if_pos]
          obtain ⟨r, h1, h2⟩ := hx
          exact ⟨r, by simp [h1], h2⟩
        · rw [if_neg hx, if_neg]
          rintro ⟨r, h1, h2, h3⟩
          rcases List.mem_cons.mp h1 with rfl | h1
          · exact ht h3
          · exact hx ⟨r, h1, h2, h3⟩
      · rw [List.filter_cons, if_neg (by simpa using ht)]

namespace Props

/-- No job was launched between ten seconds and ten days ago without having connected since. -/
def NoLimbo (w : World) : Prop :=
  ∀ j ∈ w.jobs, j.pid = none → j.connectedAt = none → ∀ t, j.launchedAt = some t →
    t + tenSeconds < w.clock → t + tenDays < w.clock

theorem over_tenSeconds {w : World} (hl : NoLimbo w) {j : Job} (hj : j ∈ w.jobs) :
    Over tenDays w j ↔ Over tenSeconds w j := by
  unfold Over
  cases hp : j.pid with
  | some pid => exact Iff.rfl
  | none =>
    simp only
    constructor
    · rintro (h | ⟨t, h1, h2⟩)
      · exact .inl h
      · refine .inr ⟨t, h1, ?_⟩
        unfold tenDays at h2
        unfold tenSeconds
        omega
    · rintro (h | ⟨t, h1, h2⟩)
      · exact .inl h
      · cases hc : j.connectedAt with
        | some c => exact .inl rfl
        | none => exact .inr ⟨t, h1, hl j hj hp hc t h1 h2⟩

/-- **C20** (partial), what the code does: one pass of the pipeline manager, run alone, resets
exactly the pipelines whose job is over *or was launched more than ten days ago and has not
connected*, and sends `cmp_reset` exactly to their components; the sample is kept, the ready flag
cleared, everything else stays as it is.  The hypotheses: every assigned job is in the queue,
pipelines that have to be reset are configured and their drivers answer.  Against the property:
ten days instead of ten seconds (`C20_reset_partial`, `C20_refuted_limit`); other programs that
run in between (`C20_reset_justified` and `C20_refuted_race`). -/
theorem C20_reset_exact_partial (w : World) (hw : w.WF)
    (hrow : ∀ p ∈ w.pips, ∀ id, p.jobid = some id → ∃ j ∈ w.jobs, j.id = id)
    (hcf : ∀ p ∈ w.pips, ToReset tenDays w p → ∃ pl, Dict.get? d.devicefile.pipelines p.name = some pl ∧
      ∀ c ∈ Dict.values pl.components, CanReset d w c) :
    runW (pipManagerPass d) w = (.ok (), { w with
      pips := w.pips.map (fun p => if ToReset tenDays w p then freed p else p),
      sent := w.sent ++ (w.pips.filter (fun p => decide (ToReset tenDays w p))).flatMap
        (fun p => resetCmds d w p.name) }) := by
  have hdays : pipMaxNoPid = tenDays := rfl
  have hl : ∀ p ∈ w.pips.filter (fun p => p.jobid.isSome), p ∈ w.pips ∧ p.jobid.isSome := by
    intro p hp
    rw [List.mem_filter] at hp
    exact hp
  have hnd : (w.pips.filter (fun p => p.jobid.isSome)).Nodup := by
    have : w.pips.Nodup := List.Pairwise.of_map _ (fun a b h e => h (by rw [e])) hw.pipNames
    exact this.filter _
  have hloop := run_pipLoop (d := d) w hw.idsNodup (w.pips.filter (fun p => p.jobid.isSome)) w hnd
    (fun p hp => (hl p hp).1) rfl rfl rfl rfl rfl
    (fun p hp => by
      obtain ⟨id, hid⟩ := Option.isSome_iff_exists.mp (hl p hp).2
      exact ⟨id, hid, hrow p (hl p hp).1 id hid⟩)
    (fun p hp ht => hcf p (hl p hp).1 (ht))
  simp only [runW] at hloop
  simp only [runW, pipManagerPass, Prog.bind_eq, Prog.run_bind, Do.run_pipsWhere, exec_pipsWhere,
    Prog.andThen_ok]
  refine hloop.trans ?_
  congr 1
  congr 1
  · apply List.map_congr_left
    intro p hp
    unfold resetSome
    by_cases ht : ToReset tenDays w p
    · rw [if_pos ht, if_pos]
      refine ⟨p, List.mem_filter.mpr ⟨hp, ?_⟩, rfl, ht⟩
      obtain ⟨id, h, -⟩ := ht
      rw [h]; rfl
    · rw [if_neg ht, if_neg]
      rintro ⟨q, h1, h2, h3⟩
      apply ht
      have e1 := find?_of_nodup (key := fun p : PipState => p.name) hw.pipNames hp
      have e2 := find?_of_nodup (key := fun p : PipState => p.name) hw.pipNames (hl q h1).1
      rw [h2, e1] at e2
      cases e2
      exact h3
  · rw [List.filter_filter]
    congr 2
    apply List.filter_congr
    intro p _
    by_cases ht : ToReset tenDays w p
    · have : p.jobid.isSome = true := by obtain ⟨id, h, -⟩ := ht; rw [h]; rfl
      simp [this, ht, hdays]
    · simp [ht, hdays]

/-- **C20** (partial): one pass of the pipeline manager, run alone, resets exactly the pipelines
whose job is over, and sends `cmp_reset` exactly to their components; the sample is kept, the
ready flag cleared, everything else stays as it is.  The hypotheses: every assigned job is in the
queue, pipelines that have to be reset are configured and their drivers answer.  Missing: jobs
that were launched between ten seconds and ten days ago and have not connected (`NoLimbo`), for
which the property is false (`C20_refuted_limit`); other programs that run in between
(`C20_reset_justified` and `C20_refuted_race`). -/
theorem C20_reset_partial (w : World) (hw : w.WF) (hlimbo : NoLimbo w)
    (hrow : ∀ p ∈ w.pips, ∀ id, p.jobid = some id → ∃ j ∈ w.jobs, j.id = id)
    (hcf : ∀ p ∈ w.pips, ToReset tenSeconds w p → ∃ pl, Dict.get? d.devicefile.pipelines p.name = some pl ∧
      ∀ c ∈ Dict.values pl.components, CanReset d w c) :
    runW (pipManagerPass d) w = (.ok (), { w with
      pips := w.pips.map (fun p => if ToReset tenSeconds w p then freed p else p),
      sent := w.sent ++ (w.pips.filter (fun p => decide (ToReset tenSeconds w p))).flatMap
        (fun p => resetCmds d w p.name) }) := by
  have hiff : ∀ p, ToReset tenDays w p ↔ ToReset tenSeconds w p := by
    intro p
    constructor
    · rintro ⟨id, h1, j, h2, h3, h4⟩
      exact ⟨id, h1, j, h2, h3, (over_tenSeconds hlimbo h2).mp h4⟩
    · rintro ⟨id, h1, j, h2, h3, h4⟩
      exact ⟨id, h1, j, h2, h3, (over_tenSeconds hlimbo h2).mpr h4⟩
  have hset : ToReset tenDays w = ToReset tenSeconds w := funext fun p => propext (hiff p)
  have h := C20_reset_exact_partial (d := d) w hw hrow (fun p hp ht => hcf p hp ((hiff p).mp ht))
  simpa only [hiff] using h

/-! ### Whatever happens in between -/

/-- In this part of the history the job was seen with a process id that was not alive afterwards,
or without one after having connected, or without one and launched more than `limit` before. -/
def SeenOver (limit : Nat) (h : Past) (id : Nat) : Prop :=
  ∃ y ∈ h, ∃ j ∈ y.1.jobs, j.id = id ∧
    ((j.pid = none ∧ j.connectedAt.isSome = true) ∨
     (j.pid = none ∧ ∃ t, j.launchedAt = some t ∧ ∃ z ∈ h, t + limit < z.1.clock) ∨
     (∃ pid, j.pid = some pid ∧ ∃ z ∈ h, z.1.alive pid = false))

theorem SeenOver.mono {limit : Nat} {h h' : Past} {id : Nat} (hs : SeenOver limit h id) (hh : ∀ x ∈ h, x ∈ h') :
    SeenOver limit h' id := by
  obtain ⟨y, hy, j, hj, hid, h1 | ⟨h1, t, h2, z, hz, h3⟩ | ⟨pid, h1, z, hz, h2⟩⟩ := hs
  · exact ⟨y, hh y hy, j, hj, hid, .inl h1⟩
  · exact ⟨y, hh y hy, j, hj, hid, .inr (.inl ⟨h1, t, h2, z, hh z hz, h3⟩)⟩
  · exact ⟨y, hh y hy, j, hj, hid, .inr (.inr ⟨pid, h1, z, hh z hz, h2⟩)⟩

/-- If the operation changes a pipeline, then it is a reset; the pipeline had a job at an earlier
moment of this pass, and since then the job was seen to be over. -/
def ResetJustified (limit : Nat) (h : Past) (o : Op) : Prop :=
  ∀ n ps, o = .updatePip n ps → ps = [.jobid none, .ready false] ∧
    ∃ h1 x h2, h = h1 ++ x :: h2 ∧ ∃ p ∈ x.1.pips, p.name = n ∧ ∃ id, p.jobid = some id ∧ SeenOver limit h2 id

theorem resetJustified_of_ne {limit : Nat} {o : Op} (ho : ∀ n ps, o ≠ .updatePip n ps) (h : Past) :
    ResetJustified limit h o := fun n ps e => absurd e (ho n ps)

theorem hsafe_resetPipeline (x : World × Op) (h : Past) (p : PipState) (id : Nat) (hp : p ∈ x.1.pips)
    (hid : p.jobid = some id) (hs : SeenOver tenDays h id) :
    HSafe (ResetJustified tenDays) (fun _ h' => ∃ t, h' = x :: t) (resetPipeline d p) (x :: h) := by
  unfold resetPipeline
  split
  · trivial
  · refine hsafe_bind (hsafe_of_only (P := fun o => ∀ n ps, o ≠ .updatePip n ps)
      (fun o h ho => resetJustified_of_ne ho h) (only_resetComponents (fun o ho n ps e => by subst e; cases ho) _ _) _) ?_
    rintro _ _ ⟨t, rfl⟩
    unfold updatePip
    refine hsafe_bind (Q := fun _ h' => ∃ t, h' = x :: t) ?_ ?_
    · refine hsafe_bind (Q := fun _ h' => ∃ t, h' = x :: t) ?_ ?_
      · refine hsafe_call ?_ ?_
        · rintro n ps e
          cases e
          exact ⟨rfl, [], x, h ++ t, by simp, p, hp, rfl, id, hid,
            hs.mono (fun y hy => List.mem_append_left _ hy)⟩
        · intro w _ _
          exact ⟨h ++ t ++ [(w, _)], rfl⟩
      · rintro _ _ ⟨t', rfl⟩
        exact hsafe_call (resetJustified_of_ne (by simp) _) (fun w _ _ => ⟨t' ++ [(w, _)], rfl⟩)
    · rintro _ _ ⟨t', rfl⟩
      exact ⟨t', rfl⟩

theorem hsafe_managePip (x : World × Op) (h : Past) (p : PipState) (id : Nat) (hp : p ∈ x.1.pips)
    (hid : p.jobid = some id) :
    HSafe (ResetJustified tenDays) (fun _ h' => ∃ t, h' = x :: t) (managePip d p id) (x :: h) := by
  unfold managePip
  refine hsafe_bind (Q := fun j h' => ∃ t, h' = x :: t ∧ ∃ y ∈ t, j ∈ y.1.jobs ∧ j.id = id) ?_ ?_
  · unfold getJobId
    refine hsafe_bind (Q := fun r h' => ∃ t, h' = x :: t ∧ ∀ j, r = some j → ∃ y ∈ t, j ∈ y.1.jobs ∧ j.id = id)
      (hsafe_call (resetJustified_of_ne (by simp) _) ?_) ?_
    · intro w a ha
      simp only [exec, Except.ok.injEq] at ha
      subst ha
      refine ⟨h ++ [(w, _)], rfl, fun j hj => ?_⟩
      exact ⟨_, List.mem_append_right _ (List.mem_singleton.mpr rfl), (job?_some hj).2, (job?_some hj).1⟩
    · rintro r _ ⟨t, rfl, ht⟩
      split
      · exact ⟨t, rfl, ht _ rfl⟩
      · trivial
  · rintro j _ ⟨t, rfl, y, hy, hj, hji⟩
    split
    · next hpid =>
      split
      · next hc => exact hsafe_resetPipeline x t p id hp hid ⟨y, hy, j, hj, hji, .inl ⟨hpid, hc⟩⟩
      · split
        · next tl hl =>
          refine hsafe_bind (Q := fun now h' => ∃ w o, h' = x :: (t ++ [(w, o)]) ∧ now = w.clock)
            (hsafe_call (resetJustified_of_ne (by simp) _) ?_) ?_
          · intro w a ha
            simp only [exec, Except.ok.injEq] at ha
            exact ⟨w, _, rfl, ha.symm⟩
          · rintro now _ ⟨w, o, rfl, rfl⟩
            split
            · next hlate =>
              have hdays : pipMaxNoPid = tenDays := rfl
              refine hsafe_resetPipeline x _ p id hp hid ⟨y, List.mem_append_left _ hy, j, hj, hji, .inr (.inl ⟨hpid, tl, hl, (w, o),
                List.mem_append_right _ (List.mem_singleton.mpr rfl), ?_⟩)⟩
              simp only
              omega
            · exact ⟨_, rfl⟩
        · exact ⟨_, rfl⟩
    · next pid hpid =>
      refine hsafe_bind (Q := fun b h' => ∃ w o, h' = x :: (t ++ [(w, o)]) ∧ b = w.hasPid pid)
        (hsafe_call (resetJustified_of_ne (by simp) _) ?_) ?_
      · intro w a ha
        simp only [exec, Except.ok.injEq] at ha
        exact ⟨w, _, rfl, ha.symm⟩
      · rintro ex _ ⟨w, o, rfl, rfl⟩
        split
        · refine hsafe_bind (Q := fun b h' => ∃ w' o', h' = x :: (t ++ [(w, o)] ++ [(w', o')]) ∧ b = w'.alive pid)
            (hsafe_call (resetJustified_of_ne (by simp) _) ?_) ?_
          · intro w' a ha
            simp only [exec] at ha
            split at ha
            · simp only [Except.ok.injEq] at ha
              exact ⟨w', _, rfl, ha.symm⟩
            · cases ha
          · rintro nz _ ⟨w', o', rfl, rfl⟩
            split
            · exact ⟨_, rfl⟩
            · next hna =>
              refine hsafe_resetPipeline x _ p id hp hid ⟨y, by simp [hy], j, hj, hji, .inr (.inr ⟨pid, hpid, (w', o'), by simp, ?_⟩)⟩
              simpa using hna
        · next hno =>
          refine hsafe_resetPipeline x _ p id hp hid ⟨y, by simp [hy], j, hj, hji, .inr (.inr ⟨pid, hpid, (w, o), by simp, ?_⟩)⟩
          cases ha : w.alive pid with
          | false => rfl
          | true => exact absurd (alive_hasPid ha) hno

/-- **C20** (safety, whatever other programs do between the operations of the pass): the pipeline
manager changes a pipeline only by resetting it, and only if in this pass it has seen the pipeline
with a job and, later, the job to be over. -/
theorem C20_reset_justified (d : Daemon) :
    HSafe (ResetJustified tenDays) (fun _ _ => True) (pipManagerPass d) [] := by
  unfold pipManagerPass
  refine hsafe_bind (Q := fun l h => ∃ x t, h = x :: t ∧ ∀ p ∈ l, p ∈ x.1.pips)
    (hsafe_call (resetJustified_of_ne (by simp) _) ?_) ?_
  · intro w a ha
    simp only [exec, Except.ok.injEq] at ha
    subst ha
    exact ⟨(w, _), [], rfl, fun p hp => (List.mem_filter.mp hp).1⟩
  · rintro l _ ⟨x, t, rfl, hl⟩
    suffices h : HSafe (ResetJustified tenDays) (fun _ h' => ∃ t, h' = x :: t) (Prog.forEach l (fun pip =>
        match pip.jobid with
        | none => pure ()
        | some id => managePip d pip id)) (x :: t) from hsafe_mono h (fun _ _ _ => trivial)
    induction l generalizing t with
    | nil => exact ⟨t, rfl⟩
    | cons p l ih =>
      refine hsafe_bind (Q := fun _ h' => ∃ t, h' = x :: t) ?_ ?_
      · simp only
        split
        · exact ⟨t, rfl⟩
        · next id hid => exact hsafe_managePip x t p id (hl p (by simp)) hid
      · rintro _ _ ⟨t', rfl⟩
        exact ih t' (fun p hp => hl p (by simp [hp]))

/-! ### Examples and refutations -/

/-- Job 1 on `p` has ended, job 2 on `q` is running, `z` is free. -/
def wReset : World :=
  { jobs := [{ id := 1, payload := plS "s", pid := some 11, status := .c, submittedAt := 0, launchedAt := some 1, connectedAt := some 2 },
             { id := 2, payload := plS "t", pid := some 12, status := .r, submittedAt := 0, launchedAt := some 1, connectedAt := some 2 }],
    jobSeq := 2, pips := [{ name := "p", sampleid := some "s", jobid := some 1 }, { name := "q", sampleid := some "t", jobid := some 2 },
      { name := "z", ready := true }],
    drvs := [{ name := "d", port := some 5000 }], procs := [⟨12, 1, false⟩], drv := okDrv }

example : runW (pipManagerPass dRun) wReset = (.ok (), { wReset with
    pips := [{ name := "p", sampleid := some "s" }, { name := "q", sampleid := some "t", jobid := some 2 },
      { name := "z", ready := true }],
    sent := [(5000, .reset "a" "1")] }) := by
  rw [C20_reset_partial wReset]
  · rfl
  · constructor <;> decide
  · intro j hj
    have : ∀ j ∈ wReset.jobs, j.pid ≠ none := by decide
    exact fun h => absurd h (this j hj)
  · decide
  · intro p hp ht
    have : p.name = "p" := by
      revert p
      decide
    rw [this]
    refine ⟨⟨"p", [("x", "d:(a,1)")]⟩, rfl, fun c hc => ?_⟩
    have : c = "d:(a,1)" := by simpa [Dict.values] using hc
    subst this
    exact ⟨⟨"d:(a,1)", "dev", "d", "a", "1"⟩, _, 5000, rfl, rfl, rfl, rfl⟩

/-- **C20 is false of the code** (time limit): `timedelta(MAX_JOB_NOPID)` is ten *days*.  Job 1
was launched on `p` at time 0 and its process ended before it connected; at every moment between
ten seconds and ten days after that the pipeline should be released, but a pass of the pipeline
manager changes nothing. -/
theorem C20_refuted_limit : ∀ t, tenSeconds < t → t ≤ tenDays → ∃ s : Sys, Reachable "Jobs" s ∧
    s.w.clock = t ∧ s.w.procs = [] ∧
    (∃ p ∈ s.w.pips, p.name = "p" ∧ p.jobid = some 1 ∧ ToReset tenSeconds s.w p) ∧
    runW (pipManagerPass dRun) s.w = (.ok (), s.w) := by
  intro t h1 h2
  have hpips : sLaunched.w.pips = [{ name := "p", sampleid := some "s", jobid := some 1 }, { name := "q" }] := by decide +kernel
  have hjob : sLaunched.w.jobs.all (fun j => j.id = 1 ∧ j.pid = none ∧ j.connectedAt = none ∧
    j.launchedAt = some 0) = true ∧ sLaunched.w.jobs ≠ [] := by decide +kernel
  have hj : ∀ j ∈ sLaunched.w.jobs, j.id = 1 ∧ j.pid = none ∧ j.connectedAt = none ∧ j.launchedAt = some 0 := by
    intro j hj
    simpa using List.all_eq_true.mp hjob.1 j hj
  obtain ⟨j0, hj0⟩ := List.exists_mem_of_ne_nil _ hjob.2
  have hno : ∀ p, ¬ ToReset tenDays { sLaunched.w with clock := t } p := by
    rintro p ⟨id, -, j, hjm, -, hov⟩
    obtain ⟨-, e1, e2, e3⟩ := hj j hjm
    unfold Over at hov
    rw [e1] at hov
    rcases hov with h | ⟨u, hu, hlt⟩
    · rw [e2] at h; cases h
    · rw [e3] at hu
      cases hu
      simp only at hlt
      omega
  have hwf : sLaunched.w.WF := reachable_wf sLaunched_reachable
  refine ⟨{ sLaunched with w := { sLaunched.w with clock := t } },
    Steps.trans sLaunched_reachable (steps_after (as := [.env (.clock t)]) rfl), rfl,
    (by decide +kernel : sLaunched.w.procs = []), ?_, ?_⟩
  · refine ⟨{ name := "p", sampleid := some "s", jobid := some 1 }, ?_, rfl, rfl, 1, rfl, j0, hj0, (hj j0 hj0).1, ?_⟩
    · show _ ∈ sLaunched.w.pips
      rw [hpips]; simp
    · unfold Over
      rw [(hj j0 hj0).2.1]
      refine .inr ⟨0, (hj j0 hj0).2.2.2, ?_⟩
      simp only
      omega
  · refine (C20_reset_exact_partial (d := dRun) _ ?_ ?_ (fun p _ h => absurd h (hno p))).trans ?_
    · exact ⟨hwf.1, hwf.2, hwf.3, hwf.4⟩
    · intro p hp id hid
      have hp' : p ∈ sLaunched.w.pips := hp
      rw [hpips] at hp'
      simp only [List.mem_cons, List.not_mem_nil, or_false] at hp'
      rcases hp' with rfl | rfl <;> cases hid
      exact ⟨j0, hj0, (hj j0 hj0).1⟩
    · have e1 : List.map (fun p => if ToReset tenDays { sLaunched.w with clock := t } p then freed p else p)
          sLaunched.w.pips = sLaunched.w.pips := by
        refine (List.map_congr_left (g := id) (fun p _ => if_neg (hno p))).trans ?_
        simp
      have e2 : (sLaunched.w.pips.filter (fun p => decide (ToReset tenDays { sLaunched.w with clock := t } p))) = [] := by
        rw [List.filter_eq_nil_iff]
        intro p _
        simp [hno p]
      simp only [e1, e2, List.flatMap_nil, List.append_nil]

/-- Job 1 has been seen on `p` by the pipeline manager (program 6).  Then job 1 ends and releases
`p`, the user marks `p` as ready and submits job 2, which is launched on `p` and connects. -/
def sOvertaken : Sys :=
  after ([.spawn (.pipPass dRun)] ++ run 6 1 ++ run 5 6 ++ [.env (.procs [])] ++
    [.spawn (.ready (some dRun) "p")] ++ run 7 3 ++
    [.spawn (.submit (.parsed (plS "s")) none dRun "/home")] ++ run 8 4 ++
    [.jmStart dRun] ++ jm 22 ++ [.spawn (okJob 2 200 "p"), .env (.procs [⟨200, 1, false⟩])] ++ run 9 5) sRunning

/-- **C20 is false of the code** (race): the pipeline manager reads the table once and decides
later.  It resets the pipeline (and the component) of the live job 2, because job 1, which had the
pipeline when the table was read, is over. -/
theorem C20_refuted_race : ∃ s1 s2 : Sys, Reachable "Jobs" s1 ∧ Steps "Jobs" s1 s2 ∧
    jobOf s1 "p" = some (some 2) ∧ statusOf s1 2 = some .r ∧ (s1.w.job? 2).map (·.pid) = some (some 200) ∧
    s1.w.alive 200 = true ∧ jobOf s2 "p" = some none ∧ s2.w.alive 200 = true ∧ statusOf s2 2 = some .r := by
  refine ⟨sOvertaken, after (run 6 6) sOvertaken,
    Steps.trans sRunning_reachable (steps_after (by decide +kernel)),
    steps_after (by decide +kernel), ?_, ?_, ?_, ?_, ?_, ?_, ?_⟩ <;> decide +kernel

end Props

end Tomato
