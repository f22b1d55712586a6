import Verif.Cmd
import Verif.PipLemmas

/-!
# Properties of the daemon's commands (C26 - C30), complete executions
-/

namespace Tomato.Props

/-! ## C26: stop -/

/-- **C26**: stop succeeds, putting the daemon into stopping mode, exactly when no pipeline
has a job; otherwise it changes nothing.  No table is changed. -/
theorem C26_stop (w : World) (d : Daemon) :
    ∃ rep d', runW (cmdStop d) w = (.ok (rep, d'), w) ∧
      (rep.success = true ↔ ∀ p ∈ w.pips, p.jobid = none) ∧
      (rep.success = true → d' = { d with status := .stop }) ∧
      (rep.success = false → d' = d ∧ rep.data = some (.pips (w.pips.filter (fun p => p.jobid.isSome)))) := by
  simp only [cmdStop, runW, Prog.bind_eq, Prog.run_bind, Do.run_pipsWhere, exec_pipsWhere,
    Prog.andThen_ok]
  split
  · next h =>
    refine ⟨_, _, rfl, ⟨(by rintro ⟨⟩), ?_⟩, (by rintro ⟨⟩), fun _ => ⟨rfl, rfl⟩⟩
    intro hall
    obtain ⟨p, hp⟩ := List.exists_mem_of_length_pos h
    rw [List.mem_filter] at hp
    have := hall p hp.1
    rw [this] at hp
    exact absurd hp.2 (by simp)
  · next h =>
    refine ⟨_, _, rfl, ⟨fun _ => ?_, fun _ => rfl⟩, fun _ => rfl, (by rintro ⟨⟩)⟩
    intro p hp
    have h0 : w.pips.filter (fun p => p.jobid.isSome) = [] :=
      List.eq_nil_of_length_eq_zero (by omega)
    have := (List.filter_eq_nil_iff.mp h0) p hp
    simpa using this

example : ∃ w : World, w.pips ≠ [] ∧ (∀ p ∈ w.pips, p.jobid = none) :=
  ⟨{ pips := [{ name := "p" }] }, by simp, by simp⟩
example : ∃ w : World, ¬ (∀ p ∈ w.pips, p.jobid = none) :=
  ⟨{ pips := [{ name := "p", jobid := some 1 }] }, by simp⟩

/-! ## C27, C28: reload -/

/-- The keys of the tables are the names of the entries (proved for every parsed device file
in `Verif/Props/DeviceFile.lean`). -/
def NamesMatch (df : DeviceFile) : Prop :=
  ∀ k p, Dict.get? df.pipelines k = some p → p.name = k

/-- The component is the same piece of hardware, driven with the same settings. -/
def SameComponent (old new : DeviceFile) (cname : String) : Prop :=
  ∃ c c' dr dr', Dict.get? old.components cname = some c ∧
    Dict.get? new.components cname = some c' ∧
    c'.driver = c.driver ∧ c'.address = c.address ∧ c'.channel = c.channel ∧
    Dict.get? old.drivers c.driver = some dr ∧ Dict.get? new.drivers c.driver = some dr' ∧
    ∀ k, Dict.get? dr'.settings k = Dict.get? dr.settings k

/-- The pipeline is unchanged: same roles, same components. -/
def SamePipeline (old new : DeviceFile) (n : String) : Prop :=
  ∃ p p', Dict.get? old.pipelines n = some p ∧ Dict.get? new.pipelines n = some p' ∧
    (∀ role, Dict.get? p'.components role = Dict.get? p.components role) ∧
    ∀ cname ∈ Dict.values p.components, SameComponent old new cname

theorem run_checkPipelines (old new : DeviceFile) (rp : List PipState) (cs : List String)
    (w : World) : (runW (checkPipelines old new rp cs) w).2 = w ∧
    ∀ cs', (runW (checkPipelines old new rp cs) w).1 = .ok (.inr cs') →
      (∀ c ∈ cs, c ∈ cs') ∧
      ∀ ps ∈ rp, ∃ p p', Dict.get? old.pipelines ps.name = some p ∧
        Dict.get? new.pipelines p.name = some p' ∧
        (∀ role, Dict.get? p'.components role = Dict.get? p.components role) ∧
        ∀ c ∈ Dict.values p.components, c ∈ cs' := by
  induction rp generalizing cs with
  | nil => exact ⟨rfl, by rintro cs' ⟨⟩; exact ⟨fun _ h => h, by simp⟩⟩
  | cons ps rp ih =>
    unfold checkPipelines
    split
    · exact ⟨rfl, by rintro cs' ⟨⟩⟩
    · next p hp =>
      split
      · exact ⟨rfl, by rintro cs' ⟨⟩⟩
      · next p' hp' =>
        split
        · next heq =>
          obtain ⟨h1, h2⟩ := ih (cs ++ Dict.values p.components)
          refine ⟨h1, ?_⟩
          intro cs' hcs'
          obtain ⟨h3, h4⟩ := h2 cs' hcs'
          refine ⟨fun c hc => h3 c (by simp [hc]), ?_⟩
          intro ps' hps'
          rcases List.mem_cons.mp hps' with rfl | hm
          · exact ⟨p, p', hp, hp', Dict.eqv_iff.mp heq, fun c hc => h3 c (by simp [hc])⟩
          · exact h4 ps' hm
        · exact ⟨rfl, by rintro cs' ⟨⟩⟩

theorem run_checkComponents (old new : DeviceFile) (cs ds : List String) (w : World) :
    (runW (checkComponents old new cs ds) w).2 = w ∧
    ∀ ds', (runW (checkComponents old new cs ds) w).1 = .ok (.inr ds') →
      (∀ d ∈ ds, d ∈ ds') ∧
      ∀ cn ∈ cs, ∃ c c', Dict.get? old.components cn = some c ∧
        Dict.get? new.components cn = some c' ∧
        c'.driver = c.driver ∧ c'.address = c.address ∧ c'.channel = c.channel ∧
        c.driver ∈ ds' := by
  induction cs generalizing ds with
  | nil => exact ⟨rfl, by rintro cs' ⟨⟩; exact ⟨fun _ h => h, by simp⟩⟩
  | cons cn cs ih =>
    unfold checkComponents
    split
    · exact ⟨rfl, by rintro cs' ⟨⟩⟩
    · next c hc =>
      split
      · exact ⟨rfl, by rintro cs' ⟨⟩⟩
      · next c' hc' =>
        split
        · exact ⟨rfl, by rintro cs' ⟨⟩⟩
        · next hne =>
          obtain ⟨h1, h2⟩ := ih (ds ++ [c.driver])
          refine ⟨h1, ?_⟩
          intro ds' hds'
          obtain ⟨h3, h4⟩ := h2 ds' hds'
          refine ⟨fun d hd => h3 d (by simp [hd]), ?_⟩
          intro cn' hcn'
          rcases List.mem_cons.mp hcn' with rfl | hm
          · simp only [not_or, ne_eq, Decidable.not_not] at hne
            exact ⟨c, c', hc, hc', hne.2.1.symm, hne.2.2.1.symm, hne.2.2.2.symm,
              h3 _ (by simp)⟩
          · exact h4 cn' hm

theorem run_checkDrivers (old new : DeviceFile) (ds : List String) (w : World) :
    (runW (checkDrivers old new ds) w).2 = w ∧
    ((runW (checkDrivers old new ds) w).1 = .ok none →
      ∀ d ∈ ds, ∃ dr dr', Dict.get? old.drivers d = some dr ∧ Dict.get? new.drivers d = some dr' ∧
        ∀ k, Dict.get? dr'.settings k = Dict.get? dr.settings k) := by
  induction ds with
  | nil => exact ⟨rfl, by simp⟩
  | cons d ds ih =>
    unfold checkDrivers
    split
    · split
      · exact ⟨rfl, by rintro ⟨⟩⟩
      · exact ⟨rfl, by rintro ⟨⟩⟩
    · next nd hnd =>
      split
      · exact ⟨rfl, by rintro ⟨⟩⟩
      · next od hod =>
        split
        · next heq =>
          refine ⟨ih.1, ?_⟩
          intro h d' hd'
          rcases List.mem_cons.mp hd' with rfl | hm
          · exact ⟨od, nd, hod, hnd, fun k => (Dict.eqv_iff.mp heq k).symm⟩
          · exact ih.2 h d' hm
        · exact ⟨rfl, by rintro ⟨⟩⟩

/-- **C27**: after a successful reload every pipeline with an assigned job is unchanged, and so
are its components and the settings of their drivers.  A refused reload changes neither the
configuration nor any table. -/
theorem C27_reload_protects_running (w : World) (d : Daemon)
    (parsed : Option (Settings × DeviceFile)) (hd : d.status ≠ .bootstrap)
    (hnm : NamesMatch d.devicefile) (rep : CReply) (d' : Daemon) (w' : World)
    (h : runW (cmdReload d parsed) w = (.ok (rep, d'), w')) :
    w' = w ∧ (rep.success = false → d' = d) ∧
    (rep.success = true → ∀ ps ∈ w.pips, ps.jobid.isSome →
      SamePipeline d.devicefile d'.devicefile ps.name) := by
  unfold cmdReload at h
  rw [if_neg hd] at h
  cases parsed with
  | none =>
    cases h
    exact ⟨rfl, fun _ => rfl, by rintro ⟨⟩⟩
  | some sd =>
    obtain ⟨s, df⟩ := sd
    simp only [runW, Prog.bind_eq, Prog.run_bind, Do.run_pipsWhere, exec_pipsWhere,
      Prog.andThen_ok] at h
    generalize hrp : w.pips.filter (fun p => p.jobid.isSome) = rp at h
    generalize hnd : (Daemon.build d.status s df).devicefile = ndf at h
    have hcp := run_checkPipelines d.devicefile ndf rp [] w
    rcases hr1 : Prog.run exec (checkPipelines d.devicefile ndf rp []) w with ⟨r1, w1⟩
    simp only [runW, hr1] at hcp
    obtain ⟨rfl, hcp⟩ := hcp
    rw [hr1] at h
    rcases r1 with e | (m | cs)
    · cases h
    · cases h
      exact ⟨rfl, fun _ => rfl, by rintro ⟨⟩⟩
    · simp only [Prog.andThen_ok, Prog.run_bind] at h
      obtain ⟨-, hcp⟩ := hcp cs rfl
      have hcc := run_checkComponents d.devicefile ndf cs [] w1
      rcases hr2 : Prog.run exec (checkComponents d.devicefile ndf cs []) w1 with ⟨r2, w2⟩
      simp only [runW, hr2] at hcc
      obtain ⟨rfl, hcc⟩ := hcc
      rw [hr2] at h
      rcases r2 with e | (m | ds)
      · cases h
      · cases h
        exact ⟨rfl, fun _ => rfl, by rintro ⟨⟩⟩
      · simp only [Prog.andThen_ok, Prog.run_bind] at h
        obtain ⟨-, hcc⟩ := hcc ds rfl
        have hcd := run_checkDrivers d.devicefile ndf ds w2
        rcases hr3 : Prog.run exec (checkDrivers d.devicefile ndf ds) w2 with ⟨r3, w3⟩
        simp only [runW, hr3] at hcd
        obtain ⟨rfl, hcd⟩ := hcd
        rw [hr3] at h
        rcases r3 with e | (_ | m)
        · cases h
        · cases h
          refine ⟨rfl, (by rintro ⟨⟩), fun _ => ?_⟩
          intro ps hps hj
          have hmem : ps ∈ rp := by rw [← hrp, List.mem_filter]; exact ⟨hps, hj⟩
          obtain ⟨p, p', hp, hp', hsame, hin⟩ := hcp ps hmem
          have hname := hnm _ _ hp
          rw [hname] at hp'
          rw [hnd]
          refine ⟨p, p', hp, hp', hsame, ?_⟩
          intro cn hcn
          obtain ⟨c, c', hc, hc', h1, h2, h3, h4⟩ := hcc cn (hin cn hcn)
          obtain ⟨dr, dr', h5, h6, h7⟩ := hcd rfl c.driver h4
          exact ⟨c, c', dr, dr', hc, hc', h1, h2, h3, h5, h6, h7⟩
        · cases h
          exact ⟨rfl, fun _ => rfl, by rintro ⟨⟩⟩

/-- A configuration with one pipeline of two components and one driver. -/
def dfA : DeviceFile :=
  { components := [("d:(a,1)", ⟨"d:(a,1)", "dev", "d", "a", "1"⟩),
                   ("d:(a,2)", ⟨"d:(a,2)", "dev", "d", "a", "2"⟩)],
    devices := [("dev", { name := "dev", driver := "d", address := "a", channels := ["1", "2"] })],
    drivers := [("d", { name := "d" })],
    pipelines := [("p", ⟨"p", [("x", "d:(a,1)"), ("y", "d:(a,2)")]⟩)] }

/-- The same with one more pipeline. -/
def dfB : DeviceFile :=
  { dfA with pipelines := dfA.pipelines ++ [("q", ⟨"q", [("x", "d:(a,1)")]⟩)] }

/-- The pipeline `p` is busy. -/
def wBusy : World := { pips := [{ name := "p", jobid := some 3, sampleid := some "s" }],
                       drvs := [{ name := "d", port := some 5000 }] }

example : ∃ rep d', runW (cmdReload { devicefile := dfA } (some ({}, dfB))) wBusy =
      (.ok (rep, d'), wBusy) ∧ rep.success = true ∧ NamesMatch dfA := by
  refine ⟨_, _, rfl, rfl, ?_⟩
  intro k p hk
  simp only [dfA, Dict.get?] at hk
  split at hk
  · next h => cases hk; exact h
  · cases hk
example : ∃ rep d', runW (cmdReload { devicefile := dfA }
      (some ({ drivers := [("d", [("k", "v")])] }, dfB))) wBusy = (.ok (rep, d'), wBusy) ∧
      rep.success = false ∧ rep.msg = .modifiesDriver :=
  ⟨_, _, rfl, rfl, rfl⟩

theorem reload_final (w : World) (d : Daemon) (s : Settings)
    (df : DeviceFile) (hd : d.status ≠ .bootstrap) (rep : CReply) (d' : Daemon) (w' : World)
    (h : runW (cmdReload d (some (s, df))) w = (.ok (rep, d'), w')) (hs : rep.success = true) :
    d' = Daemon.build d.status s df ∧ w' = w ∧ rep.data = some (.daemon d') := by
  unfold cmdReload at h
  rw [if_neg hd] at h
  simp only [runW, Prog.bind_eq, Prog.run_bind, Do.run_pipsWhere, exec_pipsWhere,
    Prog.andThen_ok] at h
  generalize w.pips.filter (fun p => p.jobid.isSome) = rp at h
  generalize hndd : Daemon.build d.status s df = nd at h
  rcases hr1 : Prog.run exec (checkPipelines d.devicefile nd.devicefile rp []) w with ⟨r1, w1⟩
  have h1 := (run_checkPipelines d.devicefile nd.devicefile rp [] w).1
  simp only [runW, hr1] at h1
  subst h1
  rw [hr1] at h
  rcases r1 with e | (m | cs)
  · cases h
  · simp only [Prog.andThen_ok, Prog.pure_eq, Prog.run_pure, Prod.mk.injEq, Except.ok.injEq,
      refuse] at h
    rw [← h.1.1] at hs; cases hs
  · simp only [Prog.andThen_ok, Prog.run_bind] at h
    rcases hr2 : Prog.run exec (checkComponents d.devicefile nd.devicefile cs []) w1 with ⟨r2, w2⟩
    have h2 := (run_checkComponents d.devicefile nd.devicefile cs [] w1).1
    simp only [runW, hr2] at h2
    subst h2
    rw [hr2] at h
    rcases r2 with e | (m | ds)
    · cases h
    · simp only [Prog.andThen_ok, Prog.pure_eq, Prog.run_pure, Prod.mk.injEq, Except.ok.injEq,
        refuse] at h
      rw [← h.1.1] at hs; cases hs
    · simp only [Prog.andThen_ok, Prog.run_bind] at h
      rcases hr3 : Prog.run exec (checkDrivers d.devicefile nd.devicefile ds) w2 with ⟨r3, w3⟩
      have h3 := (run_checkDrivers d.devicefile nd.devicefile ds w2).1
      simp only [runW, hr3] at h3
      subst h3
      rw [hr3] at h
      rcases r3 with e | (_ | m)
      · cases h
      · simp only [Prog.andThen_ok, Prog.pure_eq, Prog.run_pure, Prod.mk.injEq,
          Except.ok.injEq] at h
        exact ⟨h.1.2.symm, h.2.symm, by rw [← h.1.1, ← h.1.2]⟩
      · simp only [Prog.andThen_ok, Prog.pure_eq, Prog.run_pure, Prod.mk.injEq, Except.ok.injEq,
          refuse] at h
        rw [← h.1.1] at hs; cases hs

/-- **C28** (partial): after a successful reload the daemon uses exactly the new configuration
(with the driver settings merged in), keeps its status, and answers with what it uses; no table is
changed.  Missing: entries for new pipelines and drivers, which the code does not create
(`C28_refuted`). -/
theorem C28_reload_uses_new_configuration_partial (w : World) (d : Daemon) (s : Settings)
    (df : DeviceFile) (hd : d.status ≠ .bootstrap) (rep : CReply) (d' : Daemon) (w' : World)
    (h : runW (cmdReload d (some (s, df))) w = (.ok (rep, d'), w')) (hs : rep.success = true) :
    d'.settings = s ∧ d'.status = d.status ∧ d'.devicefile.pipelines = df.pipelines ∧
    d'.devicefile.components = df.components ∧ d'.devicefile.devices = df.devices ∧
    Dict.keys d'.devicefile.drivers = Dict.keys df.drivers ∧ w' = w ∧
    rep.data = some (.daemon d') := by
  obtain ⟨rfl, rfl, hdata⟩ := reload_final w d s df hd rep d' w' h hs
  refine ⟨rfl, rfl, rfl, rfl, rfl, ?_, rfl, hdata⟩
  simp only [Daemon.build, mergeDriverSettings, Dict.keys, List.map_map]
  apply List.map_congr_left
  intro kv _
  simp only [Function.comp]
  split <;> rfl

example : ∃ rep d', runW (cmdReload { devicefile := dfA } (some ({}, dfB))) wBusy =
    (.ok (rep, d'), wBusy) ∧ rep.success = true ∧
    Dict.keys d'.devicefile.pipelines = ["p", "q"] := ⟨_, _, rfl, rfl, by decide⟩

theorem get?_update {V : Type} (d e : Dict String V) (he : (Dict.keys e).Nodup) (k : String) :
    Dict.get? (Dict.update d e) k = (Dict.get? e k).or (Dict.get? d k) := by
  unfold Dict.update
  induction e generalizing d with
  | nil => simp
  | cons kv e ih =>
    obtain ⟨k1, v1⟩ := kv
    simp only [Dict.keys, List.map_cons, List.nodup_cons] at he
    simp only [List.foldl_cons]
    rw [ih _ he.2, Dict.get?_set]
    by_cases hk : k1 = k
    · subst hk
      have : Dict.get? e k1 = none := by
        rw [← Option.not_isSome_iff_eq_none, ← Dict.mem_keys_iff]
        exact he.1
      rw [this]
      simp [Dict.get?]
    · simp [Dict.get?, hk]

theorem get?_merge (s : Settings) (df : DeviceFile) (n : String) :
    Dict.get? (mergeDriverSettings s df).drivers n = (Dict.get? df.drivers n).map (fun drv =>
      match Dict.get? s.drivers n with
      | some upd => { drv with settings := Dict.update drv.settings upd }
      | none => drv) := by
  unfold mergeDriverSettings
  simp only
  induction df.drivers with
  | nil => rfl
  | cons kv l ih =>
    obtain ⟨k, v⟩ := kv
    simp only [List.map_cons]
    by_cases hk : k = n
    · subst hk
      cases hs : Dict.get? s.drivers k <;> simp [Dict.get?]
    · have : ∀ (v' : Driver) l', Dict.get? ((k, v') :: l') n = Dict.get? l' n := by
        intro v' l'; simp [Dict.get?, hk]
      rw [this]
      cases hs : Dict.get? s.drivers k <;> simp only [this, ih]

/-- **C28** (driver settings): after a successful reload the settings of every configured driver are
those of the new configuration: for each key the value in the settings file, if there is one for this
driver, and else the value in the device file. -/
theorem C28_reload_driver_settings (w : World) (d : Daemon) (s : Settings)
    (df : DeviceFile) (hd : d.status ≠ .bootstrap) (rep : CReply) (d' : Daemon) (w' : World)
    (h : runW (cmdReload d (some (s, df))) w = (.ok (rep, d'), w')) (hs : rep.success = true)
    (n : String) (hn : ∀ upd, Dict.get? s.drivers n = some upd → (Dict.keys upd).Nodup) :
    match Dict.get? df.drivers n with
    | none => Dict.get? d'.devicefile.drivers n = none
    | some drv => ∃ drv', Dict.get? d'.devicefile.drivers n = some drv' ∧ drv'.name = drv.name ∧
        ∀ k, Dict.get? drv'.settings k =
          ((Dict.get? s.drivers n).bind (fun upd => Dict.get? upd k)).or (Dict.get? drv.settings k) := by
  obtain ⟨rfl, -⟩ := reload_final w d s df hd rep d' w' h hs
  show match Dict.get? df.drivers n with
    | none => Dict.get? (mergeDriverSettings s df).drivers n = none
    | some drv => ∃ drv', Dict.get? (mergeDriverSettings s df).drivers n = some drv' ∧ _
  rw [get?_merge]
  cases hdrv : Dict.get? df.drivers n with
  | none => rfl
  | some drv =>
    cases hu : Dict.get? s.drivers n with
    | none => exact ⟨_, rfl, rfl, fun k => by simp⟩
    | some upd => exact ⟨_, rfl, rfl, fun k => by simp [get?_update _ _ (hn upd hu)]⟩

example : ∃ rep d', runW (cmdReload { devicefile := dfA, status := .running }
      (some ({ drivers := [("d", [("k", "v")])] }, dfB))) {} = (.ok (rep, d'), {}) ∧
      rep.success = true ∧ Dict.get? d'.devicefile.drivers "d" = some ⟨"d", [("k", "v")]⟩ :=
  ⟨_, _, rfl, rfl, by decide⟩

/-- **C28 is false**: a reload that adds the pipeline `q` succeeds, but `q` has no entry in the
state table, so marking it ready raises. -/
theorem C28_refuted : ∃ (w : World) (d d' : Daemon) (s : Settings) (df : DeviceFile)
    (rep : CReply), w.WF ∧
    (∀ n ∈ Dict.keys d.devicefile.pipelines, (w.pip? n).isSome) ∧
    runW (cmdReload d (some (s, df))) w = (.ok (rep, d'), w) ∧ rep.success = true ∧
    (Dict.get? d'.devicefile.pipelines "q").isSome ∧ w.pip? "q" = none ∧
    (runW (pipelineReady (some d') "q") w).1 = .error .assertionError :=
  ⟨wBusy, { devicefile := dfA }, _, {}, dfB, _, by constructor <;> decide, by decide, rfl, rfl,
    by decide, by decide, rfl⟩

/-! ## C30: restart -/

theorem run_bootstrapPipelines (ns : List String) (w : World) :
    ∃ new : List PipState, runW (bootstrapPipelines ns) w =
        (.ok (), { w with pips := w.pips ++ new }) ∧
      (new.map (·.name)).Nodup ∧
      ∀ p, p ∈ new ↔ p = { name := p.name } ∧ p.name ∈ ns ∧ w.pip? p.name = none := by
  induction ns generalizing w with
  | nil => exact ⟨[], by simp [bootstrapPipelines], by simp, by simp⟩
  | cons n ns ih =>
    unfold bootstrapPipelines
    simp only [runW, Prog.bind_eq, Prog.run_bind, Do.run_getPip, exec_getPip, Prog.andThen_ok]
    cases hp : w.pip? n with
    | some p0 =>
      obtain ⟨new, h1, h2, h3⟩ := ih w
      refine ⟨new, h1, h2, ?_⟩
      intro p
      rw [h3 p]
      constructor
      · rintro ⟨ha, hb, hc⟩; exact ⟨ha, by simp [hb], hc⟩
      · rintro ⟨ha, hb, hc⟩
        refine ⟨ha, ?_, hc⟩
        rcases List.mem_cons.mp hb with hb | hb
        · rw [hb, hp] at hc; cases hc
        · exact hb
    | none =>
      have hins : Prog.run exec (Tomato.insertPip { name := n }) w =
          (.ok (some { name := n }), { w with pips := w.pips ++ [{ name := n }] }) := by
        have hp' : (w.pip? n).isSome = false := by simp [hp]
        have hget : World.pip? { w with pips := w.pips ++ [{ name := n }] } n =
            some { name := n } := by
          unfold World.pip? at hp ⊢
          simp only [List.find?_append, hp]
          simp
        simp only [Tomato.insertPip, Prog.bind_eq, Prog.run_bind, Do.run_insertPip, exec, hp',
          Bool.false_eq_true, if_false, Prog.andThen_ok, Do.run_getPip, hget]
      simp only [Prog.run_bind, hins, Prog.andThen_ok, Prog.run_assert, Option.isSome_some, if_true]
      obtain ⟨new, h1, h2, h3⟩ := ih { w with pips := w.pips ++ [{ name := n }] }
      have hq : ∀ m, World.pip? { w with pips := w.pips ++ [{ name := n }] } m =
          if m = n then some { name := n } else w.pip? m := by
        intro m
        have := find?_append_key (fun p : PipState => p.name) w.pips { name := n } m
        simp only [World.pip?]
        rw [this]
        by_cases hmn : m = n
        · subst hmn
          have : w.pips.find? (fun p => p.name == m) = none := hp
          simp [this]
        · have h' : ¬ n = m := fun h => hmn h.symm
          simp [h', hmn]
      refine ⟨{ name := n } :: new, ?_, ?_, ?_⟩
      · simp only [runW] at h1; rw [h1]; simp
      · simp only [List.map_cons, List.nodup_cons]
        refine ⟨?_, h2⟩
        intro hmem
        rw [List.mem_map] at hmem
        obtain ⟨p, hpm, hpn⟩ := hmem
        have := ((h3 p).mp hpm).2.2
        rw [hq, if_pos hpn] at this
        cases this
      · intro p
        rw [List.mem_cons, h3 p, hq]
        constructor
        · rintro (rfl | ⟨ha, hb, hc⟩)
          · exact ⟨rfl, by simp, hp⟩
          · refine ⟨ha, by simp [hb], ?_⟩
            split at hc
            · cases hc
            · exact hc
        · rintro ⟨ha, hb, hc⟩
          by_cases hpn : p.name = n
          · left; rw [ha, hpn]
          · right
            refine ⟨ha, ?_, by rw [if_neg hpn]; exact hc⟩
            rcases List.mem_cons.mp hb with hb | hb
            · exact absurd hb hpn
            · exact hb

theorem run_bootstrapDrivers (ns : List String) (w : World) :
    ∃ new : List DrvState, runW (bootstrapDrivers ns) w =
        (.ok (), { w with drvs := w.drvs ++ new }) ∧
      (new.map (·.name)).Nodup ∧
      ∀ p, p ∈ new ↔ p = { name := p.name } ∧ p.name ∈ ns ∧ w.drv? p.name = none := by
  induction ns generalizing w with
  | nil => exact ⟨[], by simp [bootstrapDrivers], by simp, by simp⟩
  | cons n ns ih =>
    unfold bootstrapDrivers
    simp only [runW, Prog.bind_eq, Prog.run_bind, Do.run_getDrv, exec_getDrv, Prog.andThen_ok]
    cases hp : w.drv? n with
    | some p0 =>
      obtain ⟨new, h1, h2, h3⟩ := ih w
      refine ⟨new, h1, h2, ?_⟩
      intro p
      rw [h3 p]
      constructor
      · rintro ⟨ha, hb, hc⟩; exact ⟨ha, by simp [hb], hc⟩
      · rintro ⟨ha, hb, hc⟩
        refine ⟨ha, ?_, hc⟩
        rcases List.mem_cons.mp hb with hb | hb
        · rw [hb, hp] at hc; cases hc
        · exact hb
    | none =>
      have hins : Prog.run exec (Tomato.insertDrv { name := n }) w =
          (.ok (some { name := n }), { w with drvs := w.drvs ++ [{ name := n }] }) := by
        have hp' : (w.drv? n).isSome = false := by simp [hp]
        have hget : World.drv? { w with drvs := w.drvs ++ [{ name := n }] } n =
            some { name := n } := by
          unfold World.drv? at hp ⊢
          simp only [List.find?_append, hp]
          simp
        simp only [Tomato.insertDrv, Prog.bind_eq, Prog.run_bind, Do.run_insertDrv, exec, hp',
          Bool.false_eq_true, if_false, Prog.andThen_ok, Do.run_getDrv, hget]
      simp only [Prog.run_bind, hins, Prog.andThen_ok, Prog.run_assert, Option.isSome_some, if_true]
      obtain ⟨new, h1, h2, h3⟩ := ih { w with drvs := w.drvs ++ [{ name := n }] }
      have hq : ∀ m, World.drv? { w with drvs := w.drvs ++ [{ name := n }] } m =
          if m = n then some { name := n } else w.drv? m := by
        intro m
        have := find?_append_key (fun p : DrvState => p.name) w.drvs { name := n } m
        simp only [World.drv?]
        rw [this]
        by_cases hmn : m = n
        · subst hmn
          have : w.drvs.find? (fun p => p.name == m) = none := hp
          simp [this]
        · have h' : ¬ n = m := fun h => hmn h.symm
          simp [h', hmn]
      refine ⟨{ name := n } :: new, ?_, ?_, ?_⟩
      · simp only [runW] at h1; rw [h1]; simp
      · simp only [List.map_cons, List.nodup_cons]
        refine ⟨?_, h2⟩
        intro hmem
        rw [List.mem_map] at hmem
        obtain ⟨p, hpm, hpn⟩ := hmem
        have := ((h3 p).mp hpm).2.2
        rw [hq, if_pos hpn] at this
        cases this
      · intro p
        rw [List.mem_cons, h3 p, hq]
        constructor
        · rintro (rfl | ⟨ha, hb, hc⟩)
          · exact ⟨rfl, by simp, hp⟩
          · refine ⟨ha, by simp [hb], ?_⟩
            split at hc
            · cases hc
            · exact hc
        · rintro ⟨ha, hb, hc⟩
          by_cases hpn : p.name = n
          · left; rw [ha, hpn]
          · right
            refine ⟨ha, ?_, by rw [if_neg hpn]; exact hc⟩
            rcases List.mem_cons.mp hb with hb | hb
            · exact absurd hb hpn
            · exact hb

/-- **C30**: starting the daemon on an existing database keeps the queue and all existing
rows, and appends an empty, not ready row for exactly the configured pipelines (and a blank
row for exactly the configured drivers) that had none. -/
theorem C30_bootstrap (w : World) (d : Daemon) (parsed : Option (Settings × DeviceFile))
    (hd : d.status = .bootstrap) :
    ∃ rep newP newD, runW (cmdReload d parsed) w =
        (.ok (rep, { d with status := .running }),
         { w with pips := w.pips ++ newP, drvs := w.drvs ++ newD }) ∧
      rep.success = true ∧ rep.data = some (.daemon { d with status := .running }) ∧
      (newP.map (·.name)).Nodup ∧ (newD.map (·.name)).Nodup ∧
      (∀ p, p ∈ newP ↔ p = { name := p.name, ready := false, jobid := none, sampleid := none } ∧
        (Dict.get? d.devicefile.pipelines p.name).isSome ∧ w.pip? p.name = none) ∧
      (∀ p, p ∈ newD ↔ p = { name := p.name } ∧
        (Dict.get? d.devicefile.drivers p.name).isSome ∧ w.drv? p.name = none) := by
  obtain ⟨newD, h1, h2, h3⟩ := run_bootstrapDrivers (Dict.keys d.devicefile.drivers) w
  obtain ⟨newP, h4, h5, h6⟩ := run_bootstrapPipelines (Dict.keys d.devicefile.pipelines)
    { w with drvs := w.drvs ++ newD }
  simp only [runW] at h1 h4
  unfold cmdReload
  rw [if_pos hd]
  simp only [runW, Prog.bind_eq, Prog.run_bind, h1, Prog.andThen_ok, h4, Prog.pure_eq,
    Prog.run_pure]
  refine ⟨_, newP, newD, rfl, rfl, rfl, h5, h2, ?_, ?_⟩
  · intro p
    rw [h6 p, Dict.mem_keys_iff]
    exact Iff.rfl
  · intro p
    rw [h3 p, Dict.mem_keys_iff]

example : ∃ rep d' w', runW (cmdReload { status := .bootstrap, devicefile := dfB } none) wBusy =
    (.ok (rep, d'), w') ∧ w'.pips = wBusy.pips ++ [{ name := "q" }] ∧ w'.drvs = wBusy.drvs :=
  ⟨_, _, _, rfl, by decide, by decide⟩

/-! ## C29: answers -/

/-- The messages the command line tools send, and messages without command. -/
def Proper : DMsg → Prop
  | .noCmd | .status | .stop | .reload _ => True
  | _ => False

/-- What a request does and the reply it deserves, independently of earlier requests: the
command executed on the current configuration and tables; a failure reply for anything that is
not a command. -/
def Answer (d : Daemon) (w : World) (m : DMsg) (r : CReply) (d' : Daemon) (w' : World) : Prop :=
  match m with
  | .status => runW (cmdStatus d) w = (.ok (r, d'), w')
  | .stop => runW (cmdStop d) w = (.ok (r, d'), w')
  | .reload parsed => runW (cmdReload d parsed) w = (.ok (r, d'), w')
  | _ => r.success = false ∧ d' = d ∧ w' = w

/-- Every request of the sequence gets its own answer. -/
inductive AllAnswered : Daemon → World → List DMsg → List CReply → Daemon → World → Prop
  | nil (d w) : AllAnswered d w [] [] d w
  | cons {d w m r d1 w1 ms rs d2 w2} : Answer d w m r d1 w1 → AllAnswered d1 w1 ms rs d2 w2 →
      AllAnswered d w (m :: ms) (r :: rs) d2 w2

/-- **C29** (partial): as long as only proper messages are received, every request is answered
with its own result, whatever was received before.
Missing: any other message, for which it is false (`C29_refuted_stale`, `C29_refuted_crash`). -/
theorem C29_answers_partial (l : DLoop) (ms : List DMsg) (hp : ∀ m ∈ ms, Proper m) (w : World)
    (rs : List CReply) (l' : DLoop) (w' : World)
    (h : runW (serve l ms) w = (.ok (rs, l'), w')) :
    AllAnswered l.daemon w ms rs l'.daemon w' := by
  induction ms generalizing l w rs with
  | nil => cases h; exact .nil _ _
  | cons m ms ih =>
    simp only [serve, runW, Prog.bind_eq, Prog.run_bind] at h
    rcases hm : Prog.run exec (handleMsg l m) w with ⟨(e | ⟨r, l1⟩), w1⟩
    · rw [hm] at h; cases h
    · rw [hm] at h
      simp only [Prog.andThen_ok] at h
      rcases hs : Prog.run exec (serve l1 ms) w1 with ⟨(e | ⟨rs1, l2⟩), w2⟩
      · rw [hs] at h; cases h
      · rw [hs] at h
        cases h
        refine .cons ?_ (ih l1 (fun m hm => hp m (by simp [hm])) w1 rs1 hs)
        have hpm := hp m (by simp)
        cases m with
        | noCmd => cases hm; exact ⟨rfl, rfl, rfl⟩
        | status => cases hm; rfl
        | stop =>
          simp only [handleMsg, Prog.bind_eq, Prog.run_bind] at hm
          simp only [Answer]
          rcases hc : Prog.run exec (cmdStop l.daemon) w with ⟨(e | ⟨r', d'⟩), w3⟩
          · rw [hc] at hm; cases hm
          · rw [hc] at hm; cases hm; exact hc
        | reload parsed =>
          simp only [handleMsg, Prog.bind_eq, Prog.run_bind] at hm
          simp only [Answer]
          rcases hc : Prog.run exec (cmdReload l.daemon parsed) w with ⟨(e | ⟨r', d'⟩), w3⟩
          · rw [hc] at hm; cases hm
          · rw [hc] at hm; cases hm; exact hc
        | otherAttribute n => cases hpm
        | notAString => cases hpm
        | unknown n => cases hpm

example : ∃ rs l', runW (serve { daemon := { devicefile := dfA } }
      [.status, .noCmd, .stop, .reload none]) wBusy = (.ok (rs, l'), wBusy) ∧
    rs.map (·.success) = [true, false, false, false] ∧
    ∀ m ∈ [DMsg.status, .noCmd, .stop, .reload none], Proper m := by
  refine ⟨_, _, rfl, by decide, ?_⟩
  intro m hm
  simp only [List.mem_cons, List.not_mem_nil, or_false] at hm
  rcases hm with rfl | rfl | rfl | rfl <;> trivial

/-- **C29 is false**: an unknown command is answered with the (successful) reply to the
previous request. -/
theorem C29_refuted_stale : ∃ (l : DLoop) (w : World) (r1 r2 : CReply) (l' : DLoop),
    runW (serve l [.status, .unknown "frobnicate"]) w = (.ok ([r1, r2], l'), w) ∧
    r2.success = true ∧ r2 = r1 :=
  ⟨{ daemon := {} }, {}, _, _, _, rfl, rfl, rfl⟩

/-- **C29 is false**: an unknown command as first message, a name from the module's namespace,
or a command that is not a string, end the daemon. -/
theorem C29_refuted_crash :
    (runW (serve { daemon := {} } [.unknown "frobnicate"]) {}).1 = .error .unboundLocalError ∧
    (runW (serve { daemon := {} } [.status, .otherAttribute "Reply"]) {}).1 = .error .typeError ∧
    (runW (serve { daemon := {} } [.status, .notAString]) {}).1 = .error .typeError :=
  ⟨rfl, rfl, rfl⟩

end Tomato.Props
