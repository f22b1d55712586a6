import Verif.Status
import Verif.Props.Cmd
import Verif.Props.Cli

/-!
# `tomato status` (C85)
-/

namespace Tomato

/-- An execution of a program which others may disturb at any time: `ws` are the worlds in which its
operations are performed, one after the other.  They are arbitrary: nothing is assumed about what
happens in between. -/
inductive Sees {α : Type} : P α → List World → Except PyErr α → Prop where
  | pure (a : α) : Sees (.pure a) [] (.ok a)
  | raise (e : PyErr) : Sees (.raise e) [] (.error e)
  | op (o : Op) (k : Except PyErr (Resp o) → P α) (v : World) (ws : List World) (r : Except PyErr α) :
      Sees (k (exec o v).1) ws r → Sees (.op o k) (v :: ws) r

theorem sees_bind {α β : Type} {p : P α} {f : α → P β} {ws : List World} {b : β}
    (h : Sees (Prog.bind p f) ws (.ok b)) :
    ∃ a ws₁ ws₂, Sees p ws₁ (.ok a) ∧ Sees (f a) ws₂ (.ok b) ∧ ws = ws₁ ++ ws₂ := by
  induction p generalizing ws with
  | pure a => exact ⟨a, [], ws, .pure a, h, rfl⟩
  | raise e => cases h
  | op o k ih =>
    cases h with
    | op _ _ v ws _ h =>
      obtain ⟨a, ws₁, ws₂, h1, h2, rfl⟩ := ih _ h
      exact ⟨a, v :: ws₁, ws₂, .op _ _ _ _ _ h1, h2, rfl⟩

theorem sees_call {o : Op} {ws : List World} {a : Resp o} (h : Sees (ask o) ws (.ok a)) :
    ∃ v, ws = [v] ∧ (exec o v).1 = .ok a := by
  cases h with
  | op _ _ v ws _ h =>
    cases hr : (exec o v).1 with
    | ok x => rw [hr] at h; cases h; exact ⟨v, rfl, hr⟩
    | error e => rw [hr] at h; cases h

/-- An undisturbed execution is a special case. -/
theorem sees_run {α : Type} (p : P α) : ∀ w, ∃ ws, Sees p ws (runW p w).1 := by
  induction p with
  | pure a => exact fun w => ⟨[], .pure a⟩
  | raise e => exact fun w => ⟨[], .raise e⟩
  | op o k ih =>
    intro w
    obtain ⟨ws, h⟩ := ih (exec o w).1 (exec o w).2
    exact ⟨w :: ws, .op _ _ _ _ _ h⟩

namespace Stat

/-- What is shown for a component, given the reply of its driver. -/
def Answered (c : CmpInfo) (dret : DrvReply) : Prop :=
  (∀ l, c.capabilities = some l ↔ dret.success = true ∧ dret.data = some l ∧ l ≠ [])

theorem answered (cmp : Component) (dret : DrvReply) :
    Answered ⟨cmp, match dret.data with
        | none => none
        | some c => if dret.success && c.length > 0 then some c else none⟩ dret := by
  intro l
  cases hd : dret.data with
  | none => simp
  | some c =>
    cases hs : dret.success <;> cases c <;> simp
    intro h e; subst e; cases h

/-- The capabilities of a component were obtained from its driver. -/
def Asked (ws : List World) (c : CmpInfo) : Prop :=
  ∃ v ∈ ws, ∃ v' ∈ ws, ∃ r p dret, v.drv? c.cmp.driver = some r ∧ r.port = some p ∧
    v'.drv p (.capabilities c.cmp.address c.cmp.channel) = some dret ∧ Answered c dret

theorem Asked.mono {ws ws' : List World} {c : CmpInfo} (h : Asked ws c) (hs : ∀ v ∈ ws, v ∈ ws') :
    Asked ws' c := by
  obtain ⟨v, hv, v', hv', rest⟩ := h
  exact ⟨v, hs v hv, v', hs v' hv', rest⟩

theorem sees_capabilities : ∀ (l : Dict String Component) (ws : List World) (t : Dict String CmpInfo),
    Sees (capabilities l) ws (.ok t) →
    t.map (fun x => (x.1, x.2.cmp)) = l ∧ ∀ x ∈ t, Asked ws x.2 := by
  intro l
  induction l with
  | nil => intro ws t h; cases h; exact ⟨rfl, by simp⟩
  | cons c l ih =>
    obtain ⟨ckey, cmp⟩ := c
    intro ws t h
    obtain ⟨drv, ws₁, ws₂, h1, h2, rfl⟩ := sees_bind h
    obtain ⟨v, rfl, hv⟩ := sees_call h1
    have hdrv : v.drv? cmp.driver = drv := by simpa [exec] using hv
    cases drv with
    | none => cases h2
    | some r =>
      obtain ⟨dret, ws₃, ws₄, h3, h4, rfl⟩ := sees_bind h2
      obtain ⟨v', rfl, hv'⟩ := sees_call h3
      obtain ⟨l', ws₅, ws₆, h5, h6, rfl⟩ := sees_bind h4
      cases h6
      obtain ⟨g1, g2⟩ := ih ws₅ l' h5
      refine ⟨by simp [g1], ?_⟩
      intro x hx
      rcases List.mem_cons.mp hx with rfl | hx
      · refine ⟨v, by simp, v', by simp, r, ?_⟩
        cases hp : r.port with
        | none => rw [hp] at hv'; cases hv'
        | some p =>
          rw [hp] at hv'
          simp only [exec] at hv'
          cases hd : v'.drv p (.capabilities cmp.address cmp.channel) with
          | none => rw [hd] at hv'; cases hv'
          | some d' =>
            rw [hd] at hv'
            cases hv'
            exact ⟨p, dret, hdrv, rfl, hd, answered _ _⟩
      · exact (g2 x hx).mono (fun v hv => by simp [hv])

theorem sees_pipStates : ∀ (l : List String) (ws : List World) (t : Dict String PipState),
    Sees (pipStates l) ws (.ok t) →
    Dict.keys t = l ∧ ∀ x ∈ t, ∃ v ∈ ws, v.pip? x.1 = some x.2 := by
  intro l
  induction l with
  | nil => intro ws t h; cases h; exact ⟨rfl, by simp⟩
  | cons n l ih =>
    intro ws t h
    obtain ⟨pip, ws₁, ws₂, h1, h2, rfl⟩ := sees_bind h
    obtain ⟨v, rfl, hv⟩ := sees_call h1
    have hpip : v.pip? n = pip := by simpa [exec] using hv
    cases pip with
    | none => cases h2
    | some p =>
      obtain ⟨l', ws₅, ws₆, h5, h6, rfl⟩ := sees_bind h2
      cases h6
      obtain ⟨g1, g2⟩ := ih ws₅ l' h5
      refine ⟨by simp only [Dict.keys] at g1; simp [Dict.keys, g1], ?_⟩
      intro x hx
      rcases List.mem_cons.mp hx with rfl | hx
      · exact ⟨v, by simp, hpip⟩
      · obtain ⟨v', h, h'⟩ := g2 x hx
        exact ⟨v', by simp [h], h'⟩

theorem sees_tableReply {O : Type} {val : O → String → String} {objs : String} {yaml : Bool}
    {keys : List String} {rows : List O} {data : SData} {ws : List World} {rep : SReply}
    (h : Sees (tableReply val objs yaml keys rows data) ws (.ok rep)) :
    ws = [] ∧ rep.success = true ∧ rep.data = some data := by
  unfold tableReply at h
  cases hf : formatMsg val "tomato running" objs yaml keys rows with
  | error e => rw [hf] at h; cases h
  | ok text => rw [hf] at h; cases h; exact ⟨rfl, rfl, rfl⟩

/-- The groups. -/
def groups : List String := ["tomato", "devices", "drivers", "components", "pipelines"]

/-- Operations that change nothing: queries, and the question for capabilities. -/
def Query : Op → Prop
  | .drvsWhere _ => True
  | .getDrv _ => True
  | .getPip _ => True
  | .askDriver _ (.capabilities _ _) => True
  | _ => False

end Stat

namespace Props

open Stat

/-! ## C85 -/

/-- **C85** (`_partial`: each row is right for some moment, but not all for the same one, see
`C85_refuted_torn`; and only if there is an answer, see the other refutations): whatever happens while
the command is running, if it answers, then the answer shows the configuration of the daemon, all of it,
in its order, with entries of the tables and answers of drivers obtained while the command was running.
An unknown group is refused. -/
theorem C85_moment_partial (sh : Show) (d : Daemon) (grp : String) (yaml : Bool) (ws : List World)
    (rep : SReply) (h : Sees (Stat.status sh (some d) grp yaml) ws (.ok rep)) :
    (rep.success = true ↔ grp ∈ groups) ∧ (rep.success = false → rep.data = none) ∧
    (grp = "tomato" → rep.data = some (.daemon d)) ∧
    (grp = "devices" → rep.data = some (.devices d.devicefile.devices)) ∧
    (grp = "drivers" → ∃ v ∈ ws, rep.data = some (.drivers (v.drvs.map (fun r => (r.name, r))))) ∧
    (grp = "components" → ∃ t, rep.data = some (.components t) ∧
      t.map (fun x => (x.1, x.2.cmp)) = d.devicefile.components ∧ ∀ x ∈ t, Asked ws x.2) ∧
    (grp = "pipelines" → ∃ t, rep.data = some (.pipelines t) ∧
      Dict.keys t = Dict.keys d.devicefile.pipelines ∧ ∀ x ∈ t, ∃ v ∈ ws, v.pip? x.1 = some x.2) := by
  unfold Stat.status at h
  simp only at h
  by_cases h1 : grp = "tomato"
  · subst h1
    cases h
    simp [groups]
  rw [if_neg h1] at h
  by_cases h2 : grp = "devices"
  · subst h2
    obtain ⟨-, g1, g2⟩ := sees_tableReply h
    simp [groups, g1, g2]
  rw [if_neg h2] at h
  by_cases h3 : grp = "drivers"
  · subst h3
    obtain ⟨drvs, ws₁, ws₂, k1, k2, rfl⟩ := sees_bind h
    obtain ⟨v, rfl, hv⟩ := sees_call k1
    obtain ⟨-, g1, g2⟩ := sees_tableReply k2
    have hd : drvs = v.drvs := by
      simp only [exec, Except.ok.injEq] at hv
      rw [← hv]
      simp
    simp [groups, g1, g2, hd]
  rw [if_neg h3] at h
  by_cases h4 : grp = "components"
  · subst h4
    obtain ⟨t, ws₁, ws₂, k1, k2, rfl⟩ := sees_bind h
    obtain ⟨rfl, g1, g2⟩ := sees_tableReply k2
    have := sees_capabilities _ _ _ k1
    simpa [groups, g1, g2] using this
  rw [if_neg h4] at h
  by_cases h5 : grp = "pipelines"
  · subst h5
    obtain ⟨t, ws₁, ws₂, k1, k2, rfl⟩ := sees_bind h
    obtain ⟨rfl, g1, g2⟩ := sees_tableReply k2
    have := sees_pipStates _ _ _ k1
    simpa [groups, g1, g2] using this
  rw [if_neg h5] at h
  cases h
  simp [groups, h1, h2, h3, h4, h5]

/-- **C85** (nothing changes): the command consists of queries only, whatever happens meanwhile; executed
alone it leaves the tables, folders and processes as they are. -/
theorem C85_readonly (sh : Show) (stat : Option Daemon) (grp : String) (yaml : Bool) :
    Prog.Only (S := DB) Query (Stat.status sh stat grp yaml) ∧
    ∀ w, ∃ l, (runW (Stat.status sh stat grp yaml) w).2 = { w with sent := w.sent ++ l } := by
  have ho : Prog.Only (S := DB) Query (Stat.status sh stat grp yaml) := by
    have htab : ∀ {O : Type} (val : O → String → String) (keys : List String) (rows : List O) (data : SData),
        Prog.Only (S := DB) Query (tableReply val grp yaml keys rows data) := by
      intro O val keys rows data
      unfold tableReply
      split <;> trivial
    have hcap : ∀ l, Prog.Only (S := DB) Query (capabilities l) := by
      intro l
      induction l with
      | nil => trivial
      | cons c l ih =>
        obtain ⟨ckey, cmp⟩ := c
        refine Prog.only_bind ((Do.only_getDrv _).mpr trivial) (fun drv => ?_)
        cases drv with
        | none => trivial
        | some r =>
          refine Prog.only_bind ((Do.only_askDriver _ _).mpr trivial) (fun dret => ?_)
          exact Prog.only_bind ih (fun _ => trivial)
    have hpip : ∀ l, Prog.Only (S := DB) Query (pipStates l) := by
      intro l
      induction l with
      | nil => trivial
      | cons n l ih =>
        refine Prog.only_bind ((Do.only_getPip _).mpr trivial) (fun pip => ?_)
        cases pip with
        | none => trivial
        | some p => exact Prog.only_bind ih (fun _ => trivial)
    unfold Stat.status
    cases stat with
    | none => trivial
    | some d =>
      simp only
      split
      · trivial
      split
      · exact htab ..
      split
      · exact Prog.only_bind ((Do.only_drvsWhere _).mpr trivial) (fun _ => htab ..)
      split
      · exact Prog.only_bind (hcap _) (fun _ => htab ..)
      split
      · exact Prog.only_bind (hpip _) (fun _ => htab ..)
      · trivial
  refine ⟨ho, fun w => ?_⟩
  refine Prog.run_only (R := fun w w' : World => ∃ l, w' = { w with sent := w.sent ++ l })
    (fun w => ⟨[], by simp⟩) ?_ ?_ ho w
  · rintro w w' w'' ⟨l, rfl⟩ ⟨l', rfl⟩
    exact ⟨l ++ l', by simp⟩
  · intro o w hq
    cases o <;> try exact hq.elim
    case drvsWhere => exact ⟨[], by simp [exec]⟩
    case getDrv => exact ⟨[], by simp [exec]⟩
    case getPip => exact ⟨[], by simp [exec]⟩
    case askDriver port c =>
      cases port with
      | none => exact ⟨[], by simp [exec]⟩
      | some p =>
        refine ⟨[(p, c)], ?_⟩
        simp only [exec]
        split <;> rfl

/-- **C85** (no daemon): without an answer of the daemon the command fails, reports nothing and does nothing. -/
theorem C85_absent (sh : Show) (grp : String) (yaml : Bool) (w : World) :
    ∃ rep, runW (Stat.status sh none grp yaml) w = (.ok rep, w) ∧ rep.success = false ∧
      rep.data = none ∧ rep.msg = .notRunning :=
  ⟨_, rfl, rfl, rfl, rfl⟩

/-- **C85** (answers; `_partial`: what is required here is not always the case, see the refutations): if
every pipeline has a row, every component a driver with a port that answers, and no table is empty, the
command answers. -/
theorem C85_answers_partial (sh : Show) (d : Daemon) (grp : String) (yaml : Bool) (w : World)
    (hp : ∀ n ∈ Dict.keys d.devicefile.pipelines, (w.pip? n).isSome)
    (hc : ∀ c ∈ d.devicefile.components, ∃ r p dret, w.drv? c.2.driver = some r ∧ r.port = some p ∧
      w.drv p (.capabilities c.2.address c.2.channel) = some dret)
    (hne : yaml = false → d.devicefile.devices ≠ [] ∧ w.drvs ≠ [] ∧ d.devicefile.components ≠ [] ∧
      d.devicefile.pipelines ≠ []) :
    ∃ rep, (runW (Stat.status sh (some d) grp yaml) w).1 = .ok rep := by
  have htab : ∀ {O : Type} (val : O → String → String) (grp : String) (keys : List String) (rows : List O)
      (data : SData) (w : World), (yaml = false → rows ≠ []) →
      ∃ rep, (runW (tableReply val grp yaml keys rows data) w).1 = .ok rep := by
    intro O val grp keys rows data w hr
    unfold tableReply
    cases hy : yaml with
    | true => exact ⟨_, rfl⟩
    | false =>
      obtain ⟨lines, -, -, -, -, h⟩ := C65_tables_partial val rows keys (hr hy)
      rw [h]
      exact ⟨_, rfl⟩
  have hcap : ∀ (l : Dict String Component) (w : World),
      (∀ c ∈ l, ∃ r p dret, w.drv? c.2.driver = some r ∧ r.port = some p ∧
        w.drv p (.capabilities c.2.address c.2.channel) = some dret) →
      ∃ t w', runW (capabilities l) w = (.ok t, w') ∧ (l ≠ [] → Dict.values t ≠ []) := by
    intro l
    induction l with
    | nil => intro w _; exact ⟨[], w, rfl, by simp⟩
    | cons c l ih =>
      obtain ⟨ckey, cmp⟩ := c
      intro w hc
      obtain ⟨r, p, dret, g1, g2, g3⟩ := hc (ckey, cmp) (by simp)
      simp only at g1 g3
      obtain ⟨t, w', k1, -⟩ := ih (w.logSent p (.capabilities cmp.address cmp.channel))
        (fun c hc' => hc c (by simp [hc']))
      simp only [runW] at k1
      simp only [capabilities, runW, Prog.bind_eq, Prog.run_bind, Do.run_getDrv, Prog.andThen_ok,
        g1, Do.run_askDriver, exec, g2, g3, k1]
      exact ⟨_, _, rfl, by simp [Dict.values]⟩
  have hpip : ∀ (l : List String), (∀ n ∈ l, (w.pip? n).isSome) →
      ∃ t, runW (pipStates l) w = (.ok t, w) ∧ (l ≠ [] → Dict.values t ≠ []) := by
    intro l
    induction l with
    | nil => intro _; exact ⟨[], rfl, by simp⟩
    | cons n l ih =>
      intro h
      obtain ⟨p, hp⟩ := Option.isSome_iff_exists.mp (h n (by simp))
      obtain ⟨t, k1, -⟩ := ih (fun m hm => h m (by simp [hm]))
      simp only [runW] at k1
      simp only [pipStates, runW, Prog.bind_eq, Prog.run_bind, Do.run_getPip, exec_getPip, Prog.andThen_ok, hp, k1]
      exact ⟨_, rfl, by simp [Dict.values]⟩
  unfold Stat.status
  simp only
  split
  · exact ⟨_, rfl⟩
  split
  · refine htab _ _ _ _ _ _ (fun hy => ?_)
    have := (hne hy).1
    simpa [Dict.values] using this
  split
  · have hfil : w.drvs.filter (fun _ => true) = w.drvs := by simp
    simp only [runW, Prog.bind_eq, Prog.run_bind, Do.run_drvsWhere, exec_drvsWhere, Prog.andThen_ok, hfil]
    exact htab _ _ _ _ _ _ (fun hy => (hne hy).2.1)
  split
  · obtain ⟨t, w', k1, k2⟩ := hcap _ w hc
    simp only [runW] at k1
    simp only [runW, Prog.bind_eq, Prog.run_bind, k1, Prog.andThen_ok]
    exact htab _ _ _ _ _ _ (fun hy => k2 (hne hy).2.2.1)
  split
  · obtain ⟨t, k1, k2⟩ := hpip _ hp
    simp only [runW] at k1
    simp only [runW, Prog.bind_eq, Prog.run_bind, k1, Prog.andThen_ok]
    refine htab _ _ _ _ _ _ (fun hy => k2 ?_)
    have := (hne hy).2.2.2
    simpa [Dict.keys] using this
  · exact ⟨_, rfl⟩

/-- Two pipelines and one component, whose driver is running. -/
def dShow : Daemon := { devicefile := {
  components := [("d:(a,1)", ⟨"d:(a,1)", "dev", "d", "a", "1"⟩), ("e:(b,1)", ⟨"e:(b,1)", "dev2", "e", "b", "1"⟩)]
  devices := [("dev", { name := "dev", driver := "d", address := "a", channels := ["1"] }),
    ("dev2", { name := "dev2", driver := "e", address := "b", channels := ["1"] })]
  drivers := [("d", { name := "d" }), ("e", { name := "e" })]
  pipelines := [("p", ⟨"p", [("x", "d:(a,1)")]⟩), ("q", ⟨"q", [("x", "e:(b,1)")]⟩)] } }

/-- A way to show the columns. -/
def shName : Show := ⟨fun x _ => x.name, fun x _ => x.name, fun x _ => x.cmp.name, fun x _ => x.name⟩

/-- Both drivers are running; the sample is in `p`. -/
def wShow : World :=
  { drvs := [{ name := "d", port := some 5 }, { name := "e", port := some 6 }],
    pips := [{ name := "p", sampleid := some "s" }, { name := "q" }],
    drv := fun p _ => if p = 5 then some { success := true, data := some ["t"] } else some { success := false } }

example : ∃ rep, (runW (Stat.status shName (some dShow) "components" false) wShow).1 = .ok rep ∧
    rep.success = true ∧ rep.data = some (.components
      [("d:(a,1)", ⟨⟨"d:(a,1)", "dev", "d", "a", "1"⟩, some ["t"]⟩),
       ("e:(b,1)", ⟨⟨"e:(b,1)", "dev2", "e", "b", "1"⟩, none⟩)]) := ⟨_, rfl, rfl, rfl⟩

example : (∀ n ∈ Dict.keys dShow.devicefile.pipelines, (wShow.pip? n).isSome) ∧
    (∀ c ∈ dShow.devicefile.components, ∃ r p dret, wShow.drv? c.2.driver = some r ∧ r.port = some p ∧
      wShow.drv p (.capabilities c.2.address c.2.channel) = some dret) := by
  refine ⟨by decide, ?_⟩
  intro c hc
  simp only [dShow, List.mem_cons, List.not_mem_nil, or_false] at hc
  rcases hc with rfl | rfl
  · exact ⟨_, _, _, rfl, rfl, rfl⟩
  · exact ⟨_, _, _, rfl, rfl, rfl⟩

/-- The sample is moved from `p` to `q`. -/
def wMoved : World :=
  (runW (pipelineLoad (some dShow) "q" "s") (runW (pipelineEject (some dShow) "p") wShow).2).2

/-- **C85** is violated: the pipelines are read one after the other.  If the sample is moved from one to the
other meanwhile, it is reported to be in both, which was never the case. -/
theorem C85_refuted_torn : ∃ rep, Sees (Stat.status shName (some dShow) "pipelines" true) [wShow, wMoved] (.ok rep) ∧
    rep.data = some (.pipelines [("p", { name := "p", sampleid := some "s" }),
      ("q", { name := "q", sampleid := some "s" })]) ∧
    (wShow.pip? "q").map (·.sampleid) = some none ∧ (wMoved.pip? "p").map (·.sampleid) = some none :=
  ⟨_, .op _ _ _ _ _ (.op _ _ _ _ _ (.pure _)), rfl, rfl, rfl⟩

/-- **C85** is violated: after a successful reload with a new pipeline, the states of *all* pipelines
cannot be queried any more (`vars(None)`). -/
theorem C85_refuted_reload : ∃ (w : World) (d d' : Daemon) (s : Settings) (df : DeviceFile) (rep : CReply),
    w.WF ∧ (∃ r, (runW (Stat.status shName (some d) "pipelines" false) w).1 = .ok r) ∧
    runW (cmdReload d (some (s, df))) w = (.ok (rep, d'), w) ∧ rep.success = true ∧
    ∀ sh yaml, (runW (Stat.status sh (some d') "pipelines" yaml) w).1 = .error .typeError :=
  ⟨wBusy, { devicefile := dfA }, _, {}, dfB, _, by constructor <;> decide, ⟨_, rfl⟩, rfl, rfl, fun _ _ => rfl⟩

/-- **C85** is violated: if one driver is not running yet, or is being started again, the components of the
other drivers are not reported either; and if one driver does not answer, the command does not return
(`systemExit` stands for this, see `exec`). -/
theorem C85_refuted_driver (sh : Show) (yaml : Bool) :
    (runW (Stat.status sh (some dShow) "components" yaml)
      { wShow with drvs := [{ name := "d", port := some 5 }, { name := "e" }] }).1 = .error .zmqError ∧
    (runW (Stat.status sh (some dShow) "components" yaml)
      { wShow with drvs := [{ name := "d", port := some 5 }] }).1 = .error .assertionError ∧
    (runW (Stat.status sh (some dShow) "components" yaml)
      { wShow with drv := fun p _ => if p = 5 then some { success := true } else none }).1 = .error .systemExit :=
  ⟨rfl, rfl, rfl⟩

/-- **C85** is violated: without pipelines, the table cannot be printed (`C65_refuted`). -/
theorem C85_refuted_empty (sh : Show) (w : World) :
    (runW (Stat.status sh (some {}) "pipelines" false) w).1 = .error .valueError := rfl

end Props

end Tomato
