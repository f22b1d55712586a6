import Verif.Stores
import Verif.JobThread
import Verif.Props.Cmd
import Verif.Props.Stores

/-!
# C117: a job works with the configuration its pipeline was chosen for

The job manager asks the daemon for the configuration at the beginning of a pass (job.py:346-349), chooses
a pipeline for each job (job.py:362-377), and launches the jobs (job.py:401).  The process of the job asks the
daemon again, for the components of the pipeline (job.py:731-740).  `tomato reload` may come at any time;
it protects pipelines which have a job (cmd.py:94-157).
-/

namespace Tomato.Props

open Tomato.Stores

/-! ### What is kept -/

/-- The component that has the role. -/
def compOf (df : DeviceFile) (n role : String) : Option String :=
  (Dict.get? df.pipelines n).bind (fun p => Dict.get? p.components role)

/-- Where the component is: its driver, address and channel. -/
def hardwareOf (df : DeviceFile) (c : String) : Option (String × String × String) :=
  (Dict.get? df.components c).map (fun c => (c.driver, c.address, c.channel))

/-- A setting of the component's driver. -/
def settingOf (df : DeviceFile) (c k : String) : Option String :=
  ((Dict.get? df.components c).bind (fun c => Dict.get? df.drivers c.driver)).bind
    (fun dr => Dict.get? dr.settings k)

/-- The pipeline is the same in both configurations: the same components in the same roles, at the same
place, and driven with the same settings. -/
def KeptPip (old new : DeviceFile) (n : String) : Prop :=
  ((Dict.get? old.pipelines n).isSome ↔ (Dict.get? new.pipelines n).isSome) ∧
  ∀ role, compOf new n role = compOf old n role ∧
    ∀ c, compOf old n role = some c → hardwareOf new c = hardwareOf old c ∧
      ∀ k, settingOf new c k = settingOf old c k

theorem KeptPip.refl (df : DeviceFile) (n : String) : KeptPip df df n :=
  ⟨Iff.rfl, fun _ => ⟨rfl, fun _ _ => ⟨rfl, fun _ => rfl⟩⟩⟩

theorem KeptPip.symm {a b : DeviceFile} {n : String} (h : KeptPip a b n) : KeptPip b a n :=
  ⟨h.1.symm, fun role => ⟨(h.2 role).1.symm, fun c hc =>
    have h' := (h.2 role).2 c ((h.2 role).1 ▸ hc)
    ⟨h'.1.symm, fun k => (h'.2 k).symm⟩⟩⟩

theorem KeptPip.trans {a b c : DeviceFile} {n : String} (h : KeptPip a b n) (h' : KeptPip b c n) : KeptPip a c n :=
  ⟨h.1.trans h'.1, fun role => ⟨(h'.2 role).1.trans (h.2 role).1, fun x hx =>
    have h1 := (h.2 role).2 x hx
    have h2 := (h'.2 role).2 x ((h.2 role).1.trans hx)
    ⟨h2.1.trans h1.1, fun k => (h2.2 k).trans (h1.2 k)⟩⟩⟩

theorem mem_values_of_getItem {α : Type} {d : Dict String α} {k : String} {v : α}
    (h : Dict.get? d k = some v) : v ∈ Dict.values d := by
  induction d with
  | nil => cases h
  | cons x xs ih =>
    obtain ⟨a, b⟩ := x
    simp only [Dict.get?] at h
    split at h
    · cases h; simp [Dict.values]
    · exact List.mem_cons_of_mem _ (ih h)

theorem SamePipeline.kept {old new : DeviceFile} {n : String} (h : SamePipeline old new n) :
    KeptPip old new n := by
  obtain ⟨p, p', hp, hp', hr, hc⟩ := h
  refine ⟨by simp [hp, hp'], fun role => ⟨by simp [compOf, hp, hp', hr], fun c hcr => ?_⟩⟩
  simp only [compOf, hp, Option.bind_some] at hcr
  obtain ⟨x, x', dr, dr', h1, h2, h3, h4, h5, h6, h7, h8⟩ := hc c (mem_values_of_getItem hcr)
  refine ⟨by simp [hardwareOf, h1, h2, h3, h4, h5], fun k => ?_⟩
  simp only [settingOf, h1, h2, Option.bind_some, h3, h6, h7, h8]

/-! ### Executions -/

/-- In the daemon's database, the pipeline has the job. -/
def HasJob (s : SSys) (n : String) (j : Nat) : Prop :=
  ∃ ps ∈ (s.stores s.db).w.pips, ps.name = n ∧ ps.jobid = some j

/-- The configuration files which are read are ones that a device file may have (`C13`: the
pipelines have their names as keys), and the path of the database stays as it is (`C100`). -/
def FairAct (s : SSys) (a : SAct) (s' : SSys) : Prop :=
  s'.db = s.db ∧ ∀ x, a = .reload (some x) → NamesMatch x.2.2

/-- Executions during which the pipeline has the job all the time. -/
inductive Holding (stOf : String → String) (n : String) (j : Nat) : SSys → SSys → Prop
  | refl (s : SSys) : HasJob s n j → Holding stOf n j s s
  | tail {s s' s'' : SSys} (a : SAct) : Holding stOf n j s s' → sact stOf s' a = some s'' →
      FairAct s' a s'' → HasJob s'' n j → Holding stOf n j s s''

/-- Executions in which the job manager does not begin another pass. -/
inductive InPass (stOf : String → String) : SSys → SSys → Prop
  | refl (s : SSys) : InPass stOf s s
  | tail {s s' s'' : SSys} (a : SAct) : InPass stOf s s' → sact stOf s' a = some s'' →
      FairAct s' a s'' → (∀ p d, a ≠ .local p (.jmStart d)) → InPass stOf s s''

/-- Executions from the beginning. -/
inductive Fairly (stOf : String → String) : SSys → SSys → Prop
  | refl (s : SSys) : Fairly stOf s s
  | tail {s s' s'' : SSys} (a : SAct) : Fairly stOf s s' → sact stOf s' a = some s'' →
      FairAct s' a s'' → Fairly stOf s s''

theorem mergeDriverSettings_pipelines (s : Settings) (df : DeviceFile) :
    (mergeDriverSettings s df).pipelines = df.pipelines := rfl

/-- A reload which is not the first one makes the new daemon from the files, or keeps the old one. -/
theorem cmdReload_daemon {d : Daemon} (hd : d.status ≠ .bootstrap) {parsed : Option (Settings × DeviceFile)}
    {w : World} {rep : CReply} {d' : Daemon} (h : (runW (cmdReload d parsed) w).1 = .ok (rep, d')) :
    (rep.success = false ∧ d' = d) ∨
    ∃ s df, parsed = some (s, df) ∧ rep.success = true ∧ d' = Daemon.build d.status s df := by
  unfold cmdReload at h
  rw [if_neg hd] at h
  cases parsed with
  | none => cases h; exact .inl ⟨rfl, rfl⟩
  | some sd =>
    obtain ⟨s, df⟩ := sd
    simp only [runW, Prog.bind_eq, Prog.run_bind, Do.run_pipsWhere, exec_pipsWhere,
      Prog.andThen_ok] at h
    generalize hrp : w.pips.filter (fun p => p.jobid.isSome) = rp at h
    rcases hr1 : Prog.run exec (checkPipelines d.devicefile (Daemon.build d.status s df).devicefile rp []) w
      with ⟨r1, w1⟩
    rw [hr1] at h
    rcases r1 with e | (m | cs)
    · cases h
    · cases h; exact .inl ⟨rfl, rfl⟩
    · simp only [Prog.andThen_ok, Prog.run_bind] at h
      rcases hr2 : Prog.run exec (checkComponents d.devicefile (Daemon.build d.status s df).devicefile cs []) w1
        with ⟨r2, w2⟩
      rw [hr2] at h
      rcases r2 with e | (m | ds)
      · cases h
      · cases h; exact .inl ⟨rfl, rfl⟩
      · simp only [Prog.andThen_ok, Prog.run_bind] at h
        rcases hr3 : Prog.run exec (checkDrivers d.devicefile (Daemon.build d.status s df).devicefile ds) w2
          with ⟨r3, w3⟩
        rw [hr3] at h
        rcases r3 with e | (_ | m)
        · cases h
        · cases h; exact .inr ⟨s, df, rfl, rfl, rfl⟩
        · cases h; exact .inl ⟨rfl, rfl⟩

/-- What a step does to the daemon. -/
theorem sact_daemon {stOf : String → String} {s s' : SSys} {a : SAct} (h : sact stOf s a = some s') :
    s'.daemon = s.daemon ∨
    ∃ parsed rep w, a = .reload parsed ∧ s.daemon.status = .running ∧
      runW (cmdReload s.daemon (parsed.map (·.2))) (s.stores s.db).w = (.ok (rep, s'.daemon), w) := by
  cases a with
  | «local» p a =>
    left
    simp only [sact] at h
    have hgo : ∀ x, (Tomato.act (stOf p) (s.stores p) a).map
        (fun t => { s with stores := put s.stores p t }) = some x → x.daemon = s.daemon := by
      intro x hx
      rw [Option.map_eq_some_iff] at hx
      obtain ⟨t, -, rfl⟩ := hx
      rfl
    cases a with
    | jmStart d =>
      simp only at h
      split at h
      · rw [Option.map_eq_some_iff] at h
        obtain ⟨x, hx, rfl⟩ := h
        exact hgo x hx
      · cases h
    | spawn c =>
      simp only at h
      split at h
      · exact hgo _ h
      · split at h
        · exact hgo _ h
        · cases h
    | _ => exact hgo _ h
  | setup p d =>
    left
    simp only [sact] at h
    split at h
    · rw [Option.map_eq_some_iff] at h
      obtain ⟨t, -, rfl⟩ := h
      rfl
    · cases h
  | reload parsed =>
    simp only [sact] at h
    split at h
    · next hr =>
      split at h
      · cases h
      · next r d' he =>
        cases h
        right
        refine ⟨parsed, r, _, rfl, hr, Prod.ext he rfl⟩
    · cases h

/-- The configuration stays one that may be read from files. -/
theorem sact_namesMatch {stOf : String → String} {s s' : SSys} {a : SAct} (h : sact stOf s a = some s')
    (hf : FairAct s a s') (hn : NamesMatch s.daemon.devicefile) : NamesMatch s'.daemon.devicefile := by
  rcases sact_daemon h with he | ⟨parsed, rep, w, rfl, hr, he⟩
  · rw [he]; exact hn
  · have he' : (runW (cmdReload s.daemon (parsed.map (·.2))) (s.stores s.db).w).1 = .ok (rep, s'.daemon) := by
      rw [he]
    rcases cmdReload_daemon (by rw [hr]; decide) he' with ⟨-, h'⟩ | ⟨st, df, hp, -, h'⟩
    · rw [h']; exact hn
    · cases parsed with
      | none => cases hp
      | some x =>
        have hx := hf.2 x rfl
        simp only [Option.map_some, Option.some.injEq] at hp
        rw [hp] at hx
        rw [h']
        exact hx

/-- One step, while the pipeline has a job. -/
theorem sact_kept {stOf : String → String} {s s' : SSys} {a : SAct} (h : sact stOf s a = some s')
    (hn : NamesMatch s.daemon.devicefile) {n : String} {j : Nat} (hj : HasJob s n j) :
    KeptPip s.daemon.devicefile s'.daemon.devicefile n := by
  rcases sact_daemon h with he | ⟨parsed, rep, w, rfl, hr, he⟩
  · rw [he]; exact KeptPip.refl _ _
  · obtain ⟨-, h1, h2⟩ := C27_reload_protects_running _ _ _ (by rw [hr]; decide) hn _ _ _ he
    cases hs : rep.success with
    | false => rw [h1 hs]; exact KeptPip.refl _ _
    | true =>
      obtain ⟨ps, hps, rfl, hpj⟩ := hj
      exact (h2 hs ps hps (by rw [hpj]; rfl)).kept

theorem Fairly.namesMatch {stOf : String → String} {s s' : SSys} (h : Fairly stOf s s')
    (hn : NamesMatch s.daemon.devicefile) : NamesMatch s'.daemon.devicefile := by
  induction h with
  | refl => exact hn
  | tail a _ h hf ih => exact sact_namesMatch h hf ih

theorem InPass.fairly {stOf : String → String} {s s' : SSys} (h : InPass stOf s s') : Fairly stOf s s' := by
  induction h with
  | refl => exact .refl _
  | tail a _ h hf _ ih => exact .tail a ih h hf

theorem Fairly.trans {stOf : String → String} {a b c : SSys} (h1 : Fairly stOf a b)
    (h2 : Fairly stOf b c) : Fairly stOf a c := by
  induction h2 with
  | refl => exact h1
  | tail x _ h hf ih => exact .tail x ih h hf

theorem Holding.fairly {stOf : String → String} {n : String} {j : Nat} {s s' : SSys}
    (h : Holding stOf n j s s') : Fairly stOf s s' := by
  induction h with
  | refl => exact .refl _
  | tail a _ h hf _ ih => exact .tail a ih h hf

/-- **C117** (the part after the assignment): as long as the pipeline has the job, whatever happens and
whatever is reloaded, the pipeline stays as it is in the configuration. -/
theorem C117_held {stOf : String → String} {n : String} {j : Nat} {s s' : SSys}
    (hn : NamesMatch s.daemon.devicefile) (h : Holding stOf n j s s') :
    KeptPip s.daemon.devicefile s'.daemon.devicefile n := by
  induction h with
  | refl => exact KeptPip.refl _ _
  | tail a hh ha hf _ ih =>
    refine ih.trans (sact_kept ha (hh.fairly.namesMatch hn) (j := j) ?_)
    cases hh with
    | refl h => exact h
    | tail _ _ _ _ h => exact h

/-! ### Where the job came from -/

theorem op_ne_self {S : Sig} {α : Type} (p : Prog S α) : ∀ (o : S.Op) k r, p = .op o k → k r ≠ p := by
  induction p with
  | pure a => intro o k r h; cases h
  | raise e => intro o k r h; cases h
  | op o' k' ih =>
    intro o k r h
    cases h
    intro h
    exact ih r _ _ r h rfl

/-- Nobody but the job manager gives a job to a pipeline. -/
theorem noAssign_unless_jmStep {st : String} {s s' : Sys} (hr : Reachable st s) {a : Act}
    (h : Tomato.act st s a = some s') (ha : a ≠ .jmStep) : NoAssign s.w s'.w := by
  obtain ⟨h1, h2, -⟩ := sInv_engine hr
  rcases (step_cases h1 ⟨a, h⟩).2 with ⟨o, k, hk, hk', hw⟩ | ⟨hos, -⟩ | ⟨hw, -⟩
  · cases a with
    | jmStep => exact absurd rfl ha
    | jmStart d =>
      simp only [Tomato.act] at h
      split at h
      · cases h; exact noAssign_of_pips rfl
      · cases h
    | jmKill => cases h; exact noAssign_of_pips rfl
    | spawn c =>
      simp only [Tomato.act] at h
      split at h
      · cases h; exact noAssign_of_pips rfl
      · split at h
        · cases h; exact noAssign_of_pips rfl
        · cases h
    | step i =>
      simp only [Tomato.act] at h
      split at h
      · cases h
      · split at h
        · cases h; exact absurd (hk'.symm.trans rfl) (op_ne_self s.jm o k _ hk)
        · cases h
    | kill i => cases h; exact noAssign_of_pips rfl
    | env e => cases h; exact absurd (hk'.symm.trans rfl) (op_ne_self s.jm o k _ hk)
  · exact (sRely_other _ _ h2 hos).1.2.1
  · exact noAssign_of_pips (by rw [hw])

theorem Fairly.keeps {stOf : String → String} {s s' : SSys} (h : Fairly stOf s s') : SStepsK stOf s s' := by
  induction h with
  | refl => exact .refl _
  | tail a _ h hf ih => exact .tail a ih h hf.1

/-- A pass of the job manager is under way, begun with the configuration of the daemon `d`. -/
def Pass (stOf : String → String) (s0 : SSys) (d : Daemon) (s : SSys) : Prop :=
  ∃ a b p, Fairly stOf s0 a ∧ sact stOf a (.local p (.jmStart d)) = some b ∧ FairAct a (.local p (.jmStart d)) b ∧
    d = a.daemon ∧ InPass stOf b s

/-- The pipeline has got the job in a pass begun with the configuration of the daemon `d`, in the step from
`b` to `c`, and has had it since. -/
def GotIn (stOf : String → String) (s0 : SSys) (n : String) (j : Nat) (d : Daemon) (b c s : SSys) : Prop :=
  Pass stOf s0 d b ∧ sact stOf b (.local b.db .jmStep) = some c ∧ c.db = b.db ∧ ¬ HasJob b n j ∧
    Holding stOf n j c s

theorem jmStep_ended {st : String} {t t' : Sys} (h : Tomato.act st t .jmStep = some t') :
    t.jm.ended = false := by
  simp only [Tomato.act] at h
  cases hj : t.jm with
  | pure x => rw [hj] at h; cases h
  | raise e => rw [hj] at h; cases h
  | op o k => rfl

/-- While a program of the job manager is at work, a pass is under way. -/
theorem pass_of_working {stOf : String → String} {d0 : Daemon} {p0 : String} {s : SSys}
    (h : Fairly stOf (SSys.start d0 p0) s) (q : String) (hq : (s.stores q).jm.ended = false) :
    ∃ d, Pass stOf (SSys.start d0 p0) d s := by
  induction h with
  | refl => cases hq
  | @tail s1 s2 a hh ha hf ih =>
    by_cases hst : ∃ p d, a = .local p (.jmStart d)
    · obtain ⟨p, d, rfl⟩ := hst
      refine ⟨d, s1, s2, p, hh, ha, hf, ?_, .refl _⟩
      simp only [sact] at ha
      split at ha
      · next hc => exact hc.2.1
      · cases ha
    · have hst' : ∀ p d, a ≠ .local p (.jmStart d) := fun p d e => hst ⟨p, d, e⟩
      have hq1 : (s1.stores q).jm.ended = false := by
        rcases sact_store ha with he | ⟨r, b, t, hb, ht, he⟩
        · rw [← he]; exact hq
        · rw [he] at hq
          unfold put at hq
          split at hq
          · next hr =>
            subst hr
            cases b with
            | jmStart d =>
              rcases hb with rfl | ⟨d', -, -, hb⟩
              · exact absurd rfl (hst' q d)
              · cases hb
            | jmStep => exact jmStep_ended ht
            | jmKill => cases ht; cases hq
            | spawn c =>
              simp only [Tomato.act] at ht
              split at ht
              · cases ht; exact hq
              · split at ht
                · cases ht; exact hq
                · cases ht
            | step i =>
              simp only [Tomato.act] at ht
              split at ht
              · cases ht
              · split at ht
                · cases ht; exact hq
                · cases ht
            | kill i => cases ht; exact hq
            | env e => cases ht; exact hq
          · exact hq
      obtain ⟨d, x, y, p, h1, h2, h3, h4, h5⟩ := ih hq1
      exact ⟨d, x, y, p, h1, h2, h3, h4, .tail a h5 ha hf hst'⟩

/-- Every job that a pipeline has was given to it by the job manager, in a pass. -/
theorem C117_origin {stOf : String → String} {d0 : Daemon} {p0 : String} {s : SSys}
    (h : Fairly stOf (SSys.start d0 p0) s) {n : String} {j : Nat} (hj : HasJob s n j) :
    ∃ d b c, GotIn stOf (SSys.start d0 p0) n j d b c s := by
  induction h with
  | refl => obtain ⟨ps, hps, -⟩ := hj; cases hps
  | @tail s1 s2 a hh ha hf ih =>
    by_cases h1 : HasJob s1 n j
    · obtain ⟨d, b, c, g1, g2, g3, g4, g5⟩ := ih h1
      exact ⟨d, b, c, g1, g2, g3, g4, .tail a g5 ha hf hj⟩
    · obtain ⟨ps, hps, hpn, hpj⟩ := hj
      have hdb := hf.1
      rcases sact_store ha with he | ⟨r, b, t, hb, ht, he⟩
      · exact absurd ⟨ps, by rw [← he, ← hdb]; exact hps, hpn, hpj⟩ h1
      · have hpt : ps ∈ (if s2.db = r then t else s1.stores s2.db).w.pips := by
          rw [he] at hps; exact hps
        split at hpt
        · next hr =>
          by_cases hbs : b = .jmStep
          · subst hbs
            rcases hb with rfl | ⟨d', -, -, hb⟩
            · obtain ⟨d, hp⟩ := pass_of_working hh r (jmStep_ended ht)
              have : r = s1.db := by rw [← hr, hdb]
              subst this
              exact ⟨d, s1, s2, hp, ha, hdb, h1, .refl _ ⟨ps, hps, hpn, hpj⟩⟩
            · cases hb
          · have hna := noAssign_unless_jmStep (C100_each hh.keeps.weaken r) ht hbs
            obtain ⟨q, hq, hqn, hqj⟩ := hna ps hpt j hpj
            exact absurd ⟨q, by rw [← hdb, hr]; exact hq, hqn.trans hpn, hqj⟩ h1
        · exact absurd ⟨ps, by rw [← hdb]; exact hpt, hpn, hpj⟩ h1

/-! ### The claim -/

/-- The configuration for which a pipeline was chosen, and the one a job finds, agree on the pipeline
exactly if no reload came between the beginning of the pass and the assignment that changed the
pipeline. -/
theorem C117_exact {stOf : String → String} {d0 : Daemon} {p0 : String} (hn : NamesMatch d0.devicefile)
    {s b c : SSys} {n : String} {j : Nat} {d : Daemon}
    (h : GotIn stOf (SSys.start d0 p0) n j d b c s) :
    KeptPip d.devicefile s.daemon.devicefile n ↔ KeptPip d.devicefile b.daemon.devicefile n := by
  obtain ⟨⟨x, y, p, h1, h2, h3, h4, h5⟩, h6, h7, h8, h9⟩ := h
  have hb : NamesMatch b.daemon.devicefile :=
    ((h1.trans (.tail _ (.refl _) h2 h3)).trans h5.fairly).namesMatch hn
  have hcb : c.daemon = b.daemon := by
    rcases sact_daemon h6 with h | ⟨_, _, _, h, _⟩
    · exact h
    · cases h
  have := C117_held (hcb ▸ hb) h9
  rw [hcb] at this
  exact ⟨fun h => h.trans this.symm, fun h => h.trans this⟩

/-- **C117** (`_partial`: unless the configuration was changed between the beginning of the pass and the
assignment, see `C117_refuted`): if a pipeline has a job, then in the present configuration the pipeline is the
one that the job manager has chosen for the job. -/
theorem C117_partial {stOf : String → String} {d0 : Daemon} {p0 : String} (hn : NamesMatch d0.devicefile)
    {s : SSys} (h : Fairly stOf (SSys.start d0 p0) s) {n : String} {j : Nat} (hj : HasJob s n j) :
    ∃ d b c, GotIn stOf (SSys.start d0 p0) n j d b c s ∧
      (b.daemon = d → KeptPip d.devicefile s.daemon.devicefile n) := by
  obtain ⟨d, b, c, hg⟩ := C117_origin h hj
  exact ⟨d, b, c, hg, fun e => (C117_exact hn hg).mpr (by rw [e]; exact KeptPip.refl _ _)⟩

theorem getItem_of_mem {d : Dict String String} (hd : (Dict.keys d).Nodup) {k v : String} (h : (k, v) ∈ d) :
    Dict.get? d k = some v := by
  induction d with
  | nil => cases h
  | cons x xs ih =>
    obtain ⟨a, b⟩ := x
    simp only [Dict.keys, List.map_cons, List.nodup_cons] at hd
    rcases List.mem_cons.mp h with h | h
    · cases h; simp [Dict.get?]
    · have : a ≠ k := fun e => hd.1 (List.mem_map.mpr ⟨_, h, e.symm⟩)
      simp only [Dict.get?]
      rw [if_neg this]
      exact ih hd.2 h

theorem mem_threads {df : DeviceFile} {getDrv : String → Option DrvState} {plan : Dict String (List Task)}
    {cs : List (String × String)} {t : JobT.Start} (h : t ∈ (JobT.threads df getDrv plan cs).1) :
    ∃ cname, (t.role, cname) ∈ cs ∧ Dict.get? df.components cname = some t.cmp := by
  induction cs with
  | nil => cases h
  | cons x xs ih =>
    obtain ⟨crole, cname⟩ := x
    simp only [JobT.threads] at h
    have key : t ∈ (JobT.threads df getDrv plan xs).1 →
        ∃ c, (t.role, c) ∈ (crole, cname) :: xs ∧ Dict.get? df.components c = some t.cmp := by
      intro h
      obtain ⟨c, h1, h2⟩ := ih h
      exact ⟨c, List.mem_cons_of_mem _ h1, h2⟩
    split at h
    · cases h
    · next cmp hcmp =>
      split at h
      · exact key h
      · split at h
        · cases h
        · split at h
          · cases h
          · split at h
            · cases h
            · rcases List.mem_cons.mp h with h | h
              · cases h; exact ⟨cname, List.mem_cons_self, hcmp⟩
              · exact key h

/-- With C117, the threads of the job drive the components for which the job was matched: if the pipeline
`pl` (given to the job process at its launch) was kept, then each thread drives the piece of hardware which had
this role in the configuration of the pass. -/
theorem C117_threads {old new : DeviceFile} {n : String} (hk : KeptPip old new n) {pl : Pipeline}
    (hp : Dict.get? old.pipelines n = some pl) (hnd : (Dict.keys pl.components).Nodup)
    (getDrv : String → Option DrvState) (plan : Dict String (List Task)) :
    ∀ t ∈ (JobT.threads new getDrv plan pl.components).1,
      ∃ cname c, Dict.get? pl.components t.role = some cname ∧ Dict.get? old.components cname = some c ∧
        t.cmp.driver = c.driver ∧ t.cmp.address = c.address ∧ t.cmp.channel = c.channel := by
  intro t ht
  obtain ⟨cname, h1, h2⟩ := mem_threads ht
  have h3 := getItem_of_mem hnd h1
  have h4 := ((hk.2 t.role).2 cname (by simp [compOf, hp, h3])).1
  simp only [hardwareOf, h2, Option.map_some] at h4
  cases h5 : Dict.get? old.components cname with
  | none => rw [h5] at h4; cases h4
  | some c =>
    rw [h5] at h4
    simp only [Option.map_some, Option.some.injEq, Prod.mk.injEq] at h4
    exact ⟨cname, c, h3, h5, h4.1, h4.2.1, h4.2.2⟩

/-! ### Witnesses -/

/-- Not a reload. -/
def noReload : SAct → Bool
  | .reload _ => false
  | _ => true

/-- Neither a reload nor the beginning of a pass. -/
def midPass : SAct → Bool
  | .reload _ => false
  | .local _ (.jmStart _) => false
  | _ => true

theorem fairly_of_sactsK {stOf : String → String} {s s' : SSys} {as : List SAct}
    (h : sactsK stOf s as = some s') (hn : as.all noReload = true) : Fairly stOf s s' := by
  induction as generalizing s with
  | nil => cases h; exact .refl _
  | cons a as ih =>
    rw [List.all_cons, Bool.and_eq_true] at hn
    simp only [sactsK] at h
    split at h
    · next s1 h1 =>
      split at h
      · next hk =>
        exact Fairly.trans (.tail a (.refl _) h1 ⟨hk, by rintro x rfl; cases hn.1⟩) (ih h hn.2)
      · cases h
    · cases h

theorem InPass.trans {stOf : String → String} {a b c : SSys} (h1 : InPass stOf a b)
    (h2 : InPass stOf b c) : InPass stOf a c := by
  induction h2 with
  | refl => exact h1
  | tail x _ h hf hx ih => exact .tail x ih h hf hx

theorem inPass_of_sactsK {stOf : String → String} {s s' : SSys} {as : List SAct}
    (h : sactsK stOf s as = some s') (hn : as.all midPass = true) : InPass stOf s s' := by
  induction as generalizing s with
  | nil => cases h; exact .refl _
  | cons a as ih =>
    rw [List.all_cons, Bool.and_eq_true] at hn
    simp only [sactsK] at h
    split at h
    · next s1 h1 =>
      split at h
      · next hk =>
        refine InPass.trans (.tail a (.refl _) h1 ⟨hk, by rintro x rfl; cases hn.1⟩ ?_) (ih h hn.2)
        rintro p d rfl
        cases hn.1
      · cases h
    · cases h

/-- The pipeline has the job, computed. -/
def hasJob (s : SSys) (n : String) (j : Nat) : Bool :=
  (s.stores s.db).w.pips.any (fun p => p.name = n && p.jobid = some j)

theorem hasJob_iff {s : SSys} {n : String} {j : Nat} : hasJob s n j = true ↔ HasJob s n j := by
  simp [hasJob, HasJob]

/-- Execute a list of actions during which the pipeline has the job. -/
def sactsHold (stOf : String → String) (n : String) (j : Nat) : SSys → List SAct → Option SSys
  | s, [] => if hasJob s n j then some s else none
  | s, a :: as =>
    if hasJob s n j then
      match sact stOf s a with
      | some s' => if s'.db = s.db then sactsHold stOf n j s' as else none
      | none => none
    else none

theorem Holding.trans {stOf : String → String} {n : String} {j : Nat} {a b c : SSys}
    (h1 : Holding stOf n j a b) (h2 : Holding stOf n j b c) : Holding stOf n j a c := by
  induction h2 with
  | refl => exact h1
  | tail x _ h hf hx ih => exact .tail x ih h hf hx

theorem holding_of_sactsHold {stOf : String → String} {n : String} {j : Nat} {s s' : SSys} {as : List SAct}
    (h : sactsHold stOf n j s as = some s') (hn : as.all noReload = true) : Holding stOf n j s s' := by
  have key : ∀ (s s' : SSys) (as : List SAct), sactsHold stOf n j s as = some s' → HasJob s n j := by
    intro s s' as h
    cases as with
    | nil =>
      simp only [sactsHold] at h
      split at h
      · next hh => exact hasJob_iff.mp hh
      · cases h
    | cons a as =>
      simp only [sactsHold] at h
      split at h
      · next hh => exact hasJob_iff.mp hh
      · cases h
  induction as generalizing s with
  | nil =>
    have := key _ _ _ h
    simp only [sactsHold] at h
    split at h
    · cases h; exact .refl _ this
    · cases h
  | cons a as ih =>
    have h0 := key _ _ _ h
    rw [List.all_cons, Bool.and_eq_true] at hn
    simp only [sactsHold] at h
    split at h
    · split at h
      · next s1 h1 =>
        split at h
        · next hk =>
          exact Holding.trans (.tail a (.refl _ h0) h1 ⟨hk, by rintro x rfl; cases hn.1⟩ (key _ _ _ h))
            (ih h hn.2)
        · cases h
      · cases h
    · cases h

/-- Everything up to the submission of the job. -/
def beforePass : List SAct :=
  [.setup "A.sqlite" dBoot] ++ (setup.tail : List Act).map (.local "A.sqlite")

/-- The job manager does `k` operations. -/
def jmk (k : Nat) : List SAct := (jm k).map (.local "A.sqlite")

/-- The new configuration has only the pipeline `q`. -/
def dfQ : DeviceFile :=
  { components := [("d:(a,2)", ⟨"d:(a,2)", "dev", "d", "a", "2"⟩)],
    devices := [("dev", { name := "dev", driver := "d", address := "a", channels := ["2"] })],
    drivers := [("d", { name := "d" })],
    pipelines := [("q", ⟨"q", [("x", "d:(a,2)")]⟩)] }

theorem namesMatch_dfQ : NamesMatch dfQ := by
  intro k p h
  simp only [dfQ, Dict.get?] at h
  split at h
  · next e => cases h; exact e
  · cases h

theorem namesMatch_dfS : NamesMatch dfS := by
  intro k p h
  simp only [dfS, Dict.get?] at h
  split at h
  · next e => cases h; exact e
  · split at h
    · next e => cases h; exact e
    · cases h

/-- **C117** is violated: the job manager has begun a pass, and then the configuration is reloaded, in which
the pipeline `p` is no longer present.  The reload succeeds as the pipeline has no job.  The pass goes on with
the old configuration: it gives the pipeline to job 1 and launches the job.  Now the process of the job
ends with an exception, as there is no such component; after this the pipeline manager ends
with an exception, too, and so does the daemon, at any reload whatsoever of configuration files. -/
theorem C117_refuted : ∃ d b c s, GotIn folders (SSys.start dRun "A.sqlite") "p" 1 d b c s ∧
    NamesMatch dRun.devicefile ∧ HasJob s "p" 1 ∧ (s.stores s.db).w.launches = [⟨1, "p"⟩] ∧
    ¬ KeptPip d.devicefile s.daemon.devicefile "p" ∧
    (∃ pl, Dict.get? d.devicefile.pipelines "p" = some pl ∧ ∀ getDrv plan,
      JobT.threads s.daemon.devicefile getDrv plan pl.components = ([], some .keyError)) ∧
    (∀ x, (runW (cmdReload s.daemon (some x)) (s.stores s.db).w).1 = .error .keyError) ∧
    (∀ pid, let w := (runW (jobConnect 1 pid) (s.stores s.db).w).2
      w.hasPid pid = false →
      (runW (pipManagerPass s.daemon) w).1 = .error .keyError) := by
  have h0 : (sactsK folders (SSys.start dRun "A.sqlite") beforePass).isSome = true := rfl
  obtain ⟨a, ha⟩ := Option.isSome_iff_exists.mp h0
  have h1 : (sactsK folders a [.local "A.sqlite" (.jmStart dRun)]).isSome = true := by cases ha; rfl
  obtain ⟨b0, hb0⟩ := Option.isSome_iff_exists.mp h1
  have h2 : (sactsK folders b0 (jmk 15)).isSome = true := by cases ha; cases hb0; rfl
  obtain ⟨b1, hb1⟩ := Option.isSome_iff_exists.mp h2
  have h3 : (sactsK folders b1 [.reload (some ("A.sqlite", {}, dfQ))]).isSome = true := by
    cases ha; cases hb0; cases hb1; rfl
  obtain ⟨b, hb⟩ := Option.isSome_iff_exists.mp h3
  have h4 : (sactsK folders b (jmk 1)).isSome = true := by cases ha; cases hb0; cases hb1; cases hb; rfl
  obtain ⟨c, hc⟩ := Option.isSome_iff_exists.mp h4
  have h5 : (sactsHold folders "p" 1 c (jmk 5)).isSome = true := by
    cases ha; cases hb0; cases hb1; cases hb; cases hc; rfl
  obtain ⟨s, hs⟩ := Option.isSome_iff_exists.mp h5
  refine ⟨dRun, b, c, s, ?_, namesMatch_dfS, ?_, ?_, ?_, ?_, ?_, ?_⟩
  · have e1 : sact folders a (.local "A.sqlite" (.jmStart dRun)) = some b0 := by
      cases ha; cases hb0; rfl
    have e2 : sact folders b1 (.reload (some ("A.sqlite", {}, dfQ))) = some b := by
      cases ha; cases hb0; cases hb1; cases hb; rfl
    have e3 : sact folders b (.local b.db .jmStep) = some c := by
      cases ha; cases hb0; cases hb1; cases hb; cases hc; rfl
    refine ⟨⟨a, b0, "A.sqlite", fairly_of_sactsK ha rfl, e1, ⟨?_, by rintro x ⟨⟩⟩, ?_, ?_⟩, e3, ?_, ?_,
      holding_of_sactsHold hs rfl⟩
    · cases ha; cases hb0; rfl
    · cases ha; rfl
    · refine InPass.tail _ (inPass_of_sactsK hb1 rfl) e2 ⟨?_, ?_⟩ (by rintro p d ⟨⟩)
      · cases ha; cases hb0; cases hb1; cases hb; rfl
      · rintro x hx; cases hx; exact namesMatch_dfQ
    · cases ha; cases hb0; cases hb1; cases hb; cases hc; rfl
    · rw [← hasJob_iff]; cases ha; cases hb0; cases hb1; cases hb; decide +kernel
  · rw [← hasJob_iff]; cases ha; cases hb0; cases hb1; cases hb; cases hc; cases hs; rfl
  · cases ha; cases hb0; cases hb1; cases hb; cases hc; cases hs; rfl
  · intro hk
    have : s.daemon.devicefile = dfQ := by
      cases ha; cases hb0; cases hb1; cases hb; cases hc; cases hs; rfl
    rw [this] at hk
    exact absurd (hk.1.mp rfl) (by decide)
  · refine ⟨_, rfl, fun getDrv plan => ?_⟩
    cases ha; cases hb0; cases hb1; cases hb; cases hc; cases hs; rfl
  · rintro ⟨x, y⟩
    cases ha; cases hb0; cases hb1; cases hb; cases hc; cases hs; rfl
  · intro pid
    cases ha; cases hb0; cases hb1; cases hb; cases hc; cases hs
    intro w _
    rfl

/-- A configuration in which the pipeline `q` is gone, while `p` is as before. -/
def dfP : DeviceFile :=
  { components := [("d:(a,1)", ⟨"d:(a,1)", "dev", "d", "a", "1"⟩)],
    devices := [("dev", { name := "dev", driver := "d", address := "a", channels := ["1"] })],
    drivers := [("d", { name := "d" })],
    pipelines := [("p", ⟨"p", [("x", "d:(a,1)")]⟩)] }

theorem namesMatch_dfP : NamesMatch dfP := by
  intro k p h
  simp only [dfP, Dict.get?] at h
  split at h
  · next e => cases h; exact e
  · cases h

/-- For example: job 1 is launched on the pipeline `p`, then the other pipeline is removed.  (With
`C117_exact` and `C117_partial`.) -/
example : ∃ d b c s, GotIn folders (SSys.start dRun "A.sqlite") "p" 1 d b c s ∧ b.daemon = d ∧
    d.devicefile = dfS ∧ s.daemon.devicefile = dfP ∧ KeptPip dfS dfP "p" ∧ ¬ KeptPip dfS dfP "q" := by
  have h0 : (sactsK folders (SSys.start dRun "A.sqlite") beforePass).isSome = true := rfl
  obtain ⟨a, ha⟩ := Option.isSome_iff_exists.mp h0
  have h1 : (sactsK folders a [.local "A.sqlite" (.jmStart dRun)]).isSome = true := by cases ha; rfl
  obtain ⟨b0, hb0⟩ := Option.isSome_iff_exists.mp h1
  have h2 : (sactsK folders b0 (jmk 15)).isSome = true := by cases ha; cases hb0; rfl
  obtain ⟨b, hb⟩ := Option.isSome_iff_exists.mp h2
  have h4 : (sactsK folders b (jmk 1)).isSome = true := by cases ha; cases hb0; cases hb; rfl
  obtain ⟨c, hc⟩ := Option.isSome_iff_exists.mp h4
  have h5 : (sactsHold folders "p" 1 c (jmk 5)).isSome = true := by
    cases ha; cases hb0; cases hb; cases hc; rfl
  obtain ⟨s1, hs1⟩ := Option.isSome_iff_exists.mp h5
  have h6 : (sact folders s1 (.reload (some ("A.sqlite", {}, dfP)))).isSome = true := by
    cases ha; cases hb0; cases hb; cases hc; cases hs1; rfl
  obtain ⟨s, hs⟩ := Option.isSome_iff_exists.mp h6
  have hg : GotIn folders (SSys.start dRun "A.sqlite") "p" 1 dRun b c s := by
    have e1 : sact folders a (.local "A.sqlite" (.jmStart dRun)) = some b0 := by
      cases ha; cases hb0; rfl
    have e3 : sact folders b (.local b.db .jmStep) = some c := by
      cases ha; cases hb0; cases hb; cases hc; rfl
    refine ⟨⟨a, b0, "A.sqlite", fairly_of_sactsK ha rfl, e1, ⟨?_, by rintro x ⟨⟩⟩, ?_,
      inPass_of_sactsK hb rfl⟩, e3, ?_, ?_, Holding.tail _ (holding_of_sactsHold hs1 rfl) hs ⟨?_, ?_⟩ ?_⟩
    · cases ha; cases hb0; rfl
    · cases ha; rfl
    · cases ha; cases hb0; cases hb; cases hc; rfl
    · rw [← hasJob_iff]; cases ha; cases hb0; cases hb; decide +kernel
    · cases ha; cases hb0; cases hb; cases hc; cases hs1; cases hs; rfl
    · rintro x hx; cases hx; exact namesMatch_dfP
    · rw [← hasJob_iff]; cases ha; cases hb0; cases hb; cases hc; cases hs1; cases hs; rfl
  have hbd : b.daemon = dRun := by cases ha; cases hb0; cases hb; rfl
  have hsd : s.daemon.devicefile = dfP := by
    cases ha; cases hb0; cases hb; cases hc; cases hs1; cases hs; rfl
  refine ⟨dRun, b, c, s, hg, hbd, rfl, hsd, ?_, ?_⟩
  · have := (C117_exact namesMatch_dfS hg).mpr (by rw [hbd]; exact KeptPip.refl _ _)
    rw [hsd] at this
    exact this
  · intro hk
    exact absurd (hk.1.mp rfl) (by decide)

/-- The threads of this job. -/
example : (JobT.threads dfP (fun _ => some { name := "d", port := some 5000 }) [("x", [])]
      [("x", "d:(a,1)")]).1.map (fun t => (t.role, t.cmp.channel)) = [("x", "1")] := by decide +kernel

end Tomato.Props
