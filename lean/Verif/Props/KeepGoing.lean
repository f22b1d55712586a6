import Verif.Props.FirstCome
import Verif.Props.Supervision
import Mathlib.Data.List.Perm.Subperm

/-!
# C70: the daemon keeps scheduling (positive part)
-/

namespace Tomato

/-! ## Specification -/

/-- Nothing stands in the way of the job manager: the configuration is consistent, every driver in
use is on record with its port and answers to capability requests, no available pipeline has the
sample of a waiting job that has a folder already (one that has been launched but has not connected
yet, or an interrupted one), and jobs that are being cancelled can be ended. -/
structure Healthy (d : Daemon) (w : World) : Prop where
  config : ∀ pl ∈ Dict.values d.devicefile.pipelines, (Dict.get? d.devicefile.pipelines pl.name).isSome
  repositories : d.settings.repositories.isSome
  drivers : ∀ pl ∈ Dict.values d.devicefile.pipelines, ∀ c ∈ Dict.values pl.components,
    ∃ cmp row port, Dict.get? d.devicefile.components c = some cmp ∧ w.drv? cmp.driver = some row ∧
      row.port = some port ∧ (w.drv port (.capabilities cmp.address cmp.channel)).isSome
  folders : ∀ j ∈ w.jobs, j.status.queued = true → (d.settings.storage, j.id) ∈ w.jobDirs →
    ∀ p ∈ w.pips, p.jobid = none → p.ready = true → p.sampleid ≠ some j.payload.sample
  canEnd : ∀ j ∈ w.jobs, Props.CanEnd w j
  separate : Props.Separate w

/-- The driver of the component is on record and answers to this command in this way. -/
def AnswersNow (w : World) (cmp : Component) (c : DrvCmd) (ok : DrvReply → Prop) : Prop :=
  ∃ port, (∀ row ∈ w.drvs, row.name = cmp.driver → row.port = some port) ∧
    ∃ r, w.drv port c = some r ∧ ok r

/-- The pipeline of this name is suitable for the method. -/
def FitsNow (d : Daemon) (w : World) (method : List Task) (n : String) : Prop :=
  ∃ pl ∈ Dict.values d.devicefile.pipelines, pl.name = n ∧ ∀ t ∈ method,
    (∃ role c cmp, (role, c) ∈ pl.components ∧ Dict.get? d.devicefile.components c = some cmp ∧
      AnswersNow w cmp (.capabilities cmp.address cmp.channel)
        (fun r => r.success = true ∧ ∃ caps, r.data = some caps ∧ t.technique ∈ caps)) ∧
    (∃ c cmp, (t.role, c) ∈ pl.components ∧ Dict.get? d.devicefile.components c = some cmp ∧
      AnswersNow w cmp (.validate t cmp.address cmp.channel) (fun r => r.success = true))

/-- The waiting job has a suitable pipeline that is free, ready and has its sample. -/
def Chance (d : Daemon) (w : World) (id : Nat) : Prop :=
  ∃ job ∈ w.jobs, job.id = id ∧ job.status.queued = true ∧ ∃ n, FitsNow d w job.payload.method n ∧
    Available w n job.payload.sample

/-! ## Executions without exceptions -/

/-- The program, run alone, returns, and `Q` holds afterwards. -/
def Returns {α : Type} (p : P α) (w : World) (Q : α → World → Prop) : Prop :=
  ∃ a w', runW p w = (.ok a, w') ∧ Q a w'

theorem returns_bind {α β : Type} {p : P α} {f : α → P β} {w : World} {Q : α → World → Prop}
    {Q' : β → World → Prop} (hp : Returns p w Q) (hf : ∀ a w', Q a w' → Returns (f a) w' Q') :
    Returns (Prog.bind p f) w Q' := by
  obtain ⟨a, w', h1, h2⟩ := hp
  obtain ⟨b, w'', h3, h4⟩ := hf a w' h2
  refine ⟨b, w'', ?_, h4⟩
  simp only [runW] at h1 h3
  simp only [runW, Prog.run_bind, h1, Prog.andThen_ok, h3]

theorem returns_mono {α : Type} {p : P α} {w : World} {Q Q' : α → World → Prop} (hp : Returns p w Q)
    (hq : ∀ a w', Q a w' → Q' a w') : Returns p w Q' := by
  obtain ⟨a, w', h1, h2⟩ := hp
  exact ⟨a, w', h1, hq a w' h2⟩

theorem returns_pure {α : Type} {a : α} {w : World} {Q : α → World → Prop} (h : Q a w) :
    Returns (Prog.pure a) w Q := ⟨a, w, rfl, h⟩

theorem returns_call {o : Op} {w w' : World} {a : Resp o} {Q : Resp o → World → Prop}
    (h : exec o w = (.ok a, w')) (hq : Q a w') : Returns (Prog.call (S := DB) o) w Q := by
  refine ⟨a, w', ?_, hq⟩
  exact (Prog.run_call (S := DB) o w).trans h

/-- What does not change while the job manager looks for pipelines. -/
structure Keeps (w w' : World) : Prop where
  drvs : w'.drvs = w.drvs
  drv : w'.drv = w.drv
  jobDirs : w'.jobDirs = w.jobDirs
  pips : w'.pips = w.pips
  rows : ∀ id, (w'.job? id).map (·.payload) = (w.job? id).map (·.payload)

theorem Keeps.refl (w : World) : Keeps w w := ⟨rfl, rfl, rfl, rfl, fun _ => rfl⟩

theorem Keeps.trans {w w' w'' : World} (h : Keeps w w') (h' : Keeps w' w'') : Keeps w w'' :=
  ⟨h'.drvs.trans h.drvs, h'.drv.trans h.drv, h'.jobDirs.trans h.jobDirs, h'.pips.trans h.pips,
    fun id => (h'.rows id).trans (h.rows id)⟩

theorem Keeps.drv? {w w' : World} (h : Keeps w w') (n : String) : w'.drv? n = w.drv? n := by
  unfold World.drv?; rw [h.drvs]

/-- The drivers of these components can be asked. -/
def Askable (d : Daemon) (w : World) (cs : List String) : Prop :=
  ∀ c ∈ cs, ∃ cmp row port, Dict.get? d.devicefile.components c = some cmp ∧ w.drv? cmp.driver = some row ∧
    row.port = some port ∧ (w.drv port (.capabilities cmp.address cmp.channel)).isSome

theorem Askable.keeps {d : Daemon} {w w' : World} {cs : List String} (h : Askable d w cs) (hk : Keeps w w') :
    Askable d w' cs := by
  intro c hc
  obtain ⟨cmp, row, port, h1, h2, h3, h4⟩ := h c hc
  exact ⟨cmp, row, port, h1, by rw [hk.drv?]; exact h2, h3, by rw [hk.drv]; exact h4⟩

variable {d : Daemon}

theorem returns_validateTask (task : Task) (cs : Dict String String) (w : World)
    (hc : Askable d w (Dict.values cs)) :
    Returns (validateTask d task cs) w (fun _ w' => Keeps w w') := by
  induction cs generalizing w with
  | nil => exact returns_pure (.refl w)
  | cons kv rest ih =>
    obtain ⟨crole, cname⟩ := kv
    have hrest : Askable d w (Dict.values rest) := fun c h => hc c (List.mem_cons_of_mem _ h)
    unfold validateTask
    split
    · obtain ⟨cmp, row, port, h1, h2, h3, h4⟩ := hc cname (List.mem_cons_self ..)
      rw [h1]
      simp only
      refine returns_bind (Q := fun r w' => r = some row ∧ w' = w) (returns_call (a := some row) (w' := w) ?_ ⟨rfl, rfl⟩) ?_
      · rw [exec_getDrv, h2]
      · rintro _ _ ⟨h5, h6⟩
        rw [h5, h6]
        simp only
        refine returns_bind (Q := fun _ w' => Keeps w w') ?_ ?_
        · rw [h3]
          exact returns_call (w' := w.logSent port (.validate task cmp.address cmp.channel)) rfl ⟨rfl, rfl, rfl, rfl, fun _ => rfl⟩
        · intro r w' hk
          split
          · exact returns_pure hk
          · exact returns_mono (ih w' (hrest.keeps hk)) (fun _ _ h => hk.trans h)
    · exact ih w hrest

theorem returns_methodValidate (pip : Pipeline) (ts : List Task) (w : World)
    (hc : Askable d w (Dict.values pip.components)) :
    Returns (methodValidate d pip ts) w (fun _ w' => Keeps w w') := by
  induction ts generalizing w with
  | nil => exact returns_pure (.refl w)
  | cons t ts ih =>
    unfold methodValidate
    refine returns_bind (returns_validateTask t _ w hc) ?_
    intro b w' hk
    split
    · exact returns_mono (ih w' (hc.keeps hk)) (fun _ _ h => hk.trans h)
    · exact returns_pure hk

theorem returns_collectCapabs (cs caps : List String) (w : World) (hc : Askable d w cs) :
    Returns (collectCapabs d cs caps) w (fun _ w' => Keeps w w') := by
  induction cs generalizing caps w with
  | nil => exact returns_pure (.refl w)
  | cons c rest ih =>
    have hrest : Askable d w rest := fun c h => hc c (List.mem_cons_of_mem _ h)
    unfold collectCapabs
    obtain ⟨cmp, row, port, h1, h2, h3, h4⟩ := hc c (List.mem_cons_self ..)
    obtain ⟨r, hr⟩ := Option.isSome_iff_exists.mp h4
    rw [h1]
    simp only
    refine returns_bind (Q := fun r w' => r = some row ∧ w' = w) (returns_call (a := some row) (w' := w) ?_ ⟨rfl, rfl⟩) ?_
    · rw [exec_getDrv, h2]
    · rintro _ _ ⟨h5, h6⟩
      rw [h5, h6]
      simp only
      refine returns_bind (Q := fun _ w' => Keeps w w') ?_ ?_
      · rw [h3]
        refine returns_call (a := r) (w' := w.logSent port (.capabilities cmp.address cmp.channel)) ?_ ⟨rfl, rfl, rfl, rfl, fun _ => rfl⟩
        simp only [exec, hr]
      · intro r w' hk
        split
        · exact returns_mono (ih _ w' (hrest.keeps hk)) (fun _ _ h => hk.trans h)
        · exact returns_mono (ih _ w' (hrest.keeps hk)) (fun _ _ h => hk.trans h)

theorem returns_matchLoop (method : List Task) (ps : List Pipeline) (cands : List String) (w : World)
    (hc : ∀ pl ∈ ps, Askable d w (Dict.values pl.components)) :
    Returns (matchLoop d method ps cands) w (fun l w' => Keeps w w' ∧
      ∀ n ∈ l, n ∈ cands ∨ ∃ pl ∈ ps, pl.name = n) := by
  induction ps generalizing cands w with
  | nil => exact returns_pure ⟨.refl w, fun n hn => .inl hn⟩
  | cons pip rest ih =>
    have next : ∀ cands' w', Keeps w w' → (∀ n ∈ cands', n ∈ cands ∨ n = pip.name) →
        Returns (matchLoop d method rest cands') w' (fun l w' => Keeps w w' ∧
          ∀ n ∈ l, n ∈ cands ∨ ∃ pl ∈ pip :: rest, pl.name = n) := by
      intro cands' w' hk hc'
      refine returns_mono (ih cands' w' (fun pl hpl => (hc pl (List.mem_cons_of_mem _ hpl)).keeps hk)) ?_
      rintro l w'' ⟨h1, h2⟩
      refine ⟨hk.trans h1, fun n hn => ?_⟩
      rcases h2 n hn with h | ⟨pl, hpl, h⟩
      · rcases hc' n h with h | h
        · exact .inl h
        · exact .inr ⟨pip, by simp, h.symm⟩
      · exact .inr ⟨pl, List.mem_cons_of_mem _ hpl, h⟩
    unfold matchLoop
    split
    · refine returns_bind (returns_collectCapabs _ [] w (hc pip (by simp))) ?_
      intro capabs w' hk
      split
      · refine returns_bind (returns_methodValidate pip method w' ((hc pip (by simp)).keeps hk)) ?_
        intro b w'' hk'
        split
        · exact next _ _ (hk.trans hk') (by intro n hn; simpa using hn)
        · exact next _ _ (hk.trans hk') (fun n hn => .inl hn)
      · exact next _ _ hk (fun n hn => .inl hn)
    · exact next _ _ (.refl w) (fun n hn => .inl hn)

theorem Keeps.isSome {w w' : World} (h : Keeps w w') (id : Nat) : (w'.job? id).isSome = (w.job? id).isSome := by
  have := congrArg Option.isSome (h.rows id)
  simpa using this

theorem returns_updateJobId (id : Nat) (ps : List JobParam) (w : World) (h : (w.job? id).isSome) :
    Returns (updateJobId id ps) w (fun _ w' => w' = { w with jobs := updJobs id ps w.jobs }) := by
  obtain ⟨j, hj⟩ := Option.isSome_iff_exists.mp h
  refine ⟨applyJob j ps, _, ?_, rfl⟩
  rw [run_updateJobId, hj]

theorem rows_update (w : World) (id : Nat) (ps : List JobParam)
    (hps : ∀ j : Job, (applyJob j ps).payload = j.payload) (id' : Nat) :
    (World.job? { w with jobs := updJobs id ps w.jobs } id').map (·.payload) = (w.job? id').map (·.payload) := by
  rw [job?_update]
  cases w.job? id' with
  | none => rfl
  | some j =>
    simp only [Option.map_some, Option.some.injEq]
    split
    · exact hps j
    · rfl

/-- Every candidate is configured. -/
def Configured (d : Daemon) (m : Dict Nat (List String)) : Prop :=
  ∀ id ms, Dict.get? m id = some ms → ∀ n ∈ ms, (jobArgs d n).isSome

theorem returns_checkLoop (jobs : List Job) (m : Dict Nat (List String)) (w : World)
    (hcf : ∀ pl ∈ Dict.values d.devicefile.pipelines, (jobArgs d pl.name).isSome)
    (hc : ∀ pl ∈ Dict.values d.devicefile.pipelines, Askable d w (Dict.values pl.components))
    (hj : ∀ j ∈ jobs, (w.job? j.id).isSome) (hm : Configured d m) :
    Returns (checkLoop d jobs m) w (fun m' w' => Keeps w w' ∧ Configured d m' ∧
      ∀ id ∈ Dict.keys m', id ∈ Dict.keys m ∨ ∃ j ∈ jobs, j.id = id) := by
  induction jobs generalizing m w with
  | nil => exact returns_pure ⟨.refl w, hm, fun id h => .inl h⟩
  | cons job rest ih =>
    unfold checkLoop findMatching
    refine returns_bind (returns_matchLoop _ _ [] w hc) ?_
    rintro ms w1 ⟨hk, hms⟩
    have hm' : Configured d (Dict.set m job.id ms) := by
      intro id ms' hget n hn
      rw [Dict.get?_set] at hget
      split at hget
      · cases hget
        rcases hms n hn with h | ⟨pl, hpl, rfl⟩
        · cases h
        · exact hcf pl hpl
      · exact hm id ms' hget n hn
    have next : ∀ w', Keeps w w' → Returns (checkLoop d rest (Dict.set m job.id ms)) w' (fun m' w' =>
        Keeps w w' ∧ Configured d m' ∧ ∀ id ∈ Dict.keys m', id ∈ Dict.keys m ∨ ∃ j ∈ job :: rest, j.id = id) := by
      intro w' hk'
      refine returns_mono (ih _ w' (fun pl hpl => (hc pl hpl).keeps hk')
        (fun j hjm => by rw [hk'.isSome]; exact hj j (List.mem_cons_of_mem _ hjm)) hm') ?_
      rintro m' w'' ⟨h1, h2, h3⟩
      refine ⟨hk'.trans h1, h2, fun id hid => ?_⟩
      rcases h3 id hid with h | ⟨j, hjm, h⟩
      · rw [Dict.mem_keys_iff, Dict.get?_set] at h
        split at h
        · next hid => exact .inr ⟨job, by simp, hid⟩
        · exact .inl (Dict.mem_keys_iff.mpr h)
      · exact .inr ⟨j, List.mem_cons_of_mem _ hjm, h⟩
    split
    · refine returns_bind (returns_updateJobId job.id _ w1 (by rw [hk.isSome]; exact hj job (by simp))) ?_
      rintro _ w' rfl
      exact next _ (hk.trans ⟨rfl, rfl, rfl, rfl, rows_update _ _ _ (fun _ => rfl)⟩)
    · exact next _ hk

theorem returns_assignJob (job : Job) (ns : List String) (avail : Dict String PipState) (w : World)
    (hcf : ∀ n ∈ ns, (jobArgs d n).isSome)
    (hrow : (w.job? job.id).isSome)
    (hdir : (d.settings.storage, job.id) ∈ w.jobDirs → ∀ n ps, Dict.get? avail n = some ps →
      ps.ready = true → ps.sampleid ≠ some job.payload.sample) :
    Returns (assignJob d job.id job ns avail) w (fun a w' =>
      (∀ id, (w'.job? id).map (·.payload) = (w.job? id).map (·.payload)) ∧
      (∀ x ∈ w'.jobDirs, x ∈ w.jobDirs ∨ x = (d.settings.storage, job.id)) ∧
      ∀ n ps, Dict.get? a n = some ps → Dict.get? avail n = some ps) := by
  induction ns with
  | nil => exact returns_pure ⟨fun _ => rfl, fun x h => .inl h, fun _ _ h => h⟩
  | cons n ns ih =>
    have ih' := ih (fun n hn => hcf n (List.mem_cons_of_mem _ hn))
    unfold assignJob
    split
    · exact ih'
    · next ps hps =>
      split
      · exact ih'
      · next hsuit =>
        have hfree : (d.settings.storage, job.id) ∉ w.jobDirs := by
          intro hd
          rcases Bool.eq_false_or_eq_true ps.ready with hr | hr
          · exact hsuit (.inr (hdir hd n ps hps hr))
          · exact hsuit (.inl (by simp [hr]))
        refine returns_bind (Q := fun _ w' => w' = { w with jobDirs := (d.settings.storage, job.id) :: w.jobDirs }) ?_ ?_
        · refine returns_call (a := ()) ?_ rfl
          simp only [exec, hfree, if_false]
        · rintro _ _ rfl
          obtain ⟨pl, hpl⟩ := Option.isSome_iff_exists.mp (hcf n (by simp))
          rw [hpl]
          simp only
          refine returns_bind (Q := fun _ w' => w'.jobs = w.jobs ∧
            w'.jobDirs = (d.settings.storage, job.id) :: w.jobDirs) ⟨_, _, run_updatePip _ _ _, rfl, rfl⟩ ?_
          rintro _ w1 ⟨h1, h2⟩
          refine returns_bind (Q := fun _ w' => w'.jobs = w.jobs ∧
            w'.jobDirs = (d.settings.storage, job.id) :: w.jobDirs) (returns_call rfl ⟨h1, h2⟩) ?_
          rintro _ w2 ⟨h1, h2⟩
          refine returns_bind (Q := fun _ w' => w'.jobs = w.jobs ∧
            w'.jobDirs = (d.settings.storage, job.id) :: w.jobDirs) (returns_call rfl ⟨h1, h2⟩) ?_
          rintro now w3 ⟨h1, h2⟩
          have hrows : ∀ id, w3.job? id = w.job? id := by
            intro id; unfold World.job?; rw [h1]
          refine returns_bind (returns_updateJobId job.id _ w3 (by rw [hrows]; exact hrow)) ?_
          rintro _ _ rfl
          refine returns_pure ⟨?_, ?_, ?_⟩
          · intro id
            rw [rows_update w3 job.id _ (fun _ => rfl), hrows]
          · simp only
            rw [h2]
            intro x hx
            rcases List.mem_cons.mp hx with rfl | hx
            · exact .inr rfl
            · exact .inl hx
          · intro m ps' hm
            rw [Dict.get?_erase] at hm
            split at hm
            · cases hm
            · exact hm

theorem returns_actionLoop (matched : Dict Nat (List String)) (ids : List Nat) (avail : Dict String PipState)
    (w : World) (hnd : ids.Nodup) (hcf : Configured d matched) (hkeys : ∀ id ∈ ids, id ∈ Dict.keys matched)
    (hrow : ∀ id ∈ ids, (w.job? id).isSome)
    (hdir : ∀ id ∈ ids, (d.settings.storage, id) ∈ w.jobDirs → ∀ pl, (w.job? id).map (·.payload) = some pl →
      ∀ n ps, Dict.get? avail n = some ps → ps.ready = true → ps.sampleid ≠ some pl.sample) :
    Returns (actionLoop d matched ids avail) w (fun _ _ => True) := by
  induction ids generalizing avail w with
  | nil => exact returns_pure trivial
  | cons id ids ih =>
    rw [List.nodup_cons] at hnd
    obtain ⟨j, hj⟩ := Option.isSome_iff_exists.mp (hrow id (by simp))
    obtain ⟨ms, hms⟩ := Option.isSome_iff_exists.mp (Dict.mem_keys_iff.mp (hkeys id (by simp)))
    have hid := (job?_some hj).1
    subst hid
    unfold actionLoop
    refine returns_bind (Q := fun a w' => a = j ∧ w' = w) ⟨j, w, ?_, rfl, rfl⟩ ?_
    · rw [run_getJobId, hj]
    · rintro _ _ ⟨h5, h6⟩
      rw [h5, h6, hms]
      simp only
      refine returns_bind (returns_assignJob j ms avail w (hcf _ _ hms) (hrow _ (by simp))
        (fun hd => hdir _ (by simp) hd j.payload (by rw [hj]; rfl))) ?_
      rintro avail' w' ⟨h1, h2, h3⟩
      refine ih avail' w' hnd.2 (fun i hi => hkeys i (by simp [hi])) ?_ ?_
      · intro i hi
        have := congrArg Option.isSome (h1 i)
        simp only [Option.isSome_map] at this
        rw [this]
        exact hrow i (by simp [hi])
      · intro i hi hm pl hpl n ps hps
        rcases h2 _ hm with h | h
        · exact hdir i (by simp [hi]) h pl (by rw [← h1]; exact hpl) n ps (h3 n ps hps)
        · cases h
          exact absurd hi hnd.1

/-! ## Histories of runs alone -/

/-- The history of a program that runs alone. -/
def trace {α : Type} : P α → World → Past
  | .pure _, _ => []
  | .raise _, _ => []
  | .op o k, w => (w, o) :: trace (k (exec o w).1) (exec o w).2

theorem hsafe_trace {α : Type} {A : Past → Op → Prop} {Q : α → Past → Prop} {p : P α} {h : Past}
    (hp : HSafe A Q p h) (w : World) (a : α) (w' : World) (hr : runW p w = (.ok a, w')) :
    Q a (h ++ trace p w) := by
  induction p generalizing h w with
  | pure b =>
    simp only [runW, Prog.run] at hr
    cases hr
    rw [trace, List.append_nil]; exact hp
  | raise e => simp only [runW, Prog.run] at hr; cases hr
  | op o k ih =>
    have := ih _ (hp.2 w) (exec o w).2 hr
    rw [List.append_assoc] at this
    exact this

theorem trace_inv {α : Type} {T : Op → Prop} {I : World → Prop} {p : P α} {Q : α → Prop} (hp : Allow T Q p)
    (hI : ∀ o w, T o → I w → I (exec o w).2) (w : World) (hw : I w) : ∀ x ∈ trace p w, I x.1 := by
  induction p generalizing w with
  | pure b => intro x hx; cases hx
  | raise e => intro x hx; cases hx
  | op o k ih =>
    intro x hx
    rcases List.mem_cons.mp hx with rfl | hx
    · exact hw
    · exact ih _ (hp.2 w) _ (hI o w hp.1 hw) x hx

/-- The processes started. -/
def popened (h : Past) : List Launch :=
  h.filterMap (fun x => match x.2 with | .popenJob j n => some ⟨j, n⟩ | _ => none)

theorem run_popened {α : Type} (p : P α) (w : World) :
    (runW p w).2.launches = w.launches ++ popened (trace p w) := by
  induction p generalizing w with
  | pure b => simp [runW, Prog.run, trace, popened]
  | raise e => simp [runW, Prog.run, trace, popened]
  | op o k ih =>
    simp only [runW, Prog.run, trace]
    have := ih (exec o w).1 (exec o w).2
    simp only [runW] at this
    rw [this]
    rcases exec_launches o w with h | ⟨j, n, rfl, h⟩
    · have hno : popened ((w, o) :: trace (k (exec o w).1) (exec o w).2) =
          popened (trace (k (exec o w).1) (exec o w).2) := by
        cases o with
        | popenJob j n =>
          have h2 := congrArg List.length h
          simp [exec] at h2
        | _ => rfl
      rw [h, hno]
    · rw [h, List.append_assoc]
      rfl

theorem popened_append (h h' : Past) : popened (h ++ h') = popened h ++ popened h' := by
  simp [popened]

/-- The history has grown, every assignment has been followed by a launch. -/
def Paired (h h' : Past) : Prop := ∃ t, h' = h ++ t ∧ popened t = (assigned t).map (fun q => ⟨q.1, q.2⟩)

theorem Paired.trans {h h' h'' : Past} (h1 : Paired h h') (h2 : Paired h' h'') : Paired h h'' := by
  obtain ⟨t, rfl, ht⟩ := h1
  obtain ⟨t', rfl, ht'⟩ := h2
  exact ⟨t ++ t', by simp, by rw [popened_append, assigned_append, ht, ht', List.map_append]⟩

theorem hsafe_paired_only {α : Type} {p : Prog DB α}
    (hp : Prog.Only (S := DB) (fun o => (∀ n ps, o ≠ .updatePip n ps) ∧ ∀ j n, o ≠ .popenJob j n) p) (h : Past) :
    HSafe AnyA (fun _ h' => Paired h h') p h := by
  induction p generalizing h with
  | pure a => exact ⟨[], by simp, rfl⟩
  | raise e => trivial
  | op o k ih =>
    refine ⟨trivial, fun w => hsafe_mono (ih _ (hp.2 _) _) ?_⟩
    intro a h' hg
    refine Paired.trans ⟨[(w, o)], rfl, ?_⟩ hg
    have h1 : assignOf o = none := assignOf_none hp.1.1
    simp only [assigned, List.filterMap_cons, h1, List.filterMap_nil, List.map_nil]
    cases o with
    | popenJob j n => exact absurd rfl (hp.1.2 j n)
    | _ => rfl

theorem quiet_paired : ∀ o, QuietOp o → (∀ n ps, o ≠ .updatePip n ps) ∧ ∀ j n, o ≠ .popenJob j n := by
  intro o ho
  refine ⟨?_, ?_⟩ <;> (rintro _ _ rfl; cases ho)

theorem hsafe_paired_assignJob (jobid : Nat) (job : Job) (hid : job.id = jobid) (ns : List String) (avail : Dict String PipState) (h : Past) :
    HSafe AnyA (fun _ h' => Paired h h') (assignJob d jobid job ns avail) h := by
  induction ns generalizing h with
  | nil => exact ⟨[], by simp, rfl⟩
  | cons n ns ih =>
    subst hid
    unfold assignJob
    split
    · exact ih h
    · split
      · exact ih h
      · refine hsafe_bind (hsafe_paired_only (p := Do.makeJobDir d.settings.storage job.id)
          ((Do.only_makeJobDir _ _).mpr (by simp)) h) ?_
        intro _ h1 hp1
        split
        · trivial
        · refine hsafe_bind (Q := fun _ h' => ∃ w w', h' = h1 ++ [(w, .updatePip n [.jobid (some job.id), .ready false]), (w', .getPip n)]) ?_ ?_
          · unfold updatePip
            refine hsafe_bind (Q := fun _ h' => ∃ w, h' = h1 ++ [(w, .updatePip n [.jobid (some job.id), .ready false])]) ?_ ?_
            · exact hsafe_call trivial (fun w a _ => ⟨w, rfl⟩)
            · rintro _ _ ⟨w, rfl⟩
              exact hsafe_call trivial (fun w' a _ => ⟨w, w', by simp⟩)
          · rintro _ _ ⟨w, w', rfl⟩
            refine hsafe_bind (Q := fun _ h' => Paired h1 h') (hsafe_call trivial ?_) ?_
            · intro w'' _ _
              exact ⟨[(w, .updatePip n [.jobid (some job.id), .ready false]), (w', .getPip n), (w'', .popenJob job.id n)],
                by simp, rfl⟩
            · intro _ h2 hp2
              have hlast : Prog.Only (S := DB) (fun o => (∀ n ps, o ≠ .updatePip n ps) ∧ ∀ j n, o ≠ .popenJob j n)
                  (Prog.bind Do.now (fun now => Prog.bind (updateJobId job.id [.launchedAt (some now)])
                    (fun _ => Prog.pure (S := DB) (Dict.erase avail n)))) := by
                refine Prog.only_bind (Do.only_now.mpr (by simp)) (fun t => ?_)
                exact Prog.only_bind (only_updateJobId quiet_paired _ _ (by simp)) (fun _ => trivial)
              exact hsafe_mono (hsafe_paired_only hlast h2) (fun _ _ h3 => (hp1.trans hp2).trans h3)

theorem hsafe_paired_actionLoop (matched : Dict Nat (List String)) (ids : List Nat) (avail : Dict String PipState) (h : Past) :
    HSafe AnyA (fun _ h' => Paired h h') (actionLoop d matched ids avail) h := by
  induction ids generalizing avail h with
  | nil => exact ⟨[], by simp, rfl⟩
  | cons id ids ih =>
    unfold actionLoop
    have hget : HSafe AnyA (fun job h' => Paired h h' ∧ job.id = id) (getJobId id) h := by
      unfold getJobId
      refine hsafe_bind (Q := fun r h' => Paired h h' ∧ ∀ job, r = some job → job.id = id) ?_ ?_
      · refine hsafe_call trivial ?_
        intro w a ha
        simp only [exec, Except.ok.injEq] at ha
        subst ha
        exact ⟨⟨_, rfl, rfl⟩, fun job hj => (job?_some hj).1⟩
      · rintro r h' ⟨h1, h2⟩
        split
        · exact ⟨h1, h2 _ rfl⟩
        · trivial
    refine hsafe_bind hget ?_
    rintro job h1 ⟨hp1, hid⟩
    split
    · trivial
    · refine hsafe_bind (hsafe_paired_assignJob id job hid _ avail h1) ?_
      intro avail' h2 hp2
      exact hsafe_mono (ih avail' h2) (fun _ _ h3 => (hp1.trans hp2).trans h3)

/-- The second part of a pass of the job manager. -/
def schedule (d : Daemon) : P Unit := Prog.bind (checkQueued d) (actionQueued d)

theorem hsafe_paired_schedule (d : Daemon) (h : Past) :
    HSafe AnyA (fun _ h' => Paired h h') (schedule d) h := by
  unfold schedule
  refine hsafe_bind (hsafe_paired_only (only_checkQueued quiet_paired (by simp) d) h) ?_
  intro m h1 hp1
  unfold actionQueued
  refine hsafe_bind (hsafe_paired_only ((Do.only_pipsWhere _).mpr (by simp)) h1) ?_
  intro free h2 hp2
  exact hsafe_mono (hsafe_paired_actionLoop _ _ _ h2) (fun _ _ h3 => (hp1.trans hp2).trans h3)

theorem returns_schedule (d : Daemon) (w : World) (hw : w.WF)
    (hcf : ∀ pl ∈ Dict.values d.devicefile.pipelines, (jobArgs d pl.name).isSome)
    (hc : ∀ pl ∈ Dict.values d.devicefile.pipelines, Askable d w (Dict.values pl.components))
    (hf : ∀ j ∈ w.jobs, j.status.queued = true → (d.settings.storage, j.id) ∈ w.jobDirs →
      ∀ p ∈ w.pips, p.jobid = none → p.ready = true → p.sampleid ≠ some j.payload.sample) :
    Returns (schedule d) w (fun _ _ => True) := by
  unfold schedule
  refine returns_bind (Q := fun m w' => Keeps w w' ∧ Configured d m ∧ (Dict.keys m).Nodup ∧
      ∀ id ∈ Dict.keys m, ∃ j ∈ w.jobs, j.status.queued = true ∧ j.id = id) ?_ ?_
  · have hret : Returns (checkQueued d) w (fun m w' => Keeps w w' ∧ Configured d m ∧
        ∀ id ∈ Dict.keys m, ∃ j ∈ w.jobs, j.status.queued = true ∧ j.id = id) := by
      unfold checkQueued
      refine returns_bind (Q := fun l w' => l = w.jobs.filter (fun j => j.status.queued) ∧ w' = w)
        (returns_call rfl ⟨rfl, rfl⟩) ?_
      rintro _ _ ⟨h1, h2⟩
      rw [h1, h2]
      refine returns_mono (returns_checkLoop _ [] w hcf hc (fun j hj => ?_) (by intro id ms h; cases h)) ?_
      · rw [hw.job?_mem (List.mem_filter.mp hj).1]; rfl
      · rintro m w' ⟨h3, h4, h5⟩
        refine ⟨h3, h4, fun id hid => ?_⟩
        rcases h5 id hid with h | ⟨j, hj, h⟩
        · cases h
        · exact ⟨j, (List.mem_filter.mp hj).1, (List.mem_filter.mp hj).2, h⟩
    obtain ⟨m, w', h1, h2, h3, h4⟩ := hret
    refine ⟨m, w', h1, h2, h3, ?_, h4⟩
    exact (hsafe_trace (hsafe_checkQueued_all (d := d) []) w m w' h1).2.1
  · rintro m w' ⟨hk, hcm, hnd, hkeys⟩
    unfold actionQueued
    refine returns_bind (Q := fun l w'' => l = w'.pips.filter (fun p => p.jobid.isNone) ∧ w'' = w')
      (returns_call rfl ⟨rfl, rfl⟩) ?_
    rintro _ _ ⟨h1, h2⟩
    rw [h1, h2]
    refine returns_actionLoop m _ _ w' ?_ hcm ?_ ?_ ?_
    · exact (sortIds_sorted _ hnd).imp (fun h => Nat.ne_of_lt h)
    · intro id hid
      exact (mem_sortIds id _).mp hid
    · intro id hid
      obtain ⟨j, hj, -, rfl⟩ := hkeys id ((mem_sortIds id _).mp hid)
      rw [hk.isSome, hw.job?_mem hj]
      rfl
    · intro id hid hd pl hpl n ps hps hr
      obtain ⟨j, hj, hq, rfl⟩ := hkeys id ((mem_sortIds id _).mp hid)
      rw [hk.rows, hw.job?_mem hj] at hpl
      cases hpl
      rw [hk.jobDirs] at hd
      have := dict_ofList_mem _ _ _ hps
      obtain ⟨q, hq', heq⟩ := List.mem_map.mp this
      cases heq
      obtain ⟨h3, h4⟩ := List.mem_filter.mp hq'
      rw [hk.pips] at h3
      exact hf j hj hq hd _ h3 (by simpa using h4) hr

/-- The operations of the second part. -/
theorem allow_schedule (d : Daemon) :
    Allow (fun o => QuietOp o ∨ (∃ id ps, o = .updateJob id ps ∧ (ps = [.status .qw] ∨ ∃ t, ps = [.launchedAt (some t)])) ∨
      (∃ n i, o = .updatePip n [.jobid (some i), .ready false]) ∨ (∃ a b, o = .makeJobDir a b) ∨ (∃ a b, o = .popenJob a b)) (fun _ => True) (schedule d) := by
  unfold schedule
  refine allow_bind (allow_of_only (only_checkQueued (fun _ h => .inl h) (fun _ => .inr (.inl ⟨_, _, rfl, .inl rfl⟩)) _))
    (fun m _ => ?_)
  unfold actionQueued
  refine allow_bind (allow_of_only ((Do.only_pipsWhere _).mpr (.inl trivial))) (fun free _ => ?_)
  exact allow_actionLoop (fun _ h => .inl h) _ _ _ (fun _ _ => .inr (.inr (.inr (.inl ⟨_, _, rfl⟩))))
    (fun _ _ _ => .inr (.inr (.inl ⟨_, _, rfl⟩)))
    (fun _ _ _ => .inr (.inr (.inr (.inr ⟨_, _, rfl⟩)))) (fun _ _ t => .inr (.inl ⟨_, _, rfl, .inr ⟨t, rfl⟩⟩)) _

/-- What stays the same for a waiting job during the second part. -/
def StillWaiting (w : World) (id : Nat) (m : List Task) (s : String) (w' : World) : Prop :=
  w'.drvs = w.drvs ∧ w'.drv = w.drv ∧
  (∃ job ∈ w'.jobs, job.id = id ∧ job.status.queued = true) ∧
  ∀ job ∈ w'.jobs, job.id = id → job.payload.method = m ∧ job.payload.sample = s

theorem stillWaiting_update {w w' : World} {id : Nat} {m : List Task} {s : String} {i : Nat} {ps : List JobParam}
    (hps : ps = [.status .qw] ∨ ∃ t, ps = [.launchedAt (some t)]) (h : StillWaiting w id m s w') :
    StillWaiting w id m s { w' with jobs := updJobs i ps w'.jobs } := by
  have hp : ∀ j : Job, (applyJob j ps).payload = j.payload := by
    intro j; rcases hps with rfl | ⟨t, rfl⟩ <;> rfl
  have hq : ∀ j : Job, j.status.queued = true → (applyJob j ps).status.queued = true := by
    intro j hj
    rcases hps with rfl | ⟨t, rfl⟩
    · rfl
    · exact hj
  obtain ⟨h1, h2, ⟨job, h3, h4, h5⟩, h6⟩ := h
  refine ⟨h1, h2, ?_, ?_⟩
  · refine ⟨if job.id = i then applyJob job ps else job, ?_, ?_, ?_⟩
    · exact List.mem_map.mpr ⟨job, h3, rfl⟩
    · split
      · rw [applyJob_id]; exact h4
      · exact h4
    · split
      · exact hq job h5
      · exact h5
  · intro j hj hid
    simp only [updJobs, List.mem_map] at hj
    obtain ⟨j', hj', rfl⟩ := hj
    split at hid
    · next hi =>
      rw [if_pos hi, hp]
      rw [applyJob_id] at hid
      exact h6 j' hj' hid
    · next hi =>
      rw [if_neg hi]
      exact h6 j' hj' hid

theorem stillWaiting_exec {w w' : World} {id : Nat} {m : List Task} {s : String} (o : Op)
    (ho : QuietOp o ∨ (∃ id ps, o = .updateJob id ps ∧ (ps = [.status .qw] ∨ ∃ t, ps = [.launchedAt (some t)])) ∨
      (∃ n i, o = .updatePip n [.jobid (some i), .ready false]) ∨ (∃ a b, o = .makeJobDir a b) ∨ (∃ a b, o = .popenJob a b))
    (h : StillWaiting w id m s w') : StillWaiting w id m s (exec o w').2 := by
  have same : ∀ w'' : World, w''.drvs = w'.drvs → w''.drv = w'.drv → w''.jobs = w'.jobs →
      StillWaiting w id m s w'' := by
    intro w'' e1 e2 e3
    unfold StillWaiting at h ⊢
    rw [e1, e2, e3]
    exact h
  rcases ho with ho | ⟨i, ps, rfl, hps⟩ | ⟨n, ps, rfl⟩ | ⟨a, b, rfl⟩ | ⟨a, b, rfl⟩
  · cases o with
    | jobsWhere | fetchJob | pipsWhere | getPip | drvsWhere | getDrv | pidExists | now | perfCounter => exact h
    | notZombie pid => simp only [exec]; split <;> exact h
    | askDriver port c =>
      cases port with
      | none => exact h
      | some p => simp only [exec]; split <;> exact same _ rfl rfl rfl
    | askDriverLpp port c =>
      cases port with
      | none => exact h
      | some p => exact same _ rfl rfl rfl
    | askDriverTimeout port c =>
      cases port with
      | none => exact h
      | some p => simp only [exec]; split <;> exact same _ rfl rfl rfl
    | _ => cases ho
  · exact stillWaiting_update hps h
  · exact same _ rfl rfl rfl
  · simp only [exec]
    split
    · exact h
    · exact same _ rfl rfl rfl
  · exact same _ rfl rfl rfl

theorem FitsNow.throughout {d : Daemon} {w : World} {m : List Task} {n : String} (hf : FitsNow d w m n) {h : Past}
    (hall : ∀ x ∈ h, x.1.drvs = w.drvs ∧ x.1.drv = w.drv) : Fits d h m n := by
  have ans : ∀ cmp c ok, AnswersNow w cmp c ok → Answers h cmp c ok := by
    rintro cmp c ok ⟨port, h1, r, h2, h3⟩
    refine ⟨port, fun x hx => ?_⟩
    rw [(hall x hx).1, (hall x hx).2]
    exact ⟨h1, r, h2, h3⟩
  obtain ⟨pl, h1, h2, h3⟩ := hf
  refine ⟨pl, h1, h2, fun t ht => ?_⟩
  obtain ⟨⟨role, c, cmp, h4, h5, h6⟩, ⟨c', cmp', h7, h8, h9⟩⟩ := h3 t ht
  exact ⟨⟨role, c, cmp, h4, h5, ans _ _ _ h6⟩, ⟨c', cmp', h7, h8, ans _ _ _ h9⟩⟩

/-- The rows of the pipelines before the first assignment. -/
theorem trace_pips {α : Type} (p : P α) {T : Op → Prop} {Q : α → Prop} (hp : Allow T Q p)
    (hT : ∀ o w, T o → (exec o w).2.pips = w.pips ∨ (assignOf o).isSome) (w : World) :
    ∀ h₁ x h₂, trace p w = h₁ ++ x :: h₂ → assigned h₁ = [] → x.1.pips = w.pips := by
  induction p generalizing w with
  | pure b => intro h₁ x h₂ h; simp [trace] at h
  | raise e => intro h₁ x h₂ h; simp [trace] at h
  | op o k ih =>
    intro h₁ x h₂ h hno
    cases h₁ with
    | nil =>
      simp only [trace, List.nil_append, List.cons.injEq] at h
      rw [← h.1]
    | cons y h₁ =>
      simp only [trace, List.cons_append, List.cons.injEq] at h
      obtain ⟨rfl, h⟩ := h
      have ho : assignOf o = none := by
        cases hh : assignOf o with
        | none => rfl
        | some q => simp [assigned, hh] at hno
      have hno' : assigned h₁ = [] := by
        simpa [assigned, ho] using hno
      rw [ih _ (hp.2 w) _ h₁ x h₂ h hno']
      rcases hT o w hp.1 with h | h
      · exact h
      · rw [ho] at h; cases h

namespace Props

theorem supervised_queued (w : World) (j : Job) (hq : j.status.queued = true) : supervised w j = j := by
  unfold supervised
  split
  · rfl
  · have h1 : j.status ≠ .rd := by intro h; rw [h] at hq; cases hq
    have h2 : j.status ≠ .r := by intro h; rw [h] at hq; cases hq
    simp [h1, h2]

theorem supervised_payload (w : World) (j : Job) : (supervised w j).payload = j.payload := by
  unfold supervised
  split
  · rfl
  · split
    · rfl
    · split <;> rfl

theorem supervised_id' (w : World) (j : Job) : (supervised w j).id = j.id := by
  unfold supervised
  split
  · rfl
  · split
    · rfl
    · split <;> rfl

theorem supervised_queued_iff (w : World) (j : Job) (hq : (supervised w j).status.queued = true) :
    j.status.queued = true := by
  unfold supervised at hq
  split at hq
  · exact hq
  · split at hq
    · cases hq
    · split at hq
      · cases hq
      · exact hq

/-- **C70** (partial), one pass: in every state in which nothing stands in the way, a pass of the
job manager does not fail, and every waiting job that has its chance is launched, unless a job
with a lower id is launched on the pipeline.  Missing: `Healthy` and the absence of other
programs during the pass; `C70_refuted` shows that this can not be dropped. -/
theorem C70_pass_partial (d : Daemon) (w : World) (hw : w.WF) (hh : Healthy d w) :
    ∃ w' new, runW (jobManagerPass d) w = (.ok (), w') ∧ w'.launches = w.launches ++ new ∧
      ∀ job ∈ w.jobs, job.status.queued = true → ∀ n, FitsNow d w job.payload.method n →
        Available w n job.payload.sample →
        (∃ l ∈ new, l.jobid = job.id) ∨ (∃ l ∈ new, l.pip = n ∧ l.jobid < job.id) := by
  obtain ⟨w1, hrun1, hjobs, hpips, hdrvs, hl, hdirs, hdrv⟩ := C23_supervision_partial w hw hh.canEnd hh.separate
  have hw1 : w1.WF := by
    have := runW_wf manageRunning w hw
    rw [hrun1] at this
    exact this
  have hret : Returns (schedule d) w1 (fun _ _ => True) := by
    refine returns_schedule d w1 hw1 (fun pl hpl => jobArgs_isSome hh.repositories (hh.config pl hpl)) ?_ ?_
    · intro pl hpl c hc
      obtain ⟨cmp, row, port, h1, h2, h3, h4⟩ := hh.drivers pl hpl c hc
      refine ⟨cmp, row, port, h1, ?_, h3, by rw [hdrv]; exact h4⟩
      unfold World.drv? at h2 ⊢
      rw [hdrvs]; exact h2
    · intro j hj hq hd p hp
      rw [hjobs] at hj
      obtain ⟨j', hj', rfl⟩ := List.mem_map.mp hj
      rw [hdirs, supervised_id'] at hd
      rw [hpips] at hp
      rw [supervised_payload]
      exact hh.folders j' hj' (supervised_queued_iff w j' hq) hd p hp
  obtain ⟨_, w2, hrun2, -⟩ := hret
  refine ⟨w2, popened (trace (schedule d) w1), ?_, ?_, ?_⟩
  · have hsplit : jobManagerPass d = Prog.bind manageRunning (fun _ => schedule d) := rfl
    rw [hsplit]
    simp only [runW] at hrun1 hrun2
    simp only [runW, Prog.run_bind, hrun1, Prog.andThen_ok, hrun2]
  · have := run_popened (schedule d) w1
    rw [hrun2, hl] at this
    exact this
  · intro job hjob hq n hfit hav
    have hjob1 : job ∈ w1.jobs := by
      rw [hjobs]
      exact List.mem_map.mpr ⟨job, hjob, supervised_queued w job hq⟩
    have hstill : StillWaiting w1 job.id job.payload.method job.payload.sample w1 := by
      refine ⟨rfl, rfl, ⟨job, hjob1, rfl, hq⟩, ?_⟩
      intro j hj hid
      have : j = job := by
        have h1 := hw1.job?_mem hj
        have h2 := hw1.job?_mem hjob1
        rw [hid, h2] at h1
        exact (Option.some.inj h1).symm
      rw [this]
      exact ⟨rfl, rfl⟩
    have hall := trace_inv (allow_schedule d) (fun o w' ho h => stillWaiting_exec o ho h) w1 hstill
    have hwait : Waiting (trace (schedule d) w1) job.id job.payload.method job.payload.sample :=
      fun x hx => ⟨(hall x hx).2.2.1, (hall x hx).2.2.2⟩
    have hfits : Fits d (trace (schedule d) w1) job.payload.method n :=
      hfit.throughout (fun x hx => ⟨(hall x hx).1.trans hdrvs, (hall x hx).2.1.trans hdrv⟩)
    have hserved := hsafe_trace (hsafe_schedule_ord d [] rfl) w1 () w2 hrun2 job.id
    rw [List.nil_append] at hserved
    obtain ⟨t, ht, hpair⟩ := hsafe_trace (hsafe_paired_schedule d []) w1 () w2 hrun2
    rw [List.nil_append, List.nil_append] at ht
    rw [← ht] at hpair
    rw [hpair]
    rcases hserved n _ _ hwait hfits with ⟨n', h⟩ | ⟨j, h1, h2⟩ | ⟨h₁, x, h₂, he, h0, hna⟩
    · exact .inl ⟨_, List.mem_map.mpr ⟨_, h, rfl⟩, rfl⟩
    · exact .inr ⟨_, List.mem_map.mpr ⟨_, h2, rfl⟩, rfl, h1⟩
    · exfalso
      apply hna
      have hp := trace_pips (schedule d) (allow_schedule d) ?_ w1 h₁ x h₂ he h0
      · unfold Available at hav ⊢
        rw [hp, hpips]
        exact hav
      · intro o w' ho
        rcases exec_pips o w' with h | ⟨p, rfl, -⟩ | ⟨n, ps, rfl, -⟩
        · exact .inl h
        · rcases ho with ho | ⟨i, ps, h, -⟩ | ⟨n, ps, h⟩ | ⟨a, b, h⟩ | ⟨a, b, h⟩
          · cases ho
          all_goals cases h
        · rcases ho with ho | ⟨i, ps, h, -⟩ | ⟨n, ps, h⟩ | ⟨a, b, h⟩ | ⟨a, b, h⟩
          · cases ho
          · cases h
          · cases h; exact .inr rfl
          · cases h
          · cases h

/-! ## In the concurrent system -/

/-- The state after an undisturbed pass of the job manager that does not fail. -/
def Undisturbed (d : Daemon) (s s' : Sys) : Prop :=
  ∃ w', runW (jobManagerPass d) s.w = (.ok (), w') ∧ s' = { s with jm := .pure (), w := w' }

theorem steps_run (st : String) (p : P Unit) (s : Sys) (w' : World) (hr : runW p s.w = (.ok (), w'))
    (hjm : s.jm = p) : Steps st s { s with jm := .pure (), w := w' } := by
  induction p generalizing s with
  | pure u =>
    simp only [runW, Prog.run] at hr
    cases hr
    rw [show ({ s with jm := .pure (), w := s.w } : Sys) = s by rw [← hjm]]
    exact .refl s
  | raise e => simp only [runW, Prog.run] at hr; cases hr
  | op o k ih =>
    refine Steps.trans (Steps.tail (.refl s) ⟨.jmStep, ?_⟩)
      (ih (exec o s.w).1 { s with jm := k (exec o s.w).1, w := (exec o s.w).2 } hr rfl)
    simp only [act, hjm, stepProg]

theorem Undisturbed.steps {st : String} {d : Daemon} {s s' : Sys} (h : Undisturbed d s s')
    (he : s.jm.ended = true) (hst : d.settings.storage = st) : Steps st s s' := by
  obtain ⟨w', h1, rfl⟩ := h
  refine Steps.trans (Steps.tail (.refl s) ⟨.jmStart d, ?_⟩)
    (steps_run st _ { s with jm := jobManagerPass d } w' h1 rfl)
  simp only [act, he, hst, and_self, if_true]

/-- `Missed st id k s`: on the way to state `s`, the job with this id has been passed over `k`
times by an undisturbed pass of the job manager although it had its chance.  Between these passes
anything may happen. -/
inductive Missed (st : String) (id : Nat) : Nat → Sys → Prop
  | start {s : Sys} : Reachable st s → Missed st id 0 s
  | steps {k : Nat} {s s' : Sys} : Missed st id k s → Steps st s s' → Missed st id k s'
  | missed {k : Nat} {s s' : Sys} (d : Daemon) : Missed st id k s → s.jm.ended = true →
      d.settings.storage = st → Healthy d s.w → Chance d s.w id → Undisturbed d s s' →
      id ∉ s'.w.launches.map (·.jobid) → Missed st id (k + 1) s'

theorem step_launches {st : String} {s s' : Sys} (h : Step st s s') :
    ∃ new, s'.w.launches = s.w.launches ++ new := by
  obtain ⟨a, h⟩ := h
  have ex : ∀ o, ∃ new, (exec o s.w).2.launches = s.w.launches ++ new := by
    intro o
    rcases exec_launches o s.w with h | ⟨i, n, -, h⟩
    · exact ⟨[], by rw [h, List.append_nil]⟩
    · exact ⟨_, h⟩
  rcases act_world h with h | ⟨e, h⟩ | ⟨o, k, -, h⟩ | ⟨p, -, o, k, -, h⟩
  · exact ⟨[], by rw [h, List.append_nil]⟩
  · exact ⟨[], by rw [h, List.append_nil]; cases e <;> rfl⟩
  · rw [h]; exact ex o
  · rw [h]; exact ex o

theorem steps_launches {st : String} {s s' : Sys} (h : Steps st s s') :
    ∃ new, s'.w.launches = s.w.launches ++ new := by
  induction h with
  | refl => exact ⟨[], by simp⟩
  | tail _ h ih =>
    obtain ⟨n1, h1⟩ := ih
    obtain ⟨n2, h2⟩ := step_launches h
    exact ⟨n1 ++ n2, by rw [h2, h1, List.append_assoc]⟩

/-- The number of launched jobs with lower ids. -/
def lower (id : Nat) (s : Sys) : Nat := ((s.w.launches.map (·.jobid)).filter (· < id)).length

theorem lower_le {st : String} {s : Sys} (hr : Reachable st s) (id : Nat) : lower id s ≤ id := by
  have hnd := (C18_launched_once hr).filter (fun i => decide (i < id))
  have hsub : (s.w.launches.map (·.jobid)).filter (· < id) ⊆ List.range id := by
    intro i hi
    exact List.mem_range.mpr (by simpa using (List.mem_filter.mp hi).2)
  have := (List.subperm_of_subset hnd hsub).length_le
  simpa [lower] using this

theorem missed_lower {st : String} {id k : Nat} {s : Sys} (h : Missed st id k s) :
    Reachable st s ∧ k ≤ lower id s := by
  induction h with
  | start hr => exact ⟨hr, Nat.zero_le _⟩
  | steps _ hs ih =>
    obtain ⟨hr, hk⟩ := ih
    refine ⟨Steps.trans hr hs, ?_⟩
    obtain ⟨new, hn⟩ := steps_launches hs
    unfold lower at hk ⊢
    rw [hn, List.map_append, List.filter_append, List.length_append]
    exact Nat.le_trans hk (Nat.le_add_right _ _)
  | @missed k s s' d _ he hst hh hc hu hno ih =>
    obtain ⟨hr, hk⟩ := ih
    refine ⟨Steps.trans hr (hu.steps he hst), ?_⟩
    obtain ⟨w', hrun, rfl⟩ := hu
    obtain ⟨w'', new, hrun', hl, hall⟩ := C70_pass_partial d s.w (reachable_wf hr) hh
    rw [hrun] at hrun'
    obtain ⟨job, hjob, rfl, hq, n, hfit, hav⟩ := hc
    have hw : w' = w'' := (Prod.mk.inj hrun').2
    subst hw
    rcases hall job hjob hq n hfit hav with ⟨l, hl1, hl2⟩ | ⟨l, hl1, -, hl2⟩
    · exfalso
      apply hno
      rw [hl, List.map_append]
      exact List.mem_append_right _ (List.mem_map.mpr ⟨l, hl1, hl2⟩)
    · unfold lower at hk ⊢
      rw [hl, List.map_append, List.filter_append, List.length_append]
      refine Nat.add_le_add hk (List.length_pos_of_mem (a := l.jobid) ?_)
      exact List.mem_filter.mpr ⟨List.mem_map.mpr ⟨l, hl1, rfl⟩, by simpa using hl2⟩

/-- **C70** (partial): in every execution, a waiting job is passed over by undisturbed passes of
the job manager, although it had its chance, at most as many times as there are lower ids; then
it is launched.  In between anything may happen, including failed passes, crashes and restarts.
Missing: that healthy chances keep coming (`C70_refuted`: the job manager may end for good). -/
theorem C70_eventually_partial {st : String} {id k : Nat} {s : Sys} (h : Missed st id k s) : k ≤ id :=
  Nat.le_trans (missed_lower h).2 (lower_le (missed_lower h).1 id)

/-- Two jobs for the same sample wait for `p`. -/
def sWait : Sys :=
  after ([.spawn (.submit (.parsed (plS "s")) none dRun "/home")] ++ run 5 4) sSetup

theorem sWait_healthy : Healthy dRun sWait.w := by
  refine ⟨by decide, rfl, ?_, ?_, ?_, ?_⟩
  · intro pl hpl c hc
    have h1 : pl = ⟨"p", [("x", "d:(a,1)")]⟩ ∨ pl = ⟨"q", [("x", "d:(a,2)")]⟩ := by
      simpa [dRun, dfS, Dict.values] using hpl
    rcases h1 with rfl | rfl
    · have : c = "d:(a,1)" := by simpa [Dict.values] using hc
      subst this
      exact ⟨⟨"d:(a,1)", "dev", "d", "a", "1"⟩, _, 5000, rfl, rfl, rfl, rfl⟩
    · have : c = "d:(a,2)" := by simpa [Dict.values] using hc
      subst this
      exact ⟨⟨"d:(a,2)", "dev", "d", "a", "2"⟩, _, 5000, rfl, rfl, rfl, rfl⟩
  · decide +kernel
  · have h : ∀ j ∈ sWait.w.jobs, j.pid = none := by decide +kernel
    intro j hj pid hp
    rw [h j hj] at hp
    cases hp
  · have h : ∀ j ∈ sWait.w.jobs, j.pid = none := by decide +kernel
    intro j hj j' hj' pid hp
    rw [h j' hj'] at hp
    cases hp

theorem sWait_chance (id : Nat) (hid : id = 1 ∨ id = 2) : Chance dRun sWait.w id := by
  have hfit : FitsNow dRun sWait.w [{ role := "x", technique := "t" }] "p" := by
    have hport : ∀ row ∈ sWait.w.drvs, row.name = "d" → row.port = some 5000 := by decide +kernel
    refine ⟨⟨"p", [("x", "d:(a,1)")]⟩, by decide, rfl, ?_⟩
    intro t ht
    have : t = { role := "x", technique := "t" } := by simpa using ht
    subst this
    exact ⟨⟨"x", "d:(a,1)", ⟨"d:(a,1)", "dev", "d", "a", "1"⟩, by decide, rfl, 5000, hport, _, rfl, rfl, _, rfl, by decide⟩,
      ⟨"d:(a,1)", ⟨"d:(a,1)", "dev", "d", "a", "1"⟩, by decide, rfl, 5000, hport, _, rfl, rfl⟩⟩
  have hav : Available sWait.w "p" "s" := by
    unfold Available
    decide +kernel
  have hjob : ∃ job ∈ sWait.w.jobs, job.id = id ∧ job.status.queued = true ∧
      job.payload.method = [{ role := "x", technique := "t" }] ∧ job.payload.sample = "s" := by
    rcases hid with rfl | rfl <;> decide +kernel
  obtain ⟨job, h1, h2, h3, h4, h5⟩ := hjob
  exact ⟨job, h1, h2, h3, "p", by rw [h4]; exact hfit, by rw [h5]; exact hav⟩

/-- Job 1 is launched in the first pass; job 2 is passed over once. -/
example : ∃ s, Missed "Jobs" 2 1 s ∧ s.w.launches = [⟨1, "p"⟩] := by
  have hr : Reachable "Jobs" sWait := Steps.trans sSetup_reachable (steps_after (by decide +kernel))
  obtain ⟨w', new, hrun, hl, -⟩ := C70_pass_partial dRun sWait.w (reachable_wf hr) sWait_healthy
  have hw : w' = (runW (jobManagerPass dRun) sWait.w).2 := by rw [hrun]
  have hla : w'.launches = [⟨1, "p"⟩] := by rw [hw]; decide +kernel
  refine ⟨{ sWait with jm := .pure (), w := w' }, .missed dRun (.start hr) (by decide +kernel) rfl sWait_healthy
    (sWait_chance 2 (.inr rfl)) ⟨w', hrun, rfl⟩ ?_, hla⟩
  simp only
  rw [hla]
  decide

end Props

end Tomato
