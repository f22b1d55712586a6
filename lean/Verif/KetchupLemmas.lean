import Verif.Ketchup
import Verif.Inv

/-! Helper lemmas about `ketchup`. -/

namespace Tomato

@[simp] theorem run_getJobId (id : Nat) (w : World) :
    runW (getJobId id) w =
      match w.job? id with
      | some j => (.ok j, w)
      | none => (.error .typeError, w) := by
  simp only [runW, getJobId, Prog.bind_eq, Prog.run_bind, Do.run_fetchJob, exec,
    Prog.andThen_ok]
  cases w.job? id <;> rfl

theorem run_updateJobId (id : Nat) (ps : List JobParam) (w : World) :
    runW (updateJobId id ps) w =
      match w.job? id with
      | some j => (.ok (applyJob j ps), { w with jobs := updJobs id ps w.jobs })
      | none => (.error .typeError, { w with jobs := updJobs id ps w.jobs }) := by
  have h := run_getJobId id { w with jobs := updJobs id ps w.jobs }
  simp only [runW] at h
  simp only [runW, updateJobId, Prog.bind_eq, Prog.run_bind, Do.run_updateJob,
    exec_updateJob, Prog.andThen_ok, h, job?_update]
  cases w.job? id <;> simp

/-- The table after changing the status of every job as told by `f`. -/
def setStatuses (f : Job → JobStatus) (js : List Job) : List Job :=
  js.map (fun j => { j with status := f j })

theorem setStatuses_id (js : List Job) : setStatuses (·.status) js = js := by
  unfold setStatuses
  induction js with
  | nil => rfl
  | cons j js ih => rw [List.map_cons, ih]

theorem setStatuses_comp (f g : Job → JobStatus) (js : List Job) :
    setStatuses g (setStatuses f js) = setStatuses (fun j => g { j with status := f j }) js := by
  simp [setStatuses, Function.comp_def]

theorem updJobs_status (id : Nat) (st : JobStatus) (js : List Job) :
    updJobs id [.status st] js =
      setStatuses (fun j => if j.id = id then st else j.status) js := by
  unfold updJobs setStatuses
  apply List.map_congr_left
  intro j _
  by_cases h : j.id = id
  · simp only [if_pos h]; rfl
  · simp only [if_neg h]

/-- A set of parameters that only sets the status. -/
def StatusParams (ps : List JobParam) : Prop := ∃ st, ps = [.status st]

theorem cancelParams_status {st : JobStatus} {params q : Option (List JobParam)}
    (hp : ∀ ps, params = some ps → StatusParams ps) (h : cancelParams st params = some q) :
    ∀ ps, q = some ps → StatusParams ps := by
  unfold cancelParams at h
  intro ps hq
  subst hq
  split at h
  · cases h; exact ⟨_, rfl⟩
  · split at h
    · cases h; exact ⟨_, rfl⟩
    · split at h
      · cases h
      · cases h; exact hp _ rfl

/-- The effect of the loop of `cancel`: only the status of the left-over id changes. -/
theorem cancelLoop_effect (id? : Option Nat) (js : List Job) (params : Option (List JobParam))
    (hp : ∀ ps, params = some ps → StatusParams ps) (data : List Job) (w : World) :
    ∃ f : Job → JobStatus,
      (runW (cancelLoop id? js params data) w).2 = { w with jobs := setStatuses f w.jobs } ∧
      (∀ j, some j.id ≠ id? → f j = j.status) := by
  have hid : ∀ w : World, w = { w with jobs := setStatuses (·.status) w.jobs } := by
    intro w; rw [setStatuses_id]
  induction js generalizing params data w with
  | nil => exact ⟨(·.status), hid w, fun _ _ => rfl⟩
  | cons j js ih =>
    unfold cancelLoop
    split
    · exact ih params hp data w
    · next params' hq =>
      have hp' := cancelParams_status hp hq
      split
      · next id ps =>
        obtain ⟨st, rfl⟩ := hp' ps rfl
        have hrun := run_updateJobId id [.status st] w
        simp only [runW] at hrun
        simp only [runW, Prog.bind_eq, Prog.run_bind, hrun]
        cases hj : w.job? id with
        | none =>
          refine ⟨fun j => if j.id = id then st else j.status, ?_, ?_⟩
          · simp only [Prog.andThen_error, updJobs_status]
          · intro j hne
            have : ¬ j.id = id := fun h => hne (by rw [h])
            exact if_neg this
        | some j0 =>
          simp only [Prog.andThen_ok]
          obtain ⟨f, hf, hf'⟩ := ih (some [.status st]) (by rintro _ ⟨⟩; exact ⟨st, rfl⟩)
            (data ++ [applyJob j0 [.status st]]) { w with jobs := updJobs id [.status st] w.jobs }
          simp only [runW] at hf
          rw [hf]
          refine ⟨fun j => f { j with status := if j.id = id then st else j.status }, ?_, ?_⟩
          · simp only [updJobs_status, setStatuses_comp]
          · intro j hne
            have : ¬ j.id = id := fun h => hne (by rw [h])
            simp only [if_neg this]
            exact hf' _ hne
      · exact ⟨(·.status), hid w, fun _ _ => rfl⟩

/-- When all selected jobs are finished, the loop of `cancel` does nothing. -/
theorem cancelLoop_final (id? : Option Nat) (js : List Job) (params : Option (List JobParam))
    (data : List Job) (w : World) (hf : ∀ j ∈ js, j.status.final = true) :
    runW (cancelLoop id? js params data) w = (.ok data, w) := by
  induction js with
  | nil => rfl
  | cons j js ih =>
    have hj := hf j (by simp)
    have hc : cancelParams j.status params = none := by
      cases hs : j.status <;> simp_all [JobStatus.final, cancelParams]
    unfold cancelLoop
    rw [hc]
    exact ih (fun j hj => hf j (by simp [hj]))

/-! ## search -/

theorem anySuffix_iff (f : List Char → Bool) (s : List Char) :
    anySuffix f s = true ↔ ∃ a b, s = a ++ b ∧ f b = true := by
  induction s with
  | nil =>
    simp only [anySuffix]
    constructor
    · intro h; exact ⟨[], [], rfl, h⟩
    · rintro ⟨a, b, h, hf⟩
      have := List.nil_eq_append_iff.mp h
      rw [this.2] at hf; exact hf
  | cons c s ih =>
    simp only [anySuffix, Bool.or_eq_true, ih]
    constructor
    · rintro (h | ⟨a, b, h, hf⟩)
      · exact ⟨[], c :: s, rfl, h⟩
      · exact ⟨c :: a, b, by rw [h]; rfl, hf⟩
    · rintro ⟨a, b, h, hf⟩
      cases a with
      | nil => left; rw [List.nil_append] at h; rw [h]; exact hf
      | cons x a =>
        right
        simp only [List.cons_append, List.cons.injEq] at h
        exact ⟨a, b, h.2, hf⟩

theorem like_literal (p : List Char) (hp : ∀ c ∈ p, c ≠ '%' ∧ c ≠ '_') (s : List Char) :
    like (p ++ ['%']) s = true ↔ p.map Char.toLower <+: s.map Char.toLower := by
  induction p generalizing s with
  | nil =>
    have h : ('%' : Char) = '%' := rfl
    simp only [List.nil_append, List.map_nil, List.nil_prefix, iff_true]
    unfold like
    rw [if_pos h, anySuffix_iff]
    exact ⟨s, [], by simp, rfl⟩
  | cons c p ih =>
    obtain ⟨h1, h2⟩ := hp c (by simp)
    simp only [List.cons_append, like, if_neg h1]
    cases s with
    | nil => simp
    | cons d s =>
      simp only [decide_eq_false h2, Bool.false_or, Bool.and_eq_true, decide_eq_true_eq,
        ih (fun c hc => hp c (by simp [hc])), List.map_cons,
        List.cons_prefix_cons]

theorem sqlLiteral_plain (s r : List Char) (hs : ∀ c ∈ s, c ≠ '\'') :
    sqlLiteral (s ++ r) = (sqlLiteral r).map (s ++ ·) := by
  induction s with
  | nil => simp
  | cons c s ih =>
    have hc := hs c (by simp)
    rw [List.cons_append, sqlLiteral.eq_def]
    simp only [if_neg hc, ih (fun c hc => hs c (by simp [hc])), Option.map_map]
    rfl

/-! ## submit -/

/-- The payload that ends up in the queue: missing output and snapshot paths are replaced by
the working directory, everything else is as submitted. -/
def SubmittedAs (cwd : String) (p q : Payload) : Prop :=
  q.sample = p.sample ∧ q.method = p.method ∧ q.unlockWhenDone = p.unlockWhenDone ∧
  q.repositories = p.repositories ∧ q.outPrefix = p.outPrefix ∧
  q.outPath = some (p.outPath.getD cwd) ∧ q.snapshot = p.snapshot.map (fun s => some (s.getD cwd))

theorem fillPaths_spec (p : Payload) (cwd : String) : SubmittedAs cwd p (fillPaths p cwd) := by
  unfold SubmittedAs fillPaths
  rcases p with ⟨s, m, u, r, op, opre, sn⟩
  cases op <;> rcases sn with _ | (_ | _) <;> simp

/-- All repositories are configured (or the default one). -/
def ReposKnown (p : Payload) (d : Daemon) : Prop :=
  ∀ r ∈ p.repositories, r = "default" ∨
    ∃ known, d.settings.repositories = some known ∧ (Dict.get? known r).isSome

theorem submit_parsed (p : Payload) (n : Option String) (d : Daemon) (cwd : String) (w : World) :
    (ReposKnown p d →
      runW (submit (.parsed p) n d cwd) w =
        Prog.andThen (runW (insertJob { id := 0, payload := fillPaths p cwd, jobname := n,
                                        submittedAt := w.clock }) w)
          (fun j w' => (.ok { success := true, msg := .submitted j.id j.jobname,
                              data := some (.job j) }, w'))) ∧
    (¬ ReposKnown p d → (∃ r, runW (submit (.parsed p) n d cwd) w =
      (.ok { success := false, msg := .unknownRepository r, data := some (.settings d.settings) },
       w)) ∨ (d.settings.repositories = none ∧
         runW (submit (.parsed p) n d cwd) w = (.error .keyError, w))) := by
  have hrep : (fillPaths p cwd).repositories = p.repositories := (fillPaths_spec p cwd).2.2.2.1
  have hbad : (ReposKnown p d → (if (fillPaths p cwd).repositories ≠ ["default"] then
        unknownRepo (fillPaths p cwd).repositories d.settings.repositories else .ok none) =
          .ok none) ∧
      (¬ ReposKnown p d → (∃ r, (if (fillPaths p cwd).repositories ≠ ["default"] then
        unknownRepo (fillPaths p cwd).repositories d.settings.repositories else .ok none) =
          .ok (some r)) ∨ (d.settings.repositories = none ∧
          (if (fillPaths p cwd).repositories ≠ ["default"] then
        unknownRepo (fillPaths p cwd).repositories d.settings.repositories else .ok none) =
          .error .keyError)) := by
    rw [hrep]
    unfold ReposKnown
    by_cases hd : p.repositories = ["default"]
    · simp [hd]
    · simp only [ne_eq, hd, not_false_eq_true, if_true]
      cases hs : d.settings.repositories with
      | none =>
        simp only [unknownRepo]
        by_cases hall : p.repositories.all (fun r => decide (r = "default")) = true
        · rw [if_pos hall]
          refine ⟨fun _ => rfl, fun hk => absurd (fun r hr => .inl ?_) hk⟩
          simpa using List.all_eq_true.mp hall r hr
        · rw [if_neg hall]
          refine ⟨fun hk => absurd (List.all_eq_true.mpr fun r hr => ?_) hall,
            fun _ => .inr ⟨trivial, rfl⟩⟩
          rcases hk r hr with h | ⟨_, h, _⟩
          · simpa using h
          · cases h
      | some known =>
        simp only [unknownRepo, Except.ok.injEq]
        have key : (p.repositories.find? (fun r => decide (¬ r = "default") && !Dict.mem known r)
            = none) ↔ ∀ r ∈ p.repositories, r = "default" ∨
              ∃ known', some known = some known' ∧ (Dict.get? known' r).isSome := by
          simp only [List.find?_eq_none, Bool.and_eq_true, decide_eq_true_eq, Bool.not_eq_true',
            not_and, Dict.mem]
          constructor
          · intro h r hr
            by_cases h1 : r = "default"
            · exact .inl h1
            · right
              have := h r hr h1
              refine ⟨known, rfl, ?_⟩
              cases hg : Dict.get? known r <;> simp_all
          · intro h r hr h1
            rcases h r hr with h2 | ⟨k, hk, h2⟩
            · exact absurd h2 h1
            · cases hk; simp [h2]
        refine ⟨key.mpr, fun hk => .inl ?_⟩
        rw [← Option.ne_none_iff_exists']
        exact fun h => hk (key.mp h)
  constructor
  · intro hk
    have h0 := hbad.1 hk
    unfold submit
    simp only [h0]
    simp only [runW, Prog.bind_eq, Prog.run_bind, Do.run_now, exec, Prog.andThen_ok,
      Prog.pure_eq, Prog.run_pure]
  · intro hk
    rcases hbad.2 hk with ⟨r, h0⟩ | ⟨hn, h0⟩
    · refine .inl ⟨r, ?_⟩
      unfold submit
      simp only [h0]
      rfl
    · refine .inr ⟨hn, ?_⟩
      unfold submit
      simp only [h0]
      rfl

theorem run_insertJob (j : Job) (w : World) :
    ∃ res, runW (insertJob j) w =
      (res, { w with jobs := w.jobs ++ [{ j with id := w.jobSeq + 1 }], jobSeq := w.jobSeq + 1 }) ∧
      (∃ j', res = .ok j') ∧
      (w.WF → (∀ x ∈ w.jobs, x.submittedAt ≠ j.submittedAt) →
        res = .ok { j with id := w.jobSeq + 1 }) := by
  have hw' : w.WF → World.WF { w with jobs := w.jobs ++ [{ j with id := w.jobSeq + 1 }],
                                       jobSeq := w.jobSeq + 1 } := exec_wf (.insertJob j) w
  generalize hnew : ({ w with jobs := w.jobs ++ [{ j with id := w.jobSeq + 1 }],
                              jobSeq := w.jobSeq + 1 } : World) = w' at hw'
  have hstep : runW (insertJob j) w =
      Prog.andThen (exec (.idBySubmitted j.submittedAt) w') (fun id w' => runW (getJobId id) w') := by
    simp only [runW, insertJob, Prog.bind_eq, Prog.run_bind, Do.run_insertJob, exec,
      Prog.andThen_ok, Do.run_idBySubmitted, hnew]
  have hjobs : w'.jobs = w.jobs ++ [{ j with id := w.jobSeq + 1 }] := by rw [← hnew]
  rw [hstep]
  cases hf : w'.jobs.find? (fun x => x.submittedAt == j.submittedAt) with
  | none =>
    exfalso
    rw [List.find?_eq_none] at hf
    exact hf { j with id := w.jobSeq + 1 } (by rw [hjobs]; simp) (by simp)
  | some x =>
    simp only [exec, hf, Prog.andThen_ok]
    have hx := List.find?_some hf
    simp only [beq_iff_eq] at hx
    have hmem := List.mem_of_find?_eq_some hf
    have hsome : ∃ y, w'.job? x.id = some y := by
      rw [← Option.isSome_iff_exists]
      exact (find?_isSome_mem (fun j : Job => j.id) w'.jobs x.id).mpr (List.mem_map_of_mem hmem)
    obtain ⟨y, hy⟩ := hsome
    rw [run_getJobId, hy]
    refine ⟨_, rfl, ⟨y, rfl⟩, ?_⟩
    intro hwf hno
    have hxe : x = { j with id := w.jobSeq + 1 } := by
      rw [hjobs, List.mem_append] at hmem
      rcases hmem with h | h
      · exact absurd hx (hno x h)
      · simpa using h
    have := (hw' hwf).job?_mem hmem
    rw [this] at hy
    rw [← Option.some.inj hy, hxe]

end Tomato
