import Verif.KetchupLemmas

/-!
# Properties of the `ketchup` commands (C01, C02, C04 - C09, C11)

Each theorem is about a complete execution of the command on an arbitrary world.
`World.WF` is the set of table constraints (unique, increasing ids); every operation keeps it
(`exec_wf`) and the empty database satisfies it (`World.wf_empty`).
-/

namespace Tomato.Props

/-! ## A concrete world used in examples and counterexamples -/

/-- A small payload. -/
def pl (sample : String) : Payload := { sample := sample, method := [] }

/-- Three jobs: queued, completed, running. -/
def w3 : World :=
  { jobs := [{ id := 1, payload := pl "a", jobname := some "axb", status := .qw, submittedAt := 10 },
             { id := 2, payload := pl "b", status := .c, submittedAt := 11,
               jobpath := some "Jobs/2", respath := some "r2" },
             { id := 4, payload := pl "c", jobname := some "it's", status := .r, pid := some 77,
               submittedAt := 12, jobpath := some "Jobs/4", respath := some "r4" }],
    jobSeq := 4, clock := 20 }

theorem w3_wf : w3.WF := by
  constructor
  · decide
  · decide
  · decide
  · decide

/-! ## C01, C02, C06: submit -/

/-- **C01** (one submission): a successful submission appends exactly one entry to the queue,
with status `q` and an id larger than all ids handed out so far; nothing else changes.
(`C01_ids_fresh_concurrent` in `Verif/Props/System.lean` extends this to all interleavings.) -/
theorem C01_submit_appends_fresh_job (w : World) (hw : w.WF) (file : PayloadFile)
    (n : Option String) (d : Daemon) (cwd : String) (rep : KReply) (w' : World)
    (hrun : runW (submit file n d cwd) w = (.ok rep, w')) (hs : rep.success = true) :
    ∃ j, w' = { w with jobs := w.jobs ++ [j], jobSeq := j.id } ∧ j.status = .q ∧
      j.pid = none ∧ j.jobname = n ∧ j.submittedAt = w.clock ∧ w.jobSeq < j.id ∧
      (∀ x ∈ w.jobs, x.id < j.id) ∧
      (∃ p, file = .parsed p ∧ SubmittedAs cwd p j.payload) := by
  cases file with
  | missing => cases hrun; cases hs
  | badSuffix => cases hrun; cases hs
  | invalid e => cases hrun
  | parsed p =>
    have hsub := submit_parsed p n d cwd w
    by_cases hk : ReposKnown p d
    · have h1 := hsub.1 hk
      obtain ⟨res, hi, ⟨j', rfl⟩, -⟩ := run_insertJob
        { id := 0, payload := fillPaths p cwd, jobname := n, submittedAt := w.clock } w
      rw [h1, hi] at hrun
      simp only [Prog.andThen_ok, Prod.mk.injEq] at hrun
      refine ⟨_, hrun.2.symm, rfl, rfl, rfl, rfl, Nat.lt_succ_self _, ?_, p, rfl,
        fillPaths_spec p cwd⟩
      intro x hx
      exact Nat.lt_succ_of_le (hw.bound x hx)
    · rcases hsub.2 hk with ⟨r, h2⟩ | ⟨_, h2⟩
      · rw [h2] at hrun
        cases hrun; cases hs
      · rw [h2] at hrun
        cases hrun

example : ∃ rep w', runW (submit (.parsed (pl "s")) (some "n") {} "/home") w3 = (.ok rep, w') ∧
    rep.success = true ∧ w3.WF ∧ w'.jobs.map (·.id) = [1, 2, 4, 5] :=
  ⟨_, _, rfl, rfl, w3_wf, by decide⟩

/-- **C02** (partial): if no other entry of the queue carries the same submission time stamp,
the job in the reply is the entry that this call added.
Missing: the case of equal time stamps, where it is false (`C02_refuted`). -/
theorem C02_submit_reports_own_job_partial (w : World) (hw : w.WF) (p : Payload)
    (n : Option String) (d : Daemon) (cwd : String) (hk : ReposKnown p d)
    (hfresh : ∀ x ∈ w.jobs, x.submittedAt ≠ w.clock) :
    ∃ j w', runW (submit (.parsed p) n d cwd) w =
        (.ok { success := true, msg := .submitted j.id n, data := some (.job j) }, w') ∧
      w'.jobs = w.jobs ++ [j] ∧ j ∉ w.jobs ∧ SubmittedAs cwd p j.payload := by
  have h1 := (submit_parsed p n d cwd w).1 hk
  obtain ⟨res, hi, -, hres⟩ := run_insertJob
    { id := 0, payload := fillPaths p cwd, jobname := n, submittedAt := w.clock } w
  have hr := hres hw hfresh
  subst hr
  rw [hi] at h1
  refine ⟨_, _, h1, rfl, ?_, fillPaths_spec p cwd⟩
  intro hmem
  have := hw.bound _ hmem
  simp at this
  omega

example : w3.WF ∧ ReposKnown (pl "s") {} ∧ ∀ x ∈ w3.jobs, x.submittedAt ≠ w3.clock :=
  ⟨w3_wf, fun r hr => .inl (by simpa [pl] using hr), by decide⟩

/-- **C02 is false in general**: two submissions within the resolution of the clock.  The
second one succeeds, but its reply is the first one's job. -/
theorem C02_refuted : ∃ (w : World) (p : Payload) (rep : KReply) (w' : World) (j0 : Job),
    w.WF ∧ runW (submit (.parsed p) none {} "/home") w = (.ok rep, w') ∧ rep.success = true ∧
    j0 ∈ w.jobs ∧ rep.data = some (.job j0) ∧ rep.msg = .submitted j0.id j0.jobname ∧
    j0.payload.sample ≠ p.sample := by
  refine ⟨{ w3 with clock := 10 }, pl "z", _, _, _, ⟨w3_wf.1, w3_wf.2, w3_wf.3, w3_wf.4⟩, rfl,
    rfl, List.mem_cons_self, ?_, ?_, ?_⟩
  · decide
  · decide
  · decide

/-- **C06**: a submission naming an unknown repository is refused without any effect (it raises if
the settings have no section for repositories), and a submission is accepted only if all its
repositories are configured. -/
theorem C06_repositories_checked (w : World) (p : Payload) (n : Option String) (d : Daemon)
    (cwd : String) :
    (¬ ReposKnown p d → (∃ rep, runW (submit (.parsed p) n d cwd) w = (.ok rep, w) ∧
        rep.success = false ∧ ∃ r, rep.msg = .unknownRepository r) ∨
      (d.settings.repositories = none ∧
        runW (submit (.parsed p) n d cwd) w = (.error .keyError, w))) ∧
    (ReposKnown p d → ∃ rep w', runW (submit (.parsed p) n d cwd) w = (.ok rep, w') ∧
        rep.success = true ∧ w'.jobs.length = w.jobs.length + 1) := by
  have hsub := submit_parsed p n d cwd w
  constructor
  · intro hk
    rcases hsub.2 hk with ⟨r, h⟩ | h
    · exact .inl ⟨_, h, rfl, r, rfl⟩
    · exact .inr h
  · intro hk
    have h1 := hsub.1 hk
    obtain ⟨res, hi, ⟨j', rfl⟩, -⟩ := run_insertJob
      { id := 0, payload := fillPaths p cwd, jobname := n, submittedAt := w.clock } w
    rw [hi] at h1
    exact ⟨_, _, h1, rfl, by simp⟩

example : ¬ ReposKnown { pl "a" with repositories := ["default", "eln"] } {} := by
  intro h
  rcases h "eln" (by simp) with h | ⟨k, hk, h⟩
  · revert h; decide
  · cases hk; revert h; decide
example : ReposKnown { pl "a" with repositories := ["default", "eln"] }
    { settings := { repositories := some [("eln", "url")] } } := by
  intro r hr
  simp only [List.mem_cons, List.not_mem_nil, or_false] at hr
  rcases hr with rfl | rfl
  · exact .inl rfl
  · exact .inr ⟨_, rfl, by decide⟩

/-- **C06**: files that are no payload are refused (or raise) without any effect. -/
theorem C06_bad_files_no_effect (w : World) (file : PayloadFile) (n : Option String) (d : Daemon)
    (cwd : String) (hf : ∀ p, file ≠ .parsed p) :
    (runW (submit file n d cwd) w).2 = w ∧
    ∀ rep, (runW (submit file n d cwd) w).1 = .ok rep → rep.success = false := by
  cases file with
  | parsed p => exact absurd rfl (hf p)
  | missing => exact ⟨rfl, by rintro _ ⟨⟩; rfl⟩
  | badSuffix => exact ⟨rfl, by rintro _ ⟨⟩; rfl⟩
  | invalid e => exact ⟨rfl, by rintro _ ⟨⟩⟩

/-! ## C04: status -/

/-- The jobs asked for: all of them when no id is given. -/
def Asked (ids : List Nat) (j : Job) : Prop := ids = [] ∨ j.id ∈ ids

/-- Every job of the list is mentioned in exactly one group of the message, the one of its
status; and nothing else is mentioned. -/
def MsgLists (m : KMsg) (js : List Job) : Prop :=
  (∃ j, js = [j] ∧ m = .foundOne [j.status]) ∨
  (js.length ≥ 2 ∧ ∃ gs : List (JobStatus × List Nat), m = .foundMany gs ∧ (gs.map (·.1)).Nodup ∧
    (∀ g ∈ gs, g.2 ≠ [] ∧ g.2 = (js.filter (fun j => j.status = g.1)).map (·.id)) ∧
    (∀ j ∈ js, ∃ g ∈ gs, g.1 = j.status ∧ j.id ∈ g.2))

theorem statusGroups_spec (js : List Job) :
    ((statusGroups js).map (·.1)).Nodup ∧
    (∀ g ∈ statusGroups js, g.2 ≠ [] ∧ g.2 = (js.filter (fun j => j.status = g.1)).map (·.id)) ∧
    (∀ j ∈ js, ∃ g ∈ statusGroups js, g.1 = j.status ∧ j.id ∈ g.2) := by
  unfold statusGroups
  refine ⟨?_, ?_, ?_⟩
  · have : List.Sublist
        (((allStatuses.map (fun st => (st, (js.filter (fun j => decide (j.status = st))).map
          (·.id)))).filter (fun g => decide (g.2.length ≥ 1))).map (·.1)) allStatuses := by
      have h1 := (List.filter_sublist (p := fun g : JobStatus × List Nat => decide (g.2.length ≥ 1))
        (l := allStatuses.map (fun st => (st, (js.filter (fun j => decide (j.status = st))).map
          (·.id))))).map (·.1)
      simpa [List.map_map, Function.comp_def] using h1
    exact this.nodup (by decide)
  · intro g hg
    rw [List.mem_filter, List.mem_map] at hg
    obtain ⟨⟨st, -, rfl⟩, hl⟩ := hg
    refine ⟨?_, rfl⟩
    intro he
    simp only at he
    simp [he] at hl
  · intro j hj
    have hmem : j ∈ js.filter (fun x => decide (x.status = j.status)) := by
      rw [List.mem_filter]; exact ⟨hj, by simp⟩
    refine ⟨(j.status, (js.filter (fun x => decide (x.status = j.status))).map (·.id)), ?_, rfl,
      List.mem_map_of_mem hmem⟩
    rw [List.mem_filter, List.mem_map]
    refine ⟨⟨j.status, by cases j.status <;> decide, rfl⟩, ?_⟩
    have : 0 < (js.filter (fun x => decide (x.status = j.status))).length :=
      List.length_pos_of_mem hmem
    simp only [List.length_map, decide_eq_true_eq]
    omega

/-- **C04**: `ketchup status` returns exactly the jobs asked for, each once and in id order,
fails exactly when there are none, changes nothing, and its message accounts for every one. -/
theorem C04_status_exact (w : World) (hw : w.WF) (ids : List Nat) :
    ∃ rep, runW (status ids) w = (.ok rep, w) ∧
      (rep.success = true ↔ ∃ j ∈ w.jobs, Asked ids j) ∧
      (rep.success = false → rep.data = none) ∧
      (rep.success = true → ∃ js, rep.data = some (.jobs js) ∧
        (∀ j, j ∈ js ↔ j ∈ w.jobs ∧ Asked ids j) ∧
        js.Pairwise (fun a b => a.id < b.id) ∧ MsgLists rep.msg js) := by
  have key : ∀ (f : Job → Bool) (m : KMsg), (∀ j ∈ w.jobs, f j = true ↔ Asked ids j) →
      ∃ rep, (if (w.jobs.filter f).length = 0 then
            (({ success := false, msg := m } : KReply))
          else status.found (w.jobs.filter f)) = rep ∧
        (rep.success = true ↔ ∃ j ∈ w.jobs, Asked ids j) ∧
        (rep.success = false → rep.data = none) ∧
        (rep.success = true → ∃ js, rep.data = some (.jobs js) ∧
          (∀ j, j ∈ js ↔ j ∈ w.jobs ∧ Asked ids j) ∧
          js.Pairwise (fun a b => a.id < b.id) ∧ MsgLists rep.msg js) := by
    intro f m hf
    have hmem : ∀ j, j ∈ w.jobs.filter f ↔ j ∈ w.jobs ∧ Asked ids j := by
      intro j
      rw [List.mem_filter]
      constructor
      · rintro ⟨h1, h2⟩; exact ⟨h1, (hf j h1).mp h2⟩
      · rintro ⟨h1, h2⟩; exact ⟨h1, (hf j h1).mpr h2⟩
    have hsort : (w.jobs.filter f).Pairwise (fun a b => a.id < b.id) := hw.sorted.filter _
    generalize w.jobs.filter f = js at hmem hsort
    refine ⟨_, rfl, ?_⟩
    split
    · next h0 =>
      have : js = [] := List.eq_nil_of_length_eq_zero h0
      subst this
      refine ⟨⟨(by rintro ⟨⟩), ?_⟩, (fun _ => rfl), (by rintro ⟨⟩)⟩
      rintro ⟨j, hj, ha⟩
      have := (hmem j).mpr ⟨hj, ha⟩
      simp at this
    · next h0 =>
      have hex : ∃ j ∈ w.jobs, Asked ids j := by
        cases js with
        | nil => simp at h0
        | cons j js => exact ⟨j, (hmem j).mp (by simp)⟩
      unfold status.found
      split
      · next h1 =>
        obtain ⟨j, rfl⟩ := List.length_eq_one_iff.mp h1
        refine ⟨⟨fun _ => hex, fun _ => rfl⟩, (by rintro ⟨⟩), fun _ => ⟨_, rfl, hmem, hsort, ?_⟩⟩
        exact .inl ⟨j, rfl, rfl⟩
      · next h1 =>
        refine ⟨⟨fun _ => hex, fun _ => rfl⟩, (by rintro ⟨⟩), fun _ => ⟨_, rfl, hmem, hsort, ?_⟩⟩
        refine .inr ⟨by omega, _, rfl, ?_⟩
        exact statusGroups_spec js
  unfold status
  by_cases h0 : ids.length = 0
  · rw [if_pos h0]
    have : ids = [] := List.eq_nil_of_length_eq_zero h0
    obtain ⟨rep, h1, h2⟩ := key (fun _ => true) .queueEmpty (by
      intro j _; simp [Asked, this])
    refine ⟨rep, ?_, h2⟩
    simp only [runW, Prog.bind_eq, Prog.run_bind, Do.run_jobsWhere, exec, Prog.andThen_ok, ← h1]
    split <;> rfl
  · rw [if_neg h0]
    have hne : ids ≠ [] := by rintro rfl; exact h0 rfl
    obtain ⟨rep, h1, h2⟩ := key (fun j => ids.contains j.id) (.noJob ids) (by
      intro j _; simp [Asked, hne])
    refine ⟨rep, ?_, h2⟩
    simp only [runW, Prog.bind_eq, Prog.run_bind, Do.run_jobsWhere, exec, Prog.andThen_ok, ← h1]
    split <;> rfl

example : (runW (status [4, 9, 1, 4]) w3).1 =
    .ok { success := true, msg := .foundMany [(.qw, [1]), (.r, [4])],
          data := some (.jobs [w3.jobs[0], w3.jobs[2]]) } := by rfl
example : ∃ j ∈ w3.jobs, Asked [4, 9, 1, 4] j := ⟨w3.jobs[0], by decide, .inr (by decide)⟩

/-! ## C05: search -/

/-- The name of the job contains the text, ignoring ASCII case. -/
def NameContains (s : String) (j : Job) : Prop :=
  ∃ n, j.jobname = some n ∧ s.toList.map Char.toLower <:+: n.toList.map Char.toLower

/-- **C05** (partial): for texts without the special characters `%`, `_` and `'`, search is
substring search.  Missing: the special characters, for which it is false (`C05_refuted`). -/
theorem C05_search_substring_partial (w : World) (s : String)
    (hs : ∀ c ∈ s.toList, c ≠ '%' ∧ c ≠ '_' ∧ c ≠ '\'') :
    ∃ rep, runW (search s) w = (.ok rep, w) ∧
      (rep.success = true ↔ ∃ j ∈ w.jobs, NameContains s j) ∧
      (rep.success = true → ∃ js, rep.data = some (.jobs js) ∧ List.Sublist js w.jobs ∧
        (∀ j ∈ w.jobs, j ∈ js ↔ NameContains s j) ∧ rep.msg = .searchFound (js.map (·.id))) := by
  have hlit : sqlLiteral ('%' :: (s.toList ++ ['%', '\''])) =
      some ('%' :: (s.toList ++ ['%'])) := by
    have h1 := sqlLiteral_plain ('%' :: (s.toList ++ ['%'])) ['\''] (by
      intro c hc
      simp only [List.mem_cons, List.mem_append, List.not_mem_nil, or_false] at hc
      rcases hc with rfl | hc | rfl
      · decide
      · exact (hs c hc).2.2
      · decide)
    have h2 : sqlLiteral ['\''] = some [] := by decide
    rw [h2] at h1
    simpa using h1
  have hlike : ∀ n : List Char, like ('%' :: (s.toList ++ ['%'])) n = true ↔
      s.toList.map Char.toLower <:+: n.map Char.toLower := by
    intro n
    unfold like
    rw [if_pos rfl, anySuffix_iff]
    simp only [like_literal s.toList (fun c hc => ⟨(hs c hc).1, (hs c hc).2.1⟩)]
    constructor
    · rintro ⟨a, b, rfl, h⟩
      rw [List.map_append]
      exact h.isInfix.trans (List.suffix_append _ _).isInfix
    · rintro ⟨a, b, h⟩
      have hlen := congrArg List.length h
      simp only [List.length_append, List.length_map] at hlen
      refine ⟨n.take a.length, n.drop a.length, (List.take_append_drop _ _).symm, b, ?_⟩
      have h2 := congrArg (List.drop a.length) h
      rw [List.append_assoc, List.drop_append_of_le_length (Nat.le_refl _), List.drop_length,
        List.nil_append] at h2
      rw [h2, List.map_drop]
  unfold search
  simp only [hlit]
  simp only [runW, Prog.bind_eq, Prog.run_bind, Do.run_jobsWhere, exec, Prog.andThen_ok]
  generalize hf : (fun j : Job => match j.jobname with
      | none => false
      | some n => like ('%' :: (s.toList ++ ['%'])) n.toList) = f
  have hf' : ∀ j, f j = true ↔ NameContains s j := by
    intro j
    subst hf
    unfold NameContains
    cases hj : j.jobname with
    | none => simp only [hj]; simp
    | some n => simp only [hj, hlike]; simp
  have hmem : ∀ j ∈ w.jobs, j ∈ w.jobs.filter f ↔ NameContains s j := by
    intro j hj
    rw [List.mem_filter, hf']
    exact ⟨fun h => h.2, fun h => ⟨hj, h⟩⟩
  split
  · next h0 =>
    refine ⟨_, rfl, ⟨fun _ => ?_, fun _ => rfl⟩, fun _ => ⟨_, rfl, List.filter_sublist, hmem, rfl⟩⟩
    obtain ⟨j, hj⟩ := List.exists_mem_of_length_pos h0
    have := List.mem_filter.mp hj
    exact ⟨j, this.1, (hf' j).mp this.2⟩
  · next h0 =>
    refine ⟨_, rfl, ⟨(by rintro ⟨⟩), ?_⟩, (by rintro ⟨⟩)⟩
    rintro ⟨j, hj, hn⟩
    exact absurd (List.length_pos_of_mem ((hmem j hj).mpr hn)) h0

example : ∀ c ∈ "XB".toList, c ≠ '%' ∧ c ≠ '_' ∧ c ≠ '\'' := by decide
example : ∃ rep, (runW (search "XB") w3).1 = .ok rep ∧ rep.msg = .searchFound [1] :=
  ⟨_, rfl, by decide⟩

/-- **C05 is false in general**: `_` (and `%`) act as wildcards, and a quote breaks the
query: searching `a_b` finds the job named `axb`, searching `it's` raises although there is a
job with that very name. -/
theorem C05_refuted :
    (∃ rep js, (runW (search "a_b") w3).1 = .ok rep ∧ rep.data = some (.jobs js) ∧
      ∃ j ∈ js, ¬ NameContains "a_b" j) ∧
    (runW (search "it's") w3).1 = .error .operationalError ∧
    (∃ j ∈ w3.jobs, NameContains "it's" j) := by
  refine ⟨⟨_, [w3.jobs[0]], rfl, by decide, w3.jobs[0], by simp, ?_⟩, by rfl,
    ⟨w3.jobs[2], by decide, "it's", by decide, by decide⟩⟩
  rintro ⟨n, hn, hi⟩
  have : n = "axb" := by
    have h2 : (w3.jobs[0]).jobname = some "axb" := by decide
    rw [h2] at hn
    exact (Option.some.inj hn).symm
  subst this
  revert hi
  decide

/-! ## C07 - C09: cancel -/

theorem run_cancel (w : World) (ids : List Nat) :
    runW (cancel ids) w =
      match ids.find? (fun i => !((w.jobs.filter (fun j => ids.contains j.id)).map (·.id)).contains i) with
      | some i => (.ok { success := false, msg := .doesNotExist i }, w)
      | none => Prog.andThen
          (runW (cancelLoop ids.getLast? (w.jobs.filter (fun j => ids.contains j.id)) none []) w)
          (fun data w' => (.ok { success := true,
                                 msg := if data.length = 0 then .alreadyCancelled
                                        else .cancelled (data.map (·.id)),
                                 data := some (.jobs data) }, w')) := by
  unfold cancel
  simp only [runW, Prog.bind_eq, Prog.run_bind, Do.run_jobsWhere, exec, Prog.andThen_ok]
  split
  · next h => rw [h]; rfl
  · next h =>
    rw [h]
    simp only [Prog.run_bind, Prog.pure_eq, Prog.run_pure]

/-- Is some requested id unknown? -/
theorem cancel_unknown_iff (w : World) (ids : List Nat) :
    (ids.find? (fun i => !((w.jobs.filter (fun j => ids.contains j.id)).map (·.id)).contains i)).isSome
      = true ↔ ∃ i ∈ ids, ∀ j ∈ w.jobs, j.id ≠ i := by
  rw [List.find?_isSome]
  constructor
  · rintro ⟨i, hi, h⟩
    refine ⟨i, hi, ?_⟩
    intro j hj he
    simp only [Bool.not_eq_true', List.contains_eq_mem, decide_eq_false_iff_not, List.mem_map,
      List.mem_filter, not_exists, not_and] at h
    exact h j ⟨hj, by simp [he, hi]⟩ he
  · rintro ⟨i, hi, h⟩
    refine ⟨i, hi, ?_⟩
    simp only [Bool.not_eq_true', List.contains_eq_mem, decide_eq_false_iff_not, List.mem_map,
      List.mem_filter, not_exists, not_and]
    rintro j ⟨hj, -⟩ he
    exact h j hj he

/-- **C08**: whatever `ketchup cancel` is called with, and whatever it answers (or raises), it
changes at most the status column of listed jobs; and nothing at all if an id is unknown. -/
theorem C08_cancel_touches_only_listed (w : World) (ids : List Nat) :
    (∃ f : Job → JobStatus,
      (runW (cancel ids) w).2 = { w with jobs := w.jobs.map (fun j => { j with status := f j }) } ∧
      (∀ j, j.id ∉ ids → f j = j.status)) ∧
    ((∃ i ∈ ids, ∀ j ∈ w.jobs, j.id ≠ i) →
      ∃ rep, runW (cancel ids) w = (.ok rep, w) ∧ rep.success = false) := by
  constructor
  · rw [run_cancel]
    split
    · exact ⟨(·.status), by simp, fun _ _ => rfl⟩
    · obtain ⟨f, hf, hf'⟩ := cancelLoop_effect ids.getLast?
        (w.jobs.filter (fun j => ids.contains j.id)) none (by rintro _ ⟨⟩) [] w
      refine ⟨f, ?_, ?_⟩
      · rw [show (w.jobs.map fun j => { j with status := f j }) = setStatuses f w.jobs from rfl, ← hf]
        exact Prog.andThen_snd _ _
      · intro j hj
        apply hf'
        intro hlast
        exact hj (List.mem_of_getLast? hlast.symm)
  · intro hex
    rw [run_cancel]
    obtain ⟨i, hi⟩ := Option.isSome_iff_exists.mp ((cancel_unknown_iff w ids).mpr hex)
    rw [hi]
    exact ⟨_, rfl, rfl⟩

example : ∃ i ∈ [1, 3], ∀ j ∈ w3.jobs, j.id ≠ i := ⟨3, by decide, by decide⟩

/-- **C07** (partial): cancelling a single existing job that is not already being cancelled
(`rd`) succeeds, turns `q`/`qw` into `cd` and `r` into `rd`, leaves a finished job alone, and
the reply lists the job iff its status was changed.
Missing: lists with several ids (false: `C07_refuted`) and a job in status `rd` (raises:
`C07_refuted_rd`). -/
theorem C07_cancel_one_partial (w : World) (hw : w.WF) (j : Job) (hj : j ∈ w.jobs)
    (hrd : j.status ≠ .rd) :
    ∃ rep w' js, runW (cancel [j.id]) w = (.ok rep, w') ∧ rep.success = true ∧
      rep.data = some (.jobs js) ∧
      (j.status = .q ∨ j.status = .qw → w'.job? j.id = some { j with status := .cd } ∧
        js = [{ j with status := .cd }] ∧ rep.msg = .cancelled [j.id]) ∧
      (j.status = .r → w'.job? j.id = some { j with status := .rd } ∧
        js = [{ j with status := .rd }] ∧ rep.msg = .cancelled [j.id]) ∧
      (j.status.final = true → w' = w ∧ js = [] ∧ rep.msg = .alreadyCancelled) := by
  have hfil : w.jobs.filter (fun x => [j.id].contains x.id) = [j] := by
    have h1 : ∀ l : List Job, l.Pairwise (fun a b => a.id < b.id) → j ∈ l →
        l.filter (fun x => [j.id].contains x.id) = [j] := by
      intro l
      induction l with
      | nil => intro _ h; simp at h
      | cons a l ih =>
        intro hp hm
        rw [List.pairwise_cons] at hp
        rcases List.mem_cons.mp hm with rfl | hm'
        · rw [List.filter_cons_of_pos (by simp)]
          congr 1
          rw [List.filter_eq_nil_iff]
          intro x hx
          have := hp.1 x hx
          simp; omega
        · rw [List.filter_cons_of_neg]
          · exact ih hp.2 hm'
          · have := hp.1 j hm'
            simp; omega
    exact h1 w.jobs hw.sorted hj
  have hnone : [j.id].find? (fun i => !([j].map (·.id)).contains i) = none := by simp
  rw [run_cancel, hfil, hnone]
  have hrow := hw.job?_mem hj
  have hupd : ∀ st : JobStatus, runW (updateJobId j.id [.status st]) w =
      (.ok { j with status := st }, { w with jobs := updJobs j.id [.status st] w.jobs }) := by
    intro st; rw [run_updateJobId, hrow]; rfl
  have hloop : ∀ st : JobStatus, cancelParams j.status none = some (some [.status st]) →
      runW (cancelLoop [j.id].getLast? [j] none []) w =
        (.ok [{ j with status := st }], { w with jobs := updJobs j.id [.status st] w.jobs }) := by
    intro st hc
    have := hupd st
    simp only [runW] at this
    simp only [List.getLast?_singleton, cancelLoop, hc, runW, Prog.bind_eq, Prog.run_bind, this,
      Prog.andThen_ok]
    rfl
  have hafter : ∀ st : JobStatus,
      World.job? { w with jobs := updJobs j.id [.status st] w.jobs } j.id =
        some { j with status := st } := by
    intro st; rw [job?_update, hrow]; simp; rfl
  have hqc : j.status = .q ∨ j.status = .qw → cancelParams j.status none = some (some [.status .cd]) := by
    rintro (h | h) <;> rw [h] <;> rfl
  have hrc : j.status = .r → cancelParams j.status none = some (some [.status .rd]) := by
    intro h; rw [h]; rfl
  by_cases h1 : j.status = .q ∨ j.status = .qw
  · rw [hloop .cd (hqc h1)]
    refine ⟨_, _, _, rfl, rfl, rfl, fun _ => ⟨hafter .cd, rfl, rfl⟩, ?_, ?_⟩
    · intro h; rcases h1 with h1 | h1 <;> rw [h1] at h <;> cases h
    · intro h; rcases h1 with h1 | h1 <;> rw [h1] at h <;> cases h
  · by_cases h2 : j.status = .r
    · rw [hloop .rd (hrc h2)]
      refine ⟨_, _, _, rfl, rfl, rfl, fun h => absurd h h1, fun _ => ⟨hafter .rd, rfl, rfl⟩, ?_⟩
      intro h; rw [h2] at h; cases h
    · have h3 : j.status.final = true := by
        cases hs : j.status <;> simp_all [JobStatus.final]
      rw [cancelLoop_final _ _ _ _ _ (by simpa using h3)]
      exact ⟨_, _, _, rfl, rfl, rfl, fun h => absurd h h1, fun h => absurd h h2,
        fun _ => ⟨rfl, rfl, rfl⟩⟩

example : w3.jobs[0] ∈ w3.jobs ∧ (w3.jobs[0]).status ≠ .rd ∧ w3.WF := ⟨by decide, by decide, w3_wf⟩

/-- **C07 is false in general**: cancelling a queued and a running job in one call.  The call
reports success and lists the running job twice; the queued job is not cancelled. -/
theorem C07_refuted : ∃ (w : World) (rep : KReply) (w' : World) (j1 j4 : Job),
    w.WF ∧ runW (cancel [1, 4]) w = (.ok rep, w') ∧ rep.success = true ∧
    j1 ∈ w.jobs ∧ j1.id = 1 ∧ j1.status = .qw ∧ w'.job? 1 = some j1 ∧
    j4 ∈ w.jobs ∧ j4.id = 4 ∧ rep.msg = .cancelled [4, 4] :=
  ⟨w3, _, _, w3.jobs[0], w3.jobs[2], w3_wf, rfl, rfl, by decide, rfl, rfl, by decide, by decide,
    rfl, by decide⟩

/-- **C07, cancelling again**: a job that is being cancelled (`rd`) makes the command raise. -/
theorem C07_refuted_rd : ∃ (w : World), w.WF ∧ (∃ j ∈ w.jobs, j.id = 1) ∧
    (runW (cancel [1]) w).1 = .error .unboundLocalError :=
  ⟨{ jobs := [{ id := 1, payload := pl "a", status := .rd, submittedAt := 0 }], jobSeq := 1 },
    by constructor <;> decide, by decide, rfl⟩

/-- **C09** (partial): a finished job keeps its status (its whole row) unless it is the last one
of a list that also contains an unfinished job.  Missing: that last case, where it is false (`C09_refuted`). -/
theorem C09_finished_unaffected_partial (w : World) (hw : w.WF) (ids : List Nat) (j : Job)
    (hj : j ∈ w.jobs)
    (hcase : ids.getLast? ≠ some j.id ∨
      ∀ x ∈ w.jobs, x.id ∈ ids → x.status.final = true) :
    (runW (cancel ids) w).2.job? j.id = some j := by
  have hrow := hw.job?_mem hj
  rw [run_cancel]
  split
  · exact hrow
  · rcases hcase with hlast | hall
    · obtain ⟨f, hf, hf'⟩ := cancelLoop_effect ids.getLast?
        (w.jobs.filter (fun j => ids.contains j.id)) none (by rintro _ ⟨⟩) [] w
      rw [Prog.andThen_snd, hf]
      have hfj : f j = j.status := hf' j (fun h => hlast h.symm)
      have hmem : j ∈ setStatuses f w.jobs := by
        unfold setStatuses
        rw [List.mem_map]
        exact ⟨j, hj, by rw [hfj]⟩
      have hids : (setStatuses f w.jobs).map (·.id) = w.jobs.map (·.id) := by
        simp [setStatuses]
      exact find?_of_nodup (key := fun j : Job => j.id) (by rw [hids]; exact hw.idsNodup) hmem
    · rw [cancelLoop_final]
      · exact hrow
      · intro x hx
        rw [List.mem_filter] at hx
        exact hall x hx.1 (by simpa using hx.2)

example : w3.jobs[1] ∈ w3.jobs ∧ (w3.jobs[1]).status.final = true ∧
    [2, 1].getLast? ≠ some (w3.jobs[1]).id := by decide

/-- **C09 is false in general**: cancelling the list `[1, 2]`, where job 2 is complete, turns
job 2 into a cancelled one. -/
theorem C09_refuted : ∃ (w : World) (rep : KReply) (w' : World) (j j' : Job),
    w.WF ∧ runW (cancel [1, 2]) w = (.ok rep, w') ∧ rep.success = true ∧
    w.job? 2 = some j ∧ j.status = .c ∧ w'.job? 2 = some j' ∧ j'.status = .cd :=
  ⟨w3, _, _, _, _, w3_wf, rfl, rfl, rfl, by decide, rfl, by decide⟩

/-! ## C11: snapshot -/

/-- The complaint of `snapshot` describes an offending id. -/
theorem snapshotCheck_spec (rjobs : List Job) (ids : List Nat) :
    (snapshotCheck rjobs ids = none ↔
      ∀ i ∈ ids, ∃ j, rjobs.find? (fun j => j.id == i) = some j ∧ j.status.queued = false) := by
  induction ids with
  | nil => simp [snapshotCheck]
  | cons i ids ih =>
    unfold snapshotCheck
    cases hf : rjobs.find? (fun j => j.id == i) with
    | none => simp [hf]
    | some j =>
      by_cases hq : j.status.queued = true
      · simp [hf, hq]
      · simp only [hq, Bool.false_eq_true, if_false, ih]
        simp [hf, hq]

theorem find?_filter_asked (l : List Job) (ids : List Nat) (i : Nat) (hi : i ∈ ids) :
    (l.filter (fun j => ids.contains j.id)).find? (fun j => j.id == i) =
      l.find? (fun j => j.id == i) := by
  induction l with
  | nil => rfl
  | cons a l ih =>
    by_cases h : ids.contains a.id = true
    · rw [List.filter_cons_of_pos (p := fun j : Job => ids.contains j.id) h, List.find?_cons, List.find?_cons, ih]
    · rw [List.filter_cons_of_neg (p := fun j : Job => ids.contains j.id) h, List.find?_cons, ih]
      have : (a.id == i) = false := by
        simp only [beq_eq_false_iff_ne]
        rintro rfl
        exact h (by simpa using hi)
      rw [this]

/-- The first half of **C11**: if some requested job is unknown or still queued, `snapshot`
fails and does nothing. -/
theorem C11_snapshot_refused (w : World) (ids : List Nat)
    (hbad : ∃ i ∈ ids, w.job? i = none ∨ ∃ j, w.job? i = some j ∧ j.status.queued = true) :
    ∃ rep, runW (snapshot ids) w = (.ok rep, w) ∧ rep.success = false := by
  have hne : snapshotCheck (w.jobs.filter (fun j => ids.contains j.id)) ids ≠ none := by
    intro h
    rw [snapshotCheck_spec] at h
    obtain ⟨i, hi, hb⟩ := hbad
    obtain ⟨j, hj, hq⟩ := h i hi
    rw [find?_filter_asked _ _ _ hi] at hj
    have hj' : w.job? i = some j := hj
    rcases hb with hb | ⟨j2, hb, hq2⟩
    · rw [hb] at hj'; cases hj'
    · rw [hb] at hj'; cases hj'; rw [hq] at hq2; cases hq2
  unfold snapshot
  simp only [runW, Prog.bind_eq, Prog.run_bind, Do.run_jobsWhere, exec, Prog.andThen_ok]
  split
  · exact ⟨_, rfl, rfl⟩
  · next h => exact absurd h hne

example : ∃ i ∈ [2, 1], w3.job? i = none ∨ ∃ j, w3.job? i = some j ∧ j.status.queued = true :=
  ⟨1, by simp, .inr ⟨_, rfl, rfl⟩⟩

/-- **C11** (partial): otherwise, if all requested jobs have reached the stage where their
folder is known and their intermediate data can be read, a snapshot is written for each of
them.  Missing: jobs without a folder on record, for which the command raises
(`C11_refuted`). -/
theorem C11_snapshot_written_partial (w : World) (hw : w.WF) (ids : List Nat)
    (hok : ∀ i ∈ ids, ∃ j, w.job? i = some j ∧ j.status.queued = false ∧ j.jobpath.isSome = true ∧
      w.badPickle i = false) :
    ∃ rep w' files, runW (snapshot ids) w = (.ok rep, w') ∧ rep.success = true ∧
      w' = { w with merged := w.merged ++ files } ∧
      (∀ f, f ∈ files ↔ ∃ i ∈ ids, f = (i, s!"snapshot.{i}.nc")) := by
  have hnone : snapshotCheck (w.jobs.filter (fun j => ids.contains j.id)) ids = none := by
    rw [snapshotCheck_spec]
    intro i hi
    obtain ⟨j, hj, hq, -⟩ := hok i hi
    exact ⟨j, by rw [find?_filter_asked _ _ _ hi]; exact hj, hq⟩
  have hloop : ∀ (js : List Job) (w0 : World), w0.badPickle = w.badPickle →
      (∀ j ∈ js, j.jobpath.isSome = true ∧ w.badPickle j.id = false) →
      runW (Prog.forEach js (fun j => Do.merge j.id j.jobpath (some (snapshotPath j.id)))) w0 =
        (.ok (), { w0 with merged := w0.merged ++ js.map (fun j => (j.id, snapshotPath j.id)) }) := by
    intro js
    induction js with
    | nil => intro w0 _ _; simp
    | cons j js ih =>
      intro w0 hb hjs
      obtain ⟨h1, h2⟩ := hjs j (by simp)
      have hjp : j.jobpath.isNone = false := by
        cases hp : j.jobpath <;> simp_all
      have := ih { w0 with merged := w0.merged ++ [(j.id, snapshotPath j.id)] } hb
        (fun x hx => hjs x (by simp [hx]))
      simp only [runW] at this
      have hb2 : w0.badPickle j.id = false := by rw [hb]; exact h2
      simp only [runW, Prog.run_forEach_cons, Do.run_merge, exec, hjp, hb2]
      simp only [Bool.false_eq_true, if_false, Prog.andThen_ok, this]
      simp
  have hjs : ∀ j ∈ w.jobs.filter (fun j => ids.contains j.id),
      j.jobpath.isSome = true ∧ w.badPickle j.id = false := by
    intro j hj
    rw [List.mem_filter] at hj
    obtain ⟨j', hj', -, h1, h2⟩ := hok j.id (by simpa using hj.2)
    rw [hw.job?_mem hj.1] at hj'
    cases hj'
    exact ⟨h1, h2⟩
  have hl := hloop _ w rfl hjs
  simp only [runW] at hl
  unfold snapshot
  simp only [runW, Prog.bind_eq, Prog.run_bind, Do.run_jobsWhere, exec, Prog.andThen_ok, hnone,
    hl, Prog.pure_eq, Prog.run_pure]
  refine ⟨_, _, _, rfl, rfl, rfl, ?_⟩
  rintro ⟨a, b⟩
  simp only [List.mem_map, List.mem_filter, Prod.mk.injEq, snapshotPath]
  constructor
  · rintro ⟨j, ⟨hj, hi⟩, rfl, rfl⟩
    exact ⟨j.id, by simpa using hi, rfl, rfl⟩
  · rintro ⟨i, hi, rfl, rfl⟩
    obtain ⟨j, hj, -⟩ := hok a hi
    obtain ⟨h1, h2⟩ := job?_some hj
    exact ⟨j, ⟨h2, by simpa [h1] using hi⟩, h1, by rw [h1]⟩

example : ∀ i ∈ [4, 2, 4], ∃ j, w3.job? i = some j ∧ j.status.queued = false ∧
    j.jobpath.isSome = true ∧ w3.badPickle i = false := by
  intro i hi
  simp at hi
  rcases hi with rfl | rfl | rfl
  · exact ⟨w3.jobs[2], rfl, rfl, rfl, rfl⟩
  · exact ⟨w3.jobs[1], rfl, rfl, rfl, rfl⟩
  · exact ⟨w3.jobs[2], rfl, rfl, rfl, rfl⟩

/-- **C11**, the remaining case: of the requested jobs, all of them known and not queued, `i` is
the one with the lowest number whose folder is not on record or whose intermediate data can not be
read.  Then the command raises, the snapshots of exactly the requested jobs with lower numbers have
been written (in whatever order they were asked for), and nothing else has changed.  Together with
`C11_snapshot_refused` and `C11_snapshot_written_partial` this is the outcome for every list. -/
theorem C11_exact (w : World) (hw : w.WF) (ids : List Nat) (i : Nat) (j : Job)
    (hok : ∀ k ∈ ids, ∃ x, w.job? k = some x ∧ x.status.queued = false)
    (hi : i ∈ ids) (hj : w.job? i = some j)
    (hbad : j.jobpath = none ∨ w.badPickle i = true)
    (hlow : ∀ k ∈ ids, k < i → ∃ x, w.job? k = some x ∧ x.jobpath.isSome = true ∧
      w.badPickle k = false) :
    ∃ e files, runW (snapshot ids) w = (.error e, { w with merged := w.merged ++ files }) ∧
      (e = .assertionError ↔ j.jobpath = none) ∧
      (∀ f, f ∈ files ↔ ∃ k ∈ ids, k < i ∧ f = (k, s!"snapshot.{k}.nc")) := by
  have hnone : snapshotCheck (w.jobs.filter (fun j => ids.contains j.id)) ids = none := by
    rw [snapshotCheck_spec]
    intro k hk
    obtain ⟨x, hx, hq⟩ := hok k hk
    exact ⟨x, by rw [find?_filter_asked _ _ _ hk]; exact hx, hq⟩
  obtain ⟨hji, hjm⟩ := job?_some hj
  have hloop : ∀ (js : List Job) (w0 : World), w0.badPickle = w.badPickle →
      js.Pairwise (fun a b => a.id < b.id) → j ∈ js →
      (∀ x ∈ js, x.id < i → x.jobpath.isSome = true ∧ w.badPickle x.id = false) →
      ∃ e, runW (Prog.forEach js (fun j => Do.merge j.id j.jobpath (some (snapshotPath j.id)))) w0 =
        (.error e, { w0 with merged := w0.merged ++
          (js.filter (fun x => x.id < i)).map (fun x => (x.id, snapshotPath x.id)) }) ∧
        (e = .assertionError ↔ j.jobpath = none) := by
    intro js
    induction js with
    | nil => intro w0 _ _ h; cases h
    | cons a js ih =>
      intro w0 hb hp hmem hjs
      rw [List.pairwise_cons] at hp
      by_cases hlt : a.id < i
      · have hne : j ≠ a := by rintro rfl; omega
        obtain ⟨h1, h2⟩ := hjs a (by simp) hlt
        have hjp : a.jobpath.isNone = false := by
          cases hp : a.jobpath <;> simp_all
        obtain ⟨e, he, hea⟩ := ih { w0 with merged := w0.merged ++ [(a.id, snapshotPath a.id)] } hb
          hp.2 ((List.mem_cons.mp hmem).resolve_left hne) (fun x hx => hjs x (by simp [hx]))
        simp only [runW] at he
        have hb2 : w0.badPickle a.id = false := by rw [hb]; exact h2
        refine ⟨e, ?_, hea⟩
        simp only [runW, Prog.run_forEach_cons, Do.run_merge, exec, hjp, hb2]
        simp only [Bool.false_eq_true, if_false, Prog.andThen_ok, he]
        simp [hlt]
      · have haj : j = a := by
          rcases List.mem_cons.mp hmem with h | h
          · exact h
          · have := hp.1 j h
            omega
        subst haj
        have hnil : (j :: js).filter (fun x => x.id < i) = [] := by
          rw [List.filter_eq_nil_iff]
          intro x hx
          rcases List.mem_cons.mp hx with rfl | hx
          · simpa using hlt
          · have := hp.1 x hx
            simp only [decide_eq_true_eq]
            omega
        simp only [hnil, List.map_nil, List.append_nil]
        cases hjp : j.jobpath with
        | none =>
          refine ⟨.assertionError, ?_, by simp⟩
          simp [runW, Prog.run_forEach_cons, Do.run_merge, exec, hjp]
        | some q =>
          have hb2 : w0.badPickle j.id = true := by
            rw [hb, hji]
            simpa [hjp] using hbad
          refine ⟨.eofError, ?_, by simp⟩
          simp [runW, Prog.run_forEach_cons, Do.run_merge, exec, hjp, hb2]
  obtain ⟨e, he, hea⟩ := hloop (w.jobs.filter (fun j => ids.contains j.id)) w rfl
    (hw.sorted.filter _) (by rw [List.mem_filter]; exact ⟨hjm, by simpa [hji] using hi⟩)
    (by
      intro x hx hlt
      rw [List.mem_filter] at hx
      obtain ⟨x', hx', h1, h2⟩ := hlow x.id (by simpa using hx.2) hlt
      rw [hw.job?_mem hx.1] at hx'
      cases hx'
      exact ⟨h1, h2⟩)
  simp only [runW] at he
  refine ⟨e, (List.filter (fun x => decide (x.id < i))
    (w.jobs.filter (fun j => ids.contains j.id))).map (fun x => (x.id, snapshotPath x.id)), ?_, hea, ?_⟩
  · unfold snapshot
    simp only [runW, Prog.bind_eq, Prog.run_bind, Do.run_jobsWhere, exec, Prog.andThen_ok, hnone, he]
    rfl
  · rintro ⟨a, b⟩
    simp only [List.mem_map, List.mem_filter, Prod.mk.injEq, snapshotPath, decide_eq_true_eq]
    constructor
    · rintro ⟨x, ⟨⟨hx, hin⟩, hlt⟩, rfl, rfl⟩
      exact ⟨x.id, by simpa using hin, hlt, rfl, rfl⟩
    · rintro ⟨k, hk, hlt, rfl, rfl⟩
      obtain ⟨x, hx, -⟩ := hok a hk
      obtain ⟨h1, h2⟩ := job?_some hx
      exact ⟨x, ⟨⟨h2, by simpa [h1] using hk⟩, by rw [h1]; exact hlt⟩, h1, by rw [h1]⟩

/-- The case of `C11_exact`, with a job cancelled while it was queued between two others: asked for
all three, the command raises after the first snapshot. -/
example :
    let w : World := { w3 with jobs := w3.jobs.map (fun j =>
      if j.id = 1 then { j with status := .c, jobpath := some "Jobs/1" }
      else if j.id = 2 then { j with status := .cd, jobpath := none } else j) }
    (∀ k ∈ [4, 2, 1], ∃ x, w.job? k = some x ∧ x.status.queued = false) ∧
    (∃ j, w.job? 2 = some j ∧ j.jobpath = none) ∧
    (runW (snapshot [4, 2, 1]) w).1 = .error .assertionError ∧
    (runW (snapshot [4, 2, 1]) w).2.merged = [(1, "snapshot.1.nc")] := by
  refine ⟨?_, ⟨_, rfl, rfl⟩, rfl, rfl⟩
  intro k hk
  simp at hk
  rcases hk with rfl | rfl | rfl <;> exact ⟨_, rfl, rfl⟩

/-- **C11 is false in general**: a job cancelled while queued is not queued any more, but has
no folder, and asking for its snapshot raises. -/
theorem C11_refuted : ∃ (w : World) (j : Job), w.WF ∧ w.job? 1 = some j ∧
    j.status.queued = false ∧ (runW (snapshot [1]) w).1 = .error .assertionError :=
  ⟨{ jobs := [{ id := 1, payload := pl "a", status := .cd, submittedAt := 0 }], jobSeq := 1 }, _,
    by constructor <;> decide, rfl, rfl, rfl⟩

end Tomato.Props
