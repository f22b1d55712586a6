import Verif.Props.Ketchup
import Mathlib.Tactic.Set
import Mathlib.Tactic.ByContra

/-!
# The exact effect of submit, search and cancel (C02, C05, C07, C09)

For each of these commands the property of `properties.jsonl` is false of the code.  The theorems
here say what the commands do instead, in every case, and hence exactly when the property holds.
-/

namespace Tomato.Props

/-! ## C02: the job in the reply -/

/-- **C02**, exactly: a submission adds its job to the queue in every case; the job in the reply is
the *first* entry with this time stamp.  It is the new job if and only if no other entry carries the
time stamp. -/
theorem C02_exact (w : World) (hw : w.WF) (p : Payload)
    (n : Option String) (d : Daemon) (cwd : String) (hk : ReposKnown p d) :
    ∃ own rep w', runW (submit (.parsed p) n d cwd) w =
        (.ok { success := true, msg := .submitted rep.id rep.jobname, data := some (.job rep) }, w') ∧
      w'.jobs = w.jobs ++ [own] ∧ own ∉ w.jobs ∧ SubmittedAs cwd p own.payload ∧
      own.submittedAt = w.clock ∧
      (∃ before after, w'.jobs = before ++ rep :: after ∧ rep.submittedAt = w.clock ∧
        ∀ x ∈ before, x.submittedAt ≠ w.clock) ∧
      (rep = own ↔ ∀ x ∈ w.jobs, x.submittedAt ≠ w.clock) := by
  have h1 := (submit_parsed p n d cwd w).1 hk
  set own : Job := { id := w.jobSeq + 1, payload := fillPaths p cwd, jobname := n, submittedAt := w.clock } with hown
  have hins : w.WF := hw
  have hnotin : own ∉ w.jobs := by
    intro hmem
    have := hw.bound _ hmem
    simp [hown] at this
    omega
  set w' : World := { w with jobs := w.jobs ++ [own], jobSeq := w.jobSeq + 1 } with hw'
  have hwf' : w'.WF := by
    have := exec_wf (.insertJob { id := 0, payload := fillPaths p cwd, jobname := n, submittedAt := w.clock }) w hw
    simpa [exec] using this
  obtain ⟨rep, hrep⟩ : ∃ rep, w'.jobs.find? (fun j => j.submittedAt == w.clock) = some rep := by
    apply Option.isSome_iff_exists.mp
    rw [List.find?_isSome]
    exact ⟨own, by simp [hw'], by simp [hown]⟩
  have hrepm : rep ∈ w'.jobs := List.mem_of_find?_eq_some hrep
  have hrow : w'.job? rep.id = some rep := hwf'.job?_mem hrepm
  have hrun : runW (insertJob { id := 0, payload := fillPaths p cwd, jobname := n, submittedAt := w.clock }) w =
      (.ok rep, w') := by
    have hg := run_getJobId rep.id w'
    rw [hrow] at hg
    simp only [runW] at hg
    simp only [runW, insertJob, Prog.bind_eq, Prog.run_bind, Do.run_insertJob, Do.run_idBySubmitted, exec,
      Prog.andThen_ok, ← hw', ← hown, hrep, hg]
  rw [hrun] at h1
  refine ⟨own, rep, w', h1, rfl, hnotin, fillPaths_spec p cwd, rfl, ?_, ?_⟩
  · obtain ⟨hb, before, after, he, hbef⟩ := List.find?_eq_some_iff_append.mp hrep
    refine ⟨before, after, he, by simpa using hb, fun x hx => by simpa using hbef x hx⟩
  · constructor
    · rintro rfl x hx hxt
      have hsp : w'.jobs.find? (fun j => j.submittedAt == w.clock) =
          (w.jobs.find? (fun j => j.submittedAt == w.clock)).or
            ([own].find? (fun j => j.submittedAt == w.clock)) := by
        simp only [hw', List.find?_append]
      have hsome : (w.jobs.find? (fun j => j.submittedAt == w.clock)).isSome := by
        rw [List.find?_isSome]; exact ⟨x, hx, by simpa using hxt⟩
      obtain ⟨y, hy⟩ := Option.isSome_iff_exists.mp hsome
      rw [hsp, hy] at hrep
      simp only [Option.some_or, Option.some.injEq] at hrep
      exact hnotin (hrep ▸ List.mem_of_find?_eq_some hy)
    · intro hfresh
      have hnone : w.jobs.find? (fun j => j.submittedAt == w.clock) = none := by
        rw [List.find?_eq_none]; intro x hx; simpa using hfresh x hx
      simp only [hw', List.find?_append, hnone, Option.none_or] at hrep
      simpa [hown] using hrep.symm

/-- Both cases occur: the time stamp is in use in the first world, new in the second. -/
example : (∃ x ∈ ({ w3 with clock := 10 } : World).jobs, x.submittedAt = 10) ∧
    (∀ x ∈ w3.jobs, x.submittedAt ≠ w3.clock) ∧ ReposKnown (pl "z") {} :=
  ⟨⟨w3.jobs[0], by decide, by decide⟩, by decide, fun r hr => .inl (by simpa [pl] using hr)⟩

/-! ## C05: the pattern -/

/-- The text fits the pattern: `%` stands for any text, `_` for any character, every other character
for itself (ASCII letters in either case). -/
inductive LikeFits : List Char → List Char → Prop
  | nil : LikeFits [] []
  | any (p t s : List Char) : LikeFits p s → LikeFits ('%' :: p) (t ++ s)
  | one (p : List Char) (c : Char) (s : List Char) : LikeFits p s → LikeFits ('_' :: p) (c :: s)
  | char (c d : Char) (p s : List Char) : c ≠ '%' → c.toLower = d.toLower → LikeFits p s →
      LikeFits (c :: p) (d :: s)

theorem like_fits : ∀ p s : List Char, like p s = true ↔ LikeFits p s
  | [], s => by
    unfold like
    rw [List.isEmpty_iff]
    exact ⟨fun h => h ▸ .nil, fun h => by cases h; rfl⟩
  | c :: p, s => by
    unfold like
    split
    · next hc =>
      subst hc
      rw [anySuffix_iff]
      constructor
      · rintro ⟨a, b, rfl, h⟩
        exact .any _ _ _ ((like_fits p b).mp h)
      · intro h
        cases h with
        | any p t s h => exact ⟨t, s, rfl, (like_fits p s).mpr h⟩
        | char _ d _ s hc _ _ => exact absurd rfl hc
    · next hc =>
      cases s with
      | nil =>
        constructor
        · intro h; cases h
        · intro h
          generalize hs : ([] : List Char) = s' at h
          cases h with
          | any => exact absurd rfl hc
          | one => cases hs
          | char => cases hs
      | cons d s =>
        simp only [Bool.and_eq_true, Bool.or_eq_true, decide_eq_true_eq]
        constructor
        · rintro ⟨rfl | h1, h2⟩
          · exact .one _ _ _ ((like_fits p s).mp h2)
          · exact .char _ _ _ _ hc h1 ((like_fits p s).mp h2)
        · intro h
          generalize hds : d :: s = ds at h
          cases h with
          | any => exact absurd rfl hc
          | one _ c s h => cases hds; exact ⟨.inl rfl, (like_fits p s).mpr h⟩
          | char _ d _ s _ h1 h2 => cases hds; exact ⟨.inr h1, (like_fits p s).mpr h2⟩

/-- The text in which every single quote is written twice. -/
def doubled (t : List Char) : List Char := t.flatMap (fun c => if c = '\'' then ['\'', '\''] else [c])

theorem sqlLiteral_doubled (t r : List Char) :
    sqlLiteral (doubled t ++ r) = (sqlLiteral r).map (t ++ ·) := by
  induction t with
  | nil => simp [doubled]
  | cons c t ih =>
    have e : doubled (c :: t) = (if c = '\'' then ['\'', '\''] else [c]) ++ doubled t := rfl
    rw [e]
    split
    · next hc =>
      subst hc
      simp only [List.cons_append, List.nil_append]
      rw [sqlLiteral.eq_def]
      simp only [if_true, ih, Option.map_map]
      rfl
    · next hc =>
      simp only [List.cons_append, List.nil_append]
      rw [sqlLiteral.eq_def]
      simp only [if_neg hc, ih, Option.map_map]
      rfl

/-- The name of the job fits the pattern. -/
def NameFits (p : List Char) (j : Job) : Prop := ∃ n, j.jobname = some n ∧ LikeFits p n.toList

/-- **C05**, exactly, for every text in which single quotes come in pairs (in particular every text
without them): `search` returns the jobs whose names fit the pattern `%t%`, where `t` is the text
with each pair of quotes made one, and `%`, `_` in it are wildcards.  The queue is not changed.
(Not covered: a quote that is not doubled ends the text of the SQL literal, see `C05_refuted`.) -/
theorem C05_exact (w : World) (s : String) (t : List Char) (hs : s.toList = doubled t) :
    ∃ rep, runW (search s) w = (.ok rep, w) ∧
      (rep.success = true ↔ ∃ j ∈ w.jobs, NameFits ('%' :: (t ++ ['%'])) j) ∧
      (rep.success = true → ∃ js, rep.data = some (.jobs js) ∧ List.Sublist js w.jobs ∧
        (∀ j ∈ w.jobs, j ∈ js ↔ NameFits ('%' :: (t ++ ['%'])) j) ∧
        rep.msg = .searchFound (js.map (·.id))) ∧
      (rep.success = false → rep.msg = .searchNone ∧ rep.data = none) := by
  have hlit : sqlLiteral ('%' :: (s.toList ++ ['%', '\''])) = some ('%' :: (t ++ ['%'])) := by
    have h1 := sqlLiteral_doubled ('%' :: (t ++ ['%'])) ['\'']
    have h2 : sqlLiteral ['\''] = some [] := by decide
    have h3 : doubled ('%' :: (t ++ ['%'])) = '%' :: (doubled t ++ ['%']) := by
      simp [doubled]
    rw [h2, h3, ← hs] at h1
    simpa using h1
  unfold search
  simp only [hlit]
  simp only [runW, Prog.bind_eq, Prog.run_bind, Do.run_jobsWhere, exec, Prog.andThen_ok]
  generalize hf : (fun j : Job => match j.jobname with
      | none => false
      | some n => like ('%' :: (t ++ ['%'])) n.toList) = f
  have hf' : ∀ j, f j = true ↔ NameFits ('%' :: (t ++ ['%'])) j := by
    intro j
    subst hf
    unfold NameFits
    cases hj : j.jobname with
    | none => simp only [hj]; simp
    | some n => simp only [hj, like_fits]; simp
  have hmem : ∀ j ∈ w.jobs, j ∈ w.jobs.filter f ↔ NameFits ('%' :: (t ++ ['%'])) j := by
    intro j hj
    rw [List.mem_filter, hf']
    exact ⟨fun h => h.2, fun h => ⟨hj, h⟩⟩
  split
  · next h0 =>
    refine ⟨_, rfl, ⟨fun _ => ?_, fun _ => rfl⟩, fun _ => ⟨_, rfl, List.filter_sublist, hmem, rfl⟩, by rintro ⟨⟩⟩
    obtain ⟨j, hj⟩ := List.exists_mem_of_length_pos h0
    have := List.mem_filter.mp hj
    exact ⟨j, this.1, (hf' j).mp this.2⟩
  · next h0 =>
    refine ⟨_, rfl, ⟨(by rintro ⟨⟩), ?_⟩, (by rintro ⟨⟩), fun _ => ⟨rfl, rfl⟩⟩
    rintro ⟨j, hj, hn⟩
    exact absurd (List.length_pos_of_mem ((hmem j hj).mpr hn)) h0

/-- A pattern with a wildcard and a doubled quote: `_t''s` finds `it's`. -/
example : "_t''s".toList = doubled ['_', 't', '\'', 's'] ∧
    (∃ rep, (runW (search "_t''s") w3).1 = .ok rep ∧ rep.msg = .searchFound [4]) ∧
    ∃ j ∈ w3.jobs, NameFits ['%', '_', 't', '\'', 's', '%'] j :=
  ⟨by decide, ⟨_, rfl, by decide⟩, w3.jobs[2], by decide, "it's", by decide,
    (like_fits _ _).mp (by decide)⟩

/-! ## C07, C09: cancelling a list -/

/-- What `cancel` is meant to turn a status into. -/
def cancelledTo : JobStatus → Option JobStatus
  | .q | .qw => some .cd
  | .r => some .rd
  | .rd | .c | .cd | .ce => none

/-- The job has not ended. -/
def stillOpen : JobStatus → Bool
  | .q | .qw | .r | .rd => true
  | .c | .cd | .ce => false

/-- The listed jobs that have not ended, in the order of the queue. -/
def openJobs (w : World) (ids : List Nat) : List Job :=
  w.jobs.filter (fun j => decide (j.id ∈ ids) && stillOpen j.status)

/-- The status given by the last of these jobs that is queued or running. -/
def lastStatus (st : JobStatus) (js : List Job) : JobStatus :=
  js.foldl (fun s j => (cancelledTo j.status).getD s) st

theorem lastStatus_spec (js : List Job) (st : JobStatus) :
    (lastStatus st js = st ∧ ∀ j ∈ js, cancelledTo j.status = none) ∨
    (∃ pre k post, js = pre ++ k :: post ∧ cancelledTo k.status = some (lastStatus st js) ∧
      ∀ x ∈ post, cancelledTo x.status = none) := by
  induction js generalizing st with
  | nil => exact .inl ⟨rfl, by simp⟩
  | cons j js ih =>
    have e : lastStatus st (j :: js) = lastStatus ((cancelledTo j.status).getD st) js := rfl
    rw [e]
    rcases ih ((cancelledTo j.status).getD st) with ⟨h1, h2⟩ | ⟨pre, k, post, h1, h2, h3⟩
    · cases hc : cancelledTo j.status with
      | none =>
        refine .inl ⟨by rw [hc] at h1; exact h1, ?_⟩
        intro x hx
        rcases List.mem_cons.mp hx with rfl | hx
        · exact hc
        · exact h2 x hx
      | some s =>
        rw [hc] at h1
        exact .inr ⟨[], j, js, rfl, by rw [hc]; exact congrArg some h1.symm, h2⟩
    · exact .inr ⟨j :: pre, k, post, by rw [h1]; rfl, h2, h3⟩

theorem updJobs_twice (id : Nat) (a b : JobStatus) (js : List Job) :
    updJobs id [.status b] (updJobs id [.status a] js) = updJobs id [.status b] js := by
  simp only [updJobs_status, setStatuses_comp]
  congr 1
  funext j
  by_cases h : j.id = id <;> simp [h]

/-- Once something has been changed, the loop goes on changing the same job. -/
theorem run_cancelLoop (id : Nat) (r : Job) (w : World) (hr : w.job? id = some r) :
    ∀ (js : List Job) (st : JobStatus) (data : List Job),
    ∃ more, runW (cancelLoop (some id) js (some [.status st]) data)
        { w with jobs := updJobs id [.status st] w.jobs } =
      (.ok (data ++ more), { w with jobs := updJobs id [.status (lastStatus st js)] w.jobs }) ∧
      more.length = (js.filter (fun j => stillOpen j.status)).length ∧
      ∀ x ∈ more, ∃ s, x = { r with status := s } := by
  intro js
  induction js with
  | nil => intro st data; exact ⟨[], by simp [cancelLoop, runW, lastStatus], rfl, by simp⟩
  | cons j js ih =>
    intro st data
    have e : lastStatus st (j :: js) = lastStatus ((cancelledTo j.status).getD st) js := rfl
    rw [e]
    by_cases hfin : stillOpen j.status = false
    · have hc : cancelParams j.status (some [.status st]) = none := by
        revert hfin; cases j.status <;> first | (intro _; rfl) | (intro h; cases h)
      have ht : cancelledTo j.status = none := by
        revert hfin; cases j.status <;> first | (intro _; rfl) | (intro h; cases h)
      obtain ⟨more, h1, h2, h3⟩ := ih st data
      refine ⟨more, ?_, ?_, h3⟩
      · unfold cancelLoop
        simp only [hc, ht, Option.getD_none]
        exact h1
      · rw [List.filter_cons_of_neg (by simp [hfin])]; exact h2
    · have hc : cancelParams j.status (some [.status st]) =
          some (some [.status ((cancelledTo j.status).getD st)]) := by
        cases hs : j.status <;> first | rfl | exact absurd (by rw [hs]; rfl) hfin
      set st' := (cancelledTo j.status).getD st with hst'
      have hu := run_updateJobId id [.status st'] { w with jobs := updJobs id [.status st] w.jobs }
      have hrow : World.job? { w with jobs := updJobs id [.status st] w.jobs } id =
          some { r with status := st } := by rw [job?_update, hr]; simp; rfl
      rw [hrow] at hu
      simp only [updJobs_twice] at hu
      obtain ⟨more, h1, h2, h3⟩ := ih st' (data ++ [{ r with status := st' }])
      refine ⟨{ r with status := st' } :: more, ?_, ?_, ?_⟩
      · unfold cancelLoop
        simp only [hc]
        simp only [runW] at hu h1
        simp only [runW, Prog.bind_eq, Prog.run_bind, hu, Prog.andThen_ok]
        refine Eq.trans ?_ (h1.trans ?_)
        · rfl
        · simp
      · rw [List.filter_cons_of_pos (by simpa using hfin)]
        simp [h2]
      · intro x hx
        rcases List.mem_cons.mp hx with rfl | hx
        · exact ⟨_, rfl⟩
        · exact h3 x hx

/-- The loop until something is changed for the first time. -/
theorem run_cancelLoop_start (id : Nat) (r : Job) (w : World) (hr : w.job? id = some r) :
    ∀ js : List Job,
    match js.filter (fun j => stillOpen j.status) with
    | [] => runW (cancelLoop (some id) js none []) w = (.ok [], w)
    | j :: rest =>
      if j.status = .rd then runW (cancelLoop (some id) js none []) w = (.error .unboundLocalError, w)
      else ∃ st more, runW (cancelLoop (some id) js none []) w =
          (.ok more, { w with jobs := updJobs id [.status st] w.jobs }) ∧
        more.length = (j :: rest).length ∧ (∀ x ∈ more, ∃ s, x = { r with status := s }) ∧
        ∃ pre k post, j :: rest = pre ++ k :: post ∧ cancelledTo k.status = some st ∧
          ∀ x ∈ post, x.status = .rd := by
  intro js
  induction js with
  | nil => rfl
  | cons j js ih =>
    by_cases hfin : stillOpen j.status = false
    · have hc : cancelParams j.status none = none := by
        revert hfin; cases j.status <;> first | (intro _; rfl) | (intro h; cases h)
      rw [List.filter_cons_of_neg (by simp [hfin])]
      unfold cancelLoop
      simp only [hc]
      exact ih
    · rw [List.filter_cons_of_pos (by simpa using hfin)]
      simp only
      split
      · next hrd =>
        have hc : cancelParams j.status none = some none := by rw [hrd]; rfl
        unfold cancelLoop
        simp only [hc]
        rfl
      · next hrd =>
        obtain ⟨st0, ht, hc⟩ : ∃ st0, cancelledTo j.status = some st0 ∧
            cancelParams j.status none = some (some [.status st0]) := by
          cases hs : j.status <;> first
            | exact ⟨_, rfl, rfl⟩
            | exact absurd hs hrd
            | exact absurd (by rw [hs]; rfl) hfin
        have hu := run_updateJobId id [.status st0] w
        rw [hr] at hu
        obtain ⟨more, h1, h2, h3⟩ := run_cancelLoop id r w hr js st0 [{ r with status := st0 }]
        refine ⟨lastStatus st0 js, { r with status := st0 } :: more, ?_, by simp [h2], ?_, ?_⟩
        · unfold cancelLoop
          simp only [hc]
          simp only [runW] at hu h1
          simp only [runW, Prog.bind_eq, Prog.run_bind, hu, Prog.andThen_ok]
          exact h1
        · intro x hx
          rcases List.mem_cons.mp hx with rfl | hx
          · exact ⟨_, rfl⟩
          · exact h3 x hx
        · -- among the open jobs, the last one that is queued or running
          have hopen : ∀ l : List Job, lastStatus st0 (l.filter (fun j => stillOpen j.status)) =
              lastStatus st0 l := by
            intro l
            suffices H : ∀ s, lastStatus s (l.filter (fun j => stillOpen j.status)) =
                lastStatus s l from H st0
            induction l with
            | nil => intro s; rfl
            | cons a l ihl =>
              intro s
              have e : lastStatus s (a :: l) = lastStatus ((cancelledTo a.status).getD s) l := rfl
              by_cases ha : stillOpen a.status = false
              · rw [List.filter_cons_of_neg (by simp [ha]), ihl, e]
                have : cancelledTo a.status = none := by
                  revert ha; cases a.status <;> first | (intro _; rfl) | (intro h; cases h)
                rw [this]; rfl
              · rw [List.filter_cons_of_pos (by simpa using ha)]
                exact ihl _
          have hrdOf : ∀ l : List Job, (∀ x ∈ l.filter (fun j => stillOpen j.status),
              cancelledTo x.status = none → x.status = .rd) := by
            intro l x hx hn
            have := (List.mem_filter.mp hx).2
            cases hs : x.status <;> rw [hs] at hn this <;> first | rfl | (cases this; done) | cases hn
          rw [← hopen js]
          rcases lastStatus_spec (js.filter (fun j => stillOpen j.status)) st0 with
            ⟨hl, hall⟩ | ⟨pre, k, post, hsp, hk, hpost⟩
          · exact ⟨[], j, _, rfl, by rw [hl]; exact ht, fun x hx => hrdOf js x hx (hall x hx)⟩
          · refine ⟨j :: pre, k, post, by rw [hsp]; rfl, hk, fun x hx => hrdOf js x ?_ (hpost x hx)⟩
            rw [hsp]; simp [hx]

/-- **C07**, exactly: what `cancel` does with a list of existing jobs, whatever their states, when no
other program interferes.  Only the *last job of the list* is ever changed.

* If all listed jobs have ended, nothing happens.
* Otherwise, if the first open one in the queue is already being cancelled (`rd`), the command raises
  and nothing is changed.
* Otherwise the last job of the list gets the status meant for the last open job in the queue that is
  queued or running; the reply is a success which names this job as many times as there are open
  jobs. -/
theorem C07_exact (w : World) (hw : w.WF) (ids : List Nat) (last : Nat) (hlast : ids.getLast? = some last)
    (hex : ∀ i ∈ ids, ∃ j ∈ w.jobs, j.id = i) :
    (openJobs w ids = [] → runW (cancel ids) w =
      (.ok { success := true, msg := .alreadyCancelled, data := some (.jobs []) }, w)) ∧
    (∀ j rest, openJobs w ids = j :: rest → j.status = .rd →
      runW (cancel ids) w = (.error .unboundLocalError, w)) ∧
    (∀ j rest, openJobs w ids = j :: rest → j.status ≠ .rd →
      ∃ st js pre k post, openJobs w ids = pre ++ k :: post ∧ cancelledTo k.status = some st ∧
        (∀ x ∈ post, x.status = .rd) ∧
        runW (cancel ids) w =
          (.ok { success := true, msg := .cancelled (List.replicate (openJobs w ids).length last),
                 data := some (.jobs js) },
           { w with jobs := w.jobs.map (fun x => if x.id = last then { x with status := st } else x) })) := by
  have hopen : openJobs w ids =
      (w.jobs.filter (fun j => ids.contains j.id)).filter (fun j => stillOpen j.status) := by
    unfold openJobs
    rw [List.filter_filter]
    apply List.filter_congr
    intro j _
    rw [Bool.and_comm, List.contains_eq_mem]
  have hnone : ids.find? (fun i => !((w.jobs.filter (fun j => ids.contains j.id)).map (·.id)).contains i) = none := by
    cases hf : ids.find? (fun i => !((w.jobs.filter (fun j => ids.contains j.id)).map (·.id)).contains i) with
    | none => rfl
    | some i =>
      obtain ⟨i', hi', hno⟩ := (cancel_unknown_iff w ids).mp (by rw [hf]; rfl)
      obtain ⟨j, hj, he⟩ := hex i' hi'
      exact absurd he (hno j hj)
  have hmem : last ∈ ids := List.mem_of_getLast? hlast
  obtain ⟨r, hrm, hrid⟩ := hex last hmem
  have hr : w.job? last = some r := hrid ▸ hw.job?_mem hrm
  have hl := run_cancelLoop_start last r w hr (w.jobs.filter (fun j => ids.contains j.id))
  rw [run_cancel, hnone, hlast, hopen]
  refine ⟨?_, ?_, ?_⟩
  · intro ho
    rw [ho] at hl
    simp only at hl
    simp only [hl, Prog.andThen_ok]
    rfl
  · intro j rest ho hrd
    rw [ho] at hl
    simp only [hrd, if_true] at hl
    simp only [hl, Prog.andThen_error]
  · intro j rest ho hrd
    rw [ho] at hl
    simp only [if_neg hrd] at hl
    obtain ⟨st, more, h1, h2, h3, pre, k, post, h4, h5, h6⟩ := hl
    refine ⟨st, more, pre, k, post, by rw [ho]; exact h4, h5, h6, ?_⟩
    simp only [h1, Prog.andThen_ok]
    have hids : more.map (·.id) = List.replicate (j :: rest).length last := by
      rw [← h2, List.eq_replicate_iff]
      refine ⟨by simp, ?_⟩
      intro i hi
      obtain ⟨x, hx, rfl⟩ := List.mem_map.mp hi
      obtain ⟨s, rfl⟩ := h3 x hx
      exact hrid
    have hne : ¬ more.length = 0 := by rw [h2]; simp
    rw [if_neg hne, hids, ho]
    congr 2

/-- All three cases occur: finished jobs only; a job being cancelled first; a queued and a running one. -/
example : w3.WF ∧ openJobs w3 [2] = [] ∧
    openJobs { w3 with jobs := w3.jobs.map (fun j => if j.id = 1 then { j with status := .rd } else j) } [4, 1] ≠ [] ∧
    openJobs w3 [1, 2, 4] = [w3.jobs[0], w3.jobs[2]] := ⟨w3_wf, by decide, by decide, by decide⟩

/-- **C07**: the claim never holds of two jobs at once: if a call does cancel every listed job that
was queued or running, then there was at most one of them, the last job of the list. -/
theorem C07_at_most_one (w : World) (hw : w.WF) (ids : List Nat) (last : Nat)
    (hlast : ids.getLast? = some last) (hex : ∀ i ∈ ids, ∃ j ∈ w.jobs, j.id = i)
    (hdone : ∃ rep w', runW (cancel ids) w = (.ok rep, w') ∧
      ∀ j ∈ w.jobs, j.id ∈ ids → ∀ st, cancelledTo j.status = some st →
        w'.job? j.id = some { j with status := st }) :
    ∀ j ∈ w.jobs, j.id ∈ ids → (cancelledTo j.status).isSome → j.id = last := by
  obtain ⟨rep, w', hrun, hall⟩ := hdone
  intro j hj hji hc
  obtain ⟨st, hst⟩ := Option.isSome_iff_exists.mp hc
  have hrow := hall j hj hji st hst
  obtain ⟨h1, h2, h3⟩ := C07_exact w hw ids last hlast hex
  have hmo : j ∈ openJobs w ids := by
    unfold openJobs
    rw [List.mem_filter]
    refine ⟨hj, ?_⟩
    cases hs : j.status <;> rw [hs] at hst <;> first | (cases hst; done) | simp [hji, stillOpen]
  cases ho : openJobs w ids with
  | nil => rw [ho] at hmo; cases hmo
  | cons k rest =>
    by_cases hrd : k.status = .rd
    · rw [h2 k rest ho hrd] at hrun; cases hrun
    · obtain ⟨s, js, pre, k', post, -, -, -, hr⟩ := h3 k rest ho hrd
      rw [hr] at hrun
      cases hrun
      by_contra hne
      have hsame : World.job? { w with jobs := w.jobs.map (fun x => if x.id = last then { x with status := s } else x) } j.id =
          some j := by
        have hmem : j ∈ w.jobs.map (fun x => if x.id = last then { x with status := s } else x) :=
          List.mem_map.mpr ⟨j, hj, if_neg hne⟩
        have hids : (w.jobs.map (fun x => if x.id = last then { x with status := s } else x)).map (·.id) =
            w.jobs.map (·.id) := by
          rw [List.map_map]
          apply List.map_congr_left
          intro x _
          simp only [Function.comp_apply]
          split <;> rfl
        exact find?_of_nodup (key := fun j : Job => j.id) (by rw [hids]; exact hw.idsNodup) hmem
      rw [hsame] at hrow
      have : j.status = st := by
        have := congrArg Job.status (Option.some.inj hrow)
        simpa using this
      rw [this] at hst
      cases st <;> cases hst

example : ∃ rep w', runW (cancel [2, 1]) w3 = (.ok rep, w') ∧
    ∀ j ∈ w3.jobs, j.id ∈ [2, 1] → ∀ st, cancelledTo j.status = some st →
      w'.job? j.id = some { j with status := st } := by
  refine ⟨_, _, rfl, ?_⟩
  decide

/-- **C09**, exactly: a job, finished or not, is changed by `cancel` only if it is the last one of a
list of existing jobs, of which some are still open, and the first of those is not yet being
cancelled; and in this case its status does become `cd` or `rd`, finished or not. -/
theorem C09_exact (w : World) (hw : w.WF) (ids : List Nat) (j : Job) (hj : j ∈ w.jobs) :
    ((runW (cancel ids) w).2.job? j.id ≠ some j →
      ids.getLast? = some j.id ∧ (∀ i ∈ ids, ∃ j ∈ w.jobs, j.id = i) ∧
        ∃ k rest, openJobs w ids = k :: rest ∧ k.status ≠ .rd) ∧
    (ids.getLast? = some j.id → (∀ i ∈ ids, ∃ j ∈ w.jobs, j.id = i) →
      (∃ k rest, openJobs w ids = k :: rest ∧ k.status ≠ .rd) →
      ∃ st, (st = .cd ∨ st = .rd) ∧ (runW (cancel ids) w).2.job? j.id = some { j with status := st }) := by
  constructor
  · intro hch
    by_cases hlast : ids.getLast? = some j.id
    · have hex : ∀ i ∈ ids, ∃ j ∈ w.jobs, j.id = i := by
        by_contra hno
        apply hch
        have : ∃ i ∈ ids, ∀ j ∈ w.jobs, j.id ≠ i := by
          simpa using hno
        obtain ⟨rep, hr, -⟩ := (C08_cancel_touches_only_listed w ids).2 this
        rw [hr]
        exact hw.job?_mem hj
      obtain ⟨h1, h2, -⟩ := C07_exact w hw ids j.id hlast hex
      refine ⟨hlast, hex, ?_⟩
      cases ho : openJobs w ids with
      | nil =>
        rw [h1 ho] at hch
        exact absurd (hw.job?_mem hj) hch
      | cons k rest =>
        refine ⟨k, rest, rfl, ?_⟩
        intro hrd
        rw [h2 k rest ho hrd] at hch
        exact hch (hw.job?_mem hj)
    · exact absurd (C09_finished_unaffected_partial w hw ids j hj (.inl hlast)) hch
  · rintro hlast hex ⟨k, rest, ho, hrd⟩
    obtain ⟨s, js, pre, k', post, -, hk, -, hr⟩ := (C07_exact w hw ids j.id hlast hex).2.2 k rest ho hrd
    refine ⟨s, ?_, ?_⟩
    · cases hs : k'.status <;> rw [hs] at hk <;> cases hk
      · exact .inl rfl
      · exact .inl rfl
      · exact .inr rfl
    · rw [hr]
      have hmem : { j with status := s } ∈ w.jobs.map (fun x => if x.id = j.id then { x with status := s } else x) :=
        List.mem_map.mpr ⟨j, hj, if_pos rfl⟩
      have hids : (w.jobs.map (fun x => if x.id = j.id then { x with status := s } else x)).map (·.id) =
          w.jobs.map (·.id) := by
        rw [List.map_map]
        apply List.map_congr_left
        intro x _
        simp only [Function.comp_apply]
        split <;> rfl
      exact find?_of_nodup (key := fun j : Job => j.id) (by rw [hids]; exact hw.idsNodup) hmem

/-- The completed job 2 is turned into a cancelled one by `cancel [1, 2]`. -/
example : w3.jobs[1] ∈ w3.jobs ∧ (w3.jobs[1]).status = .c ∧
    [1, 2].getLast? = some (w3.jobs[1]).id ∧ (∃ k rest, openJobs w3 [1, 2] = k :: rest ∧ k.status ≠ .rd) :=
  ⟨by decide, by decide, by decide, w3.jobs[0], [], by decide, by decide⟩

end Tomato.Props
