import Verif.JmSafe
import Verif.PipLemmas

/-!
# Properties of the concurrent system: C01, C03, C17, C18 (for all interleavings)
-/

namespace Tomato

/-- The others never assign jobs, create folders or launch processes. -/
theorem sRely_other {st : String} (w w' : World) (hI : SInv st w) (h : OtherStep w w') :
    SRely st w w' ∧ SInv st w' := by
  have key : SRely st w w' := by
    cases h with
    | same h => subst h; exact ⟨hI, noAssign_of_pips rfl, rfl, rfl⟩
    | env e h =>
      subst h
      obtain ⟨-, -, h3, -, h5, h6⟩ := e.apply_eq w
      exact ⟨⟨e.wf hI.1, sInv_frame hI.2 h6 h5⟩, noAssign_of_pips h3, h6, h5⟩
    | cmd c hc o ho h =>
      subst h
      have hl : (exec o w).2.launches = w.launches := by
        rcases exec_launches o w with h | ⟨j, n, rfl, _⟩
        · exact h
        · rcases ho with ho | ho
          · cases ho
          · cases c <;> cases ho
      have hd : (exec o w).2.jobDirs = w.jobDirs := by
        rcases exec_jobDirs o w with h | ⟨s, j, rfl, _⟩
        · exact h
        · rcases ho with ho | ho
          · cases ho
          · cases c <;> cases ho
      refine ⟨⟨exec_wf o w hI.1, sInv_frame hI.2 hl hd⟩, ?_, hl, hd⟩
      rcases exec_pips o w with h | ⟨p, rfl, hp⟩ | ⟨n, ps, rfl, hp⟩
      · exact noAssign_of_pips h
      · intro p' hp' j hj
        rw [hp] at hp'
        rcases List.mem_append.mp hp' with hp' | hp'
        · exact ⟨p', hp', rfl, hj⟩
        · rw [List.mem_singleton.mp hp'] at hj
          rcases ho with ho | ho
          · cases ho
          · cases c <;> try exact False.elim ho
            simp only [Cmd.writes] at ho
            rw [ho] at hj; cases hj
      · refine noAssign_updPips w _ n ps ?_ hp
        intro j hj
        rcases ho with ho | ho
        · cases ho
        · cases c <;> try exact False.elim ho
          all_goals simp only [Cmd.writes] at ho
          · rw [ho.2] at hj; simp at hj
          · rw [ho.2] at hj; simp at hj
          · rw [ho.2] at hj; simp at hj
          · rw [ho] at hj; simp at hj
          · obtain ⟨-, b, rfl⟩ := ho; simp at hj
  exact ⟨key, key.1⟩

theorem sInv_engine {st : String} {s : Sys} (h : Reachable st s) :
    (∀ p ∈ s.others, FromCmd s.w p) ∧ SInv st s.w ∧
      Prog.Safe (S := DB) exec (SRely st) (SGuar st) (fun _ _ => True) s.jm s.w :=
  engine (I := SInv st) (R := SRely st) (G := SGuar st) (st := st) sRely_trans
    (fun _ hw => ⟨hw, noAssign_of_pips rfl, rfl, rfl⟩) (fun _ _ _ hG => hG.1) sRely_other
    (fun d hd w _ => safe_jobManagerPass d hd w)
    (s := Sys.init) (s' := s) (by simp [Sys.init])
    ⟨World.wf_empty, ⟨by simp [Sys.init], by simp [Sys.init]⟩⟩ trivial h

namespace Props

/-! ## A concrete history used as example and in the refutations -/

/-- One driver, one device with two channels, two pipelines sharing nothing. -/
def dfS : DeviceFile :=
  { components := [("d:(a,1)", ⟨"d:(a,1)", "dev", "d", "a", "1"⟩),
                   ("d:(a,2)", ⟨"d:(a,2)", "dev", "d", "a", "2"⟩)],
    devices := [("dev", { name := "dev", driver := "d", address := "a", channels := ["1", "2"] })],
    drivers := [("d", { name := "d" })],
    pipelines := [("p", ⟨"p", [("x", "d:(a,1)")]⟩), ("q", ⟨"q", [("x", "d:(a,2)")]⟩)] }

/-- The daemon at startup. -/
def dBoot : Daemon := { status := .bootstrap, devicefile := dfS }
/-- The daemon when running. -/
def dRun : Daemon := { devicefile := dfS }

/-- A driver that agrees with everything. -/
def okDrv : Nat → DrvCmd → Option DrvReply := fun _ c =>
  match c with
  | .capabilities _ _ => some { success := true, data := some ["t"] }
  | _ => some { success := true, data := some [] }

/-- A one-task payload for the sample `s`. -/
def plS (sample : String) : Payload := { sample := sample, method := [{ role := "x", technique := "t" }] }

/-- Let the `i`-th other program perform `n` operations. -/
def run (i n : Nat) : List Act := List.replicate n (.step i)
/-- Let the job manager perform `n` operations. -/
def jm (n : Nat) : List Act := List.replicate n .jmStep

/-- Start the daemon, start the driver, load a sample on pipeline `p`, mark it ready, submit one
job: programs 0-4, all run to their end. -/
def setup : List Act :=
  [.spawn (.reload dBoot none)] ++ run 0 9 ++
  [.spawn (.driverStart "d" 5000 70 "1.0")] ++ run 1 2 ++ [.env (.drv okDrv)] ++
  [.spawn (.load (some dRun) "p" "s")] ++ run 2 3 ++
  [.spawn (.ready (some dRun) "p")] ++ run 3 3 ++
  [.spawn (.submit (.parsed (plS "s")) none dRun "/home")] ++ run 4 4

/-- The state after `setup`. -/
def sSetup : Sys := ((acts "Jobs" Sys.init setup).getD Sys.init)

theorem setup_ok : acts "Jobs" Sys.init setup = some sSetup := by
  have h : (acts "Jobs" Sys.init setup).isSome = true := rfl
  unfold sSetup
  obtain ⟨s, hs⟩ := Option.isSome_iff_exists.mp h
  rw [hs]; rfl

theorem sSetup_reachable : Reachable "Jobs" sSetup := steps_of_acts setup_ok

/-! ## C01 -/

/-- **C01** (concurrent part): whatever happens, in every step either the ids in the queue stay
as they are, or exactly one job is appended, in status `q`, with an id larger than that of every
job in the queue (from which no job ever disappears, `C03_records_immutable`). -/
theorem C01_ids_fresh_concurrent {st : String} {s s' : Sys} (hr : Reachable st s)
    (h : Step st s s') :
    s'.w.jobs.map (·.id) = s.w.jobs.map (·.id) ∨
    ∃ j, s'.w.jobs = s.w.jobs ++ [j] ∧ j.status = .q ∧ j.pid = none ∧
      ∀ i ∈ s.w.jobs, i.id < j.id := by
  have hw := reachable_wf hr
  rcases step_world hr h with h | ⟨e, h⟩ | ⟨o, ho, h⟩
  · left; rw [h]
  · left; rw [h, (e.apply_eq s.w).1]
  · rw [h]
    rcases exec_jobs o s.w with h | ⟨j, rfl, h⟩ | ⟨id, ps, rfl, h⟩
    · left; rw [h]
    · right
      refine ⟨_, h, ?_⟩
      rcases ho with ho | ho | ⟨c, ho⟩
      · cases ho
      · cases ho
      · cases c <;> try exact False.elim ho
        simp only [Cmd.writes] at ho
        refine ⟨by rw [ho], by rw [ho], ?_⟩
        intro i hi
        have := hw.bound i hi
        simp only
        omega
    · left; rw [h, updJobs_ids]

example : ∃ s s', Reachable "Jobs" s ∧ Step "Jobs" s s' ∧ s'.w.jobs.length = s.w.jobs.length + 1 ∧
    s.w.jobs.length = 1 := by
  have h : (acts "Jobs" sSetup ([.spawn (.submit (.parsed (plS "s")) none dRun "/home")] ++
      run 5 1)).isSome = true := rfl
  obtain ⟨s, hs⟩ := Option.isSome_iff_exists.mp h
  refine ⟨s, ((act "Jobs" s (.step 5)).getD s), Steps.trans sSetup_reachable (steps_of_acts hs),
    ⟨.step 5, ?_⟩, ?_, ?_⟩ <;> (cases hs; rfl)

/-! ## C03 -/

/-- **C03**: in every execution a job stays in the queue with the same id, payload, name and
submission time. -/
theorem C03_records_immutable {st : String} {s s' : Sys} (hr : Reachable st s)
    (h : Steps st s s') (j : Job) (hj : j ∈ s.w.jobs) :
    ∃ j' ∈ s'.w.jobs, j'.id = j.id ∧ j'.payload = j.payload ∧ j'.jobname = j.jobname ∧
      j'.submittedAt = j.submittedAt := by
  induction h with
  | refl => exact ⟨j, hj, rfl, rfl, rfl, rfl⟩
  | @tail s1 s2 hs1 hst ih =>
    obtain ⟨j1, hj1, h1, h2, h3, h4⟩ := ih
    have key : ∃ j' ∈ s2.w.jobs, j'.id = j1.id ∧ j'.payload = j1.payload ∧
        j'.jobname = j1.jobname ∧ j'.submittedAt = j1.submittedAt := by
      rcases step_world (reachable_steps hr hs1) hst with h | ⟨e, h⟩ | ⟨o, ho, h⟩
      · exact ⟨j1, by rw [h]; exact hj1, rfl, rfl, rfl, rfl⟩
      · exact ⟨j1, by rw [h, (e.apply_eq s1.w).1]; exact hj1, rfl, rfl, rfl, rfl⟩
      · rw [h]
        rcases exec_jobs o s1.w with h | ⟨j, rfl, h⟩ | ⟨id, ps, rfl, h⟩
        · exact ⟨j1, by rw [h]; exact hj1, rfl, rfl, rfl, rfl⟩
        · exact ⟨j1, by rw [h]; exact List.mem_append_left _ hj1, rfl, rfl, rfl, rfl⟩
        · rw [h]
          refine ⟨if j1.id = id then applyJob j1 ps else j1,
            List.mem_map.mpr ⟨j1, hj1, rfl⟩, ?_⟩
          split
          · rcases ho with ho | ho | ⟨c, ho⟩
            · cases ho
            · rcases ho with rfl | ⟨t, rfl⟩ | ⟨a, t, -, rfl⟩ <;> exact ⟨rfl, rfl, rfl, rfl⟩
            · cases c <;> try exact False.elim ho
              · rcases ho with ⟨-, rfl | rfl⟩ <;> exact ⟨rfl, rfl, rfl, rfl⟩
              · rcases ho with ⟨-, ⟨t, rfl⟩ | ⟨a, b, c, rfl⟩ | ⟨a, t, -, rfl⟩⟩ <;>
                  exact ⟨rfl, rfl, rfl, rfl⟩
          · exact ⟨rfl, rfl, rfl, rfl⟩
    obtain ⟨j', hj', h1', h2', h3', h4'⟩ := key
    exact ⟨j', hj', h1'.trans h1, h2'.trans h2, h3'.trans h3, h4'.trans h4⟩

example : Reachable "Jobs" sSetup ∧ sSetup.w.jobs.length = 1 := ⟨sSetup_reachable, rfl⟩

/-! ## C17 -/

/-- **C17**: in every execution, whenever a step leaves a pipeline with a job, then before that
step the pipeline had this very job or none. -/
theorem C17_no_double_assignment {st : String} {s s' : Sys} (hr : Reachable st s)
    (h : Step st s s') (p' : PipState) (hp' : p' ∈ s'.w.pips) (j : Nat)
    (hj : p'.jobid = some j) :
    ∃ p ∈ s.w.pips, p.name = p'.name ∧ (p.jobid = none ∨ p.jobid = some j) := by
  obtain ⟨h1, h2, h3⟩ := sInv_engine hr
  rcases engine_step (I := SInv st) (R := SRely st) (G := SGuar st)
    (fun _ hw => ⟨hw, noAssign_of_pips rfl, rfl, rfl⟩) sRely_other h1 h2 h3 h with h | h
  · exact h.2.1.assigns p' hp' j hj
  · exact h.2 p' hp' j hj

example : ∃ s s', Reachable "Jobs" s ∧ Step "Jobs" s s' ∧
    (s.w.pip? "p").map (·.jobid) = some none ∧ (s'.w.pip? "p").map (·.jobid) = some (some 1) := by
  have h : (acts "Jobs" sSetup ([.jmStart dRun] ++ jm 15)).isSome = true := rfl
  obtain ⟨s, hs⟩ := Option.isSome_iff_exists.mp h
  refine ⟨s, ((act "Jobs" s .jmStep).getD s), Steps.trans sSetup_reachable (steps_of_acts hs),
    ⟨.jmStep, ?_⟩, ?_, ?_⟩ <;> (cases hs; rfl)

/-! ## C18 -/

/-- **C18**: no job is ever launched twice, in any execution, including crashes and restarts of
the daemon at any point. -/
theorem C18_launched_once {st : String} {s : Sys} (hr : Reachable st s) :
    (s.w.launches.map (·.jobid)).Nodup :=
  (sInv_engine hr).2.1.2.2

example : ∃ s, Reachable "Jobs" s ∧ s.w.launches = [⟨1, "p"⟩] := by
  have h : (acts "Jobs" sSetup ([.jmStart dRun] ++ jm 18)).isSome = true := rfl
  obtain ⟨s, hs⟩ := Option.isSome_iff_exists.mp h
  exact ⟨s, Steps.trans sSetup_reachable (steps_of_acts hs), by cases hs; rfl⟩

end Props

end Tomato
