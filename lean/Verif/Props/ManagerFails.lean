import Verif.Props.Lifecycle
import Verif.Props.Races

/-!
# What becomes of a manager thread that fails: C98

The daemon looks at its manager threads only while it stops (daemon/__init__.py:87-100).
-/

namespace Tomato.Props

open Tomato.Life

/-- Threads are told to end only by a daemon that agreed to stop, and the end of the driver manager
begins only then. -/
structure EndInv (s : LSys) : Prop where
  told : ∀ m, s.doRun m = false → s.loop.daemon.status = .stop
  quit : ∀ m, s.pc m = .quitWait ∨ (∃ p, s.pc m = .quitting p) → s.doRun m = false

theorem endInv_step {s : LSys} (hl : LifeInv s) (h : EndInv s) (a : LAct) : EndInv (lstep s a) := by
  have hdo : ∀ m, (lstep s a).doRun m = false →
      s.doRun m = false ∨ (a = .main ∧ s.main = .sweep ∧ s.loop.daemon.status = .stop) := by
    intro m hm
    cases a with
    | world w => exact .inl hm
    | mgr x =>
      simp only [lstep] at hm
      split at hm
      · exact .inl hm
      · rw [(mgrStep_frame s x).2.2.1] at hm; exact .inl hm
    | request x =>
      simp only [lstep] at hm
      split at hm
      · split at hm <;> exact .inl hm
      · exact .inl hm
    | client msg =>
      simp only [lstep] at hm
      split at hm <;> exact .inl hm
    | main =>
      simp only [lstep, mainStep] at hm
      split at hm
      · exact .inl hm
      · exact .inl hm
      · split at hm <;> exact .inl hm
      · exact .inl hm
      · next hs =>
        simp only [sweepStep] at hm
        split at hm
        · next h2 => exact .inr ⟨rfl, hs, h2⟩
        · exact .inl hm
      · exact .inl hm
      · exact .inl hm
  refine ⟨fun m hm => ?_, fun m hm => ?_⟩
  · have : s.loop.daemon.status = .stop := by
      rcases hdo m hm with h1 | ⟨-, -, h1⟩
      · exact h.told m h1
      · exact h1
    exact stopped_step hl this a
  · suffices s.doRun m = false from doRun_step m this a
    rcases pc_step hl m a with h1 | ⟨rfl, h2⟩ | ⟨-, h1, h2⟩
    · rw [h1] at hm; exact h.quit m hm
    · have he : lstep s (.mgr m) = mgrStep s m := by simp [lstep, h2]
      rw [he] at hm
      unfold mgrStep at hm
      split at hm
      · split at hm
        · simp [upd] at hm
        · next hr => simpa using hr
      · next hp => exact h.quit m hm
      · next hp => exact h.quit m (.inl hp)
      · next hp =>
        split at hm
        · rw [hp] at hm; simp at hm
        · simp [upd] at hm
      · simp [upd] at hm
      · simp [upd] at hm
      · next hp => exact h.quit m (.inr ⟨_, hp⟩)
      · next hp => exact h.quit m (.inr ⟨_, hp⟩)
      · next hp => exact h.quit m (.inr ⟨_, hp⟩)
      · exact h.quit m hm
    · rw [h2] at hm
      cases hp : s.pc m with
      | quitWait => exact h.quit m (.inl hp)
      | waiting =>
        rw [hp] at hm
        simp [deliver, statusReply] at hm
      | _ => rw [hp] at h1; cases h1

theorem endInv_run (d : Daemon) (w : World) (σ : Nat → LAct) (n : Nat) :
    EndInv (runL (LSys.start d w) σ n) := by
  induction n with
  | zero => exact ⟨fun _ h => (by cases h), fun _ h => (by rcases h with h | ⟨_, h⟩ <;> cases h)⟩
  | succ n ih => exact endInv_step (lifeInv_run d w σ n) ih _

/-- **C98** (`_partial`: only the cause; see `C98_refuted`): a manager thread ends either because a pass
raised an exception, or because a client asked the daemon to stop. -/
theorem C98_cause_partial (d : Daemon) (w : World) (σ : Nat → LAct) (n : Nat) (m : Mgr)
    (hd : d.status ≠ .stop) (hn : (runL (LSys.start d w) σ n).pc m ≠ .dead)
    (hn' : (runL (LSys.start d w) σ (n + 1)).pc m = .dead) :
    (σ n = .mgr m ∧ ∃ e, (runL (LSys.start d w) σ n).pc m = .running (.raise e)) ∨
    ((runL (LSys.start d w) σ n).loop.daemon.status = .stop ∧ ∃ j, j < n ∧ σ j = .client .stop) := by
  have hE := endInv_run d w σ n
  have hstop : (runL (LSys.start d w) σ n).doRun m = false →
      (runL (LSys.start d w) σ n).loop.daemon.status = .stop ∧ ∃ j, j < n ∧ σ j = .client .stop := by
    intro h
    refine ⟨hE.told m h, ?_⟩
    by_contra hno
    exact (stop_asked hd n (fun j hj h => hno ⟨j, hj, h⟩)).1 (hE.told m h)
  simp only [runL] at hn'
  rcases pc_step (lifeInv_run d w σ n) m (σ n) with h1 | ⟨h1, h2⟩ | ⟨-, h1, h2⟩
  · rw [h1] at hn'; exact absurd hn' hn
  · have he : lstep (runL (LSys.start d w) σ n) (σ n) = mgrStep (runL (LSys.start d w) σ n) m := by
      simp [lstep, h1, h2]
    rw [he] at hn'
    unfold mgrStep at hn'
    split at hn'
    · split at hn'
      · simp [upd] at hn'
      · next hr => exact .inr (hstop (by simpa using hr))
    · exact absurd hn' hn
    · exact absurd hn' hn
    · split at hn'
      · exact absurd hn' hn
      · simp [upd] at hn'
    · simp [upd] at hn'
    · next e hp => exact .inl ⟨h1, e, hp⟩
    · next hp => exact .inr (hstop (hE.quit m (.inr ⟨_, hp⟩)))
    · next hp => exact .inr (hstop (hE.quit m (.inr ⟨_, hp⟩)))
    · next hp => exact .inr (hstop (hE.quit m (.inr ⟨_, hp⟩)))
    · exact absurd hn' hn
  · rw [h2] at hn'
    cases hp : (runL (LSys.start d w) σ n).pc m with
    | waiting => rw [hp] at hn'; simp [deliver, statusReply] at hn'
    | quitWait => rw [hp] at hn'; simp [deliver] at hn'
    | _ => rw [hp] at h1; cases h1

/-- What a manager did, the latest first. -/
def logOf (m : Mgr) (s : LSys) : List Op := (s.log.filter (fun e => decide (e.1 = m))).map (·.2)

theorem logOf_step {s : LSys} (m : Mgr) (a : LAct) (hd : s.pc m = .dead) :
    logOf m (lstep s a) = logOf m s := by
  cases a with
  | world w => rfl
  | mgr x =>
    simp only [lstep]
    split
    · rfl
    · by_cases hx : x = m
      · subst hx; simp only [mgrStep, hd]
      · have hnew : ∀ o, logOf m { s with log := (x, o) :: s.log } = logOf m s := by
          intro o; simp [logOf, hx]
        unfold mgrStep
        split
        · split
          · rfl
          · split <;> rfl
        · rfl
        · rfl
        · split
          · rfl
          · exact hnew _
        · rfl
        · rfl
        · split
          · rfl
          · exact hnew _
        · rfl
        · rfl
        · rfl
  | main =>
    simp only [lstep, mainStep]
    split
    · rfl
    · rfl
    · split <;> rfl
    · rfl
    · unfold sweepStep; split <;> rfl
    · rfl
    · rfl
  | request x =>
    simp only [lstep]
    split
    · split <;> rfl
    · rfl
  | client msg =>
    simp only [lstep]
    split <;> rfl

/-- A thread that has ended never acts again, whatever happens. -/
theorem C98_never_restarted (d : Daemon) (w : World) (σ : Nat → LAct) (m : Mgr) (n k : Nat)
    (hn : (runL (LSys.start d w) σ n).pc m = .dead) (hk : n ≤ k) :
    (runL (LSys.start d w) σ k).pc m = .dead ∧
    logOf m (runL (LSys.start d w) σ k) = logOf m (runL (LSys.start d w) σ n) := by
  refine ⟨dead_after hn hk, ?_⟩
  refine holds_after (Q := fun s => logOf m s = logOf m (runL (LSys.start d w) σ n)) rfl
    (fun j hj h => ?_) hk
  exact (logOf_step m (σ j) (dead_after hn hj)).trans h

/-- Requests for the status do not change the daemon object. -/
theorem daemon_kept (d : Daemon) (w : World) (σ : Nat → LAct) (n : Nat)
    (h : ∀ j, j < n → ∀ msg, σ j = .client msg → msg = .status) :
    (runL (LSys.start d w) σ n).loop.daemon = d ∧
    ∀ src p, (runL (LSys.start d w) σ n).main = .serving src p →
      ∃ l : DLoop, l.daemon = d ∧ p = handleMsg l .status := by
  induction n with
  | zero => exact ⟨rfl, fun _ _ hp => (by cases hp)⟩
  | succ n ih =>
    obtain ⟨h1, h2⟩ := ih (fun j hj => h j (by omega))
    simp only [runL]
    cases ha : σ n with
    | world w' => exact ⟨h1, h2⟩
    | mgr m =>
      simp only [lstep]
      split
      · exact ⟨h1, h2⟩
      · rw [(mgrStep_frame _ m).1, (mgrStep_frame _ m).2.1]; exact ⟨h1, h2⟩
    | request m =>
      simp only [lstep]
      split
      · split
        · exact ⟨h1, fun src p hp => by cases hp; exact ⟨_, h1, rfl⟩⟩
        · exact ⟨h1, h2⟩
      · exact ⟨h1, h2⟩
    | client msg =>
      have := h n (by omega) msg ha
      subst this
      simp only [lstep]
      split
      · exact ⟨h1, fun src p hp => by cases hp; exact ⟨_, h1, rfl⟩⟩
      · exact ⟨h1, h2⟩
    | main =>
      simp only [lstep, mainStep]
      split
      · exact ⟨h1, fun _ _ hp => (by cases hp)⟩
      · next src o k hm =>
        obtain ⟨l, -, hl⟩ := h2 _ _ hm
        cases hl
      · next src r l hm =>
        obtain ⟨l', hl', he⟩ := h2 _ _ hm
        have he : (Prog.pure (r, l) : P (CReply × DLoop)) = .pure (_, _) := he
        cases he
        split <;> exact ⟨hl', fun _ _ hp => (by cases hp)⟩
      · exact ⟨h1, fun _ _ hp => (by cases hp)⟩
      · unfold sweepStep
        split
        · refine ⟨h1, fun src p hp => ?_⟩
          simp only at hp
          split at hp <;> cases hp
        · exact ⟨h1, fun _ _ hp => (by cases hp)⟩
      · exact ⟨h1, h2⟩
      · exact ⟨h1, h2⟩

/-! ### The job manager dies and nobody notices -/

/-- Before the last pass in `sCrash` (`Verif/Props/Races.lean`): job 1 was cancelled right after it has
connected; job 2 waits, and its pipeline is ready. -/
def wDoomed : World :=
  (after ([.spawn (.load (some dRun) "q" "t")] ++ run 5 3 ++
    [.spawn (.ready (some dRun) "q")] ++ run 6 3 ++
    [.spawn (okJob 1 100 "p"), .env (.procs [⟨100, 1, false⟩])] ++ run 7 3 ++
    [.spawn (.cancel [1])] ++ run 8 3 ++
    [.spawn (.submit (.parsed (plS "t")) none dRun "/home")] ++ run 9 4) sLaunched).w

/-- The job manager asks for the daemon object and does its pass. -/
def jmDies : List LAct :=
  [.mgr .job, .request .job, .main, .main] ++ List.replicate 6 (.mgr .job)

/-- **C98** is violated: the pass of the job manager fails; from then on, whatever happens, the thread
does nothing, and as long as nobody asks the daemon to stop, every request for its status is answered
with success and the status `running`. -/
theorem C98_refuted :
    wDoomed.jobs.map (fun j => (j.id, j.status)) = [(1, .rd), (2, .q)] ∧
    (wDoomed.pip? "q").map (fun p => (p.ready, p.jobid, p.sampleid)) = some (true, none, some "t") ∧
    ∀ σ : Nat → LAct, (∀ j, j < jmDies.length → σ j = sched jmDies j) →
      ∀ k, jmDies.length ≤ k →
      (runL (LSys.start dRun wDoomed) σ k).pc .job = .dead ∧
      (∀ e ∈ (runL (LSys.start dRun wDoomed) σ k).log, e.1 = .job →
        ∀ a p, e.2 ≠ .popenJob a p) ∧
      ((∀ j, j < k → ∀ msg, σ j = .client msg → msg = .status) →
        (runL (LSys.start dRun wDoomed) σ k).main = .idle →
        ∃ l, (lstep (runL (LSys.start dRun wDoomed) σ k) (.client .status)).main =
          .serving none (.pure ({ success := true, msg := .status .running, data := some (.daemon dRun) }, l))) := by
  refine ⟨by decide +kernel, by decide +kernel, fun σ hσ k hk => ?_⟩
  have h0 : (runL (LSys.start dRun wDoomed) σ jmDies.length).pc .job = .dead := by
    rw [runL_congr _ hσ]
    have h : (match (runL (LSys.start dRun wDoomed) (sched jmDies) jmDies.length).pc .job with
      | .dead => true | _ => false) = true := by decide +kernel
    revert h
    cases (runL (LSys.start dRun wDoomed) (sched jmDies) jmDies.length).pc .job <;>
      first | exact fun _ => rfl | (intro h; cases h)
  have hlog : (logOf .job (runL (LSys.start dRun wDoomed) σ jmDies.length)).all
      (fun o => match o with | .popenJob _ _ => false | _ => true) = true := by
    rw [runL_congr _ hσ]
    decide +kernel
  obtain ⟨h1, h2⟩ := C98_never_restarted dRun wDoomed σ .job _ k h0 hk
  refine ⟨h1, fun e he hj a p hop => ?_, fun hm hi => ?_⟩
  · rw [← h2] at hlog
    have hmem : e.2 ∈ logOf .job (runL (LSys.start dRun wDoomed) σ k) :=
      List.mem_map.mpr ⟨e, List.mem_filter.mpr ⟨he, by simpa using hj⟩, rfl⟩
    have := List.all_eq_true.mp hlog _ hmem
    rw [hop] at this
    cases this
  · have h3 := (daemon_kept dRun wDoomed σ k hm).1
    refine ⟨⟨dRun, some (statusReply dRun)⟩, ?_⟩
    simp only [lstep, hi, handleMsg, cmdStatus, h3]
    rfl

/-- Such schedules exist, and the daemon goes on to answer: after the job manager has died, the daemon
waits for messages. -/
example : (∀ j, j < jmDies.length → sched jmDies j = sched jmDies j) ∧
    (runL (LSys.start dRun wDoomed) (sched jmDies) 10).pc .job = .dead ∧
    (runL (LSys.start dRun wDoomed) (sched jmDies) 10).main = .idle := by
  refine ⟨fun _ _ => rfl, ?_, ?_⟩
  · have h : (match (runL (LSys.start dRun wDoomed) (sched jmDies) 10).pc .job with
      | .dead => true | _ => false) = true := by decide +kernel
    revert h
    cases (runL (LSys.start dRun wDoomed) (sched jmDies) 10).pc .job <;>
      first | exact fun _ => rfl | (intro h; cases h)
  · have h : (match (runL (LSys.start dRun wDoomed) (sched jmDies) 10).main with
      | .idle => true | _ => false) = true := by decide +kernel
    revert h
    cases (runL (LSys.start dRun wDoomed) (sched jmDies) 10).main <;>
      first | exact fun _ => rfl | (intro h; cases h)

/-- `C98_cause_partial`: both causes occur. -/
example : (sched jmDies 9 = .mgr .job ∧
      isDead ((runL (LSys.start dRun wDoomed) (sched jmDies) 9).pc .job) = false ∧
      isDead ((runL (LSys.start dRun wDoomed) (sched jmDies) 10).pc .job) = true ∧
      ∀ j, j < 9 → sched jmDies j ≠ .client .stop) ∧
    (isDead ((runL (LSys.start dRun wLife) (sched goodStop) 48).pc .pip) = false ∧
      isDead ((runL (LSys.start dRun wLife) (sched goodStop) 49).pc .pip) = true) := by
  refine ⟨⟨rfl, by decide +kernel, by decide +kernel, ?_⟩, by decide +kernel, by decide +kernel⟩
  intro j hj h
  match j, hj with
  | 0, _ | 1, _ | 2, _ | 3, _ | 4, _ | 5, _ | 6, _ | 7, _ | 8, _ => cases h

end Tomato.Props
