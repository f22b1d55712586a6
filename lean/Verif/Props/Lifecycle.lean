import Verif.Lifecycle
import Verif.SystemLemmas
import Verif.Props.System
import Mathlib.Tactic.ByContra

/-!
# C74 - C76: stopping the daemon
-/

namespace Tomato.Props

open Tomato Tomato.Life

/-! ## Invariants -/

/-- The status `stop` is final: no message changes it. -/
theorem handleMsg_stop (l : DLoop) (h : l.daemon.status = .stop) (m : DMsg) :
    Allow (fun _ => True) (fun x => x.2.daemon.status = .stop) (handleMsg l m) := by
  have only : ∀ {α : Type} (p : Prog DB α), Prog.Only (S := DB) (fun _ => True) p := by
    intro α p
    induction p with
    | pure a => trivial
    | raise e => trivial
    | op o k ih => exact ⟨trivial, ih⟩
  have any : ∀ {α : Type} (p : Prog DB α), Allow (fun _ => True) (fun _ => True) p :=
    fun p => allow_of_only (only p)
  cases m with
  | noCmd => exact h
  | status => exact h
  | stop =>
    unfold handleMsg cmdStop
    refine allow_bind (Q := fun x : CReply × Daemon => x.2.status = .stop) ?_
      (fun x hx => by cases x; exact hx)
    refine allow_bind (any _) (fun rp _ => ?_)
    split
    · exact h
    · rfl
  | reload parsed =>
    unfold handleMsg
    refine allow_bind (Q := fun x : CReply × Daemon => x.2.status = .stop) ?_
      (fun x hx => by cases x; exact hx)
    unfold cmdReload
    rw [if_neg (by rw [h]; decide)]
    cases parsed with
    | none => exact h
    | some sd =>
      simp only
      refine allow_bind (any _) (fun rp _ => ?_)
      refine allow_bind (any _) (fun c _ => ?_)
      cases c with
      | inl m => exact h
      | inr cs =>
        simp only
        refine allow_bind (any _) (fun c _ => ?_)
        cases c with
        | inl m => exact h
        | inr ds =>
          simp only
          refine allow_bind (any _) (fun c _ => ?_)
          cases c with
          | some m => exact h
          | none => exact h
  | otherAttribute n => trivial
  | notAString => trivial
  | unknown n =>
    unfold handleMsg
    cases l.ret with
    | none => trivial
    | some r => exact h

/-- What holds between the main loop and the threads: while a request of a manager is being
answered this manager is waiting; while a message is being handled the status `stop` is kept. -/
structure LifeInv (s : LSys) : Prop where
  kept : ∀ src p, s.main = .serving src p → s.loop.daemon.status = .stop →
    Allow (fun _ => True) (fun x => x.2.daemon.status = .stop) p
  asked : ∀ m p, s.main = .serving (some m) p →
    p = handleMsg s.loop .status ∧ isWaiting (s.pc m) = true

theorem upd_same {β : Type} (f : Mgr → β) (m : Mgr) (b : β) : upd f m b m = b := if_pos rfl

theorem upd_ne {β : Type} (f : Mgr → β) {m x : Mgr} (b : β) (h : x ≠ m) : upd f m b x = f x :=
  if_neg h

/-- A manager's step changes neither the main loop nor the other threads; a waiting manager does
nothing. -/
theorem mgrStep_frame (s : LSys) (m : Mgr) :
    (mgrStep s m).main = s.main ∧ (mgrStep s m).loop = s.loop ∧ (mgrStep s m).doRun = s.doRun ∧
    (∀ x, x ≠ m → (mgrStep s m).pc x = s.pc x) ∧
    (isWaiting (s.pc m) = true → mgrStep s m = s) := by
  unfold mgrStep
  split
  · next h =>
    split
    · exact ⟨rfl, rfl, rfl, fun x hx => upd_ne _ _ hx, fun hw => by rw [h] at hw; cases hw⟩
    · split
      · exact ⟨rfl, rfl, rfl, fun x hx => upd_ne _ _ hx, fun hw => by rw [h] at hw; cases hw⟩
      · exact ⟨rfl, rfl, rfl, fun x hx => upd_ne _ _ hx, fun hw => by rw [h] at hw; cases hw⟩
  · exact ⟨rfl, rfl, rfl, fun _ _ => rfl, fun _ => rfl⟩
  · exact ⟨rfl, rfl, rfl, fun _ _ => rfl, fun _ => rfl⟩
  · next h =>
    split
    · exact ⟨rfl, rfl, rfl, fun _ _ => rfl, fun _ => rfl⟩
    · exact ⟨rfl, rfl, rfl, fun x hx => upd_ne _ _ hx, fun hw => by rw [h] at hw; cases hw⟩
  · next h => exact ⟨rfl, rfl, rfl, fun x hx => upd_ne _ _ hx, fun hw => by rw [h] at hw; cases hw⟩
  · next h => exact ⟨rfl, rfl, rfl, fun x hx => upd_ne _ _ hx, fun hw => by rw [h] at hw; cases hw⟩
  · next h =>
    split
    · exact ⟨rfl, rfl, rfl, fun _ _ => rfl, fun _ => rfl⟩
    · exact ⟨rfl, rfl, rfl, fun x hx => upd_ne _ _ hx, fun hw => by rw [h] at hw; cases hw⟩
  · next h => exact ⟨rfl, rfl, rfl, fun x hx => upd_ne _ _ hx, fun hw => by rw [h] at hw; cases hw⟩
  · next h => exact ⟨rfl, rfl, rfl, fun x hx => upd_ne _ _ hx, fun hw => by rw [h] at hw; cases hw⟩
  · exact ⟨rfl, rfl, rfl, fun _ _ => rfl, fun _ => rfl⟩

theorem lifeInv_step {s : LSys} (h : LifeInv s) (a : LAct) : LifeInv (lstep s a) := by
  cases a with
  | world w => exact ⟨h.kept, h.asked⟩
  | mgr m =>
    simp only [lstep]
    split
    · exact h
    · obtain ⟨h1, h2, -, h4, h5⟩ := mgrStep_frame s m
      refine ⟨fun src p hp hs => ?_, fun x p hp => ?_⟩
      · rw [h1] at hp; rw [h2] at hs; exact h.kept src p hp hs
      · rw [h1] at hp
        rw [h2]
        obtain ⟨ha, hb⟩ := h.asked x p hp
        refine ⟨ha, ?_⟩
        by_cases hx : x = m
        · subst hx; rw [h5 hb]; exact hb
        · rw [h4 x hx]; exact hb
  | main =>
    simp only [lstep]
    unfold mainStep
    split
    · exact ⟨fun _ _ hp => (by cases hp), fun _ _ hp => (by cases hp)⟩
    · next src o k hm =>
      refine ⟨fun src' p hp hs => ?_, fun x p hp => ?_⟩
      · cases hp; exact (h.kept _ _ hm hs).2 s.w
      · cases hp
        obtain ⟨ha, -⟩ := h.asked x _ hm
        cases ha
    · next src r l hm =>
      split
      · exact ⟨fun _ _ hp => (by cases hp), fun _ _ hp => (by cases hp)⟩
      · exact ⟨fun _ _ hp => (by cases hp), fun _ _ hp => (by cases hp)⟩
    · exact ⟨fun _ _ hp => (by cases hp), fun _ _ hp => (by cases hp)⟩
    · unfold sweepStep
      split
      · refine ⟨fun _ _ hp => ?_, fun _ _ hp => ?_⟩ <;>
          (simp only at hp; split at hp <;> cases hp)
      · exact ⟨fun _ _ hp => (by cases hp), fun _ _ hp => (by cases hp)⟩
    · exact h
    · exact h
  | request m =>
    simp only [lstep]
    split
    · split
      · next hm hw =>
        refine ⟨fun src p hp hs => ?_, fun x p hp => ?_⟩
        · cases hp; exact handleMsg_stop _ hs _
        · cases hp; exact ⟨rfl, hw⟩
      · exact h
    · exact h
  | client msg =>
    simp only [lstep]
    split
    · refine ⟨fun src p hp hs => ?_, fun x p hp => (by cases hp)⟩
      cases hp; exact handleMsg_stop _ hs _
    · exact h

theorem lifeInv_run (d : Daemon) (w : World) (σ : Nat → LAct) (n : Nat) :
    LifeInv (runL (LSys.start d w) σ n) := by
  induction n with
  | zero => exact ⟨fun _ _ hp => (by cases hp), fun _ _ hp => (by cases hp)⟩
  | succ n ih => exact lifeInv_step ih _

/-- The status `stop` is final. -/
theorem stopped_step {s : LSys} (h : LifeInv s) (hs : s.loop.daemon.status = .stop) (a : LAct) :
    (lstep s a).loop.daemon.status = .stop := by
  cases a with
  | world w => exact hs
  | mgr m =>
    simp only [lstep]
    split
    · exact hs
    · rw [(mgrStep_frame s m).2.1]; exact hs
  | main =>
    simp only [lstep]
    unfold mainStep
    split
    · exact hs
    · exact hs
    · next src r l hm =>
      have := h.kept _ _ hm hs
      split <;> exact this
    · exact hs
    · unfold sweepStep
      split <;> exact hs
    · exact hs
    · exact hs
  | request m =>
    simp only [lstep]
    split
    · split <;> exact hs
    · exact hs
  | client msg =>
    simp only [lstep]
    split <;> exact hs

/-- Once told to end, the threads are never told otherwise. -/
theorem doRun_step {s : LSys} (m : Mgr) (hs : s.doRun m = false) (a : LAct) :
    (lstep s a).doRun m = false := by
  cases a with
  | world w => exact hs
  | mgr x =>
    simp only [lstep]
    split
    · exact hs
    · rw [(mgrStep_frame s x).2.2.1]; exact hs
  | main =>
    simp only [lstep]
    unfold mainStep
    split
    · exact hs
    · exact hs
    · split <;> exact hs
    · exact hs
    · unfold sweepStep
      split
      · rfl
      · exact hs
    · exact hs
    · exact hs
  | request m =>
    simp only [lstep]
    split
    · split <;> exact hs
    · exact hs
  | client msg =>
    simp only [lstep]
    split <;> exact hs

/-- The answer to `status`. -/
def statusReply (d : Daemon) : CReply :=
  Reply.mk true (CMsg.status d.status) (some (CData.daemon d))

/-- Where a thread is changes only by its own steps or when it gets the answer it waits for. -/
theorem pc_step {s : LSys} (h : LifeInv s) (m : Mgr) (a : LAct) :
    (lstep s a).pc m = s.pc m ∨ (a = .mgr m ∧ ended s.main = false) ∨
    (a = .main ∧ isWaiting (s.pc m) = true ∧
      (lstep s a).pc m = deliver (statusReply s.loop.daemon) m (s.pc m)) := by
  cases a with
  | world w => exact .inl rfl
  | mgr x =>
    simp only [lstep]
    split
    · exact .inl rfl
    · next hm =>
      by_cases hx : m = x
      · right; left; exact ⟨by rw [hx], by simpa using hm⟩
      · left; exact (mgrStep_frame s x).2.2.2.1 m hx
  | main =>
    simp only [lstep]
    unfold mainStep
    split
    · exact .inl rfl
    · exact .inl rfl
    · next src r l hm =>
      cases src with
      | none => exact .inl rfl
      | some x =>
        by_cases hx : m = x
        · subst hx
          obtain ⟨h1, h2⟩ := h.asked _ _ hm
          right; right
          refine ⟨trivial, h2, ?_⟩
          simp only [upd_same]
          have h3 : (Prog.pure (r, l) : P (CReply × DLoop)) = .pure (_, _) := h1
          cases h3
          rfl
        · left; exact upd_ne _ _ hx
    · exact .inl rfl
    · unfold sweepStep
      split <;> exact .inl rfl
    · exact .inl rfl
    · exact .inl rfl
  | request x =>
    simp only [lstep]
    split
    · split <;> exact .inl rfl
    · exact .inl rfl
  | client msg =>
    simp only [lstep]
    split <;> exact .inl rfl

/-- A message under way is handled by the main loop only. -/
theorem main_step {s : LSys} (a : LAct) (ha : a ≠ .main) (hm : s.main ≠ .idle) :
    (lstep s a).main = s.main := by
  cases a with
  | world w => rfl
  | mgr x =>
    simp only [lstep]
    split
    · rfl
    · exact (mgrStep_frame s x).1
  | main => exact absurd rfl ha
  | request x =>
    cases hx : s.main <;> first | exact absurd hx hm | simp only [lstep, hx]
  | client msg =>
    cases hx : s.main <;> first | exact absurd hx hm | simp only [lstep, hx]

/-! ## Every thread gets its turn -/

/-- The operating system and zmq are fair: every thread that can go on does so eventually, and the
request of a manager that keeps waiting is eventually received. -/
structure Fair (s : LSys) (σ : Nat → LAct) : Prop where
  mgr : ∀ m n, ∃ k, n ≤ k ∧ σ k = .mgr m
  main : ∀ n, ∃ k, n ≤ k ∧ σ k = .main
  request : ∀ m n, (∀ k, n ≤ k → isWaiting ((runL s σ k).pc m) = true) →
    ∃ k, n ≤ k ∧ σ k = .request m ∧ (runL s σ k).main = .idle

/-- There is a first one. -/
theorem first_of {P : Nat → Prop} {n : Nat} (h : ∃ k, n ≤ k ∧ P k) :
    ∃ k, n ≤ k ∧ P k ∧ ∀ j, n ≤ j → j < k → ¬ P j := by
  obtain ⟨k, hk, hP⟩ := h
  induction k using Nat.strongRecOn with
  | ind k ih =>
    by_cases hex : ∃ j, n ≤ j ∧ j < k ∧ P j
    · obtain ⟨j, h1, h2, h3⟩ := hex
      exact ih j h2 h1 h3
    · exact ⟨k, hk, hP, fun j h1 h2 h3 => hex ⟨j, h1, h2, h3⟩⟩

section
variable {d : Daemon} {w : World} {σ : Nat → LAct}

/-- What is not changed by the steps in between is the same at the end. -/
theorem stays {α : Type} (f : LSys → α) {s : LSys} {n k : Nat} (hnk : n ≤ k)
    (h : ∀ j, n ≤ j → j < k → f (runL s σ j) = f (runL s σ n) →
      f (runL s σ (j + 1)) = f (runL s σ n)) : f (runL s σ k) = f (runL s σ n) := by
  induction k with
  | zero => rw [Nat.le_zero.mp hnk]
  | succ k ih =>
    rcases Nat.lt_or_ge k n with h1 | h1
    · rw [show n = k + 1 by omega]
    · exact h k h1 (Nat.lt_succ_self k) (ih h1 (fun j h2 h3 => h j h2 (by omega)))

theorem holds_after {Q : LSys → Prop} {s : LSys} {n : Nat} (h0 : Q (runL s σ n))
    (h : ∀ j, n ≤ j → Q (runL s σ j) → Q (runL s σ (j + 1))) {k : Nat} (hk : n ≤ k) :
    Q (runL s σ k) := by
  induction k with
  | zero => rw [Nat.le_zero.mp hk] at h0; exact h0
  | succ k ih =>
    rcases Nat.lt_or_ge k n with h1 | h1
    · rw [show n = k + 1 by omega] at h0; exact h0
    · exact h k h1 (ih h1)

/-- As long as the process does not end, the main loop looks at the status again and again. -/
theorem sweeps (hf : Fair (LSys.start d w) σ)
    (hal : ∀ k, ended (runL (LSys.start d w) σ k).main = false) (n : Nat) :
    ∃ k, n ≤ k ∧ σ k = .main ∧ (runL (LSys.start d w) σ k).main = .sweep := by
  have hsweep : ∀ n, (runL (LSys.start d w) σ n).main = .sweep →
      ∃ k, n ≤ k ∧ σ k = .main ∧ (runL (LSys.start d w) σ k).main = .sweep := by
    intro n hn
    obtain ⟨k, hk, hk2, hk3⟩ := first_of (hf.main n)
    refine ⟨k, hk, hk2, ?_⟩
    rw [← hn]
    refine stays (·.main) hk (fun j h1 h2 h3 => ?_)
    rw [← h3]
    exact main_step _ (hk3 j h1 h2) (by rw [h3, hn]; intro h; cases h)
  have hserv : ∀ (p : P (CReply × DLoop)) (src : Option Mgr) (n : Nat),
      (runL (LSys.start d w) σ n).main = .serving src p →
      ∃ k, n ≤ k ∧ σ k = .main ∧ (runL (LSys.start d w) σ k).main = .sweep := by
    intro p
    induction p with
    | pure x =>
      intro src n hn
      obtain ⟨k, hk, hk2, hk3⟩ := first_of (hf.main n)
      have hst : (runL (LSys.start d w) σ k).main = .serving src (.pure x) := by
        rw [← hn]
        refine stays (·.main) hk (fun j h1 h2 h3 => ?_)
        rw [← h3]
        exact main_step _ (hk3 j h1 h2) (by rw [h3, hn]; intro h; cases h)
      have hnext : (runL (LSys.start d w) σ (k + 1)).main = .sweep := by
        obtain ⟨r, l⟩ := x
        simp only [runL, hk2, lstep, mainStep, hst]
        cases src <;> rfl
      obtain ⟨k', h1, h2⟩ := hsweep (k + 1) hnext
      exact ⟨k', by omega, h2⟩
    | raise e =>
      intro src n hn
      obtain ⟨k, hk, hk2, hk3⟩ := first_of (hf.main n)
      have hst : (runL (LSys.start d w) σ k).main = .serving src (.raise e) := by
        rw [← hn]
        refine stays (·.main) hk (fun j h1 h2 h3 => ?_)
        rw [← h3]
        exact main_step _ (hk3 j h1 h2) (by rw [h3, hn]; intro h; cases h)
      have hnext : (runL (LSys.start d w) σ (k + 1)).main = .crashed := by
        simp only [runL, hk2, lstep, mainStep, hst]
      have := hal (k + 1)
      rw [hnext] at this
      cases this
    | op o c ih =>
      intro src n hn
      obtain ⟨k, hk, hk2, hk3⟩ := first_of (hf.main n)
      have hst : (runL (LSys.start d w) σ k).main = .serving src (.op o c) := by
        rw [← hn]
        refine stays (·.main) hk (fun j h1 h2 h3 => ?_)
        rw [← h3]
        exact main_step _ (hk3 j h1 h2) (by rw [h3, hn]; intro h; cases h)
      have hnext : (runL (LSys.start d w) σ (k + 1)).main =
          .serving src (c (exec o (runL (LSys.start d w) σ k).w).1) := by
        simp only [runL, hk2, lstep, mainStep, hst]
      obtain ⟨k', h1, h2⟩ := ih _ src (k + 1) hnext
      exact ⟨k', by omega, h2⟩
  obtain ⟨k, hk, hk2⟩ := hf.main n
  have := hal k
  cases hm : (runL (LSys.start d w) σ k).main with
  | idle =>
    have hnext : (runL (LSys.start d w) σ (k + 1)).main = .sweep := by
      simp only [runL, hk2, lstep, mainStep, hm]
    obtain ⟨k', h1, h2⟩ := hsweep (k + 1) hnext
    exact ⟨k', by omega, h2⟩
  | serving src p =>
    obtain ⟨k', h1, h2⟩ := hserv p src k hm
    exact ⟨k', by omega, h2⟩
  | sweep =>
    obtain ⟨k', h1, h2⟩ := hsweep k hm
    exact ⟨k', by omega, h2⟩
  | exited => rw [hm] at this; cases this
  | crashed => rw [hm] at this; cases this

/-- A thread that is not waiting performs its next step. -/
theorem mgr_moves (hf : Fair (LSys.start d w) σ)
    (hal : ∀ k, ended (runL (LSys.start d w) σ k).main = false) (m : Mgr) (n : Nat)
    (hw : isWaiting ((runL (LSys.start d w) σ n).pc m) = false) :
    ∃ k, n ≤ k ∧ (runL (LSys.start d w) σ k).pc m = (runL (LSys.start d w) σ n).pc m ∧
      runL (LSys.start d w) σ (k + 1) = mgrStep (runL (LSys.start d w) σ k) m := by
  obtain ⟨k, hk, hk2, hk3⟩ := first_of (hf.mgr m n)
  refine ⟨k, hk, ?_, ?_⟩
  · refine stays (fun s => s.pc m) hk (fun j h1 h2 h3 => ?_)
    rcases pc_step (lifeInv_run d w σ j) m (σ j) with h | ⟨h, -⟩ | ⟨-, h, -⟩
    · exact h.trans h3
    · exact absurd h (hk3 j h1 h2)
    · rw [h3, hw] at h; cases h
  · simp only [runL, hk2, lstep, hal k, Bool.false_eq_true, if_false]

/-- A waiting thread gets its answer. -/
theorem mgr_answered (hf : Fair (LSys.start d w) σ)
    (hal : ∀ k, ended (runL (LSys.start d w) σ k).main = false) (m : Mgr) (n : Nat)
    (hw : isWaiting ((runL (LSys.start d w) σ n).pc m) = true) :
    ∃ k dd, n ≤ k ∧ (runL (LSys.start d w) σ k).pc m =
      deliver (statusReply dd) m ((runL (LSys.start d w) σ n).pc m) := by
  have hex : ∃ k, n ≤ k ∧ (runL (LSys.start d w) σ (k + 1)).pc m ≠ (runL (LSys.start d w) σ n).pc m := by
    by_contra hno
    have hall : ∀ k, n ≤ k → (runL (LSys.start d w) σ k).pc m = (runL (LSys.start d w) σ n).pc m := by
      intro k hk
      rcases Nat.eq_or_lt_of_le hk with rfl | hlt
      · rfl
      · by_contra hne
        exact hno ⟨k - 1, by omega, by rwa [show k - 1 + 1 = k by omega]⟩
    obtain ⟨k, hk, hk2, hk3⟩ := hf.request m n (fun k hk => by rw [hall k hk]; exact hw)
    have hs : (runL (LSys.start d w) σ (k + 1)).main =
        .serving (some m) (handleMsg (runL (LSys.start d w) σ k).loop .status) := by
      have hwk : isWaiting ((runL (LSys.start d w) σ k).pc m) = true := by rw [hall k hk]; exact hw
      simp only [runL, hk2, lstep, hk3, hwk, if_true]
    obtain ⟨j, hj, hj2, hj3⟩ := first_of (hf.main (k + 1))
    have hst : (runL (LSys.start d w) σ j).main =
        .serving (some m) (handleMsg (runL (LSys.start d w) σ k).loop .status) := by
      rw [← hs]
      refine stays (·.main) hj (fun i h1 h2 h3 => ?_)
      rw [← h3]
      exact main_step _ (hj3 i h1 h2) (by rw [h3, hs]; intro h; cases h)
    have hpc := hall j (by omega)
    have hnext : (runL (LSys.start d w) σ (j + 1)).pc m =
        deliver (statusReply (runL (LSys.start d w) σ k).loop.daemon) m
          ((runL (LSys.start d w) σ j).pc m) := by
      have hst' : (runL (LSys.start d w) σ j).main = .serving (some m)
          (.pure (statusReply (runL (LSys.start d w) σ k).loop.daemon,
            ⟨(runL (LSys.start d w) σ k).loop.daemon,
              some (statusReply (runL (LSys.start d w) σ k).loop.daemon)⟩)) := hst
      simp only [runL, hj2, lstep, mainStep, hst', upd_same]
    have h1 := hall (j + 1) (by omega)
    rw [hnext, hpc] at h1
    revert h1 hw
    cases (runL (LSys.start d w) σ n).pc m with
    | waiting => intro _ h; cases h
    | quitWait => intro _ h; cases h
    | check => intro h; cases h
    | running p => intro h; cases h
    | quitting p => intro h; cases h
    | dead => intro h; cases h
  obtain ⟨k, hk, hk2, hk3⟩ := first_of hex
  have hpc : (runL (LSys.start d w) σ k).pc m = (runL (LSys.start d w) σ n).pc m :=
    stays (fun s => s.pc m) hk (fun j h1 h2 _ => Classical.not_not.mp (hk3 j h1 h2))
  rcases pc_step (lifeInv_run d w σ k) m (σ k) with h | ⟨h, -⟩ | ⟨-, -, h⟩
  · exact absurd (h.trans hpc) hk2
  · have h2 : runL (LSys.start d w) σ (k + 1) = mgrStep (runL (LSys.start d w) σ k) m := by
      simp only [runL, h, lstep, hal k, Bool.false_eq_true, if_false]
    rw [h2, (mgrStep_frame _ m).2.2.2.2 (by rw [hpc]; exact hw)] at hk2
    exact absurd hpc hk2
  · exact ⟨k + 1, _, by omega, by rw [← hpc]; exact h⟩

theorem not_blocked {w : World} (h : ∀ port c, (w.drv port c).isSome = true) (o : Op) :
    blocked w o = false := by
  unfold blocked
  split
  · next port c =>
    have := h port c
    cases hx : w.drv port c with
    | none => rw [hx] at this; cases this
    | some r => rfl
  · rfl

/-- A pass ends. -/
theorem pass_ends (hf : Fair (LSys.start d w) σ)
    (hal : ∀ k, ended (runL (LSys.start d w) σ k).main = false)
    (hdrv : ∀ k port c, ((runL (LSys.start d w) σ k).w.drv port c).isSome = true) (m : Mgr)
    (p : P Unit) (n : Nat) (hn : (runL (LSys.start d w) σ n).pc m = .running p) :
    ∃ k, n ≤ k ∧ ((runL (LSys.start d w) σ k).pc m = .check ∨
      (runL (LSys.start d w) σ k).pc m = .dead) := by
  induction p generalizing n with
  | pure x =>
    obtain ⟨k, hk, hk2, hk3⟩ := mgr_moves hf hal m n (by rw [hn]; rfl)
    refine ⟨k + 1, by omega, .inl ?_⟩
    rw [hk3]; simp only [mgrStep, hk2, hn, upd_same]
  | raise e =>
    obtain ⟨k, hk, hk2, hk3⟩ := mgr_moves hf hal m n (by rw [hn]; rfl)
    refine ⟨k + 1, by omega, .inr ?_⟩
    rw [hk3]; simp only [mgrStep, hk2, hn, upd_same]
  | op o c ih =>
    obtain ⟨k, hk, hk2, hk3⟩ := mgr_moves hf hal m n (by rw [hn]; rfl)
    have hb := not_blocked (hdrv k) o
    obtain ⟨k', h1, h2⟩ := ih (exec o (runL (LSys.start d w) σ k).w).1 (k + 1) (by
      rw [hk3]; simp only [mgrStep, hk2, hn, hb, Bool.false_eq_true, if_false, upd_same])
    exact ⟨k', by omega, h2⟩

/-- The end of the driver manager ends. -/
theorem quit_ends (hf : Fair (LSys.start d w) σ)
    (hal : ∀ k, ended (runL (LSys.start d w) σ k).main = false)
    (hdrv : ∀ k port c, ((runL (LSys.start d w) σ k).w.drv port c).isSome = true) (m : Mgr)
    (p : P Unit) (n : Nat) (hn : (runL (LSys.start d w) σ n).pc m = .quitting p) :
    ∃ k, n ≤ k ∧ (runL (LSys.start d w) σ k).pc m = .dead := by
  induction p generalizing n with
  | pure x =>
    obtain ⟨k, hk, hk2, hk3⟩ := mgr_moves hf hal m n (by rw [hn]; rfl)
    refine ⟨k + 1, by omega, ?_⟩
    rw [hk3]; simp only [mgrStep, hk2, hn, upd_same]
  | raise e =>
    obtain ⟨k, hk, hk2, hk3⟩ := mgr_moves hf hal m n (by rw [hn]; rfl)
    refine ⟨k + 1, by omega, ?_⟩
    rw [hk3]; simp only [mgrStep, hk2, hn, upd_same]
  | op o c ih =>
    obtain ⟨k, hk, hk2, hk3⟩ := mgr_moves hf hal m n (by rw [hn]; rfl)
    have hb := not_blocked (hdrv k) o
    obtain ⟨k', h1, h2⟩ := ih (exec o (runL (LSys.start d w) σ k).w).1 (k + 1) (by
      rw [hk3]; simp only [mgrStep, hk2, hn, hb, Bool.false_eq_true, if_false, upd_same])
    exact ⟨k', by omega, h2⟩

/-- A thread that was told to end ends. -/
theorem mgr_ends (hf : Fair (LSys.start d w) σ)
    (hal : ∀ k, ended (runL (LSys.start d w) σ k).main = false)
    (hdrv : ∀ k port c, ((runL (LSys.start d w) σ k).w.drv port c).isSome = true) (m : Mgr)
    (n : Nat) (hr : (runL (LSys.start d w) σ n).doRun m = false) :
    ∃ k, n ≤ k ∧ (runL (LSys.start d w) σ k).pc m = .dead := by
  have hrun : ∀ k, n ≤ k → (runL (LSys.start d w) σ k).doRun m = false := fun k hk =>
    holds_after (Q := fun s => s.doRun m = false) hr (fun j _ h => doRun_step m h _) hk
  have hquitw : ∀ n', n ≤ n' → (runL (LSys.start d w) σ n').pc m = .quitWait →
      ∃ k, n ≤ k ∧ (runL (LSys.start d w) σ k).pc m = .dead := by
    intro n' hn' hq
    obtain ⟨k, dd, hk, hk2⟩ := mgr_answered hf hal m n' (by rw [hq]; rfl)
    rw [hq] at hk2
    obtain ⟨k', h1, h2⟩ := quit_ends hf hal hdrv m _ k hk2
    exact ⟨k', by omega, h2⟩
  have hcheck : ∀ n', n ≤ n' → (runL (LSys.start d w) σ n').pc m = .check →
      ∃ k, n ≤ k ∧ (runL (LSys.start d w) σ k).pc m = .dead := by
    intro n' hn' hc
    obtain ⟨k, hk, hk2, hk3⟩ := mgr_moves hf hal m n' (by rw [hc]; rfl)
    have hd := hrun k (by omega)
    by_cases hm : m = .drv
    · refine hquitw (k + 1) (by omega) ?_
      rw [hk3]; simp only [mgrStep, hk2, hc, hd, Bool.false_eq_true, if_false]
      rw [if_pos hm]; exact upd_same _ _ _
    · refine ⟨k + 1, by omega, ?_⟩
      rw [hk3]; simp only [mgrStep, hk2, hc, hd, Bool.false_eq_true, if_false]
      rw [if_neg hm]; exact upd_same _ _ _
  have hpass : ∀ n' p, n ≤ n' → (runL (LSys.start d w) σ n').pc m = .running p →
      ∃ k, n ≤ k ∧ (runL (LSys.start d w) σ k).pc m = .dead := by
    intro n' p hn' hp
    obtain ⟨k, hk, hk2⟩ := pass_ends hf hal hdrv m p n' hp
    rcases hk2 with h | h
    · exact hcheck k (by omega) h
    · exact ⟨k, by omega, h⟩
  cases hpc : (runL (LSys.start d w) σ n).pc m with
  | check => exact hcheck n (Nat.le_refl n) hpc
  | waiting =>
    obtain ⟨k, dd, hk, hk2⟩ := mgr_answered hf hal m n (by rw [hpc]; rfl)
    rw [hpc] at hk2
    exact hpass k _ hk hk2
  | running p => exact hpass n p (Nat.le_refl n) hpc
  | quitWait => exact hquitw n (Nat.le_refl n) hpc
  | quitting p => exact quit_ends hf hal hdrv m p n hpc
  | dead => exact ⟨n, Nat.le_refl n, hpc⟩

theorem dead_after {m : Mgr} {n k : Nat} (hn : (runL (LSys.start d w) σ n).pc m = .dead)
    (hk : n ≤ k) : (runL (LSys.start d w) σ k).pc m = .dead := by
  refine holds_after (Q := fun s => s.pc m = .dead) hn (fun j _ h => ?_) hk
  rcases pc_step (lifeInv_run d w σ j) m (σ j) with h1 | ⟨h1, -⟩ | ⟨-, h1, -⟩
  · exact h1.trans h
  · simp only [runL, h1, lstep]
    split
    · exact h
    · simp only [mgrStep, h]
  · rw [h] at h1; cases h1

theorem ended_after {n k : Nat} (hn : ended (runL (LSys.start d w) σ n).main = true)
    (hk : n ≤ k) : (runL (LSys.start d w) σ k).main = (runL (LSys.start d w) σ n).main := by
  refine stays (·.main) hk (fun j h1 h2 h3 => ?_)
  rw [← h3] at hn ⊢
  by_cases ha : σ j = .main
  · simp only [runL, ha, lstep]
    cases hm : (runL (LSys.start d w) σ j).main <;> rw [hm] at hn <;>
      first | (cases hn; done) | (unfold mainStep; rw [hm]; exact hm)
  · refine main_step _ ha (fun h => ?_)
    rw [h] at hn; cases hn

/-- Only a client's message can crash the main loop. -/
theorem crash_client (n : Nat) :
    ((runL (LSys.start d w) σ n).main = .crashed ∨
      ∃ p, (runL (LSys.start d w) σ n).main = .serving none p) →
    ∃ j msg, j < n ∧ σ j = .client msg := by
  induction n with
  | zero => rintro (h | ⟨p, h⟩) <;> cases h
  | succ n ih =>
    have lift : (∃ j msg, j < n ∧ σ j = .client msg) → ∃ j msg, j < n + 1 ∧ σ j = .client msg :=
      fun ⟨j, msg, h1, h2⟩ => ⟨j, msg, by omega, h2⟩
    intro h
    simp only [runL] at h
    cases ha : σ n with
    | client msg => exact ⟨n, msg, by omega, ha⟩
    | world w' => rw [ha] at h; exact lift (ih h)
    | mgr m =>
      rw [ha] at h
      simp only [lstep] at h
      split at h
      · exact lift (ih h)
      · rw [(mgrStep_frame _ m).1] at h; exact lift (ih h)
    | request m =>
      rw [ha] at h
      simp only [lstep] at h
      split at h
      · split at h
        · rcases h with h | ⟨p, h⟩ <;> cases h
        · exact lift (ih h)
      · exact lift (ih h)
    | main =>
      rw [ha] at h
      simp only [lstep, mainStep] at h
      cases hm : (runL (LSys.start d w) σ n).main with
      | idle => rw [hm] at h; rcases h with h | ⟨p, h⟩ <;> cases h
      | sweep =>
        rw [hm] at h
        simp only [sweepStep] at h
        split at h
        · split at h <;> (rcases h with h | ⟨p, h⟩ <;> cases h)
        · rcases h with h | ⟨p, h⟩ <;> cases h
      | exited => rw [hm] at h; simp only [hm] at h; rcases h with h | ⟨p, h⟩ <;> cases h
      | crashed => exact lift (ih (.inl hm))
      | serving src p =>
        cases src with
        | none => exact lift (ih (.inr ⟨p, hm⟩))
        | some m =>
          obtain ⟨h1, -⟩ := (lifeInv_run d w σ n).asked m p hm
          subst h1
          rw [hm] at h
          rcases h with h | ⟨p, h⟩ <;> cases h

/-! ## C74 -/

/-- **C74** (part): if the operating system and zmq are fair and the drivers answer their
requests, then a daemon that agreed to stop ends, whatever messages it gets and whatever else
happens in the meantime.  It ends with an uncaught exception only if a client sent a message
(`handleMsg` says which ones are meant). -/
theorem C74_exits_partial (d : Daemon) (w : World) (σ : Nat → LAct)
    (hf : Fair (LSys.start d w) σ)
    (hdrv : ∀ k port c, ((runL (LSys.start d w) σ k).w.drv port c).isSome = true) (n : Nat)
    (hstop : (runL (LSys.start d w) σ n).loop.daemon.status = .stop) :
    ∃ k, n ≤ k ∧ ((runL (LSys.start d w) σ k).main = .exited ∨
      ((runL (LSys.start d w) σ k).main = .crashed ∧ ∃ j msg, j < k ∧ σ j = .client msg)) := by
  by_contra hno
  have hal : ∀ k, ended (runL (LSys.start d w) σ k).main = false := by
    intro k
    by_contra hk
    have hk : ended (runL (LSys.start d w) σ k).main = true := by simpa using hk
    have h1 := ended_after hk (Nat.le_max_left k n)
    refine hno ⟨max k n, Nat.le_max_right k n, ?_⟩
    cases hm : (runL (LSys.start d w) σ k).main with
    | exited => left; rw [h1, hm]
    | crashed => right; exact ⟨by rw [h1, hm], crash_client _ (.inl (by rw [h1, hm]))⟩
    | idle => rw [hm] at hk; cases hk
    | sweep => rw [hm] at hk; cases hk
    | serving src p => rw [hm] at hk; cases hk
  have hstop' : ∀ k, n ≤ k → (runL (LSys.start d w) σ k).loop.daemon.status = .stop := fun k hk =>
    holds_after (Q := fun s => s.loop.daemon.status = .stop) hstop
      (fun j _ h => stopped_step (lifeInv_run d w σ j) h _) hk
  obtain ⟨k, hk, hk2, hk3⟩ := sweeps hf hal n
  have hrun : ∀ m, (runL (LSys.start d w) σ (k + 1)).doRun m = false := by
    intro m
    simp only [runL, hk2, lstep, mainStep, hk3, sweepStep, hstop' k hk]
  obtain ⟨a, ha, ha2⟩ := mgr_ends hf hal hdrv .job (k + 1) (hrun _)
  obtain ⟨b, hb, hb2⟩ := mgr_ends hf hal hdrv .drv (k + 1) (hrun _)
  obtain ⟨c, hc, hc2⟩ := mgr_ends hf hal hdrv .pip (k + 1) (hrun _)
  obtain ⟨k', hk', hk2', hk3'⟩ := sweeps hf hal (max a (max b c))
  have h1 := dead_after ha2 (k := k') (by omega)
  have h2 := dead_after hb2 (k := k') (by omega)
  have h3 := dead_after hc2 (k := k') (by omega)
  have h4 : (runL (LSys.start d w) σ (k' + 1)).main = .exited := by
    simp only [runL, hk2', lstep, mainStep, hk3', sweepStep, hstop' k' (by omega), h1, h2, h3]
    rfl
  have h5 := hal (k' + 1)
  rw [h4] at h5
  cases h5

/-- Nothing but `stop` makes a daemon stop. -/
theorem handleMsg_run (l : DLoop) (h : l.daemon.status ≠ .stop) (m : DMsg) (hm : m ≠ .stop) :
    Allow (fun _ => True) (fun x => x.2.daemon.status ≠ .stop) (handleMsg l m) := by
  have only : ∀ {α : Type} (p : Prog DB α), Prog.Only (S := DB) (fun _ => True) p := by
    intro α p
    induction p with
    | pure a => trivial
    | raise e => trivial
    | op o k ih => exact ⟨trivial, ih⟩
  have any : ∀ {α : Type} (p : Prog DB α), Allow (fun _ => True) (fun _ => True) p :=
    fun p => allow_of_only (only p)
  cases m with
  | noCmd => exact h
  | status => exact h
  | stop => exact absurd rfl hm
  | reload parsed =>
    unfold handleMsg
    refine allow_bind (Q := fun x : CReply × Daemon => x.2.status ≠ .stop) ?_
      (fun x hx => by cases x; exact hx)
    unfold cmdReload
    split
    · refine allow_bind (any _) (fun _ _ => ?_)
      refine allow_bind (any _) (fun _ _ => ?_)
      intro hx; cases hx
    · cases parsed with
      | none => exact h
      | some sd =>
        simp only
        refine allow_bind (any _) (fun rp _ => ?_)
        refine allow_bind (any _) (fun c _ => ?_)
        cases c with
        | inl m => exact h
        | inr cs =>
          simp only
          refine allow_bind (any _) (fun c _ => ?_)
          cases c with
          | inl m => exact h
          | inr ds =>
            simp only
            refine allow_bind (any _) (fun c _ => ?_)
            cases c with
            | some m => exact h
            | none => exact h
  | otherAttribute n => trivial
  | notAString => trivial
  | unknown n =>
    unfold handleMsg
    cases l.ret with
    | none => trivial
    | some r => exact h

theorem stop_asked (hd : d.status ≠ .stop) (n : Nat)
    (hno : ∀ j, j < n → σ j ≠ .client .stop) :
    (runL (LSys.start d w) σ n).loop.daemon.status ≠ .stop ∧
    ∀ src p, (runL (LSys.start d w) σ n).main = .serving src p →
      Allow (fun _ => True) (fun x => x.2.daemon.status ≠ .stop) p := by
  induction n with
  | zero => exact ⟨hd, fun _ _ hp => (by cases hp)⟩
  | succ n ih =>
    obtain ⟨h1, h2⟩ := ih (fun j hj => hno j (by omega))
    simp only [runL]
    cases ha : σ n with
    | client msg =>
      simp only [lstep]
      split
      · refine ⟨h1, fun src p hp => ?_⟩
        cases hp
        exact handleMsg_run _ h1 _ (fun h => hno n (by omega) (by rw [ha, h]))
      · exact ⟨h1, h2⟩
    | world w' => exact ⟨h1, h2⟩
    | mgr m =>
      simp only [lstep]
      split
      · exact ⟨h1, h2⟩
      · rw [(mgrStep_frame _ m).1, (mgrStep_frame _ m).2.1]; exact ⟨h1, h2⟩
    | request m =>
      simp only [lstep]
      split
      · split
        · refine ⟨h1, fun src p hp => ?_⟩
          cases hp
          exact handleMsg_run _ h1 _ (fun h => by cases h)
        · exact ⟨h1, h2⟩
      · exact ⟨h1, h2⟩
    | main =>
      simp only [lstep, mainStep]
      split
      · exact ⟨h1, fun _ _ hp => (by cases hp)⟩
      · next src o k hm =>
        refine ⟨h1, fun src' p hp => ?_⟩
        cases hp
        exact (h2 _ _ hm).2 _
      · next src r l hm =>
        have := h2 _ _ hm
        split
        · exact ⟨this, fun _ _ hp => (by cases hp)⟩
        · exact ⟨this, fun _ _ hp => (by cases hp)⟩
      · exact ⟨h1, fun _ _ hp => (by cases hp)⟩
      · unfold sweepStep
        split
        · next hx => exact absurd hx h1
        · exact ⟨h1, fun _ _ hp => (by cases hp)⟩
      · exact ⟨h1, h2⟩
      · exact ⟨h1, h2⟩

/-- **C74** (part): the daemon exits only if a client asked it to stop, and not before all its
managers have ended. -/
theorem C74_only_when_asked_partial (d : Daemon) (w : World) (σ : Nat → LAct) (n : Nat)
    (hd : d.status ≠ .stop) (hex : (runL (LSys.start d w) σ n).main = .exited) :
    (∃ j, j < n ∧ σ j = .client .stop) ∧ ∀ m, (runL (LSys.start d w) σ n).pc m = .dead := by
  have key : ∀ n, (runL (LSys.start d w) σ n).main = .exited →
      (runL (LSys.start d w) σ n).loop.daemon.status = .stop ∧
      ∀ m, (runL (LSys.start d w) σ n).pc m = .dead := by
    intro n
    induction n with
    | zero => intro h; cases h
    | succ n ih =>
      intro h
      by_cases he : ended (runL (LSys.start d w) σ n).main = true
      · have h1 := ended_after he (Nat.le_succ n)
        have hi := ih (by rw [← h1]; exact h)
        refine ⟨stopped_step (lifeInv_run d w σ n) hi.1 _, fun m => dead_after (hi.2 m) (Nat.le_succ n)⟩
      · simp only [runL] at h ⊢
        cases ha : σ n with
        | world w' => rw [ha] at h; exact absurd (by rw [show (runL (LSys.start d w) σ n).main = .exited from h]; rfl) he
        | mgr m =>
          rw [ha] at h
          simp only [lstep] at h
          split at h
          · rw [h] at he; exact absurd rfl he
          · rw [(mgrStep_frame _ m).1] at h; rw [h] at he; exact absurd rfl he
        | request m =>
          rw [ha] at h
          simp only [lstep] at h
          split at h
          · split at h
            · cases h
            · rw [h] at he; exact absurd rfl he
          · rw [h] at he; exact absurd rfl he
        | client msg =>
          rw [ha] at h
          simp only [lstep] at h
          split at h
          · cases h
          · rw [h] at he; exact absurd rfl he
        | main =>
          rw [ha] at h
          simp only [lstep, mainStep] at h ⊢
          cases hm : (runL (LSys.start d w) σ n).main with
          | idle => rw [hm] at h; cases h
          | exited => rw [hm] at he; exact absurd rfl he
          | crashed => rw [hm] at he; exact absurd rfl he
          | serving src p =>
            rw [hm] at h
            cases p with
            | pure x => cases src <;> cases h
            | raise e => cases h
            | op o k => cases h
          | sweep =>
            rw [hm] at h
            simp only [sweepStep] at h ⊢
            cases hs : (runL (LSys.start d w) σ n).loop.daemon.status with
            | stop =>
              rw [hs] at h
              simp only at h ⊢
              split at h
              · next hdead =>
                have isd : ∀ pc, isDead pc = true → pc = .dead := by
                  intro pc hpc
                  cases pc <;> first | rfl | cases hpc
                refine ⟨hs, fun m => ?_⟩
                cases m
                · exact isd _ hdead.1
                · exact isd _ hdead.2.2
                · exact isd _ hdead.2.1
              · cases h
            | running => rw [hs] at h; cases h
            | bootstrap => rw [hs] at h; cases h
  obtain ⟨h1, h2⟩ := key n hex
  refine ⟨?_, h2⟩
  by_contra hno
  exact (stop_asked hd n (fun j hj h => hno ⟨j, hj, h⟩)).1 h1

end

/-! ### A run to the end -/

/-- Every thread and every request in turn. -/
def roundRobin (n : Nat) : LAct :=
  match n % 7 with
  | 0 => .mgr .job
  | 1 => .mgr .pip
  | 2 => .mgr .drv
  | 3 => .main
  | 4 => .request .job
  | 5 => .request .pip
  | _ => .request .drv

/-- A list of actions, then everything in turn. -/
def sched (l : List LAct) (n : Nat) : LAct :=
  match l[n]? with
  | some a => a
  | none => roundRobin (n - l.length)

theorem sched_tail (l : List LAct) (i n : Nat) (hi : i < 7) :
    ∃ k, n ≤ k ∧ sched l k = roundRobin i := by
  refine ⟨l.length + 7 * n + i, by omega, ?_⟩
  have h1 : l[l.length + 7 * n + i]? = none := List.getElem?_eq_none (by omega)
  have h2 : (l.length + 7 * n + i - l.length) % 7 = i % 7 := by omega
  simp only [sched, h1, roundRobin, h2]

/-- If the daemon has exited at the end of the list, the schedule is fair. -/
theorem sched_fair (d : Daemon) (w : World) (l : List LAct) (hd : d.status ≠ .stop)
    (hex : (runL (LSys.start d w) (sched l) l.length).main = .exited) :
    Fair (LSys.start d w) (sched l) := by
  refine ⟨fun m n => ?_, fun n => ?_, fun m n hw => ?_⟩
  · cases m
    · exact sched_tail l 0 n (by decide)
    · exact sched_tail l 1 n (by decide)
    · exact sched_tail l 2 n (by decide)
  · exact sched_tail l 3 n (by decide)
  · have h1 := (C74_only_when_asked_partial d w (sched l) l.length hd hex).2 m
    have h2 := dead_after h1 (Nat.le_max_left l.length n)
    have h3 := hw (max l.length n) (Nat.le_max_right l.length n)
    rw [h2] at h3
    cases h3

/-- The world with the driver `d` running; it answers everything. -/
def wLife : World := sSetup.w

/-- A client asks the daemon to stop, the managers end, the driver is stopped. -/
def goodStop : List LAct :=
  [.mgr .job, .client .stop, .main, .main, .main, .request .job, .main, .main] ++
  List.replicate 40 (.mgr .job) ++
  [.mgr .pip, .mgr .drv, .request .drv, .main, .main, .mgr .drv, .mgr .drv, .mgr .drv, .main, .main]

theorem goodStop_exits :
    (runL (LSys.start dRun wLife) (sched goodStop) goodStop.length).main = .exited := by
  have h : (match (runL (LSys.start dRun wLife) (sched goodStop) goodStop.length).main with
    | .exited => true | _ => false) = true := by decide +kernel
  revert h
  cases (runL (LSys.start dRun wLife) (sched goodStop) goodStop.length).main <;>
    first | exact fun _ => rfl | (intro h; cases h)

/-- How drivers answer is not changed by any operation. -/
theorem exec_keeps_drv (o : Op) (w : World) : (exec o w).2.drv = w.drv := by
  cases o with
  | askDriver port c =>
    cases port with
    | none => rfl
    | some p => simp only [exec]; split <;> rfl
  | askDriverLpp port c => cases port <;> rfl
  | askDriverTimeout port c =>
    cases port with
    | none => rfl
    | some p => simp only [exec]; split <;> rfl
  | makeJobDir s i => simp only [exec]; split <;> rfl
  | idBySubmitted t => simp only [exec]; split <;> rfl
  | merge a b c => simp only [exec]; repeat (first | rfl | split)
  | _ => first | rfl | (simp only [exec]; split <;> rfl)

theorem lstep_keeps_drv (s : LSys) (a : LAct) (ha : ∀ w, a ≠ .world w) :
    (lstep s a).w.drv = s.w.drv := by
  cases a with
  | world w => exact absurd rfl (ha w)
  | mgr m =>
    simp only [lstep]
    split
    · rfl
    · unfold mgrStep
      split
      · split
        · rfl
        · split <;> rfl
      · rfl
      · rfl
      · split
        · rfl
        · exact exec_keeps_drv _ _
      · rfl
      · rfl
      · split
        · rfl
        · exact exec_keeps_drv _ _
      · rfl
      · rfl
      · rfl
  | main =>
    simp only [lstep, mainStep]
    split
    · rfl
    · exact exec_keeps_drv _ _
    · split <;> rfl
    · rfl
    · unfold sweepStep
      split <;> rfl
    · rfl
    · rfl
  | request m =>
    simp only [lstep]
    split
    · split <;> rfl
    · rfl
  | client msg =>
    simp only [lstep]
    split <;> rfl

theorem sched_keeps_drv (s : LSys) (l : List LAct)
    (hl : l.all (fun a => match a with | .world _ => false | _ => true) = true) (k : Nat) :
    (runL s (sched l) k).w.drv = s.w.drv := by
  induction k with
  | zero => rfl
  | succ k ih =>
    rw [← ih]
    refine lstep_keeps_drv _ _ (fun w hw => ?_)
    unfold sched at hw
    split at hw
    · next a ha =>
      subst hw
      have := List.all_eq_true.mp hl _ (List.mem_of_getElem? ha)
      cases this
    · unfold roundRobin at hw
      split at hw <;> cases hw

/-- The hypotheses of `C74_exits_partial` are met: a run in which the daemon, asked to stop while
its job manager waits for an answer, launches a job, stops the driver and exits. -/
example : Fair (LSys.start dRun wLife) (sched goodStop) ∧
    (∀ k port c, ((runL (LSys.start dRun wLife) (sched goodStop) k).w.drv port c).isSome = true) ∧
    (runL (LSys.start dRun wLife) (sched goodStop) 4).loop.daemon.status = .stop := by
  refine ⟨sched_fair _ _ _ (by decide) goodStop_exits, fun k port c => ?_, rfl⟩
  rw [sched_keeps_drv _ _ rfl]
  cases c <;> rfl

theorem runL_congr (s : LSys) {σ σ' : Nat → LAct} {n : Nat} (h : ∀ j, j < n → σ j = σ' j) :
    runL s σ n = runL s σ' n := by
  induction n with
  | zero => rfl
  | succ n ih =>
    simp only [runL]
    rw [ih (fun j hj => h j (by omega)), h n (by omega)]

/-- The same world, but the driver does not answer any more (its process was killed, say). -/
def wDead : World := { wLife with drv := fun _ _ => none }

/-- A client asks the daemon to stop; job and pipeline managers end; the driver manager sends its
request to the driver. -/
def badStop : List LAct :=
  [.client .stop, .main, .main, .main, .mgr .job, .mgr .pip, .mgr .drv, .request .drv, .main, .main,
   .mgr .drv]

/-- A thread whose request to a driver is not answered stays where it is. -/
theorem blocked_stays {d : Daemon} {w : World} {σ : Nat → LAct} {m : Mgr} {port : Nat} {c : DrvCmd}
    {k : Except PyErr (Resp (.askDriver (some port) c)) → P Unit} {n : Nat}
    (hn : (runL (LSys.start d w) σ n).pc m = .quitting (.op (.askDriver (some port) c) k))
    (hdead : ∀ j, n ≤ j → (runL (LSys.start d w) σ j).w.drv port c = none) {j : Nat} (hj : n ≤ j) :
    (runL (LSys.start d w) σ j).pc m = .quitting (.op (.askDriver (some port) c) k) := by
  refine holds_after (Q := fun s => s.pc m = .quitting (.op (.askDriver (some port) c) k)) hn
    (fun i hi h => ?_) hj
  rcases pc_step (lifeInv_run d w σ i) m (σ i) with h1 | ⟨h1, h2⟩ | ⟨-, h1, -⟩
  · exact h1.trans h
  · have hb : blocked (runL (LSys.start d w) σ i).w (.askDriver (some port) c) = true := by
      simp only [blocked, hdead i hi]; rfl
    simp only [runL, h1, lstep, h2, Bool.false_eq_true, if_false, mgrStep, h, hb, if_true]
  · rw [h] at h1; cases h1

/-- **C74** (negation): the daemon agrees to stop (step 3), but as long as the driver recorded in
the table does not answer, it does not exit, whatever else happens. -/
theorem C74_refuted :
    (runL (LSys.start dRun wDead) (sched badStop) 3).loop.ret =
      some { success := true, msg := .setToStop } ∧
    ∀ σ : Nat → LAct, (∀ j, j < badStop.length → σ j = sched badStop j) →
      (∀ k, (runL (LSys.start dRun wDead) σ k).w.drv 5000 .stop = none) →
      ∀ k, (runL (LSys.start dRun wDead) σ k).main ≠ .exited := by
  refine ⟨rfl, fun σ hσ hdead k hex => ?_⟩
  have h0 : ∃ c, (runL (LSys.start dRun wDead) σ badStop.length).pc .drv =
      .quitting (.op (.askDriver (some 5000) .stop) c) := by
    rw [runL_congr _ hσ]
    exact ⟨_, rfl⟩
  obtain ⟨c, h0⟩ := h0
  have h1 := blocked_stays h0 (fun j _ => hdead j) (Nat.le_max_right k badStop.length)
  have hend : ended (runL (LSys.start dRun wDead) σ k).main = true := by rw [hex]; rfl
  have h2 := ended_after hend (Nat.le_max_left k badStop.length)
  rw [hex] at h2
  have h3 := (C74_only_when_asked_partial dRun wDead σ _ (by decide) h2).2 .drv
  rw [h1] at h3
  cases h3

example : (∀ j, j < badStop.length → sched badStop j = sched badStop j) ∧
    ∀ k, (runL (LSys.start dRun wDead) (sched badStop) k).w.drv 5000 .stop = none :=
  ⟨fun _ _ => rfl, fun k => by rw [sched_keeps_drv _ _ rfl]; rfl⟩

/-! ## C75 -/

/-- The ports to which the driver manager sent `stop`, the latest first. -/
def stopsSent (s : LSys) : List Nat :=
  s.log.filterMap (fun e => match e with
    | (.drv, .askDriver (some port) .stop) => some port
    | _ => none)

/-- The ports of the running drivers according to the table. -/
def runningPorts (rows : List DrvState) : List Nat :=
  rows.filterMap (fun r => if r.pid.isSome then r.port else none)

/-- Rows without process id at the beginning do not matter. -/
theorem forEach_skip (rows : List DrvState) :
    ∃ rows', (rows' = [] ∨ ∃ r rest, rows' = r :: rest ∧ r.pid.isSome = true) ∧
      Prog.forEach rows stopDriver = Prog.forEach rows' stopDriver ∧
      runningPorts rows = runningPorts rows' := by
  induction rows with
  | nil => exact ⟨[], .inl rfl, rfl, rfl⟩
  | cons r rows ih =>
    cases hp : r.pid with
    | none =>
      obtain ⟨rows', h1, h2, h3⟩ := ih
      refine ⟨rows', h1, ?_, ?_⟩
      · rw [← h2]
        simp only [Prog.forEach, stopDriver, hp]
        rfl
      · rw [← h3]
        simp [runningPorts, hp]
    | some p => exact ⟨r :: rows, .inr ⟨r, rows, rfl, by rw [hp]; rfl⟩, rfl, rfl⟩

theorem filter_all {α : Type} (l : List α) : l.filter (fun _ => true) = l := by
  induction l with
  | nil => rfl
  | cons a l ih => rw [List.filter_cons_of_pos rfl, ih]

theorem drvQuit_eq : ∃ c, drvQuit = Prog.op (S := DB) (.drvsWhere (fun _ => true)) c ∧
    ∀ l, c (.ok l) = Prog.forEach l stopDriver := ⟨_, rfl, fun _ => rfl⟩

theorem stopDriver_kill {r : DrvState} {rest : List DrvState} {pid : Nat} (hpid : r.pid = some pid)
    (hport : r.port = none) : ∃ c, Prog.forEach (r :: rest) stopDriver =
      Prog.op (S := DB) (.pidExists pid) c ∧ ∀ b, ∃ e, c (.ok b) = .raise e := by
  have h : Prog.forEach (r :: rest) stopDriver = Prog.bind (α := Unit) (do
      let ex ← Do.pidExists pid
      if ex then Prog.raise .typeError else Prog.raise .noSuchProcess)
      (fun _ => Prog.forEach rest stopDriver) := by
    simp only [Prog.forEach, stopDriver, hpid, hport]
    try rfl
  rw [h]
  refine ⟨_, rfl, fun b => ?_⟩
  cases b
  · exact ⟨.noSuchProcess, rfl⟩
  · exact ⟨.typeError, rfl⟩

theorem stopDriver_ask {r : DrvState} {rest : List DrvState} {pid port : Nat}
    (hpid : r.pid = some pid) (hport : r.port = some port) :
    ∃ c, Prog.forEach (r :: rest) stopDriver =
      Prog.op (S := DB) (.askDriver (some port) .stop) c ∧
      ∀ b, c (.ok b) = Prog.forEach rest stopDriver := by
  have h : Prog.forEach (r :: rest) stopDriver = Prog.bind (α := Unit) (do
      let _ ← Do.askDriver (some port) .stop)
      (fun _ => Prog.forEach rest stopDriver) := by
    simp only [Prog.forEach, stopDriver, hpid, hport]
    try rfl
  rw [h]
  exact ⟨_, rfl, fun b => rfl⟩

/-- The log and where the driver manager is change only by the steps of the managers. -/
theorem log_step {s : LSys} (h : LifeInv s) (a : LAct) (hw : isWaiting (s.pc .drv) = false) :
    (stopsSent (lstep s a) = stopsSent s ∧ (lstep s a).pc .drv = s.pc .drv) ∨
    (a = .mgr .drv ∧ ended s.main = false) := by
  cases a with
  | world w => exact .inl ⟨rfl, rfl⟩
  | mgr m =>
    by_cases hm : m = .drv
    · subst hm
      simp only [lstep]
      split
      · exact .inl ⟨rfl, rfl⟩
      · next he => exact .inr ⟨trivial, by simpa using he⟩
    · simp only [lstep]
      split
      · exact .inl ⟨rfl, rfl⟩
      · left
        refine ⟨?_, (mgrStep_frame s m).2.2.2.1 .drv (fun h => hm h.symm)⟩
        have hnew : ∀ o, stopsSent { s with log := (m, o) :: s.log } = stopsSent s := by
          intro o
          cases m with
          | drv => exact absurd rfl hm
          | job => rfl
          | pip => rfl
        unfold mgrStep
        split
        · split
          · rfl
          · rfl
        · rfl
        · rfl
        · split
          · rfl
          · exact hnew _
        · rfl
        · rfl
        · split
          · rfl
          · exact hnew _
        · rfl
        · rfl
        · rfl
  | main =>
    left
    refine ⟨?_, ?_⟩
    · simp only [lstep, mainStep]
      split
      · rfl
      · rfl
      · split <;> rfl
      · rfl
      · unfold sweepStep; split <;> rfl
      · rfl
      · rfl
    · rcases pc_step h .drv .main with h1 | ⟨h1, -⟩ | ⟨-, h1, -⟩
      · exact h1
      · cases h1
      · rw [hw] at h1; cases h1
  | request m =>
    simp only [lstep]
    split
    · split <;> exact .inl ⟨rfl, rfl⟩
    · exact .inl ⟨rfl, rfl⟩
  | client msg =>
    simp only [lstep]
    split <;> exact .inl ⟨rfl, rfl⟩

/-- If the driver manager gets to its end without an exception, then since it was told to end it
has sent `stop` exactly once to every driver that had a process id and a port in the table when it
read it, and to nobody else. -/
theorem quit_stops (d : Daemon) (w : World) (σ : Nat → LAct) (n k : Nat)
    (hn : (runL (LSys.start d w) σ n).pc .drv = .quitting drvQuit) (hk : n ≤ k)
    (hend : (runL (LSys.start d w) σ k).pc .drv = .quitting (.pure ())) :
    ∃ j, n ≤ j ∧ j < k ∧ stopsSent (runL (LSys.start d w) σ k) =
      (runningPorts (runL (LSys.start d w) σ j).w.drvs).reverse ++
        stopsSent (runL (LSys.start d w) σ j) := by
  have key : ∀ k, n ≤ k →
      ((runL (LSys.start d w) σ k).pc .drv = .quitting drvQuit ∧
        stopsSent (runL (LSys.start d w) σ k) = stopsSent (runL (LSys.start d w) σ n)) ∨
      (∃ j rows, n ≤ j ∧ j < k ∧
        (runL (LSys.start d w) σ k).pc .drv = .quitting (Prog.forEach rows stopDriver) ∧
        (runningPorts rows).reverse ++ stopsSent (runL (LSys.start d w) σ k) =
          (runningPorts (runL (LSys.start d w) σ j).w.drvs).reverse ++
            stopsSent (runL (LSys.start d w) σ j)) ∨
      (∃ e, (runL (LSys.start d w) σ k).pc .drv = .quitting (.raise e)) ∨
      (runL (LSys.start d w) σ k).pc .drv = .dead := by
    intro k hk
    induction k with
    | zero =>
      have : n = 0 := by omega
      subst this
      exact .inl ⟨hn, rfl⟩
    | succ k ih =>
      rcases Nat.lt_or_ge k n with hlt | hge
      · have : n = k + 1 := by omega
        subst this
        exact .inl ⟨hn, rfl⟩
      · have hinv := lifeInv_run d w σ k
        rcases ih hge with ⟨h1, h2⟩ | ⟨j, rows, hj1, hj2, h1, h2⟩ | ⟨e, h1⟩ | h1
        · rcases log_step hinv (σ k) (by rw [h1]; rfl) with ⟨h3, h4⟩ | ⟨ha, he⟩
          · exact .inl ⟨h4.trans h1, h3.trans h2⟩
          · right; left
            refine ⟨k, (runL (LSys.start d w) σ k).w.drvs, hge, by omega, ?_, ?_⟩
            · obtain ⟨c, hc1, hc2⟩ := drvQuit_eq
              rw [hc1] at h1
              simp only [runL, ha, lstep, he, Bool.false_eq_true, if_false, mgrStep, h1, blocked,
                upd_same, exec, filter_all, hc2]
            · obtain ⟨c, hc1, hc2⟩ := drvQuit_eq
              rw [hc1] at h1
              simp only [runL, ha, lstep, he, Bool.false_eq_true, if_false, mgrStep, h1, blocked]
              rfl
        · rcases log_step hinv (σ k) (by rw [h1]; rfl) with ⟨h3, h4⟩ | ⟨ha, he⟩
          · right; left
            exact ⟨j, rows, hj1, by omega, h4.trans h1, by rw [← h2]; exact congrArg _ h3⟩
          · obtain ⟨rows', hr, h5, h6⟩ := forEach_skip rows
            rw [h5] at h1
            rw [h6] at h2
            have hstep : runL (LSys.start d w) σ (k + 1) =
                mgrStep (runL (LSys.start d w) σ k) .drv := by
              simp only [runL, ha, lstep, he, Bool.false_eq_true, if_false]
            rcases hr with rfl | ⟨r, rest, rfl, hpid⟩
            · right; right; right
              rw [hstep]
              simp only [mgrStep, h1, Prog.forEach, upd_same]
            · obtain ⟨pid, hpid⟩ := Option.isSome_iff_exists.mp hpid
              cases hport : r.port with
              | none =>
                right; right; left
                rw [hstep]
                obtain ⟨c, hp, hc⟩ := stopDriver_kill (rest := rest) hpid hport
                rw [hp] at h1
                obtain ⟨e, hc⟩ := hc ((runL (LSys.start d w) σ k).w.hasPid pid)
                refine ⟨e, ?_⟩
                simp only [mgrStep, h1, blocked, Bool.false_eq_true, if_false, upd_same, exec, hc]
              | some port =>
                obtain ⟨c, hp, hc⟩ := stopDriver_ask (rest := rest) hpid hport
                rw [hp] at h1
                right; left
                cases hdrv : (runL (LSys.start d w) σ k).w.drv port .stop with
                | none =>
                  have hb : blocked (runL (LSys.start d w) σ k).w (.askDriver (some port) .stop) = true := by
                    simp only [blocked, hdrv]; rfl
                  refine ⟨j, r :: rest, hj1, by omega, ?_, ?_⟩
                  · rw [hstep]
                    simp only [mgrStep, h1, hb, if_true]
                    rw [hp]
                  · rw [hstep]
                    simp only [mgrStep, h1, hb, if_true]
                    exact h2
                | some rep =>
                  have hb : blocked (runL (LSys.start d w) σ k).w (.askDriver (some port) .stop) = false := by
                    simp only [blocked, hdrv]; rfl
                  refine ⟨j, rest, hj1, by omega, ?_, ?_⟩
                  · rw [hstep]
                    simp only [mgrStep, h1, hb, Bool.false_eq_true, if_false, upd_same, exec, hdrv, hc]
                  · rw [← h2, hstep]
                    simp only [mgrStep, h1, hb, Bool.false_eq_true, if_false]
                    have hrp : runningPorts (r :: rest) = port :: runningPorts rest := by
                      simp [runningPorts, hpid, hport]
                    rw [hrp, List.reverse_cons, List.append_assoc]
                    rfl
        · rcases log_step hinv (σ k) (by rw [h1]; rfl) with ⟨h3, h4⟩ | ⟨ha, he⟩
          · right; right; left; exact ⟨e, h4.trans h1⟩
          · right; right; right
            simp only [runL, ha, lstep, he, Bool.false_eq_true, if_false, mgrStep, h1, upd_same]
        · right; right; right
          exact dead_after h1 (Nat.le_succ k)
  rcases key k hk with ⟨h1, -⟩ | ⟨j, rows, hj1, hj2, h1, h2⟩ | ⟨e, h1⟩ | h1
  · rw [hend] at h1; cases h1
  · refine ⟨j, hj1, hj2, ?_⟩
    rw [← h2]
    obtain ⟨rows', hr, h5, h6⟩ := forEach_skip rows
    rw [h6]
    rw [h5, hend] at h1
    rcases hr with rfl | ⟨r, rest, rfl, hpid⟩
    · rfl
    · exfalso
      obtain ⟨pid, hpid⟩ := Option.isSome_iff_exists.mp hpid
      simp only [Prog.forEach, stopDriver, hpid] at h1
      cases hport : r.port <;> rw [hport] at h1 <;> cases h1
  · rw [hend] at h1; cases h1
  · rw [hend] at h1; cases h1

/-- The driver manager ends only if it was told to, the threads are told to only if the daemon
agreed to stop. -/
theorem quitInv (d : Daemon) (w : World) (σ : Nat → LAct) (k : Nat) :
    (∀ m, (runL (LSys.start d w) σ k).doRun m = false →
      (runL (LSys.start d w) σ k).loop.daemon.status = .stop) ∧
    ((runL (LSys.start d w) σ k).pc .drv = .quitWait ∨
      (∃ p, (runL (LSys.start d w) σ k).pc .drv = .quitting p) →
      (runL (LSys.start d w) σ k).doRun .drv = false) := by
  induction k with
  | zero =>
    refine ⟨fun m h => (by cases h), fun h => ?_⟩
    rcases h with h | ⟨p, h⟩ <;> cases h
  | succ k ih =>
    obtain ⟨ih1, ih2⟩ := ih
    have hinv := lifeInv_run d w σ k
    constructor
    · intro m hm
      by_cases hold : (runL (LSys.start d w) σ k).doRun m = false
      · exact stopped_step hinv (ih1 m hold) _
      · cases ha : σ k with
        | world w' => simp only [runL, ha, lstep] at hm; exact absurd hm hold
        | mgr x =>
          simp only [runL, ha, lstep] at hm
          split at hm
          · exact absurd hm hold
          · rw [(mgrStep_frame _ x).2.2.1] at hm; exact absurd hm hold
        | request x =>
          simp only [runL, ha, lstep] at hm
          split at hm
          · split at hm <;> exact absurd hm hold
          · exact absurd hm hold
        | client msg =>
          simp only [runL, ha, lstep] at hm
          split at hm <;> exact absurd hm hold
        | main =>
          simp only [runL, ha, lstep] at hm ⊢
          unfold mainStep at hm ⊢
          cases hmn : (runL (LSys.start d w) σ k).main with
          | idle => rw [hmn] at hm; exact absurd hm hold
          | exited => rw [hmn] at hm; exact absurd hm hold
          | crashed => rw [hmn] at hm; exact absurd hm hold
          | serving src p =>
            rw [hmn] at hm
            cases p with
            | pure x => cases src <;> exact absurd hm hold
            | raise e => exact absurd hm hold
            | op o c => exact absurd hm hold
          | sweep =>
            rw [hmn] at hm
            simp only [sweepStep] at hm ⊢
            cases hs : (runL (LSys.start d w) σ k).loop.daemon.status with
            | stop => exact hs
            | running => rw [hs] at hm; exact absurd hm hold
            | bootstrap => rw [hs] at hm; exact absurd hm hold
    · intro h
      rcases pc_step hinv .drv (σ k) with h1 | ⟨ha, he⟩ | ⟨ha, hw, h1⟩
      · refine doRun_step .drv (ih2 ?_) _
        rw [← h1]; exact h
      · simp only [runL, ha, lstep, he, Bool.false_eq_true, if_false] at h ⊢
        rw [(mgrStep_frame _ _).2.2.1]
        cases hpc : (runL (LSys.start d w) σ k).pc .drv with
        | check =>
          cases hr : (runL (LSys.start d w) σ k).doRun .drv with
          | false => rfl
          | true =>
            simp only [mgrStep, hpc, hr, if_true, upd_same] at h
            rcases h with h | ⟨p, h⟩ <;> cases h
        | waiting =>
          simp only [mgrStep, hpc] at h
          rcases h with h | ⟨p, h⟩ <;> cases h
        | quitWait => exact ih2 (.inl hpc)
        | quitting p => exact ih2 (.inr ⟨p, hpc⟩)
        | dead =>
          simp only [mgrStep, hpc] at h
          rcases h with h | ⟨p, h⟩ <;> cases h
        | running p =>
          cases p with
          | pure x =>
            simp only [mgrStep, hpc, upd_same] at h
            rcases h with h | ⟨p, h⟩ <;> cases h
          | raise x =>
            simp only [mgrStep, hpc, upd_same] at h
            rcases h with h | ⟨p, h⟩ <;> cases h
          | op o c =>
            simp only [mgrStep, hpc] at h
            split at h
            · rw [hpc] at h; rcases h with h | ⟨p, h⟩ <;> cases h
            · simp only [upd_same] at h; rcases h with h | ⟨p, h⟩ <;> cases h
      · cases hpc : (runL (LSys.start d w) σ k).pc .drv with
        | quitWait => exact doRun_step .drv (ih2 (.inl hpc)) _
        | waiting =>
          have h1' : (runL (LSys.start d w) σ (k + 1)).pc .drv = _ := h1
          rw [h1', hpc] at h
          rcases h with h | ⟨p, h⟩ <;> cases h
        | _ => rw [hpc] at hw; cases hw

/-- How the driver manager came to its end. -/
theorem quit_path (d : Daemon) (w : World) (σ : Nat → LAct) (k : Nat) :
    (∀ p, (runL (LSys.start d w) σ k).pc .drv = .quitting p →
      ∃ n, n ≤ k ∧ (runL (LSys.start d w) σ n).pc .drv = .quitting drvQuit) ∧
    ((runL (LSys.start d w) σ k).pc .drv = .dead →
      ∃ j, j < k ∧ ((runL (LSys.start d w) σ j).pc .drv = .quitting (.pure ()) ∨
        ∃ e, (runL (LSys.start d w) σ j).pc .drv = .quitting (.raise e) ∨
          (runL (LSys.start d w) σ j).pc .drv = .running (.raise e))) := by
  induction k with
  | zero => exact ⟨fun p h => (by cases h), fun h => (by cases h)⟩
  | succ k ih =>
    obtain ⟨ih1, ih2⟩ := ih
    have hinv := lifeInv_run d w σ k
    have l1 : (∃ n, n ≤ k ∧ (runL (LSys.start d w) σ n).pc .drv = .quitting drvQuit) →
        ∃ n, n ≤ k + 1 ∧ (runL (LSys.start d w) σ n).pc .drv = .quitting drvQuit :=
      fun ⟨n, h1, h2⟩ => ⟨n, by omega, h2⟩
    have l2 : (∃ j, j < k ∧ ((runL (LSys.start d w) σ j).pc .drv = .quitting (.pure ()) ∨
          ∃ e, (runL (LSys.start d w) σ j).pc .drv = .quitting (.raise e) ∨
            (runL (LSys.start d w) σ j).pc .drv = .running (.raise e))) →
        ∃ j, j < k + 1 ∧ ((runL (LSys.start d w) σ j).pc .drv = .quitting (.pure ()) ∨
          ∃ e, (runL (LSys.start d w) σ j).pc .drv = .quitting (.raise e) ∨
            (runL (LSys.start d w) σ j).pc .drv = .running (.raise e)) :=
      fun ⟨n, h1, h2⟩ => ⟨n, by omega, h2⟩
    rcases pc_step hinv .drv (σ k) with h1 | ⟨ha, he⟩ | ⟨ha, hw, h1⟩
    · have h1' : (runL (LSys.start d w) σ (k + 1)).pc .drv = _ := h1
      exact ⟨fun p hp => l1 (ih1 p (h1'.symm.trans hp)), fun hp => l2 (ih2 (h1'.symm.trans hp))⟩
    · have hstep : runL (LSys.start d w) σ (k + 1) =
          mgrStep (runL (LSys.start d w) σ k) .drv := by
        simp only [runL, ha, lstep, he, Bool.false_eq_true, if_false]
      rw [hstep]
      cases hpc : (runL (LSys.start d w) σ k).pc .drv with
      | check =>
        simp only [mgrStep, hpc]
        split
        · simp only [upd_same]; exact ⟨fun p h => (by cases h), fun h => (by cases h)⟩
        · simp only [if_true, upd_same]; exact ⟨fun p h => (by cases h), fun h => (by cases h)⟩
      | waiting =>
        simp only [mgrStep, hpc]; exact ⟨fun p h => (by cases h), fun h => (by cases h)⟩
      | quitWait =>
        simp only [mgrStep, hpc]; exact ⟨fun p h => (by cases h), fun h => (by cases h)⟩
      | dead => exact ⟨fun p h => (by simp only [mgrStep, hpc] at h; cases h), fun _ => l2 (ih2 hpc)⟩
      | running p =>
        cases p with
        | pure x =>
          simp only [mgrStep, hpc, upd_same]
          exact ⟨fun p h => (by cases h), fun h => (by cases h)⟩
        | raise e =>
          simp only [mgrStep, hpc, upd_same]
          exact ⟨fun p h => (by cases h), fun _ => ⟨k, by omega, .inr ⟨e, .inr hpc⟩⟩⟩
        | op o c =>
          simp only [mgrStep, hpc]
          split
          · rw [hpc]; exact ⟨fun p h => (by cases h), fun h => (by cases h)⟩
          · simp only [upd_same]; exact ⟨fun p h => (by cases h), fun h => (by cases h)⟩
      | quitting p =>
        refine ⟨fun _ _ => l1 (ih1 p hpc), fun h => ?_⟩
        cases p with
        | pure x => exact ⟨k, by omega, .inl hpc⟩
        | raise e => exact ⟨k, by omega, .inr ⟨e, .inl hpc⟩⟩
        | op o c =>
          simp only [mgrStep, hpc] at h
          split at h
          · rw [hpc] at h; cases h
          · simp only [upd_same] at h; cases h
    · have h1' : (runL (LSys.start d w) σ (k + 1)).pc .drv = _ := h1
      rw [h1']
      cases hpc : (runL (LSys.start d w) σ k).pc .drv with
      | quitWait =>
        rw [hpc] at h1'
        exact ⟨fun _ _ => ⟨k + 1, Nat.le_refl _, h1'⟩, fun h => (by cases h)⟩
      | waiting => exact ⟨fun p h => (by cases h), fun h => (by cases h)⟩
      | _ => rw [hpc] at hw; cases hw

/-- Nothing is removed from the log. -/
theorem stopsSent_step (s : LSys) (a : LAct) :
    ∃ l, stopsSent (lstep s a) = l ++ stopsSent s := by
  have hnew : ∀ m o, ∃ l, stopsSent { s with log := (m, o) :: s.log } = l ++ stopsSent s := by
    intro m o
    simp only [stopsSent, List.filterMap_cons]
    split
    · exact ⟨[], rfl⟩
    · next b _ => exact ⟨[b], rfl⟩
  cases a with
  | world w => exact ⟨[], rfl⟩
  | mgr m =>
    simp only [lstep]
    split
    · exact ⟨[], rfl⟩
    · unfold mgrStep
      split
      · split
        · exact ⟨[], rfl⟩
        · split <;> exact ⟨[], rfl⟩
      · exact ⟨[], rfl⟩
      · exact ⟨[], rfl⟩
      · split
        · exact ⟨[], rfl⟩
        · exact hnew _ _
      · exact ⟨[], rfl⟩
      · exact ⟨[], rfl⟩
      · split
        · exact ⟨[], rfl⟩
        · exact hnew _ _
      · exact ⟨[], rfl⟩
      · exact ⟨[], rfl⟩
      · exact ⟨[], rfl⟩
  | main =>
    simp only [lstep, mainStep]
    split
    · exact ⟨[], rfl⟩
    · exact ⟨[], rfl⟩
    · split <;> exact ⟨[], rfl⟩
    · exact ⟨[], rfl⟩
    · unfold sweepStep; split <;> exact ⟨[], rfl⟩
    · exact ⟨[], rfl⟩
    · exact ⟨[], rfl⟩
  | request m =>
    simp only [lstep]
    split
    · split <;> exact ⟨[], rfl⟩
    · exact ⟨[], rfl⟩
  | client msg =>
    simp only [lstep]
    split <;> exact ⟨[], rfl⟩

/-- **C75** (part): if the daemon has exited and no exception ended its driver manager, then there
was a moment after the daemon agreed to stop such that every driver recorded as running (process
id and port) at that moment was sent `stop` afterwards.  Missing (and false, `C75_refuted`): the
drivers that are started but not recorded yet; that the driver manager is not ended by an
exception (`C75_crashed_refuted`). -/
theorem C75_drivers_stopped_partial (d : Daemon) (w : World) (σ : Nat → LAct) (n : Nat)
    (hd : d.status ≠ .stop) (hex : (runL (LSys.start d w) σ n).main = .exited)
    (hraise : ∀ k e, k < n → (runL (LSys.start d w) σ k).pc .drv ≠ .running (.raise e) ∧
      (runL (LSys.start d w) σ k).pc .drv ≠ .quitting (.raise e)) :
    ∃ j, j < n ∧ (runL (LSys.start d w) σ j).loop.daemon.status = .stop ∧
      ∃ l, stopsSent (runL (LSys.start d w) σ n) = l ++ stopsSent (runL (LSys.start d w) σ j) ∧
        ∀ r ∈ (runL (LSys.start d w) σ j).w.drvs, ∀ pid port,
          r.pid = some pid → r.port = some port → port ∈ l := by
  have hdead := (C74_only_when_asked_partial d w σ n hd hex).2 .drv
  obtain ⟨k, hk, hk2⟩ := (quit_path d w σ n).2 hdead
  have hk2 : (runL (LSys.start d w) σ k).pc .drv = .quitting (.pure ()) := by
    rcases hk2 with h | ⟨e, h | h⟩
    · exact h
    · exact absurd h (hraise k e hk).2
    · exact absurd h (hraise k e hk).1
  obtain ⟨i, hi, hi2⟩ := (quit_path d w σ k).1 _ hk2
  obtain ⟨j, hj1, hj2, hj3⟩ := quit_stops d w σ i k hi2 hi hk2
  have mono : ∀ a b, a ≤ b → ∃ l, stopsSent (runL (LSys.start d w) σ b) =
      l ++ stopsSent (runL (LSys.start d w) σ a) := by
    intro a b hab
    induction b with
    | zero =>
      have : a = 0 := by omega
      subst this; exact ⟨[], rfl⟩
    | succ b ih =>
      rcases Nat.lt_or_ge b a with h | h
      · have : a = b + 1 := by omega
        subst this; exact ⟨[], rfl⟩
      · obtain ⟨l, hl⟩ := ih h
        obtain ⟨l', hl'⟩ := stopsSent_step (runL (LSys.start d w) σ b) (σ b)
        exact ⟨l' ++ l, by rw [List.append_assoc, ← hl]; exact hl'⟩
  obtain ⟨l, hl⟩ := mono k n (Nat.le_of_lt hk)
  have hstop : (runL (LSys.start d w) σ j).loop.daemon.status = .stop := by
    refine holds_after (Q := fun s => s.loop.daemon.status = .stop) ?_
      (fun b _ h => stopped_step (lifeInv_run d w σ b) h _) hj1
    exact (quitInv d w σ i).1 .drv ((quitInv d w σ i).2 (.inr ⟨_, hi2⟩))
  refine ⟨j, by omega, hstop, l ++ (runningPorts (runL (LSys.start d w) σ j).w.drvs).reverse, ?_,
    fun r hr pid port h1 h2 => ?_⟩
  · rw [hl, hj3, List.append_assoc]
  · refine List.mem_append_right _ (List.mem_reverse.mpr (List.mem_filterMap.mpr ⟨r, hr, ?_⟩))
    rw [h1, h2]; rfl

/-- The main loop answers the driver manager. -/
def askDrv : List LAct := [.mgr .drv, .request .drv, .main, .main]

/-- A client asks the daemon to stop; the threads are told. -/
def askStop : List LAct := [.client .stop, .main, .main, .main]

/-- The job and the pipeline manager end (they are before the check), the main loop sees that all
threads have ended. -/
def endRest : List LAct := [.mgr .job, .mgr .pip, .main, .main]

/-- The driver manager gets a last answer and ends, after `n` operations. -/
def endDrv (n : Nat) : List LAct := askDrv ++ List.replicate (n + 1) (.mgr .drv)

/-- A run in which the hypotheses of `C75_drivers_stopped_partial` are met: the driver on port
5000 is stopped. -/
def stopRun : List LAct := askStop ++ endDrv 2 ++ endRest

/-- Is the main loop at its end? -/
def isExited : MainPC → Bool
  | .exited => true
  | _ => false

theorem isExited_eq {m : MainPC} (h : isExited m = true) : m = .exited := by
  cases m <;> first | rfl | cases h

/-- Is an exception about to end the thread? -/
def isRaising : MPC → Bool
  | .running (.raise _) => true
  | .quitting (.raise _) => true
  | _ => false

example : dRun.status ≠ .stop ∧
    (runL (LSys.start dRun wLife) (sched stopRun) 15).main = .exited ∧
    (∀ k e, k < 15 → (runL (LSys.start dRun wLife) (sched stopRun) k).pc .drv ≠ .running (.raise e) ∧
      (runL (LSys.start dRun wLife) (sched stopRun) k).pc .drv ≠ .quitting (.raise e)) ∧
    (runL (LSys.start dRun wLife) (sched stopRun) 15).w.drvs.map (·.port) = [some 5000] ∧
    stopsSent (runL (LSys.start dRun wLife) (sched stopRun) 15) = [5000] := by
  have h : ∀ k, k < 15 →
      isRaising ((runL (LSys.start dRun wLife) (sched stopRun) k).pc .drv) = false := by
    decide +kernel
  refine ⟨by decide, isExited_eq (by decide +kernel), fun k e hk => ⟨fun h1 => ?_, fun h1 => ?_⟩,
    by decide +kernel, by decide +kernel⟩
  · have := h k hk; rw [h1] at this; cases this
  · have := h k hk; rw [h1] at this; cases this

/-- The world after the first `reload`: the driver `d` is in the table and not started yet; six
seconds have passed. -/
def wFresh : World :=
  { ((acts "Jobs" Sys.init ([.spawn (.reload dBoot none)] ++ run 0 9)).getD Sys.init).w with
    perf := 6000, drv := okDrv }

/-- A pass of the driver manager, then the daemon is stopped. -/
def passStop (n m : Nat) : List LAct :=
  askDrv ++ List.replicate n (.mgr .drv) ++ askStop ++ endDrv m ++ endRest

/-- **C75** refuted: the driver manager starts a driver process; before this process has stored
its process id the daemon is stopped.  The daemon exits without an exception, the driver is never
told to stop.  (It then waits for ever for an answer of the daemon, driver.py:211-213.) -/
theorem C75_refuted :
    ∃ (d : Daemon) (w : World) (σ : Nat → LAct) (n : Nat), d.status ≠ .stop ∧
      w.spawns = [] ∧
      (runL (LSys.start d w) σ n).main = .exited ∧
      (runL (LSys.start d w) σ n).w.spawns = [("d", 6000)] ∧
      stopsSent (runL (LSys.start d w) σ n) = [] ∧
      (∀ k, k < n → isRaising ((runL (LSys.start d w) σ k).pc .drv) = false) ∧
      (∀ k port c, k ≤ n → ((runL (LSys.start d w) σ k).w.drv port c).isSome = true) := by
  refine ⟨dRun, wFresh, sched (passStop 6 1), (passStop 6 1).length, by decide, by decide +kernel,
    isExited_eq (by decide +kernel), by decide +kernel, by decide +kernel, by decide +kernel,
    fun k port c _ => ?_⟩
  rw [sched_keeps_drv _ _ rfl]
  cases c <;> rfl

/-- No action of the list changes the world from outside. -/
theorem sched_inside {l : List LAct}
    (hl : l.all (fun a => match a with | .world _ => false | _ => true) = true) (k : Nat)
    (w : World) : sched l k ≠ .world w := by
  intro hw
  unfold sched at hw
  split at hw
  · next a ha =>
    subst hw
    have := List.all_eq_true.mp hl _ (List.mem_of_getElem? ha)
    cases this
  · unfold roundRobin at hw
    split at hw <;> cases hw

/-- The world in which the running driver `d` does not answer `status` within a second, but
answers everything else. -/
def wSlow : World :=
  { wLife with
    drv := fun port c => match c with
      | .status => none
      | c => okDrv port c,
    perf := 60000 }

/-- **C75** refuted in another way: a driver that once does not answer `status` within a second is
forgotten (driver.py:388-390), with its process id and port.  The daemon then exits without an
exception and without telling this driver to stop, although it is alive and would obey. -/
theorem C75_forgotten_refuted :
    ∃ (d : Daemon) (w : World) (σ : Nat → LAct) (n : Nat), d.status ≠ .stop ∧
      w.drvs.map (fun r => (r.name, r.pid, r.port)) = [("d", some 70, some 5000)] ∧
      (w.drv 5000 .stop).isSome = true ∧ (∀ k w', σ k ≠ .world w') ∧
      (runL (LSys.start d w) σ n).main = .exited ∧
      stopsSent (runL (LSys.start d w) σ n) = [] ∧
      (runL (LSys.start d w) σ n).w.spawns = w.spawns ∧
      ∀ k, k < n → isRaising ((runL (LSys.start d w) σ k).pc .drv) = false :=
  ⟨dRun, wSlow, sched (passStop 6 1), (passStop 6 1).length, by decide, by decide +kernel, rfl,
    sched_inside rfl, isExited_eq (by decide +kernel), by decide +kernel, by decide +kernel,
    by decide +kernel⟩

/-- The world with a second driver `e`, which is not in the devices file any more. -/
def wTwo : World :=
  { wLife with drvs := wLife.drvs ++ [{ name := "e", port := some 5001, pid := some 71 }] }

/-- **C75** refuted in a third way: after a driver has been removed from the devices file the
driver manager dies (the statement of `del_drv` is not valid), so that at the end nobody stops
the other drivers. -/
theorem C75_crashed_refuted :
    ∃ (d : Daemon) (w : World) (σ : Nat → LAct) (n : Nat), d.status ≠ .stop ∧
      w.drvs.map (fun r => (r.name, r.pid, r.port)) =
        [("d", some 70, some 5000), ("e", some 71, some 5001)] ∧
      (∀ port c, (w.drv port c).isSome = true) ∧ (∀ k w', σ k ≠ .world w') ∧
      (runL (LSys.start d w) σ n).main = .exited ∧
      stopsSent (runL (LSys.start d w) σ n) = [5001] :=
  ⟨dRun, wTwo, sched (askDrv ++ List.replicate 7 (.mgr .drv) ++ askStop ++ endRest), 19, by decide,
    by decide +kernel, fun port c => by cases c <;> rfl, sched_inside rfl,
    isExited_eq (by decide +kernel), by decide +kernel⟩

/-! ## C76 -/

/-- What the job manager did: the jobs it launched, the latest first. -/
def jobLaunches (s : LSys) : List (Nat × String) :=
  s.log.filterMap (fun e => match e with
    | (_, .popenJob id pip) => some (id, pip)
    | _ => none)

/-- **C76** refuted: the daemon launches a job after it agreed to stop (the job manager had asked
for the daemon object before), and then exits. -/
theorem C76_refuted :
    ∃ (d : Daemon) (w : World) (σ : Nat → LAct) (i n : Nat), i < n ∧ d.status ≠ .stop ∧
      (∀ k w', σ k ≠ .world w') ∧
      (runL (LSys.start d w) σ i).loop.daemon.status = .stop ∧
      (runL (LSys.start d w) σ i).loop.ret = some { success := true, msg := .setToStop } ∧
      jobLaunches (runL (LSys.start d w) σ i) = [] ∧
      (runL (LSys.start d w) σ n).main = .exited ∧
      jobLaunches (runL (LSys.start d w) σ n) = [(1, "p")] :=
  ⟨dRun, wLife, sched goodStop, 4, goodStop.length, by decide, by decide, sched_inside rfl, rfl, rfl,
    rfl, goodStop_exits, by decide +kernel⟩

/-- Not the launch of a job. -/
def NotPopen : Op → Prop
  | .popenJob _ _ => False
  | _ => True

theorem notPopen_quiet (o : Op) (h : QuietOp o) : NotPopen o := by
  cases o <;> trivial

theorem passOf_notPopen (d : Daemon) (m : Mgr) (hm : m ≠ .job) :
    Allow NotPopen (fun _ => True) (passOf d m) := by
  cases m with
  | job => exact absurd rfl hm
  | pip => exact allow_of_only (only_pipPass notPopen_quiet (fun _ => trivial) d)
  | drv =>
    exact allow_drvPass notPopen_quiet (fun _ _ _ => trivial) (fun _ => trivial) (fun _ => trivial) d

theorem drvQuit_notPopen : Allow NotPopen (fun _ => True) drvQuit := by
  unfold drvQuit
  refine allow_bind (allow_of_only ((Do.only_drvsWhere _).mpr trivial)) (fun t _ => ?_)
  refine allow_forEach fun r _ => ?_
  unfold stopDriver
  split
  · trivial
  · refine allow_bind (allow_of_only ((Do.only_pidExists _).mpr trivial)) (fun t _ => ?_)
    split <;> trivial
  · exact allow_bind (allow_of_only ((Do.only_askDriver _ _).mpr trivial)) (fun t _ => trivial)

/-- The program a thread is executing. -/
def progOf : MPC → P Unit
  | .running p => p
  | .quitting p => p
  | _ => .pure ()

/-- The pipeline and the driver manager never launch a job. -/
theorem notPopen_run (d : Daemon) (w : World) (σ : Nat → LAct) (k : Nat) (m : Mgr) (hm : m ≠ .job) :
    Allow NotPopen (fun _ => True) (progOf ((runL (LSys.start d w) σ k).pc m)) := by
  induction k with
  | zero => trivial
  | succ k ih =>
    rcases pc_step (lifeInv_run d w σ k) m (σ k) with h1 | ⟨ha, he⟩ | ⟨ha, hw, h1⟩
    · have h1' : (runL (LSys.start d w) σ (k + 1)).pc m = _ := h1
      rw [h1']; exact ih
    · simp only [runL, ha, lstep, he, Bool.false_eq_true, if_false]
      unfold mgrStep
      cases hpc : (runL (LSys.start d w) σ k).pc m with
      | check =>
        simp only
        split
        · simp only [upd_same]; trivial
        · split <;> (simp only [upd_same]; trivial)
      | waiting => simp only [hpc]; trivial
      | quitWait => simp only [hpc]; trivial
      | dead => simp only [hpc]; trivial
      | running p =>
        rw [hpc] at ih
        cases p with
        | pure x => simp only [upd_same]; trivial
        | raise x => simp only [upd_same]; trivial
        | op o c =>
          simp only
          split
          · rw [hpc]; exact ih
          · simp only [upd_same]; exact ih.2 _
      | quitting p =>
        rw [hpc] at ih
        cases p with
        | pure x => simp only [upd_same]; trivial
        | raise x => simp only [upd_same]; trivial
        | op o c =>
          simp only
          split
          · rw [hpc]; exact ih
          · simp only [upd_same]; exact ih.2 _
    · have h1' : (runL (LSys.start d w) σ (k + 1)).pc m = _ := h1
      rw [h1']
      cases hpc : (runL (LSys.start d w) σ k).pc m with
      | waiting => exact passOf_notPopen _ m hm
      | quitWait => exact drvQuit_notPopen
      | _ => rw [hpc] at hw; cases hw

/-- The launches grow only by steps of the job manager in a pass. -/
theorem launches_step (d : Daemon) (w : World) (σ : Nat → LAct) (k : Nat) :
    jobLaunches (runL (LSys.start d w) σ (k + 1)) = jobLaunches (runL (LSys.start d w) σ k) ∨
    (σ k = .mgr .job ∧ ((∃ p, (runL (LSys.start d w) σ k).pc .job = .running p) ∨
      ∃ p, (runL (LSys.start d w) σ k).pc .job = .quitting p)) := by
  simp only [runL]
  cases ha : σ k with
  | world w => exact .inl rfl
  | mgr m =>
    simp only [lstep]
    split
    · exact .inl rfl
    · by_cases hm : m = .job
      · subst hm
        unfold mgrStep
        cases hpc : (runL (LSys.start d w) σ k).pc .job with
        | check => left; simp only; split <;> rfl
        | waiting => exact .inl rfl
        | quitWait => exact .inl rfl
        | dead => exact .inl rfl
        | running p => exact .inr ⟨rfl, .inl ⟨p, rfl⟩⟩
        | quitting p => exact .inr ⟨rfl, .inr ⟨p, rfl⟩⟩
      · left
        have hall := notPopen_run d w σ k m hm
        have hnew : ∀ o, NotPopen o → ∀ (s : LSys),
            jobLaunches { s with log := (m, o) :: s.log } = jobLaunches s := by
          intro o ho s
          cases o <;> first | rfl | cases ho
        unfold mgrStep
        cases hpc : (runL (LSys.start d w) σ k).pc m with
        | check =>
          simp only
          split
          · rfl
          · split <;> rfl
        | waiting => rfl
        | quitWait => rfl
        | dead => rfl
        | running p =>
          rw [hpc] at hall
          cases p with
          | pure x => rfl
          | raise x => rfl
          | op o c =>
            simp only
            split
            · rfl
            · exact hnew o hall.1 _
        | quitting p =>
          rw [hpc] at hall
          cases p with
          | pure x => rfl
          | raise x => rfl
          | op o c =>
            simp only
            split
            · rfl
            · exact hnew o hall.1 _
  | main =>
    left
    simp only [lstep, mainStep]
    split
    · rfl
    · rfl
    · split <;> rfl
    · rfl
    · unfold sweepStep; split <;> rfl
    · rfl
    · rfl
  | request m =>
    left
    simp only [lstep]
    split
    · split <;> rfl
    · rfl
  | client msg =>
    left
    simp only [lstep]
    split <;> rfl

/-- After the daemon agreed to stop, the main loop tells the threads before it does anything
else. -/
theorem toldAll (d : Daemon) (w : World) (σ : Nat → LAct) (hd : d.status ≠ .stop) (k : Nat)
    (hs : (runL (LSys.start d w) σ k).loop.daemon.status = .stop) :
    (runL (LSys.start d w) σ k).main = .sweep ∨
    ∀ m, (runL (LSys.start d w) σ k).doRun m = false := by
  induction k with
  | zero => exact absurd hs hd
  | succ k ih =>
    by_cases hold : (runL (LSys.start d w) σ k).loop.daemon.status = .stop
    · rcases ih hold with h | h
      · by_cases ha : σ k = .main
        · right
          simp only [runL, ha, lstep, mainStep, h, sweepStep, hold]
          exact fun _ => trivial
        · left
          exact (main_step _ ha (by rw [h]; exact fun h => by cases h)).trans h
      · exact .inr fun m => doRun_step m (h m) _
    · left
      cases ha : σ k with
      | world w' => simp only [runL, ha, lstep] at hs; exact absurd hs hold
      | mgr x =>
        simp only [runL, ha, lstep] at hs
        split at hs
        · exact absurd hs hold
        · rw [(mgrStep_frame _ x).2.1] at hs; exact absurd hs hold
      | request x =>
        simp only [runL, ha, lstep] at hs
        split at hs
        · split at hs <;> exact absurd hs hold
        · exact absurd hs hold
      | client msg =>
        simp only [runL, ha, lstep] at hs
        split at hs <;> exact absurd hs hold
      | main =>
        simp only [runL, ha, lstep] at hs ⊢
        unfold mainStep at hs ⊢
        cases hmn : (runL (LSys.start d w) σ k).main with
        | idle => rfl
        | exited => rw [hmn] at hs; exact absurd hs hold
        | crashed => rw [hmn] at hs; exact absurd hs hold
        | serving src p =>
          rw [hmn] at hs
          cases p with
          | pure x => cases src <;> rfl
          | raise e => exact absurd hs hold
          | op o c => exact absurd hs hold
        | sweep =>
          rw [hmn] at hs
          simp only [sweepStep] at hs
          exact absurd hs hold

/-- The job manager begins a pass. -/
def beginsPass (s : Nat → LSys) (i : Nat) : Prop :=
  (s i).pc .job = .waiting ∧ ∃ p, (s (i + 1)).pc .job = .running p

/-- **C76** (part): from the time at which the daemon has agreed to stop and has told its threads
(which it does before it handles any other message), the job manager begins at most one more
pass; if it is between two passes at this time, or has ended, then no job is launched any more.
Missing (and false, `C76_refuted`): no job is launched after the daemon agreed to stop. -/
theorem C76_no_launch_partial (d : Daemon) (w : World) (σ : Nat → LAct) (hd : d.status ≠ .stop)
    (n : Nat) (hs : (runL (LSys.start d w) σ n).loop.daemon.status = .stop)
    (hm : (runL (LSys.start d w) σ n).main ≠ .sweep) :
    (∀ i j, n ≤ i → n ≤ j → beginsPass (runL (LSys.start d w) σ) i →
      beginsPass (runL (LSys.start d w) σ) j → i = j) ∧
    ((runL (LSys.start d w) σ n).pc .job = .check ∨ (runL (LSys.start d w) σ n).pc .job = .dead →
      ∀ k, n ≤ k → jobLaunches (runL (LSys.start d w) σ k) =
        jobLaunches (runL (LSys.start d w) σ n)) := by
  have hrun : ∀ k, n ≤ k → (runL (LSys.start d w) σ k).doRun .job = false := fun k hk =>
    holds_after (Q := fun s => s.doRun .job = false)
      ((toldAll d w σ hd n hs).resolve_left hm .job) (fun j _ h => doRun_step .job h _) hk
  have hcheck : ∀ k, n ≤ k → (runL (LSys.start d w) σ k).pc .job = .check →
      (runL (LSys.start d w) σ (k + 1)).pc .job = .check ∨
      (runL (LSys.start d w) σ (k + 1)).pc .job = .dead := by
    intro k hk hpc
    rcases pc_step (lifeInv_run d w σ k) .job (σ k) with h1 | ⟨ha, he⟩ | ⟨ha, hw, h1⟩
    · exact .inl (h1.trans hpc)
    · right
      simp [runL, ha, lstep, he, mgrStep, hpc, hrun k hk, upd_same]
    · rw [hpc] at hw; cases hw
  constructor
  · have key : ∀ i j, n ≤ i → i < j → beginsPass (runL (LSys.start d w) σ) i →
        beginsPass (runL (LSys.start d w) σ) j → False := by
      intro i j hi hij hbi hbj
      have hpost : ∀ k, i + 1 ≤ k → (runL (LSys.start d w) σ k).pc .job = .check ∨
          (runL (LSys.start d w) σ k).pc .job = .dead ∨
          ∃ p, (runL (LSys.start d w) σ k).pc .job = .running p := by
        intro k hk
        induction k with
        | zero => omega
        | succ k ih =>
          rcases Nat.eq_or_lt_of_le hk with h | h
          · have : i = k := by omega
            subst this
            exact .inr (.inr hbi.2)
          · rcases ih (by omega) with h1 | h1 | ⟨p, h1⟩
            · rcases hcheck k (by omega) h1 with h2 | h2
              · exact .inl h2
              · exact .inr (.inl h2)
            · exact .inr (.inl (dead_after h1 (Nat.le_succ k)))
            · rcases pc_step (lifeInv_run d w σ k) .job (σ k) with h2 | ⟨ha, he⟩ | ⟨ha, hw, h2⟩
              · exact .inr (.inr ⟨p, h2.trans h1⟩)
              · simp only [runL, ha, lstep, he, Bool.false_eq_true, if_false]
                cases p with
                | pure x => left; simp only [mgrStep, h1, upd_same]
                | raise x => right; left; simp only [mgrStep, h1, upd_same]
                | op o c =>
                  right; right
                  simp only [mgrStep, h1]
                  split
                  · exact ⟨_, h1⟩
                  · simp only [upd_same]; exact ⟨_, rfl⟩
              · rw [h1] at hw; cases hw
      rcases hpost j hij with h | h | ⟨p, h⟩ <;> (rw [hbj.1] at h; cases h)
    intro i j hi hj hbi hbj
    rcases Nat.lt_trichotomy i j with h | h | h
    · exact (key i j hi h hbi hbj).elim
    · exact h
    · exact (key j i hj h hbj hbi).elim
  · intro h0 k hk
    have : ((runL (LSys.start d w) σ k).pc .job = .check ∨
        (runL (LSys.start d w) σ k).pc .job = .dead) ∧ jobLaunches (runL (LSys.start d w) σ k) =
        jobLaunches (runL (LSys.start d w) σ n) := by
      induction k with
      | zero =>
        have : n = 0 := by omega
        subst this; exact ⟨h0, rfl⟩
      | succ k ih =>
        rcases Nat.eq_or_lt_of_le hk with h | h
        · subst h; exact ⟨h0, rfl⟩
        · obtain ⟨h1, h2⟩ := ih (by omega)
          refine ⟨?_, ?_⟩
          · rcases h1 with h1 | h1
            · exact hcheck k (by omega) h1
            · exact .inr (dead_after h1 (Nat.le_succ k))
          · rcases launches_step d w σ k with h3 | ⟨-, ⟨p, h3⟩ | ⟨p, h3⟩⟩
            · exact h3.trans h2
            · rcases h1 with h1 | h1 <;> (rw [h3] at h1; cases h1)
            · rcases h1 with h1 | h1 <;> (rw [h3] at h1; cases h1)
    exact this.2

/-- The hypotheses are met; the job manager begins one more pass. -/
example : dRun.status ≠ .stop ∧
    (runL (LSys.start dRun wLife) (sched goodStop) 5).loop.daemon.status = .stop ∧
    (runL (LSys.start dRun wLife) (sched goodStop) 5).main ≠ .sweep ∧
    beginsPass (runL (LSys.start dRun wLife) (sched goodStop)) 6 := by
  refine ⟨by decide, rfl, ?_, rfl, _, rfl⟩
  intro h; cases h

/-- The hypotheses are met, and the job manager is between two passes. -/
example : (runL (LSys.start dRun wLife) (sched stopRun) 4).loop.daemon.status = .stop ∧
    (runL (LSys.start dRun wLife) (sched stopRun) 4).main ≠ .sweep ∧
    (runL (LSys.start dRun wLife) (sched stopRun) 4).pc .job = .check ∧
    (runL (LSys.start dRun wLife) (sched stopRun) 4).w.jobs.map (·.status) = [.q] :=
  ⟨rfl, (by intro h; cases h), rfl, rfl⟩

end Tomato.Props
