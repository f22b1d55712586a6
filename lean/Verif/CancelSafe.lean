import Verif.JmSafe

/-!
# A cancelled job that the job manager does not know about

The invariant behind the positive part of C10.
-/

namespace Tomato

theorem mem_insertId (a x : Nat) (l : List Nat) : x ∈ insertId a l ↔ x = a ∨ x ∈ l := by
  induction l with
  | nil => simp [insertId]
  | cons b bs ih =>
    simp only [insertId]
    split
    · simp
    · simp only [List.mem_cons, ih]
      constructor
      · rintro (h | h | h)
        · exact .inr (.inl h)
        · exact .inl h
        · exact .inr (.inr h)
      · rintro (h | h | h)
        · exact .inr (.inl h)
        · exact .inl h
        · exact .inr (.inr h)

theorem mem_sortIds (x : Nat) (l : List Nat) : x ∈ sortIds l ↔ x ∈ l := by
  induction l with
  | nil => simp [sortIds]
  | cons a as ih => simp only [sortIds, mem_insertId, ih, List.mem_cons]

/-- The job is in the queue, cancelled, was never launched and has no process. -/
def Shelved (id : Nat) (w : World) : Prop :=
  w.WF ∧ (∃ j ∈ w.jobs, j.id = id) ∧
  (∀ j ∈ w.jobs, j.id = id → (j.status = .cd ∨ j.status = .rd) ∧ j.pid = none) ∧
  id ∉ w.launches.map (·.jobid)

/-- Operations that leave the job alone. -/
def LeavesAlone (id : Nat) : Op → Prop
  | .updateJob i _ => i ≠ id
  | .popenJob i _ => i ≠ id
  | .insertJob _ => False
  | _ => True

theorem quiet_leavesAlone (id : Nat) {o : Op} (h : QuietOp o) : LeavesAlone id o := by
  cases o <;> first | exact h | trivial

/-- What keeps a job shelved. -/
theorem shelved_exec {id : Nat} {o : Op} {w : World} (h : Shelved id w)
    (hl : ∀ i n, o = .popenJob i n → i ≠ id)
    (hu : ∀ i ps, o = .updateJob i ps → i ≠ id ∨ ps = [.status .cd] ∨ ps = [.status .rd]) :
    Shelved id (exec o w).2 := by
  obtain ⟨hwf, ⟨j0, hj0, hid0⟩, hall, hnl⟩ := h
  have hb := hwf.bound j0 hj0
  refine ⟨exec_wf o w hwf, ?_, ?_, ?_⟩
  · rcases exec_jobs o w with h | ⟨j, rfl, h⟩ | ⟨i, ps, rfl, h⟩ <;> rw [h]
    · exact ⟨j0, hj0, hid0⟩
    · exact ⟨j0, List.mem_append_left _ hj0, hid0⟩
    · refine ⟨if j0.id = i then applyJob j0 ps else j0, List.mem_map.mpr ⟨j0, hj0, rfl⟩, ?_⟩
      split
      · rw [applyJob_id]; exact hid0
      · exact hid0
  · intro j hj hid
    rcases exec_jobs o w with h | ⟨j', rfl, h⟩ | ⟨i, ps, rfl, h⟩ <;> rw [h] at hj
    · exact hall j hj hid
    · rcases List.mem_append.mp hj with hj | hj
      · exact hall j hj hid
      · rw [List.mem_singleton.mp hj] at hid
        simp only at hid
        omega
    · simp only [updJobs, List.mem_map] at hj
      obtain ⟨j1, hj1, hjj⟩ := hj
      split at hjj
      · next hi =>
        have hid1 : j1.id = id := by rw [← hid, ← hjj, applyJob_id]
        have := hall j1 hj1 hid1
        rcases hu i ps rfl with hne | rfl | rfl
        · exact absurd (hi.symm.trans hid1) hne
        · rw [← hjj]; exact ⟨.inl rfl, this.2⟩
        · rw [← hjj]; exact ⟨.inr rfl, this.2⟩
      · rw [← hjj]; exact hall j1 hj1 (by rw [hjj]; exact hid)
  · rcases exec_launches o w with h | ⟨i, n, rfl, h⟩ <;> rw [h]
    · exact hnl
    · simp only [List.map_append, List.map_cons, List.map_nil, List.mem_append,
        List.mem_singleton, not_or]
      exact ⟨hnl, fun h => hl i n rfl h.symm⟩

theorem shelved_leavesAlone {id : Nat} {o : Op} {w : World} (h : Shelved id w)
    (ho : LeavesAlone id o) : Shelved id (exec o w).2 := by
  refine shelved_exec h ?_ ?_
  · rintro i n rfl; exact ho
  · rintro i ps rfl; exact .inl ho

theorem shelved_other {id : Nat} {w w' : World} (h : Shelved id w) (hs : OtherStep w w') :
    Shelved id w' := by
  cases hs with
  | same h' => subst h'; exact h
  | env e h' =>
    subst h'
    obtain ⟨h1, -, -, -, -, h6⟩ := e.apply_eq w
    obtain ⟨hwf, he, hall, hnl⟩ := h
    refine ⟨e.wf hwf, ?_, ?_, ?_⟩
    · rw [h1]; exact he
    · rw [h1]; exact hall
    · rw [h6]; exact hnl
  | cmd c hc o ho h' =>
    subst h'
    refine shelved_exec h ?_ ?_
    · rintro i n rfl
      rcases ho with ho | ho
      · cases ho
      · cases c <;> cases ho
    · rintro i ps rfl
      rcases ho with ho | ho
      · cases ho
      · cases c <;> try exact False.elim ho
        · exact .inr ho.2
        · next j pid pl pip path m hm =>
          left
          rintro rfl
          have := hc ⟨j, pip⟩ rfl
          apply h.2.2.2
          rw [ho.1]
          exact List.mem_map.mpr ⟨_, this, rfl⟩

/-- The rely and guarantee: the job stays shelved. -/
def ShelfRel (id : Nat) (_ w' : World) : Prop := Shelved id w'

theorem safe_leavesAlone {id : Nat} {α : Type} {Q : α → Prop} {p : Prog DB α}
    (hp : Allow (LeavesAlone id) Q p) (w : World) :
    Prog.Safe (S := DB) exec (ShelfRel id) (ShelfRel id) (fun a _ => Q a) p w :=
  safe_of_allow' (fun _ _ _ ho hR => shelved_leavesAlone hR ho) hp w

theorem safe_pass_shelved (id : Nat) (d : Daemon) (w : World) :
    Prog.Safe (S := DB) exec (ShelfRel id) (ShelfRel id) (fun _ _ => True)
      (jobManagerPass d) w := by
  have hq : ∀ o, QuietOp o → LeavesAlone id o := fun _ h => quiet_leavesAlone id h
  unfold jobManagerPass
  refine Prog.safe_bind (Q := fun _ _ => True) ?_ ?_
  · unfold manageRunning
    refine Prog.safe_bind (Q := fun l _ => ∀ j ∈ l, j.id ≠ id) ?_ ?_
    · refine Prog.safe_call (S := DB) ?_ ?_
      · intro w' hR; exact shelved_leavesAlone hR (o := .jobsWhere _) trivial
      · intro w' hR l hl j hj hid
        simp only [exec_jobsWhere] at hl
        cases hl
        rw [List.mem_filter] at hj
        have := (hR.2.2.1 j hj.1 hid).2
        rw [this] at hj
        exact absurd hj.2 (by simp)
    · intro l w1 hl
      refine Prog.safe_mono (safe_leavesAlone (Q := fun _ => True) (allow_of_only ?_) w1)
        (fun _ _ h => h)
      refine Prog.only_forEach fun j hj => ?_
      exact only_manageJob hq (fun _ => trivial) (fun _ _ _ => trivial) j
        (fun _ _ _ => hl j hj)
  · rintro _ w1 -
    refine Prog.safe_bind (Q := fun (m : Dict Nat (List String)) _ => id ∉ Dict.keys m) ?_ ?_
    · unfold checkQueued
      refine Prog.safe_bind (Q := fun l _ => ∀ j ∈ l, j.id ≠ id) ?_ ?_
      · refine Prog.safe_call (S := DB) ?_ ?_
        · intro w' hR; exact shelved_leavesAlone hR (o := .jobsWhere _) trivial
        · intro w' hR l hl j hj hid
          simp only [exec_jobsWhere] at hl
          cases hl
          rw [List.mem_filter] at hj
          have := (hR.2.2.1 j hj.1 hid).1
          rcases this with h | h <;> (rw [h] at hj; exact absurd hj.2 (by decide))
      · intro l w2 hl
        refine Prog.safe_mono (safe_leavesAlone (allow_checkLoop hq d l
          (fun j hj => hl j hj) []) w2) ?_
        intro m w3 hm hk
        rcases hm id hk with h | h
        · cases h
        · rw [List.mem_map] at h
          obtain ⟨j, hj, hjid⟩ := h
          exact hl j hj hjid
    · intro m w2 hm
      unfold actionQueued
      refine Prog.safe_bind (Q := fun _ _ => True) ?_ ?_
      · refine Prog.safe_call (S := DB) ?_ ?_
        · intro w' hR; exact shelved_leavesAlone hR (o := .pipsWhere _) trivial
        · intros; trivial
      · rintro free w3 -
        have hne : ∀ i ∈ sortIds (Dict.keys m), i ≠ id := by
          rintro i hi rfl
          rw [mem_sortIds] at hi
          exact hm hi
        exact safe_leavesAlone (allow_actionLoop hq _ _ _ (fun _ _ => trivial)
          (fun _ _ _ => trivial) (fun i hi _ => hne i hi) (fun i hi _ => hne i hi) _) w3

end Tomato
