import Verif.SystemLemmas

/-!
# Frame lemmas and the rely/guarantee engine for the concurrent system
-/

namespace Tomato

/-! ## Which table an operation changes -/

theorem exec_jobs (o : Op) (w : World) :
    (exec o w).2.jobs = w.jobs ∨
    (∃ j, o = .insertJob j ∧ (exec o w).2.jobs = w.jobs ++ [{ j with id := w.jobSeq + 1 }]) ∨
    (∃ id ps, o = .updateJob id ps ∧ (exec o w).2.jobs = updJobs id ps w.jobs) := by
  cases o with
  | insertJob j => exact .inr (.inl ⟨j, rfl, rfl⟩)
  | updateJob id ps => exact .inr (.inr ⟨id, ps, rfl, rfl⟩)
  | askDriver port c =>
    left; cases port with
    | none => rfl
    | some p => simp only [exec]; split <;> rfl
  | askDriverLpp port c => left; cases port <;> rfl
  | askDriverTimeout port c =>
    left; cases port with
    | none => rfl
    | some p => simp only [exec]; split <;> rfl
  | merge a b c =>
    left; simp only [exec]; split
    · rfl
    · split
      · rfl
      · split <;> rfl
  | idBySubmitted t => left; simp only [exec]; split <;> rfl
  | insertPip p => left; simp only [exec]; split <;> rfl
  | insertDrv p => left; simp only [exec]; split <;> rfl
  | makeJobDir s i => left; simp only [exec]; split <;> rfl
  | notZombie p => left; simp only [exec]; split <;> rfl
  | killChildren p => left; simp only [exec]; split <;> rfl
  | _ => left; rfl

theorem exec_pips (o : Op) (w : World) :
    (exec o w).2.pips = w.pips ∨
    (∃ p, o = .insertPip p ∧ (exec o w).2.pips = w.pips ++ [p]) ∨
    (∃ n ps, o = .updatePip n ps ∧ (exec o w).2.pips = updPips n ps w.pips) := by
  cases o with
  | updatePip id ps => exact .inr (.inr ⟨id, ps, rfl, rfl⟩)
  | askDriver port c =>
    left; cases port with
    | none => rfl
    | some p => simp only [exec]; split <;> rfl
  | askDriverLpp port c => left; cases port <;> rfl
  | askDriverTimeout port c =>
    left; cases port with
    | none => rfl
    | some p => simp only [exec]; split <;> rfl
  | merge a b c =>
    left; simp only [exec]; split
    · rfl
    · split
      · rfl
      · split <;> rfl
  | idBySubmitted t => left; simp only [exec]; split <;> rfl
  | insertPip p =>
    by_cases h : (w.pip? p.name).isSome = true
    · left; simp only [exec, h, if_true]
    · right; left; refine ⟨p, rfl, ?_⟩; simp only [exec, h]; rfl
  | insertDrv p => left; simp only [exec]; split <;> rfl
  | makeJobDir s i => left; simp only [exec]; split <;> rfl
  | notZombie p => left; simp only [exec]; split <;> rfl
  | killChildren p => left; simp only [exec]; split <;> rfl
  | _ => left; rfl

theorem exec_launches (o : Op) (w : World) :
    (exec o w).2.launches = w.launches ∨
    (∃ j n, o = .popenJob j n ∧ (exec o w).2.launches = w.launches ++ [⟨j, n⟩]) := by
  cases o with
  | popenJob j n => exact .inr ⟨j, n, rfl, rfl⟩
  | askDriver port c =>
    left; cases port with
    | none => rfl
    | some p => simp only [exec]; split <;> rfl
  | askDriverLpp port c => left; cases port <;> rfl
  | askDriverTimeout port c =>
    left; cases port with
    | none => rfl
    | some p => simp only [exec]; split <;> rfl
  | merge a b c =>
    left; simp only [exec]; split
    · rfl
    · split
      · rfl
      · split <;> rfl
  | idBySubmitted t => left; simp only [exec]; split <;> rfl
  | insertPip p => left; simp only [exec]; split <;> rfl
  | insertDrv p => left; simp only [exec]; split <;> rfl
  | makeJobDir s i => left; simp only [exec]; split <;> rfl
  | notZombie p => left; simp only [exec]; split <;> rfl
  | killChildren p => left; simp only [exec]; split <;> rfl
  | _ => left; rfl

theorem exec_jobDirs (o : Op) (w : World) :
    (exec o w).2.jobDirs = w.jobDirs ∨
    (∃ st j, o = .makeJobDir st j ∧ (st, j) ∉ w.jobDirs ∧
      (exec o w).2.jobDirs = (st, j) :: w.jobDirs) := by
  cases o with
  | makeJobDir s i =>
    by_cases h : (s, i) ∈ w.jobDirs
    · left; simp only [exec, h, if_true]
    · right; refine ⟨s, i, rfl, h, ?_⟩; simp only [exec, h, if_false]
  | askDriver port c =>
    left; cases port with
    | none => rfl
    | some p => simp only [exec]; split <;> rfl
  | askDriverLpp port c => left; cases port <;> rfl
  | askDriverTimeout port c =>
    left; cases port with
    | none => rfl
    | some p => simp only [exec]; split <;> rfl
  | merge a b c =>
    left; simp only [exec]; split
    · rfl
    · split
      · rfl
      · split <;> rfl
  | idBySubmitted t => left; simp only [exec]; split <;> rfl
  | insertPip p => left; simp only [exec]; split <;> rfl
  | insertDrv p => left; simp only [exec]; split <;> rfl
  | notZombie p => left; simp only [exec]; split <;> rfl
  | killChildren p => left; simp only [exec]; split <;> rfl
  | _ => left; rfl

theorem EnvAct.apply_eq (e : EnvAct) (w : World) :
    (e.apply w).jobs = w.jobs ∧ (e.apply w).jobSeq = w.jobSeq ∧ (e.apply w).pips = w.pips ∧
    (e.apply w).drvs = w.drvs ∧ (e.apply w).jobDirs = w.jobDirs ∧
    (e.apply w).launches = w.launches := by
  cases e <;> exact ⟨rfl, rfl, rfl, rfl, rfl, rfl⟩

/-! ## Where the other programs come from -/

/-- The program is (the rest of) a command that may run. -/
def FromCmd (w : World) (p : P Unit) : Prop :=
  ∃ c : Cmd, (∀ l, c.launch = some l → l ∈ w.launches) ∧
    Allow (fun o => QuietOp o ∨ c.writes o) (fun _ => True) p

theorem FromCmd.mono {w w' : World} {p : P Unit} (h : FromCmd w p)
    (hl : ∀ l ∈ w.launches, l ∈ w'.launches) : FromCmd w' p := by
  obtain ⟨c, h1, h2⟩ := h
  exact ⟨c, fun l hc => hl l (h1 l hc), h2⟩

theorem launches_mono (o : Op) (w : World) : ∀ l ∈ w.launches, l ∈ (exec o w).2.launches := by
  intro l hl
  rcases exec_launches o w with h | ⟨j, n, _, h⟩ <;> rw [h]
  · exact hl
  · exact List.mem_append_left _ hl

/-- What the other programs, and the environment, do to the world. -/
inductive OtherStep (w w' : World) : Prop
  | same (h : w' = w)
  | env (e : EnvAct) (h : w' = e.apply w)
  | cmd (c : Cmd) (hc : ∀ l, c.launch = some l → l ∈ w.launches) (o : Op)
      (ho : QuietOp o ∨ c.writes o) (h : w' = (exec o w).2)

/-- A step is a step of the job manager or of somebody else. -/
theorem step_cases {st : String} {s s' : Sys} (ho : ∀ p ∈ s.others, FromCmd s.w p)
    (h : Step st s s') :
    (∀ p ∈ s'.others, FromCmd s'.w p) ∧
    ((∃ o k, s.jm = .op o k ∧ s'.jm = k (exec o s.w).1 ∧ s'.w = (exec o s.w).2) ∨
     (OtherStep s.w s'.w ∧ (s'.jm = s.jm ∨ s'.jm = .pure ())) ∨
     (s'.w = s.w ∧ ∃ d : Daemon, d.settings.storage = st ∧ s'.jm = jobManagerPass d)) := by
  obtain ⟨a, h⟩ := h
  cases a with
  | jmStart d =>
    simp only [act] at h
    split at h
    · next hd => cases h; exact ⟨ho, .inr (.inr ⟨rfl, d, hd.2, rfl⟩)⟩
    · cases h
  | jmStep =>
    simp only [act] at h
    split at h
    · next p w hp =>
      unfold stepProg at hp
      split at hp
      · next o k hk =>
        cases hp; cases h
        exact ⟨fun p hp => (ho p hp).mono (launches_mono o s.w), .inl ⟨o, k, hk, rfl, rfl⟩⟩
      · cases hp
    · cases h
  | jmKill => cases h; exact ⟨ho, .inr (.inl ⟨.same rfl, .inr rfl⟩)⟩
  | spawn c =>
    have key : (∀ l, c.launch = some l → l ∈ s.w.launches) →
        ∀ p ∈ s.others ++ [c.prog], FromCmd s.w p := by
      intro hl p hp
      rcases List.mem_append.mp hp with hp | hp
      · exact ho p hp
      · rw [List.mem_singleton.mp hp]; exact ⟨c, hl, c.allow_ops⟩
    simp only [act] at h
    split at h
    · next hc =>
      cases h
      exact ⟨key (by rw [hc]; rintro l ⟨⟩), .inr (.inl ⟨.same rfl, .inl rfl⟩)⟩
    · next l hc =>
      split at h
      · next hlt =>
        cases h
        refine ⟨key ?_, .inr (.inl ⟨.same rfl, .inl rfl⟩)⟩
        rw [hc]; rintro l' ⟨⟩
        exact List.count_pos_iff.mp (by omega)
      · cases h
  | step i =>
    simp only [act] at h
    split at h
    · cases h
    · next p hp =>
      split at h
      · next p' w hs =>
        unfold stepProg at hs
        split at hs
        · next o k =>
          cases hs; cases h
          have hmem := List.mem_of_getElem? hp
          obtain ⟨c, hc1, hc2⟩ := ho _ hmem
          refine ⟨fun q hq => ?_, .inr (.inl ⟨.cmd c hc1 o hc2.1 rfl, .inl rfl⟩)⟩
          rcases mem_set_of hq with hq | rfl
          · exact (ho q hq).mono (launches_mono o s.w)
          · exact ⟨c, fun l hl => launches_mono o s.w l (hc1 l hl), hc2.2 s.w⟩
        · cases hs
      · cases h
  | kill i =>
    cases h
    refine ⟨fun q hq => ?_, .inr (.inl ⟨.same rfl, .inl rfl⟩)⟩
    rcases mem_set_of hq with hq | rfl
    · exact ho q hq
    · exact ⟨.stop {}, by rintro l ⟨⟩, trivial⟩
  | env e =>
    cases h
    refine ⟨fun p hp => (ho p hp).mono ?_, .inr (.inl ⟨.env e rfl, .inl rfl⟩)⟩
    intro l hl
    rw [(e.apply_eq s.w).2.2.2.2.2]; exact hl

theorem reachable_others {st : String} {s : Sys} (h : Reachable st s) :
    ∀ p ∈ s.others, FromCmd s.w p :=
  reachable_inv (I := fun s => ∀ p ∈ s.others, FromCmd s.w p) (by simp [Sys.init])
    (fun _ _ hi hs => (step_cases hi hs).1) h

theorem reachable_steps {st : String} {s s' : Sys} (h : Reachable st s) (h' : Steps st s s') :
    Reachable st s' := Steps.trans h h'

/-- The job manager, whatever is left of its pass, performs only its own operations. -/
theorem reachable_jm {st : String} {s : Sys} (h : Reachable st s) :
    Allow (fun o => QuietOp o ∨ jmWrites st o) (fun _ => True) s.jm := by
  unfold Reachable at h
  induction h with
  | refl => trivial
  | @tail s1 s2 h1 h2 ih =>
    rcases (step_cases (reachable_others h1) h2).2 with ⟨o, k, hk, hk', -⟩ | ⟨-, hk | hk⟩ |
      ⟨-, d, rfl, hk⟩
    · rw [hk] at ih; rw [hk']; exact ih.2 _
    · rw [hk]; exact ih
    · rw [hk]; trivial
    · rw [hk]; exact allow_jobManagerPass d

/-- Who changes the world in a step. -/
theorem step_split {st : String} {s s' : Sys} (hr : Reachable st s) (h : Step st s s') :
    OtherStep s.w s'.w ∨
      ∃ o, (QuietOp o ∨ jmWrites st o) ∧ s'.w = (exec o s.w).2 := by
  have hjm := reachable_jm hr
  rcases (step_cases (reachable_others hr) h).2 with ⟨o, k, hk, -, hw⟩ | ⟨hos, -⟩ | ⟨hw, -⟩
  · rw [hk] at hjm; exact .inr ⟨o, hjm.1, hw⟩
  · exact .inl hos
  · exact .inl (.same hw)

/-! ## The engine -/

/-- Rely/guarantee: if the job manager's pass is safe from every world satisfying `I`, and the
others respect `R` and `I`, then `I` holds along the execution and every step of the job manager
satisfies `G`. -/
theorem engine {st : String} {I : World → Prop} {R G : World → World → Prop}
    (htrans : ∀ a b c, R a b → R b c → R a c) (hrefl : ∀ w, I w → R w w)
    (hG : ∀ w w', I w → G w w' → I w')
    (hother : ∀ w w', I w → OtherStep w w' → R w w' ∧ I w')
    (hstart : ∀ d : Daemon, d.settings.storage = st → ∀ w, I w →
      Prog.Safe (S := DB) exec R G (fun _ _ => True) (jobManagerPass d) w)
    {s s' : Sys} (ho : ∀ p ∈ s.others, FromCmd s.w p) (hI : I s.w)
    (hjm : Prog.Safe (S := DB) exec R G (fun _ _ => True) s.jm s.w) (hs : Steps st s s') :
    (∀ p ∈ s'.others, FromCmd s'.w p) ∧ I s'.w ∧
      Prog.Safe (S := DB) exec R G (fun _ _ => True) s'.jm s'.w := by
  induction hs with
  | refl => exact ⟨ho, hI, hjm⟩
  | tail _ hst ih =>
    obtain ⟨ho, hI, hjm⟩ := ih
    obtain ⟨h1, h2⟩ := step_cases ho hst
    refine ⟨h1, ?_⟩
    rcases h2 with ⟨o, k, hk, hk', hw⟩ | ⟨hos, hk⟩ | ⟨hw, d, hd, hk⟩
    · rw [hk] at hjm
      have := hjm _ (hrefl _ hI)
      rw [hw, hk']
      exact ⟨hG _ _ hI this.1, this.2⟩
    · obtain ⟨hR, hI'⟩ := hother _ _ hI hos
      refine ⟨hI', ?_⟩
      rcases hk with hk | hk <;> rw [hk]
      · exact Prog.safe_rely htrans (fun _ _ => trivial) hjm hR
      · trivial
    · rw [hw, hk]
      exact ⟨hI, hstart d hd _ hI⟩

/-- The consequence for one step of the execution. -/
theorem engine_step {st : String} {I : World → Prop} {R G : World → World → Prop}
    (hrefl : ∀ w, I w → R w w)
    (hother : ∀ w w', I w → OtherStep w w' → R w w' ∧ I w')
    {s s' : Sys} (ho : ∀ p ∈ s.others, FromCmd s.w p) (hI : I s.w)
    (hjm : Prog.Safe (S := DB) exec R G (fun _ _ => True) s.jm s.w) (hst : Step st s s') :
    R s.w s'.w ∨ G s.w s'.w := by
  rcases (step_cases ho hst).2 with ⟨o, k, hk, hk', hw⟩ | ⟨hos, hk⟩ | ⟨hw, d, hd, hk⟩
  · rw [hk] at hjm
    rw [hw]
    exact .inr (hjm _ (hrefl _ hI)).1
  · exact .inl (hother _ _ hI hos).1
  · rw [hw]; exact .inl (hrefl _ hI)

/-- Running alone is a special case of running with an environment that does nothing. -/
theorem safe_run {α : Type} {R G : World → World → Prop} {Q : α → World → Prop}
    (hrefl : ∀ w, R w w) (hGr : ∀ w, G w w) (hGt : ∀ a b c, G a b → G b c → G a c)
    {p : Prog DB α} {w : World} (h : Prog.Safe (S := DB) exec R G Q p w) :
    G w (runW p w).2 ∧ ∀ a, (runW p w).1 = .ok a → Q a (runW p w).2 := by
  induction p generalizing w with
  | pure a => exact ⟨hGr w, by rintro b ⟨⟩; exact h⟩
  | raise e => exact ⟨hGr w, by rintro b ⟨⟩⟩
  | op o k ih =>
    have h1 := h w (hrefl w)
    have h2 := ih _ h1.2
    exact ⟨hGt _ _ _ h1.1 h2.1, h2.2⟩

/-- Programs restricted to operations that always keep the guarantee, with the answers of
actual worlds. -/
theorem safe_of_allow {α : Type} {P : Op → Prop} {Q : α → Prop} {R G : World → World → Prop}
    (hop : ∀ o w, P o → G w (exec o w).2) {p : Prog DB α} (hp : Allow P Q p) (w : World) :
    Prog.Safe (S := DB) exec R G (fun a _ => Q a) p w := by
  induction p generalizing w with
  | pure a => exact hp
  | raise e => trivial
  | op o k ih => intro w' _; exact ⟨hop o w' hp.1, ih _ (hp.2 _) _⟩

/-- The same, when the guarantee needs the rely. -/
theorem safe_of_allow' {α : Type} {P : Op → Prop} {Q : α → Prop} {R G : World → World → Prop}
    (hop : ∀ o w w', P o → R w w' → G w' (exec o w').2) {p : Prog DB α} (hp : Allow P Q p)
    (w : World) : Prog.Safe (S := DB) exec R G (fun a _ => Q a) p w := by
  induction p generalizing w with
  | pure a => exact hp
  | raise e => trivial
  | op o k ih => intro w' hR; exact ⟨hop o w w' hp.1 hR, ih _ (hp.2 _) _⟩

end Tomato
