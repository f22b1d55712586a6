import Verif.Props.Iface21
import Verif.Props.Iface20

/-!
# A device which has failed (C104)
-/

namespace Tomato.Props

/-! ## Specification -/

/-- The device is made use of by the worker of the component: a task is taken up, its parameters are
set, it begins, or a measurement is made. -/
def UsesDevice : I21.Ev → Prop
  | .took _ | .prepared _ | .begun _ | .measuring _ | .measured _ _ | .mStarted => True
  | _ => False

/-! ## Interface 2.1 -/

/-- The worker ends, or has ended, after an exception. -/
def wGone : I21.WPc → Prop
  | .failed | .exit | .dead => True
  | _ => False

theorem gone_wact {d d' : I21.Dev} {a : I21.Act} {es : List I21.Ev}
    (ha : I21.act d a = some (d', es)) (hw : wGone d.wpc) :
    (wGone d'.wpc ∨ .wasReset ∈ es) ∧ ∀ e ∈ es, ¬ UsesDevice e := by
  obtain ⟨q, r, dr, dt, dd, l, lk, w, cp⟩ := d
  simp only at hw
  cases a with
  | worker c =>
    simp only [I21.act] at ha
    cases w
    case failed =>
      simp only [I21.wstep] at ha
      injection ha with ha; injection ha with e1 e2; subst e1; subst e2
      exact ⟨.inl trivial, by simp⟩
    case exit =>
      simp only [I21.wstep] at ha
      injection ha with ha; injection ha with e1 e2; subst e1; subst e2
      exact ⟨.inl trivial, by simp⟩
    case dead => cases ha
    all_goals exact absurd hw (by simp [wGone])
  | cmd c =>
    simp only [I21.act] at ha
    split at ha
    · injection ha with ha
      cases c <;> simp only [I21.cbegin] at ha
      all_goals (try split at ha)
      all_goals (injection ha with e1 e2; subst e1; subst e2)
      all_goals exact ⟨.inl hw, by simp [UsesDevice]⟩
    · cases ha
  | cont =>
    simp only [I21.act, I21.cstep] at ha
    repeat' split at ha
    all_goals first
      | (cases ha; done)
      | (injection ha with ha; injection ha with e1 e2; subst e1; subst e2)
    all_goals refine ⟨?_, by simp [UsesDevice]⟩
    all_goals first
      | exact .inl hw
      | exact .inr (by simp)

/-- An exception ends the worker. -/
theorem crash_wact {d d' : I21.Dev} {a : I21.Act} {es x y : List I21.Ev}
    (ha : I21.act d a = some (d', es)) (hs : es = x ++ .crashed :: y) :
    wGone d'.wpc ∧ ∀ e ∈ y, ¬ UsesDevice e := by
  obtain ⟨q, r, dr, dt, dd, l, lk, w, cp⟩ := d
  have two : ∀ (e : I21.Ev), e ≠ .crashed → [.crashed, e] = x ++ .crashed :: y → y = [e] := by
    intro e he h
    cases x with
    | nil => simp at h; exact h.symm
    | cons z x =>
      simp at h
      cases x with
      | nil => simp at h; exact absurd h.2.1 he
      | cons z x => simp at h
  have none' : ∀ l : List I21.Ev, l = x ++ .crashed :: y → .crashed ∈ l := by
    rintro _ rfl; simp
  cases a with
  | worker c =>
    simp only [I21.act, I21.wstep] at ha
    repeat' split at ha
    all_goals first
      | (cases ha; done)
      | (injection ha with ha; injection ha with e1 e2; subst e1; subst e2)
    all_goals first
      | (exfalso; have := none' _ hs; simp at this; done)
      | (have := two _ (by simp) hs
         subst this
         exact ⟨trivial, by simp [UsesDevice]⟩)
  | cmd c =>
    simp only [I21.act] at ha
    split at ha
    · injection ha with ha
      cases c <;> simp only [I21.cbegin] at ha
      all_goals (try split at ha)
      all_goals (injection ha with e1 e2; subst e1; subst e2)
      all_goals
        exfalso
        have := none' _ hs
        simp at this
    · cases ha
  | cont =>
    simp only [I21.act, I21.cstep] at ha
    repeat' split at ha
    all_goals first
      | (cases ha; done)
      | (injection ha with ha; injection ha with e1 e2; subst e1; subst e2)
    all_goals
      exfalso
      have := none' _ hs
      simp at this

theorem failed_gone {h : List I21.Ev} {d : I21.Dev} (hh : I21.Hist h d) :
    ∀ a b, h = a ++ .crashed :: b → .wasReset ∉ b → wGone d.wpc ∧ ∀ e ∈ b, ¬ UsesDevice e := by
  induction hh with
  | init => intro a b h; simp at h
  | @step h d d' es act hh ha ih =>
    intro a b hs hn
    rcases List.append_eq_append_iff.mp hs with ⟨x, rfl, hx⟩ | ⟨x, hx, hy⟩
    · exact crash_wact ha hx
    · cases x with
      | nil =>
        simp only [List.append_nil, List.nil_append] at hx hy
        subst hx
        exact crash_wact ha (x := []) hy.symm
      | cons z x =>
        simp only [List.cons_append, List.cons.injEq] at hy
        obtain ⟨rfl, rfl⟩ := hy
        simp only [List.mem_append, not_or] at hn
        obtain ⟨h1, h2⟩ := ih a x hx hn.1
        obtain ⟨h3, h4⟩ := gone_wact ha h1
        refine ⟨h3.resolve_right hn.2, ?_⟩
        intro e he
        rcases List.mem_append.mp he with he | he
        · exact h2 e he
        · exact h4 e he

/-- **C104** (interface 2.1): once a function of the device has failed, be it within a task or within a
one-shot measurement, the device is left alone until the component is reset: the task is not continued,
no other one is taken up, no measurement is made. -/
theorem C104_left_alone {h a b : List I21.Ev} {d : I21.Dev} (hh : I21.Hist h d)
    (hs : h = a ++ .crashed :: b) (hn : .wasReset ∉ b) : ∀ e ∈ b, ¬ UsesDevice e :=
  (failed_gone hh a b hs hn).2

/-- The second sample of a task fails; then another task is accepted, and a measurement. -/
example : (I21.run I21.Dev.init ([.cmd (.start 1)] ++ List.replicate 19 (.worker {}) ++ [.worker { result := none }] ++
      List.replicate 2 (.worker {}) ++ [.cmd (.start 2), .cmd .measure, .cont])).map (·.2) =
    some [.accepted 1, .took 1, .prepared 1, .begun 1, .measuring 1, .measured 1 [], .measuring 1,
      .crashed, .ended 1, .accepted 2, .mRefused] := by decide

/-! ## Interface 2.0 -/

/-- The thread `i` has given up its task. -/
def GivenUp (s : I20.Dev) (i : Nat) : Prop :=
  ∃ t, s.threads[i]? = some t ∧
    ((t.doRun = false ∧ ∃ x, t.pc = .loop x ∨ t.pc = .clear x) ∨ (∃ x, t.pc = .done x) ∨ (∃ x, t.pc = .unsetRun x) ∨
      t.pc = .renew ∨ t.pc = .ended)

/-- Neither a task is started nor is one told to stop. -/
def quietAct : I20.Act → Prop
  | .cmd (.start _) | .cmd .stop => False
  | _ => True

theorem get_goto {s : I20.Dev} {i j : Nat} {pc : I20.TPc} :
    (I20.goto s j pc).threads[i]? =
      if j = i then s.threads[i]?.map (fun t => { t with pc := pc }) else s.threads[i]? := by
  simp only [I20.goto, I20.setThr, List.getElem?_modify]
  split <;> simp_all

theorem givenUp_other {s s' : I20.Dev} {i : Nat} (h : GivenUp s i)
    (he : s'.threads[i]? = s.threads[i]?) : GivenUp s' i := by
  obtain ⟨t, h1, h2⟩ := h
  exact ⟨t, by rw [he, h1], h2⟩

theorem givenUp_unset {s : I20.Dev} {i j : Nat} (h : GivenUp s i) :
    GivenUp (I20.setThr s j (fun t => { t with doRun := false })) i := by
  obtain ⟨t, h1, h2⟩ := h
  by_cases hj : j = i
  · subst hj
    refine ⟨{ t with doRun := false }, by simp [I20.setThr, h1], ?_⟩
    rcases h2 with ⟨_, h2⟩ | h2
    · exact .inl ⟨rfl, h2⟩
    · exact .inr h2
  · exact ⟨t, by simp [I20.setThr, h1, hj], h2⟩

/-- A step of another thread. -/
theorem other_thread {s s' : I20.Dev} {i j : Nat} {c : I20.Choice} {es : List I20.Ev}
    (hi : i < s.threads.length) (hji : j ≠ i) (ha : I20.tstep s j c = some (s', es)) :
    s'.threads[i]? = s.threads[i]? ∨
      s'.threads[i]? = (I20.setThr s s.cur (fun t => { t with doRun := false })).threads[i]? := by
  have hg : ∀ (s : I20.Dev) pc, (I20.goto s j pc).threads[i]? = s.threads[i]? := by
    intro s pc; rw [get_goto, if_neg hji]
  have hs : ∀ (s : I20.Dev) f, (I20.setThr s j f).threads[i]? = s.threads[i]? := by
    intro s f; simp [I20.setThr, hji]
  simp only [I20.tstep] at ha
  split at ha
  · cases ha
  · split at ha
    all_goals (try split at ha)
    all_goals (try split at ha)
    all_goals first
      | (cases ha; done)
      | (injection ha with ha; injection ha with e1 e2; subst e1)
    all_goals first
      | exact .inl (hg _ _)
      | exact .inl ((hg _ _).trans (hs _ _))
      | exact .inr (hg _ _)
      | skip
    have h1 : i < (I20.goto s j .ended).threads.length := by
      simpa [I20.goto, I20.setThr] using hi
    left
    simp only [I20.newThr]
    rw [List.getElem?_append_left h1]
    exact hg _ _

/-- The thread's own step. -/
theorem own_thread {s s' : I20.Dev} {i : Nat} {c : I20.Choice} {es : List I20.Ev}
    (h : GivenUp s i) (ha : I20.tstep s i c = some (s', es)) :
    GivenUp s' i ∧ ∀ x ps, .measuredFor x ps ∉ es := by
  obtain ⟨t, h1, h2⟩ := h
  have hil := (List.getElem?_eq_some_iff.mp h1).1
  simp only [I20.tstep, h1] at ha
  rcases h2 with ⟨hd, x, h2 | h2⟩ | ⟨x, h2⟩ | ⟨x, h2⟩ | h2 | h2
  · simp only [h2, hd, Bool.false_eq_true, if_false] at ha
    injection ha with ha; injection ha with e1 e2; subst e1; subst e2
    exact ⟨⟨_, by rw [get_goto, if_pos rfl, h1]; rfl, .inr (.inl ⟨x, rfl⟩)⟩, by simp⟩
  · simp only [h2] at ha
    injection ha with ha; injection ha with e1 e2; subst e1; subst e2
    refine ⟨⟨{ t with pc := .loop x }, ?_, .inl ⟨hd, x, .inl rfl⟩⟩, by simp⟩
    change (I20.goto s i (.loop x)).threads[i]? = _
    rw [get_goto, if_pos rfl, h1]; rfl
  · simp only [h2] at ha
    split at ha
    · injection ha with ha; injection ha with e1 e2; subst e1; subst e2
      exact ⟨⟨_, by rw [get_goto, if_pos rfl, h1]; rfl, by simp⟩, by simp⟩
    · injection ha with ha; injection ha with e1 e2; subst e1; subst e2
      refine ⟨⟨{ t with pc := .unsetRun x }, ?_, by simp⟩, by simp⟩
      change (I20.goto s i (.unsetRun x)).threads[i]? = _
      rw [get_goto, if_pos rfl, h1]; rfl
  · simp only [h2] at ha
    injection ha with ha; injection ha with e1 e2; subst e1; subst e2
    refine ⟨⟨{ t with pc := .renew }, ?_, by simp⟩, by simp⟩
    change (I20.goto s i .renew).threads[i]? = _
    rw [get_goto, if_pos rfl, h1]; rfl
  · simp only [h2] at ha
    injection ha with ha; injection ha with e1 e2; subst e1; subst e2
    refine ⟨⟨{ t with pc := .ended }, ?_, by simp⟩, by simp⟩
    have h3 : i < (I20.goto s i .ended).threads.length := by
      simpa [I20.goto, I20.setThr] using hil
    simp only [I20.newThr]
    rw [List.getElem?_append_left h3, get_goto, if_pos rfl, h1]; rfl
  · simp only [h2] at ha
    cases ha

theorem givenUp_act {s s' : I20.Dev} {i : Nat} {a : I20.Act} {es : List I20.Ev}
    (h : GivenUp s i) (hq : quietAct a) (ha : I20.act s a = some (s', es)) : GivenUp s' i := by
  have hil : i < s.threads.length := by
    obtain ⟨t, h1, _⟩ := h
    exact (List.getElem?_eq_some_iff.mp h1).1
  have hnew : ∀ (b : Bool), (I20.newThr s b).threads[i]? = s.threads[i]? := by
    intro b
    simp only [I20.newThr]
    rw [List.getElem?_append_left hil]
  simp only [I20.act] at ha
  split at ha
  · cases ha
  · cases a with
    | thread j c =>
      by_cases hj : j = i
      · subst hj; exact (own_thread h ha).1
      · rcases other_thread hil hj ha with he | he
        · exact givenUp_other h he
        · exact givenUp_other (givenUp_unset h) he
    | cmd c =>
      injection ha with ha
      cases c with
      | start t => exact absurd hq (by simp [quietAct])
      | stop => exact absurd hq (by simp [quietAct])
      | data => injection ha with e1 e2; subst e1; exact h
      | measure =>
        simp only [I20.command] at ha
        split at ha
        · injection ha with e1 e2; subst e1; exact h
        · injection ha with e1 e2; subst e1
          refine givenUp_other h ?_
          have hne : (I20.newThr s true).cur ≠ i := by
            simp only [I20.newThr]; omega
          have e1 : (I20.setThr (I20.newThr s true) (I20.newThr s true).cur
              (fun t => { t with doRun := true })).threads[i]? = s.threads[i]? := by
            simp only [I20.setThr, List.getElem?_modify, if_neg hne]
            rw [hnew]; simp
          simp only [I20.startThr]
          split
          · split
            · have hne' : (I20.setThr (I20.newThr s true) (I20.newThr s true).cur
                  (fun t => { t with doRun := true })).cur ≠ i := hne
              rw [← e1]
              generalize I20.setThr (I20.newThr s true) (I20.newThr s true).cur
                (fun t => { t with doRun := true }) = s₁ at hne'
              simp [I20.setThr, hne']
            · exact e1
          · exact e1
      | reset =>
        injection ha with e1 e2; subst e1
        exact givenUp_other h (hnew false)

/-- **C104** (`_partial`: interface 2.0, as long as no task is started nor told to stop; for a failure
before the first sample, only if the thread is still the one the component refers to; see `C104_refuted_interface_2_0` and `C104_refuted_interface_2_0_prepare`): after a function
of the device has failed in a task, the thread of that task makes no more measurement. -/
theorem C104_interface_2_0_partial {s s₁ s₂ : I20.Dev} {i x : Nat} {t : I20.Thr} {c : I20.Choice}
    {es es' : List I20.Ev} {as : List I20.Act}
    (ht : s.threads[i]? = some t) (hf : c.result = none)
    (hpc : (t.pc = .turn x ∧ c.sample = true) ∨ (t.pc = .prep x ∧ s.cur = i))
    (ha : I20.act s (.thread i c) = some (s₁, es)) (hq : ∀ a ∈ as, quietAct a)
    (hr : I20.run s₁ as = some (s₂, es')) (c' : I20.Choice) (s₃ : I20.Dev) (es₃ : List I20.Ev)
    (ha' : I20.act s₂ (.thread i c') = some (s₃, es₃)) (y : Nat) (ps : List Nat) :
    .measuredFor y ps ∉ es₃ := by
  have h1 : GivenUp s₁ i := by
    simp only [I20.act] at ha
    split at ha
    · cases ha
    · rcases hpc with ⟨hpc, hc⟩ | ⟨hpc, hc⟩
      · simp only [I20.tstep, ht, hpc, hc, hf, if_true] at ha
        injection ha with ha; injection ha with e1 e2; subst e1
        refine ⟨{ t with doRun := false, pc := if c.over then .done x else .loop x }, ?_, ?_⟩
        · rw [get_goto, if_pos rfl]
          simp [I20.setThr, ht]
        · cases c.over
          · exact .inl ⟨rfl, x, .inl rfl⟩
          · exact .inr (.inl ⟨x, rfl⟩)
      · subst hc
        simp only [I20.tstep, ht, hpc, hf] at ha
        injection ha with ha; injection ha with e1 e2; subst e1
        refine ⟨{ t with doRun := false, pc := .clear x }, ?_, .inl ⟨rfl, x, .inr rfl⟩⟩
        rw [get_goto, if_pos rfl]
        simp [I20.setThr, ht]
  have h2 : GivenUp s₂ i := by
    clear ha' ha
    induction as generalizing s₁ es' with
    | nil => simp only [I20.run] at hr; cases hr; exact h1
    | cons a as ih =>
      simp only [I20.run] at hr
      split at hr
      · cases hr
      · next s' es₁ hs =>
        split at hr
        · cases hr
        · next s'' es₂ hr' =>
          cases hr
          exact ih (fun b h => hq b (by simp [h])) hr' (givenUp_act h1 (hq a (by simp)) hs)
  simp only [I20.act] at ha'
  split at ha'
  · cases ha'
  · exact (own_thread h2 ha').2 y ps

/-- A task before its parameters are set, and before a sample. -/
example : ∃ p, I20.run I20.Dev.init ([.cmd (.start 1)] ++ tsteps 0 2) = some p ∧
    p.1.threads[0]? = some { pc := .prep 1, doRun := true } ∧ p.1.cur = 0 := ⟨_, rfl, rfl, rfl⟩

example : ∃ p, I20.run I20.Dev.init ([.cmd (.start 1)] ++ tsteps 0 5) = some p ∧
    p.1.threads[0]? = some { pc := .turn 1, doRun := true } := ⟨_, rfl, rfl⟩

/-- **C104** is violated by interface 2.0: the command to stop a task makes a task go on which has just
failed. -/
theorem C104_refuted_interface_2_0 : ∃ p q,
    I20.run I20.Dev.init ([.cmd (.start 1)] ++ tsteps 0 5 ++ [.thread 0 { result := none }]) = some p ∧
    I20.run p.1 ([.cmd .stop] ++ tsteps 0 2) = some q ∧
    p.2 = [.accepted 1, .took 1, .begun 1] ∧ q.2 = [.stopped, .delivered none, .measuredFor 1 []] :=
  ⟨_, _, rfl, rfl, rfl, rfl⟩

/-- It is violated by interface 2.0 also by a task whose parameters could not be set, if the component
is reset in the meantime: the exception is noted down at the thread created by the reset. -/
theorem C104_refuted_interface_2_0_prepare : ∃ p q,
    I20.run I20.Dev.init ([.cmd (.start 1)] ++ tsteps 0 2 ++ [.cmd .reset, .thread 0 { result := none }]) =
      some p ∧ I20.run p.1 (tsteps 0 3) = some q ∧
    p.2 = [.accepted 1, .took 1, .wasReset] ∧ q.2 = [.begun 1, .measuredFor 1 []] :=
  ⟨_, _, rfl, rfl, rfl, rfl⟩

end Tomato.Props
