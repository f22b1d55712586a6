import Verif.Iface20

/-!
# Properties of a component, interface 2.0 (C51, C53, C54)
-/

namespace Tomato.Props
open Tomato.I20

theorem run_hist20 {h es : List Ev} {s s' : Dev} {as : List Act} (hh : Hist h s)
    (hr : run s as = some (s', es)) : Hist (h ++ es) s' := by
  induction as generalizing h es s with
  | nil => cases hr; simpa using hh
  | cons a as ih =>
    simp only [run] at hr
    split at hr
    · cases hr
    · next s₁ es₁ ha =>
      split at hr
      · cases hr
      · next s₂ es₂ hr' =>
        cases hr
        rw [← List.append_assoc]
        exact ih (.step a hh ha) hr'

/-- `n` steps of the thread `i`. -/
def tsteps (i n : Nat) (c : Choice := {}) : List Act := List.replicate n (.thread i c)

/-! ## C54 -/

/-- **C54** is violated by interface 2.0 for every running task: `task_stop` sets the flag `do_run`
of the thread to `True`, which it already is; besides handing out the cached data, it changes
nothing at all. -/
theorem C54_interface_2_0_no_effect (s : Dev)
    (h : ∀ t, s.threads[s.cur]? = some t → t.doRun = true) :
    (command s .stop).1 = (command s .data).1 := by
  obtain ⟨q, u, r, d, l, ts, cur, ex⟩ := s
  simp only at h
  have : ts.modify cur (fun t => { t with doRun := true }) = ts := by
    apply List.ext_getElem?
    intro i
    rw [List.getElem?_modify]
    split
    · next e =>
      subst e
      cases ht : ts[cur]? with
      | none => rfl
      | some t =>
        have := h t ht
        obtain ⟨m, pc, dr⟩ := t
        simp only at this
        subst this
        rfl
    · cases ts[i]? <;> rfl
  simp [command, setThr, this]

/-- The component in the middle of task 1. -/
def ex20 (d l : Option (List Nat)) : Dev where
  unfinished := 1
  running := true
  data := d
  last := l
  threads := [{ pc := .loop 1, doRun := true }]

/-- **C54** is violated: after a `task_stop` in the middle of the task, it goes on measuring for as
long as it likes. -/
theorem C54_refuted_interface_2_0 (n : Nat) :
    ∃ (a b : List Ev) (s : Dev), Hist (a ++ .stopped :: b) s ∧
      a = [.accepted 1, .took 1, .begun 1, .measuredFor 1 [7]] ∧
      .ended 1 ∉ b ∧ b.countP (fun e => e = .measuredFor 1 [7]) = n := by
  have start : ∃ p, run Dev.init ([.cmd (.start 1)] ++ tsteps 0 6 { result := some (some [7]) } ++
      [.cmd .stop]) = some p ∧ p.1 = ex20 none (some [7]) ∧
      p.2 = [.accepted 1, .took 1, .begun 1, .measuredFor 1 [7], .stopped, .delivered (some [7])] :=
    ⟨_, rfl, rfl, rfl⟩
  obtain ⟨⟨s₀, es₀⟩, hr₀, hs₀, he₀⟩ := start
  simp only at hs₀ he₀
  subst hs₀; subst he₀
  have h₀ := run_hist20 .init hr₀
  have turn : ∀ d l, ∃ d' l' es, run (ex20 d l) (tsteps 0 2 { result := some (some [7]) }) =
      some (ex20 d' l', es) ∧ es = [.measuredFor 1 [7]] := fun d l => ⟨_, _, _, rfl, rfl⟩
  have loop : ∃ (b : List Ev) (d l : Option (List Nat)),
      Hist ([.accepted 1, .took 1, .begun 1, .measuredFor 1 [7]] ++ .stopped :: b) (ex20 d l) ∧
      .ended 1 ∉ b ∧ b.countP (fun e => e = .measuredFor 1 [7]) = n := by
    induction n with
    | zero => exact ⟨[.delivered (some [7])], none, some [7], h₀, by decide, by decide⟩
    | succ n ih =>
      obtain ⟨b, d, l, hh, hb1, hb2⟩ := ih
      obtain ⟨d', l', es, ht, he⟩ := turn d l
      refine ⟨b ++ es, d', l', ?_, ?_, ?_⟩
      · have := run_hist20 hh ht
        simpa [List.append_assoc] using this
      · subst he; simp [hb1]
      · subst he; simp [hb2]
  obtain ⟨b, d, l, hh, h1, h2⟩ := loop
  exact ⟨_, b, _, hh, rfl, h1, h2⟩

/-! ## C51, C53 -/

/-- **C51** is violated by interface 2.0: a second task, sent while the first one is running, is
accepted into the queue and ends the driver process (a thread cannot be started twice), before
either task has ended. -/
theorem C51_refuted_interface_2_0 :
    ∃ h s, Hist h s ∧ h = [.accepted 1, .took 1, .begun 1, .measuredFor 1 [], .accepted 2, .exited] ∧
      s.exited = true ∧ ∀ a, act s a = none := by
  have hr : ∃ p, run Dev.init ([.cmd (.start 1)] ++ tsteps 0 6 ++ [.cmd (.start 2)]) = some p ∧
      p.2 = [.accepted 1, .took 1, .begun 1, .measuredFor 1 [], .accepted 2, .exited] ∧ p.1.exited = true :=
    ⟨_, rfl, rfl, rfl⟩
  obtain ⟨⟨s, es⟩, hr, he, hx⟩ := hr
  simp only at he hx
  exact ⟨es, s, by simpa using run_hist20 .init hr, he, hx, fun a => by simp [act, hx]⟩

/-- **C53** is violated by interface 2.0: a measurement is accepted right after a task (whose
thread has not yet set `running`), and both are executed at the same time. -/
theorem C53_refuted_interface_2_0 :
    ∃ h s, Hist h s ∧ h = [.accepted 1, .mAccepted, .mStarted, .took 1, .begun 1, .measuredFor 1 [], .mEnded] := by
  have hr : ∃ p, run Dev.init ([.cmd (.start 1), .cmd .measure] ++ tsteps 1 2 ++ tsteps 0 6 ++
      tsteps 1 1) = some p ∧
      p.2 = [.accepted 1, .mAccepted, .mStarted, .took 1, .begun 1, .measuredFor 1 [], .mEnded] :=
    ⟨_, rfl, rfl⟩
  obtain ⟨⟨s, es⟩, hr, he⟩ := hr
  exact ⟨es, s, by simpa using run_hist20 .init hr, he⟩

/-- **C51** is violated by interface 2.0 in another way: `cmp_reset` does not end the running task;
the next task is then executed at the same time, and the data of both get mixed up. -/
theorem C51_refuted_interface_2_0_reset :
    ∃ h s, Hist h s ∧
      h = [.accepted 1, .took 1, .begun 1, .measuredFor 1 [7], .wasReset, .accepted 2, .took 2,
        .begun 2, .measuredFor 2 [8], .measuredFor 1 [7]] ∧ s.data = some [8, 7] := by
  have hr : ∃ p, run Dev.init ([.cmd (.start 1)] ++ tsteps 0 6 { result := some (some [7]) } ++
      [.cmd .reset, .cmd (.start 2)] ++ tsteps 1 6 { result := some (some [8]) } ++
      tsteps 0 2 { result := some (some [7]) }) = some p ∧
      p.2 = [.accepted 1, .took 1, .begun 1, .measuredFor 1 [7], .wasReset, .accepted 2, .took 2,
        .begun 2, .measuredFor 2 [8], .measuredFor 1 [7]] ∧ p.1.data = some [8, 7] := ⟨_, rfl, rfl, rfl⟩
  obtain ⟨⟨s, es⟩, hr, he, hd⟩ := hr
  exact ⟨es, s, by simpa using run_hist20 .init hr, he, hd⟩

/-! ### What does hold for interface 2.0 -/

/-- One task after the other: if a task is only sent while the component has a thread that was not
yet started, the driver process does not end, and the task is put into the queue. -/
theorem C51_interface_2_0_start_idle_partial (s : Dev) (t : Nat) (th : Thr)
    (h : s.threads[s.cur]? = some th) (hf : th.pc = .fresh) (he : s.exited = false) :
    (command s (.start t)).1.exited = false ∧ (command s (.start t)).2 = [.accepted t] ∧
    (command s (.start t)).1.queue = s.queue ++ [t] := by
  simp [command, startThr, setThr, h, hf, he]

example : ∃ p, run Dev.init ([.cmd (.start 1)] ++ tsteps 0 6 { over := true } ++ tsteps 0 3) = some p ∧
    p.2 = [.accepted 1, .took 1, .begun 1, .measuredFor 1 [], .ended 1] ∧
    ∃ th, p.1.threads[p.1.cur]? = some th ∧ th.pc = .fresh ∧ p.1.exited = false :=
  ⟨_, rfl, rfl, _, rfl, rfl, rfl⟩

end Tomato.Props
