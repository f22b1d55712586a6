import Verif.Whole
import Verif.Props.EndToEndOwn
import Verif.Props.JobThread

/-!
# A whole job is carried out (C103)
-/

namespace Tomato.Props
open Tomato.E2E

/-! ## Specification -/

/-- What happened to component `k` and to its thread. -/
def partOf (k : Nat) (h : List Whole.Ev) : List Ev :=
  h.filterMap (fun e => match e with
    | .part k' e => if k' = k then some e else none
    | .main _ => none)

/-- The beginnings and ends of tasks on a component, in order. -/
def course (h : List I21.Ev) : List I21.Ev :=
  h.filter (fun e => match e with
    | .begun _ => true
    | .ended _ => true
    | _ => false)

/-- One task after the other: each begins, and ends before the next one begins. -/
def oneByOne (ns : List Nat) : List I21.Ev := ns.flatMap (fun n => [.begun n, .ended n])

/-- The tasks taken up by the worker, in order. -/
def tooks (h : List I21.Ev) : List Nat :=
  h.filterMap (fun e => match e with | .took n => some n | _ => none)

/-- The tasks accepted by the component, in order. -/
def accs (h : List I21.Ev) : List Nat :=
  h.filterMap (fun e => match e with | .accepted n => some n | _ => none)

/-! ## The thread has seen its tasks run -/

/-- The driver has reported that task `j` is running. -/
def SawRun (tasks : List Task) (j : Nat) (h : List JobT.Ev) : Prop :=
  ∃ ok st ps l, .got j .running (.reply ok st ps) l ∈ h ∧ JobT.isRunning tasks[j]? ok st = true

/-- Positions of the thread after it was told that its task is running. -/
def ranAt : JobT.Pc → Bool
  | .due | .trigger | .load _ _ | .trunc _ _ | .dump _ _ | .append | .unset | .dead => true
  | .ask .data | .ask .status | .ask .stop | .ask .final => true
  | .wait .data | .wait .status | .wait .stop | .wait .final => true
  | _ => false

theorem SawRun.mono {tasks : List Task} {j : Nat} {h : List JobT.Ev} (hs : SawRun tasks j h)
    (e : JobT.Ev) : SawRun tasks j (h ++ [e]) := by
  obtain ⟨ok, st, ps, l, h1, h2⟩ := hs
  exact ⟨ok, st, ps, l, by simp [h1], h2⟩

theorem ran_step {t t' : JobT.Thr} {c : JobT.Choice} {e : JobT.Ev}
    (ha : JobT.tstep t c = some (t', e)) :
    (t'.i = t.i ∨ (t'.i = t.i + 1 ∧ t.pc = .unset ∧ ranAt t'.pc = false)) ∧
    (ranAt t'.pc = true → ranAt t.pc = true ∨
      ∃ ok st ps l, e = .got t.i .running (.reply ok st ps) l ∧
        JobT.isRunning t.tasks[t.i]? ok st = true) := by
  obtain ⟨tk, i, pc, cur, names, noList, crashed, file⟩ := t
  obtain ⟨ans, late, due⟩ := c
  cases pc with
  | wait q =>
    simp only [JobT.tstep] at ha
    injection ha with ha; injection ha with ha1 ha2; subst ha1; subst ha2
    refine ⟨.inl rfl, ?_⟩
    cases ans with
    | closed => intro h; cases h
    | reply ok st ps =>
      cases q with
      | ready =>
        simp only [JobT.next]
        split
        · intro h; cases h
        · split <;> (intro h; cases h)
      | start => intro h; cases h
      | running =>
        simp only [JobT.next]
        split
        · next hr => intro _; exact .inr ⟨ok, st, ps, late, rfl, hr⟩
        · split <;> (intro h; cases h)
      | reset => intro h; cases h
      | _ => intro _; exact .inl rfl
  | ask q =>
    simp only [JobT.tstep] at ha
    injection ha with ha; injection ha with ha1 ha2; subst ha1; subst ha2
    refine ⟨.inl rfl, ?_⟩
    cases q <;> intro h <;> first | (cases h; done) | exact .inl rfl
  | dump ps n =>
    simp only [JobT.tstep] at ha
    injection ha with ha; injection ha with ha1 ha2; subst ha1; subst ha2
    exact ⟨.inl rfl, fun _ => .inl rfl⟩
  | _ =>
    simp only [JobT.tstep] at ha
    (try split at ha)
    all_goals first
      | (cases ha; done)
      | (injection ha with ha; injection ha with ha1 ha2; subst ha1; subst ha2; simp [ranAt])

theorem thr_ran {tasks : List Task} {h : List JobT.Ev} {t : JobT.Thr} (hh : JobT.THist tasks h t) :
    (∀ j, j < t.i → SawRun tasks j h) ∧ (ranAt t.pc = true → SawRun tasks t.i h) := by
  induction hh with
  | init => exact ⟨fun j hj => absurd hj (Nat.not_lt_zero j), fun h => by cases h⟩
  | @step h t t' e c hh ha ih =>
    obtain ⟨h1, h2⟩ := ran_step ha
    have htk := (JobT.tinv hh).tasks_eq
    rw [htk] at h2
    constructor
    · intro j hj
      rcases h1 with h1 | ⟨h1, h3, _⟩
      · exact (ih.1 j (h1 ▸ hj)).mono e
      · by_cases hji : j < t.i
        · exact (ih.1 j hji).mono e
        · have : j = t.i := by omega
          subst this
          exact (ih.2 (by rw [h3]; rfl)).mono e
    · intro hr
      rcases h1 with h1 | ⟨_, _, h3⟩
      · rw [h1]
        rcases h2 hr with h | ⟨ok, st, ps, l, rfl, h⟩
        · exact (ih.2 h).mono e
        · exact ⟨ok, st, ps, l, by simp, h⟩
      · rw [h3] at hr; cases hr
  | push ns hh ih => exact ih

/-! ## The component -/

theorem tooks_append (h es : List I21.Ev) : tooks (h ++ es) = tooks h ++ tooks es :=
  List.filterMap_append
theorem accs_append (h es : List I21.Ev) : accs (h ++ es) = accs h ++ accs es :=
  List.filterMap_append
theorem course_append (h es : List I21.Ev) : course (h ++ es) = course h ++ course es :=
  List.filter_append _ _
theorem oneByOne_append (a b : List Nat) : oneByOne (a ++ b) = oneByOne a ++ oneByOne b :=
  List.flatMap_append

theorem mem_tooks {h : List I21.Ev} {n : Nat} : n ∈ tooks h ↔ .took n ∈ h := by
  simp only [tooks, List.mem_filterMap]
  constructor
  · rintro ⟨e, he, hx⟩
    split at hx
    · injection hx with hx; subst hx; exact he
    · cases hx
  · intro hm
    exact ⟨_, hm, rfl⟩

theorem mem_accs {h : List I21.Ev} {n : Nat} : n ∈ accs h ↔ .accepted n ∈ h := by
  simp only [accs, List.mem_filterMap]
  constructor
  · rintro ⟨e, he, hx⟩
    split at hx
    · injection hx with hx; subst hx; exact he
    · cases hx
  · intro hm
    exact ⟨_, hm, rfl⟩

/-- The task which the worker has taken up and not begun. -/
def wTaken : I21.WPc → List Nat
  | .got (.task t) | .noTask (.task t) | .prep t | .prepped t | .clear t => [t]
  | _ => []

/-- The task which the worker has begun and not ended. -/
def wOn : I21.WPc → List Nat
  | .loop1 t | .loop2 t | .turn t | .lock t | .meas t | .store t | .unlock t | .dur t | .over t
  | .done t => [t]
  | _ => []

/-- What the events say about a component which had no tasks at first. -/
structure DevSaid (h : List I21.Ev) (d : I21.Dev) : Prop where
  /-- queued tasks were accepted after those taken up -/
  sub : (tooks h ++ tasksOf d.queue).Sublist (accs h)
  /-- tasks held were taken up -/
  held : ∀ n ∈ held d, .took n ∈ h
  /-- tasks taken up were begun and ended, except for the last one -/
  course : .crashed ∉ h → ∃ l, tooks h = l ++ wTaken d.wpc ++ wOn d.wpc ∧
    course h = oneByOne l ++ (wOn d.wpc).map .begun

theorem said_act {hd h : List I21.Ev} {d d' : I21.Dev} {a : I21.Act} {es : List I21.Ev}
    (hi : Inv hd d) (ha : I21.act d a = some (d', es)) (hs : DevSaid h d) : DevSaid (h ++ es) d' := by
  obtain ⟨h1, h2, h3⟩ := hs
  have h7 := hi.run
  refine ⟨?_, ?_, ?_⟩
  · rw [tooks_append, accs_append]
    cases a with
    | worker c =>
      simp only [I21.act, I21.wstep] at ha
      repeat' split at ha
      all_goals first
        | (cases ha; done)
        | (injection ha with ha; injection ha with e1 e2; subst e1; subst e2)
      all_goals simp_all [tooks, accs, tasksOf_task, tasksOf_measure]
    | cmd c =>
      simp only [I21.act] at ha
      split at ha
      · injection ha with ha
        cases c <;> simp only [I21.cbegin] at ha
        all_goals (try split at ha)
        all_goals (injection ha with e1 e2; subst e1; subst e2)
        all_goals simp_all [tooks, accs, tasksOf_append, tasksOf_task, tasksOf_nil]
        rw [← List.append_assoc]
        exact List.Sublist.append h1 (List.Sublist.refl _)
      · cases ha
    | cont =>
      simp only [I21.act, I21.cstep] at ha
      repeat' split at ha
      all_goals first
        | (cases ha; done)
        | (injection ha with ha; injection ha with e1 e2; subst e1; subst e2)
      all_goals simp_all [tooks, accs, I21.afterReset, tasksOf_append, tasksOf_measure, tasksOf_nil]
      exact (List.sublist_append_left _ _).trans h1
  · obtain ⟨q, r, dr, dt, dd, l, lk, w, cp⟩ := d
    simp only at h2 h7
    cases a with
    | worker c =>
      simp only [I21.act] at ha
      cases w
      case got x => 
        cases x
        all_goals
          simp only [I21.wstep] at ha
          injection ha with ha; injection ha with ha1 ha2; subst ha1; subst ha2
          simp_all [held, heldOf, wItem, wLeaving, wRunning]
      case noTask x => 
        cases x
        all_goals
          simp only [I21.wstep] at ha
          injection ha with ha; injection ha with ha1 ha2; subst ha1; subst ha2
          simp_all [held, heldOf, wItem, wLeaving, wRunning]
      case get => 
        cases q with
        | nil =>
          simp only [I21.wstep] at ha
          injection ha with ha; injection ha with ha1 ha2; subst ha1; subst ha2
          simp_all [held, heldOf, wItem, wLeaving, wRunning]
        | cons x q =>
          cases x
          all_goals
            simp only [I21.wstep] at ha
            injection ha with ha; injection ha with ha1 ha2; subst ha1; subst ha2
            simp_all [held, heldOf, wItem, wLeaving, wRunning]
      all_goals simp only [I21.wstep] at ha
      all_goals (try split at ha)
      all_goals first
        | (cases ha; done)
        | skip
      all_goals (injection ha with ha; injection ha with ha1 ha2; subst ha1; subst ha2)
      all_goals simp_all [held, heldOf, wItem, wRunning, wLeaving]
    | cmd c =>
      simp only [I21.act] at ha
      split at ha
      · injection ha with ha
        cases c <;> simp only [I21.cbegin] at ha
        all_goals (try split at ha)
        all_goals (injection ha with e1 e2; subst e1; subst e2)
        all_goals
          intro n hn
          exact List.mem_append_left _ (h2 n hn)
      · cases ha
    | cont =>
      simp only [I21.act, I21.cstep] at ha
      repeat' split at ha
      all_goals first
        | (cases ha; done)
        | (injection ha with ha; injection ha with e1 e2; subst e1; subst e2)
      all_goals
        intro n hn
        first
          | exact List.mem_append_left _ (h2 n hn)
          | (simp [held, heldOf, I21.afterReset, wItem, wLeaving] at hn)
  · intro hn
    obtain ⟨l, h4, h5⟩ := h3 (fun h => hn (by simp [h]))
    rw [tooks_append, course_append, h4, h5]
    clear h1 h2 h3 h4 h5
    obtain ⟨q, r, dr, dt, dd, la, lk, w, cp⟩ := d
    cases a with
    | worker c =>
      simp only [I21.act] at ha
      cases w
      case got x => 
        cases x
        all_goals
          simp only [I21.wstep] at ha
          injection ha with ha; injection ha with ha1 ha2; subst ha1; subst ha2
          exact ⟨l, by simp [tooks, wTaken, wOn], by simp [course, wOn]⟩
      case noTask x => 
        cases x
        all_goals
          simp only [I21.wstep] at ha
          injection ha with ha; injection ha with ha1 ha2; subst ha1; subst ha2
          exact ⟨l, by simp [tooks, wTaken, wOn], by simp [course, wOn]⟩
      case get => 
        cases q with
        | nil =>
          simp only [I21.wstep] at ha
          injection ha with ha; injection ha with ha1 ha2; subst ha1; subst ha2
          exact ⟨l, by simp [tooks, wTaken, wOn], by simp [course, wOn]⟩
        | cons x q =>
          cases x
          all_goals
            simp only [I21.wstep] at ha
            injection ha with ha; injection ha with ha1 ha2; subst ha1; subst ha2
            exact ⟨l, by simp [tooks, wTaken, wOn], by simp [course, wOn]⟩
      case done t =>
        simp only [I21.wstep] at ha
        injection ha with ha; injection ha with ha1 ha2; subst ha1; subst ha2
        exact ⟨l ++ [t], by simp [tooks, wTaken, wOn], by simp [course, wOn, oneByOne]⟩
      all_goals simp only [I21.wstep] at ha
      all_goals (try split at ha)
      all_goals first
        | (cases ha; done)
        | skip
      all_goals (injection ha with ha; injection ha with ha1 ha2; subst ha1; subst ha2)
      all_goals first
        | (exfalso; simp at hn; done)
        | exact ⟨l, by simp [tooks, wTaken, wOn], by simp [course, wOn]⟩
    | cmd c =>
      simp only [I21.act] at ha
      split at ha
      · injection ha with ha
        cases c <;> simp only [I21.cbegin] at ha
        all_goals (try split at ha)
        all_goals (injection ha with e1 e2; subst e1; subst e2)
        all_goals exact ⟨l, by simp [tooks], by simp [course]⟩
      · cases ha
    | cont =>
      simp only [I21.act, I21.cstep] at ha
      repeat' split at ha
      all_goals first
        | (cases ha; done)
        | (injection ha with ha; injection ha with e1 e2; subst e1; subst e2)
      all_goals
        refine ⟨l, ?_, ?_⟩ <;> simp_all [tooks, course, wTaken, wOn, I21.afterReset]

theorem held_nil {d : I21.Dev} (hh : held d = []) : wTaken d.wpc = [] ∧ wOn d.wpc = [] := by
  obtain ⟨q, r, dr, dt, dd, l, lk, w, cp⟩ := d
  cases w
  case got x => cases x <;> simp_all [held, heldOf, wItem, wTaken, wOn]
  case noTask x => cases x <;> simp_all [held, heldOf, wItem, wTaken, wOn]
  all_goals simp_all [held, heldOf, wItem, wTaken, wOn]

/-! ## Thread and component -/

theorem said_hist {tasks : List Task} {d₀ : I21.Dev} {hd : List I21.Ev} {h : List Ev} {s : St}
    (h0 : I21.Hist hd d₀) (hr : Rests hd d₀) (hh : Hist tasks d₀ h s) : DevSaid (devPart h) s.d := by
  induction hh with
  | init =>
    have h1 := (rests_present h0 hr).1
    have h2 : held d₀ = [] ∧ tasksOf d₀.queue = [] := by simpa [e2ePresent] using h1
    obtain ⟨h3, h4⟩ := held_nil h2.1
    refine ⟨?_, ?_, fun _ => ⟨[], ?_, ?_⟩⟩
    · change ([] ++ tasksOf d₀.queue).Sublist []
      rw [h2.2]; exact List.Sublist.refl _
    · intro n hn
      have hn : n ∈ held d₀ := hn
      rw [h2.1] at hn; cases hn
    · change [] = [] ++ wTaken d₀.wpc ++ wOn d₀.wpc
      rw [h3, h4]; rfl
    · change [] = [] ++ (wOn d₀.wpc).map I21.Ev.begun
      rw [h4]; rfl
  | @step h s s' es a hh ha ih =>
    rw [devPart_append]
    rcases dev_act ha with ⟨h1, h2⟩ | ⟨b, hb, _⟩
    · rw [h1, h2, List.append_nil]; exact ih
    · exact said_act (inv_hist (dev_hist h0 hh)) hb ih

/-- A step which leaves no new request behind. -/
theorem req_step {s s' : St} {a : Act} {es : List Ev} (ha : act s a = some (s', es))
    (hq : s'.net = .req .start) :
    (s.t.pc = .ask .start ∧ s'.t.i = s.t.i ∧ devPart es = []) ∨
    (s.net = .req .start ∧ s'.t.i = s.t.i ∧ accs (devPart es) = []) ∨
    (∀ q, s.t.pc ≠ .wait q) ∧ s.net = .req .start := by
  cases a with
  | thr c =>
    simp only [act] at ha
    cases hpc : s.t.pc with
    | wait q =>
      rw [hpc] at ha
      cases hnet : s.net with
      | ans a =>
        rw [hnet] at ha
        simp only [thrStep, JobT.tstep, hpc] at ha
        injection ha with ha; injection ha with h1 h2; subst h1
        cases hq
      | _ => rw [hnet] at ha; cases ha
    | ask q =>
      rw [hpc] at ha
      simp only [thrStep, JobT.tstep, hpc] at ha
      injection ha with ha; injection ha with h1 h2; subst h1; subst h2
      injection hq with hq; subst hq
      exact .inl ⟨rfl, rfl, rfl⟩
    | _ =>
      rw [hpc] at ha
      simp only [thrStep] at ha
      split at ha
      · cases ha
      · injection ha with ha; injection ha with h1 h2; subst h1
        exact .inr (.inr ⟨by simp, hq⟩)
  | tell ns =>
    injection ha with ha; injection ha with h1 h2; subst h1; subst h2
    exact .inr (.inl ⟨hq, rfl, rfl⟩)
  | take acc =>
    simp only [act] at ha
    cases hnet : s.net with
    | req q =>
      rw [hnet] at ha
      simp only at ha
      split at ha
      · injection ha with ha; injection ha with h1 h2; subst h1
        exfalso
        cases q
        case start => cases acc <;> simp [take] at hq
        all_goals simp [take] at hq
      · cases ha
    | _ => rw [hnet] at ha; cases ha
  | work c =>
    simp only [act] at ha
    split at ha
    · cases ha
    · next hw =>
      injection ha with ha; injection ha with h1 h2; subst h1; subst h2
      refine .inr (.inl ⟨hq, rfl, ?_⟩)
      rw [devPart_dev]
      simp only [I21.wstep] at hw
      repeat' split at hw
      all_goals first
        | (cases hw; done)
        | (injection hw with hw; injection hw with e1 e2; subst e2; rfl)
  | cont =>
    simp only [act] at ha
    split at ha
    · cases ha
    · next es' hw =>
      injection ha with ha; injection ha with h1 h2; subst h1; subst h2
      refine .inr (.inl ⟨?_, rfl, ?_⟩)
      · simp only [answered] at hq
        split at hq
        · split at hq <;> simp_all
        · exact hq
      · rw [devPart_dev]
        simp only [I21.cstep] at hw
        repeat' split at hw
        all_goals first
          | (cases hw; done)
          | (injection hw with hw; injection hw with e1 e2; subst e2; rfl)
  | measure =>
    simp only [act] at ha
    split at ha
    · injection ha with ha; injection ha with h1 h2; subst h1; subst h2
      refine .inr (.inl ⟨hq, rfl, ?_⟩)
      rw [devPart_dev]
      rcases (measure_present (d := s.d)).2.2.2.2.2 with h | h <;> rw [h] <;> rfl
    · cases ha
  | lose =>
    simp only [act] at ha
    split at ha
    · cases ha
    · injection ha with ha; injection ha with h1 h2; subst h1; cases hq

/-- Tasks are accepted in the order of the list, each at most once. -/
theorem accs_increasing {tasks : List Task} {d₀ : I21.Dev} {h : List Ev} {s : St}
    (hh : Hist tasks d₀ h s) :
    (accs (devPart h)).Pairwise (· < ·) ∧
      (s.net = .req .start → ∀ n ∈ accs (devPart h), n < s.t.i) := by
  induction hh with
  | init => exact ⟨List.Pairwise.nil, fun h => by cases h⟩
  | @step h s s' es a hh ha ih =>
    rw [devPart_append, accs_append]
    constructor
    · by_cases hacc : accs (devPart es) = []
      · rw [hacc, List.append_nil]; exact ih.1
      · -- only a request to start a task leads to its acceptance
        have : s.net = .req .start ∧ accs (devPart es) = [s.t.i] := by
          cases a with
          | thr c => obtain ⟨_, _, e, _, rfl, _⟩ := thr_eq ha; exact absurd rfl hacc
          | tell ns =>
            injection ha with ha; injection ha with h1 h2; subst h2; exact absurd rfl hacc
          | take acc =>
            simp only [act] at ha
            cases hnet : s.net with
            | req q =>
              rw [hnet] at ha
              simp only at ha
              split at ha
              · injection ha with ha; injection ha with h1 h2; subst h2
                rw [devPart_dev] at hacc ⊢
                cases q
                case start =>
                  cases acc
                  · exact absurd rfl hacc
                  · exact ⟨rfl, rfl⟩
                all_goals exact absurd rfl hacc
              · cases ha
            | _ => rw [hnet] at ha; cases ha
          | work c =>
            simp only [act] at ha
            split at ha
            · cases ha
            · next hw =>
              injection ha with ha; injection ha with h1 h2; subst h2
              rw [devPart_dev] at hacc
              simp only [I21.wstep] at hw
              repeat' split at hw
              all_goals first
                | (cases hw; done)
                | (injection hw with hw; injection hw with e1 e2; subst e2; exact absurd rfl hacc)
          | cont =>
            simp only [act] at ha
            split at ha
            · cases ha
            · next hw =>
              injection ha with ha; injection ha with h1 h2; subst h2
              rw [devPart_dev] at hacc
              simp only [I21.cstep] at hw
              repeat' split at hw
              all_goals first
                | (cases hw; done)
                | (injection hw with hw; injection hw with e1 e2; subst e2; exact absurd rfl hacc)
          | measure =>
            simp only [act] at ha
            split at ha
            · injection ha with ha; injection ha with h1 h2; subst h2
              rw [devPart_dev] at hacc
              rcases (measure_present (d := s.d)).2.2.2.2.2 with h | h <;> rw [h] at hacc <;>
                exact absurd rfl hacc
            · cases ha
          | lose =>
            simp only [act] at ha
            split at ha
            · cases ha
            · injection ha with ha; injection ha with h1 h2; subst h2; exact absurd rfl hacc
        rw [this.2, List.pairwise_append]
        refine ⟨ih.1, List.pairwise_singleton _ _, ?_⟩
        intro n hn m hm
        rw [List.mem_singleton] at hm
        subst hm
        exact ih.2 this.1 n hn
    · intro hq n hn
      rcases req_step ha hq with ⟨h1, h2, h3⟩ | ⟨h1, h2, h3⟩ | ⟨h1, h2⟩
      · rw [h3] at hn
        rw [h2]
        have hn' : n ∈ accs (devPart h) := by simpa [accs] using hn
        have hs := (JobT.tinv (thr_hist hh)).sent
        rw [h1] at hs
        have hs' : JobT.starts (thrPart h) = List.range s.t.i := hs.1
        have := accepted_started hh n (mem_accs.mp hn')
        rw [hs', List.mem_range] at this
        exact this
      · rw [h3, List.append_nil] at hn
        rw [h2]
        exact ih.2 h1 n hn
      · exfalso
        have := (netW_nowait h1).mp (netW hh)
        rw [h2] at this
        cases this

/-- What the driver says about running tasks is true. -/
theorem saw_took {tasks : List Task} {d₀ : I21.Dev} {hd : List I21.Ev} {h : List Ev} {s : St}
    (h0 : I21.Hist hd d₀) (hr : Rests hd d₀) (hh : Hist tasks d₀ h s)
    (hn : ∀ i, .sent i .stop ∉ thrPart h) (hg : ¬ Gone s) :
    (∀ j, SawRun tasks j (thrPart h) → .took j ∈ devPart h) ∧
    (∀ ok st ps, s.t.pc = .wait .running → s.net = .ans (.reply ok st ps) →
      JobT.isRunning tasks[s.t.i]? ok st = true → .took s.t.i ∈ devPart h) := by
  induction hh with
  | init =>
    refine ⟨?_, fun _ _ _ h => by cases h⟩
    rintro j ⟨_, _, _, _, h, _⟩
    cases h
  | @step h s s' es a hh ha ih =>
    have hn' : ∀ i, .sent i .stop ∉ thrPart h := by
      intro i hm
      exact hn i (by rw [thrPart_append]; simp [hm])
    have hg' : ¬ Gone s := fun h => hg ((gone_step ha).1 h)
    obtain ⟨i1, i2⟩ := ih hn' hg'
    have hc := cinv h0 hr hh hn' hg'
    have keep : thrPart es = [] → ∀ j, SawRun tasks j (thrPart (h ++ es)) → .took j ∈ devPart (h ++ es) := by
      intro he j hj
      rw [thrPart_append, he, List.append_nil] at hj
      rw [devPart_append]
      exact List.mem_append_left _ (i1 j hj)
    have same : s'.t = s.t → s'.net = s.net → ∀ ok st ps, s'.t.pc = .wait .running →
        s'.net = .ans (.reply ok st ps) → JobT.isRunning tasks[s'.t.i]? ok st = true →
        .took s'.t.i ∈ devPart (h ++ es) := by
      intro e1 e2 ok st ps a1 a2 a3
      rw [e1] at a1 a3 ⊢
      rw [e2] at a2
      rw [devPart_append]
      exact List.mem_append_left _ (i2 ok st ps a1 a2 a3)
    cases a with
    | thr c =>
      have hdev : devPart (h ++ es) = devPart h := by
        obtain ⟨_, _, e, _, rfl, _⟩ := thr_eq ha
        rw [devPart_append]; exact List.append_nil _
      constructor
      · rintro j ⟨ok, st, ps, l, hm, hrun⟩
        rw [hdev]
        rw [thrPart_append, List.mem_append] at hm
        rcases hm with hm | hm
        · exact i1 j ⟨ok, st, ps, l, hm, hrun⟩
        · obtain ⟨c', _, e, _, rfl, ht, hw⟩ := thr_eq ha
          have he : e = .got j .running (.reply ok st ps) l := by
            have : .got j .running (.reply ok st ps) l ∈ [e] := hm
            exact (List.mem_singleton.mp this).symm
          subst he
          obtain ⟨hpc, hj, hans⟩ : s.t.pc = .wait .running ∧ j = s.t.i ∧ c'.ans = .reply ok st ps := by
            revert ht
            cases hpc : s.t.pc <;> simp only [JobT.tstep, hpc] <;> intro ht
            case wait q =>
              injection ht with ht; injection ht with t1 t2
              injection t2 with t2 t3 t4 t5
              exact ⟨by rw [t3], t2.symm, t4⟩
            all_goals
              (try split at ht)
              all_goals first
                | (cases ht; done)
                | (injection ht with ht; injection ht with t1 t2; cases t2)
          subst hj
          exact i2 ok st ps hpc (by rw [hw _ hpc, hans]) hrun
      · intro ok st ps a1 a2 _
        exfalso
        simp only [act] at ha
        cases hpc : s.t.pc with
        | wait q =>
          rw [hpc] at ha
          cases hnet : s.net with
          | ans a =>
            rw [hnet] at ha
            simp only [thrStep, JobT.tstep, hpc] at ha
            injection ha with ha; injection ha with h1 h2; subst h1
            cases a2
          | _ => rw [hnet] at ha; cases ha
        | ask q =>
          rw [hpc] at ha
          simp only [thrStep, JobT.tstep, hpc] at ha
          injection ha with ha; injection ha with h1 h2; subst h1
          cases a2
        | _ =>
          rw [hpc] at ha
          have hw := netW hh
          rw [hpc] at hw
          have hw : s.net = .idle := hw
          simp only [thrStep] at ha
          split at ha
          · cases ha
          · injection ha with ha; injection ha with h1 h2; subst h1
            simp only [hw] at a2
            cases a2
    | tell ns =>
      injection ha with ha; injection ha with h1 h2; subst h1; subst h2
      rw [List.append_nil]
      exact ⟨i1, i2⟩
    | take acc =>
      simp only [act] at ha
      cases hnet : s.net with
      | req q =>
        rw [hnet] at ha
        simp only at ha
        split at ha
        · injection ha with ha; injection ha with h1 h2; subst h1; subst h2
          refine ⟨keep (thrPart_dev _), ?_⟩
          intro ok st ps a1 a2 a3
          have ht : ∀ b, (take s q b).1.t = s.t := by
            intro b; cases q
            case start => cases b <;> rfl
            all_goals rfl
          rw [ht] at a1 a3 ⊢
          have hw := hc.netT
          rw [a1, hnet] at hw
          obtain rfl : q = .running := by simpa [NetT] using hw
          rw [devPart_append]
          apply List.mem_append_left
          -- the component is asked while it has at most this task
          have hstg := hc.stg
          simp only [stage, stageOf, a1, hnet, StageD] at hstg
          have hans : status s.t.tasks s.d = .reply ok st ps := by
            simpa [take] using a2
          have htk := (JobT.tinv (thr_hist hh)).tasks_eq
          have hi : s.t.i < tasks.length := by
            have hs := (JobT.tinv (thr_hist hh)).sent
            rw [a1] at hs
            exact hs.2
          simp only [status, htk] at hans
          injection hans with e1 e2 e3
          subst e1; subst e2
          simp only [JobT.isRunning, JobT.SD.wrong, Bool.true_and, Bool.and_eq_true,
            Bool.not_eq_true', decide_eq_false_iff_not, ne_eq, Decidable.not_not] at a3
          cases hrun : s.d.running with
          | none => rw [hrun] at a3; exact absurd a3.1 (by simp)
          | some x =>
            rw [hrun] at a3
            cases x with
            | measure =>
              have := a3.2
              rw [List.getElem?_eq_getElem hi] at this
              cases this
            | task n =>
              have hheld := running_held (inv_hist (dev_hist h0 hh)) hrun
              have hni : n = s.t.i := by
                rcases hstg with h | h
                · simp [e2ePresent, hheld] at h
                · simp [e2ePresent, hheld] at h; exact h.1
              exact (said_hist h0 hr hh).held _ (by rw [hheld, hni]; simp)
        · cases ha
      | _ => rw [hnet] at ha; cases ha
    | work c =>
      simp only [act] at ha
      split at ha
      · cases ha
      · injection ha with ha; injection ha with h1 h2; subst h1; subst h2
        exact ⟨keep (thrPart_dev _), same rfl rfl⟩
    | cont =>
      simp only [act] at ha
      split at ha
      · cases ha
      · next es' _ =>
        injection ha with ha; injection ha with h1 h2; subst h1; subst h2
        refine ⟨keep (thrPart_dev _), ?_⟩
        intro ok st ps a1 a2 a3
        cases hnet : s.net with
        | exec q =>
          exfalso
          have hT := hc.netT
          have a1 : s.t.pc = .wait .running := a1
          rw [a1, hnet] at hT
          obtain rfl : q = .running := by simpa [NetT] using hT
          have hC := hc.netC
          rw [hnet] at hC
          exact hC
        | _ => exact same rfl (by simp [hnet, answered]) ok st ps a1 a2 a3
    | measure =>
      simp only [act] at ha
      split at ha
      · injection ha with ha; injection ha with h1 h2; subst h1; subst h2
        exact ⟨keep (thrPart_dev _), same rfl rfl⟩
      · cases ha
    | lose =>
      simp only [act] at ha
      split at ha
      · cases ha
      · injection ha with ha; injection ha with h1 h2; subst h1; subst h2
        exact ⟨keep rfl, fun ok st ps _ a2 => by cases a2⟩

/-- A list in increasing order with exactly the numbers below `n`. -/
theorem increasing_range {l : List Nat} {n : Nat} (hl : l.Pairwise (· < ·)) (hb : ∀ x ∈ l, x < n)
    (ha : ∀ x, x < n → x ∈ l) : l = List.range n := by
  have hp : l.Perm (List.range n) := by
    rw [List.perm_ext_iff_of_nodup (hl.imp (fun h => Nat.ne_of_lt h)) List.nodup_range]
    intro x
    rw [List.mem_range]
    exact ⟨hb x, ha x⟩
  exact hp.eq_of_pairwise (fun a b _ _ h1 h2 => by omega) hl List.pairwise_lt_range

/-- A thread which has ended in an orderly manner (also by the exception after its second task): all
its tasks were carried out by the component, one after the other. -/
theorem part_course {tasks : List Task} {d₀ : I21.Dev} {hd : List I21.Ev} {h : List Ev} {s : St}
    (h0 : I21.Hist hd d₀) (hr : Rests hd d₀) (hh : Hist tasks d₀ h s)
    (hn : ∀ i, .sent i .stop ∉ thrPart h) (hp : s.t.pc = .fin ∨ s.t.pc = .dead)
    (hall : JobT.starts (thrPart h) = List.range tasks.length) (hcr : .crashed ∉ devPart h) :
    course (devPart h) = oneByOne (List.range tasks.length) := by
  have hg : ¬ Gone s := by
    rintro (h | h | ⟨_, q, h⟩) <;> rw [h] at hp <;> simp at hp
  have hsaid := said_hist h0 hr hh
  have hci := cinv h0 hr hh hn hg
  have hpres : e2ePresent s.d = [] := by
    have := hci.stg
    unfold stage at this
    rcases hp with h | h <;> rw [h] at this <;> exact this.1
  have hheld : held s.d = [] := by
    have : held s.d = [] ∧ tasksOf s.d.queue = [] := by simpa [e2ePresent] using hpres
    exact this.1
  obtain ⟨hw1, hw2⟩ := held_nil hheld
  have hran := thr_ran (thr_hist hh)
  have hlt : ∀ j, j < tasks.length → SawRun tasks j (thrPart h) := by
    intro j hj
    have hs := (JobT.tinv (thr_hist hh)).sent
    rcases hp with hp | hp
    · rw [hp] at hs
      have hs2 : s.t.i = tasks.length := hs.2
      exact hran.1 j (by omega)
    · rw [hp] at hs
      have : tasks.length ≤ s.t.i + 1 := by
        rcases hs with ⟨h1, h2⟩ | ⟨h1, h2⟩
        · rw [hall] at h1
          have := congrArg List.length h1
          simp at this; omega
        · rw [hall] at h1
          have := congrArg List.length h1
          simp at this; omega
      by_cases hji : j < s.t.i
      · exact hran.1 j hji
      · have : j = s.t.i := by omega
        subst this
        exact hran.2 (by rw [hp]; rfl)
  have htook := (saw_took h0 hr hh hn hg).1
  have hsub : (tooks (devPart h)).Sublist (accs (devPart h)) :=
    (List.sublist_append_left _ _).trans hsaid.sub
  have hrange : tooks (devPart h) = List.range tasks.length := by
    apply increasing_range
    · exact (accs_increasing hh).1.sublist hsub
    · intro x hx
      have := accepted_started hh x (mem_accs.mp (hsub.subset hx))
      rw [hall, List.mem_range] at this
      exact this
    · intro x hx
      exact mem_tooks.mpr (htook x (hlt x hx))
  obtain ⟨l, h1, h2⟩ := hsaid.course hcr
  rw [hw1, hw2, List.append_nil, List.append_nil] at h1
  rw [hw2] at h2
  rw [h2, ← h1, hrange]
  exact List.append_nil _

/-! ## The whole job -/

/-- What the job process did. -/
def jobPart (h : List Whole.Ev) : List JobT.JEv :=
  h.filterMap (fun e => match e with
    | .part k (.thr e) => some (.thr k e)
    | .part _ (.dev _) => none
    | .main e => some e)

theorem partOf_append (k : Nat) (h es : List Whole.Ev) :
    partOf k (h ++ es) = partOf k h ++ partOf k es := List.filterMap_append
theorem jobPart_append (h es : List Whole.Ev) : jobPart (h ++ es) = jobPart h ++ jobPart es :=
  List.filterMap_append

theorem partOf_self (k : Nat) (es : List Ev) : partOf k (es.map (.part k)) = es := by
  induction es with
  | nil => rfl
  | cons e es ih => simp only [partOf, List.map_cons, List.filterMap_cons, if_true] at ih ⊢; rw [ih]
theorem partOf_ne {k j : Nat} (h : j ≠ k) (es : List Ev) : partOf k (es.map (.part j)) = [] := by
  induction es with
  | nil => rfl
  | cons e es ih =>
    simp only [partOf, List.map_cons, List.filterMap_cons, if_neg h] at ih ⊢; rw [ih]
theorem jobPart_dev (k : Nat) (es : List I21.Ev) :
    jobPart ((es.map Ev.dev).map (.part k)) = [] := by
  induction es with
  | nil => rfl
  | cons e es ih => exact ih

/-- Events of the main thread, except for those made by threads. -/
def mainEv : JobT.JEv → Bool
  | .thr _ _ => false
  | _ => true

theorem mstep_threads {s s' : JobT.Jb} {e : JobT.JEv} (ha : JobT.mstep s = some (s', e)) :
    mainEv e = true ∧ (s'.thrs = s.thrs ∨ ∃ (k : Nat) (t : JobT.Thr), s.thrs[k]? = some t ∧
      s'.thrs = s.thrs.set k { t with names := s.started ++ t.names }) := by
  simp only [JobT.mstep] at ha
  split at ha
  · split at ha
    · injection ha with ha; injection ha with h1 h2; subst h1; subst h2; exact ⟨rfl, .inl rfl⟩
    · split at ha <;>
        (injection ha with ha; injection ha with h1 h2; subst h1; subst h2; exact ⟨rfl, .inl rfl⟩)
  · split at ha
    · injection ha with ha; injection ha with h1 h2; subst h1; subst h2; exact ⟨rfl, .inl rfl⟩
    · next k _ _ t ht =>
      injection ha with ha; injection ha with h1 h2; subst h1; subst h2
      exact ⟨rfl, .inr ⟨k, t, ht, rfl⟩⟩
  · split at ha <;>
      (injection ha with ha; injection ha with h1 h2; subst h1; subst h2; exact ⟨rfl, .inl rfl⟩)
  · split at ha
    · split at ha <;>
        (injection ha with ha; injection ha with h1 h2; subst h1; subst h2; exact ⟨rfl, .inl rfl⟩)
    · injection ha with ha; injection ha with h1 h2; subst h1; subst h2; exact ⟨rfl, .inl rfl⟩
  · cases ha

theorem zip_thrs (ps : List St) (ts : List JobT.Thr) (hl : ts.length = ps.length) :
    (List.zipWith (fun p t => { p with t := t }) ps ts : List St).map (·.t) = ts := by
  induction ps generalizing ts with
  | nil =>
    cases ts with
    | nil => rfl
    | cons t ts => simp at hl
  | cons p ps ih =>
    cases ts with
    | nil => simp at hl
    | cons t ts =>
      simp only [List.zipWith_cons_cons, List.map_cons]
      rw [ih ts (by simpa using hl)]

/-- The thread's part of a step of a part. -/
theorem part_thr {s s' : St} {a : Act} {es : List Ev} (ha : act s a = some (s', es))
    (hm : ∀ ns, a ≠ .tell ns) :
    (s'.t = s.t ∧ ∃ ds : List I21.Ev, es = ds.map .dev) ∨
      ∃ c e, JobT.tstep s.t c = some (s'.t, e) ∧ es = [.thr e] := by
  cases a with
  | thr c =>
    obtain ⟨c', _, e, _, he, ht, _⟩ := thr_eq ha
    exact .inr ⟨c', e, ht, he⟩
  | tell ns => exact absurd rfl (hm ns)
  | take acc =>
    simp only [act] at ha
    split at ha
    · next q hq =>
      split at ha
      · injection ha with ha; injection ha with h1 h2; subst h1; subst h2
        refine .inl ⟨?_, _, rfl⟩
        cases q
        case start => cases acc <;> rfl
        all_goals rfl
      · cases ha
    · cases ha
  | work c =>
    simp only [act] at ha
    split at ha
    · cases ha
    · injection ha with ha; injection ha with h1 h2; subst h1; subst h2
      exact .inl ⟨rfl, _, rfl⟩
  | cont =>
    simp only [act] at ha
    split at ha
    · cases ha
    · injection ha with ha; injection ha with h1 h2; subst h1; subst h2
      exact .inl ⟨rfl, _, rfl⟩
  | measure =>
    simp only [act] at ha
    split at ha
    · injection ha with ha; injection ha with h1 h2; subst h1; subst h2
      exact .inl ⟨rfl, _, rfl⟩
    · cases ha
  | lose =>
    simp only [act] at ha
    split at ha
    · cases ha
    · injection ha with ha; injection ha with h1 h2; subst h1; subst h2
      exact .inl ⟨rfl, [], rfl⟩

/-- What happens within the job process is a history of the job process. -/
theorem whole_job {drv : Nat → Nat} {cs : List (List Task × I21.Dev)} {h : List Whole.Ev}
    {s : Whole.St} (hh : Whole.Hist drv cs h s) :
    JobT.Hist (JobT.Jb.init (cs.map (·.1))) (jobPart h) s.jb := by
  induction hh with
  | init =>
    have : (Whole.St.init cs).jb = JobT.Jb.init (cs.map (·.1)) := by
      simp [Whole.St.init, Whole.St.jb, JobT.Jb.init, E2E.St.init, Function.comp_def]
    rw [this]
    exact .init
  | @step h s s' es a hh ha ih =>
    rw [jobPart_append]
    cases a with
    | part k a =>
      simp only [Whole.act] at ha
      split at ha
      · next hmay =>
        split at ha
        · cases ha
        · next p hp =>
          split at ha
          · cases ha
          · next p' es' hpa =>
            injection ha with ha; injection ha with h1 h2; subst h1; subst h2
            have hthr : s.jb.thrs[k]? = some p.t := by simp [Whole.St.jb, hp]
            have hset : ({ s with parts := s.parts.set k p' } : Whole.St).jb =
                { s.jb with thrs := s.jb.thrs.set k p'.t } := by
              simp [Whole.St.jb, List.map_set]
            rcases part_thr hpa (by rintro ns rfl; simp [Whole.may] at hmay) with ⟨h1, ds, rfl⟩ | ⟨c, e, h1, rfl⟩
            · rw [jobPart_dev, List.append_nil, hset, h1]
              have : s.jb.thrs.set k p.t = s.jb.thrs := by
                rw [List.getElem?_eq_some_iff] at hthr
                obtain ⟨hl, he⟩ := hthr
                rw [← he, List.set_getElem_self]
              rw [this]
              exact ih
            · refine .step (.thr k c) ih ?_
              simp only [JobT.act, hthr, h1, hset]
      · cases ha
    | main =>
      simp only [Whole.act] at ha
      split at ha
      · cases ha
      · next j e hm =>
        injection ha with ha; injection ha with h1 h2; subst h1; subst h2
        have hlen : j.thrs.length = s.parts.length := by
          rcases (mstep_threads hm).2 with h | ⟨k, t, _, h⟩ <;> rw [h] <;> simp [Whole.St.jb]
        have hj : Whole.St.jb ⟨List.zipWith (fun p t => { p with t := t }) s.parts j.thrs,
            j.started, j.main⟩ = j := by
          simp only [Whole.St.jb]
          rw [zip_thrs s.parts j.thrs hlen]
        rw [hj]
        exact .step .main ih hm

/-- What happens to one component and its thread is a history of these two. -/
theorem whole_part {drv : Nat → Nat} {cs : List (List Task × I21.Dev)} {h : List Whole.Ev}
    {s : Whole.St} (hh : Whole.Hist drv cs h s) :
    s.parts.length = cs.length ∧ ∀ (k : Nat) (c : List Task × I21.Dev) (p : St), cs[k]? = some c →
      s.parts[k]? = some p → Hist c.1 c.2 (partOf k h) p := by
  induction hh with
  | init =>
    refine ⟨by simp [Whole.St.init], ?_⟩
    intro k c p hc hp
    simp only [Whole.St.init, List.getElem?_map, hc, Option.map_some, Option.some.injEq] at hp
    subst hp
    exact .init
  | @step h s s' es a hh ha ih =>
    obtain ⟨il, ih⟩ := ih
    cases a with
    | part k a =>
      simp only [Whole.act] at ha
      split at ha
      · split at ha
        · cases ha
        · next p hp =>
          split at ha
          · cases ha
          · next p' es' hpa =>
            injection ha with ha; injection ha with h1 h2; subst h1; subst h2
            refine ⟨by simpa using il, ?_⟩
            intro j c x hc hx
            rw [partOf_append]
            by_cases hjk : k = j
            · subst hjk
              have hkl : k < s.parts.length := (List.getElem?_eq_some_iff.mp hp).1
              simp only [List.getElem?_set_self hkl, Option.some.injEq] at hx
              subst hx
              rw [partOf_self]
              exact .step a (ih k c p hc hp) hpa
            · simp only [List.getElem?_set_ne hjk] at hx
              rw [partOf_ne hjk, List.append_nil]
              exact ih j c x hc hx
      · cases ha
    | main =>
      simp only [Whole.act] at ha
      split at ha
      · cases ha
      · next jb e hm =>
        injection ha with ha; injection ha with h1 h2; subst h1; subst h2
        have hlen : jb.thrs.length = s.parts.length := by
          rcases (mstep_threads hm).2 with h | ⟨k, t, _, h⟩ <;> rw [h] <;> simp [Whole.St.jb]
        refine ⟨by simp [hlen, il], ?_⟩
        intro k c x hc hx
        have hnil : partOf k [Whole.Ev.main e] = [] := rfl
        rw [partOf_append, hnil, List.append_nil]
        simp only [List.getElem?_zipWith] at hx
        cases hp : s.parts[k]? with
        | none => rw [hp] at hx; cases hx
        | some p =>
          cases ht : jb.thrs[k]? with
          | none => rw [hp, ht] at hx; cases hx
          | some t =>
            rw [hp, ht] at hx
            injection hx with hx
            subst hx
            have hold := ih k c p hc hp
            have hthr : s.jb.thrs[k]? = some p.t := by simp [Whole.St.jb, hp]
            rcases (mstep_threads hm).2 with h | ⟨j, t', hj, h⟩
            · rw [h, hthr] at ht
              injection ht with ht
              subst ht
              exact hold
            · rw [h] at ht
              by_cases hjk : j = k
              · subst hjk
                have hjl : j < s.jb.thrs.length := (List.getElem?_eq_some_iff.mp hj).1
                rw [List.getElem?_set_self hjl] at ht
                injection ht with ht
                subst ht
                rw [hthr] at hj
                injection hj with hj
                subst hj
                have := Hist.step (.tell s.jb.started) hold rfl
                simpa using this
              · rw [List.getElem?_set_ne hjk, hthr] at ht
                injection ht with ht
                subst ht
                exact hold

theorem proj_jobPart (k : Nat) (h : List Whole.Ev) (hm : ∀ e, .main e ∈ h → mainEv e = true) :
    JobT.proj k (jobPart h) = thrPart (partOf k h) := by
  induction h with
  | nil => rfl
  | cons x h ih =>
    have ih := ih (fun e he => hm e (by simp [he]))
    have e1 : jobPart (x :: h) = jobPart [x] ++ jobPart h := jobPart_append [x] h
    have e2 : partOf k (x :: h) = partOf k [x] ++ partOf k h := partOf_append k [x] h
    have e3 : ∀ a b, JobT.proj k (a ++ b) = JobT.proj k a ++ JobT.proj k b :=
      fun _ _ => List.filterMap_append
    rw [e1, e2, e3, thrPart_append, ih]
    congr 1
    cases x with
    | part j e =>
      cases e with
      | thr e =>
        by_cases hjk : j = k
        · subst hjk; simp [jobPart, partOf, JobT.proj, thrPart]
        · simp [jobPart, partOf, JobT.proj, thrPart, hjk]
      | dev e =>
        by_cases hjk : j = k
        · subst hjk; simp [jobPart, partOf, JobT.proj, thrPart]
        · simp [jobPart, partOf, JobT.proj, thrPart, hjk]
    | main e =>
      have := hm e (by simp)
      cases e <;> simp_all [jobPart, partOf, JobT.proj, thrPart, mainEv]

theorem main_events {drv : Nat → Nat} {cs : List (List Task × I21.Dev)} {h : List Whole.Ev}
    {s : Whole.St} (hh : Whole.Hist drv cs h s) : ∀ e, .main e ∈ h → mainEv e = true := by
  induction hh with
  | init => intro e he; cases he
  | @step h s s' es a hh ha ih =>
    intro e he
    rcases List.mem_append.mp he with he | he
    · exact ih e he
    · cases a with
      | part k a =>
        simp only [Whole.act] at ha
        split at ha
        · split at ha
          · cases ha
          · split at ha
            · cases ha
            · injection ha with ha; injection ha with h1 h2; subst h2
              simp at he
        · cases ha
      | main =>
        simp only [Whole.act] at ha
        split at ha
        · cases ha
        · next hm =>
          injection ha with ha; injection ha with h1 h2; subst h2
          rw [List.mem_singleton] at he
          injection he with he
          subst he
          exact (mstep_threads hm).1

/-! ## C103 -/

/-- **C103** (`_partial`: for components with at most two tasks which are not told to stop, if no
thread has crashed unnoticed and if no function of the devices has failed; see `C103_refuted`,
`C39_refuted` and `C39_refuted_race`): if the main loop of a job ends without error, which is when the
job's status becomes `c`, then, for each of its components, if it was at rest when the job began, every
task of the job was carried out from beginning to end, one after the other in the order of the method,
and the job's file of this component has exactly the data points which were measured for its tasks, task
after task. -/
theorem C103_complete_partial {drv : Nat → Nat} {cs : List (List Task × I21.Dev)}
    {h : List Whole.Ev} {s : Whole.St} (hh : Whole.Hist drv cs h s)
    (hd : s.main = .done false) (k : Nat) (c : List Task × I21.Dev) (p : St)
    (hk : cs[k]? = some c) (hp : s.parts[k]? = some p) (htwo : c.1.length ≤ 2)
    (hc : p.t.crashed = false) (h₀ : List I21.Ev) (h0 : I21.Hist h₀ c.2) (hr : Rests h₀ c.2)
    (hn : ∀ i, .sent i .stop ∉ thrPart (partOf k h)) (hf : .crashed ∉ devPart (partOf k h)) :
    course (devPart (partOf k h)) = oneByOne (List.range c.1.length) ∧
    p.t.file.content = (List.range c.1.length).flatMap (measuredFor (devPart (partOf k h))) ∧
    p.t.file.content = measuredAll (devPart (partOf k h)) := by
  have hj := whole_job hh
  have hpart := (whole_part hh).2 k c p hk hp
  have hthr := thr_hist hpart
  have hm := mainOK hj
  unfold MainOK at hm
  have hd' : s.jb.main = .done false := hd
  rw [hd'] at hm
  have hthr' : s.jb.thrs[k]? = some p.t := by simp [Whole.St.jb, hp]
  have hjoin := hm.2 k _ hthr'
  have hsent := (ended_sent hthr hjoin hc).1
  have hmin : min c.1.length 2 = c.1.length := by omega
  rw [hmin] at hsent
  have hpc : p.t.pc = .fin ∨ p.t.pc = .dead := by
    have he := (JobT.tend hthr).crashed
    simp only [JobT.Thr.joined, hc, Bool.or_false, Bool.not_eq_true', JobT.Thr.alive] at hjoin
    cases hpc : p.t.pc <;> rw [hpc] at hjoin he <;> simp_all
  have hst := C71_stored_partial h0 hr hpart hn (by rcases hpc with h | h <;> simp [h])
  refine ⟨part_course h0 hr hpart hn hpc hsent hf, ?_, hst.2.2⟩
  rw [hst.2.1, hsent]

/-! ### Examples -/

theorem whole_run {drv : Nat → Nat} {cs : List (List Task × I21.Dev)} {h es : List Whole.Ev}
    {s s' : Whole.St} {as : List Whole.Act}
    (hh : Whole.Hist drv cs h s) (hr : Whole.run drv s as = some (s', es)) :
    Whole.Hist drv cs (h ++ es) s' := by
  induction as generalizing h es s with
  | nil => cases hr; simpa using hh
  | cons a as ih =>
    simp only [Whole.run] at hr
    split at hr
    · cases hr
    · next s₁ es₁ ha =>
      split at hr
      · cases hr
      · next s₂ es₂ hr' =>
        cases hr
        rw [← List.append_assoc]
        exact ih (.step a hh ha) hr'

/-- Part `k` does this. -/
def onPart (k : Nat) (as : List Act) : List Whole.Act := as.map (.part k)

/-- The thread resets the component, and ends. -/
def resetsIt : List Act := thrs 2 ++ [.take true] ++ works 2 ++ [.cont, .thr {}]

/-- A job with two components which belong to the same driver, with one and two tasks. -/
def wholeActs : List Whole.Act :=
  onPart 1 (submits ++ samples [1, 2]) ++ List.replicate 5 .main ++
  onPart 0 (submits ++ samples [7]) ++ onPart 1 (polls ++ samples [3] true ++ ends ++ thrs 1) ++
  onPart 0 (samples [8] true ++ ends ++ thrs 1 ++ resetsIt) ++ List.replicate 7 .main ++
  onPart 1 (submits ++ samples [4] ++ samples [5] true ++ ends) ++ List.replicate 12 .main

def wholeJob : List (List Task × I21.Dev) :=
  [([e2eTask 1], I21.Dev.init), ([e2eTask 2, e2eTask 3], I21.Dev.init)]

/-- The hypotheses of `C103_complete_partial` are met. -/
example : ((Whole.run (fun _ => 0) (.init wholeJob) wholeActs).map (fun p =>
      (p.1.main, p.1.parts.map (fun p => (p.t.crashed, p.t.file)),
       course (devPart (partOf 0 p.2)), course (devPart (partOf 1 p.2))))) =
    some (.done false, [(false, .data [7, 8]), (false, .data [1, 2, 3, 4, 5])],
      [.begun 0, .ended 0], [.begun 0, .ended 0, .begun 1, .ended 1]) := by decide +kernel

example : ((Whole.run (fun _ => 0) (.init wholeJob) wholeActs).map (fun p =>
      [0, 1].all (fun k => !(devPart (partOf k p.2)).contains .crashed &&
        [0, 1, 2].all (fun i => !(thrPart (partOf k p.2)).contains (.sent i .stop))))) = some true := by
  decide +kernel

/-- While the driver is occupied with a request for one component, it takes up none for another one of
its components, but it does if they belong to different drivers. -/
example :
    (Whole.run (fun _ => 0) (.init wholeJob) (onPart 0 (submits ++ thrs 1 ++ rq ++ thrs 1 ++
      [.thr { due := true }, .thr {}, .take true]) ++ onPart 1 (thrs 3 ++ [.take true]))) = none ∧
    (Whole.run (fun k => k) (.init wholeJob) (onPart 0 (submits ++ thrs 1 ++ rq ++ thrs 1 ++
      [.thr { due := true }, .thr {}, .take true]) ++ onPart 1 (thrs 3 ++ [.take true]))).isSome := by
  decide +kernel

/-- A function of the device fails while the task is prepared. -/
def wholeFails : List Whole.Act :=
  onPart 0 (thrs 2 ++ rq ++ rq ++ works 4 ++ rq ++ works 3 { result := none } ++
    thrs 1 ++ rq ++ rqData ++ thrs 3 ++ [.thr {}, .take true, .cont, .thr {}]) ++
  List.replicate 8 .main

/-- **C103** is violated: if a function of the device raises an exception, the worker of the component
ends; the thread is told that the component is not running any more, and takes this for the end of the
task.  Here the only task of a job never begins, the thread ends normally, and the job is reported as
complete, without any data. -/
theorem C103_refuted : ∃ h s p, Whole.Hist (fun _ => 0) [([e2eTask 1], I21.Dev.init)] h s ∧
    s.main = .done false ∧ s.parts = [p] ∧ p.t.pc = .fin ∧ p.t.crashed = false ∧
    .completed 0 ∈ thrPart (partOf 0 h) ∧ (∀ n, .begun n ∉ devPart (partOf 0 h)) ∧
    p.t.file = .absent := by
  have hr : ∃ p, Whole.run (fun _ => 0) (.init [([e2eTask 1], I21.Dev.init)]) wholeFails = some p ∧
      p.1.main = .done false ∧ p.1.parts.map (fun p => (p.t.pc, p.t.crashed, p.t.file)) =
        [(.fin, false, .absent)] ∧
      .completed 0 ∈ thrPart (partOf 0 p.2) ∧ course (devPart (partOf 0 p.2)) = [.ended 0] :=
    ⟨_, rfl, rfl, rfl, by decide +kernel, by decide +kernel⟩
  obtain ⟨⟨s, h⟩, hr, h1, h2, h3, h4⟩ := hr
  simp only at h1 h2 h3 h4
  obtain ⟨p, hp⟩ : ∃ p, s.parts = [p] := by
    have := congrArg List.length h2
    simp only [List.length_map, List.length_cons, List.length_nil] at this
    exact List.length_eq_one_iff.mp this
  rw [hp] at h2
  simp only [List.map_cons, List.map_nil, List.cons.injEq, Prod.mk.injEq, and_true] at h2
  refine ⟨h, s, p, by simpa using whole_run .init hr, h1, hp, h2.1, h2.2.1, h3, ?_, h2.2.2⟩
  intro n hn
  have : .begun n ∈ course (devPart (partOf 0 h)) := List.mem_filter.mpr ⟨hn, rfl⟩
  rw [h4] at this
  simp at this

end Tomato.Props
