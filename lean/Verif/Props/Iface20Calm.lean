import Verif.Props.Iface20
import Mathlib.Tactic.ByContra

/-!
# Components of interface 2.0 which are given one thing at a time (C112)
-/

namespace Tomato.Props
open Tomato.I20

/-! ## Specification -/

/-- What a component of interface 2.0 can be occupied with. -/
inductive Work20 where
  | task (t : Nat)
  | measure
  deriving DecidableEq, Repr

/-- One event, for `work20`. -/
def work20Step (o : Option Work20) : Ev → Option Work20
  | .took t => some (.task t)
  | .mStarted => some .measure
  | .ended _ => none
  | .mEnded => none
  | _ => o

/-- What the component is occupied with. -/
def work20 (h : List Ev) : Option Work20 := h.foldl work20Step none

/-- Whether an event can happen, given what the component is occupied with. -/
def legal20 (o : Option Work20) : Ev → Prop
  | .took _ => o = none
  | .mStarted => o = none
  | .begun t => o = some (.task t)
  | .measuredFor t _ => o = some (.task t)
  | .ended t => o = some (.task t)
  | .mEnded => o = some .measure
  | .exited => False
  | _ => True

/-- One thing at a time, each one to its end, and the driver process goes on. -/
def InTurn (h : List Ev) : Prop := ∀ (a b : List Ev) (e : Ev), h = a ++ e :: b → legal20 (work20 a) e

/-- The tasks which were accepted since the last reset. -/
def accepted20 (h : List Ev) : List Nat :=
  h.foldl (fun l e => match e with | .accepted t => l ++ [t] | .wasReset => [] | _ => l) []

/-- The tasks which were taken up since the last reset. -/
def took20 (h : List Ev) : List Nat :=
  h.foldl (fun l e => match e with | .took t => l ++ [t] | .wasReset => [] | _ => l) []

/-- The data points measured since the last task began or the last reset. -/
def measured20 (h : List Ev) : List Nat :=
  h.foldl (fun l e => match e with
    | .measuredFor _ ps => l ++ ps | .begun _ => [] | .wasReset => [] | _ => l) []

/-- The data points handed out since the last task began or the last reset. -/
def delivered20 (h : List Ev) : List Nat :=
  h.foldl (fun l e => match e with
    | .delivered ps => l ++ ps.getD [] | .begun _ => [] | .wasReset => [] | _ => l) []

/-- No thread of the component is being executed. -/
def Calm20 (s : Dev) : Prop := ∀ t ∈ s.threads, t.pc = .fresh ∨ t.pc = .ended

/-- A thread is prepared for the next task. -/
def Primed (s : Dev) : Prop := ∃ t, s.threads[s.cur]? = some t ∧ t.pc = .fresh

/-- What may be asked in a state: tasks and measurements, and resets, only if no thread is being
executed; a task only if a thread is prepared for it.  Everything else at any time. -/
def MayAsk (s : Dev) : Act → Prop
  | .cmd (.start _) => Calm20 s ∧ Primed s
  | .cmd .measure => Calm20 s
  | .cmd .reset => Calm20 s
  | _ => True

/-- Histories in which one thing is asked at a time. -/
inductive CalmHist : List Ev → Dev → Prop where
  | init : CalmHist [] Dev.init
  | step {h : List Ev} {s s' : Dev} {es : List Ev} (a : Act) :
      CalmHist h s → MayAsk s a → act s a = some (s', es) → CalmHist (h ++ es) s'

theorem CalmHist.hist {h : List Ev} {s : Dev} (hh : CalmHist h s) : Hist h s := by
  induction hh with
  | init => exact .init
  | step a _ _ ha ih => exact .step a ih ha

/-! ## Invariant -/

theorem work20_append (h es : List Ev) :
    work20 (h ++ es) = es.foldl work20Step (work20 h) := List.foldl_append
theorem accepted20_append (h es : List Ev) : accepted20 (h ++ es) = es.foldl
    (fun l e => match e with | .accepted t => l ++ [t] | .wasReset => [] | _ => l)
    (accepted20 h) := List.foldl_append
theorem took20_append (h es : List Ev) : took20 (h ++ es) = es.foldl
    (fun l e => match e with | .took t => l ++ [t] | .wasReset => [] | _ => l)
    (took20 h) := List.foldl_append
theorem measured20_append (h es : List Ev) : measured20 (h ++ es) = es.foldl
    (fun l e => match e with
    | .measuredFor _ ps => l ++ ps | .begun _ => [] | .wasReset => [] | _ => l)
    (measured20 h) := List.foldl_append
theorem delivered20_append (h es : List Ev) : delivered20 (h ++ es) = es.foldl
    (fun l e => match e with
    | .delivered ps => l ++ ps.getD [] | .begun _ => [] | .wasReset => [] | _ => l)
    (delivered20 h) := List.foldl_append

/-- What the component is occupied with, by the position of its thread. -/
def workOf : TPc → Option Work20
  | .prep x | .clear x | .loop x | .turn x | .done x | .unsetRun x => some (.task x)
  | .mMeas => some .measure
  | _ => none

/-- `running`, by the position of the thread. -/
def runningOf : TPc → Bool
  | .fresh | .setRun | .renew | .mSetRun => false
  | _ => true

/-- The length of the queue, by the position of the thread. -/
def queuedOf : TPc → Nat
  | .setRun | .get => 1
  | _ => 0

/-- `unfinished`, by the position of the thread. -/
def unfinishedOf : TPc → Nat
  | .setRun | .get | .prep _ | .clear _ | .loop _ | .turn _ | .done _ => 1
  | _ => 0

/-- A thread which does not run. -/
def Resting (t : Thr) : Prop := t.pc = .fresh ∨ t.pc = .ended

structure CalmInv (h : List Ev) (s : Dev) : Prop where
  alive : s.exited = false
  rest : ∀ (i : Nat) (t : Thr), s.threads[i]? = some t → i ≠ s.cur → Resting t
  cur : ∃ t, s.threads[s.cur]? = some t ∧ (t.pc = .fresh → t.isMeas = false) ∧
    work20 h = workOf t.pc ∧ s.running = runningOf t.pc ∧ s.queue.length = queuedOf t.pc ∧
    s.unfinished = unfinishedOf t.pc
  tasks : accepted20 h = took20 h ++ s.queue
  points : measured20 h = delivered20 h ++ s.data.getD []

/-- The state after a step of the current thread only. -/
theorem rest_modify {ts : List Thr} {k : Nat} {f : Thr → Thr}
    (hr : ∀ (i : Nat) (t : Thr), ts[i]? = some t → i ≠ k → Resting t) :
    ∀ (i : Nat) (t : Thr), (ts.modify k f)[i]? = some t → i ≠ k → Resting t := by
  intro i t hi hne
  rw [List.getElem?_modify] at hi
  exact hr i t (by simpa [Ne.symm hne] using hi) hne

theorem get_modify {ts : List Thr} {k : Nat} {t : Thr} {f : Thr → Thr} (h : ts[k]? = some t) :
    (ts.modify k f)[k]? = some (f t) := by
  simp [h]

theorem storeData_getD (d r : Option (List Nat)) :
    (storeData d r).getD [] = d.getD [] ++ r.getD [] := by
  cases d <;> cases r <;> simp [storeData]

theorem calm_thread {h : List Ev} {s s' : Dev} {i : Nat} {c : Choice} {es : List Ev}
    (hi : CalmInv h s) (ha : tstep s i c = some (s', es)) :
    CalmInv (h ++ es) s' ∧ (∀ e ∈ es, legal20 (work20 h) e) ∧ es.length ≤ 1 := by
  obtain ⟨h1, h2, ⟨t, ht, h3, h4, h5, h6, h7⟩, h8, h9⟩ := hi
  -- only the current thread can be moving
  have hic : i = s.cur := by
    by_contra hne
    simp only [tstep] at ha
    split at ha
    · cases ha
    · next t' ht' =>
      rcases h2 i t' ht' hne with hp | hp <;> simp [hp] at ha
  subst hic
  obtain ⟨q, u, r, d, l, ts, cur, ex⟩ := s
  simp only at h1 h2 ht h5 h6 h7 h8 h9
  simp only [tstep, ht] at ha
  obtain ⟨im, pc, dr⟩ := t
  simp only at h3 h4 h5 h6 h7 ha
  by_cases hrn : pc = .renew
  · subst hrn
    simp only at ha
    injection ha with ha; injection ha with e1 e2; subst e1; subst e2
    have hlen : (ts.modify cur (fun t => { t with pc := .ended })).length = ts.length := by simp
    refine ⟨⟨h1, ?_, ?_, ?_, ?_⟩, by simp, by simp⟩
    · intro j t' hj hne
      simp only [newThr, goto, setThr] at hj hne
      rw [List.getElem?_append] at hj
      split at hj
      · by_cases hjc : j = cur
        · subst hjc
          rw [get_modify ht] at hj
          injection hj with hj; subst hj
          exact .inr rfl
        · exact rest_modify h2 j t' hj hjc
      · next hlt =>
        rcases hk : j - (ts.modify cur (fun t => { t with pc := .ended })).length with _ | k
        · omega
        · rw [hk] at hj; simp at hj
    · refine ⟨{}, ?_, by simp, ?_, ?_, ?_, ?_⟩
      · simp [newThr, goto, setThr]
      · simpa [workOf] using h4
      · simpa [newThr, goto, setThr, runningOf] using h5
      · simpa [newThr, goto, setThr, queuedOf] using h6
      · simpa [newThr, goto, setThr, unfinishedOf] using h7
    · simpa [newThr, goto, setThr] using h8
    · simpa [newThr, goto, setThr] using h9
  cases pc
  all_goals (try simp only at ha)
  all_goals (try split at ha)
  all_goals (try split at ha)
  all_goals first
    | (cases ha; done)
    | (exact absurd rfl hrn)
    | skip
  all_goals (injection ha with ha; injection ha with e1 e2; subst e1; subst e2)
  all_goals simp only [workOf, runningOf, queuedOf, unfinishedOf] at h4 h5 h6 h7
  all_goals refine ⟨⟨h1, ?_, ?_, ?_, ?_⟩, ?_, by simp⟩
  all_goals (try simp only [goto, setThr])
  all_goals first
    | exact rest_modify h2
    | exact rest_modify (rest_modify h2)
    | (refine ⟨_, get_modify ht, ?_⟩
       simp_all [work20_append, work20Step, workOf, runningOf, queuedOf, unfinishedOf]
       done)
    | (refine ⟨_, get_modify (get_modify ht), ?_⟩
       simp_all [work20_append, work20Step, workOf, runningOf, queuedOf, unfinishedOf]
       done)
    | (refine ⟨_, get_modify ht, ?_⟩
       cases c.over <;>
         simp_all [work20_append, work20Step, workOf, runningOf, queuedOf, unfinishedOf]
       done)
    | (refine ⟨_, get_modify (get_modify ht), ?_⟩
       cases c.over <;>
         simp_all [work20Step, workOf, runningOf, queuedOf, unfinishedOf]
       done)
    | (simp_all [accepted20_append, took20_append]; done)
    | (simp_all [measured20_append, delivered20_append, storeData_getD]; done)
    | (simp_all [legal20]; done)
    | skip

/-- A component at rest with a thread prepared, and what the events say about it. -/
theorem rest_append {ts : List Thr} {t0 : Thr} (hr : ∀ t ∈ ts, Resting t) :
    ∀ (i : Nat) (t : Thr), (ts ++ [t0])[i]? = some t → i ≠ ts.length → Resting t := by
  intro i t hi hne
  rw [List.getElem?_append] at hi
  split at hi
  · exact hr t (List.mem_of_getElem? hi)
  · rcases hk : i - ts.length with _ | k
    · omega
    · rw [hk] at hi; simp at hi

theorem calm_cmd {h : List Ev} {s : Dev} {c : Cmd} (hi : CalmInv h s) (hm : MayAsk s (.cmd c)) :
    CalmInv (h ++ (command s c).2) (command s c).1 ∧
      (∀ e ∈ (command s c).2, ∀ o, legal20 o e) ∧
      (∀ e ∈ (command s c).2, ∀ o, work20Step o e = o) := by
  obtain ⟨h1, h2, ⟨t, ht, h3, h4, h5, h6, h7⟩, h8, h9⟩ := hi
  obtain ⟨q, u, r, d, l, ts, cur, ex⟩ := s
  obtain ⟨im, pc, dr⟩ := t
  simp only at h1 h2 h3 ht h4 h5 h6 h7 h8 h9
  cases c with
  | start x =>
    obtain ⟨_, t', ht', hf⟩ := hm
    simp only [ht] at ht'
    injection ht' with ht'; subst ht'
    simp only at hf; subst hf
    have him := h3 rfl
    subst him
    have hg := get_modify (f := fun t : Thr => { t with doRun := true }) ht
    simp only [workOf, runningOf, queuedOf, unfinishedOf] at h4 h5 h6 h7
    have hq := List.eq_nil_of_length_eq_zero h6
    subst hq
    simp only [command, setThr, startThr, hg]
    refine ⟨⟨h1, rest_modify (rest_modify h2), ⟨_, get_modify hg, ?_⟩, ?_, ?_⟩, ?_, ?_⟩
    · simp [work20_append, work20Step, workOf, runningOf, queuedOf, unfinishedOf, h4, h5, h7]
    · simpa [accepted20_append, took20_append] using h8
    · simpa [measured20_append, delivered20_append] using h9
    · simp [legal20]
    · simp [work20Step]
  | stop =>
    refine ⟨⟨h1, rest_modify h2, ⟨_, get_modify ht, ?_⟩, ?_, ?_⟩, ?_, ?_⟩
    · simp only [command, setThr]
      simpa [work20_append, work20Step] using ⟨h3, h4, h5, h6, h7⟩
    · simpa [command, setThr, accepted20_append, took20_append] using h8
    · simpa [command, setThr, measured20_append, delivered20_append] using h9
    · simp [command, legal20]
    · simp [command, work20Step]
  | data =>
    refine ⟨⟨h1, h2, ⟨_, ht, ?_⟩, ?_, ?_⟩, ?_, ?_⟩
    · simpa [command, work20_append, work20Step] using ⟨h3, h4, h5, h6, h7⟩
    · simpa [command, accepted20_append, took20_append] using h8
    · simpa [command, measured20_append, delivered20_append] using h9
    · simp [command, legal20]
    · simp [command, work20Step]
  | measure =>
    simp only [command]
    split
    · refine ⟨⟨h1, h2, ⟨_, ht, ?_⟩, ?_, ?_⟩, ?_, ?_⟩
      · simpa [work20_append, work20Step] using ⟨h3, h4, h5, h6, h7⟩
      · simpa [accepted20_append, took20_append] using h8
      · simpa [measured20_append, delivered20_append] using h9
      · simp [legal20]
      · simp [work20Step]
    · next hr =>
      have hc : ∀ t ∈ ts, Resting t := hm
      have hp : pc = .fresh := by
        rcases hc _ (List.mem_of_getElem? ht) with hp | hp
        · exact hp
        · exact absurd (h5.trans (by simp only at hp; subst hp; rfl)) hr
      subst hp
      simp only [workOf, runningOf, queuedOf, unfinishedOf] at h4 h5 h6 h7
      have hq := List.eq_nil_of_length_eq_zero h6
      subst hq
      have h0 : (ts ++ [({ isMeas := true } : Thr)])[ts.length]? = some { isMeas := true } := by
        simp
      have hg := get_modify (f := fun t : Thr => { t with doRun := true }) h0
      simp only [newThr, setThr, startThr, hg]
      refine ⟨⟨h1, rest_modify (rest_modify (rest_append hc)), ⟨_, get_modify hg, ?_⟩, ?_, ?_⟩,
        ?_, ?_⟩
      · simp [work20_append, work20Step, workOf, runningOf, queuedOf, unfinishedOf, h4, h5, h7]
      · simpa [accepted20_append, took20_append] using h8
      · simpa [measured20_append, delivered20_append] using h9
      · simp [legal20]
      · simp [work20Step]
  | reset =>
    have hc : ∀ t ∈ ts, Resting t := hm
    have hw : work20 h = none := by
      rcases hc _ (List.mem_of_getElem? ht) with hp | hp <;>
        (simp only at hp; subst hp; exact h4)
    refine ⟨⟨h1, rest_append hc, ⟨{}, by simp [command, newThr], ?_⟩, ?_, ?_⟩, ?_, ?_⟩
    · simp [command, newThr, work20_append, work20Step, workOf, runningOf, queuedOf, unfinishedOf,
        hw]
    · simp [command, accepted20_append, took20_append]
    · simp [command, measured20_append, delivered20_append]
    · simp [command, legal20]
    · simp [command, work20Step]

theorem calm_inv {h : List Ev} {s : Dev} (hh : CalmHist h s) : CalmInv h s := by
  induction hh with
  | init =>
    exact ⟨rfl, fun i t hi hne => absurd (List.mem_of_getElem? hi) (by
      rcases i with _ | i
      · exact absurd rfl hne
      · simp [Dev.init] at hi), ⟨{}, rfl, fun _ => rfl, rfl, rfl, rfl, rfl⟩, rfl, rfl⟩
  | @step h s s' es a _ hm ha ih =>
    simp only [act, ih.alive] at ha
    cases a with
    | thread i c => exact (calm_thread ih ha).1
    | cmd c =>
      injection ha with ha
      have hc := (calm_cmd ih hm).1
      rw [ha] at hc
      exact hc

/-- Going on with legal events. -/
theorem inTurn_append {h es : List Ev} (hh : InTurn h)
    (he : ∀ (a b : List Ev) (e : Ev), es = a ++ e :: b → legal20 (work20 (h ++ a)) e) :
    InTurn (h ++ es) := by
  intro a b e hs
  rcases List.append_eq_append_iff.1 hs with ⟨a', h1, h2⟩ | ⟨c', h1, h2⟩
  · rw [h1]; exact he a' b e h2
  · rcases c' with _ | ⟨x, c'⟩
    · simp only [List.nil_append, List.append_nil] at h1 h2
      have := he [] b e h2.symm
      rw [List.append_nil, h1] at this
      exact this
    · simp only [List.cons_append, List.cons.injEq] at h2
      obtain ⟨h2, _⟩ := h2
      subst h2
      exact hh a c' e h1

theorem foldl_work_same {es : List Ev} (h : ∀ e ∈ es, ∀ o, work20Step o e = o) (o : Option Work20) :
    es.foldl work20Step o = o := by
  induction es with
  | nil => rfl
  | cons e es ih =>
    simp only [List.foldl_cons, h e List.mem_cons_self]
    exact ih (fun e' he' => h e' (List.mem_cons_of_mem _ he'))

theorem calm_inTurn {h : List Ev} {s : Dev} (hh : CalmHist h s) : InTurn h := by
  induction hh with
  | init => intro a b e hs; simp at hs
  | @step h s s' es a hh hm ha ih =>
    have hi := calm_inv hh
    simp only [act, hi.alive] at ha
    apply inTurn_append ih
    intro x y e hs
    cases a with
    | thread i c =>
      obtain ⟨_, hl, hlen⟩ := calm_thread hi ha
      have hx : x = [] := by
        subst hs
        simp only [List.length_append, List.length_cons] at hlen
        exact List.eq_nil_of_length_eq_zero (by omega)
      subst hx
      rw [List.append_nil]
      exact hl e (by simp [hs])
    | cmd c =>
      injection ha with ha
      obtain ⟨_, hl, _⟩ := calm_cmd hi hm
      rw [ha] at hl
      exact hl e (by simp [hs]) _

/-! ## C112 -/

/-- **C112** is violated by interface 2.0: at the end of a task, the component reports to be ready
before it has prepared the thread for the next task.  A task which is started in between ends the
driver process. -/
theorem C112_refuted :
    ∃ h s, Hist h s ∧ h = [.accepted 1, .took 1, .begun 1, .measuredFor 1 [7], .ended 1] ∧
      s.running = false ∧ (act s (.cmd (.start 2))).any (fun p => p.1.exited) = true := by
  have hr : ∃ p, run Dev.init ([.cmd (.start 1)] ++
      tsteps 0 8 { over := true, result := some (some [7]) }) = some p ∧
      p.2 = [.accepted 1, .took 1, .begun 1, .measuredFor 1 [7], .ended 1] ∧
      p.1.running = false ∧ (act p.1 (.cmd (.start 2))).any (fun p => p.1.exited) = true :=
    ⟨_, rfl, rfl, rfl, rfl⟩
  obtain ⟨⟨s, es⟩, hr, he, h1, h2⟩ := hr
  exact ⟨es, s, by simpa using run_hist20 .init hr, he, h1, h2⟩

/-- **C112** is violated by interface 2.0 in another way: the end of a measurement, accepted right
after a task, makes the component report to be ready while it executes the task; it goes on
measuring for it. -/
theorem C112_refuted_in_the_middle :
    ∃ h s s', Hist h s ∧ s.running = false ∧
      h = [.accepted 1, .mAccepted, .mStarted, .took 1, .begun 1, .measuredFor 1 [7], .mEnded] ∧
      run s (tsteps 0 2 { result := some (some [8]) }) = some (s', [.measuredFor 1 [8]]) := by
  have hr : ∃ p q, run Dev.init ([.cmd (.start 1), .cmd .measure] ++ tsteps 1 2 ++
      tsteps 0 6 { result := some (some [7]) } ++ tsteps 1 2) = some p ∧ p.1.running = false ∧
      p.2 = [.accepted 1, .mAccepted, .mStarted, .took 1, .begun 1, .measuredFor 1 [7], .mEnded] ∧
      run p.1 (tsteps 0 2 { result := some (some [8]) }) = some q ∧ q.2 = [.measuredFor 1 [8]] :=
    ⟨_, _, rfl, rfl, rfl, rfl, rfl⟩
  obtain ⟨⟨s, es⟩, ⟨s', es'⟩, hr, h1, h2, h3, h4⟩ := hr
  simp only at h1 h2 h3 h4
  subst h4
  exact ⟨es, s, s', by simpa using run_hist20 .init hr, h1, h2, h3⟩

/-- **C112** for components which are asked for one thing at a time (a task or a measurement only
after the previous one has ended and its thread has prepared the next one; stopping a task and
collecting its data at any time): the component executes one thing at a time, each to its end; the
driver process goes on; it reports to be running whenever it executes something; and whenever no
thread is being executed and it reports to be ready, each task accepted since the last reset has
been taken up, in the order in which they came, nothing is being executed, and the next task is
accepted and is going to be the next one taken up. -/
theorem C112_partial (h : List Ev) (s : Dev) (hh : CalmHist h s) :
    InTurn h ∧ s.exited = false ∧
    (work20 h ≠ none → s.running = true) ∧
    (Calm20 s → s.running = false → accepted20 h = took20 h ∧ work20 h = none ∧
      ∀ x, ∃ s', act s (.cmd (.start x)) = some (s', [.accepted x]) ∧
        CalmHist (h ++ [.accepted x]) s' ∧ s'.queue = [x]) := by
  have hi := calm_inv hh
  refine ⟨calm_inTurn hh, hi.alive, ?_, ?_⟩
  · obtain ⟨t, _, _, h4, h5, _, _⟩ := hi.cur
    intro hw
    rw [h4] at hw
    rw [h5]
    cases hp : t.pc <;> simp_all [workOf, runningOf]
  · intro hc hr
    obtain ⟨t, ht, h3, h4, h5, h6, h7⟩ := hi.cur
    have hp : t.pc = .fresh := by
      rcases hc t (List.mem_of_getElem? ht) with hp | hp
      · exact hp
      · rw [hr, hp] at h5; simp [runningOf] at h5
    have hq : s.queue = [] := by
      rw [hp] at h6; exact List.eq_nil_of_length_eq_zero h6
    refine ⟨by simpa [hq] using hi.tasks, by rw [h4, hp]; rfl, fun x => ?_⟩
    have ha : ∃ s', act s (.cmd (.start x)) = some (s', [.accepted x]) ∧ s'.queue = [x] := by
      obtain ⟨q, u, r, d, l, ts, cur, ex⟩ := s
      have hx := hi.alive
      simp only at hx ht hq
      subst hx; subst hq
      have hg := get_modify (f := fun t : Thr => { t with doRun := true }) ht
      simp [act, command, setThr, startThr, hg, hp]
    obtain ⟨s', ha, hs'⟩ := ha
    exact ⟨s', ha, .step (.cmd (.start x)) hh ⟨hc, t, ht, hp⟩ ha, hs'⟩

/-- No data point of a task is lost and none is handed out twice, if one thing is asked at a time:
what has been measured since the task began is what has been handed out since, followed by what is
still in the cache. -/
theorem C112_data_partial (h : List Ev) (s : Dev) (hh : CalmHist h s) :
    measured20 h = delivered20 h ++ s.data.getD [] ∧
    ∃ s', act s (.cmd .data) = some (s', [.delivered s.data]) ∧
      measured20 (h ++ [.delivered s.data]) = delivered20 (h ++ [.delivered s.data]) := by
  have hi := calm_inv hh
  refine ⟨hi.points, { s with data := none }, by simp [act, hi.alive, command], ?_⟩
  simp [measured20_append, delivered20_append, hi.points]

/-- In all histories, whatever is asked and when, tasks are taken up in the order in which they came,
each of them once: what has been accepted since the last reset is what has been taken up since,
followed by the queue. -/
theorem C112_in_order (h : List Ev) (s : Dev) (hh : Hist h s) :
    accepted20 h = took20 h ++ s.queue := by
  induction hh with
  | init => rfl
  | @step h s s' es a _ ha ih =>
    simp only [act] at ha
    split at ha
    · cases ha
    cases a with
    | thread i c =>
      simp only [tstep] at ha
      split at ha
      · cases ha
      · split at ha
        all_goals (try split at ha)
        all_goals (try split at ha)
        all_goals first
          | (cases ha; done)
          | (injection ha with ha; injection ha with e1 e2; subst e1; subst e2
             simp_all [accepted20_append, took20_append, goto, setThr, newThr]
             done)
    | cmd c =>
      injection ha with ha
      cases c with
      | start x =>
        simp only [command, startThr] at ha
        split at ha
        · split at ha
          all_goals
            injection ha with e1 e2; subst e1; subst e2
            simp [accepted20_append, took20_append, setThr, ih]
        · injection ha with e1 e2; subst e1; subst e2
          simp [accepted20_append, took20_append, setThr, ih]
      | stop =>
        injection ha with e1 e2; subst e1; subst e2
        simp [accepted20_append, took20_append, setThr, ih]
      | data =>
        injection ha with e1 e2; subst e1; subst e2
        simp [accepted20_append, took20_append, ih]
      | measure =>
        simp only [command, startThr] at ha
        split at ha
        · injection ha with e1 e2; subst e1; subst e2
          simp [accepted20_append, took20_append, ih]
        · split at ha
          · split at ha
            all_goals
              injection ha with e1 e2; subst e1; subst e2
              simp [accepted20_append, took20_append, setThr, newThr, ih]
          · injection ha with e1 e2; subst e1; subst e2
            simp [accepted20_append, took20_append, setThr, newThr, ih]
      | reset =>
        injection ha with e1 e2; subst e1; subst e2
        simp [accepted20_append, took20_append, newThr]

/-- A reset makes a component ready in each state (for example after a measurement which has raised an
exception): the component reports to be ready, the next task is accepted, the next task taken up
by the new thread is that one, and it starts without data. -/
theorem C112_reset (h : List Ev) (s : Dev) (_ : Hist h s) (he : s.exited = false) (x : Nat) :
    ∃ s₁ s₂, act s (.cmd .reset) = some (s₁, [.wasReset]) ∧ s₁.running = false ∧
      run s₁ (.cmd (.start x) :: tsteps s.threads.length 2) = some (s₂, [.accepted x, .took x]) ∧
      s₂.data = none ∧ s₂.running = true ∧ s₂.exited = false := by
  obtain ⟨q, u, r, d, l, ts, cur, ex⟩ := s
  simp only at he
  subst he
  simp [act, command, newThr, run, tsteps, startThr, setThr, tstep, goto, List.getElem?_modify,
    List.getElem?_append, List.replicate]

/-- A measurement has raised an exception: the component reports to be running forever, and a task
would end the driver process; a reset helps. -/
example : ∃ p, run Dev.init ([.cmd .measure] ++ tsteps 1 2 ++ [.thread 1 { result := none }]) = some p ∧
    p.1.running = true ∧ p.1.exited = false ∧ p.1.threads.all (fun t => t.pc = .fresh ∨ t.pc = .ended) ∧
    (act p.1 (.cmd (.start 1))).any (fun q => q.1.exited) = true :=
  ⟨_, rfl, rfl, rfl, (by decide), rfl⟩

/-- The number of steps a thread has left, once the duration of its task is over. -/
def leftOf : TPc → Nat
  | .setRun => 9 | .get => 8 | .prep _ => 7 | .clear _ => 6 | .loop _ => 5 | .turn _ => 4
  | .done _ => 3 | .unsetRun _ => 2 | .renew => 1
  | .mSetRun => 5 | .mBegin => 4 | .mMeas => 3 | .mUnset => 2
  | .fresh | .ended => 0

theorem left_pos {t : Thr} : 0 < leftOf t.pc ↔ ¬ Resting t := by
  obtain ⟨_, pc, _⟩ := t
  cases pc <;> simp [leftOf, Resting]

/-- A step of the thread, with the duration of the task over. -/
theorem calm_moves {h : List Ev} {s : Dev} {t : Thr} {c : Choice} (hi : CalmInv h s)
    (ht : s.threads[s.cur]? = some t) (hr : ¬ Resting t) (ho : c.over = true) :
    ∃ s' es, act s (.thread s.cur c) = some (s', es) ∧
      ((∃ t', s'.cur = s.cur ∧ s'.threads[s'.cur]? = some t' ∧ leftOf t'.pc < leftOf t.pc ∧
          (c.result ≠ none → t'.pc ≠ .ended)) ∨
        (∃ t', s'.threads[s'.cur]? = some t' ∧ t'.pc = .fresh)) := by
  obtain ⟨h1, _, ⟨t0, ht0, h3, h4, h5, h6, h7⟩, _, _⟩ := hi
  rw [ht] at ht0
  injection ht0 with ht0; subst ht0
  obtain ⟨q, u, r, d, l, ts, cur, ex⟩ := s
  obtain ⟨im, pc, dr⟩ := t
  simp only at h1 ht h3 h4 h5 h6 h7
  subst h1
  by_cases hrn : pc = .renew
  · subst hrn
    exact ⟨_, _, by simp only [act, tstep, ht]; rfl,
      .inr ⟨{}, by simp [newThr, goto, setThr], rfl⟩⟩
  cases pc
  all_goals simp only [queuedOf, unfinishedOf] at h6 h7
  all_goals first
    | exact absurd rfl hrn
    | exact absurd (.inl rfl) hr
    | exact absurd (.inr rfl) hr
    | skip
  all_goals simp only [act, tstep, ht, ho, goto, setThr]
  all_goals first
    | exact ⟨_, _, rfl, .inl ⟨_, rfl, get_modify ht, by simp [leftOf], by simp⟩⟩
    | skip
  case get =>
    rcases q with _ | ⟨x, q⟩
    · simp at h6
    · exact ⟨_, _, rfl, .inl ⟨_, rfl, get_modify ht, by simp [leftOf], by simp⟩⟩
  case prep x =>
    cases c.result
    · exact ⟨_, _, rfl, .inl ⟨_, rfl, get_modify (get_modify ht), by simp [leftOf], by simp⟩⟩
    · exact ⟨_, _, rfl, .inl ⟨_, rfl, get_modify ht, by simp [leftOf], by simp⟩⟩
  case loop x =>
    cases dr
    · exact ⟨_, _, rfl, .inl ⟨_, rfl, get_modify ht, by simp [leftOf], by simp⟩⟩
    · exact ⟨_, _, rfl, .inl ⟨_, rfl, get_modify ht, by simp [leftOf], by simp⟩⟩
  case turn x =>
    cases c.sample
    · exact ⟨_, _, rfl, .inl ⟨_, rfl, get_modify ht, by simp [leftOf], by simp⟩⟩
    · cases c.result
      · exact ⟨_, _, rfl, .inl ⟨_, rfl, get_modify (get_modify ht), by simp [leftOf], by simp⟩⟩
      · exact ⟨_, _, rfl, .inl ⟨_, rfl, get_modify ht, by simp [leftOf], by simp⟩⟩
  case done x =>
    subst h7
    exact ⟨_, _, rfl, .inl ⟨_, rfl, get_modify ht, by simp [leftOf], by simp⟩⟩
  case mMeas =>
    cases c.result
    · exact ⟨_, _, rfl, .inl ⟨_, rfl, get_modify ht, by simp [leftOf], by simp⟩⟩
    · exact ⟨_, _, rfl, .inl ⟨_, rfl, get_modify ht, by simp [leftOf], by simp⟩⟩

/-- The component gets ready again, if one thing is asked at a time: whatever the devices answer,
once the duration of the task is over, at most ten steps of the thread are left; then no thread is
being executed, and unless a measurement has raised an exception, the component reports to be
ready. -/
theorem C112_ready_again_partial (h : List Ev) (s : Dev) (hh : CalmHist h s) (hc : ¬ Calm20 s)
    (cs : Nat → Choice) (ho : ∀ n, (cs n).over = true) :
    ∃ n s' es, n ≤ 10 ∧
      run s ((List.range n).map (fun k => .thread s.cur (cs k))) = some (s', es) ∧
      CalmHist (h ++ es) s' ∧ Calm20 s' ∧
      ((∀ k, (cs k).result ≠ none) → s'.running = false) := by
  obtain ⟨t, ht, -⟩ := (calm_inv hh).cur
  have hr : ¬ Resting t := by
    intro hr
    refine hc (fun t' ht' => ?_)
    obtain ⟨i, hi⟩ := List.mem_iff_getElem?.1 ht'
    by_cases hic : i = s.cur
    · subst hic; rw [ht] at hi; injection hi with hi; subst hi; exact hr
    · exact (calm_inv hh).rest i t' hi hic
  suffices H : ∀ (m : Nat) (h : List Ev) (s : Dev) (t : Thr) (cs : Nat → Choice),
      (∀ n, (cs n).over = true) → CalmHist h s → s.threads[s.cur]? = some t → ¬ Resting t →
      leftOf t.pc ≤ m → ∃ n s' es, n ≤ m ∧
      run s ((List.range n).map (fun k => .thread s.cur (cs k))) = some (s', es) ∧
      CalmHist (h ++ es) s' ∧ Calm20 s' ∧
      ((∀ k, (cs k).result ≠ none) → s'.running = false) from by
    refine H 10 h s t cs ho hh ht hr ?_
    cases t.pc <;> simp [leftOf]
  clear hc ho hh ht hr h s t cs
  intro m
  induction m with
  | zero =>
    intro h s t cs ho hh ht hr hm
    exact absurd (left_pos.2 hr) (by omega)
  | succ m ih =>
    intro h s t cs ho hh ht hr hm
    obtain ⟨s₁, es₁, ha, hcase⟩ := calm_moves (calm_inv hh) ht hr (ho 0)
    have hh₁ := CalmHist.step (.thread s.cur (cs 0)) hh trivial ha
    have hinv := calm_inv hh₁
    have rest : ∀ t', s₁.threads[s₁.cur]? = some t' → Resting t' → Calm20 s₁ := by
      intro t' ht' hrt x hx
      obtain ⟨i, hi⟩ := List.mem_iff_getElem?.1 hx
      by_cases hic : i = s₁.cur
      · subst hic; rw [ht'] at hi; injection hi with hi; subst hi; exact hrt
      · exact hinv.rest i x hi hic
    have fresh : ∀ t', s₁.threads[s₁.cur]? = some t' → t'.pc = .fresh → s₁.running = false := by
      intro t' ht' hf
      obtain ⟨t0, ht0, _, _, h5, _⟩ := hinv.cur
      rw [ht'] at ht0; injection ht0 with ht0; subst ht0
      rw [h5, hf]; rfl
    have one : run s ((List.range 1).map (fun k => .thread s.cur (cs k))) = some (s₁, es₁) := by
      simp [List.range_succ, run, ha]
    rcases hcase with ⟨t', hcur, ht', hlt, hne⟩ | ⟨t', ht', hf⟩
    · by_cases hrt : Resting t'
      · refine ⟨1, s₁, es₁, by omega, one, hh₁, rest t' ht' hrt, fun hok => ?_⟩
        rcases hrt with hf | hf
        · exact fresh t' ht' hf
        · exact absurd hf (hne (hok 0))
      · obtain ⟨n, s₂, es₂, hn, hrun, hh₂, hc₂, hok₂⟩ :=
          ih _ s₁ t' (fun k => cs (k + 1)) (fun k => ho (k + 1)) hh₁ ht' hrt (by omega)
        refine ⟨n + 1, s₂, es₁ ++ es₂, by omega, ?_, by rw [← List.append_assoc]; exact hh₂, hc₂,
          fun hok => hok₂ (fun k => hok (k + 1))⟩
        rw [List.range_succ_eq_map, List.map_cons, List.map_map]
        rw [hcur] at hrun
        simp only [run, ha, Function.comp_def]
        simp only [Nat.succ_eq_add_one]
        rw [hrun]
    · exact ⟨1, s₁, es₁, by omega, one, hh₁, rest t' ht' (.inl hf), fun _ => fresh t' ht' hf⟩

/-- `MayAsk`, computed. -/
def mayAsk (s : Dev) : Act → Bool
  | .cmd (.start _) => s.threads.all (fun t => t.pc = .fresh ∨ t.pc = .ended) &&
      (s.threads[s.cur]?).any (fun t => t.pc = .fresh)
  | .cmd .measure => s.threads.all (fun t => t.pc = .fresh ∨ t.pc = .ended)
  | .cmd .reset => s.threads.all (fun t => t.pc = .fresh ∨ t.pc = .ended)
  | _ => true

theorem mayAsk_spec {s : Dev} {a : Act} (hok : mayAsk s a = true) : MayAsk s a := by
  cases a with
  | thread i c => trivial
  | cmd c =>
    cases c with
    | start x =>
      simp only [mayAsk, Bool.and_eq_true, List.all_eq_true, decide_eq_true_eq,
        Option.any_eq_true] at hok
      obtain ⟨h1, t, ht, h2⟩ := hok
      exact ⟨h1, t, ht, h2⟩
    | measure => simpa [mayAsk, MayAsk, Calm20] using hok
    | reset => simpa [mayAsk, MayAsk, Calm20] using hok
    | stop => trivial
    | data => trivial

/-- A run in which one thing is asked at a time. -/
def calmRun (s : Dev) (h : List Ev) : List Act → Option (Dev × List Ev)
  | [] => some (s, h)
  | a :: as =>
    if mayAsk s a then
      match act s a with
      | some (s', es) => calmRun s' (h ++ es) as
      | none => none
    else none

theorem calmRun_hist {as : List Act} {s s' : Dev} {h h' : List Ev} (hh : CalmHist h s)
    (hr : calmRun s h as = some (s', h')) : CalmHist h' s' := by
  induction as generalizing s h with
  | nil => cases hr; exact hh
  | cons a as ih =>
    simp only [calmRun] at hr
    split at hr
    · next hok =>
      split at hr
      · next ha => exact ih (.step a hh (mayAsk_spec hok) ha) hr
      · cases hr
    · cases hr

/-- A task whose data are collected while it is being executed, a measurement, and another task, which
is stopped (without effect) in the middle. -/
example : ∃ h s, CalmHist h s ∧ h = [.accepted 1, .took 1, .begun 1, .measuredFor 1 [7],
      .delivered (some [7]), .measuredFor 1 [8], .ended 1, .mAccepted, .mStarted, .mEnded,
      .accepted 2, .took 2, .begun 2, .stopped, .delivered none, .measuredFor 2 [9]] ∧
    s.running = true ∧ s.data = some [9] ∧ ¬ Calm20 s := by
  have hr : ∃ p, calmRun Dev.init [] ([.cmd (.start 1)] ++
      tsteps 0 6 { result := some (some [7]) } ++ [.cmd .data] ++
      tsteps 0 5 { over := true, result := some (some [8]) } ++ [.cmd .measure] ++ tsteps 2 5 ++
      [.cmd (.start 2)] ++ tsteps 3 5 ++ [.cmd .stop] ++
      tsteps 3 1 { result := some (some [9]) }) = some p ∧
      p.2 = [.accepted 1, .took 1, .begun 1, .measuredFor 1 [7],
      .delivered (some [7]), .measuredFor 1 [8], .ended 1, .mAccepted, .mStarted, .mEnded,
      .accepted 2, .took 2, .begun 2, .stopped, .delivered none, .measuredFor 2 [9]] ∧
      p.1.running = true ∧ p.1.data = some [9] ∧
      p.1.threads.any (fun t => t.pc = .loop 2) = true := ⟨_, rfl, rfl, rfl, rfl, rfl⟩
  obtain ⟨⟨s, h⟩, hr, h1, h2, h3, h4⟩ := hr
  refine ⟨h, s, calmRun_hist .init hr, h1, h2, h3, fun hc => ?_⟩
  simp only [List.any_eq_true, decide_eq_true_eq] at h4
  obtain ⟨t, ht, hp⟩ := h4
  rcases hc t ht with h | h <;> rw [hp] at h <;> cases h

end Tomato.Props
