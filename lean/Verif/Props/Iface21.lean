import Verif.Iface21

/-!
# Properties of a component, interface 2.1 (C51 to C54)

The specifications below talk about histories (lists of events) only.
-/

namespace Tomato.Props
open Tomato.I21

/-! ## Specification -/

/-- One event, for `acceptedSince`. -/
def accStep (l : List Nat) : Ev → List Nat
  | .accepted t => l ++ [t]
  | .wasReset => []
  | _ => l

/-- The tasks accepted since the last reset. -/
def acceptedSince (h : List Ev) : List Nat := h.foldl accStep []

/-- One event, for `tookSince`. -/
def tookStep (l : List Nat) : Ev → List Nat
  | .took t => l ++ [t]
  | .wasReset => []
  | _ => l

/-- The tasks taken up by the worker since the last reset. -/
def tookSince (h : List Ev) : List Nat := h.foldl tookStep []

/-- One event, for `measuredSince`. -/
def measStep (l : List Nat) : Ev → List Nat
  | .measured _ ps => l ++ ps
  | .begun _ => []
  | .wasReset => []
  | _ => l

/-- The data points measured for tasks since the last task began or the last reset. -/
def measuredSince (h : List Ev) : List Nat := h.foldl measStep []

/-- One event, for `fetchedSince`. -/
def fetchStep (l : List Nat) : Ev → List Nat
  | .fetched ps => l ++ ps.getD []
  | .begun _ => []
  | .wasReset => []
  | _ => l

/-- The data points handed out since the last task began or the last reset. -/
def fetchedSince (h : List Ev) : List Nat := h.foldl fetchStep []

/-- One event, for `lastFetched`. -/
def lastStep (l : Option (Option (List Nat))) : Ev → Option (Option (List Nat))
  | .fetched ps => some ps
  | _ => l

/-- The last data handed out. -/
def lastFetched (h : List Ev) : Option (Option (List Nat)) := h.foldl lastStep none

/-- One event, for `occupied`. -/
def occStep (o : Option Item) : Ev → Option Item
  | .took t => some (.task t)
  | .mStarted => some .measure
  | .ended _ => none
  | .mEnded => none
  | _ => o

/-- What the worker is occupied with: from taking a task to ending it; from starting a
measurement to ending it. -/
def occupied (h : List Ev) : Option Item := h.foldl occStep none

/-- One event, for `begunNow`. -/
def begStep (o : Option Nat) : Ev → Option Nat
  | .begun t => some t
  | .ended _ => none
  | _ => o

/-- The task which has begun and not ended. -/
def begunNow (h : List Ev) : Option Nat := h.foldl begStep none

/-- The tasks in a queue. -/
def tasksOf : List Item → List Nat :=
  List.filterMap (fun x => match x with | .task t => some t | .measure => none)

/-! ## Invariant -/

/-- What the worker is occupied with, by its position. -/
def wItem : WPc → Option Item
  | .got (.task t) | .noTask (.task t) | .prep t | .prepped t | .clear t | .loop1 t | .loop2 t
  | .turn t | .lock t | .meas t | .store t | .unlock t | .dur t | .over t | .done t =>
    some (.task t)
  | .oneShot => some .measure
  | _ => none

/-- The task which has begun and not ended, by the position of the worker. -/
def wBegun : WPc → Option Nat
  | .loop1 t | .loop2 t | .turn t | .lock t | .meas t | .store t | .unlock t | .dur t | .over t
  | .done t => some t
  | _ => none

/-- The worker holds the lock. -/
def wHolds : WPc → Bool
  | .meas _ | .store _ | .unlock _ => true
  | _ => false

/-- The command thread holds the lock. -/
def cHolds : CPc → Bool
  | .gRead | .gClear _ | .gRet _ => true
  | _ => false

/-- Data points just measured, about to be stored. -/
def beingStored (s : Dev) : List Nat :=
  match s.wpc with
  | .store _ => s.last.getD []
  | _ => []

/-- Data points in the cache which have not been handed out. -/
def inCache (s : Dev) : List Nat :=
  match s.cpc with
  | .gClear _ => []
  | _ => s.data.getD []

/-- The data which `get_data` has read and will return. -/
def handedOut : CPc → Option (Option (List Nat))
  | .gClear r | .gRet r => some r
  | _ => none

/-- The value of `running`, by the position of the worker. -/
def wRunning : WPc → Option Item
  | .top | .get | .got _ | .dead => none
  | .noTask x => some x
  | .prep t | .prepped t | .clear t | .loop1 t | .loop2 t
  | .turn t | .lock t | .meas t | .store t | .unlock t | .dur t | .over t | .done t =>
    some (.task t)
  | .oneShot | .oneDone => some .measure
  | .fin | .failed | .exit => none

/-- Positions of the worker where `running` is not determined by the position. -/
def wLeaving : WPc → Bool
  | .fin | .failed | .exit => true
  | _ => false

structure Inv (h : List Ev) (s : Dev) : Prop where
  tasks : acceptedSince h = tookSince h ++ tasksOf s.queue
  item : occupied h = wItem s.wpc
  beg : begunNow h = wBegun s.wpc
  wlock : s.lock = some .worker ↔ wHolds s.wpc = true
  clock : s.lock = some .cmd ↔ cHolds s.cpc = true
  points : measuredSince h = fetchedSince h ++ inCache s ++ beingStored s
  ret : ∀ r, handedOut s.cpc = some r → lastFetched h = some r
  run : wLeaving s.wpc = false → s.running = wRunning s.wpc

theorem acceptedSince_append (h es : List Ev) :
    acceptedSince (h ++ es) = es.foldl accStep (acceptedSince h) := List.foldl_append
theorem tookSince_append (h es : List Ev) :
    tookSince (h ++ es) = es.foldl tookStep (tookSince h) := List.foldl_append
theorem measuredSince_append (h es : List Ev) :
    measuredSince (h ++ es) = es.foldl measStep (measuredSince h) := List.foldl_append
theorem fetchedSince_append (h es : List Ev) :
    fetchedSince (h ++ es) = es.foldl fetchStep (fetchedSince h) := List.foldl_append
theorem lastFetched_append (h es : List Ev) :
    lastFetched (h ++ es) = es.foldl lastStep (lastFetched h) := List.foldl_append
theorem occupied_append (h es : List Ev) :
    occupied (h ++ es) = es.foldl occStep (occupied h) := List.foldl_append

theorem begunNow_append (h es : List Ev) :
    begunNow (h ++ es) = es.foldl begStep (begunNow h) := List.foldl_append

theorem inv_wstep {h : List Ev} {s s' : Dev} {c : Choice} {es : List Ev} (hi : Inv h s)
    (ha : wstep s c = some (s', es)) : Inv (h ++ es) s' := by
  obtain ⟨h1, h2, h8, h3, h4, h5, h6, h7⟩ := hi
  obtain ⟨q, r, dr, dt, d, l, lk, w, cp⟩ := s
  simp only at h1 h2 h8 h3 h4 h5 h6 h7
  unfold wstep at ha
  simp only at ha
  split at ha
  all_goals (try split at ha)
  all_goals first
    | (cases ha; done)
    | skip
  all_goals (injection ha with ha; injection ha with ha1 ha2; subst ha1; subst ha2)
  all_goals constructor
  all_goals
    simp_all [acceptedSince_append, tookSince_append, measuredSince_append, fetchedSince_append,
      lastFetched_append, occupied_append, begunNow_append, begStep, wBegun, accStep, tookStep, measStep, fetchStep, lastStep,
      occStep, wItem, wHolds, inCache, beingStored, tasksOf, wRunning, wLeaving, storeData]
  · rename_i x
    cases x <;> rfl
  · cases cp <;> rfl
  · cases cp <;> simp_all [cHolds] <;> cases d <;> cases l <;> simp

theorem inv_cbegin {h : List Ev} {s : Dev} (c : Cmd) (hi : Inv h s) (hc : s.cpc = .idle) :
    Inv (h ++ (cbegin s c).2) (cbegin s c).1 := by
  obtain ⟨h1, h2, h8, h3, h4, h5, h6, h7⟩ := hi
  obtain ⟨q, r, dr, dt, d, l, lk, w, cp⟩ := s
  simp only at h1 h2 h8 h3 h4 h5 h6 h7 hc
  subst hc
  cases c <;> simp only [cbegin]
  all_goals (try split)
  all_goals constructor
  all_goals
    simp_all [acceptedSince_append, tookSince_append, measuredSince_append, fetchedSince_append,
      lastFetched_append, occupied_append, begunNow_append, begStep, wBegun, accStep, tookStep, measStep, fetchStep, lastStep,
      occStep, wItem, wHolds, cHolds, inCache, beingStored, tasksOf, handedOut]

theorem inv_cstep {h : List Ev} {s s' : Dev} {es : List Ev} (hi : Inv h s)
    (ha : cstep s = some (s', es)) : Inv (h ++ es) s' := by
  obtain ⟨h1, h2, h8, h3, h4, h5, h6, h7⟩ := hi
  obtain ⟨q, r, dr, dt, d, l, lk, w, cp⟩ := s
  simp only at h1 h2 h8 h3 h4 h5 h6 h7
  unfold cstep at ha
  simp only at ha
  split at ha
  all_goals (try split at ha)
  all_goals first
    | (cases ha; done)
    | skip
  all_goals (injection ha with ha; injection ha with ha1 ha2; subst ha1; subst ha2)
  all_goals constructor
  all_goals
    simp_all [acceptedSince_append, tookSince_append, measuredSince_append, fetchedSince_append,
      lastFetched_append, occupied_append, begunNow_append, begStep, wBegun, accStep, tookStep, measStep, fetchStep, lastStep,
      occStep, wItem, wHolds, cHolds, inCache, beingStored, tasksOf, handedOut, afterReset,
      wRunning, wLeaving]

theorem inv_act {h : List Ev} {s s' : Dev} {a : Act} {es : List Ev} (hi : Inv h s)
    (ha : act s a = some (s', es)) : Inv (h ++ es) s' := by
  cases a with
  | worker c => exact inv_wstep hi ha
  | cmd c =>
    simp only [act] at ha
    split at ha
    · next hc =>
      injection ha with ha
      have := inv_cbegin c hi hc
      rw [ha] at this
      exact this
    · cases ha
  | cont => exact inv_cstep hi ha

theorem inv_hist {h : List Ev} {s : Dev} (hh : Hist h s) : Inv h s := by
  induction hh with
  | init =>
    constructor <;>
      simp [acceptedSince, tookSince, measuredSince, fetchedSince, lastFetched, occupied, Dev.init,
        begunNow, wBegun, wItem, wHolds, cHolds, inCache, beingStored, tasksOf, handedOut, wRunning]
  | step a _ ha ih => exact inv_act ih ha

/-! ## Order of events -/

/-- Whether an event can happen, given what the worker is occupied with. -/
def Legal1 (o : Option Item) : Ev → Prop
  | .took _ => o = none
  | .mStarted => o = none
  | .ended t => o = some (.task t)
  | .mEnded => o = some .measure
  | .measuring t => o = some (.task t)
  | .measured t _ => o = some (.task t)
  | .prepared t => o = some (.task t)
  | .begun t => o = some (.task t)
  | _ => True

def Legal (o : Option Item) : List Ev → Prop
  | [] => True
  | e :: es => Legal1 o e ∧ Legal (occStep o e) es

theorem legal_append {o : Option Item} {a b : List Ev} :
    Legal o (a ++ b) ↔ Legal o a ∧ Legal (a.foldl occStep o) b := by
  induction a generalizing o with
  | nil => simp [Legal]
  | cons e a ih => simp [Legal, ih, and_assoc]

theorem legal_act {h : List Ev} {s s' : Dev} {a : Act} {es : List Ev} (hi : Inv h s)
    (ha : act s a = some (s', es)) : Legal (occupied h) es := by
  have h2 := hi.item
  obtain ⟨q, r, dr, dt, d, l, lk, w, cp⟩ := s
  simp only at h2
  cases a with
  | worker c =>
    simp only [act, wstep] at ha
    split at ha
    all_goals (try split at ha)
    all_goals first
      | (cases ha; done)
      | skip
    all_goals (injection ha with ha; injection ha with ha1 ha2; subst ha1; subst ha2)
    all_goals simp_all [Legal, Legal1, wItem, occStep]
  | cmd c =>
    simp only [act] at ha
    split at ha
    · injection ha with ha
      cases c <;> simp only [cbegin] at ha
      all_goals (try split at ha)
      all_goals (injection ha with ha1 ha2; subst ha1; subst ha2)
      all_goals simp_all [Legal, Legal1, wItem, occStep]
    · cases ha
  | cont =>
    simp only [act, cstep] at ha
    split at ha
    all_goals (try split at ha)
    all_goals first
      | (cases ha; done)
      | skip
    all_goals (injection ha with ha; injection ha with ha1 ha2; subst ha1; subst ha2)
    all_goals simp_all [Legal, Legal1, wItem, occStep]

theorem legal_hist {h : List Ev} {s : Dev} (hh : Hist h s) : Legal none h := by
  induction hh with
  | init => trivial
  | step a hh ha ih => exact legal_append.mpr ⟨ih, legal_act (inv_hist hh) ha⟩

/-- As long as the task has not ended, the worker stays occupied with it. -/
theorem stays_task {t : Nat} {b : List Ev} (hl : Legal (some (.task t)) b) (hn : .ended t ∉ b) :
    b.foldl occStep (some (.task t)) = some (.task t) := by
  induction b with
  | nil => rfl
  | cons e b ih =>
    obtain ⟨h1, h2⟩ := hl
    have he : occStep (some (.task t)) e = some (.task t) := by
      cases e <;> simp_all [Legal1, occStep]
    rw [he] at h2
    simp only [List.foldl_cons, he]
    exact ih h2 (fun h => hn (by simp [h]))

theorem stays_measure {b : List Ev} (hl : Legal (some .measure) b) (hn : .mEnded ∉ b) :
    b.foldl occStep (some .measure) = some .measure := by
  induction b with
  | nil => rfl
  | cons e b ih =>
    obtain ⟨h1, h2⟩ := hl
    have he : occStep (some .measure) e = some .measure := by
      cases e <;> simp_all [Legal1, occStep]
    rw [he] at h2
    simp only [List.foldl_cons, he]
    exact ih h2 (fun h => hn (by simp [h]))

/-! ## C51 -/

/-- **C51** (queue): since the last reset, the tasks taken up by the worker are exactly the first
ones of those accepted, in this order, each once; the others are still queued. -/
theorem C51_fifo {h : List Ev} {s : Dev} (hh : Hist h s) :
    acceptedSince h = tookSince h ++ tasksOf s.queue := (inv_hist hh).tasks

/-- **C51** (one at a time): between taking up a task and taking up another one, the first one has
ended; the same for a task and a one-shot measurement, in both orders. -/
theorem C51_one_at_a_time {h : List Ev} {s : Dev} (hh : Hist h s) (a b c : List Ev) (t : Nat) :
    (∀ u, h = a ++ .took t :: b ++ .took u :: c → .ended t ∈ b) ∧
    (h = a ++ .took t :: b ++ .mStarted :: c → .ended t ∈ b) ∧
    (h = a ++ .mStarted :: b ++ .took t :: c → .mEnded ∈ b) := by
  have hl := legal_hist hh
  refine ⟨fun u e => ?_, fun e => ?_, fun e => ?_⟩
  all_goals
    subst e
    rw [List.append_assoc, List.cons_append] at hl
    have hl := (legal_append.mp hl).2
    obtain ⟨_, hl⟩ := hl
    have ⟨hb, hc, _⟩ := legal_append.mp hl
    false_or_by_contra
    next hn =>
    first
      | rw [show occStep _ (.took t) = some (.task t) from rfl] at hb hc
        rw [stays_task hb hn] at hc
        cases hc
      | rw [show occStep _ .mStarted = some .measure from rfl] at hb hc
        rw [stays_measure hb hn] at hc
        cases hc

/-- **C51** (execution): every measurement belongs to the task taken up last, which has not ended. -/
theorem C51_measures_current {h : List Ev} {s : Dev} (hh : Hist h s) (a c : List Ev) (t : Nat)
    (e : h = a ++ .measuring t :: c) :
    ∃ a₁ a₂, a = a₁ ++ .took t :: a₂ ∧ .ended t ∉ a₂ ∧ ∀ u, .took u ∉ a₂ := by
  have hl := legal_hist hh
  subst e
  have ⟨_, hc⟩ := legal_append.mp hl
  have ho : a.foldl occStep none = some (.task t) := hc.1
  clear hl hc hh
  have aux : ∀ (r : List Ev), (r.reverse).foldl occStep none = some (.task t) →
      ∃ a₁ a₂, r.reverse = a₁ ++ .took t :: a₂ ∧ .ended t ∉ a₂ ∧ ∀ u, .took u ∉ a₂ := by
    intro r
    induction r with
    | nil => intro h; cases h
    | cons e r ih =>
      intro h
      rw [List.reverse_cons, List.foldl_append] at h
      simp only [List.foldl_cons, List.foldl_nil] at h
      by_cases hk : ∃ u, e = .took u
      · obtain ⟨u, rfl⟩ := hk
        simp only [occStep, Option.some.injEq, Item.task.injEq] at h
        subst h
        exact ⟨r.reverse, [], by simp, by simp, by simp⟩
      · have hne : r.reverse.foldl occStep none = some (.task t) ∧ e ≠ .ended t := by
          cases e <;> simp_all [occStep]
        obtain ⟨a₁, a₂, h1, h2, h3⟩ := ih hne.1
        refine ⟨a₁, a₂ ++ [e], by simp [h1], ?_, ?_⟩
        · simp only [List.mem_append, List.mem_singleton, not_or]
          exact ⟨h2, fun h => hne.2 h.symm⟩
        · intro u
          simp only [List.mem_append, List.mem_singleton, not_or]
          exact ⟨h3 u, fun h => hk ⟨u, h.symm⟩⟩
  have := aux a.reverse (by simpa using ho)
  simpa using this

/-- The threads never block each other for good: a worker which has not ended can do a step, or it
waits for the lock and the command thread can do a step. -/
theorem C51_no_deadlock {h : List Ev} {s : Dev} (hh : Hist h s) (c : Choice)
    (hw : s.wpc ≠ .dead) : (wstep s c).isSome ∨ (cstep s).isSome := by
  have hi := inv_hist hh
  have h3 := hi.wlock
  have h4 := hi.clock
  obtain ⟨q, r, dr, dt, d, l, lk, w, cp⟩ := s
  simp only at hw h3 h4
  by_cases hlk : ∃ t, w = .lock t
  · obtain ⟨t, rfl⟩ := hlk
    simp only [wHolds, Bool.false_eq_true, iff_false] at h3
    cases lk with
    | none => left; simp [wstep]
    | some x =>
      cases x with
      | worker => exact absurd rfl h3
      | cmd =>
        right
        have := h4.mp rfl
        cases cp <;> simp_all [cHolds, cstep]
  · left
    unfold wstep
    cases w <;> simp_all
    all_goals (try split)
    all_goals (try rfl)
    all_goals (try split)
    all_goals (try rfl)
    all_goals (try split)
    all_goals first | rfl | simp_all

/-! ### Examples of runs -/

theorem run_hist {h es : List Ev} {s s' : Dev} {as : List Act} (hh : Hist h s)
    (hr : run s as = some (s', es)) : Hist (h ++ es) s' := by
  induction as generalizing h es s with
  | nil => cases hr; simpa using hh
  | cons a as ih =>
    simp only [run] at hr
    split at hr
    · cases hr
    · next s₁ es₁ ha =>
      split at hr
      · cases hr
      · next s₂ es₂ hr' =>
        cases hr
        rw [← List.append_assoc]
        exact ih (.step a hh ha) hr'

/-- `n` steps of the worker. -/
def wsteps (n : Nat) (c : Choice := {}) : List Act := List.replicate n (.worker c)

/-- Two tasks are accepted; the first one takes two samples and is over, a third command
fetches the data, the second one begins. -/
def exActs : List Act :=
  [.cmd (.start 1), .cmd (.start 2)] ++ wsteps 7 ++
  wsteps 8 { result := some (some [10]) } ++ wsteps 8 { result := some (some [11]), over := true } ++
  [.cmd .data, .cont, .cont, .cont, .cont] ++ wsteps 5

/-- The two samples are delivered, and the worker is about to prepare the second task. -/
example : ((run Dev.init exActs).map (fun p => p.2)) =
    some [.accepted 1, .accepted 2, .took 1, .prepared 1, .begun 1, .measuring 1,
      .measured 1 [10], .measuring 1, .measured 1 [11], .fetched (some [10, 11]),
      .replied (some [10, 11]), .ended 1, .took 2] := by decide

/-- **C51** is violated in one respect: after an exception in the device's code the worker has
ended, tasks are still accepted, and they are never taken up unless the component is reset. -/
theorem C51_refuted_dead_worker :
    ∃ h s, Hist h s ∧ Dev.init.doRun = true ∧ .wasReset ∉ h ∧
      acceptedSince h = [1, 2] ∧ tookSince h = [1] ∧
      ∀ h' s', Cont s h' s' → .wasReset ∉ h' → .took 2 ∉ h' := by
  let as : List Act := [.cmd (.start 1)] ++ wsteps 4 ++ [.worker { result := none }] ++ wsteps 2 ++
    [.cmd (.start 2)]
  have hr : ∃ p, run Dev.init as = some p ∧ p.1.wpc = .dead ∧
      p.2 = [.accepted 1, .took 1, .crashed, .ended 1, .accepted 2] := ⟨_, rfl, rfl, rfl⟩
  obtain ⟨⟨s, es⟩, hr, hw, he⟩ := hr
  simp only at hw he
  refine ⟨es, s, ?_, rfl, ?_, ?_, ?_, ?_⟩
  · have := run_hist .init hr
    simpa using this
  · subst he; decide
  · subst he; decide
  · subst he; decide
  · intro h' s' hc
    have : .wasReset ∉ h' → s'.wpc = .dead ∧ ∀ t, .took t ∉ h' := by
      induction hc with
      | refl => exact fun _ => ⟨hw, by simp⟩
      | @step h s' s'' es a hc ha ih =>
        intro hn
        simp only [List.mem_append, not_or] at hn ⊢
        obtain ⟨hd, ht⟩ := ih hn.1
        cases a with
        | worker c => simp [act, wstep, hd] at ha
        | cmd c =>
          simp only [act] at ha
          split at ha
          · injection ha with ha
            cases c <;> simp only [cbegin] at ha
            all_goals (try split at ha)
            all_goals (injection ha with ha1 ha2; subst ha1; subst ha2)
            all_goals exact ⟨hd, fun t => ⟨ht t, by simp⟩⟩
          · cases ha
        | cont =>
          simp only [act, cstep] at ha
          split at ha
          all_goals (try split at ha)
          all_goals first
            | (cases ha; done)
            | skip
          all_goals (injection ha with ha; injection ha with ha1 ha2; subst ha1; subst ha2)
          all_goals first
            | exact ⟨hd, fun t => ⟨ht t, by simp⟩⟩
            | exact absurd (by simp) hn.2
    exact fun hn => (this hn).2 2

/-! ## C52 -/

/-- **C52**: of the data points measured since the last task began (or the last reset), those
handed out come first, in order, each once; the others are in the cache or just being stored.  A
one-shot measurement contributes nothing. -/
theorem C52_exactly_once {h : List Ev} {s : Dev} (hh : Hist h s) :
    measuredSince h = fetchedSince h ++ inCache s ++ beingStored s := (inv_hist hh).points

/-- **C52** (reply): what `task_data` returns is what was handed out last. -/
theorem C52_reply {h : List Ev} {s s' : Dev} {a : Act} {es : List Ev} (hh : Hist h s)
    (ha : act s a = some (s', es)) (r : Option (List Nat)) (hr : .replied r ∈ es) :
    lastFetched h = some r := by
  have h6 := (inv_hist hh).ret
  obtain ⟨q, rn, dr, dt, d, l, lk, w, cp⟩ := s
  simp only at h6
  cases a with
  | worker c =>
    simp only [act, wstep] at ha
    split at ha
    all_goals (try split at ha)
    all_goals first
      | (cases ha; done)
      | skip
    all_goals (injection ha with ha; injection ha with ha1 ha2; subst ha1; subst ha2)
    all_goals simp at hr
  | cmd c =>
    simp only [act] at ha
    split at ha
    · injection ha with ha
      cases c <;> simp only [cbegin] at ha
      all_goals (try split at ha)
      all_goals (injection ha with ha1 ha2; subst ha1; subst ha2)
      all_goals simp at hr
    · cases ha
  | cont =>
    simp only [act, cstep] at ha
    split at ha
    all_goals (try split at ha)
    all_goals first
      | (cases ha; done)
      | skip
    all_goals (injection ha with ha; injection ha with ha1 ha2; subst ha1; subst ha2)
    all_goals first
      | (simp at hr; done)
      | skip
    simp only [List.mem_singleton, Ev.replied.injEq] at hr
    subst hr
    exact h6 _ rfl

/-- A history with data in the cache, data handed out and data being stored, and a one-shot
measurement before. -/
example : ∃ h s, Hist h s ∧ measuredSince h = [10, 11, 12] ∧ fetchedSince h = [10] ∧
    inCache s = [11] ∧ beingStored s = [12] ∧ .mEnded ∈ h := by
  let as : List Act :=
    [.cmd .measure, .cont, .cont] ++ wsteps 6 { result := some (some [9]) } ++ wsteps 1 ++
    [.cmd (.start 1)] ++ wsteps 7 ++
    wsteps 8 { result := some (some [10]) } ++ [.cmd .data, .cont, .cont, .cont, .cont] ++
    wsteps 8 { result := some (some [11]) } ++ wsteps 5 { result := some (some [12]) }
  have hr : ∃ p, run Dev.init as = some p ∧ measuredSince p.2 = [10, 11, 12] ∧
      fetchedSince p.2 = [10] ∧ inCache p.1 = [11] ∧ beingStored p.1 = [12] ∧ .mEnded ∈ p.2 :=
    ⟨_, rfl, by decide, by decide, by decide, by decide, by decide⟩
  obtain ⟨⟨s, es⟩, hr, h1, h2, h3, h4, h5⟩ := hr
  exact ⟨es, s, by simpa using run_hist .init hr, h1, h2, h3, h4, h5⟩

/-! ## C53 -/

/-- **C53** (`_partial`: see `C53_refuted`): a one-shot measurement is refused while the worker is
occupied with a task or another measurement, except during the moment between taking the task off
the queue and announcing it; and it is refused if the queue is not empty when it is looked at. -/
theorem C53_refused_partial {h : List Ev} {s : Dev} (hh : Hist h s) :
    (s.cpc = .idle → occupied h ≠ none → (∀ x, s.wpc ≠ .got x) →
      act s (.cmd .measure) = some (s, [.mRefused])) ∧
    (s.cpc = .mEmpty → s.queue ≠ [] →
      act s .cont = some ({ s with cpc := .idle }, [.mRefused])) := by
  have hi := inv_hist hh
  constructor
  · intro hc ho hg
    have h2 := hi.item
    have h7 := hi.run
    obtain ⟨q, r, dr, dt, d, l, lk, w, cp⟩ := s
    simp only at h2 h7 hc hg
    subst hc
    rw [h2] at ho
    have : ∃ x, r = some x := by
      cases w <;> simp_all [wItem, wRunning, wLeaving]
    obtain ⟨x, rfl⟩ := this
    simp [act, cbegin]
  · intro hc hq
    obtain ⟨q, r, dr, dt, d, l, lk, w, cp⟩ := s
    simp only at hc hq
    subst hc
    cases q with
    | nil => exact absurd rfl hq
    | cons x q => rfl

/-- **C53**: one-shot measurements are never executed concurrently with a task. -/
theorem C53_never_concurrent {h : List Ev} {s : Dev} (hh : Hist h s) (a b c : List Ev) (t : Nat) :
    (h = a ++ .took t :: b ++ .mStarted :: c → .ended t ∈ b) ∧
    (h = a ++ .mStarted :: b ++ .took t :: c → .mEnded ∈ b) :=
  (C51_one_at_a_time hh a b c t).2

/-- **C53**: a one-shot measurement changes neither the cache nor what has been handed out. -/
theorem C53_data_unchanged {s s' : Dev} {c : Choice} {es : List Ev}
    (ha : wstep s c = some (s', es)) (hm : wItem s.wpc = some .measure ∨ s.running = some .measure ∧
      wRunning s.wpc = some .measure) :
    s'.data = s.data ∧ (∀ t ps, .measured t ps ∉ es) ∧ ∀ ps, .fetched ps ∉ es := by
  obtain ⟨q, r, dr, dt, d, l, lk, w, cp⟩ := s
  simp only at hm
  unfold wstep at ha
  simp only at ha
  split at ha
  all_goals (try split at ha)
  all_goals first
    | (cases ha; done)
    | skip
  all_goals (injection ha with ha; injection ha with ha1 ha2; subst ha1; subst ha2)
  all_goals simp_all [wItem, wRunning]

/-- **C53** is violated: a measurement is accepted while a task is already taken up by the worker
(between taking it off the queue and announcing it), and also while a task is running which was
still queued when the command looked at `running`. -/
theorem C53_refuted :
    (∃ h s, Hist h s ∧ occupied h = some (.task 1) ∧
      ∃ h' s', Cont s h' s' ∧ h' = [.mAccepted] ∧ occupied (h ++ h') = some (.task 1)) ∧
    (∃ h s, Hist h s ∧ s.queue = [.task 1] ∧ s.cpc = .idle ∧
      ∃ h' s', Cont s h' s' ∧ occupied (h ++ h') = some (.task 1) ∧
        h' = [.took 1, .prepared 1, .begun 1, .measuring 1, .mAccepted]) := by
  constructor
  · have hr : ∃ p, run Dev.init ([.cmd (.start 1)] ++ wsteps 2) = some p ∧
        p.2 = [.accepted 1, .took 1] ∧
        ∃ p₁, act p.1 (.cmd .measure) = some p₁ ∧ p₁.2 = [] ∧
        ∃ p₂, act p₁.1 .cont = some p₂ ∧ p₂.2 = [] ∧
        ∃ p₃, act p₂.1 .cont = some p₃ ∧ p₃.2 = [.mAccepted] :=
      ⟨_, rfl, rfl, _, rfl, rfl, _, rfl, rfl, _, rfl, rfl⟩
    obtain ⟨⟨s, es⟩, hr, he, ⟨s₁, e₁⟩, h1, k1, ⟨s₂, e₂⟩, h2, k2, ⟨s₃, e₃⟩, h3, k3⟩ := hr
    simp only at he h1 k1 h2 k2 h3 k3
    subst he; subst k1; subst k2; subst k3
    exact ⟨_, s, run_hist .init hr, by decide, _, s₃,
      .step _ (.step _ (.step _ .refl h1) h2) h3, rfl, by decide⟩
  · have hr : ∃ p, run Dev.init [.cmd (.start 1)] = some p ∧
        p.2 = [.accepted 1] ∧ p.1.queue = [.task 1] ∧ p.1.cpc = .idle ∧
        ∃ p₁, run p.1 ([.cmd .measure] ++ wsteps 11 ++ [.cont, .cont]) = some p₁ ∧
          p₁.2 = [.took 1, .prepared 1, .begun 1, .measuring 1, .mAccepted] :=
      ⟨_, rfl, rfl, rfl, rfl, _, rfl, rfl⟩
    obtain ⟨⟨s, es⟩, hr, he, hq, hc, ⟨s₁, e₁⟩, h1, k1⟩ := hr
    simp only at he hq hc h1 k1
    subst he; subst k1
    refine ⟨_, s, run_hist .init hr, hq, hc, _, s₁, ?_, by decide, rfl⟩
    have key : ∀ (as : List Act) (h₀ es : List Ev) (sa sb : Dev), Cont s h₀ sa →
        run sa as = some (sb, es) → Cont s (h₀ ++ es) sb := by
      intro as
      induction as with
      | nil => intro h₀ es sa sb hc hr; cases hr; simpa using hc
      | cons a as ih =>
        intro h₀ es sa sb hc hr
        simp only [run] at hr
        split at hr
        · cases hr
        · next s₁ es₁ ha =>
          split at hr
          · cases hr
          · next s₂ es₂ hr' =>
            cases hr
            rw [← List.append_assoc]
            exact ih _ _ _ _ (.step a hc ha) hr'
    exact key _ _ _ _ _ .refl h1

/-! ## C54 -/

/-- The measurements started for a task. -/
def measurings (t : Nat) (h : List Ev) : Nat := h.countP (fun e => e = .measuring t)

/-- The steps of the worker. -/
def workerSteps (as : List Act) : Nat :=
  as.countP (fun a => match a with | .worker _ => true | _ => false)

/-- Steps of the worker until the end of the task, once it has been told to stop. -/
def rank : WPc → Nat
  | .loop2 _ => 9 | .turn _ => 8 | .lock _ => 7 | .meas _ => 6 | .store _ => 5 | .unlock _ => 4
  | .dur _ => 3 | .loop1 _ => 2 | .over _ => 2 | .done _ => 1 | _ => 0

/-- Measurements the worker may still start, once it has been told to stop. -/
def budget : WPc → Nat
  | .loop2 _ => 1 | .turn _ => 1 | .lock _ => 1 | _ => 0

theorem stop_step {s s₁ : Dev} {a : Act} {es : List Ev} {t : Nat}
    (ha : act s a = some (s₁, es)) (hd : s.doRunTask = false) (hb : wBegun s.wpc = some t) :
    .ended t ∈ es ∨ (s₁.doRunTask = false ∧ wBegun s₁.wpc = some t ∧
      workerSteps [a] + rank s₁.wpc ≤ rank s.wpc ∧ measurings t es + budget s₁.wpc ≤ budget s.wpc) := by
  obtain ⟨q, r, dr, dt, d, l, lk, w, cp⟩ := s
  simp only at hd hb
  subst hd
  cases a with
  | worker c =>
    simp only [act, wstep] at ha
    split at ha
    all_goals (try split at ha)
    all_goals first
      | (cases ha; done)
      | skip
    all_goals (injection ha with ha; injection ha with ha1 ha2; subst ha1; subst ha2)
    all_goals simp_all [wBegun, rank, budget, workerSteps, measurings]
  | cmd c =>
    simp only [act] at ha
    split at ha
    · injection ha with ha
      right
      cases c <;> simp only [cbegin] at ha
      all_goals (try split at ha)
      all_goals (injection ha with ha1 ha2; subst ha1; subst ha2)
      all_goals simp_all [workerSteps, measurings]
    · cases ha
  | cont =>
    simp only [act, cstep] at ha
    split at ha
    all_goals (try split at ha)
    all_goals first
      | (cases ha; done)
      | skip
    all_goals (injection ha with ha; injection ha with ha1 ha2; subst ha1; subst ha2)
    all_goals simp_all [workerSteps, measurings, wBegun]

theorem stop_run {t : Nat} (as : List Act) : ∀ {s s' : Dev} {es : List Ev},
    run s as = some (s', es) → s.doRunTask = false → wBegun s.wpc = some t → .ended t ∉ es →
      workerSteps as + rank s'.wpc ≤ rank s.wpc ∧ measurings t es + budget s'.wpc ≤ budget s.wpc := by
  induction as with
  | nil =>
    intro s s' es hr _ _ _
    cases hr
    simp [workerSteps, measurings]
  | cons a as ih =>
    intro s s' es hr hd hb hn
    simp only [run] at hr
    split at hr
    · cases hr
    · next s₁ es₁ ha =>
      split at hr
      · cases hr
      · next s₂ es₂ hr' =>
        cases hr
        simp only [List.mem_append, not_or] at hn
        rcases stop_step ha hd hb with h | ⟨hd', hb', h1, h2⟩
        · exact absurd h hn.1
        · have ⟨h3, h4⟩ := ih hr' hd' hb' hn.2
          have e1 : workerSteps (a :: as) = workerSteps [a] + workerSteps as := by
            have : a :: as = [a] ++ as := rfl
            simp only [workerSteps]
            rw [this, List.countP_append]
          have e2 : measurings t (es₁ ++ es₂) = measurings t es₁ + measurings t es₂ := by
            simp [measurings]
          omega

theorem rank_le (w : WPc) : rank w ≤ 9 := by cases w <;> simp [rank]
theorem budget_le (w : WPc) : budget w ≤ 1 := by cases w <;> simp [budget]

/-- **C54** (`_partial`: interface 2.1, for tasks which have begun, i.e. all parameters are set; see
`C54_refuted` and `C54_refuted_interface_2_0`): after `task_stop` has told the worker to stop,
whatever other commands follow, the worker starts at most one more measurement for the task and
ends the task after at most nine of its own steps; it starts none if it was measuring already. -/
theorem C54_stop_partial {h : List Ev} {s : Dev} (hh : Hist h s) (t : Nat) (hc : s.cpc = .idle)
    (hb : begunNow h = some t) {as : List Act} {s' : Dev} {es : List Ev}
    (hr : run s (.cmd .stop :: as) = some (s', es)) (hn : .ended t ∉ es) :
    workerSteps as ≤ 9 ∧ measurings t es ≤ 1 ∧
      (wHolds s.wpc = true → measurings t es = 0) := by
  have hi := (inv_hist hh).beg
  rw [hb] at hi
  simp only [run, act, hc, if_true] at hr
  split at hr
  · cases hr
  · next s₂ es₂ hr' =>
    injection hr with hr
    injection hr with h1 h2
    subst h1; subst h2
    simp only [List.mem_append, not_or] at hn
    have ⟨k1, k2⟩ := stop_run as hr' rfl hi.symm hn.2
    have k1 : workerSteps as + rank s₂.wpc ≤ rank s.wpc := k1
    have k2 : measurings t es₂ + budget s₂.wpc ≤ budget s.wpc := k2
    have hm : measurings t ((cbegin s .stop).2 ++ es₂) = measurings t es₂ := by
      simp [measurings, cbegin]
    rw [hm]
    have := rank_le s.wpc
    have := budget_le s.wpc
    refine ⟨by omega, by omega, fun hw => ?_⟩
    have : budget s.wpc = 0 := by
      revert hw
      cases s.wpc <;> simp [wHolds, budget]
    omega

/-- The component in the middle of task 1, ready for the next turn. -/
def exLoop (d l : Option (List Nat)) : Dev where
  running := some (.task 1)
  doRunTask := true
  data := d
  last := l
  wpc := .loop1 1

/-- The hypotheses of `C54_stop_partial` hold in the middle of a measurement; the run shown
executes the whole command and ends before the end of the task, after nine steps at most. -/
example : ∃ h s, Hist h s ∧ s.cpc = .idle ∧ begunNow h = some 1 ∧
    ∃ p, run s (.cmd .stop :: wsteps 9) = some p ∧ .ended 1 ∈ p.2 ∧ measurings 1 p.2 = 1 := by
  have hr : ∃ p, run Dev.init ([.cmd (.start 1)] ++ wsteps 8) = some p ∧ p.1.cpc = .idle ∧
      begunNow p.2 = some 1 ∧
      ∃ p', run p.1 (.cmd .stop :: wsteps 9) = some p' ∧ .ended 1 ∈ p'.2 ∧
        measurings 1 p'.2 = 1 := ⟨_, rfl, rfl, by decide, _, rfl, by decide, by decide⟩
  obtain ⟨⟨s, es⟩, hr, hc, hb, h⟩ := hr
  exact ⟨es, s, by simpa using run_hist .init hr, hc, hb, h⟩

/-- **C54** is violated: a `task_stop` which arrives while the parameters of the task are being set
is answered with success, but the task goes on measuring for as long as it likes. -/
theorem C54_refuted (n : Nat) :
    ∃ (a b : List Ev) (s : Dev), Hist (a ++ .stopped :: b) s ∧ occupied a = some (.task 1) ∧
      .ended 1 ∉ b ∧ (∃ r, .replied r ∈ b) ∧ measurings 1 b = n := by
  have start : ∃ p, run Dev.init ([.cmd (.start 1)] ++ wsteps 4 ++
      [.cmd .stop, .cont, .cont, .cont, .cont] ++ wsteps 3) = some p ∧
      p.1 = exLoop none none ∧ p.2 = [.accepted 1, .took 1, .stopped, .fetched none, .replied none,
        .prepared 1, .begun 1] := ⟨_, rfl, rfl, rfl⟩
  obtain ⟨⟨s₀, es₀⟩, hr₀, hs₀, he₀⟩ := start
  simp only at hs₀ he₀
  subst hs₀; subst he₀
  have h₀ := run_hist .init hr₀
  have turn : ∀ d l, ∃ d' l' es, run (exLoop d l) (wsteps 8 { result := some (some [7]) }) =
      some (exLoop d' l', es) ∧ es = [.measuring 1, .measured 1 [7]] := fun d l =>
    ⟨_, _, _, rfl, rfl⟩
  have loop : ∃ (b : List Ev) (d l : Option (List Nat)),
      Hist ([.accepted 1, .took 1] ++ .stopped :: b) (exLoop d l) ∧
      .ended 1 ∉ b ∧ (∃ r, .replied r ∈ b) ∧ measurings 1 b = n := by
    induction n with
    | zero =>
      exact ⟨[.fetched none, .replied none, .prepared 1, .begun 1], none, none, h₀, by decide,
        ⟨none, by simp⟩, by decide⟩
    | succ n ih =>
      obtain ⟨b, d, l, hh, hb1, ⟨r, hr⟩, hb2⟩ := ih
      obtain ⟨d', l', es, ht, he⟩ := turn d l
      refine ⟨b ++ es, d', l', ?_, ?_, ⟨r, by simp [hr]⟩, ?_⟩
      · have := run_hist hh ht
        simpa [List.append_assoc] using this
      · subst he; simp [hb1]
      · subst he
        simp only [measurings] at hb2 ⊢
        simp [hb2]
  obtain ⟨b, d, l, hh, h1, h2, h3⟩ := loop
  exact ⟨_, b, _, hh, by decide, h1, h2, h3⟩

end Tomato.Props
