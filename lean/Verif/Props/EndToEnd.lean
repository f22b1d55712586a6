import Verif.EndToEnd
import Verif.JobThreadLemmas
import Verif.Props.Iface21

/-!
# From the measurement to the file (C71)
-/

namespace Tomato.Props
open Tomato.E2E

/-! ## Specification -/

/-- What the thread did. -/
def thrPart (h : List Ev) : List JobT.Ev :=
  h.filterMap (fun e => match e with | .thr e => some e | .dev _ => none)

/-- What the component did. -/
def devPart (h : List Ev) : List I21.Ev :=
  h.filterMap (fun e => match e with | .dev e => some e | .thr _ => none)

/-- The data points measured for task `n`, in order. -/
def measuredFor (h : List I21.Ev) (n : Nat) : List Nat :=
  h.flatMap (fun e => match e with
    | .measured m ps => if m = n then ps else []
    | _ => [])

/-- All data points measured for tasks, in order. -/
def measuredAll (h : List I21.Ev) : List Nat :=
  h.flatMap (fun e => match e with
    | .measured _ ps => ps
    | _ => [])

/-- All data points handed out by the component, in order. -/
def fetchedAll (h : List I21.Ev) : List Nat :=
  h.flatMap (fun e => match e with
    | .fetched ps => ps.getD []
    | _ => [])

/-- The component rests: no command is being carried out, its worker is not occupied with a task,
there are no tasks in the queue and no data in the cache. -/
structure Rests (hd : List I21.Ev) (d : I21.Dev) : Prop where
  command : d.cpc = .idle
  worker : ∀ t, occupied hd ≠ some (.task t)
  running : ∀ t, d.running ≠ some (.task t)
  queue : ∀ t, .task t ∉ d.queue
  cache : d.data = none

/-! ## The component -/

/-- The task which the worker is busy with, or has ended while it is still announced. -/
def heldOf (w : I21.WPc) (r : Option I21.Item) : List Nat :=
  match wItem w with
  | some (.task n) => [n]
  | some .measure => []
  | none =>
    if wLeaving w then
      match r with
      | some (.task n) => [n]
      | _ => []
    else []

def held (d : I21.Dev) : List Nat := heldOf d.wpc d.running

/-- The tasks which the component has been given and has not ended. -/
def e2ePresent (d : I21.Dev) : List Nat := held d ++ tasksOf d.queue

/-- The component says that it is running task `i`, and is given no other one. -/
def Ann (i : Nat) (d : I21.Dev) : Prop :=
  held d = [i] ∧ d.running = some (.task i) ∧ tasksOf d.queue = []

/-- Positions of the worker before a task has begun. -/
def wBefore : I21.WPc → Bool
  | .got (.task _) | .noTask (.task _) | .prep _ | .prepped _ | .clear _ => true
  | _ => false

/-- While there is a task which has not begun, the cache is empty. -/
def Fresh (d : I21.Dev) : Prop :=
  (tasksOf d.queue ≠ [] ∨ wBefore d.wpc = true) → inCache d = []

theorem tasksOf_nil : tasksOf [] = [] := rfl
theorem tasksOf_task (t : Nat) (q : List I21.Item) : tasksOf (.task t :: q) = t :: tasksOf q := rfl
theorem tasksOf_measure (q : List I21.Item) : tasksOf (.measure :: q) = tasksOf q := rfl
theorem tasksOf_append (q r : List I21.Item) : tasksOf (q ++ r) = tasksOf q ++ tasksOf r :=
  List.filterMap_append

theorem wstep_present {h : List I21.Ev} {d d' : I21.Dev} {c : I21.Choice} {es : List I21.Ev}
    (hi : Inv h d) (ha : I21.wstep d c = some (d', es)) :
    (e2ePresent d = [] → e2ePresent d' = []) ∧
    (∀ i, e2ePresent d = [i] → e2ePresent d' = [i] ∨ e2ePresent d' = []) ∧
    (∀ i, Ann i d → Ann i d' ∨ e2ePresent d' = []) ∧
    (e2ePresent d = [] → inCache d = [] → inCache d' = []) ∧
    (∀ i, e2ePresent d = [] ∨ e2ePresent d = [i] → Fresh d → Fresh d') ∧
    (∀ n ps, .measured n ps ∈ es → n ∈ e2ePresent d) ∧
    (∀ n, .begun n ∈ es → wBefore d.wpc = true) ∧ .wasReset ∉ es := by
  obtain ⟨-, -, -, h3, h4, -, -, h7⟩ := hi
  obtain ⟨q, r, dr, dt, dd, l, lk, w, cp⟩ := d
  simp only at h3 h4 h7
  cases w
  case got x => 
    cases x
    all_goals
      simp only [I21.wstep] at ha
      injection ha with ha; injection ha with ha1 ha2; subst ha1; subst ha2
      simp_all [e2ePresent, held, heldOf, Ann, Fresh, wItem, inCache, wLeaving, wBefore, wRunning]
  case noTask x => 
    cases x
    all_goals
      simp only [I21.wstep] at ha
      injection ha with ha; injection ha with ha1 ha2; subst ha1; subst ha2
      simp_all [e2ePresent, held, heldOf, Ann, Fresh, wItem, inCache, wLeaving, wBefore, wRunning]
  case get => 
    cases q with
    | nil =>
      simp only [I21.wstep] at ha
      injection ha with ha; injection ha with ha1 ha2; subst ha1; subst ha2
      simp_all [e2ePresent, held, heldOf, Ann, Fresh, wItem, inCache, wLeaving, wBefore, wRunning]
    | cons x q =>
      cases x
      all_goals
        simp only [I21.wstep] at ha
        injection ha with ha; injection ha with ha1 ha2; subst ha1; subst ha2
        simp_all [e2ePresent, held, heldOf, Ann, Fresh, wItem, inCache, wLeaving, wBefore, wRunning,
          tasksOf_task, tasksOf_measure]
  all_goals simp only [I21.wstep] at ha
  all_goals (try split at ha)
  all_goals first
    | (cases ha; done)
    | skip
  all_goals (injection ha with ha; injection ha with ha1 ha2; subst ha1; subst ha2)
  all_goals
    simp_all [e2ePresent, held, heldOf, Ann, Fresh, wItem, wHolds, inCache, wRunning, wLeaving,
      wBefore, I21.storeData]
  all_goals
    intro i hi
    cases r with
    | none => exact .inl hi
    | some x =>
      cases x with
      | measure => exact .inl hi
      | task t => simp at hi; exact .inr hi.2

theorem cstep_present {h : List I21.Ev} {d d' : I21.Dev} {es : List I21.Ev}
    (hi : Inv h d) (ha : I21.cstep d = some (d', es)) :
    ((e2ePresent d' = e2ePresent d ∧ (∀ i, Ann i d → Ann i d') ∧ .wasReset ∉ es) ∨
      (es = [.wasReset] ∧ e2ePresent d' = [] ∧ inCache d' = [] ∧ d'.cpc = .idle ∧
        ∃ b, d.cpc = .rJoin b)) ∧
    (inCache d = [] → inCache d' = []) ∧ (Fresh d → Fresh d') ∧
    (∀ n ps, .measured n ps ∉ es) ∧ (∀ n, .begun n ∉ es) := by
  obtain ⟨-, -, -, h3, h4, -, -, h7⟩ := hi
  obtain ⟨q, r, dr, dt, dd, l, lk, w, cp⟩ := d
  simp only at h3 h4 h7
  cases cp
  all_goals simp only [I21.cstep] at ha
  all_goals (try split at ha)
  all_goals first
    | (cases ha; done)
    | skip
  all_goals (injection ha with ha; injection ha with ha1 ha2; subst ha1; subst ha2)
  all_goals
    simp_all [e2ePresent, held, Ann, Fresh, inCache, tasksOf_append,
      tasksOf_measure, tasksOf_nil, I21.afterReset]
  all_goals first
    | (intro i a b c; subst b; exact a)
    | (intro i a b; subst b; exact a)
    | simp [heldOf, wItem, wLeaving]

theorem measure_present {d : I21.Dev} :
    e2ePresent (I21.cbegin d .measure).1 = e2ePresent d ∧
    (∀ i, Ann i d → Ann i (I21.cbegin d .measure).1) ∧
    (d.cpc = .idle → inCache (I21.cbegin d .measure).1 = inCache d) ∧
    (d.cpc = .idle → Fresh d → Fresh (I21.cbegin d .measure).1) ∧
    ((I21.cbegin d .measure).1.cpc = d.cpc ∨ (I21.cbegin d .measure).1.cpc = .mEmpty) ∧
    ((I21.cbegin d .measure).2 = [] ∨ (I21.cbegin d .measure).2 = [.mRefused]) := by
  obtain ⟨q, r, dr, dt, dd, l, lk, w, cp⟩ := d
  cases r <;> simp [I21.cbegin, e2ePresent, held, Ann, Fresh, inCache]
  all_goals
    constructor
    all_goals
      rintro rfl
      simp

theorem pts_act {h₀ h : List I21.Ev} {d d' : I21.Dev} {a : I21.Act} {es : List I21.Ev}
    (hi : Inv h₀ d)
    (ha : I21.act d a = some (d', es))
    (hc : (∃ t, .begun t ∈ es) ∨ .wasReset ∈ es → inCache d = [])
    (hp : measuredAll h = fetchedAll h ++ inCache d ++ beingStored d) :
    measuredAll (h ++ es) = fetchedAll (h ++ es) ++ inCache d' ++ beingStored d' := by
  have e1 : measuredAll (h ++ es) = measuredAll h ++ measuredAll es := List.flatMap_append
  have e2 : fetchedAll (h ++ es) = fetchedAll h ++ fetchedAll es := List.flatMap_append
  rw [e1, e2, hp]
  clear e1 e2 hp
  generalize fetchedAll h = f
  obtain ⟨-, -, -, h3, h4, -, -, h7⟩ := hi
  obtain ⟨q, r, dr, dt, dd, l, lk, w, cp⟩ := d
  simp only at h3 h4 h7
  cases a with
  | worker c =>
    simp only [I21.act] at ha
    unfold I21.wstep at ha
    simp only at ha
    split at ha
    all_goals (try split at ha)
    all_goals first
      | (cases ha; done)
      | skip
    all_goals (injection ha with ha; injection ha with ha1 ha2; subst ha1; subst ha2)
    all_goals
      simp_all [measuredAll, fetchedAll, inCache, beingStored, I21.storeData, wHolds]
    · cases cp <;> rfl
    · cases cp <;> simp_all [cHolds] <;> cases dd <;> cases l <;> simp
  | cmd c =>
    simp only [I21.act] at ha
    split at ha
    · injection ha with ha
      cases c <;> simp only [I21.cbegin] at ha
      all_goals (try split at ha)
      all_goals (injection ha with ha1 ha2; subst ha1; subst ha2)
      all_goals simp_all [measuredAll, fetchedAll, inCache, beingStored]
    · cases ha
  | cont =>
    simp only [I21.act] at ha
    unfold I21.cstep at ha
    simp only at ha
    split at ha
    all_goals (try split at ha)
    all_goals first
      | (cases ha; done)
      | skip
    all_goals (injection ha with ha; injection ha with ha1 ha2; subst ha1; subst ha2)
    all_goals
      simp_all [measuredAll, fetchedAll, inCache, beingStored, I21.afterReset, cHolds, wHolds]

/-- What `running` says is held by the worker. -/
theorem running_held {h : List I21.Ev} {d : I21.Dev} {n : Nat} (hi : Inv h d)
    (hr : d.running = some (.task n)) : held d = [n] := by
  have h7 := hi.run
  obtain ⟨q, r, dr, dt, dd, l, lk, w, cp⟩ := d
  simp only at h7 hr
  subst hr
  cases w
  case noTask x => cases x <;> simp_all [held, heldOf, wItem, wLeaving, wRunning]
  all_goals simp_all [held, heldOf, wItem, wLeaving, wRunning]

/-! ## The whole -/

/-- What the states of the thread and of its request say about the component. -/
inductive Stage where
  | quiet | started | running | final
  deriving DecidableEq

def stageOf (tasks : List Task) (i : Nat) (cp : I21.CPc) (net : Net) : JobT.Pc → Stage
  | .wait .start => if net = .req .start then .quiet else .started
  | .ask .running => .started
  | .wait .running =>
    match net with
    | .ans (.reply ok st _) => if JobT.isRunning tasks[i]? ok st then .running else .started
    | _ => .started
  | .wait .status =>
    match net with
    | .ans (.reply ok st _) => if JobT.isOver tasks[i]? ok st then .final else .running
    | _ => .running
  | .wait .final =>
    match net with
    | .ans _ => .quiet
    | .exec _ => if (handedOut cp).isSome then .quiet else .final
    | _ => .final
  | .due | .trigger | .ask .data | .wait .data | .ask .status | .ask .stop | .wait .stop => .running
  | .load _ .status | .trunc _ .status | .dump _ .status => .running
  | .ask .final | .load _ .final | .trunc _ .final | .dump _ .final => .final
  | _ => .quiet

def stage (s : St) : Stage := stageOf s.t.tasks s.t.i s.d.cpc s.net s.t.pc

def StageD (i : Nat) (d : I21.Dev) : Stage → Prop
  | .quiet => e2ePresent d = [] ∧ inCache d = []
  | .started => e2ePresent d = [] ∨ e2ePresent d = [i]
  | .running => e2ePresent d = [] ∨ Ann i d
  | .final => e2ePresent d = []

/-- The thread has given up, or is about to. -/
def Gone (s : St) : Prop :=
  s.t.pc = .crash ∨ s.t.pc = .exited ∨ (s.net = .ans .closed ∧ ∃ q, s.t.pc = .wait q)

/-- The positions of the command thread while it carries out a request. -/
def NetC (net : Net) (cp : I21.CPc) : Prop :=
  match net with
  | .exec .data | .exec .final | .exec .stop => cp = .gLock ∨ cHolds cp = true
  | .exec .reset => ∃ b, cp = .rJoin b
  | .exec _ => False
  | _ => cp = .idle ∨ cp = .mEmpty ∨ cp = .mPut

/-- The states of the request which belong to a position of the thread. -/
def NetT (net : Net) (pc : JobT.Pc) : Prop :=
  match pc with
  | .wait q =>
    net = .req q ∨ net = .exec q ∨
      (∃ a, net = .ans a ∧
        ∀ ok st ps, a = .reply ok st (some ps) → q = .data ∨ q = .final ∨ q = .stop)
  | _ => net = .idle

/-- Data points on their way from the component to the thread. -/
def flightOf (net : Net) (cp : I21.CPc) : List Nat :=
  match net with
  | .ans (.reply true _ (some ps)) => ps
  | .exec _ =>
    match handedOut cp with
    | some (some ps) => ps
    | _ => []
  | _ => []

def flight (s : St) : List Nat := flightOf s.net s.d.cpc

structure CInv (h : List Ev) (s : St) : Prop where
  stop : s.t.pc ≠ .wait .stop
  netT : NetT s.net s.t.pc
  netC : NetC s.net s.d.cpc
  fresh : Fresh s.d
  stg : StageD s.t.i s.d (stage s)
  link : fetchedAll (devPart h) = JobT.delivered (thrPart h) ++ flight s
  pts : measuredAll (devPart h) = fetchedAll (devPart h) ++ inCache s.d ++ beingStored s.d
  own : measuredAll (devPart h) =
    (JobT.starts (thrPart h)).flatMap (measuredFor (devPart h))
  own' : ∀ n, n ∉ JobT.starts (thrPart h) → measuredFor (devPart h) n = []

theorem thrPart_append (h es : List Ev) : thrPart (h ++ es) = thrPart h ++ thrPart es :=
  List.filterMap_append
theorem devPart_append (h es : List Ev) : devPart (h ++ es) = devPart h ++ devPart es :=
  List.filterMap_append
theorem thrPart_dev (es : List I21.Ev) : thrPart (es.map .dev) = [] := by
  induction es with
  | nil => rfl
  | cons e es ih => exact ih
theorem devPart_dev (es : List I21.Ev) : devPart (es.map .dev) = es := by
  induction es with
  | nil => rfl
  | cons e es ih => exact congrArg (e :: ·) ih

/-- What happens to the component is a history of the component. -/
theorem dev_act {s s' : St} {a : Act} {es : List Ev} (ha : act s a = some (s', es)) :
    (s'.d = s.d ∧ devPart es = []) ∨
      ∃ b, I21.act s.d b = some (s'.d, devPart es) ∧ thrPart es = [] := by
  cases a with
  | thr c =>
    simp only [act] at ha
    have key : ∀ c n, thrStep s c n = some (s', es) → s'.d = s.d ∧ devPart es = [] := by
      intro c n h
      simp only [thrStep] at h
      split at h
      · cases h
      · injection h with h; injection h with h1 h2; subst h1; subst h2
        exact ⟨rfl, rfl⟩
    left
    split at ha
    · split at ha
      · exact key _ _ ha
      · cases ha
    · exact key _ _ ha
    · exact key _ _ ha
  | tell ns =>
    injection ha with ha; injection ha with h1 h2; subst h1; subst h2
    exact .inl ⟨rfl, rfl⟩
  | take acc =>
    simp only [act] at ha
    split at ha
    · next q hq =>
      split at ha
      · next hc =>
        injection ha with ha; injection ha with h1 h2; subst h1; subst h2
        rw [devPart_dev, thrPart_dev]
        cases q
        all_goals simp only [take]
        case start =>
          cases acc
          · exact .inl ⟨rfl, rfl⟩
          · exact .inr ⟨.cmd (.start s.t.i), by simp [I21.act, hc], trivial⟩
        case ready => exact .inl ⟨trivial, trivial⟩
        case running => exact .inl ⟨trivial, trivial⟩
        case status => exact .inl ⟨trivial, trivial⟩
        case data => exact .inr ⟨.cmd .data, by simp [I21.act, hc], trivial⟩
        case final => exact .inr ⟨.cmd .data, by simp [I21.act, hc], trivial⟩
        case stop => exact .inr ⟨.cmd .stop, by simp [I21.act, hc], trivial⟩
        case reset => exact .inr ⟨.cmd (.reset true), by simp [I21.act, hc], trivial⟩
      · cases ha
    · cases ha
  | work c =>
    simp only [act] at ha
    split at ha
    · cases ha
    · next d' es' hw =>
      injection ha with ha; injection ha with h1 h2; subst h1; subst h2
      rw [devPart_dev, thrPart_dev]
      exact .inr ⟨.worker c, hw, rfl⟩
  | cont =>
    simp only [act] at ha
    split at ha
    · cases ha
    · next d' es' hw =>
      injection ha with ha; injection ha with h1 h2; subst h1; subst h2
      rw [devPart_dev, thrPart_dev]
      exact .inr ⟨.cont, hw, rfl⟩
  | measure =>
    simp only [act] at ha
    split at ha
    · next hc =>
      injection ha with ha; injection ha with h1 h2; subst h1; subst h2
      rw [devPart_dev, thrPart_dev]
      exact .inr ⟨.cmd .measure, by simp [I21.act, hc], rfl⟩
    · cases ha
  | lose =>
    simp only [act] at ha
    split at ha
    · cases ha
    · injection ha with ha; injection ha with h1 h2; subst h1; subst h2
      exact .inl ⟨rfl, rfl⟩

theorem dev_hist {tasks : List Task} {d₀ : I21.Dev} {hd : List I21.Ev} {h : List Ev} {s : St} (h0 : I21.Hist hd d₀) (hh : Hist tasks d₀ h s) :
    I21.Hist (hd ++ devPart h) s.d := by
  induction hh with
  | init => rw [show devPart [] = [] from rfl, List.append_nil]; exact h0
  | step a _ ha ih =>
    rw [devPart_append, ← List.append_assoc]
    rcases dev_act ha with ⟨h1, h2⟩ | ⟨b, hb, _⟩
    · rw [h1, h2, List.append_nil]; exact ih
    · exact .step b ih hb

/-- What happens to the thread is a history of the thread. -/
theorem thr_hist {tasks : List Task} {d₀ : I21.Dev} {h : List Ev} {s : St}
    (hh : Hist tasks d₀ h s) :
    JobT.THist tasks (thrPart h) s.t := by
  induction hh with
  | init => exact .init
  | @step h s s' es a hh ha ih =>
    rw [thrPart_append]
    have key : ∀ c n, thrStep s c n = some (s', es) →
        JobT.THist tasks (thrPart h ++ thrPart es) s'.t := by
      intro c n hs
      simp only [thrStep] at hs
      split at hs
      · cases hs
      · next t' e ht =>
        injection hs with hs; injection hs with h1 h2; subst h1; subst h2
        exact .step c ih ht
    cases a with
    | thr c =>
      simp only [act] at ha
      split at ha
      · split at ha
        · exact key _ _ ha
        · cases ha
      · exact key _ _ ha
      · exact key _ _ ha
    | tell ns =>
      injection ha with ha; injection ha with h1 h2; subst h1; subst h2
      rw [show thrPart [] = [] from rfl, List.append_nil]
      exact .push ns ih
    | take acc =>
      simp only [act] at ha
      split at ha
      · next q hq =>
        split at ha
        · injection ha with ha; injection ha with h1 h2; subst h1; subst h2
          rw [thrPart_dev, List.append_nil]
          cases q
          all_goals simp only [take]
          case start => cases acc <;> exact ih
          all_goals exact ih
        · cases ha
      · cases ha
    | work c =>
      simp only [act] at ha
      split at ha
      · cases ha
      · injection ha with ha; injection ha with h1 h2; subst h1; subst h2
        rw [thrPart_dev, List.append_nil]
        exact ih
    | cont =>
      simp only [act] at ha
      split at ha
      · cases ha
      · injection ha with ha; injection ha with h1 h2; subst h1; subst h2
        rw [thrPart_dev, List.append_nil]
        exact ih
    | measure =>
      simp only [act] at ha
      split at ha
      · injection ha with ha; injection ha with h1 h2; subst h1; subst h2
        rw [thrPart_dev, List.append_nil]
        exact ih
      · cases ha
    | lose =>
      simp only [act] at ha
      split at ha
      · cases ha
      · injection ha with ha; injection ha with h1 h2; subst h1; subst h2
        rw [show thrPart [] = [] from rfl, List.append_nil]
        exact ih

/-- A step of the thread. -/
theorem cinv_thr {tasks : List Task} {d₀ : I21.Dev} {hd : List I21.Ev} {h : List Ev} {s s' : St} {c : JobT.Choice} {es : List Ev}
    (h0 : I21.Hist hd d₀) (hh : Hist tasks d₀ h s) (hi : CInv h s)
    (ha : act s (.thr c) = some (s', es)) (hn : ∀ i, .sent i .stop ∉ thrPart (h ++ es))
    (hg : ¬ Gone s') : CInv (h ++ es) s' := by
  have ht := JobT.tinv (thr_hist hh)
  have hf := JobT.fileOK (thr_hist hh)
  have hs := ht.sent
  obtain ⟨⟨tk, i, pc, cur, names, noList, crashed, file⟩, d, net⟩ := s
  obtain ⟨h1, h2, h3, h4, h5, h6, h7, h8, h9⟩ := hi
  simp only at h1 h2 h3 h4 h5 h6 h7 h8 h9 hs
  have quick : ∀ (t' : JobT.Thr) (e : JobT.Ev) (n' : Net), t'.pc ≠ .wait .stop → NetT n' t'.pc →
      NetC n' d.cpc → StageD t'.i d (stage ⟨t', d, n'⟩) → JobT.starts [e] = [] →
      flightOf net d.cpc = JobT.delivered [e] ++ flightOf n' d.cpc →
      CInv (h ++ [.thr e]) ⟨t', d, n'⟩ := by
    intro t' e n' q1 q2 q3 q4 q5 q6
    have e1 : devPart (h ++ [.thr e]) = devPart h := by
      rw [devPart_append]; exact List.append_nil _
    have e2 : thrPart (h ++ [.thr e]) = thrPart h ++ [e] := by
      rw [thrPart_append]; rfl
    refine ⟨q1, q2, q3, h4, q4, ?_, ?_, ?_, ?_⟩
    · rw [e1, e2, JobT.delivered_snoc, h6, List.append_assoc]
      exact congrArg (JobT.delivered (thrPart h) ++ ·) q6
    · rw [e1]; exact h7
    · rw [e1, e2, JobT.starts_snoc, q5, List.append_nil]; exact h8
    · rw [e1, e2, JobT.starts_snoc, q5, List.append_nil]; exact h9
  cases pc with
  | wait q =>
    simp only [act] at ha
    cases net with
    | ans a =>
      simp only [thrStep, JobT.tstep] at ha
      injection ha with ha; injection ha with e1 e2; subst e1; subst e2
      cases a with
      | closed => exact absurd (.inl rfl) hg
      | reply ok st ps =>
        simp only [NetT, reduceCtorEq, false_or] at h2
        obtain ⟨_, ha', h2⟩ := h2
        injection ha' with ha'; subst ha'
        have h3' : NetC .idle d.cpc := h3
        have hps : q ≠ .data → q ≠ .final → ps = none := by
          intro n1 n2
          cases ps with
          | none => rfl
          | some ps =>
            rcases h2 _ _ _ rfl with r | r | r
            · contradiction
            · contradiction
            · subst r; exact absurd rfl h1
        cases q with
        | ready =>
          cases hps (by simp) (by simp)
          have hst : StageD i d .quiet := h5
          cases st with
          | none =>
            refine quick _ _ _ ?_ ?_ h3' ?_ rfl ?_
            all_goals simp [JobT.next, NetT, stage, stageOf, hst, JobT.delivered, flightOf]
          | some sd =>
            by_cases hk : ok = true ∧ sd.canSubmit = true
            all_goals
              refine quick _ _ _ ?_ ?_ h3' ?_ rfl ?_
              all_goals simp [JobT.next, hk, NetT, stage, stageOf, hst, JobT.delivered, flightOf]
        | start =>
          cases hps (by simp) (by simp)
          have hst : StageD i d .started := h5
          refine quick _ _ _ ?_ ?_ h3' ?_ rfl ?_
          all_goals simp [JobT.next, NetT, stage, stageOf, hst, JobT.delivered, flightOf]
        | running =>
          cases hps (by simp) (by simp)
          simp only [stage, stageOf] at h5
          by_cases hr : JobT.isRunning tk[i]? ok st = true
          · rw [if_pos hr] at h5
            refine quick _ _ _ ?_ ?_ h3' ?_ rfl ?_
            all_goals simp [JobT.next, hr, NetT, stage, stageOf, h5, JobT.delivered, flightOf]
          · rw [if_neg hr] at h5
            by_cases hl : c.late = true
            · refine absurd (.inl ?_) hg
              simp [JobT.next, hr, hl]
            · refine quick _ _ _ ?_ ?_ h3' ?_ rfl ?_
              all_goals
                simp [JobT.next, hr, hl, NetT, stage, stageOf, h5, JobT.delivered, flightOf]
        | data =>
          have hst : StageD i d .running := h5
          cases ok <;> cases ps
          all_goals
            refine quick _ _ _ ?_ ?_ h3' ?_ rfl ?_
            all_goals
              simp [JobT.next, JobT.store, NetT, stage, stageOf, hst, JobT.delivered, flightOf]
        | status =>
          cases hps (by simp) (by simp)
          simp only [stage, stageOf] at h5
          by_cases hr : JobT.isOver tk[i]? ok st = true
          · rw [if_pos hr] at h5
            refine quick _ _ _ ?_ ?_ h3' ?_ rfl ?_
            all_goals simp [JobT.next, hr, NetT, stage, stageOf, h5, JobT.delivered, flightOf]
          · rw [if_neg hr] at h5
            refine quick _ _ _ ?_ ?_ h3' ?_ rfl ?_
            all_goals simp [JobT.next, hr, NetT, stage, stageOf, h5, JobT.delivered, flightOf]
        | stop => exact absurd rfl h1
        | final =>
          have hst : StageD i d .quiet := h5
          cases ok <;> cases ps
          all_goals
            refine quick _ _ _ ?_ ?_ h3' ?_ rfl ?_
            all_goals
              simp [JobT.next, JobT.store, NetT, stage, stageOf, hst, JobT.delivered, flightOf]
        | reset =>
          cases hps (by simp) (by simp)
          have hst : StageD i d .quiet := h5
          refine quick _ _ _ ?_ ?_ h3' ?_ rfl ?_
          all_goals simp [JobT.next, NetT, stage, stageOf, hst, JobT.delivered, flightOf]
    | _ => cases ha
  | ask q =>
    have hnet : net = .idle := h2
    subst hnet
    simp only [act, thrStep, JobT.tstep] at ha
    injection ha with ha; injection ha with e1 e2; subst e1; subst e2
    have h3' : NetC (.req q) d.cpc := h3
    have hns : q ≠ .stop := by
      rintro rfl
      apply hn i
      rw [thrPart_append]
      simp [thrPart]
    by_cases hq : q = .start
    · subst hq
      have hst : StageD i d .quiet := h5
      have e1 : devPart (h ++ [.thr (.sent i .start)]) = devPart h := by
        rw [devPart_append]; exact List.append_nil _
      have e2 : thrPart (h ++ [.thr (.sent i .start)]) = thrPart h ++ [.sent i .start] := by
        rw [thrPart_append]; rfl
      have hs' : JobT.starts (thrPart h) = List.range i := hs.1
      have hi' : i ∉ JobT.starts (thrPart h) := by rw [hs']; simp
      have e3 : JobT.starts (thrPart h ++ [.sent i .start]) = JobT.starts (thrPart h) ++ [i] := by
        rw [JobT.starts_snoc]; rfl
      refine ⟨by simp, .inl rfl, h3', h4, ?_, ?_, ?_, ?_, ?_⟩
      · simpa [stage, stageOf] using hst
      · rw [e1, e2, JobT.delivered_snoc, h6]
        simp [flight, flightOf, JobT.delivered]
      · rw [e1]; exact h7
      · rw [e1, e2, e3, List.flatMap_append, ← h8]
        simp [h9 i hi']
      · rw [e1, e2, e3]
        intro n hn'
        exact h9 n (fun h => hn' (by simp [h]))
    · refine quick _ _ _ ?_ (.inl rfl) h3' ?_ ?_ rfl
      · simpa using hns
      · cases q
        case start => exact absurd rfl hq
        case stop => exact absurd rfl hns
        all_goals simpa [stage, stageOf] using h5
      · cases q <;> first | rfl | exact absurd rfl hq
  | crash => exact absurd (by simp only [act, thrStep, JobT.tstep] at ha; injection ha with ha; injection ha with e1 e2; subst e1; exact .inr (.inl rfl)) hg
  | fin => cases ha
  | exited => cases ha
  | dead => cases ha
  | cur =>
    have hnet : net = .idle := h2
    subst hnet
    cases hk : tk[i]?
    all_goals
      simp only [act, thrStep, JobT.tstep, hk] at ha
      injection ha with ha; injection ha with e1 e2; subst e1; subst e2
      refine quick _ _ _ ?_ ?_ h3 ?_ rfl rfl
      all_goals first
        | exact h5
        | simp [NetT]
  | hold =>
    have hnet : net = .idle := h2
    subst hnet
    cases hk : JobT.met (tk[i]?.bind (·.startWith)) names
    all_goals
      simp only [act, thrStep, JobT.tstep, hk, if_true, Bool.false_eq_true, if_false] at ha
      injection ha with ha; injection ha with e1 e2; subst e1; subst e2
      refine quick _ _ _ ?_ ?_ h3 ?_ rfl rfl
      all_goals first
        | exact h5
        | simp [NetT]
  | due =>
    have hnet : net = .idle := h2
    subst hnet
    cases hk : c.due
    all_goals
      simp only [act, thrStep, JobT.tstep, hk, if_true, Bool.false_eq_true, if_false] at ha
      injection ha with ha; injection ha with e1 e2; subst e1; subst e2
      refine quick _ _ _ ?_ ?_ h3 ?_ rfl rfl
      all_goals first
        | exact h5
        | simp [NetT]
  | trigger =>
    have hnet : net = .idle := h2
    subst hnet
    cases hk : JobT.hit (tk[i]?.bind (·.stopWith)) names
    all_goals
      simp only [act, thrStep, JobT.tstep, hk, if_true, Bool.false_eq_true, if_false] at ha
      injection ha with ha; injection ha with e1 e2; subst e1; subst e2
      refine quick _ _ _ ?_ ?_ h3 ?_ rfl rfl
      all_goals first
        | exact h5
        | simp [NetT]
  | append =>
    have hnet : net = .idle := h2
    subst hnet
    cases hk : noList
    all_goals
      simp only [act, thrStep, JobT.tstep, hk, if_true, Bool.false_eq_true, if_false] at ha
      injection ha with ha; injection ha with e1 e2; subst e1; subst e2
      refine quick _ _ _ ?_ ?_ h3 ?_ rfl rfl
      all_goals first
        | exact h5
        | simp [NetT]
  | unset =>
    have hnet : net = .idle := h2
    subst hnet
    simp only [act, thrStep, JobT.tstep] at ha
    injection ha with ha; injection ha with e1 e2; subst e1; subst e2
    refine quick _ _ _ ?_ ?_ h3 ?_ rfl rfl
    all_goals first
      | exact h5
      | simp [NetT]
  | load ps n =>
    have hnet : net = .idle := h2
    subst hnet
    have hfb : file ≠ .broken := hf.1
    have ht' : JobT.tstep ⟨tk, i, .load ps n, cur, names, noList, crashed, file⟩ c =
        some (⟨tk, i, .trunc (file.content ++ ps) n, cur, names, noList, crashed, file⟩, .tau) := by
      cases file with
      | broken => exact absurd rfl hfb
      | _ => rfl
    simp only [act, thrStep, ht'] at ha
    injection ha with ha; injection ha with e1 e2; subst e1; subst e2
    refine quick _ _ _ ?_ ?_ h3 ?_ rfl rfl
    · simp
    · simp [NetT]
    · cases n <;> exact h5
  | trunc ps n =>
    have hnet : net = .idle := h2
    subst hnet
    simp only [act, thrStep, JobT.tstep] at ha
    injection ha with ha; injection ha with e1 e2; subst e1; subst e2
    refine quick _ _ _ ?_ ?_ h3 ?_ rfl rfl
    · simp
    · simp [NetT]
    · cases n <;> exact h5
  | dump ps n =>
    have hnet : net = .idle := h2
    subst hnet
    simp only [act, thrStep, JobT.tstep] at ha
    injection ha with ha; injection ha with e1 e2; subst e1; subst e2
    refine quick _ _ _ ?_ ?_ h3 ?_ rfl rfl
    · cases n <;> simp [JobT.Nxt.pc]
    · cases n <;> simp [NetT, JobT.Nxt.pc]
    · cases n <;> exact h5

theorem measuredAll_append (h es : List I21.Ev) :
    measuredAll (h ++ es) = measuredAll h ++ measuredAll es := List.flatMap_append
theorem fetchedAll_append (h es : List I21.Ev) :
    fetchedAll (h ++ es) = fetchedAll h ++ fetchedAll es := List.flatMap_append
theorem measuredFor_append (h es : List I21.Ev) (n : Nat) :
    measuredFor (h ++ es) n = measuredFor h n ++ measuredFor es n := List.flatMap_append

theorem none_measured {es : List I21.Ev} (he : ∀ n ps, .measured n ps ∉ es) :
    measuredAll es = [] ∧ ∀ n, measuredFor es n = [] := by
  induction es with
  | nil => exact ⟨rfl, fun _ => rfl⟩
  | cons e es ih =>
    obtain ⟨h1, h2⟩ := ih (fun n ps h => he n ps (by simp [h]))
    have e1 : measuredAll (e :: es) = measuredAll [e] ++ measuredAll es :=
      measuredAll_append [e] es
    have e2 : ∀ n, measuredFor (e :: es) n = measuredFor [e] n ++ measuredFor es n :=
      fun n => measuredFor_append [e] es n
    rw [e1, h1]
    refine ⟨?_, fun n => ?_⟩
    · cases e <;> first | rfl | exact absurd List.mem_cons_self (he _ _)
    · rw [e2 n, h2 n]
      cases e <;> first | rfl | exact absurd List.mem_cons_self (he _ _)

theorem stage_cls {tasks : List Task} {i : Nat} {cp : I21.CPc} {net : Net} {pc : JobT.Pc}
    (hk : stageOf tasks i cp net pc = .started ∨ stageOf tasks i cp net pc = .running) :
    JobT.cls pc = .mid := by
  revert hk
  cases pc with
  | ask q => cases q <;> simp [stageOf, JobT.cls]
  | wait q =>
    cases q <;> simp [stageOf, JobT.cls]
    cases net with
    | exec q => simp only; split <;> simp
    | _ => simp
  | load _ n => cases n <;> simp [stageOf, JobT.cls]
  | trunc _ n => cases n <;> simp [stageOf, JobT.cls]
  | dump _ n => cases n <;> simp [stageOf, JobT.cls]
  | _ => simp [stageOf, JobT.cls]

/-- The other actions do not concern the thread's own state; what remains is said about the
component and the request. -/
theorem cinv_dev {tasks : List Task} {d₀ : I21.Dev} {hd : List I21.Ev} {h : List Ev} {s : St} {d' : I21.Dev} {n' : Net}
    {es : List I21.Ev} {b : I21.Act} (h0 : I21.Hist hd d₀) (hh : Hist tasks d₀ h s) (hi : CInv h s)
    (hb : I21.act s.d b = some (d', es))
    (hc : (∃ t, .begun t ∈ es) ∨ .wasReset ∈ es → inCache s.d = [])
    (hm : ∀ n ps, .measured n ps ∈ es → es = [.measured n ps] ∧ n ∈ e2ePresent s.d)
    (h2 : NetT n' s.t.pc) (h3 : NetC n' d'.cpc) (h4 : Fresh d')
    (h5 : StageD s.t.i d' (stageOf s.t.tasks s.t.i d'.cpc n' s.t.pc))
    (h6 : flight s ++ fetchedAll es = flightOf n' d'.cpc) :
    CInv (h ++ es.map .dev) ⟨s.t, d', n'⟩ := by
  have hinv := inv_hist (dev_hist h0 hh)
  have hs := (JobT.tinv (thr_hist hh)).sent
  have e1 : thrPart (h ++ es.map .dev) = thrPart h := by
    rw [thrPart_append, thrPart_dev, List.append_nil]
  have e2 : devPart (h ++ es.map .dev) = devPart h ++ es := by
    rw [devPart_append, devPart_dev]
  have hp := pts_act hinv hb hc hi.pts
  have hown : measuredAll (devPart h ++ es) =
        (JobT.starts (thrPart h)).flatMap (measuredFor (devPart h ++ es)) ∧
      ∀ n, n ∉ JobT.starts (thrPart h) → measuredFor (devPart h ++ es) n = [] := by
    by_cases hex : ∃ n ps, .measured n ps ∈ es
    · obtain ⟨n, ps, hmem⟩ := hex
      obtain ⟨rfl, hn⟩ := hm n ps hmem
      have hst : n = s.t.i ∧ JobT.starts (thrPart h) = List.range (s.t.i + 1) := by
        have h5' := hi.stg
        unfold stage at h5'
        have hne : e2ePresent s.d ≠ [] := fun h => by rw [h] at hn; cases hn
        have hk : (stageOf s.t.tasks s.t.i s.d.cpc s.net s.t.pc = .started ∨
            stageOf s.t.tasks s.t.i s.d.cpc s.net s.t.pc = .running) ∧ n = s.t.i := by
          cases hk : stageOf s.t.tasks s.t.i s.d.cpc s.net s.t.pc with
          | quiet => rw [hk] at h5'; exact absurd h5'.1 hne
          | final => rw [hk] at h5'; exact absurd h5' hne
          | started =>
            rw [hk] at h5'
            rcases h5' with h5' | h5'
            · exact absurd h5' hne
            · rw [h5'] at hn
              exact ⟨.inl rfl, by simpa using hn⟩
          | running =>
            rw [hk] at h5'
            rcases h5' with h5' | ⟨h5', _, h5''⟩
            · exact absurd h5' hne
            · rw [e2ePresent, h5', h5''] at hn
              exact ⟨.inr rfl, by simpa using hn⟩
        have hcls := stage_cls hk.1
        rw [hcls] at hs
        exact ⟨hk.2, hs.1⟩
      obtain ⟨rfl, hst⟩ := hst
      have o1 := hi.own
      have o2 := hi.own'
      rw [hst] at o1 o2 ⊢
      have key : ∀ m, m ≠ s.t.i →
          measuredFor (devPart h ++ [.measured s.t.i ps]) m = measuredFor (devPart h) m := by
        intro m hm'
        rw [measuredFor_append]
        have : ¬ s.t.i = m := fun e => hm' e.symm
        simp [measuredFor, this]
      refine ⟨?_, ?_⟩
      · rw [measuredAll_append, o1, List.range_succ, List.flatMap_append, List.flatMap_append]
        have : (List.range s.t.i).flatMap (measuredFor (devPart h ++ [.measured s.t.i ps])) =
            (List.range s.t.i).flatMap (measuredFor (devPart h)) := by
          rw [List.flatMap_def, List.flatMap_def]
          congr 1
          apply List.map_congr_left
          intro m hm'
          exact key m (by have := List.mem_range.mp hm'; omega)
        rw [this]
        simp [measuredAll, measuredFor_append]
        simp [measuredFor]
      · intro m hm'
        rw [key m (fun e => hm' (by simp [e]))]
        exact o2 m hm'
    · have hex' : ∀ n ps, .measured n ps ∉ es := fun n ps h => hex ⟨n, ps, h⟩
      obtain ⟨k1, k2⟩ := none_measured hex'
      have k3 : measuredFor (devPart h ++ es) = measuredFor (devPart h) := by
        funext n
        rw [measuredFor_append, k2, List.append_nil]
      rw [measuredAll_append, k1, k3, List.append_nil]
      exact ⟨hi.own, hi.own'⟩
  refine ⟨hi.stop, h2, h3, h4, h5, ?_, ?_, ?_, ?_⟩
  · rw [e1, e2, fetchedAll_append, hi.link, List.append_assoc, h6]
    rfl
  · rw [e2]; exact hp
  · rw [e1, e2]; exact hown.1
  · rw [e1, e2]; exact hown.2

theorem wstep_simple {d d' : I21.Dev} {c : I21.Choice} {es : List I21.Ev}
    (ha : I21.wstep d c = some (d', es)) :
    d'.cpc = d.cpc ∧ fetchedAll es = [] ∧ ∀ n ps, .measured n ps ∈ es → es = [.measured n ps] := by
  unfold I21.wstep at ha
  split at ha
  all_goals (try split at ha)
  all_goals first
    | (cases ha; done)
    | skip
  all_goals (injection ha with ha; injection ha with ha1 ha2; subst ha1; subst ha2)
  all_goals refine ⟨rfl, rfl, ?_⟩
  all_goals simp

theorem cinv_work {tasks : List Task} {d₀ : I21.Dev} {hd : List I21.Ev} {h : List Ev} {s s' : St} {c : I21.Choice} {es : List Ev}
    (h0 : I21.Hist hd d₀) (hh : Hist tasks d₀ h s) (hi : CInv h s) (ha : act s (.work c) = some (s', es)) :
    CInv (h ++ es) s' := by
  have hinv := inv_hist (dev_hist h0 hh)
  simp only [act] at ha
  cases hw : I21.wstep s.d c with
  | none => rw [hw] at ha; cases ha
  | some r =>
    obtain ⟨d', es'⟩ := r
    rw [hw] at ha
    injection ha with ha; injection ha with e1 e2; subst e1; subst e2
    obtain ⟨w1, w2, w3, w4, w5, w6, w7, w8⟩ := wstep_present hinv hw
    obtain ⟨k1, k2, k3⟩ := wstep_simple hw
    have hpres : e2ePresent s.d = [] ∨ e2ePresent s.d = [s.t.i] := by
      have := hi.stg
      cases hk : stage s with
      | quiet => rw [hk] at this; exact .inl this.1
      | final => rw [hk] at this; exact .inl this
      | started => rw [hk] at this; exact this
      | running =>
        rw [hk] at this
        rcases this with h | ⟨h1, _, h2⟩
        · exact .inl h
        · exact .inr (by rw [e2ePresent, h1, h2]; rfl)
    refine cinv_dev h0 (b := .worker c) hh hi hw ?_ ?_ hi.netT ?_ (w5 _ hpres hi.fresh) ?_ ?_
    · rintro (⟨t, ht⟩ | hr)
      · exact hi.fresh (.inr (w7 t ht))
      · exact absurd hr w8
    · exact fun n ps hm => ⟨k3 n ps hm, w6 n ps hm⟩
    · rw [k1]; exact hi.netC
    · rw [k1]
      have := hi.stg
      change StageD s.t.i s.d (stageOf s.t.tasks s.t.i s.d.cpc s.net s.t.pc) at this
      cases hk : stageOf s.t.tasks s.t.i s.d.cpc s.net s.t.pc with
      | quiet => rw [hk] at this; exact ⟨w1 this.1, w4 this.1 this.2⟩
      | final => rw [hk] at this; exact w1 this
      | started =>
        rw [hk] at this
        rcases this with h | h
        · exact .inl (w1 h)
        · rcases w2 _ h with h | h
          · exact .inr h
          · exact .inl h
      | running =>
        rw [hk] at this
        rcases this with h | h
        · exact .inl (w1 h)
        · rcases w3 _ h with h | h
          · exact .inr h
          · exact .inl h
    · rw [k1, k2, List.append_nil]; rfl

theorem net_wait {net : Net} {pc : JobT.Pc} {q : JobT.Q} (hT : NetT net pc) (hn : net = .exec q) :
    pc = .wait q := by
  subst hn
  cases pc with
  | wait q' => simp [NetT] at hT; rw [hT]
  | _ => cases hT

theorem net_data {net : Net} {cp : I21.CPc} {pc : JobT.Pc} (hC : NetC net cp) (hT : NetT net pc)
    (hs : pc ≠ .wait .stop) (hc : cp = .gLock ∨ cHolds cp = true) :
    (net = .exec .data ∧ pc = .wait .data) ∨ (net = .exec .final ∧ pc = .wait .final) := by
  have hno : ¬ (cp = .idle ∨ cp = .mEmpty ∨ cp = .mPut) := by
    rintro (rfl | rfl | rfl) <;> simp [cHolds] at hc
  cases hn : net with
  | exec q =>
    have hw := net_wait hT hn
    subst hn
    cases q
    case data => exact .inl ⟨rfl, hw⟩
    case final => exact .inr ⟨rfl, hw⟩
    case reset => obtain ⟨b, rfl⟩ := hC; simp [cHolds] at hc
    case stop => exact absurd hw hs
    all_goals exact hC.elim
  | _ => subst hn; exact absurd hC hno

theorem net_reset {net : Net} {b : Bool} {pc : JobT.Pc} (hC : NetC net (.rJoin b))
    (hT : NetT net pc) : net = .exec .reset ∧ pc = .wait .reset := by
  cases hn : net with
  | exec q =>
    have hw := net_wait hT hn
    subst hn
    cases q
    case reset => exact ⟨rfl, hw⟩
    all_goals simp [NetC, cHolds] at hC
  | _ => subst hn; simp [NetC] at hC

theorem net_other {net : Net} {cp : I21.CPc} (hC : NetC net cp) (hc : cp = .mEmpty ∨ cp = .mPut)
    (q : JobT.Q) : net ≠ .exec q := by
  rintro rfl
  rcases hc with rfl | rfl <;> cases q <;> simp [NetC, cHolds] at hC

theorem stageD_same {i : Nat} {d d' : I21.Dev} {st : Stage} (h : StageD i d st)
    (hp : e2ePresent d' = e2ePresent d) (ha : ∀ i, Ann i d → Ann i d')
    (hc : inCache d = [] → inCache d' = []) : StageD i d' st := by
  cases st with
  | quiet => exact ⟨hp.trans h.1, hc h.2⟩
  | final => exact hp.trans h
  | started => rw [StageD, hp]; exact h
  | running =>
    rcases h with h | h
    · exact .inl (hp.trans h)
    · exact .inr (ha _ h)

theorem answered_nil (net : Net) : answered net [] = net := by cases net <;> rfl
theorem answered_fetched (net : Net) (r : Option (List Nat)) :
    answered net [.fetched r] = net := by cases net <;> rfl
theorem answered_other {net : Net} (hn : ∀ q, net ≠ .exec q) (es : List I21.Ev) :
    answered net es = net := by
  cases net with
  | exec q => exact absurd rfl (hn q)
  | _ => rfl

theorem stageOf_other {tasks : List Task} {i : Nat} {cp cp' : I21.CPc} {net : Net}
    (hn : ∀ q, net ≠ .exec q) (pc : JobT.Pc) :
    stageOf tasks i cp net pc = stageOf tasks i cp' net pc := by
  cases pc with
  | wait q =>
    cases q
    case final =>
      cases net with
      | exec q => exact absurd rfl (hn q)
      | _ => rfl
    all_goals rfl
  | ask q => cases q <;> rfl
  | load _ n => cases n <;> rfl
  | trunc _ n => cases n <;> rfl
  | dump _ n => cases n <;> rfl
  | _ => rfl

theorem flightOf_other {cp cp' : I21.CPc} {net : Net} (hn : ∀ q, net ≠ .exec q) :
    flightOf net cp = flightOf net cp' := by
  cases net with
  | exec q => exact absurd rfl (hn q)
  | ans a =>
    cases a with
    | closed => rfl
    | reply ok st ps => cases ok <;> cases ps <;> rfl
  | _ => rfl

theorem netC_other {cp cp' : I21.CPc} {net : Net} (hn : ∀ q, net ≠ .exec q)
    (h : cp' = .idle ∨ cp' = .mEmpty ∨ cp' = .mPut) (_ : NetC net cp) : NetC net cp' := by
  cases net with
  | exec q => exact absurd rfl (hn q)
  | _ => exact h

theorem net_idle {net : Net} {cp : I21.CPc} (hC : NetC net cp) (hc : cp = .idle) (q : JobT.Q) :
    net ≠ .exec q := by
  rintro rfl
  subst hc
  cases q <;> simp [NetC, cHolds] at hC

theorem cinv_measure {tasks : List Task} {d₀ : I21.Dev} {hd : List I21.Ev} {h : List Ev} {s s' : St} {es : List Ev}
    (h0 : I21.Hist hd d₀) (hh : Hist tasks d₀ h s) (hi : CInv h s) (ha : act s .measure = some (s', es)) :
    CInv (h ++ es) s' := by
  simp only [act] at ha
  split at ha
  · next hc =>
    injection ha with ha; injection ha with e1 e2; subst e1; subst e2
    obtain ⟨m1, m2, m3, m4, m5, m6⟩ := @measure_present s.d
    have hcp : handedOut (I21.cbegin s.d .measure).1.cpc = handedOut s.d.cpc := by
      rcases m5 with h | h
      · rw [h]
      · rw [h, hc]; rfl
    have hst : stageOf s.t.tasks s.t.i (I21.cbegin s.d .measure).1.cpc s.net s.t.pc = stage s := by
      unfold stage
      cases s.t.pc with
      | wait q => cases q <;> simp only [stageOf, hcp]
      | ask q => cases q <;> rfl
      | load _ n => cases n <;> rfl
      | trunc _ n => cases n <;> rfl
      | dump _ n => cases n <;> rfl
      | _ => rfl
    have hev : ∀ e, e ∈ (I21.cbegin s.d .measure).2 → e = .mRefused := by
      intro e he
      rcases m6 with h | h
      · rw [h] at he; cases he
      · rw [h] at he; simpa using he
    refine cinv_dev h0 (b := .cmd .measure) hh hi (by simp [I21.act, hc]) ?_ ?_ hi.netT ?_
      (m4 hc hi.fresh) ?_ ?_
    · rintro (⟨t, ht⟩ | hr)
      · cases hev _ ht
      · cases hev _ hr
    · intro n ps hm
      cases hev _ hm
    · have hne := net_idle hi.netC hc
      refine netC_other hne ?_ hi.netC
      rcases m5 with h | h
      · rw [h]; exact .inl hc
      · rw [h]; exact .inr (.inl rfl)
    · rw [hst]
      have := hi.stg
      cases hk : stage s with
      | quiet => rw [hk] at this; exact ⟨m1.trans this.1, (m3 hc).trans this.2⟩
      | final => rw [hk] at this; exact m1.trans this
      | started => rw [hk] at this; rw [StageD, m1]; exact this
      | running =>
        rw [hk] at this
        rcases this with h | h
        · exact .inl (m1.trans h)
        · exact .inr (m2 _ h)
    · have : fetchedAll (I21.cbegin s.d .measure).2 = [] := by
        rcases m6 with h | h <;> rw [h] <;> rfl
      rw [this, List.append_nil]
      simp only [flight, flightOf, hcp]
  · cases ha

theorem cinv_cont {tasks : List Task} {d₀ : I21.Dev} {hd : List I21.Ev} {h : List Ev} {s s' : St} {es : List Ev}
    (h0 : I21.Hist hd d₀) (hh : Hist tasks d₀ h s) (hi : CInv h s) (ha : act s .cont = some (s', es)) :
    CInv (h ++ es) s' := by
  have hinv := inv_hist (dev_hist h0 hh)
  simp only [act] at ha
  cases hw : I21.cstep s.d with
  | none => rw [hw] at ha; cases ha
  | some r =>
    obtain ⟨d', es'⟩ := r
    rw [hw] at ha
    injection ha with ha; injection ha with e1 e2; subst e1; subst e2
    obtain ⟨w1, w2, w3, w4, w5⟩ := cstep_present hinv hw
    have hnT := hi.netT
    have hnC := hi.netC
    have hst : StageD s.t.i s.d (stageOf s.t.tasks s.t.i s.d.cpc s.net s.t.pc) := hi.stg
    have hw' := hw
    unfold I21.cstep at hw
    cases hcp : s.d.cpc with
    | idle => rw [hcp] at hw; cases hw
    | gLock =>
      rw [hcp] at hw hnC hst
      simp only at hw
      split at hw
      · injection hw with hw; injection hw with e1 e2; subst e1; subst e2
        have w1' := (by simpa using w1 : _ ∧ _)
        rw [answered_nil]
        refine cinv_dev h0 (b := .cont) hh hi hw' (by simp) (by simp) hnT ?_ (w3 hi.fresh) ?_ ?_
        · rcases net_data hnC hnT hi.stop (.inl rfl) with ⟨h1, h2⟩ | ⟨h1, h2⟩
          all_goals rw [h1]; simp [NetC, cHolds]
        · refine stageD_same ?_ w1'.1 w1'.2 w2
          rcases net_data hnC hnT hi.stop (.inl rfl) with ⟨h1, h2⟩ | ⟨h1, h2⟩
          all_goals rw [h1, h2] at hst ⊢; exact hst
        · simp only [flight, hcp]
          rcases net_data hnC hnT hi.stop (.inl rfl) with ⟨h1, h2⟩ | ⟨h1, h2⟩
          all_goals rw [h1]; rfl
      · cases hw
    | gRead =>
      rw [hcp] at hw hnC hst
      injection hw with hw; injection hw with e1 e2; subst e1; subst e2
      have w1' := (by simpa using w1 : _ ∧ _)
      rw [answered_fetched]
      refine cinv_dev h0 (b := .cont) hh hi hw' (by simp) (by simp) hnT ?_ (w3 hi.fresh) ?_ ?_
      · rcases net_data hnC hnT hi.stop (.inr rfl) with ⟨h1, h2⟩ | ⟨h1, h2⟩
        all_goals rw [h1]; simp [NetC, cHolds]
      · rcases net_data hnC hnT hi.stop (.inr rfl) with ⟨h1, h2⟩ | ⟨h1, h2⟩
        · rw [h1, h2] at hst ⊢
          exact stageD_same hst w1'.1 w1'.2 w2
        · rw [h1, h2] at hst ⊢
          exact ⟨w1'.1.trans hst, rfl⟩
      · simp only [flight, hcp]
        rcases net_data hnC hnT hi.stop (.inr rfl) with ⟨h1, h2⟩ | ⟨h1, h2⟩
        all_goals
          rw [h1]
          simp only [flightOf, handedOut, fetchedAll]
          cases s.d.data <;> simp
    | gClear r =>
      rw [hcp] at hw hnC hst
      injection hw with hw; injection hw with e1 e2; subst e1; subst e2
      have w1' := (by simpa using w1 : _ ∧ _)
      rw [answered_nil]
      refine cinv_dev h0 (b := .cont) hh hi hw' (by simp) (by simp) hnT ?_ (w3 hi.fresh) ?_ ?_
      · rcases net_data hnC hnT hi.stop (.inr rfl) with ⟨h1, h2⟩ | ⟨h1, h2⟩
        all_goals rw [h1]; simp [NetC, cHolds]
      · refine stageD_same ?_ w1'.1 w1'.2 w2
        rcases net_data hnC hnT hi.stop (.inr rfl) with ⟨h1, h2⟩ | ⟨h1, h2⟩
        all_goals rw [h1, h2] at hst ⊢; exact hst
      · simp only [flight, hcp]
        rcases net_data hnC hnT hi.stop (.inr rfl) with ⟨h1, h2⟩ | ⟨h1, h2⟩
        all_goals rw [h1]; simp [flightOf, handedOut, fetchedAll]
    | gRet r =>
      rw [hcp] at hw hnC hst
      injection hw with hw; injection hw with e1 e2; subst e1; subst e2
      have w1' := (by simpa using w1 : _ ∧ _)
      rcases net_data hnC hnT hi.stop (.inr rfl) with ⟨h1, h2⟩ | ⟨h1, h2⟩
      all_goals
        rw [h1] at hst ⊢
        refine cinv_dev h0 (b := .cont) hh hi hw' (by simp) (by simp) ?_ (.inl rfl) (w3 hi.fresh) ?_ ?_
        · rw [h2]; exact .inr (.inr ⟨_, rfl, by simp⟩)
        · refine stageD_same ?_ w1'.1 w1'.2 w2
          rw [h2] at hst ⊢; exact hst
        · simp only [flight, hcp, h1, answered, reply]
          cases r <;> simp [flightOf, handedOut, fetchedAll]
    | mEmpty =>
      have hne := net_other hnC (.inl hcp)
      rw [hcp] at hw
      have hd : d'.cpc = .idle ∨ d'.cpc = .mPut := by
        cases hq : s.d.queue with
        | nil =>
          rw [hq] at hw
          injection hw with hw; injection hw with e1 e2; subst e1; exact .inr rfl
        | cons x q =>
          rw [hq] at hw
          injection hw with hw; injection hw with e1 e2; subst e1; exact .inl rfl
      have he : .wasReset ∉ es' ∧ fetchedAll es' = [] := by
        cases hq : s.d.queue with
        | nil =>
          rw [hq] at hw
          injection hw with hw; injection hw with e1 e2; subst e2; exact ⟨by simp, rfl⟩
        | cons x q =>
          rw [hq] at hw
          injection hw with hw; injection hw with e1 e2; subst e2; exact ⟨by simp, rfl⟩
      rcases w1 with ⟨w1, w1', w1''⟩ | ⟨rfl, _⟩
      · rw [answered_other hne]
        refine cinv_dev h0 (b := .cont) hh hi hw' ?_ (fun n ps hm => absurd hm (w4 n ps)) hnT ?_
          (w3 hi.fresh) ?_ ?_
        · rintro (⟨t, ht⟩ | hr)
          · exact absurd ht (w5 t)
          · exact absurd hr w1''
        · exact netC_other hne (by rcases hd with h | h <;> simp [h]) hnC
        · rw [stageOf_other hne (cp' := s.d.cpc)]
          exact stageD_same hst w1 w1' w2
        · rw [he.2, List.append_nil]
          exact flightOf_other hne
      · simp at he
    | mPut =>
      have hne := net_other hnC (.inr hcp)
      rw [hcp] at hw
      injection hw with hw; injection hw with e1 e2; subst e1; subst e2
      have w1' := (by simpa using w1 : _ ∧ _)
      rw [answered_other hne]
      refine cinv_dev h0 (b := .cont) hh hi hw' (by simp) (by simp) hnT
        (netC_other hne (.inl rfl) hnC) (w3 hi.fresh) ?_ ?_
      · rw [stageOf_other hne (cp' := s.d.cpc)]
        exact stageD_same hst w1'.1 w1'.2 w2
      · rw [show fetchedAll [.mAccepted] = [] from rfl, List.append_nil]
        exact flightOf_other hne
    | rJoin b =>
      rw [hcp] at hw hnC hst
      simp only at hw
      split at hw
      · injection hw with hw; injection hw with e1 e2; subst e1; subst e2
        obtain ⟨h1, h2⟩ := net_reset hnC hnT
        rcases w1 with ⟨_, _, h⟩ | ⟨_, k1, k2, k3, _⟩
        · exact absurd (by simp) h
        rw [h1, h2] at hst
        rw [h1]
        refine cinv_dev h0 (b := .cont) hh hi hw' (fun _ => hst.2) (by simp) ?_ (.inl rfl) (w3 hi.fresh)
          ?_ ?_
        · rw [h2]; exact .inr (.inr ⟨_, rfl, by simp⟩)
        · rw [h2]; exact ⟨k1, k2⟩
        · simp [flight, hcp, h1, flightOf, handedOut, fetchedAll, answered]
      · cases hw

theorem cinv_take {tasks : List Task} {d₀ : I21.Dev} {hd : List I21.Ev} {h : List Ev} {s s' : St} {acc : Bool} {es : List Ev}
    (h0 : I21.Hist hd d₀) (hh : Hist tasks d₀ h s) (hi : CInv h s) (ha : act s (.take acc) = some (s', es)) :
    CInv (h ++ es) s' := by
  have hinv := inv_hist (dev_hist h0 hh)
  simp only [act] at ha
  cases hnet : s.net with
  | req q =>
    rw [hnet] at ha
    simp only at ha
    split at ha
    · next hc =>
      injection ha with ha; injection ha with e1 e2; subst e1; subst e2
      have hpc : s.t.pc = .wait q := by
        have hT := hi.netT
        rw [hnet] at hT
        cases hpc : s.t.pc with
        | wait q' =>
          rw [hpc] at hT
          simp [NetT] at hT
          rw [hT]
        | _ => rw [hpc] at hT; cases hT
      have hst : StageD s.t.i s.d (stageOf s.t.tasks s.t.i s.d.cpc s.net s.t.pc) := hi.stg
      rw [hnet, hpc] at hst
      have hfl : flight s = [] := by simp [flight, hnet, flightOf]
      -- a reply without a step of the component
      have quick : ∀ a : JobT.Ans, (∀ ok st ps, a = .reply ok st (some ps) →
            q = .data ∨ q = .final ∨ q = .stop) →
          StageD s.t.i s.d (stageOf s.t.tasks s.t.i s.d.cpc (.ans a) (.wait q)) →
          flightOf (.ans a) s.d.cpc = [] → CInv (h ++ []) { s with net := .ans a } := by
        intro a q1 q2 q3
        rw [List.append_nil]
        refine ⟨hi.stop, ?_, .inl hc, hi.fresh, ?_, ?_, hi.pts, hi.own, hi.own'⟩
        · rw [hpc]; exact .inr (.inr ⟨a, rfl, q1⟩)
        · simp only [stage, hpc]; exact q2
        · rw [hi.link, hfl, flight, q3]
      cases q with
      | ready => exact quick _ (by simp [status]) hst rfl
      | running =>
        have hk : ∃ k, s.t.tasks[s.t.i]? = some k := by
          have ht := JobT.tinv (thr_hist hh)
          have hs := ht.sent
          rw [hpc] at hs
          rw [ht.tasks_eq]
          exact ⟨_, List.getElem?_eq_getElem hs.2⟩
        obtain ⟨k, hk⟩ := hk
        refine quick _ (by simp [status]) ?_ rfl
        have hst' : e2ePresent s.d = [] ∨ e2ePresent s.d = [s.t.i] := hst
        simp only [status, stageOf]
        cases hr : s.d.running with
        | none => simpa [JobT.isRunning, StageD] using hst'
        | some x =>
          cases x with
          | measure => simpa [JobT.isRunning, JobT.SD.wrong, hk, StageD] using hst'
          | task n =>
            have hh' := running_held hinv hr
            rcases hst' with hst' | hst'
            · rw [e2ePresent, hh'] at hst'; cases hst'
            · rw [e2ePresent, hh'] at hst'
              simp at hst'
              obtain ⟨rfl, hst'⟩ := hst'
              have : Ann s.t.i s.d := ⟨hh', hr, hst'⟩
              simpa [JobT.isRunning, JobT.SD.wrong, StageD] using .inr this
      | status =>
        refine quick _ (by simp [status]) ?_ rfl
        have hst' : e2ePresent s.d = [] ∨ Ann s.t.i s.d := hst
        simp only [status, stageOf]
        rcases hst' with hst' | hst'
        · generalize JobT.isOver _ _ _ = b
          cases b with
          | true => exact hst'
          | false => exact .inl hst'
        · rw [hst'.2.1]
          simpa [JobT.isOver, JobT.SD.wrong, StageD] using .inr hst'
      | start =>
        have hst' : e2ePresent s.d = [] ∧ inCache s.d = [] := hst
        cases acc with
        | false => exact quick _ (by simp) (.inl hst'.1) rfl
        | true =>
          have hp : e2ePresent (I21.cbegin s.d (.start s.t.i)).1 = [s.t.i] := by
            have h1 := hst'.1
            simp only [e2ePresent, List.append_eq_nil_iff] at h1
            simp only [e2ePresent, I21.cbegin, tasksOf_append, h1.2, List.nil_append]
            exact congrArg (· ++ [s.t.i]) h1.1
          change CInv (h ++ (I21.cbegin s.d (.start s.t.i)).2.map .dev) _
          refine cinv_dev h0 (b := .cmd (.start s.t.i)) hh hi (by simp [I21.act, hc])
            (by simp [I21.cbegin]) (by simp [I21.cbegin]) ?_ (.inl hc) (fun _ => hst'.2) ?_ ?_
          · rw [hpc]; exact .inr (.inr ⟨_, rfl, by simp⟩)
          · rw [hpc]; exact .inr hp
          · rw [hfl]; rfl
      | data =>
        change CInv (h ++ (I21.cbegin s.d .data).2.map .dev) _
        refine cinv_dev h0 (b := .cmd .data) hh hi (by simp [I21.act, hc])
            (by simp [I21.cbegin]) (by simp [I21.cbegin]) ?_ (.inl rfl) ?_ ?_ ?_
        · rw [hpc]; exact .inr (.inl rfl)
        · have := hi.fresh
          simpa [Fresh, I21.cbegin, inCache, hc] using this
        · rw [hpc]; exact hst
        · rw [hfl]; rfl
      | final =>
        change CInv (h ++ (I21.cbegin s.d .data).2.map .dev) _
        refine cinv_dev h0 (b := .cmd .data) hh hi (by simp [I21.act, hc])
            (by simp [I21.cbegin]) (by simp [I21.cbegin]) ?_ (.inl rfl) ?_ ?_ ?_
        · rw [hpc]; exact .inr (.inl rfl)
        · have := hi.fresh
          simpa [Fresh, I21.cbegin, inCache, hc] using this
        · rw [hpc]; exact hst
        · rw [hfl]; rfl
      | reset =>
        change CInv (h ++ (I21.cbegin s.d (.reset true)).2.map .dev) _
        refine cinv_dev h0 (b := .cmd (.reset true)) hh hi (by simp [I21.act, hc])
            (by simp [I21.cbegin]) (by simp [I21.cbegin]) ?_ ⟨true, rfl⟩ ?_ ?_ ?_
        · rw [hpc]; exact .inr (.inl rfl)
        · have := hi.fresh
          simpa [Fresh, I21.cbegin, inCache, hc] using this
        · rw [hpc]
          have hst' : e2ePresent s.d = [] ∧ inCache s.d = [] := hst
          refine ⟨hst'.1, ?_⟩
          simpa [I21.cbegin, inCache, hc] using hst'.2
        · rw [hfl]; rfl
      | stop => exact absurd hpc hi.stop
    · cases ha
  | _ => rw [hnet] at ha; cases ha

theorem thr_eq {s s' : St} {c : JobT.Choice} {es : List Ev} (ha : act s (.thr c) = some (s', es)) :
    ∃ c' n e, thrStep s c' n = some (s', es) ∧ es = [.thr e] ∧ JobT.tstep s.t c' = some (s'.t, e) ∧
      (∀ q, s.t.pc = .wait q → s.net = .ans c'.ans) := by
  have key : ∀ c' n, thrStep s c' n = some (s', es) →
      ∃ e, es = [.thr e] ∧ JobT.tstep s.t c' = some (s'.t, e) := by
    intro c' n hs
    simp only [thrStep] at hs
    cases ht : JobT.tstep s.t c' with
    | none => rw [ht] at hs; cases hs
    | some r =>
      obtain ⟨t', e⟩ := r
      rw [ht] at hs
      injection hs with hs; injection hs with h1 h2; subst h1; subst h2
      exact ⟨e, rfl, rfl⟩
  simp only [act] at ha
  cases hpc : s.t.pc with
  | wait q =>
    rw [hpc] at ha
    cases hnet : s.net with
    | ans a =>
      rw [hnet] at ha
      obtain ⟨e, h1, h2⟩ := key _ _ ha
      exact ⟨_, _, e, ha, h1, h2, fun _ _ => rfl⟩
    | _ => rw [hnet] at ha; cases ha
  | _ =>
    rw [hpc] at ha
    obtain ⟨e, h1, h2⟩ := key _ _ ha
    exact ⟨_, _, e, ha, h1, h2, fun _ h => by cases h⟩

/-- Nothing is delivered to a thread which has given up, or is giving up. -/
theorem gone_step {s s' : St} {a : Act} {es : List Ev} (ha : act s a = some (s', es)) :
    (Gone s → Gone s') ∧ (Gone s' → JobT.delivered (thrPart es) = []) := by
  have same : ∀ es' : List I21.Ev, thrPart (es'.map .dev) = [] := thrPart_dev
  cases a with
  | thr c =>
    obtain ⟨c', n, e, h1, rfl, h3, h4⟩ := thr_eq ha
    refine ⟨?_, ?_⟩
    · rintro (h | h | ⟨h, q, hq⟩)
      · simp only [JobT.tstep, h] at h3
        injection h3 with h3; injection h3 with h3 _
        exact .inr (.inl (by rw [← h3]))
      · simp only [JobT.tstep, h] at h3
        cases h3
      · have := h4 q hq
        rw [h] at this
        injection this with this
        simp only [JobT.tstep, hq, ← this] at h3
        injection h3 with h3; injection h3 with h3 _
        exact .inl (by rw [← h3]; rfl)
    · intro hg
      change JobT.delivered [e] = []
      cases hpc : s.t.pc with
      | wait q =>
        simp only [JobT.tstep, hpc] at h3
        injection h3 with h3; injection h3 with h3 h5
        subst h5
        have hg' : JobT.next s.t.tasks[s.t.i]? q c'.ans c'.late = .crash := by
          rcases hg with h | h | ⟨_, q', h⟩
          · rw [← h3] at h; exact h
          · rw [← h3] at h; exact absurd h JobT.next_ne.1
          · rw [← h3] at h; exact absurd h (JobT.next_ne.2.2 q')
        cases ha' : c'.ans with
        | closed => cases q <;> rfl
        | reply ok st ps =>
          rw [ha'] at hg'
          cases q
          case data => cases ok <;> cases ps <;> simp [JobT.next, JobT.store] at hg'
          case stop => cases ok <;> cases ps <;> simp [JobT.next, JobT.store] at hg'
          case final => cases ok <;> cases ps <;> simp [JobT.next, JobT.store] at hg'
          all_goals rfl
      | _ =>
        simp only [JobT.tstep, hpc] at h3
        (try split at h3)
        all_goals first
          | (cases h3; done)
          | (injection h3 with h3; injection h3 with h3 h5; subst h5; rfl)
  | tell ns =>
    injection ha with ha; injection ha with h1 h2; subst h1; subst h2
    exact ⟨fun h => h, fun _ => rfl⟩
  | take acc =>
    simp only [act] at ha
    cases hnet : s.net with
    | req q =>
      rw [hnet] at ha
      simp only at ha
      split at ha
      · injection ha with ha; injection ha with h1 h2; subst h1; subst h2
        refine ⟨?_, fun _ => by rw [same]; rfl⟩
        have ht : (take s q acc).1.t = s.t := by
          cases q
          case start => cases acc <;> rfl
          all_goals rfl
        rintro (h | h | ⟨h, _⟩)
        · exact .inl (by rw [ht]; exact h)
        · exact .inr (.inl (by rw [ht]; exact h))
        · rw [hnet] at h; cases h
      · cases ha
    | _ => rw [hnet] at ha; cases ha
  | work c =>
    simp only [act] at ha
    split at ha
    · cases ha
    · injection ha with ha; injection ha with h1 h2; subst h1; subst h2
      exact ⟨fun h => h, fun _ => by rw [same]; rfl⟩
  | cont =>
    simp only [act] at ha
    split at ha
    · cases ha
    · injection ha with ha; injection ha with h1 h2; subst h1; subst h2
      refine ⟨?_, fun _ => by rw [same]; rfl⟩
      rintro (h | h | ⟨h, hq⟩)
      · exact .inl h
      · exact .inr (.inl h)
      · exact .inr (.inr ⟨by simp only [h, answered], hq⟩)
  | measure =>
    simp only [act] at ha
    split at ha
    · injection ha with ha; injection ha with h1 h2; subst h1; subst h2
      exact ⟨fun h => h, fun _ => by rw [same]; rfl⟩
    · cases ha
  | lose =>
    simp only [act] at ha
    split at ha
    · cases ha
    · injection ha with ha; injection ha with h1 h2; subst h1; subst h2
      refine ⟨?_, fun _ => rfl⟩
      rintro (h | h | ⟨_, hq⟩)
      · exact .inl h
      · exact .inr (.inl h)
      · exact .inr (.inr ⟨rfl, hq⟩)

theorem cinv {tasks : List Task} {d₀ : I21.Dev} {hd : List I21.Ev} {h : List Ev} {s : St}
    (h0 : I21.Hist hd d₀) (hr : Rests hd d₀) (hh : Hist tasks d₀ h s) (hn : ∀ i, .sent i .stop ∉ thrPart h) (hg : ¬ Gone s) : CInv h s := by
  induction hh with
  | init =>
    have hinv := inv_hist h0
    have hc : inCache d₀ = [] := by
      unfold inCache
      rw [hr.command, hr.cache]
      rfl
    have hq : tasksOf d₀.queue = [] := by
      unfold tasksOf
      rw [List.filterMap_eq_nil_iff]
      intro x hx
      cases x with
      | task t => exact absurd hx (hr.queue t)
      | measure => rfl
    have hp : e2ePresent d₀ = [] := by
      have hw := hr.worker
      rw [hinv.item] at hw
      unfold e2ePresent held heldOf
      rw [hq, List.append_nil]
      cases hi : wItem d₀.wpc with
      | none =>
        simp only
        split
        · cases hrun : d₀.running with
          | none => rfl
          | some x =>
            cases x with
            | task t => exact absurd hrun (hr.running t)
            | measure => rfl
        · rfl
      | some x =>
        cases x with
        | task t => exact absurd hi (hw t)
        | measure => rfl
    have hb : beingStored d₀ = [] := by
      unfold beingStored
      cases hw : d₀.wpc with
      | store t => simp [e2ePresent, held, heldOf, hw, wItem] at hp
      | _ => rfl
    refine ⟨by simp [St.init], rfl, .inl hr.command, fun _ => hc, ⟨hp, hc⟩, rfl, ?_, rfl, fun _ _ => rfl⟩
    change [] = [] ++ inCache d₀ ++ beingStored d₀
    rw [hc, hb]
    rfl
  | @step h s s' es a hh ha ih =>
    have hn' : ∀ i, .sent i .stop ∉ thrPart h := by
      intro i hm
      exact hn i (by rw [thrPart_append]; simp [hm])
    have hi := ih hn' (fun h => hg ((gone_step ha).1 h))
    cases a with
    | thr c => exact cinv_thr h0 hh hi ha hn hg
    | tell ns =>
      injection ha with ha; injection ha with h1 h2; subst h1; subst h2
      rw [List.append_nil]
      exact ⟨hi.stop, hi.netT, hi.netC, hi.fresh, hi.stg, hi.link, hi.pts, hi.own, hi.own'⟩
    | take acc => exact cinv_take h0 hh hi ha
    | work c => exact cinv_work h0 hh hi ha
    | cont => exact cinv_cont h0 hh hi ha
    | measure => exact cinv_measure h0 hh hi ha
    | lose =>
      exfalso
      simp only [act] at ha
      have hT := hi.netT
      have hne : s.net ≠ .idle := by intro h; rw [h] at ha; cases ha
      split at ha
      · cases ha
      · injection ha with ha; injection ha with h1 h2; subst h1; subst h2
        apply hg
        refine .inr (.inr ⟨rfl, ?_⟩)
        cases hpc : s.t.pc with
        | wait q => exact ⟨q, rfl⟩
        | _ => rw [hpc] at hT; exact absurd hT hne

/-! ## C71 -/

/-- **C71** (`_partial`: unless a task is told to stop, see `C71_refuted`): whenever the thread is not
in the middle of a task, its file has exactly the data points which were measured for the tasks it has
started, task after task, in the order of the measurements, each once; and no data points were measured
for any other task. -/
theorem C71_stored_partial {tasks : List Task} {d₀ : I21.Dev} {hd : List I21.Ev} {h : List Ev} {s : St}
    (h0 : I21.Hist hd d₀) (hr : Rests hd d₀) (hh : Hist tasks d₀ h s) (hn : ∀ i, .sent i .stop ∉ thrPart h)
    (hp : s.t.pc = .cur ∨ s.t.pc = .unset ∨ s.t.pc = .fin ∨ s.t.pc = .dead) :
    s.t.file ≠ .broken ∧
    s.t.file.content = (JobT.starts (thrPart h)).flatMap (measuredFor (devPart h)) ∧
    s.t.file.content = measuredAll (devPart h) := by
  have hg : ¬ Gone s := by
    rintro (h | h | ⟨_, q, h⟩) <;> rw [h] at hp <;> simp at hp
  have hi := cinv h0 hr hh hn hg
  have hf := JobT.fileOK (thr_hist hh)
  have hst : StageD s.t.i s.d .quiet := by
    have := hi.stg
    unfold stage at this
    rcases hp with h | h | h | h <;> rw [h] at this <;> exact this
  have hnet : s.net = .idle := by
    have := hi.netT
    rcases hp with h | h | h | h <;> rw [h] at this <;> exact this
  have hf' : s.t.file ≠ .broken ∧ s.t.file.content = JobT.delivered (thrPart h) := by
    unfold JobT.FileOK at hf
    rcases hp with h | h | h | h <;> rw [h] at hf <;> exact hf
  have hbs : beingStored s.d = [] := by
    have h1 := hst.1
    unfold beingStored
    cases hw : s.d.wpc with
    | store t => simp [e2ePresent, held, heldOf, hw, wItem] at h1
    | _ => rfl
  have hall : s.t.file.content = measuredAll (devPart h) := by
    rw [hf'.2, hi.pts, hi.link, hst.2, hbs, flight, hnet]
    simp [flightOf]
  exact ⟨hf'.1, hall.trans hi.own, hall⟩

/-- **C71** (`_partial` as above): what is in the file is at any moment, whatever happens to the
requests, the beginning of what has been measured: nothing is invented, left out, repeated or
exchanged. -/
theorem C71_prefix_partial {tasks : List Task} {d₀ : I21.Dev} {hd : List I21.Ev} {h : List Ev} {s : St}
    (h0 : I21.Hist hd d₀) (hr : Rests hd d₀) (hh : Hist tasks d₀ h s) (hn : ∀ i, .sent i .stop ∉ thrPart h) :
    s.t.file.content <+: measuredAll (devPart h) := by
  have hd : JobT.delivered (thrPart h) <+: measuredAll (devPart h) := by
    induction hh with
    | init => exact List.nil_prefix
    | @step h s s' es a hh ha ih =>
      by_cases hg : Gone s'
      · have hn' : ∀ i, .sent i .stop ∉ thrPart h := by
          intro i hm
          exact hn i (by rw [thrPart_append]; simp [hm])
        have hz := (gone_step ha).2 hg
        have e : JobT.delivered (thrPart (h ++ es)) = JobT.delivered (thrPart h) := by
          rw [thrPart_append]
          simp only [JobT.delivered, List.flatMap_append] at hz ⊢
          rw [hz, List.append_nil]
        rw [e, devPart_append, measuredAll_append]
        exact (ih hn').trans (List.prefix_append _ _)
      · have hi := cinv h0 hr (.step a hh ha) hn hg
        rw [hi.pts, hi.link, List.append_assoc, List.append_assoc]
        exact List.prefix_append _ _
  have hf := JobT.fileOK (thr_hist hh)
  refine List.IsPrefix.trans ?_ hd
  unfold JobT.FileOK at hf
  split at hf
  · rw [← hf.2]; exact List.prefix_append _ _
  · obtain ⟨_, _, x, hx⟩ := hf; rw [← hx]; exact List.prefix_append _ _
  · rw [hf.1]; exact List.nil_prefix
  · rw [hf.2]; exact List.prefix_rfl

/-- **C71** (`_partial` as above): as long as the thread gets answers and its tasks begin in time,
every data point measured for a task is, in this order, delivered to the thread (then it is in the
file, or about to be stored there, see C43), on its way, in the cache of the component, or just being
put there. -/
theorem C71_accounted_partial {tasks : List Task} {d₀ : I21.Dev} {hd : List I21.Ev} {h : List Ev} {s : St}
    (h0 : I21.Hist hd d₀) (hr : Rests hd d₀) (hh : Hist tasks d₀ h s) (hn : ∀ i, .sent i .stop ∉ thrPart h)
    (hc : s.t.pc ≠ .crash ∧ s.t.pc ≠ .exited ∧ s.net ≠ .ans .closed) :
    measuredAll (devPart h) =
      JobT.delivered (thrPart h) ++ flight s ++ inCache s.d ++ beingStored s.d := by
  have hg : ¬ Gone s := by
    rintro (h | h | ⟨h, _⟩)
    · exact hc.1 h
    · exact hc.2.1 h
    · exact hc.2.2 h
  have hi := cinv h0 hr hh hn hg
  rw [hi.pts, hi.link]

/-! ### Examples -/

theorem e2e_hist {tasks : List Task} {d₀ : I21.Dev} {h es : List Ev} {s s' : St} {as : List Act}
    (hh : Hist tasks d₀ h s) (hr : run s as = some (s', es)) : Hist tasks d₀ (h ++ es) s' := by
  induction as generalizing h es s with
  | nil => cases hr; simpa using hh
  | cons a as ih =>
    simp only [run] at hr
    split at hr
    · cases hr
    · next s₁ es₁ ha =>
      split at hr
      · cases hr
      · next s₂ es₂ hr' =>
        cases hr
        rw [← List.append_assoc]
        exact ih (.step a hh ha) hr'

/-- Steps of the thread, of the worker. -/
def thrs (n : Nat) : List Act := List.replicate n (.thr {})
def works (n : Nat) (c : I21.Choice := {}) : List Act := List.replicate n (.work c)

/-- A request which is carried out at once; one for data. -/
def rq : List Act := [.thr {}, .take true, .thr {}]
def rqData : List Act := [.thr {}, .take true, .cont, .cont, .cont, .cont, .thr {}]

/-- A task is submitted and begins. -/
def submits : List Act := thrs 2 ++ rq ++ rq ++ works 4 ++ rq ++ works 3

/-- A sample is taken. -/
def samples (ps : List Nat) (over : Bool := false) : List Act :=
  works 8 { result := some (some ps), over := over }

/-- Data are fetched in the main loop, and the task still runs. -/
def polls : List Act := [.thr { due := true }] ++ rqData ++ thrs 3 ++ rq ++ thrs 1

/-- The worker ends the task; the thread notices it, fetches the rest, and goes on. -/
def ends : List Act := works 3 ++ thrs 1 ++ rq ++ rqData ++ thrs 3 ++ thrs 1

def e2eTask (n : Nat) : Task := { role := "x", technique := "t", body := n }

/-- Two tasks, with a one-shot measurement in between.  (The thread dies after the second one,
see C39; its data are stored nevertheless.) -/
def e2eActs : List Act :=
  submits ++ samples [1, 2] ++ polls ++ samples [3] true ++ ends ++ thrs 1 ++
  [.measure, .cont, .cont] ++ works 7 { result := some (some [99]) } ++
  submits ++ samples [4] ++ samples [5] true ++ ends

example : Rests [] I21.Dev.init := ⟨rfl, by simp [occupied], by simp [I21.Dev.init],
  by simp [I21.Dev.init], rfl⟩

example : ((run (St.init [e2eTask 1, e2eTask 2] I21.Dev.init) e2eActs).map
      (fun p => (p.1.t.pc, p.1.t.file, JobT.starts (thrPart p.2), measuredFor (devPart p.2) 0,
        measuredFor (devPart p.2) 1))) =
    some (.dead, .data [1, 2, 3, 4, 5], [0, 1], [1, 2, 3], [4, 5]) := by decide +kernel


/-- A task which is stopped when a task named `go` starts. -/
def e2eUntil : Task := { role := "x", technique := "t", stopWith := some "go", body := 1 }

/-- The component is told to stop when the worker is just about to take one more sample: it takes it
after the last data have been fetched. -/
def e2eLoses : List Act :=
  submits ++ works 2 ++ [.tell ["go"]] ++ thrs 1 ++ rq ++ thrs 1 ++ rqData ++ rqData ++
  works 6 { result := some (some [7]) } ++ thrs 3 ++ [.thr {}, .take true] ++ works 5 ++
  [.cont, .thr {}]

/-- **C71** is violated if a task is stopped: here everything goes well, the thread ends normally and
the component is reset, but a data point measured for its task is not in the file, and it is nowhere
else. -/
theorem C71_refuted : ∃ h s, Hist [e2eUntil] I21.Dev.init h s ∧ s.t.pc = .fin ∧ .completed 0 ∈ thrPart h ∧
    .measured 0 [7] ∈ devPart h ∧ s.t.file.content = [] ∧ s.d.data = none := by
  have hr : ∃ p, run (St.init [e2eUntil] I21.Dev.init) e2eLoses = some p ∧ p.1.t.pc = .fin ∧
      .completed 0 ∈ thrPart p.2 ∧ .measured 0 [7] ∈ devPart p.2 ∧ p.1.t.file.content = [] ∧
      p.1.d.data = none := ⟨_, rfl, rfl, by decide +kernel, by decide +kernel, rfl, rfl⟩
  obtain ⟨⟨s, h⟩, hr, h1⟩ := hr
  exact ⟨h, s, by simpa using e2e_hist .init hr, h1⟩

end Tomato.Props
