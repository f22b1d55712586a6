import Verif.Props.JobConditions
import Mathlib.Tactic.ByContra

/-!
# A job comes to its end: C99, and C42 for tasks that go on for long enough

The statements are about infinite executions of the job process of `Verif/JobThread.lean` in which every
thread gets its turn again and again.
-/

namespace Tomato.Props
open Tomato.JobT

/-! ## Infinite executions -/

/-- The job after the first `n` actions of a schedule; actions that are not possible do nothing. -/
def runJ (s : Jb) (σ : Nat → Act) : Nat → Jb
  | 0 => s
  | n + 1 =>
    match act (runJ s σ n) (σ n) with
    | some (s', _) => s'
    | none => runJ s σ n

/-- Every thread gets its turn again and again. -/
structure FairJ (s : Jb) (σ : Nat → Act) : Prop where
  thr : ∀ k, k < s.thrs.length → ∀ n, ∃ j, n ≤ j ∧ ∃ c, σ j = .thr k c
  main : ∀ n, ∃ j, n ≤ j ∧ σ j = .main

/-- The answer with which a thread stops asking: no answer at all; the component accepts tasks; the
task is running or did not start in time; the task is not running any more. -/
inductive Positive (t : Option Task) : Q → Choice → Prop
  | closed (q : Q) (l d : Bool) : Positive t q ⟨.closed, l, d⟩
  | ready (sd : SD) (ps : Option (List Nat)) (l d : Bool) : sd.canSubmit = true →
      Positive t .ready ⟨.reply true (some sd) ps, l, d⟩
  | runs (sd : SD) (ps : Option (List Nat)) (l d : Bool) : sd.running = true →
      sd.task = none ∨ sd.task = some t → Positive t .running ⟨.reply true (some sd) ps, l, d⟩
  | late (a : Ans) (d : Bool) : Positive t .running ⟨a, true, d⟩
  | refused (st : Option SD) (ps : Option (List Nat)) (l d : Bool) :
      Positive t .status ⟨.reply false st ps, l, d⟩
  | idle (ok : Bool) (sd : SD) (ps : Option (List Nat)) (l d : Bool) : sd.running = false →
      Positive t .status ⟨.reply ok (some sd) ps, l, d⟩
  | other (ok : Bool) (sd : SD) (ps : Option (List Nat)) (l d : Bool) (x : Option Task) :
      sd.task = some x → x ≠ t → Positive t .status ⟨.reply ok (some sd) ps, l, d⟩

/-- At time `j`, thread `k` gets the answer `c` to its request `q`. -/
def Hears (s : Jb) (σ : Nat → Act) (j k : Nat) (q : Q) (c : Choice) : Prop :=
  σ j = .thr k c ∧ ∃ t, (runJ s σ j).thrs[k]? = some t ∧ t.pc = .wait q

/-- No request is answered "not yet" for ever: of infinitely many answers to one of the requests that
are repeated, some (and hence infinitely many) are positive. -/
def Responsive (s : Jb) (σ : Nat → Act) : Prop :=
  ∀ k q, q = .ready ∨ q = .running ∨ q = .status →
    (∀ n, ∃ j, n ≤ j ∧ ∃ c, Hears s σ j k q c) →
    ∀ n, ∃ j, n ≤ j ∧ ∃ c t, Hears s σ j k q c ∧ (runJ s σ j).thrs[k]? = some t ∧
      Positive t.tasks[t.i]? q c

/-- Every thread that waits for a task to start is eventually told of it. -/
def Told (s : Jb) (σ : Nat → Act) : Prop :=
  ∀ (k n : Nat) (t : Thr) (x : Task) (nm : String), (runJ s σ n).thrs[k]? = some t → t.pc = .hold → t.tasks[t.i]? = some x →
    x.startWith = some nm → ∃ (j : Nat) (t' : Thr), n ≤ j ∧ (runJ s σ j).thrs[k]? = some t' ∧ nm ∈ t'.names

/-! ## One thread -/

/-- What thread `k` is like after the first `n` actions, and when it acts itself. -/
structure Trace (T : Nat → Thr) (own : Nat → Option Choice) : Prop where
  mine : ∀ n c, own n = some c → T (n + 1) = ((tstep (T n) c).map (·.1)).getD (T n)
  other : ∀ n, own n = none → ∃ ns, T (n + 1) = { T n with names := ns ++ (T n).names }

/-- The phases of a task, in reverse order. -/
def grp : Pc → Nat
  | .cur => 11
  | .hold => 10
  | .ask .ready | .wait .ready => 9
  | .ask .start | .wait .start => 8
  | .ask .running | .wait .running => 7
  | .due | .trigger | .ask .data | .wait .data | .ask .status | .wait .status => 6
  | .load _ .status | .trunc _ .status | .dump _ .status => 6
  | .ask .stop | .wait .stop => 5
  | .load _ .final | .trunc _ .final | .dump _ .final => 5
  | .ask .final | .wait .final => 4
  | .load _ .append | .trunc _ .append | .dump _ .append => 4
  | .append => 3
  | .unset => 2
  | .ask .reset | .wait .reset => 1
  | .crash | .fin | .exited | .dead => 0

/-- The distance to the end of the phase, or to the answer that may end it. -/
def inner : Pc → Nat
  | .trigger => 9
  | .due => 8
  | .ask .data => 7
  | .wait .data => 6
  | .load _ .status => 5
  | .trunc _ .status => 4
  | .dump _ .status => 3
  | .ask .status => 2
  | .wait .status => 1
  | .ask .stop | .ask .final => 5
  | .wait .stop | .wait .final => 4
  | .load _ .final | .load _ .append => 3
  | .trunc _ .final | .trunc _ .append => 2
  | .dump _ .final | .dump _ .append => 1
  | .ask _ => 2
  | .wait _ => 1
  | _ => 0

/-- What the thread has still before it. -/
def mu (t : Thr) : Nat := (t.tasks.length + 1 - t.i) * 12 + grp t.pc

/-- The thread is within its list of tasks. -/
def InTasks (t : Thr) : Prop :=
  match t.pc with
  | .cur | .ask .reset | .wait .reset | .crash | .fin | .exited | .dead => True
  | _ => t.i < t.tasks.length

/-- A step that repeats a question, or waits. -/
def NotYet (t : Thr) (c : Choice) : Prop :=
  (t.pc = .hold ∧ met (t.tasks[t.i]?.bind (·.startWith)) t.names = false) ∨
  ∃ q, (q = .ready ∨ q = .running ∨ q = .status) ∧ t.pc = .wait q ∧ ¬ Positive t.tasks[t.i]? q c

theorem positive_running {t : Option Task} {ok : Bool} {st : Option SD} {ps : Option (List Nat)} {l d : Bool}
    (h : isRunning t ok st = true ∨ l = true) : Positive t .running ⟨.reply ok st ps, l, d⟩ := by
  rcases h with h | rfl
  · cases st with
    | none => cases h
    | some sd =>
      simp only [isRunning, Bool.and_eq_true, Bool.not_eq_true'] at h
      obtain ⟨⟨rfl, h2⟩, h3⟩ := h
      refine .runs _ _ _ _ h2 ?_
      unfold SD.wrong at h3
      split at h3
      · next hx => exact .inl hx
      · next x hx =>
        right
        rw [hx]
        have : x = t := by simpa using h3
        rw [this]
  · exact .late _ _

theorem positive_status {t : Option Task} {ok : Bool} {st : Option SD} {ps : Option (List Nat)} {l d : Bool}
    (h : isOver t ok st = true) : Positive t .status ⟨.reply ok st ps, l, d⟩ := by
  cases ok with
  | false => exact .refused _ _ _ _
  | true =>
    cases st with
    | none => cases h
    | some sd =>
      simp only [isOver, Bool.not_true, Bool.false_or, Bool.or_eq_true, Bool.not_eq_true'] at h
      rcases h with h | h
      · exact .idle _ _ _ _ _ h
      · unfold SD.wrong at h
        split at h
        · cases h
        · next x hx => exact .other _ _ _ _ _ x hx (by simpa using h)

/-- A step of a living thread: the end, progress, or "not yet". -/
theorem tstep_progress {t t' : Thr} {c : Choice} {e : Ev} (ht : InTasks t) (ha : tstep t c = some (t', e)) :
    InTasks t' ∧ t'.tasks = t.tasks ∧
    (t'.alive = false ∨ mu t' < mu t ∨ (mu t' = mu t ∧ inner t'.pc < inner t.pc) ∨
      (mu t' = mu t ∧ NotYet t c)) := by
  obtain ⟨tk, i, pc, cur, names, noList, crashed, file⟩ := t
  obtain ⟨ans, late, due⟩ := c
  cases pc with
  | cur =>
    simp only [tstep] at ha
    split at ha
    · cases ha; exact ⟨trivial, rfl, .inr (.inl (by simp [mu, grp]))⟩
    · next k hk =>
      cases ha
      refine ⟨(List.getElem?_eq_some_iff.mp hk).1, rfl, .inr (.inl (by simp [mu, grp]))⟩
  | hold =>
    simp only [tstep] at ha
    split at ha
    · cases ha; exact ⟨ht, rfl, .inr (.inl (by simp [mu, grp]))⟩
    · next h => cases ha; exact ⟨ht, rfl, .inr (.inr (.inr ⟨rfl, .inl ⟨rfl, by simpa using h⟩⟩))⟩
  | ask q =>
    cases ha
    refine ⟨by cases q <;> exact ht, rfl, .inr (.inr (.inl ?_))⟩
    cases q <;> simp [mu, grp, inner]
  | wait q =>
    cases ha
    cases ans with
    | closed =>
      refine ⟨trivial, rfl, .inr (.inl ?_)⟩
      cases q <;> simp [mu, next, grp]
    | reply ok st ps =>
      cases q with
      | ready =>
        cases st with
        | none =>
          refine ⟨ht, rfl, .inr (.inr (.inr ⟨rfl, .inr ⟨_, .inl rfl, rfl, ?_⟩⟩))⟩
          intro h; cases h
        | some sd =>
          by_cases h : (ok && sd.canSubmit) = true
          · refine ⟨?_, rfl, .inr (.inl ?_)⟩ <;> simp only [next, h, if_true]
            · exact ht
            · simp [mu, grp]
          · refine ⟨?_, rfl, .inr (.inr (.inr ⟨?_, .inr ⟨_, .inl rfl, rfl, ?_⟩⟩))⟩
            · simp only [next, h]; exact ht
            · simp only [next, h]; rfl
            · intro hp
              cases hp with
              | ready _ _ _ _ h2 => simp [h2] at h
      | start => exact ⟨ht, rfl, .inr (.inl (by simp [mu, next, grp]))⟩
      | running =>
        by_cases h : isRunning tk[i]? ok st = true
        · refine ⟨?_, rfl, .inr (.inl ?_)⟩ <;> simp only [next, h, if_true]
          · exact ht
          · simp [mu, grp]
        · cases late with
          | true =>
            refine ⟨?_, rfl, .inr (.inl ?_)⟩ <;> simp only [next, h]
            · trivial
            · simp [mu, grp]
          | false =>
            refine ⟨?_, rfl, .inr (.inr (.inr ⟨?_, .inr ⟨_, .inr (.inl rfl), rfl, ?_⟩⟩))⟩
            · simp only [next, h]; exact ht
            · simp only [next, h]; rfl
            · intro hp
              cases hp with
              | runs sd _ _ _ h1 h2 =>
                apply h
                rcases h2 with h2 | h2 <;> simp [isRunning, h1, SD.wrong, h2]
      | data =>
        simp only [next]
        cases ps with
        | none => exact ⟨ht, trivial, .inr (.inr (.inl ⟨rfl, by simp [store, inner]⟩))⟩
        | some ps =>
          cases ok with
          | false => exact ⟨ht, trivial, .inr (.inr (.inl ⟨rfl, by simp [store, inner]⟩))⟩
          | true => exact ⟨ht, trivial, .inr (.inr (.inl ⟨rfl, by simp [store, inner]⟩))⟩
      | status =>
        by_cases h : isOver tk[i]? ok st = true
        · refine ⟨?_, rfl, .inr (.inl ?_)⟩ <;> simp only [next, h, if_true]
          · exact ht
          · simp [mu, grp]
        · refine ⟨?_, rfl, .inr (.inr (.inr ⟨?_, .inr ⟨_, .inr (.inr rfl), rfl, ?_⟩⟩))⟩
          · simp only [next, h]; exact ht
          · simp only [next, h]; rfl
          · intro hp
            apply h
            cases hp with
            | refused => cases st <;> simp [isOver]
            | idle _ _ _ _ _ h1 => simp [isOver, h1]
            | other _ _ _ _ _ x h1 h2 => simp [isOver, SD.wrong, h1, h2]
      | stop =>
        simp only [next]
        cases ps with
        | none => exact ⟨ht, trivial, .inr (.inl (by simp [store, mu, grp]))⟩
        | some ps =>
          cases ok with
          | false => exact ⟨ht, trivial, .inr (.inl (by simp [store, mu, grp]))⟩
          | true => exact ⟨ht, trivial, .inr (.inr (.inl ⟨rfl, by simp [store, inner]⟩))⟩
      | final =>
        simp only [next]
        cases ps with
        | none => exact ⟨ht, trivial, .inr (.inl (by simp [store, mu, grp]))⟩
        | some ps =>
          cases ok with
          | false => exact ⟨ht, trivial, .inr (.inl (by simp [store, mu, grp]))⟩
          | true => exact ⟨ht, trivial, .inr (.inr (.inl ⟨rfl, by simp [store, inner]⟩))⟩
      | reset => exact ⟨trivial, rfl, .inl rfl⟩
  | due =>
    cases ha
    cases due
    · exact ⟨ht, rfl, .inr (.inr (.inl ⟨rfl, by simp [inner]⟩))⟩
    · exact ⟨ht, rfl, .inr (.inr (.inl ⟨rfl, by simp [inner]⟩))⟩
  | trigger =>
    simp only [tstep] at ha
    split at ha
    · cases ha; exact ⟨ht, rfl, .inr (.inl (by simp [mu, grp]))⟩
    · cases ha; exact ⟨ht, rfl, .inr (.inr (.inl ⟨rfl, by simp [inner]⟩))⟩
  | load ps n =>
    simp only [tstep] at ha
    split at ha
    · cases ha; exact ⟨trivial, rfl, .inl rfl⟩
    · cases ha
      exact ⟨ht, rfl, .inr (.inr (.inl ⟨by cases n <;> rfl, by cases n <;> simp [inner]⟩))⟩
  | trunc ps n =>
    cases ha
    exact ⟨ht, rfl, .inr (.inr (.inl ⟨by cases n <;> rfl, by cases n <;> simp [inner]⟩))⟩
  | dump ps n =>
    cases ha
    cases n with
    | status => exact ⟨ht, rfl, .inr (.inr (.inl ⟨rfl, by simp [inner, Nxt.pc]⟩))⟩
    | final => exact ⟨ht, rfl, .inr (.inl (by simp [mu, grp, Nxt.pc]))⟩
    | append => exact ⟨ht, rfl, .inr (.inl (by simp [mu, grp, Nxt.pc]))⟩
  | append =>
    simp only [tstep] at ha
    split at ha
    · cases ha; exact ⟨trivial, rfl, .inl rfl⟩
    · cases ha; exact ⟨ht, rfl, .inr (.inl (by simp [mu, grp]))⟩
  | unset =>
    cases ha
    refine ⟨trivial, rfl, .inr (.inl ?_)⟩
    have ht : i < tk.length := ht
    simp only [mu, grp]
    omega
  | crash => cases ha; exact ⟨trivial, rfl, .inl rfl⟩
  | fin => cases ha
  | exited => cases ha
  | dead => cases ha

theorem grp_lt (p : Pc) : grp p < 12 := by
  cases p with
  | ask q => cases q <;> decide
  | wait q => cases q <;> decide
  | load ps n => cases n <;> simp [grp]
  | trunc ps n => cases n <;> simp [grp]
  | dump ps n => cases n <;> simp [grp]
  | _ => simp [grp]

theorem grp_hold {p : Pc} (h : grp p = 10) : p = .hold := by
  cases p with
  | hold => rfl
  | ask q => cases q <;> cases h
  | wait q => cases q <;> cases h
  | load ps n => cases n <;> cases h
  | trunc ps n => cases n <;> cases h
  | dump ps n => cases n <;> cases h
  | _ => cases h

/-- A positive answer ends the phase. -/
theorem positive_leaves {t t' : Thr} {q : Q} {c : Choice} {e : Ev}
    (hq : q = .ready ∨ q = .running ∨ q = .status) (hw : t.pc = .wait q)
    (hp : Positive t.tasks[t.i]? q c) (ha : tstep t c = some (t', e)) : mu t' < mu t := by
  obtain ⟨tk, i, pc, cur, names, noList, crashed, file⟩ := t
  simp only at hw hp
  subst hw
  cases ha
  cases hp with
  | closed => rcases hq with rfl | rfl | rfl <;> simp [mu, next, grp]
  | ready sd _ _ _ h => simp [mu, next, grp, h]
  | runs sd _ _ _ h h2 =>
    have : isRunning tk[i]? true (some sd) = true := by
      rcases h2 with h2 | h2 <;> simp [isRunning, h, SD.wrong, h2]
    simp [mu, next, grp, this]
  | late a =>
    cases a with
    | closed => simp [mu, next, grp]
    | reply ok st ps =>
      by_cases h : isRunning tk[i]? ok st = true <;> simp [mu, next, h, grp]
  | refused st => cases st <;> simp [mu, next, grp, isOver]
  | idle ok sd _ _ _ h => simp [mu, next, grp, isOver, h]
  | other ok sd _ _ _ x h h2 => simp [mu, next, grp, isOver, SD.wrong, h, h2]

section Trace

variable {T : Nat → Thr} {own : Nat → Option Choice}

/-- Everything but the names is as before, and the names are kept. -/
def Same (t t' : Thr) : Prop :=
  t'.pc = t.pc ∧ t'.i = t.i ∧ t'.tasks = t.tasks ∧ ∀ n ∈ t.names, n ∈ t'.names

theorem Same.refl (t : Thr) : Same t t := ⟨rfl, rfl, rfl, fun _ h => h⟩

theorem Same.trans {a b c : Thr} (h : Same a b) (h' : Same b c) : Same a c :=
  ⟨h'.1.trans h.1, h'.2.1.trans h.2.1, h'.2.2.1.trans h.2.2.1, fun n hn => h'.2.2.2 n (h.2.2.2 n hn)⟩

theorem Same.mu {a b : Thr} (h : Same a b) : mu b = mu a := by
  unfold Props.mu; rw [h.1, h.2.1, h.2.2.1]

theorem alive_pc {a b : Thr} (h : b.pc = a.pc) : b.alive = a.alive := by
  unfold Thr.alive; rw [h]

theorem trace_names (h : Trace T own) {n m : Nat} (hm : n ≤ m) (x : String) (hx : x ∈ (T n).names) :
    x ∈ (T m).names := by
  induction hm with
  | refl => exact hx
  | @step m _ ih =>
    cases ho : own m with
    | none =>
      obtain ⟨ns, hns⟩ := h.other m ho
      rw [hns]
      exact List.mem_append_right _ ih
    | some c =>
      rw [h.mine m c ho]
      cases hs : tstep (T m) c with
      | none => exact ih
      | some r =>
        obtain ⟨t', e⟩ := r
        simp only [Option.map_some, Option.getD_some]
        rw [tstep_names hs]; exact ih

/-- The thread's next turn. -/
theorem next_turn (h : Trace T own) (hf : ∀ n, ∃ j, n ≤ j ∧ ∃ c, own j = some c) (n : Nat) :
    ∃ j c, n ≤ j ∧ own j = some c ∧ Same (T n) (T j) := by
  obtain ⟨j0, hj0, c0, hc0⟩ := hf n
  induction hd : j0 - n generalizing n with
  | zero =>
    have : n = j0 := by omega
    subst this
    exact ⟨n, c0, Nat.le_refl n, hc0, Same.refl _⟩
  | succ d ih =>
    cases ho : own n with
    | some c => exact ⟨n, c, Nat.le_refl n, ho, Same.refl _⟩
    | none =>
      obtain ⟨ns, hns⟩ := h.other n ho
      obtain ⟨j, c, hj, hc, hs⟩ := ih (n + 1) (by omega) (by omega)
      refine ⟨j, c, by omega, hc, ?_⟩
      refine Same.trans ?_ hs
      rw [hns]
      exact ⟨rfl, rfl, rfl, fun x hx => List.mem_append_right _ hx⟩

/-- What the invariant and the measure do from one moment to the next. -/
theorem trace_step (h : Trace T own) {n : Nat} (ht : InTasks (T n)) :
    InTasks (T (n + 1)) ∧ (T (n + 1)).tasks = (T n).tasks ∧
    ((T (n + 1)).alive = false ∨ mu (T (n + 1)) ≤ mu (T n)) := by
  cases ho : own n with
  | none =>
    obtain ⟨ns, hns⟩ := h.other n ho
    rw [hns]
    exact ⟨ht, rfl, .inr (Nat.le_refl _)⟩
  | some c =>
    rw [h.mine n c ho]
    cases hs : tstep (T n) c with
    | none => exact ⟨ht, rfl, .inr (Nat.le_refl _)⟩
    | some r =>
      obtain ⟨t', e⟩ := r
      simp only [Option.map_some, Option.getD_some]
      obtain ⟨h1, h2, h3⟩ := tstep_progress ht hs
      refine ⟨h1, h2, ?_⟩
      rcases h3 with h3 | h3 | ⟨h3, -⟩ | ⟨h3, -⟩
      · exact .inl h3
      · exact .inr (by omega)
      · exact .inr (by omega)
      · exact .inr (by omega)

theorem tstep_alive {t : Thr} (h : t.alive = true) (c : Choice) : ∃ t' e, tstep t c = some (t', e) := by
  obtain ⟨tk, i, pc, cur, names, noList, crashed, file⟩ := t
  cases pc <;> simp only [tstep] <;>
    first
      | exact ⟨_, _, rfl⟩
      | (split <;> exact ⟨_, _, rfl⟩)
      | cases h

/-- The hypotheses about the environment, for one thread. -/
structure Patient (T : Nat → Thr) (own : Nat → Option Choice) : Prop where
  turns : ∀ n, ∃ j, n ≤ j ∧ ∃ c, own j = some c
  answers : ∀ q, q = .ready ∨ q = .running ∨ q = .status →
    (∀ n, ∃ j, n ≤ j ∧ ∃ c, own j = some c ∧ (T j).pc = .wait q) →
    ∀ n, ∃ j, n ≤ j ∧ ∃ c, own j = some c ∧ (T j).pc = .wait q ∧ Positive (T j).tasks[(T j).i]? q c

/-- The thread is told what it waits for at time `n`. -/
def ToldAt (T : Nat → Thr) (n : Nat) : Prop :=
  ∀ x nm, (T n).pc = .hold → (T n).tasks[(T n).i]? = some x → x.startWith = some nm →
    ∃ j, n ≤ j ∧ nm ∈ (T j).names

theorem mu_eq {t t' : Thr} (h : mu t' = mu t) :
    grp t'.pc = grp t.pc := by
  have h1 := grp_lt t'.pc
  have h2 := grp_lt t.pc
  unfold mu at h
  omega

/-- Every phase ends. -/
theorem phase_ends (h : Trace T own) (hp : Patient T own) (n : Nat) (ht : InTasks (T n))
    (htold : ToldAt T n) : ∃ m, n ≤ m ∧ ((T m).alive = false ∨ (InTasks (T m) ∧ mu (T m) < mu (T n))) := by
  generalize hM : mu (T n) = M
  · by_contra hno
    have hal : ∀ m, n ≤ m → (T m).alive = true := by
      intro m hm
      by_contra h1
      exact hno ⟨m, hm, .inl (by simpa using h1)⟩
    have hall : ∀ m, n ≤ m → InTasks (T m) ∧ (T m).tasks = (T n).tasks ∧ mu (T m) = M := by
      intro m hm
      induction hm with
      | refl => exact ⟨ht, rfl, hM⟩
      | @step m hm ihm =>
        obtain ⟨i1, i2, i3⟩ := ihm
        obtain ⟨j1, j2, j3⟩ := trace_step h i1
        refine ⟨j1, j2.trans i2, ?_⟩
        have hm : n ≤ m := hm
        rcases j3 with j3 | j3
        · have := hal (m + 1) (by omega); rw [j3] at this; cases this
        · by_contra hne
          have hne : mu (T (m + 1)) ≠ M := hne
          exact hno ⟨m + 1, by omega, .inr ⟨j1, by omega⟩⟩
    -- some turn is "not yet", again and again
    have hny : ∀ j, n ≤ j → ∃ l c, j ≤ l ∧ own l = some c ∧ NotYet (T l) c := by
      intro j hj
      induction hr : inner (T j).pc using Nat.strongRecOn generalizing j with
      | ind r ihr =>
        obtain ⟨l, c, hl, hc, hs⟩ := next_turn h hp.turns j
        obtain ⟨i1, i2, i3⟩ := hall l (by omega)
        obtain ⟨t', e, hst⟩ := tstep_alive (hal l (by omega)) c
        have hT : T (l + 1) = t' := by rw [h.mine l c hc, hst]; rfl
        obtain ⟨k1, k2, k3⟩ := tstep_progress i1 hst
        rw [← hT] at k3
        have hmu := (hall (l + 1) (by omega)).2.2
        rcases k3 with k3 | k3 | ⟨-, k3⟩ | ⟨-, k3⟩
        · have := hal (l + 1) (by omega); rw [k3] at this; cases this
        · omega
        · obtain ⟨l', c', hl', hc', hn'⟩ := ihr (inner (T (l + 1)).pc) (by rw [← hr, ← hs.1]; exact k3)
            (l + 1) (by omega) rfl
          exact ⟨l', c', by omega, hc', hn'⟩
        · exact ⟨l, c, hl, hc, k3⟩
    have hgrp : ∀ m, n ≤ m → grp (T m).pc = grp (T n).pc := by
      intro m hm
      obtain ⟨i1, i2, i3⟩ := hall m hm
      exact mu_eq (i3.trans hM.symm)
    have hsame : ∀ m, n ≤ m → (T m).tasks.length + 1 - (T m).i = (T n).tasks.length + 1 - (T n).i := by
      intro m hm
      obtain ⟨i1, i2, i3⟩ := hall m hm
      have h1 := hgrp m hm
      unfold mu at i3 hM
      omega
    obtain ⟨l, c, hl, hc, hn⟩ := hny n (Nat.le_refl n)
    rcases hn with ⟨hhold, hnm⟩ | ⟨q, hq, hw, -⟩
    · -- it waits for the name of a task for ever
      have hin := (hall l (by omega)).1
      have hlt : (T l).i < (T l).tasks.length := by unfold InTasks at hin; rw [hhold] at hin; exact hin
      have hx : (T l).tasks[(T l).i]? = some (T l).tasks[(T l).i] := List.getElem?_eq_getElem hlt
      cases hsw : (T l).tasks[(T l).i].startWith with
      | none => rw [hx] at hnm; simp [hsw, met] at hnm
      | some nm =>
        obtain ⟨j, hj, hmem⟩ : ∃ j, n ≤ j ∧ nm ∈ (T j).names := by
          have hgn : grp (T n).pc = 10 := by rw [← hgrp l (by omega), hhold]; rfl
          have hpn := grp_hold hgn
          refine htold _ nm hpn ?_ hsw
          have h3 : (T n).i < (T n).tasks.length := by
            have := ht; unfold InTasks at this; rw [hpn] at this; exact this
          have h2 := hsame l (by omega)
          have h5 := (hall l (by omega)).2.1
          have hi : (T n).i = (T l).i := by rw [h5] at h2 hlt; omega
          rw [hi, ← h5, hx]
        obtain ⟨l', c', hl', hc', hn'⟩ := hny (max j l) (by omega)
        have hg : grp (T l').pc = 10 := by rw [hgrp l' (by omega), ← hgrp l (by omega), hhold]; rfl
        rcases hn' with ⟨hh', hnm'⟩ | ⟨q, hq, hw, -⟩
        · have hmem' := trace_names h (show j ≤ l' by omega) nm hmem
          have hi : (T l').i = (T l).i := by
            have h1 := hsame l' (by omega)
            have h2 := hsame l (by omega)
            have h3 := (hall l' (by omega)).1
            unfold InTasks at h3
            rw [hh'] at h3
            have h3 : (T l').i < (T l').tasks.length := h3
            have h4 := (hall l' (by omega)).2.1
            have h5 := (hall l (by omega)).2.1
            rw [h4] at h1 h3
            rw [h5] at h2 hlt
            omega
          rw [hi, (hall l' (by omega)).2.1, ← (hall l (by omega)).2.1, hx] at hnm'
          simp [hsw, met, hmem'] at hnm'
        · rw [hw] at hg
          rcases hq with rfl | rfl | rfl <;> cases hg
    · -- a question is repeated for ever
      have hg : grp (T n).pc = grp (.wait q) := by rw [← hgrp l (by omega), hw]
      have hinf : ∀ m, ∃ j, m ≤ j ∧ ∃ c, own j = some c ∧ (T j).pc = .wait q := by
        intro m
        obtain ⟨l', c', hl', hc', hn'⟩ := hny (max m n) (by omega)
        refine ⟨l', by omega, c', hc', ?_⟩
        have hg' := (hgrp l' (by omega)).trans hg
        rcases hn' with ⟨hh', -⟩ | ⟨q', hq', hw', -⟩
        · rw [hh'] at hg'
          rcases hq with rfl | rfl | rfl <;> cases hg'
        · rw [hw'] at hg'
          rw [hw']
          rcases hq with rfl | rfl | rfl <;> rcases hq' with rfl | rfl | rfl <;> first | rfl | cases hg'
      obtain ⟨j, hj, c', hc', hw', hpos⟩ := hp.answers q hq hinf n
      obtain ⟨t', e, hst⟩ := tstep_alive (hal j hj) c'
      have hT : T (j + 1) = t' := by rw [h.mine j c' hc', hst]; rfl
      have := positive_leaves hq hw' hpos hst
      rw [← hT, (hall j hj).2.2, (hall (j + 1) (by omega)).2.2] at this
      exact Nat.lt_irrefl _ this

/-- Every thread ends. -/
theorem thread_ends (h : Trace T own) (hp : Patient T own) (htold : ∀ n, ToldAt T n) (n : Nat)
    (ht : InTasks (T n)) : ∃ m, n ≤ m ∧ (T m).alive = false := by
  induction hM : mu (T n) using Nat.strongRecOn generalizing n with
  | ind M ih =>
    obtain ⟨m, hm, h1 | ⟨h1, h2⟩⟩ := phase_ends h hp n ht (htold n)
    · exact ⟨m, hm, h1⟩
    · obtain ⟨k, hk, hd⟩ := ih _ (by omega) m h1 rfl
      exact ⟨k, by omega, hd⟩

end Trace

/-! ## The threads of a job -/

/-- Thread `k` after the first `n` actions. -/
def thrAt (s : Jb) (σ : Nat → Act) (k n : Nat) : Thr := ((runJ s σ n).thrs[k]?).getD { tasks := [] }

/-- When thread `k` acts. -/
def ownAt (σ : Nat → Act) (k n : Nat) : Option Choice :=
  match σ n with
  | .thr k' c => if k' = k then some c else none
  | .main => none

theorem mstep_thrs {s s' : Jb} {e : JEv} (h : mstep s = some (s', e)) :
    s'.thrs = s.thrs ∨ ∃ k t ns, s.thrs[k]? = some t ∧
      s'.thrs = s.thrs.set k { t with names := ns ++ t.names } := by
  unfold mstep at h
  split at h
  · split at h
    · cases h; exact .inl rfl
    · split at h <;> (cases h; exact .inl rfl)
  · split at h
    · cases h; exact .inl rfl
    · next k _ _ t ht => cases h; exact .inr ⟨k, t, _, ht, rfl⟩
  · split at h <;> (cases h; exact .inl rfl)
  · split at h
    · split at h <;> (cases h; exact .inl rfl)
    · cases h; exact .inl rfl
  · cases h

/-- What an action does to thread `k`. -/
theorem act_thr {s s' : Jb} {a : Act} {e : JEv} (h : act s a = some (s', e)) (k : Nat) (t : Thr)
    (ht : s.thrs[k]? = some t) : ∃ t', s'.thrs[k]? = some t' ∧
      ((∀ c, a ≠ .thr k c) → ∃ ns, t' = { t with names := ns ++ t.names }) ∧
      (∀ c, a = .thr k c → tstep t c = some (t', (match e with | .thr _ e => e | _ => .tau))) := by
  have hlt : k < s.thrs.length := (List.getElem?_eq_some_iff.mp ht).1
  cases a with
  | thr k' c =>
    simp only [act] at h
    split at h
    · cases h
    · next t0 ht0 =>
      split at h
      · cases h
      · next t1 e1 hst =>
        cases h
        by_cases hk : k' = k
        · subst hk
          rw [ht] at ht0
          cases ht0
          refine ⟨t1, List.getElem?_set_self hlt, fun hc => absurd rfl (hc c), fun c' hc => ?_⟩
          cases hc
          exact hst
        · refine ⟨t, by rw [List.getElem?_set_ne hk]; exact ht, fun _ => ⟨[], rfl⟩, fun c' hc => ?_⟩
          cases hc
          exact absurd rfl hk
  | main =>
    rcases mstep_thrs h with h1 | ⟨k', t0, ns, h0, h1⟩
    · exact ⟨t, by rw [h1]; exact ht, fun _ => ⟨[], rfl⟩, fun c hc => (by cases hc)⟩
    · rw [h1]
      by_cases hk : k' = k
      · subst hk
        rw [ht] at h0
        cases h0
        exact ⟨_, List.getElem?_set_self hlt, fun _ => ⟨ns, rfl⟩, fun c hc => (by cases hc)⟩
      · exact ⟨t, by rw [List.getElem?_set_ne hk]; exact ht, fun _ => ⟨[], rfl⟩, fun c hc => (by cases hc)⟩

theorem thr_exists (s : Jb) (σ : Nat → Act) (k : Nat) (hk : k < s.thrs.length) (n : Nat) :
    (runJ s σ n).thrs[k]? = some (thrAt s σ k n) := by
  have : ∃ t, (runJ s σ n).thrs[k]? = some t := by
    induction n with
    | zero => exact ⟨_, List.getElem?_eq_getElem hk⟩
    | succ n ih =>
      obtain ⟨t, ht⟩ := ih
      simp only [runJ]
      split
      · next s' e hs =>
        obtain ⟨t', ht', -⟩ := act_thr hs k t ht
        exact ⟨t', ht'⟩
      · exact ⟨t, ht⟩
  obtain ⟨t, ht⟩ := this
  unfold thrAt
  rw [ht]
  rfl

theorem trace_of (s : Jb) (σ : Nat → Act) (k : Nat) (hk : k < s.thrs.length) :
    Trace (thrAt s σ k) (ownAt σ k) := by
  constructor
  · intro n c hc
    have hσ : σ n = .thr k c := by
      unfold ownAt at hc
      split at hc
      · next k' c' h =>
        split at hc
        · next hkk => cases hc; rw [h, hkk]
        · cases hc
      · cases hc
    have ht := thr_exists s σ k hk n
    have ht' := thr_exists s σ k hk (n + 1)
    simp only [runJ, hσ] at ht'
    cases hs : act (runJ s σ n) (.thr k c) with
    | none =>
      rw [hs] at ht'
      simp only [act, ht] at hs
      cases hst : tstep (thrAt s σ k n) c with
      | none =>
        simp only at ht'
        rw [ht] at ht'
        exact (Option.some.inj ht').symm
      | some r => rw [hst] at hs; cases hs
    | some r =>
      obtain ⟨s', e⟩ := r
      rw [hs] at ht'
      obtain ⟨t', h1, -, h2⟩ := act_thr hs k _ ht
      simp only at ht'
      rw [h1] at ht'
      rw [h2 c rfl, ← Option.some.inj ht']
      rfl
  · intro n hn
    have hσ : ∀ c, σ n ≠ .thr k c := by
      intro c hc
      unfold ownAt at hn
      rw [hc] at hn
      simp at hn
    have ht := thr_exists s σ k hk n
    have ht' := thr_exists s σ k hk (n + 1)
    simp only [runJ] at ht'
    cases hs : act (runJ s σ n) (σ n) with
    | none =>
      rw [hs] at ht'
      simp only at ht'
      rw [ht] at ht'
      exact ⟨[], (Option.some.inj ht').symm⟩
    | some r =>
      obtain ⟨s', e⟩ := r
      rw [hs] at ht'
      obtain ⟨t', h1, h2, -⟩ := act_thr hs k _ ht
      simp only at ht'
      rw [h1] at ht'
      rw [← Option.some.inj ht']
      exact h2 hσ

theorem own_iff {σ : Nat → Act} {k n : Nat} {c : Choice} : ownAt σ k n = some c ↔ σ n = .thr k c := by
  unfold ownAt
  cases σ n with
  | main => simp
  | thr k' c' =>
    by_cases h : k' = k
    · simp [h]
    · simp [h]

theorem toldAt_of {s : Jb} {σ : Nat → Act} (ht : Told s σ) (k : Nat) (hk : k < s.thrs.length)
    (n : Nat) : ToldAt (thrAt s σ k) n := by
  intro x nm hp hx hsw
  obtain ⟨j, t', hj, h1, h2⟩ := ht k n _ x nm (thr_exists s σ k hk n) hp hx hsw
  rw [thr_exists s σ k hk j] at h1
  cases h1
  exact ⟨j, hj, h2⟩

theorem patient_of {s : Jb} {σ : Nat → Act} (hf : FairJ s σ) (hr : Responsive s σ)
    (k : Nat) (hk : k < s.thrs.length) : Patient (thrAt s σ k) (ownAt σ k) := by
  refine ⟨fun n => ?_, fun q hq hinf n => ?_⟩
  · obtain ⟨j, hj, c, hc⟩ := hf.thr k hk n
    exact ⟨j, hj, c, own_iff.mpr hc⟩
  · obtain ⟨j, hj, c, t, ⟨h1, t2, h2, h5⟩, h3, h4⟩ := hr k q hq (fun n => by
      obtain ⟨j, hj, c, hc, hw⟩ := hinf n
      exact ⟨j, hj, c, own_iff.mp hc, _, thr_exists s σ k hk j, hw⟩) n
    have e1 := thr_exists s σ k hk j
    rw [e1] at h3 h2
    cases h3
    cases h2
    exact ⟨j, hj, c, own_iff.mpr h1, h5, h4⟩

/-! ## The main thread -/

theorem dead_stays {T : Nat → Thr} {own : Nat → Option Choice} (h : Trace T own) {n m : Nat} (hm : n ≤ m)
    (hd : (T n).alive = false) : (T m).alive = false := by
  induction hm with
  | refl => exact hd
  | @step m _ ih =>
    cases ho : own m with
    | none =>
      obtain ⟨ns, hns⟩ := h.other m ho
      rw [hns]; exact ih
    | some c =>
      rw [h.mine m c ho]
      have : tstep (T m) c = none := by
        revert ih
        generalize T m = t
        intro ih
        obtain ⟨tk, i, pc, cur, names, noList, crashed, file⟩ := t
        cases pc <;> first | rfl | cases ih
      rw [this]; exact ih

/-- How far the main thread is from its end, once all threads have ended. -/
def mainRank (L : Nat) : MPc → Nat
  | .join k _ true => L - k + 1
  | .crash k _ => (L + 2) + (L - k)
  | .push k => 2 * (L + 2) + (L - k)
  | .collect k => 3 * (L + 2) + (L - k)
  | .join k _ false => 4 * (L + 2) + (L - k)
  | .done _ => 0

theorem mstep_rank {s : Jb} (hd : ∀ (k : Nat) (t : Thr), s.thrs[k]? = some t → t.alive = false)
    (hm : ∀ b, s.main ≠ .done b) :
    ∃ s' e, mstep s = some (s', e) ∧
      mainRank s.thrs.length s'.main < mainRank s.thrs.length s.main := by
  have hnone : ∀ k, s.thrs[k]? = none → s.thrs.length ≤ k := fun k h => List.getElem?_eq_none_iff.mp h
  have hsome : ∀ k t, s.thrs[k]? = some t → k < s.thrs.length := fun k t h =>
    (List.getElem?_eq_some_iff.mp h).1
  unfold mstep
  cases hmain : s.main with
  | collect k =>
    simp only
    cases hk : s.thrs[k]? with
    | none => exact ⟨_, _, rfl, by simp only [mainRank]; omega⟩
    | some t =>
      have := hsome k t hk
      simp only
      split <;> exact ⟨_, _, rfl, by simp only [mainRank]; omega⟩
  | push k =>
    simp only
    cases hk : s.thrs[k]? with
    | none => exact ⟨_, _, rfl, by simp only [mainRank]; omega⟩
    | some t =>
      have := hsome k t hk
      exact ⟨_, _, rfl, by simp only [mainRank]; omega⟩
  | crash k any =>
    simp only
    cases hk : s.thrs[k]? with
    | none => exact ⟨_, _, rfl, by simp only [mainRank]; omega⟩
    | some t =>
      have := hsome k t hk
      exact ⟨_, _, rfl, by simp only [mainRank]; omega⟩
  | join k any all =>
    simp only
    cases hk : s.thrs[k]? with
    | none =>
      cases all with
      | true => exact ⟨_, _, rfl, by simp only [mainRank]; omega⟩
      | false => exact ⟨_, _, rfl, by simp only [mainRank]; omega⟩
    | some t =>
      have := hsome k t hk
      have hj : t.joined = true := by simp [Thr.joined, hd k t hk]
      cases all with
      | true => exact ⟨_, _, rfl, by simp only [mainRank, hj, Bool.and_self]; omega⟩
      | false => exact ⟨_, _, rfl, by simp only [mainRank, Bool.false_and]; omega⟩
  | done b => exact absurd hmain (hm b)

theorem act_main {s s' : Jb} {a : Act} {e : JEv} (h : act s a = some (s', e)) (ha : a ≠ .main) :
    s'.main = s.main := by
  cases a with
  | main => exact absurd rfl ha
  | thr k c =>
    simp only [act] at h
    split at h
    · cases h
    · split at h <;> cases h; rfl

theorem main_ends (s : Jb) (σ : Nat → Act) (hf : FairJ s σ) (N : Nat)
    (hd : ∀ n, N ≤ n → ∀ k, k < s.thrs.length → (thrAt s σ k n).alive = false)
    (hlen : ∀ n, (runJ s σ n).thrs.length = s.thrs.length) :
    ∃ n b, (runJ s σ n).main = .done b := by
  suffices ∀ r n, N ≤ n → mainRank s.thrs.length (runJ s σ n).main = r →
      ∃ n b, (runJ s σ n).main = .done b from this _ N (Nat.le_refl N) rfl
  intro r
  induction r using Nat.strongRecOn with
  | ind r ih =>
    intro n hn hr
    by_cases hdone : ∃ b, (runJ s σ n).main = .done b
    · obtain ⟨b, hb⟩ := hdone; exact ⟨n, b, hb⟩
    -- the next turn of the main thread
    have hturn : ∃ j, n ≤ j ∧ σ j = .main ∧ (runJ s σ j).main = (runJ s σ n).main := by
      obtain ⟨j0, hj0, hσ0⟩ := hf.main n
      clear ih hr hn hdone
      induction hdj : j0 - n generalizing n with
      | zero =>
        have : n = j0 := by omega
        subst this
        exact ⟨n, Nat.le_refl n, hσ0, rfl⟩
      | succ d ihd =>
        by_cases hσ : σ n = .main
        · exact ⟨n, Nat.le_refl n, hσ, rfl⟩
        · obtain ⟨j, hj, h1, h2⟩ := ihd (n + 1) (by omega) (by omega)
          refine ⟨j, by omega, h1, h2.trans ?_⟩
          simp only [runJ]
          split
          · next s' e hs => exact act_main hs hσ
          · rfl
    obtain ⟨j, hj, hσ, hmain⟩ := hturn
    obtain ⟨s', e, hs, hlt⟩ := mstep_rank (s := runJ s σ j) (fun k t hk => by
      have hk' : k < s.thrs.length := by
        rw [← hlen j]; exact (List.getElem?_eq_some_iff.mp hk).1
      have := hd j (by omega) k hk'
      rw [thr_exists s σ k hk' j] at hk
      cases hk
      exact this) (fun b hb => hdone ⟨b, by rw [← hmain]; exact hb⟩)
    rw [hlen j, hmain, hr] at hlt
    refine ih _ hlt (j + 1) (by omega) ?_
    simp only [runJ, hσ, act, hs]

theorem runJ_length (s : Jb) (σ : Nat → Act) (n : Nat) : (runJ s σ n).thrs.length = s.thrs.length := by
  induction n with
  | zero => rfl
  | succ n ih =>
    simp only [runJ]
    split
    · next s' e hs =>
      rw [← ih]
      cases hσ : σ n with
      | thr k c =>
        rw [hσ] at hs
        simp only [act] at hs
        split at hs
        · cases hs
        · split at hs <;> cases hs; simp
      | main =>
        rw [hσ] at hs
        rcases mstep_thrs hs with h1 | ⟨k', t0, ns, h0, h1⟩ <;> simp [h1]
    · exact ih

theorem all_bound (L : Nat) {P : Nat → Nat → Prop} (hmono : ∀ k n m, n ≤ m → P k n → P k m)
    (h : ∀ k, k < L → ∃ n, P k n) : ∃ N, ∀ k, k < L → P k N := by
  induction L with
  | zero => exact ⟨0, fun k hk => (by omega)⟩
  | succ L ih =>
    obtain ⟨N, hN⟩ := ih (fun k hk => h k (by omega))
    obtain ⟨n, hn⟩ := h L (by omega)
    refine ⟨max N n, fun k hk => ?_⟩
    by_cases hkL : k = L
    · subst hkL; exact hmono _ _ _ (Nat.le_max_right _ _) hn
    · exact hmono _ _ _ (Nat.le_max_left _ _) (hN k (by omega))

theorem runJ_hist (tss : List (List Task)) (σ : Nat → Act) (n : Nat) :
    ∃ h, Hist (Jb.init tss) h (runJ (Jb.init tss) σ n) := by
  induction n with
  | zero => exact ⟨[], .init⟩
  | succ n ih =>
    obtain ⟨h, hh⟩ := ih
    simp only [runJ]
    split
    · next s' e hs => exact ⟨_, .step _ hh hs⟩
    · exact ⟨h, hh⟩

/-! ## C99 -/

/-- **C99** (`_partial`: the components answer, and threads that wait for the start of a task are told
of it, see `C99_refuted`): whatever tasks a job has, whatever its components answer otherwise, and in
whatever order the threads take their turns, the main loop of the job comes to its end. -/
theorem C99_ends_partial (tss : List (List Task)) (σ : Nat → Act) (hf : FairJ (Jb.init tss) σ)
    (hr : Responsive (Jb.init tss) σ) (ht : Told (Jb.init tss) σ) :
    ∃ n b, (runJ (Jb.init tss) σ n).main = .done b := by
  have hends : ∀ k, k < (Jb.init tss).thrs.length → ∃ n, (thrAt (Jb.init tss) σ k n).alive = false := by
    intro k hk
    have h0 : InTasks (thrAt (Jb.init tss) σ k 0) := by
      have := thr_exists (Jb.init tss) σ k hk 0
      simp only [runJ, Jb.init, List.getElem?_map, Option.map_eq_some_iff] at this
      obtain ⟨ts, -, hts⟩ := this
      have hts : _ = thrAt (Jb.init tss) σ k 0 := hts
      rw [← hts]
      trivial
    obtain ⟨m, -, hm⟩ := thread_ends (trace_of _ σ k hk) (patient_of hf hr k hk)
      (toldAt_of ht k hk) 0 h0
    exact ⟨m, hm⟩
  obtain ⟨N, hN⟩ := all_bound (Jb.init tss).thrs.length
    (P := fun k n => k < (Jb.init tss).thrs.length → (thrAt (Jb.init tss) σ k n).alive = false)
    (fun k n m hnm h hk => dead_stays (trace_of _ σ k hk) hnm (h hk))
    (fun k hk => by obtain ⟨n, hn⟩ := hends k hk; exact ⟨n, fun _ => hn⟩)
  exact main_ends _ σ hf N (fun n hn k hk => dead_stays (trace_of _ σ k hk) hn (hN k hk hk))
    (runJ_length _ σ)

/-- A job without start conditions ends if its components answer. -/
theorem C99_unconditional_partial (tss : List (List Task)) (σ : Nat → Act) (hf : FairJ (Jb.init tss) σ)
    (hr : Responsive (Jb.init tss) σ) (hn : ∀ ts ∈ tss, ∀ t ∈ ts, t.startWith = none) :
    ∃ n b, (runJ (Jb.init tss) σ n).main = .done b := by
  refine C99_ends_partial tss σ hf hr ?_
  intro k n t x nm ht hp hx hs
  exfalso
  obtain ⟨h, hh⟩ := runJ_hist tss σ n
  obtain ⟨ts, hts, hth⟩ := (hist_thr hh).2 k t ht
  have htk : t.tasks = ts := (tinv hth).tasks_eq
  rw [htk] at hx
  have := hn ts (List.mem_of_getElem? hts) x (List.mem_of_getElem? hx)
  rw [this] at hs
  cases hs

/-! ### The main thread goes round -/

/-- Where the main thread is in its round, for `L` threads. -/
def posM (L : Nat) : MPc → Nat
  | .collect k => k
  | .push k => (L + 1) + k
  | .crash k _ => 2 * (L + 1) + k
  | .join k _ _ => 3 * (L + 1) + k
  | .done _ => 4 * (L + 1)

/-- Within the bounds of the round. -/
def InRound (L : Nat) : MPc → Prop
  | .collect k => k ≤ L
  | .push k => k ≤ L
  | .crash k _ => k ≤ L
  | .join k _ _ => k ≤ L
  | .done _ => True

theorem mstep_round {s s' : Jb} {e : JEv} (hr : InRound s.thrs.length s.main)
    (h : mstep s = some (s', e)) : InRound s.thrs.length s'.main ∧
      ((∃ b, s'.main = .done b) ∨
        posM s.thrs.length s'.main = posM s.thrs.length s.main + 1 ∨
        (posM s.thrs.length s.main + 1 = 4 * (s.thrs.length + 1) ∧ posM s.thrs.length s'.main = 0)) := by
  have hnone : ∀ k, s.thrs[k]? = none → s.thrs.length ≤ k := fun k h => List.getElem?_eq_none_iff.mp h
  have hsome : ∀ k t, s.thrs[k]? = some t → k < s.thrs.length := fun k t h =>
    (List.getElem?_eq_some_iff.mp h).1
  unfold mstep at h
  cases hmain : s.main with
  | collect k =>
    rw [hmain] at h hr
    simp only [InRound] at hr
    simp only at h
    cases hk : s.thrs[k]? with
    | none =>
      rw [hk] at h
      have := hnone k hk
      cases h
      refine ⟨by simp [InRound], .inr (.inl ?_)⟩
      simp only [posM]; omega
    | some t =>
      have := hsome k t hk
      rw [hk] at h
      simp only at h
      split at h <;> (cases h; exact ⟨by simp only [InRound]; omega, .inr (.inl rfl)⟩)
  | push k =>
    rw [hmain] at h hr
    simp only [InRound] at hr
    simp only at h
    cases hk : s.thrs[k]? with
    | none =>
      rw [hk] at h
      have := hnone k hk
      cases h
      refine ⟨by simp [InRound], .inr (.inl ?_)⟩
      simp only [posM]; omega
    | some t =>
      have := hsome k t hk
      rw [hk] at h
      cases h
      exact ⟨by simp only [InRound]; omega, .inr (.inl rfl)⟩
  | crash k any =>
    rw [hmain] at h hr
    simp only [InRound] at hr
    simp only at h
    cases hk : s.thrs[k]? with
    | none =>
      rw [hk] at h
      have := hnone k hk
      cases h
      refine ⟨by simp [InRound], .inr (.inl ?_)⟩
      simp only [posM]; omega
    | some t =>
      have := hsome k t hk
      rw [hk] at h
      cases h
      exact ⟨by simp only [InRound]; omega, .inr (.inl rfl)⟩
  | join k any all =>
    rw [hmain] at h hr
    simp only [InRound] at hr
    simp only at h
    cases hk : s.thrs[k]? with
    | none =>
      have := hnone k hk
      rw [hk] at h
      simp only at h
      split at h
      · cases h; exact ⟨trivial, .inl ⟨_, rfl⟩⟩
      · cases h
        refine ⟨by simp [InRound], .inr (.inr ⟨?_, rfl⟩)⟩
        simp only [posM]; omega
    | some t =>
      have := hsome k t hk
      rw [hk] at h
      cases h
      exact ⟨by simp only [InRound]; omega, .inr (.inl rfl)⟩
  | done b => rw [hmain] at h; cases h

theorem mstep_some {s : Jb} (h : ∀ b, s.main ≠ .done b) : ∃ s' e, mstep s = some (s', e) := by
  unfold mstep
  split
  · split
    · exact ⟨_, _, rfl⟩
    · split <;> exact ⟨_, _, rfl⟩
  · split <;> exact ⟨_, _, rfl⟩
  · split <;> exact ⟨_, _, rfl⟩
  · split
    · split <;> exact ⟨_, _, rfl⟩
    · exact ⟨_, _, rfl⟩
  · next b hb => exact absurd hb (h b)

theorem inRound_run (tss : List (List Task)) (σ : Nat → Act) (n : Nat) :
    InRound (Jb.init tss).thrs.length (runJ (Jb.init tss) σ n).main := by
  induction n with
  | zero => simp [runJ, Jb.init, InRound]
  | succ n ih =>
    simp only [runJ]
    split
    · next s' e hs =>
      by_cases hσ : σ n = .main
      · rw [hσ] at hs
        have := (mstep_round (by rw [runJ_length]; exact ih) hs).1
        rw [runJ_length] at this
        exact this
      · rw [act_main hs hσ]; exact ih
    · exact ih

/-- The next turn of the main thread. -/
theorem main_turn {s : Jb} {σ : Nat → Act} (hf : FairJ s σ) (n : Nat) :
    ∃ j, n ≤ j ∧ σ j = .main ∧ (runJ s σ j).main = (runJ s σ n).main := by
  obtain ⟨j0, hj0, hσ0⟩ := hf.main n
  induction hdj : j0 - n generalizing n with
  | zero =>
    have : n = j0 := by omega
    subst this
    exact ⟨n, Nat.le_refl n, hσ0, rfl⟩
  | succ d ihd =>
    by_cases hσ : σ n = .main
    · exact ⟨n, Nat.le_refl n, hσ, rfl⟩
    · obtain ⟨j, hj, h1, h2⟩ := ihd (n + 1) (by omega) (by omega)
      refine ⟨j, by omega, h1, h2.trans ?_⟩
      simp only [runJ]
      split
      · next s' e hs => exact act_main hs hσ
      · rfl

/-- As long as it has not ended, the main thread comes to every place of its round again. -/
theorem comes_round (tss : List (List Task)) (σ : Nat → Act) (hf : FairJ (Jb.init tss) σ) (N : Nat)
    (hnd : ∀ n, N ≤ n → ∀ b, (runJ (Jb.init tss) σ n).main ≠ .done b) (p : Nat)
    (hp : p < 4 * ((Jb.init tss).thrs.length + 1)) (n : Nat) (hn : N ≤ n) :
    ∃ j, n ≤ j ∧ σ j = .main ∧ posM (Jb.init tss).thrs.length (runJ (Jb.init tss) σ j).main = p := by
  generalize hL : (Jb.init tss).thrs.length = L at *
  suffices ∀ d n, N ≤ n →
      (posM L (runJ (Jb.init tss) σ n).main + d = p ∨
        posM L (runJ (Jb.init tss) σ n).main + d = p + 4 * (L + 1)) →
      ∃ j, n ≤ j ∧ σ j = .main ∧ posM L (runJ (Jb.init tss) σ j).main = p by
    have hlt : posM L (runJ (Jb.init tss) σ n).main < 4 * (L + 1) := by
      have h1 := inRound_run tss σ n
      rw [hL] at h1
      have h2 := hnd n hn
      cases hm : (runJ (Jb.init tss) σ n).main with
      | done b => exact absurd hm (h2 b)
      | _ => rw [hm] at h1; simp only [InRound] at h1; simp only [posM]; omega
    by_cases hle : posM L (runJ (Jb.init tss) σ n).main ≤ p
    · exact this (p - posM L (runJ (Jb.init tss) σ n).main) n hn (.inl (by omega))
    · exact this (p + 4 * (L + 1) - posM L (runJ (Jb.init tss) σ n).main) n hn (.inr (by omega))
  intro d
  induction d with
  | zero =>
    intro n hn h
    obtain ⟨j, hj, h1, h2⟩ := main_turn hf n
    have h1' := inRound_run tss σ n
    rw [hL] at h1'
    refine ⟨j, hj, h1, ?_⟩
    rw [h2]
    rcases h with h | h
    · omega
    · have h2 := hnd n hn
      cases hm : (runJ (Jb.init tss) σ n).main with
      | done b => exact absurd hm (h2 b)
      | _ => rw [hm] at h1' h; simp only [InRound] at h1'; simp only [posM] at h; omega
  | succ d ih =>
    intro n hn h
    obtain ⟨j, hj, h1, h2⟩ := main_turn hf n
    obtain ⟨s', e, hs⟩ := mstep_some (hnd j (by omega))
    have hnext : runJ (Jb.init tss) σ (j + 1) = s' := by simp only [runJ, h1, act, hs]
    have hround := mstep_round (s := runJ (Jb.init tss) σ j) (by
      rw [runJ_length]; exact inRound_run tss σ j) hs
    rw [runJ_length, hL, h2] at hround
    rcases hround.2 with ⟨b, hb⟩ | h3 | ⟨h3, h4⟩
    · exact absurd (by rw [hnext]; exact hb) (hnd (j + 1) (by omega) b)
    · obtain ⟨l, hl, hl2⟩ := ih (j + 1) (by omega) (by rw [hnext, h3]; omega)
      exact ⟨l, by omega, hl2⟩
    · obtain ⟨l, hl, hl2⟩ := ih (j + 1) (by omega) (by rw [hnext, h4]; omega)
      exact ⟨l, by omega, hl2⟩

theorem started_stays {s : Jb} {σ : Nat → Act} {n m : Nat} (hm : n ≤ m) (x : String)
    (hx : x ∈ (runJ s σ n).started) : x ∈ (runJ s σ m).started := by
  induction hm with
  | refl => exact hx
  | @step m _ ih =>
    simp only [runJ]
    split
    · next s' e hs =>
      cases hσ : σ m with
      | thr k c =>
        rw [hσ] at hs
        simp only [act] at hs
        split at hs
        · cases hs
        · split at hs <;> cases hs; exact ih
      | main =>
        rw [hσ] at hs
        simp only [act, mstep] at hs
        split at hs
        · split at hs
          · cases hs; exact ih
          · split at hs <;> cases hs
            · exact ih
            · exact List.mem_cons_of_mem _ ih
        · split at hs <;> cases hs <;> exact ih
        · split at hs <;> cases hs <;> exact ih
        · split at hs
          · split at hs <;> cases hs <;> exact ih
          · cases hs; exact ih
        · cases hs
    · exact ih

/-- While a thread waits for a name, the job has not ended. -/
theorem hold_not_done (tss : List (List Task)) (σ : Nat → Act) (n k : Nat) (t : Thr)
    (ht : (runJ (Jb.init tss) σ n).thrs[k]? = some t) (hp : t.pc = .hold) (b : Bool) :
    (runJ (Jb.init tss) σ n).main ≠ .done b := by
  intro hb
  obtain ⟨h, hh⟩ := runJ_hist tss σ n
  have hm := mainOK hh
  unfold MainOK at hm
  rw [hb] at hm
  have hj := hm.2 k t ht
  obtain ⟨ts, hts, hth⟩ := (hist_thr hh).2 k t ht
  have := joined_stays hth hj {}
  simp only [tstep, hp] at this
  split at this <;> cases this

/-! ## C42 -/

/-- **C42** (`_partial`: the awaited task goes on until the waiting thread has noticed it, see
`C42_refuted`, and the component of the waiting task answers): a task that waits for the start of
another one is sent to its component, or its component does not answer at all. -/
theorem C42_starts_partial (tss : List (List Task)) (σ : Nat → Act) (hf : FairJ (Jb.init tss) σ)
    (hr : Responsive (Jb.init tss) σ) (n k k' : Nat) (t : Thr) (x : Task) (nm : String)
    (ht : (runJ (Jb.init tss) σ n).thrs[k]? = some t) (hp : t.pc = .hold)
    (hx : t.tasks[t.i]? = some x) (hn : x.startWith = some nm)
    (hlong : ∀ j, n ≤ j → ∀ u, (runJ (Jb.init tss) σ j).thrs[k]? = some u → u.pc = .hold → u.i = t.i →
      ∃ u' y, (runJ (Jb.init tss) σ j).thrs[k']? = some u' ∧ u'.current = some y ∧ y.taskName = some nm) :
    ∃ j u, n ≤ j ∧ (runJ (Jb.init tss) σ j).thrs[k]? = some u ∧ u.i = t.i ∧
      (u.pc = .wait .start ∨ u.pc = .crash) := by
  have hk : k < (Jb.init tss).thrs.length := by
    rw [← runJ_length (Jb.init tss) σ n]; exact (List.getElem?_eq_some_iff.mp ht).1
  have hT := trace_of (Jb.init tss) σ k hk
  have hP := patient_of hf hr k hk
  have hex := thr_exists (Jb.init tss) σ k hk
  have htn : thrAt (Jb.init tss) σ k n = t := by have := hex n; rw [ht] at this; exact (Option.some.inj this).symm
  generalize hTT : thrAt (Jb.init tss) σ k = T at *
  generalize hOO : ownAt σ k = own at *
  have hin : InTasks (T n) := by
    rw [htn]; unfold InTasks; rw [hp]
    exact (List.getElem?_eq_some_iff.mp hx).1
  -- the name arrives
  have htold : ToldAt T n := by
    intro x' nm' hp' hx' hs'
    rw [htn] at hp' hx'
    rw [hx] at hx'
    cases hx'
    rw [hn] at hs'
    cases hs'
    by_contra hno
    have hno : ∀ j, n ≤ j → nm ∉ (T j).names := fun j hj h => hno ⟨j, hj, h⟩
    have hstay : ∀ j, n ≤ j → (T j).pc = .hold ∧ (T j).i = t.i ∧ (T j).tasks = t.tasks := by
      intro j hj
      induction hj with
      | refl => rw [htn]; exact ⟨hp, rfl, rfl⟩
      | @step j hj ih =>
        cases ho : own j with
        | none =>
          obtain ⟨ns, hns⟩ := hT.other j ho
          rw [hns]; exact ih
        | some c =>
          have hst : tstep (T j) c = some (T j, .tau) := by
            simp only [tstep, ih.1, ih.2.1, ih.2.2, hx, Option.bind_some, hn, met]
            simp [hno j hj]
          rw [hT.mine j c ho, hst]
          exact ih
    have hnd : ∀ j, n ≤ j → ∀ b, (runJ (Jb.init tss) σ j).main ≠ .done b := fun j hj b =>
      hold_not_done tss σ j k _ (hex j) (hstay j hj).1 b
    have hk' : k' < (Jb.init tss).thrs.length := by
      obtain ⟨u', y, h1, -⟩ := hlong n (Nat.le_refl n) _ (hex n) (hstay n (Nat.le_refl n)).1
        (hstay n (Nat.le_refl n)).2.1
      rw [← runJ_length (Jb.init tss) σ n]; exact (List.getElem?_eq_some_iff.mp h1).1
    obtain ⟨j, hj, hσ, hpos⟩ := comes_round tss σ hf n hnd k' (by omega) n (Nat.le_refl n)
    have hmj : (runJ (Jb.init tss) σ j).main = .collect k' := by
      revert hpos
      cases (runJ (Jb.init tss) σ j).main <;> simp only [posM] <;> intro h <;>
        first | rw [h] | omega
    obtain ⟨u', y, h1, h2, h3⟩ := hlong j hj _ (hex j) (hstay j hj).1 (hstay j hj).2.1
    obtain ⟨s', hs', hst'⟩ := C42_seen hmj h1 h2 h3
    have hseen : nm ∈ (runJ (Jb.init tss) σ (j + 1)).started := by
      simp only [runJ, hσ, hs']; exact hst'
    obtain ⟨l, hl, hσl, hposl⟩ := comes_round tss σ hf n hnd (((Jb.init tss).thrs.length + 1) + k)
      (by omega) (j + 1) (by omega)
    have hml : (runJ (Jb.init tss) σ l).main = .push k := by
      have hr1 := inRound_run tss σ l
      have hnd1 := hnd l (by omega)
      revert hposl hr1 hnd1
      cases (runJ (Jb.init tss) σ l).main <;> simp only [posM, InRound] <;> intro h h' h'' <;>
        first | (simp only [MPc.push.injEq]; omega) | omega
    have hsl := started_stays hl nm hseen
    have hfin := hex (l + 1)
    simp only [runJ, hσl, act, mstep, hml, hex l] at hfin
    rw [List.getElem?_set_self (by rw [runJ_length]; exact hk)] at hfin
    refine hno (l + 1) (by omega) ?_
    rw [← Option.some.inj hfin]
    exact List.mem_append_left _ hsl
  -- it leaves the waiting
  have hleave : ∃ m, n ≤ m ∧ ¬ (((T m).pc = .hold ∨ (T m).pc = .ask .ready ∨ (T m).pc = .wait .ready) ∧
      (T m).i = t.i) := by
    by_contra hno
    have hall : ∀ m, n ≤ m → ((T m).pc = .hold ∨ (T m).pc = .ask .ready ∨ (T m).pc = .wait .ready) ∧
        (T m).i = t.i := by
      intro m hm
      by_contra h1
      exact hno ⟨m, hm, h1⟩
    have htk : ∀ m, n ≤ m → (T m).tasks = t.tasks ∧ InTasks (T m) := by
      intro m hm
      induction hm with
      | refl => rw [htn]; exact ⟨rfl, by rw [← htn]; exact hin⟩
      | @step m hm ih =>
        obtain ⟨j1, j2, -⟩ := trace_step hT ih.2
        exact ⟨j2.trans ih.1, j1⟩
    have halive : ∀ m, n ≤ m → (T m).alive = true := by
      intro m hm
      unfold Thr.alive
      rcases (hall m hm).1 with h | h | h <;> rw [h]
    obtain ⟨m, hm, h1 | ⟨h1, h2⟩⟩ := phase_ends hT hP n hin htold
    · rw [halive m hm] at h1; cases h1
    · have hnh : (T m).pc ≠ .hold := by
        intro hh
        rw [htn] at h2
        unfold mu at h2
        rw [hh, hp, (hall m hm).2, (htk m hm).1] at h2
        omega
      obtain ⟨l, hl, h3 | ⟨-, h4⟩⟩ := phase_ends hT hP m h1 (fun _ _ h => absurd h hnh)
      · rw [halive l (by omega)] at h3; cases h3
      · unfold mu at h4
        rw [(hall m hm).2, (htk m hm).1, (hall l (by omega)).2, (htk l (by omega)).1] at h4
        have hgm : grp (T m).pc = 9 := by
          rcases (hall m hm).1 with h | h | h
          · exact absurd h hnh
          · rw [h]; rfl
          · rw [h]; rfl
        have hgl : 9 ≤ grp (T l).pc := by
          rcases (hall l (by omega)).1 with h | h | h <;> rw [h] <;> decide
        omega
  -- where it goes
  obtain ⟨m, hm, hnot⟩ := hleave
  have hcross : ∃ j, n ≤ j ∧ (((T j).pc = .hold ∨ (T j).pc = .ask .ready ∨ (T j).pc = .wait .ready) ∧
      (T j).i = t.i) ∧ ¬ (((T (j + 1)).pc = .hold ∨ (T (j + 1)).pc = .ask .ready ∨
        (T (j + 1)).pc = .wait .ready) ∧ (T (j + 1)).i = t.i) := by
    induction hm with
    | refl => exact absurd (by rw [htn]; exact ⟨.inl hp, rfl⟩) hnot
    | @step m hm ih =>
      by_cases h1 : ((T m).pc = .hold ∨ (T m).pc = .ask .ready ∨ (T m).pc = .wait .ready) ∧ (T m).i = t.i
      · exact ⟨m, hm, h1, hnot⟩
      · exact ih h1
  obtain ⟨j, hj, ⟨hpc, hi⟩, hout⟩ := hcross
  cases ho : own j with
  | none =>
    obtain ⟨ns, hns⟩ := hT.other j ho
    rw [hns] at hout
    exact absurd ⟨hpc, hi⟩ hout
  | some c =>
    have hnext := hT.mine j c ho
    have hgo : ((T (j + 1)).pc = .ask .start ∨ (T (j + 1)).pc = .crash) ∧ (T (j + 1)).i = t.i := by
      rcases hpc with hpc | hpc | hpc
      · exfalso
        apply hout
        rw [hnext]
        simp only [tstep, hpc]
        split
        · exact ⟨.inr (.inl rfl), hi⟩
        · exact ⟨.inl hpc, hi⟩
      · exfalso
        apply hout
        rw [hnext]
        simp only [tstep, hpc]
        exact ⟨.inr (.inr rfl), hi⟩
      · have hstep : T (j + 1) = { T j with pc := next (T j).tasks[(T j).i]? .ready c.ans c.late } := by
          rw [hnext]; simp only [tstep, hpc]; rfl
        rw [hstep] at hout ⊢
        refine ⟨?_, hi⟩
        simp only at hout ⊢
        cases hans : c.ans with
        | closed => exact .inr rfl
        | reply ok st ps =>
          rw [hans] at hout
          cases st with
          | none => exact absurd ⟨.inr (.inl rfl), hi⟩ hout
          | some sd =>
            simp only [next] at hout ⊢
            split
            · exact .inl rfl
            · next h => rw [if_neg h] at hout; exact absurd ⟨.inr (.inl rfl), hi⟩ hout
    rcases hgo with ⟨hgo | hgo, hi'⟩
    · obtain ⟨l, c', hl, hc', hs⟩ := next_turn hT hP.turns (j + 1)
      refine ⟨l + 1, T (l + 1), by omega, hex (l + 1), ?_, ?_⟩
      · rw [hT.mine l c' hc']
        simp only [tstep, hs.1, hgo]
        exact hs.2.1.trans hi'
      · rw [hT.mine l c' hc']
        simp only [tstep, hs.1, hgo]
        exact .inl rfl
    · exact ⟨j + 1, T (j + 1), by omega, hex (j + 1), hi', .inr hgo⟩

/-! ### Schedules for the examples -/

/-- The given actions, and then for ever one thread after the other, without any further answer. -/
def thenRound (as : List Act) (L n : Nat) : Act :=
  match as[n]? with
  | some a => a
  | none => if n % (L + 1) = L then .main else .thr (n % (L + 1)) {}

theorem thenRound_after (as : List Act) (L n : Nat) (h : as.length ≤ n) :
    thenRound as L n = if n % (L + 1) = L then .main else .thr (n % (L + 1)) {} := by
  unfold thenRound
  rw [List.getElem?_eq_none h]

theorem turn_after (L k n : Nat) (hk : k ≤ L) : ∃ j, n ≤ j ∧ j % (L + 1) = k := by
  refine ⟨n * (L + 1) + k, ?_, ?_⟩
  · have : n * 1 ≤ n * (L + 1) := Nat.mul_le_mul_left _ (by omega)
    omega
  · rw [Nat.mul_comm, Nat.mul_add_mod]
    exact Nat.mod_eq_of_lt (by omega)

theorem thenRound_fair (as : List Act) (tss : List (List Task)) :
    FairJ (Jb.init tss) (thenRound as tss.length) := by
  constructor
  · intro k hk n
    have hk : k < tss.length := by simpa [Jb.init] using hk
    obtain ⟨j, hj, hm⟩ := turn_after tss.length k (n + as.length) (by omega)
    refine ⟨j, by omega, {}, ?_⟩
    rw [thenRound_after _ _ _ (by omega), hm, if_neg (by omega)]
  · intro n
    obtain ⟨j, hj, hm⟩ := turn_after tss.length tss.length (n + as.length) (by omega)
    refine ⟨j, by omega, ?_⟩
    rw [thenRound_after _ _ _ (by omega), hm, if_pos rfl]

theorem thenRound_responsive (as : List Act) (s : Jb) (L : Nat) : Responsive s (thenRound as L) := by
  intro k q _ hinf n
  obtain ⟨j, hj, c, hc, t, ht, hp⟩ := hinf (n + as.length)
  refine ⟨j, by omega, c, t, ⟨hc, t, ht, hp⟩, ht, ?_⟩
  rw [thenRound_after _ _ _ (by omega)] at hc
  split at hc
  · cases hc
  · cases hc
    exact .closed q false false

/-- The second task starts, the main thread looks and tells, the first task follows; both threads end. -/
def together : List Act :=
  goes 0 2 ++ begins 1 tGo ++ round2 ++
    (goes 0 1 ++ goes 0 1 ++ hears 0 (okStatus idleSD) ++ goes 0 1 ++ hears 0 okNone ++ goes 0 1 ++
      hears 0 (okStatus (busySD tWait))) ++
    finishes 0 [1] ++ movesOn 0 ++ resets 0 ++ finishes 1 [2] ++ movesOn 1 ++ resets 1

/-- The job of which one task waits for another meets the hypotheses of `C99_ends_partial`. -/
example : ∃ n b, (runJ (Jb.init [[tWait], [tGo]]) (thenRound together 2) n).main = .done b := by
  refine C99_ends_partial _ _ (thenRound_fair together [[tWait], [tGo]]) (thenRound_responsive _ _ _) ?_
  intro k n t x nm ht hp hx hs
  obtain ⟨h, hh⟩ := runJ_hist [[tWait], [tGo]] (thenRound together 2) n
  obtain ⟨ts, hts, hth⟩ := (hist_thr hh).2 k t ht
  rw [(tinv hth).tasks_eq] at hx
  have hk0 : k = 0 ∧ nm = "go" := by
    match k, hts with
    | 0, hts =>
      cases hts
      have := List.mem_of_getElem? hx
      rw [List.mem_singleton] at this
      subst this
      cases hs
      exact ⟨rfl, rfl⟩
    | 1, hts =>
      cases hts
      have := List.mem_of_getElem? hx
      rw [List.mem_singleton] at this
      subst this
      cases hs
    | k + 2, hts => simp at hts
  obtain ⟨rfl, rfl⟩ := hk0
  have h20 : "go" ∈ (thrAt (Jb.init [[tWait], [tGo]]) (thenRound together 2) 0 22).names := by
    have : (thrAt (Jb.init [[tWait], [tGo]]) (thenRound together 2) 0 22).names.contains "go" = true := by
      decide +kernel
    exact List.contains_iff_mem.mp this
  exact ⟨n + 22, _, by omega, thr_exists _ _ 0 (by decide) _,
    trace_names (trace_of _ _ 0 (by decide)) (by omega) _ h20⟩

/-- ... and it has ended without a crash when that round is over. -/
example : (runJ (Jb.init [[tWait], [tGo]]) (thenRound together 2) 120).main = .done false := by
  decide +kernel

/-- The same job meets the hypotheses of `C42_starts_partial`. -/
example : ∃ j u, 3 ≤ j ∧
    (runJ (Jb.init [[tWait], [tGo]]) (thenRound together 2) j).thrs[0]? = some u ∧ u.i = 0 ∧
      (u.pc = .wait .start ∨ u.pc = .crash) := by
  refine C42_starts_partial [[tWait], [tGo]] (thenRound together 2) (thenRound_fair together [[tWait], [tGo]])
    (thenRound_responsive _ _ _) 3 0 1 _ tWait "go" rfl rfl rfl rfl ?_
  intro j hj u hu hp _
  have hT := trace_of (Jb.init [[tWait], [tGo]]) (thenRound together 2) 0 (by decide)
  have hu' := thr_exists (Jb.init [[tWait], [tGo]]) (thenRound together 2) 0 (by decide) j
  rw [hu, Option.some.injEq] at hu'
  have hgo := thr_exists (Jb.init [[tWait], [tGo]]) (thenRound together 2) 1 (by decide) j
  rcases Nat.lt_or_ge j 60 with h60 | h60
  · have hall : (List.range 60).all (fun j => decide (3 ≤ j →
        (thrAt (Jb.init [[tWait], [tGo]]) (thenRound together 2) 0 j).pc = .hold →
        (thrAt (Jb.init [[tWait], [tGo]]) (thenRound together 2) 1 j).current = some tGo)) = true := by
      decide +kernel
    have := of_decide_eq_true (List.all_eq_true.mp hall j (List.mem_range.mpr h60)) hj
      (by rw [← hu']; exact hp)
    exact ⟨_, tGo, hgo, this, rfl⟩
  · have hd := dead_stays hT h60 (by decide +kernel)
    rw [← hu'] at hd
    unfold Thr.alive at hd
    rw [hp] at hd
    cases hd

/-! ### C99 fails -/

/-- **C99** is violated: if the first task of a component is to start with a task that the job does
not have, the main loop never ends, however the job goes on. -/
theorem C99_refuted (tss : List (List Task)) (k : Nat) (ts : List Task) (x : Task) (nm : String)
    (hk : tss[k]? = some ts) (hx : ts[0]? = some x) (hs : x.startWith = some nm)
    (hno : ∀ ts' ∈ tss, ∀ y ∈ ts', y.taskName ≠ some nm) {h : List JEv} {s : Jb}
    (hh : Hist (Jb.init tss) h s) (b : Bool) : s.main ≠ .done b := by
  have hnone : ∀ {h : List JEv}, ¬ TakenUp tss nm h := by
    rintro h ⟨k', ts', i, y, h1, h2, h3, -⟩
    exact hno ts' (List.mem_of_getElem? h1) y (List.mem_of_getElem? h2) h3
  have key : ∃ t, s.thrs[k]? = some t ∧ t.tasks = ts ∧ t.i = 0 ∧ t.crashed = false ∧
      (t.pc = .cur ∨ t.pc = .hold) := by
    induction hh with
    | init => exact ⟨{ tasks := ts }, by simp [Jb.init, hk], rfl, rfl, rfl, .inl rfl⟩
    | @step h s s' e a hh ha ih =>
      obtain ⟨t, h1, h2, h3, h4, h5⟩ := ih
      obtain ⟨t', g1, g2, g3⟩ := act_thr ha k t h1
      have hnm : nm ∉ t.names := fun hm => hnone ((ninv hh).names t (List.mem_of_getElem? h1) nm hm)
      by_cases hc : ∃ c, a = .thr k c
      · obtain ⟨c, hc⟩ := hc
        have hst := g3 c hc
        rcases h5 with h5 | h5
        · simp only [tstep, h5, h2, h3, hx, Option.some.injEq, Prod.mk.injEq] at hst
          rw [← hst.1] at g1
          exact ⟨_, g1, rfl, rfl, h4, .inr rfl⟩
        · have hmet : met (t.tasks[t.i]?.bind (·.startWith)) t.names = false := by
            simp [h2, h3, hx, hs, met, hnm]
          simp only [tstep, h5, hmet, Bool.false_eq_true, if_false, Option.some.injEq, Prod.mk.injEq] at hst
          rw [← hst.1] at g1
          exact ⟨_, g1, h2, h3, h4, .inr h5⟩
      · obtain ⟨ns, hns⟩ := g2 (fun c hc' => hc ⟨c, hc'⟩)
        rw [hns] at g1
        exact ⟨_, g1, h2, h3, h4, h5⟩
  obtain ⟨t, h1, -, -, h4, h5⟩ := key
  intro hb
  have hm := mainOK hh
  unfold MainOK at hm
  rw [hb] at hm
  have := hm.2 k t h1
  rcases h5 with h5 | h5 <;> simp [Thr.joined, Thr.alive, h4, h5] at this

/-- A job of a single task that is to start with another one: it is still waiting whatever happens. -/
example (σ : Nat → Act) (n : Nat) (b : Bool) : (runJ (Jb.init [[tWait]]) σ n).main ≠ .done b := by
  obtain ⟨h, hh⟩ := runJ_hist [[tWait]] σ n
  exact C99_refuted [[tWait]] 0 [tWait] tWait "go" rfl rfl rfl (by decide) hh b

end Tomato.Props
