import Verif.Props.JobThread

/-!
# Start and stop conditions, data and reset of a job (C40 - C44)
-/

namespace Tomato.Props
open Tomato.JobT

/-! ## What names mean -/

/-- Some task with the name `n` has been taken up by a thread of the job. -/
def TakenUp (tss : List (List Task)) (n : String) (h : List JEv) : Prop :=
  ∃ k ts i t, tss[k]? = some ts ∧ ts[i]? = some t ∧ t.taskName = some n ∧ .thr k (.current i) ∈ h

/-- Some task with the name `n` has been sent to a component of the job. -/
def Started (tss : List (List Task)) (n : String) (h : List JEv) : Prop :=
  ∃ k ts i t, tss[k]? = some ts ∧ ts[i]? = some t ∧ t.taskName = some n ∧ .thr k (.sent i .start) ∈ h

theorem TakenUp.append {tss : List (List Task)} {n : String} {h : List JEv} (hj : TakenUp tss n h)
    (h' : List JEv) : TakenUp tss n (h ++ h') := by
  obtain ⟨k, ts, i, t, h1, h2, h3, h4⟩ := hj
  exact ⟨k, ts, i, t, h1, h2, h3, by simp [h4]⟩

/-- All names that the main thread and the threads know belong to tasks that were taken up. -/
structure NInv (tss : List (List Task)) (h : List JEv) (s : Jb) : Prop where
  started : ∀ n ∈ s.started, TakenUp tss n h
  names : ∀ t ∈ s.thrs, ∀ n ∈ t.names, TakenUp tss n h

theorem tstep_names {t t' : Thr} {e : Ev} {c : Choice} (ha : tstep t c = some (t', e)) :
    t'.names = t.names := by
  obtain ⟨tk, i, pc, cur, names, noList, crashed, file⟩ := t
  cases pc <;> simp only [tstep] at ha
  all_goals (try split at ha)
  all_goals first
    | (cases ha; done)
    | (injection ha with ha; injection ha with ha1 ha2; subst ha1; rfl)

theorem ninv {tss : List (List Task)} {h : List JEv} {s : Jb} (hh : Hist (Jb.init tss) h s) :
    NInv tss h s := by
  induction hh with
  | init =>
    refine ⟨by simp [Jb.init], ?_⟩
    intro t ht n hn
    simp only [Jb.init, List.mem_map] at ht
    obtain ⟨ts, _, rfl⟩ := ht
    simp at hn
  | @step h s s' e a hh ha ih =>
    obtain ⟨h1, h2⟩ := ih
    have h1' : ∀ n ∈ s.started, TakenUp tss n (h ++ [e]) := fun n hn => (h1 n hn).append _
    have h2' : ∀ t ∈ s.thrs, ∀ n ∈ t.names, TakenUp tss n (h ++ [e]) :=
      fun t ht n hn => (h2 t ht n hn).append _
    cases a with
    | thr k c =>
      simp only [act] at ha
      split at ha
      · cases ha
      · rename_i t ht
        split at ha
        · cases ha
        · rename_i t' e' hst
          injection ha with ha
          injection ha with ha1 ha2
          subst ha1
          subst ha2
          refine ⟨h1', ?_⟩
          intro x hx n hn
          rcases List.mem_or_eq_of_mem_set hx with hx | rfl
          · exact h2' x hx n hn
          · rw [tstep_names hst] at hn
            exact h2' t (List.mem_of_getElem? ht) n hn
    | main =>
      simp only [act, mstep] at ha
      split at ha
      · split at ha
        · injection ha with ha; injection ha with ha1 ha2; subst ha1; exact ⟨h1', h2'⟩
        · rename_i k hm _ t ht
          split at ha
          · injection ha with ha; injection ha with ha1 ha2; subst ha1; exact ⟨h1', h2'⟩
          · rename_i n hn
            injection ha with ha; injection ha with ha1 ha2; subst ha1
            refine ⟨?_, h2'⟩
            intro m hm
            rcases List.mem_cons.mp hm with rfl | hm
            · obtain ⟨x, hx, hx'⟩ := Option.bind_eq_some_iff.mp hn
              obtain ⟨ts, hts, hth⟩ := (hist_thr hh).2 k t ht
              obtain ⟨i, hi, hi'⟩ := (tcond hth).current x hx
              exact ⟨k, ts, i, x, hts, hi', hx', by simp [mem_proj.mp hi]⟩
            · exact h1' m hm
      · split at ha
        · injection ha with ha; injection ha with ha1 ha2; subst ha1; exact ⟨h1', h2'⟩
        · rename_i k hm _ t ht
          injection ha with ha; injection ha with ha1 ha2; subst ha1
          refine ⟨h1', ?_⟩
          intro x hx n hn
          rcases List.mem_or_eq_of_mem_set hx with hx | rfl
          · exact h2' x hx n hn
          · rcases List.mem_append.mp hn with hn | hn
            · exact h1' n hn
            · exact h2' t (List.mem_of_getElem? ht) n hn
      · split at ha
        all_goals (injection ha with ha; injection ha with ha1 ha2; subst ha1; exact ⟨h1', h2'⟩)
      · split at ha
        · split at ha
          all_goals (injection ha with ha; injection ha with ha1 ha2; subst ha1; exact ⟨h1', h2'⟩)
        · injection ha with ha; injection ha with ha1 ha2; subst ha1; exact ⟨h1', h2'⟩
      · cases ha

theorem sent_pc {t t' : Thr} {c : Choice} {i : Nat} {q : Q} (ha : tstep t c = some (t', .sent i q)) :
    t.pc = .ask q ∧ t.i = i := by
  obtain ⟨tk, j, pc, cur, names, noList, crashed, file⟩ := t
  cases pc <;> simp only [tstep] at ha
  case ask q' =>
    injection ha with ha
    injection ha with ha1 ha2
    injection ha2 with ha2 ha3
    exact ⟨by rw [ha3], ha2⟩
  all_goals (try split at ha)
  all_goals first
    | (cases ha; done)
    | (injection ha with ha; injection ha with ha1 ha2; cases ha2; done)

/-- What holds when a request is sent. -/
theorem at_sent {tss : List (List Task)} {h : List JEv} {s : Jb} (hh : Hist (Jb.init tss) h s) :
    ∀ (a b : List JEv) (k i : Nat) (q : Q), h = a ++ .thr k (.sent i q) :: b →
    ∃ s' t ts, Hist (Jb.init tss) a s' ∧ s'.thrs[k]? = some t ∧ tss[k]? = some ts ∧
      THist ts (proj k a) t ∧ t.pc = .ask q ∧ t.i = i := by
  induction hh with
  | init => intro a b k i q h; simp at h
  | @step h s s' e a' hh ha ih =>
    intro a b k i q hs
    rcases snoc_split hs with ⟨_, he, rfl⟩ | ⟨b', _, h'⟩
    · subst he
      cases a' with
      | thr k' c =>
        simp only [act] at ha
        split at ha
        · cases ha
        · rename_i t ht
          split at ha
          · cases ha
          · rename_i t' e' hst
            injection ha with ha
            injection ha with ha1 ha2
            injection ha2 with ha2 ha3
            subst ha2
            subst ha3
            obtain ⟨ts, hts, hth⟩ := (hist_thr hh).2 k' t ht
            exact ⟨s, t, ts, hh, ht, hts, hth, sent_pc hst⟩
      | main =>
        exfalso
        simp only [act, mstep] at ha
        split at ha
        · split at ha
          · cases ha
          · split at ha <;> cases ha
        · split at ha <;> cases ha
        · split at ha <;> cases ha
        · split at ha
          · split at ha <;> cases ha
          · cases ha
        · cases ha
    · exact ih a b' k i q h'

/-! ## C40 -/

/-- **C40** (`_partial`: "taken up by a thread of the job" instead of "started on a component", see
`C40_refuted`): a task with `start_with_task_name` is not sent before some task with that name has
been taken up. -/
theorem C40_start_partial {tss : List (List Task)} {h : List JEv} {s : Jb}
    (hh : Hist (Jb.init tss) h s) (a b : List JEv) (k i : Nat)
    (hs : h = a ++ .thr k (.sent i .start) :: b) (ts : List Task) (hk : tss[k]? = some ts) (t : Task)
    (ht : ts[i]? = some t) (n : String) (hn : t.startWith = some n) : TakenUp tss n a := by
  obtain ⟨s', th, ts', h1, h2, h3, h4, h5, h6⟩ := at_sent hh a b k i .start hs
  rw [hk] at h3
  cases h3
  have hm := (tcond h4).met (.inr (.inr h5))
  rw [h6, ht] at hm
  simp only [Option.bind_some, hn, met, List.contains_iff_mem] at hm
  exact (ninv h1).names th (List.mem_of_getElem? h2) n hm

/-- **C40**, as stated, for names whose tasks have no start condition of their own and are not
preceded by other tasks, up to the request itself: such a task, once taken up, does nothing else than
being sent.  (The thread that has taken it up waits for nothing but its component.) -/
theorem C40_unconditional {t : Thr} {k : Task} (ht : t.tasks[t.i]? = some k) (hk : k.startWith = none)
    (hp : t.pc = .hold) (c : Choice) : ∃ t' e, tstep t c = some (t', e) ∧ t'.pc = .ask .ready := by
  obtain ⟨tk, i, pc, cur, names, noList, crashed, file⟩ := t
  simp only at ht hp
  subst hp
  simp [tstep, ht, hk, met]

def tWait : Task := { role := "x", technique := "t", startWith := some "go", body := 1 }

/-- A task that waits for another one. -/
example : ∃ p, JobT.run (Jb.init [[tWait], [tGo]])
      (goes 0 5 ++ begins 1 tGo ++ round2 ++ goes 0 2 ++ hears 0 (okStatus idleSD) ++ goes 0 1) = some p ∧
    starts (proj 0 p.2) = [0] := ⟨_, rfl, rfl⟩

def tA : Task := { role := "x", technique := "t", taskName := some "a", startWith := some "b" }
def tB : Task := { role := "y", technique := "t", taskName := some "b", startWith := some "a" }

/-- **C40** is violated: two tasks that wait for each other are both sent; the first one is sent when
no task has been sent at all.  (The name of a task counts as started as soon as a thread takes the
task up, before its own start condition is met.) -/
theorem C40_refuted : ∃ h s, Hist (Jb.init [[tA], [tB]]) h s ∧
    ∃ a b, h = a ++ .thr 0 (.sent 0 .start) :: b ∧ ¬ Started [[tA], [tB]] "b" a := by
  let as := goes 0 1 ++ goes 1 1 ++ round2 ++ goes 0 2 ++ hears 0 (okStatus idleSD)
  have hr : ∃ p, JobT.run (Jb.init [[tA], [tB]]) as = some p ∧
      p.2.all (fun e => match e with
        | .thr _ (.sent _ .start) => false
        | _ => true) = true ∧
      ∃ s', act p.1 (.thr 0 {}) = some (s', .thr 0 (.sent 0 .start)) := ⟨_, rfl, by decide, _, rfl⟩
  obtain ⟨⟨s, es⟩, hr, h1, s', h2⟩ := hr
  refine ⟨es ++ [.thr 0 (.sent 0 .start)], s', ?_, es, [], rfl, ?_⟩
  · exact .step _ (by simpa using jrun_hist .init hr) h2
  · rintro ⟨k, ts, i, t, _, _, _, h4⟩
    have := List.all_eq_true.mp h1 _ h4
    simp at this

/-! ## C41 -/

/-- **C41** (`_partial`: "taken up" instead of "started", see `C41_refuted`): a task is told to stop
only if it has a stop condition and some task with that name has been taken up. -/
theorem C41_stop_partial {tss : List (List Task)} {h : List JEv} {s : Jb}
    (hh : Hist (Jb.init tss) h s) (a b : List JEv) (k i : Nat)
    (hs : h = a ++ .thr k (.sent i .stop) :: b) (ts : List Task) (hk : tss[k]? = some ts) :
    ∃ t n, ts[i]? = some t ∧ t.stopWith = some n ∧ TakenUp tss n a := by
  obtain ⟨s', th, ts', h1, h2, h3, h4, h5, h6⟩ := at_sent hh a b k i .stop hs
  rw [hk] at h3
  cases h3
  have hm := (tcond h4).hit h5
  rw [h6] at hm
  cases ht : ts[i]? with
  | none => rw [ht] at hm; cases hm
  | some t =>
    rw [ht] at hm
    cases hw : t.stopWith with
    | none => simp [hw, hit] at hm
    | some n =>
      simp only [Option.bind_some, hw, hit, List.contains_iff_mem] at hm
      exact ⟨t, n, rfl, hw, (ninv h1).names th (List.mem_of_getElem? h2) n hm⟩

/-- **C41**: a running task whose stop condition is met, as far as its thread has been told, is told
to stop the next time the driver reports that it is running; otherwise the thread goes on. -/
theorem C41_told {ts : List Task} {h : List Ev} {t : Thr} (hh : THist ts h t) (k : Task)
    (hk : ts[t.i]? = some k) (hp : t.pc = .wait .status) (c : Choice) (c' : Choice) (sd : SD)
    (ps : Option (List Nat)) (hc : c.ans = .reply true (some sd) ps) (hr : sd.running = true)
    (hw : sd.task = none ∨ sd.task = some (some k)) :
    ∃ t₁ e₁ t₂ e₂, tstep t c = some (t₁, e₁) ∧ tstep t₁ c' = some (t₂, e₂) ∧
      ((∃ n, k.stopWith = some n ∧ n ∈ t.names) → t₂.pc = .ask .stop) ∧
      ((∀ n, k.stopWith = some n → n ∉ t.names) → t₂.pc = .due) := by
  have htk := (tinv hh).tasks_eq
  obtain ⟨tk, i, pc, cur, names, noList, crashed, file⟩ := t
  simp only at hp htk hk
  subst hp
  subst htk
  have hover : next (some k) .status c.ans c.late = .trigger := by
    rw [hc]
    simp only [next, isOver, hr, SD.wrong]
    rcases hw with hw | hw <;> rw [hw] <;> simp
  have h1 : tstep ⟨tk, i, .wait .status, cur, names, noList, crashed, file⟩ c =
      some (⟨tk, i, .trigger, cur, names, noList, crashed, file⟩, .got i .status c.ans c.late) := by
    simp [tstep, hk, hover]
  have h2 : tstep ⟨tk, i, .trigger, cur, names, noList, crashed, file⟩ c' =
      some (⟨tk, i, if hit k.stopWith names then .ask .stop else .due, cur, names, noList, crashed, file⟩, .tau) := by
    simp [tstep, hk]
    split <;> rfl
  refine ⟨_, _, _, _, h1, h2, ?_, ?_⟩
  · rintro ⟨n, hs, hn⟩
    simp [hit, hs, hn]
  · intro hno
    cases hs : k.stopWith with
    | none => simp [hit, hs]
    | some n => simp [hit, hs, hno n hs]

example : ∃ p, JobT.run (Jb.init [[tUntil], [tGo]])
      (begins 0 tUntil ++ goes 1 1 ++ round2 ++ goes 0 2 ++ hears 0 (okStatus (busySD tUntil)) ++
        goes 0 2) = some p ∧ .thr 0 (.sent 0 .stop) ∈ p.2 := ⟨_, rfl, by decide⟩

def tLater : Task := { role := "y", technique := "t", taskName := some "go", startWith := some "zzz" }

/-- **C41** is violated: the task is told to stop while the task it is to stop with is still waiting
for its own start condition, and is never started. -/
theorem C41_refuted : ∃ h s, Hist (Jb.init [[tUntil], [tLater]]) h s ∧
    .thr 0 (.sent 0 .stop) ∈ h ∧ ¬ Started [[tUntil], [tLater]] "go" h := by
  let as := begins 0 tUntil ++ goes 1 1 ++ round2 ++ goes 0 2 ++ hears 0 (okStatus (busySD tUntil)) ++
        goes 0 2
  have hr : ∃ p, JobT.run (Jb.init [[tUntil], [tLater]]) as = some p ∧
      p.2.contains (.thr 0 (.sent 0 .stop)) = true ∧
      p.2.all (fun e => match e with
        | .thr 1 (.sent _ .start) => false
        | _ => true) = true := ⟨_, rfl, by decide, by decide⟩
  obtain ⟨⟨s, es⟩, hr, h1, h2⟩ := hr
  refine ⟨es, s, by simpa using jrun_hist .init hr, List.contains_iff_mem.mp h1, ?_⟩
  rintro ⟨k, ts, i, t, h3, h4, h5, h6⟩
  have := List.all_eq_true.mp h2 _ h6
  match k, h3 with
  | 0, h3 =>
    simp only [List.getElem?_cons_zero, Option.some.injEq] at h3
    subst h3
    match i, h4 with
    | 0, h4 =>
      simp only [List.getElem?_cons_zero, Option.some.injEq] at h4
      subst h4
      simp [tUntil] at h5
    | i + 1, h4 => simp at h4
  | 1, h3 => simp at this
  | k + 2, h3 => simp at h3

/-! ## C42 -/

/-- The main thread notices the name of a task that is current when it looks. -/
theorem C42_seen {s : Jb} {k : Nat} {t : Thr} {x : Task} {n : String} (hm : s.main = .collect k)
    (ht : s.thrs[k]? = some t) (hc : t.current = some x) (hn : x.taskName = some n) :
    ∃ s', act s .main = some (s', .saw n) ∧ n ∈ s'.started := by
  refine ⟨{ s with started := n :: s.started, main := .collect (k + 1) }, ?_, by simp⟩
  simp [act, mstep, hm, ht, hc, hn]

/-- Names are never forgotten by the main thread, nor by the threads. -/
theorem known_stays {s : Jb} {h : List JEv} {s' : Jb} (hc : JCont s h s') (n : String) :
    (n ∈ s.started → n ∈ s'.started) ∧
    (∀ (k : Nat) t, s.thrs[k]? = some t → n ∈ t.names → ∃ t', s'.thrs[k]? = some t' ∧ n ∈ t'.names) := by
  induction hc with
  | refl => exact ⟨id, fun k t h1 h2 => ⟨t, h1, h2⟩⟩
  | @step h s₁ s₂ e a hc ha ih =>
    suffices hstep : (n ∈ s₁.started → n ∈ s₂.started) ∧
        (∀ (k : Nat) t, s₁.thrs[k]? = some t → n ∈ t.names → ∃ t', s₂.thrs[k]? = some t' ∧ n ∈ t'.names) by
      refine ⟨fun h => hstep.1 (ih.1 h), fun k t h1 h2 => ?_⟩
      obtain ⟨t', h3, h4⟩ := ih.2 k t h1 h2
      exact hstep.2 k t' h3 h4
    cases a with
    | thr k' c =>
      simp only [act] at ha
      split at ha
      · cases ha
      · rename_i t ht
        split at ha
        · cases ha
        · rename_i t' e' hst
          injection ha with ha
          injection ha with ha1 ha2
          subst ha1
          refine ⟨id, fun k x h1 h2 => ?_⟩
          by_cases hk : k' = k
          · subst hk
            rw [ht] at h1
            cases h1
            have hkl := (List.getElem?_eq_some_iff.mp ht).1
            exact ⟨t', List.getElem?_set_self hkl, by rw [tstep_names hst]; exact h2⟩
          · exact ⟨x, by simp only [List.getElem?_set_ne hk]; exact h1, h2⟩
    | main =>
      simp only [act, mstep] at ha
      split at ha
      · split at ha
        · injection ha with ha; injection ha with ha1 ha2; subst ha1
          exact ⟨id, fun k t h1 h2 => ⟨t, h1, h2⟩⟩
        · split at ha
          · injection ha with ha; injection ha with ha1 ha2; subst ha1
            exact ⟨id, fun k t h1 h2 => ⟨t, h1, h2⟩⟩
          · injection ha with ha; injection ha with ha1 ha2; subst ha1
            exact ⟨fun h => List.mem_cons_of_mem _ h, fun k t h1 h2 => ⟨t, h1, h2⟩⟩
      · split at ha
        · injection ha with ha; injection ha with ha1 ha2; subst ha1
          exact ⟨id, fun k t h1 h2 => ⟨t, h1, h2⟩⟩
        · rename_i k' hm _ t ht
          injection ha with ha; injection ha with ha1 ha2; subst ha1
          refine ⟨id, fun k x h1 h2 => ?_⟩
          by_cases hk : k' = k
          · subst hk
            rw [ht] at h1
            cases h1
            have hkl := (List.getElem?_eq_some_iff.mp ht).1
            exact ⟨_, List.getElem?_set_self hkl, by simp [h2]⟩
          · exact ⟨x, by simp only [List.getElem?_set_ne hk]; exact h1, h2⟩
      · split at ha
        all_goals (injection ha with ha; injection ha with ha1 ha2; subst ha1)
        all_goals exact ⟨id, fun k t h1 h2 => ⟨t, h1, h2⟩⟩
      · split at ha
        · split at ha
          all_goals (injection ha with ha; injection ha with ha1 ha2; subst ha1)
          all_goals exact ⟨id, fun k t h1 h2 => ⟨t, h1, h2⟩⟩
        · injection ha with ha; injection ha with ha1 ha2; subst ha1
          exact ⟨id, fun k t h1 h2 => ⟨t, h1, h2⟩⟩
      · cases ha

/-- After the main thread has told thread `k`, the thread knows all names the main thread knows. -/
theorem told {s s' : Jb} {k : Nat} (ha : act s .main = some (s', .pushed k)) (n : String)
    (hn : n ∈ s.started) : ∃ t, s'.thrs[k]? = some t ∧ n ∈ t.names := by
  simp only [act, mstep] at ha
  split at ha
  · split at ha
    · cases ha
    · split at ha <;> cases ha
  · split at ha
    · cases ha
    · rename_i k' hm _ t ht
      injection ha with ha
      injection ha with ha1 ha2
      injection ha2 with ha2
      subst ha1
      subst ha2
      have hkl := (List.getElem?_eq_some_iff.mp ht).1
      exact ⟨_, List.getElem?_set_self hkl, by simp [hn]⟩
  · split at ha <;> cases ha
  · split at ha
    · split at ha <;> cases ha
    · cases ha
  · cases ha

theorem saw_started {s s' : Jb} {n : String} {a : Act} (ha : act s a = some (s', .saw n)) :
    n ∈ s'.started := by
  cases a with
  | thr k c =>
    simp only [act] at ha
    split at ha
    · cases ha
    · split at ha <;> cases ha
  | main =>
    simp only [act, mstep] at ha
    split at ha
    · split at ha
      · cases ha
      · split at ha
        · cases ha
        · injection ha with ha
          injection ha with ha1 ha2
          injection ha2 with ha2
          subst ha1
          subst ha2
          simp
    · split at ha <;> cases ha
    · split at ha <;> cases ha
    · split at ha
      · split at ha <;> cases ha
      · cases ha
    · cases ha

theorem pushed_main {s s' : Jb} {k : Nat} {a : Act} (ha : act s a = some (s', .pushed k)) : a = .main := by
  cases a with
  | main => rfl
  | thr k' c =>
    simp only [act] at ha
    split at ha
    · cases ha
    · split at ha <;> cases ha

/-- **C42** (`_partial`: if the main thread has noticed the awaited task, which is the case when it
looks at the thread while the task is current, see `C42_seen` and `C42_refuted`): from the moment the
main thread has noticed the name and told thread `k`, the thread does not wait for that name any
more: its next step leaves the waiting loop. -/
theorem C42_released_partial {s s₁ s₂ s₃ s₄ s' : Jb} {n : String} {k : Nat} {a b : Act}
    {h₁ h₂ : List JEv} (hsaw : act s a = some (s₁, .saw n)) (hc : JCont s₁ h₁ s₂)
    (hpush : act s₂ b = some (s₃, .pushed k)) (hc' : JCont s₃ h₂ s₄)
    (t : Thr) (ht : s₄.thrs[k]? = some t) (hp : t.pc = .hold) (x : Task)
    (hx : t.tasks[t.i]? = some x) (hn : x.startWith = some n) (c : Choice) :
    ∃ t', act s₄ (.thr k c) = some ({ s₄ with thrs := s₄.thrs.set k t' }, .thr k .tau) ∧
      t'.pc = .ask .ready := by
  have h1 := saw_started hsaw
  have h2 := (known_stays hc n).1 h1
  have := pushed_main hpush
  subst this
  obtain ⟨t₃, h3, h4⟩ := told hpush n h2
  obtain ⟨t₄, h5, h6⟩ := (known_stays hc' n).2 k t₃ h3 h4
  rw [ht] at h5
  cases h5
  refine ⟨{ t with pc := .ask .ready }, ?_, rfl⟩
  simp [act, ht, tstep, hp, hx, hn, met, h6]

/-- The awaited task is current when the main thread looks. -/
example : ∃ s₀ s h s' h', JobT.run (Jb.init [[tWait], [tGo]]) (goes 0 2 ++ begins 1 tGo) = some (s₀, h) ∧
    JobT.run s₀ (looks 1) = some (s, h') ∧ act s .main = some (s', .saw "go") :=
  ⟨_, _, _, _, _, rfl, rfl, rfl⟩

/-- The state of the job in which the waiting thread is stuck. -/
def Stuck (s : Jb) : Prop :=
  ∃ w g, s.thrs = [w, g] ∧ w.tasks = [tWait] ∧ w.i = 0 ∧ w.pc = .hold ∧ w.current = some tWait ∧
    "go" ∉ w.names ∧ "go" ∉ s.started ∧ g.tasks = [tGo] ∧ g.i = 1 ∧ g.current = none ∧
    (g.pc = .cur ∨ g.pc = .ask .reset ∨ g.pc = .wait .reset ∨ g.pc = .fin ∨ g.pc = .crash ∨ g.pc = .exited)

theorem stuck_step {s s' : Jb} {e : JEv} {a : Act} (hs : Stuck s) (ha : act s a = some (s', e)) :
    Stuck s' ∧ ∀ i q, e ≠ .thr 0 (.sent i q) := by
  obtain ⟨w, g, h1, h2, h3, h4, h5, h6, h7, h8, h9, h10, h11⟩ := hs
  cases a with
  | thr k c =>
    simp only [act, h1] at ha
    match k, ha with
    | 0, ha =>
      simp only [List.getElem?_cons_zero] at ha
      have hst : tstep w c = some (w, .tau) := by
        simp [tstep, h4, h2, h3, met, tWait, h6]
      rw [hst] at ha
      injection ha with ha
      injection ha with ha1 ha2
      subst ha1
      subst ha2
      exact ⟨⟨w, g, by simp, h2, h3, h4, h5, h6, h7, h8, h9, h10, h11⟩, by simp⟩
    | 1, ha =>
      simp only [List.getElem?_cons_succ, List.getElem?_cons_zero] at ha
      obtain ⟨tk, i, pc, cur, names, noList, crashed, file⟩ := g
      simp only at h8 h9 h10 h11
      subst h8; subst h9; subst h10
      rcases h11 with rfl | rfl | rfl | rfl | rfl | rfl
      · simp only [tstep, tGo, List.getElem?_cons_succ, List.getElem?_nil] at ha
        injection ha with ha
        injection ha with ha1 ha2
        subst ha1; subst ha2
        exact ⟨⟨w, _, rfl, h2, h3, h4, h5, h6, h7, rfl, rfl, rfl, by simp⟩, by simp⟩
      · simp only [tstep] at ha
        injection ha with ha
        injection ha with ha1 ha2
        subst ha1; subst ha2
        exact ⟨⟨w, _, rfl, h2, h3, h4, h5, h6, h7, rfl, rfl, rfl, by simp⟩, by simp⟩
      · simp only [tstep] at ha
        injection ha with ha
        injection ha with ha1 ha2
        subst ha1; subst ha2
        refine ⟨⟨w, _, rfl, h2, h3, h4, h5, h6, h7, rfl, rfl, rfl, ?_⟩, by simp⟩
        simp only
        cases c.ans <;> simp [next]
      · simp [tstep] at ha
      · simp only [tstep] at ha
        injection ha with ha
        injection ha with ha1 ha2
        subst ha1; subst ha2
        exact ⟨⟨w, _, rfl, h2, h3, h4, h5, h6, h7, rfl, rfl, rfl, by simp⟩, by simp⟩
      · simp [tstep] at ha
    | k + 2, ha => simp at ha
  | main =>
    have keep : ∀ s'', s'' = { s with main := s''.main } → Stuck s'' := by
      intro s'' h
      rw [h]
      exact ⟨w, g, h1, h2, h3, h4, h5, h6, h7, h8, h9, h10, h11⟩
    simp only [act, mstep] at ha
    split at ha
    · rename_i k hm
      split at ha
      · injection ha with ha; injection ha with ha1 ha2; subst ha1; subst ha2
        exact ⟨keep _ rfl, by simp⟩
      · rename_i t ht
        have hnone : t.current.bind (·.taskName) = none := by
          rw [h1] at ht
          match k, ht with
          | 0, ht => simp at ht; subst ht; simp [h5, tWait]
          | 1, ht => simp at ht; subst ht; simp [h10]
          | k + 2, ht => simp at ht
        rw [hnone] at ha
        injection ha with ha; injection ha with ha1 ha2; subst ha1; subst ha2
        exact ⟨keep _ rfl, by simp⟩
    · rename_i k hm
      split at ha
      · injection ha with ha; injection ha with ha1 ha2; subst ha1; subst ha2
        exact ⟨keep _ rfl, by simp⟩
      · rename_i t ht
        injection ha with ha; injection ha with ha1 ha2; subst ha1; subst ha2
        refine ⟨?_, by simp⟩
        rw [h1] at ht
        match k, ht with
        | 0, ht =>
          simp only [List.getElem?_cons_zero, Option.some.injEq] at ht
          subst ht
          refine ⟨{ w with names := s.started ++ w.names }, g, by simp [h1], h2, h3, h4, h5, ?_, h7, h8,
            h9, h10, h11⟩
          simp [h6, h7]
        | 1, ht =>
          simp only [List.getElem?_cons_succ, List.getElem?_cons_zero, Option.some.injEq] at ht
          subst ht
          exact ⟨w, { g with names := s.started ++ g.names }, by simp [h1], h2, h3, h4, h5, h6, h7, h8,
            h9, h10, h11⟩
        | k + 2, ht => simp at ht
    · split at ha
      all_goals (injection ha with ha; injection ha with ha1 ha2; subst ha1; subst ha2)
      all_goals exact ⟨keep _ rfl, by simp⟩
    · split at ha
      · split at ha
        all_goals (injection ha with ha; injection ha with ha1 ha2; subst ha1; subst ha2)
        all_goals exact ⟨keep _ rfl, by simp⟩
      · injection ha with ha; injection ha with ha1 ha2; subst ha1; subst ha2
        exact ⟨keep _ rfl, by simp⟩
    · cases ha

/-- **C42** is violated: if the awaited task starts and ends between two looks of the main thread
(which looks once a second), its name is never noticed, and the waiting task is never sent, however
the job continues. -/
theorem C42_refuted : ∃ h s, Hist (Jb.init [[tWait], [tGo]]) h s ∧
    Started [[tWait], [tGo]] "go" h ∧
    ∀ h' s', JCont s h' s' → starts (proj 0 (h ++ h')) = [] := by
  let as := goes 0 2 ++ begins 1 tGo ++ finishes 1 [1] ++ movesOn 1
  have hr : ∃ p, JobT.run (Jb.init [[tWait], [tGo]]) as = some p ∧
      p.2.contains (.thr 1 (.sent 0 .start)) = true ∧ starts (proj 0 p.2) = [] ∧
      ∃ w g, p.1.thrs = [w, g] ∧ w.tasks = [tWait] ∧ w.i = 0 ∧ w.pc = .hold ∧ w.current = some tWait ∧
        w.names = [] ∧ p.1.started = [] ∧ g.tasks = [tGo] ∧ g.i = 1 ∧ g.current = none ∧ g.pc = .cur :=
    ⟨_, rfl, by decide, rfl, _, _, rfl, rfl, rfl, rfl, rfl, rfl, rfl, rfl, rfl, rfl, rfl⟩
  obtain ⟨⟨s, es⟩, hr, h1, h2, w, g, g1, g2, g3, g4, g5, g6, g7, g8, g9, g10, g11⟩ := hr
  simp only at h1 h2 g1 g7
  refine ⟨es, s, by simpa using jrun_hist .init hr, ⟨1, [tGo], 0, tGo, rfl, rfl, rfl, List.contains_iff_mem.mp h1⟩, ?_⟩
  intro h' s' hc
  have hst : Stuck s' ∧ starts (proj 0 (es ++ h')) = [] := by
    induction hc with
    | refl =>
      refine ⟨⟨w, g, g1, g2, g3, g4, g5, by simp [g6], by simp [g7], g8, g9, g10, .inl g11⟩, ?_⟩
      simpa using h2
    | @step h' s₁ s₂ e a hc ha ih =>
      obtain ⟨i1, i2⟩ := ih
      obtain ⟨j1, j2⟩ := stuck_step i1 ha
      refine ⟨j1, ?_⟩
      rw [← List.append_assoc, proj_snoc, starts, List.filterMap_append]
      rw [starts] at i2
      rw [i2, List.nil_append]
      cases e with
      | thr k e =>
        by_cases hk : k = 0
        · subst hk
          rw [proj_thr]
          cases e with
          | sent i q => exact absurd rfl (j2 i q)
          | _ => rfl
        · rw [proj_thr_ne hk]; rfl
      | _ => simp [proj]
  exact hst.2

/-! ## C43 -/

/-- **C43** (`_partial`: except while the file is being written, see `C43_refuted`): at every moment,
the data of a component that have been delivered are those in its file followed by at most one
delivery which is being stored; when nothing is being stored, the file has exactly the data delivered,
in order. -/
theorem C43_stored_partial {tss : List (List Task)} {h : List JEv} {s : Jb}
    (hh : Hist (Jb.init tss) h s) (k : Nat) (t : Thr) (hk : s.thrs[k]? = some t) :
    (t.file ≠ .broken → ∃ rest, delivered (proj k h) = t.file.content ++ rest) ∧
    ((∀ ps n, t.pc ≠ .load ps n ∧ t.pc ≠ .trunc ps n ∧ t.pc ≠ .dump ps n) →
      t.file ≠ .broken ∧ t.file.content = delivered (proj k h)) ∧
    (t.file = .broken → ∃ n, t.pc = .dump (delivered (proj k h)) n) := by
  obtain ⟨ts, _, hth⟩ := (hist_thr hh).2 k t hk
  have hf := fileOK hth
  obtain ⟨tk, i, pc, cur, names, noList, crashed, file⟩ := t
  generalize delivered (proj k h) = d at hf
  unfold FileOK at hf
  cases pc with
  | load ps n =>
    refine ⟨fun _ => ⟨ps, hf.2.symm⟩, fun h => absurd rfl (h ps n).1, fun h => absurd h hf.1⟩
  | trunc ps n =>
    obtain ⟨h1, h2, x, hx⟩ := hf
    exact ⟨fun _ => ⟨x, hx.symm⟩, fun h => absurd rfl (h ps n).2.1, fun h => absurd h h1⟩
  | dump ps n =>
    obtain ⟨h1, h2⟩ := hf
    exact ⟨fun h => absurd h1 h, fun h => absurd rfl (h ps n).2.2, fun _ => ⟨n, by rw [h2]⟩⟩
  | _ => exact ⟨fun _ => ⟨[], by simp [hf.2]⟩, fun _ => hf, fun h => absurd h hf.1⟩

/-- Two deliveries. -/
example : ∃ p, JobT.run (Jb.init [[task "x" 1, task "x" 2]])
      (begins 0 (task "x" 1) ++ finishes 0 [1, 2] ++ movesOn 0 ++ begins 0 (task "x" 2) ++
       finishes 0 [3]) = some p ∧ p.1.thrs.map (·.file) = [.data [1, 2, 3]] ∧
    delivered (proj 0 p.2) = [1, 2, 3] := ⟨_, rfl, rfl, rfl⟩

/-- **C43** is violated: the file is truncated before it is written again; if the process dies in
between, the data stored before are lost. -/
theorem C43_refuted : ∃ h s, Hist (Jb.init [[task "x" 1, task "x" 2]]) h s ∧
    (∃ t, s.thrs = [t] ∧ t.file = .data [1, 2]) ∧
    ∃ h' s', JCont s h' s' ∧ ∃ t', s'.thrs = [t'] ∧ t'.file.content = [] := by
  let as := begins 0 (task "x" 1) ++ finishes 0 [1, 2] ++ movesOn 0 ++ begins 0 (task "x" 2) ++
    goes 0 2 ++ hears 0 (okStatus idleSD) ++ goes 0 1 ++ hears 0 (okData [3]) ++ goes 0 1
  have hr : ∃ p, JobT.run (Jb.init [[task "x" 1, task "x" 2]]) as = some p ∧
      (∃ t, p.1.thrs = [t] ∧ t.file = .data [1, 2]) ∧
      ∃ s' e, act p.1 (.thr 0 {}) = some (s', e) ∧ ∃ t', s'.thrs = [t'] ∧ t'.file.content = [] :=
    ⟨_, rfl, ⟨_, rfl, rfl⟩, _, _, rfl, _, rfl, rfl⟩
  obtain ⟨⟨s, es⟩, hr, h1, s', e, h2, h3⟩ := hr
  exact ⟨es, s, by simpa using jrun_hist .init hr, h1, _, s', .step _ .refl h2, h3⟩

/-! ## C44 -/

/-- Nothing is sent after the reset. -/
theorem reset_last {ts : List Task} {h : List Ev} {t : Thr} (hh : THist ts h t) :
    ∀ (a b : List Ev) (i : Nat), h = a ++ .sent i .reset :: b →
      (t.pc = .wait .reset ∨ t.pc = .fin ∨ t.pc = .crash ∨ t.pc = .exited) ∧
      (∀ j q, .sent j q ∉ b) ∧ starts a = List.range ts.length := by
  induction hh with
  | init => intro a b i h; simp at h
  | push ns _ ih => exact ih
  | @step h t t' e c hh ha ih =>
    intro a b i hs
    rcases snoc_split hs with ⟨rfl, he, rfl⟩ | ⟨b', rfl, h'⟩
    · subst he
      obtain ⟨hp, _⟩ := sent_pc ha
      have hsent := (tinv hh).sent
      rw [hp] at hsent
      simp only [cls, sentIn] at hsent
      obtain ⟨tk, j, pc, cur, names, noList, crashed, file⟩ := t
      simp only at hp
      subst hp
      simp only [tstep] at ha
      injection ha with ha
      injection ha with ha1 ha2
      subst ha1
      refine ⟨.inl rfl, by simp, ?_⟩
      rw [hsent.1, hsent.2]
    · obtain ⟨h1, h2, h3⟩ := ih a b' i h'
      obtain ⟨tk, j, pc, cur, names, noList, crashed, file⟩ := t
      simp only at h1
      rcases h1 with rfl | rfl | rfl | rfl
      · simp only [tstep] at ha
        injection ha with ha
        injection ha with ha1 ha2
        subst ha1
        subst ha2
        refine ⟨?_, ?_, h3⟩
        · simp only
          cases c.ans <;> simp [next]
        · intro j q hm
          rcases List.mem_append.mp hm with hm | hm
          · exact h2 j q hm
          · simp at hm
      · cases ha
      · simp only [tstep] at ha
        injection ha with ha
        injection ha with ha1 ha2
        subst ha1
        subst ha2
        refine ⟨by simp, ?_, h3⟩
        intro j q hm
        rcases List.mem_append.mp hm with hm | hm
        · exact h2 j q hm
        · simp at hm
      · cases ha

/-- **C44** (`_partial`: only for a component with one task, and if communication does not fail; see
`C44_refuted_two_tasks`, `C44_refuted_failure`): when such a thread has ended, the last request it
sent is the reset, after its task.  And generally, whenever a reset is sent, all tasks have been sent
before, and nothing is sent afterwards. -/
theorem C44_reset_partial {tss : List (List Task)} {h : List JEv} {s : Jb}
    (hh : Hist (Jb.init tss) h s) (k : Nat) (ts : List Task) (t : Thr) (hk : tss[k]? = some ts)
    (ht : s.thrs[k]? = some t) :
    (ts.length ≤ 1 → t.alive = false → (∀ e, .thr k e ∈ h → ¬ NoAnswer e ∧ ¬ NotStarted ts e) →
      ∃ a b i, proj k h = a ++ .sent i .reset :: b ∧ (∀ j q, .sent j q ∉ b)) ∧
    (∀ a b i, proj k h = a ++ .sent i .reset :: b →
      starts a = List.range ts.length ∧ ∀ j q, .sent j q ∉ b) := by
  obtain ⟨ts', h1, hth⟩ := (hist_thr hh).2 k t ht
  rw [hk] at h1
  cases h1
  refine ⟨?_, ?_⟩
  · intro hl ha hno
    have he := tend hth
    have hcr : t.crashed = false := by
      cases hc : t.crashed with
      | false => rfl
      | true =>
        obtain ⟨e, he1, he2⟩ := he.cause (.inr (he.crashed.mp hc))
        have := hno e (mem_proj.mp he1)
        rcases cause_iff.mp he2 with h | h
        · exact absurd h this.1
        · exact absurd h this.2
    have hfin := ((ended_sent hth (by simp [Thr.joined, ha]) hcr).2).mp hl
    obtain ⟨i, hi⟩ := he.fin hfin
    obtain ⟨a, b, hab⟩ := List.append_of_mem hi
    exact ⟨a, b, i, hab, (reset_last hth a b i hab).2.1⟩
  · intro a b i hab
    obtain ⟨_, h2, h3⟩ := reset_last hth a b i hab
    exact ⟨h3, h2⟩

example : ∃ p, JobT.run (Jb.init [[task "x" 1]])
      (begins 0 (task "x" 1) ++ finishes 0 [1] ++ movesOn 0 ++ resets 0) = some p ∧
    p.1.thrs.map (·.alive) = [false] ∧ .thr 0 (.sent 1 .reset) ∈ p.2 := ⟨_, rfl, rfl, by decide⟩

/-- **C44** is violated: a component with two tasks or more is never reset, in no job and whatever
happens. -/
theorem C44_refuted_two_tasks {tss : List (List Task)} {h : List JEv} {s : Jb}
    (hh : Hist (Jb.init tss) h s) (k : Nat) (ts : List Task) (hk : tss[k]? = some ts)
    (htwo : 2 ≤ ts.length) (i : Nat) : .thr k (.sent i .reset) ∉ h := by
  intro hm
  obtain ⟨a, b, hab⟩ := List.append_of_mem hm
  obtain ⟨s', t, ts', h1, h2, h3, h4, h5, h6⟩ := at_sent hh a b k i .reset hab
  rw [hk] at h3
  cases h3
  have hi := tinv h4
  have hs := hi.sent
  have hl := hi.list
  rw [h5] at hs hl
  simp only [cls, sentIn] at hs
  simp [cls] at hl
  omega

/-- Such a job exists, and it ends with status `c`. -/
example : ∃ p, JobT.run (Jb.init [[task "x" 1, task "x" 2]])
      (begins 0 (task "x" 1) ++ finishes 0 [1] ++ movesOn 0 ++ begins 0 (task "x" 2) ++
       finishes 0 [2] ++ goes 0 1 ++ looks 8) = some p ∧ p.1.main = .done false := ⟨_, rfl, rfl⟩

/-- **C44** is violated: when one request remains unanswered, the thread gives up, without resetting
the component; the driver may well be there again, and the task running. -/
theorem C44_refuted_failure : ∃ h s, Hist (Jb.init [[task "x" 1]]) h s ∧ s.main = .done true ∧
    .thr 0 (.sent 0 .start) ∈ h ∧ ∀ i, .thr 0 (.sent i .reset) ∉ h := by
  let as := begins 0 (task "x" 1) ++ goes 0 2 ++ hears 0 .closed ++ goes 0 1 ++ looks 8
  have hr : ∃ p, JobT.run (Jb.init [[task "x" 1]]) as = some p ∧ p.1.main = .done true ∧
      p.2.contains (.thr 0 (.sent 0 .start)) = true ∧
      p.2.all (fun e => match e with
        | .thr 0 (.sent _ .reset) => false
        | _ => true) = true := ⟨_, rfl, rfl, by decide, by decide⟩
  obtain ⟨⟨s, es⟩, hr, h1, h2, h3⟩ := hr
  refine ⟨es, s, by simpa using jrun_hist .init hr, h1, List.contains_iff_mem.mp h2, ?_⟩
  intro i hm
  have := List.all_eq_true.mp h3 _ hm
  simp at this

end Tomato.Props
