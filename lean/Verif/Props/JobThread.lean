import Verif.JobThreadLemmas
import Verif.Iface21

/-!
# Properties of the job process (C37 - C45)
-/

namespace Tomato.Props
open Tomato.JobT

theorem jrun_hist {s₀ s s' : Jb} {h es : List JEv} {as : List Act} (hh : Hist s₀ h s)
    (hr : JobT.run s as = some (s', es)) : Hist s₀ (h ++ es) s' := by
  induction as generalizing s h es with
  | nil =>
    simp only [JobT.run, Option.some.injEq, Prod.mk.injEq] at hr
    obtain ⟨rfl, rfl⟩ := hr
    simpa using hh
  | cons a as ih =>
    simp only [JobT.run] at hr
    split at hr
    · cases hr
    · rename_i s₁ e ha
      split at hr
      · cases hr
      · rename_i s₂ es' hr'
        injection hr with hr
        injection hr with h1 h2
        subst h1; subst h2
        have := ih (hh.step a ha) hr'
        simpa using this

/-! ### Schedules for the examples -/

/-- Thread `k` takes `n` steps that do not depend on the environment. -/
def goes (k n : Nat) : List Act := List.replicate n (.thr k {})

/-- Thread `k` receives this answer. -/
def hears (k : Nat) (a : Ans) : List Act := [.thr k { ans := a }]

def idleSD : SD := { running := false, canSubmit := true, task := some none }
def busySD (t : Task) : SD := { running := true, canSubmit := true, task := some (some t) }
def okStatus (sd : SD) : Ans := .reply true (some sd) none
def okData (ps : List Nat) : Ans := .reply true none (some ps)
def okNone : Ans := .reply true none none

/-- Thread `k` takes up the task `t` and sends it; the driver starts it. -/
def begins (k : Nat) (t : Task) : List Act :=
  goes k 3 ++ hears k (okStatus idleSD) ++ goes k 1 ++ hears k okNone ++ goes k 1 ++
    hears k (okStatus (busySD t))

/-- The driver reports that the task has ended; the final data are fetched and stored. -/
def finishes (k : Nat) (ps : List Nat) : List Act :=
  goes k 2 ++ hears k (okStatus idleSD) ++ goes k 1 ++ hears k (okData ps) ++ goes k 3

/-- The thread moves on to the next task. -/
def movesOn (k : Nat) : List Act := goes k 2

/-- The thread resets the component, and ends. -/
def resets (k : Nat) : List Act := goes k 2 ++ hears k okNone

/-- The main thread takes `n` steps. -/
def looks (n : Nat) : List Act := List.replicate n .main

def task (role : String) (body : Nat) : Task := { role := role, technique := "t", body := body }

/-! ## C37 -/

/-- The plan has the tasks of every role that occurs, in order. -/
theorem plan_get (method : List Task) (r : String) :
    (plan method).get? r =
      if method.filter (fun t => t.role == r) = [] then none
      else some (method.filter (fun t => t.role == r)) := by
  have key : ∀ (l : List Task) (d : Dict String (List Task)), (∀ r, d.get? r ≠ some []) →
      (l.foldl (fun d t => d.set t.role ((d.get? t.role).getD [] ++ [t])) d).get? r =
        if (d.get? r).getD [] ++ l.filter (fun t => t.role == r) = [] then none
        else some ((d.get? r).getD [] ++ l.filter (fun t => t.role == r)) := by
    intro l
    induction l with
    | nil =>
      intro d hd
      simp only [List.foldl_nil, List.filter_nil, List.append_nil]
      cases h : d.get? r with
      | none => simp
      | some x =>
        have : x ≠ [] := fun e => hd r (e ▸ h)
        simp [this]
    | cons t l ih =>
      intro d hd
      rw [List.foldl_cons, ih]
      · by_cases htr : t.role = r
        · subst htr
          simp [Dict.get?_set]
        · simp [Dict.get?_set, htr]
      · intro r'
        rw [Dict.get?_set]
        split
        · simp
        · exact hd r'
  have := key method [] (by simp)
  simpa [plan] using this

/-- The threads that are started are those of the plan, in the order of the pipeline's roles. -/
theorem threads_spec (df : DeviceFile) (getDrv : String → Option DrvState)
    (pl : Dict String (List Task)) : ∀ (comps : List (String × String)) (ss : List Start),
    threads df getDrv pl comps = (ss, none) →
    ss.map (fun s => (s.role, some s.tasks)) =
      (comps.filter (fun c => (pl.get? c.1).isSome)).map (fun c => (c.1, pl.get? c.1)) ∧
    (∀ s ∈ ss, ∃ c ∈ comps, c.1 = s.role ∧ df.components.get? c.2 = some s.cmp) := by
  intro comps
  induction comps with
  | nil =>
    intro ss h
    simp only [threads, Prod.mk.injEq] at h
    obtain ⟨rfl, _⟩ := h
    simp
  | cons c comps ih =>
    obtain ⟨crole, cname⟩ := c
    intro ss h
    simp only [threads] at h
    split at h
    · cases h
    · rename_i cmp hcmp
      split at h
      · rename_i hp
        obtain ⟨h1, h2⟩ := ih ss h
        refine ⟨by simp [hp, h1], fun s hs => ?_⟩
        obtain ⟨c, hc, h⟩ := h2 s hs
        exact ⟨c, by simp [hc], h⟩
      · rename_i tasks hp
        split at h
        · cases h
        · split at h
          · cases h
          · split at h
            · cases h
            · injection h with h h'
              rcases hr : threads df getDrv pl comps with ⟨ss', e⟩
              rw [hr] at h h'
              simp only at h h'
              subst h'
              subst h
              obtain ⟨h1, h2⟩ := ih ss' hr
              refine ⟨by simp [hp, h1], fun s hs => ?_⟩
              rcases List.mem_cons.mp hs with rfl | hs
              · exact ⟨(crole, cname), by simp, rfl, hcmp⟩
              · obtain ⟨c, hc, h⟩ := h2 s hs
                exact ⟨c, by simp [hc], h⟩

/-- Splitting a list by distinct keys that cover it loses nothing. -/
theorem flatMap_filter_perm (l : List Task) : ∀ (roles : List String), roles.Nodup →
    (∀ t ∈ l, t.role ∈ roles) → (roles.flatMap (fun r => l.filter (fun t => t.role == r))).Perm l := by
  intro roles
  induction roles generalizing l with
  | nil =>
    intro _ h
    cases l with
    | nil => exact .refl _
    | cons t l => exact absurd (h t (by simp)) (by simp)
  | cons r roles ih =>
    intro hn h
    rw [List.flatMap_cons]
    have hn' := (List.nodup_cons.mp hn)
    have hrest := ih (l.filter (fun t => !(t.role == r))) hn'.2 (by
      intro t ht
      rw [List.mem_filter] at ht
      rcases List.mem_cons.mp (h t ht.1) with e | e
      · simp [e] at ht
      · exact e)
    have heq : roles.flatMap (fun r' => l.filter (fun t => t.role == r')) =
        roles.flatMap (fun r' => (l.filter (fun t => !(t.role == r))).filter (fun t => t.role == r')) := by
      simp only [List.flatMap]
      congr 1
      apply List.map_congr_left
      intro r' hr'
      rw [List.filter_filter]
      apply List.filter_congr
      intro t _
      by_cases e : t.role = r'
      · have : r' ≠ r := fun e' => hn'.1 (e' ▸ hr')
        simp [e, this]
      · simp [e]
    rw [heq]
    refine (List.Perm.append_left _ hrest).trans ?_
    exact List.filter_append_perm (fun t => t.role == r) l

/-- **C37**: if the threads are started (no component, device or driver is missing), every role of
the pipeline that occurs in the method gets one thread, for the component of that role, with exactly
the tasks of the method with that role, in the order of the method; and if every role of the method
exists in the pipeline, the tasks handed out are the tasks of the method, each as often as it occurs
there. -/
theorem C37_split (df : DeviceFile) (getDrv : String → Option DrvState) (method : List Task)
    (pip : Pipeline) (hk : pip.components.keys.Nodup) (ss : List Start)
    (h : threads df getDrv (plan method) pip.components = (ss, none)) :
    ss.map (fun s => (s.role, s.tasks)) =
      (pip.components.keys.filter (fun r => method.any (fun t => t.role == r))).map
        (fun r => (r, method.filter (fun t => t.role == r))) ∧
    (∀ s ∈ ss, ∃ cname, pip.components.get? s.role = some cname ∧
      df.components.get? cname = some s.cmp) ∧
    ((∀ t ∈ method, t.role ∈ pip.components.keys) → (ss.flatMap (·.tasks)).Perm method) := by
  obtain ⟨h1, h2⟩ := threads_spec df getDrv (plan method) pip.components ss h
  have hsome : ∀ r, ((plan method).get? r).isSome = method.any (fun t => t.role == r) := by
    intro r
    rw [plan_get]
    cases hf : method.any (fun t => t.role == r) with
    | true =>
      obtain ⟨t, ht, ht'⟩ := List.any_eq_true.mp hf
      have : method.filter (fun t => t.role == r) ≠ [] := by
        intro e
        have : t ∈ method.filter (fun t => t.role == r) := List.mem_filter.mpr ⟨ht, ht'⟩
        rw [e] at this
        cases this
      simp [this]
    | false =>
      have : method.filter (fun t => t.role == r) = [] := by
        rw [List.filter_eq_nil_iff]
        intro t ht
        have := List.any_eq_false.mp hf t ht
        simpa using this
      simp [this]
  have hfirst : ss.map (fun s => (s.role, s.tasks)) =
      (pip.components.keys.filter (fun r => method.any (fun t => t.role == r))).map
        (fun r => (r, method.filter (fun t => t.role == r))) := by
    have e1 : (ss.map (fun s => (s.role, s.tasks))).map (fun x : String × List Task => (x.1, some x.2)) =
        ((pip.components.keys.filter (fun r => method.any (fun t => t.role == r))).map
        (fun r => (r, method.filter (fun t => t.role == r)))).map
          (fun x : String × List Task => (x.1, some x.2)) := by
      rw [List.map_map, List.map_map]
      have : ((fun x : String × List Task => (x.1, some x.2)) ∘ fun s : Start => (s.role, s.tasks)) =
          fun s : Start => (s.role, some s.tasks) := rfl
      rw [this, h1]
      simp only [Dict.keys, hsome]
      generalize pip.components = cs
      induction cs with
      | nil => rfl
      | cons c cs ih =>
        simp only [List.map_cons, List.filter_cons]
        by_cases hc : method.any (fun t => t.role == c.1) = true
        · simp only [hc, if_true, List.map_cons, ih]
          congr 1
          have hs := hsome c.1
          rw [hc] at hs
          have : (plan method).get? c.1 = some (method.filter (fun t => t.role == c.1)) := by
            rw [plan_get] at hs ⊢
            split at hs
            · cases hs
            · rename_i hne; rw [if_neg hne]
          simp [this, Function.comp]
        · have hc' : method.any (fun t => t.role == c.1) = false := by simpa using hc
          simp only [hc', Bool.false_eq_true, if_false, ih]
    exact (List.map_inj_right (fun a b hab => by
      obtain ⟨a1, a2⟩ := a; obtain ⟨b1, b2⟩ := b; simpa using hab)).mp e1
  refine ⟨hfirst, ?_, ?_⟩
  · intro s hs
    obtain ⟨c, hc, hc1, hc2⟩ := h2 s hs
    refine ⟨c.2, ?_, hc2⟩
    rw [← hc1]
    exact Dict.get?_of_mem_nodup hk hc
  · intro hall
    have : ss.flatMap (·.tasks) = (pip.components.keys.filter
        (fun r => method.any (fun t => t.role == r))).flatMap (fun r => method.filter (fun t => t.role == r)) := by
      have := congrArg (fun l : List (String × List Task) => l.flatMap (·.2)) hfirst
      simpa [List.flatMap_map] using this
    rw [this]
    apply flatMap_filter_perm
    · exact hk.filter _
    · intro t ht
      rw [List.mem_filter]
      exact ⟨hall t ht, List.any_eq_true.mpr ⟨t, ht, by simp⟩⟩

/-- A pipeline with two roles, a method with three tasks. -/
def dfJ : DeviceFile where
  components := [("d:(a,1)", ⟨"d:(a,1)", "dev", "d", "a", "1"⟩), ("d:(a,2)", ⟨"d:(a,2)", "dev", "d", "a", "2"⟩)]
  devices := [("dev", { name := "dev", driver := "d", address := "a", channels := ["1", "2"] })]
  drivers := [("d", { name := "d" })]
  pipelines := [("p", ⟨"p", [("x", "d:(a,1)"), ("y", "d:(a,2)")]⟩)]

example : ((threads dfJ (fun n => some { name := n, port := some 9 })
      (plan [task "y" 1, task "x" 2, task "y" 3]) [("x", "d:(a,1)"), ("y", "d:(a,2)")]).1.map
        (fun s => (s.role, s.cmp.name, s.tasks.map (·.body))) =
      [("x", "d:(a,1)", [2]), ("y", "d:(a,2)", [1, 3])]) ∧
    (threads dfJ (fun n => some { name := n, port := some 9 })
      (plan [task "y" 1, task "x" 2, task "y" 3]) [("x", "d:(a,1)"), ("y", "d:(a,2)")]).2 = none := by
  decide

/-! ## C38 -/

/-- **C38**: in every job, at every moment, the tasks sent to a component are the first ones of its
list, in order, each sent once. -/
theorem C38_order {tss : List (List Task)} {h : List JEv} {s : Jb} (hh : Hist (Jb.init tss) h s)
    (k : Nat) (ts : List Task) (hk : tss[k]? = some ts) :
    ∃ n, n ≤ ts.length ∧ starts (proj k h) = List.range n := by
  obtain ⟨hlen, hthr⟩ := hist_thr hh
  have hkl : k < s.thrs.length := by rw [hlen]; exact (List.getElem?_eq_some_iff.mp hk).1
  obtain ⟨ts', h1, h2⟩ := hthr k _ (List.getElem?_eq_getElem hkl)
  rw [hk] at h1
  cases h1
  have := (tinv h2).sent
  revert this
  generalize starts (proj k h) = l
  generalize s.thrs[k].i = i
  cases cls s.thrs[k].pc <;> simp only [sentIn]
  case bad =>
    rintro (⟨h, h'⟩ | ⟨h, h'⟩)
    · exact ⟨i, h', h⟩
    · exact ⟨i + 1, h', h⟩
  case cur => rintro ⟨h, h'⟩; exact ⟨i, h', h⟩
  case pre => rintro ⟨h, h'⟩; exact ⟨i, by omega, h⟩
  case aft => rintro ⟨h, h'⟩; exact ⟨i, by omega, h⟩
  all_goals rintro ⟨h, h'⟩; exact ⟨i + 1, by omega, h⟩

/-- The driver reports that no task is running. -/
def SaysIdleT (j : Nat) (e : Ev) : Prop :=
  ∃ sd ps l, e = .got j .status (.reply true (some sd) ps) l ∧ sd.running = false

/-- The driver reports that another task is running. -/
def SaysOther (tasks : List Task) (j : Nat) (e : Ev) : Prop :=
  ∃ ok sd x ps l, e = .got j .status (.reply ok (some sd) ps) l ∧ sd.task = some x ∧ x ≠ tasks[j]?

/-- The driver does not report on the task: it replies with a failure. -/
def Refuses (j : Nat) (e : Ev) : Prop := ∃ st ps l, e = .got j .status (.reply false st ps) l

/-- The driver has answered to the command to stop the task. -/
def ToldToStop (j : Nat) (e : Ev) : Prop := ∃ ok st ps l, e = .got j .stop (.reply ok st ps) l

theorem ends_iff {tasks : List Task} {j : Nat} {e : Ev} (h : Ends tasks j e) :
    SaysIdleT j e ∨ SaysOther tasks j e ∨ Refuses j e ∨ ToldToStop j e := by
  rcases h with ⟨ok, st, ps, l, rfl, ho⟩ | ⟨ok, st, ps, l, rfl⟩
  · cases ok with
    | false => exact .inr (.inr (.inl ⟨st, ps, l, rfl⟩))
    | true =>
      cases st with
      | none => cases ho
      | some sd =>
        cases hr : sd.running with
        | false => exact .inl ⟨sd, ps, l, rfl, hr⟩
        | true =>
          right; left
          simp only [isOver, hr, SD.wrong] at ho
          cases ht : sd.task with
          | none => rw [ht] at ho; cases ho
          | some x =>
            rw [ht] at ho
            exact ⟨true, sd, x, ps, l, rfl, ht, by simpa using ho⟩
  · exact .inr (.inr (.inr ⟨ok, st, ps, l, rfl⟩))

theorem thist_sent {tasks : List Task} {h : List Ev} {t : Thr} (hh : THist tasks h t) :
    ∀ (a b : List Ev) (j : Nat), h = a ++ .sent j .start :: b → ∀ j' < j, Done tasks j' a := by
  induction hh with
  | init => intro a b j h; simp at h
  | push ns _ ih => exact ih
  | @step h t t' e c hh ha ih =>
    intro a b j hs
    rcases snoc_split hs with ⟨_, he, rfl⟩ | ⟨b', _, h'⟩
    · subst he
      have hi := tinv hh
      have hm := tstep_move ha
      rw [hi.tasks_eq] at hm
      cases hm with
      | send => exact hi.past
      | stay _ _ _ d => simp [starts] at d
      | take _ _ _ _ d => simp [starts] at d
      | see _ _ _ _ d => simp [starts] at d
      | advance _ _ _ _ d => simp [starts] at d
      | finish _ _ _ _ d => simp [starts] at d
      | fail _ _ _ _ _ d => simp [starts] at d
    · exact ih a b' j h'

/-- **C38** (`_partial`: "seen to end" does not hold for a task that was told to stop, or when the
driver refuses to report on it or reports another task; see `C38_refuted`): before a task is sent,
for every earlier task of the component, its end was noticed in one of these ways, and after that
its final data were fetched. -/
theorem C38_previous_partial {tss : List (List Task)} {h : List JEv} {s : Jb}
    (hh : Hist (Jb.init tss) h s) (k : Nat) (ts : List Task) (hk : tss[k]? = some ts)
    (a b : List Ev) (j : Nat) (hs : proj k h = a ++ .sent j .start :: b) (j' : Nat) (hj : j' < j) :
    ∃ a₁ e a₂, a = a₁ ++ e :: a₂ ∧
      (SaysIdleT j' e ∨ SaysOther ts j' e ∨ Refuses j' e ∨ ToldToStop j' e) ∧
      ∃ ok st ps l, .got j' .final (.reply ok st ps) l ∈ a₂ := by
  obtain ⟨hlen, hthr⟩ := hist_thr hh
  have hkl : k < s.thrs.length := by rw [hlen]; exact (List.getElem?_eq_some_iff.mp hk).1
  obtain ⟨ts', h1, h2⟩ := hthr k _ (List.getElem?_eq_getElem hkl)
  rw [hk] at h1
  cases h1
  obtain ⟨a₁, e, a₂, h1, h2, h3⟩ := thist_sent h2 a b j hs j' hj
  exact ⟨a₁, e, a₂, h1, ends_iff h2, h3⟩

/-- Two tasks, the second one sent after the first was seen to end. -/
example : ∃ s h, JobT.run (Jb.init [[task "x" 1, task "x" 2]])
      (begins 0 (task "x" 1) ++ finishes 0 [1, 2] ++ movesOn 0 ++ begins 0 (task "x" 2)) = some (s, h) ∧
    starts (proj 0 h) = [0, 1] := ⟨_, _, rfl, rfl⟩

/-- A thread that is about to send a task has just heard that the component takes one. -/
theorem thist_ready {tasks : List Task} {h : List Ev} {t : Thr} (hh : THist tasks h t) :
    (t.pc = .ask .start → ∃ a sd ps l, h = a ++ [.got t.i .ready (.reply true (some sd) ps) l] ∧
      sd.canSubmit = true) ∧
    ∀ (a b : List Ev) (j : Nat), h = a ++ .sent j .start :: b → ∃ a' sd ps l,
      a = a' ++ [.got j .ready (.reply true (some sd) ps) l] ∧ sd.canSubmit = true := by
  induction hh with
  | init => exact ⟨fun h => by simp at h, fun a b j h => by simp at h⟩
  | push ns _ ih => exact ih
  | @step h t t' e c hh ha ih =>
    obtain ⟨ih1, ih2⟩ := ih
    constructor
    · intro hp
      unfold tstep at ha
      split at ha
      case h_4 q hq =>
        cases ha
        simp only at hp
        unfold next at hp
        cases hans : c.ans with
        | closed => rw [hans] at hp; cases hp
        | reply ok st ps =>
          rw [hans] at hp
          cases q with
          | ready =>
            cases st with
            | none => simp at hp
            | some sd =>
              simp only at hp
              cases hs : ok && sd.canSubmit with
              | false => rw [hs] at hp; simp at hp
              | true =>
                simp only [Bool.and_eq_true] at hs
                obtain ⟨rfl, hs⟩ := hs
                exact ⟨h, sd, ps, c.late, rfl, hs⟩
          | start => simp at hp
          | running =>
            simp only at hp
            split at hp
            · cases hp
            · split at hp <;> cases hp
          | status => simp only at hp; split at hp <;> cases hp
          | reset => simp at hp
          | _ =>
            simp only [store] at hp
            split at hp
            · cases hp
            · split at hp <;> cases hp
      case h_2 hq =>
        split at ha <;> cases ha
        · cases hp
        · rw [hq] at hp; cases hp
      case h_9 n hq => cases ha; cases n <;> cases hp
      all_goals
        first
          | (cases ha; done)
          | (cases ha; cases hp; done)
          | (split at ha <;> cases ha <;> cases hp)
          | (cases ha; simp only at hp; split at hp <;> cases hp)
    · intro a b j hs
      rcases snoc_split hs with ⟨_, he, rfl⟩ | ⟨b', _, h'⟩
      · subst he
        have hpc : t.pc = .ask .start ∧ j = t.i := by
          unfold tstep at ha
          split at ha
          case h_3 q hq => cases ha; exact ⟨hq, rfl⟩
          all_goals first
            | (cases ha; done)
            | (split at ha <;> cases ha)
        rw [hpc.2]
        exact ih1 hpc.1
      · exact ih2 a b' j h'

/-- **C38** (readiness): immediately before a task is sent to a component, the driver has reported, with
success, that the component takes a task. -/
theorem C38_ready {tss : List (List Task)} {h : List JEv} {s : Jb}
    (hh : Hist (Jb.init tss) h s) (k : Nat) (ts : List Task) (hk : tss[k]? = some ts)
    (a b : List Ev) (j : Nat) (hs : proj k h = a ++ .sent j .start :: b) :
    ∃ a' sd ps l, a = a' ++ [.got j .ready (.reply true (some sd) ps) l] ∧ sd.canSubmit = true := by
  obtain ⟨hlen, hthr⟩ := hist_thr hh
  have hkl : k < s.thrs.length := by rw [hlen]; exact (List.getElem?_eq_some_iff.mp hk).1
  obtain ⟨ts', -, h2⟩ := hthr k _ (List.getElem?_eq_getElem hkl)
  exact (thist_ready h2).2 a b j hs

/-- A component that is busy at first: the task is sent after the second report. -/
example : ∃ s h, JobT.run (Jb.init [[task "x" 1]])
      (goes 0 3 ++ hears 0 (.reply true (some { running := true, canSubmit := false, task := none }) none) ++ goes 0 1 ++
        hears 0 (.reply true (some idleSD) none) ++ goes 0 1) = some (s, h) ∧
    starts (proj 0 h) = [0] := ⟨_, _, rfl, rfl⟩

/-- A task that runs until the task "go" starts, followed by another task. -/
def tUntil : Task := { role := "x", technique := "t", stopWith := some "go", body := 1 }
def tGo : Task := { role := "y", technique := "t", taskName := some "go", body := 2 }

/-- The main thread makes a complete round over two threads. -/
def round2 : List Act := looks 12

/-- **C38** is violated: a task that was told to stop is not waited for.  The next task is sent
while all that the driver has ever reported is that the first one is running. -/
theorem C38_refuted : ∃ h s, Hist (Jb.init [[tUntil, task "x" 3], [tGo]]) h s ∧
    starts (proj 0 h) = [0, 1] ∧
    ∀ q ok st ps l, .thr 0 (.got 0 q (.reply ok (some st) ps) l) ∈ h → q ≠ .ready →
      st.running = true ∧ st.task = some (some tUntil) := by
  let as := begins 0 tUntil ++ goes 1 1 ++ round2 ++ goes 0 2 ++ hears 0 (okStatus (busySD tUntil)) ++
    goes 0 2 ++ hears 0 okNone ++ goes 0 1 ++ hears 0 okNone ++ movesOn 0 ++ begins 0 (task "x" 3)
  have hr : ∃ p, JobT.run (Jb.init [[tUntil, task "x" 3], [tGo]]) as = some p ∧
      starts (proj 0 p.2) = [0, 1] ∧
      p.2.all (fun e => match e with
        | .thr 0 (.got 0 q (.reply _ (some st) _) _) =>
          q == .ready || (st.running && st.task == some (some tUntil))
        | _ => true) = true := ⟨_, rfl, rfl, by decide⟩
  obtain ⟨⟨s, es⟩, hr, h1, h2⟩ := hr
  refine ⟨es, s, by simpa using jrun_hist .init hr, h1, ?_⟩
  intro q ok st ps l hm hq
  have := List.all_eq_true.mp h2 _ hm
  simpa [hq] using this

/-! ## The main loop -/

/-- A thread that has joined stays as it is. -/
theorem joined_stays {ts : List Task} {h : List Ev} {t : Thr} (hh : THist ts h t)
    (hj : t.joined = true) (c : Choice) : tstep t c = none := by
  have he := tend hh
  obtain ⟨tk, i, pc, cur, names, noList, crashed, file⟩ := t
  have h1 := he.crashed
  simp only at h1
  cases pc
  case fin => rfl
  case exited => rfl
  case dead => rfl
  all_goals
    exfalso
    simp [Thr.joined, Thr.alive] at hj
    rw [hj] at h1
    simp at h1

/-- What the main thread has found out about the threads in its present round. -/
def MainOK (s : Jb) : Prop :=
  match s.main with
  | .collect _ => True
  | .push _ => True
  | .crash _ any => any = true → ∃ t ∈ s.thrs, t.crashed = true
  | .join k any all => (any = true → ∃ t ∈ s.thrs, t.crashed = true) ∧
      (all = true → ∀ (j : Nat) t, j < k → s.thrs[j]? = some t → t.joined = true)
  | .done any => (any = true → ∃ t ∈ s.thrs, t.crashed = true) ∧
      (∀ (j : Nat) t, s.thrs[j]? = some t → t.joined = true)

theorem mem_set_ne {α : Type} {l : List α} {k : Nat} {x y : α} (h : y ∈ l)
    (hk : l[k]? ≠ some y) : y ∈ l.set k x := by
  obtain ⟨j, hj⟩ := List.mem_iff_getElem?.mp h
  by_cases e : k = j
  · subst e; exact absurd hj hk
  · exact List.mem_iff_getElem?.mpr ⟨j, by rw [List.getElem?_set_ne e]; exact hj⟩

theorem mainOK {tss : List (List Task)} {h : List JEv} {s : Jb} (hh : Hist (Jb.init tss) h s) :
    MainOK s := by
  induction hh with
  | init => trivial
  | @step h s s' e a hh ha ih =>
    obtain ⟨hlen, hthr⟩ := hist_thr hh
    have hcrash : ∀ (k : Nat) (t t' : Thr), s.thrs[k]? = some t → (t.crashed = true → t'.crashed = true) →
        (∃ t ∈ s.thrs, t.crashed = true) → ∃ t ∈ s.thrs.set k t', t.crashed = true := by
      rintro k t t' hk ht ⟨x, hx, hc⟩
      by_cases e : s.thrs[k]? = some x
      · rw [hk] at e
        cases e
        have hkl : k < s.thrs.length := (List.getElem?_eq_some_iff.mp hk).1
        exact ⟨t', List.mem_iff_getElem?.mpr ⟨k, List.getElem?_set_self hkl⟩, ht hc⟩
      · exact ⟨x, mem_set_ne hx e, hc⟩
    cases a with
    | thr k c =>
      simp only [act] at ha
      split at ha
      · cases ha
      · rename_i t ht
        split at ha
        · cases ha
        · rename_i t' e' hst
          injection ha with ha
          injection ha with ha1 ha2
          subst ha1; subst ha2
          obtain ⟨ts, _, hth⟩ := hthr k t ht
          have hnj : t.joined = false := by
            cases hj : t.joined with
            | false => rfl
            | true => rw [joined_stays hth hj] at hst; cases hst
          have hcr : t.crashed = true → t'.crashed = true := by
            intro hc
            simp [Thr.joined, hc] at hnj
          have hset : ∀ (j : Nat) x, (s.thrs.set k t')[j]? = some x → j ≠ k → s.thrs[j]? = some x := by
            intro j x hx hne
            rwa [List.getElem?_set_ne (fun e => hne e.symm)] at hx
          unfold MainOK at ih ⊢
          simp only
          split
          · trivial
          · trivial
          · rename_i k' any hm
            rw [hm] at ih
            exact fun h => hcrash k t t' ht hcr (ih h)
          · rename_i k' any all hm
            rw [hm] at ih
            refine ⟨fun h => hcrash k t t' ht hcr (ih.1 h), fun h j x hj hx => ?_⟩
            by_cases e : j = k
            · subst e
              rw [ih.2 h j t hj ht] at hnj
              cases hnj
            · exact ih.2 h j x hj (hset j x hx e)
          · rename_i any hm
            rw [hm] at ih
            refine ⟨fun h => hcrash k t t' ht hcr (ih.1 h), fun j x hx => ?_⟩
            by_cases e : j = k
            · subst e
              rw [ih.2 j t ht] at hnj
              cases hnj
            · exact ih.2 j x (hset j x hx e)
    | main =>
      simp only [act, mstep] at ha
      split at ha
      · split at ha
        · injection ha with ha; injection ha with ha1 ha2; subst ha1; trivial
        · split at ha <;> (injection ha with ha; injection ha with ha1 ha2; subst ha1; trivial)
      · split at ha
        · injection ha with ha; injection ha with ha1 ha2; subst ha1
          intro h; cases h
        · injection ha with ha; injection ha with ha1 ha2; subst ha1; trivial
      · rename_i k any hm
        unfold MainOK at ih
        rw [hm] at ih
        split at ha
        · injection ha with ha; injection ha with ha1 ha2; subst ha1
          exact ⟨ih, fun _ j t hj => absurd hj (by omega)⟩
        · rename_i t ht
          injection ha with ha; injection ha with ha1 ha2; subst ha1
          intro h
          simp only [Bool.or_eq_true] at h
          rcases h with h | h
          · exact ih h
          · exact ⟨t, List.mem_of_getElem? ht, h⟩
      · rename_i k any all hm
        unfold MainOK at ih
        rw [hm] at ih
        split at ha
        · rename_i hn
          split at ha
          · rename_i hall
            injection ha with ha; injection ha with ha1 ha2; subst ha1
            refine ⟨ih.1, fun j t hj => ih.2 hall j t ?_ hj⟩
            have h1 : j < s.thrs.length := (List.getElem?_eq_some_iff.mp hj).1
            have h2 := List.getElem?_eq_none_iff.mp hn
            omega
          · injection ha with ha; injection ha with ha1 ha2; subst ha1; trivial
        · rename_i t ht
          injection ha with ha; injection ha with ha1 ha2; subst ha1
          refine ⟨ih.1, fun h j x hj hx => ?_⟩
          simp only [Bool.and_eq_true] at h
          by_cases e : j = k
          · subst e
            rw [ht] at hx
            cases hx
            exact h.2
          · exact ih.2 h.1 j x (by omega) hx
      · cases ha

/-! ## C39 -/

/-- A thread that has ended without crashing has sent all its tasks, if there are at most two. -/
theorem ended_sent {ts : List Task} {h : List Ev} {t : Thr} (hh : THist ts h t)
    (hj : t.joined = true) (hc : t.crashed = false) :
    starts h = List.range (min ts.length 2) ∧ (ts.length ≤ 1 ↔ t.pc = .fin) := by
  have he := tend hh
  have hi := tinv hh
  obtain ⟨tk, i, pc, cur, names, noList, crashed, file⟩ := t
  simp only at hc
  subst hc
  have h1 := he.crashed
  simp only at h1
  cases pc
  case fin =>
    have hs := hi.sent
    simp only [cls, sentIn] at hs
    have hl := hi.list
    simp [cls] at hl
    rw [hs.1]
    refine ⟨?_, ?_⟩
    · congr 1; omega
    · simp; omega
  case exited => simp at h1
  case dead =>
    obtain ⟨_, h2, h3⟩ := he.dead rfl
    rw [h2]
    refine ⟨by congr 1; omega, ?_⟩
    simp; omega
  all_goals
    exfalso
    simp [Thr.joined, Thr.alive] at hj

/-- **C39** (`_partial`: for jobs with at most two tasks per component, and no thread crashing
between two looks of the main thread; see `C39_refuted` and `C39_refuted_race`): if the main loop of
a job ends without error, which is when the job's status becomes `c`, every task of every component
was sent. -/
theorem C39_all_sent_partial {tss : List (List Task)} {h : List JEv} {s : Jb}
    (hh : Hist (Jb.init tss) h s) (hd : s.main = .done false)
    (htwo : ∀ ts ∈ tss, ts.length ≤ 2) (hc : ∀ t ∈ s.thrs, t.crashed = false)
    (k : Nat) (ts : List Task) (hk : tss[k]? = some ts) :
    starts (proj k h) = List.range ts.length := by
  obtain ⟨hlen, hthr⟩ := hist_thr hh
  have hkl : k < s.thrs.length := by rw [hlen]; exact (List.getElem?_eq_some_iff.mp hk).1
  obtain ⟨ts', h1, h2⟩ := hthr k _ (List.getElem?_eq_getElem hkl)
  rw [hk] at h1
  cases h1
  have hm := mainOK hh
  unfold MainOK at hm
  rw [hd] at hm
  have hj := hm.2 k _ (List.getElem?_eq_getElem hkl)
  have hcr := hc _ (List.getElem_mem hkl)
  rw [(ended_sent h2 hj hcr).1]
  congr 1
  have := htwo ts (List.mem_of_getElem? hk)
  omega

/-- A job with one task on one and two tasks on the other component completes. -/
example : ∃ p, JobT.run (Jb.init [[task "x" 1], [task "y" 2, task "y" 3]])
      (begins 0 (task "x" 1) ++ finishes 0 [1] ++ movesOn 0 ++ resets 0 ++
       begins 1 (task "y" 2) ++ finishes 1 [2] ++ movesOn 1 ++ begins 1 (task "y" 3) ++
       finishes 1 [3] ++ goes 1 1 ++ looks 12) = some p ∧
    p.1.main = .done false ∧ p.1.thrs.all (fun t => !t.crashed) = true ∧
    starts (proj 0 p.2) = [0] ∧ starts (proj 1 p.2) = [0, 1] := ⟨_, rfl, rfl, rfl, rfl, rfl⟩

/-- At most two tasks are ever sent to a component, however many there are in the method. -/
theorem C39_at_most_two {tss : List (List Task)} {h : List JEv} {s : Jb}
    (hh : Hist (Jb.init tss) h s) (k : Nat) (hk : k < tss.length) :
    (starts (proj k h)).length ≤ 2 := by
  obtain ⟨hlen, hthr⟩ := hist_thr hh
  have hkl : k < s.thrs.length := by rw [hlen]; exact hk
  obtain ⟨ts, h1, h2⟩ := hthr k _ (List.getElem?_eq_getElem hkl)
  have hi := tinv h2
  have hs := hi.sent
  have hl := hi.list
  revert hs hl
  generalize s.thrs[k].i = i
  generalize starts (proj k h) = l
  cases cls s.thrs[k].pc <;> simp only [sentIn]
  case bad =>
    rintro (⟨rfl, _⟩ | ⟨rfl, _⟩) hl <;> simp at hl ⊢ <;> omega
  all_goals
    rintro ⟨rfl, _⟩ hl
    simp at hl ⊢
    omega

/-- **C39** is violated: with three tasks for one component, the thread ends with an exception after
the second one (`completed_tasks` has become `None`), the main loop takes it for joined, and the job
is reported as complete, although the third task was never sent. -/
theorem C39_refuted : ∃ h s, Hist (Jb.init [[task "x" 1, task "x" 2, task "x" 3]]) h s ∧
    s.main = .done false ∧ starts (proj 0 h) = [0, 1] ∧ .thr 0 .died ∈ h := by
  let as := begins 0 (task "x" 1) ++ finishes 0 [1] ++ movesOn 0 ++ begins 0 (task "x" 2) ++
    finishes 0 [2] ++ goes 0 1 ++ looks 8
  have hr : ∃ p, JobT.run (Jb.init [[task "x" 1, task "x" 2, task "x" 3]]) as = some p ∧
      p.1.main = .done false ∧ starts (proj 0 p.2) = [0, 1] ∧ p.2.contains (.thr 0 .died) = true :=
    ⟨_, rfl, rfl, rfl, rfl⟩
  obtain ⟨⟨s, es⟩, hr, h1, h2, h3⟩ := hr
  exact ⟨es, s, by simpa using jrun_hist .init hr, h1, h2, List.contains_iff_mem.mp h3⟩

/-- **C39**, **C45** are violated by a race: the main thread reads `crashed` of all threads before
it reads whether they have joined.  A thread that loses its connection in between is taken for
joined, but not for crashed: the job is reported as complete, no task was sent. -/
theorem C39_refuted_race : ∃ h s, Hist (Jb.init [[task "x" 1]]) h s ∧
    s.main = .done false ∧ starts (proj 0 h) = [] ∧
    .thr 0 (.got 0 .ready .closed false) ∈ h ∧ ∃ t, s.thrs = [t] ∧ t.crashed = true := by
  let as := goes 0 3 ++ looks 6 ++ hears 0 .closed ++ goes 0 1 ++ looks 2
  have hr : ∃ p, JobT.run (Jb.init [[task "x" 1]]) as = some p ∧
      p.1.main = .done false ∧ starts (proj 0 p.2) = [] ∧
      p.2.contains (.thr 0 (.got 0 .ready .closed false)) = true ∧
      ∃ t, p.1.thrs = [t] ∧ t.crashed = true := ⟨_, rfl, rfl, rfl, rfl, _, rfl, rfl⟩
  obtain ⟨⟨s, es⟩, hr, h1, h2, h3, h4⟩ := hr
  exact ⟨es, s, by simpa using jrun_hist .init hr, h1, h2, List.contains_iff_mem.mp h3, h4⟩

/-! ## C45 -/

/-- Communication has failed: no answer to any attempt. -/
def NoAnswer (e : Ev) : Prop := ∃ i q l, e = .got i q .closed l

/-- More than ten seconds after the task was sent, the driver does not say that it is running. -/
def NotStarted (tasks : List Task) (e : Ev) : Prop :=
  ∃ i ok st ps, e = .got i .running (.reply ok st ps) true ∧
    ¬ (ok = true ∧ ∃ sd, st = some sd ∧ sd.running = true ∧ (sd.task = none ∨ sd.task = some tasks[i]?))

theorem cause_iff {tasks : List Task} {e : Ev} : Cause tasks e ↔ NoAnswer e ∨ NotStarted tasks e := by
  unfold Cause NoAnswer NotStarted
  apply or_congr Iff.rfl
  apply exists_congr; intro i
  apply exists_congr; intro ok
  apply exists_congr; intro st
  apply exists_congr; intro ps
  apply and_congr Iff.rfl
  cases st with
  | none => simp [isRunning]
  | some sd =>
    cases ok with
    | false => simp [isRunning]
    | true =>
      obtain ⟨r, cs, tk⟩ := sd
      cases r with
      | false => simp [isRunning]
      | true =>
        cases tk with
        | none => simp [isRunning, SD.wrong]
        | some x => simp [isRunning, SD.wrong]

/-- **C45**, second half: the main loop ends with an error (status `ce`) only if communication with
a component has failed, or a task was not seen running in time. -/
theorem C45_only_then {tss : List (List Task)} {h : List JEv} {s : Jb}
    (hh : Hist (Jb.init tss) h s) (hd : s.main = .done true) :
    ∃ k ts e, tss[k]? = some ts ∧ .thr k e ∈ h ∧ (NoAnswer e ∨ NotStarted ts e) := by
  have hm := mainOK hh
  unfold MainOK at hm
  rw [hd] at hm
  obtain ⟨t, ht, hc⟩ := hm.1 rfl
  obtain ⟨k, hk⟩ := List.mem_iff_getElem?.mp ht
  obtain ⟨ts, h1, h2⟩ := (hist_thr hh).2 k t hk
  have he := tend h2
  obtain ⟨e, he1, he2⟩ := he.cause (.inr (he.crashed.mp hc))
  exact ⟨k, ts, e, h1, mem_proj.mp he1, cause_iff.mp he2⟩

/-- A history which continues from a given state. -/
inductive JCont (s : Jb) : List JEv → Jb → Prop where
  | refl : JCont s [] s
  | step {h : List JEv} {s' s'' : Jb} {e : JEv} (a : Act) :
      JCont s h s' → act s' a = some (s'', e) → JCont s (h ++ [e]) s''

theorem JCont.hist {s₀ s s' : Jb} {h h' : List JEv} (hh : Hist s₀ h s) (hc : JCont s h' s') :
    Hist s₀ (h ++ h') s' := by
  induction hc with
  | refl => simpa using hh
  | step a _ ha ih => rw [← List.append_assoc]; exact ih.step a ha

/-- **C45**, first half (`_partial`: if the thread had given up before the main thread began to read
the flags of its last round; see `C39_refuted_race`): if communication fails or a task does not start
in time, the main loop cannot end without error. -/
theorem C45_error_partial {tss : List (List Task)} {h h' : List JEv} {s s' : Jb}
    (hh : Hist (Jb.init tss) h s) (k : Nat) (ts : List Task) (hk : tss[k]? = some ts) (e : Ev)
    (he : .thr k e ∈ h) (hcause : NoAnswer e ∨ NotStarted ts e)
    (hfin : ∀ t, s.thrs[k]? = some t → t.alive = false)
    (hm : (∃ j, s.main = .collect j) ∨ (∃ j, s.main = .push j))
    (hc : JCont s h' s') (r : Bool) (hd : s'.main = .done r) : r = true := by
  obtain ⟨hlen, hthr⟩ := hist_thr hh
  have hkl : k < s.thrs.length := by rw [hlen]; exact (List.getElem?_eq_some_iff.mp hk).1
  obtain ⟨ts', h1, h2⟩ := hthr k _ (List.getElem?_eq_getElem hkl)
  rw [hk] at h1
  cases h1
  have hend := tend h2
  have hcr : s.thrs[k].crashed = true := by
    rcases hend.why ⟨e, mem_proj.mpr he, cause_iff.mpr hcause⟩ with h | h
    · have := hfin _ (List.getElem?_eq_getElem hkl)
      simp [Thr.alive, h] at this
    · exact hend.crashed.mpr h
  have key : ∀ h' s'', JCont s h' s'' → (∃ t, s''.thrs[k]? = some t ∧ t.crashed = true) ∧
      (match s''.main with
        | .crash j any => k < j → any = true
        | .join _ any _ => any = true
        | .done any => any = true
        | _ => True) := by
    intro h' s'' hc
    induction hc with
    | refl =>
      refine ⟨⟨_, List.getElem?_eq_getElem hkl, hcr⟩, ?_⟩
      rcases hm with ⟨j, hj⟩ | ⟨j, hj⟩ <;> rw [hj] <;> trivial
    | @step h' s₁ s₂ e' a hc ha ih =>
      obtain ⟨⟨t, ht, htc⟩, ih⟩ := ih
      cases a with
      | thr k' c =>
        simp only [act] at ha
        split at ha
        · cases ha
        · rename_i t' ht'
          split at ha
          · cases ha
          · rename_i t'' e'' hst
            injection ha with ha
            injection ha with ha1 ha2
            subst ha1
            refine ⟨?_, ih⟩
            by_cases hkk : k' = k
            · subst hkk
              rw [ht] at ht'
              cases ht'
              obtain ⟨ts'', _, hth⟩ := (hist_thr (JCont.hist hh hc)).2 k' t ht
              rw [joined_stays hth (by simp [Thr.joined, htc])] at hst
              cases hst
            · exact ⟨t, by simp only [List.getElem?_set_ne hkk]; exact ht, htc⟩
      | main =>
        simp only [act, mstep] at ha
        split at ha
        · split at ha
          · injection ha with ha; injection ha with ha1 ha2; subst ha1; exact ⟨⟨t, ht, htc⟩, trivial⟩
          · split at ha <;>
            (injection ha with ha; injection ha with ha1 ha2; subst ha1; exact ⟨⟨t, ht, htc⟩, trivial⟩)
        · rename_i j hmj
          split at ha
          · injection ha with ha; injection ha with ha1 ha2; subst ha1
            exact ⟨⟨t, ht, htc⟩, fun h => absurd h (by omega)⟩
          · rename_i t' ht'
            injection ha with ha; injection ha with ha1 ha2; subst ha1
            refine ⟨?_, trivial⟩
            by_cases hkk : j = k
            · subst hkk
              rw [ht] at ht'
              cases ht'
              have hjl : j < s₁.thrs.length := (List.getElem?_eq_some_iff.mp ht).1
              exact ⟨_, List.getElem?_set_self hjl, htc⟩
            · exact ⟨t, by simp only [List.getElem?_set_ne hkk]; exact ht, htc⟩
        · rename_i j any hmj
          rw [hmj] at ih
          split at ha
          · rename_i hn
            injection ha with ha; injection ha with ha1 ha2; subst ha1
            refine ⟨⟨t, ht, htc⟩, ih ?_⟩
            have := (List.getElem?_eq_some_iff.mp ht).1
            have := List.getElem?_eq_none_iff.mp hn
            omega
          · rename_i t' ht'
            injection ha with ha; injection ha with ha1 ha2; subst ha1
            refine ⟨⟨t, ht, htc⟩, fun h => ?_⟩
            by_cases hkj : k = j
            · subst hkj
              rw [ht] at ht'
              cases ht'
              simp [htc]
            · simp [ih (by omega)]
        · rename_i j any all hmj
          rw [hmj] at ih
          split at ha
          · split at ha
            · injection ha with ha; injection ha with ha1 ha2; subst ha1
              exact ⟨⟨t, ht, htc⟩, ih⟩
            · injection ha with ha; injection ha with ha1 ha2; subst ha1
              exact ⟨⟨t, ht, htc⟩, trivial⟩
          · injection ha with ha; injection ha with ha1 ha2; subst ha1
            exact ⟨⟨t, ht, htc⟩, ih⟩
        · cases ha
  have := (key h' s' hc).2
  rw [hd] at this
  exact this

/-- A driver that goes away: the job ends with an error. -/
example : ∃ p, JobT.run (Jb.init [[task "x" 1]])
      (begins 0 (task "x" 1) ++ goes 0 2 ++ hears 0 .closed ++ goes 0 1 ++ looks 8) = some p ∧
    p.1.main = .done true := ⟨_, rfl, rfl⟩

/-- What `task_status` of the driver's component reports, 2_1:311-325, for the tasks that have the
numbers `f`. -/
def endStatus (f : Nat → Task) (s : I21.Dev) : SD where
  running := s.running.isSome
  canSubmit := true
  task := some (s.running.bind (fun x => match x with
    | .task t => some (f t)
    | .measure => none))

/-- **C45**, "only for this reason", is violated in the sense of what happens at the component: a
task that starts in time and ends before the first status report after submission is never seen
running; the job ends with an error. -/
theorem C45_refuted_short_task : ∃ hd d, I21.Hist hd d ∧ .begun 1 ∈ hd ∧ .ended 1 ∈ hd ∧
    .crashed ∉ hd ∧
    ∃ h s, Hist (Jb.init [[task "x" 1]]) h s ∧ s.main = .done true ∧
      (∀ k e, .thr k e ∈ h → ¬ NoAnswer e) ∧
      (∀ i a l, .thr 0 (.got i .running a l) ∈ h → a = okStatus (endStatus (task "x") d)) := by
  let das : List I21.Act := .cmd (.start 1) :: List.replicate 14 (.worker { over := true, sample := false })
  have hdr : ∃ p, I21.run I21.Dev.init das = some p ∧ p.2.contains (.begun 1) = true ∧
      p.2.contains (.ended 1) = true ∧ p.2.contains .crashed = false ∧
      endStatus (task "x") p.1 = idleSD := ⟨_, rfl, rfl, rfl, rfl, rfl⟩
  obtain ⟨⟨d, hd⟩, hdr, d1, d2, d3, d4⟩ := hdr
  have hdh : I21.Hist hd d := by
    have gen : ∀ (as : List I21.Act) (h es : List I21.Ev) (s s' : I21.Dev), I21.Hist h s →
        I21.run s as = some (s', es) → I21.Hist (h ++ es) s' := by
      intro as
      induction as with
      | nil =>
        intro h es s s' hh hr
        simp only [I21.run, Option.some.injEq, Prod.mk.injEq] at hr
        obtain ⟨rfl, rfl⟩ := hr
        simpa using hh
      | cons a as ih =>
        intro h es s s' hh hr
        simp only [I21.run] at hr
        split at hr
        · cases hr
        · rename_i s₁ es₁ ha
          split at hr
          · cases hr
          · rename_i s₂ es₂ hr'
            injection hr with hr
            injection hr with h1 h2
            subst h1; subst h2
            have := ih _ _ _ _ (hh.step a ha) hr'
            simpa using this
    simpa using gen das [] hd I21.Dev.init d .init hdr
  refine ⟨hd, d, hdh, List.contains_iff_mem.mp d1, List.contains_iff_mem.mp d2, ?_, ?_⟩
  · intro hm
    have := List.contains_iff_mem.mpr hm
    simp only at d3
    rw [d3] at this
    cases this
  · let as : List Act := goes 0 3 ++ hears 0 (okStatus idleSD) ++ goes 0 1 ++ hears 0 okNone ++
      goes 0 1 ++ hears 0 (okStatus idleSD) ++ goes 0 1 ++
      [.thr 0 { ans := okStatus idleSD, late := true }] ++ goes 0 1 ++ looks 8
    have hr : ∃ p, JobT.run (Jb.init [[task "x" 1]]) as = some p ∧ p.1.main = .done true ∧
        p.2.all (fun e => match e with
          | .thr _ (.got _ _ .closed _) => false
          | .thr 0 (.got _ .running a _) => a == okStatus idleSD
          | _ => true) = true := ⟨_, rfl, rfl, by decide⟩
    obtain ⟨⟨s, es⟩, hr, h1, h2⟩ := hr
    refine ⟨es, s, by simpa using jrun_hist .init hr, h1, ?_, ?_⟩
    · rintro k e hm ⟨i, q, l, rfl⟩
      have := List.all_eq_true.mp h2 _ hm
      simp at this
    · intro i a l hm
      have := List.all_eq_true.mp h2 _ hm
      simp only at d4
      rw [d4]
      cases a with
      | closed => simp at this
      | reply ok st ps => simpa using this

end Tomato.Props
