import Verif.Iface20Fine
import Verif.Props.Iface20Calm

/-!
# Commands of interface 2.0 which are interrupted by the threads of the component (C126)
-/

namespace Tomato.Props.Fine
open Tomato Tomato.I20 Tomato.Props
open Tomato.F20 (St MPc)

/-! ## Specification -/

/-- What may happen in a state: requests under the condition of C112 (tasks, measurements and resets only
while no thread is being executed); with `strict`, the threads do not act in the middle of
`task_stop`. -/
def Guard (strict : Bool) (s : St) : F20.Act → Prop
  | .call c => MayAsk s.dev (.cmd c)
  | .thread _ _ => strict = true → s.main ≠ .stopData
  | .go => True

/-- Histories in which one thing is asked at a time. -/
inductive Careful (strict : Bool) : List Ev → St → Prop where
  | init : Careful strict [] {}
  | step {h : List Ev} {s s' : St} {es : List Ev} (a : F20.Act) :
      Careful strict h s → Guard strict s a → F20.act s a = some (s', es) →
        Careful strict (h ++ es) s'

/-- The actions which do not start tasks and do not reset the component. -/
def Lets : F20.Act → Prop
  | .call (.start _) => False
  | .call .reset => False
  | _ => True

/-- Nothing happens any more: from here on, whatever the threads do and whoever asks for data,
measurements or an end, the component reports to be running, refuses measurements, and nothing is
started, measured or ended, until a task is started or the component reset. -/
def Hangs (s : St) : Prop :=
  ∀ (as : List F20.Act) (s' : St) (es : List Ev), (∀ a ∈ as, Lets a) → F20.run s as = some (s', es) →
    s'.dev.running = true ∧ s'.dev.exited = false ∧
      ∀ e ∈ es, e = .mRefused ∨ e = .stopped ∨ ∃ ps, e = .delivered ps

/-! ## The threads of the fine model -/

/-- `task_list.put(task)`. -/
def put (d : Dev) (x : Nat) : Dev :=
  { d with queue := d.queue ++ [x], unfinished := d.unfinished + 1 }

/-- `do_run = True`. -/
def doTrue (t : Thr) : Thr := { t with doRun := true }

/-- Threads are not started by threads. -/
theorem tstep_fresh {d d' : Dev} {i : Nat} {c : Choice} {es : List Ev}
    (h : tstep d i c = some (d', es)) :
    ∀ (j : Nat) (t' : Thr), d'.threads[j]? = some t' → t'.pc ≠ .fresh →
      ∃ t, d.threads[j]? = some t ∧ t.pc ≠ .fresh := by
  have key : ∀ (ts : List Thr) (k : Nat) (f : Thr → Thr), (∀ t, ts[k]? = some t → t.pc ≠ .fresh ∨
      (f t).pc = t.pc) → ∀ (j : Nat) (t' : Thr), (ts.modify k f)[j]? = some t' → t'.pc ≠ .fresh →
      ∃ t, ts[j]? = some t ∧ t.pc ≠ .fresh := by
    intro ts k f hf j t' hj hp
    rw [List.getElem?_modify] at hj
    by_cases hk : k = j
    · subst hk
      simp only [if_true] at hj
      cases ht : ts[k]? with
      | none => rw [ht] at hj; cases hj
      | some t =>
        rw [ht] at hj
        injection hj with hj
        subst hj
        rcases hf t ht with h1 | h1
        · exact ⟨t, rfl, h1⟩
        · exact ⟨t, rfl, by rw [← h1]; exact hp⟩
    · simp only [hk, if_false] at hj
      exact ⟨t', by simpa using hj, hp⟩
  intro j t' hj hp
  simp only [tstep] at h
  split at h
  · cases h
  next t ht =>
  have hact : t.pc = .fresh ∨ ∀ u, d.threads[i]? = some u → u.pc ≠ .fresh := by
    by_cases hf : t.pc = .fresh
    · exact .inl hf
    · exact .inr (fun u hu => by rw [ht] at hu; injection hu with hu; subst hu; exact hf)
  rcases hact with hf | hact
  · simp [hf] at h
  have one : ∀ (f : Thr → Thr), (d.threads.modify i f)[j]? = some t' →
      ∃ t, d.threads[j]? = some t ∧ t.pc ≠ .fresh :=
    fun f hj => key _ i f (fun u hu => .inl (hact u hu)) j t' hj hp
  have two : ∀ (k : Nat) (b : Bool) (f : Thr → Thr),
      ((d.threads.modify k (fun t => { t with doRun := b })).modify i f)[j]? = some t' →
      ∃ t, d.threads[j]? = some t ∧ t.pc ≠ .fresh := by
    intro k b f hj
    have hact' : ∀ u, (d.threads.modify k (fun t => { t with doRun := b }))[i]? = some u →
        u.pc ≠ .fresh := by
      intro u hu
      rw [List.getElem?_modify, ht] at hu
      have hn := hact t ht
      split at hu <;> (injection hu with hu; subst hu; exact hn)
    obtain ⟨u, hu, hup⟩ := key _ i f (fun u hu => .inl (hact' u hu)) j t' hj hp
    exact key _ k (fun t => { t with doRun := b }) (fun _ _ => .inr rfl) j u hu hup
  split at h
  all_goals (try split at h)
  all_goals (try split at h)
  all_goals first
    | (cases h; done)
    | skip
  all_goals (injection h with h; injection h with e1 e2; subst e1; subst e2)
  all_goals (simp only [goto, setThr, newThr] at hj)
  all_goals first
    | exact one _ hj
    | exact two _ _ _ hj
    | skip
  rw [List.getElem?_append] at hj
  split at hj
  · exact one _ hj
  · next hlt =>
    rcases hk : j - (d.threads.modify i (fun t => { t with pc := .ended })).length with _ | k
    · rw [hk] at hj
      simp only [List.getElem?_cons_zero, Option.some.injEq] at hj
      subst hj
      exact absurd rfl hp
    · rw [hk] at hj; simp at hj

/-- As long as every started thread has the attribute, the threads do what they do in the other
model. -/
theorem thread_tstep {s s' : St} {i : Nat} {c : Choice} {es : List Ev}
    (hh : ∀ (i : Nat) (t : Thr), s.dev.threads[i]? = some t → t.pc ≠ .fresh → i ∈ s.has)
    (h : F20.thread s i c = some (s', es)) :
    tstep s.dev i c = some (s'.dev, es) ∧ s'.main = s.main ∧ ∀ j ∈ s.has, j ∈ s'.has := by
  simp only [F20.thread] at h
  split at h
  · cases h
  next t ht =>
  split at h
  · next x hp =>
    rw [if_pos (hh i t ht (by rw [hp]; simp))] at h
    cases hc : tstep s.dev i c with
    | none => rw [hc] at h; cases h
    | some r =>
      rw [hc] at h
      injection h with h; injection h with e1 e2; subst e1; subst e2
      exact ⟨rfl, rfl, fun _ hj => hj⟩
  · cases hc : tstep s.dev i c with
    | none => rw [hc] at h; cases h
    | some r =>
      rw [hc] at h
      injection h with h; injection h with e1 e2; subst e1; subst e2
      refine ⟨rfl, rfl, fun j hj => ?_⟩
      simp only
      split
      · exact List.mem_cons_of_mem _ hj
      · exact hj
  · cases hc : tstep s.dev i c with
    | none => rw [hc] at h; cases h
    | some r =>
      rw [hc] at h
      injection h with h; injection h with e1 e2; subst e1; subst e2
      exact ⟨rfl, rfl, fun _ hj => hj⟩

theorem thread_calm {s : St} (hc : Calm20 s.dev) (i : Nat) (c : Choice) : F20.thread s i c = none := by
  simp only [F20.thread]
  split
  · rfl
  next t ht =>
  rcases hc t (List.mem_of_getElem? ht) with hp | hp <;> simp [hp, tstep, ht]

theorem calm_modify {ts : List Thr} {k : Nat} (hc : ∀ t ∈ ts, t.pc = .fresh ∨ t.pc = .ended) :
    ∀ t ∈ ts.modify k doTrue, t.pc = .fresh ∨ t.pc = .ended := by
  intro t ht
  obtain ⟨j, hj⟩ := List.mem_iff_getElem?.1 ht
  rw [List.getElem?_modify] at hj
  cases hu : ts[j]? with
  | none => rw [hu] at hj; cases hj
  | some u =>
    rw [hu] at hj
    injection hj with hj
    have hm := hc u (List.mem_of_getElem? hu)
    subst hj
    split
    · exact hm
    · exact hm

theorem calm_append {ts : List Thr} {u : Thr} (hc : ∀ t ∈ ts, t.pc = .fresh ∨ t.pc = .ended)
    (hu : u.pc = .fresh) : ∀ t ∈ ts ++ [u], t.pc = .fresh ∨ t.pc = .ended := by
  intro t ht
  rcases List.mem_append.1 ht with h | h
  · exact hc t h
  · rw [List.mem_singleton] at h; subst h; exact .inl hu

/-! ## What the fine model has to do with the other one -/

/-- Properties of histories which are kept by what happens in the other model: `P` whenever the main
thread is idle, `Q` in the middle of `task_stop`. -/
structure Closed (strict : Bool) (P Q : List Ev → Dev → Prop) : Prop where
  init : P [] Dev.init
  thr : ∀ {h d i c d' es}, P h d → d.exited = false → tstep d i c = some (d', es) → P (h ++ es) d'
  cmd : ∀ {h d} (c : Cmd), P h d → d.exited = false → MayAsk d (.cmd c) →
    P (h ++ (command d c).2) (command d c).1
  stop : ∀ {h d}, P h d → d.exited = false → Q (h ++ [.stopped]) (setThr d d.cur doTrue)
  sdata : ∀ {h d}, Q h d → d.exited = false → P (h ++ [.delivered d.data]) { d with data := none }
  sthr : ∀ {h d i c d' es}, strict = false → Q h d → d.exited = false →
    tstep d i c = some (d', es) → Q (h ++ es) d'

/-- A state in the middle of a command, and the state before the command. -/
def Mid (P Q : List Ev → Dev → Prop) (h : List Ev) (s : St) : Prop :=
  match s.main with
  | .idle => P h s.dev
  | .stopData => Q h s.dev
  | .newMeas => P h s.dev ∧ Calm20 s.dev ∧ s.dev.running = false
  | .setDo false => ∃ h' d x, P h' d ∧ MayAsk d (.cmd (.start x)) ∧ h = h' ++ [.accepted x] ∧
      s.dev = put d x
  | .start false => ∃ h' d x, P h' d ∧ MayAsk d (.cmd (.start x)) ∧ h = h' ++ [.accepted x] ∧
      s.dev = setThr (put d x) d.cur doTrue ∧ d.cur ∈ s.has
  | .setDo true => ∃ d, P h d ∧ Calm20 d ∧ d.running = false ∧ s.dev = newThr d true
  | .start true => ∃ d, P h d ∧ Calm20 d ∧ d.running = false ∧
      s.dev = setThr (newThr d true) d.threads.length doTrue ∧ d.threads.length ∈ s.has
  | .rThread => ∃ d, P h d ∧ Calm20 d ∧ s.dev = { d with queue := [], unfinished := 0 }
  | .rData => ∃ d, P h d ∧ Calm20 d ∧
      s.dev = newThr { d with queue := [], unfinished := 0 } false
  | .rRunning => ∃ d, P h d ∧ Calm20 d ∧
      s.dev = { newThr { d with queue := [], unfinished := 0 } false with data := none }

structure Rel (P Q : List Ev → Dev → Prop) (h : List Ev) (s : St) : Prop where
  has : ∀ (i : Nat) (t : Thr), s.dev.threads[i]? = some t → t.pc ≠ .fresh → i ∈ s.has
  mid : Mid P Q h s

/-- In the middle of the other commands no thread is being executed. -/
theorem Mid.calm {P Q : List Ev → Dev → Prop} {h : List Ev} {s : St} (hm : Mid P Q h s)
    (h1 : s.main ≠ .idle) (h2 : s.main ≠ .stopData) : Calm20 s.dev := by
  simp only [Mid] at hm
  split at hm
  · next hp => exact absurd hp h1
  · next hp => exact absurd hp h2
  · exact hm.2.1
  · obtain ⟨h', d, x, _, hc, _, hd⟩ := hm
    rw [hd]; exact hc.1
  · obtain ⟨h', d, x, _, hc, _, hd, _⟩ := hm
    rw [hd]; exact calm_modify hc.1
  · obtain ⟨d, _, hc, _, hd⟩ := hm
    rw [hd]; exact calm_append hc rfl
  · obtain ⟨d, _, hc, _, hd, _⟩ := hm
    rw [hd]; exact calm_modify (calm_append hc rfl)
  · obtain ⟨d, _, hc, hd⟩ := hm
    rw [hd]; exact hc
  · obtain ⟨d, _, hc, hd⟩ := hm
    rw [hd]; exact calm_append hc rfl
  · obtain ⟨d, _, hc, hd⟩ := hm
    rw [hd]; exact calm_append hc rfl

theorem has_calm {s : St} {hs : List Nat} {ts : List Thr}
    (hh : ∀ (i : Nat) (t : Thr), s.dev.threads[i]? = some t → t.pc ≠ .fresh → i ∈ hs)
    {k : Nat} (f : Thr → Thr) (hf : ∀ t, (f t).pc = t.pc) (he : ts = s.dev.threads.modify k f) :
    ∀ (i : Nat) (t : Thr), ts[i]? = some t → t.pc ≠ .fresh → i ∈ hs := by
  subst he
  intro i t hi hp
  rw [List.getElem?_modify] at hi
  cases hu : s.dev.threads[i]? with
  | none => rw [hu] at hi; cases hi
  | some u =>
    rw [hu] at hi
    injection hi with hi
    subst hi
    refine hh i u hu ?_
    split at hp
    · rw [hf] at hp; exact hp
    · exact hp

theorem has_append {s : St} {hs : List Nat} {u : Thr}
    (hh : ∀ (i : Nat) (t : Thr), s.dev.threads[i]? = some t → t.pc ≠ .fresh → i ∈ hs)
    (hu : u.pc = .fresh) :
    ∀ (i : Nat) (t : Thr), (s.dev.threads ++ [u])[i]? = some t → t.pc ≠ .fresh → i ∈ hs := by
  intro i t hi hp
  rw [List.getElem?_append] at hi
  split at hi
  · exact hh i t hi hp
  · rcases hk : i - s.dev.threads.length with _ | k
    · rw [hk] at hi
      simp only [List.getElem?_cons_zero, Option.some.injEq] at hi
      subst hi
      exact absurd hu hp
    · rw [hk] at hi; simp at hi

/-- Starting the current thread, which has the attribute. -/
theorem has_start {d : Dev} {hs : List Nat}
    (hh : ∀ (i : Nat) (t : Thr), d.threads[i]? = some t → t.pc ≠ .fresh → i ∈ hs)
    (hc : d.cur ∈ hs) :
    ∀ (i : Nat) (t : Thr), (startThr d).1.threads[i]? = some t → t.pc ≠ .fresh → i ∈ hs := by
  intro i t hi hp
  simp only [startThr] at hi
  split at hi
  · split at hi
    · simp only [setThr] at hi
      rw [List.getElem?_modify] at hi
      by_cases hk : d.cur = i
      · exact hk ▸ hc
      · simp only [hk, if_false] at hi
        exact hh i t (by simpa using hi) hp
    · exact hh i t hi hp
  · exact hh i t hi hp

theorem Rel.step {strict : Bool} {P Q : List Ev → Dev → Prop} (hcl : Closed strict P Q)
    {h : List Ev} {s s' : St} {es : List Ev} {a : F20.Act} (hr : Rel P Q h s)
    (hg : Guard strict s a) (ha : F20.act s a = some (s', es)) : Rel P Q (h ++ es) s' := by
  obtain ⟨hh, hm⟩ := hr
  simp only [F20.act] at ha
  split at ha
  · cases ha
  next hex0 =>
  have hex : s.dev.exited = false := by simpa using hex0
  clear hex0
  cases a with
  | thread i c =>
    simp only at ha
    have hmain : s.main = .idle ∨ s.main = .stopData := by
      by_contra hne
      rw [not_or] at hne
      rw [thread_calm (hm.calm hne.1 hne.2)] at ha
      cases ha
    obtain ⟨h1, h2, h3⟩ := thread_tstep hh ha
    refine ⟨fun j t' hj hp => ?_, ?_⟩
    · obtain ⟨t, ht, htp⟩ := tstep_fresh h1 j t' hj hp
      exact h3 j (hh j t ht htp)
    · rcases hmain with hp | hp
      · simp only [Mid, h2, hp] at hm ⊢
        exact hcl.thr hm hex h1
      · simp only [Mid, h2, hp] at hm ⊢
        refine hcl.sthr ?_ hm hex h1
        cases strict with
        | false => rfl
        | true => exact absurd hp (hg rfl)
  | call c =>
    simp only at ha
    split at ha
    case isFalse => cases ha
    next hp =>
    injection ha with ha
    obtain ⟨d, hs, mn⟩ := s
    simp only at hp hex hh
    subst hp
    simp only [Mid] at hm
    simp only [Guard] at hg
    cases c with
    | start x =>
      simp only [F20.call] at ha
      injection ha with e1 e2; subst e1; subst e2
      exact ⟨hh, h, d, x, hm, hg, rfl, rfl⟩
    | stop =>
      simp only [F20.call] at ha
      injection ha with e1 e2; subst e1; subst e2
      refine ⟨?_, hcl.stop hm hex⟩
      refine has_calm (s := ⟨d, hs, .idle⟩) (fun i t hi hp => List.mem_cons_of_mem _ (hh i t hi hp))
        doTrue (fun _ => rfl) rfl
    | data =>
      simp only [F20.call] at ha
      injection ha with e1 e2; subst e1; subst e2
      exact ⟨hh, hcl.cmd .data hm hex hg⟩
    | measure =>
      simp only [F20.call] at ha
      split at ha
      · next hr =>
        injection ha with e1 e2; subst e1; subst e2
        have := hcl.cmd .measure hm hex hg
        simp only [command, hr, if_true] at this
        exact ⟨hh, this⟩
      · next hr =>
        injection ha with e1 e2; subst e1; subst e2
        rw [List.append_nil]
        exact ⟨hh, hm, hg, by simpa using hr⟩
    | reset =>
      simp only [F20.call] at ha
      injection ha with e1 e2; subst e1; subst e2
      rw [List.append_nil]
      exact ⟨hh, d, hm, hg, rfl⟩
  | go =>
    simp only [F20.go] at ha
    obtain ⟨dv, hs, mn⟩ := s
    simp only at hex hh
    cases mn with
    | idle => cases ha
    | newMeas =>
      simp only at ha
      injection ha with ha; injection ha with e1 e2; subst e1; subst e2
      rw [List.append_nil]
      exact ⟨has_append (s := ⟨dv, hs, .idle⟩) hh rfl, dv, hm.1, hm.2.1, hm.2.2, rfl⟩
    | setDo m =>
      simp only at ha
      injection ha with ha; injection ha with e1 e2; subst e1; subst e2
      rw [List.append_nil]
      refine ⟨has_calm (s := ⟨dv, hs, .idle⟩) (fun i t hi hp => List.mem_cons_of_mem _ (hh i t hi hp))
        doTrue (fun _ => rfl) rfl, ?_⟩
      cases m with
      | false =>
        obtain ⟨h', d, x, h1, h2, h3, h4⟩ := hm
        simp only at h4
        subst h4
        exact ⟨h', d, x, h1, h2, h3, rfl, List.mem_cons_self⟩
      | true =>
        obtain ⟨d, h1, h2, h3, h4⟩ := hm
        simp only at h4
        subst h4
        exact ⟨d, h1, h2, h3, rfl, List.mem_cons_self⟩
    | start m =>
      simp only at ha
      injection ha with ha; injection ha with e1 e2; subst e1; subst e2
      cases m with
      | false =>
        obtain ⟨h', d, x, h1, h2, h3, h4, h5⟩ := hm
        simp only at h4 h5
        subst h4
        refine ⟨has_start hh h5, ?_⟩
        have := hcl.cmd (.start x) h1 hex h2
        simp only [command] at this
        subst h3
        simp only [Mid]
        rw [List.append_assoc]
        exact this
      | true =>
        obtain ⟨d, h1, h2, h3, h4, h5⟩ := hm
        simp only at h4 h5
        subst h4
        refine ⟨has_start hh h5, ?_⟩
        have := hcl.cmd .measure h1 hex h2
        simp only [command, h3] at this
        exact this
    | stopData =>
      simp only at ha
      injection ha with ha; injection ha with e1 e2; subst e1; subst e2
      exact ⟨hh, hcl.sdata hm hex⟩
    | rThread =>
      simp only at ha
      injection ha with ha; injection ha with e1 e2; subst e1; subst e2
      obtain ⟨d, h1, h2, h3⟩ := hm
      simp only at h3
      subst h3
      rw [List.append_nil]
      exact ⟨has_append (s := ⟨d, hs, .idle⟩) hh rfl, d, h1, h2, rfl⟩
    | rData =>
      simp only at ha
      injection ha with ha; injection ha with e1 e2; subst e1; subst e2
      obtain ⟨d, h1, h2, h3⟩ := hm
      simp only at h3
      subst h3
      rw [List.append_nil]
      exact ⟨hh, d, h1, h2, rfl⟩
    | rRunning =>
      simp only at ha
      injection ha with ha; injection ha with e1 e2; subst e1; subst e2
      obtain ⟨d, h1, h2, h3⟩ := hm
      simp only at h3
      subst h3
      exact ⟨hh, hcl.cmd .reset h1 hex h2⟩

theorem Careful.rel {strict : Bool} {P Q : List Ev → Dev → Prop} (hcl : Closed strict P Q)
    {h : List Ev} {s : St} (hh : Careful strict h s) : Rel P Q h s := by
  induction hh with
  | init =>
    refine ⟨fun i t hi hp => ?_, hcl.init⟩
    rcases i with _ | i
    · simp only [Dev.init, List.getElem?_cons_zero, Option.some.injEq] at hi
      subst hi
      exact absurd rfl hp
    · simp [Dev.init] at hi
  | step a _ hg ha ih => exact ih.step hcl hg ha

/-- Everything that holds of the other model: histories. -/
theorem closed_hist : Closed true CalmHist
    (fun h d => ∃ h' d', CalmHist h' d' ∧ d'.exited = false ∧ h = h' ++ [.stopped] ∧
      d = setThr d' d'.cur doTrue) where
  init := .init
  thr {_ d i c _ _} hp he ht := .step (.thread i c) hp trivial (by simp [act, he, ht])
  cmd {_ d} c hp he hm := .step (.cmd c) hp hm (by simp [act, he])
  stop {h d} hp he := ⟨h, d, hp, he, rfl, rfl⟩
  sdata {h d} hq _ := by
    obtain ⟨h', d', hp, he, rfl, rfl⟩ := hq
    have : CalmHist (h' ++ _) _ := .step (.cmd .stop) hp trivial
      (by simp only [act, he]; rfl : act d' (.cmd .stop) = some (command d' .stop))
    rw [List.append_assoc]
    exact this
  sthr h := by cases h

theorem closed_inv : Closed false (fun h d => CalmInv h d ∧ InTurn h)
    (fun h d => CalmInv h d ∧ InTurn h) where
  init := ⟨calm_inv .init, calm_inTurn .init⟩
  thr {h d i c d' es} hp _ ht := by
    obtain ⟨h1, hl, hlen⟩ := calm_thread hp.1 ht
    refine ⟨h1, inTurn_append hp.2 (fun x y e hs => ?_)⟩
    have hx : x = [] := by
      subst hs
      simp only [List.length_append, List.length_cons] at hlen
      exact List.eq_nil_of_length_eq_zero (by omega)
    subst hx
    rw [List.append_nil]
    exact hl e (by simp [hs])
  cmd {h d} c hp _ hm := by
    obtain ⟨h1, hl, _⟩ := calm_cmd hp.1 hm
    exact ⟨h1, inTurn_append hp.2 (fun x y e hs => hl e (by simp [hs]) _)⟩
  stop {h d} hp _ := by
    obtain ⟨⟨h1, h2, ⟨t, ht, h3, h4, h5, h6, h7⟩, h8, h9⟩, hi⟩ := hp
    refine ⟨⟨h1, rest_modify h2, ⟨_, get_modify ht, ?_⟩, ?_, ?_⟩, inTurn_append hi ?_⟩
    · simpa [work20_append, work20Step, doTrue, setThr] using ⟨h3, h4, h5, h6, h7⟩
    · simpa [setThr, accepted20_append, took20_append] using h8
    · simpa [setThr, measured20_append, delivered20_append] using h9
    · intro x y e hs
      rcases x with _ | ⟨_, x⟩
      · simp only [List.nil_append, List.cons.injEq] at hs
        rw [← hs.1]
        exact trivial
      · simp at hs
  sdata {h d} hq _ := by
    obtain ⟨h1, hl, _⟩ := calm_cmd (c := .data) hq.1 trivial
    exact ⟨h1, inTurn_append hq.2 (fun x y e hs => hl e (by simp only [command]; simp [hs]) _)⟩
  sthr {h d i c d' es} _ hp _ ht := by
    obtain ⟨h1, hl, hlen⟩ := calm_thread hp.1 ht
    refine ⟨h1, inTurn_append hp.2 (fun x y e hs => ?_)⟩
    have hx : x = [] := by
      subst hs
      simp only [List.length_append, List.length_cons] at hlen
      exact List.eq_nil_of_length_eq_zero (by omega)
    subst hx
    rw [List.append_nil]
    exact hl e (by simp [hs])

/-! ## C126 -/

theorem run_hist {h : List Ev} {s s' : St} {as : List F20.Act} {es : List Ev} (hh : F20.Hist h s)
    (hr : F20.run s as = some (s', es)) : F20.Hist (h ++ es) s' := by
  induction as generalizing h s es with
  | nil =>
    simp only [F20.run] at hr
    injection hr with hr; injection hr with e1 e2; subst e1; subst e2
    rw [List.append_nil]; exact hh
  | cons a as ih =>
    simp only [F20.run] at hr
    split at hr
    · cases hr
    next s1 es1 ha =>
    split at hr
    · cases hr
    next s2 es2 hr2 =>
    injection hr with hr; injection hr with e1 e2; subst e1; subst e2
    rw [← List.append_assoc]
    exact ih (.step a hh ha) hr2

/-- The threads are at rest or wait for a task which does not come. -/
structure Dead (s : St) : Prop where
  alive : s.dev.exited = false
  running : s.dev.running = true
  queue : s.dev.queue = []
  thr : ∀ t ∈ s.dev.threads, t.pc = .fresh ∨ t.pc = .ended ∨ t.pc = .get
  main : s.main = .idle ∨ s.main = .stopData

theorem Dead.step {s s' : St} {a : F20.Act} {es : List Ev} (hd : Dead s) (hl : Lets a)
    (ha : F20.act s a = some (s', es)) :
    Dead s' ∧ ∀ e ∈ es, e = .mRefused ∨ e = .stopped ∨ ∃ ps, e = .delivered ps := by
  obtain ⟨d, hs, mn⟩ := s
  obtain ⟨h1, h2, h3, h4, h5⟩ := hd
  simp only at h1 h2 h3 h4 h5
  simp only [F20.act, h1] at ha
  cases a with
  | thread i c =>
    exfalso
    simp only [F20.thread] at ha
    cases ht : d.threads[i]? with
    | none => simp [ht] at ha
    | some t =>
      rcases h4 t (List.mem_of_getElem? ht) with hp | hp | hp <;>
        simp [ht, hp, tstep, h3] at ha
  | call c =>
    simp only [Bool.false_eq_true, if_false] at ha
    split at ha
    case isFalse => cases ha
    next hp =>
    injection ha with ha
    subst hp
    cases c with
    | start x => exact hl.elim
    | reset => exact hl.elim
    | stop =>
      simp only [F20.call] at ha
      injection ha with e1 e2; subst e1; subst e2
      refine ⟨⟨h1, h2, h3, ?_, .inr rfl⟩, by simp⟩
      intro t ht
      simp only [F20.setDo, setThr] at ht
      obtain ⟨j, hj⟩ := List.mem_iff_getElem?.1 ht
      rw [List.getElem?_modify] at hj
      cases hu : d.threads[j]? with
      | none => rw [hu] at hj; cases hj
      | some u =>
        rw [hu] at hj
        injection hj with hj
        have hm := h4 u (List.mem_of_getElem? hu)
        subst hj
        split <;> exact hm
    | data =>
      simp only [F20.call] at ha
      injection ha with e1 e2; subst e1; subst e2
      exact ⟨⟨h1, h2, h3, h4, .inl rfl⟩, by simp⟩
    | measure =>
      simp only [F20.call, h2, if_true] at ha
      injection ha with e1 e2; subst e1; subst e2
      exact ⟨⟨h1, h2, h3, h4, .inl rfl⟩, by simp⟩
  | go =>
    simp only [Bool.false_eq_true, if_false, F20.go] at ha
    rcases h5 with hp | hp
    · subst hp; cases ha
    · subst hp
      simp only at ha
      injection ha with ha; injection ha with e1 e2; subst e1; subst e2
      exact ⟨⟨h1, h2, h3, h4, .inl rfl⟩, by simp⟩

theorem Dead.hangs {s : St} (hd : Dead s) : Hangs s := by
  intro as
  induction as generalizing s with
  | nil =>
    intro s' es _ hr
    simp only [F20.run] at hr
    injection hr with hr; injection hr with e1 e2; subst e1; subst e2
    exact ⟨hd.running, hd.alive, by simp⟩
  | cons a as ih =>
    intro s' es hl hr
    simp only [F20.run] at hr
    split at hr
    · cases hr
    next s1 es1 ha =>
    split at hr
    · cases hr
    next s2 es2 hr2 =>
    injection hr with hr; injection hr with e1 e2; subst e1; subst e2
    obtain ⟨hd1, he1⟩ := hd.step (hl a List.mem_cons_self) ha
    obtain ⟨g1, g2, g3⟩ := ih hd1 s2 es2 (fun b hb => hl b (List.mem_cons_of_mem _ hb)) hr2
    refine ⟨g1, g2, fun e he => ?_⟩
    rcases List.mem_append.1 he with h | h
    · exact he1 e h
    · exact g3 e h

instance (s : St) : Decidable (Dead s) :=
  decidable_of_iff (s.dev.exited = false ∧ s.dev.running = true ∧ s.dev.queue = [] ∧
    (∀ t ∈ s.dev.threads, t.pc = .fresh ∨ t.pc = .ended ∨ t.pc = .get) ∧
    (s.main = .idle ∨ s.main = .stopData))
    ⟨fun ⟨a, b, c, d, e⟩ => ⟨a, b, c, d, e⟩, fun ⟨a, b, c, d, e⟩ => ⟨a, b, c, d, e⟩⟩

/-- `n` steps of thread `i`. -/
def steps (i n : Nat) (c : Choice := {}) : List F20.Act := List.replicate n (.thread i c)

/-- A task, up to the moment when the component reports to be ready but has not prepared the next
thread. -/
def upToReady : List F20.Act :=
  [.call (.start 1), .go, .go] ++ steps 0 8 { over := true, result := some (some [7]) }

/-- **C126** is violated: a measurement is asked for right after a task, when the component reports to
be ready; the thread of the task replaces the thread of the measurement before it is started.  The
request is answered with success, but the measurement never begins: the thread which was started waits
for a task, and the component hangs. -/
theorem C126_refuted :
    ∃ h s, F20.Hist h s ∧
      h = [.accepted 1, .took 1, .begun 1, .measuredFor 1 [7], .ended 1, .mAccepted] ∧
      s.main = .idle ∧ Hangs s := by
  have hr : ∃ p, F20.run {} (upToReady ++ [.call .measure, .go] ++ steps 0 1 ++ [.go, .go] ++
      steps 2 1) = some p ∧
      p.2 = [.accepted 1, .took 1, .begun 1, .measuredFor 1 [7], .ended 1, .mAccepted] ∧
      p.1.main = .idle ∧ Dead p.1 := ⟨_, rfl, rfl, rfl, by decide⟩
  obtain ⟨⟨s, es⟩, hr, h1, h2, h3⟩ := hr
  exact ⟨es, s, by simpa using run_hist .init hr, h1, h2, h3.hangs⟩

/-- **C126** is violated in another way: a task is started right after another one, when the component
reports to be ready; `do_run` is set on the thread of the old task, and another thread is started.
The driver process goes on and the request is answered with success; the task is taken up, but no
sample is ever taken for it, it never ends, and the component hangs: a job which waits for the end of
this task waits forever. -/
theorem C126_refuted_start :
    ∃ h s, F20.Hist h s ∧
      h = [.accepted 1, .took 1, .begun 1, .measuredFor 1 [7], .ended 1,
        .accepted 2, .took 2, .begun 2] ∧
      s.main = .idle ∧ Hangs s := by
  have hr : ∃ p, F20.run {} (upToReady ++ [.call (.start 2), .go] ++ steps 0 1 ++ [.go] ++
      steps 1 5 { over := true, result := some (some [8]) }) = some p ∧
      p.2 = [.accepted 1, .took 1, .begun 1, .measuredFor 1 [7], .ended 1,
        .accepted 2, .took 2, .begun 2] ∧
      p.1.main = .idle ∧ Dead p.1 := ⟨_, rfl, rfl, rfl, by decide⟩
  obtain ⟨⟨s, es⟩, hr, h1, h2, h3⟩ := hr
  exact ⟨es, s, by simpa using run_hist .init hr, h1, h2, h3.hangs⟩

/-- **C126** where tasks, measurements and resets are asked for only while no thread is being executed
(and the threads do not act in the middle of `task_stop`): whenever the main thread is idle, what has
happened, and the state of the component, are those of commands executed without interruption.
So everything that is proved of them (C112, C125) holds. -/
theorem C126_partial (h : List Ev) (s : St) (hh : Careful true h s) (hm : s.main = .idle) :
    CalmHist h s.dev := by
  have := (hh.rel closed_hist).mid
  simpa only [Mid, hm] using this

/-- **C126** where tasks, measurements and resets are asked for only while no thread is being executed,
and the threads may act in the middle of `task_stop`: things are executed one at a time, each to its end,
and the driver process goes on; the component reports to be running while it executes something; and
between the commands no task and no data point is lost or handed out twice, and there is a thread for
the next task when the component is at rest and reports to be ready. -/
theorem C126_stop_partial (h : List Ev) (s : St) (hh : Careful false h s) :
    InTurn h ∧ s.dev.exited = false ∧ (work20 h ≠ none → s.dev.running = true) ∧
    (s.main = .idle → accepted20 h = took20 h ++ s.dev.queue ∧
      measured20 h = delivered20 h ++ s.dev.data.getD [] ∧
      (Calm20 s.dev → s.dev.running = false → Primed s.dev)) := by
  have hmid := (hh.rel closed_inv).mid
  have key : ∀ {h d}, CalmInv h d → work20 h ≠ none → d.running = true := by
    intro h d hi hw
    obtain ⟨t, _, _, h4, h5, _, _⟩ := hi.cur
    rw [h4] at hw
    rw [h5]
    cases hp : t.pc <;> simp_all [workOf, runningOf]
  have acc : ∀ {h : List Ev} {x : Nat}, InTurn h → InTurn (h ++ [.accepted x]) := by
    intro h x hi
    refine inTurn_append hi (fun a b e hs => ?_)
    rcases a with _ | ⟨_, a⟩
    · simp only [List.nil_append, List.cons.injEq] at hs
      rw [← hs.1]
      exact trivial
    · simp at hs
  have accw : ∀ {h : List Ev} {x : Nat}, work20 (h ++ [.accepted x]) = work20 h := by
    intro h x; rw [work20_append]; rfl
  have rest : ∀ {h d}, CalmInv h d → Calm20 d → work20 h = none := by
    intro h d hi hc
    obtain ⟨t, ht, _, h4, _⟩ := hi.cur
    rw [h4]
    rcases hc t (List.mem_of_getElem? ht) with hp | hp <;> rw [hp] <;> rfl
  obtain ⟨dv, hs, mn⟩ := s
  cases mn with
  | idle =>
    obtain ⟨hi, ht⟩ := hmid
    refine ⟨ht, hi.alive, key hi, fun _ => ⟨hi.tasks, hi.points, fun hc hr => ?_⟩⟩
    obtain ⟨t, hg, _, _, h5, _⟩ := hi.cur
    refine ⟨t, hg, ?_⟩
    rcases hc t (List.mem_of_getElem? hg) with hp | hp
    · exact hp
    · rw [hp] at h5
      rw [h5] at hr
      cases hr
  | stopData =>
    obtain ⟨hi, ht⟩ := hmid
    exact ⟨ht, hi.alive, key hi, fun hm => by cases hm⟩
  | newMeas =>
    obtain ⟨⟨hi, ht⟩, _⟩ := hmid
    exact ⟨ht, hi.alive, key hi, fun hm => by cases hm⟩
  | setDo m =>
    cases m with
    | false =>
      obtain ⟨h', d, x, ⟨hi, ht⟩, _, rfl, hd⟩ := hmid
      simp only at hd
      subst hd
      exact ⟨acc ht, hi.alive, fun hw => (key hi (by rwa [accw] at hw) : d.running = true),
        fun hm => by cases hm⟩
    | true =>
      obtain ⟨d, ⟨hi, ht⟩, _, _, hd⟩ := hmid
      simp only at hd
      subst hd
      exact ⟨ht, hi.alive, fun hw => (key hi hw : d.running = true), fun hm => by cases hm⟩
  | start m =>
    cases m with
    | false =>
      obtain ⟨h', d, x, ⟨hi, ht⟩, _, rfl, hd, _⟩ := hmid
      simp only at hd
      subst hd
      exact ⟨acc ht, hi.alive, fun hw => (key hi (by rwa [accw] at hw) : d.running = true),
        fun hm => by cases hm⟩
    | true =>
      obtain ⟨d, ⟨hi, ht⟩, _, _, hd, _⟩ := hmid
      simp only at hd
      subst hd
      exact ⟨ht, hi.alive, fun hw => (key hi hw : d.running = true), fun hm => by cases hm⟩
  | rThread =>
    obtain ⟨d, ⟨hi, ht⟩, hc, hd⟩ := hmid
    simp only at hd
    subst hd
    exact ⟨ht, hi.alive, fun hw => absurd (rest hi hc) hw, fun hm => by cases hm⟩
  | rData =>
    obtain ⟨d, ⟨hi, ht⟩, hc, hd⟩ := hmid
    simp only at hd
    subst hd
    exact ⟨ht, hi.alive, fun hw => absurd (rest hi hc) hw, fun hm => by cases hm⟩
  | rRunning =>
    obtain ⟨d, ⟨hi, ht⟩, hc, hd⟩ := hmid
    simp only at hd
    subst hd
    exact ⟨ht, hi.alive, fun hw => absurd (rest hi hc) hw, fun hm => by cases hm⟩

/-- Under the same condition nothing happens in the middle of a command other than `task_stop`, except that
the main thread goes on. -/
theorem C126_undisturbed_partial (h : List Ev) (s s' : St) (es : List Ev) (a : F20.Act)
    (hh : Careful false h s) (h1 : s.main ≠ .idle) (h2 : s.main ≠ .stopData)
    (ha : F20.act s a = some (s', es)) : a = .go := by
  have hc := (hh.rel closed_inv).mid.calm h1 h2
  simp only [F20.act] at ha
  split at ha
  · cases ha
  · cases a with
    | thread i c => simp [thread_calm hc] at ha
    | call c => simp only at ha; cases ha
    | go => rfl

/-- No thread is being executed. -/
def calmB (d : Dev) : Bool := d.threads.all (fun (t : Thr) => decide (t.pc = .fresh ∨ t.pc = .ended))

/-- A thread is prepared. -/
def primedB (d : Dev) : Bool :=
  match d.threads[d.cur]? with
  | some t => decide (t.pc = .fresh)
  | none => false

/-- Whether an action is allowed. -/
def guardB (strict : Bool) (s : St) : F20.Act → Bool
  | .call (.start _) => calmB s.dev && primedB s.dev
  | .call .measure => calmB s.dev
  | .call .reset => calmB s.dev
  | .call _ => true
  | .thread _ _ => !strict || decide (s.main ≠ .stopData)
  | .go => true

theorem calmB_calm {d : Dev} (h : calmB d = true) : Calm20 d := fun t ht =>
  of_decide_eq_true (List.all_eq_true.1 h t ht)

theorem guardB_guard {strict : Bool} {s : St} {a : F20.Act} (h : guardB strict s a = true) :
    Guard strict s a := by
  cases a with
  | go => trivial
  | thread i c =>
    intro hs
    subst hs
    simpa [guardB] using h
  | call c =>
    cases c with
    | stop => trivial
    | data => trivial
    | measure => exact calmB_calm h
    | reset => exact calmB_calm h
    | start x =>
      simp only [guardB, Bool.and_eq_true] at h
      refine ⟨calmB_calm h.1, ?_⟩
      have h2 := h.2
      simp only [primedB] at h2
      split at h2
      · next t ht => exact ⟨t, ht, of_decide_eq_true h2⟩
      · cases h2

/-- A careful run. -/
def runIf (strict : Bool) (s : St) : List F20.Act → Option (St × List Ev)
  | [] => some (s, [])
  | a :: as =>
    if guardB strict s a then
      match F20.act s a with
      | none => none
      | some (s', es) =>
        match runIf strict s' as with
        | none => none
        | some (s'', es') => some (s'', es ++ es')
    else none

theorem runIf_careful {strict : Bool} {h : List Ev} {s s' : St} {as : List F20.Act} {es : List Ev}
    (hh : Careful strict h s) (hr : runIf strict s as = some (s', es)) :
    Careful strict (h ++ es) s' := by
  induction as generalizing h s es with
  | nil =>
    simp only [runIf] at hr
    injection hr with hr; injection hr with e1 e2; subst e1; subst e2
    rw [List.append_nil]; exact hh
  | cons a as ih =>
    simp only [runIf] at hr
    split at hr
    case isFalse => cases hr
    next hg =>
    split at hr
    · cases hr
    next s1 es1 ha =>
    split at hr
    · cases hr
    next s2 es2 hr2 =>
    injection hr with hr; injection hr with e1 e2; subst e1; subst e2
    rw [← List.append_assoc]
    exact ih (.step a hh (guardB_guard hg) ha) hr2

/-- The hypotheses of C126 can be met: a task, a measurement after it, a reset, and another task, which
is stopped while it is being executed (and goes on). -/
example : ∃ h s, Careful true h s ∧ s.main = .idle ∧
    h = [.accepted 1, .took 1, .begun 1, .measuredFor 1 [7], .ended 1, .mAccepted, .mStarted, .mEnded,
      .wasReset, .accepted 2, .took 2, .begun 2, .measuredFor 2 [9], .stopped, .delivered (some [9])] := by
  have hr : ∃ p, runIf true {} (upToReady ++ steps 0 1 ++ [.call .measure, .go, .go, .go] ++
      steps 2 5 { result := some (some [8]) } ++ [.call .reset, .go, .go, .go] ++
      [.call (.start 2), .go, .go] ++ steps 4 6 { result := some (some [9]) } ++
      [.call .stop, .go]) = some p ∧ p.1.main = .idle ∧
      p.2 = [.accepted 1, .took 1, .begun 1, .measuredFor 1 [7], .ended 1, .mAccepted, .mStarted, .mEnded,
      .wasReset, .accepted 2, .took 2, .begun 2, .measuredFor 2 [9], .stopped, .delivered (some [9])] :=
    ⟨_, rfl, rfl, rfl⟩
  obtain ⟨⟨s, es⟩, hr, h1, h2⟩ := hr
  exact ⟨es, s, by simpa using runIf_careful .init hr, h1, h2⟩

/-- A sample is taken in the middle of `task_stop`: it is handed out together with the others. -/
example : ∃ h s, Careful false h s ∧ s.main = .idle ∧
    h = [.accepted 1, .took 1, .begun 1, .measuredFor 1 [7], .stopped, .measuredFor 1 [7],
      .delivered (some [7, 7])] := by
  have hr : ∃ p, runIf false {} ([.call (.start 1), .go, .go] ++
      steps 0 6 { result := some (some [7]) } ++ [.call .stop] ++
      steps 0 2 { result := some (some [7]) } ++ [.go]) = some p ∧ p.1.main = .idle ∧
      p.2 = [.accepted 1, .took 1, .begun 1, .measuredFor 1 [7], .stopped, .measuredFor 1 [7],
      .delivered (some [7, 7])] := ⟨_, rfl, rfl, rfl⟩
  obtain ⟨⟨s, es⟩, hr, h1, h2⟩ := hr
  exact ⟨es, s, by simpa using runIf_careful .init hr, h1, h2⟩

/-- In the middle of a command: a task has been put onto the queue. -/
example : ∃ h s, Careful false h s ∧ s.main ≠ .idle ∧ s.main ≠ .stopData ∧
    (F20.act s .go).isSome = true := by
  have hr : ∃ p, runIf false {} [.call (.start 1)] = some p ∧ p.1.main ≠ .idle ∧
      p.1.main ≠ .stopData ∧ (F20.act p.1 .go).isSome = true :=
    ⟨_, rfl, by decide, by decide, rfl⟩
  obtain ⟨⟨s, es⟩, hr, h1, h2, h3⟩ := hr
  exact ⟨es, s, by simpa using runIf_careful .init hr, h1, h2, h3⟩

end Tomato.Props.Fine
