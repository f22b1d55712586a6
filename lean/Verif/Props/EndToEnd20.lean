import Verif.EndToEnd20
import Verif.JobThreadLemmas
import Mathlib.Tactic.ByContra

/-!
# From the measurement to the file, with interface 2.0 (C125)
-/

namespace Tomato.Props.Two
open Tomato.E2E20

/-! ## Specification -/

/-- What the thread did. -/
def thrPart (h : List Ev) : List JobT.Ev :=
  h.filterMap (fun e => match e with | .thr e => some e | .dev _ => none)

/-- What the component did. -/
def devPart (h : List Ev) : List I20.Ev :=
  h.filterMap (fun e => match e with | .dev e => some e | .thr _ => none)

/-- The data points measured for task `n`, in order. -/
def measuredFor (h : List I20.Ev) (n : Nat) : List Nat :=
  h.flatMap (fun e => match e with
    | .measuredFor m ps => if m = n then ps else []
    | _ => [])

/-- All data points measured for tasks, in order. -/
def measuredAll (h : List I20.Ev) : List Nat :=
  h.flatMap (fun e => match e with
    | .measuredFor _ ps => ps
    | _ => [])

/-- All data points handed out by the component, in order. -/
def fetchedAll (h : List I20.Ev) : List Nat :=
  h.flatMap (fun e => match e with
    | .delivered ps => ps.getD []
    | _ => [])

/-- A thread which has been started for a task and has not announced its end. -/
def ForTask : I20.TPc → Prop
  | .setRun | .get | .prep _ | .clear _ | .loop _ | .turn _ | .done _ | .unsetRun _ => True
  | _ => False

instance (pc : I20.TPc) : Decidable (ForTask pc) := by cases pc <;> unfold ForTask <;> infer_instance

/-- A thread which is not being executed. -/
def Over (pc : I20.TPc) : Prop := pc = .fresh ∨ pc = .ended

instance (pc : I20.TPc) : Decidable (Over pc) := by unfold Over; infer_instance

/-- The driver process is there, and the component is not occupied with tasks and has no data. -/
structure Rests (d : I20.Dev) : Prop where
  alive : d.exited = false
  threads : ∀ t ∈ d.threads, ¬ ForTask t.pc
  queue : d.queue = []
  cache : d.data = none

/-- Is this a moment for a task?  The thread for it has been prepared, and no thread is being executed. -/
def MayStart (d : I20.Dev) : Prop :=
  (∃ t, d.threads[d.cur]? = some t ∧ t.pc = .fresh) ∧ ∀ t ∈ d.threads, Over t.pc

/-- Is this a moment for a measurement?  No thread is being executed, or the measurement is refused. -/
def MayMeasure (d : I20.Dev) : Prop := d.running = true ∨ ∀ t ∈ d.threads, Over t.pc

/-- Tasks and measurements come at good moments. -/
def Careful (s : St) : Act → Prop
  | .take true => s.net = .req .start → MayStart s.d
  | .measure => MayMeasure s.d
  | _ => True

/-! ## The component -/

/-- The task of a thread, by its position and the queue. -/
def Carries (n : Nat) (q : List Nat) : I20.TPc → Prop
  | .setRun | .get => q = [n]
  | .prep x | .clear x | .loop x | .turn x | .done x | .unsetRun x => x = n ∧ q = []
  | _ => False

/-- Positions before the cache is emptied. -/
def Early : I20.TPc → Prop
  | .setRun | .get | .prep _ | .clear _ => True
  | _ => False

/-- Positions before `task_done`. -/
def Undone : I20.TPc → Prop
  | .unsetRun _ => False
  | _ => True

/-- The component is not occupied with tasks. -/
def Idle (d : I20.Dev) : Prop := (∀ t ∈ d.threads, ¬ ForTask t.pc) ∧ d.queue = []

/-- The component is occupied with task `n`, by its thread `k`. -/
structure DoingBy (n : Nat) (d : I20.Dev) (k : Nat) (t : I20.Thr) : Prop where
  get : d.threads[k]? = some t
  carries : Carries n d.queue t.pc
  others : ∀ (j : Nat) (u : I20.Thr), d.threads[j]? = some u → j ≠ k → Over u.pc
  running : t.pc ≠ .setRun → d.running = true
  undone : Undone t.pc → 0 < d.unfinished
  early : Early t.pc → d.data.getD [] = []

def Doing (n : Nat) (d : I20.Dev) : Prop := ∃ k t, DoingBy n d k t

/-- The driver process is there, and a prepared thread is one for tasks. -/
structure Good (d : I20.Dev) : Prop where
  alive : d.exited = false
  fresh : ∀ t ∈ d.threads, t.pc = .fresh → t.isMeas = false

theorem get_mod {ts : List I20.Thr} {k : Nat} {f : I20.Thr → I20.Thr} {j : Nat} {u : I20.Thr}
    (h : (ts.modify k f)[j]? = some u) : ∃ v, ts[j]? = some v ∧ u = if k = j then f v else v := by
  rw [List.getElem?_modify] at h
  cases hv : ts[j]? with
  | none => rw [hv] at h; cases h
  | some v =>
    rw [hv] at h
    simp only [Option.map_eq_map, Option.map_some, Option.some.injEq] at h
    refine ⟨v, rfl, ?_⟩
    rw [← h]

theorem mod_get {ts : List I20.Thr} {k : Nat} {t : I20.Thr} (f : I20.Thr → I20.Thr)
    (h : ts[k]? = some t) : (ts.modify k f)[k]? = some (f t) := by
  simp [h]

theorem mod_get2 {ts : List I20.Thr} {k : Nat} {t : I20.Thr} (c : Nat) (f g : I20.Thr → I20.Thr)
    (h : ts[k]? = some t) :
    ((ts.modify c f).modify k g)[k]? = some (g (if c = k then f t else t)) := by
  rw [List.getElem?_modify, List.getElem?_modify, h]
  simp

theorem storeData_getD (d r : Option (List Nat)) :
    (I20.storeData d r).getD [] = d.getD [] ++ r.getD [] := by
  cases d <;> cases r <;> simp [I20.storeData]

theorem good_tstep {d d' : I20.Dev} {i : Nat} {c : I20.Choice} {es : List I20.Ev}
    (hg : Good d) (ha : I20.tstep d i c = some (d', es)) : Good d' := by
  obtain ⟨q, u, r, dt, l, ts, cur, ex⟩ := d
  obtain ⟨h1, h2⟩ := hg
  simp only at h1 h2
  subst h1
  simp only [I20.tstep] at ha
  cases ht : ts[i]? with
  | none => rw [ht] at ha; cases ha
  | some t =>
    rw [ht] at ha
    obtain ⟨im, pc, dr⟩ := t
    have key : ∀ (f : I20.Thr → I20.Thr) (k : Nat) (ts' : List I20.Thr),
        (∀ t ∈ ts', t.pc = .fresh → t.isMeas = false) →
        (∀ t, (f t).pc = .fresh → t.pc = .fresh ∧ (f t).isMeas = t.isMeas) →
        ∀ t ∈ ts'.modify k f, t.pc = .fresh → t.isMeas = false := by
      intro f k ts' hts hf t ht hp
      obtain ⟨j, hj⟩ := List.getElem?_of_mem ht
      obtain ⟨v, hv, rfl⟩ := get_mod hj
      have hv' := List.mem_of_getElem? hv
      split at hp
      · next e =>
        rw [if_pos e]
        rw [(hf v hp).2]
        exact hts v hv' (hf v hp).1
      · next e =>
        rw [if_neg e]
        exact hts v hv' hp
    cases pc
    all_goals (try simp only at ha)
    all_goals (try split at ha)
    all_goals (try split at ha)
    all_goals first
      | (cases ha; done)
      | skip
    all_goals (injection ha with ha; injection ha with e1 e2; subst e1; subst e2)
    all_goals refine ⟨rfl, ?_⟩
    all_goals (try simp only [I20.goto, I20.setThr, I20.newThr])
    all_goals first
      | (refine key _ _ _ h2 ?_; intro t; simp; done)
      | (refine key _ _ _ (key _ _ _ h2 (by intro t; simp)) ?_
         intro t; cases c.over <;> simp)
      | (refine key _ _ _ h2 ?_
         intro t; cases c.over <;> simp)
      | (intro t ht
         rw [List.mem_append] at ht
         rcases ht with ht | ht
         · refine key _ _ _ h2 ?_ t ht
           intro t; simp
         · simp at ht; subst ht; simp)

/-- A step of a thread while there is no task. -/
theorem work_idle {d d' : I20.Dev} {i : Nat} {c : I20.Choice} {es : List I20.Ev}
    (hi : Idle d) (ha : I20.tstep d i c = some (d', es)) :
    Idle d' ∧ d'.data = d.data ∧ measuredAll es = [] ∧ (∀ n, measuredFor es n = []) ∧
      fetchedAll es = [] := by
  obtain ⟨q, u, r, dt, l, ts, cur, ex⟩ := d
  obtain ⟨h1, h2⟩ := hi
  simp only at h1 h2
  subst h2
  simp only [I20.tstep] at ha
  cases ht : ts[i]? with
  | none => rw [ht] at ha; cases ha
  | some t =>
    rw [ht] at ha
    obtain ⟨im, pc, dr⟩ := t
    have hp := h1 _ (List.mem_of_getElem? ht)
    have key : ∀ p, ¬ ForTask p →
        ∀ t ∈ ts.modify i (fun t => { t with pc := p }), ¬ ForTask t.pc := by
      intro p hp t ht
      obtain ⟨j, hj⟩ := List.getElem?_of_mem ht
      obtain ⟨v, hv, rfl⟩ := get_mod hj
      split
      · exact hp
      · exact h1 v (List.mem_of_getElem? hv)
    cases pc
    all_goals (try simp only at ha)
    all_goals (try split at ha)
    all_goals first
      | (cases ha; done)
      | (exact absurd trivial hp)
      | skip
    all_goals (injection ha with ha; injection ha with e1 e2; subst e1; subst e2)
    all_goals refine ⟨⟨?_, rfl⟩, rfl, rfl, fun _ => rfl, rfl⟩
    all_goals (try simp only [I20.goto, I20.setThr, I20.newThr])
    all_goals first
      | (exact key _ (by simp [ForTask]))
      | (intro t ht
         rw [List.mem_append] at ht
         rcases ht with ht | ht
         · exact key _ (by simp [ForTask]) t ht
         · simp at ht; subst ht; simp [ForTask])

/-- A step of a thread while there is a task. -/
theorem work_doing {n : Nat} {d d' : I20.Dev} {i : Nat} {c : I20.Choice} {es : List I20.Ev}
    (hi : Doing n d) (ha : I20.tstep d i c = some (d', es)) :
    ((Doing n d' ∧ (d.running = true → d'.running = true)) ∨ Idle d') ∧
      d'.data.getD [] = d.data.getD [] ++ measuredAll es ∧
      measuredFor es n = measuredAll es ∧ (∀ m, m ≠ n → measuredFor es m = []) ∧
      fetchedAll es = [] := by
  obtain ⟨q, u, r, dt, l, ts, cur, ex⟩ := d
  obtain ⟨k, t, h1, h2, h3, h4, h5, h6⟩ := hi
  simp only at h1 h2 h3 h4 h5 h6
  have len : k < ts.length := (List.getElem?_eq_some_iff.mp h1).1
  by_cases hik : i = k
  · subst hik
    simp only [I20.tstep, h1] at ha
    obtain ⟨im, pc, dr⟩ := t
    have oth : ∀ (f : I20.Thr → I20.Thr) (j : Nat) (v : I20.Thr),
        (ts.modify i f)[j]? = some v → j ≠ i → Over v.pc := by
      intro f j v hj hne
      obtain ⟨w, hw, rfl⟩ := get_mod hj
      rw [if_neg (Ne.symm hne)]
      exact h3 j w hw hne
    have oth2 : ∀ (f : I20.Thr → I20.Thr) (j : Nat) (v : I20.Thr),
        ((ts.modify cur (fun t => { t with doRun := false })).modify i f)[j]? = some v → j ≠ i →
          Over v.pc := by
      intro f j v hj hne
      obtain ⟨w, hw, rfl⟩ := get_mod hj
      rw [if_neg (Ne.symm hne)]
      obtain ⟨x, hx, rfl⟩ := get_mod hw
      have := h3 j x hx hne
      split <;> exact this
    have oth3 : ∀ (f : I20.Thr → I20.Thr) (j : Nat) (v : I20.Thr),
        ((ts.modify i (fun t => { t with doRun := false })).modify i f)[j]? = some v → j ≠ i →
          Over v.pc := by
      intro f j v hj hne
      obtain ⟨w, hw, rfl⟩ := get_mod hj
      rw [if_neg (Ne.symm hne)]
      obtain ⟨x, hx, rfl⟩ := get_mod hw
      rw [if_neg (Ne.symm hne)]
      exact h3 j x hx hne
    cases pc
    all_goals (try simp only at ha)
    all_goals first
      | exact h2.elim
      | skip
    case unsetRun x =>
      obtain ⟨rfl, h2⟩ := h2
      injection ha with ha; injection ha with e1 e2; subst e1; subst e2
      refine ⟨.inr ⟨?_, h2⟩, by simp [I20.goto, I20.setThr, measuredAll], rfl, fun _ _ => rfl, rfl⟩
      intro v hv
      obtain ⟨j, hj⟩ := List.getElem?_of_mem hv
      by_cases hne : j = i
      · subst hne
        simp only [I20.goto, I20.setThr] at hj
        rw [mod_get _ h1] at hj
        injection hj with hj
        subst hj
        simp [ForTask]
      · rcases oth _ j v hj hne with h | h <;> rw [h] <;> simp [ForTask]
    case done x =>
      have hu := h5 trivial
      obtain ⟨rfl, h2⟩ := h2
      rw [if_neg (by omega)] at ha
      injection ha with ha; injection ha with e1 e2; subst e1; subst e2
      refine ⟨.inl ⟨⟨i, _, mod_get _ h1, ⟨rfl, h2⟩, oth _, ?_, ?_, ?_⟩, fun h => h⟩,
        by simp [I20.goto, I20.setThr, measuredAll], rfl, fun _ _ => rfl, rfl⟩
      · exact fun _ => h4 (by simp)
      · simp [Undone]
      · simp [Early]
    case setRun =>
      injection ha with ha; injection ha with e1 e2; subst e1; subst e2
      exact ⟨.inl ⟨⟨i, _, mod_get _ h1, h2, oth _, fun _ => rfl, fun _ => h5 trivial,
        fun _ => h6 trivial⟩, fun _ => rfl⟩, by simp [I20.goto, I20.setThr, measuredAll], rfl, fun _ _ => rfl, rfl⟩
    case get =>
      have h2 : q = [n] := h2
      subst h2
      injection ha with ha; injection ha with e1 e2; subst e1; subst e2
      exact ⟨.inl ⟨⟨i, _, mod_get _ h1, ⟨rfl, rfl⟩, oth _, fun _ => h4 (by simp), fun _ => h5 trivial,
        fun _ => h6 trivial⟩, fun h => h⟩, by simp [I20.goto, I20.setThr, measuredAll], rfl,
        fun _ _ => rfl, rfl⟩
    case prep x =>
      obtain ⟨rfl, h2⟩ := h2
      split at ha
      · injection ha with ha; injection ha with e1 e2; subst e1; subst e2
        exact ⟨.inl ⟨⟨i, _, mod_get2 _ _ _ h1, ⟨rfl, h2⟩, oth2 _, fun _ => h4 (by simp), fun _ => h5 trivial,
          fun _ => h6 trivial⟩, fun h => h⟩, by simp [I20.goto, I20.setThr, measuredAll], rfl,
          fun _ _ => rfl, rfl⟩
      · injection ha with ha; injection ha with e1 e2; subst e1; subst e2
        exact ⟨.inl ⟨⟨i, _, mod_get _ h1, ⟨rfl, h2⟩, oth _, fun _ => h4 (by simp), fun _ => h5 trivial,
          fun _ => h6 trivial⟩, fun h => h⟩, by simp [I20.goto, I20.setThr, measuredAll], rfl,
          fun _ _ => rfl, rfl⟩
    case clear x =>
      obtain ⟨rfl, h2⟩ := h2
      injection ha with ha; injection ha with e1 e2; subst e1; subst e2
      refine ⟨.inl ⟨⟨i, _, mod_get _ h1, ⟨rfl, h2⟩, oth _, fun _ => h4 (by simp), fun _ => h5 trivial,
        fun _ => rfl⟩, fun h => h⟩, ?_, rfl, fun _ _ => rfl, rfl⟩
      have := h6 trivial
      simpa [measuredAll] using this.symm
    case loop x =>
      obtain ⟨rfl, h2⟩ := h2
      split at ha
      all_goals
        injection ha with ha; injection ha with e1 e2; subst e1; subst e2
        exact ⟨.inl ⟨⟨i, _, mod_get _ h1, ⟨rfl, h2⟩, oth _, fun _ => h4 (by simp), fun _ => h5 trivial,
          fun h => h.elim⟩, fun h => h⟩, by simp [I20.goto, I20.setThr, measuredAll], rfl,
          fun _ _ => rfl, rfl⟩
    case turn x =>
      obtain ⟨rfl, h2⟩ := h2
      have hpc : ∀ p, p = (if c.over then I20.TPc.done x else I20.TPc.loop x) →
          Carries x q p ∧ (p ≠ .setRun → r = true) ∧ (Undone p → 0 < u) ∧ ¬ Early p := by
        rintro p rfl
        cases c.over
        all_goals exact ⟨⟨rfl, h2⟩, fun _ => h4 (by simp), fun _ => h5 trivial, fun h => h⟩
      obtain ⟨p1, p2, p3, p4⟩ := hpc _ rfl
      split at ha
      · split at ha
        · injection ha with ha; injection ha with e1 e2; subst e1; subst e2
          exact ⟨.inl ⟨⟨i, _, mod_get2 _ _ _ h1, p1, oth3 _, p2, p3, fun h => absurd h p4⟩,
            fun h => h⟩, by simp [I20.goto, I20.setThr, measuredAll], rfl, fun _ _ => rfl, rfl⟩
        · injection ha with ha; injection ha with e1 e2; subst e1; subst e2
          refine ⟨.inl ⟨⟨i, _, mod_get _ h1, p1, oth _, p2, p3, fun h => absurd h p4⟩,
            fun h => h⟩, ?_, ?_, ?_, rfl⟩
          · simp [measuredAll, storeData_getD]
          · simp [measuredFor, measuredAll]
          · intro m hm
            simp [measuredFor, Ne.symm hm]
      · injection ha with ha; injection ha with e1 e2; subst e1; subst e2
        exact ⟨.inl ⟨⟨i, _, mod_get _ h1, p1, oth _, p2, p3, fun h => absurd h p4⟩,
          fun h => h⟩, by simp [I20.goto, I20.setThr, measuredAll], rfl, fun _ _ => rfl, rfl⟩
  · simp only [I20.tstep] at ha
    cases ht : ts[i]? with
    | none => rw [ht] at ha; cases ha
    | some v =>
      rw [ht] at ha
      obtain ⟨im, pc, dr⟩ := v
      rcases h3 i _ ht hik with hp | hp
      all_goals
        simp only at hp
        subst hp
        cases ha

/-- Fetching data. -/
theorem data_idle {d : I20.Dev} (hi : Idle d) : Idle (I20.command d .data).1 := hi

theorem data_doing {n : Nat} {d : I20.Dev} (hi : Doing n d) : Doing n (I20.command d .data).1 := by
  obtain ⟨k, t, h1, h2, h3, h4, h5, _⟩ := hi
  exact ⟨k, t, h1, h2, h3, h4, h5, fun _ => rfl⟩

/-- A measurement, at a good moment. -/
theorem measure_idle {d : I20.Dev} (hi : Idle d) :
    Idle (I20.command d .measure).1 ∧ (I20.command d .measure).1.data = d.data := by
  obtain ⟨q, u, r, dt, l, ts, cur, ex⟩ := d
  obtain ⟨h1, h2⟩ := hi
  simp only at h1 h2
  cases r with
  | true => exact ⟨⟨h1, h2⟩, rfl⟩
  | false =>
    have h0 : (ts ++ [({ isMeas := true } : I20.Thr)])[ts.length]? = some { isMeas := true } := by
      simp
    have hg := mod_get (fun t : I20.Thr => { t with doRun := true }) h0
    simp only [I20.command, I20.newThr, I20.setThr, I20.startThr, hg]
    refine ⟨⟨?_, h2⟩, rfl⟩
    intro t ht
    obtain ⟨j, hj⟩ := List.getElem?_of_mem ht
    obtain ⟨v, hv, rfl⟩ := get_mod hj
    obtain ⟨w, hw, rfl⟩ := get_mod hv
    rw [List.getElem?_append] at hw
    split at hw
    · next hlt =>
      rw [if_neg (by omega), if_neg (by omega)]
      exact h1 w (List.mem_of_getElem? hw)
    · have hm := List.mem_of_getElem? hw
      simp at hm
      subst hm
      split
      · simp [ForTask]
      · simp [ForTask]

theorem measure_doing {n : Nat} {d : I20.Dev} (hm : MayMeasure d) (hi : Doing n d) :
    I20.command d .measure = (d, [.mRefused]) := by
  obtain ⟨k, t, h1, h2, h3, h4, h5, _⟩ := hi
  have hr : d.running = true := by
    rcases hm with hm | hm
    · exact hm
    · rcases hm t (List.mem_of_getElem? h1) with h | h
      all_goals
        rw [h] at h2
        exact h2.elim
  simp [I20.command, hr]

theorem measure_good {d : I20.Dev} (hg : Good d) : Good (I20.command d .measure).1 := by
  obtain ⟨q, u, r, dt, l, ts, cur, ex⟩ := d
  obtain ⟨h1, h2⟩ := hg
  simp only at h1 h2
  cases r with
  | true => exact ⟨h1, h2⟩
  | false =>
    have h0 : (ts ++ [({ isMeas := true } : I20.Thr)])[ts.length]? = some { isMeas := true } := by
      simp
    have hg := mod_get (fun t : I20.Thr => { t with doRun := true }) h0
    simp only [I20.command, I20.newThr, I20.setThr, I20.startThr, hg]
    refine ⟨h1, ?_⟩
    intro t ht
    obtain ⟨j, hj⟩ := List.getElem?_of_mem ht
    obtain ⟨v, hv, rfl⟩ := get_mod hj
    obtain ⟨w, hw, rfl⟩ := get_mod hv
    rw [List.getElem?_append] at hw
    split at hw
    · next hlt =>
      rw [if_neg (by omega), if_neg (by omega)]
      exact h2 w (List.mem_of_getElem? hw)
    · next hlt =>
      have hj : j = ts.length := by
        have := (List.getElem?_eq_some_iff.mp hw).1
        simp at this
        omega
      subst hj
      simp at hw
      subst hw
      simp

theorem measure_events (d : I20.Dev) : measuredAll (I20.command d .measure).2 = [] ∧
    (∀ n, measuredFor (I20.command d .measure).2 n = []) ∧
    fetchedAll (I20.command d .measure).2 = [] := by
  simp only [I20.command]
  split
  · exact ⟨rfl, fun _ => rfl, rfl⟩
  · simp only [I20.startThr]
    split
    · split <;> exact ⟨rfl, fun _ => rfl, rfl⟩
    · exact ⟨rfl, fun _ => rfl, rfl⟩

/-- A task, at a good moment. -/
theorem start_good {d : I20.Dev} {n : Nat} (hg : Good d) (hm : MayStart d) :
    Good (I20.command d (.start n)).1 ∧ (I20.command d (.start n)).2 = [.accepted n] ∧
    (Idle d → d.data.getD [] = [] → Doing n (I20.command d (.start n)).1) ∧
    (I20.command d (.start n)).1.data = d.data := by
  obtain ⟨q, u, r, dt, l, ts, cur, ex⟩ := d
  obtain ⟨h1, h2⟩ := hg
  obtain ⟨⟨t, ht, hp⟩, hov⟩ := hm
  obtain ⟨im, pc, dr⟩ := t
  simp only at h1 h2 ht hp hov
  subst hp
  have him : im = false := h2 _ (List.mem_of_getElem? ht) rfl
  subst him
  have hg := mod_get (fun t : I20.Thr => { t with doRun := true }) ht
  simp only [I20.command, I20.setThr, I20.startThr, hg, if_true]
  refine ⟨⟨h1, ?_⟩, trivial, ?_, trivial⟩
  · intro t ht'
    obtain ⟨j, hj⟩ := List.getElem?_of_mem ht'
    obtain ⟨v, hv, rfl⟩ := get_mod hj
    obtain ⟨w, hw, rfl⟩ := get_mod hv
    by_cases hc : cur = j
    · subst hc
      rw [ht] at hw
      injection hw with hw
      subst hw
      simp
    · rw [if_neg hc, if_neg hc]
      exact h2 w (List.mem_of_getElem? hw)
  · rintro ⟨_, hq⟩ hd
    simp only at hq hd
    subst hq
    refine ⟨cur, _, mod_get _ hg, rfl, ?_, ?_, fun _ => Nat.succ_pos _, fun _ => hd⟩
    · intro j u hj hne
      obtain ⟨v, hv, rfl⟩ := get_mod hj
      obtain ⟨w, hw, rfl⟩ := get_mod hv
      rw [if_neg (Ne.symm hne), if_neg (Ne.symm hne)]
      exact hov w (List.mem_of_getElem? hw)
    · exact fun h => absurd rfl h

/-- A reset. -/
theorem reset_idle {d : I20.Dev} (hi : Idle d) : Idle (I20.command d .reset).1 := by
  refine ⟨?_, rfl⟩
  intro t ht
  simp only [I20.command, I20.newThr, List.mem_append, List.mem_singleton] at ht
  rcases ht with ht | rfl
  · exact hi.1 t ht
  · simp [ForTask]

theorem reset_good {d : I20.Dev} (hg : Good d) : Good (I20.command d .reset).1 := by
  refine ⟨hg.alive, ?_⟩
  intro t ht
  simp only [I20.command, I20.newThr, List.mem_append, List.mem_singleton] at ht
  rcases ht with ht | rfl
  · exact hg.fresh t ht
  · simp

theorem stop_good {d : I20.Dev} (hg : Good d) : Good (I20.command d .stop).1 := by
  refine ⟨hg.alive, ?_⟩
  intro t ht hp
  obtain ⟨j, hj⟩ := List.getElem?_of_mem ht
  obtain ⟨v, hv, rfl⟩ := get_mod hj
  have := hg.fresh v (List.mem_of_getElem? hv)
  split at hp <;> (next e => simp only [e, if_true, if_false]; exact this hp)

/-! ## The whole -/

/-- What the states of the thread and of its request say about the component. -/
inductive Stage where
  | quiet | started | running | final
  deriving DecidableEq

def stageOf (tasks : List Task) (i : Nat) (net : Net) : JobT.Pc → Stage
  | .wait .start => if net = .req .start then .quiet else .started
  | .ask .running => .started
  | .wait .running =>
    match net with
    | .ans (.reply ok st _) => if JobT.isRunning tasks[i]? ok st then .running else .started
    | _ => .started
  | .wait .status =>
    match net with
    | .ans (.reply ok st _) => if JobT.isOver tasks[i]? ok st then .final else .running
    | _ => .running
  | .wait .final =>
    match net with
    | .ans _ => .quiet
    | _ => .final
  | .due | .trigger | .ask .data | .wait .data | .ask .status | .ask .stop | .wait .stop => .running
  | .load _ .status | .trunc _ .status | .dump _ .status => .running
  | .ask .final | .load _ .final | .trunc _ .final | .dump _ .final => .final
  | _ => .quiet

def stage (s : St) : Stage := stageOf s.t.tasks s.t.i s.net s.t.pc

def StageD (i : Nat) (d : I20.Dev) : Stage → Prop
  | .quiet => Idle d ∧ d.data.getD [] = []
  | .started => Idle d ∨ Doing i d
  | .running => Idle d ∨ (Doing i d ∧ d.running = true)
  | .final => Idle d

/-- The thread has given up, or is about to. -/
def Gone (s : St) : Prop :=
  s.t.pc = .crash ∨ s.t.pc = .exited ∨ (s.net = .ans .closed ∧ ∃ q, s.t.pc = .wait q)

/-- The states of the request which belong to a position of the thread. -/
def NetT (net : Net) (pc : JobT.Pc) : Prop :=
  match pc with
  | .wait q =>
    net = .req q ∨
      (∃ a, net = .ans a ∧
        ∀ ok st ps, a = .reply ok st (some ps) → q = .data ∨ q = .final ∨ q = .stop)
  | _ => net = .idle

/-- Data points on their way from the component to the thread. -/
def flightOf (net : Net) : List Nat :=
  match net with
  | .ans (.reply true _ (some ps)) => ps
  | _ => []

structure CInv (h : List Ev) (s : St) : Prop where
  stop : s.t.pc ≠ .wait .stop
  netT : NetT s.net s.t.pc
  good : Good s.d
  stg : StageD s.t.i s.d (stage s)
  link : fetchedAll (devPart h) = JobT.delivered (thrPart h) ++ flightOf s.net
  pts : measuredAll (devPart h) = fetchedAll (devPart h) ++ s.d.data.getD []
  own : measuredAll (devPart h) =
    (JobT.starts (thrPart h)).flatMap (measuredFor (devPart h))
  own' : ∀ n, n ∉ JobT.starts (thrPart h) → measuredFor (devPart h) n = []

theorem thrPart_append (h es : List Ev) : thrPart (h ++ es) = thrPart h ++ thrPart es :=
  List.filterMap_append
theorem devPart_append (h es : List Ev) : devPart (h ++ es) = devPart h ++ devPart es :=
  List.filterMap_append
theorem thrPart_dev (es : List I20.Ev) : thrPart (es.map .dev) = [] := by
  induction es with
  | nil => rfl
  | cons e es ih => exact ih
theorem devPart_dev (es : List I20.Ev) : devPart (es.map .dev) = es := by
  induction es with
  | nil => rfl
  | cons e es ih => exact congrArg (e :: ·) ih
theorem measuredAll_append (h es : List I20.Ev) :
    measuredAll (h ++ es) = measuredAll h ++ measuredAll es := List.flatMap_append
theorem fetchedAll_append (h es : List I20.Ev) :
    fetchedAll (h ++ es) = fetchedAll h ++ fetchedAll es := List.flatMap_append
theorem measuredFor_append (h es : List I20.Ev) (n : Nat) :
    measuredFor (h ++ es) n = measuredFor h n ++ measuredFor es n := List.flatMap_append

/-- The driver does not touch the thread. -/
theorem take_t (s : St) (q : JobT.Q) (acc : Bool) : (take s q acc).1.t = s.t := by
  cases q
  case start => cases acc <;> rfl
  all_goals rfl

/-- What happens to the thread is a history of the thread. -/
theorem thr_hist {P : St → Act → Prop} {tasks : List Task} {d₀ : I20.Dev} {h : List Ev} {s : St}
    (hh : Hist P tasks d₀ h s) :
    JobT.THist tasks (thrPart h) s.t := by
  induction hh with
  | init => exact .init
  | @step h s s' es a hh _ ha ih =>
    rw [thrPart_append]
    have key : ∀ c n, thrStep s c n = some (s', es) →
        JobT.THist tasks (thrPart h ++ thrPart es) s'.t := by
      intro c n hs
      simp only [thrStep] at hs
      split at hs
      · cases hs
      · next t' e ht =>
        injection hs with hs; injection hs with h1 h2; subst h1; subst h2
        exact .step c ih ht
    cases a with
    | thr c =>
      simp only [act] at ha
      split at ha
      · split at ha
        · exact key _ _ ha
        · cases ha
      · exact key _ _ ha
      · exact key _ _ ha
    | tell ns =>
      injection ha with ha; injection ha with h1 h2; subst h1; subst h2
      rw [show thrPart [] = [] from rfl, List.append_nil]
      exact .push ns ih
    | take acc =>
      simp only [act] at ha
      split at ha
      · next q hq =>
        split at ha
        · cases ha
        · injection ha with ha; injection ha with h1 h2; subst h1; subst h2
          rw [thrPart_dev, List.append_nil, take_t]
          exact ih
      · cases ha
    | work i c =>
      simp only [act] at ha
      split at ha
      · cases ha
      · split at ha
        · cases ha
        · injection ha with ha; injection ha with h1 h2; subst h1; subst h2
          rw [thrPart_dev, List.append_nil]
          exact ih
    | measure =>
      simp only [act] at ha
      split at ha
      · cases ha
      · injection ha with ha; injection ha with h1 h2; subst h1; subst h2
        rw [thrPart_dev, List.append_nil]
        exact ih
    | lose =>
      simp only [act] at ha
      split at ha
      · cases ha
      · injection ha with ha; injection ha with h1 h2; subst h1; subst h2
        rw [show thrPart [] = [] from rfl, List.append_nil]
        exact ih

/-- A step of the thread. -/
theorem cinv_thr {P : St → Act → Prop} {tasks : List Task} {d₀ : I20.Dev} {h : List Ev} {s s' : St} {c : JobT.Choice} {es : List Ev}
    (hh : Hist P tasks d₀ h s) (hi : CInv h s)
    (ha : act s (.thr c) = some (s', es)) (hn : ∀ i, .sent i .stop ∉ thrPart (h ++ es))
    (hg : ¬ Gone s') : CInv (h ++ es) s' := by
  have ht := JobT.tinv (thr_hist hh)
  have hf := JobT.fileOK (thr_hist hh)
  have hs := ht.sent
  obtain ⟨⟨tk, i, pc, cur, names, noList, crashed, file⟩, d, net⟩ := s
  obtain ⟨h1, h2, h4, h5, h6, h7, h8, h9⟩ := hi
  simp only at h1 h2 h4 h5 h6 h7 h8 h9 hs
  have quick : ∀ (t' : JobT.Thr) (e : JobT.Ev) (n' : Net), t'.pc ≠ .wait .stop → NetT n' t'.pc →
      StageD t'.i d (stage ⟨t', d, n'⟩) → JobT.starts [e] = [] →
      flightOf net = JobT.delivered [e] ++ flightOf n' →
      CInv (h ++ [.thr e]) ⟨t', d, n'⟩ := by
    intro t' e n' q1 q2 q4 q5 q6
    have e1 : devPart (h ++ [.thr e]) = devPart h := by
      rw [devPart_append]; exact List.append_nil _
    have e2 : thrPart (h ++ [.thr e]) = thrPart h ++ [e] := by
      rw [thrPart_append]; rfl
    refine ⟨q1, q2, h4, q4, ?_, ?_, ?_, ?_⟩
    · rw [e1, e2, JobT.delivered_snoc, h6, List.append_assoc]
      exact congrArg (JobT.delivered (thrPart h) ++ ·) q6
    · rw [e1]; exact h7
    · rw [e1, e2, JobT.starts_snoc, q5, List.append_nil]; exact h8
    · rw [e1, e2, JobT.starts_snoc, q5, List.append_nil]; exact h9
  cases pc with
  | wait q =>
    simp only [act] at ha
    cases net with
    | ans a =>
      simp only [thrStep, JobT.tstep] at ha
      injection ha with ha; injection ha with e1 e2; subst e1; subst e2
      cases a with
      | closed => exact absurd (.inl rfl) hg
      | reply ok st ps =>
        simp only [NetT, reduceCtorEq, false_or] at h2
        obtain ⟨_, ha', h2⟩ := h2
        injection ha' with ha'; subst ha'
        have hps : q ≠ .data → q ≠ .final → ps = none := by
          intro n1 n2
          cases ps with
          | none => rfl
          | some ps =>
            rcases h2 _ _ _ rfl with r | r | r
            · contradiction
            · contradiction
            · subst r; exact absurd rfl h1
        cases q with
        | ready =>
          cases hps (by simp) (by simp)
          have hst : StageD i d .quiet := h5
          cases st with
          | none =>
            refine quick _ _ _ ?_ ?_ ?_ rfl ?_
            all_goals simp [JobT.next, NetT, stage, stageOf, hst, JobT.delivered, flightOf]
          | some sd =>
            by_cases hk : ok = true ∧ sd.canSubmit = true
            all_goals
              refine quick _ _ _ ?_ ?_ ?_ rfl ?_
              all_goals simp [JobT.next, hk, NetT, stage, stageOf, hst, JobT.delivered, flightOf]
        | start =>
          cases hps (by simp) (by simp)
          have hst : StageD i d .started := h5
          refine quick _ _ _ ?_ ?_ ?_ rfl ?_
          all_goals simp [JobT.next, NetT, stage, stageOf, hst, JobT.delivered, flightOf]
        | running =>
          cases hps (by simp) (by simp)
          simp only [stage, stageOf] at h5
          by_cases hr : JobT.isRunning tk[i]? ok st = true
          · rw [if_pos hr] at h5
            refine quick _ _ _ ?_ ?_ ?_ rfl ?_
            all_goals simp [JobT.next, hr, NetT, stage, stageOf, h5, JobT.delivered, flightOf]
          · rw [if_neg hr] at h5
            by_cases hl : c.late = true
            · refine absurd (.inl ?_) hg
              simp [JobT.next, hr, hl]
            · refine quick _ _ _ ?_ ?_ ?_ rfl ?_
              all_goals
                simp [JobT.next, hr, hl, NetT, stage, stageOf, h5, JobT.delivered, flightOf]
        | data =>
          have hst : StageD i d .running := h5
          cases ok <;> cases ps
          all_goals
            refine quick _ _ _ ?_ ?_ ?_ rfl ?_
            all_goals
              simp [JobT.next, JobT.store, NetT, stage, stageOf, hst, JobT.delivered, flightOf]
        | status =>
          cases hps (by simp) (by simp)
          simp only [stage, stageOf] at h5
          by_cases hr : JobT.isOver tk[i]? ok st = true
          · rw [if_pos hr] at h5
            refine quick _ _ _ ?_ ?_ ?_ rfl ?_
            all_goals simp [JobT.next, hr, NetT, stage, stageOf, h5, JobT.delivered, flightOf]
          · rw [if_neg hr] at h5
            refine quick _ _ _ ?_ ?_ ?_ rfl ?_
            all_goals simp [JobT.next, hr, NetT, stage, stageOf, h5, JobT.delivered, flightOf]
        | stop => exact absurd rfl h1
        | final =>
          have hst : StageD i d .quiet := h5
          cases ok <;> cases ps
          all_goals
            refine quick _ _ _ ?_ ?_ ?_ rfl ?_
            all_goals
              simp [JobT.next, JobT.store, NetT, stage, stageOf, hst, JobT.delivered, flightOf]
        | reset =>
          cases hps (by simp) (by simp)
          have hst : StageD i d .quiet := h5
          refine quick _ _ _ ?_ ?_ ?_ rfl ?_
          all_goals simp [JobT.next, NetT, stage, stageOf, hst, JobT.delivered, flightOf]
    | _ => cases ha
  | ask q =>
    have hnet : net = .idle := h2
    subst hnet
    simp only [act, thrStep, JobT.tstep] at ha
    injection ha with ha; injection ha with e1 e2; subst e1; subst e2
    have hns : q ≠ .stop := by
      rintro rfl
      apply hn i
      rw [thrPart_append]
      simp [thrPart]
    by_cases hq : q = .start
    · subst hq
      have hst : StageD i d .quiet := h5
      have e1 : devPart (h ++ [.thr (.sent i .start)]) = devPart h := by
        rw [devPart_append]; exact List.append_nil _
      have e2 : thrPart (h ++ [.thr (.sent i .start)]) = thrPart h ++ [.sent i .start] := by
        rw [thrPart_append]; rfl
      have hs' : JobT.starts (thrPart h) = List.range i := hs.1
      have hi' : i ∉ JobT.starts (thrPart h) := by rw [hs']; simp
      have e3 : JobT.starts (thrPart h ++ [.sent i .start]) = JobT.starts (thrPart h) ++ [i] := by
        rw [JobT.starts_snoc]; rfl
      refine ⟨by simp, .inl rfl, h4, ?_, ?_, ?_, ?_, ?_⟩
      · simpa [stage, stageOf] using hst
      · rw [e1, e2, JobT.delivered_snoc, h6]
        simp [flightOf, JobT.delivered]
      · rw [e1]; exact h7
      · rw [e1, e2, e3, List.flatMap_append, ← h8]
        simp [h9 i hi']
      · rw [e1, e2, e3]
        intro n hn'
        exact h9 n (fun h => hn' (by simp [h]))
    · refine quick _ _ _ ?_ (.inl rfl) ?_ ?_ rfl
      · simpa using hns
      · cases q
        case start => exact absurd rfl hq
        case stop => exact absurd rfl hns
        all_goals simpa [stage, stageOf] using h5
      · cases q <;> first | rfl | exact absurd rfl hq
  | crash => exact absurd (by simp only [act, thrStep, JobT.tstep] at ha; injection ha with ha; injection ha with e1 e2; subst e1; exact .inr (.inl rfl)) hg
  | fin => cases ha
  | exited => cases ha
  | dead => cases ha
  | cur =>
    have hnet : net = .idle := h2
    subst hnet
    cases hk : tk[i]?
    all_goals
      simp only [act, thrStep, JobT.tstep, hk] at ha
      injection ha with ha; injection ha with e1 e2; subst e1; subst e2
      refine quick _ _ _ ?_ ?_ ?_ rfl rfl
      all_goals first
        | exact h5
        | simp [NetT]
  | hold =>
    have hnet : net = .idle := h2
    subst hnet
    cases hk : JobT.met (tk[i]?.bind (·.startWith)) names
    all_goals
      simp only [act, thrStep, JobT.tstep, hk, if_true, Bool.false_eq_true, if_false] at ha
      injection ha with ha; injection ha with e1 e2; subst e1; subst e2
      refine quick _ _ _ ?_ ?_ ?_ rfl rfl
      all_goals first
        | exact h5
        | simp [NetT]
  | due =>
    have hnet : net = .idle := h2
    subst hnet
    cases hk : c.due
    all_goals
      simp only [act, thrStep, JobT.tstep, hk, if_true, Bool.false_eq_true, if_false] at ha
      injection ha with ha; injection ha with e1 e2; subst e1; subst e2
      refine quick _ _ _ ?_ ?_ ?_ rfl rfl
      all_goals first
        | exact h5
        | simp [NetT]
  | trigger =>
    have hnet : net = .idle := h2
    subst hnet
    cases hk : JobT.hit (tk[i]?.bind (·.stopWith)) names
    all_goals
      simp only [act, thrStep, JobT.tstep, hk, if_true, Bool.false_eq_true, if_false] at ha
      injection ha with ha; injection ha with e1 e2; subst e1; subst e2
      refine quick _ _ _ ?_ ?_ ?_ rfl rfl
      all_goals first
        | exact h5
        | simp [NetT]
  | append =>
    have hnet : net = .idle := h2
    subst hnet
    cases hk : noList
    all_goals
      simp only [act, thrStep, JobT.tstep, hk, if_true, Bool.false_eq_true, if_false] at ha
      injection ha with ha; injection ha with e1 e2; subst e1; subst e2
      refine quick _ _ _ ?_ ?_ ?_ rfl rfl
      all_goals first
        | exact h5
        | simp [NetT]
  | unset =>
    have hnet : net = .idle := h2
    subst hnet
    simp only [act, thrStep, JobT.tstep] at ha
    injection ha with ha; injection ha with e1 e2; subst e1; subst e2
    refine quick _ _ _ ?_ ?_ ?_ rfl rfl
    all_goals first
      | exact h5
      | simp [NetT]
  | load ps n =>
    have hnet : net = .idle := h2
    subst hnet
    have hfb : file ≠ .broken := hf.1
    have ht' : JobT.tstep ⟨tk, i, .load ps n, cur, names, noList, crashed, file⟩ c =
        some (⟨tk, i, .trunc (file.content ++ ps) n, cur, names, noList, crashed, file⟩, .tau) := by
      cases file with
      | broken => exact absurd rfl hfb
      | _ => rfl
    simp only [act, thrStep, ht'] at ha
    injection ha with ha; injection ha with e1 e2; subst e1; subst e2
    refine quick _ _ _ ?_ ?_ ?_ rfl rfl
    · simp
    · simp [NetT]
    · cases n <;> exact h5
  | trunc ps n =>
    have hnet : net = .idle := h2
    subst hnet
    simp only [act, thrStep, JobT.tstep] at ha
    injection ha with ha; injection ha with e1 e2; subst e1; subst e2
    refine quick _ _ _ ?_ ?_ ?_ rfl rfl
    · simp
    · simp [NetT]
    · cases n <;> exact h5
  | dump ps n =>
    have hnet : net = .idle := h2
    subst hnet
    simp only [act, thrStep, JobT.tstep] at ha
    injection ha with ha; injection ha with e1 e2; subst e1; subst e2
    refine quick _ _ _ ?_ ?_ ?_ rfl rfl
    · cases n <;> simp [JobT.Nxt.pc]
    · cases n <;> simp [NetT, JobT.Nxt.pc]
    · cases n <;> exact h5

theorem thr_eq {s s' : St} {c : JobT.Choice} {es : List Ev} (ha : act s (.thr c) = some (s', es)) :
    ∃ c' n e, thrStep s c' n = some (s', es) ∧ es = [.thr e] ∧ JobT.tstep s.t c' = some (s'.t, e) ∧
      (∀ q, s.t.pc = .wait q → s.net = .ans c'.ans) := by
  have key : ∀ c' n, thrStep s c' n = some (s', es) →
      ∃ e, es = [.thr e] ∧ JobT.tstep s.t c' = some (s'.t, e) := by
    intro c' n hs
    simp only [thrStep] at hs
    cases ht : JobT.tstep s.t c' with
    | none => rw [ht] at hs; cases hs
    | some r =>
      obtain ⟨t', e⟩ := r
      rw [ht] at hs
      injection hs with hs; injection hs with h1 h2; subst h1; subst h2
      exact ⟨e, rfl, rfl⟩
  simp only [act] at ha
  cases hpc : s.t.pc with
  | wait q =>
    rw [hpc] at ha
    cases hnet : s.net with
    | ans a =>
      rw [hnet] at ha
      obtain ⟨e, h1, h2⟩ := key _ _ ha
      exact ⟨_, _, e, ha, h1, h2, fun _ _ => rfl⟩
    | _ => rw [hnet] at ha; cases ha
  | _ =>
    rw [hpc] at ha
    obtain ⟨e, h1, h2⟩ := key _ _ ha
    exact ⟨_, _, e, ha, h1, h2, fun _ h => by cases h⟩

/-- Nothing is delivered to a thread which has given up, or is giving up. -/
theorem gone_step {s s' : St} {a : Act} {es : List Ev} (ha : act s a = some (s', es)) :
    (Gone s → Gone s') ∧ (Gone s' → JobT.delivered (thrPart es) = []) := by
  have same : ∀ es' : List I20.Ev, thrPart (es'.map .dev) = [] := thrPart_dev
  cases a with
  | thr c =>
    obtain ⟨c', n, e, h1, rfl, h3, h4⟩ := thr_eq ha
    refine ⟨?_, ?_⟩
    · rintro (h | h | ⟨h, q, hq⟩)
      · simp only [JobT.tstep, h] at h3
        injection h3 with h3; injection h3 with h3 _
        exact .inr (.inl (by rw [← h3]))
      · simp only [JobT.tstep, h] at h3
        cases h3
      · have := h4 q hq
        rw [h] at this
        injection this with this
        simp only [JobT.tstep, hq, ← this] at h3
        injection h3 with h3; injection h3 with h3 _
        exact .inl (by rw [← h3]; rfl)
    · intro hg
      change JobT.delivered [e] = []
      cases hpc : s.t.pc with
      | wait q =>
        simp only [JobT.tstep, hpc] at h3
        injection h3 with h3; injection h3 with h3 h5
        subst h5
        have hg' : JobT.next s.t.tasks[s.t.i]? q c'.ans c'.late = .crash := by
          rcases hg with h | h | ⟨_, q', h⟩
          · rw [← h3] at h; exact h
          · rw [← h3] at h; exact absurd h JobT.next_ne.1
          · rw [← h3] at h; exact absurd h (JobT.next_ne.2.2 q')
        cases ha' : c'.ans with
        | closed => cases q <;> rfl
        | reply ok st ps =>
          rw [ha'] at hg'
          cases q
          case data => cases ok <;> cases ps <;> simp [JobT.next, JobT.store] at hg'
          case stop => cases ok <;> cases ps <;> simp [JobT.next, JobT.store] at hg'
          case final => cases ok <;> cases ps <;> simp [JobT.next, JobT.store] at hg'
          all_goals rfl
      | _ =>
        simp only [JobT.tstep, hpc] at h3
        (try split at h3)
        all_goals first
          | cases h3
          | (injection h3 with h3; injection h3 with h3 h5; subst h5; rfl)
  | tell ns =>
    injection ha with ha; injection ha with h1 h2; subst h1; subst h2
    exact ⟨fun h => h, fun _ => rfl⟩
  | take acc =>
    simp only [act] at ha
    cases hnet : s.net with
    | req q =>
      rw [hnet] at ha
      simp only at ha
      split at ha
      · cases ha
      · injection ha with ha; injection ha with h1 h2; subst h1; subst h2
        refine ⟨?_, fun _ => by rw [same]; rfl⟩
        rintro (h | h | ⟨h, _⟩)
        · exact .inl (by rw [take_t]; exact h)
        · exact .inr (.inl (by rw [take_t]; exact h))
        · rw [hnet] at h; cases h
    | _ => rw [hnet] at ha; cases ha
  | work i c =>
    simp only [act] at ha
    split at ha
    · cases ha
    · split at ha
      · cases ha
      · injection ha with ha; injection ha with h1 h2; subst h1; subst h2
        exact ⟨fun h => h, fun _ => by rw [same]; rfl⟩
  | measure =>
    simp only [act] at ha
    split at ha
    · cases ha
    · injection ha with ha; injection ha with h1 h2; subst h1; subst h2
      exact ⟨fun h => h, fun _ => by rw [same]; rfl⟩
  | lose =>
    simp only [act] at ha
    split at ha
    · cases ha
    · injection ha with ha; injection ha with h1 h2; subst h1; subst h2
      refine ⟨?_, fun _ => rfl⟩
      rintro (h | h | ⟨_, hq⟩)
      · exact .inl h
      · exact .inr (.inl h)
      · exact .inr (.inr ⟨rfl, hq⟩)

theorem stage_cls {tasks : List Task} {i : Nat} {net : Net} {pc : JobT.Pc}
    (hk : stageOf tasks i net pc = .started ∨ stageOf tasks i net pc = .running) :
    JobT.cls pc = .mid := by
  revert hk
  cases pc with
  | ask q => cases q <;> simp [stageOf, JobT.cls]
  | wait q =>
    cases q <;> simp [stageOf, JobT.cls]
    cases net <;> simp
  | load _ n => cases n <;> simp [stageOf, JobT.cls]
  | trunc _ n => cases n <;> simp [stageOf, JobT.cls]
  | dump _ n => cases n <;> simp [stageOf, JobT.cls]
  | _ => simp [stageOf, JobT.cls]

/-- The other actions do not concern the thread's own state; what remains is said about the
component and the request. -/
theorem cinv_dev {P : St → Act → Prop} {tasks : List Task} {d₀ : I20.Dev} {h : List Ev} {s : St}
    {d' : I20.Dev} {n' : Net} {es : List I20.Ev} (hh : Hist P tasks d₀ h s) (hi : CInv h s)
    (hp : s.d.data.getD [] ++ measuredAll es = fetchedAll es ++ d'.data.getD [])
    (hm : (measuredAll es = [] ∧ ∀ n, measuredFor es n = []) ∨
      ((stage s = .started ∨ stage s = .running) ∧ measuredFor es s.t.i = measuredAll es ∧
        ∀ m, m ≠ s.t.i → measuredFor es m = []))
    (h2 : NetT n' s.t.pc) (hg : Good d')
    (h5 : StageD s.t.i d' (stageOf s.t.tasks s.t.i n' s.t.pc))
    (h6 : flightOf s.net ++ fetchedAll es = flightOf n') :
    CInv (h ++ es.map .dev) ⟨s.t, d', n'⟩ := by
  have hs := (JobT.tinv (thr_hist hh)).sent
  have e1 : thrPart (h ++ es.map .dev) = thrPart h := by
    rw [thrPart_append, thrPart_dev, List.append_nil]
  have e2 : devPart (h ++ es.map .dev) = devPart h ++ es := by
    rw [devPart_append, devPart_dev]
  have hown : measuredAll (devPart h ++ es) =
        (JobT.starts (thrPart h)).flatMap (measuredFor (devPart h ++ es)) ∧
      ∀ n, n ∉ JobT.starts (thrPart h) → measuredFor (devPart h ++ es) n = [] := by
    rcases hm with ⟨k1, k2⟩ | ⟨hk, m1, m2⟩
    · have k3 : measuredFor (devPart h ++ es) = measuredFor (devPart h) := by
        funext n
        rw [measuredFor_append, k2, List.append_nil]
      rw [measuredAll_append, k1, k3, List.append_nil]
      exact ⟨hi.own, hi.own'⟩
    · have hcls := stage_cls hk
      rw [hcls] at hs
      have hst : JobT.starts (thrPart h) = List.range (s.t.i + 1) := hs.1
      have o1 := hi.own
      have o2 := hi.own'
      rw [hst] at o1 o2 ⊢
      have key : ∀ m, m ≠ s.t.i →
          measuredFor (devPart h ++ es) m = measuredFor (devPart h) m := by
        intro m hm'
        rw [measuredFor_append, m2 m hm', List.append_nil]
      refine ⟨?_, ?_⟩
      · rw [measuredAll_append, o1, List.range_succ, List.flatMap_append, List.flatMap_append]
        have : (List.range s.t.i).flatMap (measuredFor (devPart h ++ es)) =
            (List.range s.t.i).flatMap (measuredFor (devPart h)) := by
          rw [List.flatMap_def, List.flatMap_def]
          congr 1
          apply List.map_congr_left
          intro m hm'
          exact key m (by have := List.mem_range.mp hm'; omega)
        rw [this]
        simp [measuredFor_append, m1]
      · intro m hm'
        rw [key m (fun e => hm' (by simp [e]))]
        exact o2 m hm'
  refine ⟨hi.stop, h2, hg, h5, ?_, ?_, ?_, ?_⟩
  · rw [e1, e2, fetchedAll_append, hi.link, List.append_assoc, h6]
  · rw [e2, measuredAll_append, fetchedAll_append, hi.pts, List.append_assoc, hp,
      List.append_assoc]
  · rw [e1, e2]; exact hown.1
  · rw [e1, e2]; exact hown.2

theorem cinv_work {P : St → Act → Prop} {tasks : List Task} {d₀ : I20.Dev} {h : List Ev}
    {s s' : St} {i : Nat} {c : I20.Choice} {es : List Ev}
    (hh : Hist P tasks d₀ h s) (hi : CInv h s) (ha : act s (.work i c) = some (s', es)) :
    CInv (h ++ es) s' := by
  simp only [act] at ha
  split at ha
  · cases ha
  cases hw : I20.tstep s.d i c with
  | none => rw [hw] at ha; cases ha
  | some r =>
    obtain ⟨d', es'⟩ := r
    rw [hw] at ha
    injection ha with ha; injection ha with e1 e2; subst e1; subst e2
    have hg := good_tstep hi.good hw
    have hst := hi.stg
    have idle : Idle s.d → StageD s.t.i d' (stage s) → CInv (h ++ es'.map .dev) ⟨s.t, d', s.net⟩ := by
      intro hid hst'
      obtain ⟨w1, w2, w3, w4, w5⟩ := work_idle hid hw
      refine cinv_dev hh hi ?_ (.inl ⟨w3, w4⟩) hi.netT hg hst' ?_
      · rw [w2, w3, w5, List.append_nil]; rfl
      · rw [w5, List.append_nil]
    have doing : (stage s = .started ∨ stage s = .running) → Doing s.t.i s.d →
        StageD s.t.i d' (stage s) → CInv (h ++ es'.map .dev) ⟨s.t, d', s.net⟩ := by
      intro hk hid hst'
      obtain ⟨w1, w2, w3, w4, w5⟩ := work_doing hid hw
      refine cinv_dev hh hi ?_ (.inr ⟨hk, w3, w4⟩) hi.netT hg hst' ?_
      · rw [w2, w5]; rfl
      · rw [w5, List.append_nil]
    cases hk : stage s with
    | quiet =>
      rw [hk] at hst
      refine idle hst.1 ?_
      rw [hk]
      obtain ⟨w1, w2, -⟩ := work_idle hst.1 hw
      exact ⟨w1, by rw [w2]; exact hst.2⟩
    | final =>
      rw [hk] at hst
      refine idle hst ?_
      rw [hk]
      exact (work_idle hst hw).1
    | started =>
      rw [hk] at hst
      rcases hst with hst | hst
      · refine idle hst ?_
        rw [hk]
        exact .inl (work_idle hst hw).1
      · refine doing (.inl hk) hst ?_
        rw [hk]
        rcases (work_doing hst hw).1 with h | h
        · exact .inr h.1
        · exact .inl h
    | running =>
      rw [hk] at hst
      rcases hst with hst | ⟨hst, hr⟩
      · refine idle hst ?_
        rw [hk]
        exact .inl (work_idle hst hw).1
      · refine doing (.inr hk) hst ?_
        rw [hk]
        rcases (work_doing hst hw).1 with h | h
        · exact .inr ⟨h.1, h.2 hr⟩
        · exact .inl h

theorem cinv_measure {P : St → Act → Prop} {tasks : List Task} {d₀ : I20.Dev} {h : List Ev}
    {s s' : St} {es : List Ev} (hh : Hist P tasks d₀ h s) (hi : CInv h s)
    (hm : MayMeasure s.d) (ha : act s .measure = some (s', es)) :
    CInv (h ++ es) s' := by
  simp only [act] at ha
  split at ha
  · cases ha
  injection ha with ha; injection ha with e1 e2; subst e1; subst e2
  have hst := hi.stg
  obtain ⟨m1, m2, m3⟩ := measure_events s.d
  have hdata : s.d.data = (I20.command s.d .measure).1.data := by
    simp only [I20.command]
    split
    · rfl
    · simp only [I20.startThr]
      split
      · split <;> rfl
      · rfl
  refine cinv_dev hh hi ?_ (.inl ⟨m1, m2⟩) hi.netT (measure_good hi.good) ?_ ?_
  · rw [m1, m3, ← hdata, List.append_nil]; rfl
  · change StageD s.t.i _ (stage s)
    cases hk : stage s with
    | quiet =>
      rw [hk] at hst
      exact ⟨(measure_idle hst.1).1, by rw [← hdata]; exact hst.2⟩
    | final => rw [hk] at hst; exact (measure_idle hst).1
    | started =>
      rw [hk] at hst
      rcases hst with hst | hst
      · exact .inl (measure_idle hst).1
      · rw [measure_doing hm hst]; exact .inr hst
    | running =>
      rw [hk] at hst
      rcases hst with hst | hst
      · exact .inl (measure_idle hst).1
      · rw [measure_doing hm hst.1]; exact .inr hst
  · rw [m3, List.append_nil]

theorem cinv_take {P : St → Act → Prop} {tasks : List Task} {d₀ : I20.Dev} {h : List Ev}
    {s s' : St} {acc : Bool} {es : List Ev} (hh : Hist P tasks d₀ h s) (hi : CInv h s)
    (hm : Careful s (.take acc)) (ha : act s (.take acc) = some (s', es)) :
    CInv (h ++ es) s' := by
  simp only [act] at ha
  cases hnet : s.net with
  | req q =>
    rw [hnet] at ha
    simp only at ha
    split at ha
    · cases ha
    · injection ha with ha; injection ha with e1 e2; subst e1; subst e2
      have hpc : s.t.pc = .wait q := by
        have hT := hi.netT
        rw [hnet] at hT
        cases hpc : s.t.pc with
        | wait q' =>
          rw [hpc] at hT
          simp [NetT] at hT
          rw [hT]
        | _ => rw [hpc] at hT; cases hT
      have hst : StageD s.t.i s.d (stageOf s.t.tasks s.t.i s.net s.t.pc) := hi.stg
      rw [hnet, hpc] at hst
      have hfl : flightOf s.net = [] := by rw [hnet]; rfl
      -- a reply without a step of the component
      have quick : ∀ a : JobT.Ans, (∀ ok st ps, a = .reply ok st (some ps) →
            q = .data ∨ q = .final ∨ q = .stop) →
          StageD s.t.i s.d (stageOf s.t.tasks s.t.i (.ans a) (.wait q)) →
          flightOf (.ans a) = [] → CInv (h ++ []) { s with net := .ans a } := by
        intro a q1 q2 q3
        rw [List.append_nil]
        refine ⟨hi.stop, ?_, hi.good, ?_, ?_, hi.pts, hi.own, hi.own'⟩
        · rw [hpc]; exact .inr ⟨a, rfl, q1⟩
        · simp only [stage, hpc]; exact q2
        · rw [hi.link, hfl, q3]
      have hal : s.d.exited = false := hi.good.alive
      cases q with
      | ready => exact quick _ (by simp [status]) hst rfl
      | running =>
        refine quick _ (by simp [status]) ?_ rfl
        have hst' : Idle s.d ∨ Doing s.t.i s.d := hst
        simp only [status, stageOf]
        cases hr : s.d.running with
        | false => simpa [JobT.isRunning, StageD] using hst'
        | true =>
          rcases hst' with h | h
          · simpa [JobT.isRunning, JobT.SD.wrong, StageD] using .inl h
          · simpa [JobT.isRunning, JobT.SD.wrong, StageD] using .inr ⟨h, hr⟩
      | status =>
        refine quick _ (by simp [status]) ?_ rfl
        have hst' : Idle s.d ∨ (Doing s.t.i s.d ∧ s.d.running = true) := hst
        simp only [status, stageOf]
        rcases hst' with hst' | hst'
        · generalize JobT.isOver _ _ _ = b
          cases b with
          | true => exact hst'
          | false => exact .inl hst'
        · rw [hst'.2]
          simpa [JobT.isOver, JobT.SD.wrong, StageD] using .inr hst'
      | start =>
        have hst' : Idle s.d ∧ s.d.data.getD [] = [] := hst
        cases acc with
        | false => exact quick _ (by simp) (.inl hst'.1) rfl
        | true =>
          obtain ⟨g1, g2, g3, g4⟩ := start_good (n := s.t.i) hi.good (hm hnet)
          have e : take s .start true = (⟨s.t, (I20.command s.d (.start s.t.i)).1,
              .ans (.reply true none none)⟩, (I20.command s.d (.start s.t.i)).2) := by
            simp [take, via, g1.alive]
          rw [e]
          refine cinv_dev hh hi ?_ (.inl ?_) ?_ g1 ?_ ?_
          · rw [g2, g4]
            simp [measuredAll, fetchedAll]
          · rw [g2]; exact ⟨rfl, fun _ => rfl⟩
          · rw [hpc]; exact .inr ⟨_, rfl, by simp⟩
          · rw [hpc]; exact .inr (g3 hst'.1 hst'.2)
          · rw [hfl, g2]; rfl
      | data =>
        have e : take s .data acc = (⟨s.t, (I20.command s.d .data).1,
            .ans (.reply s.d.data.isSome none s.d.data)⟩, [.delivered s.d.data]) := by
          simp [take, via, I20.command, hal]
        rw [e]
        refine cinv_dev hh hi ?_ (.inl ⟨rfl, fun _ => rfl⟩) ?_ ⟨hi.good.alive, hi.good.fresh⟩ ?_ ?_
        · simp [measuredAll, fetchedAll, I20.command]
        · rw [hpc]; exact .inr ⟨_, rfl, by simp⟩
        · rw [hpc]
          rcases hst with h | h
          · exact .inl h
          · exact .inr ⟨data_doing h.1, h.2⟩
        · rw [hfl]
          cases s.d.data <;> simp [fetchedAll, flightOf]
      | final =>
        have e : take s .final acc = (⟨s.t, (I20.command s.d .data).1,
            .ans (.reply s.d.data.isSome none s.d.data)⟩, [.delivered s.d.data]) := by
          simp [take, via, I20.command, hal]
        rw [e]
        refine cinv_dev hh hi ?_ (.inl ⟨rfl, fun _ => rfl⟩) ?_ ⟨hi.good.alive, hi.good.fresh⟩ ?_ ?_
        · simp [measuredAll, fetchedAll, I20.command]
        · rw [hpc]; exact .inr ⟨_, rfl, by simp⟩
        · rw [hpc]
          exact ⟨hst, rfl⟩
        · rw [hfl]
          cases s.d.data <;> simp [fetchedAll, flightOf]
      | reset =>
        have hst' : Idle s.d ∧ s.d.data.getD [] = [] := hst
        have e : take s .reset acc = (⟨s.t, (I20.command s.d .reset).1,
            .ans (.reply true none none)⟩, [.wasReset]) := by
          simp [take, via, I20.command, I20.newThr, hal]
        rw [e]
        refine cinv_dev hh hi ?_ (.inl ⟨rfl, fun _ => rfl⟩) ?_ (reset_good hi.good) ?_ ?_
        · rw [hst'.2]; rfl
        · rw [hpc]; exact .inr ⟨_, rfl, by simp⟩
        · rw [hpc]
          exact ⟨reset_idle hst'.1, rfl⟩
        · rw [hfl]; rfl
      | stop => exact absurd hpc hi.stop
  | _ => rw [hnet] at ha; cases ha

/-- A thread of the component which is prepared is one for tasks, in all histories. -/
theorem fresh_hist {hd : List I20.Ev} {d : I20.Dev} (hh : I20.Hist hd d) :
    ∀ t ∈ d.threads, t.pc = .fresh → t.isMeas = false := by
  induction hh with
  | init => intro t ht; simp [I20.Dev.init] at ht; subst ht; simp
  | @step h d d' es a _ ha ih =>
    simp only [I20.act] at ha
    split at ha
    · cases ha
    · next hex =>
      have hg : Good d := ⟨by simpa using hex, ih⟩
      cases a with
      | thread i c => exact (good_tstep hg ha).fresh
      | cmd c =>
        have e1 : (I20.command d c).1 = d' := congrArg Prod.fst (Option.some.inj ha)
        subst e1
        cases c with
        | start n =>
          have key : ∀ f : I20.Thr → I20.Thr, (∀ t, (f t).pc = .fresh → t.pc = .fresh ∧
              (f t).isMeas = t.isMeas) → ∀ ts : List I20.Thr, (∀ t ∈ ts, t.pc = .fresh → t.isMeas = false) →
              ∀ k, ∀ t ∈ ts.modify k f, t.pc = .fresh → t.isMeas = false := by
            intro f hf ts hts k t ht hp
            obtain ⟨j, hj⟩ := List.getElem?_of_mem ht
            obtain ⟨v, hv, rfl⟩ := get_mod hj
            have hv' := List.mem_of_getElem? hv
            split at hp
            · next e =>
              rw [if_pos e, (hf v hp).2]
              exact hts v hv' (hf v hp).1
            · next e =>
              rw [if_neg e]
              exact hts v hv' hp
          have k1 := key (fun t => { t with doRun := true }) (fun t h => ⟨h, rfl⟩) _ ih d.cur
          simp only [I20.command, I20.setThr, I20.startThr]
          split
          · split
            · refine key _ ?_ _ k1 _
              intro t
              cases t.isMeas <;> simp
            · exact k1
          · exact k1
        | stop => exact (stop_good hg).fresh
        | data => exact ih
        | measure => exact (measure_good hg).fresh
        | reset => exact (reset_good hg).fresh

theorem cinv {tasks : List Task} {d₀ : I20.Dev} {hd : List I20.Ev} {h : List Ev} {s : St}
    (h0 : I20.Hist hd d₀) (hr : Rests d₀) (hh : Hist Careful tasks d₀ h s)
    (hn : ∀ i, .sent i .stop ∉ thrPart h) (hg : ¬ Gone s) : CInv h s := by
  induction hh with
  | init =>
    refine ⟨by simp [St.init], rfl, ⟨hr.alive, fresh_hist h0⟩, ⟨⟨hr.threads, hr.queue⟩, ?_⟩, rfl,
      ?_, rfl, fun _ _ => rfl⟩
    · simp [St.init, hr.cache]
    · simp [St.init, hr.cache, devPart, measuredAll, fetchedAll]
  | @step h s s' es a hh hp ha ih =>
    have hn' : ∀ i, .sent i .stop ∉ thrPart h := by
      intro i hm
      exact hn i (by rw [thrPart_append]; simp [hm])
    have hi := ih hn' (fun h => hg ((gone_step ha).1 h))
    cases a with
    | thr c => exact cinv_thr hh hi ha hn hg
    | tell ns =>
      injection ha with ha; injection ha with h1 h2; subst h1; subst h2
      rw [List.append_nil]
      exact ⟨hi.stop, hi.netT, hi.good, hi.stg, hi.link, hi.pts, hi.own, hi.own'⟩
    | take acc => exact cinv_take hh hi hp ha
    | work i c => exact cinv_work hh hi ha
    | measure => exact cinv_measure hh hi hp ha
    | lose =>
      exfalso
      simp only [act] at ha
      have hT := hi.netT
      have hne : s.net ≠ .idle := by intro h; rw [h] at ha; cases ha
      split at ha
      · cases ha
      · injection ha with ha; injection ha with h1 h2; subst h1; subst h2
        apply hg
        refine .inr (.inr ⟨rfl, ?_⟩)
        cases hpc : s.t.pc with
        | wait q => exact ⟨q, rfl⟩
        | _ => rw [hpc] at hT; exact absurd hT hne

theorem good_step {s s' : St} {a : Act} {es : List Ev} (hg : Good s.d) (hp : Careful s a)
    (ha : act s a = some (s', es)) : Good s'.d := by
  cases a with
  | thr c =>
    obtain ⟨c', n, e, h1, _⟩ := thr_eq ha
    simp only [thrStep] at h1
    split at h1
    · cases h1
    · injection h1 with h1; injection h1 with h1 _; subst h1
      exact hg
  | tell ns =>
    injection ha with ha; injection ha with h1 h2; subst h1
    exact hg
  | take acc =>
    simp only [act] at ha
    split at ha
    · next q hq =>
      split at ha
      · cases ha
      · injection ha with ha; injection ha with h1 h2; subst h1
        cases q
        case start =>
          cases acc with
          | false => exact hg
          | true => exact (start_good hg (hp hq)).1
        case stop => exact stop_good hg
        case reset => exact reset_good hg
        all_goals exact ⟨hg.alive, hg.fresh⟩
    · cases ha
  | work i c =>
    simp only [act] at ha
    split at ha
    · cases ha
    · split at ha
      · cases ha
      · next d' es' hw =>
        injection ha with ha; injection ha with h1 h2; subst h1
        exact good_tstep hg hw
  | measure =>
    simp only [act] at ha
    split at ha
    · cases ha
    · injection ha with ha; injection ha with h1 h2; subst h1
      exact measure_good hg
  | lose =>
    simp only [act] at ha
    split at ha
    · cases ha
    · injection ha with ha; injection ha with h1 h2; subst h1
      exact hg

theorem good_hist {tasks : List Task} {d₀ : I20.Dev} {hd : List I20.Ev} {h : List Ev} {s : St}
    (h0 : I20.Hist hd d₀) (hr : Rests d₀) (hh : Hist Careful tasks d₀ h s) : Good s.d := by
  induction hh with
  | init => exact ⟨hr.alive, fresh_hist h0⟩
  | step a _ hp ha ih => exact good_step ih hp ha

/-! ## C125 -/

/-- **C125** (`_partial`: if tasks and measurements come at good moments, see `C125_refuted` and
`C125_refuted_measured`): the driver process goes on, whatever the thread does. -/
theorem C125_alive_partial {tasks : List Task} {d₀ : I20.Dev} {hd : List I20.Ev} {h : List Ev}
    {s : St} (h0 : I20.Hist hd d₀) (hr : Rests d₀) (hh : Hist Careful tasks d₀ h s) :
    s.d.exited = false := (good_hist h0 hr hh).alive

/-- **C125** (`_partial`: if tasks and measurements come at good moments and no task is told to stop,
see the `_refuted` theorems): whenever the thread is not in the middle of a task, its file has exactly the
data points which were measured for the tasks it has started, task after task, in the order of the
measurements, each once; and no data points were measured for any other task. -/
theorem C125_stored_partial {tasks : List Task} {d₀ : I20.Dev} {hd : List I20.Ev} {h : List Ev}
    {s : St} (h0 : I20.Hist hd d₀) (hr : Rests d₀) (hh : Hist Careful tasks d₀ h s)
    (hn : ∀ i, .sent i .stop ∉ thrPart h)
    (hp : s.t.pc = .cur ∨ s.t.pc = .unset ∨ s.t.pc = .fin ∨ s.t.pc = .dead) :
    s.t.file ≠ .broken ∧
    s.t.file.content = (JobT.starts (thrPart h)).flatMap (measuredFor (devPart h)) ∧
    s.t.file.content = measuredAll (devPart h) := by
  have hg : ¬ Gone s := by
    rintro (h | h | ⟨_, q, h⟩) <;> rw [h] at hp <;> simp at hp
  have hi := cinv h0 hr hh hn hg
  have hf := JobT.fileOK (thr_hist hh)
  have hst : StageD s.t.i s.d .quiet := by
    have := hi.stg
    unfold stage at this
    rcases hp with h | h | h | h <;> rw [h] at this <;> exact this
  have hnet : s.net = .idle := by
    have := hi.netT
    rcases hp with h | h | h | h <;> rw [h] at this <;> exact this
  have hf' : s.t.file ≠ .broken ∧ s.t.file.content = JobT.delivered (thrPart h) := by
    unfold JobT.FileOK at hf
    rcases hp with h | h | h | h <;> rw [h] at hf <;> exact hf
  have hall : s.t.file.content = measuredAll (devPart h) := by
    rw [hf'.2, hi.pts, hi.link, hst.2, hnet]
    simp [flightOf]
  exact ⟨hf'.1, hall.trans hi.own, hall⟩

/-- **C125** (`_partial` as above): what is in the file is at any moment, whatever happens to the
requests, the beginning of what has been measured. -/
theorem C125_prefix_partial {tasks : List Task} {d₀ : I20.Dev} {hd : List I20.Ev} {h : List Ev}
    {s : St} (h0 : I20.Hist hd d₀) (hr : Rests d₀) (hh : Hist Careful tasks d₀ h s)
    (hn : ∀ i, .sent i .stop ∉ thrPart h) :
    s.t.file.content <+: measuredAll (devPart h) := by
  have hd : JobT.delivered (thrPart h) <+: measuredAll (devPart h) := by
    induction hh with
    | init => exact List.nil_prefix
    | @step h s s' es a hh hp ha ih =>
      by_cases hg : Gone s'
      · have hn' : ∀ i, .sent i .stop ∉ thrPart h := by
          intro i hm
          exact hn i (by rw [thrPart_append]; simp [hm])
        have hz := (gone_step ha).2 hg
        have e : JobT.delivered (thrPart (h ++ es)) = JobT.delivered (thrPart h) := by
          rw [thrPart_append]
          simp only [JobT.delivered, List.flatMap_append] at hz ⊢
          rw [hz, List.append_nil]
        rw [e, devPart_append, measuredAll_append]
        exact (ih hn').trans (List.prefix_append _ _)
      · have hi := cinv h0 hr (.step a hh hp ha) hn hg
        rw [hi.pts, hi.link, List.append_assoc]
        exact List.prefix_append _ _
  have hf := JobT.fileOK (thr_hist hh)
  refine List.IsPrefix.trans ?_ hd
  unfold JobT.FileOK at hf
  split at hf
  · rw [← hf.2]; exact List.prefix_append _ _
  · obtain ⟨_, _, x, hx⟩ := hf; rw [← hx]; exact List.prefix_append _ _
  · rw [hf.1]; exact List.nil_prefix
  · rw [hf.2]; exact List.prefix_rfl

/-! ### One task -/

/-- The tasks which were accepted. -/
def acceptedAll (h : List I20.Ev) : List Nat :=
  h.filterMap (fun e => match e with | .accepted t => some t | _ => none)

theorem acceptedAll_append (h es : List I20.Ev) :
    acceptedAll (h ++ es) = acceptedAll h ++ acceptedAll es := List.filterMap_append

theorem starts_le {tasks : List Task} {h : List JobT.Ev} {t : JobT.Thr} (hh : JobT.THist tasks h t) :
    (JobT.starts h).length ≤ tasks.length := by
  have hs := (JobT.tinv hh).sent
  revert hs
  cases JobT.cls t.pc
  all_goals intro hs
  case bad =>
    rcases hs with ⟨hs, hl⟩ | ⟨hs, hl⟩
    · rw [hs, List.length_range]; exact hl
    · rw [hs, List.length_range]; exact hl
  all_goals
    obtain ⟨hs, hl⟩ := hs
    rw [hs, List.length_range]
    omega

theorem tstep_accepted {d d' : I20.Dev} {i : Nat} {c : I20.Choice} {es : List I20.Ev}
    (ha : I20.tstep d i c = some (d', es)) : acceptedAll es = [] := by
  simp only [I20.tstep] at ha
  split at ha
  · cases ha
  · split at ha
    all_goals (try split at ha)
    all_goals (try split at ha)
    all_goals first
      | (cases ha; done)
      | (injection ha with ha; injection ha with _ e2; subst e2; rfl)

/-- A good moment remains one until a task is accepted. -/
theorem mayStart_work {d d' : I20.Dev} {i : Nat} {c : I20.Choice} {es : List I20.Ev}
    (hm : MayStart d) (ha : I20.tstep d i c = some (d', es)) : MayStart d' ∧ es = [] := by
  obtain ⟨_, hov⟩ := hm
  simp only [I20.tstep] at ha
  cases ht : d.threads[i]? with
  | none => rw [ht] at ha; cases ha
  | some t =>
    rw [ht] at ha
    obtain ⟨im, pc, dr⟩ := t
    rcases hov _ (List.mem_of_getElem? ht) with hp | hp
    all_goals
      simp only at hp
      subst hp
      cases ha

theorem mayStart_reset {d : I20.Dev} (hm : MayStart d) : MayStart (I20.command d .reset).1 := by
  obtain ⟨_, hov⟩ := hm
  refine ⟨⟨{}, by simp [I20.command, I20.newThr], rfl⟩, ?_⟩
  intro t ht
  simp only [I20.command, I20.newThr, List.mem_append, List.mem_singleton] at ht
  rcases ht with ht | rfl
  · exact hov t ht
  · exact .inl rfl

theorem mayStart_stop {d : I20.Dev} (hm : MayStart d) : MayStart (I20.command d .stop).1 := by
  obtain ⟨⟨t, ht, hp⟩, hov⟩ := hm
  refine ⟨⟨_, mod_get _ ht, hp⟩, ?_⟩
  intro t ht
  obtain ⟨j, hj⟩ := List.getElem?_of_mem ht
  obtain ⟨v, hv, rfl⟩ := get_mod hj
  have := hov v (List.mem_of_getElem? hv)
  split <;> exact this

/-- No measurements. -/
def Alone (_ : St) (a : Act) : Prop := a ≠ .measure

structure Once (h : List Ev) (s : St) : Prop where
  may : acceptedAll (devPart h) = [] → MayStart s.d
  count : (acceptedAll (devPart h)).length + (if s.net = .req .start then 1 else 0) ≤
    (JobT.starts (thrPart h)).length
  req : ∀ q, s.net = .req q → s.t.pc = .wait q

theorem once_hist {tasks : List Task} {d₀ : I20.Dev} {hd : List I20.Ev} {h : List Ev} {s : St}
    (h0 : I20.Hist hd d₀) (hr : Rests d₀) (hm : MayStart d₀) (hl : tasks.length ≤ 1)
    (hh : Hist Alone tasks d₀ h s) : Hist Careful tasks d₀ h s ∧ Once h s := by
  induction hh with
  | init => exact ⟨.init, fun _ => hm, Nat.le_refl _, fun q hq => by cases hq⟩
  | @step h s s' es a hh hp ha ih =>
    obtain ⟨hc, o1, o2, o3⟩ := ih
    have hg := good_hist h0 hr hc
    have hle := starts_le (thr_hist hc)
    have hcare : Careful s a := by
      cases a with
      | take acc =>
        cases acc with
        | false => trivial
        | true =>
          intro hq
          apply o1
          rw [if_pos hq] at o2
          exact List.eq_nil_of_length_eq_zero (by omega)
      | measure => exact absurd rfl hp
      | _ => trivial
    refine ⟨.step a hc hcare ha, ?_⟩
    -- the component is untouched, or nothing is accepted
    have dev : ∀ (d' : I20.Dev) (n' : Net) (es' : List I20.Ev), acceptedAll es' = [] →
        (MayStart s.d → MayStart d') → (n' = s.net ∨ ∀ q, n' ≠ .req q) →
        Once (h ++ es'.map .dev) ⟨s.t, d', n'⟩ := by
      intro d' n' es' q1 q2 q3
      have e1 : thrPart (h ++ es'.map .dev) = thrPart h := by
        rw [thrPart_append, thrPart_dev, List.append_nil]
      have e2 : acceptedAll (devPart (h ++ es'.map .dev)) = acceptedAll (devPart h) := by
        rw [devPart_append, devPart_dev, acceptedAll_append, q1, List.append_nil]
      refine ⟨?_, ?_, ?_⟩
      · rw [e2]; exact fun h => q2 (o1 h)
      · rw [e1, e2]
        rcases q3 with q3 | q3
        · rw [q3]; exact o2
        · rw [if_neg (q3 _)]; omega
      · intro q hq
        rcases q3 with q3 | q3
        · exact o3 q (by rw [← q3]; exact hq)
        · exact absurd hq (q3 q)
    cases a with
    | thr c =>
      obtain ⟨c', n, e, h1, rfl, h3, h4⟩ := thr_eq ha
      have e1 : devPart (h ++ [.thr e]) = devPart h := by
        rw [devPart_append]; exact List.append_nil _
      have e2 : thrPart (h ++ [.thr e]) = thrPart h ++ [e] := by
        rw [thrPart_append]; rfl
      have hd' : s'.d = s.d := by
        simp only [thrStep, h3] at h1
        injection h1 with h1; injection h1 with h1 _; rw [← h1]
      refine ⟨?_, ?_, ?_⟩
      · rw [e1, hd']; exact o1
      · rw [e1, e2, JobT.starts_snoc, List.length_append]
        by_cases hs' : s'.net = .req .start
        · simp only [act] at ha
          cases hpc : s.t.pc with
          | wait q =>
            rw [hpc] at ha
            cases hnet : s.net with
            | ans a =>
              rw [hnet] at ha
              simp only [thrStep] at ha
              split at ha
              · cases ha
              · injection ha with ha; injection ha with ha _; subst ha; cases hs'
            | _ => rw [hnet] at ha; cases ha
          | ask q =>
            rw [hpc] at ha
            simp only [thrStep, JobT.tstep, hpc] at ha
            injection ha with ha; injection ha with ha he; subst ha
            simp only at hs'
            injection hs' with hs'; subst hs'
            injection he with he; injection he with he; subst he
            rw [if_pos rfl]
            change _ ≤ _ + 1
            have : s.net ≠ .req .start := fun h => by
              have := o3 _ h; rw [hpc] at this; cases this
            rw [if_neg this] at o2
            omega
          | _ =>
            rw [hpc] at ha
            simp only [thrStep] at ha
            split at ha
            · cases ha
            · injection ha with ha; injection ha with ha _; subst ha
              have := o3 _ hs'; rw [hpc] at this; cases this
        · rw [if_neg hs']
          omega
      · intro q hq
        simp only [act] at ha
        cases hpc : s.t.pc with
        | wait q =>
          rw [hpc] at ha
          cases hnet : s.net with
          | ans a =>
            rw [hnet] at ha
            simp only [thrStep] at ha
            split at ha
            · cases ha
            · injection ha with ha; injection ha with ha _; subst ha; cases hq
          | _ => rw [hnet] at ha; cases ha
        | ask q' =>
          rw [hpc] at ha
          simp only [thrStep, JobT.tstep, hpc] at ha
          injection ha with ha; injection ha with ha he; subst ha
          simp only at hq
          injection hq with hq; subst hq
          rfl
        | _ =>
          rw [hpc] at ha
          simp only [thrStep] at ha
          split at ha
          · cases ha
          · injection ha with ha; injection ha with ha _; subst ha
            have := o3 _ hq; rw [hpc] at this; cases this
    | tell ns =>
      injection ha with ha; injection ha with h1 h2; subst h1; subst h2
      rw [List.append_nil]
      exact ⟨o1, o2, o3⟩
    | take acc =>
      simp only [act] at ha
      split at ha
      · next q hq =>
        split at ha
        · cases ha
        · injection ha with ha; injection ha with h1 h2; subst h1; subst h2
          have hal := hg.alive
          cases q
          case start =>
            cases acc with
            | false => exact dev s.d _ [] rfl (fun h => h) (.inr (by simp))
            | true =>
              obtain ⟨g1, g2, -⟩ := start_good (n := s.t.i) hg (hcare hq)
              have e : take s .start true = (⟨s.t, (I20.command s.d (.start s.t.i)).1,
                  .ans (.reply true none none)⟩, [.accepted s.t.i]) := by
                simp [take, via, g1.alive, g2]
              rw [e]
              have e1 : thrPart (h ++ [.dev (.accepted s.t.i)]) = thrPart h := by
                rw [thrPart_append]; exact List.append_nil _
              have e2 : acceptedAll (devPart (h ++ [.dev (.accepted s.t.i)])) =
                  acceptedAll (devPart h) ++ [s.t.i] := by
                rw [devPart_append, acceptedAll_append]; rfl
              rw [if_pos hq] at o2
              refine ⟨?_, ?_, ?_⟩
              · rw [List.map_cons, List.map_nil, e2]; intro h; simp at h
              · rw [List.map_cons, List.map_nil, e1, e2]; simpa using o2
              · intro q hq; cases hq
          case ready => exact dev s.d _ [] rfl (fun h => h) (.inr (by simp))
          case running => exact dev s.d _ [] rfl (fun h => h) (.inr (by simp))
          case status => exact dev s.d _ [] rfl (fun h => h) (.inr (by simp))
          case data =>
            simp only [take, via]
            exact dev (I20.command s.d .data).1 _ (I20.command s.d .data).2 rfl (fun h => h)
              (.inr (by simp [I20.command, hal]))
          case final =>
            simp only [take, via]
            exact dev (I20.command s.d .data).1 _ (I20.command s.d .data).2 rfl (fun h => h)
              (.inr (by simp [I20.command, hal]))
          case stop =>
            simp only [take, via]
            exact dev (I20.command s.d .stop).1 _ (I20.command s.d .stop).2 rfl mayStart_stop
              (.inr (by simp [I20.command, I20.setThr, hal]))
          case reset =>
            simp only [take, via]
            exact dev (I20.command s.d .reset).1 _ (I20.command s.d .reset).2 rfl mayStart_reset
              (.inr (by simp [I20.command, I20.newThr, hal]))
      · cases ha
    | work i c =>
      simp only [act] at ha
      split at ha
      · cases ha
      · split at ha
        · cases ha
        · next d' es' hw =>
          injection ha with ha; injection ha with h1 h2; subst h1; subst h2
          exact dev d' s.net es' (tstep_accepted hw) (fun h => (mayStart_work h hw).1) (.inl rfl)
    | measure => exact absurd rfl hp
    | lose =>
      simp only [act] at ha
      split at ha
      · cases ha
      · injection ha with ha; injection ha with h1 h2; subst h1; subst h2
        exact dev s.d _ [] rfl (fun h => h) (.inr (by simp))

/-- **C125** (`_partial`: for one task per component, and without measurements in between): then the
moments are good by themselves. -/
theorem C125_single_partial {tasks : List Task} {d₀ : I20.Dev} {hd : List I20.Ev} {h : List Ev}
    {s : St} (h0 : I20.Hist hd d₀) (hr : Rests d₀) (hm : MayStart d₀) (hl : tasks.length ≤ 1)
    (hh : Hist Alone tasks d₀ h s) :
    s.d.exited = false ∧
    ((∀ i, .sent i .stop ∉ thrPart h) →
      s.t.file.content <+: measuredAll (devPart h) ∧
      (s.t.pc = .cur ∨ s.t.pc = .unset ∨ s.t.pc = .fin ∨ s.t.pc = .dead →
        s.t.file.content = measuredFor (devPart h) 0 ∧
        s.t.file.content = measuredAll (devPart h))) := by
  obtain ⟨hc, -⟩ := once_hist h0 hr hm hl hh
  refine ⟨(good_hist h0 hr hc).alive, fun hn => ⟨C125_prefix_partial h0 hr hc hn, fun hp => ?_⟩⟩
  obtain ⟨-, h2, h3⟩ := C125_stored_partial h0 hr hc hn hp
  refine ⟨?_, h3⟩
  have hg : ¬ Gone s := by
    rintro (h | h | ⟨_, q, h⟩) <;> rw [h] at hp <;> simp at hp
  have hi := cinv h0 hr hc hn hg
  have hle := starts_le (thr_hist hc)
  have hst : JobT.starts (thrPart h) = [] ∨ JobT.starts (thrPart h) = [0] := by
    have : ∃ k, JobT.starts (thrPart h) = List.range k := by
      have hs := (JobT.tinv (thr_hist hc)).sent
      revert hs
      cases JobT.cls s.t.pc
      all_goals intro hs
      case bad => rcases hs with ⟨hs, _⟩ | ⟨hs, _⟩ <;> exact ⟨_, hs⟩
      all_goals exact ⟨_, hs.1⟩
    obtain ⟨k, hk⟩ := this
    rw [hk, List.length_range] at hle
    have : k = 0 ∨ k = 1 := by omega
    rcases this with rfl | rfl
    · exact .inl hk
    · exact .inr hk
  rw [h2]
  rcases hst with hst | hst
  · have := hi.own' 0 (by rw [hst]; simp)
    rw [hst, this]; rfl
  · rw [hst]; simp

/-! ### Examples -/

instance (d : I20.Dev) : Decidable (MayStart d) := by
  unfold MayStart
  have : Decidable (∃ t, d.threads[d.cur]? = some t ∧ t.pc = .fresh) :=
    match h : d.threads[d.cur]? with
    | none => isFalse (by simp)
    | some t => decidable_of_iff (t.pc = .fresh) (by simp)
  infer_instance

instance (d : I20.Dev) : Decidable (MayMeasure d) := by unfold MayMeasure; infer_instance

instance (s : St) (a : Act) : Decidable (Careful s a) := by
  cases a with
  | take acc => cases acc <;> unfold Careful <;> infer_instance
  | _ => unfold Careful; infer_instance

instance (s : St) (a : Act) : Decidable (Alone s a) := by unfold Alone; infer_instance

/-- A run with permitted actions only. -/
def runIf (P : St → Act → Prop) [∀ s a, Decidable (P s a)] (s : St) : List Act → Option (St × List Ev)
  | [] => some (s, [])
  | a :: as =>
    if P s a then
      match act s a with
      | none => none
      | some (s', es) =>
        match runIf P s' as with
        | none => none
        | some (s'', es') => some (s'', es ++ es')
    else none

theorem runIf_hist {P : St → Act → Prop} [∀ s a, Decidable (P s a)] {tasks : List Task}
    {d₀ : I20.Dev} {h es : List Ev} {s s' : St} {as : List Act}
    (hh : Hist P tasks d₀ h s) (hr : runIf P s as = some (s', es)) :
    Hist P tasks d₀ (h ++ es) s' := by
  induction as generalizing h es s with
  | nil => cases hr; simpa using hh
  | cons a as ih =>
    simp only [runIf] at hr
    split at hr
    · next hp =>
      split at hr
      · cases hr
      · next s₁ es₁ ha =>
        split at hr
        · cases hr
        · next s₂ es₂ hr' =>
          cases hr
          rw [← List.append_assoc]
          exact ih (.step a hh hp ha) hr'
    · cases hr

/-- Steps of the thread of the job, of thread `i` of the component; a request. -/
def thrs (n : Nat) : List Act := List.replicate n (.thr {})
def works (i n : Nat) (c : I20.Choice := {}) : List Act := List.replicate n (.work i c)
def rq : List Act := [.thr {}, .take true, .thr {}]

/-- A task is submitted and begins, on thread `i`. -/
def submits (i : Nat) : List Act := thrs 2 ++ rq ++ rq ++ works i 4 ++ rq

/-- A sample is taken. -/
def samples (i : Nat) (ps : List Nat) (over : Bool := false) : List Act :=
  works i 2 { result := some (some ps), over := over }

/-- Data are fetched in the main loop, and the task still runs. -/
def polls : List Act := [.thr { due := true }] ++ rq ++ thrs 3 ++ rq ++ thrs 1

/-- The task ends; the thread of the job notices it, fetches the rest, and goes on. -/
def ends (i : Nat) : List Act := works i 2 ++ thrs 1 ++ rq ++ rq ++ thrs 3 ++ thrs 1

def plain (n : Nat) : Task := { role := "x", technique := "t", body := n }

/-- Two tasks, with a one-shot measurement in between.  (The thread dies after the second one,
see C39; its data are stored nevertheless.) -/
def twoTasks : List Act :=
  submits 0 ++ samples 0 [1, 2] ++ polls ++ samples 0 [3] true ++ ends 0 ++ works 0 1 ++ thrs 1 ++
  [.measure] ++ works 2 5 { result := some (some [99]) } ++
  submits 3 ++ samples 3 [4] ++ samples 3 [5] true ++ ends 3

example : Rests I20.Dev.init := ⟨rfl, by decide, rfl, rfl⟩

example : ((runIf Careful (St.init [plain 1, plain 2] I20.Dev.init) twoTasks).map
      (fun p => (p.1.t.pc, p.1.t.file, JobT.starts (thrPart p.2), measuredFor (devPart p.2) 0,
        measuredFor (devPart p.2) 1))) =
    some (.dead, .data [1, 2, 3, 4, 5], [0, 1], [1, 2, 3], [4, 5]) := by decide +kernel

/-- One task, from the beginning to the end. -/
def oneTask : List Act :=
  submits 0 ++ samples 0 [1, 2] ++ polls ++ samples 0 [3] true ++ ends 0 ++ thrs 2 ++ rq ++ works 0 1

example : MayStart I20.Dev.init := by decide

example : ((runIf Alone (St.init [plain 1] I20.Dev.init) oneTask).map
      (fun p => (p.1.t.pc, p.1.t.file, p.1.d.exited, measuredFor (devPart p.2) 0))) =
    some (.fin, .data [1, 2, 3], false, [1, 2, 3]) := by decide +kernel

/-! ### Violations -/

/-- The thread has not asked to stop a task. -/
def noStop (h : List JobT.Ev) : Bool := h.all (fun e => match e with | .sent _ .stop => false | _ => true)

/-- **C125** is violated: the second task of a job is submitted when the component reports to be ready
but has not yet prepared the thread for it.  The driver process ends, and the job never gets an answer.
Nobody else uses the component, no measurement and no stop was asked for, and no request was lost. -/
theorem C125_refuted : ∃ h s, Hist Alone [plain 1, plain 2] I20.Dev.init h s ∧
    (∀ i, .sent i .stop ∉ thrPart h) ∧ .completed 0 ∈ thrPart h ∧
    s.d.exited = true ∧ s.t.pc = .wait .start ∧ s.net = .req .start ∧
    ∀ a s' es, act s a = some (s', es) → s'.d = s.d := by
  have hr : ∃ p, runIf Alone (St.init [plain 1, plain 2] I20.Dev.init)
      (submits 0 ++ samples 0 [1] true ++ ends 0 ++ thrs 3 ++ rq ++ [.thr {}, .take true]) = some p ∧
      (∀ e ∈ thrPart p.2, ∀ i, e ≠ .sent i .stop) ∧ .completed 0 ∈ thrPart p.2 ∧
      p.1.d.exited = true ∧ p.1.t.pc = .wait .start ∧ p.1.net = .req .start := by
    have h : (runIf Alone (St.init [plain 1, plain 2] I20.Dev.init)
      (submits 0 ++ samples 0 [1] true ++ ends 0 ++ thrs 3 ++ rq ++ [.thr {}, .take true])).any
        (fun (p : St × List Ev) => decide (noStop (thrPart p.2) = true ∧ .completed 0 ∈ thrPart p.2 ∧
          p.1.d.exited = true ∧ p.1.t.pc = .wait .start ∧ p.1.net = .req .start)) = true := by
      decide +kernel
    rw [Option.any_eq_true_iff_get] at h
    obtain ⟨hs, h⟩ := h
    obtain ⟨h1, h2⟩ := of_decide_eq_true h
    refine ⟨_, (Option.some_get hs).symm, ?_, h2⟩
    rintro e he i rfl
    exact absurd (List.all_eq_true.mp h1 _ he) (by simp)
  obtain ⟨⟨s, h⟩, hr, h1, h2, h3, h4, h5⟩ := hr
  refine ⟨h, s, by simpa using runIf_hist .init hr, fun i hm => h1 _ hm i rfl, h2, h3, h4, h5, ?_⟩
  intro a s' es ha
  simp only at h3 h5
  cases a with
  | thr c =>
    obtain ⟨c', n, e, h1, _⟩ := thr_eq ha
    simp only [thrStep] at h1
    split at h1
    · cases h1
    · injection h1 with h1; injection h1 with h1 _; subst h1; rfl
  | tell ns => injection ha with ha; injection ha with ha _; subst ha; rfl
  | take acc => simp [act, h5, h3] at ha
  | work i c => simp [act, h3] at ha
  | measure => simp [act, h3] at ha
  | lose =>
    simp only [act, h5] at ha
    injection ha with ha; injection ha with ha _; subst ha; rfl

/-- **C125** is violated even for a single task: the driver has just begun one of its measurements, and
the component still reports to be ready; when the task is submitted, the driver process ends. -/
theorem C125_refuted_measured : ∃ h s, Hist (fun _ _ => True) [plain 1] I20.Dev.init h s ∧
    devPart h = [.mAccepted, .accepted 0, .exited] ∧ s.d.exited = true ∧ s.t.pc = .wait .start := by
  have hr : ∃ p, runIf (fun _ _ => True) (St.init [plain 1] I20.Dev.init)
      ([.measure] ++ thrs 2 ++ rq ++ [.thr {}, .take true]) = some p ∧
      devPart p.2 = [.mAccepted, .accepted 0, .exited] ∧ p.1.d.exited = true ∧
      p.1.t.pc = .wait .start := ⟨_, rfl, rfl, rfl, rfl⟩
  obtain ⟨⟨s, h⟩, hr, h1⟩ := hr
  exact ⟨h, s, by simpa using runIf_hist .init hr, h1⟩

/-- A measurement is accepted right after the task; when it is over, the component reports to be ready. -/
def overtaken : List Act :=
  thrs 2 ++ rq ++ rq ++ [.measure] ++ works 0 4 ++ rq ++ samples 0 [1] ++ works 1 5 ++
  thrs 1 ++ rq ++ rq ++ thrs 3 ++ samples 0 [7] ++ thrs 3 ++ rq

/-- **C125** is violated if a measurement is accepted between a task and its beginning: the thread ends
normally, and the component is reset, but a data point measured for its task is nowhere. -/
theorem C125_refuted_lost : ∃ h s, Hist (fun _ _ => True) [plain 1] I20.Dev.init h s ∧
    s.t.pc = .fin ∧ .completed 0 ∈ thrPart h ∧ measuredFor (devPart h) 0 = [1, 7] ∧
    s.t.file.content = [1] ∧ s.d.data = none ∧ s.d.exited = false := by
  have hr : ∃ p, runIf (fun _ _ => True) (St.init [plain 1] I20.Dev.init) overtaken = some p ∧
      p.1.t.pc = .fin ∧ .completed 0 ∈ thrPart p.2 ∧ measuredFor (devPart p.2) 0 = [1, 7] ∧
      p.1.t.file.content = [1] ∧ p.1.d.data = none ∧ p.1.d.exited = false :=
    ⟨_, rfl, rfl, by decide +kernel, rfl, rfl, rfl, rfl⟩
  obtain ⟨⟨s, h⟩, hr, h1⟩ := hr
  exact ⟨h, s, by simpa using runIf_hist .init hr, h1⟩

/-- A task which is stopped when a task named `go` starts. -/
def untilGo : Task := { role := "x", technique := "t", stopWith := some "go", body := 1 }

/-- The component is told to stop, and goes on. -/
def stopped : List Act :=
  submits 0 ++ samples 0 [1] ++ [.tell ["go"]] ++ thrs 1 ++ rq ++ thrs 1 ++ rq ++ thrs 3 ++ rq ++
  samples 0 [7] ++ samples 0 [8] ++ thrs 3 ++ rq ++ samples 0 [9]

/-- **C125** is violated if a task is stopped, although everything comes at a good moment: the component
goes on with the task, even after it has been reset. -/
theorem C125_refuted_stop : ∃ h s, Hist Careful [untilGo] I20.Dev.init h s ∧
    s.t.pc = .fin ∧ .completed 0 ∈ thrPart h ∧ measuredFor (devPart h) 0 = [1, 7, 8, 9] ∧
    s.t.file.content = [1] := by
  have hr : ∃ p, runIf Careful (St.init [untilGo] I20.Dev.init) stopped = some p ∧
      p.1.t.pc = .fin ∧ .completed 0 ∈ thrPart p.2 ∧ measuredFor (devPart p.2) 0 = [1, 7, 8, 9] ∧
      p.1.t.file.content = [1] := by
    have h : (runIf Careful (St.init [untilGo] I20.Dev.init) stopped).any (fun p => decide (
      p.1.t.pc = .fin ∧ .completed 0 ∈ thrPart p.2 ∧ measuredFor (devPart p.2) 0 = [1, 7, 8, 9] ∧
      p.1.t.file.content = [1])) = true := by decide +kernel
    rw [Option.any_eq_true_iff_get] at h
    obtain ⟨hs, h⟩ := h
    exact ⟨_, (Option.some_get hs).symm, of_decide_eq_true h⟩
  obtain ⟨⟨s, h⟩, hr, h1⟩ := hr
  exact ⟨h, s, by simpa using runIf_hist .init hr, h1⟩

end Tomato.Props.Two
