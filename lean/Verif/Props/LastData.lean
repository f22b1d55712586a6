import Verif.LastData
import Verif.Props.Iface21

/-!
# C129, C130: the last data of a component; its constants and its status

C129: `cmp_last_data` answers with the result of the most recent completed measurement, of a task or
on its own, for every history of both interfaces.  The data points handed out by `task_data` end
with those of the last measurement, if this was done for a task; a measurement on its own comes
after points which are still in the cache, and `cmp_reset` does not forget the last data
(`C129_refuted`, `C129_refuted_single`).

C130: `cmp_constants` and `cmp_status` report, for every key, what was stored.
-/

namespace Tomato.Props.Latest

open Tomato.LastData

/-- A completed measurement: the task it was done for (`none`: on its own) and what it stored. -/
abbrev Completed := Option Nat × Option (List Nat)

/-- What an observer expects to be the last data: the result of the newest measurement. -/
def newest (ms : List Completed) : Option (List Nat) :=
  match ms.getLast? with
  | none => none
  | some m => m.2

/-! ## Interface 2.1 -/

section
open Tomato.I21

/-- The measurement which an action completes: the device function has returned, for a task
(2_1:588) or for `"measure"` (2_1:556). -/
def completes21 (s : Dev) : Act → List Completed
  | .worker c =>
    match s.wpc, c.result with
    | .meas t, some r => [(some t, r)]
    | .oneShot, some r => [(none, r)]
    | _, _ => []
  | _ => []

/-- Histories with the measurements completed in them. -/
inductive Seen21 : List Completed → List Ev → Dev → Prop where
  | init : Seen21 [] [] Dev.init
  | step {ms : List Completed} {h : List Ev} {s s' : Dev} {es : List Ev} (a : Act) :
      Seen21 ms h s → act s a = some (s', es) → Seen21 (ms ++ completes21 s a) (h ++ es) s'

/-- Every history has its measurements. -/
theorem seen21_of_hist {h : List Ev} {s : Dev} (hh : Hist h s) : ∃ ms, Seen21 ms h s := by
  induction hh with
  | init => exact ⟨[], .init⟩
  | step a _ ha ih =>
    obtain ⟨ms, hm⟩ := ih
    exact ⟨_, .step a hm ha⟩

theorem hist_of_seen21 {ms : List Completed} {h : List Ev} {s : Dev} (hm : Seen21 ms h s) :
    Hist h s := by
  induction hm with
  | init => exact .init
  | step a _ ha ih => exact .step a ih ha

theorem newest_append (ms : List Completed) (m : Completed) : newest (ms ++ [m]) = m.2 := by
  simp [newest]

/-- What holds of the last data and of the cache. -/
structure Kept21 (ms : List Completed) (s : Dev) : Prop where
  last : s.last = newest ms
  cache : ∀ t l d, ms.getLast? = some (some t, some l) → s.data = some d →
    (∀ t', s.wpc ≠ .store t') → l <:+ d
  being : ∀ t', s.wpc = .store t' → ms.getLast? = some (some t', s.last)

theorem kept21_act {ms : List Completed} {s s' : Dev} {a : Act} {es : List Ev}
    (hk : Kept21 ms s) (ha : act s a = some (s', es)) : Kept21 (ms ++ completes21 s a) s' := by
  obtain ⟨h1, h2, h3⟩ := hk
  obtain ⟨q, r, dr, dt, d, l, lk, w, cp⟩ := s
  simp only at h1 h2 h3
  cases a with
  | worker c =>
    simp only [act] at ha
    unfold wstep at ha
    simp only at ha
    split at ha
    all_goals (try split at ha)
    all_goals first
      | (cases ha; done)
      | skip
    all_goals (injection ha with ha; injection ha with ha1 ha2; subst ha1; subst ha2)
    all_goals constructor
    all_goals simp_all [completes21, newest]
    · intro t l' d' h4 h5 h6
      subst h5
      cases d with
      | none => simp [storeData] at h6; subst h6; exact List.suffix_refl _
      | some d0 => simp [storeData] at h6; subst h6; exact List.suffix_append _ _
  | cmd c =>
    simp only [act] at ha
    split at ha
    · injection ha with ha
      have h4 := congrArg Prod.fst ha
      simp only at h4
      subst h4
      cases c <;> simp only [cbegin, completes21, List.append_nil] <;> (try split) <;>
        exact ⟨h1, h2, h3⟩
    · cases ha
  | cont =>
    simp only [act] at ha
    unfold cstep at ha
    simp only at ha
    split at ha
    all_goals (try split at ha)
    all_goals first
      | (cases ha; done)
      | skip
    all_goals (injection ha with ha; injection ha with ha1 ha2; subst ha1; subst ha2)
    all_goals constructor
    all_goals simp_all [completes21, afterReset]

theorem kept21 {ms : List Completed} {h : List Ev} {s : Dev} (hm : Seen21 ms h s) :
    Kept21 ms s := by
  induction hm with
  | init => exact ⟨rfl, by simp, by simp [Dev.init]⟩
  | step a _ ha ih => exact kept21_act ih ha

/-- C129, interface 2.1: at any time `cmp_last_data` answers with what the most recent completed
measurement stored, and it refuses if there was none or if this one stored nothing. -/
theorem C129_last {ms : List Completed} {h : List Ev} {s : Dev} (hm : Seen21 ms h s) :
    (last21 s).data = newest ms ∧ ((last21 s).success = true ↔ (newest ms).isSome = true) := by
  have h1 := (kept21 hm).last
  unfold last21 ofLast
  rw [← h1]
  cases s.last <;> simp

/-- C129, interface 2.1: if the most recent measurement was done for a task, the data points which
`task_data` (or `task_stop`) reads off the cache end with its data points. -/
theorem C129_end_partial {ms : List Completed} {h : List Ev} {s s' : Dev} {a : Act} {es : List Ev}
    (hm : Seen21 ms h s) (ha : act s a = some (s', es)) {d : List Nat}
    (hf : Ev.fetched (some d) ∈ es) {t : Nat} {l : List Nat}
    (hn : ms.getLast? = some (some t, some l)) : l <:+ d := by
  have hk := kept21 hm
  have hi := inv_hist (hist_of_seen21 hm)
  cases a with
  | worker c =>
    exfalso
    simp only [act] at ha
    unfold wstep at ha
    split at ha
    all_goals (try split at ha)
    all_goals first
      | (cases ha; done)
      | (injection ha with ha; injection ha with ha1 ha2; subst ha2; simp at hf; done)
  | cmd c =>
    exfalso
    simp only [act] at ha
    split at ha
    · injection ha with ha
      have h2 : es = (cbegin s c).2 := by rw [ha]
      subst h2
      cases c <;> simp only [cbegin] at hf <;> (try split at hf) <;> simp at hf
    · cases ha
  | cont =>
    simp only [act] at ha
    unfold cstep at ha
    split at ha
    all_goals (try split at ha)
    all_goals first
      | (cases ha; done)
      | (injection ha with ha; injection ha with ha1 ha2; subst ha2; simp at hf; done)
      | skip
    next hc =>
      injection ha with ha
      injection ha with ha1 ha2
      subst ha2
      simp only [List.mem_singleton, Ev.fetched.injEq] at hf
      refine hk.cache t l d hn hf.symm ?_
      intro t' ht
      have h5 : s.lock = some .cmd := hi.clock.mpr (by rw [hc]; rfl)
      have h6 : s.lock = some .worker := hi.wlock.mpr (by rw [ht]; rfl)
      rw [h5] at h6
      cases h6

/-- The actions of a run which does one measurement for a task and goes on. -/
def oneSample (t : Nat) (ps : List Nat) : List Act :=
  [.cmd (.start t), .worker {}, .worker {}, .worker {}, .worker {}, .worker {}, .worker {},
   .worker {}, .worker {}, .worker {}, .worker { sample := true }, .worker {},
   .worker { result := some (some ps) }, .worker {}, .worker {}]

/-- The state after a run, with its history and its measurements. -/
def watch (s : Dev) (ms : List Completed) (h : List Ev) :
    List Act → Option (List Completed × List Ev × Dev)
  | [] => some (ms, h, s)
  | a :: as =>
    match act s a with
    | none => none
    | some (s', es) => watch s' (ms ++ completes21 s a) (h ++ es) as

theorem seen21_watch {s : Dev} {ms ms' : List Completed} {h h' : List Ev} {s' : Dev}
    {as : List Act} (hm : Seen21 ms h s) (hw : watch s ms h as = some (ms', h', s')) :
    Seen21 ms' h' s' := by
  induction as generalizing s ms h with
  | nil => simp [watch] at hw; obtain ⟨rfl, rfl, rfl⟩ := hw; exact hm
  | cons a as ih =>
    simp only [watch] at hw
    split at hw
    · cases hw
    · next s1 es ha => exact ih (.step a hm ha) hw

/-- A task has measured the points 7 and 8 one after the other: the last data is the second one. -/
example : ∃ h s, Seen21 [(some 1, some [7]), (some 1, some [8])] h s ∧
    last21 s = ⟨true, some [8]⟩ ∧ s.data = some [7, 8] :=
  ⟨_, _, seen21_watch .init
    (as := oneSample 1 [7] ++ [.worker {}, .worker {}, .worker {}, .worker {}, .worker {},
      .worker { result := some (some [8]) }, .worker {}, .worker {}]) rfl, rfl, rfl⟩

/-- `C129_refuted_single`: a measurement on its own is not among the data points of the task before
it, which are fetched after it: the last data is not at the end of what is fetched. -/
theorem C129_refuted_single : ∃ ms h s s' d, Seen21 ms h s ∧
    act s .cont = some (s', [.fetched (some d)]) ∧ last21 s = ⟨true, some [9]⟩ ∧ ¬ [9] <:+ d :=
  ⟨_, _, _, _, _, seen21_watch .init
    (as := oneSample 1 [7] ++ [.worker { over := true }, .worker {}, .worker {}, .worker {},
      .cmd .measure, .cont, .cont, .worker {}, .worker {}, .worker {}, .worker {},
      .worker { result := some (some [9]) }, .cmd .data, .cont]) rfl, rfl, rfl,
    by decide⟩

/-- `C129_refuted`: after `cmp_reset` the last data of before is still answered with success,
although the component is said to be reset to an initial status. -/
theorem C129_refuted : ∃ ms h s, Seen21 ms (h ++ [.wasReset]) s ∧
    last21 s = ⟨true, some [7]⟩ ∧ last21 Dev.init = ⟨false, none⟩ :=
  ⟨_, _, _, seen21_watch .init
    (as := oneSample 1 [7] ++ [.cmd (.reset true), .worker {}, .worker {}, .worker {}, .worker {}, .worker {},
      .worker {}, .worker {}, .cont])
      (h' := [Ev.accepted 1, .took 1, .prepared 1, .begun 1, .measuring 1, .measured 1 [7], .ended 1]
        ++ [Ev.wasReset]) rfl, rfl, rfl⟩

end

/-! ## Interface 2.0 -/

section
open Tomato.I20

/-- The measurement which an action completes: within `do_task` (2_0:652), which stores its result at
once, or in `meas_runner` (2_0:628). -/
def completes20 (s : Dev) : Act → List Completed
  | .thread i c =>
    match s.threads[i]? with
    | none => []
    | some t =>
      match t.pc, c.sample, c.result with
      | .turn x, true, some r => [(some x, r)]
      | .mMeas, _, some r => [(none, r)]
      | _, _, _ => []
  | .cmd _ => []

/-- Histories with the measurements completed in them. -/
inductive Seen20 : List Completed → List Ev → Dev → Prop where
  | init : Seen20 [] [] Dev.init
  | step {ms : List Completed} {h : List Ev} {s s' : Dev} {es : List Ev} (a : Act) :
      Seen20 ms h s → act s a = some (s', es) → Seen20 (ms ++ completes20 s a) (h ++ es) s'

/-- Every history has its measurements. -/
theorem seen20_of_hist {h : List Ev} {s : Dev} (hh : Hist h s) : ∃ ms, Seen20 ms h s := by
  induction hh with
  | init => exact ⟨[], .init⟩
  | step a _ ha ih =>
    obtain ⟨ms, hm⟩ := ih
    exact ⟨_, .step a hm ha⟩

/-- What holds of the last data and of the cache. -/
structure Kept20 (ms : List Completed) (s : Dev) : Prop where
  last : s.last = newest ms
  cache : ∀ t l d, ms.getLast? = some (some t, some l) → s.data = some d → l <:+ d

theorem kept20_congr {ms : List Completed} {s s' : Dev} (hk : Kept20 ms s)
    (h1 : s'.last = s.last) (h2 : s'.data = s.data ∨ s'.data = none) : Kept20 ms s' := by
  refine ⟨h1.trans hk.last, ?_⟩
  intro t l d hl hd
  rcases h2 with h2 | h2
  · exact hk.cache t l d hl (h2.symm.trans hd)
  · rw [h2] at hd; cases hd

theorem startThr_last (s : Dev) : (startThr s).1.last = s.last ∧ (startThr s).1.data = s.data := by
  unfold startThr
  split
  · split <;> exact ⟨rfl, rfl⟩
  · exact ⟨rfl, rfl⟩

theorem kept20_act {ms : List Completed} {s s' : Dev} {a : Act} {es : List Ev}
    (hk : Kept20 ms s) (ha : act s a = some (s', es)) : Kept20 (ms ++ completes20 s a) s' := by
  unfold act at ha
  split at ha
  · cases ha
  cases a with
  | cmd c =>
    simp only [completes20, List.append_nil]
    simp only [Option.some.injEq] at ha
    have h4 := congrArg Prod.fst ha
    simp only at h4
    subst h4
    cases c <;> simp only [command]
    · next t =>
      have h5 := startThr_last (setThr { s with queue := s.queue ++ [t], unfinished := s.unfinished + 1 } s.cur (fun t => { t with doRun := true }))
      exact kept20_congr hk h5.1 (.inl h5.2)
    · exact kept20_congr hk rfl (.inr rfl)
    · exact kept20_congr hk rfl (.inr rfl)
    · split
      · exact hk
      · have h5 := startThr_last (setThr (newThr s true) (newThr s true).cur (fun t => { t with doRun := true }))
        exact kept20_congr hk h5.1 (.inl h5.2)
    · exact kept20_congr hk rfl (.inr rfl)
  | thread i c =>
    simp only at ha
    unfold tstep at ha
    simp only [completes20]
    split at ha
    · cases ha
    · next t ht =>
      simp only [ht]
      split at ha
      all_goals (try split at ha)
      all_goals (try split at ha)
      all_goals (try split at ha)
      all_goals first
        | (cases ha; done)
        | skip
      all_goals (injection ha with ha; injection ha with ha1 ha2; subst ha1)
      all_goals simp_all only [List.append_nil]
      all_goals first
        | exact kept20_congr hk rfl (.inl rfl)
        | exact kept20_congr hk rfl (.inr rfl)
        | skip
      all_goals constructor
      all_goals simp_all [newest, goto, setThr]
      all_goals
        intro t0 l' d' _ h5 h6
        subst h5
        cases hd : s.data with
        | none => rw [hd] at h6; simp [storeData] at h6; subst h6; exact List.suffix_refl _
        | some d0 => rw [hd] at h6; simp [storeData] at h6; subst h6; exact List.suffix_append _ _

theorem kept20 {ms : List Completed} {h : List Ev} {s : Dev} (hm : Seen20 ms h s) :
    Kept20 ms s := by
  induction hm with
  | init => exact ⟨rfl, by simp⟩
  | step a _ ha ih => exact kept20_act ih ha

/-- C129, interface 2.0: at any time `cmp_last_data` answers with what the most recent completed
measurement stored, whichever of the threads did it. -/
theorem C129_last_two {ms : List Completed} {h : List Ev} {s : Dev} (hm : Seen20 ms h s) :
    (last20 s).data = newest ms ∧ ((last20 s).success = true ↔ (newest ms).isSome = true) := by
  have h1 := (kept20 hm).last
  unfold last20 ofLast
  rw [← h1]
  cases s.last <;> simp

/-- C129, interface 2.0: if the most recent measurement was done for a task, the data points handed out
by `task_data` and by `task_stop` end with its data points.  Not shown: a `cmp_reset` gives the component
a new lock, so that a thread of before may be within `do_task` during `get_data`. -/
theorem C129_end_two_partial {ms : List Completed} {h : List Ev} {s s' : Dev} {a : Act}
    {es : List Ev} (hm : Seen20 ms h s) (ha : act s a = some (s', es)) {d : List Nat}
    (hf : Ev.delivered (some d) ∈ es) {t : Nat} {l : List Nat}
    (hn : ms.getLast? = some (some t, some l)) : l <:+ d := by
  have hk := kept20 hm
  unfold act at ha
  split at ha
  · cases ha
  cases a with
  | cmd c =>
    simp only [Option.some.injEq] at ha
    have h4 := congrArg Prod.snd ha
    simp only at h4
    subst h4
    have hst : ∀ x, Ev.delivered (some d) ∉ (startThr x).2 := by
      intro x
      unfold startThr
      split
      · split <;> simp
      · simp
    cases c <;> simp only [command] at hf
    · simp [hst] at hf
    · simp at hf
      exact hk.cache t l d hn hf.symm
    · simp at hf
      exact hk.cache t l d hn hf.symm
    · split at hf
      · simp at hf
      · simp [hst] at hf
    · simp at hf
  | thread i c =>
    exfalso
    simp only at ha
    unfold tstep at ha
    split at ha
    · cases ha
    · split at ha
      all_goals (try split at ha)
      all_goals (try split at ha)
      all_goals (try split at ha)
      all_goals first
        | (cases ha; done)
        | (injection ha with ha; injection ha with ha1 ha2; subst ha2; simp at hf; done)

/-- The state after a run, with its history and its measurements. -/
def watch20 (s : Dev) (ms : List Completed) (h : List Ev) :
    List Act → Option (List Completed × List Ev × Dev)
  | [] => some (ms, h, s)
  | a :: as =>
    match act s a with
    | none => none
    | some (s', es) => watch20 s' (ms ++ completes20 s a) (h ++ es) as

theorem seen20_watch {s : Dev} {ms ms' : List Completed} {h h' : List Ev} {s' : Dev}
    {as : List Act} (hm : Seen20 ms h s) (hw : watch20 s ms h as = some (ms', h', s')) :
    Seen20 ms' h' s' := by
  induction as generalizing s ms h with
  | nil => simp [watch20] at hw; obtain ⟨rfl, rfl, rfl⟩ := hw; exact hm
  | cons a as ih =>
    simp only [watch20] at hw
    split at hw
    · cases hw
    · next s1 es ha => exact ih (.step a hm ha) hw

/-- A task has measured the points 7 and 8: the last data is the second one, and `task_data` would
hand out both. -/
example : ∃ h s s', Seen20 [(some 1, some [7]), (some 1, some [8])] h s ∧
    last20 s = ⟨true, some [8]⟩ ∧
    act s (.cmd .data) = some (s', [.delivered (some [7, 8])]) :=
  ⟨_, _, _, seen20_watch .init
    (as := [.cmd (.start 1), .thread 0 {}, .thread 0 {}, .thread 0 {}, .thread 0 {}, .thread 0 {},
      .thread 0 { result := some (some [7]) }, .thread 0 {},
      .thread 0 { result := some (some [8]) }]) rfl, rfl, rfl⟩

end

/-! ## Constants and status -/

/-- C130: the constants of a component: every constant of the component with its value, and every
constant of the driver which the component does not have; nothing else.  No key is there twice. -/
theorem C130_constants {V : Type} {d : Driver V} {key : String × String} {c : Cmp V}
    (hc : d.devmap.get? key = some c) (hd : (d.constants.keys).Nodup)
    (hk : (c.constants.keys).Nodup) :
    ∃ r, cmpConstants d key = ⟨true, some r⟩ ∧
      (∀ k, r.get? k = match c.constants.get? k with
        | some v => some v
        | none => d.constants.get? k) ∧
      (r.keys).Nodup := by
  refine ⟨d.constants.update c.constants, by simp [cmpConstants, hc], ?_, ?_⟩
  · have key : ∀ (e d : Dict String V), (e.keys).Nodup → ∀ k, (d.update e).get? k =
        match e.get? k with
        | some v => some v
        | none => d.get? k := by
      intro e
      induction e with
      | nil => intro d _ k; rfl
      | cons kv e ih =>
        intro d hn k
        obtain ⟨k1, v1⟩ := kv
        simp only [Dict.keys, List.map_cons, List.nodup_cons] at hn
        have h1 := ih (d.set k1 v1) hn.2 k
        simp only [Dict.update, List.foldl_cons] at h1 ⊢
        rw [h1]
        simp only [Dict.get?]
        by_cases hkk : k1 = k
        · subst hkk
          have h2 : Dict.get? e k1 = none := by
            cases h3 : Dict.get? e k1 with
            | none => rfl
            | some v =>
              exact absurd (Dict.mem_keys_iff.mpr (by rw [h3]; rfl)) hn.1
          simp [h2]
        · simp [hkk, Dict.get?_set_ne d v1 hkk]
    exact key c.constants d.constants hk
  · have key : ∀ (e d : Dict String V), (d.keys).Nodup → ((d.update e).keys).Nodup := by
      intro e
      induction e with
      | nil => intro d h; exact h
      | cons kv e ih =>
        intro d h
        exact ih _ (Dict.nodup_keys_set h kv.1 kv.2)
    exact key c.constants d.constants hd

/-- C130: a component which is not registered has no constants and no status: the request is
refused. -/
theorem C130_unknown {V : Type} {d : Driver V} {key : String × String}
    (hc : key ∉ d.devmap.keys) :
    (cmpConstants d key).success = false ∧ (cmpConstants d key).data = none ∧
      ∃ r, cmpStatus d key = some r ∧ r.success = false ∧ r.data = none := by
  have h1 : d.devmap.get? key = none := by
    cases h : d.devmap.get? key with
    | none => rfl
    | some v => exact absurd (Dict.mem_keys_iff.mpr (by rw [h]; rfl)) hc
  refine ⟨by simp [cmpConstants, h1], by simp [cmpConstants, h1], ⟨false, none⟩, by simp [cmpStatus, h1], rfl, rfl⟩

theorem statusLoop_spec {V : Type} (c : Cmp V) (as : Dict String Attr) :
    ∀ (ret r : Dict String V), (as.keys).Nodup → statusLoop c ret as = some r →
      (∀ k, r.get? k = match as.get? k with
        | some a => if a.status then c.getAttr k else ret.get? k
        | none => ret.get? k) ∧
      (∀ k a, as.get? k = some a → a.status = true → (c.getAttr k).isSome = true) := by
  induction as with
  | nil =>
    intro ret r _ h
    simp only [statusLoop, Option.some.injEq] at h
    subst h
    exact ⟨fun k => rfl, fun k a h => by simp at h⟩
  | cons ka as ih =>
    intro ret r hn h
    obtain ⟨k1, a1⟩ := ka
    have hn' : k1 ∉ Dict.keys as ∧ (Dict.keys as).Nodup := by
      simpa only [Dict.keys, List.map_cons, List.nodup_cons] using hn
    have hno : Dict.get? as k1 = none := by
      cases h3 : Dict.get? as k1 with
      | none => rfl
      | some v => exact absurd (Dict.mem_keys_iff.mpr (by rw [h3]; rfl)) hn'.1
    simp only [statusLoop] at h
    split at h
    · next hs =>
      cases hg : c.getAttr k1 with
      | none => rw [hg] at h; cases h
      | some v =>
        rw [hg] at h
        obtain ⟨h1, h2⟩ := ih _ _ hn'.2 h
        refine ⟨fun k => ?_, fun k a hka hst => ?_⟩
        · rw [h1 k]
          simp only [Dict.get?]
          by_cases hkk : k1 = k
          · subst hkk
            simp [hno, hs, hg]
          · simp [hkk, Dict.get?_set_ne ret v hkk]
        · simp only [Dict.get?] at hka
          split at hka
          · next hkk => subst hkk; rw [hg]; rfl
          · exact h2 k a hka hst
    · next hs =>
      obtain ⟨h1, h2⟩ := ih _ _ hn'.2 h
      refine ⟨fun k => ?_, fun k a hka hst => ?_⟩
      · rw [h1 k]
        simp only [Dict.get?]
        by_cases hkk : k1 = k
        · subst hkk
          simp [hno, hs]
        · simp [hkk]
      · simp only [Dict.get?] at hka
        split at hka
        · injection hka with hka; subst hka; exact absurd hst hs
        · exact h2 k a hka hst

theorem statusLoop_none {V : Type} (c : Cmp V) (as : Dict String Attr) :
    ∀ ret, statusLoop c ret as = none →
      ∃ k a, (k, a) ∈ as ∧ a.status = true ∧ c.getAttr k = none := by
  induction as with
  | nil => intro ret h; cases h
  | cons ka as ih =>
    intro ret h
    obtain ⟨k1, a1⟩ := ka
    simp only [statusLoop] at h
    split at h
    · next hs =>
      cases hg : c.getAttr k1 with
      | none => exact ⟨k1, a1, by simp, hs, hg⟩
      | some v =>
        rw [hg] at h
        obtain ⟨k, a, h1, h2⟩ := ih _ h
        exact ⟨k, a, by simp [h1], h2⟩
    · obtain ⟨k, a, h1, h2⟩ := ih _ h
      exact ⟨k, a, by simp [h1], h2⟩

/-- C130: if every attribute marked with `status` can be read, the status report of a component
contains exactly these attributes with the values read, and `running`.  Missing: an attribute of
the name `running` (`C130_refuted`). -/
theorem C130_status_partial {V : Type} {d : Driver V} {key : String × String} {c : Cmp V}
    (hc : d.devmap.get? key = some c) (hk : (c.attrs.keys).Nodup)
    (hr : ∀ k a, (k, a) ∈ c.attrs → a.status = true → (c.getAttr k).isSome = true) :
    ∃ r, cmpStatus d key = some ⟨true, some r⟩ ∧ r.get? "running" = some c.running ∧
      ∀ k, k ≠ "running" → ∀ v, r.get? k = some v ↔
        (∃ a, (k, a) ∈ c.attrs ∧ a.status = true) ∧ c.getAttr k = some v := by
  cases hs : statusLoop c [] c.attrs with
  | none =>
    obtain ⟨k, a, h1, h2, h3⟩ := statusLoop_none c c.attrs [] hs
    have := hr k a h1 h2
    rw [h3] at this
    cases this
  | some r =>
    refine ⟨r.set "running" c.running, by simp [cmpStatus, hc, hs], by simp, ?_⟩
    intro k hkr v
    rw [Dict.get?_set_ne r c.running (Ne.symm hkr), (statusLoop_spec c c.attrs [] r hk hs).1 k]
    have huniq : ∀ (as : Dict String Attr), (as.keys).Nodup → ∀ a, (k, a) ∈ as →
        as.get? k = some a := by
      intro as
      induction as with
      | nil => intro _ a h; simp at h
      | cons kv as ih =>
        intro hn a h
        obtain ⟨k1, a1⟩ := kv
        simp only [Dict.keys, List.map_cons, List.nodup_cons] at hn
        simp only [Dict.get?]
        simp only [List.mem_cons, Prod.mk.injEq] at h
        rcases h with ⟨rfl, rfl⟩ | h
        · simp
        · split
          · next hkk =>
            subst hkk
            exact absurd (List.mem_map_of_mem (f := (·.1)) h) hn.1
          · exact ih hn.2 a h
    constructor
    · intro h
      cases ha : Dict.get? c.attrs k with
      | none => rw [ha] at h; simp at h
      | some a =>
        rw [ha] at h
        simp only at h
        split at h
        · next hst => exact ⟨⟨a, Dict.get?_some_mem ha, hst⟩, h⟩
        · simp at h
    · rintro ⟨⟨a, hm, hst⟩, hg⟩
      rw [huniq c.attrs hk a hm]
      simp [hst, hg]

/-- C130: if an attribute marked with `status` cannot be read, there is no report: the exception of
`get_attr` leaves `cmp_status`. -/
theorem C130_status_raises {V : Type} {d : Driver V} {key : String × String} {c : Cmp V}
    (hc : d.devmap.get? key = some c) {k : String} {a : Attr} (hm : (k, a) ∈ c.attrs)
    (hs : a.status = true) (hg : c.getAttr k = none) : cmpStatus d key = none := by
  have key : ∀ (as : Dict String Attr) (ret : Dict String V), (k, a) ∈ as →
      statusLoop c ret as = none := by
    intro as
    induction as with
    | nil => intro ret h; simp at h
    | cons kv as ih =>
      intro ret h
      obtain ⟨k1, a1⟩ := kv
      simp only [statusLoop]
      simp only [List.mem_cons, Prod.mk.injEq] at h
      rcases h with ⟨rfl, rfl⟩ | h
      · simp [hs, hg]
      · split
        · split
          · rfl
          · exact ih _ h
        · exact ih _ h
  simp [cmpStatus, hc, key c.attrs [] hm]

/-- A component with three attributes, two of them in the status. -/
def sampleCmp : Cmp Nat where
  constants := [("serial", 12), ("range", 3)]
  attrs := [("voltage", ⟨true⟩), ("limit", ⟨false⟩), ("current", ⟨true⟩)]
  getAttr k := if k = "voltage" then some 5 else if k = "current" then some 2 else none
  running := 1

example : cmpConstants { constants := [("range", 1), ("version", 4)], devmap := [(("a", "1"), sampleCmp)] } ("a", "1")
    = ⟨true, some [("range", 3), ("version", 4), ("serial", 12)]⟩ := by decide

example : cmpStatus { devmap := [(("a", "1"), sampleCmp)] } ("a", "1")
    = some ⟨true, some [("voltage", 5), ("current", 2), ("running", 1)]⟩ := by decide

example : (cmpConstants { devmap := [(("a", "1"), sampleCmp)] } ("a", "2")).success = false := by
  decide

/-- `C130_refuted`: an attribute `running`, marked with `status`, is not reported: the flag of the
component is in its place. -/
theorem C130_refuted : ∃ (c : Cmp Nat) (d : Driver Nat), d.devmap.get? ("a", "1") = some c ∧
    (c.attrs.keys).Nodup ∧ ("running", ⟨true⟩) ∈ c.attrs ∧ c.getAttr "running" = some 7 ∧
    ∃ r, cmpStatus d ("a", "1") = some ⟨true, some r⟩ ∧ r.get? "running" ≠ some 7 ∧
      (7 : Nat) ∉ r.values :=
  ⟨{ attrs := [("running", ⟨true⟩)], getAttr := fun _ => some 7, running := 0 },
    { devmap := [(("a", "1"), { attrs := [("running", ⟨true⟩)], getAttr := fun _ => some 7, running := 0 })] },
    rfl, by decide, by decide, rfl, [("running", 0)], rfl, by decide, by decide⟩

end Tomato.Props.Latest
