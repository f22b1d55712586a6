import Verif.Plant
import Verif.Props.EndToEndOwn
import Verif.Props.Exclusive
import Mathlib.Data.List.Nodup

/-!
# Data of different roles and of different jobs do not mix (C108)
-/

namespace Tomato.Props
open Tomato.Plant

/-! ## Specification -/

/-- What thread `k` did. -/
def ownSteps (k : Nat) (h : List Ev) : List JobT.Ev :=
  h.filterMap (fun e => match e with
    | .thr j e => if j = k then some e else none
    | .dev _ _ => none)

/-- What component `m` did. -/
def ownDevice (m : Nat) (h : List Ev) : List I21.Ev :=
  h.filterMap (fun e => match e with
    | .dev j e => if j = m then some e else none
    | .thr _ _ => none)

/-- Different threads have different components. -/
def OwnComps (L : Lay) (n : Nat) : Prop := ∀ j < n, ∀ k < n, L.comp j = L.comp k → j = k

/-- The data points measured for the tasks of thread `k`: by its component, for a task which is
called like one of its tasks. -/
def measuredOwn (L : Lay) (tasks : List Task) (k : Nat) (h : List Ev) : List Nat :=
  (ownDevice (L.comp k) h).flatMap (fun e => match e with
    | .measured n ps => if (List.range tasks.length).any (fun i => L.tag k i == n) then ps else []
    | _ => [])

/-- Roles of a pipeline in the file use different channels. -/
def RolesApart (raw : RawFile) : Prop :=
  ∀ pip ∈ raw.pipelines, ∀ role dev ch role' dev' ch', Uses raw pip role dev ch →
    Uses raw pip role' dev' ch' → role ≠ role' → ¬ SameChannel dev ch dev' ch'

/-- The role of the pipeline called `n` is played by this component. -/
def Plays (df : DeviceFile) (n role : String) (c : Component) : Prop :=
  ∃ p k, Dict.get? df.pipelines n = some p ∧ (role, k) ∈ p.components ∧
    Dict.get? df.components k = some c

/-! ## One thread and its component -/

/-- What thread `k` and component `m` did. -/
def cutOut (k m : Nat) (h : List Ev) : List E2E.Ev :=
  h.filterMap (fun e => match e with
    | .thr j e => if j = k then some (.thr e) else none
    | .dev j e => if j = m then some (.dev e) else none)

theorem cut_append (k m : Nat) (h h' : List Ev) : cutOut k m (h ++ h') = cutOut k m h ++ cutOut k m h' :=
  List.filterMap_append

theorem cut_devs (k m : Nat) (es : List I21.Ev) : cutOut k m (es.map (.dev m)) = es.map .dev := by
  induction es with
  | nil => rfl
  | cons e es ih =>
    simp only [cutOut] at ih
    simp [cutOut, ih]

theorem cut_devs_ne (k : Nat) {m m' : Nat} (hm : m' ≠ m) (es : List I21.Ev) :
    cutOut k m (es.map (.dev m')) = [] := by
  induction es with
  | nil => rfl
  | cons e es ih =>
    simp only [cutOut] at ih
    simp [cutOut, ih, hm]

theorem thrPart_cut (k m : Nat) (h : List Ev) : thrPart (cutOut k m h) = ownSteps k h := by
  induction h with
  | nil => rfl
  | cons e h ih =>
    simp only [thrPart, cutOut, ownSteps] at ih ⊢
    cases e with
    | thr j e => by_cases hj : j = k <;> simp [hj, ih]
    | dev j e => by_cases hj : j = m <;> simp [hj, ih]

theorem devPart_cut (k m : Nat) (h : List Ev) : devPart (cutOut k m h) = ownDevice m h := by
  induction h with
  | nil => rfl
  | cons e h ih =>
    simp only [devPart, cutOut, ownDevice] at ih ⊢
    cases e with
    | thr j e => by_cases hj : j = k <;> simp [hj, ih]
    | dev j e => by_cases hj : j = m <;> simp [hj, ih]

theorem findSome?_only {α β : Type} {f : α → Option β} {l : List α} {x : α} (hx : x ∈ l)
    (h : ∀ y ∈ l, y ≠ x → f y = none) : l.findSome? f = f x := by
  induction l with
  | nil => cases hx
  | cons a l ih =>
    rw [List.findSome?_cons]
    by_cases ha : a = x
    · subst ha
      cases hf : f a with
      | some b => rfl
      | none =>
        simp only
        rw [List.findSome?_eq_none_iff]
        intro y hy
        by_cases hya : y = a
        · rw [hya]; exact hf
        · exact h y (List.mem_cons_of_mem _ hy) hya
    · rw [h a List.mem_cons_self ha]
      simp only
      refine ih ?_ (fun y hy => h y (List.mem_cons_of_mem _ hy))
      rcases List.mem_cons.mp hx with rfl | hx
      · exact absurd rfl ha
      · exact hx

theorem find_range (n m : Nat) : (List.range n).find? (fun i => i == m) = if m < n then some m else none := by
  split
  · next h =>
    rw [List.find?_eq_some_iff_append]
    refine ⟨by simp, List.range m, List.range' (m + 1) (n - m - 1), ?_, ?_⟩
    · rw [List.range_eq_range', List.range_eq_range', ← List.range'_succ]
      have : n = m + (n - m - 1 + 1) := by omega
      rw [this, ← List.range'_append_1]
      simp
    · intro a ha
      have := List.mem_range.mp ha
      simp; omega
  · next h =>
    rw [List.find?_eq_none]
    intro x hx
    have := List.mem_range.mp hx
    simp; omega

/-- Tasks of a component which only one thread talks to. -/
theorem taskOf_apart {L : Lay} {cls : List Cl} {k : Nat} {c : Cl} (hA : OwnComps L cls.length)
    (hT : ∀ i, L.tag k i = i) (hc : cls[k]? = some c) (n : Nat) :
    taskOf L cls (L.comp k) n = c.t.tasks[n]? := by
  have hk : k < cls.length := (List.getElem?_eq_some_iff.mp hc).1
  unfold taskOf
  rw [findSome?_only (x := k) (List.mem_range.mpr hk)]
  · simp only [if_true, hc, Option.bind_some, hT, find_range]
    split
    · rfl
    · next h => simp only [Option.bind_none]; exact (List.getElem?_eq_none (by omega)).symm
  · intro y hy hne
    rw [if_neg (fun e => hne (hA y (List.mem_range.mp hy) k hk e))]

theorem take_apart {L : Lay} {cls : List Cl} {k : Nat} {c : Cl} (hA : OwnComps L cls.length)
    (hT : ∀ i, L.tag k i = i) (hc : cls[k]? = some c) (d : I21.Dev) (q : JobT.Q) (b : Bool) :
    E2E.take ⟨c.t, d, c.net⟩ q b =
      (⟨c.t, (Plant.take L cls (L.comp k) (L.tag k c.t.i) d q b).1,
        (Plant.take L cls (L.comp k) (L.tag k c.t.i) d q b).2.1⟩,
       (Plant.take L cls (L.comp k) (L.tag k c.t.i) d q b).2.2) := by
  have hs : Plant.status L cls (L.comp k) d = E2E.status c.t.tasks d := by
    unfold Plant.status E2E.status
    congr 3
    split <;> simp_all [taskOf_apart hA hT hc]
  rw [hT]
  cases q <;> simp only [E2E.take, Plant.take, hs]
  split <;> rfl

theorem thr_apart {c c' : Cl} {d : I21.Dev} {x : JobT.Choice} {e : JobT.Ev} (h : clStep c x = some (c', e)) :
    E2E.act ⟨c.t, d, c.net⟩ (.thr x) = some (⟨c'.t, d, c'.net⟩, [.thr e]) := by
  obtain ⟨t, net⟩ := c
  have key : ∀ (y : JobT.Choice) (n : E2E.Net), Plant.thrStep ⟨t, net⟩ y n = some (c', e) →
      E2E.thrStep ⟨t, d, net⟩ y n = some (⟨c'.t, d, c'.net⟩, [.thr e]) := by
    intro y n hy
    unfold Plant.thrStep at hy
    unfold E2E.thrStep
    split at hy
    · cases hy
    · next t' e' ht => cases hy; simp only at ht; rw [ht]
  unfold clStep at h
  simp only [E2E.act]
  simp only at h
  split at h
  · next q hq =>
    rw [hq]
    split at h
    · exact key _ _ h
    · cases h
  · next q hq => rw [hq]; exact key _ _ h
  · next h1 h2 =>
    split
    · next q hq => exact absurd hq (h1 q)
    · next q hq => exact absurd hq (h2 q)
    · exact key _ _ h

theorem act_length {L : Lay} {s s' : St} {a : Plant.Act} {es : List Ev} (h : Plant.act L s a = some (s', es)) :
    s'.cls.length = s.cls.length := by
  cases a <;> simp only [Plant.act] at h <;> (repeat' split at h) <;> cases h <;>
    simp [answers]

theorem hist_length {L : Lay} {ts : List (List Task)} {devs : List I21.Dev} {h : List Ev} {s : St}
    (hh : Plant.Hist L ts devs h s) : s.cls.length = ts.length := by
  induction hh with
  | init => simp [Plant.St.init]
  | step a _ ha ih => rw [act_length ha, ih]

/-- With a component of its own, a thread and its component do what they could do alone. -/
theorem apart_hist {L : Lay} {ts : List (List Task)} {devs : List I21.Dev} {h : List Ev} {s : St}
    (hh : Plant.Hist L ts devs h s) (hA : OwnComps L ts.length) {k : Nat} (hT : ∀ i, L.tag k i = i)
    {c : Cl} {d : I21.Dev} (hc : s.cls[k]? = some c) (hd : s.devs[L.comp k]? = some d) :
    ∃ tasks d₀, ts[k]? = some tasks ∧ devs[L.comp k]? = some d₀ ∧
      E2E.Hist tasks d₀ (cutOut k (L.comp k) h) ⟨c.t, d, c.net⟩ := by
  induction hh generalizing c d with
  | init =>
    simp only [Plant.St.init, List.getElem?_map, Option.map_eq_some_iff] at hc hd
    obtain ⟨tasks, ht, rfl⟩ := hc
    exact ⟨tasks, d, ht, hd, .init⟩
  | @step h s s' es a hh ha ih =>
    have hA' : OwnComps L s.cls.length := by rw [hist_length hh]; exact hA
    -- nothing happened to the thread and its component
    have stay : s.cls[k]? = some c → s.devs[L.comp k]? = some d → cutOut k (L.comp k) es = [] →
        ∃ tasks d₀, ts[k]? = some tasks ∧ devs[L.comp k]? = some d₀ ∧
          E2E.Hist tasks d₀ (cutOut k (L.comp k) (h ++ es)) ⟨c.t, d, c.net⟩ := by
      intro h1 h2 h3
      obtain ⟨tasks, d₀, g1, g2, g3⟩ := ih h1 h2
      refine ⟨tasks, d₀, g1, g2, ?_⟩
      rw [cut_append, h3, List.append_nil]
      exact g3
    -- they did a step
    have move : ∀ (c₀ : Cl) (d' : I21.Dev) (b : E2E.Act), s.cls[k]? = some c₀ → s.devs[L.comp k]? = some d' →
        E2E.act ⟨c₀.t, d', c₀.net⟩ b = some (⟨c.t, d, c.net⟩, cutOut k (L.comp k) es) →
        ∃ tasks d₀, ts[k]? = some tasks ∧ devs[L.comp k]? = some d₀ ∧
          E2E.Hist tasks d₀ (cutOut k (L.comp k) (h ++ es)) ⟨c.t, d, c.net⟩ := by
      intro c₀ d' b h1 h2 h3
      obtain ⟨tasks, d₀, g1, g2, g3⟩ := ih h1 h2
      refine ⟨tasks, d₀, g1, g2, ?_⟩
      rw [cut_append]
      exact .step b g3 h3
    have hlt : k < s.cls.length := by
      rw [← act_length ha]
      exact (List.getElem?_eq_some_iff.mp hc).1
    cases a with
    | thr j x =>
      simp only [Plant.act] at ha
      split at ha
      · cases ha
      · next c₀ hc₀ =>
        split at ha
        · cases ha
        · next c₁ e hst =>
          cases ha
          by_cases hj : j = k
          · subst hj
            rw [List.getElem?_set_self hlt] at hc
            cases hc
            refine move c₀ d (.thr x) hc₀ hd ?_
            rw [thr_apart hst]
            simp [cutOut]
          · rw [List.getElem?_set_ne hj] at hc
            exact stay hc hd (by simp [cutOut, hj])
    | tell j ns =>
      simp only [Plant.act] at ha
      split at ha
      · cases ha
      · next c₀ hc₀ =>
        cases ha
        by_cases hj : j = k
        · subst hj
          rw [List.getElem?_set_self hlt] at hc
          cases hc
          exact move c₀ d (.tell ns) hc₀ hd rfl
        · rw [List.getElem?_set_ne hj] at hc
          exact stay hc hd rfl
    | take j b =>
      simp only [Plant.act] at ha
      split at ha
      · next c₀ d' hc₀ hd' =>
        split at ha
        · next q hq =>
          split at ha
          · next hidle =>
            cases ha
            have hjlt : j < s.cls.length := (List.getElem?_eq_some_iff.mp hc₀).1
            by_cases hj : j = k
            · subst hj
              rw [List.getElem?_set_self hlt] at hc
              rw [List.getElem?_set_self (List.getElem?_eq_some_iff.mp hd').1] at hd
              cases hc
              cases hd
              refine move c₀ d' (.take b) hc₀ hd' ?_
              simp only [E2E.act, hq, hidle, if_true]
              rw [cut_devs]
              have := take_apart hA' hT hc₀ d' q b
              rw [hq] at this
              rw [this]
            · have hne : L.comp j ≠ L.comp k := fun e => hj (hA' j hjlt k hlt e)
              rw [List.getElem?_set_ne hj] at hc
              rw [List.getElem?_set_ne hne] at hd
              exact stay hc hd (cut_devs_ne k hne _)
          · cases ha
        · cases ha
      · cases ha
    | work m x =>
      simp only [Plant.act] at ha
      split at ha
      · cases ha
      · next d' hd' =>
        split at ha
        · cases ha
        · next d'' es' hw =>
          cases ha
          by_cases hm : m = L.comp k
          · subst hm
            rw [List.getElem?_set_self (List.getElem?_eq_some_iff.mp hd').1] at hd
            cases hd
            refine move c d' (.work x) hc hd' ?_
            simp only [E2E.act, hw, cut_devs]
          · rw [List.getElem?_set_ne hm] at hd
            exact stay hc hd (cut_devs_ne k hm _)
    | cont m =>
      simp only [Plant.act] at ha
      split at ha
      · cases ha
      · next d' hd' =>
        split at ha
        · cases ha
        · next d'' es' hw =>
          cases ha
          simp only [answers, List.getElem?_mapIdx, Option.map_eq_some_iff] at hc
          obtain ⟨c₀, hc₀, hc⟩ := hc
          by_cases hm : m = L.comp k
          · subst hm
            rw [List.getElem?_set_self (List.getElem?_eq_some_iff.mp hd').1] at hd
            cases hd
            rw [if_pos rfl] at hc
            subst hc
            refine move c₀ d' .cont hc₀ hd' ?_
            simp only [E2E.act, hw, cut_devs]
          · rw [List.getElem?_set_ne hm] at hd
            rw [if_neg (fun e => hm e.symm)] at hc
            subst hc
            exact stay hc₀ hd (cut_devs_ne k hm _)
    | measure m =>
      simp only [Plant.act] at ha
      split at ha
      · cases ha
      · next d' hd' =>
        split at ha
        · next hidle =>
          cases ha
          by_cases hm : m = L.comp k
          · subst hm
            rw [List.getElem?_set_self (List.getElem?_eq_some_iff.mp hd').1] at hd
            cases hd
            refine move c d' .measure hc hd' ?_
            simp only [E2E.act, hidle, if_true, cut_devs]
          · rw [List.getElem?_set_ne hm] at hd
            exact stay hc hd (cut_devs_ne k hm _)
        · cases ha
    | lose j =>
      simp only [Plant.act] at ha
      split at ha
      · cases ha
      · next c₀ hc₀ =>
        split at ha
        · cases ha
        · next hn =>
          cases ha
          by_cases hj : j = k
          · subst hj
            rw [List.getElem?_set_self hlt] at hc
            cases hc
            refine move c₀ d .lose hc₀ hd ?_
            simp only [E2E.act, cutOut, List.filterMap_nil]
          · rw [List.getElem?_set_ne hj] at hc
            exact stay hc hd rfl

theorem all_own {L : Lay} {tasks : List Task} {k : Nat} {h : List Ev} (hT : ∀ i, L.tag k i = i)
    (hm : ∀ n ps, .measured n ps ∈ ownDevice (L.comp k) h → n < tasks.length) :
    measuredOwn L tasks k h = measuredAll (ownDevice (L.comp k) h) := by
  unfold measuredOwn measuredAll
  generalize ownDevice (L.comp k) h = es at hm
  induction es with
  | nil => rfl
  | cons e es ih =>
    rw [List.flatMap_cons, List.flatMap_cons, ih (fun n ps hn => hm n ps (List.mem_cons_of_mem _ hn))]
    congr 1
    cases e <;> try rfl
    next n ps =>
      have := hm n ps List.mem_cons_self
      simp only [hT]
      rw [if_pos]
      simp only [List.any_eq_true, List.mem_range, beq_iff_eq]
      exact ⟨n, this, rfl⟩

/-- **C108** (partial): if no two threads, of the same job or of different ones, have the same
component, then the file of every thread contains only data measured for its own tasks, in this
order, whatever the other threads do.  Its component measures only for tasks which this thread has
submitted.  Missing: threads with the same component (`C108_refuted`, `C108_refuted_roles`). -/
theorem C108_apart_partial {L : Lay} {ts : List (List Task)} {devs : List I21.Dev} {h : List Ev} {s : St}
    (hh : Plant.Hist L ts devs h s) (hA : OwnComps L ts.length) (hT : ∀ k i, L.tag k i = i)
    (h0 : ∀ (m : Nat) d, devs[m]? = some d → ∃ hd, I21.Hist hd d ∧ Rests hd d)
    {k : Nat} {tasks : List Task} {c : Cl} {d : I21.Dev} (hk : ts[k]? = some tasks)
    (hc : s.cls[k]? = some c) (hd : s.devs[L.comp k]? = some d) :
    c.t.file.content.Sublist (measuredOwn L tasks k h) ∧
    ∀ n ps, .measured n ps ∈ ownDevice (L.comp k) h →
      n < tasks.length ∧ .sent n .start ∈ ownSteps k h := by
  obtain ⟨tasks', d₀, g1, g2, g3⟩ := apart_hist hh hA (hT k) hc hd
  rw [hk] at g1
  cases g1
  obtain ⟨hd', q1, q2⟩ := h0 _ _ g2
  have := C72_own_partial q1 q2 g3
  rw [devPart_cut, thrPart_cut] at this
  refine ⟨?_, this.2⟩
  rw [all_own (hT k) (fun n ps hn => (this.2 n ps hn).1)]
  exact this.1

/-! ## Components of a configuration -/

/-- In a configuration whose entries, and whose roles within an entry, use different channels,
different roles are played by different hardware. -/
theorem C108_hardware_partial (raw : RawFile) (df : DeviceFile) (h : populateAttrs raw = .ok df)
    (hp : PlainNames raw) (hx : Exclusive raw) (hro : RolesApart raw) {n n' role role' : String}
    (hne : (n, role) ≠ (n', role')) {c c' : Component} (hc : Plays df n role c) (hc' : Plays df n' role' c') :
    ¬ SameHardware c c' := by
  by_cases hn : n = n'
  · subst hn
    have hrr : role ≠ role' := fun e => hne (by rw [e])
    rintro ⟨e1, e2, e3⟩
    have hcons := (C35_accepted_iff_consistent raw).mp ⟨df, h⟩
    obtain ⟨_, _, h3, _⟩ := populate_eq h
    obtain ⟨p, k, hg, hr, hk⟩ := hc
    obtain ⟨p', k', hg', hr', hk'⟩ := hc'
    rw [hg] at hg'
    cases hg'
    rw [h3] at hg
    obtain ⟨hm, -⟩ := get?_setAll_mem hg
    obtain ⟨pip, hpip, hm⟩ := List.mem_flatMap.mp hm
    obtain ⟨dev, ch, hu, hch, hkn, href⟩ := pips_uses (hcons pip hpip) hm hr
    obtain ⟨dev', ch', hu', hch', hkn', href'⟩ := pips_uses (hcons pip hpip) hm hr'
    have hdev : dev ∈ raw.devices := by
      obtain ⟨_, _, _, hk, _⟩ := hu
      exact known_mem hk
    have hdev' : dev' ∈ raw.devices := by
      obtain ⟨_, _, _, hk, _⟩ := hu'
      exact known_mem hk
    obtain ⟨c1, g1, a1, a2, a3⟩ := component_of_ref h hp hpip hdev hch href
    obtain ⟨c2, g2, b1, b2, b3⟩ := component_of_ref h hp hpip hdev' hch' href'
    rw [← hkn, hk] at g1
    rw [← hkn', hk'] at g2
    cases g1
    cases g2
    exact hro pip hpip _ _ _ _ _ _ hu hu' hrr
      ⟨a1.symm.trans (e1.trans b1), a2.symm.trans (e2.trans b2), a3.symm.trans (e3.trans b3)⟩
  · obtain ⟨p, k, q1, q2, q3⟩ := hc
    obtain ⟨p', k', q1', q2', q3'⟩ := hc'
    exact exclusive_disjoint raw df h hp hx hn ⟨p, role, k, q1, q2, q3⟩ ⟨p', role', k', q1', q2', q3'⟩

/-- **C108** (partial), from the file of devices on: thread `k` is the one for a role of a pipeline,
`places[k]`, and threads talk to the same component only if the configuration says that it is the
same hardware.  If the entries of the file use different channels, then every thread's file contains
only data measured for its own tasks. -/
theorem C108_partial (raw : RawFile) (df : DeviceFile) (hok : populateAttrs raw = .ok df)
    (hp : PlainNames raw) (hx : Exclusive raw) (hro : RolesApart raw)
    {L : Lay} {ts : List (List Task)} {devs : List I21.Dev} {h : List Ev} {s : St}
    (places : List (String × String)) (hnd : places.Nodup) (hlen : places.length = ts.length)
    (cs : Nat → Component) (hpl : ∀ (k : Nat) n role, places[k]? = some (n, role) → Plays df n role (cs k))
    (hL : ∀ j < ts.length, ∀ k < ts.length, L.comp j = L.comp k → SameHardware (cs j) (cs k))
    (hh : Plant.Hist L ts devs h s) (hT : ∀ k i, L.tag k i = i)
    (h0 : ∀ (m : Nat) d, devs[m]? = some d → ∃ hd, I21.Hist hd d ∧ Rests hd d)
    {k : Nat} {tasks : List Task} {c : Cl} {d : I21.Dev} (hk : ts[k]? = some tasks)
    (hc : s.cls[k]? = some c) (hd : s.devs[L.comp k]? = some d) :
    c.t.file.content.Sublist (measuredOwn L tasks k h) := by
  refine (C108_apart_partial hh ?_ hT h0 hk hc hd).1
  intro i hi j hj he
  by_cases hij : i = j
  · exact hij
  · have hi' : i < places.length := by omega
    have hj' : j < places.length := by omega
    refine absurd (hL i hi j hj he) (C108_hardware_partial raw df hok hp hx hro ?_
      (hpl i _ _ (List.getElem?_eq_getElem hi')) (hpl j _ _ (List.getElem?_eq_getElem hj')))
    intro e
    exact hij ((List.Nodup.getElem_inj_iff hnd).mp e)

/-! ## Threads with the same component -/

theorem plant_hist {L : Lay} {ts : List (List Task)} {devs : List I21.Dev} {h es : List Ev} {s s' : St}
    {as : List Plant.Act} (hh : Plant.Hist L ts devs h s) (hr : Plant.run L s as = some (s', es)) :
    Plant.Hist L ts devs (h ++ es) s' := by
  induction as generalizing h es s with
  | nil => cases hr; simpa using hh
  | cons a as ih =>
    simp only [Plant.run] at hr
    split at hr
    · cases hr
    · next s₁ es₁ ha =>
      split at hr
      · cases hr
      · next s₂ es₂ hr' =>
        cases hr
        rw [← List.append_assoc]
        exact ih (.step a hh ha) hr'

/-- A schedule for a thread and its component, as thread `k` with component `m`. -/
def onPlant (k m : Nat) (as : List E2E.Act) : List Plant.Act :=
  as.map (fun a => match a with
    | .thr c => .thr k c
    | .tell ns => .tell k ns
    | .take b => .take k b
    | .work c => .work m c
    | .cont => .cont m
    | .measure => .measure m
    | .lose => .lose k)

/-- All threads have the same component; tasks of different threads have different names. -/
def oneComp : Lay := { comp := fun _ => 0, tag := fun k i => 10 * k + i }

/-- Each thread has its own component. -/
def sepComps : Lay := { comp := fun k => k, tag := fun _ i => i }

/-- The file of thread `k`. -/
def fileOf (s : St) (k : Nat) : Option (List Nat) := s.cls[k]?.map (fun c => c.t.file.content)

/-- The first thread submits its task, and two data points are measured.  The second one submits an
equal task, which has to wait, but is told that "its" task is running, and fetches the data. -/
def sharedActs : List Plant.Act :=
  onPlant 0 0 (submits ++ samples [1, 2]) ++ onPlant 1 0 (thrs 2 ++ rq ++ rq ++ rq) ++
  onPlant 1 0 polls

/-- **C108 is false of the code** if two pipelines have the same component: such a file of devices is
accepted, jobs run on both (`C21_refuted`), and if they submit equal tasks, data measured for the task
of the first job are stored in the file of the second one, for whose task nothing was measured. -/
theorem C108_refuted : populateAttrs rawShared = .ok dfShared ∧
    (∃ c, Plays dfShared "p" "x" c ∧ Plays dfShared "q" "x" c) ∧
    ∃ h s, Plant.Hist oneComp [[e2eTask 1], [e2eTask 1]] [I21.Dev.init] h s ∧
      fileOf s 0 = some [] ∧ fileOf s 1 = some [1, 2] ∧
      measuredOwn oneComp [e2eTask 1] 0 h = [1, 2] ∧ measuredOwn oneComp [e2eTask 1] 1 h = [] := by
  refine ⟨rfl, ⟨⟨"d:(a,1)", "dev", "d", "a", "1"⟩, ⟨_, "d:(a,1)", rfl, by decide, rfl⟩,
    ⟨_, "d:(a,1)", rfl, by decide, rfl⟩⟩, ?_⟩
  have hr : ∃ p, Plant.run oneComp (Plant.St.init [[e2eTask 1], [e2eTask 1]] [I21.Dev.init]) sharedActs =
      some p ∧ fileOf p.1 0 = some [] ∧ fileOf p.1 1 = some [1, 2] ∧
      measuredOwn oneComp [e2eTask 1] 0 p.2 = [1, 2] ∧ measuredOwn oneComp [e2eTask 1] 1 p.2 = [] :=
    ⟨_, rfl, by decide +kernel, by decide +kernel, by decide +kernel, by decide +kernel⟩
  obtain ⟨⟨s, h⟩, hr, h1⟩ := hr
  exact ⟨h, s, by simpa using plant_hist .init hr, h1⟩

/-- The hypotheses of the positive theorem hold for two jobs with a component each, here with data in
both files. -/
example : OwnComps sepComps 2 ∧ (∀ k i, sepComps.tag k i = i) ∧
    (∀ (m : Nat) d, [I21.Dev.init, I21.Dev.init][m]? = some d → ∃ hd, I21.Hist hd d ∧ Rests hd d) ∧
    ∃ h s, Plant.Hist sepComps [[e2eTask 1], [e2eTask 1]] [I21.Dev.init, I21.Dev.init] h s ∧
      fileOf s 0 = some [1, 2] ∧ fileOf s 1 = some [3] := by
  refine ⟨fun j _ k _ e => e, fun _ _ => rfl, ?_, ?_⟩
  · intro m d hm
    have : d = I21.Dev.init := by
      have := List.mem_of_getElem? hm
      simpa using this
    subst this
    exact ⟨[], .init, rfl, by simp [occupied], by simp [I21.Dev.init], by simp [I21.Dev.init], rfl⟩
  · have hr : ∃ p, Plant.run sepComps (Plant.St.init [[e2eTask 1], [e2eTask 1]] [I21.Dev.init, I21.Dev.init])
        (onPlant 0 0 (submits ++ samples [1, 2]) ++ onPlant 1 1 (submits ++ samples [3]) ++
          onPlant 0 0 polls ++ onPlant 1 1 polls) = some p ∧
        fileOf p.1 0 = some [1, 2] ∧ fileOf p.1 1 = some [3] :=
      ⟨_, rfl, by decide +kernel, by decide +kernel⟩
    obtain ⟨⟨s, h⟩, hr, h1⟩ := hr
    exact ⟨h, s, by simpa using plant_hist .init hr, h1⟩

/-- A file of devices which meets the hypotheses: two roles with a channel each. -/
def rawTwoRoles : RawFile :=
  { devices := [⟨"dev", "d", "a", ["1", "2"], 1⟩],
    pipelines := [⟨"p", [⟨"x", "dev", "1"⟩, ⟨"y", "dev", "2"⟩]⟩] }

example : (∃ df, populateAttrs rawTwoRoles = .ok df) ∧ PlainNames rawTwoRoles ∧ Exclusive rawTwoRoles ∧
    RolesApart rawTwoRoles := by
  refine ⟨⟨_, rfl⟩, ?_, List.pairwise_singleton .., ?_⟩
  · intro dev hd
    simp only [rawTwoRoles, List.mem_singleton] at hd
    subst hd
    decide
  · intro pip hpip role dev ch role' dev' ch' hu hu' hne hs
    have h1 : ¬ IsWild "p" := fun h => absurd ((isWild_iff _).mp h) (by decide)
    simp only [rawTwoRoles, List.mem_singleton] at hpip
    subst hpip
    obtain ⟨c1, m1, e1, -, -, f1⟩ := hu
    obtain ⟨c2, m2, e2, -, -, f2⟩ := hu'
    have g1 := f1 h1
    have g2 := f2 h1
    obtain ⟨-, -, hch⟩ := hs
    simp only [List.mem_cons, List.not_mem_nil, or_false] at m1 m2
    rcases m1 with rfl | rfl <;> rcases m2 with rfl | rfl <;> simp_all

/-- A pipeline whose two roles have the same channel. -/
def rawRoles : RawFile :=
  { devices := [⟨"dev", "d", "a", ["1"], 1⟩],
    pipelines := [⟨"p", [⟨"x", "dev", "1"⟩, ⟨"y", "dev", "1"⟩]⟩] }

/-- The configuration made from it. -/
def dfRoles : DeviceFile :=
  { components := [("d:(a,1)", ⟨"d:(a,1)", "dev", "d", "a", "1"⟩)],
    devices := [("dev", { name := "dev", driver := "d", address := "a", channels := ["1"] })],
    drivers := [("d", { name := "d" })],
    pipelines := [("p", ⟨"p", [("x", "d:(a,1)"), ("y", "d:(a,1)")]⟩)] }

/-- A task for the other role. -/
def yTask : Task := { role := "y", technique := "t", body := 1 }

/-- The task of the second role waits for the end of that of the first one.  Then it begins, and a data
point is measured, before the first thread fetches what it takes for the rest of its own data. -/
def rolesActs : List Plant.Act :=
  onPlant 0 0 (submits ++ samples [1, 2]) ++ onPlant 1 0 (thrs 2 ++ rq ++ rq) ++
  onPlant 0 0 (polls ++ samples [3] true ++ works 3 ++ works 7 ++ samples [7] ++
    thrs 1 ++ rq ++ rqData ++ thrs 3 ++ thrs 1)

/-- **C108 is false of the code** within a single job, too: a file of devices in which two roles of a
pipeline have the same channel is accepted, and data measured for the task of one role are stored in
the file of the other one. -/
theorem C108_refuted_roles : populateAttrs rawRoles = .ok dfRoles ∧
    (∃ c, Plays dfRoles "p" "x" c ∧ Plays dfRoles "p" "y" c) ∧
    ∃ h s, Plant.Hist oneComp [[e2eTask 1], [yTask]] [I21.Dev.init] h s ∧
      fileOf s 0 = some [1, 2, 7] ∧ .completed 0 ∈ ownSteps 0 h ∧
      measuredOwn oneComp [e2eTask 1] 0 h = [1, 2, 3] ∧ measuredOwn oneComp [yTask] 1 h = [7] := by
  refine ⟨rfl, ⟨⟨"d:(a,1)", "dev", "d", "a", "1"⟩, ⟨_, "d:(a,1)", rfl, by decide, rfl⟩,
    ⟨_, "d:(a,1)", rfl, by decide, rfl⟩⟩, ?_⟩
  have hr : ∃ p, Plant.run oneComp (Plant.St.init [[e2eTask 1], [yTask]] [I21.Dev.init]) rolesActs =
      some p ∧ fileOf p.1 0 = some [1, 2, 7] ∧ .completed 0 ∈ ownSteps 0 p.2 ∧
      measuredOwn oneComp [e2eTask 1] 0 p.2 = [1, 2, 3] ∧ measuredOwn oneComp [yTask] 1 p.2 = [7] :=
    ⟨_, rfl, by decide +kernel, by decide +kernel, by decide +kernel, by decide +kernel⟩
  obtain ⟨⟨s, h⟩, hr, h1⟩ := hr
  exact ⟨h, s, by simpa using plant_hist .init hr, h1⟩

end Tomato.Props
