import Verif.Rereg
import Verif.Props.Iface21

/-!
# Registering a component again (C110)
-/

namespace Tomato.Props
open Tomato.I21 (Ev Item Dev)
open Tomato.Rereg

/-! ## Specification -/

/-- The events of one generation. -/
def genOf (g : Nat) (h : List REv) : List Ev :=
  h.filterMap (fun e => match e with | .made => none | .dev g' e => if g' = g then some e else none)

/-- The number of devices which have been created. -/
def madeIn (h : List REv) : Nat := (h.filter (· == .made)).length

/-- One event, for `pendingM`. -/
def pendStep (n : Nat) : Ev → Nat
  | .mAccepted => n + 1
  | .mEnded => n - 1
  | .wasReset => 0
  | _ => n

/-- The number of accepted measurements which have not ended. -/
def pendingM (h : List Ev) : Nat := h.foldl pendStep 0

/-- A component which has nothing to do: all accepted tasks have been taken up and have ended, all
accepted measurements have ended, and all data measured for tasks have been handed out. -/
def Still (h : List Ev) : Prop :=
  acceptedSince h = tookSince h ∧ occupied h = none ∧ pendingM h = 0 ∧
    measuredSince h = fetchedSince h

/-- The claim: at any time the component works on one thing at most, and for each replaced device,
all that it was asked to do is done and all data are handed out. -/
def NotUpset (h : List REv) : Prop :=
  (∀ g g' : Nat, occupied (genOf g h) ≠ none → occupied (genOf g' h) ≠ none → g = g') ∧
    (∀ g : Nat, g + 1 < madeIn h → Still (genOf g h))

/-- Devices are created only while the latest one has nothing to do. -/
def Polite (h : List REv) : Prop :=
  ∀ a b : List REv, h = a ++ .made :: b → madeIn a ≠ 0 → Still (genOf (madeIn a - 1) a)

/-! ## Lemmas -/

theorem genOf_append (g : Nat) (a b : List REv) : genOf g (a ++ b) = genOf g a ++ genOf g b := by
  simp [genOf]

theorem genOf_map_self (g : Nat) (es : List Ev) : genOf g (es.map (.dev g)) = es := by
  induction es with
  | nil => rfl
  | cons e es ih => simp only [genOf] at ih; simp [genOf, ih]

theorem genOf_map_other {g g' : Nat} (h : g' ≠ g) (es : List Ev) :
    genOf g (es.map (.dev g')) = [] := by
  induction es with
  | nil => rfl
  | cons e es ih => simp only [genOf] at ih; simp [genOf, h, ih]

theorem genOf_made (g : Nat) : genOf g [.made] = [] := rfl

theorem madeIn_append (a b : List REv) : madeIn (a ++ b) = madeIn a + madeIn b := by
  simp [madeIn]

theorem madeIn_map (g : Nat) (es : List Ev) : madeIn (es.map (.dev g)) = 0 := by
  simp [madeIn]

theorem madeIn_made : madeIn [.made] = 1 := rfl

/-- Each generation has a history of its own, and is a component as in `Verif/Iface21.lean`. -/
structure GenInv (h : List REv) (s : Slot) : Prop where
  old : ∀ (j : Nat) (d : Dev), s.old[j]? = some d → I21.Hist (genOf j h) d
  cur : ∀ d, s.cur = some d → I21.Hist (genOf s.old.length h) d
  rest : ∀ g, s.old.length + (if s.cur = none then 0 else 1) ≤ g → genOf g h = []
  made : madeIn h = s.old.length + (if s.cur = none then 0 else 1)

theorem genInv {h : List REv} {s : Slot} (hh : Hist h s) : GenInv h s := by
  induction hh with
  | init => constructor <;> simp [genOf, madeIn]
  | @step h s s' es a hh ha ih =>
    obtain ⟨i1, i2, i3, i4⟩ := ih
    obtain ⟨c, old⟩ := s
    simp only at i1 i2 i3 i4
    cases a with
    | dev a =>
      cases c with
      | none => simp [Rereg.act] at ha
      | some d =>
        simp only [Rereg.act] at ha
        split at ha
        · cases ha
        · next d' es' he =>
          injection ha with ha; injection ha with h1 h2; subst h1; subst h2
          constructor
          · intro j x hx
            have hj : old.length ≠ j := by
              have := (List.getElem?_eq_some_iff.mp hx).1
              simp only at this; omega
            rw [genOf_append, genOf_map_other hj, List.append_nil]
            exact i1 j x hx
          · intro x hx
            injection hx with hx; subst hx
            rw [genOf_append, genOf_map_self]
            exact .step a (i2 d rfl) he
          · intro g hg
            simp at hg
            rw [genOf_append, genOf_map_other (by omega), i3 g (by simp; omega)]; rfl
          · rw [madeIn_append, madeIn_map, i4]; simp
    | oldWorker j c' =>
      simp only [Rereg.act] at ha
      split at ha
      · cases ha
      · next d hd =>
        split at ha
        · cases ha
        · next d' es' he =>
          injection ha with ha; injection ha with h1 h2; subst h1; subst h2
          have hj : j < old.length := (List.getElem?_eq_some_iff.mp hd).1
          constructor
          · intro k x hx
            simp only [List.getElem?_set] at hx
            split at hx
            · next e =>
              subst e
              injection hx with hx; subst hx
              rw [genOf_append, genOf_map_self]
              exact .step (.worker c') (i1 _ d hd) he
            · next e =>
              rw [genOf_append, genOf_map_other e, List.append_nil]
              exact i1 k x hx
          · intro x hx
            simp only [List.length_set]
            rw [genOf_append, genOf_map_other (by omega), List.append_nil]
            exact i2 x hx
          · intro g hg
            simp only [List.length_set] at hg
            rw [genOf_append, genOf_map_other (by omega), i3 g hg]; rfl
          · rw [madeIn_append, madeIn_map, i4]; simp
    | register =>
      cases c with
      | none =>
        simp only [Rereg.act] at ha
        injection ha with ha; injection ha with h1 h2; subst h1; subst h2
        constructor
        · intro j x hx
          rw [genOf_append, genOf_made, List.append_nil]
          exact i1 j x hx
        · intro x hx
          injection hx with hx; subst hx
          rw [genOf_append, genOf_made, i3 old.length (by simp)]
          exact .init
        · intro g hg
          simp at hg
          rw [genOf_append, genOf_made, i3 g (by simp; omega)]; rfl
        · rw [madeIn_append, madeIn_made, i4]; simp
      | some d =>
        simp only [Rereg.act] at ha
        split at ha
        · injection ha with ha; injection ha with h1 h2; subst h1; subst h2
          constructor
          · intro j x hx
            rw [genOf_append, genOf_made, List.append_nil]
            simp only [List.getElem?_append] at hx
            split at hx
            · exact i1 j x hx
            · next hj =>
              rcases hk : j - old.length with _ | k
              · rw [hk] at hx
                simp at hx; subst hx
                have : j = old.length := by omega
                rw [this]; exact i2 d rfl
              · rw [hk] at hx; simp at hx
          · intro x hx
            injection hx with hx; subst hx
            simp only [List.length_append, List.length_singleton]
            rw [genOf_append, genOf_made, i3 (old.length + 1) (by simp)]
            exact .init
          · intro g hg
            simp at hg
            rw [genOf_append, genOf_made, i3 g (by simp; omega)]; rfl
          · rw [madeIn_append, madeIn_made, i4]; simp
        · cases ha
    | drop =>
      cases c with
      | none => simp [Rereg.act] at ha
      | some d =>
        simp only [Rereg.act] at ha
        split at ha
        · split at ha
          · cases ha
          · next d' es' he =>
            injection ha with ha; injection ha with h1 h2; subst h1; subst h2
            constructor
            · intro j x hx
              simp only [List.getElem?_append] at hx
              split at hx
              · next hj =>
                rw [genOf_append, genOf_map_other (by omega), List.append_nil]
                exact i1 j x hx
              · next hj =>
                rcases hk : j - old.length with _ | k
                · rw [hk] at hx
                  simp at hx; subst hx
                  have : j = old.length := by omega
                  rw [this, genOf_append, genOf_map_self]
                  exact .step .cont (i2 d rfl) he
                · rw [hk] at hx; simp at hx
            · intro x hx; cases hx
            · intro g hg
              simp at hg
              rw [genOf_append, genOf_map_other (by omega), i3 g (by simp; omega)]; rfl
            · rw [madeIn_append, madeIn_map, i4]; simp
        · cases ha

/-- The number of measurements which the worker has to do, by its state. -/
def wPend (d : Dev) : Nat :=
  d.queue.count .measure +
    (match d.wpc with | .got .measure | .noTask .measure | .oneShot => 1 | _ => 0)

theorem pendingM_append (h es : List Ev) :
    pendingM (h ++ es) = es.foldl pendStep (pendingM h) := List.foldl_append

theorem pend_hist {h : List Ev} {s : Dev} (hh : I21.Hist h s) : pendingM h = wPend s := by
  induction hh with
  | init => rfl
  | @step h s s' es a hh ha ih =>
    obtain ⟨q, r, dr, dt, d, l, lk, w, cp⟩ := s
    cases a with
    | worker c =>
      simp only [I21.act, I21.wstep] at ha
      split at ha
      all_goals (try split at ha)
      all_goals first
        | (cases ha; done)
        | skip
      all_goals (injection ha with ha; injection ha with ha1 ha2; subst ha1; subst ha2)
      all_goals simp_all [pendingM_append, pendStep, wPend]
      next x => cases x <;> simp
    | cmd c =>
      simp only [I21.act] at ha
      split at ha
      · injection ha with ha
        cases c <;> simp only [I21.cbegin] at ha
        all_goals (try split at ha)
        all_goals (injection ha with ha1 ha2; subst ha1; subst ha2)
        all_goals simp_all [pendingM_append, pendStep, wPend, List.count_append]
      · cases ha
    | cont =>
      simp only [I21.act, I21.cstep] at ha
      split at ha
      all_goals (try split at ha)
      all_goals first
        | (cases ha; done)
        | skip
      all_goals (injection ha with ha; injection ha with ha1 ha2; subst ha1; subst ha2)
      all_goals simp_all [pendingM_append, pendStep, wPend, List.count_append, I21.afterReset]
      all_goals omega

/-- A device whose worker has nothing to do. -/
def QuietDev (d : Dev) : Prop :=
  d.queue = [] ∧ (d.wpc = .top ∨ d.wpc = .get ∨ d.wpc = .oneDone ∨ d.wpc = .fin ∨ d.wpc = .failed ∨
    d.wpc = .exit ∨ d.wpc = .dead)

theorem quiet_of_still {h : List Ev} {d : Dev} (hh : I21.Hist h d) (hs : Still h) : QuietDev d := by
  have hi := inv_hist hh
  have hp := pend_hist hh
  obtain ⟨s1, s2, s3, _⟩ := hs
  have h1 := hi.tasks
  rw [s1] at h1
  have h1 : tasksOf d.queue = [] := by simpa using h1.symm
  have h2 := hi.item
  rw [s2] at h2
  rw [s3] at hp
  simp only [wPend] at hp
  have hc : d.queue.count .measure = 0 := by omega
  have hq : d.queue = [] := by
    rcases hq : d.queue with _ | ⟨x, q⟩
    · rfl
    · rw [hq] at h1 hc
      cases x <;> simp [tasksOf] at h1 hc
  refine ⟨hq, ?_⟩
  rw [hq] at hp
  clear h1 hc hq
  obtain ⟨q, r, dr, dt, dd, l, lk, w, cp⟩ := d
  simp only at h2 hp ⊢
  cases w with
  | got x => cases x <;> simp [wItem] at h2 hp
  | noTask x => cases x <;> simp [wItem] at h2 hp
  | _ => simp [wItem] at h2 ⊢

theorem quiet_wstep {d d' : Dev} {c : I21.Choice} {es : List Ev} (hq : QuietDev d)
    (ha : I21.wstep d c = some (d', es)) : QuietDev d' ∧ es = [] := by
  obtain ⟨q, r, dr, dt, dd, l, lk, w, cp⟩ := d
  obtain ⟨h1, h2⟩ := hq
  simp only at h1 h2
  subst h1
  rcases h2 with rfl | rfl | rfl | rfl | rfl | rfl | rfl <;> simp only [I21.wstep] at ha
  all_goals (try split at ha)
  all_goals first
    | (cases ha; done)
    | skip
  all_goals (injection ha with ha; injection ha with ha1 ha2; subst ha1; subst ha2)
  all_goals simp [QuietDev]

theorem still_init : Still [] := ⟨rfl, rfl, rfl, rfl⟩

/-- After the last step of a teardown, the device has nothing to do. -/
theorem still_drop {h es : List Ev} {d d' : Dev} (hh : I21.Hist h d) (hc : d.cpc = .rJoin false)
    (ha : I21.cstep d = some (d', es)) : Still (h ++ es) ∧ QuietDev d' := by
  have hd : I21.Hist (h ++ es) d' := .step .cont hh ha
  have hi := inv_hist hh
  simp only [I21.cstep, hc] at ha
  split at ha
  · next hw =>
    injection ha with ha; injection ha with h1 h2; subst h1; subst h2
    refine ⟨⟨?_, ?_, ?_, ?_⟩, rfl, .inl rfl⟩
    · simp [acceptedSince_append, tookSince_append, accStep, tookStep]
    · have := hi.item
      rw [hw] at this
      simp [occupied_append, occStep, this, wItem]
    · simp [pendingM_append, pendStep]
    · simp [measuredSince_append, fetchedSince_append, measStep, fetchStep]
  · cases ha

theorem polite_left {a b : List REv} (h : Polite (a ++ b)) : Polite a :=
  fun x y e => h x (y ++ b) (by simp [e])

theorem old_quiet {h : List REv} {s : Slot} (hh : Hist h s) (hp : Polite h) :
    ∀ (j : Nat) (d : Dev), s.old[j]? = some d → QuietDev d ∧ Still (genOf j h) := by
  induction hh with
  | init => intro j d hd; simp at hd
  | @step h s s' es a hh ha ih =>
    replace ih := ih (polite_left hp)
    have hg := genInv hh
    obtain ⟨i1, i2, i3, i4⟩ := hg
    obtain ⟨c, old⟩ := s
    simp only at i1 i2 i3 i4 ih
    intro j x hx
    cases a with
    | dev a =>
      cases c with
      | none => simp [Rereg.act] at ha
      | some d =>
        simp only [Rereg.act] at ha
        split at ha
        · cases ha
        · next d' es' he =>
          injection ha with ha; injection ha with h1 h2; subst h1; subst h2
          have hj : old.length ≠ j := by
            have := (List.getElem?_eq_some_iff.mp hx).1
            simp only at this; omega
          rw [genOf_append, genOf_map_other hj, List.append_nil]
          exact ih j x hx
    | oldWorker k c' =>
      simp only [Rereg.act] at ha
      split at ha
      · cases ha
      · next d hd =>
        split at ha
        · cases ha
        · next d' es' he =>
          injection ha with ha; injection ha with h1 h2; subst h1; subst h2
          obtain ⟨q1, q2⟩ := quiet_wstep (ih k d hd).1 he
          subst q2
          simp only [List.map_nil, List.append_nil]
          simp only [List.getElem?_set] at hx
          split at hx
          · next e =>
            subst e
            simp only [(List.getElem?_eq_some_iff.mp hd).1, if_true] at hx
            injection hx with hx; subst hx
            exact ⟨q1, (ih _ d hd).2⟩
          · exact ih j x hx
    | register =>
      cases c with
      | none =>
        simp only [Rereg.act] at ha
        injection ha with ha; injection ha with h1 h2; subst h1; subst h2
        rw [genOf_append, genOf_made, List.append_nil]
        exact ih j x hx
      | some d =>
        simp only [Rereg.act] at ha
        split at ha
        · injection ha with ha; injection ha with h1 h2; subst h1; subst h2
          rw [genOf_append, genOf_made, List.append_nil]
          simp only [List.getElem?_append] at hx
          split at hx
          · exact ih j x hx
          · next hj =>
            rcases hk : j - old.length with _ | k
            · rw [hk] at hx
              simp at hx; subst hx
              have hj : j = old.length := by omega
              have := hp h [] rfl (by rw [i4]; simp)
              rw [i4] at this
              simp only [reduceCtorEq, if_false, Nat.add_sub_cancel] at this
              rw [hj]
              exact ⟨quiet_of_still (i2 d rfl) this, this⟩
            · rw [hk] at hx; simp at hx
        · cases ha
    | drop =>
      cases c with
      | none => simp [Rereg.act] at ha
      | some d =>
        simp only [Rereg.act] at ha
        split at ha
        · next hc =>
          split at ha
          · cases ha
          · next d' es' he =>
            injection ha with ha; injection ha with h1 h2; subst h1; subst h2
            simp only [List.getElem?_append] at hx
            split at hx
            · next hj =>
              rw [genOf_append, genOf_map_other (by omega), List.append_nil]
              exact ih j x hx
            · next hj =>
              rcases hk : j - old.length with _ | k
              · rw [hk] at hx
                simp at hx; subst hx
                have : j = old.length := by omega
                rw [this, genOf_append, genOf_map_self]
                exact (still_drop (i2 d rfl) hc he).symm
              · rw [hk] at hx; simp at hx
        · cases ha

/-! ## Theorems -/

/-- **C110**, for each device by itself: whatever is registered again, what happens to each device
that was ever created is a history of a component.  Hence the theorems about components hold for
each of them; for example, the tasks are executed in the order in which they were accepted. -/
theorem C110_each {h : List REv} {s : Slot} (hh : Hist h s) (g : Nat) :
    (∃ d, I21.Hist (genOf g h) d) ∧ tookSince (genOf g h) <+: acceptedSince (genOf g h) := by
  have hi := genInv hh
  have key : ∃ d, I21.Hist (genOf g h) d := by
    by_cases h1 : g < s.old.length
    · exact ⟨_, hi.old g _ (List.getElem?_eq_getElem h1)⟩
    · by_cases h2 : s.old.length + (if s.cur = none then 0 else 1) ≤ g
      · rw [hi.rest g h2]; exact ⟨_, .init⟩
      · rcases hc : s.cur with _ | d
        · simp [hc] at h2; omega
        · simp [hc] at h2
          have : g = s.old.length := by omega
          rw [this]; exact ⟨d, hi.cur d hc⟩
  refine ⟨key, ?_⟩
  obtain ⟨d, hd⟩ := key
  exact ⟨_, (inv_hist hd).tasks.symm⟩

/-- **C110**, partial: if devices are created only while the latest one has nothing to do, then the
component works on one thing at most, and nothing is left undone or lost on a replaced device.
Missing: registrations at other times, see `C110_refuted`. -/
theorem C110_partial {h : List REv} {s : Slot} (hh : Hist h s) (hp : Polite h) :
    NotUpset h := by
  have hi := genInv hh
  have hq := old_quiet hh hp
  have key : ∀ g, occupied (genOf g h) ≠ none → g = s.old.length := by
    intro g hg
    by_cases h1 : g < s.old.length
    · exact absurd (hq g _ (List.getElem?_eq_getElem h1)).2.2.1 hg
    · by_cases h2 : g = s.old.length
      · exact h2
      · have : genOf g h = [] := hi.rest g (by split <;> omega)
        rw [this] at hg
        exact absurd rfl hg
  refine ⟨fun g g' h1 h2 => (key g h1).trans (key g' h2).symm, fun g hg => ?_⟩
  have h1 : g < s.old.length := by
    rw [hi.made] at hg
    split at hg <;> omega
  exact (hq g _ (List.getElem?_eq_getElem h1)).2

/-- **C110**, by teardown: a component which is torn down before it is registered again is not
disturbed, whatever it is doing: the device which is taken out of `devmap` has nothing to do. -/
theorem C110_teardown {h es : List REv} {s s' : Slot} (hh : Hist h s)
    (ha : Rereg.act s .drop = some (s', es)) :
    Still (genOf (madeIn h - 1) (h ++ es)) ∧ s'.cur = none := by
  have hi := genInv hh
  obtain ⟨i1, i2, i3, i4⟩ := hi
  obtain ⟨c, old⟩ := s
  cases c with
  | none => simp [Rereg.act] at ha
  | some d =>
    simp only [Rereg.act] at ha
    split at ha
    · next hc =>
      split at ha
      · cases ha
      · next d' es' he =>
        injection ha with ha; injection ha with h1 h2; subst h1; subst h2
        refine ⟨?_, rfl⟩
        rw [i4]
        simp only [reduceCtorEq, if_false, Nat.add_sub_cancel]
        rw [genOf_append, genOf_map_self]
        exact (still_drop (i2 d rfl) hc he).1
    · cases ha

/-- Events which commands cause. -/
def isCommandEv : Ev → Bool
  | .accepted _ | .mAccepted | .mRefused | .stopped | .fetched _ | .replied _ | .wasReset => true
  | _ => false

/-- **C110**, what is replaced is out of reach: once another device has been created, no command
has any effect on the one before, it can not be stopped, reset, or asked for its data. -/
theorem C110_out_of_reach {h es : List REv} {s s' : Slot} {a : RAct} (hh : Hist h s)
    (ha : Rereg.act s a = some (s', es)) (g : Nat) (hg : g + 1 < madeIn h) :
    ∀ e ∈ genOf g es, isCommandEv e = false := by
  have hi := genInv hh
  obtain ⟨i1, i2, i3, i4⟩ := hi
  obtain ⟨c, old⟩ := s
  simp only at i1 i2 i3 i4
  have hlt : g < old.length := by rw [i4] at hg; split at hg <;> omega
  cases a with
  | dev a =>
    cases c with
    | none => simp [Rereg.act] at ha
    | some d =>
      simp only [Rereg.act] at ha
      split at ha
      · cases ha
      · injection ha with ha; injection ha with h1 h2; subst h1; subst h2
        rw [genOf_map_other (by omega)]; simp
  | oldWorker j c' =>
    simp only [Rereg.act] at ha
    split at ha
    · cases ha
    · next d hd =>
      split at ha
      · cases ha
      · next d' es' he =>
        injection ha with ha; injection ha with h1 h2; subst h1; subst h2
        by_cases hj : j = g
        · subst hj
          rw [genOf_map_self]
          simp only [I21.wstep] at he
          split at he
          all_goals (try split at he)
          all_goals first
            | (cases he; done)
            | skip
          all_goals (injection he with he; injection he with h1 h2; subst h1; subst h2)
          all_goals simp [isCommandEv]
        · rw [genOf_map_other hj]; simp
  | register =>
    cases c with
    | none =>
      simp only [Rereg.act] at ha
      injection ha with ha; injection ha with h1 h2; subst h2
      simp [genOf_made]
    | some d =>
      simp only [Rereg.act] at ha
      split at ha
      · injection ha with ha; injection ha with h1 h2; subst h2
        simp [genOf_made]
      · cases ha
  | drop =>
    cases c with
    | none => simp [Rereg.act] at ha
    | some d =>
      simp only [Rereg.act] at ha
      split at ha
      · split at ha
        · cases ha
        · injection ha with ha; injection ha with h1 h2; subst h1; subst h2
          rw [genOf_map_other (by omega)]; simp
      · cases ha

/-- A task and a measurement are done, the data are fetched, then the component is registered
again, torn down in the middle of the next task, and registered once more: this is polite. -/
def politeTrace : List RAct :=
  [.register, .dev (.cmd (.start 0))] ++ List.replicate 11 (.dev (.worker {})) ++
    [.dev (.worker { result := some (some [7]) })] ++ List.replicate 2 (.dev (.worker {})) ++
    [.dev (.worker { over := true })] ++ List.replicate 3 (.dev (.worker {})) ++
    [.dev (.cmd .data)] ++ List.replicate 4 (.dev .cont) ++
    [.dev (.cmd .measure), .dev .cont, .dev .cont] ++ List.replicate 6 (.dev (.worker {})) ++
    [.register, .dev (.cmd (.start 1))] ++ List.replicate 7 (.dev (.worker {})) ++
    [.dev (.cmd (.reset false)), .oldWorker 0 {}] ++ List.replicate 6 (.dev (.worker {})) ++
    [.drop, .register, .oldWorker 1 {}]

/-- Decides `Still`. -/
def stillB (h : List Ev) : Bool :=
  acceptedSince h == tookSince h && occupied h == none && pendingM h == 0 &&
    measuredSince h == fetchedSince h

/-- Decides `Polite`: goes through the history, `a` is what has been passed. -/
def politeB (a : List REv) : List REv → Bool
  | [] => true
  | e :: b => (e != .made || madeIn a == 0 || stillB (genOf (madeIn a - 1) a)) && politeB (a ++ [e]) b

theorem politeB_sound {a h : List REv} (hb : politeB a h = true) :
    ∀ x b, h = x ++ .made :: b → madeIn (a ++ x) ≠ 0 →
      Still (genOf (madeIn (a ++ x) - 1) (a ++ x)) := by
  induction h generalizing a with
  | nil => intro x b e; simp at e
  | cons e h ih =>
    simp only [politeB, Bool.and_eq_true] at hb
    intro x b hx hm
    cases x with
    | nil =>
      simp only [List.nil_append, List.cons.injEq] at hx
      obtain ⟨rfl, rfl⟩ := hx
      simp only [List.append_nil] at hm ⊢
      have := hb.1
      simp only [bne_self_eq_false, Bool.false_or, Bool.or_eq_true, beq_iff_eq] at this
      rcases this with h1 | h1
      · exact absurd h1 hm
      · simpa [stillB, Still, and_assoc] using h1
    | cons y x =>
      simp only [List.cons_append, List.cons.injEq] at hx
      obtain ⟨rfl, rfl⟩ := hx
      have := ih hb.2 x b rfl (by simpa using hm)
      simpa using this

/-! ## Refutation -/

/-- The worker goes on. -/
private def w1 : RAct := .dev (.worker {})

/-- A task is started, measures one point, and the component is registered again. -/
def againTrace : List RAct :=
  [.register, .dev (.cmd (.start 0))] ++ List.replicate 11 w1 ++
    [.dev (.worker { result := some (some [7]) }), w1, w1, .register]

/-- A second task is started and its worker measures at the same time as that of the first. -/
def againTrace2 : List RAct :=
  againTrace ++ [.dev (.cmd (.start 1))] ++ List.replicate 11 w1 ++
    [.oldWorker 0 {}, .oldWorker 0 {}, .oldWorker 0 {}, .oldWorker 0 {}, .oldWorker 0 {}]

theorem rereg_hist {s s' : Slot} {h0 h : List REv} {as : List RAct} (hh : Hist h0 s)
    (hr : Rereg.run s as = some (s', h)) : Hist (h0 ++ h) s' := by
  induction as generalizing s h0 h with
  | nil =>
    simp only [Rereg.run] at hr
    injection hr with hr; injection hr with h1 h2; subst h1; subst h2
    simpa using hh
  | cons a as ih =>
    simp only [Rereg.run] at hr
    split at hr
    · cases hr
    · next s1 es1 h1 =>
      split at hr
      · cases hr
      · next s2 es2 h2 =>
        injection hr with hr; injection hr with e1 e2; subst e1; subst e2
        have := ih (.step a hh h1) h2
        simpa using this

/-- The hypotheses of `C110_partial` can be met: three devices are created, tasks and measurements
are executed in between. -/
example : ∃ h s, Hist h s ∧ Polite h ∧ madeIn h = 3 ∧
    genOf 0 h ≠ [] ∧ .ended 0 ∈ genOf 0 h ∧ .mEnded ∈ genOf 0 h ∧ .begun 1 ∈ genOf 1 h ∧
    NotUpset h := by
  have hr : ∃ p, Rereg.run {} politeTrace = some p ∧ politeB [] p.2 = true ∧ madeIn p.2 = 3 ∧
      genOf 0 p.2 ≠ [] ∧ .ended 0 ∈ genOf 0 p.2 ∧ .mEnded ∈ genOf 0 p.2 ∧ .begun 1 ∈ genOf 1 p.2 :=
    ⟨_, rfl, (by decide +kernel), (by decide +kernel), (by decide +kernel), (by decide +kernel),
      (by decide +kernel), (by decide +kernel)⟩
  obtain ⟨⟨s, h⟩, h0, h1, h2, h3, h4, h5, h6⟩ := hr
  have hh : Hist h s := by simpa using rereg_hist .init h0
  have hp : Polite h := fun a b e hm => by
    have := politeB_sound h1 a b e (by simpa using hm)
    simpa using this
  exact ⟨h, s, hh, hp, h2, h3, h4, h5, h6, C110_partial hh hp⟩

/-- **C110** is refuted, part 1: a component with a running task is registered again.  From then on
the component reports that nothing is running and has no data, although its task is still being
executed and a data point has been measured which nobody has fetched. -/
theorem C110_refuted : ∃ h s d, Hist h s ∧ s.cur = some d ∧ d.running = none ∧ d.data = none ∧
    occupied (genOf 0 h) = some (.task 0) ∧ measuredSince (genOf 0 h) = [7] ∧
    fetchedSince (genOf 0 h) = [] ∧ ¬ NotUpset h := by
  have hr : ∃ p, Rereg.run {} againTrace = some p ∧
      (p.1.cur.any (fun d => d.running == none && d.data == none)) = true ∧
      occupied (genOf 0 p.2) = some (.task 0) ∧
      measuredSince (genOf 0 p.2) = [7] ∧ fetchedSince (genOf 0 p.2) = [] ∧ madeIn p.2 = 2 :=
    ⟨_, rfl, (by decide +kernel), (by decide +kernel), (by decide +kernel), (by decide +kernel),
      (by decide +kernel)⟩
  obtain ⟨⟨s, h⟩, h0, h1, h2, h3, h4, h5⟩ := hr
  simp only at h1 h2 h3 h4 h5
  rcases hc : s.cur with _ | d
  · simp [hc] at h1
  · simp only [hc, Option.any_some, Bool.and_eq_true, beq_iff_eq] at h1
    refine ⟨h, s, d, by simpa using rereg_hist .init h0, hc, h1.1, h1.2, h2, h3, h4, fun hu => ?_⟩
    have := (hu.2 0 (by omega)).2.1
    rw [h2] at this
    cases this

/-- **C110** is refuted, part 2: two workers measure on the same component at the same time, for
two different tasks. -/
theorem C110_refuted_two_workers : ∃ h s, Hist h s ∧
    occupied (genOf 0 h) = some (.task 0) ∧ occupied (genOf 1 h) = some (.task 1) ∧
    (∃ d d', s.old[0]? = some d ∧ s.cur = some d' ∧ d.wpc = .meas 0 ∧ d'.wpc = .meas 1) := by
  have hr : ∃ p, Rereg.run {} againTrace2 = some p ∧
      occupied (genOf 0 p.2) = some (.task 0) ∧ occupied (genOf 1 p.2) = some (.task 1) ∧
      (p.1.old[0]?.any (fun d => d.wpc == .meas 0)) = true ∧
      (p.1.cur.any (fun d => d.wpc == .meas 1)) = true :=
    ⟨_, rfl, (by decide +kernel), (by decide +kernel), (by decide +kernel), (by decide +kernel)⟩
  obtain ⟨⟨s, h⟩, h0, h1, h2, h3, h4⟩ := hr
  simp only at h1 h2 h3 h4
  refine ⟨h, s, by simpa using rereg_hist .init h0, h1, h2, ?_⟩
  rcases ho : s.old[0]? with _ | d
  · simp [ho] at h3
  · rcases hc : s.cur with _ | d'
    · simp [hc] at h4
    · refine ⟨d, d', rfl, rfl, ?_, ?_⟩
      · simpa [ho] using h3
      · simpa [hc] using h4

end Tomato.Props
