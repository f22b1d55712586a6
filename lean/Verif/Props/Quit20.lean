import Verif.Quit20
import Verif.Props.Iface20Calm
import Verif.Props.Quit

/-!
# The end of a driver process, interface 2.0 (C123)
-/

namespace Tomato.Props.End20
open Tomato.I20 (Dev Thr TPc Ev Cmd Choice)
open Tomato.Quit20
open Tomato.Props (Calm20 Primed MayAsk CalmInv Resting calm_thread calm_cmd rest_modify get_modify mayAsk mayAsk_spec)

/-! ## Specification -/

/-- What may be asked: tasks, measurements and resets one at a time (`MayAsk`, as in C112), and a component is torn down
or registered again only while no thread of it is being executed. -/
def MayAskDriver (s : St) : Act → Prop
  | .cmd k c => ∀ (i : Nat) (d : Dev), Dict.get? s.devmap k = some i → s.devs[i]? = some d → MayAsk d (.cmd c)
  | .teardown k => ∀ (i : Nat) (d : Dev), Dict.get? s.devmap k = some i → s.devs[i]? = some d → Calm20 d
  | .register k => ∀ (i : Nat) (d : Dev), Dict.get? s.devmap k = some i → s.devs[i]? = some d → Calm20 d
  | _ => True

/-- One thing is asked at a time, all the way. -/
def Orderly : St → List Act → Prop
  | _, [] => True
  | s, a :: as => MayAskDriver s a ∧ ∀ s' es, act s a = some (s', es) → Orderly s' as

/-- The component is as after a reset, and nothing of it is being executed. -/
structure AtRest (d : Dev) : Prop where
  calm : Calm20 d
  queue : d.queue = []
  data : d.data = none
  running : d.running = false

/-- The steps of the main thread. -/
def mainSteps : List Act → Nat
  | [] => 0
  | .go :: as => mainSteps as + 1
  | .timeout :: as => mainSteps as + 1
  | _ :: as => mainSteps as

/-- The steps of one thread of a component. -/
def threadSteps (i t : Nat) : List Act → Nat
  | [] => 0
  | .thread j u _ :: as => threadSteps i t as + if j = i ∧ u = t then 1 else 0
  | _ :: as => threadSteps i t as

/-! ## Lemmas -/

theorem calm_stuck {d : Dev} (hc : Calm20 d) (t : Nat) (c : Choice) : I20.tstep d t c = none := by
  unfold I20.tstep
  cases ht : d.threads[t]? with
  | none => rfl
  | some th => rcases hc th (List.mem_of_getElem? ht) with h | h <;> simp [h]

theorem calm_of_cur {h : List Ev} {d : Dev} (hi : CalmInv h d)
    (hr : ∀ t, d.threads[d.cur]? = some t → Resting t) : Calm20 d := by
  intro t ht
  obtain ⟨i, hi'⟩ := List.getElem?_of_mem ht
  by_cases he : i = d.cur
  · subst he; exact hr t hi'
  · exact hi.rest i t hi' he

/-- The component after a reset. -/
theorem reset_rest {h : List Ev} {d : Dev} (hi : CalmInv h d) (hc : Calm20 d) :
    (∃ h', CalmInv h' (I20.command d .reset).1) ∧ AtRest (I20.command d .reset).1 := by
  refine ⟨⟨_, (calm_cmd (c := .reset) hi hc).1⟩, ⟨?_, rfl, rfl, rfl⟩⟩
  intro t ht
  simp only [I20.command, I20.newThr, List.mem_append, List.mem_singleton] at ht
  rcases ht with ht | rfl
  · exact hc t ht
  · exact .inl rfl

/-- Telling the thread to end changes nothing else. -/
theorem tell_inv {h : List Ev} {d : Dev} (hi : CalmInv h d) :
    CalmInv h (I20.setThr d d.cur (fun t => { t with doRun := false })) := by
  obtain ⟨h1, h2, ⟨t, ht, h3⟩, h8, h9⟩ := hi
  exact ⟨h1, rest_modify h2, ⟨_, get_modify ht, h3⟩, h8, h9⟩

/-- The thread which is waited for is the only one, or is over and done with. -/
theorem cur_step {d d' : Dev} {j : Nat} {c : Choice} {es : List Ev}
    (hs : I20.tstep d j c = some (d', es)) :
    d'.cur = d.cur ∨ ∃ th, d'.threads[d'.cur]? = some th ∧ th.pc = .fresh := by
  unfold I20.tstep at hs
  cases ht : d.threads[j]? with
  | none => rw [ht] at hs; cases hs
  | some t =>
    rw [ht] at hs
    simp only at hs
    cases hp : t.pc <;> rw [hp] at hs <;> simp only at hs
    case renew =>
      cases hs
      right
      exact ⟨{}, by simp [I20.newThr, I20.goto, I20.setThr], rfl⟩
    all_goals (try split at hs) <;> (try split at hs) <;> first | (cases hs; done) | (cases hs; left; rfl)

/-! ## Invariant -/

/-- The devices which the main thread still has to attend to. -/
def pending (m : Dict Nat Nat) : Pc → Nat → Prop
  | .serving, i => ∃ k, Dict.get? m k = some i
  | .quit rest, i => i ∈ rest
  | .tell j rest, i => i = j ∨ i ∈ rest
  | .join j rest, i => i = j ∨ i ∈ rest
  | .wait j _ rest, i => i = j ∨ i ∈ rest
  | .reset j rest, i => i ≠ j ∧ i ∈ rest
  | .exit _, _ => False
  | .gone, _ => False

/-- The devices which were reset at exit. -/
def doneExit : Pc → Nat → Prop
  | .exit rest, i => i ∉ rest
  | .gone, _ => True
  | _, _ => False

structure EInv (s : St) : Prop where
  inv : ∀ (i : Nat) (d : Dev), s.devs[i]? = some d → ∃ h, CalmInv h d
  calm : ∀ (i : Nat) (d : Dev), s.devs[i]? = some d → ¬ pending s.devmap s.pc i → Calm20 d
  rest : ∀ (i : Nat) (d : Dev), s.devs[i]? = some d → doneExit s.pc i → AtRest d
  wait : ∀ (i t : Nat) (rest : List Nat), s.pc = .wait i t rest → ∀ d : Dev, s.devs[i]? = some d →
    t = d.cur ∨ ∃ th, d.threads[d.cur]? = some th ∧ th.pc = .fresh

theorem EInv.init : EInv {} :=
  ⟨by intro i d h; simp at h, by intro i d h; simp at h, by intro i d h; simp at h, by intro i t r h; cases h⟩

/-- Events which the partial theorem excludes. -/
def bad : QEv → Prop
  | .late _ => True
  | .died => True
  | _ => False

theorem get_set {l : List Dev} {i j : Nat} {d x : Dev} (h : (l.set i d)[j]? = some x) :
    (j = i ∧ x = d) ∨ (j ≠ i ∧ l[j]? = some x) := by
  rw [List.getElem?_set] at h
  split at h
  · next e =>
    subst e
    split at h
    · injection h with h; exact .inl ⟨rfl, h.symm⟩
    · cases h
  · next e => exact .inr ⟨fun he => e he.symm, h⟩

theorem EInv.step {s s' : St} {a : Act} {es : List QEv} (hi : EInv s) (hm : MayAskDriver s a)
    (ha : act s a = some (s', es)) (hb : ∀ e ∈ es, ¬ bad e) : EInv s' := by
  obtain ⟨devs, m, pc⟩ := s
  obtain ⟨h1, h2, h3, h4⟩ := hi
  simp only at h1 h2 h3 h4
  cases a with
  | thread i t c =>
    simp only [act] at ha
    split at ha
    · cases ha
    split at ha
    · cases ha
    next d hd =>
    split at ha
    · cases ha
    next d' es' hs =>
    cases ha
    have hnc : ¬ Calm20 d := fun hc => by rw [calm_stuck hc] at hs; cases hs
    obtain ⟨h, hinv⟩ := h1 i d hd
    have hinv' := (calm_thread hinv hs).1
    refine ⟨?_, ?_, ?_, ?_⟩ <;> simp only
    · intro j x hx
      rcases get_set hx with ⟨rfl, rfl⟩ | ⟨hne, hx⟩
      · exact ⟨_, hinv'⟩
      · exact h1 j x hx
    · intro j x hx hp
      rcases get_set hx with ⟨rfl, rfl⟩ | ⟨hne, hx⟩
      · exact absurd (h2 j d hd hp) hnc
      · exact h2 j x hx hp
    · intro j x hx hp
      rcases get_set hx with ⟨rfl, rfl⟩ | ⟨hne, hx⟩
      · exact absurd (h3 j d hd hp).calm hnc
      · exact h3 j x hx hp
    · intro j u rest hp x hx
      rcases get_set hx with ⟨rfl, rfl⟩ | ⟨hne, hx⟩
      · rcases h4 j u rest hp d hd with rfl | ⟨th, hth, hf⟩
        · rcases cur_step hs with he | he
          · exact .inl he.symm
          · exact .inr he
        · exact absurd (calm_of_cur hinv (fun t ht => by rw [hth] at ht; cases ht; exact .inl hf)) hnc
      · exact h4 j u rest hp x hx
  | cmd k c =>
    simp only [act] at ha
    split at ha
    next hs =>
      subst hs
      split at ha
      · cases ha; exact ⟨h1, h2, h3, h4⟩
      next i hk =>
      split at ha
      · cases ha
      next d hd =>
      split at ha
      · cases ha
        exact absurd trivial (hb .died (by simp))
      · cases ha
        obtain ⟨h, hinv⟩ := h1 i d hd
        have hinv' := (calm_cmd hinv (hm i d hk hd)).1
        refine ⟨?_, ?_, ?_, ?_⟩ <;> simp only
        · intro j x hx
          rcases get_set hx with ⟨rfl, rfl⟩ | ⟨hne, hx⟩
          · exact ⟨_, hinv'⟩
          · exact h1 j x hx
        · intro j x hx hp
          rcases get_set hx with ⟨rfl, rfl⟩ | ⟨hne, hx⟩
          · exact absurd ⟨k, hk⟩ hp
          · exact h2 j x hx hp
        · intro j x hx hp; cases hp
        · intro j u rest hp; cases hp
    · cases ha
  | teardown k =>
    simp only [act] at ha
    split at ha
    next hs =>
      subst hs
      split at ha
      · cases ha; exact ⟨h1, h2, h3, h4⟩
      next i hk =>
      split at ha
      · cases ha
      next d hd =>
      cases ha
      obtain ⟨h, hinv⟩ := h1 i d hd
      obtain ⟨hr1, hr2⟩ := reset_rest hinv (hm i d hk hd)
      refine ⟨?_, ?_, ?_, ?_⟩ <;> simp only
      · intro j x hx
        rcases get_set hx with ⟨rfl, rfl⟩ | ⟨hne, hx⟩
        · exact hr1
        · exact h1 j x hx
      · intro j x hx hp
        rcases get_set hx with ⟨rfl, rfl⟩ | ⟨hne, hx⟩
        · exact hr2.calm
        · refine h2 j x hx (fun ⟨k', hk'⟩ => hp ⟨k', ?_⟩)
          rw [Dict.get?_erase]
          split
          · next e => subst e; rw [hk] at hk'; cases hk'; exact absurd rfl hne
          · exact hk'
      · intro j x hx hp; cases hp
      · intro j u rest hp; cases hp
    · cases ha
  | register k =>
    simp only [act] at ha
    split at ha
    next hs =>
      subst hs
      cases ha
      have happ : ∀ {j : Nat} {x : Dev}, (devs ++ [Dev.init])[j]? = some x →
          devs[j]? = some x ∨ (j = devs.length ∧ x = Dev.init) := by
        intro j x hx
        rw [List.getElem?_append] at hx
        split at hx
        · exact .inl hx
        · next hge =>
          rcases hk : j - devs.length with _ | n
          · rw [hk] at hx; simp at hx; exact .inr ⟨by omega, hx.symm⟩
          · rw [hk] at hx; simp at hx
      refine ⟨?_, ?_, ?_, ?_⟩ <;> simp only
      · intro j x hx
        rcases happ hx with hx | ⟨rfl, rfl⟩
        · exact h1 j x hx
        · exact ⟨[], Tomato.Props.calm_inv .init⟩
      · intro j x hx hp
        rcases happ hx with hx | ⟨rfl, rfl⟩
        · by_cases hk : Dict.get? m k = some j
          · exact hm j x hk hx
          · refine h2 j x hx (fun ⟨k', hk'⟩ => hp ⟨k', ?_⟩)
            rw [Dict.get?_set]
            split
            · next e => subst e; exact absurd hk' hk
            · exact hk'
        · intro t ht
          simp only [Dev.init, List.mem_singleton] at ht
          subst ht
          exact .inl rfl
      · intro j x hx hp; cases hp
      · intro j u rest hp; cases hp
    · cases ha
  | stop =>
    simp only [act] at ha
    split at ha
    next hs =>
      subst hs
      cases ha
      refine ⟨h1, ?_, ?_, ?_⟩ <;> simp only
      · intro j x hx hp
        refine h2 j x hx (fun ⟨k, hk⟩ => hp ?_)
        exact List.mem_map.mpr ⟨(k, j), Dict.get?_some_mem hk, rfl⟩
      · intro j x hx hp; cases hp
      · intro j u rest hp; cases hp
    · cases ha
  | die =>
    simp only [act] at ha
    split at ha
    · cases ha; exact absurd trivial (hb .died (by simp))
    · cases ha
  | timeout =>
    simp only [act] at ha
    split at ha
    · split at ha
      · cases ha
      · split at ha
        · cases ha
        · cases ha; exact absurd trivial (hb _ (List.mem_singleton.mpr rfl))
    · cases ha
  | go =>
    simp only [act, Quit20.go] at ha
    cases pc with
    | serving => cases ha
    | gone => cases ha
    | quit l =>
      cases l with
      | nil =>
        cases ha
        refine ⟨h1, ?_, ?_, ?_⟩ <;> simp only
        · intro j x hx _; exact h2 j x hx (by simp [pending])
        · intro j x hx hp
          exfalso
          apply hp
          simp only [atExit, List.mem_reverse, List.mem_range]
          exact (List.getElem?_eq_some_iff.mp hx).1
        · intro j u rest hp; cases hp
      | cons i rest =>
        simp only at ha
        split at ha
        · cases ha
        next t ht =>
        cases ha
        obtain ⟨d, hd, hct⟩ := Option.bind_eq_some_iff.mp ht
        refine ⟨h1, ?_, ?_, ?_⟩ <;> simp only
        · intro j x hx hp
          split at hp
          · exact h2 j x hx (by simpa [pending] using hp)
          · next hal =>
            by_cases hji : j = i
            · subst hji
              rw [hd] at hx; cases hx
              obtain ⟨h, hinv⟩ := h1 j d hd
              refine calm_of_cur hinv (fun t' ht' => ?_)
              have he : t' = t := by
                have := ht'.symm.trans hct
                injection this
              subst he
              simp only [alive, decide_eq_true_eq, not_and_or, not_not] at hal
              exact hal
            · exact h2 j x hx (by simpa [pending, hji] using hp)
        · intro j x hx hp; split at hp <;> cases hp
        · intro j u r hp; split at hp <;> cases hp
    | tell i rest =>
      simp only at ha
      split at ha
      · cases ha
      next d hd =>
      cases ha
      obtain ⟨h, hinv⟩ := h1 i d hd
      refine ⟨?_, ?_, ?_, ?_⟩ <;> simp only
      · intro j x hx
        rcases get_set hx with ⟨rfl, rfl⟩ | ⟨hne, hx⟩
        · exact ⟨_, tell_inv hinv⟩
        · exact h1 j x hx
      · intro j x hx hp
        rcases get_set hx with ⟨rfl, rfl⟩ | ⟨hne, hx⟩
        · exact absurd (.inl rfl) hp
        · exact h2 j x hx hp
      · intro j x hx hp; cases hp
      · intro j u rest hp; cases hp
    | join i rest =>
      simp only at ha
      split at ha
      · cases ha
      next d hd =>
      split at ha
      · cases ha
      next t ht =>
      split at ha
      · cases ha; exact absurd trivial (hb .died (by simp))
      · cases ha
        refine ⟨h1, ?_, ?_, ?_⟩ <;> simp only
        · intro j x hx hp; exact h2 j x hx hp
        · intro j x hx hp; cases hp
        · intro j u r hp x hx
          cases hp
          rw [hd] at hx; cases hx
          exact .inl rfl
    | wait i t rest =>
      simp only at ha
      split at ha
      · cases ha
      next th hth =>
      split at ha
      · next hend =>
        cases ha
        obtain ⟨d, hd, hct⟩ := Option.bind_eq_some_iff.mp hth
        refine ⟨h1, ?_, ?_, ?_⟩ <;> simp only
        · intro j x hx hp
          by_cases hji : j = i
          · subst hji
            rw [hd] at hx; cases hx
            obtain ⟨h, hinv⟩ := h1 j d hd
            refine calm_of_cur hinv (fun t' ht' => ?_)
            rcases h4 j t rest rfl d hd with rfl | ⟨th', hth', hf⟩
            · rw [hct] at ht'; cases ht'; exact .inr hend
            · rw [hth'] at ht'; cases ht'; exact .inl hf
          · exact h2 j x hx (by simpa [pending, hji] using hp)
        · intro j x hx hp; cases hp
        · intro j u r hp; cases hp
      · cases ha
    | reset i rest =>
      simp only at ha
      split at ha
      · cases ha
      next d hd =>
      cases ha
      obtain ⟨h, hinv⟩ := h1 i d hd
      obtain ⟨hr1, hr2⟩ := reset_rest hinv (h2 i d hd (by simp [pending]))
      refine ⟨?_, ?_, ?_, ?_⟩ <;> simp only
      · intro j x hx
        rcases get_set hx with ⟨rfl, rfl⟩ | ⟨hne, hx⟩
        · exact hr1
        · exact h1 j x hx
      · intro j x hx hp
        rcases get_set hx with ⟨rfl, rfl⟩ | ⟨hne, hx⟩
        · exact hr2.calm
        · exact h2 j x hx (fun h => hp h.2)
      · intro j x hx hp; cases hp
      · intro j u r hp; cases hp
    | exit l =>
      cases l with
      | nil =>
        cases ha
        refine ⟨h1, ?_, ?_, ?_⟩ <;> simp only
        · intro j x hx _; exact h2 j x hx (by simp [pending])
        · intro j x hx _; exact h3 j x hx (by simp [doneExit])
        · intro j u rest hp; cases hp
      | cons i rest =>
        simp only at ha
        split at ha
        · cases ha
        next d hd =>
        cases ha
        obtain ⟨h, hinv⟩ := h1 i d hd
        obtain ⟨hr1, hr2⟩ := reset_rest hinv (h2 i d hd (by simp [pending]))
        refine ⟨?_, ?_, ?_, ?_⟩ <;> simp only
        · intro j x hx
          rcases get_set hx with ⟨rfl, rfl⟩ | ⟨hne, hx⟩
          · exact hr1
          · exact h1 j x hx
        · intro j x hx hp
          rcases get_set hx with ⟨rfl, rfl⟩ | ⟨hne, hx⟩
          · exact hr2.calm
          · exact h2 j x hx (by simp [pending])
        · intro j x hx hp
          rcases get_set hx with ⟨rfl, rfl⟩ | ⟨hne, hx⟩
          · exact hr2
          · exact h3 j x hx (by simp only [doneExit, List.mem_cons, not_or] at hp ⊢; exact ⟨hne, hp⟩)
        · intro j u r hp; cases hp

theorem EInv.run {s s' : St} (as : List Act) {h : List QEv} (hi : EInv s) (ho : Orderly s as)
    (hr : Quit20.run s as = some (s', h)) (hb : ∀ e ∈ h, ¬ bad e) : EInv s' := by
  induction as generalizing s h with
  | nil => cases hr; exact hi
  | cons a as ih =>
    simp only [Quit20.run] at hr
    split at hr
    · cases hr
    next s1 e1 h1 =>
    split at hr
    · cases hr
    next s2 e2 h2 =>
    cases hr
    exact ih (hi.step ho.1 h1 (fun e he => hb e (List.mem_append_left _ he))) (ho.2 s1 e1 h1) h2
      (fun e he => hb e (List.mem_append_right _ he))

/-! ## All histories -/

/-- A step of a thread: indices stay valid, and nobody is told to go on. -/
theorem tstep_keeps {d d' : Dev} {j : Nat} {c : Choice} {es : List Ev} (hs : I20.tstep d j c = some (d', es)) :
    (d.cur < d.threads.length → d'.cur < d'.threads.length) ∧
    (∀ (u : Nat) (th : Thr), d.threads[u]? = some th → th.doRun = false →
      ∃ th', d'.threads[u]? = some th' ∧ th'.doRun = false ∧ (u ≠ j → th'.pc = th.pc)) ∧
    (∀ th, d.threads[d.cur]? = some th → th.doRun = false →
      ∃ th', d'.threads[d'.cur]? = some th' ∧ th'.doRun = false) := by
  have key : (d.cur < d.threads.length → d'.cur < d'.threads.length) ∧
      (∀ (u : Nat) (th : Thr), d.threads[u]? = some th → th.doRun = false →
        ∃ th', d'.threads[u]? = some th' ∧ th'.doRun = false ∧ (u ≠ j → th'.pc = th.pc)) ∧
      (d'.cur = d.cur ∨ ∃ th', d'.threads[d'.cur]? = some th' ∧ th'.doRun = false) := by
    have hmod : ∀ (pc : TPc) (f : Thr → Thr) (u : Nat) (th : Thr) (v : Nat), (∀ t, (f t).pc = t.pc) →
        (∀ t, t.doRun = false → (f t).doRun = false) →
        d.threads[u]? = some th → th.doRun = false →
        ∃ th', ((d.threads.modify v f).modify j (fun t => { t with pc := pc }))[u]? = some th' ∧
          th'.doRun = false ∧ (u ≠ j → th'.pc = th.pc) := by
      intro pc f u th v hf1 hf2 hu hd
      simp only [List.getElem?_modify, hu, Option.map_eq_map, Option.map_some]
      by_cases h1 : v = u <;> by_cases h2 : j = u <;> simp [h1, h2, hd, hf1, hf2]
    have hid : ∀ (pc : TPc) (u : Nat) (th : Thr), d.threads[u]? = some th → th.doRun = false →
        ∃ th', (d.threads.modify j (fun t => { t with pc := pc }))[u]? = some th' ∧
          th'.doRun = false ∧ (u ≠ j → th'.pc = th.pc) := by
      intro pc u th hu hd
      simp only [List.getElem?_modify, hu, Option.map_eq_map, Option.map_some]
      by_cases h2 : j = u <;> simp [h2, hd]
    unfold I20.tstep at hs
    cases ht : d.threads[j]? with
    | none => rw [ht] at hs; cases hs
    | some t =>
      rw [ht] at hs
      simp only at hs
      cases hp : t.pc <;> rw [hp] at hs <;> simp only at hs
      case renew =>
        cases hs
        refine ⟨?_, ?_, .inr ⟨{}, by simp [I20.newThr, I20.goto, I20.setThr], rfl⟩⟩
        · simp [I20.newThr, I20.goto, I20.setThr]
        · intro u th hu hd
          obtain ⟨th', h1, h2⟩ := hid .ended u th hu hd
          refine ⟨th', ?_, h2⟩
          simp only [I20.newThr, I20.goto, I20.setThr]
          rw [List.getElem?_append_left (List.getElem?_eq_some_iff.mp h1).1]
          exact h1
      all_goals (try split at hs) <;> (try split at hs) <;> first
        | (cases hs; done)
        | (cases hs
           refine ⟨by simp [I20.goto, I20.setThr], ?_, .inl rfl⟩
           first
             | exact fun u th hu hd => hid _ u th hu hd
             | exact fun u th hu hd => hmod _ _ u th _ (fun _ => rfl) (fun _ _ => rfl) hu hd)
  refine ⟨key.1, key.2.1, fun th hth hd => ?_⟩
  rcases key.2.2 with he | he
  · rw [he]
    obtain ⟨th', h1, h2, -⟩ := key.2.1 _ th hth hd
    exact ⟨th', h1, h2⟩
  · exact he

/-- The steps left of a thread which has been told to end. -/
def soon : TPc → Nat
  | .setRun => 9 | .get => 8 | .prep _ => 7 | .clear _ => 6 | .turn _ => 5 | .loop _ => 4 | .done _ => 3
  | .unsetRun _ => 2 | .renew => 1
  | .mSetRun => 5 | .mBegin => 4 | .mMeas => 3 | .mUnset => 2
  | .fresh | .ended => 0

theorem soon_step {d d' : Dev} {j : Nat} {c : Choice} {es : List Ev} {t : Thr} (ht : d.threads[j]? = some t)
    (hd : t.doRun = false) (hs : I20.tstep d j c = some (d', es)) :
    ∃ t', d'.threads[j]? = some t' ∧ soon t'.pc < soon t.pc := by
  have hlt : j < d.threads.length := (List.getElem?_eq_some_iff.mp ht).1
  have hself : ∀ (pc : TPc), soon pc < soon t.pc →
      ∃ t', (d.threads.modify j (fun t => { t with pc := pc }))[j]? = some t' ∧ soon t'.pc < soon t.pc := by
    intro pc hlt
    exact ⟨{ t with pc := pc }, by simp [ht], hlt⟩
  have hself2 : ∀ (pc : TPc) (v : Nat) (f : Thr → Thr), soon pc < soon t.pc →
      ∃ t', ((d.threads.modify v f).modify j (fun t => { t with pc := pc }))[j]? = some t' ∧
        soon t'.pc < soon t.pc := by
    intro pc v f hlt
    by_cases h : v = j
    · exact ⟨{ f t with pc := pc }, by simp [ht, h], hlt⟩
    · exact ⟨{ t with pc := pc }, by simp [ht, h], hlt⟩
  unfold I20.tstep at hs
  rw [ht] at hs
  simp only at hs
  cases hp : t.pc <;> rw [hp] at hs hself hself2 <;> simp only [hd] at hs
  case renew =>
    cases hs
    refine ⟨{ t with pc := .ended }, ?_, by simp [soon]⟩
    simp only [I20.newThr, I20.goto, I20.setThr]
    rw [List.getElem?_append_left (by simpa using hlt)]
    simp [ht]
  case turn x =>
    cases hov : c.over <;> simp only [hov] at hs <;> split at hs <;> (try split at hs) <;> cases hs <;>
      first
        | exact hself _ (by simp [soon])
        | exact hself2 _ _ _ (by simp [soon])
  case loop x =>
    rw [if_neg (by simp)] at hs
    cases hs
    exact hself _ (by simp [soon])
  all_goals (try split at hs) <;> (try split at hs) <;> first
    | (cases hs; done)
    | (cases hs
       first
         | exact hself _ (by simp [soon])
         | exact hself2 _ _ _ (by simp [soon]))

/-- The devices which the main thread refers to. -/
def refs20 : Pc → List Nat
  | .serving | .gone => []
  | .quit rest | .exit rest => rest
  | .tell i rest | .join i rest | .wait i _ rest | .reset i rest => i :: rest

structure GInv (s : St) : Prop where
  cur : ∀ (i : Nat) (d : Dev), s.devs[i]? = some d → d.cur < d.threads.length
  map : ∀ v ∈ Dict.values s.devmap, v < s.devs.length
  refs : ∀ i ∈ refs20 s.pc, i < s.devs.length
  join : ∀ (i : Nat) (rest : List Nat), s.pc = .join i rest → ∀ d : Dev, s.devs[i]? = some d →
    ∃ th, d.threads[d.cur]? = some th ∧ th.doRun = false
  wait : ∀ (i t : Nat) (rest : List Nat), s.pc = .wait i t rest → ∀ d : Dev, s.devs[i]? = some d →
    ∃ th, d.threads[t]? = some th ∧ th.doRun = false

theorem GInv.init : GInv {} :=
  ⟨by intro i d h; simp at h, by simp [Dict.values], by simp [refs20], (by intro i r h; cases h),
    by intro i t r h; cases h⟩

theorem command_cur {d : Dev} (h : d.cur < d.threads.length) (c : Cmd) :
    (I20.command d c).1.cur < (I20.command d c).1.threads.length := by
  have hst : ∀ s : Dev, s.cur < s.threads.length → (I20.startThr s).1.cur < (I20.startThr s).1.threads.length := by
    intro s hs
    unfold I20.startThr
    split
    · split
      · simpa [I20.setThr] using hs
      · exact hs
    · exact hs
  cases c with
  | start t => simp only [I20.command]; apply hst; simpa [I20.setThr] using h
  | stop => simpa [I20.command, I20.setThr] using h
  | data => simpa [I20.command] using h
  | measure =>
    simp only [I20.command]
    split
    · exact h
    · apply hst; simp [I20.setThr, I20.newThr]
  | reset => simp [I20.command, I20.newThr]

theorem GInv.set {s : St} (hi : GInv s) {i : Nat} {d : Dev} {m : Dict Nat Nat} {pc : Pc}
    (hd : d.cur < d.threads.length) (hm : ∀ v ∈ Dict.values m, v < s.devs.length)
    (hp : ∀ j ∈ refs20 pc, j < s.devs.length)
    (hj : ∀ (j : Nat) (rest : List Nat), pc = .join j rest → j = i ∧ ∃ th, d.threads[d.cur]? = some th ∧ th.doRun = false)
    (hw : ∀ (j t : Nat) (rest : List Nat), pc ≠ .wait j t rest) :
    GInv ⟨s.devs.set i d, m, pc⟩ := by
  refine ⟨?_, ?_, ?_, ?_, ?_⟩ <;> simp only [List.length_set]
  · intro j x hx
    rcases get_set hx with ⟨rfl, rfl⟩ | ⟨hne, hx⟩
    · exact hd
    · exact hi.cur j x hx
  · exact hm
  · exact hp
  · intro j rest he x hx
    obtain ⟨rfl, h⟩ := hj j rest he
    rcases get_set hx with ⟨-, rfl⟩ | ⟨hne, -⟩
    · exact h
    · exact absurd rfl hne
  · intro j t rest he; exact absurd he (hw j t rest)

theorem GInv.step {s s' : St} {a : Act} {es : List QEv} (hi : GInv s) (ha : act s a = some (s', es)) : GInv s' := by
  obtain ⟨devs, m, pc⟩ := s
  have hrev : ∀ j ∈ (List.range devs.length).reverse, j < devs.length := by
    intro j hj; simpa using hj
  cases a with
  | thread i t c =>
    simp only [act] at ha
    split at ha
    · cases ha
    split at ha
    · cases ha
    next d hd =>
    split at ha
    · cases ha
    next d' es' hs =>
    cases ha
    obtain ⟨hk1, hk2, hk3⟩ := tstep_keeps hs
    refine ⟨?_, ?_, ?_, ?_, ?_⟩ <;> simp only [List.length_set]
    · intro j x hx
      rcases get_set hx with ⟨rfl, rfl⟩ | ⟨hne, hx⟩
      · exact hk1 (hi.cur j d hd)
      · exact hi.cur j x hx
    · exact hi.map
    · exact hi.refs
    · intro j rest he x hx
      rcases get_set hx with ⟨rfl, rfl⟩ | ⟨hne, hx⟩
      · obtain ⟨th, h1, h2⟩ := hi.join j rest he d hd
        exact hk3 th h1 h2
      · exact hi.join j rest he x hx
    · intro j u rest he x hx
      rcases get_set hx with ⟨rfl, rfl⟩ | ⟨hne, hx⟩
      · obtain ⟨th, h1, h2⟩ := hi.wait j u rest he d hd
        obtain ⟨th', h3, h4, -⟩ := hk2 u th h1 h2
        exact ⟨th', h3, h4⟩
      · exact hi.wait j u rest he x hx
  | cmd k c =>
    simp only [act] at ha
    split at ha
    next hs =>
      subst hs
      split at ha
      · cases ha; exact hi
      next i hk =>
      split at ha
      · cases ha
      next d hd =>
      have hc := command_cur (hi.cur i d hd) c
      split at ha <;> cases ha
      · exact hi.set hc hi.map hrev (by intro j r h; cases h) (by intro j t r h; cases h)
      · exact hi.set hc hi.map (by simp [refs20]) (by intro j r h; cases h) (by intro j t r h; cases h)
    · cases ha
  | teardown k =>
    simp only [act] at ha
    split at ha
    next hs =>
      subst hs
      split at ha
      · cases ha; exact hi
      next i hk =>
      split at ha
      · cases ha
      next d hd =>
      cases ha
      refine hi.set (command_cur (hi.cur i d hd) .reset) (fun v hv => hi.map v ?_) (by simp [refs20])
        (by intro j r h; cases h) (by intro j t r h; cases h)
      simp only [Dict.values, Dict.erase, List.mem_map, List.mem_filter] at hv ⊢
      obtain ⟨a, ⟨ha, -⟩, e⟩ := hv
      exact ⟨a, ha, e⟩
    · cases ha
  | register k =>
    simp only [act] at ha
    split at ha
    next hs =>
      subst hs
      cases ha
      refine ⟨?_, ?_, ?_, (by intro j r h; cases h), by intro j t r h; cases h⟩
      · intro j x hx
        simp only at hx
        rw [List.getElem?_append] at hx
        split at hx
        · exact hi.cur j x hx
        · next hge =>
          rcases hk : j - devs.length with _ | n
          · rw [hk] at hx; simp at hx; subst hx; simp [Dev.init]
          · rw [hk] at hx; simp at hx
      · simpa using (Tomato.Props.set_bounds (k := k) hi.map rfl).1
      · simp [refs20]
    · cases ha
  | stop =>
    simp only [act] at ha
    split at ha
    next hs =>
      subst hs
      cases ha
      exact ⟨hi.cur, hi.map, hi.map, (by intro j r h; cases h), by intro j t r h; cases h⟩
    · cases ha
  | die =>
    simp only [act] at ha
    split at ha
    · cases ha
      exact ⟨hi.cur, hi.map, hrev, (by intro j r h; cases h), by intro j t r h; cases h⟩
    · cases ha
  | timeout =>
    simp only [act] at ha
    split at ha
    · split at ha
      · cases ha
      · split at ha
        · cases ha
        · cases ha
          exact ⟨hi.cur, hi.map, hi.refs, (by intro j r h; cases h), by intro j t r h; cases h⟩
    · cases ha
  | go =>
    simp only [act, Quit20.go] at ha
    have hrefs := hi.refs
    cases pc with
    | serving => cases ha
    | gone => cases ha
    | quit l =>
      cases l with
      | nil =>
        cases ha
        exact ⟨hi.cur, hi.map, hrev, (by intro j r h; cases h), by intro j t r h; cases h⟩
      | cons i rest =>
        simp only at ha
        split at ha
        · cases ha
        next t ht =>
        cases ha
        refine ⟨hi.cur, hi.map, ?_, ?_, ?_⟩ <;> simp only
        · split <;> exact hrefs
        · intro j r h; split at h <;> cases h
        · intro j t r h; split at h <;> cases h
    | tell i rest =>
      simp only at ha
      split at ha
      · cases ha
      next d hd =>
      cases ha
      have hc := hi.cur i d hd
      refine hi.set (by simpa [I20.setThr] using hc) hi.map hrefs ?_ (by intro j t r h; cases h)
      intro j r h
      cases h
      exact ⟨rfl, _, get_modify (List.getElem?_eq_getElem hc), rfl⟩
    | join i rest =>
      simp only at ha
      split at ha
      · cases ha
      next d hd =>
      split at ha
      · cases ha
      next t ht =>
      split at ha
      · cases ha
        exact ⟨hi.cur, hi.map, hrev, (by intro j r h; cases h), by intro j t r h; cases h⟩
      · cases ha
        refine ⟨hi.cur, hi.map, hrefs, (by intro j r h; cases h), ?_⟩
        intro j u r he x hx
        cases he
        rw [hd] at hx
        cases hx
        exact hi.join i rest rfl d hd
    | wait i t rest =>
      simp only at ha
      split at ha
      · cases ha
      split at ha
      · cases ha
        exact ⟨hi.cur, hi.map, hrefs, (by intro j r h; cases h), by intro j t r h; cases h⟩
      · cases ha
    | reset i rest =>
      simp only at ha
      split at ha
      · cases ha
      next d hd =>
      cases ha
      exact hi.set (command_cur (hi.cur i d hd) .reset) hi.map (fun j hj => hrefs j (List.mem_cons_of_mem _ hj))
        (by intro j r h; cases h) (by intro j t r h; cases h)
    | exit l =>
      cases l with
      | nil =>
        cases ha
        exact ⟨hi.cur, hi.map, by simp [refs20], (by intro j r h; cases h), by intro j t r h; cases h⟩
      | cons i rest =>
        simp only at ha
        split at ha
        · cases ha
        next d hd =>
        cases ha
        exact hi.set (command_cur (hi.cur i d hd) .reset) hi.map (fun j hj => hrefs j (List.mem_cons_of_mem _ hj))
          (by intro j r h; cases h) (by intro j t r h; cases h)

theorem GInv.run {s s' : St} (as : List Act) {h : List QEv} (hi : GInv s)
    (hr : Quit20.run s as = some (s', h)) : GInv s' := by
  induction as generalizing s h with
  | nil => cases hr; exact hi
  | cons a as ih =>
    simp only [Quit20.run] at hr
    split at hr
    · cases hr
    next s1 e1 h1 =>
    split at hr
    · cases hr
    next s2 e2 h2 =>
    cases hr
    exact ih (hi.step h1) h2

/-- The main thread can always go on, or stop waiting. -/
theorem goes_on {s : St} (hi : GInv s) (h1 : s.pc ≠ .serving) (h2 : s.pc ≠ .gone) :
    (act s .go).isSome = true ∨ (act s .timeout).isSome = true := by
  obtain ⟨devs, m, pc⟩ := s
  have hex : ∀ i ∈ refs20 pc, ∃ d, devs[i]? = some d ∧ ∃ th, d.threads[d.cur]? = some th := by
    intro i hi'
    have hd := List.getElem?_eq_getElem (hi.refs i hi')
    exact ⟨_, hd, _, List.getElem?_eq_getElem (hi.cur i _ hd)⟩
  cases pc with
  | serving => exact absurd rfl h1
  | gone => exact absurd rfl h2
  | quit l =>
    left
    cases l with
    | nil => rfl
    | cons i rest =>
      obtain ⟨d, hd, th, hth⟩ := hex i (by simp [refs20])
      simp [act, Quit20.go, hd, curThr, hth]
  | tell i rest =>
    obtain ⟨d, hd, -⟩ := hex i (by simp [refs20])
    simp [act, Quit20.go, hd]
  | join i rest =>
    obtain ⟨d, hd, th, hth⟩ := hex i (by simp [refs20])
    left
    by_cases hf : th.pc = .fresh <;> simp [act, Quit20.go, hd, curThr, hth, hf]
  | wait i t rest =>
    obtain ⟨d, hd, -⟩ := hex i (by simp [refs20])
    obtain ⟨th, hth, -⟩ := hi.wait i t rest rfl d hd
    by_cases he : th.pc = .ended
    · left; simp [act, Quit20.go, hd, hth, he]
    · right; simp [act, hd, hth, he]
  | reset i rest =>
    obtain ⟨d, hd, -⟩ := hex i (by simp [refs20])
    simp [act, Quit20.go, hd]
  | exit l =>
    left
    cases l with
    | nil => rfl
    | cons i rest =>
      obtain ⟨d, hd, -⟩ := hex i (by simp [refs20])
      simp [act, Quit20.go, hd]

/-- The steps of the main thread until the process has ended. -/
def mainLeft (n : Nat) : Pc → Nat
  | .serving => 0
  | .quit rest => 5 * rest.length + n + 2
  | .tell _ rest => 5 * rest.length + n + 6
  | .join _ rest => 5 * rest.length + n + 5
  | .wait _ _ rest => 5 * rest.length + n + 4
  | .reset _ rest => 5 * rest.length + n + 3
  | .exit rest => rest.length + 1
  | .gone => 0

theorem main_step {s s' : St} {a : Act} {es : List QEv} (hs : s.pc ≠ .serving) (ha : act s a = some (s', es)) :
    s'.pc ≠ .serving ∧ s'.devs.length = s.devs.length ∧
    mainLeft s.devs.length s'.pc + mainSteps [a] ≤ mainLeft s.devs.length s.pc := by
  obtain ⟨devs, m, pc⟩ := s
  cases a with
  | thread i t c =>
    simp only [act] at ha
    split at ha
    · cases ha
    split at ha
    · cases ha
    split at ha
    · cases ha
    cases ha
    exact ⟨hs, by simp, by simp [mainSteps]⟩
  | cmd k c => simp only [act, if_neg hs] at ha; cases ha
  | teardown k => simp only [act, if_neg hs] at ha; cases ha
  | register k => simp only [act, if_neg hs] at ha; cases ha
  | stop => simp only [act, if_neg hs] at ha; cases ha
  | die => simp only [act, if_neg hs] at ha; cases ha
  | timeout =>
    simp only [act] at ha
    split at ha
    · split at ha
      · cases ha
      · split at ha
        · cases ha
        · cases ha; exact ⟨by simp, rfl, by simp only [mainLeft, mainSteps]; omega⟩
    · cases ha
  | go =>
    simp only [act, Quit20.go] at ha
    cases pc with
    | serving => cases ha
    | gone => cases ha
    | quit l =>
      cases l with
      | nil => cases ha; exact ⟨by simp, rfl, by simp [mainLeft, mainSteps, atExit]⟩
      | cons i rest =>
        simp only at ha
        split at ha
        · cases ha
        cases ha
        refine ⟨by simp only; split <;> simp, rfl, ?_⟩
        simp only
        split <;> simp only [mainLeft, mainSteps, List.length_cons] <;> omega
    | tell i rest =>
      simp only at ha
      split at ha
      · cases ha
      cases ha; exact ⟨by simp, by simp, by simp only [mainLeft, mainSteps]; omega⟩
    | join i rest =>
      simp only at ha
      split at ha
      · cases ha
      split at ha
      · cases ha
      split at ha <;> cases ha
      · refine ⟨by simp, rfl, ?_⟩
        simp only [mainLeft, mainSteps, atExit, List.length_reverse, List.length_range]; omega
      · exact ⟨by simp, rfl, by simp only [mainLeft, mainSteps]; omega⟩
    | wait i t rest =>
      simp only at ha
      split at ha
      · cases ha
      split at ha <;> cases ha
      exact ⟨by simp, rfl, by simp only [mainLeft, mainSteps]; omega⟩
    | reset i rest =>
      simp only at ha
      split at ha
      · cases ha
      cases ha; exact ⟨by simp, by simp, by simp only [mainLeft, mainSteps]; omega⟩
    | exit l =>
      cases l with
      | nil => cases ha; exact ⟨by simp, rfl, by simp [mainLeft, mainSteps]⟩
      | cons i rest =>
        simp only at ha
        split at ha
        · cases ha
        cases ha; exact ⟨by simp, by simp, by simp only [mainLeft, mainSteps, List.length_cons]; omega⟩

theorem mainSteps_cons (a : Act) (as : List Act) : mainSteps (a :: as) = mainSteps [a] + mainSteps as := by
  cases a <;> simp [mainSteps] <;> omega

theorem main_run {s s' : St} (as : List Act) {h : List QEv} (hs : s.pc ≠ .serving)
    (hr : Quit20.run s as = some (s', h)) :
    s'.pc ≠ .serving ∧ mainLeft s.devs.length s'.pc + mainSteps as ≤ mainLeft s.devs.length s.pc := by
  induction as generalizing s h with
  | nil => cases hr; exact ⟨hs, by simp [mainSteps]⟩
  | cons a as ih =>
    simp only [Quit20.run] at hr
    split at hr
    · cases hr
    next s1 e1 h1 =>
    split at hr
    · cases hr
    next s2 e2 h2 =>
    cases hr
    obtain ⟨hm1, hm2, hm3⟩ := main_step hs h1
    obtain ⟨hn1, hn2⟩ := ih hm1 h2
    rw [hm2] at hn2
    refine ⟨hn1, ?_⟩
    rw [mainSteps_cons]
    omega

/-! ## C123 -/

/-- **C123**, the process ends: after `stop` was answered, the main thread takes at most five steps for each registered
component and one for each device, and then the process has ended; until then it can always go on or has waited long
enough, whatever the components do (in contrast to interface 2.1, `C119_refuted`). -/
theorem C123_ends {as bs : List Act} {s0 s s' : St} {h e b : List QEv} (hr : Quit20.run {} as = some (s0, h))
    (hst : act s0 .stop = some (s, e)) (hb : Quit20.run s bs = some (s', b)) :
    mainSteps bs ≤ 5 * s0.devmap.length + s0.devs.length + 2 ∧
    (s'.pc = .gone ∨ (act s' .go).isSome = true ∨ (act s' .timeout).isSome = true) := by
  have hi := (GInv.init.run as hr).step hst
  have hs : s.pc = .quit (Dict.values s0.devmap) ∧ s.devs = s0.devs := by
    simp only [act] at hst
    split at hst
    · cases hst; exact ⟨rfl, rfl⟩
    · cases hst
  obtain ⟨h1, h2⟩ := main_run bs (by rw [hs.1]; simp) hb
  refine ⟨?_, ?_⟩
  · rw [hs.1, hs.2] at h2
    simp only [mainLeft, Dict.values, List.length_map] at h2
    omega
  · by_cases hg : s'.pc = .gone
    · exact .inl hg
    · exact .inr (goes_on (hi.run bs hb) h1 hg)

/-- **C123**, a thread which is waited for has been told to end: in any history it takes at most nine more steps, among
them at most one sample. -/
theorem C123_told {as bs : List Act} {s s' : St} {h b : List QEv} {i t : Nat} {rest : List Nat}
    (hr : Quit20.run {} as = some (s, h)) (hw : s.pc = .wait i t rest) (hb : Quit20.run s bs = some (s', b))
    (hin : ∀ a ∈ bs, ∃ j u c, a = .thread j u c) : threadSteps i t bs ≤ 9 := by
  have hi := GInv.init.run as hr
  have key : ∀ (bs : List Act) (s s' : St) (b : List QEv) (d : Dev) (th : Thr), s.devs[i]? = some d →
      d.threads[t]? = some th → th.doRun = false → Quit20.run s bs = some (s', b) →
      (∀ a ∈ bs, ∃ j u c, a = .thread j u c) → threadSteps i t bs ≤ soon th.pc := by
    intro bs
    induction bs with
    | nil => intro s s' b d th _ _ _ _ _; simp [threadSteps]
    | cons a bs ih =>
      intro s s' b d th hd hth hdr hr hin
      simp only [Quit20.run] at hr
      split at hr
      · cases hr
      next s1 e1 h1 =>
      split at hr
      · cases hr
      next s2 e2 h2 =>
      cases hr
      obtain ⟨j, u, c, rfl⟩ := hin a List.mem_cons_self
      have hin' : ∀ a ∈ bs, ∃ j u c, a = .thread j u c := fun a ha => hin a (List.mem_cons_of_mem _ ha)
      simp only [act] at h1
      split at h1
      · cases h1
      split at h1
      · cases h1
      next x hx =>
      split at h1
      · cases h1
      next x' es' hs =>
      cases h1
      simp only [threadSteps]
      by_cases hj : j = i
      · subst hj
        rw [hd] at hx
        cases hx
        have hlt : j < s.devs.length := (List.getElem?_eq_some_iff.mp hd).1
        obtain ⟨th', hth', hdr', hpc⟩ := (tstep_keeps hs).2.1 t th hth hdr
        have := ih ⟨s.devs.set j x', s.devmap, s.pc⟩ _ _ x' th' (by simp [hlt]) hth' hdr' h2 hin'
        by_cases hu : u = t
        · subst hu
          obtain ⟨th'', h3, h4⟩ := soon_step hth hdr hs
          rw [hth'] at h3
          cases h3
          simp only [true_and, if_true]
          omega
        · rw [hpc (fun e => hu e.symm)] at this
          simpa [hu] using this
      · have := ih ⟨s.devs.set j x', s.devmap, s.pc⟩ _ _ d th
          (by simp only [List.getElem?_set_ne hj]; exact hd) hth hdr h2 hin'
        simpa [hj] using this
  have hlt := hi.refs i (by rw [hw]; simp [refs20])
  have hd := List.getElem?_eq_getElem hlt
  obtain ⟨th, hth, hdr⟩ := hi.wait i t rest hw _ hd
  refine Nat.le_trans (key bs s s' b _ th hd hth hdr hb hin) ?_
  cases th.pc <;> simp [soon]

/-- **C123**, `_partial`: if one thing was asked of a component at a time, no thread takes longer than one second to end
when it is told so, and none ends between the moment it is found alive and the moment it is waited for, then nothing is
cut off when the process has ended: every device ever created has been reset and no thread of it is being executed.
Missing: threads which take longer (`C123_refuted_late`), which end in that moment (`C123_refuted_race`), and which were
left behind by a reset (`C123_refuted_left`). -/
theorem C123_partial {as : List Act} {s : St} {h : List QEv} (hr : Quit20.run {} as = some (s, h))
    (ho : Orderly {} as) (hl : ∀ i, QEv.late i ∉ h) (hd : QEv.died ∉ h) (hg : s.pc = .gone) :
    ∀ d ∈ s.devs, AtRest d := by
  have hi := EInv.init.run as ho hr (fun e he hb => by
    cases e with
    | late i => exact hl i he
    | died => exact hd he
    | dev _ _ => exact hb
    | made => exact hb
    | told => exact hb
    | gone => exact hb)
  intro d hdm
  obtain ⟨i, hi'⟩ := List.getElem?_of_mem hdm
  exact hi.rest i d hi' (by rw [hg]; trivial)

/-- `n` steps of thread `t` of device `i`. -/
def steps20 (i t n : Nat) (c : Choice := {}) : List Act := List.replicate n (.thread i t c)

/-- `Orderly`, computed. -/
def orderlyB : St → List Act → Bool
  | _, [] => true
  | s, a :: as =>
    (match a with
      | .cmd k c => match (Dict.get? s.devmap k).bind (fun i => s.devs[i]?) with
        | some d => mayAsk d (.cmd c)
        | none => true
      | .teardown k | .register k => match (Dict.get? s.devmap k).bind (fun i => s.devs[i]?) with
        | some d => mayAsk d (.cmd .reset)
        | none => true
      | _ => true) &&
    (match act s a with
      | some (s', _) => orderlyB s' as
      | none => true)

theorem orderlyB_spec {s : St} {as : List Act} (h : orderlyB s as = true) : Orderly s as := by
  induction as generalizing s with
  | nil => trivial
  | cons a as ih =>
    simp only [orderlyB, Bool.and_eq_true] at h
    obtain ⟨h1, h2⟩ := h
    refine ⟨?_, ?_⟩
    · cases a with
      | cmd k c =>
        intro i d hk hd
        simp only [hk, Option.bind_some, hd] at h1
        exact mayAsk_spec h1
      | teardown k =>
        intro i d hk hd
        simp only [hk, Option.bind_some, hd] at h1
        exact mayAsk_spec h1
      | register k =>
        intro i d hk hd
        simp only [hk, Option.bind_some, hd] at h1
        exact mayAsk_spec h1
      | _ => trivial
    · intro s' es hs
      rw [hs] at h2
      exact ih h2

/-- The positions of all threads of all devices, and whether they have been told to end. -/
def threadsOf (s : St) : List (List (TPc × Bool)) := s.devs.map (fun d => d.threads.map (fun t => (t.pc, t.doRun)))

/-- A task, in the middle of a sample, when the driver is told to stop. -/
def lateActs : List Act :=
  [.register 0, .cmd 0 (.start 7)] ++ steps20 0 0 5 ++ [.stop, .go, .go, .go, .timeout] ++ List.replicate 4 .go

/-- **C123 is false of the code** (late): a sample which takes longer than one second is cut off when the process ends,
although nobody has asked for anything unusual. -/
theorem C123_refuted_late : ∃ s h, Quit20.run {} lateActs = some (s, h) ∧ Orderly {} lateActs ∧ QEv.told ∈ h ∧
    QEv.died ∉ h ∧ s.pc = .gone ∧ threadsOf s = [[(.turn 7, false), (.fresh, false), (.fresh, false)]] :=
  ⟨_, _, rfl, orderlyB_spec rfl, by decide, by decide, rfl, rfl⟩

/-- Two components with a task each; the first one ends by itself after it was found alive. -/
def raceActs : List Act :=
  [.register 0, .register 1, .cmd 0 (.start 7), .cmd 1 (.start 8)] ++ steps20 1 0 5 ++
    steps20 0 0 8 { over := true } ++ [.stop, .go, .thread 0 0 {}, .go, .go] ++ List.replicate 3 .go

/-- **C123 is false of the code** (race): the thread of the first component ends, and prepares the next one, between
`is_alive` and `join`; the next one has not been started and can not be joined.  The exception ends the process, and
the task of the second component, which was never told to end, is cut off in the middle of a sample. -/
theorem C123_refuted_race : ∃ s h, Quit20.run {} raceActs = some (s, h) ∧ Orderly {} raceActs ∧ QEv.told ∈ h ∧
    (∀ i, QEv.late i ∉ h) ∧ s.pc = .gone ∧
    threadsOf s = [[(.ended, true), (.fresh, false), (.fresh, false)], [(.turn 8, true), (.fresh, false)]] := by
  refine ⟨_, _, rfl, orderlyB_spec rfl, by decide, ?_, rfl, rfl⟩
  intro i hi
  simp only [List.mem_append, List.mem_cons] at hi
  simp at hi

/-- A component which is reset during a task, as at the end of a job which was stopped (`C54_refuted_interface_2_0`). -/
def leftActs : List Act :=
  [.register 0, .cmd 0 (.start 7)] ++ steps20 0 0 5 ++ [.cmd 0 .stop, .cmd 0 .reset, .stop] ++ List.replicate 5 .go

/-- **C123 is false of the code** (left behind): a reset during a task leaves its thread behind; when the driver is told
to stop, this thread is not told to end, nobody waits for it, and it is cut off in the middle of a sample. -/
theorem C123_refuted_left : ∃ s h, Quit20.run {} leftActs = some (s, h) ∧ QEv.told ∈ h ∧ QEv.died ∉ h ∧
    (∀ i, QEv.late i ∉ h) ∧ s.pc = .gone ∧
    threadsOf s = [[(.turn 7, true), (.fresh, false), (.fresh, false), (.fresh, false)]] := by
  refine ⟨_, _, rfl, by decide, by decide, ?_, rfl, rfl⟩
  intro i hi
  simp at hi

/-- A task which is told to end and does, a component which was torn down, and one which has done nothing. -/
def goodActs : List Act :=
  [.register 0, .register 1, .register 2, .cmd 0 (.start 7), .teardown 1] ++ steps20 0 0 5 ++ [.stop, .go, .go, .go] ++
    steps20 0 0 5 { result := some (some [3]) } ++ List.replicate 9 .go

/-- The hypotheses of `C123_partial` can be met by a history in which a task has to be ended. -/
example : ∃ s h, Quit20.run {} goodActs = some (s, h) ∧ Orderly {} goodActs ∧ (∀ i, QEv.late i ∉ h) ∧
    QEv.died ∉ h ∧ s.pc = .gone ∧ QEv.dev 0 (.measuredFor 7 [3]) ∈ h ∧ QEv.dev 0 (.ended 7) ∈ h := by
  refine ⟨_, _, rfl, orderlyB_spec rfl, ?_, by decide, rfl, by decide, by decide⟩
  intro i hi
  simp at hi

/-- The hypotheses of `C123_ends` and `C123_told` can be met. -/
example : ∃ s0 h s e s' b, Quit20.run {} (lateActs.take 7) = some (s0, h) ∧ act s0 .stop = some (s, e) ∧
    Quit20.run s [.go, .go, .go] = some (s', b) ∧ s'.pc = .wait 0 0 [] :=
  ⟨_, _, _, _, _, _, rfl, rfl, rfl, rfl⟩

end Tomato.Props.End20
