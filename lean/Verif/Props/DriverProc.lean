import Verif.DriverProc

/-!
# Properties of the driver process (C55, C56, C57, C61)
-/

namespace Tomato.Props
open Tomato.Drv

/-! ## C55 -/

/-- **C55** (`_partial`: interface 2.1, components named by something that can be a dictionary key;
see `C55_refuted_unhashable` and `C55_refuted_interface_2_0`): a command addressed to a component
which is not registered, by `key` or by `address` and `channel`, is answered with failure, runs no
code of the device, and changes nothing - whatever the command would do. -/
theorem C55_unregistered_partial (i : Iface) (byKey : Bool) (k : Key) (res : CallRes)
    (hv : i.ver = .v21) (hk : k ∉ i.devmap) :
    handle i (.component ⟨byKey, some k⟩ res) = (i, .answered false, []) := by
  simp [handle, component, hk, hv]

example : handle { devmap := [("a", "1")] } (.component ⟨true, some ("a", "2")⟩ (.reply true)) =
    ({ devmap := [("a", "1")] }, .answered false, []) := by decide

/-- **C55** is violated by interface 2.0, for every device map and every way of addressing: the
driver process ends without an answer. -/
theorem C55_refuted_interface_2_0 (i : Iface) (byKey : Bool) (k : Key) (res : CallRes)
    (hv : i.ver = .v20) (hk : k ∉ i.devmap) :
    ∃ e, handle i (.component ⟨byKey, some k⟩ res) = (i, .died e, []) := by
  cases byKey <;> simp [handle, component, hk, hv, callIface, logErrors]

example : handle { ver := .v20 } (.component ⟨true, some ("a", "2")⟩ (.reply true)) =
    ({ ver := .v20 }, .died .systemExit, []) := by decide

/-- **C55** is violated by both versions if the component is named by a list: the driver process
ends. -/
theorem C55_refuted_unhashable (i : Iface) (byKey : Bool) (res : CallRes) :
    handle i (.component ⟨byKey, none⟩ res) = (i, .died .systemExit, []) := by
  obtain ⟨v, _⟩ := i
  cases v <;> simp [handle, component, callIface, logErrors]

/-- **C55** for `cmp_teardown` (`_partial`: interface 2.1): for a component that is not registered nothing
happens; a component torn down is not registered any more, all others still are. -/
theorem C55_teardown_partial (i : Iface) (byKey : Bool) (k : Key) (hv : i.ver = .v21) :
    (k ∉ i.devmap → ∀ res, handle i (.teardown ⟨byKey, some k⟩ res) = (i, .answered false, [])) ∧
    (∀ b, k ∉ (handle i (.teardown ⟨byKey, some k⟩ (.reply b))).1.devmap ∧
      ∀ k', k' ≠ k → (k' ∈ (handle i (.teardown ⟨byKey, some k⟩ (.reply b))).1.devmap ↔
        k' ∈ i.devmap)) := by
  refine ⟨fun hk res => ?_, fun b => ⟨?_, fun k' hne => ?_⟩⟩
  · have h1 : teardown i ⟨byKey, some k⟩ res = i := by
      cases res with
      | raises e => rfl
      | reply b =>
        have : i.devmap.filter (fun k' => decide (some k ≠ some k')) = i.devmap := by
          rw [List.filter_eq_self]
          intro a ha
          simp only [ne_eq, Option.some.injEq, decide_eq_true_eq]
          rintro rfl
          exact hk ha
        simp only [teardown, this]
    simp [handle, component, hk, hv, h1]
  · simp [handle, teardown]
  · have hne' : ¬ k = k' := fun h => hne h.symm
    simp [handle, teardown, hne']

/-- A component is torn down, then a command for it is rejected. -/
example : (handle { devmap := [("a", "1"), ("a", "2")] } (.teardown ⟨true, some ("a", "2")⟩ (.reply true))) =
    ({ devmap := [("a", "1")] }, .answered true, [.device ("a", "2")]) ∧
    handle { devmap := [("a", "1")] } (.component ⟨true, some ("a", "2")⟩ (.reply true)) =
    ({ devmap := [("a", "1")] }, .answered false, []) := by decide

/-! ## C56 -/

/-- A message which brings the driver down. -/
inductive Deadly (i : Iface) : Msg → Prop where
  /-- `settings` or `cmp_register` without parameters -/
  | noSettings : Deadly i (.settings none)
  | noParams (told : Bool) : Deadly i (.cmpRegister none told)
  /-- a command naming an attribute of the interface which is not a function -/
  | attr : Deadly i .attr
  /-- a component named by something that cannot be a key -/
  | unhashable (b : Bool) (r : CallRes) : Deadly i (.component ⟨b, none⟩ r)
  | teardownUnhashable (b : Bool) (r : CallRes) : Deadly i (.teardown ⟨b, none⟩ r)
  /-- the function called raises something other than `ValueError` or `AttributeError` -/
  | componentRaises (b : Bool) (k : Key) (e : PyErr) : k ∈ i.devmap → e ≠ .valueError →
      e ≠ .attributeError → Deadly i (.component ⟨b, some k⟩ (.raises e))
  | teardownRaises (b : Bool) (k : Key) (e : PyErr) : k ∈ i.devmap → e ≠ .valueError →
      e ≠ .attributeError → Deadly i (.teardown ⟨b, some k⟩ (.raises e))
  | ifaceRaises (e : PyErr) : e ≠ .valueError → e ≠ .attributeError → Deadly i (.iface (.raises e))
  /-- a device raises something other than `RuntimeError` when it is registered -/
  | registerRaises (k : Key) (e : PyErr) (told : Bool) : Deadly i (.cmpRegister (some (k, .other e)) told)
  | bootstrapRaises (comps : List (Key × RegOut)) (k : Key) (e : PyErr) :
      (k, .other e) ∈ comps → Deadly i (.register comps)

theorem cmpRegister_ver {i i' : Iface} {k : Key} {o : RegOut} {b : Bool}
    (h : cmpRegister i k o = .ok (i', b)) : i'.ver = i.ver := by
  unfold cmpRegister at h
  split at h
  all_goals first
    | (cases h; done)
    | (cases h; simp_all)

theorem bootstrap_ver (comps : List (Key × RegOut)) : ∀ {i i' : Iface},
    (bootstrap i comps).2 = .ok i' → i'.ver = i.ver := by
  induction comps with
  | nil => intro i i' h; cases h; rfl
  | cons p rest ih =>
    intro i i' h
    obtain ⟨k, o⟩ := p
    simp only [bootstrap] at h
    split at h
    · exact ih h
    · split at h
      · exact ih h
      · split at h
        · cases h
        · next i₁ b hc => rw [ih h, cmpRegister_ver hc]

theorem bootstrap_ok (comps : List (Key × RegOut)) : ∀ (i : Iface), i.ver = .v21 →
    (∀ k e, (k, .other e) ∉ comps) → ∃ i', (bootstrap i comps).2 = .ok i' := by
  induction comps with
  | nil => intro i _ _; exact ⟨i, rfl⟩
  | cons p rest ih =>
    intro i hv hn
    obtain ⟨k, o⟩ := p
    have hn' : ∀ k e, (k, RegOut.other e) ∉ rest := fun k e h => hn k e (by simp [h])
    simp only [bootstrap]
    split
    · exact ih i hv hn'
    · split
      · exact ih i hv hn'
      · split
        · next e hc =>
          cases o <;> simp [cmpRegister, hv] at hc
          · next e' => exact absurd (List.mem_cons_self ..) (hn k e')
        · next i₁ b hc => exact ih i₁ (by rw [cmpRegister_ver hc, hv]) hn'

/-- **C56** (`_partial`: interface 2.1 and messages other than those listed in `Deadly`; see
`C56_refuted`): the driver answers the message and goes on (or stops, if told to).  In particular
this holds for messages without command, with an unknown command, and for commands whose execution
is rejected with `ValueError` or `AttributeError`. -/
theorem C56_survives_partial (i : Iface) (m : Msg) (hv : i.ver = .v21) (hm : ¬ Deadly i m) :
    (∃ b, (handle i m).2.1 = .answered b) ∨ (m = .stop ∧ (handle i m).2.1 = .stopping) := by
  cases m with
  | noCmd => exact .inl ⟨_, rfl⟩
  | stop => exact .inr ⟨rfl, rfl⟩
  | unknown => exact .inl ⟨_, rfl⟩
  | attr => exact absurd .attr hm
  | settings p =>
    cases p with
    | none => exact absurd .noSettings hm
    | some x => exact .inl ⟨_, rfl⟩
  | cmpRegister p told =>
    cases p with
    | none => exact absurd (.noParams _) hm
    | some x =>
      obtain ⟨k, o⟩ := x
      cases o with
      | other e => exact absurd (.registerRaises k e _) hm
      | ok => left; simp [handle, cmpRegister, hv]
      | factory => left; simp [handle, cmpRegister, hv]
      | caps => left; simp [handle, cmpRegister, hv]
  | component a res =>
    obtain ⟨b, key⟩ := a
    cases key with
    | none => exact absurd (.unhashable b res) hm
    | some k =>
      left
      by_cases hk : k ∈ i.devmap
      · cases res with
        | reply s => exact ⟨s, by simp [handle, component, hk, callIface]⟩
        | raises e =>
          refine ⟨false, ?_⟩
          by_cases he : e = .valueError ∨ e = .attributeError
          · simp [handle, component, hk, callIface, logErrors, hv, he]
          · simp only [not_or] at he
            exact absurd (.componentRaises b k e hk he.1 he.2) hm
      · exact ⟨false, by simp [handle, component, hk, hv]⟩
  | teardown a res =>
    obtain ⟨b, key⟩ := a
    cases key with
    | none => exact absurd (.teardownUnhashable b res) hm
    | some k =>
      left
      by_cases hk : k ∈ i.devmap
      · cases res with
        | reply s => exact ⟨s, by simp [handle, component, hk, callIface]⟩
        | raises e =>
          refine ⟨false, ?_⟩
          by_cases he : e = .valueError ∨ e = .attributeError
          · simp [handle, component, hk, callIface, logErrors, hv, he]
          · simp only [not_or] at he
            exact absurd (.teardownRaises b k e hk he.1 he.2) hm
      · exact ⟨false, by simp [handle, component, hk, hv]⟩
  | iface res =>
    left
    cases res with
    | reply s => exact ⟨s, rfl⟩
    | raises e =>
      refine ⟨false, ?_⟩
      by_cases he : e = .valueError ∨ e = .attributeError
      · simp [handle, callIface, logErrors, hv, he]
      · simp only [not_or] at he
        exact absurd (.ifaceRaises e he.1 he.2) hm
  | register comps =>
    left
    obtain ⟨i', hi⟩ := bootstrap_ok comps i hv
      (fun k e h => hm (.bootstrapRaises comps k e h))
    simp only [handle, hi, hv]
    exact ⟨_, rfl⟩

/-- **C56** (`_partial`: interface 2.1; see `C56_refuted`): a message without command, with an unknown
command, for a component that is not registered, or for a command that is rejected with `ValueError`
or `AttributeError`, is answered with a failure, and nothing else happens. -/
theorem C56_rejected_partial (i : Iface) (hv : i.ver = .v21) :
    handle i .noCmd = (i, .answered false, []) ∧ handle i .unknown = (i, .answered false, []) ∧
    (∀ b k res, k ∉ i.devmap → handle i (.component ⟨b, some k⟩ res) = (i, .answered false, [])) ∧
    (∀ e, e = .valueError ∨ e = .attributeError →
      (handle i (.iface (.raises e))).1 = i ∧ (handle i (.iface (.raises e))).2.1 = .answered false ∧
      ∀ b k, k ∈ i.devmap → (handle i (.component ⟨b, some k⟩ (.raises e))).1 = i ∧
        (handle i (.component ⟨b, some k⟩ (.raises e))).2.1 = .answered false) := by
  refine ⟨rfl, rfl, fun b k res hk => ?_, fun e he => ⟨rfl, ?_, fun b k hk => ⟨rfl, ?_⟩⟩⟩
  · simp [handle, component, hk, hv]
  · simp [handle, callIface, logErrors, hv, he]
  · simp [handle, component, hk, callIface, logErrors, hv, he]

/-- One registered component; a command for another one and an unknown command. -/
example : ∃ i : Iface, i.ver = .v21 ∧ i.devmap = [("a", "1")] ∧
    handle i (.component ⟨true, some ("a", "2")⟩ (.reply true)) = (i, .answered false, []) ∧
    handle i (.component ⟨true, some ("a", "1")⟩ (.reply true)) = (i, .answered true, [.device ("a", "1")]) :=
  ⟨{ devmap := [("a", "1")] }, rfl, rfl, rfl, rfl⟩

/-- The same for any sequence of messages, none of them deadly at its time: the driver is running
afterwards. -/
theorem C56_keeps_running_partial : ∀ (ms : List Msg) (i : Iface), i.ver = .v21 → .stop ∉ ms →
    (∀ j m, m ∈ ms → ¬ Deadly j m) → ∃ i', (handleAll i ms).1 = some i' := by
  intro ms
  induction ms with
  | nil => intro i _ _ _; exact ⟨i, rfl⟩
  | cons m ms ih =>
    intro i hv hs hd
    simp only [List.mem_cons, not_or] at hs
    have := C56_survives_partial i m hv (hd i m (by simp))
    rcases this with ⟨b, hb⟩ | ⟨h, _⟩
    · have hver : (handle i m).1.ver = .v21 := by
        cases m with
        | register comps =>
          simp only [handle] at hb ⊢
          split at hb
          · cases hb
          · next i' hi =>
            rw [hv]
            simp only
            rw [bootstrap_ver comps hi, hv]
        | cmpRegister p told =>
          cases p with
          | none => exact hv
          | some x =>
            obtain ⟨k, o⟩ := x
            simp only [handle] at hb ⊢
            split at hb
            · cases hb
            · next i' b' hc => simp only; rw [cmpRegister_ver hc, hv]
        | settings p => cases p <;> exact hv
        | teardown a res => cases res <;> exact hv
        | _ => exact hv
      simp only [handleAll]
      have he : handle i m = ((handle i m).1, .answered b, (handle i m).2.2) := by
        rw [← hb]
      rw [he]
      exact ih _ hver hs.2 (fun j m' h => hd j m' (by simp [h]))
    · exact absurd h (fun e => hs.1 e.symm)

example : (handleAll {} [.noCmd, .unknown, .register [(("a", "1"), .factory)],
    .component ⟨false, some ("a", "1")⟩ (.reply true), .iface (.raises .valueError)]).1 =
    some { retries := [(("a", "1"), 1)] } := by decide

/-- **C56** is violated: each of the following messages ends the driver process without an answer -
`settings` without parameters, a command naming the attribute `devmap`, a command with missing or
superfluous parameters (`TypeError`), and for interface 2.0 also `register` and any command
rejected with `ValueError`. -/
theorem C56_refuted (i : Iface) :
    handle i (.settings none) = (i, .died .keyError, []) ∧
    handle i .attr = (i, .died .typeError, []) ∧
    handle i (.iface (.raises .typeError)) = (i, .died .systemExit, []) ∧
    (i.ver = .v20 → (∀ comps, ∃ e, (handle i (.register comps)).2.1 = .died e) ∧
      handle i (.iface (.raises .valueError)) = (i, .died .systemExit, [])) := by
  refine ⟨rfl, rfl, ?_, ?_⟩
  · obtain ⟨v, _⟩ := i
    cases v <;> simp [handle, callIface, logErrors]
  · intro hv
    refine ⟨fun comps => ?_, by simp [handle, callIface, logErrors, hv]⟩
    simp only [handle]
    split
    · exact ⟨_, rfl⟩
    · rw [hv]; exact ⟨_, rfl⟩

/-- Every deadly message does end the process: the list in `Deadly` is exact for interface 2.1,
except that a device which is not asked to register cannot raise. -/
theorem C56_deadly_exact (i : Iface) (m : Msg) (h : Deadly i m)
    (hr : ∀ comps, m ≠ .register comps) : ∃ e, (handle i m).2.1 = .died e := by
  cases h with
  | noSettings => exact ⟨_, rfl⟩
  | noParams => exact ⟨_, rfl⟩
  | attr => exact ⟨_, rfl⟩
  | unhashable b r =>
    rw [C55_refuted_unhashable]
    exact ⟨_, rfl⟩
  | teardownUnhashable b r =>
    obtain ⟨v, _⟩ := i
    cases v <;> simp [handle, component, callIface, logErrors]
  | componentRaises b k e hk h1 h2 =>
    obtain ⟨v, _⟩ := i
    simp only at hk
    cases v <;> simp [handle, component, hk, callIface, logErrors, h1, h2]
  | teardownRaises b k e hk h1 h2 =>
    obtain ⟨v, _⟩ := i
    simp only at hk
    cases v <;> simp [handle, component, hk, callIface, logErrors, h1, h2]
  | ifaceRaises e h1 h2 =>
    obtain ⟨v, _⟩ := i
    cases v <;> simp [handle, callIface, logErrors, h1, h2]
  | registerRaises k e =>
    obtain ⟨v, _⟩ := i
    cases v <;> simp [handle, cmpRegister]
  | bootstrapRaises comps k e h => exact absurd rfl (hr comps)

/-! ## C57 -/

/-- How often the registration of a component was tried automatically. -/
def autoTries (k : Key) (h : List Ev) : Nat := h.countP (fun e => e = .tried k true)

/-- What is known after automatic registrations only: `n` is the number of tries of `k`. -/
structure Book (k : Key) (i : Iface) (n : Nat) : Prop where
  le : n ≤ 3
  out : k ∉ i.devmap → getRetries i.retries k = n
  /-- registered components have no failed tries on record -/
  reg : k ∈ i.devmap → getRetries i.retries k = 0

theorem mem_addKey {dm : List Key} {k k' : Key} : k' ∈ addKey dm k ↔ k' = k ∨ k' ∈ dm := by
  unfold addKey
  split
  · constructor
    · exact .inr
    · rintro (rfl | h) <;> assumption
  · simp [or_comm]

theorem getRetries_set {r : Dict Key Nat} {k k' : Key} {n : Nat} :
    getRetries (Dict.set r k n) k' = if k' = k then n else getRetries r k' := by
  unfold getRetries
  rw [Dict.get?_set]
  by_cases h : k' = k
  · subst h; simp
  · have : ¬ k = k' := fun e => h e.symm
    simp [h, this]

/-- Messages of the main loop which neither register nor tear down by hand, and devices which raise nothing but
`RuntimeError` from `DeviceFactory`. -/
def AutoOnly : Msg → Prop
  | .cmpRegister _ _ => False
  | .teardown _ _ => False
  | .register comps => ∀ k o, (k, o) ∈ comps → o = .ok ∨ o = .factory
  | _ => True

theorem bootstrap_book (k : Key) (comps : List (Key × RegOut)) :
    ∀ (i : Iface) (n : Nat), i.ver = .v21 → (∀ k o, (k, o) ∈ comps → o = .ok ∨ o = .factory) →
      Book k i n → ∃ i', (bootstrap i comps).2 = .ok i' ∧ i'.ver = .v21 ∧
        (k ∈ i.devmap → autoTries k (bootstrap i comps).1 = 0) ∧
        Book k i' (n + autoTries k (bootstrap i comps).1) := by
  induction comps with
  | nil =>
    intro i n hv _ hb
    exact ⟨i, rfl, hv, fun _ => rfl, hb⟩
  | cons p rest ih =>
    intro i n hv ho hb
    obtain ⟨k₀, o⟩ := p
    have ho' : ∀ k o, (k, o) ∈ rest → o = .ok ∨ o = .factory :=
      fun k o h => ho k o (by simp [h])
    simp only [bootstrap]
    split
    · exact ih i n hv ho' hb
    · next hk₀ =>
      split
      · exact ih i n hv ho' hb
      · next hmax =>
        simp only [hv, true_and] at hmax
        have key : ∀ (i₁ : Iface), i₁.ver = .v21 → (k ∈ i.devmap → k ∈ i₁.devmap) →
            Book k i₁ (n + if k₀ = k then 1 else 0) →
            ∃ i', (bootstrap i₁ rest).2 = .ok i' ∧ i'.ver = .v21 ∧
              (k ∈ i.devmap → autoTries k (.tried k₀ true :: (bootstrap i₁ rest).1) = 0) ∧
              Book k i' (n + autoTries k (.tried k₀ true :: (bootstrap i₁ rest).1)) := by
          intro i₁ hv₁ hm hb₁
          obtain ⟨i', h1, h2, h3, h4⟩ := ih i₁ _ hv₁ ho' hb₁
          have e : autoTries k (.tried k₀ true :: (bootstrap i₁ rest).1) =
              (if k₀ = k then 1 else 0) + autoTries k (bootstrap i₁ rest).1 := by
            unfold autoTries
            rw [List.countP_cons]
            by_cases h : k₀ = k
            · subst h; simp; omega
            · simp [h]
          refine ⟨i', h1, h2, fun hk => ?_, ?_⟩
          · have hne : k₀ ≠ k := fun e => hk₀ (e ▸ hk)
            rw [e, h3 (hm hk)]
            simp [hne]
          · rw [e]
            have : n + ((if k₀ = k then 1 else 0) + autoTries k (bootstrap i₁ rest).1) =
              n + (if k₀ = k then 1 else 0) + autoTries k (bootstrap i₁ rest).1 := by omega
            rw [this]
            exact h4
        obtain ⟨hle, hout, hreg⟩ := hb
        rcases ho k₀ o (by simp) with rfl | rfl
        · simp only [cmpRegister, hv]
          refine key _ rfl (fun h => by simp [mem_addKey, h]) ⟨?_, ?_, ?_⟩
          · by_cases h : k₀ = k
            · subst h
              have := hout hk₀
              simp only [maxRetries] at hmax
              simp
              omega
            · simpa [h] using hle
          · intro h
            simp only [mem_addKey, not_or] at h
            have hne : k₀ ≠ k := fun e => h.1 e.symm
            simp [getRetries_set, h.1, hne, hout h.2]
          · intro h
            simp only [mem_addKey] at h
            simp only [getRetries_set]
            split
            · rfl
            · next hne =>
              exact hreg (h.resolve_left hne)
        · simp only [cmpRegister, hv]
          refine key _ rfl (fun h => h) ⟨?_, ?_, ?_⟩
          · by_cases h : k₀ = k
            · subst h
              have := hout hk₀
              simp only [maxRetries] at hmax
              simp
              omega
            · simpa [h] using hle
          · intro h
            simp only [getRetries_set]
            by_cases e : k₀ = k
            · subst e
              simp [hout h]
            · have e' : ¬ k = k₀ := fun h => e h.symm
              simp [e, e', hout h]
          · intro h
            have hne : ¬ k = k₀ := fun e => hk₀ (e ▸ h)
            simp only [getRetries_set, hne, if_false]
            exact hreg h

/-- Which component a message tears down or registers is not changed by other messages. -/
theorem handle_book {k : Key} {i : Iface} {n : Nat} {m : Msg} (hv : i.ver = .v21)
    (ha : AutoOnly m) (hb : Book k i n) :
    (handle i m).1.ver = .v21 ∧ (k ∈ i.devmap → autoTries k (handle i m).2.2 = 0) ∧
      Book k (handle i m).1 (n + autoTries k (handle i m).2.2) := by
  have triv : autoTries k [] = 0 := rfl
  cases m with
  | cmpRegister p told => exact absurd ha id
  | teardown a res => exact absurd ha id
  | register comps =>
    obtain ⟨i', h1, h2, h3, h4⟩ := bootstrap_book k comps i n hv ha hb
    simp only [handle, h1, hv]
    exact ⟨h2, h3, h4⟩
  | settings p => cases p <;> exact ⟨hv, fun _ => rfl, ⟨hb.le, hb.out, hb.reg⟩⟩
  | component a res =>
    have : autoTries k (component i a res).2 = 0 := by
      unfold component
      repeat' split
      all_goals simp [autoTries]
    simp only [handle, this]
    exact ⟨hv, fun _ => trivial, hb⟩
  | _ => exact ⟨hv, fun _ => rfl, hb⟩

/-- **C57** (`_partial`: interface 2.1, nothing registered or torn down by hand, and devices failing with
`RuntimeError` from `DeviceFactory`; see `C57_refuted`): over the whole life of the driver, a
component is tried at most three times, and not at all once it is registered. -/
theorem C57_bounded_partial (k : Key) : ∀ (ms : List Msg) (i : Iface) (n : Nat), i.ver = .v21 →
    (∀ m ∈ ms, AutoOnly m) → Book k i n →
    n + autoTries k (handleAll i ms).2 ≤ 3 ∧
      (k ∈ i.devmap → autoTries k (handleAll i ms).2 = 0) := by
  intro ms
  induction ms with
  | nil => intro i n _ _ hb; exact ⟨hb.le, fun _ => rfl⟩
  | cons m ms ih =>
    intro i n hv ha hb
    obtain ⟨h1, h2, h3⟩ := handle_book hv (ha m (by simp)) hb
    have mem : k ∈ i.devmap → k ∈ (handle i m).1.devmap := by
      intro hk
      have hmono : ∀ (comps : List (Key × RegOut)) (i i' : Iface),
          (bootstrap i comps).2 = .ok i' → k ∈ i.devmap → k ∈ i'.devmap := by
        intro comps
        induction comps with
        | nil => intro i i' h hk; cases h; exact hk
        | cons p rest ih =>
          intro i i' h hk
          obtain ⟨k', o⟩ := p
          simp only [bootstrap] at h
          split at h
          · exact ih _ _ h hk
          · split at h
            · exact ih _ _ h hk
            · split at h
              · cases h
              · next i₁ b hc =>
                refine ih _ _ h ?_
                unfold cmpRegister at hc
                split at hc
                all_goals first
                  | (cases hc; done)
                  | (cases hc; simp [mem_addKey, hk])
      cases m with
      | register comps =>
        simp only [handle]
        split
        · exact hk
        · next i' hi =>
          rw [hv]
          exact hmono comps i i' hi hk
      | cmpRegister p told => exact absurd (ha (.cmpRegister p told) (by simp)) id
      | teardown a res => exact absurd (ha (.teardown a res) (by simp)) id
      | settings p => cases p <;> exact hk
      | _ => exact hk
    simp only [handleAll]
    split
    · next i' b es he =>
      rw [he] at h1 h2 h3 mem
      simp only at h1 h2 h3 mem
      have ⟨h4, h5⟩ := ih i' _ h1 (fun m' h => ha m' (by simp [h])) h3
      have e : autoTries k (es ++ (handleAll i' ms).2) =
          autoTries k es + autoTries k (handleAll i' ms).2 := by simp [autoTries]
      rw [e]
      refine ⟨by omega, fun hk => ?_⟩
      rw [h2 hk, h5 (mem hk)]
    · next i' r es _ he =>
      rw [he] at h2 h3
      exact ⟨h3.le, h2⟩

/-- The hypotheses hold for a driver which has just started. -/
example (k : Key) : Book k {} 0 := ⟨by omega, fun _ => rfl, fun h => by cases h⟩

/-- Six automatic registrations of a failing component: three tries. -/
example : autoTries ("a", "1") (handleAll {} (List.replicate 6
    (.register [(("a", "1"), .factory), (("a", "2"), .ok)]))).2 = 3 ∧
    autoTries ("a", "2") (handleAll {} (List.replicate 6
    (.register [(("a", "1"), .factory), (("a", "2"), .ok)]))).2 = 1 := by decide

/-- What is kept by automatic registrations about failures on record. -/
structure Rec (i : Iface) : Prop where
  ver : i.ver = .v21
  nodup : (Dict.keys i.retries).Nodup
  reg : ∀ k, k ∈ i.devmap → getRetries i.retries k = 0

theorem bootstrap_rec (comps : List (Key × RegOut)) :
    ∀ (i : Iface), Rec i → (∀ k o, (k, o) ∈ comps → o = .ok ∨ o = .factory) →
      ∃ i', (bootstrap i comps).2 = .ok i' ∧ Rec i' ∧
        (∀ k, getRetries i'.retries k ≠ 0 →
          getRetries i.retries k ≠ 0 ∨ .tried k true ∈ (bootstrap i comps).1) ∧
        (∀ k, getRetries i.retries k ≠ 0 ∨ .tried k true ∈ (bootstrap i comps).1 →
          k ∈ i'.devmap ∨ getRetries i'.retries k ≠ 0) ∧ (∀ k, k ∈ i.devmap → k ∈ i'.devmap) := by
  induction comps with
  | nil =>
    intro i hi _
    exact ⟨i, rfl, hi, fun k h => .inl h, fun k h => .inr (by simpa [bootstrap] using h),
      fun _ h => h⟩
  | cons p rest ih =>
    intro i hi ho
    obtain ⟨k₀, o⟩ := p
    have ho' : ∀ k o, (k, o) ∈ rest → o = .ok ∨ o = .factory :=
      fun k o h => ho k o (by simp [h])
    simp only [bootstrap]
    split
    · exact ih i hi ho'
    · next hk₀ =>
      split
      · exact ih i hi ho'
      · have hv := hi.ver
        rcases ho k₀ o (by simp) with rfl | rfl
        · simp only [cmpRegister, hv]
          have hr : Rec ⟨.v21, addKey i.devmap k₀, Dict.set i.retries k₀ 0, i.imi⟩ := by
            refine ⟨rfl, Dict.nodup_keys_set hi.nodup _ _, fun k hk => ?_⟩
            simp only [mem_addKey] at hk
            simp only [getRetries_set]
            split
            · rfl
            · next hne => exact hi.reg k (hk.resolve_left hne)
          obtain ⟨i', h1, h2, h3, h4, h5⟩ := ih _ hr ho'
          refine ⟨i', h1, h2, fun k hk => ?_, fun k hk => ?_, fun k hk => h5 k ?_⟩
          · rcases h3 k hk with h | h
            · simp only [getRetries_set] at h
              split at h
              · exact absurd rfl h
              · exact .inl h
            · exact .inr (by simp [h])
          · by_cases e : k = k₀
            · subst e
              exact .inl (h5 k (by simp [mem_addKey]))
            · refine h4 k ?_
              simpa [getRetries_set, e] using hk
          · simp [mem_addKey, hk]
        · simp only [cmpRegister, hv]
          have hr : Rec ⟨.v21, i.devmap, Dict.set i.retries k₀ (getRetries i.retries k₀ + 1), i.imi⟩ := by
            refine ⟨rfl, Dict.nodup_keys_set hi.nodup _ _, fun k hk => ?_⟩
            simp only at hk
            have hne : k ≠ k₀ := fun e => hk₀ (e ▸ hk)
            simp only [getRetries_set, hne, if_false]
            exact hi.reg k hk
          obtain ⟨i', h1, h2, h3, h4, h5⟩ := ih _ hr ho'
          refine ⟨i', h1, h2, fun k hk => ?_, fun k hk => ?_, fun k hk => h5 k hk⟩
          · by_cases e : k = k₀
            · exact .inr (by simp [e])
            · rcases h3 k hk with h | h
              · exact .inl (by simpa [getRetries_set, e] using h)
              · exact .inr (by simp [h])
          · refine h4 k ?_
            by_cases e : k = k₀
            · exact .inl (by simp [getRetries_set, e])
            · simpa [getRetries_set, e] using hk

theorem any_retries {r : Dict Key Nat} (hnd : (Dict.keys r).Nodup) :
    r.any (fun p => p.2 != 0) = true ↔ ∃ k, getRetries r k ≠ 0 := by
  rw [List.any_eq_true]
  constructor
  · rintro ⟨⟨k, n⟩, hm, hn⟩
    refine ⟨k, ?_⟩
    have := Dict.get?_of_mem_nodup hnd hm
    simpa [getRetries, this] using hn
  · rintro ⟨k, hk⟩
    cases h : Dict.get? r k with
    | none => simp [getRetries, h] at hk
    | some n =>
      refine ⟨(k, n), Dict.get?_some_mem h, ?_⟩
      simpa [getRetries, h] using hk

/-- **C57** (success, `_partial`: as above; `Rec i` holds at every time if there are no manual
registrations, see `C57_rec`): the reply to `register` is a success exactly when every component
ever tried - now, or earlier and still failing - is registered afterwards. -/
theorem C57_success_partial (i : Iface) (comps : List (Key × RegOut)) (hi : Rec i)
    (ho : ∀ k o, (k, o) ∈ comps → o = .ok ∨ o = .factory) :
    ∃ b i', handle i (.register comps) = (i', .answered b, (bootstrap i comps).1) ∧
      (b = true ↔ ∀ k, getRetries i.retries k ≠ 0 ∨ .tried k true ∈ (bootstrap i comps).1 →
        k ∈ i'.devmap) := by
  obtain ⟨i', h1, h2, h3, h4, _⟩ := bootstrap_rec comps i hi ho
  refine ⟨!(i'.retries.any (fun p => p.2 != 0)), i', by simp [handle, h1, hi.ver], ?_⟩
  have hany := any_retries h2.nodup
  constructor
  · intro hb k hk
    rcases h4 k hk with h | h
    · exact h
    · rw [hany.mpr ⟨k, h⟩] at hb
      cases hb
  · intro hall
    cases hc : i'.retries.any (fun p => p.2 != 0) with
    | false => rfl
    | true =>
      obtain ⟨k, hk⟩ := hany.mp hc
      exact absurd (h2.reg k (hall k (h3 k hk))) hk

/-- `Rec` holds from the start of the driver on, as long as nothing is registered by hand. -/
theorem C57_rec : ∀ (ms : List Msg) (i i' : Iface), Rec i → (∀ m ∈ ms, AutoOnly m) →
    (handleAll i ms).1 = some i' → Rec i' := by
  intro ms
  induction ms with
  | nil => intro i i' hi _ h; cases h; exact hi
  | cons m ms ih =>
    intro i i' hi ha h
    have hm : Rec (handle i m).1 := by
      cases m with
      | cmpRegister p told => exact absurd (ha (.cmpRegister p told) (by simp)) id
      | teardown a res => exact absurd (ha (.teardown a res) (by simp)) id
      | register comps =>
        obtain ⟨i₁, h1, h2, _⟩ := bootstrap_rec comps i hi (ha (.register comps) (by simp))
        simpa [handle, h1, hi.ver] using h2
      | settings p => cases p <;> exact ⟨hi.ver, hi.nodup, hi.reg⟩
      | _ => exact hi
    simp only [handleAll] at h
    split at h
    · next i₁ b es he =>
      rw [he] at hm
      exact ih i₁ i' hm (fun m' h' => ha m' (by simp [h'])) h
    · cases h

example : Rec {} := ⟨rfl, by decide, fun k h => by cases h⟩

/-- A failing component makes the reply a failure, also after the third try, when it is no longer
tried. -/
example : (handle {} (.register [(("a", "1"), .factory), (("a", "2"), .ok)])).2.1 = .answered false ∧
    (handle { retries := [(("a", "1"), 3)] } (.register [(("a", "1"), .ok), (("a", "2"), .ok)])).2.1 =
      .answered false := by decide

/-- **C57** is violated.

* After three automatic tries and one failed registration by hand, the automatic tries start again
  and never end: the code compares the number of failures with `==`.
* A registered component is registered again by hand.
* If `capabilities` of the new device fails, the component counts as registered, but every later
  automatic registration is reported as failed although the component is never tried again. -/
theorem C57_refuted :
    (∀ n, autoTries ("a", "1") (handleAll {}
      (List.replicate 3 (.register [(("a", "1"), .factory)]) ++
        [.cmpRegister (some (("a", "1"), .factory))] ++
        List.replicate n (.register [(("a", "1"), .factory)]))).2 = 3 + n) ∧
    (handleAll {} [.register [(("a", "1"), .ok)], .cmpRegister (some (("a", "1"), .ok))]).2 =
      [.tried ("a", "1") true, .tried ("a", "1") false] ∧
    (∀ i : Iface, i.ver = .v21 → (handle i (.register [(("a", "1"), .caps)])).2.1 = .answered true →
      ("a", "1") ∈ i.devmap ∨ getRetries i.retries ("a", "1") = 3) ∧
    handle { devmap := [("a", "1")], retries := [(("a", "1"), 1)] }
      (.register [(("a", "1"), .ok)]) =
      ({ devmap := [("a", "1")], retries := [(("a", "1"), 1)] }, .answered false, []) := by
  refine ⟨fun n => ?_, by decide, ?_, by decide⟩
  · have hrep : ∀ n c, 3 < c → autoTries ("a", "1")
        (handleAll { retries := [(("a", "1"), c)] }
          (List.replicate n (.register [(("a", "1"), .factory)]))).2 = n := by
      intro n
      induction n with
      | zero => intro c _; rfl
      | succ n ih =>
        intro c hc
        have hne : ¬ c = 3 := by omega
        rw [List.replicate_succ]
        have : handle { retries := [(("a", "1"), c)] } (.register [(("a", "1"), .factory)]) =
            ({ retries := [(("a", "1"), c + 1)] }, .answered false, [.tried ("a", "1") true]) := by
          simp [handle, bootstrap, cmpRegister, getRetries, Dict.get?, Dict.set, maxRetries, hne]
        simp only [handleAll, this]
        have := ih (c + 1) (by omega)
        simp only [autoTries, List.singleton_append] at this ⊢
        rw [List.countP_cons, this]
        simp
    have h := hrep n 4 (by omega)
    have e : handleAll {} (List.replicate 3 (.register [(("a", "1"), .factory)]) ++
        [.cmpRegister (some (("a", "1"), .factory))] ++
        List.replicate n (.register [(("a", "1"), .factory)])) =
        ((handleAll { retries := [(("a", "1"), 4)] }
          (List.replicate n (.register [(("a", "1"), .factory)]))).1,
         [.tried ("a", "1") true, .tried ("a", "1") true, .tried ("a", "1") true,
          .tried ("a", "1") false] ++ (handleAll { retries := [(("a", "1"), 4)] }
          (List.replicate n (.register [(("a", "1"), .factory)]))).2) := rfl
    rw [e]
    simp only [autoTries] at h ⊢
    rw [List.countP_append, h]
    rfl
  · intro i hv h
    by_cases hk : ("a", "1") ∈ i.devmap
    · exact .inl hk
    · right
      by_cases hr : getRetries i.retries ("a", "1") = 3
      · exact hr
      · exfalso
        have : ∀ (r : Dict Key Nat) (k : Key) (n : Nat), n ≠ 0 →
            (Dict.set r k n).any (fun p => p.2 != 0) = true := by
          intro r k n hn
          rw [List.any_eq_true]
          exact ⟨(k, n), Dict.get?_some_mem (Dict.get?_set_self ..), by simpa using hn⟩
        simp [handle, bootstrap, cmpRegister, hv, hk, maxRetries, hr] at h
        have h2 := this i.retries ("a", "1") (getRetries i.retries ("a", "1") + 1) (by omega)
        rw [List.any_eq_true] at h2
        obtain ⟨⟨k, n⟩, hm, hn⟩ := h2
        have := h k.1 k.2 n hm
        simp [this] at hn

/-! ## C61 -/

/-- Consecutive times are at least `d` apart. -/
def Apart (d : Nat) : List Nat → Prop
  | [] => True
  | [_] => True
  | a :: b :: rest => a + d ≤ b ∧ Apart d (b :: rest)

theorem rounds_apart (d : Nat) : ∀ (ts : List Turn) (tl : Nat),
    (∀ t ∈ ts, t.imi = some d ∧ t.raises = false ∧ tl ≤ t.now) →
    (ts.map (·.now)).Pairwise (· ≤ ·) → Apart d (tl :: rounds (some tl) ts) := by
  intro ts
  induction ts with
  | nil => intro tl _ _; trivial
  | cons t ts ih =>
    intro tl h hp
    obtain ⟨hi, hr, hle⟩ := h t (by simp)
    simp only [List.map_cons, List.pairwise_cons] at hp
    simp only [rounds, idle, hi, hr]
    by_cases hc : t.now - tl < d
    · simp only [Option.any_some, hc, decide_true, if_true]
      exact ih tl (fun t' h' => h t' (by simp [h'])) hp.2
    · simp only [Option.any_some, hc, decide_false, if_false, Bool.false_eq_true, if_true]
      refine ⟨by omega, ih t.now (fun t' h' => ?_) hp.2⟩
      obtain ⟨a, b, c⟩ := h t' (by simp [h'])
      exact ⟨a, b, hp.1 _ (List.mem_map.mpr ⟨t', h', rfl⟩)⟩

/-- **C61** (`_partial`: the interval is not changed, no measurement raises an exception, the clock
does not go back; see `C61_refuted`): two successive rounds of idle measurements are at least the
interval apart. -/
theorem C61_interval_partial (d : Nat) (ts : List Turn)
    (h : ∀ t ∈ ts, t.imi = some d ∧ t.raises = false)
    (hp : (ts.map (·.now)).Pairwise (· ≤ ·)) : Apart d (rounds none ts) := by
  cases ts with
  | nil => trivial
  | cons t ts =>
    obtain ⟨hi, hr⟩ := h t (by simp)
    simp only [List.map_cons, List.pairwise_cons] at hp
    simp only [rounds, idle, hi, hr, Option.any_none, Bool.false_eq_true, if_false, if_true]
    exact rounds_apart d ts t.now (fun t' h' => ⟨(h t' (by simp [h'])).1, (h t' (by simp [h'])).2,
      hp.1 _ (List.mem_map.mpr ⟨t', h', rfl⟩)⟩) hp.2

example : rounds none ((List.range 12).map (fun n => ⟨some 400, 100 * n, false⟩)) =
    [0, 400, 800] := by decide

/-- **C61**: without an interval there are no idle measurements. -/
theorem C61_none : ∀ (ts : List Turn) (tl : Option Nat), (∀ t ∈ ts, t.imi = none) →
    rounds tl ts = [] := by
  intro ts
  induction ts with
  | nil => intro _ _; rfl
  | cons t ts ih =>
    intro tl h
    simp only [rounds, idle, h t (by simp), Bool.false_eq_true, if_false]
    exact ih none (fun t' h' => h t' (by simp [h']))

/-- **C61**: idle measurements do take place: if the interval has passed since the last round, the
next turn starts one. -/
theorem C61_happens (d tl : Nat) (t : Turn) (ts : List Turn) (hi : t.imi = some d)
    (h : tl + d ≤ t.now) : (rounds (some tl) (t :: ts)).head? = some t.now := by
  have : ¬ t.now - tl < d := by omega
  simp [rounds, idle, hi, this]

example : (rounds (some 100) [⟨some 400, 500, false⟩]).head? = some 500 := by decide

/-- **C61** is violated if one of the measurements raises an exception: the time of the round is
not recorded, so every turn of the loop (100 ms later) starts a new round.  It is also violated if
the interval is removed and set again. -/
theorem C61_refuted :
    (∀ n, rounds none ((List.range n).map (fun i => ⟨some 10000, 100 * i, true⟩)) =
      (List.range n).map (100 * ·)) ∧
    rounds none [⟨some 10000, 0, false⟩, ⟨none, 100, false⟩, ⟨some 10000, 200, false⟩] = [0, 200] := by
  refine ⟨fun n => ?_, by decide⟩
  generalize List.range n = l
  induction l with
  | nil => rfl
  | cons a l ih => simp [rounds, idle, ih]

end Tomato.Props
