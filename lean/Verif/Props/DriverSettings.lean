import Verif.DriverSettings
import Verif.Props.DriverProc
import Verif.Props.Cmd

/-!
# C101: driver processes work with the current configuration
-/

namespace Tomato.Props

open Tomato.Drv Tomato.Conf

/-- The settings of a driver in the configuration of the daemon. -/
def driverSettings (d : Daemon) (n : String) : Option (Dict String String) :=
  (Dict.get? d.devicefile.drivers n).map (·.settings)

/-- A driver process has the settings with which it was started, whatever happens. -/
theorem C101_frozen {imiOf : Dict String String → Option Nat} {c c' : DConf} (h : CSteps imiOf c c')
    {i : Nat} (hi : i < c.procs.length) {p' : DProc} (hp : c'.proc i = some p') :
    ∃ p, c.proc i = some p ∧ p'.name = p.name ∧ p'.settings = p.settings ∧ p'.iface.imi = p.iface.imi := by
  induction h generalizing p' with
  | refl => exact ⟨p', hp, rfl, rfl, rfl⟩
  | tail a h1 h2 ih =>
    have hle : c.procs.length ≤ _ := CSteps.rec (motive := fun x _ => c.procs.length ≤ x.procs.length)
      (Nat.le_refl _) (fun a _ h ih => Nat.le_trans ih (cact_length h)) h1
    rcases cact_proc h2 i hp with ⟨p, k1, k2, k3, k4⟩ | ⟨k, -⟩
    · obtain ⟨q, l1, l2, l3, l4⟩ := ih k1
      exact ⟨q, l1, k2.trans l2, k3.trans l3, k4.trans l4⟩
    · omega

/-- The settings of a process are those which the daemon had at some time. -/
theorem C101_origin {imiOf : Dict String String → Option Nat} {d : Daemon} {c : DConf}
    (h : CSteps imiOf ⟨d, []⟩ c) {i : Nat} {p : DProc} (hp : c.proc i = some p) :
    ∃ c0, CSteps imiOf ⟨d, []⟩ c0 ∧ CSteps imiOf c0 c ∧
      driverSettings c0.daemon p.name = some p.settings ∧ p.iface.imi = imiOf p.settings := by
  induction h generalizing p with
  | refl => cases hp
  | @tail c1 c2 a h1 h2 ih =>
    rcases cact_proc h2 i hp with ⟨q, k1, k2, k3, k4⟩ | ⟨-, -, k2, k3⟩
    · obtain ⟨c0, l1, l2, l3, l4⟩ := ih k1
      exact ⟨c0, l1, .tail a l2 h2, by rw [k2, k3]; exact l3, by rw [k4, k3]; exact l4⟩
    · exact ⟨c1, h1, .tail a (.refl _) h2, k2, k3⟩

/-- Actions that do not change the settings of a driver with a process. -/
inductive CStepsK (imiOf : Dict String String → Option Nat) : DConf → DConf → Prop where
  | refl (c : DConf) : CStepsK imiOf c c
  | tail {c c' c'' : DConf} (a : CAct) : CStepsK imiOf c c' → cact imiOf c' a = some c'' →
      (∀ i p, c'.proc i = some p → driverSettings c''.daemon p.name = driverSettings c'.daemon p.name) →
      CStepsK imiOf c c''

/-- **C101** (settings, `_partial`: no reload changes the settings of a driver that has a process, see
`C101_refuted`): all driver processes work with the settings of the current configuration. -/
theorem C101_settings_partial {imiOf : Dict String String → Option Nat} {d : Daemon} {c : DConf}
    (h : CStepsK imiOf ⟨d, []⟩ c) {i : Nat} {p : DProc} (hp : c.proc i = some p) :
    driverSettings c.daemon p.name = some p.settings ∧ p.iface.imi = imiOf p.settings := by
  induction h generalizing p with
  | refl => cases hp
  | @tail c1 c2 a h1 h2 hk ih =>
    rcases cact_proc h2 i hp with ⟨q, k1, k2, k3, k4⟩ | ⟨-, k1, k2, k3⟩
    · obtain ⟨l1, l2⟩ := ih k1
      refine ⟨?_, by rw [k4, k3]; exact l2⟩
      rw [k2, hk i q k1, k3]
      exact l1
    · refine ⟨?_, k3⟩
      rw [k1]
      exact k2

/-- What registering leaves: a component that is not registered afterwards has a failure on record. -/
theorem bootstrap_all (comps : List (Key × RegOut)) : ∀ (i i' : Iface), i.ver = .v21 →
    (bootstrap i comps).2 = .ok i' →
    (∀ k, k ∈ i.devmap → k ∈ i'.devmap) ∧
    (∀ k, k ∉ i'.devmap → getRetries i.retries k ≠ 0 → getRetries i'.retries k ≠ 0) ∧
    (∀ k o, (k, o) ∈ comps → k ∈ i'.devmap ∨ getRetries i'.retries k ≠ 0) := by
  induction comps with
  | nil => intro i i' _ h; cases h; exact ⟨fun _ h => h, fun _ _ h => h, by simp⟩
  | cons x rest ih =>
    intro i i' hv h
    obtain ⟨k0, o0⟩ := x
    simp only [bootstrap] at h
    split at h
    · next hk =>
      obtain ⟨h1, h2, h3⟩ := ih i i' hv h
      refine ⟨h1, h2, fun k o hm => ?_⟩
      rcases List.mem_cons.mp hm with e | e
      · cases e; exact .inl (h1 _ hk)
      · exact h3 k o e
    · split at h
      · next hk hr =>
        obtain ⟨h1, h2, h3⟩ := ih i i' hv h
        refine ⟨h1, h2, fun k o hm => ?_⟩
        rcases List.mem_cons.mp hm with e | e
        · cases e
          by_cases hin : k0 ∈ i'.devmap
          · exact .inl hin
          · exact .inr (h2 _ hin (by rw [hr.2]; decide))
        · exact h3 k o e
      · split at h
        · cases h
        · next hk hr i₁ b hc =>
          have hv1 : i₁.ver = .v21 := by rw [cmpRegister_ver hc, hv]
          obtain ⟨h1, h2, h3⟩ := ih i₁ i' hv1 h
          have key : (∀ k, k ∈ i.devmap → k ∈ i₁.devmap) ∧
              (∀ k, k ∉ i₁.devmap → getRetries i.retries k ≠ 0 → getRetries i₁.retries k ≠ 0) ∧
              (k0 ∈ i₁.devmap ∨ getRetries i₁.retries k0 ≠ 0) := by
            cases o0 with
            | other e => simp [cmpRegister, hv] at hc
            | ok =>
              simp only [cmpRegister, hv, Except.ok.injEq, Prod.mk.injEq] at hc
              obtain ⟨rfl, -⟩ := hc
              refine ⟨fun k h => by simp [mem_addKey, h], fun k hn hz => ?_, .inl (by simp [mem_addKey])⟩
              simp only [mem_addKey, not_or] at hn
              simpa [getRetries_set, hn.1] using hz
            | caps =>
              simp only [cmpRegister, hv, Except.ok.injEq, Prod.mk.injEq] at hc
              obtain ⟨rfl, -⟩ := hc
              refine ⟨fun k h => by simp [mem_addKey, h], fun k hn hz => ?_, .inl (by simp [mem_addKey])⟩
              simp only [mem_addKey, not_or] at hn
              simpa [getRetries_set, hn.1] using hz
            | factory =>
              simp only [cmpRegister, hv, Except.ok.injEq, Prod.mk.injEq] at hc
              obtain ⟨rfl, -⟩ := hc
              refine ⟨fun k h => h, fun k hn hz => ?_, .inr (by simp [getRetries_set])⟩
              simp only [getRetries_set]
              split
              · omega
              · exact hz
          obtain ⟨g1, g2, g3⟩ := key
          refine ⟨fun k hk => h1 k (g1 k hk), fun k hn hz => ?_, fun k o hm => ?_⟩
          · exact h2 k hn (g2 k (fun hh => hn (h1 k hh)) hz)
          · rcases List.mem_cons.mp hm with e | e
            · cases e
              by_cases hin : k0 ∈ i'.devmap
              · exact .inl hin
              · rcases g3 with g | g
                · exact absurd (h1 _ g) hin
                · exact .inr (h2 _ hin g)
            · exact h3 k o e

/-- **C101** (components): if a driver process answers `register` with success, all components of this driver in
the current configuration of the daemon are registered. -/
theorem C101_registered {imiOf : Dict String String → Option Nat} {c c' : DConf} {i : Nat}
    {outs : Key → RegOut} {p : DProc} (hp : c.proc i = some p)
    (h : cact imiOf c (.register i outs) = some c')
    (hs : (handle p.iface (.register (compsOf c.daemon p.name outs))).2.1 = .answered true) :
    ∃ p', c'.proc i = some p' ∧ c'.daemon = c.daemon ∧
      ∀ x ∈ Dict.values c'.daemon.devicefile.components, x.driver = p.name →
        (x.address, x.channel) ∈ p'.iface.devmap := by
  have hj : (c.procs[i]?).join = some p := hp
  simp only [cact, hj, Option.some.injEq] at h
  subst h
  have hlt : i < c.procs.length := by
    by_contra hge
    rw [List.getElem?_eq_none (by omega)] at hj
    cases hj
  generalize hcs : compsOf c.daemon p.name outs = comps at hs ⊢
  have hv : p.iface.ver = .v21 := by
    cases hv : p.iface.ver with
    | v21 => rfl
    | v20 =>
      simp only [handle, hv] at hs
      split at hs <;> cases hs
  have hex : ∃ f es, handle p.iface (.register comps) = (f, .answered true, es) :=
    ⟨_, _, Prod.ext rfl (Prod.ext hs rfl)⟩
  obtain ⟨f, es, he⟩ := hex
  refine ⟨{ p with iface := f }, ?_, deliver_daemon _ _ _, ?_⟩
  · simp only [deliver, hj, he, DConf.proc, List.getElem?_set_self hlt, Option.join_some]
  · intro x hx hd
    rw [deliver_daemon] at hx
    simp only [handle] at he
    split at he
    · cases he
    · next f' hb =>
      simp only [hv, Prod.mk.injEq, Result.answered.injEq, Bool.not_eq_true'] at he
      obtain ⟨rfl, hz, -⟩ := he
      obtain ⟨-, -, h3⟩ := bootstrap_all comps p.iface f' hv hb
      have hm : ((x.address, x.channel), outs (x.address, x.channel)) ∈ comps := by
        rw [← hcs]
        simp only [Dict.values, List.mem_map] at hx
        obtain ⟨⟨n, y⟩, hy, rfl⟩ := hx
        simp only [compsOf, List.mem_map, List.mem_filter]
        exact ⟨(n, y), ⟨hy, by simpa using hd⟩, rfl⟩
      rcases h3 _ _ hm with h | h
      · exact h
      · exfalso
        rw [List.any_eq_false] at hz
        cases hg : Dict.get? f'.retries (x.address, x.channel) with
        | none => simp [getRetries, hg] at h
        | some n =>
          have := hz _ (Dict.get?_some_mem hg)
          simp only [getRetries, hg, Option.getD_some] at h
          simp [h] at this

/-- Registering adds nothing that was not asked for. -/
theorem bootstrap_only (comps : List (Key × RegOut)) : ∀ (i i' : Iface), (bootstrap i comps).2 = .ok i' →
    ∀ k ∈ i'.devmap, k ∈ i.devmap ∨ ∃ o, (k, o) ∈ comps := by
  induction comps with
  | nil => intro i i' h; cases h; exact fun k hk => .inl hk
  | cons x rest ih =>
    intro i i' h k hk
    obtain ⟨k0, o0⟩ := x
    have more : ∀ {i₁ : Iface}, (bootstrap i₁ rest).2 = .ok i' → (∀ k ∈ i₁.devmap, k ∈ i.devmap ∨ k = k0) →
        k ∈ i.devmap ∨ ∃ o, (k, o) ∈ (k0, o0) :: rest := by
      intro i₁ h1 h2
      rcases ih _ _ h1 k hk with h3 | ⟨o, h3⟩
      · rcases h2 k h3 with h4 | rfl
        · exact .inl h4
        · exact .inr ⟨o0, by simp⟩
      · exact .inr ⟨o, List.mem_cons_of_mem _ h3⟩
    simp only [bootstrap] at h
    split at h
    · exact more h (fun _ h => .inl h)
    · split at h
      · exact more h (fun _ h => .inl h)
      · split at h
        · cases h
        · next i₁ b hc =>
          refine more h (fun k' hk' => ?_)
          unfold cmpRegister at hc
          split at hc
          all_goals first
            | (cases hc; done)
            | (cases hc; simp only [mem_addKey] at hk'; exact hk'.symm)
            | (cases hc; exact .inl hk')

/-- **C101** (components, converse): after `register`, whatever its answer, the components registered with a driver
process are those registered before and components that the current configuration gives to this driver; no
others. -/
theorem C101_own {imiOf : Dict String String → Option Nat} {c c' : DConf} {i : Nat} {outs : Key → RegOut}
    {p p' : DProc} (hp : c.proc i = some p) (h : cact imiOf c (.register i outs) = some c')
    (hp' : c'.proc i = some p') (k : Key) (hk : k ∈ p'.iface.devmap) :
    k ∈ p.iface.devmap ∨ ∃ x ∈ Dict.values c.daemon.devicefile.components, x.driver = p.name ∧
      k = (x.address, x.channel) := by
  have hj : (c.procs[i]?).join = some p := hp
  simp only [cact, hj, Option.some.injEq] at h
  subst h
  have hlt : i < c.procs.length := by
    by_contra hge
    rw [List.getElem?_eq_none (by omega)] at hj
    cases hj
  simp only [deliver, hj] at hp'
  generalize hcs : compsOf c.daemon p.name outs = comps at hp'
  have key : ∀ f, (handle p.iface (.register comps)).1 = f → k ∈ f.devmap →
      k ∈ p.iface.devmap ∨ ∃ o, (k, o) ∈ comps := by
    intro f hf hkf
    simp only [handle] at hf
    split at hf
    · cases hf; exact .inl hkf
    · next f' hb =>
      split at hf
      · cases hf; exact bootstrap_only _ _ _ hb k hkf
      · cases hf; exact bootstrap_only _ _ _ hb k hkf
  have hfin : k ∈ p.iface.devmap ∨ ∃ o, (k, o) ∈ comps := by
    split at hp'
    · next f b es he =>
      simp only [DConf.proc, List.getElem?_set_self hlt, Option.join_some, Option.some.injEq] at hp'
      subst hp'
      exact key f (by rw [he]) hk
    · simp [DConf.proc, List.getElem?_set_self hlt] at hp'
  rcases hfin with h | ⟨o, h⟩
  · exact .inl h
  · right
    rw [← hcs] at h
    simp only [compsOf, List.mem_map, List.mem_filter, Prod.mk.injEq] at h
    obtain ⟨⟨n, y⟩, ⟨hy, hd⟩, h1, -⟩ := h
    exact ⟨y, List.mem_map.mpr ⟨(n, y), hy, rfl⟩, by simpa using hd, h1.symm⟩

/-- Execute a list of actions. -/
def cacts (imiOf : Dict String String → Option Nat) : DConf → List CAct → Option DConf
  | c, [] => some c
  | c, a :: as => match cact imiOf c a with
    | some c' => cacts imiOf c' as
    | none => none

theorem csteps_of_cacts {imiOf : Dict String String → Option Nat} {c c' : DConf} {as : List CAct}
    (h : cacts imiOf c as = some c') : CSteps imiOf c c' := by
  induction as generalizing c with
  | nil => cases h; exact .refl _
  | cons a as ih =>
    simp only [cacts] at h
    split at h
    · next c1 h1 => exact CSteps.trans (.tail a (.refl _) h1) (ih h)
    · cases h

/-- The interval of idle measurements, in the examples. -/
def imiEx (s : Dict String String) : Option Nat := (Dict.get? s "idle_measurement_interval").map String.length

/-- The daemon has been running with the configuration `dfA`; its driver `d` has been started and has
registered both components. -/
def dConfA : Daemon := { status := .running, devicefile := dfA }

def startA : List CAct := [.start "d" .v21, .register 0 (fun _ => .ok)]

/-- The interface after the registration of these components. -/
def registeredAll (ks : List Key) : Iface := { devmap := ks, retries := ks.map (fun k => (k, 0)) }

/-- The same configuration with one more component. -/
def dfC : DeviceFile :=
  { dfA with components := dfA.components ++ [("d:(b,1)", ⟨"d:(b,1)", "dev2", "d", "b", "1"⟩)],
             devices := dfA.devices ++
               [("dev2", { name := "dev2", driver := "d", address := "b", channels := ["1"] })] }

/-- A reload that adds a component keeps the settings; the new component is registered. -/
example : ∃ c, CStepsK imiEx ⟨dConfA, []⟩ c ∧ c.procs =
    [some ⟨"d", [], registeredAll [("a", "1"), ("a", "2"), ("b", "1")]⟩] ∧
    driverSettings c.daemon "d" = some [] := by
  refine ⟨_, .tail (.register 0 (fun _ => .ok)) (.tail (.reload {} (some ({}, dfC)))
    (.tail (.register 0 (fun _ => .ok)) (.tail (.start "d" .v21) (.refl _) rfl ?_) rfl ?_) rfl ?_) rfl ?_,
    rfl, rfl⟩
  · intro i p hp; cases hp
  all_goals
    intro i p hp
    cases i with
    | zero => cases hp; rfl
    | succ i => cases hp

/-- **C101** is violated: a reload with other settings of the driver `d` is accepted; the process keeps the old
settings as long as it lives, in all executions, and goes on serving. -/
theorem C101_refuted : ∃ c d' rep w,
    cacts imiEx ⟨dConfA, []⟩ startA = some c ∧
    runW (cmdReload c.daemon (some ({ drivers := [("d", [("idle_measurement_interval", "1")])] }, dfA))) w =
      (.ok (rep, d'), w) ∧ rep.success = true ∧
    driverSettings d' "d" = some [("idle_measurement_interval", "1")] ∧
    (∃ c', CSteps imiEx { c with daemon := d' } c' ∧ (c'.proc 0).isSome) ∧
    (∀ c' p, CSteps imiEx { c with daemon := d' } c' → c'.proc 0 = some p →
      p.settings = [] ∧ p.iface.imi = none) := by
  refine ⟨⟨dConfA, [some ⟨"d", [], registeredAll [("a", "1"), ("a", "2")]⟩]⟩, _, _, {}, rfl, rfl, rfl, rfl,
    ⟨_, .tail (.msg 0 (.component ⟨true, some ("a", "1")⟩ (.reply true)))
      (.tail (.register 0 (fun _ => .ok)) (.refl _) rfl) rfl, rfl⟩, ?_⟩
  intro c' p h hp
  obtain ⟨q, h1, -, h3, h4⟩ := C101_frozen h (i := 0) (by decide) hp
  cases h1
  exact ⟨h3, h4⟩

/-- The configuration without the second component. -/
def dfLess : DeviceFile :=
  { dfA with components := [("d:(a,1)", ⟨"d:(a,1)", "dev", "d", "a", "1"⟩)],
             devices := [("dev", { name := "dev", driver := "d", address := "a", channels := ["1"] })],
             pipelines := [("p", ⟨"p", [("x", "d:(a,1)")]⟩)] }

/-- **C101** is violated for components too: a reload without the component `(a, 2)` is accepted, all components are
registered with success after that, but `(a, 2)` is still served by the driver process. -/
theorem C101_refuted_components : ∃ c c' p,
    cacts imiEx ⟨dConfA, []⟩ startA = some c ∧
    cacts imiEx c [.reload {} (some ({}, dfLess)), .register 0 (fun _ => .ok)] = some c' ∧
    Dict.get? c'.daemon.devicefile.components "d:(a,2)" = none ∧ c'.proc 0 = some p ∧
    (handle p.iface (.register (compsOf c'.daemon "d" (fun _ => .ok)))).2.1 = .answered true ∧
    ("a", "2") ∈ p.iface.devmap ∧
    handle p.iface (.component ⟨true, some ("a", "2")⟩ (.reply true)) =
      (p.iface, .answered true, [.device ("a", "2")]) :=
  ⟨_, _, _, rfl, rfl, rfl, rfl, by decide, by decide, by decide⟩

end Tomato.Props
