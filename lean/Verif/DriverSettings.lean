import Verif.DriverProc
import Verif.Cmd
import Mathlib.Tactic.ByContra

/-!
# Configuration of the driver processes

The start of a driver process (`/repo/src/tomato/daemon/driver.py:199-225`), its automatic registration of
components (`driver.py:36-81`, `Verif/DriverProc.lean`) and the daemon's configuration, which may change by
`reload` (`/repo/src/tomato/daemon/cmd.py:78-157`).  A driver process gets the whole configuration
when it starts, and the list of components each time it is asked to register them.

Simplifications: `Interface(settings=settings)` only stores the settings
(`driverinterface_2_1/__init__.py:89-93`); the idle measurement interval is a function `imiOf` of the
settings (`driver.py:97-104`).  The message `settings` of the main loop (`driver.py:277-283`) is left out:
it is sent by no part of tomato.
-/

namespace Tomato.Conf

open Tomato Tomato.Drv

/-- A driver process in its main loop. -/
structure DProc where
  /-- `args.driver` -/
  name : String
  /-- `interface.settings` -/
  settings : Dict String String
  iface : Iface
  deriving DecidableEq, Repr

/-- The daemon and the driver processes (`none`: it has ended). -/
structure DConf where
  daemon : Daemon
  procs : List (Option DProc) := []

/-- `comp.driver == driver` and `key`, driver.py:54-57; `outs` is what the devices would do. -/
def compsOf (d : Daemon) (name : String) (outs : Key → RegOut) : List (Key × RegOut) :=
  (d.devicefile.components.filter (fun c => c.2.driver == name)).map
    (fun c => ((c.2.address, c.2.channel), outs (c.2.address, c.2.channel)))

inductive CAct where
  /-- `tomato reload`; `w` is the database at this time -/
  | reload (w : World) (parsed : Option (Settings × DeviceFile))
  /-- a driver process starts -/
  | start (name : String) (ver : Ver)
  /-- a driver process is asked to register its components -/
  | register (i : Nat) (outs : Key → RegOut)
  /-- any other message to a driver process -/
  | msg (i : Nat) (m : Msg)

/-- Not a message of this kind. -/
def plain : Msg → Bool
  | .settings _ => false
  | .register _ => false
  | _ => true

/-- A driver process handles a message. -/
def deliver (c : DConf) (i : Nat) (m : Msg) : DConf :=
  match (c.procs[i]?).join with
  | none => c
  | some p =>
    match handle p.iface m with
    | (f, .answered _, _) => { c with procs := c.procs.set i (some { p with iface := f }) }
    | _ => { c with procs := c.procs.set i none }

/-- Execute an action. -/
def cact (imiOf : Dict String String → Option Nat) (c : DConf) : CAct → Option DConf
  | .reload w parsed =>
    match runW (cmdReload c.daemon parsed) w with
    | (.ok (_, d), _) => some { c with daemon := d }
    | (.error _, _) => none
  | .start name ver =>
    match Dict.get? c.daemon.devicefile.drivers name with
    -- `KeyError`
    | none => some { c with procs := c.procs ++ [none] }
    | some drv =>
      some { c with procs := c.procs ++
        [some ⟨name, drv.settings, { ver := ver, imi := imiOf drv.settings }⟩] }
  | .register i outs =>
    match (c.procs[i]?).join with
    | none => none
    | some p => some (deliver c i (.register (compsOf c.daemon p.name outs)))
  | .msg i m => if plain m then some (deliver c i m) else none

/-- Any number of actions. -/
inductive CSteps (imiOf : Dict String String → Option Nat) : DConf → DConf → Prop where
  | refl (c : DConf) : CSteps imiOf c c
  | tail {c c' c'' : DConf} (a : CAct) : CSteps imiOf c c' → cact imiOf c' a = some c'' → CSteps imiOf c c''

theorem CSteps.trans {imiOf : Dict String String → Option Nat} {c c' c'' : DConf} (h : CSteps imiOf c c')
    (h' : CSteps imiOf c' c'') : CSteps imiOf c c'' := by
  induction h' with
  | refl => exact h
  | tail a _ h2 ih => exact .tail a ih h2

/-- The process with this number, unless it has ended. -/
def DConf.proc (c : DConf) (i : Nat) : Option DProc := (c.procs[i]?).join

/-! ## Lemmas -/

theorem handle_imi {f : Iface} {m : Msg} (h : ∀ x, m ≠ .settings x) : (handle f m).1.imi = f.imi := by
  have hreg : ∀ {f f' : Iface} {k : Key} {o : RegOut} {b : Bool}, cmpRegister f k o = .ok (f', b) →
      f'.imi = f.imi := by
    intro f f' k o b h
    unfold cmpRegister at h
    split at h
    all_goals first
      | (cases h; done)
      | (cases h; rfl)
  have hboot : ∀ (comps : List (Key × RegOut)) {f f' : Iface}, (bootstrap f comps).2 = .ok f' →
      f'.imi = f.imi := by
    intro comps
    induction comps with
    | nil => intro f f' h; cases h; rfl
    | cons p rest ih =>
      intro f f' h
      obtain ⟨k, o⟩ := p
      simp only [bootstrap] at h
      split at h
      · exact ih h
      · split at h
        · exact ih h
        · split at h
          · cases h
          · next i₁ b hc => rw [ih h, hreg hc]
  cases m with
  | settings x => exact absurd rfl (h x)
  | register comps =>
    simp only [handle]
    split
    · rfl
    · next i' hi =>
      split
      · exact hboot comps hi
      · exact hboot comps hi
  | cmpRegister p told =>
    cases p with
    | none => rfl
    | some x =>
      obtain ⟨k, o⟩ := x
      simp only [handle]
      split
      · rfl
      · next hc => exact hreg hc
  | teardown a r => cases r <;> rfl
  | _ => rfl

/-- A delivered message changes nothing but the interface of the process, or ends it. -/
theorem deliver_proc (c : DConf) (i j : Nat) (m : Msg) {p' : DProc} (h : (deliver c i m).proc j = some p') :
    ∃ p, c.proc j = some p ∧ p'.name = p.name ∧ p'.settings = p.settings ∧
      ((∀ x, m ≠ .settings x) → p'.iface.imi = p.iface.imi) ∧
      (j ≠ i → p' = p) ∧ (j = i → p'.iface = (handle p.iface m).1 ∧
        ∃ b, (handle p.iface m).2.1 = .answered b) := by
  unfold deliver at h
  cases hp : (c.procs[i]?).join with
  | none =>
    rw [hp] at h
    refine ⟨p', h, rfl, rfl, fun _ => rfl, fun _ => rfl, ?_⟩
    rintro rfl
    rw [DConf.proc] at h
    rw [h] at hp
    cases hp
  | some p =>
    rw [hp] at h
    have hlt : i < c.procs.length := by
      by_contra hge
      rw [List.getElem?_eq_none (by omega)] at hp
      cases hp
    simp only at h
    split at h
    · next f b es he =>
      by_cases hj : j = i
      · subst hj
        simp only [DConf.proc, List.getElem?_set_self hlt, Option.join_some] at h
        cases h
        refine ⟨p, hp, rfl, rfl, fun hm => ?_, fun hn => absurd rfl hn, fun _ => ?_⟩
        · have := handle_imi (f := p.iface) hm
          rw [he] at this
          exact this
        · rw [he]
          exact ⟨rfl, b, rfl⟩
      · have hne : ¬ i = j := fun e => hj e.symm
        simp only [DConf.proc, List.getElem?_set_ne hne] at h
        exact ⟨p', h, rfl, rfl, fun _ => rfl, fun _ => rfl, fun e => absurd e hj⟩
    · by_cases hj : j = i
      · subst hj
        simp only [DConf.proc, List.getElem?_set_self hlt, Option.join_some] at h
        cases h
      · have hne : ¬ i = j := fun e => hj e.symm
        simp only [DConf.proc, List.getElem?_set_ne hne] at h
        exact ⟨p', h, rfl, rfl, fun _ => rfl, fun _ => rfl, fun e => absurd e hj⟩

theorem deliver_length (c : DConf) (i : Nat) (m : Msg) : (deliver c i m).procs.length = c.procs.length := by
  unfold deliver
  repeat' split
  all_goals simp

theorem deliver_daemon (c : DConf) (i : Nat) (m : Msg) : (deliver c i m).daemon = c.daemon := by
  unfold deliver
  repeat' split
  all_goals rfl

/-- What an action does to a process: it is new and has the current settings, or its name, settings and
interval are what they were. -/
theorem cact_proc {imiOf : Dict String String → Option Nat} {c c' : DConf} {a : CAct}
    (h : cact imiOf c a = some c') (j : Nat) {p' : DProc} (hp : c'.proc j = some p') :
    (∃ p, c.proc j = some p ∧ p'.name = p.name ∧ p'.settings = p.settings ∧
      p'.iface.imi = p.iface.imi) ∨
    (j = c.procs.length ∧ c'.daemon = c.daemon ∧
      (Dict.get? c.daemon.devicefile.drivers p'.name).map (·.settings) = some p'.settings ∧
      p'.iface.imi = imiOf p'.settings) := by
  cases a with
  | reload w parsed =>
    simp only [cact] at h
    split at h
    · cases h
      exact .inl ⟨p', hp, rfl, rfl, rfl⟩
    · cases h
  | start name ver =>
    simp only [cact] at h
    split at h
    · cases h
      left
      refine ⟨p', ?_, rfl, rfl, rfl⟩
      simp only [DConf.proc, List.getElem?_append] at hp
      split at hp
      · exact hp
      · cases hx : ([none] : List (Option DProc))[j - c.procs.length]? with
        | none => rw [hx] at hp; cases hp
        | some y =>
          have := List.mem_of_getElem? hx
          simp only [List.mem_singleton] at this
          rw [hx, this] at hp
          cases hp
    · next drv hd =>
      cases h
      simp only [DConf.proc, List.getElem?_append] at hp
      split at hp
      · exact .inl ⟨p', hp, rfl, rfl, rfl⟩
      · next hge =>
        right
        cases hx : ([some ⟨name, drv.settings, { ver := ver, imi := imiOf drv.settings }⟩] :
            List (Option DProc))[j - c.procs.length]? with
        | none => rw [hx] at hp; cases hp
        | some y =>
          have hy := List.mem_of_getElem? hx
          simp only [List.mem_singleton] at hy
          rw [hx, hy] at hp
          simp only [Option.join_some, Option.some.injEq] at hp
          subst hp
          have hlt : j - c.procs.length < 1 := by
            by_contra hc
            rw [List.getElem?_eq_none (by simp; omega)] at hx
            cases hx
          exact ⟨by omega, rfl, by simp [hd], rfl⟩
  | register i outs =>
    simp only [cact] at h
    split at h
    · cases h
    · cases h
      obtain ⟨p, h1, h2, h3, h4, -⟩ := deliver_proc c i j _ hp
      exact .inl ⟨p, h1, h2, h3, h4 (fun x e => by cases e)⟩
  | msg i m =>
    simp only [cact] at h
    split at h
    · next hm =>
      cases h
      obtain ⟨p, h1, h2, h3, h4, -⟩ := deliver_proc c i j _ hp
      refine .inl ⟨p, h1, h2, h3, h4 (fun x e => ?_)⟩
      rw [e] at hm
      cases hm
    · cases h

theorem cact_length {imiOf : Dict String String → Option Nat} {c c' : DConf} {a : CAct}
    (h : cact imiOf c a = some c') : c.procs.length ≤ c'.procs.length := by
  cases a with
  | reload w parsed =>
    simp only [cact] at h
    split at h
    · cases h; exact Nat.le_refl _
    · cases h
  | start name ver =>
    simp only [cact] at h
    split at h <;> (cases h; simp)
  | register i outs =>
    simp only [cact] at h
    split at h
    · cases h
    · cases h; rw [deliver_length]; exact Nat.le_refl _
  | msg i m =>
    simp only [cact] at h
    split at h
    · cases h; rw [deliver_length]; exact Nat.le_refl _
    · cases h

end Tomato.Conf
