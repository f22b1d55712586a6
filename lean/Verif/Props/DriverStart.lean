import Verif.DriverStart
import Verif.Props.DriverMgr
import Mathlib.Data.List.Forall2

/-!
# What a driver process announces (C109)
-/

namespace Tomato.Props
open Tomato.Start

/-! ## Specification -/

/-- `m` is the name of the package of a driver: `tomato_` and the name of the driver with underscores for
hyphens. -/
def PackageOf (driver m : String) : Prop :=
  ∃ u : List Char, m = "tomato_" ++ String.ofList u ∧
    List.Forall₂ (fun a b => if a = '-' then b = '_' else b = a) driver.toList u

/-- There is a package for the driver, the driver is configured, it accepts its settings. -/
def CanServe (pk : Pkgs) (d : Daemon) (name : String) (version : String) : Prop :=
  ∃ m c drv, PackageOf name m ∧ pk m = .cls c ∧ c.version = version ∧
    Dict.get? d.devicefile.drivers name = some drv ∧ c.init drv.settings = true

/-! ## Proof -/

theorem packageOf_iff (driver m : String) : PackageOf driver m ↔ m = modName driver := by
  have key : ∀ (l u : List Char), List.Forall₂ (fun a b => if a = '-' then b = '_' else b = a) l u ↔
      u = l.map (fun c => if c = '-' then '_' else c) := by
    intro l
    induction l with
    | nil =>
      intro u
      constructor
      · intro h; cases h; rfl
      · rintro rfl; exact .nil
    | cons a l ih =>
      intro u
      constructor
      · intro h
        cases h with
        | cons hab hrest =>
          rw [(ih _).mp hrest, List.map_cons]
          congr 1
          split at hab <;> simp_all
      · rintro rfl
        rw [List.map_cons]
        refine .cons ?_ ((ih _).mpr rfl)
        split <;> simp_all
  constructor
  · rintro ⟨u, rfl, h⟩
    rw [(key _ _).mp h]
    rfl
  · rintro rfl
    exact ⟨_, rfl, (key _ _).mpr rfl⟩

theorem canServe_iff (pk : Pkgs) (d : Daemon) (name version : String) : CanServe pk d name version ↔
    ∃ c drv, pk (modName name) = .cls c ∧ c.version = version ∧
      Dict.get? d.devicefile.drivers name = some drv ∧ c.init drv.settings = true := by
  constructor
  · rintro ⟨m, c, drv, hm, h⟩
    rw [(packageOf_iff ..).mp hm] at h
    exact ⟨c, drv, h⟩
  · rintro ⟨c, drv, h⟩
    exact ⟨_, c, drv, (packageOf_iff ..).mpr rfl, h⟩

theorem updDrvs_absent {w : World} {n : String} (h : w.drv? n = none) (ps : List DrvParam) :
    updDrvs n ps w.drvs = w.drvs := by
  unfold World.drv? at h
  rw [List.find?_eq_none] at h
  unfold updDrvs
  conv => rhs; rw [← List.map_id w.drvs]
  refine List.map_congr_left (fun x hx => ?_)
  have := h x hx
  simp_all

theorem run_driverStart (name : String) (port pid : Nat) (v : String) (w : World) :
    runW (driverStart name port pid v) w = (.ok (w.drv? name).isSome,
      { w with drvs := updDrvs name [.port (some port), .version (some v), .pid (some pid), .heartbeatTime 0]
                w.drvs }) := by
  simp only [runW, driverStart, updateDrv, Prog.bind_eq, Prog.run_bind, Do.run_updateDrv,
      exec_updateDrv, Prog.andThen_ok, Do.run_getDrv, exec_getDrv, Prog.pure_eq, Prog.run_pure]
  rw [drv?_update]
  cases w.drv? name <;> rfl

theorem run_driverMain (pk : Pkgs) (d : Daemon) (name : String) (port pid : Nat) (w : World) :
    (∃ v r, CanServe pk d name v ∧ w.drv? name = some r ∧
      runW (driverMain pk d name port pid) w = (.ok .serving,
        { w with drvs := updDrvs name [.port (some port), .version (some v), .pid (some pid), .heartbeatTime 0]
                  w.drvs })) ∨
    (((¬ ∃ v, CanServe pk d name v) ∨ w.drv? name = none) ∧
      (runW (driverMain pk d name port pid) w).1 ≠ .ok .serving ∧
      (runW (driverMain pk d name port pid) w).2 = w) := by
  simp only [canServe_iff]
  unfold driverMain driverToInterface
  cases hm : pk (modName name) with
  | missing => right; exact ⟨.inl (by rintro ⟨v, c, drv, h, -⟩; cases h), (by simp [runW]), rfl⟩
  | broken e => right; exact ⟨.inl (by rintro ⟨v, c, drv, h, -⟩; cases h), (by simp [runW]), rfl⟩
  | bare => right; exact ⟨.inl (by rintro ⟨v, c, drv, h, -⟩; cases h), (by simp [runW]), rfl⟩
  | cls c =>
    simp only
    cases hd : Dict.get? d.devicefile.drivers name with
    | none => right; exact ⟨.inl (by rintro ⟨v, c, drv, -, -, h, -⟩; cases h), (by simp [runW]), rfl⟩
    | some drv =>
      simp only
      cases hi : c.init drv.settings with
      | false =>
        right
        refine ⟨.inl ?_, (by simp [runW]), rfl⟩
        rintro ⟨v, c', drv', h1, -, h2, h3⟩
        cases h1; cases h2; rw [hi] at h3; cases h3
      | true =>
        have hrun := run_driverStart name port pid c.version w
        simp only [if_true, runW] at hrun ⊢
        rw [Prog.bind_eq, Prog.run_bind, hrun]
        simp only [Prog.andThen_ok, Prog.pure_eq, Prog.run_pure]
        cases hr : w.drv? name with
        | some r => left; exact ⟨c.version, r, ⟨c, drv, rfl, rfl, rfl, hi⟩, rfl, rfl⟩
        | none =>
          right
          refine ⟨.inr rfl, by simp, ?_⟩
          rw [updDrvs_absent hr]

/-- **C109**: a driver process goes into service if, and only if, there is a package for the driver, the
driver is configured and accepts its settings, and the driver is in the table of drivers. -/
theorem C109_serving_iff (pk : Pkgs) (d : Daemon) (name : String) (port pid : Nat) (w : World) :
    (runW (driverMain pk d name port pid) w).1 = .ok .serving ↔
      (∃ v, CanServe pk d name v) ∧ ∃ r, w.drv? name = some r := by
  rcases run_driverMain pk d name port pid w with ⟨v, r, h1, h2, h3⟩ | ⟨h1, h2, -⟩
  · rw [h3]; exact ⟨fun _ => ⟨⟨v, h1⟩, r, h2⟩, fun _ => rfl⟩
  · refine ⟨fun h => absurd h h2, ?_⟩
    rintro ⟨h, r, hr⟩
    rcases h1 with h1 | h1
    · exact absurd h h1
    · rw [hr] at h1; cases h1

/-- **C109**: a process in service is on record with its port, process id and version, and has to be
checked at the next opportunity; when it was started, and how often, is not changed, nor is any other
driver, nor anything else. -/
theorem C109_announced (pk : Pkgs) (d : Daemon) (name : String) (port pid : Nat) (w : World)
    (h : (runW (driverMain pk d name port pid) w).1 = .ok .serving) :
    (∃ v r, CanServe pk d name v ∧ w.drv? name = some r ∧
      (runW (driverMain pk d name port pid) w).2.drv? name =
        some { r with port := some port, pid := some pid, version := some v, heartbeatTime := 0 }) ∧
    (∀ n, n ≠ name → (runW (driverMain pk d name port pid) w).2.drv? n = w.drv? n) ∧
    { (runW (driverMain pk d name port pid) w).2 with drvs := w.drvs } = w := by
  rcases run_driverMain pk d name port pid w with ⟨v, r, h1, h2, h3⟩ | ⟨-, h2, -⟩
  · rw [h3]
    refine ⟨⟨v, r, h1, h2, ?_⟩, ?_, rfl⟩
    · rw [drv?_update, h2]; simp [DrvParam.apply]
    · intro n hn
      rw [drv?_update]
      simp [hn]
  · exact absurd h h2

/-- **C109**: a process which does not go into service leaves no trace: neither in the table of drivers
nor anywhere else. -/
theorem C109_otherwise (pk : Pkgs) (d : Daemon) (name : String) (port pid : Nat) (w : World)
    (h : (runW (driverMain pk d name port pid) w).1 ≠ .ok .serving) :
    (runW (driverMain pk d name port pid) w).2 = w := by
  rcases run_driverMain pk d name port pid w with ⟨v, r, h1, h2, h3⟩ | ⟨-, -, h3⟩
  · rw [h3] at h; exact absurd rfl h
  · exact h3

/-- **C109** (partial): drivers whose names contain no hyphens have packages of their own.  Missing:
names that differ in hyphens and underscores only (`C109_refuted`). -/
theorem C109_own_package_partial (n n' m : String) (h : PackageOf n m) (h' : PackageOf n' m)
    (hn : '-' ∉ n.toList) (hn' : '-' ∉ n'.toList) : n = n' := by
  have key : ∀ l : List Char, '-' ∉ l → l.map (fun c => if c = '-' then '_' else c) = l := by
    intro l hl
    conv => rhs; rw [← List.map_id l]
    refine List.map_congr_left (fun x hx => ?_)
    have hne : x ≠ '-' := by rintro rfl; exact hl hx
    rw [if_neg hne]
    rfl
  rw [packageOf_iff] at h h'
  rw [h] at h'
  unfold modName at h'
  rw [key _ hn, key _ hn'] at h'
  simpa using h'

/-- **C109**, exactly: two drivers have the same package if and only if their names differ at most in
hyphens and underscores, position by position. -/
theorem C109_same_package_iff (n n' : String) :
    (∃ m, PackageOf n m ∧ PackageOf n' m) ↔
      List.Forall₂ (fun a b => a = b ∨ (a = '-' ∧ b = '_') ∨ (a = '_' ∧ b = '-'))
        n.toList n'.toList := by
  have key : ∀ l l' : List Char,
      l.map (fun c => if c = '-' then '_' else c) = l'.map (fun c => if c = '-' then '_' else c) ↔
      List.Forall₂ (fun a b => a = b ∨ (a = '-' ∧ b = '_') ∨ (a = '_' ∧ b = '-')) l l' := by
    intro l
    induction l with
    | nil => intro l'; cases l' <;> simp
    | cons a l ih =>
      intro l'
      cases l' with
      | nil => simp
      | cons b l' =>
        rw [List.map_cons, List.map_cons, List.cons.injEq, List.forall₂_cons, ih]
        refine and_congr ?_ Iff.rfl
        by_cases ha : a = '-' <;> by_cases hb : b = '-' <;> simp [ha, hb, eq_comm]
  rw [← key]
  constructor
  · rintro ⟨m, h, h'⟩
    rw [packageOf_iff] at h h'
    rw [h] at h'
    unfold modName at h'
    have h2 := congrArg String.toList ((String.append_right_inj _).mp h')
    simpa using h2
  · intro h
    exact ⟨modName n, (packageOf_iff ..).mpr rfl, (packageOf_iff ..).mpr (by unfold modName; rw [h])⟩

example : List.Forall₂ (fun a b => a = b ∨ (a = '-' ∧ b = '_') ∨ (a = '_' ∧ b = '-'))
    "a-b_c".toList "a_b-c".toList := by
  refine .cons (.inl rfl) (.cons (.inr (.inl ⟨rfl, rfl⟩)) (.cons (.inl rfl) (.cons (.inr (.inr ⟨rfl, rfl⟩))
    (.cons (.inl rfl) .nil))))

/-- A package called `tomato_a_b`. -/
def pkAB : Pkgs := fun m => if m = "tomato_a_b" then .cls ⟨"1.0", fun _ => true⟩ else .missing

def dAB : Daemon := { devicefile := { drivers := [("a-b", { name := "a-b" }), ("a_b", { name := "a_b" })] } }

/-- The table with both drivers. -/
def wAB : World := { drvs := [{ name := "a-b" }, { name := "a_b" }] }

/-- Different drivers need not be different: with `a-b` and `a_b` in the configuration, two processes of
the same driver go into service. -/
theorem C109_refuted : ∃ m, PackageOf "a-b" m ∧ PackageOf "a_b" m ∧
    (runW (driverMain pkAB dAB "a-b" 5000 70) wAB).1 = .ok .serving ∧
    (runW (driverMain pkAB dAB "a_b" 5001 71) (runW (driverMain pkAB dAB "a-b" 5000 70) wAB).2).1 =
      .ok .serving :=
  ⟨"tomato_a_b", (packageOf_iff ..).mpr (by decide), (packageOf_iff ..).mpr (by decide),
    rfl, rfl⟩

/-- A process for a driver which is not in the table returns. -/
example : (∃ v, CanServe pkAB dAB "a_b" v) ∧ (runW (driverMain pkAB dAB "a_b" 5000 70) {}).1 = .ok .returned :=
  ⟨⟨"1.0", (canServe_iff ..).mpr ⟨_, _, if_pos (by decide), rfl, rfl, rfl⟩⟩, rfl⟩

/-- One for an unknown driver does, too. -/
example : (runW (driverMain pkAB dAB "c" 5000 70) wAB).1 = .ok .returned := rfl

end Tomato.Props
