import Verif.Passata
import Verif.Dict

/-!
# Properties of passata (C62, C63)
-/

namespace Tomato.Props
open Tomato.Passata

/-- Does the command change the component? -/
def Modifies : PCmd → Prop
  | .setAttr _ _ => True
  | .reset => True
  | _ => False

/-- The request addresses the component `name`, according to some report of the daemon and some
content of the driver table. -/
def Addresses (w : Env) (name : String) (q : Req) : Prop :=
  ∃ i j d c v, w.daemon i = some d ∧ d.devicefile.components.get? name = some c ∧
    w.drv j c.driver = some v ∧ v.port = some q.port ∧ c.address = q.address ∧ c.channel = q.channel

/-- A report: the component says that it is not running. -/
def SaysIdle (e : Req × Option Ans) : Prop :=
  e.1.cmd = .status ∧ ∃ a, e.2 = some a ∧ a.success = true ∧ a.data = some (.status (some false))

/-- The environment gives the same answers about the configuration every time. -/
def Steady (w : Env) : Prop := (∀ i j, w.daemon i = w.daemon j) ∧ (∀ i j n, w.drv i n = w.drv j n)

theorem run_daemon (w : Env) :
    Prog.run exec doDaemon w = (.ok (w.daemon w.k), { w with k := w.k + 1 }) := rfl
theorem run_getDrv (n : String) (w : Env) :
    Prog.run exec (doGetDrv n) w = (.ok (w.drv w.k n), { w with k := w.k + 1 }) := rfl
theorem run_ask (r : Req) (w : Env) : Prog.run exec (doAsk r) w =
    (.ok (w.ans w.k r), { w with k := w.k + 1, log := w.log ++ [(r, w.ans w.k r)] }) := rfl

/-- `_name_to_cmp` sends nothing to any driver. -/
theorem run_nameToCmp (name : String) (w : Env) :
    ∃ k, (Prog.run exec (nameToCmp name) w).2 = { w with k := k } ∧
      (∀ cmp drv, (Prog.run exec (nameToCmp name) w).1 = .ok (.inr (cmp, drv)) →
        ∃ i j d, w.daemon i = some d ∧ d.devicefile.components.get? name = some cmp ∧
          w.drv j cmp.driver = some drv) ∧
      (∀ r, (Prog.run exec (nameToCmp name) w).1 = .ok (.inl r) → r.success = false) ∧
      (∀ d, w.daemon w.k = some d → d.devicefile.components.get? name = none →
        ∃ r, (Prog.run exec (nameToCmp name) w).1 = .ok (.inl r)) := by
  unfold nameToCmp
  rw [Prog.run_bind, run_daemon]
  simp only [Prog.andThen_ok]
  cases hd : w.daemon w.k with
  | none =>
    refine ⟨w.k + 1, rfl, ?_, ?_, ?_⟩
    · intro c v h; cases h
    · intro r h; cases h; rfl
    · intro d h; cases h
  | some d =>
    simp only
    cases hc : d.devicefile.components.get? name with
    | none =>
      refine ⟨w.k + 1, rfl, ?_, ?_, ?_⟩
      · intro c v h; cases h
      · intro r h; cases h; rfl
      · intro d' h _; exact ⟨_, rfl⟩
    | some cmp =>
      simp only
      rw [Prog.run_bind, run_getDrv]
      simp only [Prog.andThen_ok]
      cases hv : w.drv (w.k + 1) cmp.driver with
      | none =>
        refine ⟨w.k + 1 + 1, rfl, ?_, ?_, ?_⟩
        · intro c v h; cases h
        · intro r h; cases h
        · intro d' h h'; cases h; rw [hc] at h'; cases h'
      | some drv =>
        refine ⟨w.k + 1 + 1, rfl, ?_, ?_, ?_⟩
        · intro c v h; cases h; exact ⟨_, _, d, hd, hc, hv⟩
        · intro r h; cases h
        · intro d' h h'; cases h; rw [hc] at h'; cases h'

theorem run_ask1 (cmd : PCmd) (port : Nat) (cmp : Component) (w : Env) :
    ∃ k a, Prog.run exec (ask1 cmd port cmp) w =
      (.ok (match a with | none => fail .zmqTimeout | some a => ofAns a),
       { w with k := k, log := w.log ++ [(⟨cmd, port, cmp.address, cmp.channel⟩, a)] }) := by
  unfold ask1
  rw [Prog.run_bind, run_ask]
  simp only [Prog.andThen_ok]
  refine ⟨w.k + 1, w.ans w.k ⟨cmd, port, cmp.address, cmp.channel⟩, ?_⟩
  cases w.ans w.k ⟨cmd, port, cmp.address, cmp.channel⟩ <;> rfl

/-- The functions of the common shape send at most their one command, to the component named. -/
theorem run_simple (cmd : PCmd) (name : String) (w : Env) :
    (∃ k, (Prog.run exec (simple cmd name) w).2 = { w with k := k } ∧
      ∀ r, (Prog.run exec (simple cmd name) w).1 = .ok r → r.success = false) ∨
    (∃ k q a, (Prog.run exec (simple cmd name) w).2 = { w with k := k, log := w.log ++ [(q, a)] } ∧
      q.cmd = cmd ∧ Addresses w name q ∧
      (Prog.run exec (simple cmd name) w).1 =
        .ok (match a with | none => fail .zmqTimeout | some a => ofAns a)) := by
  obtain ⟨k, h1, h2, h3, _⟩ := run_nameToCmp name w
  unfold simple
  rw [Prog.run_bind]
  rcases hr : Prog.run exec (nameToCmp name) w with ⟨r, w'⟩
  rw [hr] at h1 h2 h3
  simp only at h1 h2 h3
  subst h1
  match r, h2, h3 with
  | .error e, _, _ => left; exact ⟨k, rfl, fun r h => by cases h⟩
  | .ok (.inl rep), _, h3 =>
    left
    refine ⟨k, rfl, fun r h => ?_⟩
    cases h
    exact h3 _ rfl
  | .ok (.inr (cmp, drv)), h2, _ =>
    obtain ⟨i, j, d, hd, hc, hv⟩ := h2 _ _ rfl
    simp only [Prog.andThen_ok]
    cases hp : drv.port with
    | none =>
      left
      refine ⟨k, rfl, fun r h => ?_⟩
      cases h; rfl
    | some port =>
      right
      obtain ⟨k', a, ha⟩ := run_ask1 cmd port cmp { w with k := k }
      simp only
      rw [ha]
      exact ⟨k', _, a, rfl, rfl, ⟨i, j, d, cmp, drv, hd, hc, hv, hp, rfl, rfl⟩, rfl⟩

/-- `_running_or_force` answers "yes" only if forced or if the component said it is idle. -/
theorem run_runningOrForce (name : String) (force : Bool) (w : Env) :
    ∃ k l, (Prog.run exec (runningOrForce name force) w).2 = { w with k := k, log := w.log ++ l } ∧
      (∀ e ∈ l, e.1.cmd = .status ∧ Addresses w name e.1) ∧
      (∀ r, (Prog.run exec (runningOrForce name force) w).1 = .ok r → r.success = true →
        force = true ∨ ∃ e ∈ l, SaysIdle e) := by
  unfold runningOrForce
  cases force with
  | true => exact ⟨w.k, [], by simp, by simp, fun _ _ _ => .inl rfl⟩
  | false =>
    simp only [Bool.false_eq_true, if_false]
    rw [Prog.run_bind]
    have hjudge : ∀ (x : PReply) (w : Env), (Prog.run exec (judge x) w).2 = w := by
      intro x w
      unfold judge
      split
      · rfl
      · split <;> rfl
    have hs := run_simple .status name w
    rcases hr : Prog.run exec (status name) w with ⟨r, w'⟩
    unfold status at hr
    rw [hr] at hs
    simp only at hs
    rcases hs with ⟨k, h1, h2⟩ | ⟨k, q, a, h1, h2, h3, h4⟩
    · subst h1
      refine ⟨k, [], ?_, by simp, ?_⟩
      · cases r with
        | error e => simp
        | ok x => simp [hjudge]
      · intro r' hr' hs'
        cases r with
        | error e => cases hr'
        | ok x =>
          have := h2 x rfl
          simp only [Prog.andThen_ok, judge, this] at hr'
          cases hr'
          cases hs'
    · subst h1
      subst h4
      refine ⟨k, [(q, a)], by simp [hjudge], by simpa using ⟨h2, h3⟩, ?_⟩
      intro r' hr' hs'
      right
      refine ⟨(q, a), by simp, h2, ?_⟩
      cases a with
      | none => simp only [Prog.andThen_ok, judge, fail] at hr'; cases hr'; cases hs'
      | some a =>
        refine ⟨a, rfl, ?_⟩
        obtain ⟨ok, data⟩ := a
        cases ok with
        | false => simp only [Prog.andThen_ok, judge, ofAns] at hr'; cases hr'; cases hs'
        | true =>
          refine ⟨rfl, ?_⟩
          simp only [Prog.andThen_ok, judge, ofAns] at hr'
          match data, hr' with
          | none, hr' => cases hr'; cases hs'
          | some (.status (some false)), _ => rfl
          | some (.status (some true)), hr' => cases hr'; cases hs'
          | some (.status none), hr' => cases hr'
          | some (.val v), hr' => cases hr'

/-- What `set_attr` and `reset` send. -/
theorem run_modify (cmd : PCmd) (name : String) (force : Bool) (w : Env) (hw : w.log = []) :
    ∃ l, (∀ e ∈ l, e.1.cmd = .status ∧ Addresses w name e.1) ∧
      ((Prog.run exec (modify cmd name force) w).2.log = l ∨
       ∃ q a, (Prog.run exec (modify cmd name force) w).2.log = l ++ [(q, a)] ∧ q.cmd = cmd ∧
        Addresses w name q ∧ (force = true ∨ ∃ e ∈ l, SaysIdle e)) := by
  obtain ⟨k, h1, h2, _, _⟩ := run_nameToCmp name w
  unfold Passata.modify
  rw [Prog.run_bind]
  rcases hr : Prog.run exec (nameToCmp name) w with ⟨r, w'⟩
  rw [hr] at h1 h2
  simp only at h1 h2
  subst h1
  match r, h2 with
  | .error e, _ => exact ⟨[], by simp, .inl hw⟩
  | .ok (.inl rep), _ => exact ⟨[], by simp, .inl hw⟩
  | .ok (.inr (cmp, drv)), h2 =>
    obtain ⟨i, j, d, hd, hc, hv⟩ := h2 _ _ rfl
    simp only [Prog.andThen_ok]
    cases hp : drv.port with
    | none => exact ⟨[], by simp, .inl hw⟩
    | some port =>
      simp only
      rw [Prog.run_bind]
      obtain ⟨k', l, g1, g2, g3⟩ := run_runningOrForce name force { w with k := k }
      rcases hr' : Prog.run exec (runningOrForce name force) { w with k := k } with ⟨r', w''⟩
      rw [hr'] at g1 g3
      simp only at g1 g3
      subst g1
      refine ⟨l, g2, ?_⟩
      cases r' with
      | error e => left; simp [hw]
      | ok x =>
        simp only [Prog.andThen_ok]
        cases hx : x.success with
        | false => left; simp [hw]
        | true =>
          right
          obtain ⟨k3, a, ha⟩ := run_ask1 cmd port cmp { w with k := k', log := w.log ++ l }
          simp only [Bool.not_true, Bool.false_eq_true, if_false]
          rw [ha]
          refine ⟨⟨cmd, port, cmp.address, cmp.channel⟩, a, by simp [hw], rfl,
            ⟨i, j, d, cmp, drv, hd, hc, hv, hp, rfl, rfl⟩, g3 x rfl hx⟩

/-- In a steady environment all requests for the same name go to the same place. -/
theorem addresses_unique {w : Env} (hs : Steady w) {name : String} {q q' : Req}
    (h : Addresses w name q) (h' : Addresses w name q') :
    q.port = q'.port ∧ q.address = q'.address ∧ q.channel = q'.channel := by
  obtain ⟨i, j, d, c, v, h1, h2, h3, h4, h5, h6⟩ := h
  obtain ⟨i', j', d', c', v', h1', h2', h3', h4', h5', h6'⟩ := h'
  rw [hs.1 i i', h1'] at h1
  cases h1
  rw [h2'] at h2
  cases h2
  rw [hs.2 j j' c.driver, h3'] at h3
  cases h3
  rw [h4'] at h4
  exact ⟨(Option.some.inj h4).symm, h5.symm.trans h5', h6.symm.trans h6'⟩

/-- **C62** (`_partial`: the configuration does not change during the command, see `C62_refuted_reload`): in every
configuration, whatever the drivers reply: if `passata set-attr` or `passata
reset` sends a modifying command, then it is the command asked for, sent once, as last request, to
the component named; and before, either the user said `--force`, or this component was asked for its
status and reported that it is not running. -/
theorem C62_modify_partial (w : Env) (hw : w.log = []) (hs : Steady w) (name : String) (force : Bool)
    (p : Prog PSig PReply) (cmd : PCmd)
    (hp : (∃ attr val, p = setAttr name attr val force ∧ cmd = .setAttr attr val) ∨
      (p = Passata.reset name force ∧ cmd = .reset))
    (pre post : List (Req × Option Ans)) (q : Req) (a : Option Ans)
    (hlog : (Prog.run exec p w).2.log = pre ++ (q, a) :: post) (hq : Modifies q.cmd) :
    q.cmd = cmd ∧ post = [] ∧ (∀ e ∈ pre, ¬ Modifies e.1.cmd) ∧ Addresses w name q ∧
      (force = true ∨ ∃ e ∈ pre, SaysIdle e ∧ e.1.port = q.port ∧ e.1.address = q.address ∧
        e.1.channel = q.channel) := by
  have hpm : p = modify cmd name force := by
    rcases hp with ⟨attr, val, rfl, rfl⟩ | ⟨rfl, rfl⟩ <;> rfl
  subst hpm
  obtain ⟨l, hl, hcase⟩ := run_modify cmd name force w hw
  have hno : ∀ e ∈ l, ¬ Modifies e.1.cmd := by
    intro e he hm
    rw [(hl e he).1] at hm
    exact hm
  rcases hcase with h | ⟨q', a', h, h1, h2, h3⟩
  · rw [h] at hlog
    exact absurd hq (hno (q, a) (by rw [hlog]; simp))
  · rw [h] at hlog
    have hpost : post = [] := by
      rcases List.eq_nil_or_concat post with rfl | ⟨post', x, rfl⟩
      · rfl
      · exfalso
        have : l ++ [(q', a')] = (pre ++ (q, a) :: post') ++ [x] := by rw [hlog]; simp
        have := (List.append_inj' this rfl).1
        exact hno (q, a) (by rw [this]; simp) hq
    subst hpost
    have := List.append_inj' hlog rfl
    obtain ⟨e1, e2⟩ := this
    cases e2
    subst e1
    refine ⟨h1, rfl, hno, h2, ?_⟩
    rcases h3 with h3 | ⟨e, he, hi⟩
    · exact .inl h3
    · exact .inr ⟨e, he, hi, addresses_unique hs (hl e he).2 h2⟩

/-- **C62**: nothing is sent anywhere for a component that the daemon does not know; the commands
fail. -/
theorem C62_unknown (w : Env) (hw : w.log = []) (name : String)
    (hn : ∀ i d, w.daemon i = some d → d.devicefile.components.get? name = none)
    (p : Prog PSig PReply)
    (hp : (∃ cmd, p = simple cmd name) ∨ p = register name ∨ (∃ cmd force, p = modify cmd name force) ∨
      (∃ as, p = getAttrs name as)) :
    (Prog.run exec p w).2.log = [] ∧ ∃ r, (Prog.run exec p w).1 = .ok r ∧ r.success = false := by
  obtain ⟨k, h1, h2, h3, h4⟩ := run_nameToCmp name w
  have hinl : ∃ r, (Prog.run exec (nameToCmp name) w).1 = .ok (.inl r) := by
    cases hd : w.daemon w.k with
    | some d => exact h4 d hd (hn _ d hd)
    | none =>
      refine ⟨fail .daemonDown, ?_⟩
      unfold nameToCmp
      rw [Prog.run_bind, run_daemon]
      simp only [Prog.andThen_ok, hd]
      rfl
  obtain ⟨r, hr⟩ := hinl
  have hrun : Prog.run exec (nameToCmp name) w = (.ok (.inl r), { w with k := k }) := by
    rw [← h1, ← hr]
  have hf := h3 r hr
  rcases hp with ⟨cmd, rfl⟩ | rfl | ⟨cmd, force, rfl⟩ | ⟨as, rfl⟩
  · unfold simple
    rw [Prog.run_bind, hrun]
    exact ⟨hw, r, rfl, hf⟩
  · unfold register
    rw [Prog.run_bind, hrun]
    exact ⟨hw, r, rfl, hf⟩
  · unfold Passata.modify
    rw [Prog.run_bind, hrun]
    exact ⟨hw, r, rfl, hf⟩
  · unfold getAttrs
    rw [Prog.run_bind, hrun]
    exact ⟨hw, r, rfl, hf⟩

/-! ### Examples -/

def pCmp : Component := ⟨"d:(a,1)", "dev", "d", "a", "1"⟩
def pDaemon : Daemon := { devicefile := { components := [("d:(a,1)", pCmp)] } }
def pDrv : DrvState := { name := "d", port := some 9, pid := some 1 }

/-- The component is idle (`running := false`) or not; every other request succeeds. -/
def pAns (running : Bool) (q : Req) : Option Ans :=
  if q.cmd = .status then some { success := true, data := some (.status (some running)) }
  else some { success := true, data := some (.val 5) }

def pEnv (running : Bool) : Env where
  daemon := fun _ => some pDaemon
  drv := fun _ _ => some pDrv
  ans := fun _ q => pAns running q

theorem pEnv_steady (b : Bool) : Steady (pEnv b) := ⟨fun _ _ => rfl, fun _ _ _ => rfl⟩

/-- An idle component is set. -/
example : (Prog.run exec (setAttr "d:(a,1)" "x" 3 false) (pEnv false)).2.log.map (·.1.cmd) =
    [.status, .setAttr "x" 3] := by decide

/-- A running one is not. -/
example : (Prog.run exec (setAttr "d:(a,1)" "x" 3 false) (pEnv true)).2.log.map (·.1.cmd) =
    [.status] := by decide

/-- Unless forced. -/
example : (Prog.run exec (Passata.reset "d:(a,1)" true) (pEnv true)).2.log.map (·.1.cmd) =
    [.reset] := by decide

/-- The answer of a driver, as a reply. -/
def IsAnswer (r : PReply) (a : Option Ans) : Prop :=
  match a with
  | none => r.success = false
  | some a => r.success = a.success ∧ r.data = a.data.map .raw

/-- **C62**, exactly (`_partial`: as before): if the component is configured and its driver has a port, then `passata set-attr`
and `passata reset` do send the command if forced, and report what the driver replies.  Otherwise they
first ask for the status; they send the command and report what the driver replies if the component is
not running, and else they send nothing more, and do not report a success. -/
theorem C62_exact_partial (w : Env) (hw : w.log = []) (hs : Steady w) (name : String) (cmd : PCmd)
    (d : Daemon) (c : Component) (v : DrvState) (port : Nat) (hd : w.daemon w.k = some d)
    (hc : d.devicefile.components.get? name = some c) (hv : w.drv w.k c.driver = some v)
    (hp : v.port = some port) (p : Bool → Prog PSig PReply)
    (hq : (∃ attr val, (∀ force, p force = setAttr name attr val force) ∧ cmd = .setAttr attr val) ∨
      ((∀ force, p force = Passata.reset name force) ∧ cmd = .reset)) :
    (∃ r a, (Prog.run exec (p true) w).1 = .ok r ∧ IsAnswer r a ∧
      (Prog.run exec (p true) w).2.log = [(⟨cmd, port, c.address, c.channel⟩, a)]) ∧
    (∃ b, b = w.ans (w.k + 4) ⟨.status, port, c.address, c.channel⟩ ∧
      ((SaysIdle (⟨.status, port, c.address, c.channel⟩, b) ∧
        ∃ r a, (Prog.run exec (p false) w).1 = .ok r ∧ IsAnswer r a ∧
          (Prog.run exec (p false) w).2.log =
            [(⟨.status, port, c.address, c.channel⟩, b), (⟨cmd, port, c.address, c.channel⟩, a)]) ∨
       (¬ SaysIdle (⟨.status, port, c.address, c.channel⟩, b) ∧
        (∀ r, (Prog.run exec (p false) w).1 = .ok r → r.success = false) ∧
        (Prog.run exec (p false) w).2.log = [(⟨.status, port, c.address, c.channel⟩, b)]))) := by
  have hpm : ∀ force, p force = modify cmd name force := by
    rcases hq with ⟨attr, val, h, rfl⟩ | ⟨h, rfl⟩ <;> exact h
  have hname : ∀ w' : Env, w'.daemon = w.daemon → w'.drv = w.drv →
      Prog.run exec (nameToCmp name) w' = (.ok (.inr (c, v)), { w' with k := w'.k + 2 }) := by
    intro w' e1 e2
    unfold nameToCmp
    rw [Prog.run_bind, run_daemon]
    simp only [Prog.andThen_ok]
    rw [e1, hs.1 w'.k w.k, hd]
    simp only [hc]
    rw [Prog.run_bind, run_getDrv]
    simp only [Prog.andThen_ok]
    rw [e2, hs.2 (w'.k + 1) w.k, hv]
    rfl
  have hask : ∀ (cmd : PCmd) (w' : Env), ∃ r, Prog.run exec (ask1 cmd port c) w' = (.ok r,
      { w' with k := w'.k + 1,
                log := w'.log ++ [(⟨cmd, port, c.address, c.channel⟩, w'.ans w'.k ⟨cmd, port, c.address, c.channel⟩)] }) ∧
      IsAnswer r (w'.ans w'.k ⟨cmd, port, c.address, c.channel⟩) ∧
      r = match w'.ans w'.k ⟨cmd, port, c.address, c.channel⟩ with | none => fail .zmqTimeout | some a => ofAns a := by
    intro cmd w'
    unfold ask1
    rw [Prog.run_bind, run_ask]
    simp only [Prog.andThen_ok]
    cases w'.ans w'.k ⟨cmd, port, c.address, c.channel⟩ with
    | none => exact ⟨_, rfl, rfl, rfl⟩
    | some a => exact ⟨_, rfl, ⟨rfl, rfl⟩, rfl⟩
  constructor
  · rw [hpm]
    unfold Passata.modify
    rw [Prog.run_bind, hname w rfl rfl]
    simp only [Prog.andThen_ok, hp]
    obtain ⟨r, h1, h2, -⟩ := hask cmd { w with k := w.k + 2 }
    refine ⟨r, _, ?_, h2, ?_⟩
    · rw [Prog.run_bind]
      simp [runningOrForce, h1]
    · rw [Prog.run_bind]
      simp [runningOrForce, h1]; exact hw
  · refine ⟨_, rfl, ?_⟩
    rw [hpm]
    unfold Passata.modify
    rw [Prog.run_bind, hname w rfl rfl]
    simp only [Prog.andThen_ok, hp]
    rw [Prog.run_bind]
    obtain ⟨r, h1, h2, h3⟩ := hask .status { w with k := w.k + 4 }
    have hst : Prog.run exec (status name) { w with k := w.k + 2 } = (.ok r,
        { w with k := w.k + 5, log := w.log ++ [(⟨.status, port, c.address, c.channel⟩,
          w.ans (w.k + 4) ⟨.status, port, c.address, c.channel⟩)] }) := by
      unfold status simple
      rw [Prog.run_bind, hname { w with k := w.k + 2 } rfl rfl]
      simp only [Prog.andThen_ok, hp]
      exact h1
    simp only at h3
    generalize w.ans (w.k + 4) ⟨.status, port, c.address, c.channel⟩ = b at h3 hst
    have hro : Prog.run exec (runningOrForce name false) { w with k := w.k + 2 } =
        Prog.run exec (judge r) { w with k := w.k + 5, log := w.log ++ [(⟨.status, port, c.address, c.channel⟩, b)] } := by
      unfold runningOrForce
      simp only [Bool.false_eq_true, if_false]
      rw [Prog.run_bind, hst]
      rfl
    rw [hro]
    subst h3
    obtain ⟨r', g1, g2, -⟩ := hask cmd { w with k := w.k + 5, log := w.log ++ [(⟨.status, port, c.address, c.channel⟩, b)] }
    match b with
    | none => right; exact ⟨(fun h => by obtain ⟨-, a, h, -⟩ := h; cases h), (fun r h => by cases h; rfl), by simp [judge, fail, hw]⟩
    | some ⟨false, data⟩ =>
      right
      exact ⟨(fun h => by obtain ⟨-, a, h, h', -⟩ := h; cases h; cases h'), (fun r h => by cases h; rfl),
        by simp [judge, ofAns, fail, hw]⟩
    | some ⟨true, none⟩ =>
      right
      exact ⟨(fun h => by obtain ⟨-, a, h, -, h'⟩ := h; cases h; cases h'), (fun r h => by cases h; rfl),
        by simp [judge, ofAns, fail, hw]⟩
    | some ⟨true, some (.status (some true))⟩ =>
      right
      exact ⟨(fun h => by obtain ⟨-, a, h, -, h'⟩ := h; cases h; cases h'), (fun r h => by cases h; rfl),
        by simp [judge, ofAns, fail, hw]⟩
    | some ⟨true, some (.status none)⟩ =>
      right
      exact ⟨(fun h => by obtain ⟨-, a, h, -, h'⟩ := h; cases h; cases h'), (fun r h => by cases h),
        by simp [judge, ofAns, hw]⟩
    | some ⟨true, some (.val x)⟩ =>
      right
      exact ⟨(fun h => by obtain ⟨-, a, h, -, h'⟩ := h; cases h; cases h'), (fun r h => by cases h),
        by simp [judge, ofAns, hw]⟩
    | some ⟨true, some (.status (some false))⟩ =>
      left
      refine ⟨⟨rfl, _, rfl, rfl, rfl⟩, r', _, ?_, g2, ?_⟩
      · simp [judge, ofAns, g1]
      · simp [judge, ofAns, g1]; exact hw

example : Steady (pEnv true) ∧ (pEnv true).daemon 0 = some pDaemon ∧
    pDaemon.devicefile.components.get? "d:(a,1)" = some pCmp ∧ (pEnv true).drv 0 pCmp.driver = some pDrv ∧
    pDrv.port.isSome = true := ⟨⟨fun _ _ => rfl, fun _ _ _ => rfl⟩, rfl, rfl, rfl, rfl⟩

/-- If the configuration is reloaded between the look-up of the component and the question for its
status, the report of another component is taken for the one that is modified. -/
theorem C62_refuted_reload : ∃ w : Env, w.log = [] ∧
    ((Prog.run exec (setAttr "d:(a,1)" "x" 3 false) w).2.log.map
      (fun e => (e.1.cmd, e.1.port))) = [(.status, 10), (.setAttr "x" 3, 9)] := by
  refine ⟨{ daemon := fun _ => some pDaemon,
            drv := fun k _ => if k < 2 then some pDrv else some { pDrv with port := some 10 },
            ans := fun _ q => pAns false q }, rfl, by decide⟩

/-! ## C63 -/

/-- The answers to the requests, in order, the `i`-th attribute being asked for at moment `k + i`. -/
def answers (w : Env) (port : Nat) (cmp : Component) (attrs : List String) : List (Option Ans) :=
  (attrs.zip (List.range attrs.length)).map fun (x, i) =>
    w.ans (w.k + i) ⟨.getAttr x, port, cmp.address, cmp.channel⟩

/-- The answer is a value. -/
def Good (a : Option Ans) : Prop := ∃ x, a = some x ∧ x.success = true

theorem answers_cons (w : Env) (port : Nat) (cmp : Component) (x : String) (xs : List String)
    (l : List (Req × Option Ans)) :
    answers w port cmp (x :: xs) = w.ans w.k ⟨.getAttr x, port, cmp.address, cmp.channel⟩ ::
      answers { w with k := w.k + 1, log := l } port cmp xs := by
  simp only [answers, List.length_cons, List.range_succ_eq_map, List.zip_cons_cons, List.map_cons,
    Nat.add_zero, List.cons.injEq, true_and]
  rw [List.zip_map_right, List.map_map]
  apply List.map_congr_left
  rintro ⟨a, i⟩ _
  simp only [Function.comp, Prod.map, id]
  rw [Nat.add_assoc, Nat.add_comm 1 i]

/-- The requests that are sent for the attributes, with their answers. -/
def asked (w : Env) (port : Nat) (cmp : Component) (attrs : List String) : List (Req × Option Ans) :=
  (attrs.zip (answers w port cmp attrs)).map fun (x, a) =>
    (⟨.getAttr x, port, cmp.address, cmp.channel⟩, a)

theorem getLoop_spec (port : Nat) (cmp : Component) : ∀ (attrs : List String) (data : Dict String (Option Raw)) (w : Env),
    (∀ a ∈ answers w port cmp attrs, Good a) ∧
      (Prog.run exec (getLoop port cmp attrs data) w).1 = .ok ⟨true, .retrieved, some (.attrs
        ((attrs.zip (answers w port cmp attrs)).foldl
          (fun d xa => d.set xa.1 (xa.2.bind (·.data))) data))⟩ ∧
      (Prog.run exec (getLoop port cmp attrs data) w).2.log = w.log ++ asked w port cmp attrs ∨
    (∃ i a, (answers w port cmp attrs)[i]? = some a ∧ ¬ Good a ∧
      (∀ (j : Nat) b, j < i → (answers w port cmp attrs)[j]? = some b → Good b) ∧
      (Prog.run exec (getLoop port cmp attrs data) w).1 =
        .ok (match a with | none => fail .zmqTimeout | some a => ofAns a) ∧
      (Prog.run exec (getLoop port cmp attrs data) w).2.log =
        w.log ++ (asked w port cmp attrs).take (i + 1)) := by
  intro attrs
  induction attrs with
  | nil =>
    intro data w
    left
    exact ⟨by simp [answers], rfl, by simp [getLoop, asked]⟩
  | cons x xs ih =>
    intro data w
    obtain ⟨q, hqdef⟩ : ∃ q : Req, q = ⟨.getAttr x, port, cmp.address, cmp.channel⟩ := ⟨_, rfl⟩
    have hrun : Prog.run exec (getLoop port cmp (x :: xs) data) w =
        match w.ans w.k q with
        | none => (.ok (fail .zmqTimeout), { w with k := w.k + 1, log := w.log ++ [(q, none)] })
        | some a =>
          Prog.run exec (if !a.success then .pure (ofAns a) else getLoop port cmp xs (data.set x a.data))
            { w with k := w.k + 1, log := w.log ++ [(q, some a)] } := by
      rw [getLoop, Prog.run_bind, run_ask]
      simp only [Prog.andThen_ok, ← hqdef]
      cases w.ans w.k q <;> rfl
    rw [hrun]
    have hans := answers_cons w port cmp x xs
    rw [← hqdef] at hans
    have hasked : ∀ l, asked w port cmp (x :: xs) = (q, w.ans w.k q) ::
        asked { w with k := w.k + 1, log := l } port cmp xs := by
      intro l
      unfold asked
      rw [hans l, hqdef]
      rfl
    cases ha : w.ans w.k q with
    | none =>
      right
      refine ⟨0, none, ?_, ?_, ?_, rfl, ?_⟩
      · rw [hans [], ha]; rfl
      · rintro ⟨y, hy, _⟩; cases hy
      · intro j b hj; omega
      · rw [hasked [], ha]; rfl
    | some a =>
      simp only
      cases hs : a.success with
      | false =>
        right
        refine ⟨0, some a, ?_, ?_, ?_, rfl, ?_⟩
        · rw [hans [], ha]; rfl
        · rintro ⟨y, hy, hy'⟩; cases hy; rw [hs] at hy'; cases hy'
        · intro j b hj; omega
        · rw [hasked [], ha]; rfl
      | true =>
        simp only [Bool.not_true, Bool.false_eq_true, if_false]
        have hgood : Good (some a) := ⟨a, rfl, hs⟩
        rcases ih (data.set x a.data) { w with k := w.k + 1, log := w.log ++ [(q, some a)] } with
          ⟨h1, h2, h3⟩ | ⟨i, b, h1, h2, h3, h4, h5⟩
        · left
          refine ⟨?_, ?_, ?_⟩
          · rw [hans (w.log ++ [(q, some a)]), ha]
            intro b hb
            rcases List.mem_cons.mp hb with rfl | hb
            · exact hgood
            · exact h1 b hb
          · rw [h2, hans (w.log ++ [(q, some a)]), ha]; rfl
          · rw [h3, hasked (w.log ++ [(q, some a)]), ha]; simp
        · right
          refine ⟨i + 1, b, ?_, h2, ?_, h4, ?_⟩
          · rw [hans (w.log ++ [(q, some a)])]; simpa using h1
          · intro j c hj hc
            rw [hans (w.log ++ [(q, some a)]), ha] at hc
            cases j with
            | zero => simp at hc; subst hc; exact hgood
            | succ j => exact h3 j c (by omega) (by simpa using hc)
          · rw [h5, hasked (w.log ++ [(q, some a)]), ha]; simp

/-- Building a dictionary: a key is present exactly if it was set. -/
theorem foldl_set_mem (l : List (String × Option Ans)) (d : Dict String (Option Raw)) (x : String) :
    (l.foldl (fun d xa => d.set xa.1 (xa.2.bind (·.data))) d).mem x = true ↔
      x ∈ l.map (·.1) ∨ d.mem x = true := by
  induction l generalizing d with
  | nil => simp
  | cons ya l ih =>
    rw [List.foldl_cons, ih]
    simp only [Dict.mem, Dict.get?_set, List.map_cons, List.mem_cons]
    by_cases h : ya.1 = x
    · simp [h]
    · have h' : ¬ x = ya.1 := fun e => h e.symm
      simp [h, h']

/-- Building a dictionary: the last value counts. -/
theorem foldl_set_get (l : List (String × Option Ans)) (d : Dict String (Option Raw)) (x : String)
    (v : Option Raw)
    (h : (l.foldl (fun d xa => d.set xa.1 (xa.2.bind (·.data))) d).get? x = some v) :
    (∃ (i : Nat) (a : Option Ans), l[i]? = some (x, a) ∧
      (∀ (j : Nat) b, i < j → l[j]? ≠ some (x, b)) ∧ v = a.bind (·.data)) ∨
    ((∀ p ∈ l, p.1 ≠ x) ∧ d.get? x = some v) := by
  induction l generalizing d with
  | nil => exact .inr ⟨by simp, h⟩
  | cons ya l ih =>
    rw [List.foldl_cons] at h
    rcases ih _ h with ⟨i, a, h1, h2, h3⟩ | ⟨h1, h2⟩
    · left
      refine ⟨i + 1, a, by simpa using h1, ?_, h3⟩
      intro j b hj
      cases j with
      | zero => omega
      | succ j => simpa using h2 j b (by omega)
    · rw [Dict.get?_set] at h2
      by_cases hx : ya.1 = x
      · left
        refine ⟨0, ya.2, by simp [← hx], ?_, by simpa [hx] using h2.symm⟩
        intro j b hj hb
        cases j with
        | zero => omega
        | succ j =>
          simp only [List.getElem?_cons_succ] at hb
          exact h1 _ (List.mem_of_getElem? hb) rfl
      · right
        rw [if_neg hx] at h2
        refine ⟨?_, h2⟩
        intro p hp
        rcases List.mem_cons.mp hp with rfl | hp
        · exact hx
        · exact h1 p hp

theorem answers_length (w : Env) (port : Nat) (cmp : Component) (attrs : List String) :
    (answers w port cmp attrs).length = attrs.length := by simp [answers]

/-- **C63**: `passata get`, when the component is found and its driver has a port, asks for the
attributes in the order given.  If all answers are values, it returns success, with a dictionary that
has exactly the requested attributes as keys, each with the value in the last answer for it.
Otherwise it returns the first failure, and asks for nothing after that. -/
theorem C63_get (w : Env) (hw : w.log = []) (name : String) (attrs : List String)
    (cmp : Component) (drv : DrvState) (port : Nat) (w₁ : Env)
    (hn : Prog.run exec (nameToCmp name) w = (.ok (.inr (cmp, drv)), w₁)) (hp : drv.port = some port) :
    ((∀ a ∈ answers w₁ port cmp attrs, Good a) ∧
      (∃ d, (Prog.run exec (getAttrs name attrs) w).1 = .ok ⟨true, .retrieved, some (.attrs d)⟩ ∧
        (∀ x, d.mem x = true ↔ x ∈ attrs) ∧
        (∀ x v, d.get? x = some v → ∃ (i : Nat) (a : Ans), attrs[i]? = some x ∧
          (∀ j : Nat, i < j → attrs[j]? ≠ some x) ∧
          (answers w₁ port cmp attrs)[i]? = some (some a) ∧ v = a.data)) ∧
      (Prog.run exec (getAttrs name attrs) w).2.log = asked w₁ port cmp attrs) ∨
    (∃ i a, (answers w₁ port cmp attrs)[i]? = some a ∧ ¬ Good a ∧
      (∀ (j : Nat) b, j < i → (answers w₁ port cmp attrs)[j]? = some b → Good b) ∧
      (∃ r, (Prog.run exec (getAttrs name attrs) w).1 = .ok r ∧ r.success = false ∧
        r.data = (a.bind (·.data)).map .raw) ∧
      (Prog.run exec (getAttrs name attrs) w).2.log = (asked w₁ port cmp attrs).take (i + 1)) := by
  have hrun : Prog.run exec (getAttrs name attrs) w = Prog.run exec (getLoop port cmp attrs []) w₁ := by
    unfold getAttrs
    rw [Prog.run_bind, hn]
    simp only [Prog.andThen_ok, hp]
  obtain ⟨k, hk, _⟩ := run_nameToCmp name w
  rw [hn] at hk
  simp only at hk
  have hw₁ : w₁.log = [] := by rw [hk]; exact hw
  rw [hrun]
  have hlen := answers_length w₁ port cmp attrs
  rcases getLoop_spec port cmp attrs [] w₁ with ⟨h1, h2, h3⟩ | ⟨i, a, h1, h2, h3, h4, h5⟩
  · left
    refine ⟨h1, ⟨_, h2, ?_, ?_⟩, by rw [h3, hw₁]; rfl⟩
    · intro x
      rw [foldl_set_mem]
      have : (attrs.zip (answers w₁ port cmp attrs)).map (·.1) = attrs := by
        rw [List.map_fst_zip]; omega
      rw [this]
      simp [Dict.mem]
    · intro x v hv
      rcases foldl_set_get _ _ _ _ hv with ⟨i, a, g1, g2, g3⟩ | ⟨_, g⟩
      · rw [List.getElem?_zip_eq_some] at g1
        obtain ⟨y, hy, _⟩ := h1 a (List.mem_of_getElem? g1.2)
        subst hy
        refine ⟨i, y, g1.1, ?_, g1.2, g3⟩
        intro j hj hx
        have hjl : j < (answers w₁ port cmp attrs).length := by
          rw [hlen]
          exact (List.getElem?_eq_some_iff.mp hx).1
        exact g2 j _ hj (List.getElem?_zip_eq_some.mpr ⟨hx, List.getElem?_eq_getElem hjl⟩)
      · cases g
  · right
    refine ⟨i, a, h1, h2, h3, ⟨_, h4, ?_, ?_⟩, by rw [h5, hw₁]; rfl⟩
    · cases a with
      | none => rfl
      | some a =>
        cases hs : a.success with
        | true => exact absurd ⟨a, rfl, hs⟩ h2
        | false => simp [ofAns, hs]
    · cases a <;> rfl

/-- Two attributes, and one that the driver refuses. -/
def pGet : Env where
  daemon := fun _ => some pDaemon
  drv := fun _ _ => some pDrv
  ans := fun _ q =>
    match q.cmd with
    | .getAttr "x" => some { success := true, data := some (.val 1) }
    | .getAttr "y" => some { success := true, data := some (.val 2) }
    | _ => some { success := false }

example : Prog.run exec (nameToCmp "d:(a,1)") pGet = (.ok (.inr (pCmp, pDrv)), { pGet with k := 2 }) :=
  rfl

example : (Prog.run exec (getAttrs "d:(a,1)" ["x", "y"]) pGet).1 =
    .ok ⟨true, .retrieved, some (.attrs [("x", some (.val 1)), ("y", some (.val 2))])⟩ := rfl

example : ((Prog.run exec (getAttrs "d:(a,1)" ["x", "z", "y"]) pGet).1 =
      .ok ⟨false, .fromDriver, none⟩) ∧
    (Prog.run exec (getAttrs "d:(a,1)" ["x", "z", "y"]) pGet).2.log.length = 2 := ⟨rfl, rfl⟩

/-- **C63**: in all other cases `passata get` fails, without asking any driver. -/
theorem C63_get_other (w : Env) (hw : w.log = []) (name : String) (attrs : List String)
    (r : PReply) (hr : (Prog.run exec (getAttrs name attrs) w).1 = .ok r)
    (hno : ∀ cmp drv, (Prog.run exec (nameToCmp name) w).1 = .ok (.inr (cmp, drv)) → drv.port = none) :
    r.success = false ∧ (Prog.run exec (getAttrs name attrs) w).2.log = [] := by
  obtain ⟨k, h1, _, h3, _⟩ := run_nameToCmp name w
  unfold getAttrs at hr ⊢
  rw [Prog.run_bind] at hr ⊢
  rcases hn : Prog.run exec (nameToCmp name) w with ⟨r', w'⟩
  rw [hn] at h1 h3 hno hr
  simp only at h1 h3 hno
  subst h1
  match r', h3, hno, hr with
  | .error e, _, _, hr => cases hr
  | .ok (.inl rep), h3, _, hr =>
    cases hr
    exact ⟨h3 _ rfl, hw⟩
  | .ok (.inr (cmp, drv)), _, hno, hr =>
    have := hno cmp drv rfl
    simp only [Prog.andThen_ok, this] at hr ⊢
    cases hr
    exact ⟨rfl, hw⟩

end Tomato.Props
