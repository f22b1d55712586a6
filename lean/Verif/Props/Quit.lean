import Verif.Quit
import Verif.Props.Iface21
import Mathlib.Tactic.ByContra

/-!
# The end of a driver process (C119)
-/

namespace Tomato.Props
open Tomato.I21 (Ev Item Dev Choice Cmd WPc CPc)
open Tomato.Quit

/-! ## Specification -/

/-- The events of one device. -/
def devEvs (i : Nat) (h : List QEv) : List Ev :=
  h.filterMap (fun e => match e with | .dev j e => if j = i then some e else none | _ => none)

/-- The number of devices which have been created. -/
def madeQ (h : List QEv) : Nat := h.countP (· == .made)

/-- All that happens on a device from its first reset on. -/
def sinceReset (i : Nat) (h : List QEv) : List Ev := (devEvs i h).dropWhile (· ≠ .wasReset)

/-- A device which does nothing may be reset or stopped again, and has no data to hand out. -/
def Idle (e : Ev) : Prop := e = .wasReset ∨ e = .stopped ∨ e = .fetched none ∨ e = .replied none

/-- Can the main thread go on? -/
def CanGo (fork : Bool) (s : St) : Prop := (act fork s .go).isSome = true

/-- The device the main thread is carrying out a command on. -/
def busy : Pc → Option Nat
  | .cmd i _ | .quitStop i _ | .quitReset i _ | .exitReset i _ => some i
  | _ => none

/-- Steps which end the process: of the main thread, or of the worker it waits for. -/
def Counts (s : St) : Act → Prop
  | .worker i _ => busy s.pc = some i
  | _ => True

instance (s : St) (a : Act) : Decidable (Counts s a) := by
  cases a <;> unfold Counts <;> infer_instance

/-- The number of steps which count, in a run. -/
def counted (fork : Bool) (s : St) : List Act → Nat
  | [] => 0
  | a :: as =>
    match act fork s a with
    | none => 0
    | some (s', _) => (if Counts s a then 1 else 0) + counted fork s' as

/-- The worker of the device which the main thread is occupied with goes on only if the main thread waits for it. -/
def Prompt (fork : Bool) (s : St) : List Act → Prop
  | [] => True
  | a :: as =>
    (∀ i c, a = .worker i c → busy s.pc = some i → ¬ CanGo fork s) ∧
      ∀ s' es, act fork s a = some (s', es) → Prompt fork s' as

/-! ## Lemmas -/

theorem devEvs_append (i : Nat) (a b : List QEv) : devEvs i (a ++ b) = devEvs i a ++ devEvs i b := by
  simp [devEvs]

theorem devEvs_self (i : Nat) (es : List Ev) : devEvs i (es.map (.dev i)) = es := by
  induction es with
  | nil => rfl
  | cons e es ih => simp only [devEvs] at ih; simp [devEvs, ih]

theorem devEvs_other {i j : Nat} (h : j ≠ i) (es : List Ev) : devEvs i (es.map (.dev j)) = [] := by
  induction es with
  | nil => rfl
  | cons e es ih => simp only [devEvs] at ih; simp [devEvs, h, ih]

theorem mem_devEvs {i : Nat} {e : Ev} {h : List QEv} : e ∈ devEvs i h ↔ .dev i e ∈ h := by
  unfold devEvs
  rw [List.mem_filterMap]
  constructor
  · rintro ⟨x, hx, h1⟩
    cases x <;> simp at h1
    obtain ⟨rfl, rfl⟩ := h1
    exact hx
  · intro hx
    exact ⟨_, hx, by simp⟩

theorem madeQ_append (a b : List QEv) : madeQ (a ++ b) = madeQ a + madeQ b := by
  simp [madeQ]

theorem madeQ_map (i : Nat) (es : List Ev) : madeQ (es.map (.dev i)) = 0 := by
  simp [madeQ, List.countP_eq_zero]

/-- How far a command may be. -/
def okC : Pc → CPc → Bool
  | .quitStop _ _, .idle | .quitStop _ _, .gLock | .quitStop _ _, .gRead | .quitStop _ _, .gClear _
  | .quitStop _ _, .gRet _ => true
  | .quitStop _ _, _ => false
  | .quitReset _ _, .idle | .quitReset _ _, .rJoin _ => true
  | .quitReset _ _, _ => false
  | .exitReset _ _, .idle | .exitReset _ _, .rJoin _ => true
  | .exitReset _ _, _ => false
  | _, _ => true

/-- The state while the process exists. -/
structure QInv (h : List QEv) (s : St) : Prop where
  len : madeQ h = s.devs.length
  inv : ∀ i d, s.devs[i]? = some d → Inv (devEvs i h) d
  idle : ∀ (i : Nat) (d : Dev), s.devs[i]? = some d → d.cpc ≠ .idle → busy s.pc = some i
  low : ∀ i, s.devs.length ≤ i → devEvs i h = []
  join : ∀ (i : Nat) (d : Dev) (r : Bool), s.devs[i]? = some d → d.cpc = .rJoin r → d.doRun = false
  ok : ∀ (i : Nat) (d : Dev), s.devs[i]? = some d → busy s.pc = some i → okC s.pc d.cpc = true

theorem onDev_some {s s' : St} {i : Nat} {pc : Pc} {f : Dev → Option (Dev × List Ev)} {es : List QEv}
    (h : onDev s i pc f = some (s', es)) :
    ∃ d d' es', s.devs[i]? = some d ∧ f d = some (d', es') ∧ es = es'.map (.dev i) ∧
      s' = { s with devs := s.devs.set i d', pc := pc } := by
  unfold onDev at h
  split at h
  · cases h
  · next d hd =>
    split at h
    · cases h
    · next d' es' he =>
      cases h
      exact ⟨d, d', es', hd, he, rfl, rfl⟩

/-- A step of one device. -/
theorem QInv.dev {h : List QEv} {s : St} (hi : QInv h s) {i : Nat} {d d' : Dev} {es : List Ev} {pc : Pc}
    (hd : s.devs[i]? = some d) (h1 : Inv (devEvs i h ++ es) d')
    (h2 : ∀ (j : Nat) (d : Dev), j ≠ i → s.devs[j]? = some d → d.cpc ≠ .idle → busy pc = some j)
    (h3 : d'.cpc ≠ .idle → busy pc = some i) (h4 : ∀ r, d'.cpc = .rJoin r → d'.doRun = false)
    (h5 : ∀ (j : Nat) (d : Dev), j ≠ i → s.devs[j]? = some d → busy pc = some j → okC pc d.cpc = true)
    (h6 : busy pc = some i → okC pc d'.cpc = true) :
    QInv (h ++ es.map (.dev i)) { s with devs := s.devs.set i d', pc := pc } := by
  have hlt : i < s.devs.length := (List.getElem?_eq_some_iff.mp hd).1
  constructor
  · simp only [List.length_set]
    rw [madeQ_append, madeQ_map, hi.len]
    rfl
  · intro j x hx
    rw [List.getElem?_set] at hx
    split at hx
    · next e =>
      subst e
      injection hx with hx
      subst hx
      rw [devEvs_append, devEvs_self]
      exact h1
    · next e =>
      rw [devEvs_append, devEvs_other e, List.append_nil]
      exact hi.inv j x hx
  · intro j x hx hc
    rw [List.getElem?_set] at hx
    split at hx
    · next e =>
      subst e
      injection hx with hx
      subst hx
      exact h3 hc
    · next e => exact h2 j x (Ne.symm e) hx hc
  · intro j hj
    simp only [List.length_set] at hj
    rw [devEvs_append, devEvs_other (by omega), hi.low j hj]
    rfl
  · intro j x r hx hc
    rw [List.getElem?_set] at hx
    split at hx
    · next e =>
      subst e
      injection hx with hx
      subst hx
      exact h4 r hc
    · next e => exact hi.join j x r hx hc
  · intro j x hx hb
    rw [List.getElem?_set] at hx
    split at hx
    · next e =>
      subst e
      injection hx with hx
      subst hx
      exact h6 hb
    · next e => exact h5 j x (Ne.symm e) hx hb

theorem wstep_cpc {d d' : Dev} {c : Choice} {es : List Ev} (h : I21.wstep d c = some (d', es)) :
    d'.cpc = d.cpc ∧ (d.doRun = false → d'.doRun = false) := by
  obtain ⟨q, r, dr, dt, da, l, lk, w, cp⟩ := d
  unfold I21.wstep at h
  simp only at h
  split at h
  all_goals (try split at h)
  all_goals first
    | (cases h; done)
    | skip
  all_goals (injection h with h; injection h with h1 h2; subst h1)
  all_goals simp

theorem cstep_join {d d' : Dev} {es : List Ev} (h : I21.cstep d = some (d', es)) (r : Bool) :
    d'.cpc ≠ .rJoin r := by
  obtain ⟨q, rr, dr, dt, da, l, lk, w, cp⟩ := d
  unfold I21.cstep at h
  simp only at h
  split at h
  all_goals (try split at h)
  all_goals first
    | (cases h; done)
    | skip
  all_goals (injection h with h; injection h with h1 h2; subst h1)
  all_goals simp [I21.afterReset]

theorem okC_cstep {d d' : Dev} {es : List Ev} {pc : Pc} (hok : okC pc d.cpc = true)
    (h : I21.cstep d = some (d', es)) : okC pc d'.cpc = true := by
  obtain ⟨q, rr, dr, dt, da, l, lk, w, cp⟩ := d
  unfold I21.cstep at h
  simp only at h hok
  split at h
  all_goals (try split at h)
  all_goals first
    | (cases h; done)
    | skip
  all_goals (injection h with h; injection h with h1 h2; subst h1)
  all_goals (cases pc <;> simp_all [okC, I21.afterReset])

theorem cbegin_join {d : Dev} {c : Cmd} {r : Bool} (hc : d.cpc = .idle)
    (h : (I21.cbegin d c).1.cpc = .rJoin r) : (I21.cbegin d c).1.doRun = false := by
  cases c <;> simp_all [I21.cbegin]
  split at h <;> simp_all

theorem inv_dead {h : List Ev} {d : Dev} (hi : Inv h d) (hq : d.wpc = .top) (hr : d.running = none)
    : Inv h { d with wpc := .dead } := by
  obtain ⟨h1, h2, h8, h3, h4, h5, h6, h7⟩ := hi
  obtain ⟨q, r, dr, dt, da, l, lk, w, cp⟩ := d
  simp only at h1 h2 h8 h3 h4 h5 h6 h7 hq hr
  subst hq
  constructor
  all_goals simp_all [wItem, wBegun, wHolds, inCache, beingStored, wRunning]

/-- What `reset` at exit does. -/
theorem exitStep_some {fork : Bool} {d d' : Dev} {es : List Ev} (h : exitStep fork d = some (d', es)) :
    ∃ d1, I21.cstep d = some (d1, es) ∧ (d' = d1 ∨ d' = { d1 with wpc := .dead }) := by
  unfold exitStep at h
  split at h
  · cases h
  · next d1 es1 he =>
    split at h
    · cases h; exact ⟨_, he, .inl rfl⟩
    · cases h; exact ⟨_, he, .inr rfl⟩

theorem free_iff {s : St} {i : Nat} : free s i = true ↔ ∀ d, s.devs[i]? = some d → d.cpc = .idle := by
  unfold free
  cases h : s.devs[i]? <;> simp

/-- A step of a worker. -/
theorem QInv.worker {h : List QEv} {s : St} (hi : QInv h s) {i : Nat} {c : Choice} {s' : St} {es : List QEv}
    (ha : onDev s i s.pc (fun d => I21.wstep d c) = some (s', es)) : QInv (h ++ es) s' := by
  obtain ⟨d, d', es', hd, hf, rfl, rfl⟩ := onDev_some ha
  have hc := wstep_cpc hf
  refine hi.dev hd (inv_wstep (hi.inv i d hd) hf) (fun j x _ => hi.idle j x) ?_ ?_ (fun j x _ => hi.ok j x) ?_
  · rw [hc.1]; exact hi.idle i d hd
  · intro r hr
    rw [hc.1] at hr
    exact hc.2 (hi.join i d r hd hr)
  · rw [hc.1]; exact hi.ok i d hd

/-- The main thread goes on with its command. -/
theorem QInv.cont {h : List QEv} {s : St} (hi : QInv h s) {i : Nat} {s' : St} {es : List QEv}
    (hb : busy s.pc = some i) (ha : onDev s i s.pc I21.cstep = some (s', es)) : QInv (h ++ es) s' := by
  obtain ⟨d, d', es', hd, hf, rfl, rfl⟩ := onDev_some ha
  refine hi.dev hd (inv_cstep (hi.inv i d hd) hf) (fun j x _ => hi.idle j x) (fun _ => hb)
    (fun r hr => absurd hr (cstep_join hf r)) (fun j x _ => hi.ok j x) ?_
  exact fun _ => okC_cstep (hi.ok i d hd hb) hf

/-- ... with its reset at exit. -/
theorem QInv.exitCont {h : List QEv} {s : St} (hi : QInv h s) {i : Nat} {rest : List Nat} {fork : Bool} {s' : St}
    {es : List QEv} (hp : s.pc = .exitReset i rest) (ha : onDev s i s.pc (exitStep fork) = some (s', es)) :
    QInv (h ++ es) s' := by
  obtain ⟨d, d', es', hd, hf, rfl, rfl⟩ := onDev_some ha
  obtain ⟨d1, h1, h2⟩ := exitStep_some hf
  have hb : busy s.pc = some i := by rw [hp]; rfl
  have hok := hi.ok i d hd hb
  rw [hp] at hok
  have hd1 : d1.wpc = .top ∧ d1.running = none ∧ d1.cpc = .idle := by
    revert h1 hok
    obtain ⟨q, rr, dr, dt, da, l, lk, w, cp⟩ := d
    cases cp <;> simp [okC, I21.cstep]
    intros; subst_vars; simp [I21.afterReset]
  have hinv := inv_cstep (hi.inv i d hd) h1
  have hd' : Inv (devEvs i h ++ es') d' ∧ d'.cpc = .idle := by
    rcases h2 with rfl | rfl
    · exact ⟨hinv, hd1.2.2⟩
    · exact ⟨inv_dead hinv hd1.1 hd1.2.1, hd1.2.2⟩
  refine hi.dev hd hd'.1 (fun j x _ => hi.idle j x) (fun _ => hb) ?_ (fun j x _ => hi.ok j x) ?_
  · intro r hr; rw [hd'.2] at hr; cases hr
  · intro _; rw [hp, hd'.2]; rfl

/-- The main thread begins a command. -/
theorem QInv.begin {h : List QEv} {s : St} (hi : QInv h s) {i : Nat} {pc : Pc} {c : Cmd} {s' : St} {es : List QEv}
    (hfree : ∀ (j : Nat) (d : Dev), s.devs[j]? = some d → d.cpc = .idle) (hb : busy pc = some i)
    (hok : ∀ d, d.cpc = .idle → okC pc (I21.cbegin d c).1.cpc = true)
    (ha : onDev s i pc (fun d => some (I21.cbegin d c)) = some (s', es)) : QInv (h ++ es) s' := by
  obtain ⟨d, d', es', hd, hf, rfl, rfl⟩ := onDev_some ha
  injection hf with hf
  have hidle := hfree i d hd
  have hinv := inv_cbegin c (hi.inv i d hd) hidle
  have e1 : d' = (I21.cbegin d c).1 := by rw [hf]
  have e2 : es' = (I21.cbegin d c).2 := by rw [hf]
  subst e1; subst e2
  refine hi.dev hd hinv (fun j x _ hx hc => absurd (hfree j x hx) hc) (fun _ => hb)
    (fun r hr => cbegin_join hidle hr) (fun j x hj hx hb' => ?_) (fun _ => hok d hidle)
  rw [hb] at hb'
  injection hb' with e
  exact absurd e.symm hj

/-- The main thread does something else. -/
theorem QInv.pc {h : List QEv} {s : St} (hi : QInv h s) {pc : Pc} {es : List QEv} (m : Dict Nat Nat)
    (hfree : ∀ (j : Nat) (d : Dev), s.devs[j]? = some d → d.cpc = .idle) (hb : busy pc = none)
    (hes : ∀ i, devEvs i es = []) (hm : madeQ es = 0) : QInv (h ++ es) { s with devmap := m, pc := pc } := by
  constructor
  · simp only
    rw [madeQ_append, hm, hi.len]; rfl
  · intro i d hd
    rw [devEvs_append, hes, List.append_nil]
    exact hi.inv i d hd
  · intro i d hd hc
    exact absurd (hfree i d hd) hc
  · intro i hl
    rw [devEvs_append, hes, List.append_nil]
    exact hi.low i hl
  · exact hi.join
  · intro i d _ h1
    simp only [hb] at h1
    cases h1

theorem QInv.free {h : List QEv} {s : St} (hi : QInv h s) (hf : ∀ i, busy s.pc = some i → Quit.free s i = true) :
    ∀ (j : Nat) (d : Dev), s.devs[j]? = some d → d.cpc = .idle := by
  intro j d hd
  by_contra hc
  exact hc (free_iff.mp (hf j (hi.idle j d hd hc)) d hd)

theorem QInv.go {fork : Bool} {h : List QEv} {s : St} (hi : QInv h s) {s' : St} {es : List QEv}
    (ha : go fork s = some (s', es)) : QInv (h ++ es) s' := by
  unfold Quit.go at ha
  split at ha
  · cases ha
  · next i drop hp =>
    split at ha
    · next hf =>
      have hfree := hi.free (fun j hj => by rw [hp] at hj; cases hj; exact hf)
      split at ha <;> cases ha
      · exact hi.pc s.devmap hfree rfl (fun _ => rfl) rfl
      · exact hi.pc _ hfree rfl (fun _ => rfl) rfl
    · exact hi.cont (by rw [hp]; rfl) ha
  · next hp =>
    cases ha
    exact hi.pc s.devmap (hi.free (fun j hj => by rw [hp] at hj; cases hj)) rfl (fun _ => rfl) rfl
  · next i rest hp =>
    exact hi.begin (hi.free (fun j hj => by rw [hp] at hj; cases hj)) rfl (fun _ _ => rfl) ha
  · next i rest hp =>
    split at ha
    · next hf =>
      exact hi.begin (hi.free (fun j hj => by rw [hp] at hj; cases hj; exact hf)) rfl (fun _ _ => rfl) ha
    · exact hi.cont (by rw [hp]; rfl) ha
  · next i rest hp =>
    split at ha
    · next hf =>
      cases ha
      exact hi.pc s.devmap (hi.free (fun j hj => by rw [hp] at hj; cases hj; exact hf)) rfl (fun _ => rfl) rfl
    · exact hi.cont (by rw [hp]; rfl) ha
  · next hp =>
    cases ha
    exact hi.pc s.devmap (hi.free (fun j hj => by rw [hp] at hj; cases hj)) rfl (fun _ => rfl) rfl
  · next i rest hp =>
    exact hi.begin (hi.free (fun j hj => by rw [hp] at hj; cases hj)) rfl (fun _ _ => rfl) ha
  · next i rest hp =>
    split at ha
    · next hf =>
      cases ha
      exact hi.pc s.devmap (hi.free (fun j hj => by rw [hp] at hj; cases hj; exact hf)) rfl (fun _ => rfl) rfl
    · exact hi.exitCont hp ha
  · cases ha

theorem QInv.step {fork : Bool} {h : List QEv} {s : St} (hi : QInv h s) {a : Act} {s' : St} {es : List QEv}
    (ha : act fork s a = some (s', es)) : QInv (h ++ es) s' := by
  cases a with
  | worker i c =>
    simp only [act] at ha
    split at ha
    · cases ha
    · exact hi.worker ha
  | cmd k c =>
    simp only [act] at ha
    split at ha
    · next hp =>
      have hfree := hi.free (fun j hj => by rw [hp] at hj; cases hj)
      split at ha
      · cases ha; simpa using hi
      · exact hi.begin hfree rfl (fun _ _ => rfl) ha
    · cases ha
  | teardown k =>
    simp only [act] at ha
    split at ha
    · next hp =>
      have hfree := hi.free (fun j hj => by rw [hp] at hj; cases hj)
      split at ha
      · cases ha; simpa using hi
      · exact hi.begin hfree rfl (fun _ _ => rfl) ha
    · cases ha
  | register k =>
    simp only [act] at ha
    split at ha
    · next hp =>
      cases ha
      have hnew : ∀ (i : Nat) (d : Dev), (s.devs ++ [Dev.init])[i]? = some d →
          s.devs[i]? = some d ∨ i = s.devs.length ∧ d = Dev.init := by
        intro i d hd
        rcases Nat.lt_trichotomy i s.devs.length with h1 | h1 | h1
        · rw [List.getElem?_append_left h1] at hd; exact .inl hd
        · subst h1; simp at hd; exact .inr ⟨rfl, hd.symm⟩
        · rw [List.getElem?_append_right (by omega)] at hd
          rw [List.getElem?_eq_none (by simp; omega)] at hd
          cases hd
      have hm : ∀ i, devEvs i (h ++ [QEv.made]) = devEvs i h := by
        intro i; rw [devEvs_append]; exact List.append_nil _
      constructor
      · rw [madeQ_append, hi.len]; simp [madeQ]
      · intro i d hd
        rw [hm]
        rcases hnew i d hd with h1 | ⟨rfl, rfl⟩
        · exact hi.inv i d h1
        · rw [hi.low _ (Nat.le_refl _)]
          exact inv_hist .init
      · intro i d hd hc
        rcases hnew i d hd with h1 | ⟨rfl, rfl⟩
        · exact hi.idle i d h1 hc
        · exact absurd rfl hc
      · intro i hl
        rw [hm]
        exact hi.low i (by simp at hl; omega)
      · intro i d r hd hc
        rcases hnew i d hd with h1 | ⟨rfl, rfl⟩
        · exact hi.join i d r h1 hc
        · cases hc
      · intro i d _ hb
        simp only [hp] at hb
        cases hb
    · cases ha
  | stop =>
    simp only [act] at ha
    split at ha
    · next hp =>
      cases ha
      exact hi.pc s.devmap (hi.free (fun j hj => by rw [hp] at hj; cases hj)) rfl (fun _ => rfl) rfl
    · cases ha
  | die =>
    simp only [act] at ha
    split at ha
    · next hp =>
      cases ha
      exact hi.pc s.devmap (hi.free (fun j hj => by rw [hp] at hj; cases hj)) rfl (fun _ => rfl) rfl
    · cases ha
  | go => exact hi.go ha

theorem QInv.init : QInv [] {} := by
  constructor <;> simp [madeQ, devEvs]

theorem QInv.run {fork : Bool} {h : List QEv} {s : St} (hi : QInv h s) (as : List Act) {s' : St} {es : List QEv}
    (hr : run fork s as = some (s', es)) : QInv (h ++ es) s' := by
  induction as generalizing h s es with
  | nil => cases hr; simpa using hi
  | cons a as ih =>
    simp only [Quit.run] at hr
    split at hr
    · cases hr
    · next s1 e1 h1 =>
      split at hr
      · cases hr
      · next s2 e2 h2 =>
        cases hr
        rw [← List.append_assoc]
        exact ih (hi.step h1) h2


/-! ## After the main loop -/

/-- Which devices are still to be reset at exit. -/
def Pending : Pc → Nat → Prop
  | .exit rest, i => i ∈ rest
  | .exitReset j rest, i => i = j ∨ i ∈ rest
  | .gone, _ => False
  | _, _ => True

/-- The main loop has been left. -/
def Ending : Pc → Bool
  | .serving | .cmd _ _ => false
  | _ => true

/-- A device which has been reset, and does nothing. -/
structure AtRest (d : Dev) : Prop where
  queue : d.queue = []
  data : d.data = none
  wpc : d.wpc = .top ∨ d.wpc = .get ∨ d.wpc = .exit ∨ d.wpc = .dead
  cpc : d.cpc = .idle ∨ d.cpc = .gLock ∨ d.cpc = .gRead ∨ d.cpc = .gClear none ∨ d.cpc = .gRet none ∨
    ∃ r, d.cpc = .rJoin r

theorem AtRest.worker {d d' : Dev} {c : Choice} {es : List Ev} (hr : AtRest d)
    (h : I21.wstep d c = some (d', es)) : AtRest d' ∧ es = [] := by
  obtain ⟨h1, h2, h3, h4⟩ := hr
  obtain ⟨q, rr, dr, dt, da, l, lk, w, cp⟩ := d
  simp only at h1 h2 h3 h4
  subst h1; subst h2
  rcases h3 with rfl | rfl | rfl | rfl
  · simp only [I21.wstep] at h
    split at h <;> cases h <;> exact ⟨⟨rfl, rfl, by simp, h4⟩, rfl⟩
  · simp only [I21.wstep] at h
    cases h; exact ⟨⟨rfl, rfl, by simp, h4⟩, rfl⟩
  · simp only [I21.wstep] at h
    cases h; exact ⟨⟨rfl, rfl, by simp, h4⟩, rfl⟩
  · simp only [I21.wstep] at h
    cases h

theorem AtRest.cont {d d' : Dev} {es : List Ev} (hr : AtRest d)
    (h : I21.cstep d = some (d', es)) : AtRest d' ∧ ∀ e ∈ es, Idle e := by
  obtain ⟨h1, h2, h3, h4⟩ := hr
  obtain ⟨q, rr, dr, dt, da, l, lk, w, cp⟩ := d
  simp only at h1 h2 h3 h4
  subst h1; subst h2
  rcases h4 with rfl | rfl | rfl | rfl | rfl | ⟨r, rfl⟩
  · simp [I21.cstep] at h
  · simp only [I21.cstep] at h
    split at h
    · cases h; exact ⟨⟨rfl, rfl, h3, by simp⟩, by simp⟩
    · cases h
  · simp only [I21.cstep] at h
    cases h; exact ⟨⟨rfl, rfl, h3, by simp⟩, by simp [Idle]⟩
  · simp only [I21.cstep] at h
    cases h; exact ⟨⟨rfl, rfl, h3, by simp⟩, by simp⟩
  · simp only [I21.cstep] at h
    cases h; exact ⟨⟨rfl, rfl, h3, by simp⟩, by simp [Idle]⟩
  · simp only [I21.cstep] at h
    split at h
    · cases h; exact ⟨⟨rfl, rfl, .inl rfl, .inl rfl⟩, by simp [Idle]⟩
    · cases h

theorem AtRest.exitCont {fork : Bool} {d d' : Dev} {es : List Ev} (hr : AtRest d)
    (h : exitStep fork d = some (d', es)) : AtRest d' ∧ ∀ e ∈ es, Idle e := by
  obtain ⟨d1, h1, h2⟩ := exitStep_some h
  have := hr.cont h1
  rcases h2 with rfl | rfl
  · exact this
  · exact ⟨⟨this.1.queue, this.1.data, by simp, this.1.cpc⟩, this.2⟩

theorem AtRest.begin {d : Dev} (c : Cmd) (hc : c = .stop ∨ ∃ r, c = .reset r) (hr : AtRest d) :
    AtRest (I21.cbegin d c).1 ∧ ∀ e ∈ (I21.cbegin d c).2, Idle e := by
  rcases hc with rfl | ⟨r, rfl⟩
  · exact ⟨⟨hr.queue, hr.data, hr.wpc, by simp [I21.cbegin]⟩, by simp [I21.cbegin, Idle]⟩
  · exact ⟨⟨hr.queue, hr.data, hr.wpc, by simp [I21.cbegin]⟩, by simp [I21.cbegin]⟩

/-- A reset makes a device rest. -/
theorem resting_cont {d d' : Dev} {es : List Ev} (h : I21.cstep d = some (d', es)) (hm : .wasReset ∈ es) :
    AtRest d' ∧ es = [.wasReset] := by
  obtain ⟨q, rr, dr, dt, da, l, lk, w, cp⟩ := d
  unfold I21.cstep at h
  simp only at h
  split at h
  all_goals (try split at h)
  all_goals first
    | (cases h; done)
    | skip
  all_goals (injection h with h; injection h with h1 h2; subst h1; subst h2)
  all_goals first
    | exact ⟨⟨rfl, rfl, .inl rfl, .inl rfl⟩, rfl⟩
    | (exfalso; revert hm; simp)

theorem no_reset_worker {d d' : Dev} {c : Choice} {es : List Ev} (h : I21.wstep d c = some (d', es)) :
    .wasReset ∉ es := by
  obtain ⟨q, rr, dr, dt, da, l, lk, w, cp⟩ := d
  unfold I21.wstep at h
  simp only at h
  split at h
  all_goals (try split at h)
  all_goals first
    | (cases h; done)
    | skip
  all_goals (injection h with h; injection h with h1 h2; subst h2)
  all_goals simp

theorem no_reset_begin (d : Dev) (c : Cmd) : .wasReset ∉ (I21.cbegin d c).2 := by
  cases c <;> simp only [I21.cbegin]
  all_goals (try split)
  all_goals simp

/-- What holds after the main loop; `b`: what has happened since. -/
structure EInv (n : Nat) (b : List QEv) (s : St) : Prop where
  len : s.devs.length = n
  ending : Ending s.pc = true
  pend : ∀ i, i < n → Pending s.pc i ∨ .dev i .wasReset ∈ b
  wait : ∀ i rest d, s.pc = .exitReset i rest → s.devs[i]? = some d → d.cpc = .idle → .dev i .wasReset ∈ b
  rest : ∀ i d, .dev i .wasReset ∈ b → s.devs[i]? = some d → AtRest d
  quiet : ∀ i, ∀ e ∈ sinceReset i b, Idle e

theorem sinceReset_append (i : Nat) (a b : List QEv) :
    sinceReset i (a ++ b) =
      if .dev i .wasReset ∈ a then sinceReset i a ++ devEvs i b else sinceReset i b := by
  unfold sinceReset
  rw [devEvs_append]
  by_cases h : QEv.dev i .wasReset ∈ a
  · rw [if_pos h]
    have hm := mem_devEvs.mpr h
    generalize devEvs i a = x at hm
    induction x with
    | nil => cases hm
    | cons y ys ih =>
      by_cases hy : y = .wasReset
      · subst hy; simp
      · have : Ev.wasReset ∈ ys := by
          rcases List.mem_cons.mp hm with h1 | h1
          · exact absurd h1.symm hy
          · exact h1
        rw [List.cons_append, List.dropWhile_cons_of_pos (by simpa using hy),
          List.dropWhile_cons_of_pos (by simpa using hy)]
        exact ih this
  · rw [if_neg h]
    have hm : Ev.wasReset ∉ devEvs i a := fun h' => h (mem_devEvs.mp h')
    generalize devEvs i a = x at hm
    induction x with
    | nil => rfl
    | cons y ys ih =>
      simp only [List.mem_cons, not_or] at hm
      rw [List.cons_append, List.dropWhile_cons_of_pos (by simpa using Ne.symm hm.1)]
      exact ih hm.2

/-- A step of one device after the main loop. -/
theorem EInv.dev {n : Nat} {b : List QEv} {s : St} (he : EInv n b s) {i : Nat} {d d' : Dev} {es : List Ev} {pc : Pc}
    (hd : s.devs[i]? = some d) (hp : Ending pc = true) (h1 : ∀ j, Pending s.pc j → Pending pc j)
    (h2 : AtRest d → AtRest d' ∧ ∀ e ∈ es, Idle e)
    (h3 : Ev.wasReset ∈ es → AtRest d' ∧ es = [.wasReset])
    (h4 : ∀ j rest x, pc = .exitReset j rest → (s.devs.set i d')[j]? = some x → x.cpc = .idle →
      .dev j .wasReset ∈ b ++ es.map (.dev i)) :
    EInv n (b ++ es.map (.dev i)) { s with devs := s.devs.set i d', pc := pc } := by
  have hlt : i < s.devs.length := (List.getElem?_eq_some_iff.mp hd).1
  have hmem : ∀ j e, QEv.dev j e ∈ es.map (.dev i) ↔ j = i ∧ e ∈ es := by
    intro j e
    simp only [List.mem_map, QEv.dev.injEq]
    constructor
    · rintro ⟨x, hx, rfl, rfl⟩; exact ⟨rfl, hx⟩
    · rintro ⟨rfl, hx⟩; exact ⟨e, hx, rfl, rfl⟩
  constructor
  · simp only [List.length_set]; exact he.len
  · exact hp
  · intro j hj
    rcases he.pend j hj with h | h
    · exact .inl (h1 j h)
    · exact .inr (List.mem_append_left _ h)
  · exact h4
  · intro j x hx hj
    simp only at hj
    rw [List.getElem?_set] at hj
    split at hj
    · next e =>
      subst e
      injection hj with hj
      subst hj
      rcases List.mem_append.mp hx with h | h
      · exact (h2 (he.rest _ _ h hd)).1
      · exact (h3 ((hmem _ _).mp h).2).1
    · next e =>
      rcases List.mem_append.mp hx with h | h
      · exact he.rest j x h hj
      · exact absurd ((hmem _ _).mp h).1.symm e
  · intro j e hm
    rw [sinceReset_append] at hm
    split at hm
    · next h =>
      rcases List.mem_append.mp hm with hm | hm
      · exact he.quiet j e hm
      · obtain ⟨rfl, hm⟩ := (hmem _ _).mp (mem_devEvs.mp hm)
        exact (h2 (he.rest _ _ h hd)).2 e (by assumption)
    · by_cases hj : j = i
      · subst hj
        unfold sinceReset at hm
        rw [devEvs_self] at hm
        by_cases hr : Ev.wasReset ∈ es
        · rw [(h3 hr).2] at hm
          simp at hm
          exact .inl hm
        · have : es.dropWhile (· ≠ Ev.wasReset) = [] := by
            clear h2 h3 h4 hmem hm
            induction es with
            | nil => rfl
            | cons y ys ih =>
              simp only [List.mem_cons, not_or] at hr
              rw [List.dropWhile_cons_of_pos (by simpa using Ne.symm hr.1)]
              exact ih hr.2
          rw [this] at hm
          cases hm
      · unfold sinceReset at hm
        rw [devEvs_other (Ne.symm hj)] at hm
        cases hm

/-- The main thread does something else. -/
theorem EInv.pc {n : Nat} {b : List QEv} {s : St} (he : EInv n b s) {pc : Pc} {es : List QEv}
    (hp : Ending pc = true) (h1 : ∀ j, j < n → Pending s.pc j → Pending pc j ∨ .dev j .wasReset ∈ b)
    (hes : ∀ i, devEvs i es = []) (hb : busy pc = none) : EInv n (b ++ es) { s with pc := pc } := by
  have hmem : ∀ i e, QEv.dev i e ∉ es := by
    intro i e h
    have := mem_devEvs.mpr h
    rw [hes] at this
    cases this
  constructor
  · exact he.len
  · exact hp
  · intro i hi
    rcases he.pend i hi with h | h
    · rcases h1 i hi h with h | h
      · exact .inl h
      · exact .inr (List.mem_append_left _ h)
    · exact .inr (List.mem_append_left _ h)
  · intro i rest d hpc
    simp only at hpc
    rw [hpc] at hb
    cases hb
  · intro i d hm hd
    rcases List.mem_append.mp hm with h | h
    · exact he.rest i d h hd
    · exact absurd h (hmem _ _)
  · intro i e hm
    rw [sinceReset_append] at hm
    split at hm
    · rw [hes, List.append_nil] at hm
      exact he.quiet i e hm
    · unfold sinceReset at hm
      rw [hes] at hm
      cases hm

theorem EInv.worker {n : Nat} {b : List QEv} {s : St} (he : EInv n b s) {i : Nat} {c : Choice} {s' : St}
    {es : List QEv} (ha : onDev s i s.pc (fun d => I21.wstep d c) = some (s', es)) : EInv n (b ++ es) s' := by
  obtain ⟨d, d', es', hd, hf, rfl, rfl⟩ := onDev_some ha
  have hlt : i < s.devs.length := (List.getElem?_eq_some_iff.mp hd).1
  refine he.dev hd he.ending (fun j h => h) (fun hr => ?_) (fun h => absurd h (no_reset_worker hf)) ?_
  · obtain ⟨h1, rfl⟩ := hr.worker hf
    exact ⟨h1, by simp⟩
  · intro j rest x hp hx hc
    rw [List.getElem?_set] at hx
    split at hx
    · next e =>
      subst e
      injection hx with hx
      subst hx
      rw [(wstep_cpc hf).1] at hc
      exact List.mem_append_left _ (he.wait _ rest d hp hd hc)
    · exact List.mem_append_left _ (he.wait j rest x hp hx hc)

theorem EInv.cont {n : Nat} {b : List QEv} {s : St} (he : EInv n b s) {i : Nat} {s' : St} {es : List QEv}
    (hp : ∀ j rest, s.pc ≠ .exitReset j rest)
    (ha : onDev s i s.pc I21.cstep = some (s', es)) : EInv n (b ++ es) s' := by
  obtain ⟨d, d', es', hd, hf, rfl, rfl⟩ := onDev_some ha
  exact he.dev hd he.ending (fun j h => h) (fun hr => hr.cont hf) (fun h => resting_cont hf h)
    (fun j rest x h => absurd h (hp j rest))

theorem EInv.exitCont {n : Nat} {h b : List QEv} {s : St} (hi : QInv h s) (he : EInv n b s) {i : Nat}
    {rest : List Nat} {fork : Bool} {s' : St} {es : List QEv} (hp : s.pc = .exitReset i rest)
    (ha : onDev s i s.pc (exitStep fork) = some (s', es)) : EInv n (b ++ es) s' := by
  obtain ⟨d, d', es', hd, hf, rfl, rfl⟩ := onDev_some ha
  obtain ⟨d1, h1, h2⟩ := exitStep_some hf
  have hok := hi.ok i d hd (by rw [hp]; rfl)
  rw [hp] at hok
  have hes : es' = [.wasReset] := by
    revert h1 hok
    obtain ⟨q, rr, dr, dt, da, l, lk, w, cp⟩ := d
    cases cp <;> simp [okC, I21.cstep]
    intros; subst_vars; rfl
  refine he.dev hd he.ending (fun j h => h) (fun hr => hr.exitCont hf) (fun h => ?_) ?_
  · obtain ⟨h3, h4⟩ := resting_cont h1 h
    rcases h2 with rfl | rfl
    · exact ⟨h3, h4⟩
    · exact ⟨⟨h3.queue, h3.data, by simp, h3.cpc⟩, h4⟩
  · intro j rest' x hp' _ _
    rw [hp] at hp'
    cases hp'
    simp [hes]

theorem EInv.begin {n : Nat} {b : List QEv} {s : St} (he : EInv n b s) {i : Nat} {pc : Pc} {c : Cmd} {s' : St}
    {es : List QEv} (hc : c = .stop ∨ ∃ r, c = .reset r) (hp : Ending pc = true)
    (h1 : ∀ j, Pending s.pc j → Pending pc j)
    (h2 : ∀ j rest, pc = .exitReset j rest → j = i ∧ ∃ r, c = .reset r)
    (ha : onDev s i pc (fun d => some (I21.cbegin d c)) = some (s', es)) : EInv n (b ++ es) s' := by
  obtain ⟨d, d', es', hd, hf, rfl, rfl⟩ := onDev_some ha
  have hlt : i < s.devs.length := (List.getElem?_eq_some_iff.mp hd).1
  injection hf with hf
  have e1 : d' = (I21.cbegin d c).1 := by rw [hf]
  have e2 : es' = (I21.cbegin d c).2 := by rw [hf]
  subst e1; subst e2
  refine he.dev hd hp h1 (fun hr => hr.begin c hc) (fun h => absurd h (no_reset_begin d c)) ?_
  intro j rest x hp' hx hc'
  obtain ⟨rfl, r, rfl⟩ := h2 j rest hp'
  rw [List.getElem?_set, if_pos rfl, if_pos hlt] at hx
  injection hx with hx
  subst hx
  cases hc'

theorem EInv.step {fork : Bool} {n : Nat} {h b : List QEv} {s : St} (hi : QInv h s) (he : EInv n b s) {a : Act}
    {s' : St} {es : List QEv} (ha : act fork s a = some (s', es)) : EInv n (b ++ es) s' := by
  have hend := he.ending
  have hns : s.pc ≠ .serving := by intro h; rw [h] at hend; cases hend
  cases a with
  | worker i c =>
    simp only [act] at ha
    split at ha
    · cases ha
    · exact he.worker ha
  | cmd k c => simp only [act] at ha; rw [if_neg hns] at ha; cases ha
  | teardown k => simp only [act] at ha; rw [if_neg hns] at ha; cases ha
  | register k => simp only [act] at ha; rw [if_neg hns] at ha; cases ha
  | stop => simp only [act] at ha; rw [if_neg hns] at ha; cases ha
  | die => simp only [act] at ha; rw [if_neg hns] at ha; cases ha
  | go =>
    simp only [act] at ha
    unfold Quit.go at ha
    split at ha
    · cases ha
    · next hp => rw [hp] at hend; cases hend
    · next hp =>
      cases ha
      refine he.pc rfl (fun j hj _ => .inl ?_) (fun _ => rfl) rfl
      show j ∈ atExit s
      simp only [atExit, List.mem_reverse, List.mem_range]
      rw [he.len]; exact hj
    · next i rest hp =>
      refine he.begin (pc := .quitStop i rest) (.inl rfl) rfl (fun j _ => trivial) (fun j r h => by cases h) ha
    · next i rest hp =>
      split at ha
      · exact he.begin (pc := .quitReset i rest) (.inr ⟨_, rfl⟩) rfl (fun j _ => trivial) (fun j r h => by cases h) ha
      · exact he.cont (fun j r h => by rw [hp] at h; cases h) ha
    · next i rest hp =>
      split at ha
      · cases ha
        exact he.pc rfl (fun j _ _ => .inl trivial) (fun _ => rfl) rfl
      · exact he.cont (fun j r h => by rw [hp] at h; cases h) ha
    · next hp =>
      cases ha
      refine he.pc rfl (fun j _ h => ?_) (fun _ => rfl) rfl
      rw [hp] at h
      cases h
    · next i rest hp =>
      refine he.begin (.inr ⟨_, rfl⟩) rfl (fun j h => ?_) (fun j r h => by cases h; exact ⟨rfl, _, rfl⟩) ha
      rw [hp] at h
      exact List.mem_cons.mp h
    · next i rest hp =>
      split at ha
      · next hf =>
        cases ha
        refine he.pc rfl (fun j hj h => ?_) (fun _ => rfl) rfl
        rw [hp] at h
        rcases h with rfl | h
        · rw [← he.len] at hj
          have hd := List.getElem?_eq_getElem hj
          exact .inr (he.wait _ rest _ hp hd (free_iff.mp hf _ hd))
        · exact .inl h
      · exact he.exitCont hi hp ha
    · cases ha

theorem EInv.run {fork : Bool} {n : Nat} {h b : List QEv} {s : St} (hi : QInv h s) (he : EInv n b s)
    (as : List Act) {s' : St} {es : List QEv} (hr : run fork s as = some (s', es)) : EInv n (b ++ es) s' := by
  induction as generalizing h b s es with
  | nil => cases hr; simpa using he
  | cons a as ih =>
    simp only [Quit.run] at hr
    split at hr
    · cases hr
    · next s1 e1 h1 =>
      split at hr
      · cases hr
      · next s2 e2 h2 =>
        cases hr
        rw [← List.append_assoc]
        exact ih (hi.step h1) (he.step hi h1) h2

/-- The main loop is left. -/
theorem EInv.start {fork : Bool} {s s1 : St} {a : Act} {es : List QEv} (ha : a = .stop ∨ a = .die)
    (h : act fork s a = some (s1, es)) : EInv s.devs.length es s1 := by
  have key : ∀ (pc : Pc) (e : QEv), (∀ i, devEvs i [e] = []) → Ending pc = true → busy pc = none →
      (∀ i, i < s.devs.length → Pending pc i) → EInv s.devs.length [e] { s with pc := pc } := by
    intro pc e he hp hb hpend
    have hmem : ∀ i x, QEv.dev i x ∉ [e] := by
      intro i x h
      have := mem_devEvs.mpr h
      rw [he] at this
      cases this
    constructor
    · rfl
    · exact hp
    · exact fun i hi => .inl (hpend i hi)
    · intro i rest d h
      simp only at h
      rw [h] at hb
      cases hb
    · exact fun i d h => absurd h (hmem _ _)
    · intro i x h
      unfold sinceReset at h
      rw [he] at h
      cases h
  rcases ha with rfl | rfl
  · simp only [act] at h
    split at h
    · cases h
      exact key _ _ (fun _ => rfl) rfl rfl (fun _ _ => trivial)
    · cases h
  · simp only [act] at h
    split at h
    · cases h
      refine key _ _ (fun _ => rfl) rfl rfl (fun i hi => ?_)
      show i ∈ atExit s
      simpa [atExit] using hi
    · cases h

theorem act_gone {fork : Bool} {s s' : St} {a : Act} {es : List QEv} (h : act fork s a = some (s', es)) :
    s.pc ≠ .gone ∧ (.gone ∈ es → s'.pc = .gone) := by
  have hdev : ∀ i pc f, onDev s i pc f = some (s', es) → QEv.gone ∉ es := by
    intro i pc f h
    obtain ⟨_, _, es', _, _, rfl, _⟩ := onDev_some h
    simp
  cases a with
  | worker i c =>
    simp only [act] at h
    split at h
    · cases h
    · next hp => exact ⟨hp, fun hm => absurd hm (hdev _ _ _ h)⟩
  | go =>
    simp only [act] at h
    unfold Quit.go at h
    split at h
    · cases h
    all_goals first
      | (cases h; done)
      | (next hp =>
          refine ⟨by rw [hp]; simp, ?_⟩
          (try split at h)
          all_goals (try split at h)
          all_goals first
            | exact fun hm => absurd hm (hdev _ _ _ h)
            | (cases h; simp))
  | _ =>
    simp only [act] at h
    split at h
    · next hp =>
      refine ⟨by rw [hp]; simp, ?_⟩
      (try split at h)
      all_goals first
        | exact fun hm => absurd hm (hdev _ _ _ h)
        | (cases h; simp)
    · cases h

theorem run_gone {fork : Bool} (as : List Act) {s s' : St} {es : List QEv} (h : run fork s as = some (s', es))
    (hm : .gone ∈ es) : s'.pc = .gone := by
  induction as generalizing s es with
  | nil => cases h; cases hm
  | cons a as ih =>
    simp only [Quit.run] at h
    split at h
    · cases h
    · next s1 e1 h1 =>
      split at h
      · cases h
      · next s2 e2 h2 =>
        cases h
        rcases List.mem_append.mp hm with hm | hm
        · have hg := (act_gone h1).2 hm
          cases as with
          | nil => cases h2; exact hg
          | cons a' as' =>
            simp only [Quit.run] at h2
            split at h2
            · cases h2
            · next s3 e3 h3 => exact absurd hg (act_gone h3).1
        · exact ih h2 hm

/-- **C119** (partial: for components that do not hang, see `C119_refuted`): when a driver is told to stop, or its
main loop ends with an exception, then, whatever commands came before and whatever the workers do, for each device
that has ever been created in the process, also if it has been replaced or torn down: once it has been reset it takes
up nothing any more; and when the process has ended, it has been reset, and what it was doing was ended before and not
cut off, its lock being free. -/
theorem C119_partial {fork : Bool} {as bs : List Act} {s s' : St} {h b : List QEv} {a : Act}
    (hr : run fork {} as = some (s, h)) (ha : a = .stop ∨ a = .die)
    (hr' : run fork s (a :: bs) = some (s', b)) :
    (∀ i, ∀ e ∈ sinceReset i b, Idle e) ∧
    (.gone ∈ b → ∀ i, i < madeQ h → .dev i .wasReset ∈ b ∧ occupied (devEvs i (h ++ b)) = none ∧
      ∀ d, s'.devs[i]? = some d → d.lock = none) := by
  have hi : QInv ([] ++ h) s := QInv.init.run as hr
  rw [List.nil_append] at hi
  have hi' : QInv (h ++ b) s' := hi.run _ hr'
  have hrun := hr'
  simp only [Quit.run] at hrun
  split at hrun
  · cases hrun
  next s1 e1 h1 =>
  split at hrun
  · cases hrun
  next s2 e2 h2 =>
  cases hrun
  have he := (EInv.start ha h1).run (hi.step h1) bs h2
  refine ⟨he.quiet, fun hg i hlt => ?_⟩
  have hp := run_gone _ hr' hg
  have hrst : .dev i .wasReset ∈ e1 ++ e2 := by
    rcases he.pend i (by rw [← hi.len]; exact hlt) with h | h
    · rw [hp] at h; cases h
    · exact h
  have hex : i < s'.devs.length := by rw [he.len, ← hi.len]; exact hlt
  have hd := List.getElem?_eq_getElem hex
  have hinv := hi'.inv i _ hd
  have hrest := he.rest i _ hrst hd
  have hidle : (s'.devs[i]).cpc = .idle := by
    by_contra hc
    have := hi'.idle i _ hd hc
    rw [hp] at this
    cases this
  refine ⟨hrst, ?_, ?_⟩
  · rw [hinv.item]
    rcases hrest.wpc with h | h | h | h <;> rw [h] <;> rfl
  · intro d hd'
    rw [hd] at hd'
    injection hd' with e
    subst e
    have h1 := hinv.wlock
    have h2 := hinv.clock
    rw [hidle] at h2
    cases hl : (s'.devs[i]).lock with
    | none => rfl
    | some x =>
      cases x with
      | worker =>
        have := h1.mp hl
        rcases hrest.wpc with h | h | h | h <;> rw [h] at this <;> cases this
      | cmd => have := h2.mp hl; cases this


/-! ## The process ends -/

/-- Steps of a worker until its end, once it has been told to end. -/
def joinRank : WPc → Nat
  | .get => 12 | .turn _ => 12 | .lock _ => 11 | .got _ => 11 | .noTask _ => 10 | .meas _ => 10 | .prep _ => 9
  | .store _ => 9 | .prepped _ => 8 | .unlock _ => 8 | .clear _ => 7 | .dur _ => 7 | .loop1 _ => 6 | .loop2 _ => 5
  | .over _ => 5 | .oneShot => 5 | .done _ => 4 | .oneDone => 4 | .fin => 3 | .top => 2 | .failed => 2 | .exit => 1
  | .dead => 0

theorem joinRank_le (w : WPc) : joinRank w ≤ 12 := by cases w <;> simp [joinRank]

/-- Steps of a worker until it frees the lock. -/
def lockRank : WPc → Nat
  | .meas _ => 3 | .store _ => 2 | .unlock _ => 1 | _ => 0

theorem lockRank_le (w : WPc) : lockRank w ≤ 3 := by cases w <;> simp [lockRank]

/-- Steps until the end of a command. -/
def cmdRank (d : Dev) : Nat :=
  match d.cpc with
  | .gLock => 20 + lockRank d.wpc | .gRead => 19 | .gClear _ => 18 | .gRet _ => 17
  | .rJoin _ => 2 + joinRank d.wpc
  | _ => 0

/-- The same, of device `i`. -/
def rankOf (s : St) (i : Nat) : Nat := ((s.devs[i]?).map cmdRank).getD 0

/-- Steps until the end. -/
def leftOver (s : St) : Nat :=
  match s.pc with
  | .quit rest => 24 * rest.length + 15 * s.devs.length + 2
  | .quitStop i rest => 24 * rest.length + 15 * s.devs.length + 2 + max 16 (rankOf s i)
  | .quitReset i rest => 24 * rest.length + 15 * s.devs.length + 2 + max 1 (rankOf s i)
  | .exit rest => 15 * rest.length + 1
  | .exitReset i rest => 15 * rest.length + 1 + max 1 (rankOf s i)
  | _ => 0

theorem join_worker {d d' : Dev} {c : Choice} {es : List Ev} (h : I21.wstep d c = some (d', es))
    (hr : d.doRun = false) : joinRank d'.wpc < joinRank d.wpc := by
  obtain ⟨q, rr, dr, dt, da, l, lk, w, cp⟩ := d
  simp only at hr
  subst hr
  unfold I21.wstep at h
  simp only at h
  split at h
  all_goals (try split at h)
  all_goals first
    | (cases h; done)
    | skip
  all_goals (injection h with h; injection h with h1 h2; subst h1)
  all_goals simp_all [joinRank]

theorem lock_worker {d d' : Dev} {c : Choice} {es : List Ev} (h : I21.wstep d c = some (d', es))
    (hr : wHolds d.wpc = true) : lockRank d'.wpc < lockRank d.wpc := by
  obtain ⟨q, rr, dr, dt, da, l, lk, w, cp⟩ := d
  simp only at hr
  unfold I21.wstep at h
  simp only at h
  split at h
  all_goals first
    | (simp [wHolds] at hr; done)
    | skip
  all_goals (try split at h)
  all_goals first
    | (cases h; done)
    | skip
  all_goals (injection h with h; injection h with h1 h2; subst h1)
  all_goals simp_all [lockRank]

theorem rankOf_set {s : St} {i : Nat} {d' : Dev} {pc : Pc} (hlt : i < s.devs.length) :
    rankOf { s with devs := s.devs.set i d', pc := pc } i = cmdRank d' := by
  simp [rankOf, hlt]

theorem rankOf_some {s : St} {i : Nat} {d : Dev} (h : s.devs[i]? = some d) : rankOf s i = cmdRank d := by
  simp [rankOf, h]

theorem rankOf_ne {s : St} {i j : Nat} {d' : Dev} {m : Dict Nat Nat} {pc : Pc} (h : i ≠ j) :
    rankOf ⟨s.devs.set i d', m, pc⟩ j = rankOf s j := by
  simp [rankOf, List.getElem?_set_ne h]

/-- The other workers do not matter. -/
theorem leftOver_other {s : St} {i : Nat} {d' : Dev} (h : busy s.pc ≠ some i) :
    leftOver { s with devs := s.devs.set i d' } = leftOver s := by
  unfold leftOver
  cases hp : s.pc <;> simp only [List.length_set]
  all_goals
    rw [rankOf_ne]
    intro e
    subst e
    rw [hp] at h
    exact h rfl

/-- A step of the worker the main thread waits for. -/
theorem leftOver_worker {fork : Bool} {h : List QEv} {s : St} (hi : QInv h s) (hend : Ending s.pc = true) {i : Nat}
    {d d' : Dev} {c : Choice} {es : List Ev} (hb : busy s.pc = some i) (hd : s.devs[i]? = some d)
    (hw : I21.wstep d c = some (d', es)) (hn : ¬ CanGo fork s) :
    leftOver { s with devs := s.devs.set i d' } < leftOver s := by
  have hlt : i < s.devs.length := (List.getElem?_eq_some_iff.mp hd).1
  have hc := (wstep_cpc hw).1
  have hok := hi.ok i d hd hb
  have hinv := hi.inv i d hd
  have hnf : d.cpc ≠ .idle := by
    intro hidle
    apply hn
    have hf : Quit.free s i = true := free_iff.mpr (fun x hx => by rw [hd] at hx; cases hx; exact hidle)
    unfold CanGo
    simp only [act, Quit.go]
    cases hp : s.pc <;> rw [hp] at hb <;> cases hb
    · rw [hp] at hend; cases hend
    all_goals simp [hf, onDev, hd]
  have hnf' : Quit.free s i = false := by
    cases hf : Quit.free s i with
    | false => rfl
    | true => exact absurd (free_iff.mp hf d hd) hnf
  have hstuck : I21.cstep d = none := by
    cases hcs : I21.cstep d with
    | none => rfl
    | some p =>
      exfalso
      apply hn
      unfold CanGo
      simp only [act, Quit.go]
      cases hp : s.pc <;> rw [hp] at hb <;> cases hb
      · rw [hp] at hend; cases hend
      all_goals simp only [hnf', onDev, hd, hcs, exitStep]
      all_goals (try cases fork) <;> simp
  have hrank : cmdRank d' < cmdRank d := by
    unfold cmdRank
    rw [hc]
    cases hcp : d.cpc with
    | idle => exact absurd hcp hnf
    | gLock =>
      simp only [Nat.add_lt_add_iff_left]
      refine lock_worker hw (hinv.wlock.mp ?_)
      unfold I21.cstep at hstuck
      rw [hcp] at hstuck
      simp only at hstuck
      split at hstuck
      · cases hstuck
      · next hl =>
        cases hx : d.lock with
        | none => exact absurd hx hl
        | some w =>
          cases w with
          | worker => rfl
          | cmd =>
            have := hinv.clock.mp hx
            rw [hcp] at this
            cases this
    | rJoin r =>
      simp only [Nat.add_lt_add_iff_left]
      exact join_worker hw (hi.join i d r hd hcp)
    | mEmpty => rw [hcp] at hok; cases hp : s.pc <;> rw [hp] at hb hend hok <;> first | cases hb | skip
                all_goals first | (cases hend; done) | (cases hok; done)
    | mPut => rw [hcp] at hok; cases hp : s.pc <;> rw [hp] at hb hend hok <;> first | cases hb | skip
              all_goals first | (cases hend; done) | (cases hok; done)
    | gRead => unfold I21.cstep at hstuck; rw [hcp] at hstuck; cases hstuck
    | gClear r => unfold I21.cstep at hstuck; rw [hcp] at hstuck; cases hstuck
    | gRet r => unfold I21.cstep at hstuck; rw [hcp] at hstuck; cases hstuck
  have hbig : 2 ≤ cmdRank d' ∧ (∀ j rest, s.pc = .quitStop j rest → 20 ≤ cmdRank d') := by
    constructor
    · unfold cmdRank
      rw [hc]
      cases hcp : d.cpc <;> simp only <;> try omega
      · exact absurd hcp hnf
      · rw [hcp] at hok; cases hp : s.pc <;> rw [hp] at hb hend hok <;> first | cases hb | skip
        all_goals first | (cases hend; done) | (cases hok; done)
      · rw [hcp] at hok; cases hp : s.pc <;> rw [hp] at hb hend hok <;> first | cases hb | skip
        all_goals first | (cases hend; done) | (cases hok; done)
    · intro j rest hp
      rw [hp] at hok
      unfold cmdRank
      rw [hc]
      cases hcp : d.cpc with
      | gLock => simp only; omega
      | idle => exact absurd hcp hnf
      | gRead => unfold I21.cstep at hstuck; rw [hcp] at hstuck; cases hstuck
      | gClear r => unfold I21.cstep at hstuck; rw [hcp] at hstuck; cases hstuck
      | gRet r => unfold I21.cstep at hstuck; rw [hcp] at hstuck; cases hstuck
      | _ => rw [hcp] at hok; cases hok
  unfold leftOver
  have e1 : ∀ pc, rankOf ⟨s.devs.set i d', s.devmap, pc⟩ i = cmdRank d' := by intro pc; simp [rankOf, hlt]
  have e2 := rankOf_some hd
  cases hp : s.pc <;> rw [hp] at hb <;> cases hb <;> simp only [List.length_set]
  · rw [hp] at hend; cases hend
  · have := hbig.2 _ _ hp
    rw [e1, e2]; omega
  · rw [e1, e2]; omega
  · rw [e1, e2]; omega


theorem cstep_rank {d d' : Dev} {es : List Ev} (h : I21.cstep d = some (d', es)) :
    (∀ r, d.cpc = .rJoin r → cmdRank d' = 0 ∧ 2 ≤ cmdRank d) ∧
    ((d.cpc = .gLock ∨ d.cpc = .gRead ∨ (∃ r, d.cpc = .gClear r) ∨ ∃ r, d.cpc = .gRet r) →
      cmdRank d' < cmdRank d ∧ 17 ≤ cmdRank d) := by
  obtain ⟨q, rr, dr, dt, da, l, lk, w, cp⟩ := d
  unfold I21.cstep at h
  simp only at h
  cases cp <;> simp only at h <;> (try split at h) <;> (try cases h) <;>
    simp_all [cmdRank, I21.afterReset] <;> omega

/-- A step of the main thread. -/
theorem leftOver_go {fork : Bool} {h : List QEv} {s s' : St} {es : List QEv} (hi : QInv h s)
    (hend : Ending s.pc = true) (hg : Quit.go fork s = some (s', es)) : leftOver s' < leftOver s := by
  have key : ∀ (pc : Pc) (i : Nat) (f : Dev → Option (Dev × List Ev)), onDev s i pc f = some (s', es) →
      ∃ d d' es', s.devs[i]? = some d ∧ f d = some (d', es') ∧ s'.pc = pc ∧ s'.devs.length = s.devs.length ∧
        rankOf s i = cmdRank d ∧ rankOf s' i = cmdRank d' := by
    intro pc i f ho
    obtain ⟨d, d', es', h1, h2, -, h4⟩ := onDev_some ho
    have hlt : i < s.devs.length := (List.getElem?_eq_some_iff.mp h1).1
    subst h4
    exact ⟨d, d', es', h1, h2, rfl, by simp, rankOf_some h1, by simp [rankOf, hlt]⟩
  unfold Quit.go at hg
  cases hp : s.pc with
  | serving => rw [hp] at hend; cases hend
  | cmd i drop => rw [hp] at hend; cases hend
  | gone => rw [hp] at hg; cases hg
  | quit rest =>
    rw [hp] at hg
    cases rest with
    | nil => cases hg; simp [leftOver, hp, atExit]
    | cons i rest =>
      obtain ⟨d, d', es', h1, h2, h3, h4, -, h6⟩ := key _ _ _ hg
      simp only [I21.cbegin] at h2
      cases h2
      have := lockRank_le d.wpc
      simp only [leftOver, hp, h3, h4, h6, cmdRank, List.length_cons]
      omega
  | quitStop i rest =>
    rw [hp] at hg
    simp only at hg
    split at hg
    · next hf =>
      obtain ⟨d, d', es', h1, h2, h3, h4, h5, h6⟩ := key _ _ _ hg
      have := free_iff.mp hf d h1
      simp only [I21.cbegin] at h2
      cases h2
      have := joinRank_le d.wpc
      simp only [leftOver, hp, h3, h4, h6, cmdRank]
      omega
    · next hf =>
      obtain ⟨d, d', es', h1, h2, h3, h4, h5, h6⟩ := key _ _ _ hg
      have hok := hi.ok i d h1 (by rw [hp]; rfl)
      rw [hp] at hok
      have hr := (cstep_rank h2).2 (by
        unfold I21.cstep at h2
        cases hc : d.cpc <;> rw [hc] at hok h2 <;> first | (cases hok; done) | (cases h2; done) | simp)
      simp only [leftOver, hp, h3, h4, h5, h6]
      omega
  | quitReset i rest =>
    rw [hp] at hg
    simp only at hg
    split at hg
    · next hf => cases hg; simp only [leftOver, hp]; omega
    · next hf =>
      obtain ⟨d, d', es', h1, h2, h3, h4, h5, h6⟩ := key _ _ _ hg
      have hok := hi.ok i d h1 (by rw [hp]; rfl)
      rw [hp] at hok
      obtain ⟨r, hr⟩ : ∃ r, d.cpc = .rJoin r := by
        unfold I21.cstep at h2
        cases hc : d.cpc <;> rw [hc] at hok h2 <;> first | (cases hok; done) | (cases h2; done) | simp
      have hr := (cstep_rank h2).1 r hr
      simp only [leftOver, hp, h3, h4, h5, h6]
      omega
  | exit rest =>
    rw [hp] at hg
    cases rest with
    | nil => cases hg; simp [leftOver, hp]
    | cons i rest =>
      obtain ⟨d, d', es', h1, h2, h3, h4, -, h6⟩ := key _ _ _ hg
      simp only [I21.cbegin] at h2
      cases h2
      have := joinRank_le d.wpc
      simp only [leftOver, hp, h3, h6, cmdRank, List.length_cons]
      omega
  | exitReset i rest =>
    rw [hp] at hg
    simp only at hg
    split at hg
    · next hf => cases hg; simp only [leftOver, hp]; omega
    · next hf =>
      obtain ⟨d, d', es', h1, h2, h3, h4, h5, h6⟩ := key _ _ _ hg
      have hok := hi.ok i d h1 (by rw [hp]; rfl)
      rw [hp] at hok
      obtain ⟨x, hx, hx'⟩ : ∃ x, I21.cstep d = some (x, es') ∧ x.cpc = d'.cpc := by
        unfold exitStep at h2
        split at h2
        · cases h2
        · next x e hx =>
          split at h2 <;> cases h2 <;> exact ⟨_, hx, rfl⟩
      obtain ⟨r, hr⟩ : ∃ r, d.cpc = .rJoin r := by
        unfold I21.cstep at hx
        cases hc : d.cpc <;> rw [hc] at hok hx <;> first | (cases hok; done) | (cases hx; done) | simp
      have hr' := (cstep_rank hx).1 r hr
      have hid : d'.cpc = .idle := by
        rw [← hx']
        unfold I21.cstep at hx
        rw [hr] at hx
        simp only at hx
        split at hx <;> cases hx
        rfl
      have : cmdRank d' = 0 := by simp [cmdRank, hid]
      simp only [leftOver, hp, h3, h5, h6]
      omega

/-- All the devices mentioned exist. -/
def refs : Pc → List Nat
  | .cmd i _ => [i]
  | .quit rest | .exit rest => rest
  | .quitStop i rest | .quitReset i rest | .exitReset i rest => i :: rest
  | _ => []

structure RInv (s : St) : Prop where
  map : ∀ v ∈ Dict.values s.devmap, v < s.devs.length
  size : s.devmap.length ≤ s.devs.length
  pc : ∀ i ∈ refs s.pc, i < s.devs.length

theorem RInv.set {s : St} (hr : RInv s) {i : Nat} {d : Dev} {pc : Pc} (h : ∀ j ∈ refs pc, j < s.devs.length) :
    RInv { s with devs := s.devs.set i d, pc := pc } := by
  refine ⟨?_, ?_, ?_⟩ <;> simp only [List.length_set]
  · exact hr.map
  · exact hr.size
  · exact h

theorem RInv.onDev {s s' : St} {es : List QEv} (hr : RInv s) {i : Nat} {pc : Pc}
    {f : Dev → Option (Dev × List Ev)} (ho : onDev s i pc f = some (s', es))
    (h : ∀ j ∈ refs pc, j < s.devs.length ∨ j = i) : RInv s' := by
  obtain ⟨d, d', es', h1, h2, -, h4⟩ := onDev_some ho
  have hlt : i < s.devs.length := (List.getElem?_eq_some_iff.mp h1).1
  subst h4
  exact hr.set (fun j hj => (h j hj).elim id (fun e => e ▸ hlt))

theorem RInv.goes {fork : Bool} {s s' : St} {es : List QEv} (hr : RInv s) (hg : Quit.go fork s = some (s', es)) :
    RInv s' := by
  unfold Quit.go at hg
  have hpc := hr.pc
  cases hp : s.pc with
  | serving => rw [hp] at hg; cases hg
  | gone => rw [hp] at hg; cases hg
  | cmd i drop =>
    rw [hp] at hg hpc
    simp only at hg
    split at hg
    · cases drop with
      | none => cases hg; exact ⟨hr.map, hr.size, by simp [refs]⟩
      | some k =>
        cases hg
        refine ⟨fun v hv => hr.map v ?_, ?_, by simp [refs]⟩
        · simp only [Dict.values, Dict.erase, List.mem_map, List.mem_filter] at hv ⊢
          obtain ⟨a, ⟨ha, -⟩, e⟩ := hv
          exact ⟨a, ha, e⟩
        · exact Nat.le_trans (List.length_filter_le _ _) hr.size
    · exact hr.onDev hg (fun j hj => .inl (hpc j hj))
  | quit rest =>
    rw [hp] at hg hpc
    cases rest with
    | nil =>
      cases hg
      exact ⟨hr.map, hr.size, fun i hi => by simpa [refs, atExit] using hi⟩
    | cons i rest => exact hr.onDev hg (fun j hj => .inl (hpc j hj))
  | exit rest =>
    rw [hp] at hg hpc
    cases rest with
    | nil =>
      cases hg
      exact ⟨hr.map, hr.size, by simp [refs]⟩
    | cons i rest => exact hr.onDev hg (fun j hj => .inl (hpc j hj))
  | quitStop i rest =>
    rw [hp] at hg hpc
    simp only at hg
    split at hg <;> exact hr.onDev hg (fun j hj => .inl (hpc j hj))
  | quitReset i rest =>
    rw [hp] at hg hpc
    simp only at hg
    split at hg
    · cases hg
      exact ⟨hr.map, hr.size, fun j hj => hpc j (List.mem_cons_of_mem _ hj)⟩
    · exact hr.onDev hg (fun j hj => .inl (hpc j hj))
  | exitReset i rest =>
    rw [hp] at hg hpc
    simp only at hg
    split at hg
    · cases hg
      exact ⟨hr.map, hr.size, fun j hj => hpc j (List.mem_cons_of_mem _ hj)⟩
    · exact hr.onDev hg (fun j hj => .inl (hpc j hj))

theorem set_bounds {m : Dict Nat Nat} {k v n : Nat} (h : ∀ x ∈ Dict.values m, x < n) (hv : v = n) :
    (∀ x ∈ Dict.values (Dict.set m k v), x < n + 1) ∧ (Dict.set m k v).length ≤ m.length + 1 := by
  induction m with
  | nil => simp [Dict.set, Dict.values, hv]
  | cons a m ih =>
    obtain ⟨k', v'⟩ := a
    have h1 : v' < n := h v' (by simp [Dict.values])
    have h2 : ∀ x ∈ Dict.values m, x < n := fun x hx => h x (by simp [Dict.values] at hx ⊢; exact .inr hx)
    obtain ⟨i1, i2⟩ := ih h2
    simp only [Dict.set]
    split
    · simp only [Dict.values, List.map_cons, List.mem_cons, List.length_cons]
      refine ⟨?_, by omega⟩
      rintro x (rfl | hx)
      · omega
      · have := h2 x hx; omega
    · simp only [Dict.values, List.map_cons, List.mem_cons, List.length_cons]
      refine ⟨?_, by omega⟩
      rintro x (rfl | hx)
      · omega
      · exact i1 x hx

theorem RInv.step {fork : Bool} {s s' : St} {a : Act} {es : List QEv} (hr : RInv s)
    (h : act fork s a = some (s', es)) : RInv s' := by
  cases a with
  | worker i c =>
    simp only [act] at h
    split at h
    · cases h
    · exact hr.onDev h (fun j hj => .inl (hr.pc j hj))
  | cmd k c =>
    simp only [act] at h
    split at h
    · split at h
      · cases h; exact hr
      · exact hr.onDev h (fun j hj => .inr (by simpa [refs] using hj))
    · cases h
  | teardown k =>
    simp only [act] at h
    split at h
    · split at h
      · cases h; exact hr
      · exact hr.onDev h (fun j hj => .inr (by simpa [refs] using hj))
    · cases h
  | register k =>
    simp only [act] at h
    split at h
    · next hp =>
      cases h
      obtain ⟨h1, h2⟩ := set_bounds (k := k) hr.map rfl
      refine ⟨?_, ?_, ?_⟩ <;> simp only [List.length_append, List.length_cons, List.length_nil]
      · exact h1
      · have := hr.size; omega
      · rw [hp]; simp [refs]
    · cases h
  | stop =>
    simp only [act] at h
    split at h
    · cases h; exact ⟨hr.map, hr.size, hr.map⟩
    · cases h
  | die =>
    simp only [act] at h
    split at h
    · cases h; exact ⟨hr.map, hr.size, fun i hi => by simpa [refs, atExit] using hi⟩
    · cases h
  | go => exact hr.goes h

theorem RInv.run {fork : Bool} (as : List Act) {s s' : St} {es : List QEv} (hr : RInv s)
    (h : run fork s as = some (s', es)) : RInv s' := by
  induction as generalizing s s' es with
  | nil => cases h; exact hr
  | cons a as ih =>
    simp only [Quit.run] at h
    split at h
    · cases h
    · next s1 e1 h1 =>
      split at h
      · cases h
      · next s2 e2 h2 =>
        cases h
        exact ih (hr.step h1) h2

theorem RInv.init : RInv {} := ⟨by simp [Dict.values], by simp, by simp [refs]⟩

/-- The main thread can go on, or else the worker it waits for. -/
theorem not_stuck {fork : Bool} {h : List QEv} {s : St} (hi : QInv h s) (hr : RInv s) (hend : Ending s.pc = true)
    (hg : s.pc ≠ .gone) :
    CanGo fork s ∨ ∃ i, busy s.pc = some i ∧ ∀ c, (act fork s (.worker i c)).isSome = true := by
  have hex : ∀ i ∈ refs s.pc, ∃ d, s.devs[i]? = some d := fun i hi =>
    ⟨_, List.getElem?_eq_getElem (hr.pc i hi)⟩
  have hb : ∀ i, busy s.pc = some i → i ∈ refs s.pc := by
    intro i hb
    cases hp : s.pc <;> rw [hp] at hb <;> cases hb <;> simp [refs]
  cases hbb : busy s.pc with
  | none =>
    left
    unfold CanGo
    simp only [act, Quit.go]
    cases hp : s.pc with
    | serving => rw [hp] at hend; cases hend
    | gone => exact absurd hp hg
    | quit rest =>
      cases rest with
      | nil => rfl
      | cons i rest =>
        obtain ⟨d, hd⟩ := hex i (by rw [hp]; simp [refs])
        simp [onDev, hd]
    | exit rest =>
      cases rest with
      | nil => rfl
      | cons i rest =>
        obtain ⟨d, hd⟩ := hex i (by rw [hp]; simp [refs])
        simp [onDev, hd]
    | _ => rw [hp] at hbb; cases hbb
  | some i =>
    obtain ⟨d, hd⟩ := hex i (hb i hbb)
    have hinv := hi.inv i d hd
    have hok := hi.ok i d hd hbb
    by_cases hf : Quit.free s i = true
    · left
      unfold CanGo
      simp only [act, Quit.go]
      cases hp : s.pc <;> rw [hp] at hbb <;> cases hbb
      · rw [hp] at hend; cases hend
      all_goals simp [hf, onDev, hd]
    · have hni : d.cpc ≠ .idle := fun hc => hf (free_iff.mpr (fun x hx => by rw [hd] at hx; cases hx; exact hc))
      cases hcs : I21.cstep d with
      | some p =>
        left
        unfold CanGo
        simp only [act, Quit.go]
        cases hp : s.pc <;> rw [hp] at hbb <;> cases hbb
        · rw [hp] at hend; cases hend
        all_goals simp only [hf, onDev, hd, hcs, exitStep]
        all_goals (try cases fork) <;> simp
      | none =>
        right
        refine ⟨i, rfl, fun c => ?_⟩
        have hw : (I21.wstep d c).isSome = true := by
          unfold I21.cstep at hcs
          cases hcp : d.cpc with
          | idle => exact absurd hcp hni
          | gRead => rw [hcp] at hcs; cases hcs
          | gClear r => rw [hcp] at hcs; cases hcs
          | gRet r => rw [hcp] at hcs; cases hcs
          | mEmpty => rw [hcp] at hcs; simp only at hcs; split at hcs <;> cases hcs
          | mPut => rw [hcp] at hcs; cases hcs
          | gLock =>
            have hl : d.lock = some .worker := by
              rw [hcp] at hcs
              simp only at hcs
              split at hcs
              · cases hcs
              · next hl =>
                cases hx : d.lock with
                | none => exact absurd hx hl
                | some w =>
                  cases w with
                  | worker => rfl
                  | cmd =>
                    have := hinv.clock.mp hx
                    rw [hcp] at this
                    cases this
            have := hinv.wlock.mp hl
            unfold I21.wstep
            cases hwp : d.wpc <;> rw [hwp] at this <;> first | (cases this; done) | skip
            all_goals (simp only; try split) <;> rfl
          | rJoin r =>
            have hnd : d.wpc ≠ .dead := by
              intro hdd
              rw [hcp] at hcs
              simp [hdd] at hcs
            have hlk : ∀ t, d.wpc = .lock t → d.lock = none := by
              intro t ht
              cases hx : d.lock with
              | none => rfl
              | some w =>
                cases w with
                | worker =>
                  have := hinv.wlock.mp hx
                  rw [ht] at this
                  cases this
                | cmd =>
                  have := hinv.clock.mp hx
                  rw [hcp] at this
                  cases this
            unfold I21.wstep
            cases hwp : d.wpc with
            | dead => exact absurd hwp hnd
            | lock t => simp [hlk t hwp]
            | noTask x => cases x <;> rfl
            | _ => simp only; (try split) <;> rfl
        simp only [act, if_neg hg, onDev, hd]
        cases hx : I21.wstep d c with
        | none => rw [hx] at hw; cases hw
        | some p => rfl

theorem ending_step {fork : Bool} {s s' : St} {a : Act} {es : List QEv} (h : act fork s a = some (s', es))
    (he : Ending s.pc = true) : Ending s'.pc = true := by
  have key : ∀ (pc : Pc) (i : Nat) (f : Dev → Option (Dev × List Ev)), onDev s i pc f = some (s', es) →
      s'.pc = pc := by
    intro pc i f ho
    obtain ⟨d, d', es', h1, h2, -, h4⟩ := onDev_some ho
    subst h4
    rfl
  have hs : s.pc ≠ .serving := by intro h; rw [h] at he; cases he
  cases a with
  | worker i c =>
    simp only [act] at h
    split at h
    · cases h
    · rw [key _ _ _ h]; exact he
  | cmd k c => simp [act, hs] at h
  | teardown k => simp [act, hs] at h
  | register k => simp [act, hs] at h
  | stop => simp [act, hs] at h
  | die => simp [act, hs] at h
  | go =>
    simp only [act, Quit.go] at h
    cases hp : s.pc with
    | serving => exact absurd hp hs
    | cmd i drop => rw [hp] at he; cases he
    | gone => rw [hp] at h; cases h
    | quit rest =>
      rw [hp] at h
      cases rest with
      | nil => cases h; rfl
      | cons i rest => rw [key _ _ _ h]; rfl
    | exit rest =>
      rw [hp] at h
      cases rest with
      | nil => cases h; rfl
      | cons i rest => rw [key _ _ _ h]; rfl
    | quitStop i rest =>
      rw [hp] at h
      simp only at h
      split at h <;> rw [key _ _ _ h] <;> rfl
    | quitReset i rest =>
      rw [hp] at h
      simp only at h
      split at h
      · cases h; rfl
      · rw [key _ _ _ h]; rfl
    | exitReset i rest =>
      rw [hp] at h
      simp only at h
      split at h
      · cases h; rfl
      · rw [key _ _ _ h]; rfl

theorem counted_le {fork : Bool} (as : List Act) {h : List QEv} {s : St} (hi : QInv h s)
    (hend : Ending s.pc = true) (hp : Prompt fork s as) : counted fork s as ≤ leftOver s := by
  induction as generalizing h s with
  | nil => exact Nat.zero_le _
  | cons a as ih =>
    unfold counted
    split
    · exact Nat.zero_le _
    · next s1 e1 h1 =>
      have := ih (hi.step h1) (ending_step h1 hend) (hp.2 s1 e1 h1)
      have hs : s.pc ≠ .serving := by intro h; rw [h] at hend; cases hend
      cases a with
      | worker i c =>
        simp only [act] at h1
        split at h1
        · cases h1
        obtain ⟨d, d', es', g1, g2, -, g4⟩ := onDev_some h1
        subst g4
        by_cases hb : busy s.pc = some i
        · have := leftOver_worker hi hend hb g1 g2 (hp.1 i c rfl hb)
          have hc : Counts s (.worker i c) := hb
          rw [if_pos hc]
          have e : leftOver { s with devs := s.devs.set i d', pc := s.pc } =
            leftOver { s with devs := s.devs.set i d' } := rfl
          omega
        · have := leftOver_other (d' := d') hb
          have hc : ¬ Counts s (.worker i c) := hb
          rw [if_neg hc]
          have e : leftOver { s with devs := s.devs.set i d', pc := s.pc } =
            leftOver { s with devs := s.devs.set i d' } := rfl
          omega
      | cmd k c => simp [act, hs] at h1
      | teardown k => simp [act, hs] at h1
      | register k => simp [act, hs] at h1
      | stop => simp [act, hs] at h1
      | die => simp [act, hs] at h1
      | go =>
        have := leftOver_go hi hend h1
        have hc : Counts s .go := trivial
        rw [if_pos hc]
        omega

theorem ending_run {fork : Bool} (as : List Act) {s s' : St} {es : List QEv} (h : run fork s as = some (s', es))
    (he : Ending s.pc = true) : Ending s'.pc = true := by
  induction as generalizing s s' es with
  | nil => cases h; exact he
  | cons a as ih =>
    simp only [Quit.run] at h
    split at h
    · cases h
    · next s1 e1 h1 =>
      split at h
      · cases h
      · next s2 e2 h2 =>
        cases h
        exact ih h2 (ending_step h1 he)

/-- **C119** (the process does end, if no measurement hangs): after the driver was told to stop, or its main loop ended
with an exception, at each moment at which the process has not ended the main thread can go on, or waits for the worker
of one component, and that worker can go on; and, if these two do, then after at most `39 n + 2` steps of theirs the
process has ended, `n` being the number of devices ever created, whatever the other workers do in between. -/
theorem C119_ends {fork : Bool} {as bs : List Act} {s s1 s' : St} {h b b' : List QEv} {a : Act}
    (hr : run fork {} as = some (s, h)) (ha : a = .stop ∨ a = .die)
    (h1 : act fork s a = some (s1, b)) (hr' : run fork s1 bs = some (s', b')) :
    (s'.pc ≠ .gone →
      CanGo fork s' ∨ ∃ i, busy s'.pc = some i ∧ ∀ c, (act fork s' (.worker i c)).isSome = true) ∧
    (Prompt fork s1 bs → counted fork s1 bs ≤ 39 * madeQ h + 2) := by
  have hi : QInv ([] ++ h) s := QInv.init.run as hr
  rw [List.nil_append] at hi
  have hR := RInv.init.run as hr
  have hi1 := hi.step h1
  have hR1 := hR.step h1
  have hend : Ending s1.pc = true := by
    rcases ha with rfl | rfl <;> simp only [act] at h1 <;> split at h1 <;> cases h1 <;> rfl
  refine ⟨fun hg => not_stuck (hi1.run bs hr') (hR1.run bs hr') (ending_run bs hr' hend) hg, fun hp => ?_⟩
  refine Nat.le_trans (counted_le bs hi1 hend hp) ?_
  rw [hi.len]
  have hsz := hR.size
  rcases ha with rfl | rfl <;> simp only [act] at h1 <;> split at h1 <;> cases h1
  · simp only [leftOver, Dict.values, List.length_map]; omega
  · simp only [leftOver, atExit, List.length_reverse, List.length_range]; omega


theorem qrun_append {fork : Bool} (as bs : List Act) {s s' : St} {h : List QEv} (h1 : run fork s as = some (s', h)) :
    run fork s (as ++ bs) =
      match run fork s' bs with
      | none => none
      | some (s'', b) => some (s'', h ++ b) := by
  induction as generalizing s h with
  | nil =>
    cases h1
    simp only [List.nil_append]
    cases run fork s' bs <;> simp
  | cons a as ih =>
    simp only [Quit.run, List.cons_append] at h1 ⊢
    split at h1
    · cases h1
    next s1 e1 g1 =>
    split at h1
    · cases h1
    next s2 e2 g2 =>
    cases h1
    simp only [ih g2]
    cases run fork s' bs <;> simp

/-! ## A component which hangs -/

/-- Two components with a task each; the first one is in a measurement, the second one before one; the driver is told
to stop, and calls `task_stop` of the first one. -/
def hangActs : List Act :=
  [.register 0, .register 1, .cmd 0 (.start 5), .go, .cmd 1 (.start 6), .go] ++
    List.replicate 11 (.worker 0 {}) ++ List.replicate 7 (.worker 1 {}) ++ [.stop, .go]

/-- The first component, its measurement not returning. -/
def hangDev : Dev where
  running := some (.task 5)
  doRun := true
  doRunTask := false
  lock := some .worker
  wpc := .meas 5
  cpc := .gLock

/-- The second one. -/
def freeDev (data last : Option (List Nat)) : Dev where
  running := some (.task 6)
  doRun := true
  doRunTask := true
  data := data
  last := last
  wpc := .loop1 6

/-- The driver. -/
def hangSt (data last : Option (List Nat)) : St where
  devs := [hangDev, freeDev data last]
  devmap := [(0, 0), (1, 1)]
  pc := .quitStop 0 [1]

/-- One measurement of the second component. -/
def sampleActs : List Act := List.replicate 8 (.worker 1 { result := some (some [7]) })

theorem hang_sample (fork : Bool) (data last : Option (List Nat)) :
    run fork (hangSt data last) sampleActs =
      some (hangSt (I21.storeData data (some [7])) (some [7]), [.dev 1 (.measuring 6), .dev 1 (.measured 6 [7])]) := by
  rfl

theorem hang_samples (fork : Bool) (n : Nat) (data last : Option (List Nat)) :
    ∃ data' last' b, run fork (hangSt data last) (List.replicate n sampleActs).flatten =
        some (hangSt data' last', b) ∧ b.count (.dev 1 (.measured 6 [7])) = n := by
  induction n generalizing data last with
  | zero => exact ⟨data, last, [], rfl, rfl⟩
  | succ n ih =>
    obtain ⟨data', last', b, h1, h2⟩ := ih (I21.storeData data (some [7])) (some [7])
    refine ⟨data', last', [.dev 1 (.measuring 6), .dev 1 (.measured 6 [7])] ++ b, ?_, ?_⟩
    · rw [List.replicate_succ, List.flatten_cons, qrun_append _ _ (hang_sample fork data last), h1]
    · rw [List.count_append, h2, Nat.add_comm]
      rfl

/-- **C119 fails as stated**: the components are stopped one after the other, and the first `task_stop` waits for a
measurement of that component.  If this one does not return, then, after the driver has answered that it stops, the
other component goes on with its task for as long as one likes; and the process does not end. -/
theorem C119_refuted (fork : Bool) (n : Nat) :
    ∃ s h b s', run fork {} hangActs = some (s, h) ∧ .told ∈ h ∧
      run fork s (List.replicate n sampleActs).flatten = some (s', b) ∧
      b.count (.dev 1 (.measured 6 [7])) = n ∧ s'.pc ≠ .gone ∧ ¬ CanGo fork s' := by
  have h1 : (run fork {} hangActs).map (·.1) = some (hangSt none none) ∧
      (∀ p, run fork {} hangActs = some p → .told ∈ p.2) := by
    cases fork
    · refine ⟨by decide +kernel, fun p hp => ?_⟩
      have : ((run false {} hangActs).map (fun p => decide (.told ∈ p.2))) = some true := by decide +kernel
      rw [hp] at this
      simpa using this
    · refine ⟨by decide +kernel, fun p hp => ?_⟩
      have : ((run true {} hangActs).map (fun p => decide (.told ∈ p.2))) = some true := by decide +kernel
      rw [hp] at this
      simpa using this
  obtain ⟨⟨s, h⟩, hs, he⟩ := Option.map_eq_some_iff.mp h1.1
  simp only at he
  subst he
  obtain ⟨data', last', b, h2, h3⟩ := hang_samples fork n none none
  exact ⟨_, h, b, _, hs, h1.2 _ hs, h2, h3, by simp [hangSt], by unfold CanGo; simp [act, Quit.go, hangSt, Quit.free,
    hangDev, onDev, I21.cstep]⟩

/-! ## Sanity checks -/

/-- A driver whose component was given a task and registered again, and which is told to stop: it ends. -/
def endActs : List Act :=
  [.register 0, .cmd 0 (.start 5), .go] ++ List.replicate 11 (.worker 0 {}) ++ [.register 0]

def endActs2 : List Act :=
  [.go] ++ List.replicate 4 .go ++ [.go] ++ List.replicate 2 (.worker 1 {}) ++ [.go, .go, .go] ++ [.go] ++
    List.replicate 2 (.worker 1 {}) ++ [.go, .go] ++ [.go] ++
    List.replicate 10 (.worker 0 {}) ++ [.go, .go, .go]

example : ∃ s h s' b, run false {} endActs = some (s, h) ∧ run false s (.stop :: endActs2) = some (s', b) ∧
    madeQ h = 2 ∧ .gone ∈ b ∧ .dev 0 (.measured 5 []) ∈ h ++ b := by
  have h : ((run false {} endActs).bind (fun p => (run false p.1 (.stop :: endActs2)).map (fun q =>
      decide (madeQ p.2 = 2 ∧ .gone ∈ q.2 ∧ .dev 0 (.measured 5 []) ∈ p.2 ++ q.2)))) = some true := by
    decide +kernel
  obtain ⟨⟨s, h⟩, hs, he⟩ := Option.bind_eq_some_iff.mp h
  obtain ⟨⟨s', b⟩, hs', he'⟩ := Option.map_eq_some_iff.mp he
  exact ⟨s, h, s', b, hs, hs', by simpa using he'⟩

/-- Sanity check: the run above is `Prompt`. -/
def promptB (fork : Bool) (s : St) : List Act → Bool
  | [] => true
  | a :: as =>
    (match a with | .worker i _ => !(busy s.pc == some i) || (act fork s .go).isNone | _ => true) &&
      match act fork s a with
      | none => true
      | some (s', _) => promptB fork s' as

theorem prompt_of {fork : Bool} (as : List Act) {s : St} (h : promptB fork s as = true) : Prompt fork s as := by
  induction as generalizing s with
  | nil => trivial
  | cons a as ih =>
    simp only [promptB, Bool.and_eq_true] at h
    refine ⟨?_, fun s' es hs => ?_⟩
    · rintro i c rfl hb hc
      unfold CanGo at hc
      have h1 := h.1
      simp only [hb, beq_self_eq_true, Bool.not_true, Bool.false_or] at h1
      rw [Option.isNone_iff_eq_none] at h1
      rw [h1] at hc
      cases hc
    · have h2 := h.2
      rw [hs] at h2
      exact ih h2

example : ∃ s h s1 b, run false {} endActs = some (s, h) ∧ act false s .stop = some (s1, b) ∧
    Prompt false s1 endActs2 ∧ counted false s1 endActs2 = 30 := by
  have h : ((run false {} endActs).bind (fun p => (act false p.1 .stop).map (fun q =>
      decide (promptB false q.1 endActs2 = true ∧ counted false q.1 endActs2 = 30)))) = some true := by
    decide +kernel
  obtain ⟨⟨s, h⟩, hs, he⟩ := Option.bind_eq_some_iff.mp h
  obtain ⟨⟨s1, b⟩, hs1, he1⟩ := Option.map_eq_some_iff.mp he
  simp only [decide_eq_true_eq] at he1
  exact ⟨s, h, s1, b, hs, hs1, prompt_of _ he1.1, he1.2⟩

end Tomato.Props
