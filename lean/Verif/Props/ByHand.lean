import Verif.ByHand
import Verif.Props.DriverProc
import Verif.Props.Cmd

/-!
# C106: registering a component by hand
-/

namespace Tomato.Props

open ByHand Drv

/-! ## Specification -/

/-- The reply tells of the registration: it is a success with the capabilities of the component if
the device could be registered, and a failure otherwise. -/
def TellsOutcome (o : RegOut) (caps : List String) (r : HReply) : Prop :=
  if o = .ok then r = .driver true (some caps) else r.success = false

/-- The process of the driver does what `Drv.handle` says. -/
theorem byHand_handle (i : Iface) (k : Key) (o : RegOut) (l : DLoop) (w : World) :
    match byHand i k o l w with
    | (.reply r, i', _, _) => handle i (.cmpRegister (some (k, o)) r.success) = (i', .answered r.success, [.tried k false])
    | (.driverDies e, _, _, _) => ∀ b, handle i (.cmpRegister (some (k, o)) b) = (i, .died e, [.tried k false])
    | (.daemonDies _, i', _, _) => ∀ b, handle i (.cmpRegister (some (k, o)) b) = (i', .answered b, [.tried k false]) := by
  unfold byHand
  cases hc : cmpRegister i k o with
  | error e => intro b; simp [handle, hc]
  | ok x =>
    obtain ⟨i', b⟩ := x
    cases b with
    | false => simp [handle, hc, HReply.success]
    | true =>
      simp only
      cases hr : l.ret with
      | none => simp [handleMsg, hr, runW, handle, hc]
      | some r => simp [handleMsg, hr, runW, handle, hc, HReply.success]

theorem serve_last {l : DLoop} {ms : List DMsg} {w : World} {rs : List CReply} {l' : DLoop} {w' : World}
    (h : runW (serve l ms) w = (.ok (rs, l'), w')) : l'.ret = rs.getLast?.or l.ret := by
  induction ms generalizing l w rs with
  | nil => cases h; rfl
  | cons m ms ih =>
    simp only [serve, runW, Prog.bind_eq, Prog.run_bind] at h
    rcases hm : Prog.run exec (handleMsg l m) w with ⟨(e | ⟨r, l1⟩), w1⟩
    · rw [hm] at h; cases h
    · rw [hm] at h
      simp only [Prog.andThen_ok] at h
      rcases hs : Prog.run exec (serve l1 ms) w1 with ⟨(e | ⟨rs1, l2⟩), w2⟩
      · rw [hs] at h; cases h
      · rw [hs] at h
        cases h
        have h1 : l1.ret = some r := by
          cases m with
          | noCmd => cases hm; rfl
          | status => cases hm; rfl
          | stop =>
            simp only [handleMsg, Prog.bind_eq, Prog.run_bind] at hm
            rcases hc : Prog.run exec (cmdStop l.daemon) w with ⟨(e | ⟨r', d'⟩), w3⟩
            · rw [hc] at hm; cases hm
            · rw [hc] at hm; cases hm; rfl
          | reload parsed =>
            simp only [handleMsg, Prog.bind_eq, Prog.run_bind] at hm
            rcases hc : Prog.run exec (cmdReload l.daemon parsed) w with ⟨(e | ⟨r', d'⟩), w3⟩
            · rw [hc] at hm; cases hm
            · rw [hc] at hm; cases hm; rfl
          | otherAttribute n => cases hm
          | notAString => cases hm
          | unknown n =>
            cases hr : l.ret with
            | none => simp [handleMsg, hr] at hm
            | some r0 =>
              simp only [handleMsg, hr] at hm
              cases hm
              exact hr
        rw [ih hs, h1]
        cases hrs : rs1.getLast? with
        | none =>
          have : rs1 = [] := List.getLast?_eq_none_iff.mp hrs
          subst this; rfl
        | some x =>
          rw [List.getLast?_cons, hrs]; rfl

/-- **C106**, exactly, if the device can be registered: after any sequence of messages to the daemon,
the component is registered, and the user is sent the reply of the daemon to the last of these
messages, whatever that was.  The daemon is not changed. -/
theorem C106_reply (i : Iface) (k : Key) (l : DLoop) (ms : List DMsg) (w : World) (rs : List CReply)
    (r : CReply) (l' : DLoop) (w' : World) (h : runW (serve l ms) w = (.ok (rs, l'), w'))
    (hr : rs.getLast? = some r) :
    ∃ i', byHand i k .ok l' w' = (.reply (.daemon r), i', l', w') ∧ k ∈ i'.devmap ∧
      ∀ k', k' ≠ k → (k' ∈ i'.devmap ↔ k' ∈ i.devmap) := by
  have hl : l'.ret = some r := by rw [serve_last h, hr]; rfl
  have hreg : ∃ i', cmpRegister i k .ok = .ok (i', true) ∧ i'.devmap = addKey i.devmap k := by
    cases hv : i.ver with
    | v20 => exact ⟨_, by simp only [cmpRegister, hv]; rfl, rfl⟩
    | v21 => exact ⟨_, by simp only [cmpRegister, hv]; rfl, rfl⟩
  obtain ⟨i', hc, hd⟩ := hreg
  refine ⟨i', ?_, ?_, ?_⟩
  · simp only [byHand, hc, handleMsg, hl, runW]
    rfl
  · rw [hd]; unfold addKey; split
    · assumption
    · simp
  · intro k' hne
    rw [hd]; unfold addKey; split
    · rfl
    · simp [hne]

/-- **C106** (`_partial`: success and failure only; missing are the capabilities, which are never
sent, and a failure that is not one of the registration, see `C106_refuted`): a success is reported
only if the device has been registered; and if the last reply of the daemon was a success, then also
whenever it has been registered.  A device that can not be registered is reported as a failure (of
the driver), or ends the driver process. -/
theorem C106_partial (i : Iface) (k : Key) (o : RegOut) (l : DLoop) (w : World) (r : HReply)
    (i' : Iface) (l' : DLoop) (w' : World) (h : byHand i k o l w = (.reply r, i', l', w')) :
    (r.success = true → o = .ok ∧ k ∈ i'.devmap) ∧
    (o ≠ .ok → r = .driver false none ∧ l' = l ∧ w' = w) ∧
    (o = .ok → (∀ r0, l.ret = some r0 → r0.success = true) → r.success = true) := by
  unfold byHand at h
  cases hc : cmpRegister i k o with
  | error e => rw [hc] at h; cases h
  | ok x =>
    obtain ⟨i1, b⟩ := x
    rw [hc] at h
    have hb : b = true ↔ o = .ok := by
      cases hv : i.ver <;> cases o <;> simp [cmpRegister, hv] at hc <;> simp [← hc.2]
    have hk : o = .ok → k ∈ i1.devmap := by
      rintro rfl
      have : i1.devmap = addKey i.devmap k := by
        cases hv : i.ver <;> simp [cmpRegister, hv] at hc <;> rw [← hc.1]
      rw [this]; unfold addKey; split
      · assumption
      · simp
    cases b with
    | false =>
      cases h
      refine ⟨(by intro h; cases h), fun _ => ⟨rfl, rfl, rfl⟩, fun ho => ?_⟩
      exact absurd (hb.mpr ho) (by simp)
    | true =>
      have ho := hb.mp rfl
      cases hr : l.ret with
      | none => simp [handleMsg, hr, runW] at h
      | some r0 =>
        simp only [handleMsg, hr, runW] at h
        cases h
        exact ⟨fun _ => ⟨ho, hk ho⟩, fun hn => absurd ho hn, fun _ hs => hs r0 rfl⟩

example : ∃ r l', byHand {} ("a", "1") .ok { daemon := {}, ret := some { success := true, msg := .reloaded } } {} =
    (.reply (.daemon r), { devmap := [("a", "1")], retries := [(("a", "1"), 0)] }, l', {}) := ⟨_, _, rfl⟩

/-- **C106** is violated: the capabilities of a registered component never reach the user, in any
execution; and if a reload was refused just before, the registration is reported as failed although
the component has been registered. -/
theorem C106_refuted :
    (∀ i k l w r i' l' w' caps, byHand i k .ok l w = (.reply r, i', l', w') → ¬ TellsOutcome .ok caps r) ∧
    ∃ (rs : List CReply) (l : DLoop) (r : HReply) (i' : Iface),
      runW (serve { daemon := { status := .running } } [.status, .reload none]) {} = (.ok (rs, l), {}) ∧
      byHand {} ("a", "1") .ok l {} = (.reply r, i', l, {}) ∧ r.success = false ∧ ("a", "1") ∈ i'.devmap := by
  refine ⟨?_, _, _, _, _, rfl, rfl, rfl, by decide⟩
  intro i k l w r i' l' w' caps h ht
  unfold TellsOutcome at ht
  rw [if_pos rfl] at ht
  subst ht
  unfold byHand at h
  cases hc : cmpRegister i k .ok with
  | error e => rw [hc] at h; cases h
  | ok x =>
    obtain ⟨i1, b⟩ := x
    rw [hc] at h
    cases b with
    | false => cases h
    | true =>
      cases hr : l.ret with
      | none => simp [handleMsg, hr, runW] at h
      | some r0 =>
        simp only [handleMsg, hr, runW] at h
        cases h

end Tomato.Props
