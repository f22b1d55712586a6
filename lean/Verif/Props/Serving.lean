import Verif.Props.Quit
import Mathlib.Tactic.ByContra

/-!
# A driver serves its components one after the other (C122)

The model is that of `Verif/Quit.lean`: one main thread, which carries out one command after the other
(`driver.py:248-316`), and a worker for each component.  `task_data` and `task_stop` wait for the lock which the worker
of the component holds while it measures (2_1:542, 636); `cmp_reset` and `cmp_teardown` wait for the end of the worker
(2_1:673).  While the main thread waits, no message for any other component is taken up.
-/

namespace Tomato.Props
open Tomato.I21 (Ev Item Dev Choice Cmd WPc CPc)
open Tomato.Quit

/-! ## Specification -/

/-- The worker is in `with self.datalock`, 2_1:542-543: it takes a sample. -/
def Sampling (d : Dev) : Prop := ∃ t, d.wpc = .meas t ∨ d.wpc = .store t ∨ d.wpc = .unlock t

/-- What the main thread may have to wait for, in a command for device `d`. -/
def Awaited (d : Dev) : Prop := (d.cpc = .gLock ∧ Sampling d) ∨ ∃ r, d.cpc = .rJoin r ∧ d.wpc ≠ .dead

/-- Only these may happen until the command is over. -/
def Inside (a : Act) : Prop := a = .go ∨ ∃ i c, a = .worker i c

/-- The steps it takes at most (of the main thread, or of the worker of this component when the main thread waits for
it) until the last one, which ends the command. -/
def most : Cmd → Nat
  | .start _ => 0
  | .measure => 2
  | .data | .stop => 7
  | .reset _ => 13

/-! ## Lemmas -/

theorem wHolds_iff {d : Dev} : wHolds d.wpc = true ↔ Sampling d := by
  unfold Sampling
  cases d.wpc <;> simp [wHolds]

/-- When the command thread of a device can not go on. -/
theorem cstep_none {h : List Ev} {d : Dev} (hi : Inv h d) : (d.cpc ≠ .idle ∧ I21.cstep d = none) ↔ Awaited d := by
  unfold Awaited I21.cstep
  cases hc : d.cpc with
  | idle => simp
  | gRead => simp
  | gClear r => simp
  | gRet r => simp
  | mEmpty => simp only; constructor
              · rintro ⟨-, h⟩; split at h <;> cases h
              · rintro (⟨h, -⟩ | ⟨r, h, -⟩) <;> cases h
  | mPut => simp
  | rJoin r => by_cases hw : d.wpc = .dead <;> simp [hw]
  | gLock =>
    have hl : d.lock = none ↔ ¬ Sampling d := by
      rw [← wHolds_iff, ← hi.wlock]
      have h2 := hi.clock
      rw [hc] at h2
      cases hx : d.lock with
      | none => simp
      | some w =>
        cases w with
        | worker => simp
        | cmd => exact absurd (h2.mp hx) (by simp [cHolds])
    by_cases hs : Sampling d
    · have : d.lock ≠ none := fun e => (hl.mp e) hs
      simp [this, hs]
    · simp [hl.mpr hs, hs]

theorem exitStep_none {fork : Bool} {d : Dev} : exitStep fork d = none ↔ I21.cstep d = none := by
  unfold exitStep
  cases I21.cstep d with
  | none => simp
  | some p => cases fork <;> simp

/-- When the main thread can not go on. -/
theorem stuck_iff {fork : Bool} {h : List QEv} {s : St} (hi : QInv h s) (hr : RInv s) (h1 : s.pc ≠ .serving)
    (h2 : s.pc ≠ .gone) :
    ¬ CanGo fork s ↔ ∃ (i : Nat) (d : Dev), busy s.pc = some i ∧ s.devs[i]? = some d ∧ Awaited d := by
  have hex : ∀ i ∈ refs s.pc, ∃ d, s.devs[i]? = some d := fun i hi =>
    ⟨_, List.getElem?_eq_getElem (hr.pc i hi)⟩
  cases hbb : busy s.pc with
  | none =>
    refine ⟨fun hn => absurd ?_ hn, by rintro ⟨_, _, h, -⟩; cases h⟩
    unfold CanGo
    simp only [act, Quit.go]
    cases hp : s.pc with
    | serving => exact absurd hp h1
    | gone => exact absurd hp h2
    | quit rest =>
      cases rest with
      | nil => rfl
      | cons i rest =>
        obtain ⟨d, hd⟩ := hex i (by rw [hp]; simp [refs])
        simp [onDev, hd]
    | exit rest =>
      cases rest with
      | nil => rfl
      | cons i rest =>
        obtain ⟨d, hd⟩ := hex i (by rw [hp]; simp [refs])
        simp [onDev, hd]
    | _ => rw [hp] at hbb; cases hbb
  | some i =>
    have hmem : i ∈ refs s.pc := by
      cases hp : s.pc <;> rw [hp] at hbb <;> cases hbb <;> simp [refs]
    obtain ⟨d, hd⟩ := hex i hmem
    have hR : (∃ (j : Nat) (x : Dev), some i = some j ∧ s.devs[j]? = some x ∧ Awaited x) ↔ Awaited d := by
      constructor
      · rintro ⟨j, x, hj, hx, hw⟩
        cases hj
        rw [hd] at hx
        cases hx
        exact hw
      · intro hw
        exact ⟨i, d, rfl, hd, hw⟩
    rw [hR, ← cstep_none (hi.inv i d hd)]
    by_cases hc : d.cpc = .idle
    · have hf : Quit.free s i = true := free_iff.mpr (fun x hx => by rw [hd] at hx; cases hx; exact hc)
      refine ⟨fun hn => absurd ?_ hn, fun hn => absurd hc hn.1⟩
      unfold CanGo
      simp only [act, Quit.go]
      cases hp : s.pc with
      | cmd j drop => rw [hp] at hbb; cases hbb; cases drop <;> simp [hf]
      | quitStop j rest => rw [hp] at hbb; cases hbb; simp [hf, onDev, hd]
      | quitReset j rest => rw [hp] at hbb; cases hbb; simp [hf]
      | exitReset j rest => rw [hp] at hbb; cases hbb; simp [hf]
      | _ => rw [hp] at hbb; cases hbb
    · have hf : Quit.free s i = false := by
        cases hf : Quit.free s i with
        | false => rfl
        | true => exact absurd (free_iff.mp hf d hd) hc
      have hon : ∀ (pc : Pc) (f : Dev → Option (Dev × List Ev)), (onDev s i pc f).isSome = (f d).isSome := by
        intro pc f
        unfold onDev
        rw [hd]
        cases hfd : f d <;> simp [hfd]
      have hgo : CanGo fork s ↔ (I21.cstep d).isSome = true := by
        unfold CanGo
        simp only [act, Quit.go]
        cases hp : s.pc with
        | cmd j drop => rw [hp] at hbb; cases hbb; simp [hf, hon]
        | quitStop j rest => rw [hp] at hbb; cases hbb; simp [hf, hon]
        | quitReset j rest => rw [hp] at hbb; cases hbb; simp [hf, hon]
        | exitReset j rest =>
          rw [hp] at hbb; cases hbb
          simp only [hf, Bool.false_eq_true, if_false, hon]
          cases hcs : I21.cstep d with
          | none => rw [exitStep_none.mpr hcs]
          | some p =>
            cases he : exitStep fork d with
            | none => rw [exitStep_none.mp he] at hcs; cases hcs
            | some q => simp
        | _ => rw [hp] at hbb; cases hbb
      rw [hgo]
      cases hcs : I21.cstep d <;> simp [hc]

/-! ## C122 -/

/-- **C122**, exactly when a driver does not react: in a command, the main thread waits if and only if the command is
`task_data` or `task_stop` and a sample is being taken on the same component, or it is a reset and the worker of the
component has not ended.  What the other components do is of no importance. -/
theorem C122_exact {fork : Bool} {as : List Act} {s : St} {h : List QEv} (hr : run fork {} as = some (s, h))
    (h1 : s.pc ≠ .serving) (h2 : s.pc ≠ .gone) :
    ¬ CanGo fork s ↔ ∃ (i : Nat) (d : Dev), busy s.pc = some i ∧ s.devs[i]? = some d ∧ Awaited d :=
  stuck_iff (QInv.init.run as hr) (RInv.init.run as hr) h1 h2

/-- The steps left of a command. -/
def serveRank (d : Dev) : Nat :=
  match d.cpc with
  | .idle => 1
  | .mEmpty => 3 | .mPut => 2
  | .gLock => 5 + lockRank d.wpc | .gRead => 4 | .gClear _ => 3 | .gRet _ => 2
  | .rJoin _ => 2 + joinRank d.wpc

theorem serve_begin {d : Dev} (c : Cmd) (hc : d.cpc = .idle) : serveRank (I21.cbegin d c).1 ≤ most c + 1 := by
  unfold serveRank most
  have := lockRank_le d.wpc
  have := joinRank_le d.wpc
  cases c <;> simp only [I21.cbegin, hc] <;> try omega
  cases hr : d.running <;> simp [hc]

theorem serve_step {d d' : Dev} {es : List Ev} (h : I21.cstep d = some (d', es)) :
    serveRank d' < serveRank d := by
  obtain ⟨q, rr, dr, dt, da, l, lk, w, cp⟩ := d
  unfold I21.cstep at h
  simp only at h
  cases cp <;> simp only at h <;> (try split at h) <;> (try cases h) <;>
    simp_all [serveRank, I21.afterReset] <;> omega

theorem serve_worker {d d' : Dev} {c : Choice} {es : List Ev}
    (hj : ∀ r, d.cpc = .rJoin r → d.doRun = false) (hw : I21.wstep d c = some (d', es)) (ha : Awaited d) :
    serveRank d' < serveRank d := by
  unfold serveRank
  rw [(wstep_cpc hw).1]
  rcases ha with ⟨hc, hs⟩ | ⟨r, hc, -⟩
  · rw [hc]
    simp only [Nat.add_lt_add_iff_left]
    exact lock_worker hw (wHolds_iff.mpr hs)
  · rw [hc]
    simp only [Nat.add_lt_add_iff_left]
    exact join_worker hw (hj r hc)

/-- The number of steps which count, until the main loop is reached again. -/
theorem serve_bound {fork : Bool} {h : List QEv} (bs : List Act) {s s' : St} {i : Nat} {drop : Option Nat} {d : Dev}
    {b : List QEv} (hi : QInv h s) (hv : RInv s) (hp : s.pc = .cmd i drop) (hd : s.devs[i]? = some d)
    (hr : run fork s bs = some (s', b)) (hin : ∀ a ∈ bs, Inside a) (hpr : Prompt fork s bs) :
    s'.pc = .serving ∨ counted fork s bs + 1 ≤ serveRank d := by
  induction bs generalizing h s d b with
  | nil =>
    right
    simp only [counted]
    unfold serveRank
    cases d.cpc <;> simp only <;> omega
  | cons a bs ih =>
    simp only [Quit.run] at hr
    split at hr
    · cases hr
    next s1 e1 h1 =>
    split at hr
    · cases hr
    next s2 e2 h2 =>
    cases hr
    have hi1 := hi.step h1
    have hv1 := hv.step h1
    simp only [counted, h1]
    have hin' : ∀ a ∈ bs, Inside a := fun a ha => hin a (List.mem_cons_of_mem _ ha)
    have hpr' := hpr.2 s1 e1 h1
    have hserv : ∀ (bs : List Act) (s1 : St) (e2 : List QEv), (∀ a ∈ bs, Inside a) → s1.pc = .serving →
        run fork s1 bs = some (s', e2) → s'.pc = .serving := by
      intro bs
      induction bs with
      | nil => intro s1 e2 _ hp1 hr; cases hr; exact hp1
      | cons a bs ih =>
        intro s1 e2 hin hp1 hr
        simp only [Quit.run] at hr
        split at hr
        · cases hr
        next s3 e3 h3 =>
        split at hr
        · cases hr
        next s4 e4 h4 =>
        cases hr
        refine ih s3 e4 (fun a ha => hin a (List.mem_cons_of_mem _ ha)) ?_ h4
        rcases hin a List.mem_cons_self with rfl | ⟨j, c, rfl⟩
        · simp only [act, Quit.go, hp1] at h3
          cases h3
        · simp only [act, hp1] at h3
          rw [if_neg (by simp)] at h3
          obtain ⟨d, d', es', -, -, -, rfl⟩ := onDev_some h3
          rfl
    have hbusy : busy s.pc = some i := by rw [hp]; rfl
    rcases hin a List.mem_cons_self with rfl | ⟨j, c, rfl⟩
    · -- the main thread
      rw [show (if Counts s .go then 1 else 0) = 1 from if_pos trivial]
      simp only [act, Quit.go, hp] at h1
      by_cases hf : Quit.free s i = true
      · rw [if_pos hf] at h1
        left
        cases drop with
        | none => cases h1; exact hserv bs _ _ hin' rfl h2
        | some k => cases h1; exact hserv bs _ _ hin' rfl h2
      · rw [if_neg hf] at h1
        obtain ⟨d0, d', es', hd0, hst, -, rfl⟩ := onDev_some h1
        rw [hd] at hd0
        cases hd0
        have hlt : i < s.devs.length := (List.getElem?_eq_some_iff.mp hd).1
        rcases ih (d := d') hi1 hv1 rfl (by simp [hlt]) h2 hin' hpr' with h | h
        · exact .inl h
        · right
          have := serve_step hst
          omega
    · simp only [act] at h1
      split at h1
      · cases h1
      obtain ⟨d0, d', es', hd0, hst, -, rfl⟩ := onDev_some h1
      by_cases hji : j = i
      · subst hji
        rw [hd] at hd0
        cases hd0
        have hng := hpr.1 j c rfl hbusy
        obtain ⟨i', d'', hb', hd'', haw⟩ := (stuck_iff hi hv (by rw [hp]; simp) (by rw [hp]; simp)).mp hng
        rw [hbusy] at hb'
        cases hb'
        rw [hd] at hd''
        cases hd''
        have hlt : j < s.devs.length := (List.getElem?_eq_some_iff.mp hd).1
        have hlow := serve_worker (fun r hr => hi.join j d r hd hr) hst haw
        rcases ih (d := d') hi1 hv1 hp (by simp [hlt]) h2 hin' hpr' with h | h
        · exact .inl h
        · right
          have : (if Counts s (.worker j c) then 1 else 0) ≤ 1 := by split <;> omega
          omega
      · have hno : ¬ Counts s (.worker j c) := by
          simp only [Counts, hbusy, Option.some.injEq]
          exact fun e => hji e.symm
        rw [if_neg hno, Nat.zero_add]
        exact ih hi1 hv1 hp (by simp only [List.getElem?_set_ne hji]; exact hd) h2 hin' hpr'

/-- Commands which do not wait. -/
def light : CPc → Bool
  | .idle | .mEmpty | .mPut => true
  | _ => false

theorem light_step {d d' : Dev} {es : List Ev} (h : I21.cstep d = some (d', es)) (hl : light d.cpc = true) :
    light d'.cpc = true := by
  obtain ⟨q, rr, dr, dt, da, l, lk, w, cp⟩ := d
  unfold I21.cstep at h
  simp only at h
  cases cp <;> simp only at h <;> (try split at h) <;> (try cases h) <;> simp_all [light]

/-- The command goes on. -/
theorem serve_pc {fork : Bool} (bs : List Act) {s s' : St} {i : Nat} {d : Dev} {b : List QEv}
    (hp : s.pc = .serving ∨ s.pc = .cmd i none ∧ s.devs[i]? = some d)
    (hr : run fork s bs = some (s', b)) (hin : ∀ a ∈ bs, Inside a) :
    s'.pc = .serving ∨ s'.pc = .cmd i none ∧ ∃ d', s'.devs[i]? = some d' ∧ (light d.cpc = true → light d'.cpc = true) := by
  induction bs generalizing s d b with
  | nil =>
    cases hr
    rcases hp with hp | ⟨hp, hd⟩
    · exact .inl hp
    · exact .inr ⟨hp, d, hd, id⟩
  | cons a bs ih =>
    simp only [Quit.run] at hr
    split at hr
    · cases hr
    next s1 e1 h1 =>
    split at hr
    · cases hr
    next s2 e2 h2 =>
    cases hr
    have hin' : ∀ a ∈ bs, Inside a := fun a ha => hin a (List.mem_cons_of_mem _ ha)
    rcases hp with hp | ⟨hp, hd⟩
    · refine ih (d := d) (.inl ?_) h2 hin'
      rcases hin a List.mem_cons_self with rfl | ⟨j, c, rfl⟩
      · simp only [act, Quit.go, hp] at h1
        cases h1
      · simp only [act, hp] at h1
        rw [if_neg (by simp)] at h1
        obtain ⟨d, d', es', -, -, -, rfl⟩ := onDev_some h1
        rfl
    · have hlt : i < s.devs.length := (List.getElem?_eq_some_iff.mp hd).1
      rcases hin a List.mem_cons_self with rfl | ⟨j, c, rfl⟩
      · simp only [act, Quit.go, hp] at h1
        by_cases hf : Quit.free s i = true
        · rw [if_pos hf] at h1
          cases h1
          exact ih (d := d) (.inl rfl) h2 hin'
        · rw [if_neg hf] at h1
          obtain ⟨d0, d', es', hd0, hst, -, rfl⟩ := onDev_some h1
          rw [hd] at hd0
          cases hd0
          rcases ih (d := d') (.inr ⟨rfl, by simp [hlt]⟩) h2 hin' with h | ⟨h, x, hx, hl⟩
          · exact .inl h
          · exact .inr ⟨h, x, hx, fun hd => hl (light_step hst hd)⟩
      · simp only [act] at h1
        split at h1
        · cases h1
        obtain ⟨d0, d', es', hd0, hst, -, rfl⟩ := onDev_some h1
        by_cases hji : j = i
        · subst hji
          rw [hd] at hd0
          cases hd0
          rcases ih (s := ⟨s.devs.set j d', s.devmap, s.pc⟩) (d := d') (.inr ⟨hp, by simp [hlt]⟩) h2 hin' with h | ⟨h, x, hx, hl⟩
          · exact .inl h
          · exact .inr ⟨h, x, hx, fun hd => hl (by rw [(wstep_cpc hst).1]; exact hd)⟩
        · exact ih (s := ⟨s.devs.set j d', s.devmap, s.pc⟩) (d := d) (.inr ⟨hp, by simp only [List.getElem?_set_ne hji]; exact hd⟩) h2 hin'

/-- A worker which is waited for can go on. -/
theorem awaited_worker {h : List Ev} {d : Dev} (hi : Inv h d) (ha : Awaited d) (c : Choice) :
    (I21.wstep d c).isSome = true := by
  rcases ha with ⟨-, t, hw | hw | hw⟩ | ⟨r, hc, hnd⟩
  · unfold I21.wstep
    rw [hw]
    simp only
    cases c.result <;> rfl
  · unfold I21.wstep; rw [hw]; rfl
  · unfold I21.wstep; rw [hw]; rfl
  · have hlk : ∀ t, d.wpc = .lock t → d.lock = none := by
      intro t ht
      cases hx : d.lock with
      | none => rfl
      | some w =>
        cases w with
        | worker =>
          have := hi.wlock.mp hx
          rw [ht] at this
          cases this
        | cmd =>
          have := hi.clock.mp hx
          rw [hc] at this
          cases this
    unfold I21.wstep
    split
    all_goals (try split)
    all_goals first
      | rfl
      | (next h => exact absurd h hnd)
      | skip
    all_goals simp_all

/-- **C122**, `_partial`: a command for a component is over, and the driver takes up the next message, after a bounded
number of steps: those of the main thread, and those of the worker of this component which the main thread waits for
(none at all for `task_start` and `cmp_measure`; until the end of the sample for `task_data` and `task_stop`; until the
end of the worker for `cmp_reset`).  No number of steps of other components is needed.  Meanwhile the main thread or
this worker can go on.  Missing: these steps of the worker contain the measurement itself, which may take any time
(`C122_refuted`). -/
theorem C122_partial {fork : Bool} {as bs : List Act} {s s1 s' : St} {h e b : List QEv} {k : Nat} {c : Cmd}
    (hr : run fork {} as = some (s, h)) (hc : act fork s (.cmd k c) = some (s1, e))
    (hb : run fork s1 bs = some (s', b)) (hin : ∀ a ∈ bs, Inside a) (hpr : Prompt fork s1 bs)
    (hns : s'.pc ≠ .serving) :
    counted fork s1 bs ≤ most c ∧ (CanGo fork s' ∨ ∃ i, busy s'.pc = some i ∧ Dict.get? s.devmap k = some i ∧
      c ≠ .measure ∧ (∀ t, c ≠ .start t) ∧ ∀ ch, (act fork s' (.worker i ch)).isSome = true) := by
  have hps : s.pc = .serving := by
    by_contra hne
    simp only [act, if_neg hne] at hc
    cases hc
  have hc' := hc
  simp only [act, if_pos hps] at hc
  have hi := QInv.init.run as hr
  have hv := RInv.init.run as hr
  split at hc
  · cases hc
    exfalso
    rcases serve_pc (i := 0) (d := Dev.init) bs (.inl hps) hb hin with h | h
    · exact hns h
    · rcases serve_pc (i := 1) (d := Dev.init) bs (.inl hps) hb hin with h' | h'
      · exact hns h'
      · rw [h.1] at h'; cases h'.1
  · next i hk =>
    obtain ⟨d, d1, es, hd, hst, -, rfl⟩ := onDev_some hc
    rw [Option.some.injEq] at hst
    obtain rfl : (I21.cbegin d c).1 = d1 := by rw [hst]
    have hlt : i < s.devs.length := (List.getElem?_eq_some_iff.mp hd).1
    have hidle : d.cpc = .idle := by
      by_contra hne
      have := hi.idle i d hd hne
      rw [hps] at this
      cases this
    have hi1 := hi.step hc'
    have hv1 := hv.step hc'
    have hd1 : (s.devs.set i (I21.cbegin d c).1)[i]? = some (I21.cbegin d c).1 := by simp [hlt]
    refine ⟨?_, ?_⟩
    · rcases serve_bound bs hi1 hv1 rfl hd1 hb hin hpr with h | h
      · exact absurd h hns
      · have := serve_begin c hidle
        omega
    · rcases serve_pc (i := i) bs (.inr ⟨rfl, hd1⟩) hb hin with h | ⟨hp', d', hd', hl⟩
      · exact absurd h hns
      · by_cases hg : CanGo fork s'
        · exact .inl hg
        · right
          have hi' := hi1.run bs hb
          have hv' := hv1.run bs hb
          obtain ⟨j, x, hbj, hx, haw⟩ := (stuck_iff hi' hv' hns (by rw [hp']; simp)).mp hg
          rw [hp'] at hbj
          cases hbj
          rw [hd'] at hx
          cases hx
          have hnl : light d'.cpc ≠ true := by
            rcases haw with ⟨hc, -⟩ | ⟨r, hc, -⟩ <;> rw [hc] <;> simp [light]
          refine ⟨i, by rw [hp']; rfl, hk, ?_, ?_, ?_⟩
          · rintro rfl
            apply hnl
            apply hl
            simp only [I21.cbegin]
            cases d.running <;> simp [hidle, light]
          · rintro t rfl
            apply hnl
            apply hl
            simp [I21.cbegin, hidle, light]
          · intro ch
            have := awaited_worker (hi'.inv i d' hd') haw ch
            simp only [act, hp']
            rw [if_neg (by simp)]
            unfold onDev
            rw [hd']
            simp only
            cases hw : I21.wstep d' ch with
            | none => rw [hw] at this; cases this
            | some p => rfl

/-- Component 0 takes a sample, component 1 does nothing, and the job of component 0 asks for its data. -/
def waitActs : List Act :=
  [.register 0, .register 1, .cmd 0 (.start 7), .go] ++ List.replicate 11 (.worker 0 {}) ++ [.cmd 0 .data]

/-- **C122 is false of the code**: while a sample is taken on component 0 and its data is asked for, no message at all is
taken up, whatever the main thread and all the other workers do; `C122_partial` shows that this lasts until the worker
of component 0 is done with the sample. -/
theorem C122_refuted (fork : Bool) : ∃ s h, run fork {} waitActs = some (s, h) ∧ Dict.get? s.devmap 1 = some 1 ∧
    (s.devs[1]?).map (·.running) = some none ∧
    ∀ bs s' b, run fork s bs = some (s', b) → (∀ a ∈ bs, ∀ c, a ≠ .worker 0 c) →
      s'.pc = .cmd 0 none ∧ ∀ k c, act fork s' (.cmd k c) = none := by
  refine ⟨_, _, rfl, rfl, rfl, ?_⟩
  intro bs
  have key : ∀ (bs : List Act) (s s' : St) (b : List QEv) (d : Dev), s.pc = .cmd 0 none → s.devs[0]? = some d →
      d.cpc = .gLock → d.lock = some .worker → run fork s bs = some (s', b) → (∀ a ∈ bs, ∀ c, a ≠ .worker 0 c) →
      s'.pc = .cmd 0 none := by
    intro bs
    induction bs with
    | nil => intro s s' b d hp _ _ _ hr _; cases hr; exact hp
    | cons a bs ih =>
      intro s s' b d hp hd hc hl hr hin
      simp only [Quit.run] at hr
      split at hr
      · cases hr
      next s1 e1 h1 =>
      split at hr
      · cases hr
      next s2 e2 h2 =>
      cases hr
      have hin' : ∀ a ∈ bs, ∀ c, a ≠ .worker 0 c := fun a ha => hin a (List.mem_cons_of_mem _ ha)
      cases a with
      | worker j c =>
        have hj : j ≠ 0 := fun e => hin _ List.mem_cons_self c (by rw [e])
        simp only [act] at h1
        split at h1
        · cases h1
        obtain ⟨d0, d', es', hd0, hst, -, rfl⟩ := onDev_some h1
        exact ih ⟨s.devs.set j d', s.devmap, s.pc⟩ _ _ d hp (by simp only [List.getElem?_set_ne hj]; exact hd) hc hl h2 hin'
      | go =>
        simp only [act, Quit.go, hp] at h1
        have hf : Quit.free s 0 = false := by simp [Quit.free, hd, hc]
        simp [hf, onDev, hd, I21.cstep, hc, hl] at h1
      | _ => simp [act, hp] at h1
  intro s' b hr hin
  have hpc := key bs _ s' b _ rfl rfl rfl rfl hr hin
  refine ⟨hpc, fun k c => ?_⟩
  simp [act, hpc]

/-- The hypotheses of `C122_partial` can be met: after the sample the data is handed out. -/
example : ∃ s h s1 e s' b, run false {} (waitActs.dropLast) = some (s, h) ∧ act false s (.cmd 0 .data) = some (s1, e) ∧
    run false s1 [.worker 1 {}, .worker 0 {}, .worker 1 {}, .worker 0 {}, .worker 0 {}, .go, .go] = some (s', b) ∧
    promptB false s1 [.worker 1 {}, .worker 0 {}, .worker 1 {}, .worker 0 {}, .worker 0 {}, .go, .go] = true ∧
    counted false s1 [.worker 1 {}, .worker 0 {}, .worker 1 {}, .worker 0 {}, .worker 0 {}, .go, .go] = 5 ∧
    s'.pc ≠ .serving := by
  refine ⟨_, _, _, _, _, _, rfl, rfl, rfl, rfl, rfl, ?_⟩
  decide

end Tomato.Props
