import Verif.DriverLoop
import Verif.Props.DriverProc

/-!
# Settings of a driver process of any form (C120, C61)
-/

namespace Tomato.Props
open Tomato.Docs (Val lookup)
open Tomato.Drv (Iface Msg handle)
open Tomato.Loop

/-! ## Specification -/

/-- A number. -/
inductive Number : Val → Prop where
  | bool (b : Bool) : Number (.bool b)
  | int (i : Int) : Number (.int i)
  | float (w : Option Int) : Number (.float w)

/-- Settings with which the interval can be looked up: a table in which it is a number, or `null`, or missing; or
a list or a text without its name. -/
inductive Harmless : Val → Prop where
  | table {es} (h : ∀ v, lookup "idle_measurement_interval" es = some v → v = .null ∨ Number v) : Harmless (.map es)
  | list {xs} (h : .str "idle_measurement_interval" ∉ xs) : Harmless (.list xs)
  | text {s : String} (h : ¬ "idle_measurement_interval".toList <:+: s.toList) : Harmless (.str s)

/-- All settings which are sent. -/
def sentSettings (ts : List Tn) : List (Option Val) :=
  ts.filterMap (fun t => match t.inp with | .settings p => some p | _ => none)

/-! ## Lemmas -/

theorem interval_harmless {dflt : Option Nat} {v : Val} :
    Harmless v ↔ ∃ x, interval dflt v = .ok x ∧ (x = .null ∨ Number x) := by
  have hd : (dflt.elim Val.null (fun n => .int n)) = .null ∨ Number (dflt.elim Val.null (fun n => .int n)) := by
    cases dflt with
    | none => exact .inl rfl
    | some n => exact .inr (.int _)
  constructor
  · intro h
    cases h with
    | @table es h =>
      unfold interval imiKey
      simp only
      cases hl : lookup "idle_measurement_interval" es with
      | none => exact ⟨_, rfl, hd⟩
      | some w => exact ⟨w, rfl, h w hl⟩
    | @list xs h =>
      refine ⟨_, ?_, hd⟩
      simp only [interval]
      rw [if_neg]
      intro hc
      rw [List.any_eq_true] at hc
      obtain ⟨x, hx, hx'⟩ := hc
      cases x <;> simp at hx'
      subst hx'
      exact h hx
    | @text s h =>
      refine ⟨_, ?_, hd⟩
      simp only [interval]
      rw [if_neg]
      exact h
  · rintro ⟨x, hx, hx'⟩
    cases v with
    | map es =>
      refine .table (fun w hw => ?_)
      simp only [interval, imiKey, hw] at hx
      cases hx
      exact hx'
    | list xs =>
      refine .list (fun hm => ?_)
      simp only [interval] at hx
      rw [if_pos] at hx
      · cases hx
      · exact List.any_eq_true.mpr ⟨_, hm, by simp [imiKey]⟩
    | str s =>
      refine .text (fun hm => ?_)
      simp only [interval] at hx
      rw [if_pos] at hx
      · cases hx
      · exact hm
    | null => cases hx
    | bool b => cases hx
    | int i => cases hx
    | float w => cases hx

theorem interval_err {dflt : Option Nat} {v : Val} {e : PyErr} (h : interval dflt v = .error e) : e = .typeError := by
  unfold interval at h
  split at h
  · split at h <;> cases h
  · split at h <;> cases h; rfl
  · split at h <;> cases h; rfl
  · cases h; rfl

theorem less_number {fl : Nat → Bool} {t : Nat} {v : Val} : Number v ↔ ∃ b, less fl t v = .ok b := by
  constructor
  · intro h
    cases h with
    | bool b => exact ⟨_, rfl⟩
    | int i => exact ⟨_, rfl⟩
    | float w => cases w <;> exact ⟨_, rfl⟩
  · rintro ⟨b, h⟩
    cases v with
    | bool b => exact .bool _
    | int i => exact .int _
    | float w => exact .float _
    | null => cases h
    | str s => cases h
    | list xs => cases h
    | map es => cases h

theorem less_err {fl : Nat → Bool} {t : Nat} {v : Val} {e : PyErr} (h : less fl t v = .error e) : e = .typeError := by
  unfold less at h
  split at h <;> cases h
  rfl

theorem measureAll_main {s : LSt} {now : Nat} {r : Bool} :
    (measureAll s now r).1.main = s.main ∧ (measureAll s now r).1.settings = s.settings := by
  unfold measureAll
  cases r <;> exact ⟨rfl, rfl⟩

theorem idleV_settings {dflt : Option Nat} {fl : Nat → Bool} {s : LSt} {now : Nat} {r : Bool} :
    (idleV dflt fl s now r).1.settings = s.settings ∧ (idleV dflt fl s now r).1.iface = s.iface := by
  unfold idleV measureAll
  split
  · exact ⟨rfl, rfl⟩
  · exact ⟨rfl, rfl⟩
  · split
    · cases r <;> exact ⟨rfl, rfl⟩
    · split
      · exact ⟨rfl, rfl⟩
      · exact ⟨rfl, rfl⟩
      · cases r <;> exact ⟨rfl, rfl⟩

/-- With such settings nothing happens to the process. -/
theorem idleV_harmless {dflt : Option Nat} {fl : Nat → Bool} {s : LSt} {now : Nat} {r : Bool}
    (h : Harmless s.settings) : (idleV dflt fl s now r).1.main = s.main := by
  obtain ⟨x, hx, hx'⟩ := (interval_harmless (dflt := dflt)).mp h
  unfold idleV
  rw [hx]
  split
  · next e => cases e
  · rfl
  · next v hn e =>
    cases e
    rcases hx' with rfl | hx'
    · exact absurd rfl hn
    split
    · exact measureAll_main.1
    · next tl _ =>
      obtain ⟨b, hb⟩ := (less_number (fl := fl) (t := now - tl)).mp hx'
      rw [hb]
      cases b
      · exact measureAll_main.1
      · rfl

theorem turns_append (dflt : Option Nat) (fl : Nat → Bool) (as bs : List Tn) (s : LSt) :
    turns dflt fl s (as ++ bs) =
      ((turns dflt fl (turns dflt fl s as).1 bs).1, (turns dflt fl s as).2 ++ (turns dflt fl (turns dflt fl s as).1 bs).2) := by
  induction as generalizing s with
  | nil => rfl
  | cons a as ih => simp only [List.cons_append, turns, ih, List.append_assoc]

theorem turns_over {dflt : Option Nat} {fl : Nat → Bool} (ts : List Tn) {s : LSt} (h : s.main ≠ .serving) :
    turns dflt fl s ts = (s, []) := by
  induction ts with
  | nil => rfl
  | cons t ts ih =>
    have ht : turn dflt fl s t = (s, none) := by
      unfold turn
      cases hm : s.main with
      | serving => exact absurd hm h
      | stopping => rfl
      | died e => rfl
    simp only [turns, ht, ih]
    rfl

/-! ## C120 -/

/-- **C120** (partial: the interval in the settings is a number, or `null`, or missing, see `C120_refuted`; the message
`settings` has parameters): if a driver process has ended with an exception, then because of a message other than
`settings`, whose handling ended with this exception. -/
theorem C120_partial {dflt : Option Nat} {fl : Nat → Bool} (ts : List Tn) {s : LSt} (hs : s.main = .serving)
    (h0 : Harmless s.settings) (h : ∀ p ∈ sentSettings ts, ∃ v, p = some v ∧ Harmless v) {e : PyErr}
    (hd : (turns dflt fl s ts).1.main = .died e) :
    ∃ as t bs m, ts = as ++ t :: bs ∧ t.inp = .msg m ∧
      (handle (turns dflt fl s as).1.iface m).2.1 = .died e := by
  induction ts generalizing s with
  | nil => simp only [turns] at hd; rw [hs] at hd; cases hd
  | cons t ts ih =>
    have hrest : ∀ p ∈ sentSettings ts, ∃ v, p = some v ∧ Harmless v := by
      intro p hp
      refine h p ?_
      unfold sentSettings at hp ⊢
      rw [List.filterMap_cons]
      split
      · exact hp
      · exact List.mem_cons_of_mem _ hp
    have hset : Harmless (receive s t.inp).settings := by
      cases hi : t.inp with
      | quiet => exact h0
      | settings p =>
        obtain ⟨v, rfl, hv⟩ := h p (by simp [sentSettings, hi])
        exact hv
      | msg m =>
        simp only [receive]
        split <;> exact h0
    have hturn : turn dflt fl s t =
        match (receive s t.inp).main with
        | .serving => idleV dflt fl (receive s t.inp) t.now t.raises
        | _ => (receive s t.inp, none) := by
      unfold turn
      rw [hs]
      rfl
    cases hm : (receive s t.inp).main with
    | serving =>
      rw [hm] at hturn
      simp only at hturn
      simp only [turns] at hd
      rw [hturn] at hd
      obtain ⟨as, t', bs, m, h1, h2, h3⟩ := ih (by rw [idleV_harmless hset, hm])
        (by rw [idleV_settings.1]; exact hset) hrest hd
      exact ⟨t :: as, t', bs, m, by rw [h1]; rfl, h2, by simp only [turns]; rw [hturn]; exact h3⟩
    | stopping =>
      rw [hm] at hturn
      simp only at hturn
      simp only [turns] at hd
      rw [hturn, turns_over ts (by rw [hm]; simp), hm] at hd
      cases hd
    | died e' =>
      rw [hm] at hturn
      simp only at hturn
      simp only [turns] at hd
      rw [hturn, turns_over ts (by rw [hm]; simp), hm] at hd
      cases hd
      cases hi : t.inp with
      | quiet => rw [hi] at hm; simp only [receive] at hm; rw [hs] at hm; cases hm
      | settings p =>
        obtain ⟨v, rfl, hv⟩ := h p (by simp [sentSettings, hi])
        rw [hi] at hm
        simp only [receive] at hm
        rw [hs] at hm
        cases hm
      | msg m =>
        refine ⟨[], t, ts, m, rfl, hi, ?_⟩
        rw [hi] at hm
        simp only [receive] at hm
        simp only [turns]
        split at hm
        · next hh => simp only at hm; rw [hs] at hm; cases hm
        · cases hm
        · next f e'' es hh =>
          cases hm
          rw [hh]

/-- **C120**, exactly: a process to which nobody sends anything goes on after two turns (and all further ones) if and
only if its settings are harmless; otherwise it has ended with a `TypeError`. -/
theorem C120_exact {dflt : Option Nat} {fl : Nat → Bool} {s : LSt} (hs : s.main = .serving) (ts : List Tn)
    (hq : ∀ t ∈ ts, t.inp = .quiet ∧ t.raises = false) (hl : 2 ≤ ts.length) :
    (Harmless s.settings → (turns dflt fl s ts).1.main = .serving) ∧
    (¬ Harmless s.settings → (turns dflt fl s ts).1.main = .died .typeError) := by
  have hstep : ∀ (s : LSt) (t : Tn), s.main = .serving → t.inp = .quiet → t.raises = false →
      turn dflt fl s t = idleV dflt fl s t.now false := by
    intro s t h1 h2 h3
    unfold turn
    rw [h1, h2]
    simp only [receive]
    rw [h1, h3]
  constructor
  · intro hh
    clear hl
    induction ts generalizing s with
    | nil => exact hs
    | cons t ts ih =>
      obtain ⟨h1, h2⟩ := hq t (by simp)
      simp only [turns]
      rw [hstep s t hs h1 h2]
      exact ih (by rw [idleV_harmless hh, hs]) (fun t' ht' => hq t' (by simp [ht']))
        (by rw [idleV_settings.1]; exact hh)
  · intro hh
    obtain ⟨t1, t2, ts, rfl⟩ : ∃ t1 t2 rest, ts = t1 :: t2 :: rest := by
      match ts, hl with
      | t1 :: t2 :: rest, _ => exact ⟨t1, t2, rest, rfl⟩
    have h1 := hq t1 (by simp)
    have h2 := hq t2 (by simp)
    have hbad : ∀ (s : LSt) (now : Nat), ¬ Harmless s.settings → s.tLast ≠ none →
        (idleV dflt fl s now false).1.main = .died .typeError := by
      intro s now hh ht
      unfold idleV
      split
      · next e he => rw [interval_err he]
      · next he => exact absurd (interval_harmless.mpr ⟨_, he, .inl rfl⟩) hh
      · next v hn he =>
        split
        · next h => exact absurd h ht
        · next tl _ =>
          cases hc : less fl (now - tl) v with
          | error e => simp only; rw [less_err hc]
          | ok b => exact absurd (interval_harmless.mpr ⟨_, he, .inr (less_number.mpr ⟨b, hc⟩)⟩) hh
    simp only [turns]
    rw [hstep s t1 hs h1.1 h1.2]
    by_cases ht : s.tLast = none
    · cases hi : interval dflt s.settings with
      | error e =>
        have : idleV dflt fl s t1.now false = ({ s with main := .died .typeError }, none) := by
          unfold idleV
          rw [hi, interval_err hi]
        rw [this]
        have hne : ({ s with main := .died .typeError } : LSt).main ≠ .serving := by simp
        have h2' : turn dflt fl { s with main := .died .typeError } t2 = ({ s with main := .died .typeError }, none) := rfl
        rw [h2', turns_over ts hne]
      | ok v =>
        have hv : v ≠ .null := fun e => hh (interval_harmless.mpr ⟨v, hi, .inl e⟩)
        have : idleV dflt fl s t1.now false = ({ s with tLast := some t1.now }, some t1.now) := by
          unfold idleV
          rw [hi, ht]
          split
          · next e => cases e
          · next e => cases e; exact absurd rfl hv
          · rfl
        rw [this]
        have h3 := hstep { s with tLast := some t1.now } t2 hs h2.1 h2.2
        have h4 := hbad { s with tLast := some t1.now } t2.now hh (by simp)
        rw [h3, turns_over ts (by rw [h4]; simp), h4]
    · have h4 := hbad s t1.now hh ht
      have hne : (idleV dflt fl s t1.now false).1.main ≠ .serving := by rw [h4]; simp
      have h5 : turn dflt fl (idleV dflt fl s t1.now false).1 t2 = ((idleV dflt fl s t1.now false).1, none) := by
        unfold turn
        rw [h4]
      rw [h5, turns_over ts hne, h4]

/-- **C120 fails as stated**: a driver with `idle_measurement_interval = "1"` (a text) in the settings file ends with a
`TypeError` in the second turn of its main loop, whatever the times are and although nobody has sent it anything; one
in whose place of the settings a message has put `null` ends in the same turn. -/
theorem C120_refuted (dflt : Option Nat) (fl : Nat → Bool) (f : Iface) (t1 t2 : Nat) :
    (turns dflt fl { iface := f, settings := .map [(.str "idle_measurement_interval", .str "1")] }
      [{ now := t1 }, { now := t2 }]).1.main = .died .typeError ∧
    (turns dflt fl { iface := f, settings := .map [] }
      [{ inp := .settings (some .null), now := t1 }]).1.main = .died .typeError :=
  ⟨rfl, rfl⟩

/-- **C120**, the other direction of `C120_partial`: a message whose handling raises an exception ends the process, and
`stop` stops it; in both cases there are no idle measurements any more, not even in the same turn. -/
theorem C120_message_ends {dflt : Option Nat} {fl : Nat → Bool} {s : LSt} {as bs : List Tn} {t : Tn} {m : Msg}
    (hs : (turns dflt fl s as).1.main = .serving) (hm : t.inp = .msg m) :
    (∀ e, (handle (turns dflt fl s as).1.iface m).2.1 = .died e →
      (turns dflt fl s (as ++ t :: bs)).1.main = .died e ∧
      (turns dflt fl s (as ++ t :: bs)).2 = (turns dflt fl s as).2) ∧
    ((handle (turns dflt fl s as).1.iface m).2.1 = .stopping →
      (turns dflt fl s (as ++ t :: bs)).1.main = .stopping ∧
      (turns dflt fl s (as ++ t :: bs)).2 = (turns dflt fl s as).2) := by
  rw [turns_append]
  generalize turns dflt fl s as = r at hs
  obtain ⟨r, l⟩ := r
  simp only at hs ⊢
  have key : ∀ mn, mn ≠ .serving → (receive r t.inp).main = mn →
      (turns dflt fl r (t :: bs)).1.main = mn ∧ (turns dflt fl r (t :: bs)).2 = [] := by
    intro mn hne hrec
    have ht : turn dflt fl r t = (receive r t.inp, none) := by
      unfold turn
      rw [hs]
      simp only
      rw [hrec]
      cases mn with
      | serving => exact absurd rfl hne
      | stopping => rfl
      | died e => rfl
    simp only [turns, ht, turns_over bs (s := receive r t.inp) (by rw [hrec]; exact hne)]
    exact ⟨hrec, rfl⟩
  constructor
  · intro e he
    obtain ⟨h1, h2⟩ := key (.died e) (by simp) (by
      rw [hm]
      simp only [receive]
      split
      · next h => rw [h] at he; cases he
      · next h => rw [h] at he; cases he
      · next h => rw [h] at he; cases he; rfl)
    exact ⟨h1, by rw [h2, List.append_nil]⟩
  · intro he
    obtain ⟨h1, h2⟩ := key .stopping (by simp) (by
      rw [hm]
      simp only [receive]
      split
      · next h => rw [h] at he; cases he
      · rfl
      · next h => rw [h] at he; cases he)
    exact ⟨h1, by rw [h2, List.append_nil]⟩

/-- The hypotheses can be met: `stop` in the third turn. -/
example : (turns none (fun _ => false) { iface := {}, settings := .map [(.str "idle_measurement_interval", .int 1)] }
    [{ now := 1 }, { now := 5 }]).1.main = .serving ∧
    (handle ((turns none (fun _ => false) { iface := {}, settings := .map [(.str "idle_measurement_interval", .int 1)] }
      [{ now := 1 }, { now := 5 }]).1.iface) .stop).2.1 = .stopping := ⟨rfl, rfl⟩

/-- Sanity checks: harmless settings, with and without the interval. -/
example : Harmless (.map [(.str "idle_measurement_interval", .int 5)]) :=
  .table (fun v hv => by cases hv; exact .inr (.int 5))

example : (turns none (fun _ => false) { iface := {}, settings := .map [(.str "idle_measurement_interval", .int 4)] }
    [{ now := 1 }, { now := 2 }, { inp := .msg .unknown, now := 5 }, { inp := .msg .attr, now := 6 }, { now := 90 }]).2 =
      [1, 5] := rfl

example : (turns none (fun _ => false) { iface := {}, settings := .map [(.str "idle_measurement_interval", .int 4)] }
    [{ now := 1 }, { now := 2 }, { inp := .msg .unknown, now := 5 }, { inp := .msg .attr, now := 6 }]).1.main =
      .died .typeError := rfl

/-! ## C61 -/

/-- A table with this interval. -/
def SetTo (v : Val) (x : Val) : Prop := ∃ es, v = .map es ∧ lookup "idle_measurement_interval" es = some x

theorem interval_set {dflt : Option Nat} {v x : Val} (h : SetTo v x) : interval dflt v = .ok x := by
  obtain ⟨es, rfl, hl⟩ := h
  simp only [interval, imiKey, hl]

/-- The times of the last round and of all later ones. -/
theorem turns_apart {dflt : Option Nat} {fl : Nat → Bool} {d : Nat} (ts : List Tn) {s : LSt}
    (hset : SetTo s.settings (.int d)) (h : ∀ t ∈ ts, t.raises = false ∧ ∀ p, t.inp ≠ .settings p)
    (hp : (ts.map (·.now)).Pairwise (· ≤ ·)) :
    (∀ tl, s.tLast = some tl → (∀ t ∈ ts, tl ≤ t.now) → Apart d (tl :: (turns dflt fl s ts).2)) ∧
    (s.tLast = none → Apart d (turns dflt fl s ts).2) := by
  induction ts generalizing s with
  | nil => exact ⟨fun tl _ _ => trivial, fun _ => trivial⟩
  | cons t ts ih =>
    by_cases hs : s.main = .serving
    swap
    · rw [turns_over _ hs]
      exact ⟨fun tl _ _ => trivial, fun _ => trivial⟩
    obtain ⟨hr, hi⟩ := h t (by simp)
    simp only [List.map_cons, List.pairwise_cons] at hp
    have hrec : (receive s t.inp).settings = s.settings ∧ (receive s t.inp).tLast = s.tLast := by
      cases hi' : t.inp with
      | quiet => exact ⟨rfl, rfl⟩
      | settings p => exact absurd hi' (hi p)
      | msg m => simp only [receive]; split <;> exact ⟨rfl, rfl⟩
    have hturn : turn dflt fl s t =
        match (receive s t.inp).main with
        | .serving => idleV dflt fl (receive s t.inp) t.now t.raises
        | _ => (receive s t.inp, none) := by
      unfold turn
      rw [hs]
      rfl
    generalize hs' : receive s t.inp = s' at hrec hturn
    by_cases hm : s'.main = .serving
    swap
    · have : turn dflt fl s t = (s', none) := by
        rw [hturn]
        cases hx : s'.main with
        | serving => exact absurd hx hm
        | _ => rfl
      simp only [turns, this]
      rw [turns_over _ hm]
      exact ⟨fun tl _ _ => trivial, fun _ => trivial⟩
    rw [hm] at hturn
    simp only at hturn
    rw [hr] at hturn
    have hiv : interval dflt s'.settings = .ok (.int d) := interval_set (by rw [hrec.1]; exact hset)
    have hnow : ∀ t' ∈ ts, t.now ≤ t'.now := fun t' ht' => hp.1 _ (List.mem_map.mpr ⟨t', ht', rfl⟩)
    have hrest := fun (s1 : LSt) (h1 : SetTo s1.settings (.int d)) => ih h1 (fun t' ht' => h t' (by simp [ht'])) hp.2
    have hset' : SetTo s'.settings (.int d) := by rw [hrec.1]; exact hset
    have hmeas : idleV dflt fl s' t.now false = ({ s' with tLast := some t.now }, some t.now) →
        turns dflt fl s (t :: ts) = ((turns dflt fl { s' with tLast := some t.now } ts).1,
          t.now :: (turns dflt fl { s' with tLast := some t.now } ts).2) := by
      intro e
      simp only [turns]
      rw [hturn, e]
      rfl
    constructor
    · intro tl htl hle
      have h1 : s'.tLast = some tl := by rw [hrec.2, htl]
      have hle1 : tl ≤ t.now := hle t (by simp)
      by_cases hc : t.now - tl < d
      · have e : idleV dflt fl s' t.now false = (s', none) := by
          unfold idleV
          rw [hiv, h1]
          simp [less, hc]
        simp only [turns]
        rw [hturn, e]
        exact (hrest s' hset').1 tl h1 (fun t' ht' => hle t' (by simp [ht']))
      · have e : idleV dflt fl s' t.now false = ({ s' with tLast := some t.now }, some t.now) := by
          unfold idleV
          rw [hiv, h1]
          simp [less, hc, measureAll]
        rw [hmeas e]
        exact ⟨by omega, (hrest { s' with tLast := some t.now } hset').1 t.now rfl hnow⟩
    · intro htl
      have h1 : s'.tLast = none := by rw [hrec.2, htl]
      have e : idleV dflt fl s' t.now false = ({ s' with tLast := some t.now }, some t.now) := by
        unfold idleV
        rw [hiv, h1]
        rfl
      rw [hmeas e]
      exact (hrest { s' with tLast := some t.now } hset').1 t.now rfl hnow

theorem turns_never {dflt : Option Nat} {fl : Nat → Bool} (ts : List Tn) {s : LSt}
    (hset : SetTo s.settings .null) (h : ∀ t ∈ ts, ∀ p, t.inp ≠ .settings p) : (turns dflt fl s ts).2 = [] := by
  induction ts generalizing s with
  | nil => rfl
  | cons t ts ih =>
    by_cases hs : s.main = .serving
    swap
    · rw [turns_over _ hs]
    have hrec : (receive s t.inp).settings = s.settings := by
      cases hi' : t.inp with
      | quiet => rfl
      | settings p => exact absurd hi' (h t (by simp) p)
      | msg m => simp only [receive]; split <;> rfl
    have hiv : interval dflt (receive s t.inp).settings = .ok .null := interval_set (by rw [hrec]; exact hset)
    have hturn : ∃ s', turn dflt fl s t = (s', none) ∧ s'.settings = s.settings := by
      unfold turn
      rw [hs]
      simp only
      split
      · unfold idleV
        rw [hiv]
        exact ⟨_, rfl, hrec⟩
      · exact ⟨_, rfl, hrec⟩
    obtain ⟨s', h1, h2⟩ := hturn
    simp only [turns, h1]
    exact ih (by rw [h2]; exact hset) (fun t' ht' => h t' (by simp [ht']))

/-- **C61** with the message `settings` (partial: no measurement raises an exception, the clock does not go back): from the
turn in which a new interval is received on, until the settings are changed again and whatever other messages come,
rounds of idle measurements are at least the new interval apart; in this turn a round takes place if and only if the new
interval has passed since the last one.  If the interval received is `null`, there are none. -/
theorem C61_set_partial {dflt : Option Nat} {fl : Nat → Bool} {s : LSt} {t : Tn} {ts : List Tn} {v : Val}
    (hs : s.main = .serving) (ht : t.inp = .settings (some v)) (h : ∀ t' ∈ ts, ∀ p, t'.inp ≠ .settings p) :
    (∀ d : Nat, SetTo v (.int d) → (∀ t' ∈ t :: ts, t'.raises = false) →
      ((t :: ts).map (·.now)).Pairwise (· ≤ ·) → (∀ tl, s.tLast = some tl → tl ≤ t.now) →
      Apart d (turns dflt fl s (t :: ts)).2 ∧
      (t.now ∈ (turn dflt fl s t).2 ↔ ∀ tl, s.tLast = some tl → tl + d ≤ t.now)) ∧
    (SetTo v .null → (turns dflt fl s (t :: ts)).2 = []) := by
  -- a turn without a message, with the new settings
  have hturn : turn dflt fl s t = turn dflt fl { s with settings := v } { t with inp := .quiet } := by
    obtain ⟨f, v0, tl, m⟩ := s
    simp only at hs
    subst hs
    unfold turn
    rw [ht]
    rfl
  have hturns : turns dflt fl s (t :: ts) = turns dflt fl { s with settings := v } ({ t with inp := .quiet } :: ts) := by
    simp only [turns, hturn]
  have hno : ∀ t' ∈ ({ t with inp := .quiet } : Tn) :: ts, ∀ p, t'.inp ≠ .settings p := by
    intro t' ht' p
    rcases List.mem_cons.mp ht' with rfl | h1
    · simp
    · exact h t' h1 p
  constructor
  · intro d hv hr hp hle
    have hap := turns_apart (dflt := dflt) (fl := fl) (d := d) ({ t with inp := .quiet } :: ts)
      (s := { s with settings := v }) hv
      (fun t' ht' => ⟨by
        rcases List.mem_cons.mp ht' with rfl | h1
        · exact hr t (by simp)
        · exact hr t' (by simp [h1]), hno t' ht'⟩) hp
    constructor
    · rw [hturns]
      have hcases : s.tLast = none ∨ ∃ tl, s.tLast = some tl := by cases s.tLast <;> simp
      rcases hcases with htl | ⟨tl, htl⟩
      · exact hap.2 htl
      · have := hap.1 tl htl (by
          intro t' ht'
          have h0 := hle tl htl
          rcases List.mem_cons.mp ht' with rfl | h1
          · exact h0
          · simp only [List.map_cons, List.pairwise_cons] at hp
            exact Nat.le_trans h0 (hp.1 _ (List.mem_map.mpr ⟨t', h1, rfl⟩)))
        generalize (turns dflt fl { s with settings := v } ({ t with inp := .quiet } :: ts)).2 = l at this
        cases l with
        | nil => trivial
        | cons a l => exact this.2
    · have hrt := hr t (by simp)
      have e : turn dflt fl s t = idleV dflt fl { s with settings := v } t.now false := by
        rw [hturn]
        unfold turn
        simp only [hs, receive, hrt]
      rw [e]
      unfold idleV
      simp only [interval_set hv]
      cases htl : s.tLast with
      | none => simp [measureAll]
      | some tl =>
        have h0 := hle tl htl
        by_cases hc : t.now - tl < d
        · have : ¬ tl + d ≤ t.now := by omega
          simp [less, hc, this]
        · have : tl + d ≤ t.now := by omega
          simp [less, hc, this, measureAll]
  · intro hv
    rw [hturns]
    exact turns_never _ hv hno

/-- Sanity check: the interval is shortened from 10 to 3, then measurements are switched off. -/
example : (turns none (fun _ => false) { iface := {}, settings := .map [(.str "idle_measurement_interval", .int 10)] }
    [{ now := 1 }, { now := 2 }, { inp := .settings (some (.map [(.str "idle_measurement_interval", .int 3)])), now := 5 },
      { now := 7 }, { now := 8 }, { inp := .settings (some (.map [(.str "idle_measurement_interval", .null)])), now := 20 },
      { now := 40 }]).2 = [1, 5, 8] := rfl

end Tomato.Props
