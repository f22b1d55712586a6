import Verif.Clock
import Mathlib.Tactic.Linarith
import Mathlib.Tactic.NormNum
import Mathlib.Tactic.Positivity
import Mathlib.Algebra.Order.Floor.Semiring
import Mathlib.Data.Rat.Floor

/-!
# Things that are done at intervals (C111)
-/

namespace Tomato.Props
open Tomato.Clock

/-! ## Specification -/

/-- Nothing is done before it is due: the thing with the number `i` (from 0) is due `i + 1`
intervals after the beginning. -/
def NotEarly (iv t0 : ℚ) (done : List ℚ) : Prop :=
  ∀ (i : Nat) (t : ℚ), done[i]? = some t → ((i : ℚ) + 1) * iv < t - t0

/-- Everything is done at most `d` after it is due. -/
def NotLate (iv t0 d : ℚ) (done : List ℚ) : Prop :=
  ∀ (i : Nat) (t : ℚ), done[i]? = some t → t - t0 ≤ ((i : ℚ) + 1) * iv + d

/-- `n` is the number of intervals that are over at the time `t`. -/
def IntervalsOver (iv t0 t : ℚ) (n : Nat) : Prop :=
  (n : ℚ) * iv < t - t0 ∧ t - t0 ≤ ((n : ℚ) + 1) * iv

/-! ## One turn -/

/-- What holds before and after each turn. -/
structure TickInv (iv t0 : ℚ) (s : Tick) : Prop where
  prev : s.prev = t0 + (s.done.length : ℚ) * iv
  early : NotEarly iv t0 s.done

theorem tickInv_init (iv t0 : ℚ) : TickInv iv t0 { prev := t0 } := by
  constructor
  · simp
  · intro i t h; simp at h

theorem tickInv_turn {iv t0 : ℚ} {s : Tick} (tn : ℚ) (h : TickInv iv t0 s) :
    TickInv iv t0 (s.turn iv tn) := by
  obtain ⟨h1, h2⟩ := h
  unfold Tick.turn
  split
  · next hg =>
    constructor
    · simp only [List.length_append, List.length_singleton, Nat.cast_add, Nat.cast_one, h1]
      ring
    · intro i t hi
      simp only [List.getElem?_append] at hi
      split at hi
      · exact h2 i t hi
      · rcases hk : i - s.done.length with _ | k
        · rw [hk] at hi
          simp at hi; subst hi
          have : i = s.done.length := by omega
          rw [this]
          rw [h1] at hg
          linarith
        · rw [hk] at hi; simp at hi
  · exact ⟨h1, h2⟩

/-- What holds in addition if the turns are at most an interval apart: `p` is the time of the last
turn. -/
structure Caught (iv t0 d p : ℚ) (s : Tick) : Prop where
  late : NotLate iv t0 d s.done
  near : p - s.prev ≤ iv

theorem caught_turn {iv t0 d p tn : ℚ} {s : Tick} (hi : TickInv iv t0 s) (h : Caught iv t0 d p s)
    (hd : d ≤ iv) (hg : tn - p ≤ d) : Caught iv t0 d tn (s.turn iv tn) := by
  obtain ⟨h1, h2⟩ := hi
  obtain ⟨h3, h4⟩ := h
  unfold Tick.turn
  split
  · next hs =>
    constructor
    · intro i t hit
      simp only [List.getElem?_append] at hit
      split at hit
      · exact h3 i t hit
      · rcases hk : i - s.done.length with _ | k
        · rw [hk] at hit
          simp at hit; subst hit
          have : i = s.done.length := by omega
          rw [this]
          rw [h1] at h4
          linarith
        · rw [hk] at hit; simp at hit
    · show tn - (s.prev + iv) ≤ iv
      linarith
  · next hs => exact ⟨h3, not_lt.mp hs⟩

/-- The last time at which the thing was due is past. -/
def Behind (p : ℚ) (s : Tick) : Prop := s.prev < p ∨ s.done = []

theorem behind_turn {iv p tn : ℚ} {s : Tick} (h : Behind p s) (hp : p ≤ tn) :
    Behind tn (s.turn iv tn) := by
  unfold Tick.turn
  split
  · next hs => exact .inl (by show s.prev + iv < tn; linarith)
  · rcases h with h | h
    · exact .inl (lt_of_lt_of_le h hp)
    · exact .inr h

/-! ## Tasks -/

/-- What is known about a task which has come to its end, or has not. -/
theorem task_inv {k : Timing} {pause t0 : ℚ} (hp : 0 ≤ pause) (ws : List ℚ)
    (hw : ∀ w ∈ ws, 0 ≤ w) :
    ∀ (now p : ℚ) (s : Tick), p ≤ now → now ≤ p + pause → p - t0 ≤ k.md → TickInv k.si t0 s →
      Behind p s →
      TickInv k.si t0 (taskLoop k pause t0 now s ws).1 ∧
      (∀ T, (taskLoop k pause t0 now s ws).2 = some T →
        k.md < T - t0 ∧ Behind T (taskLoop k pause t0 now s ws).1 ∧
        ∃ w ∈ ws, T - t0 ≤ k.md + pause + w) ∧
      ((taskLoop k pause t0 now s ws).2 = none → (ws.length : ℚ) * pause ≤ k.md + pause - (now - t0)) := by
  induction ws with
  | nil =>
    intro now p s h1 h1' h2 h3 h4
    refine ⟨h3, fun T h => ?_, fun _ => ?_⟩
    · simp [taskLoop] at h
    · simp; linarith
  | cons w ws ih =>
    intro now p s h1 h1' h2 h3 h4
    have hw0 : 0 ≤ w := hw w (by simp)
    simp only [taskLoop]
    split
    · next hm =>
      refine ⟨tickInv_turn _ h3, fun T h => ?_, fun h => by cases h⟩
      injection h with h; subst h
      refine ⟨hm, behind_turn h4 (by linarith), w, by simp, ?_⟩
      linarith
    · next hm =>
      obtain ⟨i1, i2, i3⟩ := ih (fun x hx => hw x (by simp [hx])) (now + w + pause) (now + w)
        (s.turn k.si (now + w)) (by linarith) (by linarith) (not_lt.mp hm) (tickInv_turn _ h3)
        (behind_turn h4 (by linarith))
      refine ⟨i1, fun T h => ?_, fun h => ?_⟩
      · obtain ⟨j1, j2, x, j3, j4⟩ := i2 T h
        exact ⟨j1, j2, x, by simp [j3], j4⟩
      · have := i3 h
        simp only [List.length_cons, Nat.cast_add, Nat.cast_one]
        linarith

/-- The same with bounded turns. -/
theorem task_caught {k : Timing} {pause t0 d : ℚ} (hd : d ≤ k.si) (ws : List ℚ)
    (hw : ∀ w ∈ ws, pause + w ≤ d) :
    ∀ (now p : ℚ) (s : Tick), now ≤ p + pause → TickInv k.si t0 s →
      Caught k.si t0 d p s →
      NotLate k.si t0 d (taskLoop k pause t0 now s ws).1.done ∧
      ∀ T, (taskLoop k pause t0 now s ws).2 = some T →
        T - (taskLoop k pause t0 now s ws).1.prev ≤ k.si := by
  induction ws with
  | nil =>
    intro now p s h1 h2 h3
    refine ⟨h3.late, fun T h => ?_⟩
    simp [taskLoop] at h
  | cons w ws ih =>
    intro now p s h1 h2 h3
    have hw0 := hw w (by simp)
    have hc : Caught k.si t0 d (now + w) (s.turn k.si (now + w)) :=
      caught_turn h2 h3 hd (by linarith)
    simp only [taskLoop]
    split
    · refine ⟨hc.late, fun T h => ?_⟩
      injection h with h; subst h
      exact hc.near
    · exact ih (fun x hx => hw x (by simp [hx])) (now + w + pause) (now + w)
        (s.turn k.si (now + w)) le_rfl (tickInv_turn _ h2) hc

/-- **C111**, never early: no sample of a task is taken before it is due, whatever the clock does,
in both versions of the interface (any pause). -/
theorem C111_never_early (k : Timing) (pause t0 : ℚ) (hp : 0 ≤ pause) (ws : List ℚ)
    (hw : ∀ w ∈ ws, 0 ≤ w) (hm : 0 ≤ k.md) :
    NotEarly k.si t0 (runTask k pause t0 ws).1.done :=
  (task_inv hp ws hw t0 t0 { prev := t0 } le_rfl (by linarith) (by linarith) (tickInv_init _ _)
    (.inr rfl)).1.early

/-- **C111**, the end: a task ends in the first turn in which its maximum duration is over, and it
does end: it does not have more turns than fit into the duration (plus two). -/
theorem C111_ends (k : Timing) (pause t0 : ℚ) (hp : 0 < pause) (ws : List ℚ)
    (hw : ∀ w ∈ ws, 0 ≤ w) (hm : 0 ≤ k.md) :
    (∀ T, (runTask k pause t0 ws).2 = some T →
      k.md < T - t0 ∧ ∃ w ∈ ws, T - t0 ≤ k.md + pause + w) ∧
    (k.md + pause < (ws.length : ℚ) * pause → ∃ T, (runTask k pause t0 ws).2 = some T) := by
  obtain ⟨_, h2, h3⟩ := task_inv (k := k) hp.le ws hw t0 t0 { prev := t0 } le_rfl (by linarith)
    (by linarith) (tickInv_init _ _) (.inr rfl)
  refine ⟨fun T h => ⟨(h2 T h).1, (h2 T h).2.2⟩, fun hl => ?_⟩
  rcases h : (runTask k pause t0 ws).2 with _ | T
  · have := h3 h
    linarith
  · exact ⟨T, rfl⟩

theorem task_samples (k : Timing) (pause t0 d : ℚ) (ws : List ℚ) (hp : 0 ≤ pause)
    (hw : ∀ w ∈ ws, 0 ≤ w) (hwd : ∀ w ∈ ws, pause + w ≤ d) (hd : d ≤ k.si) (hsi : 0 < k.si)
    (hm : 0 ≤ k.md) :
    NotLate k.si t0 d (runTask k pause t0 ws).1.done ∧
    ∀ T, (runTask k pause t0 ws).2 = some T →
      IntervalsOver k.si t0 T (runTask k pause t0 ws).1.done.length ∧
      ∀ m : Nat, k.md = (m : ℚ) * k.si → (runTask k pause t0 ws).1.done.length = m := by
  obtain ⟨h1, h2, _⟩ := task_inv (k := k) hp ws hw t0 t0 { prev := t0 } le_rfl (by linarith)
    (by linarith) (tickInv_init _ _) (.inr rfl)
  obtain ⟨h4, h5⟩ := task_caught (k := k) (t0 := t0) hd ws hwd t0 t0 { prev := t0 } (by linarith)
    (tickInv_init _ _) ⟨fun i t h => by simp at h, by simp; exact hsi.le⟩
  refine ⟨h4, fun T hT => ?_⟩
  obtain ⟨a1, a2, w, a3, a4⟩ := h2 T hT
  have a5 := h5 T hT
  have a6 := h1.prev
  change (runTask k pause t0 ws).1.prev = t0 + ((runTask k pause t0 ws).1.done.length : ℚ) * k.si at a6
  change T - (runTask k pause t0 ws).1.prev ≤ _ at a5
  change Behind T (runTask k pause t0 ws).1 at a2
  generalize (runTask k pause t0 ws).1 = s at a2 a5 a6 ⊢
  have low : (s.done.length : ℚ) * k.si < T - t0 := by
    rcases a2 with a2 | a2
    · rw [a6] at a2; linarith
    · rw [a2]; simp; linarith
  have high : T - t0 ≤ ((s.done.length : ℚ) + 1) * k.si := by
    rw [a6] at a5; linarith
  refine ⟨⟨low, high⟩, fun m hmm => ?_⟩
  have b1 : (s.done.length : ℚ) * k.si < ((m : ℚ) + 1) * k.si := by
    have := hwd w a3
    linarith
  have b2 : (m : ℚ) * k.si < ((s.done.length : ℚ) + 1) * k.si := by linarith
  have c1 : (s.done.length : ℚ) < (m : ℚ) + 1 := lt_of_mul_lt_mul_right b1 hsi.le
  have c2 : (m : ℚ) < (s.done.length : ℚ) + 1 := lt_of_mul_lt_mul_right b2 hsi.le
  have c1 : s.done.length < m + 1 := by exact_mod_cast c1
  have c2 : m < s.done.length + 1 := by exact_mod_cast c2
  omega

theorem pause21_bounds {si : ℚ} (h : 1 / 50 ≤ si) : 0 ≤ pause21 si ∧ pause21 si ≤ si / 2 := by
  unfold pause21
  constructor
  · exact le_min (by norm_num) (le_max_of_le_left (by norm_num))
  · refine (min_le_right _ _).trans (max_le ?_ ?_) <;> linarith

theorem pause20_bounds {si : ℚ} (h : 1 / 50 ≤ si) : 0 ≤ pause20 si ∧ pause20 si ≤ si / 2 := by
  unfold pause20
  constructor
  · exact le_max_of_le_left (by norm_num)
  · refine max_le ?_ ?_ <;> linarith

/-- **C111**, samples, partial: if the interval is 20 ms or more, and the work of a turn takes half
of the interval at most, then each sample is taken within the interval after it is due, the number
of samples of a task which has run to its end is the number of intervals that are over by then; if
the duration is a multiple of the interval, this is the number of intervals in the duration.  In
both versions of the interface.  Missing: shorter intervals and slow devices, see
`C111_refuted_fast` and `C111_refuted_slow`. -/
theorem C111_samples_partial (k : Timing) (t0 : ℚ) (ws : List ℚ) (hsi : 1 / 50 ≤ k.si)
    (hm : 0 ≤ k.md) (hw : ∀ w ∈ ws, 0 ≤ w ∧ w ≤ k.si / 2) (pause : ℚ)
    (hp : pause = pause21 k.si ∨ pause = pause20 k.si) :
    NotLate k.si t0 k.si (runTask k pause t0 ws).1.done ∧
    ∀ T, (runTask k pause t0 ws).2 = some T →
      IntervalsOver k.si t0 T (runTask k pause t0 ws).1.done.length ∧
      ∀ m : Nat, k.md = (m : ℚ) * k.si → (runTask k pause t0 ws).1.done.length = m := by
  have hb : 0 ≤ pause ∧ pause ≤ k.si / 2 := by
    rcases hp with rfl | rfl
    · exact pause21_bounds hsi
    · exact pause20_bounds hsi
  exact task_samples k pause t0 k.si ws hb.1 (fun w h => (hw w h).1)
    (fun w h => by have := (hw w h).2; linarith [hb.2]) le_rfl (by linarith) hm

/-- The number of samples is not greater than the number of turns. -/
theorem samples_le_turns (k : Timing) (pause t0 : ℚ) (hp : 0 ≤ pause) (ws : List ℚ)
    (hw : ∀ w ∈ ws, 0 ≤ w) :
    ∀ (now : ℚ) (s : Tick) (c : ℚ), now - t0 ≤ k.md + pause →
      ((s.done.length : ℚ) * pause ≤ now - t0 + c) →
      (((taskLoop k pause t0 now s ws).1.done.length : ℚ) * pause ≤ k.md + pause + pause + c) := by
  induction ws with
  | nil => intro now s c h0 h; simp only [taskLoop]; linarith
  | cons w ws ih =>
    intro now s c h0 h
    have hw0 := hw w (by simp)
    have hs : ((s.turn k.si (now + w)).done.length : ℚ) * pause ≤ now - t0 + c + pause := by
      unfold Tick.turn
      split
      · simp only [List.length_append, List.length_singleton, Nat.cast_add, Nat.cast_one]
        linarith
      · linarith
    simp only [taskLoop]
    split
    · show ((s.turn k.si (now + w)).done.length : ℚ) * pause ≤ _
      linarith
    · next hm =>
      have hm := not_lt.mp hm
      exact ih (fun x hx => hw x (by simp [hx])) (now + w + pause) _ c (by linarith) (by linarith)

/-- **C111** is refuted for short intervals: a task which is to take a sample every millisecond for
one second, 1000 in all, takes 102 at most, in every execution, with both versions of the
interface. -/
theorem C111_refuted_fast (t0 : ℚ) (ws : List ℚ) (hw : ∀ w ∈ ws, 0 ≤ w) (pause : ℚ)
    (hp : pause = pause21 (1 / 1000) ∨ pause = pause20 (1 / 1000)) :
    (runTask { si := 1 / 1000, md := 1 } pause t0 ws).1.done.length ≤ 102 := by
  have hp : pause = 1 / 100 := by
    rcases hp with rfl | rfl
    · norm_num [pause21]
    · norm_num [pause20]
  subst hp
  have := samples_le_turns { si := 1 / 1000, md := 1 } (1 / 100) t0 (by norm_num) ws hw t0
    { prev := t0 } 0 (by norm_num) (by simp)
  change (((runTask { si := 1 / 1000, md := 1 } (1 / 100) t0 ws).1.done.length : ℚ) * _ ≤ _) at this
  have h2 : ((runTask { si := 1 / 1000, md := 1 } (1 / 100) t0 ws).1.done.length : ℚ) ≤ 102 := by
    norm_num at this
    linarith
  exact_mod_cast h2

/-- **C111** is refuted for slow devices: a task with an interval of 1 s on a device one of whose
measurements takes 3.5 s.  The second sample is taken more than two intervals after it is due, and
then three samples are taken within a fifth of a second. -/
theorem C111_refuted_slow :
    (runTask { si := 1, md := 5 } (pause21 1) 0 [1, 1 / 20, 7 / 2, 0, 0, 0, 9 / 20]).1.done =
      [11 / 10, 93 / 20, 47 / 10, 19 / 4, 53 / 10] ∧
    (runTask { si := 1, md := 5 } (pause21 1) 0 [1, 1 / 20, 7 / 2, 0, 0, 0, 9 / 20]).2 =
      some (53 / 10) ∧
    ¬ NotLate 1 0 1
      (runTask { si := 1, md := 5 } (pause21 1) 0 [1, 1 / 20, 7 / 2, 0, 0, 0, 9 / 20]).1.done := by
  have h : runTask { si := 1, md := 5 } (pause21 1) 0 [1, 1 / 20, 7 / 2, 0, 0, 0, 9 / 20] =
      ({ prev := 5, done := [11 / 10, 93 / 20, 47 / 10, 19 / 4, 53 / 10] }, some (53 / 10)) := by
    decide +kernel
  rw [h]
  refine ⟨rfl, rfl, fun hl => ?_⟩
  have := hl 1 (93 / 20) rfl
  norm_num at this

/-- The hypotheses of `C111_samples_partial` can be met: a task with an interval of 1 s and a
duration of 2 s, whose turns take up to half a second of work, takes two samples. -/
example :
    (∀ w ∈ [(0 : ℚ), 1 / 2, 1 / 2, 1 / 4, 1 / 2, 1 / 4], 0 ≤ w ∧ w ≤ 1 / 2) ∧
    runTask { si := 1, md := 2 } (pause21 1) 0 [0, 1 / 2, 1 / 2, 1 / 4, 1 / 2, 1 / 4] =
      ({ prev := 2, done := [11 / 10, 9 / 4] }, some (9 / 4)) := by
  decide +kernel

/-! ## Polling and snapshots -/

/-- `n` intervals have passed at the time `t` (the next one may just be over). -/
def UpToDate (iv t0 t : ℚ) (n : Nat) : Prop :=
  (n : ℚ) * iv ≤ t - t0 ∧ t - t0 ≤ ((n : ℚ) + 1) * iv

theorem prev_turn {iv p tn : ℚ} {s : Tick} (h : s.prev ≤ p) (hp : p ≤ tn) :
    (s.turn iv tn).prev ≤ tn := by
  unfold Tick.turn
  split
  · next hs => show s.prev + iv ≤ tn; linarith
  · linarith

theorem upToDate {iv t0 d p : ℚ} {s : Tick} (h1 : TickInv iv t0 s) (h2 : Caught iv t0 d p s)
    (h3 : s.prev ≤ p) : UpToDate iv t0 p s.done.length := by
  have a := h1.prev
  have b := h2.near
  rw [a] at h3 b
  constructor <;> linarith

theorem poll_inv {pollrate t0 : ℚ} (hpr : 1 / 5 ≤ pollrate) (ws : List ℚ)
    (hw : ∀ w ∈ ws, 0 ≤ w ∧ w ≤ pollrate / 2) :
    ∀ (now p : ℚ) (s : Tick), p ≤ now → now ≤ p + pollrate / 2 → s.prev ≤ p →
      TickInv pollrate t0 s → Caught pollrate t0 pollrate p s →
      NotEarly pollrate t0 (pollLoop pollrate now p s ws).1.done ∧
      NotLate pollrate t0 pollrate (pollLoop pollrate now p s ws).1.done ∧
      UpToDate pollrate t0 (pollLoop pollrate now p s ws).2
        (pollLoop pollrate now p s ws).1.done.length := by
  induction ws with
  | nil => intro now p s _ _ h2 h3 h4; exact ⟨h3.early, h4.late, upToDate h3 h4 h2⟩
  | cons w ws ih =>
    intro now p s h1 h2 h2' h3 h4
    obtain ⟨hw0, hw1⟩ := hw w (by simp)
    simp only [pollLoop]
    have hb : (s.turn pollrate (now + w)).prev ≤ now + w := prev_turn h2' (by linarith)
    have p0 : 0 ≤ pausePoll pollrate (now + w) (s.turn pollrate (now + w)).prev :=
      le_max_of_le_left (by norm_num)
    have p1 : pausePoll pollrate (now + w) (s.turn pollrate (now + w)).prev ≤ pollrate / 2 := by
      refine max_le ?_ ?_ <;> linarith
    exact ih (fun x hx => hw x (by simp [hx])) _ (now + w) _ (by linarith) (by linarith) hb
      (tickInv_turn _ h3) (caught_turn h3 h4 le_rfl (by linarith))

/-- **C111**, polling, partial: if `pollrate` is 0.2 s or more, and the requests of a turn take half
of it at most, then the thread of a job asks for data once in each interval of this length, and is
up to date at each turn.  Missing: slow drivers. -/
theorem C111_polls_partial (pollrate t0 : ℚ) (hpr : 1 / 5 ≤ pollrate) (ws : List ℚ)
    (hw : ∀ w ∈ ws, 0 ≤ w ∧ w ≤ pollrate / 2) :
    NotEarly pollrate t0 (pollLoop pollrate t0 t0 { prev := t0 } ws).1.done ∧
    NotLate pollrate t0 pollrate (pollLoop pollrate t0 t0 { prev := t0 } ws).1.done ∧
    UpToDate pollrate t0 (pollLoop pollrate t0 t0 { prev := t0 } ws).2
      (pollLoop pollrate t0 t0 { prev := t0 } ws).1.done.length :=
  poll_inv hpr ws hw t0 t0 { prev := t0 } le_rfl (by linarith) le_rfl (tickInv_init _ _)
    ⟨fun i t h => by simp at h, by simp; linarith⟩

theorem poll_apart {pollrate : ℚ} (ws : List ℚ) (hw : ∀ w ∈ ws, 0 ≤ w) (now p : ℚ) (s : Tick)
    (h : ∀ t ∈ s.done.getLast?, t + 1 / 10 ≤ now) (hc : s.done.IsChain (fun a b => a + 1 / 10 ≤ b)) :
    (pollLoop pollrate now p s ws).1.done.IsChain (fun a b => a + 1 / 10 ≤ b) := by
  induction ws generalizing now p s with
  | nil => exact hc
  | cons w ws ih =>
    have h0 := hw w (by simp)
    have hp : 1 / 10 ≤ pausePoll pollrate (now + w) (s.turn pollrate (now + w)).prev := le_max_left _ _
    simp only [pollLoop]
    refine ih (fun x hx => hw x (by simp [hx])) _ _ _ ?_ ?_
    · intro t ht
      unfold Tick.turn at ht
      split at ht
      · simp only [List.getLast?_append, List.getLast?_singleton, Option.mem_def, Option.some_or,
          Option.some.injEq] at ht
        subst ht
        linarith
      · have := h t ht
        linarith
    · unfold Tick.turn
      split
      · simp only
        rw [List.isChain_append]
        refine ⟨hc, by simp, fun x hx y hy => ?_⟩
        simp only [List.head?_cons, Option.mem_def, Option.some.injEq] at hy
        subst hy
        have := h x hx
        linarith
      · exact hc

/-- **C111**, polling: whatever `pollrate` is, and whatever the clock does, two requests for data by the thread of a job
are at least 0.1 s apart. -/
theorem C111_polls_apart (pollrate t0 : ℚ) (ws : List ℚ) (hw : ∀ w ∈ ws, 0 ≤ w) :
    (pollLoop pollrate t0 t0 { prev := t0 } ws).1.done.IsChain (fun a b => a + 1 / 10 ≤ b) :=
  poll_apart ws hw t0 t0 { prev := t0 } (by simp) (by simp)

example : (pollLoop (1 / 100) 0 0 { prev := 0 } [1 / 50, 0, 1 / 20]).1.done = [1 / 50, 3 / 25, 27 / 100] := by
  decide +kernel

theorem pauseMain_bounds (t : ℚ) : 0 < pauseMain t ∧ pauseMain t ≤ 1 := by
  have h1 : ((t.floor : ℤ) : ℚ) ≤ t := Rat.le_floor_iff.mp le_rfl
  have h2 : t < ((t.floor : ℤ) : ℚ) + 1 := by
    by_contra hc
    have : t.floor + 1 ≤ t.floor := Rat.le_floor_iff.mpr (by push_cast; linarith)
    omega
  unfold pauseMain
  constructor <;> linarith

theorem snap_inv {iv t0 d : ℚ} (hiv : 1 + d ≤ iv) (ws : List ℚ)
    (hw : ∀ w ∈ ws, 0 ≤ w ∧ w ≤ d) :
    ∀ (now p : ℚ) (s : Tick), p ≤ now → now ≤ p + 1 → s.prev ≤ p → TickInv iv t0 s →
      Caught iv t0 (1 + d) p s →
      NotEarly iv t0 (snapLoop iv now p s ws).1.done ∧
      NotLate iv t0 (1 + d) (snapLoop iv now p s ws).1.done ∧
      UpToDate iv t0 (snapLoop iv now p s ws).2 (snapLoop iv now p s ws).1.done.length := by
  induction ws with
  | nil => intro now p s _ _ h2 h3 h4; exact ⟨h3.early, h4.late, upToDate h3 h4 h2⟩
  | cons w ws ih =>
    intro now p s h0 h1 h2 h3 h4
    obtain ⟨hw0, hw1⟩ := hw w (by simp)
    simp only [snapLoop]
    have := pauseMain_bounds (now + w)
    exact ih (fun x hx => hw x (by simp [hx])) _ (now + w) _ (by linarith) (by linarith)
      (prev_turn h2 (by linarith)) (tickInv_turn _ h3) (caught_turn h3 h4 hiv (by linarith))

/-- **C111**, snapshots, partial: if the work of a turn of the main loop of a job (merging the data
included) takes `d` at most, and the interval of the snapshots is not shorter than `1 + d` seconds,
then a snapshot is made once in each interval, at most `1 + d` seconds after it is due.  Missing:
shorter intervals, see `C111_refuted_snapshots`. -/
theorem C111_snapshots_partial (iv t0 d : ℚ) (hd : 0 ≤ d) (hiv : 1 + d ≤ iv) (ws : List ℚ)
    (hw : ∀ w ∈ ws, 0 ≤ w ∧ w ≤ d) :
    NotEarly iv t0 (snapLoop iv t0 t0 { prev := t0 } ws).1.done ∧
    NotLate iv t0 (1 + d) (snapLoop iv t0 t0 { prev := t0 } ws).1.done ∧
    UpToDate iv t0 (snapLoop iv t0 t0 { prev := t0 } ws).2
      (snapLoop iv t0 t0 { prev := t0 } ws).1.done.length :=
  snap_inv hiv ws hw t0 t0 { prev := t0 } le_rfl (by linarith) le_rfl (tickInv_init _ _)
    ⟨fun i t h => by simp at h, by simp; linarith⟩

/-- **C111** is refuted for short intervals of snapshots: with an interval of 0.1 s, snapshots are
made once per second, and the delay grows. -/
theorem C111_refuted_snapshots :
    (snapLoop (1 / 10) 0 0 { prev := 0 } [0, 0, 0, 0, 0]).1.done = [1, 2, 3, 4] ∧
    ¬ NotLate (1 / 10) 0 (1 / 10) (snapLoop (1 / 10) 0 0 { prev := 0 } [0, 0, 0, 0, 0]).1.done := by
  have h : (snapLoop (1 / 10) 0 0 { prev := 0 } [0, 0, 0, 0, 0]).1.done = [1, 2, 3, 4] := by
    decide +kernel
  rw [h]
  refine ⟨rfl, fun hl => ?_⟩
  have := hl 1 2 rfl
  norm_num at this

/-- The hypotheses of the theorems about polling and snapshots can be met. -/
example :
    (∀ w ∈ [(0 : ℚ), 1 / 4, 1 / 2, 1 / 2], 0 ≤ w ∧ w ≤ 1 / 2) ∧
    pollLoop 1 0 0 { prev := 0 } [0, 1 / 4, 1 / 2, 1 / 2] =
      ({ prev := 2, done := [11 / 8, 35 / 16] }, 35 / 16) ∧
    snapLoop 2 0 0 { prev := 0 } [0, 1 / 4, 1 / 2, 1 / 2] =
      ({ prev := 2, done := [5 / 2] }, 7 / 2) := by
  decide +kernel

end Tomato.Props
