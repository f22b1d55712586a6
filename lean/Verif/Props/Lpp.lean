import Verif.Lpp
import Verif.Props.Iface21

/-!
# Properties of requests with retries (C46, C47)
-/

namespace Tomato.Props
open Tomato.Lpp

variable {S R : Type}

/-! ## C46 -/

theorem iter_succ (serve : S → S × R) (n : Nat) (s : S) :
    iter serve (n + 1) s = (serve (iter serve n s)).1 := by
  induction n generalizing s with
  | zero => rfl
  | succ n ih => show iter serve (n + 1) (serve s).1 = _; rw [ih]; rfl

/-- The loop, for any number of attempts already made. -/
theorem commLoop_spec (serve : S → S × R) : ∀ (net : List Net) (n : Nat) (s : S) (sent pend : Nat),
    1 ≤ n → n ≤ net.length →
    ∃ r, commLoop serve net n s sent pend = some r ∧
      ((∃ i : Nat, i < n ∧ net[i]? = some .answered ∧ (∀ j : Nat, j < i → net[j]? ≠ some .answered) ∧
          r.sent = sent + i ∧ r.isOpen = true ∧
          r.answer = some (serve (iter serve ((net.take i).count .late) s)).2 ∧
          r.state = iter serve ((net.take i).count .late + 1) s ∧
          r.pending = pend + (net.take i).count .delayed) ∨
       ((∀ j : Nat, j < n → net[j]? ≠ some .answered) ∧ r.sent = sent + n - 1 ∧ r.isOpen = false ∧
          r.answer = none ∧ r.state = iter serve ((net.take n).count .late) s ∧
          r.pending = pend + (net.take n).count .delayed)) := by
  intro net
  induction net with
  | nil => intro n s sent pend h1 h2; simp at h2; omega
  | cons a rest ih =>
    intro n s sent pend h1 h2
    by_cases ha : a = .answered
    · subst ha
      refine ⟨_, rfl, .inl ⟨0, by omega, rfl, by omega, rfl, rfl, rfl, ?_, rfl⟩⟩
      simp [iter]
    · have hstep : commLoop serve (a :: rest) n s sent pend =
          if (n : Int) - 1 = 0 then
            some { answer := none, isOpen := false, sent := sent,
                   state := if a = .late then (serve s).1 else s,
                   pending := if a = .delayed then pend + 1 else pend }
          else commLoop serve rest ((n : Int) - 1) (if a = .late then (serve s).1 else s) (sent + 1)
            (if a = .delayed then pend + 1 else pend) := by
        cases a <;> first | exact absurd rfl ha | rfl
      have hst : ∀ (m : Nat) (l : List Net), iter serve ((a :: l).count .late + m) s =
          iter serve (l.count .late + m) (if a = .late then (serve s).1 else s) := by
        intro m l
        by_cases hl : a = .late
        · subst hl
          simp only [List.count_cons_self, if_true]
          have : List.count Net.late l + 1 + m = (List.count Net.late l + m) + 1 := by omega
          rw [this]; rfl
        · rw [List.count_cons_of_ne (fun e => hl e), if_neg hl]
      have hpd : ∀ (l : List Net), pend + (a :: l).count .delayed =
          (if a = .delayed then pend + 1 else pend) + l.count .delayed := by
        intro l
        by_cases hl : a = .delayed
        · subst hl
          simp only [List.count_cons_self, if_true]; omega
        · rw [List.count_cons_of_ne (fun e => hl e), if_neg hl]
      rw [hstep]
      by_cases hn : n = 1
      · subst hn
        refine ⟨_, if_pos (by simp), .inr ⟨?_, by simp, rfl, rfl, ?_, ?_⟩⟩
        · intro j hj
          have : j = 0 := by omega
          subst this
          simpa using ha
        · have := hst 0 []
          simpa [iter] using this.symm
        · have := hpd []
          simpa using this.symm
      · have hn' : ¬ ((n : Int) - 1 = 0) := by omega
        rw [if_neg hn']
        have hcast : (n : Int) - 1 = ((n - 1 : Nat) : Int) := by omega
        rw [hcast]
        obtain ⟨r, hr, hcase⟩ := ih (n - 1) (if a = .late then (serve s).1 else s) (sent + 1)
          (if a = .delayed then pend + 1 else pend) (by omega) (by simp at h2; omega)
        refine ⟨r, hr, ?_⟩
        rcases hcase with ⟨i, hi, h1', h2', h3, h4, h5, h6, h7⟩ | ⟨h2', h3, h4, h5, h6, h7⟩
        · left
          refine ⟨i + 1, by omega, by simpa using h1', ?_, by omega, h4, ?_, ?_, ?_⟩
          · intro j hj
            cases j with
            | zero => simpa using ha
            | succ j => simpa using h2' j (by omega)
          · rw [h5, List.take_succ_cons]
            have := hst 0 (rest.take i)
            simp only [Nat.add_zero] at this
            rw [this]
          · rw [h6, List.take_succ_cons, hst]
          · rw [h7, List.take_succ_cons, hpd]
        · right
          obtain ⟨m, rfl⟩ : ∃ m, n = m + 1 := ⟨n - 1, by omega⟩
          simp only [Nat.add_sub_cancel] at h2' h3 h6 h7
          refine ⟨?_, by omega, h4, h5, ?_, ?_⟩
          · intro j hj
            cases j with
            | zero => simpa using ha
            | succ j => simpa using h2' j (by omega)
          · rw [h6, List.take_succ_cons]
            have := hst 0 (rest.take m)
            simp only [Nat.add_zero] at this
            rw [this]
          · rw [h7, List.take_succ_cons, hpd]

/-- **C46**: with `n ≥ 1` retries, whatever becomes of the attempts, `comm` returns after at most
`n` attempts.  It reports failure, with a closed connection, exactly when none of the `n` attempts
was answered in time; otherwise the connection is open, the last attempt made was the first one
answered, and the reply is the answer to it. -/
theorem C46_returns (serve : S → S × R) (net : List Net) (n : Nat) (s : S)
    (hn : 1 ≤ n) (hl : n ≤ net.length) :
    ∃ r, comm serve net n s = some r ∧ 1 ≤ r.sent ∧ r.sent ≤ n ∧
      (r.answer = none ↔ .answered ∉ net.take n) ∧ (r.isOpen = r.answer.isSome) ∧
      (∀ x, r.answer = some x → net[r.sent - 1]? = some .answered ∧
        (∀ j : Nat, j < r.sent - 1 → net[j]? ≠ some .answered) ∧
        x = (serve (iter serve ((net.take (r.sent - 1)).count .late) s)).2) ∧
      (r.answer = none → r.sent = n) := by
  obtain ⟨r, hr, hcase⟩ := commLoop_spec serve net n s 1 0 hn hl
  refine ⟨r, hr, ?_⟩
  rcases hcase with ⟨i, hi, h1, h2, h3, h4, h5, h6, h7⟩ | ⟨h2, h3, h4, h5, h6, h7⟩
  · have e : r.sent - 1 = i := by omega
    refine ⟨by omega, by omega, ?_, by rw [h4, h5]; rfl, ?_, by rw [h5]; intro h; cases h⟩
    · rw [h5]
      constructor
      · intro h; cases h
      · intro h
        exact absurd (List.mem_iff_getElem?.mpr ⟨i, by rw [List.getElem?_take_of_lt hi]; exact h1⟩) h
    · intro x hx
      rw [h5] at hx
      cases hx
      rw [e]
      exact ⟨h1, h2, rfl⟩
  · refine ⟨by omega, by omega, ?_, by rw [h4, h5]; rfl,
      (by rw [h5]; intro x hx; cases hx), fun _ => by omega⟩
    simp only [h5, true_iff]
    intro hm
    obtain ⟨j, hj⟩ := List.mem_iff_getElem?.mp hm
    by_cases hjn : j < n
    · rw [List.getElem?_take_of_lt hjn] at hj
      exact h2 j hjn hj
    · rw [List.getElem?_eq_none (by simp; omega)] at hj
      cases hj

/-- A counting server: the answer tells how often the request was executed. -/
def counter : Nat → Nat × Nat := fun n => (n + 1, n + 1)

example : comm counter [.lost, .lost, .answered] 3 0 =
    some { answer := some 1, isOpen := true, sent := 3, state := 1, pending := 0 } := by decide

example : comm counter [.lost, .late, .lost] 3 0 =
    some { answer := none, isOpen := false, sent := 3, state := 1, pending := 0 } := by decide

/-- For `retries ≤ 0`, a server that is not answering keeps `comm` busy for ever (the loop compares
the counter with zero after decrementing it). -/
theorem C46_no_retries_diverges (serve : S → S × R) : ∀ (net : List Net) (n : Int) (s : S),
    n ≤ 0 → .answered ∉ net → comm serve net n s = none := by
  have key : ∀ (net : List Net) (n : Int) (s : S) (a b : Nat), n ≤ 0 → .answered ∉ net →
      commLoop serve net n s a b = none := by
    intro net
    induction net with
    | nil => intros; rfl
    | cons x rest ih =>
      intro n s a b hn hx
      simp only [List.mem_cons, not_or] at hx
      have : ¬ (n - 1 = 0) := by omega
      cases x with
      | answered => exact absurd rfl hx.1
      | late => simp only [commLoop, this, if_false]; exact ih _ _ _ _ (by omega) hx.2
      | lost => simp only [commLoop, this, if_false]; exact ih _ _ _ _ (by omega) hx.2
      | delayed => simp only [commLoop, this, if_false]; exact ih _ _ _ _ (by omega) hx.2
  exact fun net n s => key net n s 1 0

/-! ## C47 -/

/-- How often the server executes the request, in the end. -/
def executions (net : List Net) (sent : Nat) : Nat :=
  ((net.take sent).filter (fun a => a != .lost)).length

/-- **C47** (`_partial`: if no attempt that was executed remained unanswered; see `C47_refuted`):
a request reported as answered was executed exactly once, and the reply is the one to this
execution. -/
theorem C47_exactly_once_partial (serve : S → S × R) (net : List Net) (n : Nat) (s : S)
    (hn : 1 ≤ n) (hl : n ≤ net.length) (h : ∀ a ∈ net, a = .answered ∨ a = .lost)
    (r : Result S R) (hr : comm serve net n s = some r) (x : R) (hx : r.answer = some x) :
    r.final serve = (serve s).1 ∧ x = (serve s).2 := by
  obtain ⟨r', hr', hcase⟩ := commLoop_spec serve net n s 1 0 hn hl
  rw [comm] at hr
  rw [hr'] at hr
  cases hr
  have hc : ∀ (i : Nat) (b : Net), b ≠ .answered → b ≠ .lost → (net.take i).count b = 0 := by
    intro i b h1 h2
    rw [List.count_eq_zero]
    intro hm
    rcases h b (List.mem_of_mem_take hm) with e | e
    · exact h1 e
    · exact h2 e
  rcases hcase with ⟨i, hi, h1, h2, h3, h4, h5, h6, h7⟩ | ⟨h2, h3, h4, h5, h6, h7⟩
  · rw [h5, hc i .late (by decide) (by decide)] at hx
    cases hx
    unfold Result.final
    rw [h7, h6, hc i .late (by decide) (by decide), hc i .delayed (by decide) (by decide)]
    exact ⟨rfl, rfl⟩
  · rw [h5] at hx; cases hx

example : comm counter [.lost, .answered, .lost] 3 0 =
    some { answer := some 1, isOpen := true, sent := 2, state := 1, pending := 0 } := by decide

theorem iter_add (serve : S → S × R) (a b : Nat) (s : S) :
    iter serve b (iter serve a s) = iter serve (a + b) s := by
  induction a generalizing s with
  | zero => simp [iter]
  | succ a ih =>
    have : a + 1 + b = (a + b) + 1 := by omega
    rw [this]
    exact ih (serve s).1

/-- In general, an answered request was executed once more than there are attempts that were
executed without timely answer: the server ends up as after that many executions. -/
theorem C47_executions (serve : S → S × R) (net : List Net) (n : Nat) (s : S)
    (hn : 1 ≤ n) (hl : n ≤ net.length) (r : Result S R) (hr : comm serve net n s = some r) :
    r.final serve = iter serve (executions net r.sent) s := by
  obtain ⟨r', hr', hcase⟩ := commLoop_spec serve net n s 1 0 hn hl
  rw [comm] at hr
  rw [hr'] at hr
  cases hr
  have count3 : ∀ l : List Net, (l.filter (fun a => a != .lost)).length =
      l.count .late + l.count .delayed + l.count .answered := by
    intro l
    induction l with
    | nil => rfl
    | cons a l ih => cases a <;> simp [ih] <;> omega
  unfold Result.final executions
  rw [count3]
  rcases hcase with ⟨i, hi, h1, h2, h3, h4, h5, h6, h7⟩ | ⟨h2, h3, h4, h5, h6, h7⟩
  · have ht : net.take r.sent = net.take i ++ [.answered] := by
      have : r.sent = i + 1 := by omega
      rw [this, List.take_add_one, h1]; rfl
    have hz : (net.take i).count .answered = 0 := by
      rw [List.count_eq_zero]
      intro hm
      obtain ⟨j, hj⟩ := List.mem_iff_getElem?.mp hm
      by_cases hji : j < i
      · rw [List.getElem?_take_of_lt hji] at hj
        exact h2 j hji hj
      · rw [List.getElem?_eq_none (by simp; omega)] at hj
        cases hj
    rw [h6, h7, ht, iter_add]
    simp only [List.count_append, hz, List.count_singleton]
    congr 1
    simp
    omega
  · have hs : r.sent = n := by omega
    have hz : (net.take n).count .answered = 0 := by
      rw [List.count_eq_zero]
      intro hm
      obtain ⟨j, hj⟩ := List.mem_iff_getElem?.mp hm
      by_cases hjn : j < n
      · rw [List.getElem?_take_of_lt hjn] at hj
        exact h2 j hjn hj
      · rw [List.getElem?_eq_none (by simp; omega)] at hj
        cases hj
    rw [h6, h7, hs, hz, iter_add]
    congr 1
    omega

/-- Fetching data: the driver answers with its data and forgets them, 2_1:634-639. -/
def fetch (data : List Nat) : List Nat × List Nat := ([], data)

/-- Starting a task: the task is appended to the queue, 2_1:287-316, 613-618. -/
def enqueue (task : Nat) (queue : List Nat) : List Nat × Bool := (queue ++ [task], true)

/-- **C47** is violated: if the answer to the first attempt comes late, data are lost although the
request is reported as answered, and a task is started twice. -/
theorem C47_refuted :
    comm fetch [.late, .answered, .lost] 3 [1, 2, 3] =
      some { answer := some [], isOpen := true, sent := 2, state := [], pending := 0 } ∧
    comm (enqueue 7) [.late, .answered, .lost] 3 [] =
      some { answer := some true, isOpen := true, sent := 2, state := [7, 7], pending := 0 } := by
  decide

/-- In the model of the driver's component: two `task_start` commands for the same task, as caused
by the retry, make the worker execute the task twice. -/
theorem C47_refuted_driver : ∃ h s, I21.Hist h s ∧
    (h.filter (fun e => e == .accepted 7)).length = 2 ∧
    (h.filter (fun e => e == .begun 7)).length = 2 := by
  let over : I21.Act := .worker { over := true, sample := false }
  let as : List I21.Act := [.cmd (.start 7), .cmd (.start 7)] ++ List.replicate 24 over
  have hr : ∃ p, I21.run I21.Dev.init as = some p ∧
      (p.2.filter (fun e => e == .accepted 7)).length = 2 ∧
      (p.2.filter (fun e => e == .begun 7)).length = 2 := ⟨_, rfl, rfl, rfl⟩
  obtain ⟨⟨s, es⟩, hr, h1, h2⟩ := hr
  exact ⟨es, s, by simpa using run_hist .init hr, h1, h2⟩

end Tomato.Props
