import Verif.JobWait
import Verif.Props.JobThread
import Mathlib.Algebra.Order.Floor.Defs
import Mathlib.Data.Rat.Floor
import Mathlib.Tactic.Linarith
import Mathlib.Tactic.NormNum

/-!
# How long the threads of a job wait for answers (C124)
-/

namespace Tomato.Props.Waiting
open Tomato.Wait
open Tomato.JobT (Jb Thr Pc Q Ev JEv MPc Ans tstep mstep SD)

/-! ## Specification -/

/-- The entry `lpp_timeout`, in seconds, says that each attempt is given `n` milliseconds. -/
inductive Says : Option Val → Nat → Prop
  | missing : Says none 1000
  | yes : Says (some (.bool true)) 1000
  | no : Says (some (.bool false)) 0
  | int (n : Nat) : n * 1000 ≤ 9223372036854775807 → Says (some (.int n)) (n * 1000)
  | float (q : Rat) (n : Nat) : (n : Rat) ≤ q * 1000 → q * 1000 < n + 1 → n ≤ 9223372036854775807 →
      Says (some (.float q)) n

/-- The entry is a negative number. -/
inductive Negative : Option Val → Prop
  | int (i : Int) : i < 0 → Negative (some (.int i))
  | float (q : Rat) : q < 0 → Negative (some (.float q))
  | inf : Negative (some (.inf true))

/-- The entry is neither: text, a list, a table, nothing, no number, or too large a number. -/
def Senseless (v : Option Val) : Prop := (∀ n, ¬ Says v n) ∧ ¬ Negative v

/-- Attempt `i`, one of three, is the first which is answered within `n` milliseconds: after `d`, with `r`. -/
def FirstInTime (n : Nat) (net : Nat → Option (Nat × Rep)) (i d : Nat) (r : Rep) : Prop :=
  i < 3 ∧ net i = some (d, r) ∧ d ≤ n ∧ ∀ j < i, ∀ d' r', net j = some (d', r') → n < d'

/-- None of three attempts is answered within `n` milliseconds. -/
def NoneInTime (n : Nat) (net : Nat → Option (Nat × Rep)) : Prop :=
  ∀ j < 3, ∀ d r, net j = some (d, r) → n < d

/-! ## The limit -/

/-- The limit that a thread has. -/
def limit (v : Option Val) : Option Lim := (timeout v).bind pollArg

theorem says_iff {v : Option Val} {n : Nat} : Says v n ↔ limit v = some (.ms n) := by
  constructor
  · intro h
    cases h with
    | missing => rfl
    | yes => rfl
    | no => rfl
    | int n hn =>
      have h0 : ¬ ((n : Int) * 1000 < 0) := by omega
      have h1 : ¬ ((n : Int) * 1000 > maxLong) := by unfold maxLong; omega
      have h2 : ((n : Int) * 1000).toNat = n * 1000 := by omega
      simp only [limit, timeout, times1000, Option.bind_some, pollArg, ofInt, h0, h1, if_false, h2]
    | float q n h1 h2 h3 =>
      have hf : (q * 1000).floor = (n : Int) := by
        have := (Int.floor_eq_iff (a := q * 1000) (z := (n : Int))).mpr ⟨by simpa using h1, by simpa using h2⟩
        exact this
      have hq : ¬ (q * 1000 < 0) := by
        have : (0 : Rat) ≤ n := by exact_mod_cast Nat.zero_le n
        intro h; linarith
      have h4 : ¬ ((n : Int) < 0) := by omega
      have h5 : ¬ ((n : Int) > maxLong) := by unfold maxLong; omega
      simp only [limit, timeout, times1000, Option.bind_some, pollArg, hq, if_false, hf, ofInt, h4, h5, Int.toNat_natCast]
  · intro h
    have hof : ∀ i : Int, ofInt i = some (.ms n) → i = n ∧ n ≤ 9223372036854775807 := by
      intro i hi
      unfold ofInt at hi
      split at hi
      · cases hi
      · split at hi
        · cases hi
        · rename_i h0 h1
          simp only [Option.some.injEq, Lim.ms.injEq] at hi
          unfold maxLong at h1
          omega
    cases v with
    | none => simp [limit, timeout, pollArg, ofInt, maxLong] at h; subst h; exact .missing
    | some v =>
      cases v with
      | null => simp [limit, timeout, times1000] at h
      | bool b =>
        cases b
        · simp [limit, timeout, times1000, pollArg, ofInt, maxLong] at h; subst h; exact .no
        · simp [limit, timeout, times1000, pollArg, ofInt, maxLong] at h; subst h; exact .yes
      | int i =>
        simp only [limit, timeout, times1000, Option.bind_some, pollArg] at h
        obtain ⟨h1, h2⟩ := hof _ h
        obtain ⟨m, rfl⟩ : ∃ m : Nat, i = m := ⟨i.toNat, by omega⟩
        have : n = m * 1000 := by omega
        subst this
        exact .int m h2
      | float q =>
        simp only [limit, timeout, times1000, Option.bind_some, pollArg] at h
        split at h
        · cases h
        · obtain ⟨h1, h2⟩ := hof _ h
          have := (Int.floor_eq_iff (a := q * 1000) (z := (n : Int))).mp h1
          exact .float q n (by simpa using this.1) (by simpa using this.2) h2
      | nan => simp [limit, timeout, times1000, pollArg] at h
      | inf b => cases b <;> simp [limit, timeout, times1000, pollArg] at h
      | str s => simp [limit, timeout, times1000, pollArg] at h
      | list => simp [limit, timeout, times1000, pollArg] at h
      | other => simp [limit, timeout, times1000] at h

theorem negative_iff {v : Option Val} : Negative v ↔ limit v = some .forever := by
  have hof : ∀ i : Int, ofInt i = some .forever ↔ i < 0 := by
    intro i
    unfold ofInt
    split
    · simp [*]
    · split <;> simp [*]
  constructor
  · intro h
    cases h with
    | int i hi =>
      simp only [limit, timeout, times1000, Option.bind_some, pollArg]
      rw [hof]; omega
    | float q hq =>
      have : q * 1000 < 0 := by linarith
      simp only [limit, timeout, times1000, Option.bind_some, pollArg, this, if_true]
    | inf => rfl
  · intro h
    cases v with
    | none => simp [limit, timeout, pollArg, ofInt, maxLong] at h
    | some v =>
      cases v with
      | null => simp [limit, timeout, times1000] at h
      | bool b => cases b <;> simp [limit, timeout, times1000, pollArg, ofInt, maxLong] at h
      | int i =>
        simp only [limit, timeout, times1000, Option.bind_some, pollArg] at h
        rw [hof] at h
        exact .int i (by omega)
      | float q =>
        simp only [limit, timeout, times1000, Option.bind_some, pollArg] at h
        split at h
        · exact .float q (by linarith)
        · rename_i hq
          rw [hof] at h
          have : (0 : Int) ≤ ⌊q * 1000⌋ := Int.floor_nonneg.mpr (by linarith)
          exact absurd h (by have h2 : (q * 1000).floor = ⌊q * 1000⌋ := rfl; omega)
      | nan => simp [limit, timeout, times1000, pollArg] at h
      | inf b =>
        cases b
        · simp [limit, timeout, times1000, pollArg] at h
        · exact .inf
      | str s => simp [limit, timeout, times1000, pollArg] at h
      | list => simp [limit, timeout, times1000, pollArg] at h
      | other => simp [limit, timeout, times1000] at h

theorem senseless_iff {v : Option Val} : Senseless v ↔ limit v = none := by
  unfold Senseless
  rw [negative_iff]
  simp only [says_iff]
  cases h : limit v with
  | none => simp
  | some l => cases l <;> simp

/-! ## Waiting -/

/-- **C124**, one request: with a limit of `n` milliseconds, `comm` returns the first answer which comes in time, `n`
milliseconds after it for each attempt before; if none of three attempts is answered in time, it gives up, after
exactly three times `n` milliseconds. -/
theorem C124_request (n : Nat) (net : Nat → Option (Nat × Rep)) :
    (∀ r e, comm (.ms n) net = .answer r e ↔ ∃ i d, FirstInTime n net i d r ∧ e = i * n + d) ∧
    (∀ e, comm (.ms n) net = .abandoned e ↔ NoneInTime n net ∧ e = 3 * n) ∧
    comm (.ms n) net ≠ .forever := by
  have key : (∃ i d r, FirstInTime n net i d r ∧ comm (.ms n) net = .answer r (i * n + d)) ∨
      (NoneInTime n net ∧ comm (.ms n) net = .abandoned (3 * n)) := by
    have step : ∀ j : Nat, (∃ d r, net j = some (d, r) ∧ d ≤ n) ∨ ∀ d r, net j = some (d, r) → n < d := by
      intro j
      cases h : net j with
      | none => right; intro d r hd; cases hd
      | some x =>
        obtain ⟨d, r⟩ := x
        by_cases hd : d ≤ n
        · exact .inl ⟨d, r, rfl, hd⟩
        · right; intro d' r' h'; cases h'; omega
    have skip : ∀ (k j e : Nat), (∀ d r, net j = some (d, r) → n < d) →
        commLoop (.ms n) net (k + 1) j e = commLoop (.ms n) net k (j + 1) (e + n) := by
      intro k j e h
      rw [commLoop]
      cases hj : net j with
      | none => rfl
      | some x =>
        obtain ⟨d, r⟩ := x
        have := h d r hj
        have hd : ¬ d ≤ n := by omega
        simp only [hd, if_false]
    have take : ∀ (k j e d : Nat) (r : Rep), net j = some (d, r) → d ≤ n →
        commLoop (.ms n) net (k + 1) j e = .answer r (e + d) := by
      intro k j e d r hj hd
      rw [commLoop]
      simp only [hj, hd, if_true]
    unfold Wait.comm
    rcases step 0 with ⟨d, r, h0, hd⟩ | h0
    · left
      refine ⟨0, d, r, ⟨by omega, h0, hd, by intro j hj; omega⟩, ?_⟩
      rw [take 2 0 0 d r h0 hd]; simp
    · rw [skip 2 0 0 h0]
      rcases step 1 with ⟨d, r, h1, hd⟩ | h1
      · left
        refine ⟨1, d, r, ⟨by omega, h1, hd, ?_⟩, ?_⟩
        · intro j hj; obtain rfl : j = 0 := by omega
          exact h0
        · rw [take 1 1 _ d r h1 hd]; simp
      · rw [skip 1 1 _ h1]
        rcases step 2 with ⟨d, r, h2, hd⟩ | h2
        · left
          refine ⟨2, d, r, ⟨by omega, h2, hd, ?_⟩, ?_⟩
          · intro j hj
            rcases (by omega : j = 0 ∨ j = 1) with rfl | rfl
            · exact h0
            · exact h1
          · rw [take 0 2 _ d r h2 hd]; congr 1; omega
        · right
          rw [skip 0 2 _ h2]
          refine ⟨?_, ?_⟩
          · intro j hj
            rcases (by omega : j = 0 ∨ j = 1 ∨ j = 2) with rfl | rfl | rfl
            · exact h0
            · exact h1
            · exact h2
          · rw [commLoop]; congr 1; omega
  have uniq : ∀ i d r i' d' r', FirstInTime n net i d r → FirstInTime n net i' d' r' → i = i' ∧ d = d' ∧ r = r' := by
    rintro i d r i' d' r' ⟨_, h1, h2, h3⟩ ⟨_, h1', h2', h3'⟩
    have : i = i' := by
      rcases Nat.lt_trichotomy i i' with h | h | h
      · have := h3' i h d r h1; omega
      · exact h
      · have := h3 i' h d' r' h1'; omega
    subst this
    rw [h1] at h1'
    cases h1'
    exact ⟨rfl, rfl, rfl⟩
  rcases key with ⟨i, d, r, hf, hc⟩ | ⟨hn, hc⟩
  · refine ⟨?_, ?_, by rw [hc]; simp⟩
    · intro r' e
      rw [hc]
      constructor
      · intro h; cases h; exact ⟨i, d, hf, rfl⟩
      · rintro ⟨i', d', hf', rfl⟩
        obtain ⟨rfl, rfl, rfl⟩ := uniq _ _ _ _ _ _ hf hf'
        rfl
    · intro e
      rw [hc]
      constructor
      · intro h; cases h
      · rintro ⟨hn, -⟩
        have := hn i hf.1 d r hf.2.1
        have := hf.2.2.1
        omega
  · refine ⟨?_, ?_, by rw [hc]; simp⟩
    · intro r' e
      rw [hc]
      constructor
      · intro h; cases h
      · rintro ⟨i', d', hf', -⟩
        have := hn i' hf'.1 d' r' hf'.2.1
        have := hf'.2.2.1
        omega
    · intro e
      rw [hc]
      constructor
      · intro h; cases h; exact ⟨hn, rfl⟩
      · rintro ⟨-, rfl⟩; rfl

/-- What becomes of an attempt, in the words of `Verif/Lpp.lean`. -/
def fate (n : Nat) (net : Nat → Option (Nat × Rep)) (i : Nat) : Lpp.Net :=
  match net i with
  | none => .lost
  | some (d, _) => if d ≤ n then .answered else .late

/-- `comm` gives up exactly when `comm` of `Verif/Lpp.lean` does. -/
theorem C124_same_as_lpp {S R : Type} (serve : S → S × R) (st : S) (n : Nat) (net : Nat → Option (Nat × Rep)) :
    ∃ r, Lpp.comm serve [fate n net 0, fate n net 1, fate n net 2] 3 st = some r ∧
      (r.answer = none ↔ ∃ e, Wait.comm (.ms n) net = .abandoned e) := by
  have h : ∀ i, (fate n net i = .lost ∧ net i = none) ∨ (∃ d r, fate n net i = .late ∧ net i = some (d, r) ∧ ¬ d ≤ n) ∨
      ∃ d r, fate n net i = .answered ∧ net i = some (d, r) ∧ d ≤ n := by
    intro i
    unfold fate
    cases hi : net i with
    | none => exact .inl ⟨rfl, rfl⟩
    | some x =>
      obtain ⟨d, r⟩ := x
      by_cases hd : d ≤ n
      · exact .inr (.inr ⟨d, r, by simp [hd], rfl, hd⟩)
      · exact .inr (.inl ⟨d, r, by simp [hd], rfl, hd⟩)
  rcases h 0 with ⟨f0, n0⟩ | ⟨d0, r0, f0, n0, l0⟩ | ⟨d0, r0, f0, n0, l0⟩ <;>
  rcases h 1 with ⟨f1, n1⟩ | ⟨d1, r1, f1, n1, l1⟩ | ⟨d1, r1, f1, n1, l1⟩ <;>
  rcases h 2 with ⟨f2, n2⟩ | ⟨d2, r2, f2, n2, l2⟩ | ⟨d2, r2, f2, n2, l2⟩ <;>
  simp [Lpp.comm, Lpp.commLoop, Wait.comm, commLoop, *]

/-- The second attempt is answered after 400 ms; the first was not, within the 1000 ms of the default. -/
example : comm (.ms 1000) (fun i => if i = 1 then some (400, ⟨true, none, none⟩) else none) =
    .answer ⟨true, none, none⟩ 1400 := by decide

/-! ## Steps of a thread -/

theorem tstep_alive {t t' : Thr} {c : JobT.Choice} {e : Ev} (h : tstep t c = some (t', e)) : t.alive = true := by
  unfold tstep at h
  unfold Thr.alive
  cases hp : t.pc <;> rw [hp] at h <;> first | rfl | simp at h

theorem wstep_cases {v : Option Val} {t t' : Thr} {c : Env} {e : Ev} (h : wstep v t c = some (t', e)) :
    t.alive = true ∧ ((limit v = none ∧ t' = { t with pc := .dead } ∧ e = .died) ∨
      ∃ ch, tstep t ch = some (t', e)) := by
  unfold wstep at h
  split at h
  · rename_i ht
    split at h
    · rename_i ha
      cases h
      exact ⟨ha, .inl ⟨by simp [limit, ht], rfl, rfl⟩⟩
    · cases h
  · rename_i x ht
    unfold waitStep at h
    split at h
    · rename_i q hp
      split at h
      · rename_i hl
        cases h
        refine ⟨by simp [Thr.alive, hp], .inl ⟨by simp [limit, ht, hl], rfl, rfl⟩⟩
      · unfold answerStep at h
        split at h
        · exact ⟨tstep_alive h, .inr ⟨_, h⟩⟩
        · exact ⟨tstep_alive h, .inr ⟨_, h⟩⟩
        · cases h
    · exact ⟨tstep_alive h, .inr ⟨_, h⟩⟩

/-- With a limit, a thread takes the steps of `Verif/JobThread.lean`. -/
theorem wstep_base {v : Option Val} {t t' : Thr} {c : Env} {e : Ev} (hv : limit v ≠ none)
    (h : wstep v t c = some (t', e)) : ∃ ch, tstep t ch = some (t', e) := by
  rcases (wstep_cases h).2 with ⟨h, -⟩ | h
  · exact absurd h hv
  · exact h

theorem act_base {sets : List (Option Val)} {s s' : Jb} {a : Act} {e : JEv}
    (hv : ∀ k, limit (sets.getD k none) ≠ none) (h : act sets s a = some (s', e)) :
    ∃ b, JobT.act s b = some (s', e) := by
  cases a with
  | main => exact ⟨.main, h⟩
  | thr k c =>
    simp only [act] at h
    split at h
    · cases h
    · rename_i t ht
      split at h
      · cases h
      · rename_i t' e' hst
        obtain ⟨ch, hch⟩ := wstep_base (hv k) hst
        cases h
        exact ⟨.thr k ch, by simp only [JobT.act, ht, hch]⟩

theorem hist_base {P : Act → Prop} {sets : List (Option Val)} {s₀ s : Jb} {h : List JEv}
    (hv : ∀ k, limit (sets.getD k none) ≠ none) (hh : Wait.Hist P sets s₀ h s) : JobT.Hist s₀ h s := by
  induction hh with
  | init => exact .init
  | step a _ _ ha ih =>
    obtain ⟨b, hb⟩ := act_base hv ha
    exact ih.step b hb

/-- **C124** (partial): if the entry of every driver says that attempts are given some time, the job does only what it
could do without entries (`JobT.Hist`, to which C37 to C45 apply), and each request of a thread ends: with the first
answer that comes in time, or without, if none of three attempts is answered in time.
Missing: negative numbers (`C124_refuted_negative`) and everything which is not a number (`C124_refuted`). -/
theorem C124_partial {P : Act → Prop} {sets : List (Option Val)} {tss : List (List Task)} {h : List JEv} {s : Jb}
    (hv : ∀ k, ∃ n, Says (sets.getD k none) n) (hh : Wait.Hist P sets (Jb.init tss) h s) :
    JobT.Hist (Jb.init tss) h s ∧
    ∀ (k : Nat) (t : Thr) (q : Q) (n : Nat), s.thrs[k]? = some t → t.pc = .wait q → Says (sets.getD k none) n →
      ∀ c : Env, ∃ s' a, act sets s (.thr k c) = some (s', .thr k (.got t.i q a c.late)) ∧
        ((∃ i d r, FirstInTime n c.net i d r ∧ a = .reply r.ok r.st r.ps) ∨
          (NoneInTime n c.net ∧ a = .closed ∧ ∃ t', s'.thrs[k]? = some t' ∧ t'.pc = .crash)) := by
  constructor
  · apply hist_base _ hh
    intro k
    obtain ⟨n, hn⟩ := hv k
    rw [says_iff.mp hn]; simp
  · intro k t q n ht hp hn c
    have hl := says_iff.mp hn
    obtain ⟨x, hx, hx2⟩ : ∃ x, timeout (sets.getD k none) = some x ∧ pollArg x = some (.ms n) := by
      unfold limit at hl
      cases hx : timeout (sets.getD k none) with
      | none => rw [hx] at hl; cases hl
      | some x => rw [hx] at hl; exact ⟨x, rfl, hl⟩
    have hkl : k < s.thrs.length := (List.getElem?_eq_some_iff.mp ht).1
    obtain ⟨h1, h2, h3⟩ := C124_request n c.net
    cases hc : comm (.ms n) c.net with
    | forever => exact absurd hc h3
    | answer r e =>
      obtain ⟨i, d, hf, -⟩ := (h1 r e).mp hc
      exact ⟨_, _, by simp only [act, ht, wstep, hx, waitStep, hp, hx2, answerStep, hc, tstep]; rfl, .inl ⟨i, d, r, hf, rfl⟩⟩
    | abandoned e =>
      obtain ⟨hf, -⟩ := (h2 e).mp hc
      refine ⟨_, .closed, by simp only [act, ht, wstep, hx, waitStep, hp, hx2, answerStep, hc, tstep]; rfl,
        .inr ⟨hf, rfl, ?_⟩⟩
      refine ⟨_, List.getElem?_set_self hkl, ?_⟩
      rfl

/-! ## What the main thread knows -/

/-- A thread which has given up has ended; the main thread counts only threads which have ended. -/
def MInv (s : Jb) : Prop :=
  (∀ (k : Nat) (t : Thr), s.thrs[k]? = some t → t.crashed = true → t.alive = false) ∧
  (match s.main with
    | .join j _ all => all = true → ∀ (k : Nat) (t : Thr), k < j → s.thrs[k]? = some t → t.alive = false
    | .done _ => ∀ (k : Nat) (t : Thr), s.thrs[k]? = some t → t.alive = false
    | _ => True)

theorem tstep_crashed {t t' : Thr} {c : JobT.Choice} {e : Ev} (h : tstep t c = some (t', e))
    (hc : t.crashed = false) (hc' : t'.crashed = true) : t'.alive = false := by
  unfold tstep at h
  cases hp : t.pc <;> rw [hp] at h <;> simp only at h
  case cur => split at h <;> cases h <;> simp_all
  case hold => split at h <;> cases h <;> simp_all
  case ask => cases h; simp_all
  case wait => cases h; simp_all
  case due => cases h; simp_all
  case trigger => split at h <;> cases h <;> simp_all
  case load => split at h <;> cases h <;> simp_all
  case trunc => cases h; simp_all
  case dump => cases h; simp_all
  case append => split at h <;> cases h <;> simp_all
  case unset => cases h; simp_all
  case crash => cases h; rfl
  case fin => cases h
  case exited => cases h
  case dead => cases h

theorem minv_act {sets : List (Option Val)} {s s' : Jb} {a : Act} {e : JEv} (hi : MInv s)
    (h : act sets s a = some (s', e)) : MInv s' := by
  obtain ⟨h1, h2⟩ := hi
  cases a with
  | thr k c =>
    simp only [act] at h
    split at h
    · cases h
    · rename_i t ht
      split at h
      · cases h
      · rename_i t' e' hst
        cases h
        obtain ⟨hal, hcase⟩ := wstep_cases hst
        have hkl : k < s.thrs.length := (List.getElem?_eq_some_iff.mp ht).1
        have hnc : t.crashed = false := by
          cases hc : t.crashed with
          | false => rfl
          | true => rw [h1 k t ht hc] at hal; cases hal
        have hnew : t'.crashed = true → t'.alive = false := by
          intro hc
          rcases hcase with ⟨-, rfl, -⟩ | ⟨ch, hch⟩
          · rfl
          · exact tstep_crashed hch hnc hc
        have hold : ∀ (j : Nat) (u : Thr), (s.thrs.set k t')[j]? = some u → j = k ∧ u = t' ∨ j ≠ k ∧ s.thrs[j]? = some u := by
          intro j u hu
          by_cases hj : k = j
          · subst hj
            rw [List.getElem?_set_self hkl] at hu
            cases hu
            exact .inl ⟨rfl, rfl⟩
          · rw [List.getElem?_set_ne hj] at hu
            exact .inr ⟨fun h => hj h.symm, hu⟩
        refine ⟨?_, ?_⟩
        · intro j u hu hc
          rcases hold j u hu with ⟨rfl, rfl⟩ | ⟨_, hu⟩
          · exact hnew hc
          · exact h1 j u hu hc
        · cases hm : s.main with
          | collect => trivial
          | push => trivial
          | crash => trivial
          | join j any all =>
            simp only [hm] at h2
            intro hall i u hi hu
            rcases hold i u hu with ⟨rfl, rfl⟩ | ⟨_, hu⟩
            · rw [h2 hall i t hi ht] at hal; cases hal
            · exact h2 hall i u hi hu
          | done r =>
            simp only [hm] at h2
            intro i u hu
            rcases hold i u hu with ⟨rfl, rfl⟩ | ⟨_, hu⟩
            · rw [h2 i t ht] at hal; cases hal
            · exact h2 i u hu
  | main =>
    simp only [act, mstep] at h
    cases hm : s.main with
    | collect k =>
      simp only [hm] at h
      split at h
      · cases h; exact ⟨h1, trivial⟩
      · split at h <;> cases h <;> exact ⟨h1, trivial⟩
    | push k =>
      simp only [hm] at h
      split at h
      · cases h; exact ⟨h1, trivial⟩
      · rename_i t ht
        cases h
        refine ⟨?_, trivial⟩
        intro j u hu hc
        have hkl : k < s.thrs.length := (List.getElem?_eq_some_iff.mp ht).1
        by_cases hj : k = j
        · subst hj
          simp only [List.getElem?_set_self hkl] at hu
          cases hu
          exact h1 k t ht hc
        · simp only [List.getElem?_set_ne hj] at hu
          exact h1 j u hu hc
    | crash k any =>
      simp only [hm] at h
      split at h
      · cases h; exact ⟨h1, by intro _ k' t hk; exact absurd hk (by omega)⟩
      · cases h; exact ⟨h1, trivial⟩
    | join j any all =>
      simp only [hm] at h h2
      split at h
      · rename_i hnone
        split at h
        · rename_i hall
          cases h
          refine ⟨h1, ?_⟩
          intro k t ht
          have hlt : k < j := by
            have a1 := (List.getElem?_eq_some_iff.mp ht).1
            have a2 := List.getElem?_eq_none_iff.mp hnone
            simp only at a1
            omega
          exact h2 hall k t hlt ht
        · cases h; exact ⟨h1, trivial⟩
      · rename_i u hu
        cases h
        refine ⟨h1, ?_⟩
        intro hall k t hk ht
        simp only [Bool.and_eq_true] at hall
        by_cases hkj : k = j
        · subst hkj
          simp only at ht
          rw [hu] at ht
          cases ht
          have := hall.2
          simp only [Thr.joined, Bool.or_eq_true, Bool.not_eq_true'] at this
          rcases this with h | h
          · exact h
          · exact h1 k u hu h
        · exact h2 hall.1 k t (by omega) ht
    | done r => simp only [hm] at h; cases h

theorem minv_init (tss : List (List Task)) : MInv (Jb.init tss) := by
  refine ⟨?_, trivial⟩
  intro k t ht hc
  simp only [Jb.init, List.getElem?_map, Option.map_eq_some_iff] at ht
  obtain ⟨ts, -, rfl⟩ := ht
  cases hc

theorem minv_hist {P : Act → Prop} {sets : List (Option Val)} {s₀ s : Jb} {h : List JEv} (h0 : MInv s₀)
    (hh : Wait.Hist P sets s₀ h s) : MInv s := by
  induction hh with
  | init => exact h0
  | step a _ _ ha ih => exact minv_act ih ha

/-! ## Negative numbers -/

/-- Thread `k` gets no answer. -/
def Silent (k : Nat) (a : Act) : Prop := ∀ c, a = .thr k c → ∀ n, c.net n = none

/-- **C124 is false**: with a negative number, a thread whose driver does not answer a request waits for ever; it does
not give up, and the job never ends. -/
theorem C124_refuted_negative {P : Act → Prop} {sets : List (Option Val)} {tss : List (List Task)} {h h' : List JEv}
    {s s' : Jb} (hh : Wait.Hist P sets (Jb.init tss) h s) {k : Nat} {t : Thr} {q : Q} (ht : s.thrs[k]? = some t)
    (hp : t.pc = .wait q) (hv : Negative (sets.getD k none)) (hh' : Wait.Hist (Silent k) sets s h' s') :
    (∃ t', s'.thrs[k]? = some t' ∧ t'.pc = .wait q) ∧ ∀ r, s'.main ≠ .done r := by
  have key : ∃ t', s'.thrs[k]? = some t' ∧ t'.pc = .wait q := by
    induction hh' with
    | init => exact ⟨t, ht, hp⟩
    | @step h'' s₁ s₂ e a _ hP ha ih =>
      obtain ⟨t₁, ht₁, hp₁⟩ := ih
      cases a with
      | thr j c =>
        simp only [act] at ha
        split at ha
        · cases ha
        · rename_i u hu
          split at ha
          · cases ha
          · rename_i u' e' hst
            cases ha
            by_cases hj : j = k
            · subst hj
              exfalso
              rw [ht₁] at hu
              cases hu
              have hl := negative_iff.mp hv
              unfold limit at hl
              cases hx : timeout (sets.getD j none) with
              | none => rw [hx] at hl; cases hl
              | some x =>
                rw [hx] at hl
                have hl : pollArg x = some .forever := hl
                have hn : c.net 0 = none := hP c rfl 0
                simp only [wstep, hx, waitStep, hp₁, hl, answerStep, Wait.comm, commLoop, hn] at hst
                cases hst
            · exact ⟨t₁, by simp only [List.getElem?_set_ne hj]; exact ht₁, hp₁⟩
      | main =>
        simp only [act, mstep] at ha
        have same : s₂.thrs = s₁.thrs → ∃ t', s₂.thrs[k]? = some t' ∧ t'.pc = .wait q := by
          intro h; rw [h]; exact ⟨t₁, ht₁, hp₁⟩
        split at ha
        · split at ha
          · cases ha; exact same rfl
          · split at ha <;> cases ha <;> exact same rfl
        · split at ha
          · cases ha; exact same rfl
          · rename_i j _ _ u hu
            cases ha
            have hjl : j < s₁.thrs.length := (List.getElem?_eq_some_iff.mp hu).1
            by_cases hj : j = k
            · subst hj
              rw [ht₁] at hu
              cases hu
              exact ⟨_, List.getElem?_set_self hjl, hp₁⟩
            · exact ⟨t₁, by simp only [List.getElem?_set_ne hj]; exact ht₁, hp₁⟩
        · split at ha <;> cases ha <;> exact same rfl
        · split at ha
          · split at ha <;> cases ha <;> exact same rfl
          · cases ha; exact same rfl
        · cases ha
  refine ⟨key, ?_⟩
  intro r hr
  have := (minv_hist (minv_hist (minv_init tss) hh) hh').2
  rw [hr] at this
  obtain ⟨t', ht', hp'⟩ := key
  have := this k t' ht'
  simp [Thr.alive, hp'] at this

/-! ## Values that are no numbers -/

/-- Nothing has been sent to the driver but questions whether it is ready, or a reset if there are no tasks. -/
def Waiting1 (t : Thr) : Prop :=
  t.pc = .cur ∨ t.pc = .hold ∨ t.pc = .ask .ready ∨ t.pc = .wait .ready ∨ t.pc = .ask .reset ∨ t.pc = .wait .reset ∨
    t.pc = .dead ∨ t.pc = .crash ∨ t.pc = .exited ∨ t.pc = .fin

/-- No attempt is answered within less than a millisecond. -/
def Slow (a : Act) : Prop := ∀ k c, a = .thr k c → ∀ n d r, c.net n = some (d, r) → 1 ≤ d

/-- The thread gets no answer in any case. -/
def Hopeless (v : Option Val) : Prop := Senseless v ∨ Says v 0

theorem answer0 {c : Env} (hs : ∀ n d r, c.net n = some (d, r) → 1 ≤ d) : ∃ e, comm (.ms 0) c.net = .abandoned e :=
  ⟨3 * 0, ((C124_request 0 c.net).2.1 _).mpr ⟨fun j _ d r h => hs j d r h, rfl⟩⟩

theorem hopeless_step {v : Option Val} {t t' : Thr} {c : Env} {e : Ev} (hv : Hopeless v)
    (hs : ∀ n d r, c.net n = some (d, r) → 1 ≤ d) (ht : Waiting1 t) (h : wstep v t c = some (t', e)) :
    Waiting1 t' ∧ (∀ i, e ≠ .sent i .start) ∧
      (Senseless v → t.crashed = false → t.pc ≠ .crash → t'.crashed = false ∧ t'.pc ≠ .crash) := by
  have dead : t' = { t with pc := .dead } ∧ e = .died → Waiting1 t' ∧ (∀ i, e ≠ .sent i .start) ∧
      (Senseless v → t.crashed = false → t.pc ≠ .crash → t'.crashed = false ∧ t'.pc ≠ .crash) := by
    rintro ⟨rfl, rfl⟩
    exact ⟨by simp [Waiting1], (by simp), fun _ hc _ => ⟨hc, by simp⟩⟩
  unfold wstep at h
  split at h
  · split at h
    · cases h; exact dead ⟨rfl, rfl⟩
    · cases h
  · rename_i x hx
    unfold waitStep at h
    split at h
    · rename_i q hq
      split at h
      · cases h; exact dead ⟨rfl, rfl⟩
      · rename_i lim hl
        have hlim : limit v = some lim := by simp [limit, hx, hl]
        rcases hv with hv | hv
        · rw [senseless_iff.mp hv] at hlim; cases hlim
        · rw [says_iff.mp hv] at hlim
          cases hlim
          obtain ⟨e', he'⟩ := answer0 hs
          simp only [answerStep, he', tstep, hq] at h
          cases h
          refine ⟨by simp [Waiting1, JobT.next], by simp, ?_⟩
          intro hse
          exact absurd hv (hse.1 0)
    · rename_i hnw
      rcases ht with hp | hp | hp | hp | hp | hp | hp | hp | hp | hp
      · simp only [tstep, hp] at h
        split at h <;> cases h <;> exact ⟨by simp [Waiting1], by simp, fun _ hc _ => ⟨hc, by simp⟩⟩
      · simp only [tstep, hp] at h
        split at h <;> cases h <;> exact ⟨by simp [Waiting1, hp], by simp, fun _ hc _ => ⟨hc, by simp [hp]⟩⟩
      · simp only [tstep, hp] at h
        cases h; exact ⟨by simp [Waiting1], by simp, fun _ hc _ => ⟨hc, by simp⟩⟩
      · exact absurd hp (hnw _)
      · simp only [tstep, hp] at h
        cases h; exact ⟨by simp [Waiting1], by simp, fun _ hc _ => ⟨hc, by simp⟩⟩
      · exact absurd hp (hnw _)
      · simp only [tstep, hp] at h; cases h
      · simp only [tstep, hp] at h
        cases h; exact ⟨by simp [Waiting1], by simp, fun _ _ hn => absurd hp hn⟩
      · simp only [tstep, hp] at h; cases h
      · simp only [tstep, hp] at h; cases h

/-- The main thread has seen no thread that gave up. -/
def NoCrash : MPc → Prop
  | .crash _ any => any = false
  | .join _ any _ => any = false
  | .done any => any = false
  | _ => True

theorem hopeless_act {sets : List (Option Val)} {s s' : Jb} {a : Act} {e : JEv}
    (hv : ∀ k < s.thrs.length, Hopeless (sets.getD k none)) (hs : Slow a)
    (hi : ∀ (k : Nat) (t : Thr), s.thrs[k]? = some t → Waiting1 t) (h : act sets s a = some (s', e)) :
    s'.thrs.length = s.thrs.length ∧ (∀ (k : Nat) (t : Thr), s'.thrs[k]? = some t → Waiting1 t) ∧
    (∀ k i, e ≠ .thr k (.sent i .start)) ∧
    ((∀ k < s.thrs.length, Senseless (sets.getD k none)) →
      ((∀ (k : Nat) (t : Thr), s.thrs[k]? = some t → t.crashed = false ∧ t.pc ≠ .crash) ∧ NoCrash s.main) →
      ((∀ (k : Nat) (t : Thr), s'.thrs[k]? = some t → t.crashed = false ∧ t.pc ≠ .crash) ∧ NoCrash s'.main)) := by
  have setOf : ∀ {k : Nat} {t t' : Thr} {Q : Thr → Prop}, s.thrs[k]? = some t → Q t' →
      (∀ (j : Nat) (u : Thr), s.thrs[j]? = some u → Q u) → ∀ (j : Nat) (u : Thr), (s.thrs.set k t')[j]? = some u → Q u := by
    intro k t t' Q ht hq hall j u hu
    have hkl : k < s.thrs.length := (List.getElem?_eq_some_iff.mp ht).1
    by_cases hj : k = j
    · subst hj
      rw [List.getElem?_set_self hkl] at hu
      cases hu
      exact hq
    · rw [List.getElem?_set_ne hj] at hu
      exact hall j u hu
  cases a with
  | thr k c =>
    simp only [act] at h
    split at h
    · cases h
    · rename_i t ht
      split at h
      · cases h
      · rename_i t' e' hst
        cases h
        have hkl : k < s.thrs.length := (List.getElem?_eq_some_iff.mp ht).1
        obtain ⟨h1, h2, h3⟩ := hopeless_step (hv k hkl) (hs k c rfl) (hi k t ht) hst
        refine ⟨by simp, setOf ht h1 hi, ?_, ?_⟩
        · intro j i he
          cases he
          exact h2 i rfl
        · rintro hse ⟨hc, hm⟩
          exact ⟨setOf (Q := fun t => t.crashed = false ∧ t.pc ≠ .crash) ht
            (h3 (hse k hkl) (hc k t ht).1 (hc k t ht).2) hc, hm⟩
  | main =>
    simp only [act, mstep] at h
    have same : ∀ (m : MPc) (st : List String), ((∀ (k : Nat) (t : Thr), s.thrs[k]? = some t →
          t.crashed = false ∧ t.pc ≠ .crash) → NoCrash s.main → NoCrash m) →
        s' = { s with main := m, started := st } → (∀ k i, e ≠ .thr k (.sent i .start)) → s'.thrs.length = s.thrs.length ∧
        (∀ (k : Nat) (t : Thr), s'.thrs[k]? = some t → Waiting1 t) ∧ (∀ k i, e ≠ .thr k (.sent i .start)) ∧
        ((∀ k < s.thrs.length, Senseless (sets.getD k none)) →
        ((∀ (k : Nat) (t : Thr), s.thrs[k]? = some t → t.crashed = false ∧ t.pc ≠ .crash) ∧ NoCrash s.main) →
        ((∀ (k : Nat) (t : Thr), s'.thrs[k]? = some t → t.crashed = false ∧ t.pc ≠ .crash) ∧ NoCrash s'.main)) := by
      rintro m st hm rfl he
      exact ⟨rfl, hi, he, fun _ hc => ⟨hc.1, hm hc.1 hc.2⟩⟩
    obtain ⟨m, hm⟩ : ∃ m, s.main = m := ⟨_, rfl⟩
    cases m with
    | collect k =>
      simp only [hm] at h
      split at h
      · cases h; exact same _ s.started (by intros; trivial) rfl (by simp)
      · split at h
        · cases h; exact same _ s.started (by intros; trivial) rfl (by simp)
        · cases h; exact same _ _ (by intros; trivial) rfl (by simp)
    | push k =>
      simp only [hm] at h
      split at h
      · cases h; exact same _ s.started (by intros; rfl) rfl (by simp)
      · rename_i t ht
        cases h
        refine ⟨by simp, setOf ht (hi k t ht) hi, by simp, ?_⟩
        rintro - ⟨hc, -⟩
        exact ⟨setOf (Q := fun t => t.crashed = false ∧ t.pc ≠ .crash) ht (hc k t ht) hc, trivial⟩
    | crash k any =>
      simp only [hm] at h
      split at h
      · cases h
        exact same _ s.started (fun _ hn => by rw [hm] at hn; exact hn) rfl (by simp)
      · rename_i t ht
        cases h
        refine same _ s.started (fun hc hn => ?_) rfl (by simp)
        rw [hm] at hn
        simp only [NoCrash] at hn ⊢
        rw [hn, (hc k t ht).1]
        rfl
    | join j any all =>
      simp only [hm] at h
      split at h
      · split at h
        · cases h
          exact same _ s.started (fun _ hn => by rw [hm] at hn; exact hn) rfl (by simp)
        · cases h
          exact same _ s.started (by intros; trivial) rfl (by simp)
      · cases h
        exact same _ s.started (fun _ hn => by rw [hm] at hn; exact hn) rfl (by simp)
    | done r => simp only [hm] at h; cases h

theorem hopeless_hist {P : Act → Prop} (hP : ∀ a, P a → Slow a) {sets : List (Option Val)} {tss : List (List Task)}
    (hv : ∀ k < tss.length, Hopeless (sets.getD k none)) {h : List JEv} {s : Jb}
    (hh : Wait.Hist P sets (Jb.init tss) h s) :
    s.thrs.length = tss.length ∧ (∀ (k : Nat) (t : Thr), s.thrs[k]? = some t → Waiting1 t) ∧
    (∀ k i, .thr k (.sent i .start) ∉ h) ∧
    ((∀ k < tss.length, Senseless (sets.getD k none)) →
      (∀ (k : Nat) (t : Thr), s.thrs[k]? = some t → t.crashed = false ∧ t.pc ≠ .crash) ∧ NoCrash s.main) := by
  induction hh with
  | init =>
    have h0 : ∀ (k : Nat) (t : Thr), (Jb.init tss).thrs[k]? = some t → ∃ ts, t = { tasks := ts } := by
      intro k t ht
      simp only [Jb.init, List.getElem?_map, Option.map_eq_some_iff] at ht
      obtain ⟨ts, -, rfl⟩ := ht
      exact ⟨ts, rfl⟩
    refine ⟨by simp [Jb.init], ?_, by simp, fun _ => ⟨?_, trivial⟩⟩
    · intro k t ht
      obtain ⟨ts, rfl⟩ := h0 k t ht
      exact .inl rfl
    · intro k t ht
      obtain ⟨ts, rfl⟩ := h0 k t ht
      exact ⟨rfl, by simp⟩
  | step a _ hp ha ih =>
    obtain ⟨hl, h1, h2, h3⟩ := ih
    obtain ⟨k1, k2, k3, k4⟩ := hopeless_act (by rw [hl]; exact hv) (hP a hp) h1 ha
    refine ⟨by rw [k1, hl], k2, ?_, ?_⟩
    · intro k i hm
      rcases List.mem_append.mp hm with hm | hm
      · exact h2 k i hm
      · exact k3 k i (List.mem_singleton.mp hm).symm
    · intro hse
      exact k4 (by rw [hl]; exact hse) (h3 hse)

/-! ### Witnesses -/

theorem wrun_hist {P : Act → Prop} {sets : List (Option Val)} {s₀ s s' : Jb} {h es : List JEv} {as : List Act}
    (hP : ∀ a ∈ as, P a) (hh : Wait.Hist P sets s₀ h s) (hr : Wait.run sets s as = some (s', es)) :
    Wait.Hist P sets s₀ (h ++ es) s' := by
  induction as generalizing s h es with
  | nil =>
    simp only [Wait.run, Option.some.injEq, Prod.mk.injEq] at hr
    obtain ⟨rfl, rfl⟩ := hr
    simpa using hh
  | cons a as ih =>
    simp only [Wait.run] at hr
    split at hr
    · cases hr
    · rename_i s₁ e ha
      split at hr
      · cases hr
      · rename_i s₂ es' hr'
        cases hr
        have := ih (fun a h => hP a (by simp [h])) (hh.step a (hP a (by simp)) ha) hr'
        simpa using this

/-- Thread 0 takes `n` steps without answers. -/
def mute (n : Nat) : List Act := List.replicate n (.thr 0 {})

/-- The main thread takes `n` steps. -/
def mains (n : Nat) : List Act := List.replicate n .main

theorem mute_silent {n m : Nat} : ∀ a ∈ mute n ++ mains m, Slow a := by
  intro a ha k c hc
  subst hc
  simp only [mute, mains, List.mem_append, List.mem_replicate] at ha
  rcases ha with ⟨-, h⟩ | ⟨-, h⟩
  · cases h
    intro n d r h; cases h
  · cases h

/-- **C124 is false**: if the entry of every driver used is no number, no thread sends any task, whatever the drivers
answer, but the job never ends with an error; and it can end, so that it is recorded as completed. -/
theorem C124_refuted :
    (∀ (tss : List (List Task)) (sets : List (Option Val)), (∀ k < tss.length, Senseless (sets.getD k none)) →
      ∀ h s, Wait.Hist Slow sets (Jb.init tss) h s →
        (∀ k i, .thr k (.sent i .start) ∉ h) ∧ ∀ r, s.main = .done r → r = false) ∧
    Senseless (some (.str "2")) ∧
    ∃ h s, Wait.Hist Slow [some (.str "2")] (Jb.init [[task "x" 1]]) h s ∧ s.main = .done false := by
  refine ⟨?_, senseless_iff.mpr rfl, ?_⟩
  · intro tss sets hv h s hh
    obtain ⟨-, -, h2, h3⟩ := hopeless_hist (fun _ h => h) (fun k hk => .inl (hv k hk)) hh
    refine ⟨h2, ?_⟩
    intro r hr
    have := (h3 hv).2
    rw [hr] at this
    exact this
  · have hr : ∃ s es, Wait.run [some (.str "2")] (Jb.init [[task "x" 1]]) (mute 4 ++ mains 8) = some (s, es) ∧
        s.main = .done false := ⟨_, _, rfl, rfl⟩
    obtain ⟨s, es, h1, h2⟩ := hr
    exact ⟨_, s, wrun_hist mute_silent .init h1, h2⟩

/-- **C124 is false**: if the entry of every driver used is 0, or a number below a thousandth, no thread sends any task
unless a driver answers within less than a millisecond. -/
theorem C124_refuted_zero (tss : List (List Task)) (sets : List (Option Val))
    (hv : ∀ k < tss.length, Says (sets.getD k none) 0) {h : List JEv} {s : Jb}
    (hh : Wait.Hist Slow sets (Jb.init tss) h s) : ∀ k i, .thr k (.sent i .start) ∉ h :=
  (hopeless_hist (fun _ h => h) (fun k hk => .inr (hv k hk)) hh).2.2.1

/-! ### Examples -/

/-- Half a millisecond is no time. -/
example : Says (some (.float (1 / 2000))) 0 := .float _ 0 (by norm_num) (by norm_num) (by omega)
/-- Two and a half seconds. -/
example : Says (some (.float (5 / 2))) 2500 := .float _ 2500 (by norm_num) (by norm_num) (by omega)
example : Says (some (.int 2)) 2000 := .int 2 (by omega)
example : Senseless (some .list) ∧ Senseless (some .null) ∧ Senseless (some .nan) ∧ Senseless (some (.inf false)) ∧
    Senseless (some (.int 9223372036854776)) :=
  ⟨senseless_iff.mpr rfl, senseless_iff.mpr rfl, senseless_iff.mpr rfl, senseless_iff.mpr rfl, senseless_iff.mpr rfl⟩
example : Negative (some (.int (-1))) := .int _ (by omega)

/-- `C124_partial`, `C124_refuted_negative` and `C124_refuted_zero`: a thread waits for the answer to its first request;
with a limit of two seconds, it gives up if there is none. -/
example (v : Option Val) (ht : timeout v ≠ none) : ∃ h s t, Wait.Hist Slow [v] (Jb.init [[task "x" 1]]) h s ∧
    s.thrs[0]? = some t ∧ t.pc = .wait .ready := by
  have hx : ∃ x, timeout v = some x := Option.ne_none_iff_exists'.mp ht
  obtain ⟨x, hx⟩ := hx
  have hr : ∃ s es t, Wait.run [v] (Jb.init [[task "x" 1]]) (mute 3 ++ mains 0) = some (s, es) ∧
      s.thrs[0]? = some t ∧ t.pc = .wait .ready := by
    simp [Wait.run, mute, mains, act, wstep, waitStep, hx, Jb.init, tstep, task, JobT.met]
  obtain ⟨s, es, t, h1, h2⟩ := hr
  exact ⟨_, s, t, wrun_hist mute_silent .init h1, h2⟩

example : ∃ s es t, Wait.run [some (.int 2)] (Jb.init [[task "x" 1]]) (mute 5) = some (s, es) ∧
    s.thrs[0]? = some t ∧ t.crashed = true := ⟨_, _, _, rfl, rfl, rfl⟩

end Tomato.Props.Waiting
