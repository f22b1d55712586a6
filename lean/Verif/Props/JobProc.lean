import Verif.JobProc
import Verif.Props.Paths

/-!
# The job process with its files: C91, C92

The statements are about the system of `Verif/JobProc.lean`: job processes with their output folders,
result files and RO-crates, and users who change files at any time.
-/

namespace Tomato.Props

open Tomato.Full

/-! ## C91 -/

/-- What holds in all reachable states of the system without files holds with files. -/
theorem C91_states {st : String} (Φ : World → Prop) (h : ∀ b, Reachable st b → Φ b.w) {s : FSys}
    (hs : FReachable st s) : Φ s.w := by
  obtain ⟨b, hb, hr⟩ := refines hs
  rw [← hr.w]; exact h b hb

/-- What holds for all steps of the system without files, and for steps that do nothing, holds with
files. -/
theorem C91_steps {st : String} (Φ : World → World → Prop) (h0 : ∀ w, Φ w w)
    (h : ∀ b b', Reachable st b → Step st b b' → Φ b.w b'.w) {s s' : FSys}
    (hs : FReachable st s) (hst : FStep st s s') : Φ s.w s'.w := by
  obtain ⟨b, hb, hr⟩ := refines hs
  obtain ⟨b', h1, hr'⟩ := refines_step hr hst
  rw [← hr.w, ← hr'.w]
  rcases h1 with rfl | h1
  · exact h0 _
  · exact h b b' hb h1

/-- **C91**: whatever a job process meets when it uses files -- a missing, existing or blocked
output folder, a result file that can not be written, a missing package, files changing at any
moment -- the queue stays consistent: no job is launched twice, no pipeline in use is given to
another job, and the records of the jobs are kept. -/
theorem C91_consistent {st : String} {s s' : FSys} (hs : FReachable st s) (hst : FStep st s s') :
    (s.w.launches.map (·.jobid)).Nodup ∧
    (∀ p' ∈ s'.w.pips, ∀ j, p'.jobid = some j →
      ∃ p ∈ s.w.pips, p.name = p'.name ∧ (p.jobid = none ∨ p.jobid = some j)) ∧
    (∀ j ∈ s.w.jobs, ∃ j' ∈ s'.w.jobs, j'.id = j.id ∧ j'.payload = j.payload ∧
      j'.jobname = j.jobname ∧ j'.submittedAt = j.submittedAt) := by
  refine ⟨C91_states (fun w => (w.launches.map (·.jobid)).Nodup) (fun b hb => C18_launched_once hb) hs,
    ?_, ?_⟩
  · refine C91_steps (fun w w' => ∀ p' ∈ w'.pips, ∀ j, p'.jobid = some j →
      ∃ p ∈ w.pips, p.name = p'.name ∧ (p.jobid = none ∨ p.jobid = some j)) ?_ ?_ hs hst
    · intro w p hp j hj
      exact ⟨p, hp, rfl, .inr hj⟩
    · intro b b' hb hst p' hp' j hj
      exact C17_no_double_assignment hb hst p' hp' j hj
  · refine C91_steps (fun w w' => ∀ j ∈ w.jobs, ∃ j' ∈ w'.jobs, j'.id = j.id ∧
      j'.payload = j.payload ∧ j'.jobname = j.jobname ∧ j'.submittedAt = j.submittedAt) ?_ ?_ hs hst
    · intro w j hj
      exact ⟨j, hj, rfl, rfl, rfl, rfl⟩
    · intro b b' hb hst j hj
      exact C03_records_immutable hb (.tail (.refl _) hst) j hj

/-! ## C92: the output folder -/

/-- Executions of a program on files, during which others change the files between any two of its
operations in the way described by `R`. -/
inductive Interleaved (R : Tree → Tree → Prop) {α : Type} :
    Prog FS α → Tree → Except PyErr α → Tree → Prop
  | pure (a : α) (t : Tree) : Interleaved R (.pure a) t (.ok a) t
  | raise (e : PyErr) (t : Tree) : Interleaved R (.raise e) t (.error e) t
  | op (o : FsOp) (k : Except PyErr (FsResp o) → Prog FS α) {t t' t'' : Tree} {r : Except PyErr α} :
      R t t' → Interleaved R (k (fsExec o t').1) (fsExec o t').2 r t'' →
      Interleaved R (.op o k) t r t''

variable {R : Tree → Tree → Prop}

theorem inter_bind {α β : Type} {p : Prog FS α} {f : α → Prog FS β} {t t' : Tree}
    {r : Except PyErr β} (h : Interleaved R (Prog.bind p f) t r t') :
    (∃ e, r = .error e ∧ Interleaved R p t (.error e) t') ∨
    ∃ a t1, Interleaved R p t (.ok a) t1 ∧ Interleaved R (f a) t1 r t' := by
  induction p generalizing t with
  | pure a => exact .inr ⟨a, t, .pure a t, h⟩
  | raise e => cases h; exact .inl ⟨e, rfl, .raise e _⟩
  | op o k ih =>
    cases h with
    | op _ _ hR hk =>
      rcases ih _ hk with ⟨e, rfl, h1⟩ | ⟨a, t1, h1, h2⟩
      · exact .inl ⟨e, rfl, .op o k hR h1⟩
      · exact .inr ⟨a, t1, .op o k hR h1, h2⟩

theorem inter_try {α : Type} {p : Prog FS α} {f : PyErr → Option (Prog FS α)} {t t' : Tree}
    {r : Except PyErr α} (h : Interleaved R (Prog.tryExcept p f) t r t') :
    (∃ a, r = .ok a ∧ Interleaved R p t (.ok a) t') ∨
    ∃ e t1, Interleaved R p t (.error e) t1 ∧ Interleaved R ((f e).getD (.raise e)) t1 r t' := by
  induction p generalizing t with
  | pure a => cases h; exact .inl ⟨a, rfl, .pure a _⟩
  | raise e => exact .inr ⟨e, t, .raise e t, h⟩
  | op o k ih =>
    cases h with
    | op _ _ hR hk =>
      rcases ih _ hk with ⟨a, rfl, h1⟩ | ⟨e, t1, h1, h2⟩
      · exact .inl ⟨a, rfl, .op o k hR h1⟩
      · exact .inr ⟨e, t1, .op o k hR h1, h2⟩

theorem inter_call {o : FsOp} {t t' : Tree} {r : Except PyErr (FsResp o)}
    (h : Interleaved R (Prog.call (S := FS) o) t r t') :
    ∃ t1, R t t1 ∧ r = (fsExec o t1).1 ∧ t' = (fsExec o t1).2 := by
  cases h with
  | op _ _ hR hk =>
    refine ⟨_, hR, ?_⟩
    cases hx : (fsExec o _).1 with
    | ok a => rw [hx] at hk; cases hk; exact ⟨rfl, rfl⟩
    | error e => rw [hx] at hk; cases hk; exact ⟨rfl, rfl⟩

/-- What is on the way to a folder is a folder or missing. -/
def Clear (p : FsPath) (t : Tree) : Prop := t [] = some .dir ∧ ∀ q, q <+: p → t q = none ∨ t q = some .dir

/-- What others do while the folder `p` is made: they keep all folders, and on the way to `p` they
create only folders (perhaps `p` itself). -/
structure Friendly (p : FsPath) (t t' : Tree) : Prop where
  dirs : ∀ q, t q = some .dir → t' q = some .dir
  path : ∀ q, q <+: p → t q = none → t' q = none ∨ t' q = some .dir

theorem clear_friendly {p : FsPath} {t t' : Tree} (h : Clear p t) (hf : Friendly p t t') :
    Clear p t' := by
  refine ⟨hf.dirs _ h.1, fun q hq => ?_⟩
  rcases h.2 q hq with e | e
  · exact hf.path q hq e
  · exact .inr (hf.dirs q e)

theorem clear_put {p q : FsPath} {t : Tree} (h : Clear p t) : Clear p (t.put q .dir) := by
  refine ⟨?_, fun x hx => ?_⟩
  · unfold Tree.put; split
    · rfl
    · exact h.1
  · unfold Tree.put; split
    · exact .inr rfl
    · exact h.2 x hx

/-- What `os.mkdir` does when the way is clear. -/
theorem mkdir_clear {p q : FsPath} {t : Tree} (h : Clear p t) (hq : q <+: p)
    (hpar : t q.dropLast = some .dir) :
    ((fsExec (.mkdir q) t).1 = .ok () ∧ t q = none ∧ (fsExec (.mkdir q) t).2 = t.put q .dir) ∨
    ((fsExec (.mkdir q) t).1 = .error .fileExistsError ∧ t q = some .dir ∧
      (fsExec (.mkdir q) t).2 = t) := by
  simp only [fsExec]
  rcases h.2 q hq with e | e
  · left; simp [e, hpar]
  · right; simp [e]

/-- Making the missing folders one after the other, while others are friendly and do not create
the paths in `N`. -/
theorem makedirs_inter {p : FsPath} (N : FsPath → Prop) (hR : ∀ t t', R t t' → Friendly p t t')
    (hN : ∀ t t', R t t' → ∀ x, N x → t x = none → t' x = none) (r : List String)
    (hr : r.reverse <+: p) {t t' : Tree} {res : Except PyErr Unit} (hc : Clear p t)
    (h : Interleaved R (makedirsRev r) t res t') :
    Clear p t' ∧ t' r.reverse = some .dir ∧
    (∀ x, N x → t x = none → ¬ x <+: r.reverse → t' x = none) ∧
    (res = .ok () ∨ res = .error .fileExistsError) ∧
    (N r.reverse → t r.reverse = none → res = .ok ()) := by
  induction r generalizing t t' res with
  | nil =>
    obtain ⟨t1, h1, rfl, rfl⟩ := inter_call h
    have hc1 := clear_friendly hc (hR _ _ h1)
    have hroot : t1 [] = some .dir := hc1.1
    refine ⟨?_, ?_, ?_, ?_, ?_⟩
    · simp [fsExec, hroot, hc1]
    · simp [fsExec, hroot]
    · intro x hx hn _
      simpa [fsExec, hroot] using hN _ _ h1 x hx hn
    · right; simp [fsExec, hroot]
    · intro _ hn; simp [hc.1] at hn
  | cons c head ih =>
    have hrev : (c :: head).reverse = head.reverse ++ [c] := by simp
    have hhead : head.reverse <+: p := by
      rw [hrev] at hr
      exact (List.prefix_append _ _).trans hr
    have hne : (c :: head).reverse.dropLast = head.reverse := by simp
    -- the last operation
    have last : ∀ {t1 t' : Tree} {res : Except PyErr Unit}, Clear p t1 →
        t1 head.reverse = some .dir →
        (∀ x, N x → t x = none → ¬ x <+: (c :: head).reverse → t1 x = none) →
        (N (c :: head).reverse → t (c :: head).reverse = none → t1 (c :: head).reverse = none) →
        Interleaved R (Ask.mkdir (c :: head).reverse) t1 res t' →
        Clear p t' ∧ t' (c :: head).reverse = some .dir ∧
        (∀ x, N x → t x = none → ¬ x <+: (c :: head).reverse → t' x = none) ∧
        (res = .ok () ∨ res = .error .fileExistsError) ∧
        (N (c :: head).reverse → t (c :: head).reverse = none → res = .ok ()) := by
      intro t1 t' res hc1 hd hN1 hN2 h
      obtain ⟨t2, h2, rfl, rfl⟩ := inter_call h
      have hf := hR _ _ h2
      have hc2 := clear_friendly hc1 hf
      have hpar : t2 (c :: head).reverse.dropLast = some .dir := by rw [hne]; exact hf.dirs _ hd
      rcases mkdir_clear hc2 hr hpar with ⟨e1, e2, e3⟩ | ⟨e1, e2, e3⟩
      · rw [e3]
        refine ⟨clear_put hc2, by simp [Tree.put], ?_, .inl e1, fun _ _ => e1⟩
        intro x hx hn hnp
        have hxne : x ≠ (c :: head).reverse := by rintro rfl; exact hnp (List.prefix_rfl)
        simp only [Tree.put, if_neg hxne]
        exact hN _ _ h2 x hx (hN1 x hx hn hnp)
      · rw [e3]
        refine ⟨hc2, e2, fun x hx hn hnp => hN _ _ h2 x hx (hN1 x hx hn hnp), .inr e1, ?_⟩
        intro hx hn
        have := hN _ _ h2 _ hx (hN2 hx hn)
        rw [this] at e2; cases e2
    simp only [makedirsRev, Prog.bind_eq] at h
    rcases inter_bind h with ⟨e, rfl, h1⟩ | ⟨ex, t1, h1, h2⟩
    · obtain ⟨t2, _, h3, _⟩ := inter_call h1
      simp [fsExec] at h3
    · obtain ⟨t0, h0, hex, ht⟩ := inter_call h1
      have hc0 := clear_friendly hc (hR _ _ h0)
      have ht0 : t1 = t0 := ht
      rw [ht0] at h2
      have hN0 := hN _ _ h0
      cases ex with
      | true =>
        have hd : t0 head.reverse = some .dir := by
          rcases hc0.2 _ hhead with e | e
          · simp [fsExec, e] at hex
          · exact e
        exact last hc0 hd (fun x hx hn _ => hN0 x hx hn) (fun hx hn => hN0 _ hx hn) h2
      | false =>
        rcases inter_bind h2 with ⟨e, rfl, h3⟩ | ⟨_, t1, h3, h4⟩
        · -- the recursive call does not fail
          exfalso
          rcases inter_try h3 with ⟨_, h5, _⟩ | ⟨e', t2, h5, h6⟩
          · cases h5
          · obtain ⟨_, _, _, hres, _⟩ := ih hhead hc0 h5
            rcases hres with e1 | e1
            · cases e1
            · cases e1; simp at h6; cases h6
        · have key : ∃ res', Interleaved R (makedirsRev head) t0 res' t1 := by
            rcases inter_try h3 with ⟨a, _, h5⟩ | ⟨e', t2, h5, h6⟩
            · exact ⟨_, h5⟩
            · obtain ⟨_, _, _, hres, _⟩ := ih hhead hc0 h5
              rcases hres with e1 | e1
              · cases e1
              · cases e1
                simp at h6; cases h6
                exact ⟨_, h5⟩
          obtain ⟨res', h5⟩ := key
          obtain ⟨hc1, hd, hkeep, _, _⟩ := ih hhead hc0 h5
          refine last hc1 hd ?_ ?_ h4
          · intro x hx hn hnp
            refine hkeep x hx (hN0 x hx hn) (fun hp => hnp ?_)
            rw [hrev]; exact hp.trans (List.prefix_append _ _)
          · intro hx hn
            refine hkeep _ hx (hN0 _ hx hn) (fun hp => ?_)
            have := hp.length_le
            simp at this
            omega

/-- **C92** (partial): while a job process prepares its output folder, others may make folders
anywhere, on the way to it and even the folder itself, and do anything to files elsewhere.  If the
way is clear, then the only thing that can go wrong is a `FileExistsError` -- raised although the
folder was missing at first and is there in the end.  (It does go wrong, `C92_refuted`.) -/
theorem C92_spurious_partial (p : FsPath) {t t' : Tree} {res : Except PyErr Unit} (hc : Clear p t)
    (h : Interleaved (Friendly p) (prepareOut p) t res t') :
    t' p = some .dir ∧ (res = .ok () ∨ (res = .error .fileExistsError ∧ t p = none)) := by
  simp only [prepareOut, Prog.bind_eq] at h
  rcases inter_bind h with ⟨e, rfl, h1⟩ | ⟨ex, t1, h1, h2⟩
  · obtain ⟨t2, _, h3, _⟩ := inter_call h1
    simp [fsExec] at h3
  · obtain ⟨t0, h0, hex, ht⟩ := inter_call h1
    have hc0 := clear_friendly hc h0
    have ht0 : t1 = t0 := ht
    rw [ht0] at h2
    cases ex with
    | true =>
      have hd : t0 p = some .dir := by
        rcases hc0.2 _ List.prefix_rfl with e | e
        · simp [fsExec, e] at hex
        · exact e
      simp only [if_true] at h2
      rcases inter_bind h2 with ⟨e, rfl, h3⟩ | ⟨d, t2, h3, h4⟩
      · obtain ⟨t2, _, h3, _⟩ := inter_call h3
        simp [fsExec] at h3
      · obtain ⟨t3, h5, hd3, ht3⟩ := inter_call h3
        have hp3 : t3 p = some .dir := h5.dirs _ hd
        have : d = true := by simpa [fsExec, hp3] using hd3
        subst this
        simp only [Prog.assert, if_true] at h4
        have ht3' : t2 = t3 := ht3
        rw [ht3'] at h4
        cases h4
        exact ⟨hp3, .inl rfl⟩
    | false =>
      simp only [Bool.false_eq_true, if_false] at h2
      have hn : t p = none := by
        rcases hc.2 p List.prefix_rfl with e | e
        · exact e
        · have := h0.dirs _ e; simp [fsExec, this] at hex
      obtain ⟨_, hd, _, hres, _⟩ := makedirs_inter (R := Friendly p) (fun _ => False)
        (fun _ _ h => h) (fun _ _ _ _ hx => hx.elim) p.reverse (by simp) hc0 h2
      rw [List.reverse_reverse] at hd
      rcases hres with e | e
      · exact ⟨hd, .inl e⟩
      · exact ⟨hd, .inr ⟨e, hn⟩⟩

/-- **C92** (partial): if moreover nobody else makes the output folder itself, the preparation
succeeds and the folder is there. -/
theorem C92_partial (p : FsPath) {t t' : Tree} {res : Except PyErr Unit} (hc : Clear p t)
    (h : Interleaved (fun a b => Friendly p a b ∧ (a p = none → b p = none)) (prepareOut p) t res t') :
    res = .ok () ∧ t' p = some .dir := by
  simp only [prepareOut, Prog.bind_eq] at h
  rcases inter_bind h with ⟨e, rfl, h1⟩ | ⟨ex, t1, h1, h2⟩
  · obtain ⟨t2, _, h3, _⟩ := inter_call h1
    simp [fsExec] at h3
  · obtain ⟨t0, h0, hex, ht⟩ := inter_call h1
    have hc0 := clear_friendly hc h0.1
    have ht0 : t1 = t0 := ht
    rw [ht0] at h2
    cases ex with
    | true =>
      have hd : t0 p = some .dir := by
        rcases hc0.2 _ List.prefix_rfl with e | e
        · simp [fsExec, e] at hex
        · exact e
      simp only [if_true] at h2
      rcases inter_bind h2 with ⟨e, rfl, h3⟩ | ⟨d, t2, h3, h4⟩
      · obtain ⟨t2, _, h3, _⟩ := inter_call h3
        simp [fsExec] at h3
      · obtain ⟨t3, h5, hd3, ht3⟩ := inter_call h3
        have hp3 : t3 p = some .dir := h5.1.dirs _ hd
        have : d = true := by simpa [fsExec, hp3] using hd3
        subst this
        simp only [Prog.assert, if_true] at h4
        have ht3' : t2 = t3 := ht3
        rw [ht3'] at h4
        cases h4
        exact ⟨rfl, hp3⟩
    | false =>
      simp only [Bool.false_eq_true, if_false] at h2
      have hn : t0 p = none := by
        rcases hc0.2 p List.prefix_rfl with e | e
        · exact e
        · simp [fsExec, e] at hex
      obtain ⟨_, hd, _, _, hres⟩ := makedirs_inter (fun x => x = p)
        (fun _ _ h => h.1) (fun _ _ h x hx hx' => by rw [show x = p from hx] at hx' ⊢; exact h.2 hx') p.reverse (by simp) hc0 h2
      rw [List.reverse_reverse] at hd hres
      exact ⟨hres rfl hn, hd⟩

/-- Everything is in a folder. -/
def TreeOk (t : Tree) : Prop :=
  t [] = some .dir ∧ ∀ q c, (t (q ++ [c])).isSome = true → t q = some .dir

theorem treeOk_below {t : Tree} (h : TreeOk t) {q : FsPath} (r : FsPath) (hr : r ≠ [])
    (hn : t q ≠ some .dir) : t (q ++ r) = none := by
  obtain ⟨n, hlen⟩ : ∃ n, r.length = n := ⟨_, rfl⟩
  induction n generalizing r with
  | zero => exact absurd (List.length_eq_zero_iff.mp hlen) hr
  | succ n ih =>
    obtain ⟨r, c, rfl⟩ : ∃ y c', r = y ++ [c'] :=
      ⟨r.dropLast, r.getLast hr, (List.dropLast_concat_getLast hr).symm⟩
    cases hx : t (q ++ (r ++ [c])) with
    | none => rfl
    | some n =>
      exfalso
      rw [← List.append_assoc] at hx
      have := h.2 (q ++ r) c (by rw [hx]; rfl)
      by_cases e : r = []
      · subst e; rw [List.append_nil] at this; exact hn this
      · rw [ih r e (by simpa using hlen)] at this; cases this

/-- All folders up to `p` are there, everything else is as before. -/
def filled (p : FsPath) (t : Tree) : Tree := fun q => if q <+: p then some .dir else t q

theorem treeOk_prefix {t : Tree} (h : TreeOk t) {p q : FsPath} (hq : q <+: p)
    (hp : t p = some .dir) : t q = some .dir := by
  obtain ⟨r, rfl⟩ := hq
  by_cases hn : t q = some .dir
  · exact hn
  · by_cases e : r = []
    · subst e; rw [List.append_nil] at hp; exact hp
    · rw [treeOk_below h r e hn] at hp; cases hp

theorem filled_self {t : Tree} (h : TreeOk t) {p : FsPath} (hp : t p = some .dir) :
    filled p t = t := by
  funext q
  unfold filled
  split
  · next hq => exact (treeOk_prefix h hq hp).symm
  · rfl

theorem prefix_concat {p q : FsPath} {c : String} : q <+: p ++ [c] ↔ q <+: p ∨ q = p ++ [c] := by
  rw [List.prefix_concat_iff, or_comm]

theorem run_try {S : Sig} {W α : Type} {hd : Prog.Handler S W} (p : Prog S α)
    (f : PyErr → Option (Prog S α)) (w : W) :
    Prog.run hd (Prog.tryExcept p f) w =
      match Prog.run hd p w with
      | (.ok a, w') => (.ok a, w')
      | (.error e, w') => Prog.run hd ((f e).getD (.raise e)) w' := by
  induction p generalizing w with
  | pure a => rfl
  | raise e => rfl
  | op o k ih => exact ih _ _

theorem run_makedirs {t : Tree} (h : TreeOk t) (r : List String) (hc : Clear r.reverse t)
    (hn : t r.reverse = none) :
    Prog.run fsExec (makedirsRev r) t = (.ok (), filled r.reverse t) := by
  induction r with
  | nil => rw [List.reverse_nil, h.1] at hn; cases hn
  | cons c head ih =>
    have hrev : (c :: head).reverse = head.reverse ++ [c] := by simp
    rw [hrev] at hc hn ⊢
    have hchead : Clear head.reverse t := ⟨h.1, fun q hq => hc.2 q (prefix_concat.mpr (.inl hq))⟩
    simp only [makedirsRev, Prog.bind_eq, Prog.run_bind, Ask.run_exists, Ask.run_isDir]
    have fin : ∀ t1 : Tree, t1 head.reverse = some .dir → t1 (head.reverse ++ [c]) = none →
        Prog.run fsExec (Ask.mkdir (c :: head).reverse) t1 =
          (.ok (), t1.put (head.reverse ++ [c]) .dir) := by
      intro t1 h1 h2
      rw [Ask.run_mkdir, hrev]
      simp [fsExec, h1, h2]
    rcases hchead.2 head.reverse List.prefix_rfl with e | e
    · have hex : ((.ok (t head.reverse).isSome, t) : Except PyErr Bool × Tree) = (.ok false, t) := by simp [fsExec, e]
      rw [hex]
      simp only [Prog.andThen_ok, Bool.not_false, if_true, Prog.run_bind]
      have hi := ih hchead e
      have htry : Prog.run fsExec (Prog.tryExcept (makedirsRev head)
          (fun e => if e = .fileExistsError then some (pure ()) else none)) t =
            (.ok (), filled head.reverse t) := by
        rw [run_try, hi]
      rw [htry]
      simp only [Prog.andThen_ok]
      rw [fin]
      · congr 1
        funext q
        simp only [filled, Tree.put]
        by_cases hq : q = head.reverse ++ [c]
        · simp [hq]
        · rw [if_neg hq]
          simp only [prefix_concat, hq, or_false]
      · simp [filled]
      · unfold filled
        rw [if_neg, hn]
        intro hp
        have := hp.length_le
        simp at this
        omega
    · have hex : ((.ok (t head.reverse).isSome, t) : Except PyErr Bool × Tree) = (.ok true, t) := by simp [fsExec, e]
      rw [hex]
      simp only [Prog.andThen_ok, Bool.not_true, Bool.false_eq_true, if_false]
      rw [fin t e hn]
      congr 1
      funext q
      simp only [filled, Tree.put]
      by_cases hq : q = head.reverse ++ [c]
      · simp [hq]
      · rw [if_neg hq]
        simp only [prefix_concat, hq, or_false]
        split
        · next hp => exact treeOk_prefix h hp e
        · rfl

theorem run_makedirs_blocked {t : Tree} (h : TreeOk t) {q : FsPath} {n : Node}
    (hq : t q = some n) (hn : n ≠ .dir) (r : List String) (x : FsPath) (hx : x ≠ [])
    (hr : r.reverse = q ++ x) :
    Prog.run fsExec (makedirsRev r) t = (.error .notADirectory, t) := by
  have hnd : t q ≠ some .dir := by rw [hq]; simpa using hn
  induction r generalizing x with
  | nil =>
    rw [List.reverse_nil] at hr
    exact absurd (List.append_eq_nil_iff.mp hr.symm).2 hx
  | cons c head ih =>
    have hrev : (c :: head).reverse = head.reverse ++ [c] := by simp
    have hlast : t (head.reverse ++ [c]) = none := by
      rw [← hrev, hr]; exact treeOk_below h x hx hnd
    simp only [makedirsRev, Prog.bind_eq, Prog.run_bind, Ask.run_exists, Ask.run_isDir]
    -- the parent
    obtain ⟨y, c', rfl⟩ : ∃ y c', x = y ++ [c'] := ⟨x.dropLast, x.getLast hx, (List.dropLast_concat_getLast hx).symm⟩
    rw [hrev, ← List.append_assoc] at hr
    obtain ⟨hhead, -⟩ := List.append_inj' hr rfl
    by_cases e : y = []
    · subst e
      rw [List.append_nil] at hhead
      have hex : ((.ok (t head.reverse).isSome, t) : Except PyErr Bool × Tree) = (.ok true, t) := by
        simp [fsExec, hhead, hq]
      rw [hex]
      simp only [Prog.andThen_ok, Bool.not_true, Bool.false_eq_true, if_false, Ask.run_mkdir, hrev]
      rw [hhead] at hlast
      simp only [fsExec, hlast, hhead, List.dropLast_concat, hq]
      cases n with
      | dir => exact absurd rfl hn
      | _ => rfl
    · have hnone : t head.reverse = none := by rw [hhead]; exact treeOk_below h y e hnd
      have hex : ((.ok (t head.reverse).isSome, t) : Except PyErr Bool × Tree) = (.ok false, t) := by simp [fsExec, hnone]
      rw [hex]
      simp only [Prog.andThen_ok, Bool.not_false, if_true, Prog.run_bind]
      rw [run_try, ih y e hhead]
      simp

/-- **C92** (alone): a job process that prepares its output folder undisturbed succeeds iff nothing
on the way to it is a file.  If it succeeds, all folders up to it are there; everything else is as
before.  If it fails, nothing was changed. -/
theorem C92_alone (p : FsPath) (t : Tree) (h : TreeOk t) :
    ((∀ q, q <+: p → t q = none ∨ t q = some .dir) →
      Prog.run fsExec (prepareOut p) t = (.ok (), fun q => if q <+: p then some .dir else t q)) ∧
    (∀ q n, q <+: p → t q = some n → n ≠ .dir →
      ∃ e, Prog.run fsExec (prepareOut p) t = (.error e, t)) := by
  constructor
  · intro hp
    show _ = (_, filled p t)
    simp only [prepareOut, Prog.bind_eq, Prog.run_bind, Ask.run_exists, Ask.run_isDir]
    rcases hp p List.prefix_rfl with e | e
    · have hex : ((.ok (t p).isSome, t) : Except PyErr Bool × Tree) = (.ok false, t) := by simp [fsExec, e]
      rw [hex]
      simp only [Prog.andThen_ok, Bool.false_eq_true, if_false]
      have := run_makedirs h p.reverse (by rw [List.reverse_reverse]; exact ⟨h.1, hp⟩)
        (by rw [List.reverse_reverse]; exact e)
      rw [this, List.reverse_reverse]
    · have hex : ((.ok (t p).isSome, t) : Except PyErr Bool × Tree) = (.ok true, t) := by simp [fsExec, e]
      rw [hex]
      have hd : ((.ok (decide (t p = some .dir)), t) : Except PyErr Bool × Tree) = (.ok true, t) := by simp [fsExec, e]
      simp only [Prog.andThen_ok, if_true, Prog.bind_eq, Prog.run_bind, Ask.run_exists, Ask.run_isDir, hd,
        Prog.assert, Prog.run_pure]
      rw [filled_self h e]
  · rintro q n ⟨x, rfl⟩ hq hn
    simp only [prepareOut, Prog.bind_eq, Prog.run_bind, Ask.run_exists, Ask.run_isDir]
    by_cases hx : x = []
    · subst hx
      rw [List.append_nil]
      have hex : ((.ok (t q).isSome, t) : Except PyErr Bool × Tree) = (.ok true, t) := by simp [fsExec, hq]
      have hd : ((.ok (decide (t q = some .dir)), t) : Except PyErr Bool × Tree) = (.ok false, t) := by simp [fsExec, hq, hn]
      refine ⟨.assertionError, ?_⟩
      rw [hex]
      simp only [Prog.andThen_ok, if_true, Prog.bind_eq, Prog.run_bind, Ask.run_exists, Ask.run_isDir, hd,
        Prog.assert, Bool.false_eq_true, if_false, Prog.run_raise]
    · have hnone : t (q ++ x) = none :=
        treeOk_below h x hx (by rw [hq]; simpa using hn)
      have hex : ((.ok (t (q ++ x)).isSome, t) : Except PyErr Bool × Tree) = (.ok false, t) := by simp [fsExec, hnone]
      refine ⟨.notADirectory, ?_⟩
      rw [hex]
      simp only [Prog.andThen_ok, Bool.false_eq_true, if_false]
      exact run_makedirs_blocked h hq hn _ x hx (by rw [List.reverse_reverse])

/-! ### Witnesses -/

/-- An action of the system without files. -/
def up : Act → FAct
  | .jmStart d => .jmStart d
  | .jmStep => .jmStep
  | .jmKill => .jmKill
  | .spawn c => if h : c.launch = none then .spawn (.cmd c h) else .jmKill
  | .step i => .step i
  | .kill i => .kill i
  | .env e => .env e

/-- Only the root. -/
def tRoot : Tree := fun p => if p = [] then some .dir else none

theorem tRoot_ok : TreeOk tRoot := by
  refine ⟨rfl, fun q c h => ?_⟩
  simp [tRoot] at h

/-- A job whose user wants the results in a folder that does not exist yet. -/
def plO (sample : String) : Payload := { plS sample with outPath := some "/data/new" }

/-- The daemon runs, samples are loaded on both pipelines, both users have submitted their jobs, both
jobs have been launched. -/
def twoJobs (a b : Payload) (cwd : String) : List FAct :=
  List.map up ([.spawn (.reload dBoot none)] ++ run 0 9 ++
   [.spawn (.driverStart "d" 5000 70 "1.0")] ++ run 1 2 ++ [.env (.drv okDrv)] ++
   [.spawn (.load (some dRun) "p" "s")] ++ run 2 3 ++
   [.spawn (.ready (some dRun) "p")] ++ run 3 3 ++
   [.spawn (.load (some dRun) "q" "t")] ++ run 4 3 ++
   [.spawn (.ready (some dRun) "q")] ++ run 5 3 ++
   [.spawn (.submit (.parsed a) none dRun cwd)] ++ run 6 4 ++
   [.env (.clock 7), .spawn (.submit (.parsed b) none dRun cwd)] ++ run 7 4 ++
   [.jmStart dRun] ++ jm 39)

def noInfo : CrateInfo := ⟨"u", false⟩

/-- Let the `i`-th other program perform `n` operations. -/
def fRun (i n : Nat) : List FAct := List.replicate n (.step i)

/-- Both job processes look for the folder, find it missing, and make it. -/
def folderRace : List FAct :=
  twoJobs (plO "s") (plO "t") "/home" ++
  [.spawn (.job 1 100 (plO "s") "p" "Jobs/1" [] [] noInfo false (.pure none) trivial),
   .spawn (.job 2 200 (plO "t") "q" "Jobs/2" [] [] noInfo false (.pure none) trivial),
   .env (.procs [⟨100, 1, false⟩, ⟨200, 1, false⟩])] ++
  fRun 8 4 ++ fRun 9 4 ++ fRun 8 12 ++ fRun 9 2 ++
  [.env (.procs []), .jmStart dRun] ++ (jm 5).map up

theorem fsteps_of_facts {st : String} {s0 s s' : FSys} {as : List FAct} (h0 : FSteps st s0 s)
    (h : facts st s as = some s') : FSteps st s0 s' := by
  induction as generalizing s with
  | nil => cases h; exact h0
  | cons a as ih =>
    simp only [facts] at h
    split at h
    · next s1 h1 => exact ih (.tail h0 ⟨a, h1⟩) h
    · cases h

/-- The state after a list of actions in a file system with nothing but the root. -/
def fAfter (as : List FAct) : FSys := (facts "Jobs" { w := {}, t := tRoot } as).getD { w := {}, t := tRoot }

theorem fAfter_reachable {as : List FAct}
    (h : (facts "Jobs" { w := {}, t := tRoot } as).isSome = true) : FReachable "Jobs" (fAfter as) := by
  obtain ⟨s, hs⟩ := Option.isSome_iff_exists.mp h
  unfold fAfter
  rw [hs]
  exact ⟨tRoot, fsteps_of_facts (.refl _) hs⟩

/-- Somebody outside changes files. -/
def byUser : FAct → Bool
  | .files _ => true
  | _ => false

/-- The program was ended by this exception. -/
def endedBy (p : PF Unit) : Option PyErr :=
  match p with
  | .raise e => some e
  | _ => none

/-- **C92** is false: two jobs whose users want their results in the same new folder start at the
same time.  Nothing is in the way and nobody else touches the files.  The second job process dies
with `FileExistsError`, although the folder is there; the job is recorded as failed without having
run, and never has a result file. -/
theorem C92_refuted : ∃ s, FReachable "Jobs" s ∧ s = fAfter folderRace ∧
    folderRace.all (fun a => !byUser a) = true ∧
    Clear ["data", "new"] tRoot ∧ s.t ["data", "new"] = some .dir ∧
    s.others[9]?.bind endedBy = some .fileExistsError ∧
    s.w.jobs.map (fun j => (j.id, j.payload.outPath, j.status, j.respath)) =
      [(1, some "/data/new", .c, some "/data/new/results.1.nc"), (2, some "/data/new", .ce, none)] ∧
    s.w.merged = [(1, "/data/new/results.1.nc")] := by
  refine ⟨_, fAfter_reachable (as := folderRace) rfl, rfl, rfl, ⟨rfl, ?_⟩, rfl, rfl, rfl, rfl⟩
  intro q hq
  by_cases h : q = []
  · exact .inr (by simp [tRoot, h])
  · exact .inl (by simp [tRoot, h])

/-- `C91_consistent` speaks about executions with failing job processes. -/
example : FReachable "Jobs" (fAfter folderRace) ∧
    (fAfter folderRace).w.launches.map (·.jobid) = [1, 2] ∧
    ∃ p ∈ (fAfter folderRace).others, endedBy p = some .fileExistsError := by
  refine ⟨fAfter_reachable rfl, rfl, ?_⟩
  have h : (fAfter folderRace).others[9]?.bind endedBy = some .fileExistsError := rfl
  obtain ⟨p, hp, he⟩ := Option.bind_eq_some_iff.mp h
  exact ⟨p, List.mem_of_getElem? hp, he⟩

/-- Others make the folder above the output folder while it is being prepared. -/
example : ∃ t t', Clear ["data", "new"] t ∧ t ["data"] = none ∧
    Interleaved (fun a b => Friendly ["data", "new"] a b ∧
      (a ["data", "new"] = none → b ["data", "new"] = none)) (prepareOut ["data", "new"]) t (.ok ()) t' ∧
    Interleaved (Friendly ["data", "new"]) (prepareOut ["data", "new"]) t (.ok ()) t' := by
  have hclear : Clear ["data", "new"] tRoot := by
    refine ⟨rfl, fun q _ => ?_⟩
    by_cases h : q = []
    · exact .inr (by simp [tRoot, h])
    · exact .inl (by simp [tRoot, h])
  have same : ∀ t, Friendly ["data", "new"] t t := fun t => ⟨fun _ h => h, fun _ _ h => .inl h⟩
  have hput : Friendly ["data", "new"] tRoot (tRoot.put ["data"] .dir) := by
    refine ⟨fun q hq => ?_, fun q _ hq => ?_⟩
    · unfold Tree.put; split
      · rfl
      · exact hq
    · unfold Tree.put; split
      · exact .inr rfl
      · exact .inl hq
  refine ⟨tRoot, ((tRoot.put ["data"] .dir).put ["data", "new"] .dir), hclear, rfl, ?_, ?_⟩
  · refine .op _ _ ⟨same _, fun h => h⟩ ?_
    refine .op _ _ (t' := tRoot.put ["data"] .dir) ⟨hput, fun _ => rfl⟩ ?_
    refine .op _ _ ⟨same _, fun h => h⟩ ?_
    exact .pure () _
  · refine .op _ _ (same _) ?_
    refine .op _ _ (t' := tRoot.put ["data"] .dir) hput ?_
    refine .op _ _ (same _) ?_
    exact .pure () _

/-- Blocked by a file, and not blocked. -/
example : TreeOk (tRoot.put ["data"] (.file "x")) ∧
    (∃ e, Prog.run fsExec (prepareOut ["data", "new"]) (tRoot.put ["data"] (.file "x")) =
      (.error e, tRoot.put ["data"] (.file "x"))) ∧
    (Prog.run fsExec (prepareOut ["data", "new"]) tRoot).1 = .ok () := by
  have h : TreeOk (tRoot.put ["data"] (.file "x")) := by
    refine ⟨rfl, fun q c hq => ?_⟩
    unfold Tree.put at hq
    split at hq
    · next e =>
      have : q = [] := by
        cases q with
        | nil => rfl
        | cons a q => simp at e
      subst this; rfl
    · simp [tRoot] at hq
  exact ⟨h, (C92_alone _ _ h).2 ["data"] (.file "x") ⟨["new"], rfl⟩ rfl (by simp), rfl⟩

end Tomato.Props
