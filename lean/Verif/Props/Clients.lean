import Verif.Clients
import Mathlib.Data.List.Induction

/-!
# `tomato start`, `stop`, `reload` (C86, C87, C88)
-/

namespace Tomato.Cli

/-- The command has bound the port. -/
def CPc.holds : CPc → Bool
  | .probe => true
  | .unbind _ => true
  | _ => false

/-- A `start` that has launched a daemon process. -/
def Client.launched (c : Client) : Bool :=
  c.kind == .start && match c.pc with
    | .confirm => true
    | .done (.started _) => true
    | .done .notRunning => true
    | _ => false

/-- The places of a kind of command. -/
def fits : Kind → CPc → Bool
  | _, .done .alreadyRunning => false
  | .start, .done .inUse | .start, .done .noSettings | .start, .done .notRunning | .start, .done (.started _) => true
  | .stop, .done .notRunning | .stop, .done .closed | .stop, .done .refused => true
  | .reload, .done .noSettings | .reload, .done .notRunning | .reload, .done .refused | .reload, .done (.reloaded ..) => true
  | _, .done _ => false
  | .start, .bind | .start, .probe | .start, .unbind none | .start, .check | .start, .spawn | .start, .confirm => true
  | .stop, .ask | .stop, .send | .stop, .wait => true
  | .reload, .files | .reload, .ask | .reload, .send | .reload, .wait => true
  | _, _ => false

/-- The processes launched by command `k`. -/
def CSys.children (s : CSys) (k : Nat) : List Dm := s.daemons.filter (fun d => d.by_ == k)

/-- What holds at every moment. -/
structure Inv (s : CSys) : Prop where
  hc : ∀ (k : Nat) (c : Client), s.clients[k]? = some c → (c.pc.holds = true ↔ s.holder = some (.client k))
  hd : ∀ (j : Nat) (d : Dm), s.daemons[j]? = some d → (d.pc.up = true ↔ s.holder = some (.daemon j))
  hd' : ∀ (j : Nat), s.holder = some (.daemon j) → j < s.daemons.length
  fit : ∀ (k : Nat) (c : Client), s.clients[k]? = some c → fits c.kind c.pc = true
  cnt : ∀ (k : Nat) (c : Client), s.clients[k]? = some c → (s.children k).length = if c.launched then 1 else 0
  app : ∀ (j : Nat) (d : Dm), s.daemons[j]? = some d → ∃ c, s.clients[d.by_]? = some c ∧
    c.appdir = d.appdir ∧ c.kind = .start

theorem getElem?_set' {α : Type} (l : List α) (k k' : Nat) (a b : α) (h : (l.set k a)[k']? = some b) :
    (k' = k ∧ b = a ∧ k < l.length) ∨ (k' ≠ k ∧ l[k']? = some b) := by
  rw [List.getElem?_set] at h
  split at h
  · next e =>
    split at h
    · next hl => cases h; exact .inl ⟨e.symm, rfl, by omega⟩
    · cases h
  · next e => exact .inr ⟨fun h => e h.symm, h⟩

theorem lt_of_getElem? {α : Type} {l : List α} {k : Nat} {a : α} (h : l[k]? = some a) : k < l.length :=
  (List.getElem?_eq_some_iff.mp h).1

/-- Only the place of a command changes, and not whether it has bound the port or launched a process. -/
theorem inv_move {s : CSys} (hi : Inv s) {k : Nat} {c : Client} (hk : s.clients[k]? = some c) (pc : CPc)
    (h1 : pc.holds = c.pc.holds) (h2 : ({ c with pc := pc } : Client).launched = c.launched)
    (h3 : fits c.kind pc = true) : Inv (setC s k c pc) := by
  have key : ∀ k' c', (setC s k c pc).clients[k']? = some c' →
      (k' = k ∧ c' = { c with pc := pc }) ∨ (k' ≠ k ∧ s.clients[k']? = some c') := by
    intro k' c' h
    rcases getElem?_set' _ _ _ _ _ h with ⟨e, e', -⟩ | h
    · exact .inl ⟨e, e'⟩
    · exact .inr h
  refine ⟨?_, hi.hd, hi.hd', ?_, ?_, ?_⟩
  · intro k' c' h
    rcases key k' c' h with ⟨rfl, rfl⟩ | ⟨-, h⟩
    · show pc.holds = true ↔ _
      rw [h1]
      exact hi.hc k' c hk
    · exact hi.hc k' c' h
  · intro k' c' h
    rcases key k' c' h with ⟨rfl, rfl⟩ | ⟨-, h⟩
    · exact h3
    · exact hi.fit k' c' h
  · intro k' c' h
    rcases key k' c' h with ⟨rfl, rfl⟩ | ⟨-, h⟩
    · rw [h2]
      exact hi.cnt k' c hk
    · exact hi.cnt k' c' h
  · intro j d h
    obtain ⟨c₀, h1, h2⟩ := hi.app j d h
    by_cases e : d.by_ = k
    · rw [e] at h1 ⊢
      rw [hk] at h1
      cases h1
      exact ⟨{ c with pc := pc }, by simp [setC, lt_of_getElem? hk], h2⟩
    · exact ⟨c₀, by simp [setC, Ne.symm e, h1], h2⟩

/-- Only a daemon in its main loop changes. -/
theorem inv_setD {s : CSys} (hi : Inv s) {j : Nat} {d d' : Dm} (hj : s.daemons[j]? = some d)
    (h1 : d'.pc.up = d.pc.up) (h2 : d'.by_ = d.by_) (h3 : d'.appdir = d.appdir) : Inv (setD s j d') := by
  have key : ∀ j' x, (setD s j d').daemons[j']? = some x →
      (j' = j ∧ x = d') ∨ (j' ≠ j ∧ s.daemons[j']? = some x) := by
    intro j' x h
    rcases getElem?_set' _ _ _ _ _ h with ⟨e, e', -⟩ | h
    · exact .inl ⟨e, e'⟩
    · exact .inr h
  refine ⟨hi.hc, ?_, ?_, hi.fit, ?_, ?_⟩
  · intro j' x h
    rcases key j' x h with ⟨rfl, rfl⟩ | ⟨-, h⟩
    · rw [h1]; exact hi.hd j' d hj
    · exact hi.hd j' x h
  · intro j' h
    have := hi.hd' j' h
    simpa [setD] using this
  · intro k c hk
    rw [← hi.cnt k c hk]
    have : ∀ (l : List Dm) (j : Nat), l[j]? = some d →
        ((l.set j d').filter (fun x => x.by_ == k)).length = (l.filter (fun x => x.by_ == k)).length := by
      intro l
      induction l with
      | nil => intro j h; simp at h
      | cons a l ih =>
        intro j h
        cases j with
        | zero =>
          simp only [List.getElem?_cons_zero, Option.some.injEq] at h
          subst h
          simp only [List.set_cons_zero, List.filter_cons, h2]
          split <;> simp
        | succ j =>
          simp only [List.getElem?_cons_succ] at h
          simp only [List.set_cons_succ, List.filter_cons]
          have := ih j h
          split <;> simp [this]
    exact this s.daemons j hj
  · intro j' x h
    rcases key j' x h with ⟨rfl, rfl⟩ | ⟨-, h⟩
    · rw [h2, h3]; exact hi.app j' d hj
    · exact hi.app j' x h

theorem answers_some {s : CSys} {j : Nat} {d : Dm} (h : answers s = some (j, d)) :
    s.holder = some (.daemon j) ∧ s.daemons[j]? = some d ∧ d.pc.up = true := by
  unfold answers at h
  split at h
  · next j' hh =>
    split at h
    · next d' hd =>
      split at h
      · next hu => cases h; exact ⟨hh, hd, hu⟩
      · cases h
    · cases h
  · cases h

/-- The port changes hands, and a command its place. -/
theorem inv_port {s : CSys} (hi : Inv s) {k : Nat} {c : Client} (hk : s.clients[k]? = some c) (pc : CPc)
    (o : Option Holder) (ho : o = none ∨ o = some (.client k))
    (hs : s.holder = none ∨ s.holder = some (.client k)) (h1 : pc.holds = true ↔ o = some (.client k))
    (h2 : ({ c with pc := pc } : Client).launched = c.launched)
    (h3 : fits c.kind pc = true) : Inv (setC { s with holder := o } k c pc) := by
  refine ⟨?_, ?_, ?_, ?_, ?_, ?_⟩
  · intro k' c' h
    rcases getElem?_set' _ _ _ _ _ h with ⟨rfl, rfl, -⟩ | ⟨hne, h⟩
    · exact h1
    · have h' := hi.hc k' c' h
      show _ ↔ o = some (.client k')
      rw [h']
      rcases ho with rfl | rfl <;> rcases hs with hs | hs <;> rw [hs] <;> simp [Ne.symm hne]
  · intro j d h
    have h' := hi.hd j d h
    show _ ↔ o = some (.daemon j)
    rw [h']
    rcases ho with rfl | rfl <;> rcases hs with hs | hs <;> rw [hs] <;> simp
  · intro j h
    have : o = some (.daemon j) := h
    rcases ho with rfl | rfl <;> cases this
  · intro k' c' h
    rcases getElem?_set' _ _ _ _ _ h with ⟨rfl, rfl, -⟩ | ⟨hne, h⟩
    · exact h3
    · exact hi.fit k' c' h
  · intro k' c' h
    rcases getElem?_set' _ _ _ _ _ h with ⟨rfl, rfl, -⟩ | ⟨hne, h⟩
    · rw [h2]; exact hi.cnt k' c hk
    · exact hi.cnt k' c' h
  · intro j d h
    obtain ⟨c₀, h1, h2⟩ := hi.app j d h
    by_cases e : d.by_ = k
    · rw [e] at h1 ⊢
      rw [hk] at h1
      cases h1
      exact ⟨{ c with pc := pc }, by simp [setC, lt_of_getElem? hk], h2⟩
    · exact ⟨c₀, by simp [setC, Ne.symm e, h1], h2⟩

theorem inv_spawn {s : CSys} (hi : Inv s) {k : Nat} {c : Client} (hk : s.clients[k]? = some c)
    (hpc : c.pc = .spawn) (hkd : c.kind = .start) :
    Inv (setC { s with daemons := s.daemons ++ [{ by_ := k, appdir := c.appdir }] } k c .confirm) := by
  have hdm : ∀ (j : Nat) (d : Dm), (s.daemons ++ [{ by_ := k, appdir := c.appdir }])[j]? = some d →
      s.daemons[j]? = some d ∨ (j = s.daemons.length ∧ d = { by_ := k, appdir := c.appdir }) := by
    intro j d h
    rw [List.getElem?_append] at h
    split at h
    · exact .inl h
    · next hl =>
      have := List.getElem?_eq_some_iff.mp h
      obtain ⟨h1, h2⟩ := this
      simp at h1 h2
      exact .inr ⟨by omega, h2.symm⟩
  refine ⟨?_, ?_, ?_, ?_, ?_, ?_⟩
  · intro k' c' h
    rcases getElem?_set' _ _ _ _ _ h with ⟨rfl, rfl, -⟩ | ⟨hne, h⟩
    · have := hi.hc k' c hk
      rw [hpc] at this
      exact this
    · exact hi.hc k' c' h
  · intro j d h
    rcases hdm j d h with h | ⟨e, e'⟩
    · exact hi.hd j d h
    · subst e'
      rw [e]
      show false = true ↔ s.holder = some (.daemon _)
      refine ⟨fun h => (by cases h), fun h => ?_⟩
      have := hi.hd' _ h
      omega
  · intro j h
    have := hi.hd' j h
    simp [setC]
    omega
  · intro k' c' h
    rcases getElem?_set' _ _ _ _ _ h with ⟨rfl, rfl, -⟩ | ⟨hne, h⟩
    · rw [hkd]; rfl
    · exact hi.fit k' c' h
  · intro k' c' h
    rcases getElem?_set' _ _ _ _ _ h with ⟨rfl, rfl, -⟩ | ⟨hne, h⟩
    · have h0 := hi.cnt k' c hk
      have hl : c.launched = false := by simp [Client.launched, hpc]
      have hl' : ({ kind := c.kind, appdir := c.appdir, pc := .confirm } : Client).launched = true := by
        simp [Client.launched, hkd]
      rw [hl] at h0
      rw [hl']
      simp only [CSys.children, Bool.false_eq_true, if_false] at h0
      simp [CSys.children, setC, List.filter_append, h0]
    · have h0 := hi.cnt k' c' h
      rw [← h0]
      simp [CSys.children, setC, List.filter_append, Ne.symm hne]
  · intro j d h
    have old : ∀ c₀, s.clients[d.by_]? = some c₀ → (c₀.appdir = d.appdir ∧ c₀.kind = .start) →
        ∃ c', (s.clients.set k { c with pc := .confirm })[d.by_]? = some c' ∧ c'.appdir = d.appdir ∧
          c'.kind = .start := by
      intro c₀ h1 h2
      by_cases e : d.by_ = k
      · rw [e] at h1 ⊢
        rw [hk] at h1
        cases h1
        exact ⟨{ c with pc := .confirm }, by simp [lt_of_getElem? hk], h2⟩
      · exact ⟨c₀, by simp [Ne.symm e, h1], h2⟩
    rcases hdm j d h with h | ⟨-, e⟩
    · obtain ⟨c₀, h1, h2⟩ := hi.app j d h
      exact old c₀ h1 h2
    · rw [e] at old ⊢
      exact old c hk ⟨rfl, hkd⟩

theorem askStatus_got {s : CSys} {late : Bool} {i : DInfo} (h : askStatus s late = .got i) :
    ∃ j d, answers s = some (j, d) ∧ i = ⟨d.appdir, d.cfg⟩ := by
  unfold askStatus at h
  split at h
  · cases h
  · cases ha : answers s with
    | none => rw [ha] at h; cases h
    | some x =>
      obtain ⟨j, d⟩ := x
      rw [ha] at h
      cases h
      exact ⟨j, d, rfl, rfl⟩

theorem inv_client {s : CSys} (hi : Inv s) {k : Nat} {c : Client} (hk : s.clients[k]? = some c)
    (late refuse : Bool) : Inv (clientStep s k c late refuse) := by
  have hfit := hi.fit k c hk
  have hhc := hi.hc k c hk
  have hmv := fun pc => inv_move hi hk pc
  have hpt := fun pc => inv_port hi hk pc
  have hsp := inv_spawn hi hk
  obtain ⟨kind, appdir, pc⟩ := c
  unfold clientStep
  cases pc with
  | bind =>
    cases kind <;> simp only [fits, Bool.false_eq_true] at hfit
    simp only
    cases hh : s.holder with
    | some x => exact hmv _ rfl rfl rfl
    | none => exact hpt _ _ (.inr rfl) (.inl hh) (by simp [CPc.holds]) rfl rfl
  | probe =>
    cases kind <;> simp only [fits, Bool.false_eq_true] at hfit
    simp only
    have hh : s.holder = some (.client k) := hhc.mp rfl
    cases ha : askStatus s late with
    | pending => exact hi
    | timeout => exact hmv _ rfl rfl rfl
    | got i =>
      obtain ⟨j, d, h, -⟩ := askStatus_got ha
      have := (answers_some h).1
      rw [hh] at this
      cases this
  | unbind stat =>
    cases kind <;> cases stat <;> simp only [fits, Bool.false_eq_true] at hfit
    simp only
    have hh : s.holder = some (.client k) := hhc.mp rfl
    rw [if_pos hh]
    exact hpt _ _ (.inl rfl) (.inr hh) (by simp [CPc.holds]) rfl rfl
  | check =>
    cases kind <;> simp only [fits, Bool.false_eq_true] at hfit
    simp only
    split <;> exact hmv _ rfl rfl rfl
  | spawn =>
    cases kind <;> simp only [fits, Bool.false_eq_true] at hfit
    exact hsp rfl rfl
  | confirm =>
    cases kind <;> simp only [fits, Bool.false_eq_true] at hfit
    simp only
    cases askStatus s late with
    | pending => exact hi
    | timeout => exact hmv _ rfl rfl rfl
    | got i => exact hmv _ rfl rfl rfl
  | files =>
    cases kind <;> simp only [fits, Bool.false_eq_true] at hfit
    simp only
    split <;> exact hmv _ rfl rfl rfl
  | ask =>
    simp only
    cases kind <;> simp only [fits, Bool.false_eq_true] at hfit
    all_goals
      cases askStatus s late with
      | pending => exact hi
      | timeout => exact hmv _ rfl rfl rfl
      | got i => exact hmv _ rfl rfl rfl
  | send => cases kind <;> simp only [fits, Bool.false_eq_true] at hfit <;> exact hmv _ rfl rfl rfl
  | wait =>
    simp only
    cases ha : answers s with
    | none => exact hi
    | some x =>
      obtain ⟨j, d⟩ := x
      obtain ⟨h1, h2, h3⟩ := answers_some ha
      cases kind <;> simp only [fits, Bool.false_eq_true] at hfit
      · simp only
        split
        · exact hmv _ rfl rfl rfl
        · exact inv_move (inv_setD (d' := { d with pc := .stopping }) hi h2 (by rw [h3]; rfl) rfl rfl) hk
            (.done .closed) rfl rfl rfl
      · simp only
        split
        · exact hmv _ rfl rfl rfl
        · split
          · exact hmv _ rfl rfl rfl
          · next cfg _ =>
            exact inv_move (inv_setD (d' := { d with cfg := cfg }) hi h2 rfl rfl rfl) hk
              (.done (.reloaded appdir ⟨d.appdir, cfg⟩)) rfl rfl rfl
  | done r => exact hi

theorem inv_dport {s : CSys} (hi : Inv s) {j : Nat} {d d' : Dm} (hj : s.daemons[j]? = some d)
    (o : Option Holder) (ho : o = none ∨ o = some (.daemon j))
    (hs : s.holder = none ∨ s.holder = some (.daemon j)) (h1 : d'.pc.up = true ↔ o = some (.daemon j))
    (h2 : d'.by_ = d.by_) (h3 : d'.appdir = d.appdir) : Inv (setD { s with holder := o } j d') := by
  have hl := lt_of_getElem? hj
  -- everything that does not concern the port is as in `inv_setD`
  have base : Inv (setD s j { d' with pc := d.pc }) := inv_setD hi hj rfl h2 h3
  have hlen : ∀ x : Dm, ∀ k, ((setD s j x).daemons.filter (fun d => d.by_ == k)).length =
      ((s.daemons.set j x).filter (fun d => d.by_ == k)).length := fun _ _ => rfl
  refine ⟨?_, ?_, ?_, hi.fit, ?_, ?_⟩
  · intro k' c' h
    have h' := hi.hc k' c' h
    show _ ↔ o = some (.client k')
    rw [h']
    rcases ho with rfl | rfl <;> rcases hs with hs | hs <;> rw [hs] <;> simp
  · intro j' x h
    rcases getElem?_set' _ _ _ _ _ h with ⟨rfl, rfl, -⟩ | ⟨hne, h⟩
    · exact h1
    · have h' := hi.hd j' x h
      show _ ↔ o = some (.daemon j')
      rw [h']
      rcases ho with rfl | rfl <;> rcases hs with hs | hs <;> rw [hs] <;> simp [Ne.symm hne]
  · intro j' h
    have : o = some (.daemon j') := h
    rcases ho with rfl | rfl
    · cases this
    · cases this
      simpa [setD] using hl
  · intro k c hk
    rw [← base.cnt k c hk]
    have : ∀ (l : List Dm) (j : Nat),
        ((l.set j d').filter (fun x => x.by_ == k)).length =
          ((l.set j { d' with pc := d.pc }).filter (fun x => x.by_ == k)).length := by
      intro l
      induction l with
      | nil => intro j; rfl
      | cons a l ih =>
        intro j
        cases j with
        | zero => simp only [List.set_cons_zero, List.filter_cons]; split <;> simp
        | succ j =>
          simp only [List.set_cons_succ, List.filter_cons]
          split <;> simp [ih j]
    exact this s.daemons j
  · intro j' x h
    rcases getElem?_set' _ _ _ _ _ h with ⟨rfl, rfl, -⟩ | ⟨-, h⟩
    · rw [h2, h3]; exact hi.app j' d hj
    · exact hi.app j' x h

theorem inv_daemon {s : CSys} (hi : Inv s) {j : Nat} {d : Dm} (hj : s.daemons[j]? = some d) (exit : Bool) :
    Inv (daemonStep s j d exit) := by
  have hhd := hi.hd j d hj
  unfold daemonStep
  cases hpc : d.pc with
  | load =>
    simp only
    split
    · exact inv_setD hi hj (by rw [hpc]; rfl) rfl rfl
    · exact inv_setD hi hj (by rw [hpc]; rfl) rfl rfl
  | setup =>
    have h := inv_setD (d' := { d with pc := .bind }) hi hj (by rw [hpc]; rfl) rfl rfl
    exact ⟨h.hc, h.hd, h.hd', h.fit, h.cnt, h.app⟩
  | bind =>
    simp only
    cases hh : s.holder with
    | some x => exact inv_setD hi hj (by rw [hpc]; rfl) rfl rfl
    | none => exact inv_dport hi hj _ (.inr rfl) (.inl hh) (by simp [DPc.up]) rfl rfl
  | serving =>
    simp only
    cases exit with
    | false => exact hi
    | true =>
      have hh : s.holder = some (.daemon j) := hhd.mp (by rw [hpc]; rfl)
      rw [if_pos rfl, if_pos hh]
      exact inv_dport hi hj _ (.inl rfl) (.inr hh) (by simp [DPc.up]) rfl rfl
  | stopping =>
    simp only
    cases exit with
    | false => exact hi
    | true =>
      have hh : s.holder = some (.daemon j) := hhd.mp (by rw [hpc]; rfl)
      rw [if_pos rfl, if_pos hh]
      exact inv_dport hi hj _ (.inl rfl) (.inr hh) (by simp [DPc.up]) rfl rfl
  | gone => exact hi

theorem inv_step {s : CSys} (hi : Inv s) (a : CAct) : Inv (cstep s a) := by
  cases a with
  | client k late refuse =>
    simp only [cstep]
    cases hk : s.clients[k]? with
    | none => exact hi
    | some c => exact inv_client hi hk late refuse
  | daemon j exit =>
    simp only [cstep]
    cases hj : s.daemons[j]? with
    | none => exact hi
    | some d => exact inv_daemon hi hj exit
  | edit a c => exact ⟨hi.hc, hi.hd, hi.hd', hi.fit, hi.cnt, hi.app⟩
  | other =>
    have aux : ∀ o : Option Holder, (o = none ∨ o = some .other) → (s.holder = none ∨ s.holder = some .other) →
        Inv { s with holder := o } := by
      intro o ho hs
      refine ⟨?_, ?_, ?_, hi.fit, hi.cnt, hi.app⟩
      · intro k c h
        have := hi.hc k c h
        show _ ↔ o = _
        rw [this]
        rcases ho with rfl | rfl <;> rcases hs with hs | hs <;> rw [hs] <;> simp
      · intro j d h
        have := hi.hd j d h
        show _ ↔ o = _
        rw [this]
        rcases ho with rfl | rfl <;> rcases hs with hs | hs <;> rw [hs] <;> simp
      · intro j h
        have : o = some (.daemon j) := h
        rcases ho with rfl | rfl <;> cases this
    simp only [cstep]
    cases hh : s.holder with
    | none => exact aux _ (.inr rfl) (.inl hh)
    | some x =>
      cases x with
      | client k => exact hi
      | daemon j => exact hi
      | other => exact aux _ (.inl rfl) (.inr hh)

theorem inv_run (as : List CAct) : ∀ s, Inv s → Inv (crun s as) := by
  induction as with
  | nil => intro s h; exact h
  | cons a as ih => intro s h; exact ih _ (inv_step h a)

theorem inv_init (cs : List (Kind × String)) (files : String → Option Nat) : Inv (CSys.init cs files) := by
  have key : ∀ (k : Nat) (c : Client), (CSys.init cs files).clients[k]? = some c → c.pc = c.kind.first := by
    intro k c h
    simp only [CSys.init, List.getElem?_map, Option.map_eq_some_iff] at h
    obtain ⟨x, -, rfl⟩ := h
    rfl
  refine ⟨?_, ?_, ?_, ?_, ?_, ?_⟩
  · intro k c h
    rw [key k c h]
    cases c.kind <;> simp [Kind.first, CPc.holds, CSys.init]
  · intro j d h; simp [CSys.init] at h
  · intro j h; simp [CSys.init] at h
  · intro k c h
    rw [key k c h]
    cases c.kind <;> rfl
  · intro k c h
    have : c.launched = false := by
      unfold Client.launched
      rw [key k c h]
      cases c.kind <;> rfl
    rw [this]
    rfl
  · intro j d h; simp [CSys.init] at h

end Tomato.Cli

namespace Tomato.Props
open Tomato.Cli

/-! ## What never changes -/

theorem set_same {α : Type} {l : List α} {k : Nat} {x : α} (h : l[k]? = some x) : l.set k x = l := by
  obtain ⟨h1, rfl⟩ := List.getElem?_eq_some_iff.mp h
  simp

/-- What a step does to the commands: one of them moves. -/
theorem step_clients (s : CSys) (a : CAct) :
    (cstep s a).clients = s.clients ∨ ∃ k c pc late refuse, a = .client k late refuse ∧
      s.clients[k]? = some c ∧ (cstep s a).clients = s.clients.set k { c with pc := pc } := by
  cases a with
  | client k late refuse =>
    simp only [cstep]
    cases hk : s.clients[k]? with
    | none => exact .inl rfl
    | some c =>
      simp only
      have : (clientStep s k c late refuse).clients = s.clients ∨ ∃ pc,
          (clientStep s k c late refuse).clients = s.clients.set k { c with pc := pc } := by
        unfold clientStep
        repeat' split
        all_goals first | exact .inl rfl | exact .inr ⟨_, rfl⟩
      rcases this with h | ⟨pc, h⟩
      · exact .inl h
      · exact .inr ⟨k, c, pc, late, refuse, rfl, hk, h⟩
  | daemon j exit =>
    left
    simp only [cstep]
    cases hj : s.daemons[j]? with
    | none => rfl
    | some d =>
      simp only
      unfold daemonStep
      repeat' split
      all_goals rfl
  | edit a c => exact .inl rfl
  | other =>
    left
    simp only [cstep]
    repeat' split
    all_goals rfl

theorem step_args (s : CSys) (a : CAct) :
    (cstep s a).clients.map (fun c => (c.kind, c.appdir)) = s.clients.map (fun c => (c.kind, c.appdir)) := by
  rcases step_clients s a with h | ⟨k, c, pc, _, _, -, hk, h⟩
  · rw [h]
  · rw [h, List.map_set]
    exact set_same (by simp [hk])

theorem run_args (as : List CAct) : ∀ s, (crun s as).clients.map (fun c => (c.kind, c.appdir)) =
    s.clients.map (fun c => (c.kind, c.appdir)) := by
  induction as with
  | nil => intro s; rfl
  | cons a as ih => intro s; exact (ih _).trans (step_args s a)

/-- What a step does to a daemon process: where it comes from does not change, once it is told to stop it
remains so. -/
theorem step_daemon (s : CSys) (a : CAct) {j : Nat} {d : Dm} (hj : s.daemons[j]? = some d) :
    ∃ d', (cstep s a).daemons[j]? = some d' ∧ d'.by_ = d.by_ ∧ d'.appdir = d.appdir ∧
      (d.pc = .stopping ∨ d.pc = .gone → d'.pc = .stopping ∨ d'.pc = .gone) ∧
      (d.pc = .gone → d'.pc = .gone) := by
  have hl := lt_of_getElem? hj
  have same : ∀ t : CSys, t.daemons = s.daemons → ∃ d', t.daemons[j]? = some d' ∧ d'.by_ = d.by_ ∧
      d'.appdir = d.appdir ∧ (d.pc = .stopping ∨ d.pc = .gone → d'.pc = .stopping ∨ d'.pc = .gone) ∧
      (d.pc = .gone → d'.pc = .gone) :=
    fun t ht => ⟨d, by rw [ht]; exact hj, rfl, rfl, id, id⟩
  have upd : ∀ (t : CSys) (j' : Nat) (x y : Dm), s.daemons[j']? = some x → t.daemons = s.daemons.set j' y →
      y.by_ = x.by_ → y.appdir = x.appdir →
      (x.pc = .stopping ∨ x.pc = .gone → y.pc = .stopping ∨ y.pc = .gone) → (x.pc = .gone → y.pc = .gone) →
      ∃ d', t.daemons[j]? = some d' ∧ d'.by_ = d.by_ ∧
      d'.appdir = d.appdir ∧ (d.pc = .stopping ∨ d.pc = .gone → d'.pc = .stopping ∨ d'.pc = .gone) ∧
      (d.pc = .gone → d'.pc = .gone) := by
    intro t j' x y hx ht h1 h2 h3 h4
    by_cases e : j' = j
    · subst e
      rw [hj] at hx
      cases hx
      exact ⟨y, by rw [ht]; simp [hl], h1, h2, h3, h4⟩
    · exact ⟨d, by rw [ht]; simp [e, hj], rfl, rfl, id, id⟩
  cases a with
  | client k late refuse =>
    simp only [cstep]
    cases hk : s.clients[k]? with
    | none => exact same _ rfl
    | some c =>
      simp only
      unfold clientStep
      repeat' split
      all_goals try exact same _ rfl
      · exact ⟨d, by simp [setC, List.getElem?_append, hl, ← hj], rfl, rfl, id, id⟩
      · next j' x ha _ _ _ =>
        obtain ⟨-, h2, h3⟩ := answers_some ha
        refine upd _ j' x _ h2 rfl rfl rfl (fun _ => .inl rfl) (fun h => ?_)
        rw [h] at h3
        cases h3
      · next j' x ha _ _ _ _ _ _ =>
        obtain ⟨-, h2, h3⟩ := answers_some ha
        exact upd _ j' x _ h2 rfl rfl rfl id id
  | daemon j' exit =>
    simp only [cstep]
    cases hj' : s.daemons[j']? with
    | none => exact same _ rfl
    | some x =>
      simp only
      unfold daemonStep
      cases hpc : x.pc with
      | gone => exact same _ rfl
      | _ =>
        simp only
        repeat' split
        all_goals first
          | exact same _ rfl
          | exact upd _ j' x _ hj' rfl rfl rfl (by simp [hpc]) (by simp [hpc])
  | edit a c => exact same _ rfl
  | other =>
    refine same _ ?_
    simp only [cstep]
    repeat' split
    all_goals rfl

theorem crun_daemon (as : List CAct) : ∀ (s : CSys) {j : Nat} {d : Dm}, s.daemons[j]? = some d →
    ∃ d', (crun s as).daemons[j]? = some d' ∧ d'.by_ = d.by_ ∧ d'.appdir = d.appdir ∧
      (d.pc = .stopping ∨ d.pc = .gone → d'.pc = .stopping ∨ d'.pc = .gone) ∧
      (d.pc = .gone → d'.pc = .gone) := by
  induction as with
  | nil => intro s j d h; exact ⟨d, h, rfl, rfl, id, id⟩
  | cons a as ih =>
    intro s j d h
    obtain ⟨d₁, h1, h2, h3, h4, h5⟩ := step_daemon s a h
    obtain ⟨d₂, g1, g2, g3, g4, g5⟩ := ih _ h1
    exact ⟨d₂, g1, g2.trans h2, g3.trans h3, fun h => g4 (h4 h), fun h => g5 (h5 h)⟩

/-! ## C86: `tomato start` -/

/-- In a system without edits, a daemon that has loaded its files has the configuration in its folder. -/
structure CfgInv (s : CSys) : Prop where
  cfg : ∀ (j : Nat) (d : Dm), s.daemons[j]? = some d → (d.pc = .setup ∨ d.pc = .bind ∨ d.pc.up = true) →
    s.files d.appdir = some d.cfg
  res : ∀ (k : Nat) (c : Client) (i : DInfo), s.clients[k]? = some c → c.pc = .done (.started i) →
    s.files i.appdir = some i.cfg

/-- What `start` has reported is the folder of a daemon. -/
def Src (s : CSys) : Prop :=
  ∀ (k : Nat) (c : Client) (i : DInfo), s.clients[k]? = some c → c.pc = .done (.started i) →
    ∃ (j : Nat) (d : Dm), s.daemons[j]? = some d ∧ d.appdir = i.appdir

/-- A command that comes to report success of `start` has been answered by a daemon. -/
theorem started_step {s : CSys} {a : CAct} {k : Nat} {c : Client} {i : DInfo}
    (h : (cstep s a).clients[k]? = some c) (hd : c.pc = .done (.started i)) :
    s.clients[k]? = some c ∨ ∃ (j : Nat) (d : Dm), s.daemons[j]? = some d ∧ d.pc.up = true ∧ i = ⟨d.appdir, d.cfg⟩ := by
  cases a with
  | client k' late refuse =>
    simp only [cstep] at h
    cases hk : s.clients[k']? with
    | none => rw [hk] at h; exact .inl h
    | some c' =>
      rw [hk] at h
      simp only at h
      have key : ∀ t : CSys, t.clients = s.clients → t.clients[k]? = some c →
          s.clients[k]? = some c ∨ ∃ (j : Nat) (d : Dm), s.daemons[j]? = some d ∧ d.pc.up = true ∧ i = ⟨d.appdir, d.cfg⟩ :=
        fun t e ht => .inl (by rw [← e]; exact ht)
      have key' : ∀ (t : CSys) pc, t.clients = s.clients.set k' { c' with pc := pc } → t.clients[k]? = some c →
          (∀ x, pc ≠ .done (.started x)) →
          s.clients[k]? = some c ∨ ∃ (j : Nat) (d : Dm), s.daemons[j]? = some d ∧ d.pc.up = true ∧ i = ⟨d.appdir, d.cfg⟩ := by
        intro t pc e ht hp
        rw [e] at ht
        rcases getElem?_set' _ _ _ _ _ ht with ⟨rfl, rfl, -⟩ | ⟨-, ht⟩
        · exact absurd hd (hp i)
        · exact .inl ht
      unfold clientStep at h
      cases hpc : c'.pc <;> rw [hpc] at h <;> simp only at h
      case confirm =>
        cases ha : askStatus s late with
        | pending => rw [ha] at h; exact key _ rfl h
        | timeout => rw [ha] at h; exact key' _ _ rfl h (by simp)
        | got x =>
          rw [ha] at h
          rcases getElem?_set' _ _ _ _ _ h with ⟨rfl, rfl, -⟩ | ⟨-, h⟩
          · simp only [CPc.done.injEq, Res.started.injEq] at hd
            subst hd
            obtain ⟨j, d, h1, h2⟩ := askStatus_got ha
            obtain ⟨-, h3, h4⟩ := answers_some h1
            exact .inr ⟨j, d, h3, h4, h2⟩
          · exact .inl h
      case unbind stat => cases stat <;> exact key' _ _ rfl h (by simp)
      all_goals
        repeat' split at h
        all_goals first
          | exact key _ rfl h
          | exact key' _ _ rfl h (by simp)
  | daemon j exit =>
    rcases step_clients s (.daemon j exit) with e | ⟨_, _, _, _, _, e, -⟩
    · rw [e] at h; exact .inl h
    · cases e
  | edit x y => exact .inl h
  | other =>
    rcases step_clients s .other with e | ⟨_, _, _, _, _, e, -⟩
    · rw [e] at h; exact .inl h
    · cases e

theorem src_run (as : List CAct) : ∀ s, Src s → Src (crun s as) := by
  induction as with
  | nil => intro s h; exact h
  | cons a as ih =>
    intro s h
    refine ih _ ?_
    intro k c i hk hd
    rcases started_step hk hd with h0 | ⟨j, d, h1, -, rfl⟩
    · obtain ⟨j, d, h1, h2⟩ := h k c i h0 hd
      obtain ⟨d', g1, -, g3, -⟩ := step_daemon s a h1
      exact ⟨j, d', g1, g3.trans h2⟩
    · obtain ⟨d', g1, -, g3, -⟩ := step_daemon s a h1
      exact ⟨j, d', g1, g3⟩

theorem src_init (cs : List (Kind × String)) (files : String → Option Nat) : Src (CSys.init cs files) := by
  intro k c i h hd
  simp only [CSys.init, List.getElem?_map, Option.map_eq_some_iff] at h
  obtain ⟨x, -, rfl⟩ := h
  obtain ⟨kd, a⟩ := x
  cases kd <;> cases hd

theorem cfg_step {s : CSys} (h : CfgInv s) {a : CAct} (ha : ∀ x y, a ≠ .edit x y) : CfgInv (cstep s a) := by
  have hf : (cstep s a).files = s.files := by
    cases a with
    | edit x y => exact absurd rfl (ha x y)
    | client k late refuse =>
      simp only [cstep]
      split
      · rfl
      · unfold clientStep
        repeat' split
        all_goals rfl
    | daemon j exit =>
      simp only [cstep]
      split
      · rfl
      · unfold daemonStep
        repeat' split
        all_goals rfl
    | other =>
      simp only [cstep]
      repeat' split
      all_goals rfl
  refine ⟨?_, ?_⟩
  · rw [hf]
    have same : ∀ t : CSys, t.daemons = s.daemons → ∀ (j : Nat) (d : Dm), t.daemons[j]? = some d →
        (d.pc = .setup ∨ d.pc = .bind ∨ d.pc.up = true) → s.files d.appdir = some d.cfg :=
      fun t ht j d hj => h.cfg j d (by rw [← ht]; exact hj)
    have upd : ∀ (t : CSys) (j' : Nat) (y : Dm), t.daemons = s.daemons.set j' y →
        ((y.pc = .setup ∨ y.pc = .bind ∨ y.pc.up = true) → s.files y.appdir = some y.cfg) →
        ∀ (j : Nat) (d : Dm), t.daemons[j]? = some d →
        (d.pc = .setup ∨ d.pc = .bind ∨ d.pc.up = true) → s.files d.appdir = some d.cfg := by
      intro t j' y ht hy j d hj hp
      rw [ht] at hj
      rcases getElem?_set' _ _ _ _ _ hj with ⟨rfl, rfl, -⟩ | ⟨-, hj⟩
      · exact hy hp
      · exact h.cfg j d hj hp
    cases a with
    | edit x y => exact absurd rfl (ha x y)
    | other =>
      refine same _ ?_
      simp only [cstep]
      repeat' split
      all_goals rfl
    | daemon j' exit =>
      simp only [cstep]
      cases hj' : s.daemons[j']? with
      | none => exact same _ rfl
      | some x =>
        simp only
        have hx := h.cfg j' x hj'
        unfold daemonStep
        cases hpc : x.pc with
        | gone => exact same _ rfl
        | load =>
          simp only
          cases hfl : s.files x.appdir with
          | none => exact upd _ j' _ rfl (by simp [DPc.up])
          | some cfg => exact upd _ j' _ rfl (fun _ => hfl)
        | setup => exact upd _ j' _ rfl (fun _ => hx (.inl hpc))
        | bind =>
          simp only
          split
          · exact upd _ j' _ rfl (by simp [DPc.up])
          · exact upd _ j' _ rfl (fun _ => hx (.inr (.inl hpc)))
        | _ =>
          simp only
          split
          · exact upd _ j' _ rfl (by simp [DPc.up])
          · exact same _ rfl
    | client k late refuse =>
      simp only [cstep]
      cases hk : s.clients[k]? with
      | none => exact same _ rfl
      | some c =>
        simp only
        unfold clientStep
        repeat' split
        all_goals try exact same _ rfl
        · intro j d hj hp
          simp only [setC, List.getElem?_append] at hj
          split at hj
          · exact h.cfg j d hj hp
          · obtain ⟨h1, h2⟩ := List.getElem?_eq_some_iff.mp hj
            simp at h2
            rw [← h2] at hp
            rcases hp with hp | hp | hp <;> cases hp
        · next j' x hans _ _ _ =>
          obtain ⟨-, h2, h3⟩ := answers_some hans
          exact upd _ j' _ rfl (fun _ => h.cfg j' x h2 (.inr (.inr h3)))
        · next j' x hans _ _ _ _ _ hfl =>
          exact upd _ j' _ rfl (fun _ => hfl)
  · rw [hf]
    intro k c i hk hd
    rcases started_step hk hd with h0 | ⟨j, d, h1, h2, rfl⟩
    · exact h.res k c i h0 hd
    · exact h.cfg j d h1 (.inr (.inr h2))

theorem cfg_run (as : List CAct) (ha : ∀ x y, CAct.edit x y ∉ as) : ∀ s, CfgInv s → CfgInv (crun s as) := by
  induction as with
  | nil => intro s h; exact h
  | cons a as ih =>
    intro s h
    exact ih (fun x y hm => ha x y (.tail _ hm)) _ (cfg_step h (fun x y e => ha x y (by rw [e]; exact .head _)))

theorem cfg_init (cs : List (Kind × String)) (files : String → Option Nat) : CfgInv (CSys.init cs files) := by
  refine ⟨by intro j d h; simp [CSys.init] at h, ?_⟩
  intro k c i h hd
  simp only [CSys.init, List.getElem?_map, Option.map_eq_some_iff] at h
  obtain ⟨x, -, rfl⟩ := h
  obtain ⟨kd, a⟩ := x
  cases kd <;> cases hd

theorem run_files (as : List CAct) (ha : ∀ x y, CAct.edit x y ∉ as) : ∀ s, (crun s as).files = s.files := by
  induction as with
  | nil => intro s; rfl
  | cons a as ih =>
    intro s
    refine (ih (fun x y hm => ha x y (.tail _ hm)) _).trans ?_
    have ha : ∀ x y, a ≠ .edit x y := fun x y e => ha x y (by rw [e]; exact .head _)
    cases a with
    | edit x y => exact absurd rfl (ha x y)
    | client k late refuse =>
      simp only [cstep]
      split
      · rfl
      · unfold clientStep
        repeat' split
        all_goals rfl
    | daemon j exit =>
      simp only [cstep]
      split
      · rfl
      · unfold daemonStep
        repeat' split
        all_goals rfl
    | other =>
      simp only [cstep]
      repeat' split
      all_goals rfl

/-- **C86**, first part: whatever `start`, `stop` and `reload` commands run concurrently on a port, at most one
daemon process is in its main loop at any moment. -/
theorem C86_one (cs : List (Kind × String)) (files : String → Option Nat) (as : List CAct) (j j' : Nat)
    (d d' : Dm) (h : (crun (CSys.init cs files) as).daemons[j]? = some d)
    (h' : (crun (CSys.init cs files) as).daemons[j']? = some d') (hu : d.pc.up = true) (hu' : d'.pc.up = true) :
    j = j' := by
  have hi := inv_run as _ (inv_init cs files)
  have h1 := (hi.hd j d h).mp hu
  have h2 := (hi.hd j' d' h').mp hu'
  rw [h1] at h2
  cases h2
  rfl

/-- **C86**, second part: a `start` that reports that the port is in use, or that there are no settings, has not
launched any process; one that reports a running daemon, or that none is running, has launched exactly one; the
processes have the folder of the command that launched them.  It never reports "already running". -/
theorem C86_launch (cs : List (Kind × String)) (files : String → Option Nat) (as : List CAct) (k : Nat)
    (c : Client) (h : (crun (CSys.init cs files) as).clients[k]? = some c) (hk : c.kind = .start) :
    c.pc ≠ .done .alreadyRunning ∧
    ((c.pc = .done .inUse ∨ c.pc = .done .noSettings) →
      ∀ d ∈ (crun (CSys.init cs files) as).daemons, d.by_ ≠ k) ∧
    ((c.pc = .done .notRunning ∨ ∃ i, c.pc = .done (.started i)) →
      ∃ d, (crun (CSys.init cs files) as).daemons.filter (fun x => x.by_ == k) = [d] ∧ d.appdir = c.appdir) := by
  have hi := inv_run as _ (inv_init cs files)
  have hc := hi.cnt k c h
  have hf := hi.fit k c h
  have happ : ∀ (d : Dm), d ∈ (crun (CSys.init cs files) as).daemons → d.by_ = k → d.appdir = c.appdir := by
    intro d hd e
    obtain ⟨j, hj⟩ := List.getElem?_of_mem hd
    obtain ⟨c', h1, h2, -⟩ := hi.app j d hj
    rw [e, h] at h1
    cases h1
    exact h2.symm
  refine ⟨?_, ?_, ?_⟩
  · intro e
    rw [e, hk] at hf
    cases hf
  · intro hp d hd e
    have hl : c.launched = false := by
      rcases hp with hp | hp <;> simp [Client.launched, hp]
    rw [hl] at hc
    simp only [Bool.false_eq_true, if_false, List.length_eq_zero_iff, CSys.children,
      List.filter_eq_nil_iff] at hc
    exact hc d hd (by simp [e])
  · intro hp
    have hl : c.launched = true := by
      rcases hp with hp | ⟨i, hp⟩ <;> simp [Client.launched, hp, hk]
    rw [hl, if_pos rfl, List.length_eq_one_iff] at hc
    obtain ⟨d, hd⟩ := hc
    have hm : d ∈ (crun (CSys.init cs files) as).children k := by rw [hd]; exact .head _
    have hm := List.mem_filter.mp hm
    exact ⟨d, hd, happ d hm.1 (by simpa using hm.2)⟩

/-- **C86**, third part: if a daemon is running on the port, `start` reports that the port is in use, and does
nothing else. -/
theorem C86_occupied (cs : List (Kind × String)) (files : String → Option Nat) (as : List CAct) (k j : Nat)
    (c : Client) (d : Dm) (late refuse : Bool)
    (h : (crun (CSys.init cs files) as).clients[k]? = some c) (hp : c.pc = .bind)
    (hj : (crun (CSys.init cs files) as).daemons[j]? = some d) (hu : d.pc.up = true) :
    cstep (crun (CSys.init cs files) as) (.client k late refuse) =
      { crun (CSys.init cs files) as with
        clients := (crun (CSys.init cs files) as).clients.set k { c with pc := .done .inUse } } := by
  have hi := inv_run as _ (inv_init cs files)
  have hh := (hi.hd j d hj).mp hu
  simp only [cstep, h, clientStep, hp, hh, setC]

/-- **C86**, what holds of a success (partial): the folder reported by `start` is that of a daemon launched by
some `start`, and, if the files are not edited, the configuration reported is the one in this folder.  Missing:
this daemon may have been launched by another `start` (`C86_refuted_other`), unless there is only one
(`C86_own_partial`). -/
theorem C86_answer_partial (cs : List (Kind × String)) (files : String → Option Nat) (as : List CAct) (k : Nat)
    (c : Client) (i : DInfo) (h : (crun (CSys.init cs files) as).clients[k]? = some c)
    (hd : c.pc = .done (.started i)) :
    (∃ k' : Nat, cs[k']? = some (Kind.start, i.appdir)) ∧
    ((∀ x y, CAct.edit x y ∉ as) → files i.appdir = some i.cfg) := by
  have hi := inv_run as _ (inv_init cs files)
  have hargs := run_args as (CSys.init cs files)
  refine ⟨?_, fun he => ?_⟩
  · obtain ⟨j, d, h1, h2⟩ := src_run as _ (src_init cs files) k c i h hd
    obtain ⟨c', g1, g2, g3⟩ := hi.app j d h1
    refine ⟨d.by_, ?_⟩
    have e1 : ((crun (CSys.init cs files) as).clients.map (fun c => (c.kind, c.appdir)))[d.by_]? =
        some (.start, i.appdir) := by
      simp [g1, g2, g3, h2]
    rw [hargs] at e1
    simpa [CSys.init, Function.comp_def] using e1
  · have := (cfg_run as he _ (cfg_init cs files)).res k c i h hd
    rw [run_files as he] at this
    exact this

/-- At some time there were settings in the folder. -/
def HadSettings (cs : List (Kind × String)) (files : String → Option Nat) (as : List CAct) (a : String) : Prop :=
  ∃ as1 as2, as = as1 ++ as2 ∧ ((crun (CSys.init cs files) as1).files a).isSome

theorem HadSettings.snoc {cs : List (Kind × String)} {files : String → Option Nat} {as : List CAct} {a : String}
    (h : HadSettings cs files as a) (x : CAct) : HadSettings cs files (as ++ [x]) a := by
  obtain ⟨as1, as2, h1, h2⟩ := h
  exact ⟨as1, as2 ++ [x], by rw [h1, List.append_assoc], h2⟩

/-- A step launches a daemon only for a command that is about to do so. -/
theorem spawn_step (s : CSys) (a : CAct) :
    (∀ d ∈ (cstep s a).daemons, (∃ d0 ∈ s.daemons, d0.appdir = d.appdir) ∨
      ∃ c ∈ s.clients, c.pc = .spawn ∧ c.appdir = d.appdir) ∧
    (∀ c ∈ (cstep s a).clients, c.pc = .spawn → c ∈ s.clients ∨ (s.files c.appdir).isSome) := by
  have same : ∀ t : CSys, t.daemons = s.daemons → ∀ d ∈ t.daemons, (∃ d0 ∈ s.daemons, d0.appdir = d.appdir) ∨
      ∃ c ∈ s.clients, c.pc = .spawn ∧ c.appdir = d.appdir := by
    intro t e d hd
    rw [e] at hd
    exact .inl ⟨d, hd, rfl⟩
  have upd : ∀ (t : CSys) (j : Nat) (x y : Dm), x ∈ s.daemons → t.daemons = s.daemons.set j y → y.appdir = x.appdir →
      ∀ d ∈ t.daemons, (∃ d0 ∈ s.daemons, d0.appdir = d.appdir) ∨
        ∃ c ∈ s.clients, c.pc = .spawn ∧ c.appdir = d.appdir := by
    intro t j x y hx e hy d hd
    rw [e] at hd
    rcases List.mem_or_eq_of_mem_set hd with hd | rfl
    · exact .inl ⟨d, hd, rfl⟩
    · exact .inl ⟨x, hx, hy.symm⟩
  have csame : ∀ t : CSys, t.clients = s.clients → ∀ c ∈ t.clients, c.pc = .spawn →
      c ∈ s.clients ∨ (s.files c.appdir).isSome := by
    intro t e c hc _
    rw [e] at hc
    exact .inl hc
  have cupd : ∀ (t : CSys) (k : Nat) (c : Client) (pc : CPc), t.clients = s.clients.set k { c with pc := pc } →
      (pc = .spawn → (s.files c.appdir).isSome) → ∀ c ∈ t.clients, c.pc = .spawn →
      c ∈ s.clients ∨ (s.files c.appdir).isSome := by
    intro t k c pc e hp c' hc' hs
    rw [e] at hc'
    rcases List.mem_or_eq_of_mem_set hc' with hc' | rfl
    · exact .inl hc'
    · exact .inr (hp hs)
  cases a with
  | client k late refuse =>
    simp only [cstep]
    cases hk : s.clients[k]? with
    | none => exact ⟨same _ rfl, csame _ rfl⟩
    | some c =>
      simp only
      unfold clientStep
      cases hpc : c.pc <;> simp only
      case spawn =>
        refine ⟨fun d hd => ?_, cupd _ k c _ rfl (by simp)⟩
        simp only [setC, List.mem_append, List.mem_singleton] at hd
        rcases hd with hd | rfl
        · exact .inl ⟨d, hd, rfl⟩
        · exact .inr ⟨c, List.mem_of_getElem? hk, hpc, rfl⟩
      case check =>
        split
        · exact ⟨same _ rfl, cupd _ k c _ rfl (by simp)⟩
        · next hf => exact ⟨same _ rfl, cupd _ k c _ rfl (by simp [hf])⟩
      case unbind stat => cases stat <;> exact ⟨same _ rfl, cupd _ k c _ rfl (by simp)⟩
      case wait =>
        split
        · exact ⟨same _ rfl, csame _ rfl⟩
        · next j d ha =>
          obtain ⟨-, h2, -⟩ := answers_some ha
          have hd := List.mem_of_getElem? h2
          split
          · exact ⟨same _ rfl, csame _ rfl⟩
          · split
            · exact ⟨same _ rfl, cupd _ k c _ rfl (by simp)⟩
            · exact ⟨upd _ j d _ hd rfl rfl, cupd _ k c _ rfl (by simp)⟩
          · split
            · exact ⟨same _ rfl, cupd _ k c _ rfl (by simp)⟩
            · split
              · exact ⟨same _ rfl, cupd _ k c _ rfl (by simp)⟩
              · exact ⟨upd _ j d _ hd rfl rfl, cupd _ k c _ rfl (by simp)⟩
      all_goals
        repeat' split
        all_goals first
          | exact ⟨same _ rfl, csame _ rfl⟩
          | exact ⟨same _ rfl, cupd _ k c _ rfl (by simp)⟩
  | daemon j exit =>
    simp only [cstep]
    cases hj : s.daemons[j]? with
    | none => exact ⟨same _ rfl, csame _ rfl⟩
    | some x =>
      have hx := List.mem_of_getElem? hj
      simp only
      unfold daemonStep
      cases hpc : x.pc <;> simp only
      all_goals
        repeat' split
        all_goals first
          | exact ⟨same _ rfl, csame _ rfl⟩
          | exact ⟨upd _ j x _ hx rfl rfl, csame _ rfl⟩
  | edit x y => exact ⟨same _ rfl, csame _ rfl⟩
  | other =>
    simp only [cstep]
    repeat' split
    all_goals exact ⟨same _ rfl, csame _ rfl⟩

/-- **C86** (settings): a daemon is launched only for a folder in which, at some time before, there were settings that
can be read; if there never were any, `start` fails without launching anything. -/
theorem C86_settings (cs : List (Kind × String)) (files : String → Option Nat) (as : List CAct) :
    (∀ d ∈ (crun (CSys.init cs files) as).daemons, HadSettings cs files as d.appdir) ∧
    (∀ c ∈ (crun (CSys.init cs files) as).clients, c.pc = .spawn → HadSettings cs files as c.appdir) := by
  induction as using List.reverseRecOn with
  | nil =>
    refine ⟨by simp [crun, CSys.init], fun c hc hp => ?_⟩
    simp only [crun, CSys.init, List.foldl_nil, List.mem_map] at hc
    obtain ⟨⟨k, a⟩, -, rfl⟩ := hc
    cases k <;> cases hp
  | append_singleton as a ih =>
    obtain ⟨i1, i2⟩ := ih
    have e : crun (CSys.init cs files) (as ++ [a]) = cstep (crun (CSys.init cs files) as) a := by
      simp [crun, List.foldl_append]
    rw [e]
    obtain ⟨s1, s2⟩ := spawn_step (crun (CSys.init cs files) as) a
    constructor
    · intro d hd
      rcases s1 d hd with ⟨d0, h1, h2⟩ | ⟨c, h1, h2, h3⟩
      · rw [← h2]; exact (i1 d0 h1).snoc a
      · rw [← h3]; exact (i2 c h1 h2).snoc a
    · intro c hc hp
      rcases s2 c hc hp with h | h
      · exact (i2 c h hp).snoc a
      · exact ⟨as, [a], rfl, h⟩

/-- One command in the folder `a`, which has settings, and one in the folder `b`, which has none. -/
def startTwo : CSys :=
  crun (CSys.init [(.start, "a"), (.start, "b")] (fun x => if x = "a" then some 1 else none))
    [.client 1 false false, .client 1 true false, .client 1 false false, .client 1 false false,
     .client 0 false false, .client 0 true false, .client 0 false false, .client 0 false false,
     .client 0 false false]

example : startTwo.daemons.map (·.appdir) = ["a"] ∧
    startTwo.clients.map (·.pc) = [.confirm, .done .noSettings] := by decide

/-- **C86**, with one `start` at a time (partial): the daemon reported is the one launched by this command, with
the folder that was asked for. -/
theorem C86_own_partial (cs : List (Kind × String)) (files : String → Option Nat) (as : List CAct) (k : Nat)
    (c : Client) (i : DInfo) (hone : ∀ k' a, cs[k']? = some (.start, a) → k' = k)
    (h : (crun (CSys.init cs files) as).clients[k]? = some c) (hd : c.pc = .done (.started i)) :
    i.appdir = c.appdir ∧ (∀ d ∈ (crun (CSys.init cs files) as).daemons, d.by_ = k ∧ d.appdir = c.appdir) := by
  have hi := inv_run as _ (inv_init cs files)
  have hargs := run_args as (CSys.init cs files)
  have hby : ∀ (j : Nat) (d : Dm), (crun (CSys.init cs files) as).daemons[j]? = some d →
      d.by_ = k ∧ d.appdir = c.appdir := by
    intro j d hj
    obtain ⟨c', g1, g2, g3⟩ := hi.app j d hj
    have e1 : ((crun (CSys.init cs files) as).clients.map (fun c => (c.kind, c.appdir)))[d.by_]? =
        some (.start, d.appdir) := by
      simp [g1, g2, g3]
    rw [hargs] at e1
    have e := hone d.by_ d.appdir (by simpa [CSys.init, Function.comp_def] using e1)
    rw [e, h] at g1
    cases g1
    exact ⟨e, g2.symm⟩
  refine ⟨?_, fun d hd => ?_⟩
  · obtain ⟨j, d, h1, h2⟩ := src_run as _ (src_init cs files) k c i h hd
    rw [← h2]
    exact (hby j d h1).2
  · obtain ⟨j, hj⟩ := List.getElem?_of_mem hd
    exact hby j d hj

/-- The files of two folders. -/
def twoDirs : String → Option Nat := fun a => if a = "A" then some 1 else if a = "B" then some 2 else none

/-- `tomato start -A A`, alone: until it reports success. -/
def goodStart : List CAct :=
  [.client 0 false false, .client 0 true false, .client 0 false false, .client 0 false false,
    .client 0 false false, .daemon 0 false, .daemon 0 false, .daemon 0 false, .client 0 false false]

/-- Non-vacuity of C86: one `start`, then a second one, which is refused. -/
example :
    let s := crun (CSys.init [(.start, "A"), (.start, "B")] twoDirs) goodStart
    s.clients[0]? = some ⟨.start, "A", .done (.started ⟨"A", 1⟩)⟩ ∧
    s.daemons = [⟨0, "A", 1, .serving⟩] ∧
    (cstep s (.client 1 false false)).clients[1]? = some ⟨.start, "B", .done .inUse⟩ := by decide

example :
    (crun (CSys.init [(.stop, "B"), (.start, "A")] twoDirs) [.client 1 false false, .client 1 true false,
      .client 1 false false, .client 1 false false, .client 1 false false, .daemon 0 false, .daemon 0 false,
      .daemon 0 false, .client 1 false false]).clients[1]? =
        some ⟨.start, "A", .done (.started ⟨"A", 1⟩)⟩ ∧
    ∀ k' a, [(Kind.stop, "B"), (.start, "A")][k']? = some (.start, a) → k' = 1 := by
  refine ⟨by decide, ?_⟩
  intro k' a h
  match k', h with
  | 0, h => simp at h
  | 1, _ => rfl
  | n + 2, h => simp at h

/-- **C86 refuted**: two `start` commands with different folders run at the same time.  Both report success, with
the configuration of the first.  The daemon of the second has already written its pipelines and drivers into
the tables when it finds the port occupied and dies. -/
theorem C86_refuted_other : ∃ as,
    let s := crun (CSys.init [(.start, "A"), (.start, "B")] twoDirs) as
    s.clients = [⟨.start, "A", .done (.started ⟨"A", 1⟩)⟩, ⟨.start, "B", .done (.started ⟨"A", 1⟩)⟩] ∧
    s.daemons = [⟨0, "A", 1, .serving⟩, ⟨1, "B", 2, .gone⟩] ∧ s.setups = [(1, 2), (0, 1)] :=
  ⟨[.client 0 false false, .client 0 true false, .client 0 false false, .client 1 false false,
    .client 1 true false, .client 1 false false, .client 0 false false, .client 1 false false,
    .client 0 false false, .client 1 false false, .daemon 0 false, .daemon 0 false, .daemon 1 false,
    .daemon 1 false, .daemon 0 false, .daemon 1 false, .client 0 false false, .client 1 false false],
    by decide⟩

/-- **C86 refuted**: a daemon that needs more than five seconds to begin is reported as not running, and runs
nevertheless. -/
theorem C86_refuted_slow : ∃ as,
    let s := crun (CSys.init [(.start, "A")] twoDirs) as
    s.clients = [⟨.start, "A", .done .notRunning⟩] ∧ s.daemons = [⟨0, "A", 1, .serving⟩] :=
  ⟨[.client 0 false false, .client 0 true false, .client 0 false false, .client 0 false false,
    .client 0 false false, .daemon 0 false, .daemon 0 false, .client 0 true false, .daemon 0 false], by decide⟩

/-- **C86 refuted**: a second `start`, for a folder without settings, tests the port by binding it while the
daemon of the first one is beginning.  That daemon dies, and the second command does not start any: both fail. -/
theorem C86_refuted_probe : ∃ as,
    let s := crun (CSys.init [(.start, "A"), (.start, "C")] twoDirs) as
    s.clients = [⟨.start, "A", .done .notRunning⟩, ⟨.start, "C", .done .noSettings⟩] ∧
    s.daemons = [⟨0, "A", 1, .gone⟩] ∧ s.holder = none :=
  ⟨[.client 0 false false, .client 0 true false, .client 0 false false, .client 0 false false,
    .client 0 false false, .daemon 0 false, .daemon 0 false, .client 1 false false, .daemon 0 false,
    .client 1 true false, .client 1 false false, .client 1 false false, .client 0 true false], by decide⟩

/-! ## C87: `tomato stop` -/

/-- How a `stop` comes to report success. -/
theorem closed_step {s : CSys} {k : Nat} {c : Client} {late refuse : Bool}
    (h : s.clients[k]? = some c) (hp : c.pc ≠ .done .closed)
    (hd : (cstep s (.client k late refuse)).clients[k]? = some { c with pc := .done .closed }) :
    ∃ (j : Nat) (d : Dm), answers s = some (j, d) ∧
      cstep s (.client k late refuse) =
        setC (setD s j { d with pc := .stopping }) k c (.done .closed) := by
  have hl := lt_of_getElem? h
  obtain ⟨c', hd, hc'⟩ : ∃ c', (cstep s (.client k late refuse)).clients[k]? = some c' ∧
      c'.pc = .done .closed := ⟨_, hd, rfl⟩
  simp only [cstep, h] at hd ⊢
  have none' : ∀ (t : CSys) pc, t.clients = s.clients.set k { c with pc := pc } →
      t.clients[k]? = some c' → pc = .done .closed := by
    intro t pc e ht
    rw [e] at ht
    simp [hl] at ht
    rw [← ht] at hc'
    exact hc'
  have same : ∀ t : CSys, t.clients = s.clients → t.clients[k]? = some c' → False := by
    intro t e ht
    rw [e, h] at ht
    simp only [Option.some.injEq] at ht
    exact hp (by rw [ht]; exact hc')
  unfold clientStep at hd ⊢
  cases hpc : c.pc <;> rw [hpc] at hd <;> simp only at hd ⊢
  case wait =>
    cases ha : answers s with
    | none => rw [ha] at hd; exact absurd (same _ rfl hd) id
    | some x =>
      obtain ⟨j, d⟩ := x
      rw [ha] at hd
      simp only at hd ⊢
      refine ⟨j, d, rfl, ?_⟩
      cases hk : c.kind <;> rw [hk] at hd <;> simp only at hd ⊢
      · exact absurd (same _ rfl hd) id
      · split at hd
        · have := none' _ _ rfl hd; cases this
        · next hr => rw [if_neg hr]
      · split at hd
        · have := none' _ _ rfl hd; cases this
        · split at hd
          · have := none' _ _ rfl hd; cases this
          · have := none' _ _ rfl hd; cases this
  case unbind stat => cases stat <;> (have := none' _ _ rfl hd; cases this)
  all_goals
    repeat' split at hd
    all_goals first
      | exact absurd (same _ rfl hd) id
      | (have := none' _ _ rfl hd; cases this)

/-- **C87**, what holds (partial): when `stop` reports success, it is because the daemon that was running has been
told to stop; nothing else has changed; and that daemon never serves again, whatever happens.  Missing: it may
be another daemon than the one whose status was asked for, the port is not yet free
(`C87_refuted_early`), and `stop` may never return (`C87_refuted_hang`). -/
theorem C87_closed_partial (cs : List (Kind × String)) (files : String → Option Nat) (as : List CAct) (k : Nat)
    (c : Client) (late refuse : Bool) (h : (crun (CSys.init cs files) as).clients[k]? = some c)
    (hp : c.pc ≠ .done .closed)
    (hd : (cstep (crun (CSys.init cs files) as) (.client k late refuse)).clients[k]? =
      some { c with pc := .done .closed }) :
    ∃ (j : Nat) (d : Dm), (crun (CSys.init cs files) as).daemons[j]? = some d ∧ d.pc.up = true ∧
      (∀ j', j' ≠ j → (cstep (crun (CSys.init cs files) as) (.client k late refuse)).daemons[j']? =
        (crun (CSys.init cs files) as).daemons[j']?) ∧
      ∀ bs, ∃ d', (crun (cstep (crun (CSys.init cs files) as) (.client k late refuse)) bs).daemons[j]? = some d' ∧
        (d'.pc = .stopping ∨ d'.pc = .gone) := by
  obtain ⟨j, d, ha, he⟩ := closed_step h hp hd
  obtain ⟨h1, h2, h3⟩ := answers_some ha
  have hl := lt_of_getElem? h2
  refine ⟨j, d, h2, h3, ?_, ?_⟩
  · intro j' hne
    rw [he]
    simp [setC, setD, Ne.symm hne]
  · intro bs
    have : (cstep (crun (CSys.init cs files) as) (.client k late refuse)).daemons[j]? =
        some { d with pc := .stopping } := by
      rw [he]
      simp [setC, setD, hl]
    obtain ⟨d', g1, -, -, g4, -⟩ := crun_daemon bs _ this
    exact ⟨d', g1, g4 (.inl rfl)⟩

/-- No `start` is under way and no daemon is beginning. -/
structure Quiet (s : CSys) : Prop where
  cl : ∀ (k : Nat) (c : Client), s.clients[k]? = some c → c.kind = .start → ∃ r, c.pc = .done r
  dm : ∀ (j : Nat) (d : Dm), s.daemons[j]? = some d → d.pc = .stopping ∨ d.pc = .gone

theorem quiet_step {s : CSys} (hi : Cli.Inv s) (hq : Quiet s) (a : CAct) : Quiet (cstep s a) := by
  refine ⟨?_, ?_⟩
  · intro k c h hk
    rcases step_clients s a with e | ⟨k', c', pc, late, refuse, rfl, hk', e⟩
    · rw [e] at h; exact hq.cl k c h hk
    · have h0 := h
      rw [e] at h
      rcases getElem?_set' _ _ _ _ _ h with ⟨rfl, rfl, -⟩ | ⟨-, h⟩
      · obtain ⟨r, hr⟩ := hq.cl k c' hk' hk
        simp only [cstep, hk', clientStep, hr, Option.some.injEq] at h0
        rw [← h0]
        exact ⟨r, hr⟩
      · exact hq.cl k c h hk
  · intro j d h
    by_cases hl : j < s.daemons.length
    · obtain ⟨d', h1, -, -, h4, -⟩ := step_daemon s a (List.getElem?_eq_getElem hl)
      rw [h] at h1
      cases h1
      exact h4 (hq.dm j _ (List.getElem?_eq_getElem hl))
    · exfalso
      -- a new process would have been launched by a `start`
      have key : ∀ t : CSys, t.daemons.length = s.daemons.length → t.daemons[j]? = some d → False := by
        intro t e ht
        have := lt_of_getElem? ht
        omega
      cases a with
      | client k late refuse =>
        simp only [cstep] at h
        cases hk : s.clients[k]? with
        | none => rw [hk] at h; exact key _ rfl h
        | some c =>
          rw [hk] at h
          simp only at h
          cases hpc : c.pc with
          | spawn =>
            have hf := hi.fit k c hk
            rw [hpc] at hf
            cases hkd : c.kind <;> rw [hkd] at hf <;> simp only [fits, Bool.false_eq_true] at hf
            obtain ⟨r, hr⟩ := hq.cl k c hk hkd
            rw [hpc] at hr
            cases hr
          | _ =>
            simp only [clientStep, hpc] at h
            repeat' split at h
            all_goals first
              | exact key _ rfl h
              | exact key _ (by simp [setC, setD]) h
      | daemon j' exit =>
        simp only [cstep] at h
        cases hj : s.daemons[j']? with
        | none => rw [hj] at h; exact key _ rfl h
        | some x =>
          rw [hj] at h
          simp only [daemonStep] at h
          repeat' split at h
          all_goals first
            | exact key _ rfl h
            | exact key _ (by simp [setD]) h
      | edit x y => exact key _ rfl h
      | other =>
        simp only [cstep] at h
        repeat' split at h
        all_goals exact key _ rfl h

theorem quiet_run (bs : List CAct) : ∀ s : CSys, Cli.Inv s → Quiet s → Quiet (crun s bs) := by
  induction bs with
  | nil => intro s _ h; exact h
  | cons a bs ih => intro s hi h; exact ih _ (inv_step hi a) (quiet_step hi h a)

/-- **C87**, without `start` commands under way (partial): after `stop` has reported success, no daemon serves the
port again. -/
theorem C87_down_partial (cs : List (Kind × String)) (files : String → Option Nat) (as : List CAct) (k : Nat)
    (c : Client) (late refuse : Bool) (h : (crun (CSys.init cs files) as).clients[k]? = some c)
    (hp : c.pc ≠ .done .closed)
    (hd : (cstep (crun (CSys.init cs files) as) (.client k late refuse)).clients[k]? =
      some { c with pc := .done .closed })
    (hs : ∀ (k' : Nat) (c' : Client), (crun (CSys.init cs files) as).clients[k']? = some c' →
      c'.kind = .start → ∃ r, c'.pc = .done r)
    (hb : ∀ d ∈ (crun (CSys.init cs files) as).daemons, d.pc.up = true ∨ d.pc = .gone) (bs : List CAct) :
    ∀ d ∈ (crun (cstep (crun (CSys.init cs files) as) (.client k late refuse)) bs).daemons,
      d.pc = .stopping ∨ d.pc = .gone := by
  have hi := inv_run as _ (inv_init cs files)
  obtain ⟨j, d, ha, he⟩ := closed_step h hp hd
  obtain ⟨h1, h2, h3⟩ := answers_some ha
  have hq : Quiet (cstep (crun (CSys.init cs files) as) (.client k late refuse)) := by
    refine ⟨?_, ?_⟩
    · intro k' c' hk hkd
      rw [he] at hk
      rcases getElem?_set' _ _ _ _ _ hk with ⟨rfl, rfl, -⟩ | ⟨-, hk⟩
      · exact ⟨_, rfl⟩
      · exact hs k' c' hk hkd
    · intro j' d' hj
      rw [he] at hj
      rcases getElem?_set' _ _ _ _ _ hj with ⟨rfl, rfl, -⟩ | ⟨hne, hj⟩
      · exact .inl rfl
      · rcases hb d' (List.mem_of_getElem? hj) with hu | hg
        · exact absurd (C86_one cs files as j' j d' d hj h2 hu h3) hne
        · exact .inr hg
  intro d' hd'
  obtain ⟨j', hj'⟩ := List.getElem?_of_mem hd'
  exact (quiet_run bs _ (inv_step hi _) hq).dm j' d' hj'

/-- Non-vacuity of C87. -/
example :
    let s := crun (CSys.init [(.start, "A"), (.stop, "B")] twoDirs)
      (goodStart ++ [.client 1 false false, .client 1 false false])
    s.clients[1]? = some ⟨.stop, "B", .wait⟩ ∧
    (cstep s (.client 1 false false)).clients[1]? = some ⟨.stop, "B", .done .closed⟩ ∧
    s.clients[0]? = some ⟨.start, "A", .done (.started ⟨"A", 1⟩)⟩ ∧
    s.daemons = [⟨0, "A", 1, .serving⟩] := by decide

/-- **C87 refuted**: the daemon ends between the answer to `status` and the request to stop (because of another
`stop`, or a crash): `tomato stop` waits for ever. -/
theorem C87_refuted_hang : ∃ as,
    let s := crun (CSys.init [(.start, "A"), (.stop, "B")] twoDirs) as
    s.daemons = [⟨0, "A", 1, .gone⟩] ∧
    ∀ bs, (crun s bs).clients[1]? = some ⟨.stop, "B", .wait⟩ := by
  refine ⟨goodStart ++ [.client 1 false false, .client 1 false false, .daemon 0 true], by decide, ?_⟩
  have key : ∀ bs (s : CSys), s.clients = [⟨.start, "A", .done (.started ⟨"A", 1⟩)⟩, ⟨.stop, "B", .wait⟩] →
      s.daemons = [⟨0, "A", 1, .gone⟩] → (crun s bs).clients[1]? = some ⟨.stop, "B", .wait⟩ := by
    intro bs
    induction bs with
    | nil => intro s h1 _; rw [crun, List.foldl_nil, h1]; rfl
    | cons a bs ih =>
      intro s h1 h2
      have hans : answers s = none := by
        cases hh : answers s with
        | none => rfl
        | some x =>
          obtain ⟨j, d⟩ := x
          obtain ⟨-, g2, g3⟩ := answers_some hh
          rw [h2] at g2
          match j, g2 with
          | 0, g2 => cases g2; cases g3
          | n + 1, g2 => simp at g2
      have hst : (cstep s a).clients = s.clients ∧ (cstep s a).daemons = s.daemons := by
        cases a with
        | client k late refuse =>
          match k with
          | 0 => simp [cstep, h1, clientStep]
          | 1 => simp [cstep, h1, clientStep, hans]
          | n + 2 => simp [cstep, h1]
        | daemon j exit =>
          match j with
          | 0 => simp [cstep, h2, daemonStep]
          | n + 1 => simp [cstep, h2]
        | edit x y => exact ⟨rfl, rfl⟩
        | other =>
          simp only [cstep]
          repeat' split
          all_goals exact ⟨rfl, rfl⟩
      exact ih _ (hst.1.trans h1) (hst.2.trans h2)
  intro bs
  exact key bs _ (by decide) (by decide)

/-- **C87 refuted**: such a `stop`, if it has been left waiting, stops a daemon that is started later. -/
theorem C87_refuted_pending : ∃ as bs,
    let s := crun (CSys.init [(.start, "A"), (.stop, "A"), (.start, "A")] twoDirs) as
    (s.clients[1]? = some ⟨.stop, "A", .wait⟩ ∧ s.clients[2]? = some ⟨.start, "A", .bind⟩ ∧
      s.daemons = [⟨0, "A", 1, .gone⟩]) ∧
    let t := crun s bs
    t.clients[1]? = some ⟨.stop, "A", .done .closed⟩ ∧
    t.clients[2]? = some ⟨.start, "A", .done (.started ⟨"A", 1⟩)⟩ ∧
    t.daemons = [⟨0, "A", 1, .gone⟩, ⟨2, "A", 1, .stopping⟩] :=
  ⟨goodStart ++ [.client 1 false false, .client 1 false false, .daemon 0 true],
    [.client 2 false false, .client 2 true false, .client 2 false false, .client 2 false false,
      .client 2 false false, .daemon 1 false, .daemon 1 false, .daemon 1 false, .client 2 false false,
      .client 1 false false], by decide, by decide⟩

/-- **C87 refuted**: `stop` reports that tomato is closed, while the daemon is still waiting for its managers; a
`start` right after it is refused, although soon no daemon is left. -/
theorem C87_refuted_early : ∃ as,
    let s := crun (CSys.init [(.start, "A"), (.stop, "A"), (.start, "A")] twoDirs) as
    s.clients[1]? = some ⟨.stop, "A", .done .closed⟩ ∧
    s.clients[2]? = some ⟨.start, "A", .done .inUse⟩ ∧ s.daemons = [⟨0, "A", 1, .gone⟩] :=
  ⟨goodStart ++ [.client 1 false false, .client 1 false false, .client 1 false false, .client 2 false false,
    .daemon 0 true], by decide⟩

/-! ## C88: `tomato reload -A` -/

/-- **C88**, what holds (partial): when `reload` reports success, the running daemon now has the configuration
found in *its own* folder; this is the folder in the message if the daemon was started with it.  Missing:
otherwise the message is wrong (`C88_refuted`). -/
theorem C88_partial (s : CSys) (k : Nat) (c : Client) (late refuse : Bool) (a : String) (i : DInfo)
    (h : s.clients[k]? = some c) (hp : ∀ r, c.pc ≠ .done r)
    (hd : (cstep s (.client k late refuse)).clients[k]? = some { c with pc := .done (.reloaded a i) }) :
    ∃ (j : Nat) (d : Dm), s.daemons[j]? = some d ∧ d.pc.up = true ∧
      a = c.appdir ∧ i.appdir = d.appdir ∧ s.files d.appdir = some i.cfg ∧
      (cstep s (.client k late refuse)).daemons[j]? = some { d with cfg := i.cfg } ∧
      (d.appdir = c.appdir → s.files a = some i.cfg) := by
  have hl := lt_of_getElem? h
  obtain ⟨c', hd, hc'⟩ : ∃ c', (cstep s (.client k late refuse)).clients[k]? = some c' ∧
      c'.pc = .done (.reloaded a i) := ⟨_, hd, rfl⟩
  simp only [cstep, h] at hd ⊢
  have none' : ∀ (t : CSys) pc, t.clients = s.clients.set k { c with pc := pc } →
      t.clients[k]? = some c' → pc = .done (.reloaded a i) := by
    intro t pc e ht
    rw [e] at ht
    simp [hl] at ht
    rw [← ht] at hc'
    exact hc'
  have same : ∀ t : CSys, t.clients = s.clients → t.clients[k]? = some c' → False := by
    intro t e ht
    rw [e, h] at ht
    simp only [Option.some.injEq] at ht
    exact hp _ (by rw [ht]; exact hc')
  unfold clientStep at hd ⊢
  cases hpc : c.pc <;> rw [hpc] at hd <;> simp only at hd ⊢
  case wait =>
    cases ha : answers s with
    | none => rw [ha] at hd; exact absurd (same _ rfl hd) id
    | some x =>
      obtain ⟨j, d⟩ := x
      obtain ⟨-, h2, h3⟩ := answers_some ha
      have hjl := lt_of_getElem? h2
      rw [ha] at hd
      simp only at hd ⊢
      cases hk : c.kind <;> rw [hk] at hd <;> simp only at hd ⊢
      · exact absurd (same _ rfl hd) id
      · split at hd <;> (have := none' _ _ rfl hd; cases this)
      · split at hd
        · have := none' _ _ rfl hd; cases this
        · next hr =>
          rw [if_neg hr]
          cases hf : s.files d.appdir with
          | none => rw [hf] at hd; have := none' _ _ rfl hd; cases this
          | some cfg =>
            rw [hf] at hd
            have := none' _ _ rfl hd
            simp only [CPc.done.injEq, Res.reloaded.injEq] at this
            obtain ⟨e1, rfl⟩ := this
            refine ⟨j, d, h2, h3, e1.symm, rfl, hf, by simp [setC, setD, hjl], fun e => ?_⟩
            rw [← e1, ← e]
            exact hf
  case unbind stat => cases stat <;> (have := none' _ _ rfl hd; cases this)
  all_goals
    repeat' split at hd
    all_goals first
      | exact absurd (same _ rfl hd) id
      | (have := none' _ _ rfl hd; cases this)

/-- Non-vacuity of C88: the files are edited, then reloaded. -/
example :
    let s := crun (CSys.init [(.start, "A"), (.reload, "A")] twoDirs)
      (goodStart ++ [.edit "A" (some 7), .client 1 false false, .client 1 false false, .client 1 false false])
    s.clients[1]? = some ⟨.reload, "A", .wait⟩ ∧
    (cstep s (.client 1 false false)).clients[1]? = some ⟨.reload, "A", .done (.reloaded "A" ⟨"A", 7⟩)⟩ ∧
    (cstep s (.client 1 false false)).daemons = [⟨0, "A", 7, .serving⟩] := by decide

/-- **C88 refuted**: `tomato reload -A B`, with the daemon started with the folder `A`.  The message says that the
settings from `B` have been loaded, the daemon has read those in `A` again. -/
theorem C88_refuted : ∃ as,
    let s := crun (CSys.init [(.start, "A"), (.reload, "B")] twoDirs) as
    s.clients[1]? = some ⟨.reload, "B", .done (.reloaded "B" ⟨"A", 1⟩)⟩ ∧
    s.daemons = [⟨0, "A", 1, .serving⟩] ∧ s.files "B" = some 2 :=
  ⟨goodStart ++ [.client 1 false false, .client 1 false false, .client 1 false false, .client 1 false false],
    by decide⟩

end Tomato.Props
