import Verif.JobThread

/-!
# Invariants of the job's threads
-/

namespace Tomato.JobT

/-- The history of one thread; in between, the main thread may add names. -/
inductive THist (tasks : List Task) : List Ev → Thr → Prop where
  | init : THist tasks [] { tasks := tasks }
  | step {h : List Ev} {t t' : Thr} {e : Ev} (c : Choice) :
      THist tasks h t → tstep t c = some (t', e) → THist tasks (h ++ [e]) t'
  | push {h : List Ev} {t : Thr} (ns : List String) :
      THist tasks h t → THist tasks h { t with names := ns ++ t.names }

/-- The events of thread `k`. -/
def proj (k : Nat) (h : List JEv) : List Ev :=
  h.filterMap (fun e => match e with
    | .thr k' e => if k' = k then some e else none
    | _ => none)

theorem proj_snoc (k : Nat) (h : List JEv) (e : JEv) : proj k (h ++ [e]) = proj k h ++ proj k [e] := by
  simp [proj, List.filterMap_append]

theorem proj_thr (k : Nat) (e : Ev) : proj k [.thr k e] = [e] := by simp [proj]

theorem proj_thr_ne {k k' : Nat} (h : k' ≠ k) (e : Ev) : proj k [.thr k' e] = [] := by
  simp [proj, h]

theorem mem_proj {k : Nat} {h : List JEv} {e : Ev} : e ∈ proj k h ↔ .thr k e ∈ h := by
  induction h with
  | nil => simp [proj]
  | cons x h ih =>
    have : proj k (x :: h) = proj k [x] ++ proj k h := by
      rw [show x :: h = [x] ++ h from rfl]; simp only [proj, List.filterMap_append]
    rw [this, List.mem_append, ih, List.mem_cons]
    apply or_congr_left
    cases x with
    | thr k' e' =>
      by_cases hk : k' = k
      · subst hk; simp [proj_thr]
      · rw [proj_thr_ne hk]
        have : ¬ k = k' := fun e => hk e.symm
        simp [this]
    | _ => simp [proj]

/-- Splitting a history at an event, when one more event is added. -/
theorem snoc_split {α : Type} {h a b : List α} {e x : α} (hs : h ++ [e] = a ++ x :: b) :
    (b = [] ∧ x = e ∧ a = h) ∨ ∃ b', b = b' ++ [e] ∧ h = a ++ x :: b' := by
  rcases List.eq_nil_or_concat b with rfl | ⟨b', y, rfl⟩
  · left
    have := List.append_inj' hs rfl
    exact ⟨rfl, by simpa using this.2.symm, this.1.symm⟩
  · right
    have h2 : h ++ [e] = (a ++ x :: b') ++ [y] := by rw [hs]; simp
    have := List.append_inj' h2 rfl
    refine ⟨b', ?_, this.1⟩
    have he : e = y := by simpa using this.2
    rw [he]; simp

/-- Every thread of a job has a history of its own. -/
theorem hist_thr {tss : List (List Task)} {h : List JEv} {s : Jb} (hh : Hist (Jb.init tss) h s) :
    s.thrs.length = tss.length ∧
    ∀ (k : Nat) (t : Thr), s.thrs[k]? = some t → ∃ ts, tss[k]? = some ts ∧ THist ts (proj k h) t := by
  induction hh with
  | init =>
    refine ⟨by simp [Jb.init], ?_⟩
    intro k t ht
    simp only [Jb.init, List.getElem?_map, Option.map_eq_some_iff] at ht
    obtain ⟨ts, h1, rfl⟩ := ht
    exact ⟨ts, h1, .init⟩
  | @step h s s' e a hh ha ih =>
    obtain ⟨hlen, ih⟩ := ih
    have keep : ∀ e, (∀ k, proj k [e] = []) → s'.thrs = s.thrs →
        s'.thrs.length = tss.length ∧ ∀ (k : Nat) (t : Thr), s'.thrs[k]? = some t →
          ∃ ts, tss[k]? = some ts ∧ THist ts (proj k (h ++ [e])) t := by
      intro e he hs
      rw [hs]
      refine ⟨hlen, fun k t ht => ?_⟩
      rw [proj_snoc, he k, List.append_nil]
      exact ih k t ht
    cases a with
    | thr k c =>
      simp only [act] at ha
      split at ha
      · cases ha
      · rename_i t ht
        split at ha
        · cases ha
        · rename_i t' e' hst
          injection ha with ha
          injection ha with ha1 ha2
          subst ha1; subst ha2
          refine ⟨by simpa using hlen, ?_⟩
          intro k' t'' ht''
          rw [proj_snoc]
          by_cases hk : k = k'
          · subst hk
            have hkl : k < s.thrs.length := (List.getElem?_eq_some_iff.mp ht).1
            simp only [List.getElem?_set_self hkl] at ht''
            cases ht''
            obtain ⟨ts, h1, h2⟩ := ih k t ht
            rw [proj_thr]
            exact ⟨ts, h1, .step c h2 hst⟩
          · simp only [List.getElem?_set_ne hk] at ht''
            rw [proj_thr_ne hk, List.append_nil]
            exact ih k' t'' ht''
    | main =>
      simp only [act, mstep] at ha
      split at ha
      · split at ha
        · injection ha with ha; injection ha with ha1 ha2; subst ha1; subst ha2
          exact keep _ (fun k => by simp [proj]) rfl
        · split at ha
          all_goals (injection ha with ha; injection ha with ha1 ha2; subst ha1; subst ha2)
          all_goals exact keep _ (fun k => by simp [proj]) rfl
      · split at ha
        · injection ha with ha; injection ha with ha1 ha2; subst ha1; subst ha2
          exact keep _ (fun k => by simp [proj]) rfl
        · rename_i k _ _ t ht
          injection ha with ha; injection ha with ha1 ha2; subst ha1; subst ha2
          refine ⟨by simpa using hlen, ?_⟩
          intro k' t'' ht''
          rw [proj_snoc]
          have : proj k' [JEv.pushed k] = [] := by simp [proj]
          rw [this, List.append_nil]
          by_cases hk : k = k'
          · subst hk
            have hkl : k < s.thrs.length := (List.getElem?_eq_some_iff.mp ht).1
            simp only [List.getElem?_set_self hkl] at ht''
            cases ht''
            obtain ⟨ts, h1, h2⟩ := ih k t ht
            exact ⟨ts, h1, .push _ h2⟩
          · simp only [List.getElem?_set_ne hk] at ht''
            exact ih k' t'' ht''
      · split at ha
        all_goals (injection ha with ha; injection ha with ha1 ha2; subst ha1; subst ha2)
        all_goals exact keep _ (fun k => by simp [proj]) rfl
      · split at ha
        · split at ha
          all_goals (injection ha with ha; injection ha with ha1 ha2; subst ha1; subst ha2)
          all_goals exact keep _ (fun k => by simp [proj]) rfl
        · injection ha with ha; injection ha with ha1 ha2; subst ha1; subst ha2
          exact keep _ (fun k => by simp [proj]) rfl
      · cases ha

/-! ## What the history says -/

/-- The tasks sent, in order. -/
def starts (h : List Ev) : List Nat :=
  h.filterMap (fun e => match e with
    | .sent i .start => some i
    | _ => none)

theorem starts_snoc (h : List Ev) (e : Ev) : starts (h ++ [e]) = starts h ++ starts [e] := by
  simp [starts, List.filterMap_append]

/-- All data delivered, in order. -/
def delivered (h : List Ev) : List Nat :=
  h.flatMap (fun e => match e with
    | .got _ .data (.reply true _ (some ps)) _ => ps
    | .got _ .stop (.reply true _ (some ps)) _ => ps
    | .got _ .final (.reply true _ (some ps)) _ => ps
    | _ => [])

theorem delivered_snoc (h : List Ev) (e : Ev) : delivered (h ++ [e]) = delivered h ++ delivered [e] := by
  simp [delivered, List.flatMap_append]

/-- The event ends the main loop for task `j`. -/
def Ends (tasks : List Task) (j : Nat) (e : Ev) : Prop :=
  (∃ ok st ps l, e = .got j .status (.reply ok st ps) l ∧ isOver tasks[j]? ok st = true) ∨
  (∃ ok st ps l, e = .got j .stop (.reply ok st ps) l)

/-- The end of task `j` has been noticed. -/
def Seen (tasks : List Task) (j : Nat) (h : List Ev) : Prop := ∃ e ∈ h, Ends tasks j e

/-- The end of task `j` has been noticed, and then its final data were fetched. -/
def Done (tasks : List Task) (j : Nat) (h : List Ev) : Prop :=
  ∃ a e b, h = a ++ e :: b ∧ Ends tasks j e ∧ ∃ ok st ps l, .got j .final (.reply ok st ps) l ∈ b

theorem Seen.snoc {tasks : List Task} {j : Nat} {h : List Ev} (hs : Seen tasks j h) (e : Ev) :
    Seen tasks j (h ++ [e]) := by
  obtain ⟨x, hx, he⟩ := hs
  exact ⟨x, by simp [hx], he⟩

theorem Done.snoc {tasks : List Task} {j : Nat} {h : List Ev} (hs : Done tasks j h) (e : Ev) :
    Done tasks j (h ++ [e]) := by
  obtain ⟨a, x, b, rfl, he, ok, st, ps, l, hm⟩ := hs
  exact ⟨a, x, b ++ [e], by simp, he, ok, st, ps, l, by simp [hm]⟩

theorem Seen.done {tasks : List Task} {j : Nat} {h : List Ev} (hs : Seen tasks j h)
    (ok : Bool) (st : Option SD) (ps : Option (List Nat)) (l : Bool) :
    Done tasks j (h ++ [.got j .final (.reply ok st ps) l]) := by
  obtain ⟨x, hx, he⟩ := hs
  obtain ⟨a, b, rfl⟩ := List.append_of_mem hx
  exact ⟨a, x, b ++ [.got j .final (.reply ok st ps) l], by simp, he, ok, st, ps, l, by simp⟩

/-! ## The invariant -/

/-- Phases of a thread. -/
inductive Cls where
  | cur | pre | mid | seen | done | unset | aft | bad
  deriving DecidableEq

def cls : Pc → Cls
  | .cur => .cur
  | .hold => .pre
  | .ask .ready => .pre
  | .wait .ready => .pre
  | .ask .start => .pre
  | .ask .final => .seen
  | .wait .final => .seen
  | .load _ .final => .seen
  | .trunc _ .final => .seen
  | .dump _ .final => .seen
  | .load _ .append => .done
  | .trunc _ .append => .done
  | .dump _ .append => .done
  | .append => .done
  | .unset => .unset
  | .ask .reset => .aft
  | .wait .reset => .aft
  | .fin => .aft
  | .crash => .bad
  | .exited => .bad
  | .dead => .bad
  | _ => .mid

/-- The possible changes of phase, with what happens at them. -/
inductive Move (tasks : List Task) : Thr → Ev → Thr → Prop where
  /-- within a phase -/
  | stay {t t' : Thr} {e : Ev} : cls t'.pc = cls t.pc → t'.i = t.i → t'.noList = t.noList →
      starts [e] = [] → cls t.pc ≠ .cur → cls t.pc ≠ .unset → Move tasks t e t'
  | take {t t' : Thr} {e : Ev} : cls t.pc = .cur → cls t'.pc = .pre → t'.i = t.i →
      t'.noList = t.noList → starts [e] = [] → t.i < tasks.length → Move tasks t e t'
  | send {t t' : Thr} : cls t.pc = .pre → cls t'.pc = .mid → t'.i = t.i → t'.noList = t.noList →
      Move tasks t (.sent t.i .start) t'
  | see {t t' : Thr} {e : Ev} : cls t.pc = .mid → cls t'.pc = .seen → t'.i = t.i →
      t'.noList = t.noList → starts [e] = [] → Ends tasks t.i e → Move tasks t e t'
  | fetch {t t' : Thr} (ok : Bool) (st : Option SD) (ps : Option (List Nat)) (l : Bool) :
      cls t.pc = .seen → cls t'.pc = .done → t'.i = t.i → t'.noList = t.noList →
      Move tasks t (.got t.i .final (.reply ok st ps) l) t'
  | complete {t t' : Thr} : cls t.pc = .done → cls t'.pc = .unset → t'.i = t.i →
      t.noList = false → t'.noList = true → Move tasks t (.completed t.i) t'
  | advance {t t' : Thr} {e : Ev} : cls t.pc = .unset → cls t'.pc = .cur → t'.i = t.i + 1 →
      t'.noList = t.noList → starts [e] = [] → Move tasks t e t'
  | finish {t t' : Thr} {e : Ev} : cls t.pc = .cur → cls t'.pc = .aft → t'.i = t.i →
      t'.noList = t.noList → starts [e] = [] → tasks.length ≤ t.i → Move tasks t e t'
  | fail {t t' : Thr} {e : Ev} : cls t.pc ≠ .cur → cls t.pc ≠ .unset → cls t'.pc = .bad →
      t'.i = t.i → t'.noList = t.noList → starts [e] = [] → Move tasks t e t'

theorem tstep_tasks {t t' : Thr} {e : Ev} {c : Choice} (ha : tstep t c = some (t', e)) :
    t'.tasks = t.tasks := by
  obtain ⟨tk, i, pc, cur, names, noList, crashed, file⟩ := t
  cases pc <;> simp only [tstep] at ha
  all_goals (try split at ha)
  all_goals first
    | (cases ha; done)
    | (injection ha with ha; injection ha with ha1 ha2; subst ha1; rfl)

theorem tstep_move {t t' : Thr} {e : Ev} {c : Choice} (ha : tstep t c = some (t', e)) :
    Move t.tasks t e t' := by
  obtain ⟨tk, i, pc, cur, names, noList, crashed, file⟩ := t
  obtain ⟨ans, late, due⟩ := c
  cases pc with
  | cur =>
    simp only [tstep] at ha
    split at ha
    all_goals (injection ha with ha; injection ha with ha1 ha2; subst ha1; subst ha2)
    · rename_i hn
      exact .finish rfl rfl rfl rfl rfl (List.getElem?_eq_none_iff.mp hn)
    · rename_i k hk
      exact .take rfl rfl rfl rfl rfl (List.getElem?_eq_some_iff.mp hk).1
  | hold =>
    simp only [tstep] at ha
    split at ha
    all_goals (injection ha with ha; injection ha with ha1 ha2; subst ha1; subst ha2)
    all_goals exact .stay rfl rfl rfl rfl (by simp [cls]) (by simp [cls])
  | ask q =>
    simp only [tstep] at ha
    injection ha with ha; injection ha with ha1 ha2; subst ha1; subst ha2
    cases q
    case start => exact .send rfl rfl rfl rfl
    all_goals exact .stay rfl rfl rfl rfl (by simp [cls]) (by simp [cls])
  | wait q =>
    simp only [tstep] at ha
    injection ha with ha; injection ha with ha1 ha2; subst ha1; subst ha2
    cases ans with
    | closed =>
      exact .fail (by cases q <;> simp [cls]) (by cases q <;> simp [cls]) rfl rfl rfl rfl
    | reply ok st ps =>
      cases q with
      | ready =>
        refine .stay ?_ rfl rfl rfl (by simp [cls]) (by simp [cls])
        cases st with
        | none => rfl
        | some sd => simp only [next]; split <;> rfl
      | start => exact .stay rfl rfl rfl rfl (by simp [cls]) (by simp [cls])
      | running =>
        simp only [next]
        split
        · exact .stay rfl rfl rfl rfl (by simp [cls]) (by simp [cls])
        · split
          · exact .fail (by simp [cls]) (by simp [cls]) rfl rfl rfl rfl
          · exact .stay rfl rfl rfl rfl (by simp [cls]) (by simp [cls])
      | data =>
        refine .stay ?_ rfl rfl rfl (by simp [cls]) (by simp [cls])
        cases ps with
        | none => rfl
        | some ps => cases ok <;> rfl
      | status =>
        simp only [next]
        split
        · rename_i ho
          exact .see rfl rfl rfl rfl rfl (.inl ⟨ok, st, ps, late, rfl, ho⟩)
        · exact .stay rfl rfl rfl rfl (by simp [cls]) (by simp [cls])
      | stop =>
        refine .see rfl ?_ rfl rfl rfl (.inr ⟨ok, st, ps, late, rfl⟩)
        cases ps with
        | none => rfl
        | some ps => cases ok <;> rfl
      | final =>
        refine .fetch ok st ps late rfl ?_ rfl rfl
        cases ps with
        | none => rfl
        | some ps => cases ok <;> rfl
      | reset => exact .stay rfl rfl rfl rfl (by simp [cls]) (by simp [cls])
  | due =>
    simp only [tstep] at ha
    injection ha with ha; injection ha with ha1 ha2; subst ha1; subst ha2
    cases due
    all_goals exact .stay rfl rfl rfl rfl (by simp [cls]) (by simp [cls])
  | trigger =>
    simp only [tstep] at ha
    split at ha
    all_goals (injection ha with ha; injection ha with ha1 ha2; subst ha1; subst ha2)
    all_goals exact .stay rfl rfl rfl rfl (by simp [cls]) (by simp [cls])
  | load ps n =>
    simp only [tstep] at ha
    split at ha
    all_goals (injection ha with ha; injection ha with ha1 ha2; subst ha1; subst ha2)
    · exact .fail (by cases n <;> simp [cls]) (by cases n <;> simp [cls]) rfl rfl rfl rfl
    · exact .stay (by cases n <;> rfl) rfl rfl rfl (by cases n <;> simp [cls]) (by cases n <;> simp [cls])
  | trunc ps n =>
    simp only [tstep] at ha
    injection ha with ha; injection ha with ha1 ha2; subst ha1; subst ha2
    exact .stay (by cases n <;> rfl) rfl rfl rfl (by cases n <;> simp [cls]) (by cases n <;> simp [cls])
  | dump ps n =>
    simp only [tstep] at ha
    injection ha with ha; injection ha with ha1 ha2; subst ha1; subst ha2
    exact .stay (by cases n <;> rfl) rfl rfl rfl (by cases n <;> simp [cls]) (by cases n <;> simp [cls])
  | append =>
    simp only [tstep] at ha
    split at ha
    all_goals (injection ha with ha; injection ha with ha1 ha2; subst ha1; subst ha2)
    · exact .fail (by simp [cls]) (by simp [cls]) rfl rfl rfl rfl
    · rename_i hn
      exact .complete rfl rfl rfl (by simpa using hn) rfl
  | unset =>
    simp only [tstep] at ha
    injection ha with ha; injection ha with ha1 ha2; subst ha1; subst ha2
    exact .advance rfl rfl rfl rfl rfl
  | crash =>
    simp only [tstep] at ha
    injection ha with ha; injection ha with ha1 ha2; subst ha1; subst ha2
    exact .fail (by simp [cls]) (by simp [cls]) rfl rfl rfl rfl
  | fin => cases ha
  | exited => cases ha
  | dead => cases ha

/-- How many tasks have been sent, where that is determined by the phase. -/
def sentIn (n i : Nat) : Cls → List Nat → Prop
  | .cur, l => l = List.range i ∧ i ≤ n
  | .pre, l => l = List.range i ∧ i < n
  | .aft, l => l = List.range i ∧ i = n
  | .bad, l => (l = List.range i ∧ i ≤ n) ∨ (l = List.range (i + 1) ∧ i < n)
  | _, l => l = List.range (i + 1) ∧ i < n

structure TInv (tasks : List Task) (h : List Ev) (t : Thr) : Prop where
  tasks_eq : t.tasks = tasks
  sent : sentIn tasks.length t.i (cls t.pc) (starts h)
  past : ∀ j, j < t.i → Done tasks j h
  seen : cls t.pc = .seen → Seen tasks t.i h
  done : cls t.pc = .done ∨ cls t.pc = .unset → Done tasks t.i h
  list : (cls t.pc ≠ .unset ∧ ((t.i = 0 ∧ t.noList = false) ∨ (t.i = 1 ∧ t.noList = true))) ∨
    (cls t.pc = .unset ∧ t.i = 0 ∧ t.noList = true)

theorem tinv_step {tasks : List Task} {h : List Ev} {t t' : Thr} {e : Ev} {c : Choice}
    (hi : TInv tasks h t) (ha : tstep t c = some (t', e)) : TInv tasks (h ++ [e]) t' := by
  have hm := tstep_move ha
  have ht := tstep_tasks ha
  obtain ⟨h1, h2, h3, h4, h5, h6⟩ := hi
  rw [h1] at hm ht
  refine ⟨ht, ?_, ?_, ?_, ?_, ?_⟩
  · rw [starts_snoc]
    cases hm with
    | stay a b _ d _ _ => rw [a, b, d, List.append_nil]; exact h2
    | take a b c _ d f => rw [b, c, d, List.append_nil]; rw [a] at h2; exact ⟨h2.1, f⟩
    | send a b c _ =>
      rw [b, c]; rw [a] at h2
      exact ⟨by rw [h2.1, List.range_succ]; rfl, h2.2⟩
    | see a b c _ d _ => rw [b, c, d, List.append_nil]; rw [a] at h2; exact h2
    | fetch _ _ _ _ a b c _ => rw [b, c]; rw [a] at h2; simpa [starts, sentIn] using h2
    | complete a b c _ _ => rw [b, c]; rw [a] at h2; simpa [starts, sentIn] using h2
    | advance a b c _ d => rw [b, c, d, List.append_nil]; rw [a] at h2; exact ⟨h2.1, h2.2⟩
    | finish a b c _ d f =>
      rw [b, c, d, List.append_nil]; rw [a] at h2; exact ⟨h2.1, by have := h2.2; omega⟩
    | fail a a' b c _ d =>
      rw [b, c, d, List.append_nil]
      cases hc : cls t.pc <;> rw [hc] at h2 <;> simp only [sentIn] at h2 ⊢
      case cur => exact .inl h2
      case pre => exact .inl ⟨h2.1, by omega⟩
      case aft => exact .inl ⟨h2.1, by omega⟩
      case bad => exact h2
      all_goals exact .inr h2
  · intro j hj
    cases hm with
    | advance a b c _ d =>
      rw [c] at hj
      by_cases hji : j < t.i
      · exact (h3 j hji).snoc e
      · have : j = t.i := by omega
        subst this
        exact (h5 (.inr a)).snoc e
    | stay a b => rw [b] at hj; exact (h3 j hj).snoc _
    | take a b c => rw [c] at hj; exact (h3 j hj).snoc _
    | send a b c => rw [c] at hj; exact (h3 j hj).snoc _
    | see a b c => rw [c] at hj; exact (h3 j hj).snoc _
    | fetch _ _ _ _ a b c => rw [c] at hj; exact (h3 j hj).snoc _
    | complete a b c => rw [c] at hj; exact (h3 j hj).snoc _
    | finish a b c => rw [c] at hj; exact (h3 j hj).snoc _
    | fail a a' b c => rw [c] at hj; exact (h3 j hj).snoc _
  · intro hs
    cases hm with
    | see a b c _ d f => rw [c]; exact ⟨e, by simp, f⟩
    | stay a b => rw [b]; exact (h4 (a ▸ hs)).snoc e
    | take a b c => rw [b] at hs; cases hs
    | send a b c => rw [b] at hs; cases hs
    | fetch _ _ _ _ a b c => rw [b] at hs; cases hs
    | complete a b c => rw [b] at hs; cases hs
    | advance a b c _ d => rw [b] at hs; cases hs
    | finish a b c => rw [b] at hs; cases hs
    | fail a a' b c => rw [b] at hs; cases hs
  · intro hs
    cases hm with
    | stay a b => rw [b]; exact (h5 (a ▸ hs)).snoc e
    | fetch ok st ps l a b c => rw [c]; exact (h4 a).done ok st ps l
    | complete a b c => rw [c]; exact (h5 (.inl a)).snoc _
    | see a b c _ d f => rw [b] at hs; simp at hs
    | take a b c => rw [b] at hs; simp at hs
    | send a b c => rw [b] at hs; simp at hs
    | advance a b c _ d => rw [b] at hs; simp at hs
    | finish a b c => rw [b] at hs; simp at hs
    | fail a a' b c => rw [b] at hs; simp at hs
  · cases hm with
    | stay a b c => rw [a, b, c]; exact h6
    | take a b c d => rw [b, c, d]; simpa [a] using h6
    | send a b c d => rw [b, c, d]; simpa [a] using h6
    | see a b c d => rw [b, c, d]; simpa [a] using h6
    | fetch _ _ _ _ a b c d => rw [b, c, d]; simpa [a] using h6
    | complete a b c d d' => rw [b, c, d']; simpa [a, d] using h6
    | advance a b c d => rw [b, c, d]; simpa [a] using h6
    | finish a b c d => rw [b, c, d]; simpa [a] using h6
    | fail a a' b c d => rw [b, c, d]; simpa [a'] using h6

theorem tinv {tasks : List Task} {h : List Ev} {t : Thr} (hh : THist tasks h t) : TInv tasks h t := by
  induction hh with
  | init =>
    refine ⟨rfl, ⟨rfl, Nat.zero_le _⟩, ?_, ?_, ?_, ?_⟩
    · intro j hj; cases hj
    · intro h; cases h
    · intro h; simp [cls] at h
    · simp [cls]
  | step c _ ha ih => exact tinv_step ih ha
  | push ns _ ih =>
    obtain ⟨h1, h2, h3, h4, h5, h6⟩ := ih
    exact ⟨h1, h2, h3, h4, h5, h6⟩

/-! ## Data -/

/-- The file together with the data that are in memory only. -/
def FileOK (t : Thr) (d : List Nat) : Prop :=
  match t.pc with
  | .load ps _ => t.file ≠ .broken ∧ t.file.content ++ ps = d
  | .trunc ps _ => t.file ≠ .broken ∧ ps = d ∧ ∃ x, t.file.content ++ x = d
  | .dump ps _ => t.file = .broken ∧ ps = d
  | _ => t.file ≠ .broken ∧ t.file.content = d

theorem fileOK_step {h : List Ev} {t t' : Thr} {e : Ev} {c : Choice}
    (hi : FileOK t (delivered h)) (ha : tstep t c = some (t', e)) :
    FileOK t' (delivered (h ++ [e])) := by
  rw [delivered_snoc]
  obtain ⟨tk, i, pc, cur, names, noList, crashed, file⟩ := t
  obtain ⟨ans, late, due⟩ := c
  cases pc with
  | wait q =>
    simp only [tstep] at ha
    injection ha with ha; injection ha with ha1 ha2; subst ha1; subst ha2
    simp only [FileOK] at hi
    cases ans with
    | closed => cases q <;> simpa [FileOK, next, delivered] using hi
    | reply ok st ps =>
      cases q with
      | ready =>
        cases st with
        | none => simpa [FileOK, next, delivered] using hi
        | some sd =>
          simp only [next]
          split <;> simpa [FileOK, delivered] using hi
      | start => simpa [FileOK, next, delivered] using hi
      | running =>
        simp only [next]
        split
        · simpa [FileOK, delivered] using hi
        · split <;> simpa [FileOK, delivered] using hi
      | status => simp only [next]; split <;> simpa [FileOK, delivered] using hi
      | reset => simpa [FileOK, next, delivered] using hi
      | data =>
        cases ps with
        | none => cases ok <;> simpa [FileOK, next, store, delivered] using hi
        | some ps => cases ok <;> simpa [FileOK, next, store, delivered] using hi
      | stop =>
        cases ps with
        | none => cases ok <;> simpa [FileOK, next, store, delivered] using hi
        | some ps => cases ok <;> simpa [FileOK, next, store, delivered] using hi
      | final =>
        cases ps with
        | none => cases ok <;> simpa [FileOK, next, store, delivered] using hi
        | some ps => cases ok <;> simpa [FileOK, next, store, delivered] using hi
  | load ps n =>
    simp only [tstep] at ha
    simp only [FileOK] at hi
    split at ha
    all_goals (injection ha with ha; injection ha with ha1 ha2; subst ha1; subst ha2)
    · exact absurd rfl hi.1
    · simp only [delivered, List.flatMap_cons, List.flatMap_nil, List.append_nil]
      exact ⟨hi.1, hi.2, ps, hi.2⟩
  | trunc ps n =>
    simp only [tstep] at ha
    injection ha with ha; injection ha with ha1 ha2; subst ha1; subst ha2
    simp only [FileOK] at hi
    simpa [FileOK, delivered] using hi.2.1
  | dump ps n =>
    simp only [tstep] at ha
    injection ha with ha; injection ha with ha1 ha2; subst ha1; subst ha2
    simp only [FileOK] at hi
    cases n <;> simpa [FileOK, Nxt.pc, delivered, File.content] using hi.2
  | cur =>
    simp only [tstep] at ha
    split at ha
    all_goals (injection ha with ha; injection ha with ha1 ha2; subst ha1; subst ha2)
    all_goals simpa [FileOK, delivered] using hi
  | hold =>
    simp only [tstep] at ha
    split at ha
    all_goals (injection ha with ha; injection ha with ha1 ha2; subst ha1; subst ha2)
    all_goals simpa [FileOK, delivered] using hi
  | ask q =>
    simp only [tstep] at ha
    injection ha with ha; injection ha with ha1 ha2; subst ha1; subst ha2
    simpa [FileOK, delivered] using hi
  | due =>
    simp only [tstep] at ha
    injection ha with ha; injection ha with ha1 ha2; subst ha1; subst ha2
    cases due <;> simpa [FileOK, delivered] using hi
  | trigger =>
    simp only [tstep] at ha
    split at ha
    all_goals (injection ha with ha; injection ha with ha1 ha2; subst ha1; subst ha2)
    all_goals simpa [FileOK, delivered] using hi
  | append =>
    simp only [tstep] at ha
    split at ha
    all_goals (injection ha with ha; injection ha with ha1 ha2; subst ha1; subst ha2)
    all_goals simpa [FileOK, delivered] using hi
  | unset =>
    simp only [tstep] at ha
    injection ha with ha; injection ha with ha1 ha2; subst ha1; subst ha2
    simpa [FileOK, delivered] using hi
  | crash =>
    simp only [tstep] at ha
    injection ha with ha; injection ha with ha1 ha2; subst ha1; subst ha2
    simpa [FileOK, delivered] using hi
  | fin => cases ha
  | exited => cases ha
  | dead => cases ha

theorem fileOK {tasks : List Task} {h : List Ev} {t : Thr} (hh : THist tasks h t) :
    FileOK t (delivered h) := by
  induction hh with
  | init => simp [FileOK, File.content, delivered]
  | step c _ ha ih => exact fileOK_step ih ha
  | push ns _ ih => exact ih

/-! ## Ends of threads -/

/-- The reason why a thread gives up: no answer, or the task is not seen running in time. -/
def Cause (tasks : List Task) (e : Ev) : Prop :=
  (∃ i q l, e = .got i q .closed l) ∨
  (∃ i ok st ps, e = .got i .running (.reply ok st ps) true ∧ isRunning tasks[i]? ok st = false)

structure TEnd (tasks : List Task) (h : List Ev) (t : Thr) : Prop where
  crashed : t.crashed = true ↔ t.pc = .exited
  cause : t.pc = .crash ∨ t.pc = .exited → ∃ e ∈ h, Cause tasks e
  why : (∃ e ∈ h, Cause tasks e) → t.pc = .crash ∨ t.pc = .exited
  fin : t.pc = .fin → ∃ i, .sent i .reset ∈ h
  waitReset : t.pc = .wait .reset → ∃ i, .sent i .reset ∈ h
  dead : t.pc = .dead → t.i = 1 ∧ starts h = List.range 2 ∧ 2 ≤ tasks.length

theorem cause_got {tasks : List Task} {i : Nat} {q : Q} {a : Ans} {l : Bool} :
    Cause tasks (.got i q a l) ↔ next tasks[i]? q a l = .crash := by
  unfold Cause
  constructor
  · rintro (⟨i', q', l', h⟩ | ⟨i', ok, st, ps, h, h'⟩)
    · cases h; rfl
    · cases h; simp [next, h']
  · intro h
    cases a with
    | closed => exact .inl ⟨i, q, l, rfl⟩
    | reply ok st ps =>
      right
      cases q with
      | running =>
        simp only [next] at h
        split at h
        · cases h
        · split at h
          · rename_i h1 h2
            exact ⟨i, ok, st, ps, by simp [h2], by simpa using h1⟩
          · cases h
      | ready =>
        cases st with
        | none => cases h
        | some sd => simp only [next] at h; split at h <;> cases h
      | start => cases h
      | data => cases ps with
        | none => cases h
        | some ps => cases ok <;> cases h
      | status => simp only [next] at h; split at h <;> cases h
      | stop => cases ps with
        | none => cases h
        | some ps => cases ok <;> cases h
      | final => cases ps with
        | none => cases h
        | some ps => cases ok <;> cases h
      | reset => cases h

theorem not_cause {tasks : List Task} {e : Ev} (he : ∀ i q a l, e ≠ .got i q a l) : ¬ Cause tasks e := by
  rintro (⟨i, q, l, h⟩ | ⟨i, ok, st, ps, h, _⟩)
  · exact he _ _ _ _ h
  · exact he _ _ _ _ h

theorem next_fin {t : Option Task} {q : Q} {a : Ans} {l : Bool} (h : next t q a l = .fin) :
    q = .reset := by
  cases a with
  | closed => cases h
  | reply ok st ps =>
    cases q with
    | reset => rfl
    | running =>
      simp only [next] at h
      split at h
      · cases h
      · split at h <;> cases h
    | ready =>
      cases st with
      | none => cases h
      | some sd => simp only [next] at h; split at h <;> cases h
    | start => cases h
    | data => cases ps with
      | none => cases h
      | some ps => cases ok <;> cases h
    | status => simp only [next] at h; split at h <;> cases h
    | stop => cases ps with
      | none => cases h
      | some ps => cases ok <;> cases h
    | final => cases ps with
      | none => cases h
      | some ps => cases ok <;> cases h

theorem next_ne {t : Option Task} {q : Q} {a : Ans} {l : Bool} :
    next t q a l ≠ .exited ∧ next t q a l ≠ .dead ∧ ∀ q', next t q a l ≠ .wait q' := by
  cases a with
  | closed => simp [next]
  | reply ok st ps =>
    cases q with
    | reset => simp [next]
    | running =>
      simp only [next]
      split
      · simp
      · split <;> simp
    | ready =>
      cases st with
      | none => simp [next]
      | some sd => simp only [next]; split <;> simp
    | start => simp [next]
    | data => cases ps with
      | none => simp [next, store]
      | some ps => cases ok <;> simp [next, store]
    | status => simp only [next]; split <;> simp
    | stop => cases ps with
      | none => simp [next, store]
      | some ps => cases ok <;> simp [next, store]
    | final => cases ps with
      | none => simp [next, store]
      | some ps => cases ok <;> simp [next, store]

theorem tend {tasks : List Task} {h : List Ev} {t : Thr} (hh : THist tasks h t) : TEnd tasks h t := by
  induction hh with
  | init => constructor <;> simp
  | push ns _ ih =>
    obtain ⟨h1, h2, h3, h4, h5, h6⟩ := ih
    exact ⟨h1, h2, h3, h4, h5, h6⟩
  | @step h t t' e c hh ha ih =>
    have hi := tinv hh
    have hf := fileOK hh
    obtain ⟨h1, h2, h3, h4, h5, h6⟩ := ih
    have htk := hi.tasks_eq
    obtain ⟨tk, i, pc, cur, names, noList, crashed, file⟩ := t
    obtain ⟨ans, late, due⟩ := c
    simp only at h1 h2 h3 h4 h5 h6 htk
    subst htk
    have mono : (∃ x ∈ h, Cause tk x) → ∃ x ∈ h ++ [e], Cause tk x := by
      rintro ⟨x, hx, hc⟩; exact ⟨x, by simp [hx], hc⟩
    have quiet : (∀ i q a l, e ≠ .got i q a l) → pc ≠ .crash → pc ≠ .exited →
        ¬ ∃ x ∈ h ++ [e], Cause tk x := by
      rintro he hp hp' ⟨x, hx, hc⟩
      rcases List.mem_append.mp hx with hx | hx
      · rcases h3 ⟨x, hx, hc⟩ with h | h
        · exact hp h
        · exact hp' h
      · rw [List.mem_singleton] at hx
        subst hx
        exact not_cause he hc
    cases pc with
    | wait q =>
      simp only [tstep] at ha
      injection ha with ha; injection ha with ha1 ha2; subst ha1; subst ha2
      have hcr : crashed = false := by
        cases crashed with
        | false => rfl
        | true => have := h1.mp rfl; cases this
      have hno : ¬ ∃ x ∈ h, Cause tk x := by
        intro hx
        rcases h3 hx with h | h <;> cases h
      refine ⟨?_, ?_, ?_, ?_, ?_, ?_⟩
      · simp only [hcr]
        constructor
        · intro h; cases h
        · intro h; exact absurd h next_ne.1
      · rintro (h | h)
        · exact ⟨_, by simp, cause_got.mpr h⟩
        · exact absurd h next_ne.1
      · rintro ⟨x, hx, hc⟩
        rcases List.mem_append.mp hx with hx | hx
        · exact absurd ⟨x, hx, hc⟩ hno
        · rw [List.mem_singleton] at hx
          subst hx
          exact .inl (cause_got.mp hc)
      · intro hp
        have := next_fin hp
        subst this
        obtain ⟨i, hi⟩ := h5 rfl
        exact ⟨i, by simp [hi]⟩
      · intro hp; exact absurd hp (next_ne.2.2 _)
      · intro hp; exact absurd hp next_ne.2.1
    | cur =>
      simp only [tstep] at ha
      split at ha
      all_goals (injection ha with ha; injection ha with ha1 ha2; subst ha1; subst ha2)
      all_goals
        have := quiet (by simp) (by simp) (by simp)
        constructor <;> simp_all
    | hold =>
      simp only [tstep] at ha
      split at ha
      all_goals (injection ha with ha; injection ha with ha1 ha2; subst ha1; subst ha2)
      all_goals
        have := quiet (by simp) (by simp) (by simp)
        constructor <;> simp_all
    | ask q =>
      simp only [tstep] at ha
      injection ha with ha; injection ha with ha1 ha2; subst ha1; subst ha2
      have hq := quiet (by simp) (by simp) (by simp)
      refine ⟨by simpa using h1, by simp, fun h => absurd h hq, by simp, ?_, by simp⟩
      intro hp
      injection hp with hp
      subst hp
      exact ⟨i, by simp⟩
    | due =>
      simp only [tstep] at ha
      injection ha with ha; injection ha with ha1 ha2; subst ha1; subst ha2
      have := quiet (by simp) (by simp) (by simp)
      cases due <;> constructor <;> simp_all
    | trigger =>
      simp only [tstep] at ha
      split at ha
      all_goals (injection ha with ha; injection ha with ha1 ha2; subst ha1; subst ha2)
      all_goals
        have := quiet (by simp) (by simp) (by simp)
        constructor <;> simp_all
    | load ps n =>
      simp only [tstep] at ha
      simp only [FileOK] at hf
      split at ha
      · exact absurd rfl hf.1
      · injection ha with ha; injection ha with ha1 ha2; subst ha1; subst ha2
        have := quiet (by simp) (by simp) (by simp)
        constructor <;> simp_all
    | trunc ps n =>
      simp only [tstep] at ha
      injection ha with ha; injection ha with ha1 ha2; subst ha1; subst ha2
      have := quiet (by simp) (by simp) (by simp)
      constructor <;> simp_all
    | dump ps n =>
      simp only [tstep] at ha
      injection ha with ha; injection ha with ha1 ha2; subst ha1; subst ha2
      have := quiet (by simp) (by simp) (by simp)
      cases n <;> constructor <;> simp_all [Nxt.pc]
    | append =>
      simp only [tstep] at ha
      split at ha
      · rename_i hn
        injection ha with ha; injection ha with ha1 ha2; subst ha1; subst ha2
        have hq := quiet (by simp) (by simp) (by simp)
        have hl := hi.list
        have hs := hi.sent
        simp only [cls] at hl hs
        have hi1 : i = 1 := by simpa [hn] using hl
        subst hi1
        simp only [sentIn] at hs
        refine ⟨by simpa using h1, by simp, fun h => absurd h hq, by simp, by simp, ?_⟩
        intro _
        exact ⟨rfl, by rw [starts_snoc, hs.1]; rfl, hs.2⟩
      · injection ha with ha; injection ha with ha1 ha2; subst ha1; subst ha2
        have := quiet (by simp) (by simp) (by simp)
        constructor <;> simp_all
    | unset =>
      simp only [tstep] at ha
      injection ha with ha; injection ha with ha1 ha2; subst ha1; subst ha2
      have := quiet (by simp) (by simp) (by simp)
      constructor <;> simp_all
    | crash =>
      simp only [tstep] at ha
      injection ha with ha; injection ha with ha1 ha2; subst ha1; subst ha2
      refine ⟨by simp, fun _ => mono (h2 (.inl rfl)), fun _ => .inr rfl, by simp, by simp, by simp⟩
    | fin => cases ha
    | exited => cases ha
    | dead => cases ha

/-! ## Start and stop conditions -/

structure TCond (tasks : List Task) (h : List Ev) (t : Thr) : Prop where
  current : ∀ k, t.current = some k → ∃ i, .current i ∈ h ∧ tasks[i]? = some k
  met : t.pc = .ask .ready ∨ t.pc = .wait .ready ∨ t.pc = .ask .start →
    met (tasks[t.i]?.bind (·.startWith)) t.names = true
  hit : t.pc = .ask .stop → hit (tasks[t.i]?.bind (·.stopWith)) t.names = true

theorem met_append {o : Option String} {ns l : List String} (h : met o l = true) :
    met o (ns ++ l) = true := by
  cases o with
  | none => rfl
  | some n => simp only [met, List.contains_iff_mem] at h ⊢; simp [h]

theorem hit_append {o : Option String} {ns l : List String} (h : hit o l = true) :
    hit o (ns ++ l) = true := by
  cases o with
  | none => cases h
  | some n => simp only [hit, List.contains_iff_mem] at h ⊢; simp [h]

theorem next_ask_start {t : Option Task} {q : Q} {a : Ans} {l : Bool}
    (h : next t q a l = .ask .ready ∨ next t q a l = .ask .start) : q = .ready := by
  cases a with
  | closed => rcases h with h | h <;> cases h
  | reply ok st ps =>
    cases q with
    | ready => rfl
    | reset => rcases h with h | h <;> cases h
    | running =>
      simp only [next] at h
      split at h
      · rcases h with h | h <;> cases h
      · split at h <;> rcases h with h | h <;> cases h
    | start => rcases h with h | h <;> cases h
    | data => cases ps with
      | none => rcases h with h | h <;> cases h
      | some ps => cases ok <;> rcases h with h | h <;> cases h
    | status => simp only [next] at h; split at h <;> rcases h with h | h <;> cases h
    | stop => cases ps with
      | none => rcases h with h | h <;> cases h
      | some ps => cases ok <;> rcases h with h | h <;> cases h
    | final => cases ps with
      | none => rcases h with h | h <;> cases h
      | some ps => cases ok <;> rcases h with h | h <;> cases h

theorem next_ne_stop {t : Option Task} {q : Q} {a : Ans} {l : Bool} : next t q a l ≠ .ask .stop := by
  cases a with
  | closed => simp [next]
  | reply ok st ps =>
    cases q with
    | reset => simp [next]
    | running =>
      simp only [next]
      split
      · simp
      · split <;> simp
    | ready =>
      cases st with
      | none => simp [next]
      | some sd => simp only [next]; split <;> simp
    | start => simp [next]
    | data => cases ps with
      | none => simp [next, store]
      | some ps => cases ok <;> simp [next, store]
    | status => simp only [next]; split <;> simp
    | stop => cases ps with
      | none => simp [next, store]
      | some ps => cases ok <;> simp [next, store]
    | final => cases ps with
      | none => simp [next, store]
      | some ps => cases ok <;> simp [next, store]

theorem tcond {tasks : List Task} {h : List Ev} {t : Thr} (hh : THist tasks h t) :
    TCond tasks h t := by
  induction hh with
  | init => constructor <;> simp
  | push ns _ ih =>
    obtain ⟨h1, h2, h3⟩ := ih
    exact ⟨h1, fun h => met_append (h2 h), fun h => hit_append (h3 h)⟩
  | @step h t t' e c hh ha ih =>
    have htk := (tinv hh).tasks_eq
    obtain ⟨h1, h2, h3⟩ := ih
    obtain ⟨tk, i, pc, cur, names, noList, crashed, file⟩ := t
    obtain ⟨ans, late, due⟩ := c
    simp only at h1 h2 h3 htk
    subst htk
    have keep : ∀ k, cur = some k → ∃ i, .current i ∈ h ++ [e] ∧ tk[i]? = some k := by
      intro k hk
      obtain ⟨j, hj, hj'⟩ := h1 k hk
      exact ⟨j, by simp [hj], hj'⟩
    cases pc with
    | wait q =>
      simp only [tstep] at ha
      injection ha with ha; injection ha with ha1 ha2; subst ha1; subst ha2
      refine ⟨keep, ?_, fun h => absurd h next_ne_stop⟩
      rintro (hp | hp | hp)
      · have := next_ask_start (.inl hp); subst this; exact h2 (.inr (.inl rfl))
      · exact absurd hp (next_ne.2.2 _)
      · have := next_ask_start (.inr hp); subst this; exact h2 (.inr (.inl rfl))
    | cur =>
      simp only [tstep] at ha
      split at ha
      all_goals (injection ha with ha; injection ha with ha1 ha2; subst ha1; subst ha2)
      · exact ⟨keep, by simp, by simp⟩
      · rename_i k hk
        refine ⟨?_, by simp, by simp⟩
        intro k' hk'
        cases hk'
        exact ⟨i, by simp, hk⟩
    | hold =>
      simp only [tstep] at ha
      split at ha
      all_goals (injection ha with ha; injection ha with ha1 ha2; subst ha1; subst ha2)
      · rename_i hm
        exact ⟨keep, fun _ => hm, by simp⟩
      · exact ⟨keep, by simp, by simp⟩
    | ask q =>
      simp only [tstep] at ha
      injection ha with ha; injection ha with ha1 ha2; subst ha1; subst ha2
      refine ⟨keep, ?_, by simp⟩
      rintro (hp | hp | hp)
      · cases hp
      · injection hp with hp; subst hp; exact h2 (.inl rfl)
      · cases hp
    | due =>
      simp only [tstep] at ha
      injection ha with ha; injection ha with ha1 ha2; subst ha1; subst ha2
      cases due <;> exact ⟨keep, by simp, by simp⟩
    | trigger =>
      simp only [tstep] at ha
      split at ha
      all_goals (injection ha with ha; injection ha with ha1 ha2; subst ha1; subst ha2)
      · rename_i hm
        exact ⟨keep, by simp, fun _ => hm⟩
      · exact ⟨keep, by simp, by simp⟩
    | load ps n =>
      simp only [tstep] at ha
      split at ha
      all_goals (injection ha with ha; injection ha with ha1 ha2; subst ha1; subst ha2)
      all_goals exact ⟨keep, by simp, by simp⟩
    | trunc ps n =>
      simp only [tstep] at ha
      injection ha with ha; injection ha with ha1 ha2; subst ha1; subst ha2
      exact ⟨keep, by simp, by simp⟩
    | dump ps n =>
      simp only [tstep] at ha
      injection ha with ha; injection ha with ha1 ha2; subst ha1; subst ha2
      cases n <;> exact ⟨keep, by simp [Nxt.pc], by simp [Nxt.pc]⟩
    | append =>
      simp only [tstep] at ha
      split at ha
      all_goals (injection ha with ha; injection ha with ha1 ha2; subst ha1; subst ha2)
      all_goals exact ⟨keep, by simp, by simp⟩
    | unset =>
      simp only [tstep] at ha
      injection ha with ha; injection ha with ha1 ha2; subst ha1; subst ha2
      exact ⟨by simp, by simp, by simp⟩
    | crash =>
      simp only [tstep] at ha
      injection ha with ha; injection ha with ha1 ha2; subst ha1; subst ha2
      exact ⟨keep, by simp, by simp⟩
    | fin => cases ha
    | exited => cases ha
    | dead => cases ha

end Tomato.JobT
