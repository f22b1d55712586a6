import Verif.SparingEngine

/-!
# Programs whose operations depend on data read from a world that keeps an invariant

A logic for invariants that need to know that values read earlier were good: all programs only
ever read from worlds satisfying the invariant `I`, and only perform operations satisfying `A`.
-/

namespace Tomato

/-- All operations of the program satisfy `A`, if all answers come from worlds satisfying `I`; the
result then satisfies `Q`. -/
def Abides {α : Type} (I : World → Prop) (A : Op → Prop) (Q : α → Prop) : Prog DB α → Prop
  | .pure a => Q a
  | .raise _ => True
  | .op o k => A o ∧ ∀ w, I w → Abides I A Q (k (exec o w).1)

variable {I : World → Prop} {A : Op → Prop}

theorem abides_of_allow {α : Type} {Q : α → Prop} {p : Prog DB α} (h : Allow A Q p) :
    Abides I A Q p := by
  induction p with
  | pure a => exact h
  | raise e => trivial
  | op o k ih => exact ⟨h.1, fun w _ => ih _ (h.2 w)⟩

theorem abides_of_only {α : Type} {p : Prog DB α} (h : Prog.Only (S := DB) A p) :
    Abides I A (fun _ => True) p := abides_of_allow (allow_of_only h)

theorem abides_bind {α β : Type} {Q : α → Prop} {Q' : β → Prop} {p : Prog DB α}
    {f : α → Prog DB β} (hp : Abides I A Q p) (hf : ∀ a, Q a → Abides I A Q' (f a)) :
    Abides I A Q' (Prog.bind p f) := by
  induction p with
  | pure a => exact hf a hp
  | raise e => trivial
  | op o k ih => exact ⟨hp.1, fun w hw => ih _ (hp.2 w hw)⟩

theorem abides_forEach {β : Type} {xs : List β} {f : β → Prog DB Unit}
    (hf : ∀ x ∈ xs, Abides I A (fun _ => True) (f x)) :
    Abides I A (fun _ => True) (Prog.forEach xs f) := by
  induction xs with
  | nil => trivial
  | cons x xs ih =>
    exact abides_bind (hf x (by simp)) (fun _ _ => ih (fun y hy => hf y (by simp [hy])))

/-- Executions in which all commands started are of the kind `K`. -/
inductive StepsK (K : Cmd → Prop) (st : String) : Sys → Sys → Prop
  | refl (s : Sys) : StepsK K st s s
  | tail {s s' s'' : Sys} {a : Act} : StepsK K st s s' → act st s' a = some s'' →
      (∀ c, a = .spawn c → K c) → StepsK K st s s''

theorem StepsK.steps {K : Cmd → Prop} {st : String} {s s' : Sys} (h : StepsK K st s s') :
    Steps st s s' := by
  induction h with
  | refl => exact .refl _
  | tail _ ha _ ih => exact .tail ih ⟨_, ha⟩

/-- All programs of the system keep to the rules. -/
structure SysAbides (I : World → Prop) (A : Op → Prop) (s : Sys) : Prop where
  inv : I s.w
  jm : Abides I A (fun _ => True) s.jm
  others : ∀ p ∈ s.others, Abides I A (fun _ => True) p

theorem sysAbides_step {K : Cmd → Prop} {st : String} (hA : ∀ o w, I w → A o → I (exec o w).2)
    (henv : ∀ (e : EnvAct) w, I w → I (e.apply w))
    (hjm : ∀ d : Daemon, d.settings.storage = st → Abides I A (fun _ => True) (jobManagerPass d))
    (hcmd : ∀ c, K c → Abides I A (fun _ => True) c.prog)
    {s s' : Sys} {a : Act} (h0 : SysAbides I A s) (h : act st s a = some s')
    (ha : ∀ c, a = .spawn c → K c) : SysAbides I A s' := by
  obtain ⟨hi, hj, ho⟩ := h0
  cases a with
  | jmStart d =>
    simp only [act] at h
    split at h
    · next hd => cases h; exact ⟨hi, hjm d hd.2, ho⟩
    · cases h
  | jmStep =>
    simp only [act] at h
    split at h
    · next p w hp =>
      unfold stepProg at hp
      split at hp
      · next o k hk =>
        cases hp; cases h
        rw [hk] at hj
        exact ⟨hA o _ hi hj.1, hj.2 _ hi, ho⟩
      · cases hp
    · cases h
  | jmKill => cases h; exact ⟨hi, trivial, ho⟩
  | spawn c =>
    have key : ∀ p ∈ s.others ++ [c.prog], Abides I A (fun _ => True) p := by
      intro p hp
      rcases List.mem_append.mp hp with hp | hp
      · exact ho p hp
      · rw [List.mem_singleton.mp hp]; exact hcmd c (ha c rfl)
    simp only [act] at h
    split at h
    · cases h; exact ⟨hi, hj, key⟩
    · split at h
      · cases h; exact ⟨hi, hj, key⟩
      · cases h
  | step i =>
    simp only [act] at h
    split at h
    · cases h
    · next p hp =>
      split at h
      · next p' w hs =>
        unfold stepProg at hs
        split at hs
        · next o k =>
          cases hs; cases h
          have hmem := ho _ (List.mem_of_getElem? hp)
          refine ⟨hA o _ hi hmem.1, hj, fun q hq => ?_⟩
          rcases mem_set_of hq with hq | rfl
          · exact ho q hq
          · exact hmem.2 _ hi
        · cases hs
      · cases h
  | kill i =>
    cases h
    refine ⟨hi, hj, fun q hq => ?_⟩
    rcases mem_set_of hq with hq | rfl
    · exact ho q hq
    · trivial
  | env e => cases h; exact ⟨henv e _ hi, hj, ho⟩

theorem sysAbides_steps {K : Cmd → Prop} {st : String} (hA : ∀ o w, I w → A o → I (exec o w).2)
    (henv : ∀ (e : EnvAct) w, I w → I (e.apply w))
    (hjm : ∀ d : Daemon, d.settings.storage = st → Abides I A (fun _ => True) (jobManagerPass d))
    (hcmd : ∀ c, K c → Abides I A (fun _ => True) c.prog)
    {s s' : Sys} (h0 : SysAbides I A s) (h : StepsK K st s s') : SysAbides I A s' := by
  induction h with
  | refl => exact h0
  | tail _ ha hk ih => exact sysAbides_step hA henv hjm hcmd ih ha hk

end Tomato
