import Verif.Xr

/-!
# C118: stored values keep their names, times and units

`Reading`: what a measurement says at one time.  The rows of the file of a role are those of all measurements, in
order.
-/

namespace Tomato.Props

open Tomato.Xr

variable {V : Type} [DecidableEq V]

/-! ### What a dataset says -/

/-- The value of a variable at the `i`-th time (a variable without the dimension `uts` has its value at
all times). -/
def Xr.valueAt (v : Var V) (i : Nat) : Option V :=
  match v.body with
  | .each vals => (vals[i]?).join
  | .once x => x

/-- The values at the `i`-th time, by the name of the variable, with their units. -/
def Xr.reading (d : Ds V) (i : Nat) (n : String) : Option (V × Option String) :=
  (Dict.get? d.vars n).bind (fun v => (Xr.valueAt v i).map (fun x => (x, v.unit)))

/-- All times, with the values. -/
def Xr.rows (d : Ds V) : List (Int × (String → Option (V × Option String))) :=
  d.uts.mapIdx (fun i t => (t, Xr.reading d i))

/-- The rows of nothing. -/
def Xr.rowsOf (d : Option (Ds V)) : List (Int × (String → Option (V × Option String))) :=
  match d with
  | none => []
  | some d => Xr.rows d

/-- The same without units. -/
def Xr.plainRows (d : Ds V) : List (Int × (String → Option V)) :=
  (Xr.rows d).map (fun r => (r.1, fun n => (r.2 n).map (·.1)))

/-- As many values as there are times. -/
def Xr.Regular (d : Ds V) : Prop :=
  ∀ n v, Dict.get? d.vars n = some v → ∀ vals, v.body = .each vals → vals.length = d.uts.length

/-! ### Lemmas about `concat` -/

theorem joinVars_get {mode : Mode} {na nb : Nat} {a b : Dict String (Var V)} {ns : List String}
    {d : Dict String (Var V)} (h : joinVars mode na nb a b ns = .ok d) (n : String) :
    if n ∈ ns then joinVar mode na nb (Dict.get? a n) (Dict.get? b n) = .ok (Dict.get? d n)
    else Dict.get? d n = none := by
  induction ns generalizing d with
  | nil => cases h; simp
  | cons m ns ih =>
    simp only [joinVars] at h
    split at h
    · cases h
    · next hj =>
      have := ih h
      by_cases hm : n = m
      · subst hm
        rw [if_pos List.mem_cons_self]
        split at this
        · exact this
        · rw [hj, this]
      · simpa [hm] using this
    · next v hj =>
      split at h
      · cases h
      · next d' hd' =>
        cases h
        have := ih hd'
        by_cases hm : n = m
        · subst hm
          rw [if_pos List.mem_cons_self, hj]
          simp [Dict.get?]
        · have hm' : ¬ m = n := fun e => hm e.symm
          simpa [hm, Dict.get?, hm'] using this

theorem get?_none_of_not_keys {α : Type} {d : Dict String α} {n : String} (h : n ∉ Dict.keys d) :
    Dict.get? d n = none := by
  induction d with
  | nil => rfl
  | cons x xs ih =>
    obtain ⟨k, v⟩ := x
    simp only [Dict.keys, List.map_cons, List.mem_cons, not_or] at h
    simp only [Dict.get?]
    rw [if_neg (fun e => h.1 e.symm)]
    exact ih h.2

/-- The variables of the result, one by one. -/
theorem concat_get {mode : Mode} {a b c : Ds V} (h : concat mode a b = .ok c) :
    c.uts = a.uts ++ b.uts ∧ c.attrs = a.attrs ∧
    ∀ n, joinVar mode a.uts.length b.uts.length (Dict.get? a.vars n) (Dict.get? b.vars n) =
      .ok (Dict.get? c.vars n) := by
  simp only [concat] at h
  split at h
  · cases h
  · next vs hv =>
    cases h
    refine ⟨rfl, rfl, fun n => ?_⟩
    have := joinVars_get hv n
    split at this
    · exact this
    · next hn =>
      simp only [List.mem_append, List.mem_filter, decide_eq_true_eq, not_or, not_and, Classical.not_not] at hn
      have hna := get?_none_of_not_keys hn.1
      have hnb : Dict.get? b.vars n = none := get?_none_of_not_keys (fun hb => hn.1 (hn.2 hb))
      rw [hna, hnb, this]
      rfl

theorem joinVars_ok {mode : Mode} {na nb : Nat} {a b : Dict String (Var V)} (ns : List String)
    (h : ∀ n, ∃ r, joinVar mode na nb (Dict.get? a n) (Dict.get? b n) = .ok r) :
    ∃ d, joinVars mode na nb a b ns = .ok d := by
  induction ns with
  | nil => exact ⟨_, rfl⟩
  | cons n ns ih =>
    obtain ⟨r, hr⟩ := h n
    obtain ⟨d, hd⟩ := ih
    simp only [joinVars, hr, hd]
    cases r <;> exact ⟨_, rfl⟩

theorem concat_ok {mode : Mode} {a b : Ds V}
    (h : ∀ n, ∃ r, joinVar mode a.uts.length b.uts.length (Dict.get? a.vars n) (Dict.get? b.vars n) = .ok r) :
    ∃ c, concat mode a b = .ok c := by
  obtain ⟨d, hd⟩ := joinVars_ok (Dict.keys a.vars ++
    (Dict.keys b.vars).filter (fun n => decide (n ∉ Dict.keys a.vars))) h
  simp only [concat, hd]
  exact ⟨_, rfl⟩

omit [DecidableEq V] in
theorem expand_get {n i : Nat} (hi : i < n) {v : Var V}
    (hv : ∀ vals, v.body = .each vals → vals.length = n) :
    ((v.body.expand n)[i]?).join = Xr.valueAt v i ∧ (v.body.expand n).length = n := by
  unfold Xr.valueAt
  cases hb : v.body with
  | each vals => exact ⟨rfl, hv vals hb⟩
  | once x => simp [Body.expand, hi]

/-- The row of the first part. -/
theorem joinVar_first {mode : Mode} {na nb i : Nat} {va vb r : Option (Var V)}
    (h : joinVar mode na nb va vb = .ok r) (hi : i < na)
    (hva : ∀ v, va = some v → ∀ vals, v.body = .each vals → vals.length = na)
    (hm : mode = .minimal → va = none → ∀ v, vb = some v → v.body.along = true) :
    (r.bind (fun v => (Xr.valueAt v i).map (fun x => (x, v.unit)))) =
      (va.bind (fun v => (Xr.valueAt v i).map (fun x => (x, v.unit)))) := by
  cases va with
  | none =>
    cases vb with
    | none => cases h; rfl
    | some vb =>
      simp only [joinVar] at h
      split at h
      · cases h; simp [Xr.valueAt, List.getElem?_append_left, hi]
      · next hc =>
        cases mode with
        | all => exact absurd (Or.inl rfl) hc
        | minimal => exact absurd (Or.inr (hm rfl rfl vb rfl)) hc
  | some va =>
    have h1 := fun vals hv => hva va rfl vals hv
    obtain ⟨h2, h3⟩ := expand_get hi h1
    cases vb with
    | none =>
      simp only [joinVar] at h
      split at h
      · cases h
        have : ∀ l, Xr.valueAt ({ body := .each (va.body.expand na ++ l), unit := va.unit } : Var V) i =
            Xr.valueAt va i := by
          intro l
          rw [← h2]
          simp only [Xr.valueAt]
          rw [List.getElem?_append_left (by omega)]
        simp [this]
      · cases h; rfl
    | some vb =>
      simp only [joinVar] at h
      split at h
      · cases h
        have : ∀ l, Xr.valueAt ({ body := .each (va.body.expand na ++ l), unit := va.unit } : Var V) i =
            Xr.valueAt va i := by
          intro l
          rw [← h2]
          simp only [Xr.valueAt]
          rw [List.getElem?_append_left (by omega)]
        simp [this]
      · split at h
        · cases h; rfl
        · cases h

/-- The row of the second part; `f` forgets or keeps the unit. -/
theorem joinVar_second {β : Type} {f : V × Option String → β} {mode : Mode} {na nb i : Nat}
    {va vb r : Option (Var V)}
    (h : joinVar mode na nb va vb = .ok r) (hi : i < nb)
    (hva : ∀ v, va = some v → ∀ vals, v.body = .each vals → vals.length = na)
    (hm : mode = .minimal → vb = none → ∀ v, va = some v → v.body.along = true)
    (hu : ∀ a b, va = some a → vb = some b → ∀ x, f (x, a.unit) = f (x, b.unit)) :
    (r.bind (fun v => (Xr.valueAt v (i + na)).map (fun x => f (x, v.unit)))) =
      (vb.bind (fun v => (Xr.valueAt v i).map (fun x => f (x, v.unit)))) := by
  have hb : ∀ v : Var V, ∀ l : List (Option V), l.length = na → ∀ u,
      Xr.valueAt ({ body := .each (l ++ v.body.expand nb), unit := u } : Var V) (i + na) =
      Xr.valueAt v i := by
    intro v l hl u
    simp only [Xr.valueAt]
    rw [List.getElem?_append_right (by omega)]
    rw [show i + na - l.length = i by omega]
    cases v.body with
    | each vals => rfl
    | once x => simp [Body.expand, hi]
  have hlen : ∀ v : Var V, va = some v → (v.body.expand na).length = na := by
    intro v hv
    cases hbv : v.body with
    | each vals => exact hva v hv vals hbv
    | once x => simp [Body.expand]
  cases va with
  | none =>
    cases vb with
    | none => cases h; rfl
    | some vb =>
      simp only [joinVar] at h
      split at h
      · cases h
        simp [hb vb _ (List.length_replicate)]
      · cases h
        next hc =>
        cases hbv : vb.body with
        | each vals => exact absurd (Or.inr (by rw [hbv]; rfl)) hc
        | once x => simp [Xr.valueAt, hbv]
  | some va =>
    cases vb with
    | none =>
      simp only [joinVar] at h
      split at h
      · cases h
        have := hlen va rfl
        simp only [Option.bind_some, Option.bind_none, Xr.valueAt]
        rw [List.getElem?_append_right (by omega)]
        simp [this, hi]
      · next hc =>
        cases mode with
        | all => exact absurd (Or.inl rfl) hc
        | minimal => exact absurd (Or.inr (hm rfl rfl va rfl)) hc
    | some vb =>
      simp only [joinVar] at h
      split at h
      · cases h
        simp only [Option.bind_some]
        rw [hb vb _ (hlen va rfl)]
        congr 1
        funext x
        exact hu va vb rfl rfl x
      · split at h
        · next hc he =>
          cases h
          simp only [Option.bind_some]
          have : ∀ k, Xr.valueAt va k = Xr.valueAt vb i := by
            intro k
            simp only [Xr.valueAt, he]
            cases hbv : vb.body with
            | each vals => exact absurd (Or.inr (Or.inr (by rw [hbv]; rfl))) hc
            | once x => rfl
          rw [this]
          congr 1
          funext x
          exact hu va vb rfl rfl x
        · cases h

/-- Rows with a view of the values. -/
def Xr.rowsWith {β : Type} (f : V × Option String → β) (d : Ds V) : List (Int × (String → Option β)) :=
  d.uts.mapIdx (fun i t => (t, fun n => (Dict.get? d.vars n).bind (fun v => (Xr.valueAt v i).map (fun x => f (x, v.unit)))))

omit [DecidableEq V] in
theorem rowsWith_id (d : Ds V) : Xr.rowsWith id d = Xr.rows d := rfl

omit [DecidableEq V] in
theorem rowsWith_fst (d : Ds V) : Xr.rowsWith (·.1) d = Xr.plainRows d := by
  unfold Xr.rowsWith Xr.plainRows Xr.rows
  apply List.ext_getElem
  · simp
  · intro i h1 h2
    simp only [List.getElem_mapIdx, List.getElem_map, Xr.reading]
    congr 1
    funext n
    cases Dict.get? d.vars n with
    | none => rfl
    | some v => simp [Option.map_map, Function.comp_def]

/-- `xr.concat` appends the rows (assumed in `Verif/Io.lean` and the models of the interfaces), under these
conditions: the units agree (as far as they are looked at), and with `"minimal"` no variable without the dimension
`uts` is missing in one of the two. -/
theorem concat_rows {β : Type} {f : V × Option String → β} {mode : Mode} {a b c : Ds V}
    (h : concat mode a b = .ok c) (ha : Xr.Regular a) (hb : Xr.Regular b)
    (hm : mode = .minimal → ∀ n, (∀ v, Dict.get? a.vars n = none → Dict.get? b.vars n = some v → v.body.along = true) ∧
      (∀ v, Dict.get? b.vars n = none → Dict.get? a.vars n = some v → v.body.along = true))
    (hu : ∀ n va vb, Dict.get? a.vars n = some va → Dict.get? b.vars n = some vb →
      ∀ x, f (x, va.unit) = f (x, vb.unit)) :
    Xr.rowsWith f c = Xr.rowsWith f a ++ Xr.rowsWith f b ∧ Xr.Regular c := by
  obtain ⟨h1, -, h3⟩ := concat_get h
  constructor
  · unfold Xr.rowsWith
    rw [h1, List.mapIdx_append]
    congr 1
    · rw [List.mapIdx_eq_mapIdx_iff]
      intro i hi
      congr 1
      funext n
      have := joinVar_first (h3 n) hi (fun v hv vals hb' => ha n v hv vals hb')
        (fun e hn v hv => (hm e n).1 v hn hv)
      have hf := congrArg (Option.map f) this
      simpa [Option.map_bind, Option.map_map, Function.comp_def] using hf
    · rw [List.mapIdx_eq_mapIdx_iff]
      intro i hi
      congr 1
      funext n
      exact joinVar_second (h3 n) hi (fun v hv vals hb' => ha n v hv vals hb')
        (fun e hn v hv => (hm e n).2 v hn hv) (fun va vb hva hvb x => hu n va vb hva hvb x)
  · intro n v hv vals hvals
    have hj := h3 n
    rw [hv] at hj
    rw [h1, List.length_append]
    have hla : ∀ w, Dict.get? a.vars n = some w → (w.body.expand a.uts.length).length = a.uts.length := by
      intro w hw
      cases hbw : w.body with
      | each l => exact ha n w hw l hbw
      | once x => simp [Body.expand]
    have hlb : ∀ w, Dict.get? b.vars n = some w → (w.body.expand b.uts.length).length = b.uts.length := by
      intro w hw
      cases hbw : w.body with
      | each l => exact hb n w hw l hbw
      | once x => simp [Body.expand]
    cases hga : Dict.get? a.vars n with
    | none =>
      cases hgb : Dict.get? b.vars n with
      | none => rw [hga, hgb] at hj; cases hj
      | some vb =>
        rw [hga, hgb] at hj
        simp only [joinVar] at hj
        split at hj
        · cases hj; cases hvals; simp [hlb vb hgb]
        · next hc =>
          cases hj
          exact absurd (Or.inr (by rw [hvals]; rfl)) hc
    | some va =>
      cases hgb : Dict.get? b.vars n with
      | none =>
        rw [hga, hgb] at hj
        simp only [joinVar] at hj
        split at hj
        · cases hj; cases hvals; simp [hla va hga]
        · next hc =>
          cases hj
          exact absurd (Or.inr (by rw [hvals]; rfl)) hc
      | some vb =>
        rw [hga, hgb] at hj
        simp only [joinVar] at hj
        split at hj
        · cases hj; cases hvals; simp [hla va hga, hlb vb hgb]
        · next hc =>
          split at hj
          · cases hj
            exact absurd (Or.inr (Or.inl (by rw [hvals]; rfl))) hc
          · cases hj

/-- The unit of a variable of the result is that of the first dataset which has it. -/
theorem concat_unit {mode : Mode} {a b c : Ds V} (h : concat mode a b = .ok c) (n : String) :
    (Dict.get? c.vars n).map (·.unit) =
      ((Dict.get? a.vars n).map (·.unit)).or ((Dict.get? b.vars n).map (·.unit)) := by
  have hj := (concat_get h).2.2 n
  generalize Dict.get? c.vars n = r at hj ⊢
  generalize Dict.get? a.vars n = va at hj ⊢
  generalize Dict.get? b.vars n = vb at hj ⊢
  cases va <;> cases vb <;> simp only [joinVar] at hj
  · cases hj; rfl
  · split at hj <;> cases hj <;> rfl
  · split at hj <;> cases hj <;> rfl
  · split at hj
    · cases hj; rfl
    · split at hj <;> cases hj; rfl

/-- `xr.concat` with `"all"` never raises; with `"minimal"` it raises exactly if a variable without the dimension `uts`
has different values. -/
theorem concat_raises (mode : Mode) (a b : Ds V) (e : PyErr) :
    concat mode a b = .error e ↔ e = .valueError ∧ mode = .minimal ∧
      ∃ n va vb x y, Dict.get? a.vars n = some va ∧ Dict.get? b.vars n = some vb ∧ va.body = .once x ∧
        vb.body = .once y ∧ x ≠ y := by
  have key : ∀ n e', joinVar mode a.uts.length b.uts.length (Dict.get? a.vars n) (Dict.get? b.vars n) = .error e' ↔
      e' = .valueError ∧ mode = .minimal ∧
      ∃ va vb x y, Dict.get? a.vars n = some va ∧ Dict.get? b.vars n = some vb ∧ va.body = .once x ∧
        vb.body = .once y ∧ x ≠ y := by
    intro n e'
    generalize Dict.get? a.vars n = va
    generalize Dict.get? b.vars n = vb
    cases va with
    | none =>
      cases vb with
      | none => simp [joinVar]
      | some vb => simp only [joinVar]; split <;> simp
    | some va =>
      cases vb with
      | none => simp only [joinVar]; split <;> simp
      | some vb =>
        obtain ⟨ba, ua⟩ := va
        obtain ⟨bb, ub⟩ := vb
        cases ba <;> cases bb <;> cases mode <;> simp [joinVar, Body.along]
        · split
          · next h => simp [h]
          · next h => simp [h, eq_comm]
  constructor
  · intro h
    simp only [concat] at h
    split at h
    · next e' hj =>
      cases h
      generalize Dict.keys a.vars ++ _ = ns at hj
      induction ns with
      | nil => cases hj
      | cons n ns ih =>
        simp only [joinVars] at hj
        split at hj
        · next e'' he =>
          cases hj
          obtain ⟨h1, h2, va, vb, x, y, h3⟩ := (key n _).mp he
          exact ⟨h1, h2, n, va, vb, x, y, h3⟩
        · exact ih hj
        · split at hj
          · next he => cases hj; exact ih he
          · cases hj
    · cases h
  · rintro ⟨rfl, rfl, n, va, vb, x, y, h3⟩
    have he := (key n .valueError).mpr ⟨rfl, rfl, va, vb, x, y, h3⟩
    cases hc : concat .minimal a b with
    | error e' =>
      rw [show e' = .valueError from ?_]
      simp only [concat] at hc
      split at hc
      · next e'' hj =>
        cases hc
        generalize Dict.keys a.vars ++ _ = ns at hj
        induction ns with
        | nil => cases hj
        | cons m ns ih =>
          simp only [joinVars] at hj
          split at hj
          · next e3 he3 => cases hj; exact ((key m _).mp he3).1
          · exact ih hj
          · split at hj
            · next he3 => cases hj; exact ih he3
            · cases hj
      · cases hc
    | ok c =>
      have := (concat_get hc).2.2 n
      rw [he] at this
      cases this

/-! ### The claim -/

/-- The measurements of a task. -/
def Xr.measurements : List (Ev V) → List (Ds V)
  | [] => []
  | .sample (some m) :: es => m :: Xr.measurements es
  | _ :: es => Xr.measurements es

/-- The measurements are of one kind: each variable has its unit, and either the dimension `uts` (then it
may be missing in some measurements), or one value which is the same in all of them. -/
structure Xr.Uniform (units : String → Option String) (consts : String → Option (Option V)) (d : Ds V) : Prop where
  regular : Xr.Regular d
  unit : ∀ n v, Dict.get? d.vars n = some v → v.unit = units n
  const : ∀ n v x, Dict.get? d.vars n = some v → v.body = .once x → consts n = some x
  present : ∀ n x, consts n = some x → ∃ v, Dict.get? d.vars n = some v ∧ v.body = .once x

/-- A dataset as it is in the file. -/
structure Xr.Filed (units : String → Option String) (role component : String) (d : Ds V) : Prop where
  regular : Xr.Regular d
  unit : ∀ n v, Dict.get? d.vars n = some v → v.unit = units n
  role : Dict.get? d.attrs "role" = some role
  component : Dict.get? d.attrs "tomato_Component" = some component

theorem unit_of_concat {units : String → Option String} {mode : Mode} {a b c : Ds V}
    (h : concat mode a b = .ok c) (ha : ∀ n v, Dict.get? a.vars n = some v → v.unit = units n)
    (hb : ∀ n v, Dict.get? b.vars n = some v → v.unit = units n) :
    ∀ n v, Dict.get? c.vars n = some v → v.unit = units n := by
  intro n v hv
  have := concat_unit h n
  rw [hv] at this
  cases hga : Dict.get? a.vars n with
  | some va => rw [hga] at this; simp at this; rw [this]; exact ha n va hga
  | none =>
    cases hgb : Dict.get? b.vars n with
    | some vb => rw [hga, hgb] at this; simp at this; rw [this]; exact hb n vb hgb
    | none => rw [hga, hgb] at this; cases this

/-- A further sample of the same kind. -/
theorem concat_uniform {units : String → Option String} {consts : String → Option (Option V)} {a b : Ds V}
    (ha : Xr.Uniform units consts a) (hb : Xr.Uniform units consts b) :
    ∃ c, concat .minimal a b = .ok c ∧ Xr.Uniform units consts c ∧ Xr.rows c = Xr.rows a ++ Xr.rows b := by
  cases hc : concat .minimal a b with
  | error e =>
    obtain ⟨-, -, n, va, vb, x, y, h1, h2, h3, h4, h5⟩ := (concat_raises _ _ _ _).mp hc
    have := (ha.const n va x h1 h3).symm.trans (hb.const n vb y h2 h4)
    exact absurd (Option.some.inj this) h5
  | ok c =>
    have hcase : ∀ n v, (Dict.get? a.vars n = none → Dict.get? b.vars n = some v → v.body.along = true) ∧
        (Dict.get? b.vars n = none → Dict.get? a.vars n = some v → v.body.along = true) := by
      intro n v
      constructor
      · intro hn hv
        cases hbv : v.body with
        | each l => rfl
        | once x =>
          obtain ⟨w, hw, -⟩ := ha.present n x (hb.const n v x hv hbv)
          rw [hn] at hw; cases hw
      · intro hn hv
        cases hbv : v.body with
        | each l => rfl
        | once x =>
          obtain ⟨w, hw, -⟩ := hb.present n x (ha.const n v x hv hbv)
          rw [hn] at hw; cases hw
    obtain ⟨h1, h2⟩ := concat_rows (f := id) hc ha.regular hb.regular
      (fun _ n => ⟨fun v => (hcase n v).1, fun v => (hcase n v).2⟩)
      (fun n va vb h1 h2 x => by rw [ha.unit n va h1, hb.unit n vb h2])
    refine ⟨c, rfl, ⟨h2, unit_of_concat hc ha.unit hb.unit, ?_, ?_⟩, h1⟩
    · intro n v x hv hbv
      have hj := (concat_get hc).2.2 n
      rw [hv] at hj
      cases hga : Dict.get? a.vars n with
      | none =>
        cases hgb : Dict.get? b.vars n with
        | none => rw [hga, hgb] at hj; cases hj
        | some vb =>
          rw [hga, hgb] at hj
          simp only [joinVar] at hj
          split at hj
          · cases hj; cases hbv
          · cases hj; exact hb.const n v x hgb hbv
      | some va =>
        cases hgb : Dict.get? b.vars n with
        | none =>
          rw [hga, hgb] at hj
          simp only [joinVar] at hj
          split at hj
          · cases hj; cases hbv
          · cases hj; exact ha.const n v x hga hbv
        | some vb =>
          rw [hga, hgb] at hj
          simp only [joinVar] at hj
          split at hj
          · cases hj; cases hbv
          · split at hj
            · cases hj; exact ha.const n v x hga hbv
            · cases hj
    · intro n x hx
      obtain ⟨va, hva, hba⟩ := ha.present n x hx
      obtain ⟨vb, hvb, hbb⟩ := hb.present n x hx
      have hj := (concat_get hc).2.2 n
      rw [hva, hvb] at hj
      simp only [joinVar] at hj
      rw [hba, hbb] at hj
      simp only [Body.along] at hj
      rw [if_neg (by simp), if_pos trivial] at hj
      exact ⟨va, (Except.ok.inj hj).symm, hba⟩

/-- Storing what has been fetched. -/
theorem toPickle_filed {units : String → Option String} {role component : String} {old : Option (Ds V)}
    {d : Ds V} (ho : ∀ o, old = some o → Xr.Filed units role component o) (hr : Xr.Regular d)
    (hd : ∀ n v, Dict.get? d.vars n = some v → v.unit = units n) :
    ∃ f, toPickle role component old d = .ok f ∧ Xr.Filed units role component f ∧
      Xr.rows f = Xr.rowsOf old ++ Xr.rows d := by
  cases old with
  | none =>
    refine ⟨_, rfl, ⟨hr, hd, ?_, ?_⟩, rfl⟩
    · simp
    · rw [Dict.get?_set_ne _ _ (by decide)]; simp
  | some o =>
    have h := ho o rfl
    simp only [toPickle]
    generalize hd' : ({ d with attrs := Dict.set (Dict.set d.attrs "tomato_Component" component) "role" role } : Ds V) = d'
    have e1 : d'.vars = d.vars := by rw [← hd']
    have e2 : d'.uts = d.uts := by rw [← hd']
    have hr' : Xr.Regular d' := by unfold Xr.Regular; rw [e1, e2]; exact hr
    have e3 : Xr.rows d' = Xr.rows d := by unfold Xr.rows Xr.reading; rw [e1, e2]
    cases hc : concat .all o d' with
    | error e => exact absurd ((concat_raises _ _ _ _).mp hc).2.1 (by decide)
    | ok f =>
      obtain ⟨h1, h2⟩ := concat_rows (f := id) hc h.regular hr' (by rintro ⟨⟩)
        (fun n va vb h1 h2 x => by rw [h.unit n va h1, hd n vb (e1 ▸ h2)])
      refine ⟨f, rfl, ⟨h2, unit_of_concat hc h.unit (by rw [e1]; exact hd), ?_, ?_⟩, ?_⟩
      · rw [(concat_get hc).2.1]; exact h.role
      · rw [(concat_get hc).2.1]; exact h.component
      · rw [rowsWith_id, rowsWith_id, rowsWith_id, e3] at h1
        exact h1

/-- **C118** (`_partial`: measurements of one kind, see `C118_refuted`, `C118_refuted_constant`,
`C118_refuted_missing`): whenever the samples are taken and the data is fetched, no sample fails, and the rows in the
file of the role, followed by those not fetched yet, are exactly the rows of all measurements, in order, with all their
names, times, values and units. -/
theorem C118_partial (role component : String) (units : String → Option String)
    (consts : String → Option (Option V)) (es : List (Ev V))
    (h : ∀ m ∈ Xr.measurements es, Xr.Uniform units consts m) :
    (run role component {} es).died = none ∧
    Xr.rowsOf (run role component {} es).file ++ Xr.rowsOf (run role component {} es).data =
      (Xr.measurements es).flatMap Xr.rows ∧
    ∀ f, (run role component {} es).file = some f →
      Dict.get? f.attrs "role" = some role ∧ Dict.get? f.attrs "tomato_Component" = some component := by
  have key : ∀ (es : List (Ev V)) (s : St V), (∀ m ∈ Xr.measurements es, Xr.Uniform units consts m) →
      s.died = none → (∀ d, s.data = some d → Xr.Uniform units consts d) →
      (∀ f, s.file = some f → Xr.Filed units role component f) →
      (run role component s es).died = none ∧
      Xr.rowsOf (run role component s es).file ++ Xr.rowsOf (run role component s es).data =
        Xr.rowsOf s.file ++ Xr.rowsOf s.data ++ (Xr.measurements es).flatMap Xr.rows ∧
      ∀ f, (run role component s es).file = some f → Xr.Filed units role component f := by
    intro es
    induction es with
    | nil => intro s _ h1 _ h3; exact ⟨h1, by simp [run, Xr.measurements], h3⟩
    | cons e es ih =>
      intro s hm h1 h2 h3
      have hrun : run role component s (e :: es) = run role component (step role component s e) es := rfl
      rw [hrun]
      obtain ⟨data, file, died⟩ := s
      simp only at h1 h2 h3
      subst h1
      cases e with
      | sample last =>
        simp only [step]
        cases last with
        | none =>
          have hdt : doTask data none = .ok data := by cases data <;> rfl
          simp only [hdt]
          exact ih _ hm rfl h2 h3
        | some m =>
          have hmu := hm m (by simp [Xr.measurements])
          cases data with
          | none =>
            obtain ⟨g1, g2, g3⟩ := ih { data := some m, file := file } (fun x hx => hm x (by simp [Xr.measurements, hx]))
              rfl (by rintro d ⟨⟩; exact hmu) h3
            simp only [doTask]
            refine ⟨g1, ?_, g3⟩
            rw [g2]
            simp [Xr.measurements, Xr.rowsOf]
          | some d =>
            obtain ⟨c, hc, hcu, hcr⟩ := concat_uniform (h2 d rfl) hmu
            obtain ⟨g1, g2, g3⟩ := ih { data := some c, file := file } (fun x hx => hm x (by simp [Xr.measurements, hx]))
              rfl (by rintro d ⟨⟩; exact hcu) h3
            simp only [doTask, hc]
            refine ⟨g1, ?_, g3⟩
            rw [g2]
            simp [Xr.measurements, Xr.rowsOf, hcr]
      | fetch =>
        have hm' : ∀ m ∈ Xr.measurements es, Xr.Uniform units consts m := hm
        simp only [step]
        cases data with
        | none =>
          exact ih _ hm' rfl h2 h3
        | some d =>
          have hdu := h2 d rfl
          obtain ⟨f, hf, hff, hfr⟩ := toPickle_filed h3 hdu.regular hdu.unit
          simp only [hf]
          obtain ⟨g1, g2, g3⟩ := ih { data := none, file := some f } hm' rfl (by rintro d ⟨⟩)
            (by rintro x ⟨⟩; exact hff)
          refine ⟨g1, ?_, g3⟩
          rw [g2]
          simp [Xr.measurements, Xr.rowsOf, hfr]
  obtain ⟨h1, h2, h3⟩ := key es {} h rfl (by rintro d ⟨⟩) (by rintro d ⟨⟩)
  refine ⟨h1, ?_, fun f hf => ⟨(h3 f hf).role, (h3 f hf).component⟩⟩
  rw [h2]
  simp [Xr.rowsOf]

/-- **C118**: after the data is fetched for the last time, the file has them all. -/
theorem C118_stored_partial (role component : String) (units : String → Option String)
    (consts : String → Option (Option V)) (es : List (Ev V))
    (h : ∀ m ∈ Xr.measurements es, Xr.Uniform units consts m) :
    Xr.rowsOf (run role component {} (es ++ [.fetch])).file = (Xr.measurements es).flatMap Xr.rows := by
  have hm : Xr.measurements (es ++ [.fetch]) = Xr.measurements es := by
    induction es with
    | nil => rfl
    | cons e es ih =>
      have := ih (fun m hm => h m (by
        cases e with
        | fetch => exact hm
        | sample l => cases l <;> simp [Xr.measurements, hm]))
      cases e with
      | fetch => exact this
      | sample l =>
        cases l with
        | none => exact this
        | some m => simp only [List.cons_append, Xr.measurements, this]
  have h1 := (C118_partial role component units consts (es ++ [.fetch]) (by rw [hm]; exact h))
  have hd : (run role component {} (es ++ [.fetch])).data = none := by
    unfold run
    rw [List.foldl_append]
    simp only [List.foldl_cons, List.foldl_nil, step]
    split
    · next h => exact h
    · split <;> rfl
  rw [← hm, ← h1.2.1, hd]
  simp [Xr.rowsOf]

/-! ### Values and units apart -/

/-- The same for nothing. -/
def Xr.plainOf (d : Option (Ds V)) : List (Int × (String → Option V)) :=
  match d with
  | none => []
  | some d => Xr.plainRows d

/-- Each variable has the dimension `uts`. -/
def Xr.Timed (d : Ds V) : Prop :=
  Xr.Regular d ∧ ∀ n v, Dict.get? d.vars n = some v → v.body.along = true

/-- The unit of a variable in the first measurement which has this variable. -/
def Xr.firstUnit (n : String) : List (Ds V) → Option (Option String)
  | [] => none
  | m :: ms => ((Dict.get? m.vars n).map (·.unit)).or (Xr.firstUnit n ms)

/-- The unit of a variable in nothing. -/
def Xr.unitOf (n : String) (d : Option (Ds V)) : Option (Option String) :=
  d.bind (fun d => (Dict.get? d.vars n).map (·.unit))

theorem concat_timed {a b : Ds V} (ha : Xr.Timed a) (hb : Xr.Timed b) :
    ∃ c, concat .minimal a b = .ok c ∧ Xr.Timed c ∧ Xr.plainRows c = Xr.plainRows a ++ Xr.plainRows b := by
  cases hc : concat .minimal a b with
  | error e =>
    obtain ⟨-, -, n, va, vb, x, y, h1, -, h3, -⟩ := (concat_raises _ _ _ _).mp hc
    have := ha.2 n va h1
    rw [h3] at this; cases this
  | ok c =>
    obtain ⟨h1, h2⟩ := concat_rows (f := (·.1)) hc ha.1 hb.1
      (fun _ n => ⟨fun v _ => hb.2 n v, fun v _ => ha.2 n v⟩) (fun _ _ _ _ _ _ => rfl)
    refine ⟨c, rfl, ⟨h2, ?_⟩, by rw [← rowsWith_fst, ← rowsWith_fst, ← rowsWith_fst]; exact h1⟩
    intro n v hv
    have hj := (concat_get hc).2.2 n
    rw [hv] at hj
    cases hga : Dict.get? a.vars n with
    | none =>
      cases hgb : Dict.get? b.vars n with
      | none => rw [hga, hgb] at hj; cases hj
      | some vb =>
        have := hb.2 n vb hgb
        rw [hga, hgb] at hj
        simp only [joinVar, this, or_true, if_true] at hj
        cases hj; rfl
    | some va =>
      have := ha.2 n va hga
      cases hgb : Dict.get? b.vars n with
      | none =>
        rw [hga, hgb] at hj
        simp only [joinVar, this, or_true, if_true] at hj
        cases hj; rfl
      | some vb =>
        rw [hga, hgb] at hj
        simp only [joinVar, this, true_or, or_true, if_true] at hj
        cases hj; rfl

theorem toPickle_timed (role component : String) {old : Option (Ds V)} {d : Ds V}
    (ho : ∀ o, old = some o → Xr.Regular o) (hd : Xr.Regular d) :
    ∃ f, toPickle role component old d = .ok f ∧ Xr.Regular f ∧
      Xr.plainRows f = Xr.plainOf old ++ Xr.plainRows d ∧
      ∀ n, Xr.unitOf n (some f) = (Xr.unitOf n old).or (Xr.unitOf n (some d)) := by
  cases old with
  | none => exact ⟨_, rfl, hd, rfl, fun n => by simp [Xr.unitOf]⟩
  | some o =>
    have h := ho o rfl
    simp only [toPickle]
    generalize hd' : ({ d with attrs := Dict.set (Dict.set d.attrs "tomato_Component" component) "role" role } : Ds V) = d'
    have e1 : d'.vars = d.vars := by rw [← hd']
    have e2 : d'.uts = d.uts := by rw [← hd']
    have hr' : Xr.Regular d' := by unfold Xr.Regular; rw [e1, e2]; exact hd
    have e3 : Xr.plainRows d' = Xr.plainRows d := by unfold Xr.plainRows Xr.rows Xr.reading; rw [e1, e2]
    cases hc : concat .all o d' with
    | error e => exact absurd ((concat_raises _ _ _ _).mp hc).2.1 (by decide)
    | ok f =>
      obtain ⟨h1, h2⟩ := concat_rows (f := (·.1)) hc h hr' (by rintro ⟨⟩) (fun _ _ _ _ _ _ => rfl)
      refine ⟨f, rfl, h2, ?_, ?_⟩
      · rw [rowsWith_fst, rowsWith_fst, rowsWith_fst, e3] at h1
        exact h1
      · intro n
        have := concat_unit hc n
        rw [e1] at this
        exact this

/-- **C118**, when each variable has the dimension `uts`, and whatever the units are: no sample fails, all times, names
and values are stored exactly as they were measured, and the unit of a variable is the one it had when it was first
measured. -/
theorem C118_values_partial (role component : String) (es : List (Ev V))
    (h : ∀ m ∈ Xr.measurements es, Xr.Timed m) :
    (run role component {} es).died = none ∧
    Xr.plainOf (run role component {} es).file ++ Xr.plainOf (run role component {} es).data =
      (Xr.measurements es).flatMap Xr.plainRows ∧
    ∀ n, (Xr.unitOf n (run role component {} es).file).or (Xr.unitOf n (run role component {} es).data) =
      Xr.firstUnit n (Xr.measurements es) := by
  have key : ∀ (es : List (Ev V)) (s : St V), (∀ m ∈ Xr.measurements es, Xr.Timed m) →
      s.died = none → (∀ d, s.data = some d → Xr.Timed d) → (∀ f, s.file = some f → Xr.Regular f) →
      (run role component s es).died = none ∧
      Xr.plainOf (run role component s es).file ++ Xr.plainOf (run role component s es).data =
        Xr.plainOf s.file ++ Xr.plainOf s.data ++ (Xr.measurements es).flatMap Xr.plainRows ∧
      ∀ n, (Xr.unitOf n (run role component s es).file).or (Xr.unitOf n (run role component s es).data) =
        ((Xr.unitOf n s.file).or (Xr.unitOf n s.data)).or (Xr.firstUnit n (Xr.measurements es)) := by
    intro es
    induction es with
    | nil => intro s _ h1 _ h3; exact ⟨h1, by simp [run, Xr.measurements], fun n => by simp [run, Xr.measurements, Xr.firstUnit]⟩
    | cons e es ih =>
      intro s hm h1 h2 h3
      have hrun : run role component s (e :: es) = run role component (step role component s e) es := rfl
      rw [hrun]
      obtain ⟨data, file, died⟩ := s
      simp only at h1 h2 h3
      subst h1
      cases e with
      | sample last =>
        simp only [step]
        cases last with
        | none =>
          have hdt : doTask data none = .ok data := by cases data <;> rfl
          simp only [hdt]
          exact ih _ hm rfl h2 h3
        | some m =>
          have hmu := hm m (by simp [Xr.measurements])
          cases data with
          | none =>
            obtain ⟨g1, g2, g3⟩ := ih { data := some m, file := file } (fun x hx => hm x (by simp [Xr.measurements, hx]))
              rfl (by rintro d ⟨⟩; exact hmu) h3
            simp only [doTask]
            refine ⟨g1, ?_, fun n => ?_⟩
            · rw [g2]
              simp [Xr.measurements, Xr.plainOf]
            · rw [g3 n]
              simp [Xr.measurements, Xr.unitOf, Xr.firstUnit, Option.or_assoc]
          | some d =>
            obtain ⟨c, hc, hcu, hcr⟩ := concat_timed (h2 d rfl) hmu
            obtain ⟨g1, g2, g3⟩ := ih { data := some c, file := file } (fun x hx => hm x (by simp [Xr.measurements, hx]))
              rfl (by rintro d ⟨⟩; exact hcu) h3
            simp only [doTask, hc]
            refine ⟨g1, ?_, fun n => ?_⟩
            · rw [g2]
              simp [Xr.measurements, Xr.plainOf, hcr]
            · rw [g3 n]
              simp [Xr.measurements, Xr.unitOf, Xr.firstUnit, Option.or_assoc, concat_unit hc n]
      | fetch =>
        have hm' : ∀ m ∈ Xr.measurements es, Xr.Timed m := hm
        simp only [step]
        cases data with
        | none => exact ih _ hm' rfl h2 h3
        | some d =>
          have hdu := h2 d rfl
          obtain ⟨f, hf, hff, hfr, hfu⟩ := toPickle_timed role component h3 hdu.1
          simp only [hf]
          obtain ⟨g1, g2, g3⟩ := ih { data := none, file := some f } hm' rfl (by rintro d ⟨⟩)
            (by rintro x ⟨⟩; exact hff)
          refine ⟨g1, ?_, fun n => ?_⟩
          · rw [g2]
            simp [Xr.measurements, Xr.plainOf, hfr]
          · rw [g3 n]
            simp only [hfu n]
            simp [Xr.measurements, Xr.unitOf]
  obtain ⟨h1, h2, h3⟩ := key es {} h rfl (by rintro d ⟨⟩) (by rintro d ⟨⟩)
  refine ⟨h1, ?_, fun n => ?_⟩
  · rw [h2]; simp [Xr.plainOf]
  · rw [h3 n]; simp [Xr.unitOf]

/-- **C118**, exactly when a sample ends the thread of the component: it has a variable without the dimension `uts`
whose value is not the one it had in the data not fetched yet.  Then the sample is not stored. -/
theorem C118_fails_exactly (role component : String) (s : St V) (last : Option (Ds V)) (h : s.died = none) :
    (step role component s (.sample last)).died ≠ none ↔
      ∃ d m n va vb x y, s.data = some d ∧ last = some m ∧ Dict.get? d.vars n = some va ∧
        Dict.get? m.vars n = some vb ∧ va.body = .once x ∧ vb.body = .once y ∧ x ≠ y := by
  obtain ⟨data, file, died⟩ := s
  simp only at h
  subst h
  simp only [step]
  cases data with
  | none => simp [doTask]
  | some d =>
    cases last with
    | none => simp [doTask]
    | some m =>
      simp only [doTask]
      cases hc : concat .minimal d m with
      | error e =>
        obtain ⟨-, -, n, va, vb, x, y, h⟩ := (concat_raises _ _ _ _).mp hc
        simp only [ne_eq, reduceCtorEq, not_false_iff, true_iff]
        exact ⟨d, m, n, va, vb, x, y, rfl, rfl, h⟩
      | ok c =>
        simp only [ne_eq, not_true_eq_false, false_iff]
        rintro ⟨d', m', n, va, vb, x, y, h1, h2, h⟩
        cases h1; cases h2
        have := (concat_raises .minimal d m .valueError).mpr ⟨rfl, rfl, n, va, vb, x, y, h⟩
        rw [hc] at this; cases this

/-! ### Cases -/

/-- a temperature at a time, with its unit -/
def Xr.temp (t : Int) (x : Nat) (u : String) : Ds Nat where
  uts := [t]
  vars := [("T", { body := .each [some x], unit := some u })]

/-- a temperature and a setting which is not recorded along the time -/
def Xr.tempSet (t : Int) (x y : Nat) : Ds Nat where
  uts := [t]
  vars := [("T", { body := .each [some x], unit := some "K" }), ("range", { body := .once (some y) })]

/-- Three samples, with a fetch in between. -/
def Xr.es1 : List (Ev Nat) :=
  [.sample (some (Xr.tempSet 1 300 5)), .sample (some (Xr.tempSet 2 301 5)), .fetch,
   .sample none, .sample (some (Xr.tempSet 3 302 5)), .fetch]

example : ∀ m ∈ Xr.measurements Xr.es1,
    Xr.Uniform (fun n => if n = "T" then some "K" else none) (fun n => if n = "range" then some (some 5) else none) m := by
  have key : ∀ t x, Xr.Uniform (fun n => if n = "T" then some "K" else none)
      (fun n => if n = "range" then some (some 5) else none) (Xr.tempSet t x 5) := by
    intro t x
    have hc : ∀ n v, Dict.get? (Xr.tempSet t x 5).vars n = some v →
        (n = "T" ∧ v = { body := .each [some x], unit := some "K" }) ∨ (n = "range" ∧ v = { body := .once (some 5) }) := by
      intro n v hv
      simp only [Xr.tempSet, Dict.get?] at hv
      split at hv
      · next e => cases hv; exact .inl ⟨e.symm, rfl⟩
      · split at hv
        · next e => cases hv; exact .inr ⟨e.symm, rfl⟩
        · cases hv
    refine ⟨?_, ?_, ?_, ?_⟩
    · intro n v hv vals hb
      rcases hc n v hv with ⟨-, rfl⟩ | ⟨-, rfl⟩
      · cases hb; rfl
      · cases hb
    · intro n v hv
      rcases hc n v hv with ⟨rfl, rfl⟩ | ⟨rfl, rfl⟩ <;> rfl
    · intro n v x' hv hb
      rcases hc n v hv with ⟨rfl, rfl⟩ | ⟨rfl, rfl⟩
      · cases hb
      · cases hb; rfl
    · intro n x' hx
      by_cases hn : n = "range"
      · subst hn
        simp only [if_true] at hx
        cases hx
        exact ⟨_, rfl, rfl⟩
      · simp [hn] at hx
  intro m hm
  simp only [Xr.es1, Xr.measurements, List.mem_cons, List.not_mem_nil, or_false] at hm
  rcases hm with rfl | rfl | rfl <;> exact key _ _

example : (run "A" "c" {} Xr.es1).died = none ∧
    ((run "A" "c" {} Xr.es1).file.map (fun f => (f.uts, Dict.get? f.vars "T", Dict.get? f.vars "range"))) =
      some ([1, 2, 3], some { body := .each [some 300, some 301, some 302], unit := some "K" },
        some { body := .each [some 5, some 5, some 5] }) := by decide

/-- **C118** is violated: a component which reports 300 K and then 20 degC; the file has 20, and says K. -/
theorem C118_refuted : ∃ (es : List (Ev Nat)) (f : Ds Nat),
    (run "A" "c" {} es).file = some f ∧ (run "A" "c" {} es).died = none ∧ (∀ m ∈ Xr.measurements es, Xr.Timed m) ∧
    (∃ m ∈ Xr.measurements es, m.uts = [2] ∧ Xr.reading m 0 "T" = some (20, some "degC")) ∧
    f.uts = [1, 2] ∧ Xr.reading f 1 "T" = some (20, some "K") := by
  refine ⟨[.sample (some (Xr.temp 1 300 "K")), .sample (some (Xr.temp 2 20 "degC")), .fetch], _, rfl, rfl, ?_,
    ⟨Xr.temp 2 20 "degC", by simp [Xr.measurements], rfl, rfl⟩, rfl, rfl⟩
  have key : ∀ t x u, Xr.Timed (Xr.temp t x u) := by
    intro t x u
    have hc : ∀ n v, Dict.get? (Xr.temp t x u).vars n = some v → v = { body := .each [some x], unit := some u } := by
      intro n v hv
      simp only [Xr.temp, Dict.get?] at hv
      split at hv
      · cases hv; rfl
      · cases hv
    refine ⟨?_, ?_⟩
    · intro n v hv vals hb
      cases hc n v hv; cases hb; rfl
    · intro n v hv
      cases hc n v hv; rfl
  intro m hm
  simp only [Xr.measurements, List.mem_cons, List.not_mem_nil, or_false] at hm
  rcases hm with rfl | rfl <;> exact key _ _ _

/-- **C118** is violated: the same three measurements, in which a value without the dimension `uts` changes.  If
the data is fetched just when it changes, all are stored.  Otherwise the second measurement ends the thread of
the component, and the second and third are lost. -/
theorem C118_refuted_constant : ∃ (es es' : List (Ev Nat)),
    Xr.measurements es = Xr.measurements es' ∧
    (run "A" "c" {} es).died = none ∧
    (run "A" "c" {} es).file.map (·.uts) = some [1, 2, 3] ∧
    (run "A" "c" {} es').died = some .valueError ∧
    (run "A" "c" {} es').file.map (·.uts) = some [1] := by
  refine ⟨[.sample (some (Xr.tempSet 1 300 5)), .fetch, .sample (some (Xr.tempSet 2 301 6)),
    .sample (some (Xr.tempSet 3 302 6)), .fetch],
    [.sample (some (Xr.tempSet 1 300 5)), .sample (some (Xr.tempSet 2 301 6)), .fetch,
    .sample (some (Xr.tempSet 3 302 6)), .fetch], rfl, ?_⟩
  decide

/-- **C118** is violated: a value without the dimension `uts` which is not reported in the second sample; the file
has it at the time of the second sample as well. -/
theorem C118_refuted_missing : ∃ (es : List (Ev Nat)) (f : Ds Nat),
    (run "A" "c" {} es).file = some f ∧ (run "A" "c" {} es).died = none ∧
    (∀ m ∈ Xr.measurements es, 2 ∈ m.uts → Xr.reading m 0 "range" = none) ∧
    f.uts = [1, 2] ∧ Xr.reading f 1 "range" = some (5, none) := by
  refine ⟨[.sample (some (Xr.tempSet 1 300 5)), .sample (some (Xr.temp 2 301 "K")), .fetch], _, rfl, rfl, ?_, rfl, rfl⟩
  intro m hm h2
  simp only [Xr.measurements, List.mem_cons, List.not_mem_nil, or_false] at hm
  rcases hm with rfl | rfl
  · exact absurd h2 (by decide)
  · rfl

end Tomato.Props
