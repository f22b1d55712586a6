import Verif.Validate

/-!
# Properties of validation (C48, C49, C50)
-/

namespace Tomato.Props

/-! ## Specification -/

/-- `x ≤ y` for floating point numbers; nothing is below or above a value that is not a number. -/
def FltLe : Flt → Flt → Prop
  | .nan, _ => False
  | _, .nan => False
  | .ninf, _ => True
  | _, .pinf => True
  | .fin a, .fin b => a ≤ b
  | _, _ => False

/-- The dimension of a value, and its amount in base units. -/
def Amount : Val → String → Flt → Prop
  | .int i, d, x => d = "" ∧ x = .fin i
  | .flt f, d, x => d = "" ∧ x = f
  | .qty (.fin i) u, d, x => d = u.dim ∧ x = .fin (i * u.factor)
  | .qty m u, d, x => d = u.dim ∧ x = m
  | .str _, _, _ => False

/-- The number zero, without units. -/
def BareZero (v : Val) : Prop := v = .int 0 ∨ v = .flt (.fin 0)

/-- `a ≤ b`: both have the same dimension and the amount of `a` is at most that of `b`; or one of them is
zero without units and the other a quantity of that sign. -/
def ValLe (a b : Val) : Prop :=
  (∃ d x y, Amount a d x ∧ Amount b d y ∧ FltLe x y) ∨
  (∃ m u, a = .qty m u ∧ u.dim ≠ "" ∧ BareZero b ∧ FltLe m (.fin 0)) ∨
  (∃ m u, BareZero a ∧ b = .qty m u ∧ u.dim ≠ "" ∧ FltLe (.fin 0) m)

/-- The value lies between the limits, as far as there are any. -/
def Within (props : Attr) (v : Val) : Prop :=
  (∀ m, props.minimum = some m → ValLe m v) ∧ (∀ m, props.maximum = some m → ValLe v m)

/-- The value is of the type. -/
inductive OfType : Val → Ty → Prop where
  | str (x : String) : OfType (.str x) .str
  | int (i : Int) : OfType (.int i) .int
  | flt (x : Flt) : OfType (.flt x) .flt
  | qty (m : Flt) (u : PUnit) : OfType (.qty m u) .qty

/-- The value converted to the type of the attribute. -/
def Converted (conv : Ty → Val → Except PyErr Val) (props : Attr) (val v : Val) : Prop :=
  (OfType val props.type ∧ v = val) ∨ (¬ OfType val props.type ∧ conv props.type val = .ok v)

/-- The value in the units of the attribute: a number without units is taken to be in the units of
the attribute, any other quantity must have the right dimension. -/
inductive InUnits (props : Attr) : Val → Val → Prop where
  | plain (v : Val) : (∀ m u, v ≠ .qty m u) → InUnits props v v
  | bare (m : Flt) (u pu : PUnit) : u.dim = "" → props.units = some pu →
      InUnits props (.qty m u) (.qty m pu)
  | quantity (m : Flt) (u pu : PUnit) : u.dim ≠ "" → props.units = some pu → u.dim = pu.dim →
      InUnits props (.qty m u) (.qty m u)

/-- The parameter may be set, and `v` is the value to be applied. -/
def Acceptable (conv : Ty → Val → Except PyErr Val) (attrs : Dict String Attr) (attr : String)
    (val : Option Val) (v : Val) : Prop :=
  ∃ x props c, val = some x ∧ Dict.get? attrs attr = some props ∧ props.rw = true ∧
    Converted conv props x c ∧ (∀ os, props.options = some os → c ∈ os) ∧
    InUnits props c v ∧ Within props v

/-- Neither the value nor a limit is "not a number". -/
def Val.isNum : Val → Bool
  | .flt .nan => false
  | .qty .nan _ => false
  | _ => true

/-- The limits of an attribute are numbers. -/
def LimitsNum (props : Attr) : Prop :=
  (∀ m, props.minimum = some m → Val.isNum m = true) ∧
  (∀ m, props.maximum = some m → Val.isNum m = true)

/-! ## Lemmas -/

theorem lt_false_le {x y : Flt} (hx : x ≠ .nan) (hy : y ≠ .nan) : x.lt y = false ↔ FltLe y x := by
  cases x <;> cases y <;> simp_all [Flt.lt, FltLe]

theorem le_not_nan {x y : Flt} (h : FltLe x y) : x ≠ .nan ∧ y ≠ .nan := by
  cases x <;> cases y <;> simp_all [FltLe]

theorem scale_nan {k : Nat} {x : Flt} : x.scale k = .nan ↔ x = .nan := by
  cases x <;> simp [Flt.scale]

/-- The numbers compared are swapped when the values are. -/
theorem common_swap {a b : Val} {x y : Flt} (h : common a b = .ok (x, y)) :
    common b a = .ok (y, x) := by
  have key : ∀ (r : Except PyErr (Flt × Flt)),
      r.map (fun p => (p.2, p.1)) = .ok (x, y) → r = .ok (y, x) := by
    intro r h
    cases r with
    | error e => cases h
    | ok p => cases h; rfl
  cases a <;> cases b <;> simp only [common] at h ⊢
  all_goals first
    | (cases h; done)
    | (cases h; rfl)
    | exact key _ h
    | (rw [h]; rfl)
    | skip
  split at h
  · next e => cases h; rw [if_pos e.symm]
  · cases h

theorem common_num {a b : Val} {x y : Flt} (h : common a b = .ok (x, y))
    (ha : Val.isNum a = true) (hb : Val.isNum b = true) : x ≠ .nan ∧ y ≠ .nan := by
  have key : ∀ (m : Flt) (u : PUnit) (n x y : Flt), common.qn m u n = .ok (x, y) →
      m ≠ .nan → n ≠ .nan → x ≠ .nan ∧ y ≠ .nan := by
    intro m u n x y h hm hn
    unfold common.qn at h
    split at h
    · cases h; exact ⟨fun e => hm (scale_nan.mp e), hn⟩
    · split at h
      · cases h; exact ⟨hm, hn⟩
      · cases h
  have hf : ∀ f : Flt, Val.isNum (.flt f) = true → f ≠ .nan := by
    intro f h e; subst e; cases h
  have hq : ∀ (f : Flt) u, Val.isNum (.qty f u) = true → f ≠ .nan := by
    intro f u h e; subst e; cases h
  cases a <;> cases b <;> simp only [common] at h
  all_goals try (cases h; done)
  · cases h; simp
  · cases h; exact ⟨by simp, hf _ hb⟩
  · simp only [Except.map] at h
    split at h
    · cases h
    · next p hp =>
      cases h
      have := key _ _ _ _ _ hp (hq _ _ hb) (by simp)
      exact ⟨this.2, this.1⟩
  · cases h; exact ⟨hf _ ha, by simp⟩
  · cases h; exact ⟨hf _ ha, hf _ hb⟩
  · simp only [Except.map] at h
    split at h
    · cases h
    · next p hp =>
      cases h
      have := key _ _ _ _ _ hp (hq _ _ hb) (hf _ ha)
      exact ⟨this.2, this.1⟩
  · exact key _ _ _ _ _ h (hq _ _ ha) (by simp)
  · exact key _ _ _ _ _ h (hq _ _ ha) (hf _ hb)
  · split at h
    · cases h
      exact ⟨fun e => hq _ _ ha (scale_nan.mp e), fun e => hq _ _ hb (scale_nan.mp e)⟩
    · cases h

theorem amount_qty {m : Flt} {u : PUnit} {d : String} {x : Flt} :
    Amount (.qty m u) d x ↔ d = u.dim ∧ x = m.scale u.factor := by
  cases m <;> simp [Amount, Flt.scale]

theorem qn_iff {m : Flt} {u : PUnit} {n x y : Flt} : common.qn m u n = .ok (x, y) ↔
    (u.dim = "" ∧ x = m.scale u.factor ∧ y = n) ∨
    (u.dim ≠ "" ∧ (n = .fin 0 ∨ n = .nan) ∧ x = m ∧ y = n) := by
  unfold common.qn
  split
  · next h =>
    simp only [Except.ok.injEq, Prod.mk.injEq, h, true_and, ne_eq, not_true, false_and, or_false]
    exact ⟨fun ⟨a, b⟩ => ⟨a.symm, b.symm⟩, fun ⟨a, b⟩ => ⟨a.symm, b.symm⟩⟩
  · next h =>
    split
    · next h' =>
      simp only [Except.ok.injEq, Prod.mk.injEq, h, false_and, ne_eq, not_false_eq_true, h', true_and, false_or]
      exact ⟨fun ⟨a, b⟩ => ⟨a.symm, b.symm⟩, fun ⟨a, b⟩ => ⟨a.symm, b.symm⟩⟩
    · next h' => simp [h, h']

theorem map_swap_iff {r : Except PyErr (Flt × Flt)} {x y : Flt} :
    r.map (fun p => (p.2, p.1)) = .ok (x, y) ↔ r = .ok (y, x) := by
  cases r with
  | error e => simp [Except.map]
  | ok p =>
    obtain ⟨a, b⟩ := p
    simp [Except.map, and_comm]

theorem valLe_iff {a b : Val} : ValLe a b ↔ ∃ x y, common a b = .ok (x, y) ∧ FltLe x y := by
  have nz : ∀ {n : Flt}, ¬ FltLe n .nan := by intro n; cases n <;> simp [FltLe]
  have nz' : ∀ {n : Flt}, ¬ FltLe .nan n := by intro n; cases n <;> simp [FltLe]
  have ez : ∀ i : Int, BareZero (.int i) ↔ Flt.fin i = .fin 0 := by simp [BareZero]
  have fz : ∀ f, BareZero (.flt f) ↔ f = .fin 0 := by simp [BareZero]
  have qz : ∀ m u, ¬ BareZero (.qty m u) := by simp [BareZero]
  have qn' : ∀ (m : Flt) (u : PUnit) (n : Flt) (P : Flt → Flt → Prop),
      (∀ {n}, ¬ P n .nan) → ((∃ x y, common.qn m u n = .ok (x, y) ∧ P x y) ↔
        (u.dim = "" ∧ P (m.scale u.factor) n) ∨ (u.dim ≠ "" ∧ n = .fin 0 ∧ P m (.fin 0))) := by
    intro m u n P hP
    simp only [qn_iff]
    constructor
    · rintro ⟨x, y, ⟨h, rfl, rfl⟩ | ⟨h, rfl | rfl, rfl, rfl⟩, hp⟩
      · exact .inl ⟨h, hp⟩
      · exact .inr ⟨h, rfl, hp⟩
      · exact absurd hp hP
    · rintro (⟨h, hp⟩ | ⟨h, rfl, hp⟩)
      · exact ⟨_, _, .inl ⟨h, rfl, rfl⟩, hp⟩
      · exact ⟨_, _, .inr ⟨h, .inl rfl, rfl, rfl⟩, hp⟩
  have ai : ∀ i d x, Amount (.int i) d x ↔ d = "" ∧ x = .fin i := fun _ _ _ => Iff.rfl
  have af : ∀ f d x, Amount (.flt f) d x ↔ d = "" ∧ x = f := fun _ _ _ => Iff.rfl
  have as : ∀ t d x, ¬ Amount (.str t) d x := fun _ _ _ h => h
  have sz : ∀ t, ¬ BareZero (.str t) := by simp [BareZero]
  unfold ValLe
  cases a with
  | str t => cases b <;> simp [as, sz, common]
  | int i =>
    cases b with
    | str t => simp [as, sz, common]
    | int j =>
      simp only [ai, common, Except.ok.injEq, Prod.mk.injEq, reduceCtorEq,
        false_and, and_false, exists_false, or_false]
      constructor
      · rintro ⟨d, x, y, ⟨_, hx⟩, ⟨_, hy⟩, h⟩
        exact ⟨x, y, ⟨hx.symm, hy.symm⟩, h⟩
      · rintro ⟨x, y, ⟨hx, hy⟩, h⟩
        exact ⟨"", x, y, ⟨rfl, hx.symm⟩, ⟨rfl, hy.symm⟩, h⟩
    | flt f =>
      simp only [ai, af, common, Except.ok.injEq, Prod.mk.injEq, reduceCtorEq,
        false_and, and_false, exists_false, or_false]
      constructor
      · rintro ⟨d, x, y, ⟨_, hx⟩, ⟨_, hy⟩, h⟩
        exact ⟨x, y, ⟨hx.symm, hy.symm⟩, h⟩
      · rintro ⟨x, y, ⟨hx, hy⟩, h⟩
        exact ⟨"", x, y, ⟨rfl, hx.symm⟩, ⟨rfl, hy.symm⟩, h⟩
    | qty m u =>
      have := qn' m u (.fin i) (fun x y => FltLe y x) nz'
      simp only [common, map_swap_iff]
      have this := exists_comm.trans this
      rw [this]
      simp only [ai, amount_qty, ez]
      constructor
      · rintro (⟨d, x, y, ⟨h1, h2⟩, ⟨h3, h4⟩, h5⟩ | ⟨m', u', h, _⟩ | ⟨m', u', h1, h2, h3, h4⟩)
        · subst h2 h4 h1; exact .inl ⟨h3.symm, h5⟩
        · cases h
        · cases h2; exact .inr ⟨h3, h1, h4⟩
      · rintro (⟨h1, h2⟩ | ⟨h1, h2, h3⟩)
        · exact .inl ⟨_, _, _, ⟨rfl, rfl⟩, ⟨h1.symm, rfl⟩, h2⟩
        · exact .inr (.inr ⟨m, u, h2, rfl, h1, h3⟩)
  | flt f =>
    cases b with
    | str t => simp [as, sz, common]
    | int j =>
      simp only [ai, af, common, Except.ok.injEq, Prod.mk.injEq, reduceCtorEq,
        false_and, and_false, exists_false, or_false]
      constructor
      · rintro ⟨d, x, y, ⟨_, hx⟩, ⟨_, hy⟩, h⟩
        exact ⟨x, y, ⟨hx.symm, hy.symm⟩, h⟩
      · rintro ⟨x, y, ⟨hx, hy⟩, h⟩
        exact ⟨"", x, y, ⟨rfl, hx.symm⟩, ⟨rfl, hy.symm⟩, h⟩
    | flt f =>
      simp only [af, common, Except.ok.injEq, Prod.mk.injEq, reduceCtorEq,
        false_and, and_false, exists_false, or_false]
      constructor
      · rintro ⟨d, x, y, ⟨_, hx⟩, ⟨_, hy⟩, h⟩
        exact ⟨x, y, ⟨hx.symm, hy.symm⟩, h⟩
      · rintro ⟨x, y, ⟨hx, hy⟩, h⟩
        exact ⟨"", x, y, ⟨rfl, hx.symm⟩, ⟨rfl, hy.symm⟩, h⟩
    | qty m u =>
      have := qn' m u f (fun x y => FltLe y x) nz'
      simp only [common, map_swap_iff]
      have this := exists_comm.trans this
      rw [this]
      simp only [af, amount_qty, fz]
      constructor
      · rintro (⟨d, x, y, ⟨h1, h2⟩, ⟨h3, h4⟩, h5⟩ | ⟨m', u', h, _⟩ | ⟨m', u', h1, h2, h3, h4⟩)
        · subst h2 h4 h1; exact .inl ⟨h3.symm, h5⟩
        · cases h
        · cases h2; exact .inr ⟨h3, h1, h4⟩
      · rintro (⟨h1, h2⟩ | ⟨h1, h2, h3⟩)
        · exact .inl ⟨_, _, _, ⟨rfl, rfl⟩, ⟨h1.symm, rfl⟩, h2⟩
        · exact .inr (.inr ⟨m, u, h2, rfl, h1, h3⟩)
  | qty m u =>
    cases b with
    | str t => simp [as, sz, common]
    | int j =>
      have := qn' m u (.fin j) FltLe nz
      simp only [common]
      rw [this]
      simp only [ai, amount_qty, ez]
      constructor
      · rintro (⟨d, x, y, ⟨h1, h2⟩, ⟨h3, h4⟩, h5⟩ | ⟨m', u', h1, h2, h3, h4⟩ | ⟨m', u', _, h, _⟩)
        · subst h2 h4 h3; exact .inl ⟨h1.symm, h5⟩
        · cases h1; exact .inr ⟨h2, h3, h4⟩
        · cases h
      · rintro (⟨h1, h2⟩ | ⟨h1, h2, h3⟩)
        · exact .inl ⟨_, _, _, ⟨h1.symm, rfl⟩, ⟨rfl, rfl⟩, h2⟩
        · exact .inr (.inl ⟨m, u, rfl, h1, h2, h3⟩)
    | flt f =>
      have := qn' m u f FltLe nz
      simp only [common]
      rw [this]
      simp only [af, amount_qty, fz]
      constructor
      · rintro (⟨d, x, y, ⟨h1, h2⟩, ⟨h3, h4⟩, h5⟩ | ⟨m', u', h1, h2, h3, h4⟩ | ⟨m', u', _, h, _⟩)
        · subst h2 h4 h3; exact .inl ⟨h1.symm, h5⟩
        · cases h1; exact .inr ⟨h2, h3, h4⟩
        · cases h
      · rintro (⟨h1, h2⟩ | ⟨h1, h2, h3⟩)
        · exact .inl ⟨_, _, _, ⟨h1.symm, rfl⟩, ⟨rfl, rfl⟩, h2⟩
        · exact .inr (.inl ⟨m, u, rfl, h1, h2, h3⟩)
    | qty n v =>
      simp only [common, amount_qty, qz, false_and, and_false, exists_false, or_false]
      constructor
      · rintro ⟨d, x, y, ⟨h1, h2⟩, ⟨h3, h4⟩, h5⟩
        subst h2 h4
        rw [if_pos (h1.symm.trans h3)]
        exact ⟨_, _, rfl, h5⟩
      · rintro ⟨x, y, h, h5⟩
        split at h
        · next e => cases h; exact ⟨_, _, _, ⟨rfl, rfl⟩, ⟨e, rfl⟩, h5⟩
        · cases h

theorem below_iff {v : Val} {o : Option Val} (hv : Val.isNum v = true)
    (ho : ∀ m, o = some m → Val.isNum m = true) :
    below v o = .ok false ↔ ∀ m, o = some m → ValLe m v := by
  cases o with
  | none => simp [below]
  | some m =>
    simp only [below, ltVal, Option.some.injEq, forall_eq']
    constructor
    · intro h
      cases hc : common v m with
      | error e => rw [hc] at h; cases h
      | ok p =>
        rw [hc] at h
        simp only [Except.map, Except.ok.injEq] at h
        have hn := common_num hc hv (ho m rfl)
        exact valLe_iff.mpr ⟨p.2, p.1, common_swap hc, (lt_false_le hn.1 hn.2).mp h⟩
    · intro hx
      obtain ⟨x, y, hc, hle⟩ := valLe_iff.mp hx
      have hc' := common_swap hc
      have hn := le_not_nan hle
      rw [hc']
      simp only [Except.map, Except.ok.injEq]
      exact (lt_false_le hn.2 hn.1).mpr hle

theorem above_iff {v : Val} {o : Option Val} (hv : Val.isNum v = true)
    (ho : ∀ m, o = some m → Val.isNum m = true) :
    above v o = .ok false ↔ ∀ m, o = some m → ValLe v m := by
  cases o with
  | none => simp [above]
  | some m =>
    simp only [above, ltVal, Option.some.injEq, forall_eq']
    constructor
    · intro h
      cases hc : common m v with
      | error e => rw [hc] at h; cases h
      | ok p =>
        rw [hc] at h
        simp only [Except.map, Except.ok.injEq] at h
        have hn := common_num hc (ho m rfl) hv
        exact valLe_iff.mpr ⟨p.2, p.1, common_swap hc, (lt_false_le hn.1 hn.2).mp h⟩
    · intro hx
      obtain ⟨x, y, hc, hle⟩ := valLe_iff.mp hx
      have hc' := common_swap hc
      have hn := le_not_nan hle
      rw [hc']
      simp only [Except.map, Except.ok.injEq]
      exact (lt_false_le hn.2 hn.1).mpr hle

theorem withUnits_iff {props : Attr} {c v : Val} :
    withUnits props c = .ok (some v) ↔ InUnits props c v := by
  constructor
  · intro h
    cases c with
    | qty m u =>
      simp only [withUnits] at h
      split at h
      · cases h
      · next pu hpu =>
        by_cases hu : u.dim = ""
        · simp only [hu, if_true] at h
          cases h
          exact .bare m u pu hu hpu
        · simp only [hu, if_false] at h
          split at h
          · next hd => cases h; exact .quantity m u pu hu hpu hd
          · cases h
    | _ => cases h; exact .plain _ (by intros; simp)
  · intro h
    cases h with
    | plain _ h => cases c <;> first | rfl | exact absurd rfl (h _ _)
    | bare m u pu hu hpu => simp [withUnits, hu, hpu]
    | quantity m u pu hu hpu hd => simp only [withUnits, hpu, if_neg hu, if_pos hd]

theorem isInst_iff {v : Val} {t : Ty} : v.isInst t = true ↔ OfType v t := by
  constructor
  · intro h
    cases v <;> cases t <;> first | constructor | cases h
  · intro h
    cases h <;> rfl

theorem converted_iff {conv : Ty → Val → Except PyErr Val} {props : Attr} {val c : Val} :
    (if val.isInst props.type then .ok val else conv props.type val) = .ok c ↔
      Converted conv props val c := by
  unfold Converted
  rw [← isInst_iff]
  cases h : val.isInst props.type <;> simp [eq_comm]

/-- The value which is applied is a number, if the conversion yields one. -/
theorem inUnits_num {props : Attr} {c v : Val} (h : InUnits props c v) :
    Val.isNum v = Val.isNum c := by
  cases h with
  | plain _ => rfl
  | bare m u pu _ _ => cases m <;> rfl
  | quantity m u pu _ _ _ => rfl

/-- What `coerce_val` accepts. -/
theorem coerceVal_iff {conv : Ty → Val → Except PyErr Val} {attrs : Dict String Attr}
    {attr : String} {val : Option Val} {v : Val}
    (hlim : ∀ props, Dict.get? attrs attr = some props → LimitsNum props)
    (hnum : Val.isNum v = true) :
    coerceVal conv attrs attr val = .ok v ↔ Acceptable conv attrs attr val v := by
  constructor
  · intro h
    cases val with
    | none => cases h
    | some x =>
      simp only [coerceVal] at h
      split at h
      · cases h
      · next props hp =>
        split at h
        · cases h
        · next hrw =>
          split at h
          · cases h
          · next c hc =>
            split at h
            · cases h
            · next hopt =>
              split at h
              · cases h
              · cases h
              · next v' hu =>
                split at h
                · cases h
                · cases h
                · next hb =>
                  split at h
                  · cases h
                  · cases h
                  · next ha =>
                    cases h
                    refine ⟨x, props, c, rfl, hp, by simpa using hrw, converted_iff.mp hc, ?_,
                      withUnits_iff.mp hu, (below_iff hnum (hlim props hp).1).mp hb,
                      (above_iff hnum (hlim props hp).2).mp ha⟩
                    intro os hos
                    rw [hos] at hopt
                    simpa using hopt
  · rintro ⟨x, props, c, rfl, hp, hrw, hc, hopt, hu, hb, ha⟩
    have hopt' : (props.options.any (fun os => !os.contains c)) = false := by
      cases ho : props.options with
      | none => rfl
      | some os => simpa using hopt os ho
    simp only [coerceVal, hp, hrw, Bool.not_true, Bool.false_eq_true, if_false,
      converted_iff.mpr hc, hopt', withUnits_iff.mpr hu,
      (below_iff hnum (hlim props hp).1).mpr hb, (above_iff hnum (hlim props hp).2).mpr ha]

/-- `task_validate` lets a parameter pass exactly when `coerce_val` does. -/
theorem checkParam_coerce {conv : Ty → Val → Except PyErr Val} {attrs : Dict String Attr}
    {attr : String} {val : Option Val} :
    checkParam conv attrs attr val = .ok none ↔ ∃ v, coerceVal conv attrs attr val = .ok v := by
  cases val with
  | none => simp [checkParam, coerceVal]
  | some x =>
    simp only [checkParam, coerceVal]
    split
    · simp
    · next props hp =>
      split
      · simp
      · split
        · next h => simp [h]
        · next h => simp [h]
        · next e _ _ h => simp [h]
        · next c hc =>
          simp only [hc]
          split
          · simp
          · split
            · simp
            · simp
            · split
              · simp
              · simp
              · split
                · simp
                · simp
                · simp

theorem checkParams_iff {conv : Ty → Val → Except PyErr Val} {attrs : Dict String Attr}
    {ps : List (String × Option Val)} :
    (∃ m, checkParams conv attrs ps = .ok m ∧ m.success = true) ↔
      ∀ p ∈ ps, ∃ v, coerceVal conv attrs p.1 p.2 = .ok v := by
  induction ps with
  | nil => simp [checkParams, VMsg.success]
  | cons p ps ih =>
    obtain ⟨a, val⟩ := p
    simp only [checkParams, List.mem_cons, forall_eq_or_imp]
    have hc := checkParam_coerce (conv := conv) (attrs := attrs) (attr := a) (val := val)
    split
    · next e h =>
      rw [h] at hc
      constructor
      · rintro ⟨m, h, _⟩; cases h
      · rintro ⟨h, _⟩; exact absurd (hc.mpr h) (by simp)
    · next m h =>
      rw [h] at hc
      constructor
      · rintro ⟨m', h', hs⟩
        cases h'
        have hm : m.success = false := by
          unfold checkParam at h
          repeat' split at h
          all_goals first | (cases h; rfl) | (cases h; done)
        rw [hm] at hs
        cases hs
      · rintro ⟨h, _⟩; exact absurd (hc.mpr h) (by simp)
    · next h =>
      rw [h] at hc
      rw [ih]
      exact ⟨fun hr => ⟨hc.mp rfl, hr⟩, fun hr => hr.2⟩

/-! ## C48 -/

/-- The outcome of `task_validate` is a successful reply. -/
def Accepted (r : Except PyErr VMsg) : Prop := ∃ m, r = .ok m ∧ m.success = true

/-- **C48** (`_partial`: if no converted value and no limit is "not a number", and for interface
2.1; see `C48_refuted` and `C48_refuted_interface_2_0`): a task is accepted exactly when the
component is capable of it and every parameter names a writable attribute and carries a value that
is not `None`, converts to the type of the attribute, is among the options, has the right units
and lies within the limits. -/
theorem C48_validate_exact_partial (conv : Ty → Val → Except PyErr Val) (caps : List String)
    (attrs : Dict String Attr) (technique : String) (ps : List (String × Option Val))
    (hlim : ∀ a props, Dict.get? attrs a = some props → LimitsNum props)
    (hnum : ∀ p ∈ ps, ∀ x props c, p.2 = some x → Dict.get? attrs p.1 = some props →
      Converted conv props x c → Val.isNum c = true) :
    Accepted (taskValidate conv caps attrs technique (some ps)) ↔
      technique ∈ caps ∧ ∀ p ∈ ps, ∃ v, Acceptable conv attrs p.1 p.2 v := by
  unfold taskValidate Accepted
  by_cases hcap : technique ∈ caps
  · simp only [hcap, not_true_eq_false, if_false, true_and]
    rw [checkParams_iff]
    refine forall_congr' fun p => forall_congr' fun hp => ?_
    constructor
    · rintro ⟨v, hv⟩
      refine ⟨v, (coerceVal_iff (hlim p.1) ?_).mp hv⟩
      cases hval : p.2 with
      | none => rw [hval] at hv; cases hv
      | some x =>
        rw [hval] at hv
        simp only [coerceVal] at hv
        split at hv
        · cases hv
        · next props hg =>
          split at hv
          · cases hv
          · split at hv
            · cases hv
            · next c hc =>
              split at hv
              · cases hv
              · split at hv
                · cases hv
                · cases hv
                · next v' hu =>
                  split at hv
                  · cases hv
                  · cases hv
                  · split at hv
                    · cases hv
                    · cases hv
                    · cases hv
                      rw [inUnits_num (withUnits_iff.mp hu)]
                      exact hnum p hp x props c hval hg (converted_iff.mp hc)
    · rintro ⟨v, hv⟩
      refine ⟨v, (coerceVal_iff (hlim p.1) ?_).mpr hv⟩
      obtain ⟨x, props, c, hx, hg, _, hc, _, hu, _⟩ := hv
      rw [inUnits_num hu]
      exact hnum p hp x props c hx hg hc
  · simp [hcap, VMsg.success]

/-- A task without parameters is accepted exactly when the component is capable of it. -/
theorem C48_validate_no_params (conv : Ty → Val → Except PyErr Val) (caps : List String)
    (attrs : Dict String Attr) (technique : String) :
    Accepted (taskValidate conv caps attrs technique none) ↔ technique ∈ caps := by
  unfold taskValidate Accepted
  by_cases hcap : technique ∈ caps <;> simp [hcap, VMsg.success]

/-- Python's conversions, for the examples. -/
def exConv : Ty → Val → Except PyErr Val
  | .flt, .int i => .ok (.flt (.fin i))
  | .flt, .str "nan" => .ok (.flt .nan)
  | .flt, .str _ => .error .valueError
  | .str, .int 7 => .ok (.str "7")
  | .qty, .str "5 V" => .ok (.qty (.fin 5) ⟨"V", 1000⟩)
  | .qty, .str "9000 mV" => .ok (.qty (.fin 9000) ⟨"V", 1⟩)
  | .qty, .str _ => .error .undefinedUnit
  | .qty, .flt x => .ok (.qty x ⟨"", 1⟩)
  | _, _ => .error .typeError

/-- A number between 0 and 100. -/
def exGain : Attr where
  type := .flt
  rw := true
  minimum := some (.flt (.fin 0))
  maximum := some (.flt (.fin 100))

/-- One of two modes. -/
def exMode : Attr where
  type := .str
  rw := true
  options := some [.str "a", .str "b"]

/-- A voltage between 0 and 10 V in steps, a mode, and a temperature which can only be read. -/
def exAttrs : Dict String Attr :=
  [ ("voltage", { type := .qty, rw := true, units := some ⟨"V", 1000⟩,
                  minimum := some (.qty (.fin 0) ⟨"V", 1⟩),
                  maximum := some (.qty (.fin 10) ⟨"V", 1000⟩) }),
    ("mode", exMode), ("gain", exGain),
    ("temperature", { type := .flt }) ]

/-- Accepted: 9000 mV, mode `a`, gain 3. -/
example : taskValidate exConv ["ramp"] exAttrs "ramp"
    (some [("voltage", some (.str "9000 mV")), ("mode", some (.str "a")), ("gain", some (.int 3))])
      = .ok .validated := rfl

/-- A bare number is in the units of the attribute: 11 is too great. -/
example : taskValidate exConv ["ramp"] exAttrs "ramp" (some [("voltage", some (.flt (.fin 11)))])
      = .ok (.tooGreat "voltage") := rfl

example : taskValidate exConv ["ramp"] exAttrs "ramp" (some [("mode", some (.str "c"))])
      = .ok (.notOption "mode") := rfl

/-- The hypotheses of `C48_validate_exact_partial` hold for the attributes above. -/
example : ∀ a props, Dict.get? exAttrs a = some props → LimitsNum props := by
  intro a props h
  have := Dict.get?_some_mem h
  simp only [exAttrs, List.mem_cons, List.not_mem_nil, or_false, Prod.mk.injEq] at this
  rcases this with ⟨_, rfl⟩ | ⟨_, rfl⟩ | ⟨_, rfl⟩ | ⟨_, rfl⟩ <;>
    constructor <;> intro m hm <;> cases hm <;> rfl

/-- **C48** is violated: a value that is "not a number" is accepted whatever the limits. -/
theorem C48_refuted :
    ∃ (conv : Ty → Val → Except PyErr Val) (attrs : Dict String Attr)
      (ps : List (String × Option Val)),
      Accepted (taskValidate conv ["ramp"] attrs "ramp" (some ps)) ∧
      ∃ p ∈ ps, ∀ v, ¬ Acceptable conv attrs p.1 p.2 v := by
  refine ⟨exConv, exAttrs, [("gain", some (.str "nan"))], ⟨.validated, rfl, rfl⟩,
    _, List.mem_singleton.mpr rfl, ?_⟩
  rintro v ⟨x, props, c, hx, hg, _, hc, _, hu, hmin, _⟩
  cases hx
  have hp : props = exGain := Option.some.inj (hg.symm.trans rfl)
  subst hp
  rcases hc with ⟨h, _⟩ | ⟨_, h⟩
  · cases h
  · cases h
    cases hu
    obtain ⟨a, b, hcm, hle⟩ := valLe_iff.mp (hmin _ rfl)
    cases hcm
    exact hle

/-- **C48** is violated by interface 2.0 also for ordinary values: the options are not checked, and
`None` is accepted for an attribute of type `str`. -/
theorem C48_refuted_interface_2_0 :
    (∃ (conv : Ty → Option Val → Except PyErr Val) (attrs : Dict String Attr) (props : Attr)
        (os : List Val) (v : Val),
      Dict.get? attrs "mode" = some props ∧ props.options = some os ∧ v ∉ os ∧
      OfType v props.type ∧ Val.isNum v = true ∧
      Accepted (checkParams0 conv attrs [("mode", some v)])) ∧
    (∃ (conv : Ty → Option Val → Except PyErr Val) (attrs : Dict String Attr),
      conv .str none = .ok (.str "None") ∧
      Accepted (checkParams0 conv attrs [("mode", none)])) := by
  refine ⟨⟨fun _ _ => .error .typeError, exAttrs,
    exMode, [.str "a", .str "b"],
    .str "c", rfl, rfl, by decide, .str _, rfl, .validated, rfl, rfl⟩,
    ⟨fun t v => if t = .str ∧ v = none then .ok (.str "None") else .error .typeError, exAttrs,
      rfl, .validated, rfl, rfl⟩⟩

/-! ## C49 -/

/-- `v` is the value of the parameter, converted to the type and units of the attribute. -/
def ConvertedTo (conv : Ty → Val → Except PyErr Val) (attrs : Dict String Attr)
    (p : String × Option Val) (q : String × Val) : Prop :=
  q.1 = p.1 ∧ ∃ x props c, p.2 = some x ∧ Dict.get? attrs p.1 = some props ∧
    Converted conv props x c ∧ InUnits props c q.2

/-- There is only one such value. -/
theorem convertedTo_unique {conv : Ty → Val → Except PyErr Val} {attrs : Dict String Attr}
    {p : String × Option Val} {q q' : String × Val} (h : ConvertedTo conv attrs p q)
    (h' : ConvertedTo conv attrs p q') : q = q' := by
  obtain ⟨h1, x, props, c, hx, hg, hc, hu⟩ := h
  obtain ⟨h1', x', props', c', hx', hg', hc', hu'⟩ := h'
  rw [hx] at hx'; cases hx'
  rw [hg] at hg'; cases hg'
  have := (converted_iff.mpr hc).symm.trans (converted_iff.mpr hc')
  cases this
  have := (withUnits_iff.mpr hu).symm.trans (withUnits_iff.mpr hu')
  simp only [Except.ok.injEq, Option.some.injEq] at this
  exact Prod.ext (h1.trans h1'.symm) this

theorem coerceVal_converted {conv : Ty → Val → Except PyErr Val} {attrs : Dict String Attr}
    {attr : String} {val : Option Val} {v : Val} (h : coerceVal conv attrs attr val = .ok v) :
    ConvertedTo conv attrs (attr, val) (attr, v) := by
  cases val with
  | none => cases h
  | some x =>
    simp only [coerceVal] at h
    split at h
    · cases h
    · next props hg =>
      split at h
      · cases h
      · split at h
        · cases h
        · next c hc =>
          split at h
          · cases h
          · split at h
            · cases h
            · cases h
            · next v' hu =>
              split at h
              · cases h
              · cases h
              · split at h
                · cases h
                · cases h
                · cases h
                  exact ⟨rfl, x, props, c, rfl, hg, converted_iff.mp hc, withUnits_iff.mp hu⟩

/-- **C49**: if a task is accepted, then setting its parameters raises nothing and sets, for every
parameter in order, exactly the converted value.  (For a device whose `set_attr` is decorated with
`coerce_val` and whose attribute table does not change in between; a value that is "not a number"
is included.) -/
theorem C49_accepted_executable (conv : Ty → Val → Except PyErr Val) (caps : List String)
    (attrs : Dict String Attr) (technique : String) (ps : List (String × Option Val))
    (h : Accepted (taskValidate conv caps attrs technique (some ps))) :
    ∃ vs, prepareTask conv attrs ps = .ok vs ∧ vs.length = ps.length ∧
      ∀ (i : Nat) p q, ps[i]? = some p → vs[i]? = some q → ConvertedTo conv attrs p q := by
  have hps : ∀ p ∈ ps, ∃ v, coerceVal conv attrs p.1 p.2 = .ok v := by
    obtain ⟨m, hm, hs⟩ := h
    unfold taskValidate at hm
    split at hm
    · cases hm; cases hs
    · exact checkParams_iff.mp ⟨m, hm, hs⟩
  clear h
  induction ps with
  | nil => exact ⟨[], rfl, rfl, by simp⟩
  | cons p ps ih =>
    obtain ⟨v, hv⟩ := hps p (by simp)
    obtain ⟨vs, hvs, hlen, hall⟩ := ih (fun q hq => hps q (by simp [hq]))
    refine ⟨(p.1, v) :: vs, ?_, by simp [hlen], ?_⟩
    · simp only [prepareTask, hv, hvs]
    · intro i a b ha hb
      cases i with
      | zero =>
        simp only [List.getElem?_cons_zero, Option.some.injEq] at ha hb
        subst ha; subst hb
        exact coerceVal_converted hv
      | succ i => exact hall i a b (by simpa using ha) (by simpa using hb)

example : prepareTask exConv exAttrs
    [("voltage", some (.str "9000 mV")), ("voltage", some (.flt (.fin 3))), ("gain", some (.int 3))]
      = .ok [("voltage", .qty (.fin 9000) ⟨"V", 1⟩), ("voltage", .qty (.fin 3) ⟨"V", 1000⟩),
             ("gain", .flt (.fin 3))] := rfl

/-- For interface 2.0 this does not hold: there a task is accepted although the same validation
at `set_attr` (as done by `coerce_val`) rejects the value. -/
theorem C49_refuted_interface_2_0 :
    ∃ (conv : Ty → Val → Except PyErr Val) (conv0 : Ty → Option Val → Except PyErr Val)
      (attrs : Dict String Attr) (ps : List (String × Option Val)),
      (∀ t v, conv0 t (some v) = conv t v) ∧ Accepted (checkParams0 conv0 attrs ps) ∧
      ∀ vs, prepareTask conv attrs ps ≠ .ok vs := by
  refine ⟨exConv, fun t v => match v with | some v => exConv t v | none => .error .typeError,
    exAttrs, [("mode", some (.str "c"))], fun _ _ => rfl, ⟨.validated, rfl, rfl⟩, ?_⟩
  intro vs h
  have : prepareTask exConv exAttrs [("mode", some (.str "c"))] = .error .valueError := rfl
  rw [this] at h
  cases h

/-! ## C50 -/

/-- **C50** (`_partial`: for values and limits which are numbers; see `C50_refuted`): a value passed
on to the device by `set_attr`, whether at the beginning of a task or by the command
`cmp_set_attr`, lies within the limits of its attribute. -/
theorem C50_limits_partial (conv : Ty → Val → Except PyErr Val) (attrs : Dict String Attr)
    (attr : String) (val : Option Val) (v : Val) (props : Attr)
    (hg : Dict.get? attrs attr = some props) (hlim : LimitsNum props)
    (hnum : Val.isNum v = true) (h : coerceVal conv attrs attr val = .ok v) : Within props v := by
  have hlim' : ∀ props', Dict.get? attrs attr = some props' → LimitsNum props' := by
    intro props' h'
    rw [hg] at h'
    cases h'
    exact hlim
  obtain ⟨x, props', c, _, hg', _, _, _, _, hw⟩ := (coerceVal_iff hlim' hnum).mp h
  rw [hg] at hg'
  cases hg'
  exact hw

/-- The same for all parameters of a task: also the part of them set before an error. -/
theorem C50_task_limits_partial (conv : Ty → Val → Except PyErr Val) (attrs : Dict String Attr)
    (ps : List (String × Option Val)) (vs : List (String × Val))
    (hlim : ∀ a props, Dict.get? attrs a = some props → LimitsNum props)
    (h : prepareTask conv attrs ps = .ok vs) :
    ∀ q ∈ vs, Val.isNum q.2 = true → ∃ props, Dict.get? attrs q.1 = some props ∧
      Within props q.2 := by
  induction ps generalizing vs with
  | nil => cases h; simp
  | cons p ps ih =>
    simp only [prepareTask] at h
    split at h
    · cases h
    · next v hv =>
      split at h
      · cases h
      · next vs' hvs =>
        cases h
        intro q hq hn
        rcases List.mem_cons.mp hq with rfl | hq
        · obtain ⟨_, x, props, c, _, hg, _⟩ := coerceVal_converted hv
          exact ⟨props, hg, C50_limits_partial conv attrs p.1 p.2 v props hg (hlim _ _ hg) hn hv⟩
        · exact ih vs' hvs q hq hn

example : coerceVal exConv exAttrs "voltage" (some (.str "9000 mV"))
    = .ok (.qty (.fin 9000) ⟨"V", 1⟩) ∧
    coerceVal exConv exAttrs "voltage" (some (.flt .pinf)) = .error .valueError := ⟨rfl, rfl⟩

/-- Whatever is not a number is not less than anything of its dimension, and not more either. -/
theorem nan_passes {v m : Val} (hv : Val.isNum v = false) (hd : ∃ d x y, Amount v d x ∧ Amount m d y) :
    ltVal v m = .ok false ∧ ltVal m v = .ok false := by
  obtain ⟨d, x, y, h1, h2⟩ := hd
  cases v with
  | str _ => cases hv
  | int _ => cases hv
  | flt f =>
    cases f <;> simp only [Val.isNum, Bool.true_eq_false] at hv
    obtain ⟨rfl, rfl⟩ := h1
    cases m with
    | str _ => cases h2
    | int i => constructor <;> rfl
    | flt g => cases g <;> constructor <;> rfl
    | qty g u =>
      have hu : u.dim = "" := by cases g <;> exact h2.1.symm
      cases g <;> constructor <;> simp [ltVal, common, common.qn, hu, Except.map, Flt.lt, Flt.scale]
  | qty f u =>
    cases f <;> simp only [Val.isNum, Bool.true_eq_false] at hv
    obtain ⟨rfl, rfl⟩ := h1
    cases m with
    | str _ => cases h2
    | int i =>
      have hu : u.dim = "" := h2.1
      constructor <;> simp [ltVal, common, common.qn, hu, Except.map, Flt.lt, Flt.scale]
    | flt g =>
      have hu : u.dim = "" := h2.1
      cases g <;> constructor <;> simp [ltVal, common, common.qn, hu, Except.map, Flt.lt, Flt.scale]
    | qty g u' =>
      have hu : u.dim = u'.dim := by cases g <;> exact h2.1
      cases g <;> constructor <;> simp [ltVal, common, hu, Except.map, Flt.lt, Flt.scale]

/-- **C50**, the remaining case, for all attributes: a value which is not a number, of the right
type and dimension and among the options, is passed on to the device whatever the limits are (if
they have the dimension of the value, as they must for any value to be accepted). -/
theorem C50_nan (conv : Ty → Val → Except PyErr Val) (attrs : Dict String Attr) (attr : String)
    (x c v : Val) (props : Attr) (hg : Dict.get? attrs attr = some props) (hrw : props.rw = true)
    (hc : Converted conv props x c) (hopt : ∀ os, props.options = some os → c ∈ os)
    (hu : InUnits props c v) (hnan : Val.isNum v = false)
    (hdim : ∀ m, props.minimum = some m ∨ props.maximum = some m →
      ∃ d x y, Amount v d x ∧ Amount m d y) :
    coerceVal conv attrs attr (some x) = .ok v := by
  have hopt' : (props.options.any (fun os => !os.contains c)) = false := by
    cases ho : props.options with
    | none => rfl
    | some os => simpa using hopt os ho
  have hb : below v props.minimum = .ok false := by
    cases hm : props.minimum with
    | none => rfl
    | some m => exact (nan_passes hnan (hdim m (.inl hm))).1
  have ha : above v props.maximum = .ok false := by
    cases hm : props.maximum with
    | none => rfl
    | some m => exact (nan_passes hnan (hdim m (.inr hm))).2
  simp only [coerceVal, hg, hrw, Bool.not_true, Bool.false_eq_true, if_false,
    converted_iff.mpr hc, hopt', withUnits_iff.mpr hu, hb, ha]

/-- The case of `C50_nan`: `nan` without units for an attribute in volts between two limits. -/
example : ∃ props, Dict.get? exAttrs "voltage" = some props ∧ props.rw = true ∧
    props.minimum.isSome ∧ props.maximum.isSome ∧
    Converted exConv props (.qty .nan ⟨"", 1⟩) (.qty .nan ⟨"", 1⟩) ∧
    InUnits props (.qty .nan ⟨"", 1⟩) (.qty .nan ⟨"V", 1000⟩) ∧
    (∀ m, props.minimum = some m ∨ props.maximum = some m →
      ∃ d x y, Amount (.qty .nan ⟨"V", 1000⟩) d x ∧ Amount m d y) := by
  refine ⟨_, rfl, rfl, rfl, rfl, .inl ⟨.qty _ _, rfl⟩, .bare _ _ _ rfl rfl, ?_⟩
  rintro m (h | h)
  · cases h; exact ⟨_, _, _, ⟨rfl, rfl⟩, ⟨rfl, rfl⟩⟩
  · cases h; exact ⟨_, _, _, ⟨rfl, rfl⟩, ⟨rfl, rfl⟩⟩

/-- **C50** is violated for values which are not numbers: they are passed on to the device. -/
theorem C50_refuted :
    ∃ (conv : Ty → Val → Except PyErr Val) (attrs : Dict String Attr) (props : Attr) (v : Val),
      Dict.get? attrs "gain" = some props ∧ props.minimum.isSome ∧ props.maximum.isSome ∧
      coerceVal conv attrs "gain" (some v) = .ok v ∧ ¬ Within props v := by
  refine ⟨exConv, exAttrs, exGain, .flt .nan, rfl, rfl, rfl, rfl, ?_⟩
  rintro ⟨hmin, _⟩
  obtain ⟨a, b, hcm, hle⟩ := valLe_iff.mp (hmin _ rfl)
  cases hcm
  exact hle

end Tomato.Props
