/-!
# Programs with effects

A python function that performs side effects is modelled as a `Prog S α`: it
returns a value, raises a python exception, or performs one operation of the
signature `S` and continues with the answer (which may itself be an exception).
One operation stands for one atomic effect.  The same program can be executed
alone (`Prog.run`), interleaved with other programs (`Sys` in `Verif/System.lean`)
or against an arbitrary environment (`Prog.Trace`).
-/

namespace Tomato

/-- Python exception classes that the modelled code can raise. -/
inductive PyErr where
  | assertionError
  | keyError
  | typeError
  | valueError
  | attributeError
  | fileExistsError
  | fileNotFoundError
  | nameError
  | unboundLocalError
  | programmingError      -- sqlite3.ProgrammingError
  | integrityError        -- sqlite3.IntegrityError
  | operationalError      -- sqlite3.OperationalError
  | noSuchProcess         -- psutil.NoSuchProcess
  | eofError              -- pickle.load on a truncated file
  | systemExit            -- sys.exit()
  | runtimeError
  | zmqError
  | zmqAgain
  | undefinedUnit         -- pint.UndefinedUnitError
  | dimensionality        -- pint.DimensionalityError
  | isADirectory          -- IsADirectoryError
  | notADirectory         -- NotADirectoryError
  | validationError       -- pydantic.ValidationError
  deriving DecidableEq, Repr

/-- A signature: the operations and the type of their answers. -/
structure Sig where
  Op : Type
  Resp : Op → Type

/-- Programs over a signature. -/
inductive Prog (S : Sig) (α : Type) where
  | pure (a : α)
  | raise (e : PyErr)
  | op (o : S.Op) (k : Except PyErr (S.Resp o) → Prog S α)

namespace Prog

variable {S : Sig} {W α β γ : Type}

/-- Sequencing. -/
def bind : Prog S α → (α → Prog S β) → Prog S β
  | pure a, f => f a
  | raise e, _ => raise e
  | op o k, f => op o (fun r => bind (k r) f)

instance : Monad (Prog S) where
  pure := Prog.pure
  bind := Prog.bind

/-- Perform one operation; an exceptional answer is raised. -/
def call (o : S.Op) : Prog S (S.Resp o) :=
  op o (fun r => match r with
    | .ok a => pure a
    | .error e => raise e)

/-- `try: p except e: h(e)`; the handler returns `none` to let `e` propagate. -/
def tryExcept : Prog S α → (PyErr → Option (Prog S α)) → Prog S α
  | pure a, _ => pure a
  | raise e, h => (h e).getD (raise e)
  | op o k, h => op o (fun r => tryExcept (k r) h)

/-- `assert c`. -/
def assert (c : Bool) : Prog S Unit := if c then pure () else raise .assertionError

/-- `for x in xs: f(x)`. -/
def forEach : List β → (β → Prog S Unit) → Prog S Unit
  | [], _ => pure ()
  | x :: xs, f => bind (f x) (fun _ => forEach xs f)

@[simp] theorem pure_eq (a : α) : (Pure.pure a : Prog S α) = Prog.pure a := rfl
@[simp] theorem bind_eq (p : Prog S α) (f : α → Prog S β) : (p >>= f) = Prog.bind p f := rfl

@[simp] theorem pure_bind (a : α) (f : α → Prog S β) : bind (pure a) f = f a := rfl
@[simp] theorem raise_bind (e : PyErr) (f : α → Prog S β) : bind (raise e) f = raise e := rfl

theorem bind_pure (p : Prog S α) : bind p pure = p := by
  induction p with
  | pure a => rfl
  | raise e => rfl
  | op o k ih => simp only [bind]; congr; funext r; exact ih r

theorem bind_assoc (p : Prog S α) (f : α → Prog S β) (g : β → Prog S γ) :
    bind (bind p f) g = bind p (fun a => bind (f a) g) := by
  induction p with
  | pure a => rfl
  | raise e => rfl
  | op o k ih => simp only [bind]; congr; funext r; exact ih r

/-! ## Execution without interference -/

/-- How an operation acts on the world. -/
abbrev Handler (S : Sig) (W : Type) := (o : S.Op) → W → Except PyErr (S.Resp o) × W

/-- Run a program to its end with nobody else acting on the world. -/
def run (h : Handler S W) : Prog S α → W → Except PyErr α × W
  | pure a, w => (.ok a, w)
  | raise e, w => (.error e, w)
  | op o k, w => run h (k (h o w).1) (h o w).2

variable {h : Handler S W}

@[simp] theorem run_pure (a : α) (w : W) : run h (pure a) w = (.ok a, w) := rfl
@[simp] theorem run_raise (e : PyErr) (w : W) :
    run h (raise e : Prog S α) w = (.error e, w) := rfl

/-- Continue after the outcome of a first part. -/
def andThen (r : Except PyErr α × W) (f : α → W → Except PyErr β × W) :
    Except PyErr β × W :=
  match r with
  | (.ok a, w) => f a w
  | (.error e, w) => (.error e, w)

@[simp] theorem andThen_ok (a : α) (w : W) (f : α → W → Except PyErr β × W) :
    andThen (.ok a, w) f = f a w := rfl
@[simp] theorem andThen_error (e : PyErr) (w : W) (f : α → W → Except PyErr β × W) :
    andThen (.error e, w) f = (.error e, w) := rfl

theorem andThen_snd (r : Except PyErr α × W) (g : α → Except PyErr β) :
    (andThen r (fun a w => (g a, w))).2 = r.2 := by
  rcases r with ⟨_ | _, w⟩ <;> rfl

@[simp] theorem run_bind (p : Prog S α) (f : α → Prog S β) (w : W) :
    run h (bind p f) w = andThen (run h p w) (fun a w' => run h (f a) w') := by
  induction p generalizing w with
  | pure a => rfl
  | raise e => rfl
  | op o k ih => simp only [bind, run]; exact ih _ _

@[simp] theorem run_call (o : S.Op) (w : W) : run h (call o) w = h o w := by
  simp only [call, run]
  rcases hh : h o w with ⟨r, w'⟩
  cases r <;> rfl

@[simp] theorem run_assert (c : Bool) (w : W) :
    run h (assert c) w = (if c then .ok () else .error .assertionError, w) := by
  unfold assert; split <;> rfl

@[simp] theorem run_forEach_nil (f : β → Prog S Unit) (w : W) :
    run h (forEach [] f) w = (.ok (), w) := rfl

@[simp] theorem run_forEach_cons (x : β) (xs : List β) (f : β → Prog S Unit) (w : W) :
    run h (forEach (x :: xs) f) w =
      andThen (run h (f x) w) (fun _ w' => run h (forEach xs f) w') := by
  simp [forEach]

/-! ## Restricting the operations a program may perform -/

/-- Every operation the program can ever perform satisfies `P`. -/
def Only (P : S.Op → Prop) : Prog S α → Prop
  | pure _ => True
  | raise _ => True
  | op o k => P o ∧ ∀ r, Only P (k r)

variable {P : S.Op → Prop}

@[simp] theorem only_pure (a : α) : Only P (pure a : Prog S α) := trivial
@[simp] theorem only_raise (e : PyErr) : Only P (raise e : Prog S α) := trivial

theorem only_bind {p : Prog S α} {f : α → Prog S β} (hp : Only P p)
    (hf : ∀ a, Only P (f a)) : Only P (bind p f) := by
  induction p with
  | pure a => exact hf a
  | raise e => trivial
  | op o k ih => exact ⟨hp.1, fun r => ih r (hp.2 r)⟩

@[simp] theorem only_call (o : S.Op) : Only P (call o) ↔ P o := by
  constructor
  · intro h; exact h.1
  · intro h
    refine ⟨h, fun r => ?_⟩
    cases r <;> trivial

@[simp] theorem only_assert (c : Bool) : Only P (assert c : Prog S Unit) := by
  unfold assert; split <;> trivial

theorem only_forEach {xs : List β} {f : β → Prog S Unit} (hf : ∀ x ∈ xs, Only P (f x)) :
    Only P (forEach xs f) := by
  induction xs with
  | nil => trivial
  | cons x xs ih =>
    exact only_bind (hf x (by simp)) (fun _ => ih (fun y hy => hf y (by simp [hy])))

theorem only_tryExcept {p : Prog S α} {hd : PyErr → Option (Prog S α)} (hp : Only P p)
    (hh : ∀ e q, hd e = some q → Only P q) : Only P (tryExcept p hd) := by
  induction p with
  | pure a => trivial
  | raise e =>
    simp only [tryExcept]
    cases hq : hd e with
    | none => trivial
    | some q => exact hh e q hq
  | op o k ih => exact ⟨hp.1, fun r => ih r (hp.2 r)⟩

theorem Only.mono {P' : S.Op → Prop} {p : Prog S α} (hp : Only P p) (h : ∀ o, P o → P' o) :
    Only P' p := by
  induction p with
  | pure a => trivial
  | raise e => trivial
  | op o k ih => exact ⟨h o hp.1, fun r => ih r (hp.2 r)⟩

/-- A relation between worlds that every permitted operation establishes and that is
reflexive and transitive holds between start and end of a run. -/
theorem run_only {R : W → W → Prop} (hrefl : ∀ w, R w w)
    (htrans : ∀ a b c, R a b → R b c → R a c)
    (hop : ∀ o w, P o → R w (h o w).2) {p : Prog S α} (hp : Only P p) (w : W) :
    R w (run h p w).2 := by
  induction p generalizing w with
  | pure a => exact hrefl w
  | raise e => exact hrefl w
  | op o k ih =>
    simp only [run]
    exact htrans _ _ _ (hop o w hp.1) (ih _ (hp.2 _) _)

/-! ## Execution under interference (rely / guarantee) -/

/-- `Safe h R G Q p w`: started in `w`, with the others changing the world as allowed
by `R` before each operation, every operation of `p` changes the world as promised
by `G`, and if `p` returns then `Q` holds of the result and the world right after its
last operation. -/
def Safe (h : Handler S W) (R G : W → W → Prop) (Q : α → W → Prop) : Prog S α → W → Prop
  | pure a, w => Q a w
  | raise _, _ => True
  | op o k, w => ∀ w', R w w' → G w' (h o w').2 ∧ Safe h R G Q (k (h o w').1) (h o w').2

variable {R G : W → W → Prop}

theorem safe_bind {p : Prog S α} {f : α → Prog S β} {Q : α → W → Prop} {Q' : β → W → Prop}
    {w : W} (hp : Safe h R G Q p w) (hf : ∀ a w', Q a w' → Safe h R G Q' (f a) w') :
    Safe h R G Q' (bind p f) w := by
  induction p generalizing w with
  | pure a => exact hf a w hp
  | raise e => trivial
  | op o k ih =>
    intro w' hR
    exact ⟨(hp w' hR).1, ih _ (hp w' hR).2⟩

theorem safe_mono {p : Prog S α} {Q Q' : α → W → Prop} {w : W}
    (hp : Safe h R G Q p w) (hQ : ∀ a w', Q a w' → Q' a w') : Safe h R G Q' p w := by
  induction p generalizing w with
  | pure a => exact hQ a w hp
  | raise e => trivial
  | op o k ih => intro w' hR; exact ⟨(hp w' hR).1, ih _ (hp w' hR).2⟩

theorem safe_call {o : S.Op} {Q : S.Resp o → W → Prop} {w : W}
    (hG : ∀ w', R w w' → G w' (h o w').2)
    (hQ : ∀ w', R w w' → ∀ a, (h o w').1 = .ok a → Q a (h o w').2) :
    Safe h R G Q (call o) w := by
  intro w' hR
  refine ⟨hG w' hR, ?_⟩
  rcases hh : (h o w').1 with e | a
  · trivial
  · exact hQ w' hR a hh

/-- Being safe is not affected by interference before the next operation. -/
theorem safe_rely (htrans : ∀ a b c, R a b → R b c → R a c) {p : Prog S α}
    {Q : α → W → Prop} {w w' : W}
    (hst : ∀ a, Q a w → Q a w') (hp : Safe h R G Q p w) (hR : R w w') :
    Safe h R G Q p w' := by
  cases p with
  | pure a => exact hst a hp
  | raise e => trivial
  | op o k => intro w'' hR'; exact hp w'' (htrans _ _ _ hR hR')

/-- Programs restricted to operations that always keep the guarantee are safe. -/
theorem safe_of_only (hop : ∀ o w, P o → G w (h o w).2) {p : Prog S α} (hp : Only P p)
    (w : W) : Safe h R G (fun _ _ => True) p w := by
  induction p generalizing w with
  | pure a => trivial
  | raise e => trivial
  | op o k ih => intro w' _; exact ⟨hop o w' hp.1, ih _ (hp.2 _) _⟩

end Prog

end Tomato
