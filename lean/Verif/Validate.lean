import Verif.Prog
import Verif.Dict

/-!
# Validation of attribute values

`task_validate`, `/repo/src/tomato/driverinterface_2_1/__init__.py:363-413` and
`/repo/src/tomato/driverinterface_2_0/__init__.py:417-459`; `coerce_val`,
`/repo/src/tomato/driverinterface_2_1/decorators.py:73-111`; `prepare_task`, `2_1:572-579`.

Simplifications: finite floating point numbers are integers (in units of some smallest step; only
their order matters), a physical unit is a dimension with an integer factor to the base unit.
The type conversions `str(...)`, `int(...)`, `float(...)`, `pint.Quantity(...)` are a parameter
`conv` of the model and may return or raise anything.
-/

namespace Tomato

/-- Floating point numbers. -/
inductive Flt where
  | nan
  | ninf
  | fin (i : Int)
  | pinf
  deriving DecidableEq, Repr

namespace Flt

/-- `x < y` (false if one of them is not a number). -/
def lt : Flt → Flt → Bool
  | nan, _ => false
  | _, nan => false
  | ninf, ninf => false
  | ninf, _ => true
  | fin _, ninf => false
  | fin a, fin b => decide (a < b)
  | fin _, pinf => true
  | pinf, _ => false

/-- Multiplication with a positive factor. -/
def scale (k : Nat) : Flt → Flt
  | fin i => fin (i * k)
  | x => x

end Flt

/-- A physical unit; `dim = ""` is dimensionless. -/
structure PUnit where
  dim : String
  factor : Nat := 1
  deriving DecidableEq, Repr

/-- Values of attributes, types.py:6. -/
inductive Val where
  | str (s : String)
  | int (i : Int)
  | flt (x : Flt)
  | qty (m : Flt) (u : PUnit)
  deriving DecidableEq, Repr

/-- Types of attributes. -/
inductive Ty where
  | str | int | flt | qty
  deriving DecidableEq, Repr

/-- `isinstance(val, type)`. -/
def Val.isInst : Val → Ty → Bool
  | .str _, .str => true
  | .int _, .int => true
  | .flt _, .flt => true
  | .qty _ _, .qty => true
  | _, _ => false

/-- `Attr`, 2_1:29-50. -/
structure Attr where
  type : Ty
  rw : Bool := false
  units : Option PUnit := none
  minimum : Option Val := none
  maximum : Option Val := none
  options : Option (List Val) := none
  deriving DecidableEq, Repr

/-- The two numbers to be compared for two values: python numbers compare directly, `pint`
quantities of the same dimension in base units, a dimensionless quantity with a number; a quantity
with a dimension only with 0 (or a number which is not a number); everything else raises. -/
def common : Val → Val → Except PyErr (Flt × Flt)
  | .int a, .int b => .ok (.fin a, .fin b)
  | .int a, .flt b => .ok (.fin a, b)
  | .flt a, .int b => .ok (a, .fin b)
  | .flt a, .flt b => .ok (a, b)
  | .qty a u, .qty b v =>
    if u.dim = v.dim then .ok (a.scale u.factor, b.scale v.factor) else .error .dimensionality
  | .qty a u, .int b => qn a u (.fin b)
  | .qty a u, .flt b => qn a u b
  | .int a, .qty b v => (qn b v (.fin a)).map (fun p => (p.2, p.1))
  | .flt a, .qty b v => (qn b v a).map (fun p => (p.2, p.1))
  | .str _, _ => .error .typeError
  | _, .str _ => .error .typeError
where
  /-- a quantity and a number -/
  qn (a : Flt) (u : PUnit) (b : Flt) : Except PyErr (Flt × Flt) :=
    if u.dim = "" then .ok (a.scale u.factor, b)
    else if b = .fin 0 ∨ b = .nan then .ok (a, b)
    else .error .valueError

/-- `a < b`.  Strings are not compared with limits, which are numbers or quantities. -/
def ltVal (a b : Val) : Except PyErr Bool := (common a b).map (fun p => p.1.lt p.2)

/-- Messages of `task_validate`. -/
inductive VMsg where
  | unknownTask
  | noParams
  | valNone (attr : String)
  | unknownAttr (attr : String)
  | readOnly (attr : String)
  | noCoerce (attr : String)
  | notOption (attr : String)
  | wrongDim (attr : String)
  | tooSmall (attr : String)
  | tooGreat (attr : String)
  | validated
  deriving DecidableEq, Repr

/-- `Reply.success` of `task_validate`. -/
def VMsg.success : VMsg → Bool
  | .noParams | .validated => true
  | _ => false

/-- `val < minimum`, if there is a minimum. -/
def below (v : Val) (min : Option Val) : Except PyErr Bool :=
  match min with
  | none => .ok false
  | some m => ltVal v m

/-- `val > maximum`, if there is a maximum. -/
def above (v : Val) (max : Option Val) : Except PyErr Bool :=
  match max with
  | none => .ok false
  | some m => ltVal m v

/-- `pint.Quantity(val.m, props.units)` for dimensionless quantities, then the dimensions;
`none`: wrong dimensionality.  `pint.Quantity(None)` is a `TypeError`.
2_1:397-402, decorators.py:100-104, 2_0:446-450. -/
def withUnits (props : Attr) (v : Val) : Except PyErr (Option Val) :=
  match v with
  | .qty m u =>
    match props.units with
    | none => .error .typeError
    | some pu =>
      let u' := if u.dim = "" then pu else u
      if u'.dim = pu.dim then .ok (some (.qty m u')) else .ok none
  | v => .ok (some v)

/-- One parameter in `task_validate` of interface 2.1, 2_1:377-410; `none`: go on. -/
def checkParam (conv : Ty → Val → Except PyErr Val) (attrs : Dict String Attr) (attr : String)
    (val : Option Val) : Except PyErr (Option VMsg) :=
  match val with
  | none => .ok (some (.valNone attr))
  | some val =>
    match Dict.get? attrs attr with
    | none => .ok (some (.unknownAttr attr))
    | some props =>
      if !props.rw then .ok (some (.readOnly attr))
      else
        match (if val.isInst props.type then .ok val else conv props.type val) with
        | .error .valueError => .ok (some (.noCoerce attr))
        | .error .undefinedUnit => .ok (some (.noCoerce attr))
        | .error e => .error e
        | .ok val =>
          if props.options.any (fun os => !os.contains val) then .ok (some (.notOption attr))
          else
            match withUnits props val with
            | .error e => .error e
            | .ok none => .ok (some (.wrongDim attr))
            | .ok (some val) =>
              match below val props.minimum with
              | .error e => .error e
              | .ok true => .ok (some (.tooSmall attr))
              | .ok false =>
                match above val props.maximum with
                | .error e => .error e
                | .ok true => .ok (some (.tooGreat attr))
                | .ok false => .ok none

/-- The loop over the parameters, 2_1:376-413. -/
def checkParams (conv : Ty → Val → Except PyErr Val) (attrs : Dict String Attr) :
    List (String × Option Val) → Except PyErr VMsg
  | [] => .ok .validated
  | (attr, val) :: rest =>
    match checkParam conv attrs attr val with
    | .error e => .error e
    | .ok (some m) => .ok m
    | .ok none => checkParams conv attrs rest

/-- `task_validate` of interface 2.1, 2_1:363-413. -/
def taskValidate (conv : Ty → Val → Except PyErr Val) (caps : List String)
    (attrs : Dict String Attr) (technique : String) (params : Option (List (String × Option Val))) :
    Except PyErr VMsg :=
  if technique ∉ caps then .ok .unknownTask
  else
    match params with
    | none => .ok .noParams
    | some ps => checkParams conv attrs ps

/-- The conversion in interface 2.0, 2_0:438-442. -/
def convert0 (conv : Ty → Option Val → Except PyErr Val) (ty : Ty) :
    Option Val → Except PyErr Val
  | some v => if v.isInst ty then .ok v else conv ty (some v)
  | none => conv ty none

/-- One parameter in `task_validate` of interface 2.0, 2_0:431-457: no check for `None` (whose
conversion is a further parameter) and none of the options. -/
def checkParam0 (conv : Ty → Option Val → Except PyErr Val) (attrs : Dict String Attr)
    (attr : String) (val : Option Val) : Except PyErr (Option VMsg) :=
  match Dict.get? attrs attr with
  | none => .ok (some (.unknownAttr attr))
  | some props =>
    if !props.rw then .ok (some (.readOnly attr))
    else
      match convert0 conv props.type val with
      | .error .valueError => .ok (some (.noCoerce attr))
      | .error .undefinedUnit => .ok (some (.noCoerce attr))
      | .error e => .error e
      | .ok val =>
        match withUnits props val with
        | .error e => .error e
        | .ok none => .ok (some (.wrongDim attr))
        | .ok (some val) =>
          match below val props.minimum with
          | .error e => .error e
          | .ok true => .ok (some (.tooSmall attr))
          | .ok false =>
            match above val props.maximum with
            | .error e => .error e
            | .ok true => .ok (some (.tooGreat attr))
            | .ok false => .ok none

/-- The loop over the parameters, 2_0:430-459. -/
def checkParams0 (conv : Ty → Option Val → Except PyErr Val) (attrs : Dict String Attr) :
    List (String × Option Val) → Except PyErr VMsg
  | [] => .ok .validated
  | (attr, val) :: rest =>
    match checkParam0 conv attrs attr val with
    | .error e => .error e
    | .ok (some m) => .ok m
    | .ok none => checkParams0 conv attrs rest

/-- `coerce_val` around `set_attr`, decorators.py:84-109: the value passed on to the driver's
own `set_attr`. -/
def coerceVal (conv : Ty → Val → Except PyErr Val) (attrs : Dict String Attr) (attr : String)
    (val : Option Val) : Except PyErr Val :=
  match val with
  | none => .error .valueError
  | some val =>
    match Dict.get? attrs attr with
    | none => .error .attributeError
    | some props =>
      if !props.rw then .error .attributeError
      else
        match (if val.isInst props.type then .ok val else conv props.type val) with
        | .error e => .error e
        | .ok val =>
          if props.options.any (fun os => !os.contains val) then .error .valueError
          else
            match withUnits props val with
            | .error e => .error e
            | .ok none => .error .valueError
            | .ok (some val) =>
              match below val props.minimum with
              | .error e => .error e
              | .ok true => .error .valueError
              | .ok false =>
                match above val props.maximum with
                | .error e => .error e
                | .ok true => .error .valueError
                | .ok false => .ok val

/-- `prepare_task`, 2_1:572-579, for a driver whose `set_attr` carries the decorator `coerce_val`:
the values set, in order; stops at the first exception. -/
def prepareTask (conv : Ty → Val → Except PyErr Val) (attrs : Dict String Attr) :
    List (String × Option Val) → Except PyErr (List (String × Val))
  | [] => .ok []
  | (attr, val) :: rest =>
    match coerceVal conv attrs attr val with
    | .error e => .error e
    | .ok v =>
      match prepareTask conv attrs rest with
      | .error e => .error e
      | .ok vs => .ok ((attr, v) :: vs)

end Tomato
