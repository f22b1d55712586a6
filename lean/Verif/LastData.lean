import Verif.Iface21
import Verif.Iface20
import Verif.Dict

/-!
# The last data of a component, its constants and its status

`cmp_last_data`, `cmp_constants` and `cmp_status` of `ModelInterface`
(`/repo/src/tomato/driverinterface_2_1/__init__.py:193-210, 238-266`,
`/repo/src/tomato/driverinterface_2_0/__init__.py:238-255, 287-315`), with
`ModelDevice.get_last_data` (`2_1:641-643`, `2_0:701-703`) and `in_devmap`
(`2_1/decorators.py:13-27`, `2_0:30-49`).

Simplifications: the text of the reply is left out (it contains `ret.uts`, so a dataset without
this coordinate raises); of a refusal by `in_devmap` only `success` is kept (for 2.0 its `data` cannot be
sent, see `Verif/DriverProc.lean`).  `get_last_data` reads one attribute once, so it is one step.  A dataset is
the list of its data points, as in `Verif/Iface21.lean`.  The constants are stored by the code of
the driver; here they are any dictionaries.  The values of the attributes are read without a step of
the worker in between.
-/

namespace Tomato.LastData

/-- What is answered: `success` and `data` of the `Reply`. -/
structure Answer (α : Type) where
  success : Bool
  data : Option α
  deriving DecidableEq, Repr

/-- `cmp_last_data`, once the component has been found: 2_1:262-266, 2_0:311-315. -/
def ofLast (last : Option (List Nat)) : Answer (List Nat) :=
  match last with
  | none => ⟨false, none⟩
  | some d => ⟨true, some d⟩

/-- `cmp_last_data` of a component, interface 2.1, 2_1:250-266. -/
def last21 (s : I21.Dev) : Answer (List Nat) := ofLast s.last

/-- `cmp_last_data` of a component, interface 2.0, 2_0:299-315. -/
def last20 (s : I20.Dev) : Answer (List Nat) := ofLast s.last

/-! ## Constants and status -/

/-- The properties of an attribute which `cmp_status` reads (`Attr.status`, 2_1:34-35). -/
structure Attr where
  status : Bool
  deriving DecidableEq, Repr

/-- A component, as far as `cmp_constants` and `cmp_status` use it: its constants (2_1:469, 504), the
attributes in the order of `attrs()` and what `get_attr` does when called (`none`: an exception),
which are the code of the driver, and `running`. -/
structure Cmp (V : Type) where
  constants : Dict String V := []
  attrs : Dict String Attr := []
  getAttr : String → Option V
  running : V

/-- A driver: its constants (2_1:86-91) and its `devmap`, by address and channel. -/
structure Driver (V : Type) where
  constants : Dict String V := []
  devmap : Dict (String × String) (Cmp V) := []

/-- `cmp_constants`, 2_1:238-248, 2_0:287-297, behind `in_devmap`, 2_1/decorators.py:13-27,
2_0:30-49: a component which is not registered is refused.  `d | e` is a copy of `d`, updated with
the items of `e`. -/
def cmpConstants {V : Type} (d : Driver V) (key : String × String) : Answer (Dict String V) :=
  match d.devmap.get? key with
  | none => ⟨false, none⟩
  | some c => ⟨true, some (d.constants.update c.constants)⟩

/-- The loop of `cmp_status`, 2_1:204-206, 2_0:249-251; `none`: `get_attr` has raised. -/
def statusLoop {V : Type} (c : Cmp V) (ret : Dict String V) :
    Dict String Attr → Option (Dict String V)
  | [] => some ret
  | (k, a) :: as =>
    if a.status then
      match c.getAttr k with
      | none => none
      | some v => statusLoop c (ret.set k v) as
    else statusLoop c ret as

/-- `cmp_status`, 2_1:193-210, 2_0:238-255; `none`: an exception (what becomes of it is in
`Verif/DriverProc.lean`). -/
def cmpStatus {V : Type} (d : Driver V) (key : String × String) :
    Option (Answer (Dict String V)) :=
  match d.devmap.get? key with
  | none => some ⟨false, none⟩
  | some c =>
    match statusLoop c [] c.attrs with
    | none => none
    | some ret => some ⟨true, some (ret.set "running" c.running)⟩

end Tomato.LastData
