import Verif.Prog
import Verif.Dict

/-!
# The values of a job: datasets of `xarray`

`Verif/Io.lean` and the models of the driver interfaces have data points without content.  Here a dataset has
variables, each with values, a unit, and possibly without the dimension `uts` (time).  The code
that puts datasets together:

* `do_task`, driverinterface_2_1/__init__.py:581-597 and 2_0:644-660: `xr.concat` with `data_vars="minimal"`;
* `get_data`, 2_1:631-639 and 2_0:691-699;
* `data_to_pickle`, daemon/io.py:51-66: `xr.concat` with the default `data_vars="all"`.

What `xr.concat` does with these arguments is stated here and assumed to be what `xarray` does: variables which have
the dimension `uts` (in one of the datasets) and, with `"all"`, all others too, are appended, missing values are
filled with NaN, and the attributes of a variable (its unit) and of the dataset are those of the first dataset which has
it (`combine_attrs="override"`); with `"minimal"` the other variables have to be equal in both datasets, if both have
them (`compat="equals"`), else `MergeError` (a `ValueError`) is raised.

Not modelled: other dimensions, other attributes of variables, types of values.
-/

namespace Tomato.Xr

/-- The values of a variable: one for each time, or one without the dimension `uts`.  `none` is NaN. -/
inductive Body (V : Type) where
  | each (vals : List (Option V))
  | once (val : Option V)
  deriving DecidableEq, Repr

/-- A variable; `unit` is `attrs["units"]`. -/
structure Var (V : Type) where
  body : Body V
  unit : Option String := none
  deriving DecidableEq, Repr

/-- A dataset. -/
structure Ds (V : Type) where
  uts : List Int
  vars : Dict String (Var V)
  attrs : Dict String String := []
  deriving DecidableEq, Repr

/-- The argument `data_vars` of `xr.concat`. -/
inductive Mode where
  | minimal
  | all
  deriving DecidableEq, Repr

section
variable {V : Type} [DecidableEq V]

/-- The values along the dimension `uts` of length `n`. -/
def Body.expand (n : Nat) : Body V → List (Option V)
  | .each vals => vals
  | .once x => List.replicate n x

/-- Has the variable the dimension `uts`? -/
def Body.along : Body V → Bool
  | .each _ => true
  | .once _ => false

/-- One variable of the result of `xr.concat`; `na`, `nb`: the numbers of times in the two datasets. -/
def joinVar (mode : Mode) (na nb : Nat) : Option (Var V) → Option (Var V) → Except PyErr (Option (Var V))
  | none, none => .ok none
  | some va, none =>
    if mode = .all ∨ va.body.along then
      .ok (some { body := .each (va.body.expand na ++ List.replicate nb none), unit := va.unit })
    else .ok (some va)
  | none, some vb =>
    if mode = .all ∨ vb.body.along then
      .ok (some { body := .each (List.replicate na none ++ vb.body.expand nb), unit := vb.unit })
    else .ok (some vb)
  | some va, some vb =>
    if mode = .all ∨ va.body.along ∨ vb.body.along then
      .ok (some { body := .each (va.body.expand na ++ vb.body.expand nb), unit := va.unit })
    else if va.body = vb.body then .ok (some va)
    else .error .valueError

/-- The variables of the result. -/
def joinVars (mode : Mode) (na nb : Nat) (a b : Dict String (Var V)) :
    List String → Except PyErr (Dict String (Var V))
  | [] => .ok []
  | n :: ns =>
    match joinVar mode na nb (Dict.get? a n) (Dict.get? b n) with
    | .error e => .error e
    | .ok none => joinVars mode na nb a b ns
    | .ok (some v) =>
      match joinVars mode na nb a b ns with
      | .error e => .error e
      | .ok d => .ok ((n, v) :: d)

/-- `xr.concat([a, b], dim="uts", data_vars=mode)`. -/
def concat (mode : Mode) (a b : Ds V) : Except PyErr (Ds V) :=
  match joinVars mode a.uts.length b.uts.length a.vars b.vars
      (Dict.keys a.vars ++ (Dict.keys b.vars).filter (fun n => decide (n ∉ Dict.keys a.vars))) with
  | .error e => .error e
  | .ok vs => .ok { uts := a.uts ++ b.uts, vars := vs, attrs := a.attrs }

/-- `do_task`, 2_1:581-597 and 2_0:644-660, after `do_measure`; `last` is then `self.last_data`. -/
def doTask (data last : Option (Ds V)) : Except PyErr (Option (Ds V)) :=
  match data, last with
  | none, l => .ok l
  | some d, none => .ok (some d)
  | some d, some l =>
    match concat .minimal d l with
    | .error e => .error e
    | .ok r => .ok (some r)

/-- `data_to_pickle`, io.py:51-66, with the attribute set before by the caller (job.py:638, 680, 696); `old`
is the dataset in the file. -/
def toPickle (role component : String) (old : Option (Ds V)) (ds : Ds V) : Except PyErr (Ds V) :=
  let ds := { ds with attrs := Dict.set (Dict.set ds.attrs "tomato_Component" component) "role" role }
  match old with
  | none => .ok ds
  | some o => concat .all o ds

/-- A component and the file of its role. -/
structure St (V : Type) where
  /-- `self.data` -/
  data : Option (Ds V) := none
  /-- the dataset in the file -/
  file : Option (Ds V) := none
  /-- the thread which carries out the task has ended with an exception (2_1:564-567, 2_0:603-605), or the job thread -/
  died : Option PyErr := none

/-- What happens while a task is carried out. -/
inductive Ev (V : Type) where
  /-- a sample: `self.last_data` after `do_measure` -/
  | sample (last : Option (Ds V))
  /-- the job thread asks for the data and stores it, job.py:631-640, 673-682, 690-698 -/
  | fetch

/-- One of these. -/
def step (role component : String) (s : St V) : Ev V → St V
  | .sample last =>
    match s.died with
    | some _ => s
    | none =>
      match doTask s.data last with
      | .error e => { s with died := some e }
      | .ok d => { s with data := d }
  | .fetch =>
    match s.data with
    | none => s
    | some d =>
      match toPickle role component s.file d with
      | .error e => { s with data := none, died := some e }
      | .ok f => { s with data := none, file := some f }

/-- All of them. -/
def run (role component : String) (s : St V) (es : List (Ev V)) : St V := es.foldl (step role component) s

end

end Tomato.Xr
