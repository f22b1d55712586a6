import Verif.Prog
import Verif.Dict

/-!
# The data of a job on disk

`/repo/src/tomato/daemon/io.py`: `data_to_pickle` (51-66), `merge_netcdfs` (21-48).

The folder of a job is a list of named files in the order in which the file system lists them.  A
dataset is its attribute `role` and its list of points (`xr.concat` along `uts` appends the points
and keeps the attributes of the first dataset).  Not modelled: the coordinates and variables of
the datasets, the other attributes, the NetCDF encoding, group names with a special meaning to
`xr.DataTree` (`.`, the empty string).
-/

namespace Tomato.Io

/-- A dataset. -/
structure Ds where
  /-- `attrs["role"]` -/
  role : Option String := none
  pts : List Nat := []
  deriving DecidableEq, Repr

/-- What is in a file, seen by `pickle.load`: nothing that can be loaded, or an object that is
`None` or a dataset. -/
inductive Content where
  | broken
  | obj (d : Option Ds)
  deriving DecidableEq, Repr

/-- The files of a folder. -/
abbrev Folder := Dict String Content

/-- job.py:534: the file of a role. -/
def pklName (role : String) : String := role ++ ".pkl"

/-- The pattern `*.pkl`, io.py:29. -/
def isPkl (name : String) : Bool := ".pkl".toList.isSuffixOf name.toList

/-- `xr.concat([old, new], dim="uts")`, io.py:63. -/
def concat (old new : Ds) : Ds := { old with pts := old.pts ++ new.pts }

/-- `data_to_pickle`, io.py:51-66, without interruption.  Simplified: a role with a slash names
a file in a folder that does not exist, which is wrong for roles like `../1/main` (`DataFile.lean`, C138). -/
def dataToPickle (ds : Ds) (role : String) (f : Folder) : Except PyErr Unit × Folder :=
  let ds := { ds with role := some role }
  if role.toList.contains '/' then (.error .fileNotFoundError, f)
  else match f.get? (pklName role) with
    | some .broken => (.error .eofError, f)
    | some (.obj (some old)) => (.ok (), f.set (pklName role) (.obj (some (concat old ds))))
    | _ => (.ok (), f.set (pklName role) (.obj (some ds)))

/-- io.py:28-33: load the datasets. -/
def loadAll : Folder → Except PyErr (List Ds)
  | [] => .ok []
  | (n, c) :: rest =>
    if isPkl n then
      match c with
      | .broken => .error .eofError
      | .obj none => loadAll rest
      | .obj (some d) =>
        match loadAll rest with
        | .ok ds => .ok (d :: ds)
        | .error e => .error e
    else loadAll rest

/-- io.py:35: the groups, by role. -/
def groups : List Ds → Dict String (List Nat) → Except PyErr (Dict String (List Nat))
  | [], g => .ok g
  | d :: ds, g =>
    match d.role with
    | none => .error .keyError
    | some r => groups ds (g.set r d.pts)

/-- `merge_netcdfs`, io.py:21-48: the file written and its groups.  `folder`: the content of
`job.jobpath`; `out`: `job.respath` or `job.snappath`. -/
def mergeNetcdfs (folder : Option Folder) (out : Option String) :
    Except PyErr (String × Dict String (List Nat)) :=
  match folder with
  | none => .error .assertionError
  | some f =>
    match loadAll f with
    | .error e => .error e
    | .ok ds =>
      match groups ds [] with
      | .error e => .error e
      | .ok g =>
        match out with
        | none => .error .assertionError
        | some o => .ok (o, g)

end Tomato.Io
