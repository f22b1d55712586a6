import Verif.Prog

/-!
# Where the data of a component is stored

`Path(jobpath) / f"{role}.pkl"` (job.py:534), opened for writing (io.py:65).  Paths are lists of names, from the
root on; the folder of a job is an absolute path.  POSIX only, no symbolic links, no limits on the length of names;
the file system is what `dirs` says: which paths are folders.
Simplified: a file where a folder is needed gives `NotADirectoryError`, here the same error as a missing folder.
-/

namespace Tomato.DataFile

abbrev Name := List Char
abbrev Path := List Name

/-- A text, cut at its slashes. -/
def splitSlash : List Char → List Name
  | [] => [[]]
  | c :: cs =>
    if c = '/' then [] :: splitSlash cs
    else match splitSlash cs with
      | [] => [[c]]
      | n :: r => (c :: n) :: r

/-- The parts of a path as kept by `pathlib`: without empty ones and single dots. -/
def parts (s : List Char) : List Name := (splitSlash s).filter (fun n => decide (n ≠ [] ∧ n ≠ ['.']))

/-- `Path(jobpath) / f"{role}.pkl"`, job.py:534: an absolute second part replaces the first. -/
def dataPath (folder : Path) (role : String) : Path :=
  let t := role.toList ++ ".pkl".toList
  if t.head? = some '/' then parts t else folder ++ parts t

/-- The file opened for writing, io.py:65: all names but the last one have to be folders, `..` is the folder above.
From the folder `at'` on. -/
def openAt (dirs : Path → Bool) (at' : Path) : Path → Except PyErr Path
  | [] => .error .isADirectory
  | [n] => if n = ['.', '.'] then .error .isADirectory else .ok (at' ++ [n])
  | n :: rest =>
    let next := if n = ['.', '.'] then at'.dropLast else at' ++ [n]
    if dirs next then openAt dirs next rest else .error .fileNotFoundError

/-- The file in which the data of a role of a job is stored. -/
def dataFile (dirs : Path → Bool) (folder : Path) (role : String) : Except PyErr Path :=
  openAt dirs [] (dataPath folder role)

end Tomato.DataFile
