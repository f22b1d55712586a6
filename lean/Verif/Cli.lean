import Verif.Db

/-!
# The `tomato` command line

`make_padded_lines`, `format_msg`, `init` of `/repo/src/tomato/tomato/__init__.py`, the log level in
`/repo/src/tomato/__init__.py`, and the upgrade loop of `ketchup.submit`.
-/

namespace Tomato

/-! ## Log level -/

/-- `min(max((2 + args.quiet - args.verbose) * 10, 10), 50)`, `__init__.py:29`. -/
def verbosity (quiet verbose : Nat) : Int :=
  min (max ((2 + (quiet : Int) - (verbose : Int)) * 10) 10) 50

/-! ## Tables -/

/-- `f"{val:<{w}}"`: fill with spaces on the right. -/
def padRight (val : List Char) (w : Nat) : List Char := val ++ List.replicate (w - val.length) ' '

/-- `max(xs)`; a `ValueError` for the empty list. -/
def pyMax : List Nat → Except PyErr Nat
  | [] => .error .valueError
  | x :: xs => .ok (xs.foldl max x)

/-- `maxlen[key] = max(temp[key])` for all keys, tomato 68-69. -/
def maxLens {O : Type} (val : O → String → String) (data : List O) :
    List String → Except PyErr (List (String × Nat))
  | [] => .ok []
  | key :: rest =>
    match pyMax (data.map (fun o => (val o key).toList.length)) with
    | .error e => .error e
    | .ok m =>
      match maxLens val data rest with
      | .error e => .error e
      | .ok ms => .ok ((key, m) :: ms)

/-- One line, tomato 70-84. -/
def padLine {O : Type} (val : O → String → String) (o : O) : List (String × Nat) → List Char
  | [] => []
  | (key, m) :: rest =>
    (key.toList ++ ':' :: padRight (val o key).toList (m + 2)) ++ padLine val o rest

/-- `make_padded_lines`, tomato 49-84.  `val o key` is the text shown for a column (`str(obj[key])`,
or the age for `heartbeat`).  If a key is repeated, `temp[key]` holds every length twice, which
does not change the maximum. -/
def makePaddedLines {O : Type} (val : O → String → String) (data : List O) (keys : List String) :
    Except PyErr (List (List Char)) :=
  match maxLens val data keys with
  | .error e => .error e
  | .ok ms => .ok (data.map (fun o => padLine val o ms))

/-- `format_msg`, tomato 87-103. -/
def formatMsg {O : Type} (val : O → String → String) (msg objs : String) (yml : Bool)
    (keys : List String) (data : List O) : Except PyErr (List Char) :=
  if yml then .ok []
  else
    match makePaddedLines val data keys with
    | .error e => .error e
    | .ok lines =>
      if lines.length = 0 then .ok (msg ++ " with no " ++ objs).toList
      else .ok ((msg ++ " with the following " ++ objs ++ ":\n\t").toList ++
        ("\n\t".toList).intercalate lines)

/-! ## init -/

/-- What a path can be. -/
inductive FsNode where
  | dir
  | text (content : String)
  | db (content : DbFile)
  deriving DecidableEq, Repr

/-- An absolute, resolved path: its components. -/
abbrev FsPath := List String

/-- A file system. -/
abbrev Fs := FsPath → Option FsNode

/-- Store a node. -/
def Fs.put (fs : Fs) (p : FsPath) (n : FsNode) : Fs := fun q => if q = p then some n else fs q

/-- `os.makedirs(p)` for a path that does not exist: create all missing directories from the
root on; fails on the first one which is a file. -/
def makedirsFrom (fs : Fs) (done : FsPath) : FsPath → Except PyErr Unit × Fs
  | [] => (.ok (), fs)
  | c :: rest =>
    match fs (done ++ [c]) with
    | none => makedirsFrom (fs.put (done ++ [c]) .dir) (done ++ [c]) rest
    | some .dir => makedirsFrom fs (done ++ [c]) rest
    | some _ => (.error .fileExistsError, fs)

/-- `os.makedirs`. -/
def makedirs (fs : Fs) (p : FsPath) : Except PyErr Unit × Fs := makedirsFrom fs [] p

/-- `if not p.exists(): os.makedirs(p)`, tomato 432-434, 448-453. -/
def ensureDir (fs : Fs) (p : FsPath) : Except PyErr Unit × Fs :=
  match fs p with
  | none => makedirs fs p
  | some _ => (.ok (), fs)

/-- `if not p.exists(): p.open("w").write(...)`, tomato 435-437, 445-447: opening fails if the
folder is missing or not a folder. -/
def ensureFile (fs : Fs) (dir : FsPath) (name : String) (n : FsNode) : Except PyErr Unit × Fs :=
  match fs (dir ++ [name]) with
  | some _ => (.ok (), fs)
  | none =>
    match fs dir with
    | some .dir => (.ok (), fs.put (dir ++ [name]) n)
    | _ => (.error .operationalError, fs)

/-- The database made by `setup_db` in a new file. -/
def newDb : DbFile := createSteps.foldl (fun d f => f d) {}

/-- Run one step after another, stopping at an exception. -/
def fsSeq (a : Fs → Except PyErr Unit × Fs) (b : Fs → Except PyErr Unit × Fs) (fs : Fs) :
    Except PyErr Unit × Fs :=
  match a fs with
  | (.ok _, fs') => b fs'
  | (.error e, fs') => (.error e, fs')

/-- `tomato init`, tomato 375-459.  `settings` and `devices` are the default texts (the first
contains the time).  `dbpath` is `storage / "dbpath.sqlite"`. -/
def initCmd (appdir logdir storage : FsPath) (settings devices : String) :
    Fs → Except PyErr Unit × Fs :=
  fsSeq (fun fs => ensureDir fs appdir) <|
  fsSeq (fun fs => ensureFile fs appdir "settings.toml" (.text settings)) <|
  fsSeq (fun fs => ensureFile fs appdir "devices.yml" (.text devices)) <|
  fsSeq (fun fs => ensureDir fs logdir) <|
  fsSeq (fun fs => ensureDir fs storage) <|
  (fun fs => ensureFile fs storage "dbpath.sqlite" (.db newDb))

/-! ## Upgrading payloads -/

/-- The loop of `submit`, ketchup 85-90, at most `n` turns: `next` is `payload.update()` if the
class has it, `ver` the version if the class has it. -/
def upgradePayload {A : Type} (next : A → Option A) (ver : A → Option Nat) (maxver : Nat) :
    Nat → A → Option A
  | n, p =>
    match next p with
    | none => some p
    | some temp =>
      if (ver temp).any (fun v => decide (maxver < v)) then some p
      else
        match n with
        | 0 => none
        | n + 1 => upgradePayload next ver maxver n temp

end Tomato
