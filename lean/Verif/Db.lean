import Verif.Prog
import Verif.Dict

/-!
# Setting up the database

`/repo/src/tomato/daemon/db.py:16-114`.

A table is a list of column names and rows (values by column name; the SQL types are left out).
Python's `sqlite3` opens a transaction only before data manipulation statements, so in `setup_db`
every `CREATE TABLE`, `ALTER TABLE` and `PRAGMA` outside of the `UPDATE` ... `commit` bracket takes
effect at once.  Each such effect is one element of the list `createSteps`.
-/

namespace Tomato

/-- A value of a column, `none` is SQL `NULL`. -/
abbrev SqlVal := Option String

/-- A table. -/
structure Table where
  cols : List String
  rows : List (Dict String SqlVal) := []
  deriving DecidableEq, Repr

/-- A database file: its tables by name and `PRAGMA user_version` (0 in a new file). -/
structure DbFile where
  tables : Dict String Table := []
  version : Nat := 0
  deriving DecidableEq, Repr

/-- Columns of `queue`, db.py:76-89. -/
def queueCols : List String :=
  ["id", "payload", "jobname", "pid", "status", "submitted_at", "launched_at", "connected_at",
   "completed_at", "jobpath", "respath", "snappath"]

/-- Columns of `pipelines`, db.py:93-98 and 52-57. -/
def pipelinesCols : List String := ["name", "ready", "jobid", "sampleid"]

/-- Columns of `drivers`, db.py:102-110 and 60-68. -/
def driversCols : List String :=
  ["name", "port", "pid", "version", "spawn_time", "spawn_count", "heartbeat_time"]

/-- `CREATE TABLE IF NOT EXISTS`. -/
def createTable (name : String) (cols : List String) (db : DbFile) : DbFile :=
  if Dict.mem db.tables name then db
  else { db with tables := Dict.set db.tables name { cols := cols } }

/-- `PRAGMA user_version = v`. -/
def setVersion (v : Nat) (db : DbFile) : DbFile := { db with version := v }

/-- Replace a name. -/
def renameIn (old new c : String) : String := if c = old then new else c

/-- `ALTER TABLE ... RENAME COLUMN old TO new`; fails if there is no such column, or if the new
name is taken. -/
def renameColumn (old new : String) (t : Table) : Except PyErr Table :=
  if old ∈ t.cols ∧ new ∉ t.cols then
    .ok { cols := t.cols.map (renameIn old new),
          rows := t.rows.map (fun r => r.map (fun kv => (renameIn old new kv.1, kv.2))) }
  else .error .operationalError

/-- `ALTER TABLE ... ADD COLUMN c` (null in all rows); fails if the column exists. -/
def addColumn (c : String) (t : Table) : Except PyErr Table :=
  if c ∈ t.cols then .error .operationalError
  else .ok { cols := t.cols ++ [c], rows := t.rows.map (fun r => r ++ [(c, none)]) }

/-- `UPDATE ... SET dst = src` for all rows; fails if a column is missing. -/
def copyColumn (dst src : String) (t : Table) : Except PyErr Table :=
  if dst ∈ t.cols ∧ src ∈ t.cols then
    .ok { t with rows := t.rows.map (fun r => Dict.set r dst ((Dict.get? r src).getD none)) }
  else .error .operationalError

/-- The upgrade from version 1 to 2, db.py:40-48. -/
def upgrade12 (db : DbFile) : Except PyErr DbFile :=
  match Dict.get? db.tables "queue" with
  | none => .error .operationalError
  | some t =>
    match renameColumn "executed_at" "connected_at" t with
    | .error e => .error e
    | .ok t1 =>
      match addColumn "launched_at" t1 with
      | .error e => .error e
      | .ok t2 =>
        match copyColumn "launched_at" "connected_at" t2 with
        | .error e => .error e
        | .ok t3 => .ok (setVersion 2 { db with tables := Dict.set db.tables "queue" t3 })

/-- The upgrade from version 2 to 3, db.py:49-71. -/
def upgrade23 (db : DbFile) : DbFile :=
  setVersion 3 (createTable "drivers" driversCols (createTable "pipelines" pipelinesCols db))

/-- One turn of the upgrade loop, db.py:38-72 (after upgrading from 1 to 2, `curr_version` is
still 1, so a turn performs one upgrade). -/
def upgradeTurn (db : DbFile) : Except PyErr DbFile :=
  if db.version = 1 then upgrade12 db
  else if db.version = 2 then .ok (upgrade23 db)
  else .ok db

/-- `while curr_version < user_version`, db.py:38-72, at most `n` turns; `none` if it is still
running then. -/
def upgradeLoop : Nat → DbFile → Option (Except PyErr DbFile)
  | 0, db => if db.version < 3 then none else some (.ok db)
  | n + 1, db =>
    if db.version < 3 then
      match upgradeTurn db with
      | .error e => some (.error e)
      | .ok db' => upgradeLoop n db'
    else some (.ok db)

/-- The statements creating a database, db.py:73-112, in order. -/
def createSteps : List (DbFile → DbFile) :=
  [createTable "queue" queueCols, createTable "pipelines" pipelinesCols,
   createTable "drivers" driversCols, setVersion 3]

/-- `setup_db`, db.py:26-114, with at most `n` turns of the loop.  `asserts` is false when
python runs with `-O`, which removes the assertion in line 36. -/
def setupDb (asserts : Bool) (n : Nat) (db : DbFile) : Option (Except PyErr DbFile) :=
  if Dict.mem db.tables "queue" then
    if asserts && decide (db.version ≠ 3) then some (.error .assertionError)
    else upgradeLoop n db
  else some (.ok (createSteps.foldl (fun d f => f d) db))

end Tomato
