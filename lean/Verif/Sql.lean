import Verif.World
import Verif.Db
import Verif.Ketchup

/-!
# The SQL texts sent to sqlite, and their meaning

`/repo/src/tomato/daemon/jobdb.py`, `pipdb.py`, `drvdb.py`, and the conditions passed to them in
`/repo/src/tomato/daemon/job.py:159,220,256`, `pip.py:48`, `cmd.py:36,96`, `driver.py:353,431`,
`/repo/src/tomato/ketchup/__init__.py:171,175,238,293,338`, `/repo/src/tomato/tomato/__init__.py:209`.

In `Verif/World.lean` a database operation acts on typed tables, and a condition is a predicate on
rows.  The code however builds a *text*, in which names and numbers are pasted between quotes or
parentheses.  Here the texts are those of the code, character by character; they are read by a
tokeniser and a parser for the part of sqlite's SQL that the code uses, and executed on tables whose
rows are values by column.

What sqlite does with a text that this parser does not understand is unknown (`Out.outside`); a
string literal that is never closed is an error whatever else the text contains.

Simplifications: a comparison of a number with a text is false (sqlite may convert one of them; the
code never compares them); `LIKE` on anything but texts is false; the `NOT NULL` constraints and
column types are left out; numbers are not negative; times are whole numbers.
-/

namespace Tomato.Sql

/-! ## Tokens -/

/-- The keywords used. -/
inductive Kw where
  | selectK | fromK | whereK | updateK | setK | insertK | intoK | valuesK | deleteK
  | andK | orK | isK | notK | nullK | inK | likeK
  deriving DecidableEq, Repr

/-- The words of the keywords, in lower case. -/
def keywords : List (String × Kw) :=
  [("select", .selectK), ("from", .fromK), ("where", .whereK), ("update", .updateK),
   ("set", .setK), ("insert", .insertK), ("into", .intoK), ("values", .valuesK),
   ("delete", .deleteK), ("and", .andK), ("or", .orK), ("is", .isK), ("not", .notK),
   ("null", .nullK), ("in", .inK), ("like", .likeK)]

/-- A token.  `par i` is the `i`-th placeholder `?`. -/
inductive Tok where
  | kw (k : Kw)
  | name (s : String)
  | num (n : Nat)
  | str (s : String)
  | par (i : Nat)
  | sym (c : Char)
  deriving DecidableEq, Repr

/-- What the tokeniser is in the middle of. -/
inductive Mode where
  | start
  | word (cs : List Char)
  | digits (cs : List Char)
  /-- inside of a string literal -/
  | str (cs : List Char)
  /-- after a quote in a string literal: the end of it, or the first half of a doubled quote -/
  | quote (cs : List Char)
  /-- after a `-` -/
  | dash
  /-- in a comment `-- ...` -/
  | comment
  /-- a text with other kinds of quotes or comments -/
  | outside
  deriving DecidableEq, Repr

/-- The tokeniser: the tokens so far (last first), the number of placeholders so far, the mode. -/
structure Lex where
  toks : List Tok := []
  pars : Nat := 0
  mode : Mode := .start
  deriving DecidableEq, Repr

/-- Add a token. -/
def Lex.push (l : Lex) (t : Tok) : Lex := { l with toks := t :: l.toks, mode := .start }

/-- A word: a keyword or a name; upper and lower case are the same. -/
def wordTok (cs : List Char) : Tok :=
  let w := String.ofList (cs.map Char.toLower)
  match keywords.find? (fun kv => kv.1 = w) with
  | some kv => .kw kv.2
  | none => .name w

/-- Can the character be part of a word? -/
def wordChar (c : Char) : Bool := c.isAlpha || c.isDigit || decide (c = '_')

/-- Read a character between tokens. -/
def Lex.fresh (l : Lex) (c : Char) : Lex :=
  if c.isWhitespace then { l with mode := .start }
  else if c.isDigit then { l with mode := .digits [c] }
  else if wordChar c then { l with mode := .word [c] }
  else if c = '\'' then { l with mode := .str [] }
  else if c = '-' then { l with mode := .dash }
  else if c = '?' then { toks := .par l.pars :: l.toks, pars := l.pars + 1, mode := .start }
  else if c = '"' ∨ c = '[' ∨ c = '`' ∨ c = '/' then { l with mode := .outside }
  else l.push (.sym c)

/-- Read a character. -/
def Lex.step (l : Lex) (c : Char) : Lex :=
  match l.mode with
  | .start => l.fresh c
  | .word cs =>
    if wordChar c then { l with mode := .word (cs ++ [c]) } else (l.push (wordTok cs)).fresh c
  | .digits cs =>
    if c.isDigit then { l with mode := .digits (cs ++ [c]) }
    else (l.push (.num (Nat.ofDigitChars 10 cs 0))).fresh c
  | .str cs => if c = '\'' then { l with mode := .quote cs } else { l with mode := .str (cs ++ [c]) }
  | .quote cs =>
    if c = '\'' then { l with mode := .str (cs ++ ['\'']) }
    else (l.push (.str (String.ofList cs))).fresh c
  | .dash => if c = '-' then { l with mode := .comment } else (l.push (.sym '-')).fresh c
  | .comment => if c = '\n' then { l with mode := .start } else l
  | .outside => l

/-- Read a text. -/
def Lex.read (l : Lex) (cs : List Char) : Lex := cs.foldl Lex.step l

/-- What is known about a text after its last character. -/
inductive Scan where
  | tokens (ts : List Tok) (pars : Nat)
  /-- a string literal is not closed -/
  | unclosed
  | outside
  deriving DecidableEq, Repr

/-- The end of the text. -/
def Lex.finish (l : Lex) : Scan :=
  match l.mode with
  | .start | .comment => .tokens l.toks.reverse l.pars
  | .word cs => .tokens (wordTok cs :: l.toks).reverse l.pars
  | .digits cs => .tokens (.num (Nat.ofDigitChars 10 cs 0) :: l.toks).reverse l.pars
  | .str _ => .unclosed
  | .quote cs => .tokens (.str (String.ofList cs) :: l.toks).reverse l.pars
  | .dash => .tokens (.sym '-' :: l.toks).reverse l.pars
  | .outside => .outside

/-- The tokens of a text. -/
def scan (text : String) : Scan := (Lex.read {} text.toList).finish

/-! ## Statements -/

/-- A value of a column or a parameter. -/
inductive Val where
  | null
  | int (n : Nat)
  | text (s : String)
  | blob (p : Payload)
  deriving DecidableEq, Repr

/-- Something with a value. -/
inductive Opd where
  | lit (v : Val)
  | col (c : String)
  | par (i : Nat)
  deriving DecidableEq, Repr

/-- A condition on a row. -/
inductive Cond where
  | eq (a b : Opd)
  | isNull (a : Opd)
  | notNull (a : Opd)
  | isIn (a : Opd) (bs : List Opd)
  | like (a b : Opd)
  | and (a b : Cond)
  | or (a b : Cond)
  deriving DecidableEq, Repr

/-- A statement. -/
inductive Stmt where
  /-- `what`: a column, or `none` for `*` -/
  | select (what : Option String) (table : String) (c : Cond)
  | update (table col : String) (v : Opd) (c : Cond)
  | insert (table : String) (cols : List String) (vs : List Opd)
  | delete (table : String) (c : Cond)
  deriving DecidableEq, Repr

/-- An operand is one token. -/
def opd : Tok → Option Opd
  | .num n => some (.lit (.int n))
  | .str s => some (.lit (.text s))
  | .par i => some (.par i)
  | .name c => some (.col c)
  | .kw .nullK => some (.lit .null)
  | _ => none

/-- At least one operand, separated by commas, and a closing parenthesis. -/
def opds : List Tok → Option (List Opd × List Tok)
  | t :: .sym c :: r =>
    match opd t with
    | none => none
    | some a =>
      if c = ')' then some ([a], r)
      else if c = ',' then (opds r).map (fun x => (a :: x.1, x.2))
      else none
  | _ => none

/-- The list of `IN (...)`, which can be empty. -/
def inList : List Tok → Option (List Opd × List Tok)
  | .sym c :: r => if c = ')' then some ([], r) else none
  | ts => opds ts

/-- Column names, separated by commas, and a closing parenthesis. -/
def colNames : List Tok → Option (List String × List Tok)
  | .name n :: .sym c :: r =>
    if c = ')' then some ([n], r)
    else if c = ',' then (colNames r).map (fun x => (n :: x.1, x.2))
    else none
  | _ => none

/-- A condition without `AND` and `OR`; `a` is its first operand. -/
def atomRest (a : Opd) : List Tok → Option (Cond × List Tok)
  | .sym c :: t :: r =>
    if c = '=' then (opd t).map (fun b => (.eq a b, r)) else none
  | .kw .isK :: .kw .nullK :: r => some (.isNull a, r)
  | .kw .isK :: .kw .notK :: .kw .nullK :: r => some (.notNull a, r)
  | .kw .inK :: .sym c :: r =>
    if c = '(' then (inList r).map (fun x => (.isIn a x.1, x.2)) else none
  | .kw .likeK :: t :: r => (opd t).map (fun b => (.like a b, r))
  | _ => none

/-- See `atomRest`. -/
def atom : List Tok → Option (Cond × List Tok)
  | t :: r =>
    match opd t with
    | some a => atomRest a r
    | none => none
  | [] => none

/-- Conditions joined by `AND`, at most `n`. -/
def conj : Nat → List Tok → Option (Cond × List Tok)
  | 0, _ => none
  | n + 1, ts =>
    match atom ts with
    | some (c, .kw .andK :: r) => (conj n r).map (fun x => (.and c x.1, x.2))
    | x => x

/-- Conditions joined by `OR`, at most `n`. -/
def disj : Nat → List Tok → Option (Cond × List Tok)
  | 0, _ => none
  | n + 1, ts =>
    match conj (n + 1) ts with
    | some (c, .kw .orK :: r) => (disj n r).map (fun x => (.or c x.1, x.2))
    | x => x

/-- A condition up to the end of the text; the final semicolon can be missing. -/
def condEnd (ts : List Tok) : Option Cond :=
  match disj ts.length ts with
  | some (c, []) => some c
  | some (c, [.sym s]) => if s = ';' then some c else none
  | _ => none

/-- `FROM table WHERE condition`. -/
def fromWhere : List Tok → Option (String × Cond)
  | .kw .fromK :: .name t :: .kw .whereK :: r => (condEnd r).map (fun c => (t, c))
  | _ => none

/-- After `UPDATE`. -/
def updateRest : List Tok → Option Stmt
  | .name t :: .kw .setK :: .name c :: .sym e :: v :: .kw .whereK :: r =>
    if e = '=' then
      match opd v, condEnd r with
      | some a, some x => some (.update t c a x)
      | _, _ => none
    else none
  | _ => none

/-- After `INSERT`. -/
def insertRest : List Tok → Option Stmt
  | .kw .intoK :: .name t :: .sym p :: r =>
    if p = '(' then
      match colNames r with
      | some (cs, .kw .valuesK :: .sym q :: r') =>
        if q = '(' then
          match opds r' with
          | some (vs, []) => some (.insert t cs vs)
          | some (vs, [.sym s]) => if s = ';' then some (.insert t cs vs) else none
          | _ => none
        else none
      | _ => none
    else none
  | _ => none

/-- After `SELECT`. -/
def selectRest : List Tok → Option Stmt
  | .sym s :: r => if s = '*' then (fromWhere r).map (fun x => .select none x.1 x.2) else none
  | .name c :: r => (fromWhere r).map (fun x => .select (some c) x.1 x.2)
  | _ => none

/-- The statement made of the tokens. -/
def parse : List Tok → Option Stmt
  | .kw .selectK :: r => selectRest r
  | .kw .updateK :: r => updateRest r
  | .kw .insertK :: r => insertRest r
  | .kw .deleteK :: r => (fromWhere r).map (fun x => .delete x.1 x.2)
  | _ => none

/-! ## Execution -/

/-- A row: values by column. -/
abbrev Row := Dict String Val

/-- The database: the rows of the three tables, in order of insertion, and sqlite's counter for the
column `queue.id INTEGER PRIMARY KEY AUTOINCREMENT`. -/
structure Db where
  queue : List Row := []
  seq : Nat := 0
  pipelines : List Row := []
  drivers : List Row := []
  deriving DecidableEq, Repr

/-- The columns of the tables, see `Verif/Db.lean`. -/
def columns (t : String) : Option (List String) :=
  if t = "queue" then some queueCols
  else if t = "pipelines" then some pipelinesCols
  else if t = "drivers" then some driversCols
  else none

/-- The rows of a table. -/
def Db.rows (db : Db) (t : String) : List Row :=
  if t = "queue" then db.queue
  else if t = "pipelines" then db.pipelines
  else if t = "drivers" then db.drivers
  else []

/-- Replace the rows of a table. -/
def Db.setRows (db : Db) (t : String) (rs : List Row) : Db :=
  if t = "queue" then { db with queue := rs }
  else if t = "pipelines" then { db with pipelines := rs }
  else if t = "drivers" then { db with drivers := rs }
  else db

/-- The value of an operand. -/
def Opd.eval (ps : List Val) (r : Row) : Opd → Val
  | .lit v => v
  | .col c => (Dict.get? r c).getD .null
  | .par i => (ps[i]?).getD .null

/-- `a = b`, unknown (`none`) if one of them is `NULL`. -/
def valEq (a b : Val) : Option Bool :=
  if a = .null ∨ b = .null then none else some (decide (a = b))

/-- `a LIKE b`, see `Tomato.like`. -/
def valLike (a b : Val) : Option Bool :=
  match a, b with
  | .null, _ | _, .null => none
  | .text s, .text p => some (Tomato.like p.toList s.toList)
  | _, _ => some false

/-- `OR` of SQL. -/
def or3 : Option Bool → Option Bool → Option Bool
  | some true, _ | _, some true => some true
  | some false, some false => some false
  | _, _ => none

/-- `AND` of SQL. -/
def and3 : Option Bool → Option Bool → Option Bool
  | some false, _ | _, some false => some false
  | some true, some true => some true
  | _, _ => none

/-- The value of a condition, `none` is `NULL`. -/
def Cond.eval (ps : List Val) (r : Row) : Cond → Option Bool
  | .eq a b => valEq (a.eval ps r) (b.eval ps r)
  | .isNull a => some (decide (a.eval ps r = .null))
  | .notNull a => some (decide (a.eval ps r ≠ .null))
  | .isIn a bs => bs.foldr (fun b x => or3 (valEq (a.eval ps r) (b.eval ps r)) x) (some false)
  | .like a b => valLike (a.eval ps r) (b.eval ps r)
  | .and a b => and3 (a.eval ps r) (b.eval ps r)
  | .or a b => or3 (a.eval ps r) (b.eval ps r)

/-- Does the statement apply to the row? -/
def Cond.holds (c : Cond) (ps : List Val) (r : Row) : Bool := decide (c.eval ps r = some true)

/-- The column an operand refers to. -/
def Opd.cols : Opd → List String
  | .col c => [c]
  | _ => []

/-- The columns a condition refers to. -/
def Cond.cols : Cond → List String
  | .eq a b | .like a b => a.cols ++ b.cols
  | .isNull a | .notNull a => a.cols
  | .isIn a bs => a.cols ++ bs.flatMap Opd.cols
  | .and a b | .or a b => a.cols ++ b.cols

/-- The table of a statement and the columns it refers to. -/
def Stmt.refs : Stmt → String × List String
  | .select none t c => (t, c.cols)
  | .select (some x) t c => (t, x :: c.cols)
  | .update t x v c => (t, x :: v.cols ++ c.cols)
  | .insert t cs _ => (t, cs)
  | .delete t c => (t, c.cols)

/-- Do the table and the columns exist? -/
def Stmt.known (s : Stmt) : Bool :=
  match columns s.refs.1 with
  | none => false
  | some cs => s.refs.2.all (fun c => cs.contains c)

/-- What comes of a text. -/
inductive Out where
  /-- the rows selected, and the database afterwards -/
  | done (rows : List Row) (db : Db)
  /-- an exception; nothing has been changed -/
  | fails (e : PyErr)
  | outside
  deriving DecidableEq, Repr

/-- Execute a statement: a new row is refused if its `name` is taken (`PRIMARY KEY`), and gets the
next `id` if it has none (`AUTOINCREMENT`). -/
def Stmt.run (s : Stmt) (ps : List Val) (db : Db) : Out :=
  match s with
  | .select what t c =>
    let rs := (db.rows t).filter (c.holds ps)
    match what with
    | none => .done rs db
    | some x => .done (rs.map (fun r => r.filter (fun kv => kv.1 = x))) db
  | .update t x v c =>
    .done [] (db.setRows t ((db.rows t).map (fun r =>
      if c.holds ps r then Dict.set r x (v.eval ps r) else r)))
  | .insert t cs vs =>
    let r : Row := cs.zip (vs.map (fun v => v.eval ps []))
    if t = "queue" then
      .done [] { db with queue := db.queue ++ [("id", .int (db.seq + 1)) :: r], seq := db.seq + 1 }
    else if (db.rows t).any (fun r' => decide (Dict.get? r' "name" = Dict.get? r "name")) then
      .fails .integrityError
    else .done [] (db.setRows t (db.rows t ++ [r]))
  | .delete t c => .done [] (db.setRows t ((db.rows t).filter (fun r => !c.holds ps r)))

/-- `cur.execute(text, ps)`: an error of the text is an `OperationalError`; the number of parameters
must be that of the placeholders. -/
def execute (text : String) (ps : List Val) (db : Db) : Out :=
  match scan text with
  | .outside => .outside
  | .unclosed => .fails .operationalError
  | .tokens ts n =>
    match parse ts with
    | none => .outside
    | some s =>
      if !s.known then .fails .operationalError
      else if n ≠ ps.length then .fails .programmingError
      else s.run ps db

/-- `for k, v in params.items(): cur.execute(text(k), (v,))` and the commit; when one of them raises
there is no commit. -/
def executeAll (text : String → String) : List (String × Val) → Db → Out
  | [], db => .done [] db
  | (k, v) :: rest, db =>
    match execute (text k) [v] db with
    | .done _ db' => executeAll text rest db'
    | x => x

/-! ## The texts -/

/-- jobdb.py:21-23. -/
def insertJobText : String :=
  "INSERT INTO queue (payload, jobname, pid, status, submitted_at, " ++
  "launched_at, connected_at, completed_at, jobpath, respath, snappath)" ++
  "VALUES (?, ?, ?, ?, ?, ?, ?, ?, ?, ?, ?);"

/-- jobdb.py:39. -/
def idBySubmittedText (stamp : String) : String :=
  "SELECT id FROM queue WHERE submitted_at = '" ++ stamp ++ "';"

/-- jobdb.py:48. -/
def updateJobText (id : Nat) (k : String) : String :=
  "UPDATE queue SET " ++ k ++ " = ? WHERE id = " ++ toString id ++ ";"

/-- jobdb.py:56. -/
def getJobText : String := "SELECT * FROM queue WHERE id = ?;"

/-- jobdb.py:66, pipdb.py:50, drvdb.py:60. -/
def whereText (table cond : String) : String :=
  "SELECT * FROM " ++ table ++ " WHERE " ++ cond ++ ";"

/-- ketchup:175, 238, 293. -/
def idInCond (ids : List Nat) : String :=
  "id IN (" ++ ", ".intercalate (ids.map toString) ++ ")"

/-- ketchup:338. -/
def likeCond (jobname : String) : String := "jobname LIKE '%" ++ jobname ++ "%'"

/-- pipdb.py:20. -/
def insertPipText : String :=
  "INSERT INTO pipelines (name, ready, jobid, sampleid) VALUES (?, ?, ?, ?);"

/-- pipdb.py:30. -/
def updatePipText (name k : String) : String :=
  "UPDATE pipelines SET " ++ k ++ " = ? WHERE name = '" ++ name ++ "';"

/-- pipdb.py:38. -/
def getPipText : String := "SELECT * FROM pipelines WHERE name = ?;"

/-- drvdb.py:20-22. -/
def insertDrvText : String :=
  "INSERT INTO drivers (name, port, pid, version, " ++
  "spawn_time, spawn_count, heartbeat_time) " ++ "VALUES (?, ?, ?, ?, ?, ?, ?);"

/-- drvdb.py:40. -/
def updateDrvText (name k : String) : String :=
  "UPDATE drivers SET " ++ k ++ " = ? WHERE name = '" ++ name ++ "';"

/-- drvdb.py:48. -/
def getDrvText : String := "SELECT * FROM drivers WHERE name = ?;"

/-- drvdb.py:72. -/
def delDrvText (name : String) : String := "DELETE FROM drivers WHERE name = '" ++ name ++ "';"

/-! ## Rows and objects -/

/-- `str(datetime)` and its inverse, jobdb.py:28-31 and pydantic's validation: a text without quotes
from which the time can be read again (assumed of the runtime). -/
structure Stamp where
  show_ : Nat → String
  read : String → Option Nat
  read_show : ∀ t, read (show_ t) = some t
  plain : ∀ t, '\'' ∉ (show_ t).toList

/-- A number or `NULL`. -/
def ofNat? : Option Nat → Val
  | none => .null
  | some n => .int n

/-- A text or `NULL`. -/
def ofText? : Option String → Val
  | none => .null
  | some s => .text s

/-- A time or `NULL`. -/
def Stamp.of? (f : Stamp) : Option Nat → Val
  | none => .null
  | some t => .text (f.show_ t)

/-- python's `bool`, stored as a number. -/
def ofBool (b : Bool) : Val := .int (if b then 1 else 0)

/-- The texts of `job.status`, models.py:54. -/
def statusText : JobStatus → String
  | .q => "q" | .qw => "qw" | .r => "r" | .rd => "rd" | .c => "c" | .cd => "cd" | .ce => "ce"

/-- The row of a pipeline, pipdb.py:18-22. -/
def pipRow (p : PipState) : Row :=
  [("name", .text p.name), ("ready", ofBool p.ready), ("jobid", ofNat? p.jobid),
   ("sampleid", ofText? p.sampleid)]

/-- The row of a driver, drvdb.py:18-32. -/
def drvRow (d : DrvState) : Row :=
  [("name", .text d.name), ("port", ofNat? d.port), ("pid", ofNat? d.pid),
   ("version", ofText? d.version), ("spawn_time", .int d.spawnTime),
   ("spawn_count", .int d.spawnCount), ("heartbeat_time", .int d.heartbeatTime)]

/-- The values of the row of a job but for its id, jobdb.py:24-36. -/
def jobVals (f : Stamp) (j : Job) : List Val :=
  [.blob j.payload, ofText? j.jobname, ofNat? j.pid, .text (statusText j.status),
   .text (f.show_ j.submittedAt), f.of? j.launchedAt, f.of? j.connectedAt, f.of? j.completedAt,
   ofText? j.jobpath, ofText? j.respath, ofText? j.snappath]

/-- The row of a job. -/
def jobRow (f : Stamp) (j : Job) : Row := queueCols.zip (.int j.id :: jobVals f j)

/-- The database of a world. -/
def ofWorld (f : Stamp) (w : World) : Db :=
  { queue := w.jobs.map (jobRow f), seq := w.jobSeq, pipelines := w.pips.map pipRow,
    drivers := w.drvs.map drvRow }

/-- Read a number or `NULL`. -/
def nat? : Val → Option (Option Nat)
  | .null => some none
  | .int n => some (some n)
  | _ => none

/-- Read a text or `NULL`. -/
def text? : Val → Option (Option String)
  | .null => some none
  | .text s => some (some s)
  | _ => none

/-- Read a time or `NULL`. -/
def Stamp.time? (f : Stamp) : Val → Option (Option Nat)
  | .null => some none
  | .text s => (f.read s).map some
  | _ => none

/-- Read a number. -/
def nat! : Val → Option Nat
  | .int n => some n
  | _ => none

/-- Read a text. -/
def text! : Val → Option String
  | .text s => some s
  | _ => none

/-- Read a status. -/
def status! : Val → Option JobStatus
  | .text s => [JobStatus.q, .qw, .r, .rd, .c, .cd, .ce].find? (fun x => statusText x = s)
  | _ => none

/-- `PipState(**{k: v for k, v in zip(columns, data)})`, pipdb.py:43 and 56; `none`: the values are
refused. -/
def pipOf (r : Row) : Option PipState := do
  let name ← text! (← Dict.get? r "name")
  let ready ← nat! (← Dict.get? r "ready")
  let jobid ← nat? (← Dict.get? r "jobid")
  let sampleid ← text? (← Dict.get? r "sampleid")
  some { name, ready := decide (ready = 1), jobid, sampleid }

/-- `DrvState(**{...})`, drvdb.py:53 and 66. -/
def drvOf (r : Row) : Option DrvState := do
  let name ← text! (← Dict.get? r "name")
  let port ← nat? (← Dict.get? r "port")
  let pid ← nat? (← Dict.get? r "pid")
  let version ← text? (← Dict.get? r "version")
  let spawnTime ← nat! (← Dict.get? r "spawn_time")
  let spawnCount ← nat! (← Dict.get? r "spawn_count")
  let heartbeatTime ← nat! (← Dict.get? r "heartbeat_time")
  some { name, port, pid, version, spawnTime, spawnCount, heartbeatTime }

/-- Read a pickled payload, models.py:59-72. -/
def payload! : Val → Option Payload
  | .blob p => some p
  | _ => none

/-- `Job(**{...})`, jobdb.py:60 and 72. -/
def jobOf (f : Stamp) (r : Row) : Option Job := do
  let id ← nat! (← Dict.get? r "id")
  let payload ← payload! (← Dict.get? r "payload")
  let jobname ← text? (← Dict.get? r "jobname")
  let pid ← nat? (← Dict.get? r "pid")
  let status ← status! (← Dict.get? r "status")
  let submittedAt ← (← f.time? (← Dict.get? r "submitted_at"))
  let launchedAt ← f.time? (← Dict.get? r "launched_at")
  let connectedAt ← f.time? (← Dict.get? r "connected_at")
  let completedAt ← f.time? (← Dict.get? r "completed_at")
  let jobpath ← text? (← Dict.get? r "jobpath")
  let respath ← text? (← Dict.get? r "respath")
  let snappath ← text? (← Dict.get? r "snappath")
  some { id, payload, jobname, pid, status, submittedAt, launchedAt, connectedAt, completedAt,
         jobpath, respath, snappath }

/-- A column of `queue` and its new value: one element of `params.items()`. -/
def jobParam (f : Stamp) : JobParam → String × Val
  | .payload v => ("payload", .blob v)
  | .jobname v => ("jobname", ofText? v)
  | .submittedAt v => ("submitted_at", .text (f.show_ v))
  | .pid v => ("pid", ofNat? v)
  | .status v => ("status", .text (statusText v))
  | .launchedAt v => ("launched_at", f.of? v)
  | .connectedAt v => ("connected_at", f.of? v)
  | .completedAt v => ("completed_at", f.of? v)
  | .jobpath v => ("jobpath", ofText? v)
  | .respath v => ("respath", ofText? v)
  | .snappath v => ("snappath", ofText? v)

/-- See `jobParam`. -/
def pipParam : PipParam → String × Val
  | .ready v => ("ready", ofBool v)
  | .jobid v => ("jobid", ofNat? v)
  | .sampleid v => ("sampleid", ofText? v)

/-- See `jobParam`. -/
def drvParam : DrvParam → String × Val
  | .port v => ("port", ofNat? v)
  | .pid v => ("pid", ofNat? v)
  | .version v => ("version", ofText? v)
  | .spawnTime v => ("spawn_time", .int v)
  | .spawnCount v => ("spawn_count", .int v)
  | .heartbeatTime v => ("heartbeat_time", .int v)

/-! ## The functions of jobdb.py, pipdb.py and drvdb.py -/

/-- What `cur.execute` (and the commit) of `update_pip` do, pipdb.py:28-32. -/
def updatePip (name : String) (ps : List PipParam) : Db → Out :=
  executeAll (updatePipText name) (ps.map pipParam)

/-- `update_drv`, drvdb.py:37-42. -/
def updateDrv (name : String) (ps : List DrvParam) : Db → Out :=
  executeAll (updateDrvText name) (ps.map drvParam)

/-- `update_job_id`, jobdb.py:45-50. -/
def updateJob (f : Stamp) (id : Nat) (ps : List JobParam) : Db → Out :=
  executeAll (updateJobText id) (ps.map (jobParam f))

/-- `insert_pip`, pipdb.py:17-23. -/
def insertPip (p : PipState) : Db → Out :=
  execute insertPipText [.text p.name, ofBool p.ready, ofNat? p.jobid, ofText? p.sampleid]

/-- `insert_drv`, drvdb.py:17-33. -/
def insertDrv (d : DrvState) : Db → Out :=
  execute insertDrvText [.text d.name, ofNat? d.port, ofNat? d.pid, ofText? d.version,
    .int d.spawnTime, .int d.spawnCount, .int d.heartbeatTime]

/-- `insert_job`, jobdb.py:18-38. -/
def insertJob (f : Stamp) (j : Job) : Db → Out := execute insertJobText (jobVals f j)

/-- `del_drv`, drvdb.py:70-74. -/
def delDrv (name : String) : Db → Out := execute (delDrvText name) [.text name]

/-! ## The operations of `Verif/World.lean`, by way of the texts -/

/-- Read the database back; the rest of the world stays. -/
def toWorld (f : Stamp) (w : World) (db : Db) : World :=
  { w with jobs := db.queue.filterMap (jobOf f), jobSeq := db.seq,
           pips := db.pipelines.filterMap pipOf, drvs := db.drivers.filterMap drvOf }

/-- What sqlite does with texts that are outside of the modelled part of SQL: anything. -/
abbrev Beyond := (o : Op) → World → Except PyErr (Resp o) × World

/-- The result of a statement without answer. -/
def written (f : Stamp) (w : World) (beyond : Except PyErr Unit × World) :
    Out → Except PyErr Unit × World
  | .done _ db => (.ok (), toWorld f w db)
  | .fails e => (.error e, w)
  | .outside => beyond

/-- The result of a statement with an answer. -/
def answered {α : Type} (w : World) (beyond : Except PyErr α × World)
    (get : List Row → Except PyErr α) : Out → Except PyErr α × World
  | .done rs _ => (get rs, w)
  | .fails e => (.error e, w)
  | .outside => beyond

/-- The operations of `Op` carried out by executing the texts of the code on the tables.  The
conditions of `jobsWhere`, `pipsWhere` and `drvsWhere` are treated separately (`select`). -/
def execText (f : Stamp) (beyond : Beyond) : (o : Op) → World → Except PyErr (Resp o) × World
  | .fetchJob id, w =>
    answered w (beyond (.fetchJob id) w) (fun rs => .ok (rs.head?.bind (jobOf f)))
      (execute getJobText [.int id] (ofWorld f w))
  | .insertJob j, w => written f w (beyond (.insertJob j) w) (insertJob f j (ofWorld f w))
  | .idBySubmitted t, w =>
    answered w (beyond (.idBySubmitted t) w)
      (fun rs => match rs.head?.bind (fun r => (Dict.get? r "id").bind nat!) with
        | some id => .ok id
        | none => .error .typeError)
      (execute (idBySubmittedText (f.show_ t)) [] (ofWorld f w))
  | .updateJob id ps, w => written f w (beyond (.updateJob id ps) w) (updateJob f id ps (ofWorld f w))
  | .getPip n, w =>
    answered w (beyond (.getPip n) w) (fun rs => .ok (rs.head?.bind pipOf))
      (execute getPipText [.text n] (ofWorld f w))
  | .insertPip p, w => written f w (beyond (.insertPip p) w) (insertPip p (ofWorld f w))
  | .updatePip n ps, w => written f w (beyond (.updatePip n ps) w) (updatePip n ps (ofWorld f w))
  | .getDrv n, w =>
    answered w (beyond (.getDrv n) w) (fun rs => .ok (rs.head?.bind drvOf))
      (execute getDrvText [.text n] (ofWorld f w))
  | .insertDrv d, w => written f w (beyond (.insertDrv d) w) (insertDrv d (ofWorld f w))
  | .updateDrv n ps, w => written f w (beyond (.updateDrv n ps) w) (updateDrv n ps (ofWorld f w))
  | .delDrv n, w => written f w (beyond (.delDrv n) w) (delDrv n (ofWorld f w))
  | o, w => exec o w

/-- The rows of a table for which a condition holds, jobdb.py:64-73, pipdb.py:48-57,
drvdb.py:58-67, as objects. -/
def select {α : Type} (read : Row → Option α) (table cond : String) (db : Db) :
    Option (Except PyErr (List α)) :=
  match execute (whereText table cond) [] db with
  | .done rs _ => some (.ok (rs.filterMap read))
  | .fails e => some (.error e)
  | .outside => none

end Tomato.Sql
