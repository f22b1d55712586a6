import Verif.Cli
import Verif.Cmd
import Verif.DeviceFile

/-!
# The settings written by `tomato init`, and how they are read

The text of `settings.toml` (`/repo/src/tomato/tomato/__init__.py:401-431`) and of `devices.yml`
(438-453), and `toml.load` (`tomato/__init__.py:313`, `models.py:101`).

Simplifications: a text is a list of characters.  Paths are absolute, resolved and POSIX.  `textwrap.dedent`
removes the indentation of the template, which is done here by writing the template without it (for
paths without line breaks, which do not change the indentation).  Of TOML, the part is modelled that is
needed for such files: comments, tables `[name]`, bare and dotted keys, literal strings in single quotes,
decimal numbers; everything else is an error here.  The YAML document is given as what it stands for.
-/

namespace Tomato.Init

/-! ## Writing -/

/-- `str(path)`. -/
def pathText (p : FsPath) : List Char := p.flatMap (fun c => '/' :: c.toList)

/-- `key = 'path'`. -/
def entry (key : String) (v : List Char) : List Char := key.toList ++ " = '".toList ++ v ++ ['\'']

/-- The lines of `settings.toml`, tomato 410-431; `storage` and `dbpath`: 407-408. -/
def settingsLines (version date : List Char) (appdir datadir logdir : FsPath) : List (List Char) :=
  [ "# Default settings for tomato-".toList ++ version,
    "# Generated on ".toList ++ date,
    entry "datadir" (pathText datadir),
    entry "logdir" (pathText logdir),
    [],
    "[jobs]".toList,
    entry "storage" (pathText (datadir ++ ["Jobs"])),
    entry "dbpath" (pathText (datadir ++ ["Jobs"] ++ ["dbpath.sqlite"])),
    [],
    "[devices]".toList,
    entry "config" (pathText (appdir ++ ["devices.yml"])),
    [],
    "[repositories]".toList,
    "# default.endpoint = 'https://example.endpoint/'".toList,
    "# default.api_key = 'abcd23abcd23'".toList,
    [],
    "[drivers]".toList,
    "example_counter.idle_measurement_interval = 1".toList,
    "example_counter.lpp_timeout = 2".toList ]

/-- The text: every line ends with a line break. -/
def unlines (ls : List (List Char)) : List Char := ls.flatMap (· ++ ['\n'])

/-- `defaults`, tomato 409-431. -/
def settingsText (version date : List Char) (appdir datadir logdir : FsPath) : List Char :=
  unlines (settingsLines version date appdir datadir logdir)

/-- What `devices.yml` stands for, tomato 438-453. -/
def defaultDevices : RawFile where
  devices := [{ name := "dev-counter", driver := "example_counter", address := "example-addr",
                channels := ["1"] }]
  pipelines := [{ name := "pip-counter",
                  devices := [{ role := "counter", device := "dev-counter", channel := "1" }] }]

/-! ## Reading -/

/-- A value. -/
inductive Val where
  | str (s : List Char)
  | num (digits : List Char)
  deriving DecidableEq, Repr

/-- The tables and the values of a document, with their full names. -/
structure Doc where
  tables : List (List (List Char)) := []
  vals : List (List (List Char) × Val) := []
  deriving DecidableEq, Repr

/-- The lines of a text. -/
def lines : List Char → List (List Char)
  | [] => [[]]
  | c :: cs =>
    if c = '\n' then [] :: lines cs
    else
      match lines cs with
      | [] => [[c]]
      | l :: ls => (c :: l) :: ls

/-- White space within a line. -/
def isBlank (c : Char) : Bool := c = ' ' || c = '\t'

/-- Nothing but white space or a comment. -/
def atEnd (cs : List Char) : Bool :=
  match cs.dropWhile isBlank with
  | [] => true
  | c :: _ => c = '#'

/-- The rest of a literal string, after its opening quote: the string, and what follows.  No control
characters but tabs are allowed in it. -/
def literal : List Char → Option (List Char × List Char)
  | [] => none
  | c :: cs =>
    if c = '\'' then some ([], cs)
    else if (c.toNat < 32 ∧ c ≠ '\t') ∨ c.toNat = 127 then none
    else (literal cs).map (fun r => (c :: r.1, r.2))

/-- Characters of a bare key. -/
def isBare (c : Char) : Bool := c.isAlphanum || c = '_' || c = '-'

/-- The part up to a character, and the part behind it. -/
def cut (x : Char) : List Char → Option (List Char × List Char)
  | [] => none
  | c :: cs => if c = x then some ([], cs) else (cut x cs).map (fun r => (c :: r.1, r.2))

/-- The segments of a dotted name. -/
def segments : List Char → List (List Char)
  | [] => [[]]
  | c :: cs =>
    if c = '.' then [] :: segments cs
    else
      match segments cs with
      | [] => [[c]]
      | l :: ls => (c :: l) :: ls

/-- A bare or dotted key. -/
def keyOf (cs : List Char) : Option (List (List Char)) :=
  let ss := (segments cs).map (fun s => ((s.dropWhile isBlank).reverse.dropWhile isBlank).reverse)
  if ss.all (fun s => s ≠ [] && s.all isBare) then some ss else none

/-- A value, with nothing but a comment behind it. -/
def valueOf (cs : List Char) : Option Val :=
  match cs.dropWhile isBlank with
  | [] => none
  | c :: cs =>
    if c = '\'' then
      match literal cs with
      | none => none
      | some (s, r) => if atEnd r then some (.str s) else none
    else if c.isDigit then
      if atEnd (cs.dropWhile Char.isDigit) then some (.num (c :: cs.takeWhile Char.isDigit)) else none
    else none

/-- One line: the current table and the document after it, or a `TomlDecodeError`. -/
def readLine (t : List (List Char)) (d : Doc) (l : List Char) : Option (List (List Char) × Doc) :=
  match l.dropWhile isBlank with
  | [] => some (t, d)
  | c :: cs =>
    if c = '#' then some (t, d)
    else if c = '[' then
      match cut ']' cs with
      | none => none
      | some (n, r) =>
        match keyOf n with
        | none => none
        | some k => if atEnd r ∧ k ∉ d.tables then some (k, { d with tables := d.tables ++ [k] }) else none
    else
      match cut '=' (c :: cs) with
      | none => none
      | some (n, r) =>
        match keyOf n, valueOf r with
        | some k, some v =>
          if (t ++ k) ∉ d.vals.map (·.1) then some (t, { d with vals := d.vals ++ [(t ++ k, v)] }) else none
        | _, _ => none

/-- All lines. -/
def readLines : List (List Char) → Doc → List (List Char) → Option Doc
  | _, d, [] => some d
  | t, d, l :: ls =>
    match readLine t d l with
    | none => none
    | some (t', d') => readLines t' d' ls

/-- `toml.load`; `none`: a `TomlDecodeError`. -/
def load (text : List Char) : Option Doc := readLines [] {} (lines text)

/-- `settings[a][b]...`; `none`: a `KeyError`. -/
def Doc.get (d : Doc) (k : List String) : Option Val :=
  (d.vals.find? (fun kv => kv.1 = k.map String.toList)).map (·.2)

/-- The text of a value. -/
def Val.text : Val → String
  | .str s => String.ofList s
  | .num s => String.ofList s

/-- The entries `settings["drivers"][driver][key]`. -/
def Doc.drivers (d : Doc) : Dict String (Dict String String) :=
  d.vals.foldl (fun acc kv =>
    match kv.1 with
    | [s, drv, k] =>
      if s = "drivers".toList then
        let old := (Dict.get? acc (String.ofList drv)).getD []
        Dict.set acc (String.ofList drv) (Dict.set old (String.ofList k) kv.2.text)
      else acc
    | _ => acc) []

/-- The section `repositories`: the names in it. -/
def Doc.repositories (d : Doc) : Option (Dict String String) :=
  let names := (d.vals.map (·.1) ++ d.tables).filterMap (fun k =>
    match k with
    | s :: n :: _ => if s = "repositories".toList then some (String.ofList n) else none
    | _ => none)
  if "repositories".toList ∈ (d.vals.map (·.1) ++ d.tables).filterMap List.head? then
    some (Dict.ofList (names.map (fun n => (n, n))))
  else none

/-- The settings as used by the daemon (`Verif/Models.lean`). -/
def Doc.settings (d : Doc) : Option Settings :=
  match d.get ["jobs", "storage"] with
  | some (.str s) => some { storage := String.ofList s, repositories := d.repositories, drivers := d.drivers }
  | _ => none

end Tomato.Init
