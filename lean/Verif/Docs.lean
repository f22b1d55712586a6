import Verif.DeviceFile

/-!
# The configuration files as documents

`Verif/DeviceFile.lean` starts from a device file that has been read into records.  Here the files
are what `yaml.safe_load` and `toml.load` return: values of any shape.  Modelled are
`DeviceFile` (`/repo/src/tomato/models.py:147-235`) and `Daemon` (`models.py:78-111`) on such
values, with the conversions made by pydantic, and the places where the daemon reads its settings:
`daemon/__init__.py:28` and `56`, `daemon/cmd.py:35`, `57-58`, `95` and `152-153`, `daemon/job.py:61-276`,
`daemon/pip.py:46`, `daemon/driver.py:352-430`.

Simplifications.  Values of the YAML tags for dates behave like numbers here; binary data, sets and
ordered mappings are left out.  Keys which are no strings are not told apart.  A failing assertion
in a validator, which pydantic turns into its own exception, keeps its name.
-/

namespace Tomato.Docs

/-- A key of a mapping: keys which are no strings are never looked up. -/
inductive Key where
  | str (s : String)
  | other
  deriving DecidableEq, Repr

/-- A value of a document.  Of a number with a decimal point only matters which integer it is equal
to, if any. -/
inductive Val where
  | null
  | bool (b : Bool)
  | int (i : Int)
  | float (whole : Option Int)
  | str (s : String)
  | list (xs : List Val)
  | map (es : List (Key × Val))

/-- A key as a value. -/
def Key.val : Key → Val
  | .str s => .str s
  | .other => .null

/-- The entry of a key. -/
def lookup (k : String) : List (Key × Val) → Option Val
  | [] => none
  | (k', v) :: rest => if k' = .str k then some v else lookup k rest

/-- `v[k]`. -/
def getItem (v : Val) (k : String) : Except PyErr Val :=
  match v with
  | .map es => match lookup k es with
    | some w => .ok w
    | none => .error .keyError
  | _ => .error .typeError

/-- `iter(v)`. -/
def iter : Val → Except PyErr (List Val)
  | .list xs => .ok xs
  | .map es => .ok (es.map (fun e => e.1.val))
  | .str s => .ok (s.toList.map (fun c => .str (String.ofList [c])))
  | _ => .error .typeError

/-- `hash(v)` works. -/
def hashable : Val → Bool
  | .list _ => false
  | .map _ => false
  | _ => true

/-- A string among the keys of a dictionary: `v in d` and then `d[v]`. -/
def inKeys {α : Type} (v : Val) (d : Dict String α) : Except PyErr (Option α) :=
  match v with
  | .str s => .ok (d.get? s)
  | v => if hashable v then .ok none else .error .typeError

/-! ## The classes -/

/-- pydantic's conversion to `int`; `strInt`: of a string. -/
def asInt (strInt : String → Option Int) : Val → Option Int
  | .int i => some i
  | .bool b => some (if b then 1 else 0)
  | .float w => w
  | .str s => strInt s
  | _ => none

/-- pydantic's check of `str`. -/
def asStr : Val → Option String
  | .str s => some s
  | _ => none

/-- pydantic's check of the elements of `Sequence[str]`. -/
def asStrs : List Val → Option (List String)
  | [] => some []
  | .str s :: rest => (asStrs rest).map (s :: ·)
  | _ :: _ => none

/-- pydantic's check of `Sequence[str]`; a string is no sequence. -/
def asSeq : Val → Option (List String)
  | .list xs => asStrs xs
  | _ => none

/-- All keys are strings. -/
def strKeys (es : List (Key × Val)) : Bool := es.all (fun e => decide (e.1 ≠ .other))

/-- `pollrate: int = 1`, models.py:139. -/
def pollOf (strInt : String → Option Int) (es : List (Key × Val)) : Option Int :=
  match lookup "pollrate" es with
  | none => some 1
  | some v => asInt strInt v

/-- `Device(**d)`, models.py:134-139 and 177: other keys are ignored. -/
def mkDevice (strInt : String → Option Int) (es : List (Key × Val)) : Except PyErr Device :=
  if strKeys es then
    match (lookup "name" es).bind asStr, (lookup "driver" es).bind asStr,
        (lookup "address" es).bind asStr, (lookup "channels" es).bind asSeq, pollOf strInt es with
    | some n, some drv, some a, some chs, some r =>
      .ok { name := n, driver := drv, address := a, channels := chs, pollrate := r }
    | _, _, _, _, _ => .error .validationError
  else .error .typeError

/-- One turn of the comprehension, models.py:177: `d["name"]`, then `Device(**d)`. -/
def readDevice (strInt : String → Option Int) (d : Val) : Except PyErr Device :=
  match d with
  | .map es => match lookup "name" es with
    | none => .error .keyError
    | some _ => mkDevice strInt es
  | _ => .error .typeError

/-- models.py:177: the devices, in order. -/
def readDevices (strInt : String → Option Int) : List Val → Except PyErr (List Device)
  | [] => .ok []
  | d :: ds =>
    match readDevice strInt d with
    | .error e => .error e
    | .ok dev => match readDevices strInt ds with
      | .error e => .error e
      | .ok devs => .ok (dev :: devs)

/-! ## Pipelines -/

/-- The loop over the channels of a wildcard pipeline, models.py:192-205; `comp` is the entry with
the role. -/
def wildLoop (comp : Val) (pname : String) (dev : Device) :
    List String → DeviceFile → Except PyErr DeviceFile
  | [], df => .ok df
  | ch :: rest, df =>
    match getItem comp "role" with
    | .error e => .error e
    | .ok (.str role) =>
      wildLoop comp pname dev rest
        (addPip (addComp df dev ch) (replaceStars pname ch)
          [(role, cmpName dev.driver dev.address ch)])
    | .ok r => .error (if hashable r then .validationError else .typeError)

/-- The entry of a wildcard pipeline, models.py:185-205; the message of the assertion reads
`comp['chanel']`. -/
def wildEntry (comp : Val) (pname : String) (df : DeviceFile) : Except PyErr DeviceFile :=
  match getItem comp "device" with
  | .error e => .error e
  | .ok d => match inKeys d df.devices with
    | .error e => .error e
    | .ok none => .error .assertionError
    | .ok (some dev) => match getItem comp "channel" with
      | .error e => .error e
      | .ok c =>
        if asStr c = some "each" then wildLoop comp pname dev dev.channels df
        else match getItem comp "chanel" with
          | .error e => .error e
          | .ok _ => .error .assertionError

/-- The loop over the components of an ordinary pipeline, models.py:208-225.  `bad`: a role is no
string, which pydantic will object to. -/
def refLoop : List Val → DeviceFile → Dict String String → Bool →
    Except PyErr (DeviceFile × Dict String String × Bool)
  | [], df, cmps, bad => .ok (df, cmps, bad)
  | comp :: rest, df, cmps, bad =>
    match getItem comp "device" with
    | .error e => .error e
    | .ok d => match inKeys d df.devices with
      | .error e => .error e
      | .ok none => .error .assertionError
      | .ok (some dev) => match getItem comp "channel" with
        | .error e => .error e
        | .ok (.str ch) =>
          if ch ∈ dev.channels then
            match getItem comp "role" with
            | .error e => .error e
            | .ok (.str role) =>
              refLoop rest (addComp df dev ch)
                (Dict.set cmps role (cmpName dev.driver dev.address ch)) bad
            | .ok r =>
              if hashable r then refLoop rest (addComp df dev ch) cmps true
              else .error .typeError
          else .error .assertionError
        | .ok _ => .error .assertionError

/-- One turn of the loop over the pipelines, models.py:180-229. -/
def readPipeline (df : DeviceFile) (pip : Val) : Except PyErr DeviceFile :=
  match getItem pip "name" with
  | .error e => .error e
  | .ok (.str name) =>
    match getItem pip "devices" with
    | .error e => .error e
    | .ok ds => match iter ds with
      | .error e => .error e
      | .ok comps =>
        if endsWithStar name then
          match comps with
          | [comp] => wildEntry comp name df
          | _ => .error .assertionError
        else match refLoop comps df [] false with
          | .error e => .error e
          | .ok (df', cmps, bad) =>
            if bad then .error .validationError else .ok (addPip df' name cmps)
  | .ok _ => .error .attributeError

/-- The loop over the pipelines, models.py:180-229. -/
def readPipelines : List Val → DeviceFile → Except PyErr DeviceFile
  | [], df => .ok df
  | pip :: rest, df =>
    match readPipeline df pip with
    | .error e => .error e
    | .ok df' => readPipelines rest df'

/-- `jsdata.get(k, {})`, models.py:173-174. -/
def getOr (k : String) (es : List (Key × Val)) : Val := (lookup k es).getD (.map [])

/-- `populate_attrs`, models.py:168-235, on the document. -/
def readFile (strInt : String → Option Int) (doc : Val) : Except PyErr DeviceFile :=
  match doc with
  | .map es =>
    match iter (getOr "devices" es) with
    | .error e => .error e
    | .ok dvs => match readDevices strInt dvs with
      | .error e => .error e
      | .ok devs => match iter (getOr "pipelines" es) with
        | .error e => .error e
        | .ok pvs =>
          match readPipelines pvs { devices := Dict.ofList (devs.map (fun d => (d.name, d))) } with
          | .error e => .error e
          | .ok df =>
            .ok { df with drivers := Dict.ofList ((Dict.values df.components).map
                    (fun c => (c.driver, ({ name := c.driver } : Driver)))) }
  | _ => .error .attributeError

/-! ## Settings -/

/-- The elements of the argument of `dict.update` are pairs. -/
def pairsOk : List Val → Except PyErr Unit
  | [] => .ok ()
  | v :: rest =>
    match iter v with
    | .error e => .error e
    | .ok [k, _] => if hashable k then pairsOk rest else .error .typeError
    | .ok _ => .error .valueError

/-- `d.update(v)`, models.py:110: does it work? -/
def updateOk : Val → Except PyErr Unit
  | .map _ => .ok ()
  | v => match iter v with
    | .error e => .error e
    | .ok xs => pairsOk xs

/-- The loop of `device_settings`, models.py:108-110. -/
def mergeLoop (df : DeviceFile) : List (Key × Val) → Except PyErr Unit
  | [] => .ok ()
  | (.str drv, v) :: rest =>
    if (df.drivers.get? drv).isSome then
      match updateOk v with
      | .error e => .error e
      | .ok () => mergeLoop df rest
    else mergeLoop df rest
  | (.other, _) :: rest => mergeLoop df rest

/-- `device_settings`, models.py:106-111: only whether it raises (the values are in
`mergeDriverSettings` of `Verif/Cmd.lean`). -/
def merge (settings : Val) (df : DeviceFile) : Except PyErr Unit :=
  match getItem settings "drivers" with
  | .error e => .error e
  | .ok (.map es) => mergeLoop df es
  | .ok _ => .error .attributeError

/-- The files read by the daemon: `settings.toml` (`none`: it is not there or can not be read) and
the files it may name as device file (`some none`: such a file is there but can not be read). -/
structure Files where
  settings : Option Val
  devices : String → Option (Option Val)

/-- `Daemon(...)`, models.py:78-111: the settings and the device file. -/
def mkDaemon (strInt : String → Option Int) (f : Files) : Except PyErr (Val × DeviceFile) :=
  match f.settings with
  | none => .error .fileNotFoundError
  | some s =>
    match getItem s "devices" with
    | .error e => .error e
    | .ok d => match getItem d "config" with
      | .error e => .error e
      | .ok (.str path) => match f.devices path with
        | none => .error .assertionError
        | some none => .error .valueError
        | some (some doc) => match readFile strInt doc with
          | .error e => .error e
          | .ok df => match merge s df with
            | .error e => .error e
            | .ok () => .ok (s, df)
      | .ok _ => .error .validationError

/-! ## The daemon and its settings -/

/-- `Path(v)`, `sqlite3.connect(v)`, an element of the command of `Popen`: a string is needed. -/
def needStr : Val → Except PyErr String
  | .str p => .ok p
  | _ => .error .typeError

/-- `settings["jobs"][k]` (`k` is `dbpath` or `storage`). -/
def readJobs (k : String) (s : Val) : Except PyErr String :=
  match getItem s "jobs" with
  | .error e => .error e
  | .ok j => match getItem j k with
    | .error e => .error e
    | .ok v => needStr v

/-- `settings["logdir"]`, daemon/__init__.py:28, driver.py:408. -/
def readLogdir (s : Val) : Except PyErr String :=
  match getItem s "logdir" with
  | .error e => .error e
  | .ok v => needStr v

/-- `settings["repositories"].items()`, job.py:276. -/
def readRepos (s : Val) : Except PyErr Unit :=
  match getItem s "repositories" with
  | .error e => .error e
  | .ok (.map _) => .ok ()
  | .ok _ => .error .attributeError

/-- The main thread: serving requests, also while it waits for the managers after `stop`, or ended
by an exception. -/
inductive Main where
  | serving
  | stopping
  | died (e : PyErr)
  deriving DecidableEq, Repr

/-- The daemon: its configuration, its main thread and the exceptions that have ended the manager
threads for jobs, pipelines and drivers. -/
structure Srv where
  settings : Val
  df : DeviceFile
  main : Main := .serving
  jm : Option PyErr := none
  pm : Option PyErr := none
  dm : Option PyErr := none

/-- The start of the daemon, daemon/__init__.py:51-56, with cmd.py:56-77 (the database is there). -/
def start (strInt : String → Option Int) (f : Files) : Except PyErr Srv :=
  match mkDaemon strInt f with
  | .error e => .error e
  | .ok (s, df) => match readLogdir s with
    | .error e => .error e
    | .ok _ => match readJobs "dbpath" s with
      | .error e => .error e
      | .ok _ => .ok { settings := s, df := df }

/-- What may happen. -/
inductive Ev where
  /-- the message `reload`; `refuse`: a running job is concerned by the changes -/
  | reload (f : Files) (refuse : Bool)
  /-- the message `stop`; `busy`: jobs are running -/
  | stop (busy : Bool)
  /-- the message `status` -/
  | status
  /-- a pass of the job manager; `launch`: a job is launched -/
  | jobPass (launch : Bool)
  /-- a pass of the pipeline manager -/
  | pipPass
  /-- a pass of the driver manager; `spawn`: a driver is started -/
  | drvPass (spawn : Bool)

/-- The answer to a message: success, or none at all. -/
abbrev Answer := Option Bool

/-- `cmd.reload` of a running daemon, cmd.py:78-155.  The assignments at the end (152-153) validate
the model again: the new settings are first merged into the old device file. -/
def reload (strInt : String → Option Int) (f : Files) (refuse : Bool) (s : Srv) : Srv × Answer :=
  match mkDaemon strInt f with
  | .error _ => (s, some false)
  | .ok (ns, ndf) => match readJobs "dbpath" s.settings with
    | .error e => ({ s with main := .died e }, none)
    | .ok _ =>
      if refuse then (s, some false)
      else match merge ns s.df with
        | .error e => ({ s with main := .died e }, none)
        | .ok () => ({ s with settings := ns, df := ndf }, some true)

/-- `cmd.stop`, cmd.py:31-44. -/
def stop (busy : Bool) (s : Srv) : Srv × Answer :=
  match readJobs "dbpath" s.settings with
  | .error e => ({ s with main := .died e }, none)
  | .ok _ => if busy then (s, some false) else ({ s with main := .stopping }, some true)

/-- The entries read by a pass of the job manager, job.py:95-276. -/
def jobReads (launch : Bool) (s : Val) : Except PyErr Unit :=
  match readJobs "dbpath" s with
  | .error e => .error e
  | .ok _ =>
    if launch then
      match readJobs "storage" s with
      | .error e => .error e
      | .ok _ => readRepos s
    else .ok ()

/-- The entries read by a pass of the driver manager, driver.py:352 and 408. -/
def drvReads (spawn : Bool) (s : Val) : Except PyErr Unit :=
  match readJobs "dbpath" s with
  | .error e => .error e
  | .ok _ =>
    if spawn then
      match readLogdir s with
      | .error e => .error e
      | .ok _ => .ok ()
    else .ok ()

/-- The exception, if any. -/
def exc {α : Type} : Except PyErr α → Option PyErr
  | .ok _ => none
  | .error e => some e

/-- One event; `none`: it can not happen (the main thread has ended, or the manager). -/
def step (strInt : String → Option Int) (ev : Ev) (s : Srv) : Option (Srv × Answer) :=
  match s.main with
  | .died _ => none
  | _ => match ev with
    | .reload f refuse => some (reload strInt f refuse s)
    | .stop busy => some (stop busy s)
    | .status => some (s, some true)
    | .jobPass launch =>
      if s.jm.isSome then none
      else some ({ s with jm := exc (jobReads launch s.settings) }, none)
    | .pipPass =>
      if s.pm.isSome then none
      else some ({ s with pm := exc (readJobs "dbpath" s.settings) }, none)
    | .drvPass spawn =>
      if s.dm.isSome then none
      else some ({ s with dm := exc (drvReads spawn s.settings) }, none)

end Tomato.Docs
