import Verif.CmdLine
import Verif.Prog

/-!
# What `tomato`, `ketchup` and `passata` print and return

The second half of `parse_args`, `/repo/src/tomato/__init__.py:31-50`, and the console scripts of
`/repo/pyproject.toml:62-65`, which end with status 0 when the function returns (it returns `None`), with 1 after an
exception; `argparse` ends the process with 2 after an error of usage and with 0 after `--help` or `--version`.

Parameters: `status` is `tomato.status` (`tomato/__init__.py:106-249`) for a port and a timeout, which is what it
reads of the arguments for the group `tomato`, `call` the functions of the subcommands, `dump` is
`yaml.dump(reply.model_dump())`.  Each may raise.  The texts printed by `argparse` and tracebacks are left out.
-/

namespace Tomato.Report
open Tomato.Args Tomato.CmdLine

/-- `Reply`, `models.py:114-117`. -/
structure Reply (D : Type) where
  success : Bool
  msg : String
  data : Option D := none
  deriving DecidableEq

/-- What can be seen of a program. -/
inductive Event (D : Type) where
  /-- `tomato.status` for this port and timeout -/
  | asked (port timeout : Option Val)
  /-- this function is called, with these arguments and the daemon as it described itself -/
  | called (func : Val) (args : Ns) (verbosity : Int) (daemon : Option D)
  | printed (text : String)

/-- The end of a program. -/
structure Ended (D : Type) where
  events : List (Event D)
  status : Nat

/-- `__init__.py:25-29`: the arguments and the level of logging. -/
def parsed (int : Arg → Option Int) (p : Program) (args : List Arg) : Except Stop (Ns × Int) :=
  match parseKnown int (subsOf int p) top Ns.empty args with
  | .error e => .error e
  | .ok (ns, extras) =>
    match parseKnown int noSub verbose ns extras with
    | .error e => .error e
    | .ok (ns, _) => .ok (ns, min (max ((2 + countOf ns "quiet" - countOf ns "verbose") * 10) 10) 50)

/-- The status of a process which `argparse` ends. -/
def Stop.status : Stop → Nat
  | .shown => 0
  | _ => 2

/-- `args.yaml`, `__init__.py:35`, 44. -/
def wantsYaml (ns : Ns) : Except PyErr Bool :=
  match ns "yaml" with
  | some (.bool b) => .ok b
  | some _ => .ok true
  | none => .error .attributeError

/-- `__init__.py:35-38` and 44-49. -/
def show' {D : Type} (dump : Reply D → Except PyErr String) (ns : Ns) (r : Reply D) : Except PyErr String :=
  match wantsYaml ns with
  | .error e => .error e
  | .ok true => dump r
  | .ok false => .ok ((if r.success then "Success" else "Failure") ++ ": " ++ r.msg)

/-- The report ends the program. -/
def finish {D : Type} (before : List (Event D)) : Except PyErr String → Ended D
  | .ok t => { events := before ++ [.printed t], status := 0 }
  | .error _ => { events := before, status := 1 }

/-- `__init__.py:42-49`. -/
def callFunc {D : Type} (call : Val → Ns → Int → Option D → Except PyErr (Reply D))
    (dump : Reply D → Except PyErr String) (before : List (Event D)) (ns : Ns) (level : Int) (daemon : Option D) :
    Ended D :=
  match ns "func" with
  | none => { events := before, status := 0 }
  | some f =>
    let before := before ++ [.called f ns level daemon]
    match call f ns level daemon with
    | .error _ => { events := before, status := 1 }
    | .ok r => finish before (show' dump ns r)

/-- `parse_args`, `__init__.py:24-49`. -/
def report {D : Type} (int : Arg → Option Int) (status : Option Val → Option Val → Except PyErr (Reply D))
    (call : Val → Ns → Int → Option D → Except PyErr (Reply D)) (dump : Reply D → Except PyErr String)
    (p : Program) (args : List Arg) : Ended D :=
  match parsed int p args with
  | .error e => { events := [], status := Stop.status e }
  | .ok (ns, level) =>
    if p = .tomato then callFunc call dump [] ns level none
    else
      let before := [.asked (ns "port") (ns "timeout")]
      match status (ns "port") (ns "timeout") with
      | .error _ => { events := before, status := 1 }
      | .ok r =>
        if r.success = false then finish before (show' dump ns r)
        else callFunc call dump before ns level r.data

end Tomato.Report
