import Verif.Argparse
import Verif.Cli

/-!
# The command lines of `tomato`, `ketchup` and `passata`

`run_tomato`, `run_ketchup`, `run_passata` and `parse_args`, `/repo/src/tomato/__init__.py:24-375`.

Simplifications: the default directories are names; the functions which are called are named by strings; what is
printed is left out.  `tomato.status`, which `ketchup` and `passata` call first, is a parameter of port and
timeout.
-/

namespace Tomato.CmdLine
open Tomato.Args

/-- An argument. -/
def w (s : String) : Arg := s.toList

/-- `--verbose`, `-v`, `--quiet`, `-q`, `__init__.py:104-119`. -/
def loudness : List Opt :=
  [{ names := [w "--verbose", w "-v"], dest := "verbose", kind := .count, default := .int 0 },
   { names := [w "--quiet", w "-q"], dest := "quiet", kind := .count, default := .int 0 }]

/-- The parser of the program itself, `__init__.py:54-62`, 167-190, 293-316. -/
def top : Parser where
  opts := { names := [w "--version"], dest := "version", kind := .exit } :: loudness
  poss := [{ dest := "subcommand", nargs := .parser }]

/-- `verbose`, `__init__.py:61`, 104-119. -/
def verbose : Parser where
  opts := loudness
  poss := []

/-- `-h`, `--help` of each subcommand (`add_parser` of argparse). -/
def help : Opt := { names := [w "-h", w "--help"], dest := "help", kind := .exit }

/-- `--port`, `--timeout`, `--yaml`, `__init__.py:121-140`, 264-284, 323-341. -/
def common : List Opt :=
  [{ names := [w "--port", w "-p"], dest := "port", kind := .store .int, default := .int 1234 },
   { names := [w "--timeout"], dest := "timeout", kind := .store .int, default := .int 3000 },
   { names := [w "--yaml", w "-y"], dest := "yaml", kind := .setTrue, default := .bool false }]

/-- `--appdir`, `__init__.py:142-149`. -/
def appdir : Opt :=
  { names := [w "--appdir", w "-A"], dest := "appdir", kind := .store .str, default := .str (w "user_config_dir") }

/-- `func=`. -/
def func (name : String) : List (String × Val) := [("func", .str (w name))]

/-- `choices` of `tomato status`, `__init__.py:68`. -/
def groups : List Arg := [w "tomato", w "pipelines", w "drivers", w "devices", w "components"]

/-- The subcommands of `tomato`, `__init__.py:64-161`, without `pipeline`. -/
def tomatoSubs : List (Arg × Parser) :=
  [(w "status", { opts := help :: common,
                  poss := [{ dest := "stgrp", nargs := .opt, default := .str (w "tomato"), choices := some groups }],
                  defaults := func "tomato.status" }),
   (w "start", { opts := help :: common ++ [appdir], poss := [], defaults := func "tomato.start" }),
   (w "stop", { opts := help :: common, poss := [], defaults := func "tomato.stop" }),
   (w "init", { opts := help :: common ++ [appdir,
                  { names := [w "--datadir", w "-D"], dest := "datadir", kind := .store .str,
                    default := .str (w "user_data_dir") },
                  { names := [w "--logdir", w "-L"], dest := "logdir", kind := .store .str,
                    default := .str (w "user_log_dir") }], poss := [], defaults := func "tomato.init" }),
   (w "reload", { opts := help :: common ++ [appdir], poss := [], defaults := func "tomato.reload" })]

/-- `tomato pipeline`, `__init__.py:84-102`. -/
def pipelineSubs : List (Arg × Parser) :=
  [(w "load", { opts := help :: common, poss := [{ dest := "pipeline" }, { dest := "sampleid" }],
                defaults := func "tomato.pipeline_load" }),
   (w "eject", { opts := help :: common, poss := [{ dest := "pipeline" }],
                 defaults := func "tomato.pipeline_eject" }),
   (w "ready", { opts := help :: common, poss := [{ dest := "pipeline" }],
                 defaults := func "tomato.pipeline_ready" })]

def pipeline : Parser where
  opts := [help]
  poss := [{ dest := "subsubcommand", nargs := .parser }]

/-- The subcommands of `ketchup`, `__init__.py:193-284`. -/
def ketchupSubs : List (Arg × Parser) :=
  [(w "submit", { opts := help :: { names := [w "-j", w "--jobname"], dest := "jobname", kind := .store .str } :: common,
                  poss := [{ dest := "payload" }], defaults := func "ketchup.submit" }),
   (w "status", { opts := help :: common, poss := [{ dest := "jobids", nargs := .star, ty := .int }],
                  defaults := func "ketchup.status" }),
   (w "cancel", { opts := help :: common, poss := [{ dest := "jobids", nargs := .plus, ty := .int }],
                  defaults := func "ketchup.cancel" }),
   (w "snapshot", { opts := help :: common, poss := [{ dest := "jobids", nargs := .plus, ty := .int }],
                    defaults := func "ketchup.snapshot" }),
   (w "search", { opts := help :: { names := [w "-c", w "--complete"], dest := "complete", kind := .setTrue,
                                    default := .bool false } :: common,
                  poss := [{ dest := "jobname" }], defaults := func "ketchup.search" })]

/-- The subcommands of `passata`, `__init__.py:318-373`. -/
def passataSubs : List (Arg × Parser) :=
  let one (f : String) : Parser := { opts := help :: common, poss := [{ dest := "name" }], defaults := func f }
  [(w "status", one "passata.status"), (w "attrs", one "passata.attrs"), (w "register", one "passata.register"),
   (w "reset", { opts := help :: common ++ [{ names := [w "--force", w "-f"], dest := "force", kind := .setTrue,
                                              default := .bool false }],
                 poss := [{ dest := "name" }], defaults := func "passata.reset" }),
   (w "capabilities", one "passata.capabilities"), (w "constants", one "passata.constants"),
   (w "get", { opts := help :: common, poss := [{ dest := "name" }, { dest := "attrs", nargs := .plus }],
               defaults := func "passata.get_attrs" })]

/-- `add_subparsers`, for subcommands without further ones. -/
def subs (int : Arg → Option Int) (l : List (Arg × Parser)) : Sub := fun a =>
  (l.find? (fun p => p.1 = a)).map (fun p => parseKnown int noSub p.2 Ns.empty)

/-- The three programs. -/
inductive Program where
  | tomato
  | ketchup
  | passata
  deriving DecidableEq, Repr

/-- The subcommands of a program. -/
def subsOf (int : Arg → Option Int) : Program → Sub
  | .tomato => fun a =>
    if a = w "pipeline" then some (parseKnown int (subs int pipelineSubs) pipeline Ns.empty)
    else subs int tomatoSubs a
  | .ketchup => subs int ketchupSubs
  | .passata => subs int passataSubs

/-- What a program does. -/
inductive Outcome where
  /-- it ends before -/
  | stopped (s : Stop)
  /-- it asked for the status of this daemon, and reports that there is none -/
  | notRunning (port timeout : Option Val)
  /-- this function is called with these arguments -/
  | called (func : Option Val) (args : Ns) (verbosity : Int)

/-- A counter. -/
def countOf (ns : Ns) (k : String) : Int := match ns k with | some (.int n) => n | _ => 0

/-- `parse_args`, `__init__.py:25-49`.  `up port timeout`: `tomato.status` is a success.  `log level` 29 as in C66. -/
def run (int : Arg → Option Int) (up : Option Val → Option Val → Bool) (p : Program) (args : List Arg) : Outcome :=
  match parseKnown int (subsOf int p) top Ns.empty args with
  | .error e => .stopped e
  | .ok (ns, extras) =>
    match parseKnown int noSub verbose ns extras with
    | .error e => .stopped e
    -- the arguments which are still unknown are not looked at
    | .ok (ns, _) =>
      let verbosity := min (max ((2 + countOf ns "quiet" - countOf ns "verbose") * 10) 10) 50
      if p ≠ .tomato ∧ up (ns "port") (ns "timeout") = false then
        .notRunning (ns "port") (ns "timeout")
      else .called (ns "func") ns verbosity

end Tomato.CmdLine
