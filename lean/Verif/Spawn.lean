import Verif.CmdLine

/-!
# The command lines with which tomato starts its own processes

`tomato-daemon` is started by `tomato start`, `/repo/src/tomato/tomato/__init__.py:316-327`, `tomato-driver` by the
driver manager, `/repo/src/tomato/daemon/driver.py:401-416`, and `tomato-job` by the job manager,
`/repo/src/tomato/daemon/job.py:295-310`; each of them reads its command line with argparse.

Simplifications: `str` of an integer and `int` of a text are parameters; `type=Path` is the text.
-/

namespace Tomato.Spawn
open Tomato.Args Tomato.CmdLine

/-- `parse_args`: `parse_known_args`, and what is left over is an error (argparse.py:1864-1869). -/
def parseArgs (int : Arg → Option Int) (p : Parser) (args : List Arg) : Except Stop Ns :=
  match parseKnown int noSub p Ns.empty args with
  | .error e => .error e
  | .ok (ns, []) => .ok ns
  | .ok (_, _ :: _) => .error .usage

/-- `tomato-daemon`, `daemon/__init__.py:44-49`; there is no `--help`. -/
def daemonP : Parser where
  opts := [{ names := [w "--port", w "-p"], dest := "port", kind := .store .int, default := .int 1234 },
    { names := [w "--verbosity", w "-V"], dest := "verbosity", kind := .store .int, default := .int 20 },
    { names := [w "--appdir", w "-A"], dest := "appdir", kind := .store .str, default := .str (w "cwd") }]
  poss := []

/-- `--version`. -/
def version : Opt := { names := [w "--version"], dest := "version", kind := .exit }

/-- `tomato-driver`, `daemon/driver.py:164-193`. -/
def driverP : Parser where
  opts := [help, version,
    { names := [w "--port"], dest := "port", kind := .store .int, default := .int 1234 },
    { names := [w "--verbosity"], dest := "verbosity", kind := .store .int, default := .int 10 },
    { names := [w "--logdir"], dest := "logdir", kind := .store .str, default := .str (w ".") }]
  poss := [{ dest := "driver" }]

/-- `tomato-job`, `daemon/job.py:362-402`. -/
def jobP : Parser where
  opts := [help, version,
    { names := [w "--port"], dest := "port", kind := .store .int, default := .int 1234 },
    { names := [w "--timeout"], dest := "timeout", kind := .store .int, default := .int 1000 },
    { names := [w "--retries"], dest := "retries", kind := .store .int, default := .int 10 },
    { names := [w "--verbosity"], dest := "verbosity", kind := .store .int, default := .int 20 },
    { names := [w "--dbpath"], dest := "dbpath", kind := .store .str }]
  poss := [{ dest := "jobfile" }]

/-- `tomato start`, `tomato/__init__.py:316-327`. -/
def daemonCmd (str : Int → Arg) (port : Int) (appdir : Arg) (verbosity : Int) : List Arg :=
  [w "-p", str port, w "-A", appdir, w "-V", str verbosity]

/-- The driver manager, `daemon/driver.py:401-411`. -/
def driverCmd (str : Int → Arg) (port verbosity : Int) (logdir name : Arg) : List Arg :=
  [w "--port", str port, w "--verbosity", str verbosity, w "--logdir", logdir, name]

/-- The job manager, `daemon/job.py:295-304`. -/
def jobCmd (str : Int → Arg) (port verbosity : Int) (dbpath jpath : Arg) : List Arg :=
  [w "--port", str port, w "--verbosity", str verbosity, w "--dbpath", dbpath, jpath]

end Tomato.Spawn
