import Verif.JobThread
import Verif.Lpp

/-!
# How long the threads of a job wait for answers

`/repo/src/tomato/daemon/job.py:500-533` and `comm`, `/repo/src/tomato/daemon/lpp.py:20-60`: the driver's settings may
have an entry `lpp_timeout`, of any form; it is multiplied by 1000 and handed to `Socket.poll` of `pyzmq`.  The threads
are those of `Verif/JobThread.lean`; there the environment says what `comm` returns, here it says when each attempt is
answered.

`Socket.poll` (`pyzmq`, `zmq/sugar/poll.py`): negative numbers and `None` mean to wait without limit, other numbers with
a decimal point are truncated with `int`, and the result must fit into a C `long`.

Simplifications: the arithmetic on numbers with a decimal point is exact.  Only the waiting in `poll` takes time.  The
answer to an attempt does not depend on the attempts before it.
-/

namespace Tomato.Wait
open Tomato.JobT

/-- A value of a settings file. -/
inductive Val where
  | null
  | bool (b : Bool)
  | int (i : Int)
  | float (q : Rat)
  | nan
  | inf (negative : Bool)
  | str (s : String)
  | list
  /-- a table, a date, a time -/
  | other
  deriving DecidableEq

/-- `v * 1000`; `none`: an exception. -/
def times1000 : Val → Option Val
  | .null => none
  | .bool b => some (.int (if b then 1000 else 0))
  | .int i => some (.int (i * 1000))
  | .float q => some (.float (q * 1000))
  | .nan => some .nan
  | .inf b => some (.inf b)
  -- texts and lists are repeated; what is in them does not matter
  | .str s => some (.str s)
  | .list => some .list
  | .other => none

/-- The timeout of all requests of a thread, job.py:523-527: `REQ_TIMEOUT` (lpp.py:15) without the entry. -/
def timeout (setting : Option Val) : Option Val :=
  match setting with
  | none => some (.int 1000)
  | some v => times1000 v

/-- The time limit of one attempt. -/
inductive Lim where
  | ms (t : Nat)
  | forever
  deriving DecidableEq, Repr

/-- The largest C `long`. -/
def maxLong : Int := 9223372036854775807

/-- The limit meant by a number. -/
def ofInt (i : Int) : Option Lim :=
  if i < 0 then some .forever
  else if i > maxLong then none
  else some (.ms i.toNat)

/-- The argument of `Socket.poll`, lpp.py:41; `none`: an exception. -/
def pollArg : Val → Option Lim
  | .null => some .forever
  | .bool b => some (.ms (if b then 1 else 0))
  | .int i => ofInt i
  | .float q => if q < 0 then some .forever else ofInt q.floor
  | .nan => none
  | .inf b => if b then some .forever else none
  | .str _ => none
  | .list => none
  | .other => none

/-- An answer of the driver. -/
structure Rep where
  ok : Bool
  st : Option SD
  ps : Option (List Nat)
  deriving DecidableEq, Repr

/-- How `comm` ends: with an answer, after so many milliseconds; by giving up, after so many milliseconds; not at
all. -/
inductive Out where
  | answer (r : Rep) (after : Nat)
  | abandoned (after : Nat)
  | forever
  deriving DecidableEq, Repr

/-- The loop of `comm`, lpp.py:40-60.  `net n`: after how many milliseconds attempt `n` is answered, and how.  The first
number counts the attempts which are left, the second the ones made. -/
def commLoop (lim : Lim) (net : Nat → Option (Nat × Rep)) : Nat → Nat → Nat → Out
  | 0, _, e => .abandoned e
  | r + 1, n, e =>
    match lim with
    | .forever =>
      match net n with
      | none => .forever
      | some (d, a) => .answer a (e + d)
    | .ms t =>
      match net n with
      | none => commLoop lim net r (n + 1) (e + t)
      | some (d, a) => if d ≤ t then .answer a (e + d) else commLoop lim net r (n + 1) (e + t)

/-- `comm` with `REQ_RETRIES` (lpp.py:16) attempts. -/
def comm (lim : Lim) (net : Nat → Option (Nat × Rep)) : Out := commLoop lim net 3 0 0

/-- What the environment decides at a step of a thread. -/
structure Env where
  net : Nat → Option (Nat × Rep) := fun _ => none
  late : Bool := false
  due : Bool := false

/-- The thread waits for an answer. -/
def answerStep (lim : Lim) (t : Thr) (c : Env) : Option (Thr × Ev) :=
  match comm lim c.net with
  | .answer r _ => tstep t { ans := .reply r.ok r.st r.ps, late := c.late, due := c.due }
  | .abandoned _ => tstep t { ans := .closed, late := c.late, due := c.due }
  | .forever => none

/-- A step of a thread whose timeout is `x`. -/
def waitStep (x : Val) (t : Thr) (c : Env) : Option (Thr × Ev) :=
  match t.pc with
  | .wait _ =>
    match pollArg x with
    | none => some ({ t with pc := .dead }, .died)
    | some lim => answerStep lim t c
  | _ => tstep t { late := c.late, due := c.due }

/-- A step of a thread, job.py:519-720: an exception at 526 comes before everything else. -/
def wstep (setting : Option Val) (t : Thr) (c : Env) : Option (Thr × Ev) :=
  match timeout setting with
  | none => if t.alive then some ({ t with pc := .dead }, .died) else none
  | some x => waitStep x t c

inductive Act where
  | thr (k : Nat) (c : Env)
  | main

/-- One step of the job; `sets` has the setting for each thread. -/
def act (sets : List (Option Val)) (s : Jb) : Act → Option (Jb × JEv)
  | .main => mstep s
  | .thr k c =>
    match s.thrs[k]? with
    | none => none
    | some t =>
      match wstep (sets.getD k none) t c with
      | none => none
      | some (t', e) => some ({ s with thrs := s.thrs.set k t' }, .thr k e)

/-- The history `h` leads from `s₀` to `s`, by actions with the property `P`. -/
inductive Hist (P : Act → Prop) (sets : List (Option Val)) (s₀ : Jb) : List JEv → Jb → Prop where
  | init : Hist P sets s₀ [] s₀
  | step {h : List JEv} {s s' : Jb} {e : JEv} (a : Act) :
      Hist P sets s₀ h s → P a → act sets s a = some (s', e) → Hist P sets s₀ (h ++ [e]) s'

/-- A run. -/
def run (sets : List (Option Val)) (s : Jb) : List Act → Option (Jb × List JEv)
  | [] => some (s, [])
  | a :: as =>
    match act sets s a with
    | none => none
    | some (s', e) =>
      match run sets s' as with
      | none => none
      | some (s'', es) => some (s'', e :: es)

end Tomato.Wait
