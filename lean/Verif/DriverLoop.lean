import Verif.DriverProc
import Verif.Docs
import Mathlib.Data.List.Infix

/-!
# The main loop of a driver process, with settings of any form

`/repo/src/tomato/daemon/driver.py:247-319`: in each turn a message is handled if there is one, and then
`perform_idle_measurements` (84-114) looks for the interval in `interface.settings`.  The settings are those of
the driver in the configuration (199-225), a dictionary with values of any form, until a message `settings` (277-283)
puts something else in their place, of any form.  All other messages are those of `Verif/DriverProc.lean`.

Simplifications: `raises` is as in `Verif/DriverProc.lean`.  Time is counted in units of the interval's resolution.  The
value of a `float` that is not a whole number is not part of `Docs.Val`: `fl` tells whether a time is shorter.
-/

namespace Tomato.Loop
open Tomato.Docs (Val lookup)
open Tomato.Drv (Iface Msg handle)

/-- State of the main thread. -/
inductive Main where
  | serving
  /-- `stop` was answered, driver.py:309-310 -/
  | stopping
  /-- an exception has ended the loop, 317-319 -/
  | died (e : PyErr)
  deriving DecidableEq, Repr

/-- The process. -/
structure LSt where
  iface : Iface
  /-- `interface.settings` -/
  settings : Val
  /-- `t_last` -/
  tLast : Option Nat := none
  main : Main := .serving

/-- What is received in a turn. -/
inductive Inp where
  /-- nothing within 100 ms, 249-250 -/
  | quiet
  /-- the message `settings`, with or without `params` -/
  | settings (params : Option Val)
  /-- any other message -/
  | msg (m : Msg)

/-- One turn. -/
structure Tn where
  inp : Inp := .quiet
  now : Nat
  raises : Bool := false

/-- The name of the entry. -/
def imiKey : String := "idle_measurement_interval"

/-- `imiKey in settings` and `settings[imiKey]`, driver.py:100-105; `dflt` is the attribute of the interface (2_1:73),
which always exists. -/
def interval (dflt : Option Nat) : Val → Except PyErr Val
  | .map es =>
    match lookup imiKey es with
    | some v => .ok v
    | none => .ok (dflt.elim .null (fun n => .int n))
  -- `in` works for lists and strings, but they have no such entry
  | .list xs =>
    if xs.any (fun x => match x with | .str s => s == imiKey | _ => false) then .error .typeError
    else .ok (dflt.elim .null (fun n => .int n))
  | .str s =>
    if imiKey.toList <:+: s.toList then .error .typeError
    else .ok (dflt.elim .null (fun n => .int n))
  | _ => .error .typeError

/-- `t < imi`, driver.py:110. -/
def less (fl : Nat → Bool) (t : Nat) : Val → Except PyErr Bool
  | .bool b => .ok (decide ((t : Int) < if b then 1 else 0))
  | .int i => .ok (decide ((t : Int) < i))
  | .float (some w) => .ok (decide ((t : Int) < w))
  | .float none => .ok (fl t)
  | _ => .error .typeError

/-- `cmp_measure` of all components, driver.py:112-114; exceptions are caught at 315. -/
def measureAll (s : LSt) (now : Nat) (raises : Bool) : LSt × Option Nat :=
  (if raises then s else { s with tLast := some now }, some now)

/-- `perform_idle_measurements`, driver.py:84-114, with the exceptions caught at 315 and those which are not.
Returns the time of the measurements, if there are any. -/
def idleV (dflt : Option Nat) (fl : Nat → Bool) (s : LSt) (now : Nat) (raises : Bool) : LSt × Option Nat :=
  match interval dflt s.settings with
  | .error e => ({ s with main := .died e }, none)
  | .ok .null => ({ s with tLast := none }, none)
  | .ok v =>
    match s.tLast with
    | none => measureAll s now raises
    | some tl =>
      match less fl (now - tl) v with
      | .error e => ({ s with main := .died e }, none)
      | .ok true => (s, none)
      | .ok false => measureAll s now raises

/-- The message of a turn, driver.py:250-309. -/
def receive (s : LSt) : Inp → LSt
  | .quiet => s
  | .settings none => { s with main := .died .keyError }
  | .settings (some v) => { s with settings := v }
  | .msg m =>
    match handle s.iface m with
    | (f, .answered _, _) => { s with iface := f }
    | (f, .stopping, _) => { s with iface := f, main := .stopping }
    | (f, .died e, _) => { s with iface := f, main := .died e }

/-- One turn, driver.py:248-316. -/
def turn (dflt : Option Nat) (fl : Nat → Bool) (s : LSt) (t : Tn) : LSt × Option Nat :=
  match s.main with
  | .serving =>
    let s' := receive s t.inp
    match s'.main with
    | .serving => idleV dflt fl s' t.now t.raises
    | _ => (s', none)
  | _ => (s, none)

/-- A sequence of turns, with the times of all idle measurements. -/
def turns (dflt : Option Nat) (fl : Nat → Bool) (s : LSt) : List Tn → LSt × List Nat
  | [] => (s, [])
  | t :: ts =>
    let r := turn dflt fl s t
    let q := turns dflt fl r.1 ts
    (q.1, r.2.toList ++ q.2)

end Tomato.Loop
