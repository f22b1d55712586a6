import Verif.JobThread

/-!
# Periodic snapshots of a running job

The part of `job_main_loop` that is left out in `Verif/JobThread.lean`:
`/repo/src/tomato/daemon/job.py:788-799`, with `merge_netcdfs`, `/repo/src/tomato/daemon/io.py:21-48`.

At the top of every pass of its loop, the main thread looks at the clock, and possibly writes a
snapshot: it lists the files of the job folder and loads them one after the other, while the other
threads continue.

Simplifications: loading one file is one step; the snapshot file is written without failure; the files
of the job folder are those of the threads (and are numbered like the threads; see `Verif/Io.lean` for
names and roles).
-/

namespace Tomato.Snap

open Tomato.JobT

/-- Where the main thread is. -/
inductive SPc where
  /-- before job.py:795 -/
  | top
  /-- in `merge_netcdfs`, io.py:29-33; begun at `t`; the files `todo` are still to be loaded -/
  | read (t : Nat) (todo : List Nat) (acc : List (Nat × List Nat))
  /-- in the rest of the body of the loop, job.py:801-829, or after the loop -/
  | loop
  /-- an exception has ended the main loop -/
  | dead
  deriving DecidableEq, Repr

/-- A snapshot: when it was begun, and the data of each file. -/
structure Shot where
  time : Nat
  parts : List (Nat × List Nat)
  deriving DecidableEq, Repr

/-- The job process. -/
structure SJb where
  jb : Jb
  pc : SPc := .top
  /-- `tS`, job.py:790 -/
  tS : Nat
  /-- the snapshots written so far -/
  snaps : List Shot := []
  deriving DecidableEq, Repr

/-- Events. -/
inductive SEv where
  | jb (e : JEv)
  /-- the main thread has looked at the clock, job.py:795 -/
  | top (now : Nat)
  /-- a file was loaded -/
  | loaded (k : Nat) (ps : List Nat)
  /-- the snapshot was written -/
  | shot (s : Shot)
  /-- an exception in the main thread -/
  | died
  deriving DecidableEq, Repr

/-- The files that exist. -/
def existing (s : Jb) : List Nat :=
  (List.range s.thrs.length).filter (fun k => match s.thrs[k]? with
    | some t => t.file != .absent
    | none => false)

/-- One step of the main thread.  `now`: the clock; `order`: the order in which `glob` lists the files. -/
def smain (interval : Option Nat) (s : SJb) (now : Nat) (order : List Nat) : Option (SJb × SEv) :=
  match s.pc with
  | .top =>
    match interval with
    | none => some ({ s with pc := .loop }, .top now)
    | some i =>
      if now > s.tS + i then
        if order.isPerm (existing s.jb) then some ({ s with pc := .read now order [] }, .top now) else none
      else some ({ s with pc := .loop }, .top now)
  | .read t [] acc =>
    some ({ s with pc := .loop, tS := s.tS + interval.getD 0, snaps := s.snaps ++ [⟨t, acc⟩] }, .shot ⟨t, acc⟩)
  | .read t (k :: todo) acc =>
    match s.jb.thrs[k]?.map Thr.file with
    | some (File.data ps) => some ({ s with pc := .read t todo (acc ++ [(k, ps)]) }, .loaded k ps)
    | _ => some ({ s with pc := .dead }, .died)
  | .loop =>
    match mstep s.jb with
    | none => none
    | some (jb', e) =>
      -- back to the top after the last thread was looked at
      some ({ s with jb := jb', pc := match jb'.main with | .collect 0 => .top | _ => .loop }, .jb e)
  | .dead => none

/-- Steps of the job process. -/
inductive SAct where
  | thr (k : Nat) (c : Choice)
  | main (now : Nat) (order : List Nat)
  deriving DecidableEq, Repr

/-- One step. -/
def sact (interval : Option Nat) (s : SJb) : SAct → Option (SJb × SEv)
  | .thr k c =>
    match act s.jb (.thr k c) with
    | none => none
    | some (jb', e) => some ({ s with jb := jb' }, .jb e)
  | .main now order => smain interval s now order

/-- The history `h` leads from `s₀` to `s`. -/
inductive SHist (interval : Option Nat) (s₀ : SJb) : List SEv → SJb → Prop where
  | init : SHist interval s₀ [] s₀
  | step {h : List SEv} {s s' : SJb} {e : SEv} (a : SAct) :
      SHist interval s₀ h s → sact interval s a = some (s', e) → SHist interval s₀ (h ++ [e]) s'

/-- A run, with its history. -/
def srun (interval : Option Nat) (s : SJb) : List SAct → Option (SJb × List SEv)
  | [] => some (s, [])
  | a :: as =>
    match sact interval s a with
    | none => none
    | some (s', e) =>
      match srun interval s' as with
      | none => none
      | some (s'', es) => some (s'', e :: es)

/-- The job when its main loop begins, at time `t₀`. -/
def SJb.init (tss : List (List Task)) (t₀ : Nat) : SJb := { jb := Jb.init tss, tS := t₀ }

end Tomato.Snap
