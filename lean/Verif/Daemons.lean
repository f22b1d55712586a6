import Verif.System

/-!
# Several daemons on one database

`/repo/docs/source/usage.rst` 26: "Multiple instances of the tomato.daemon can be running at a
single PC, provided a different port is specified".  The port is the only thing that differs
between two daemons started with the same `--appdir`: they read the same `settings.toml`
(daemon/__init__.py:53-64), hence the same database (`settings["jobs"]["dbpath"]`) and the same
storage folder (`settings["jobs"]["storage"]`).  In this system, unlike that of
`Verif/System.lean`, any number of job managers act on the shared world.
-/

namespace Tomato

/-- State of a system with any number of daemons. -/
structure MSys where
  w : World
  /-- the rests of all programs, those of the job managers included -/
  progs : List (P Unit) := []
  /-- the launches whose process has started executing -/
  started : List Launch := []

/-- What can happen next. -/
inductive MAct where
  /-- the job manager of some daemon starts a pass (job.py:347-349) -/
  | pass (d : Daemon)
  /-- a command or one of the other managers is started -/
  | spawn (c : Cmd)
  /-- a program performs its next operation -/
  | step (i : Nat)
  /-- a program is killed -/
  | kill (i : Nat)
  /-- the environment changes -/
  | env (e : EnvAct)

/-- Execute an action; `none` if it is not possible.  As in `act` (`Verif/System.lean`), except
that a pass of a job manager may start at any time, however many others are under way. -/
def mact (storage : String) (s : MSys) : MAct → Option MSys
  | .pass d =>
      if d.settings.storage = storage then
        some { s with progs := s.progs ++ [jobManagerPass d] }
      else none
  | .spawn c =>
      match c.launch with
      | none => some { s with progs := s.progs ++ [c.prog] }
      | some l =>
          if s.started.count l < s.w.launches.count l then
            some { s with progs := s.progs ++ [c.prog], started := s.started ++ [l] }
          else none
  | .step i =>
      match s.progs[i]? with
      | none => none
      | some p =>
          match stepProg p s.w with
          | some (p', w) => some { s with progs := s.progs.set i p', w := w }
          | none => none
  | .kill i => some { s with progs := s.progs.set i (.pure ()) }
  | .env e => some { s with w := e.apply s.w }

/-- Execute a list of actions. -/
def macts (storage : String) : MSys → List MAct → Option MSys
  | s, [] => some s
  | s, a :: as =>
      match mact storage s a with
      | some s' => macts storage s' as
      | none => none

/-- Reachable from a fresh installation. -/
def MReachable (storage : String) (s : MSys) : Prop := ∃ as, macts storage { w := {} } as = some s

theorem macts_append {st : String} {as bs : List MAct} {s s' : MSys}
    (h : macts st s as = some s') : macts st s (as ++ bs) = macts st s' bs := by
  induction as generalizing s with
  | nil => cases h; rfl
  | cons a as ih =>
    simp only [macts, List.cons_append] at h ⊢
    cases ha : mact st s a with
    | none => rw [ha] at h; cases h
    | some s1 => rw [ha] at h; exact ih h

theorem macts_inv {st : String} {I : MSys → Prop} (hs : ∀ s a s', I s → mact st s a = some s' → I s')
    {as : List MAct} {s s' : MSys} (h0 : I s) (h : macts st s as = some s') : I s' := by
  induction as generalizing s with
  | nil => cases h; exact h0
  | cons a as ih =>
    simp only [macts] at h
    cases ha : mact st s a with
    | none => rw [ha] at h; cases h
    | some s1 => rw [ha] at h; exact ih (hs _ _ _ h0 ha) h

end Tomato
